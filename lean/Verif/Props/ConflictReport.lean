import Verif.Lemmas.ConflictReport
import Verif.Model.Literal

/-! # C132: the conflict report

Histories are lists of steps, oldest first; the functions of `Spec` read them newest first. -/

namespace Bedrock.Report.Props
open Bedrock Text Http Report Spec

/-- **C132** After any interleaving of threads a method line is in the report exactly if a worker committed for it, and its
total is the number of those commits. -/
theorem c132_total (ops : List Op) (name : Bytes) :
    (entry name (run ops).mgr).map Info.count =
      if total name ops.reverse = 0 then none else some (total name ops.reverse) :=
  (reach ops).counts name

/-- **C132** Beside a table, unless it is one of those left out, stands the number of these commits whose transaction came
across the table after its last beginning. -/
theorem c132_tables (ops : List Op) (name t : Bytes) (h : ¬ Hidden t) :
    ((entry name (run ops).mgr).bind fun i => entry t i.tableUseCounts) =
      if uses name t ops.reverse = 0 then none else some (uses name t ops.reverse) :=
  ((reach ops).tables name t).resolve_left h

/-- **C132** The journals are never listed. -/
theorem c132_no_journals (ops : List Op) (name r : Bytes) (i : Info) (h : entry name (run ops).mgr = some i) :
    entry (str "journal" ++ r) i.tableUseCounts = none :=
  (reach ops).hidden name i _ h (Or.inl ⟨r, rfl⟩)

/-- **C132** Commands are listed in the order of their names, each once, and so are the tables of each. -/
theorem c132_ordered (ops : List Op) :
    Ordered (run ops).mgr ∧ ∀ name i, entry name (run ops).mgr = some i → Ordered i.tableUseCounts :=
  ⟨(reach ops).ordered, (reach ops).inner⟩

theorem uses_le (name t : Bytes) : ∀ l : List Op, uses name t l ≤ total name l := by
  intro l
  induction l with
  | nil => exact Nat.le_refl _
  | cons op l ih =>
    cases op with
    | commit w n ok =>
      cases ok with
      | false => exact ih
      | true =>
        rw [uses, total]
        by_cases h : n = name
        · have : (if n = name then 1 else 0) = 1 := if_pos h
          rw [this]
          split <;> omega
        · have hb : ¬ (n = name ∧ Touched w t l) := fun c => h c.1
          simp only [if_neg hb, if_neg h]
          exact ih
    | _ => exact ih

/-- **C132** No table has a number above the total of its command. -/
theorem c132_at_most_total (ops : List Op) (name t : Bytes) (i : Info) (k : Nat) (h : entry name (run ops).mgr = some i)
    (hk : entry t i.tableUseCounts = some k) : 1 ≤ k ∧ k ≤ i.count := by
  have h1 := c132_total ops name
  rw [h] at h1
  have hu := uses_le name t ops.reverse
  rcases (reach ops).tables name t with hh | h2
  · rw [(reach ops).hidden name i t h hh] at hk; exact absurd hk (by simp)
  · rw [h] at h2
    simp only [Option.bind_some, hk] at h2
    simp only [Option.map_some] at h1
    split at h2
    · simp at h2
    · split at h1
      · simp at h1
      · injection h1 with h1
        injection h2 with h2
        omega

/-- **C132** What does not succeed does not count: taking out a rollback or a failed commit anywhere changes no report. -/
theorem c132_failures_do_not_count (a b : List Op) (w : Nat) (name : Bytes) :
    (run (a ++ .commit w name false :: b)).mgr = (run (a ++ b)).mgr ∧
    (run (a ++ .rollback w :: b)).mgr = (run (a ++ b)).mgr := by
  unfold run
  simp only [List.foldl_append, List.foldl_cons]
  exact ⟨rfl, rfl⟩

/-- What was done in an attempt that was given up is forgotten when the next one begins. -/
theorem forgotten (w : Nat) (s : S) (x : List Op) (hx : ∀ op ∈ x, ∃ a t r d, op = .authorize w a t r d) :
    step (x.foldl step s) (.begin w) = step s (.begin w) := by
  induction x generalizing s with
  | nil => rfl
  | cons op x ih =>
    obtain ⟨a, t, r, d, rfl⟩ := hx op (by simp)
    rw [List.foldl_cons, ih _ (fun op h => hx op (List.mem_cons_of_mem _ h))]
    dsimp only [step]
    split
    · rfl
    · split
      · congr 1
        funext v
        unfold set
        by_cases hv : v = w <;> simp [hv]
      · rfl

/-- **C132** A transaction that was tried, conflicted and was tried again is counted as its last attempt alone would be. -/
theorem c132_last_attempt (a x b : List Op) (w : Nat) (name : Bytes)
    (hx : ∀ op ∈ x, ∃ a t r d, op = .authorize w a t r d) :
    (run (a ++ .begin w :: (x ++ .commit w name false :: .rollback w :: .begin w :: b))).mgr = (run (a ++ .begin w :: b)).mgr := by
  unfold run
  simp only [List.foldl_append, List.foldl_cons]
  have h1 : ∀ s : S, step (step s (.commit w name false)) (.rollback w) = s := fun _ => rfl
  rw [h1, forgotten w _ x hx]
  congr 2
  generalize a.foldl step {} = s
  dsimp only [step]
  congr 1
  funext v
  unfold set
  split <;> rfl

theorem recordTables_comm (m : Mgr) (n n' : Bytes) (ts ts' : List Bytes) (ho : Ordered m)
    (hi : ∀ n i, entry n m = some i → Ordered i.tableUseCounts)
    (hs : ts.Pairwise (fun a b => lexLt a b = true)) (hs' : ts'.Pairwise (fun a b => lexLt a b = true)) :
    recordTables (recordTables m n ts) n' ts' = recordTables (recordTables m n' ts') n ts := by
  have ord : ∀ n ts, Ordered (recordTables m n ts) := fun n ts => update_ordered _ _ _ ho
  refine ordered_ext _ _ (update_ordered _ _ _ (ord n ts)) (update_ordered _ _ _ (ord n' ts')) ?_
  intro k
  have eu : ∀ n ts k, entry k (recordTables m n ts) = _ := fun n ts k => entry_update n _ m ho k
  have eu2 : ∀ n ts n' ts' k, entry k (recordTables (recordTables m n ts) n' ts') = _ :=
    fun n ts n' ts' k => entry_update n' _ _ (ord n ts) k
  rw [eu2, eu2, eu, eu, eu, eu]
  by_cases e : n = n'
  · subst e
    by_cases ek : k = n
    · subst ek
      simp only [if_true, Option.getD_some]
      congr 2
      have hoi : Ordered ((entry k m).getD {}).tableUseCounts := by
        cases hc : entry k m with
        | none => simp [Ordered]
        | some i => exact hi k i hc
      generalize ((entry k m).getD {}).tableUseCounts = c at hoi
      have f1 := record_fold ts c hoi
      have f2 := record_fold ts' c hoi
      have g1 := record_fold ts' _ f1.1
      have g2 := record_fold ts _ f2.1
      refine ordered_ext _ _ g1.1 g2.1 ?_
      intro t
      rw [g1.2 hs' t, g2.2 hs t, f1.2 hs t, f2.2 hs' t]
      by_cases a1 : t ∈ ts <;> by_cases a2 : t ∈ ts' <;> cases skipped t <;> simp [a1, a2]
    · simp [ek]
  · by_cases ek : k = n
    · subst ek
      simp [e]
    · by_cases ek' : k = n'
      · subst ek'
        simp [ek]
      · simp [ek, ek']

/-- **C132** Which of two threads that commit at the same time comes first makes no difference to the report. -/
theorem c132_order_irrelevant (a b : List Op) (w w' : Nat) (name name' : Bytes) (ok ok' : Bool) :
    run (a ++ .commit w name ok :: .commit w' name' ok' :: b) = run (a ++ .commit w' name' ok' :: .commit w name ok :: b) := by
  have h := reach a
  unfold run at h ⊢
  simp only [List.foldl_append, List.foldl_cons]
  congr 1
  generalize a.foldl step {} = s at h
  cases ok <;> cases ok' <;> try rfl
  show ({ s with mgr := _ } : S) = { s with mgr := _ }
  congr 1
  exact recordTables_comm s.mgr name name' (s.used w) (s.used w') h.ordered h.inner (h.sorted w) (h.sorted w')

/-! ## The text -/

theorem cut {x : UInt8} {a b u v : Bytes} (ha : x ∉ a) (hb : x ∉ b) (h : a ++ x :: u = b ++ x :: v) : a = b ∧ u = v := by
  induction a generalizing b with
  | nil =>
    cases b with
    | nil => simp only [List.nil_append, List.cons.injEq] at h; exact ⟨rfl, h.2⟩
    | cons y b => simp only [List.nil_append, List.cons_append, List.cons.injEq] at h; exact absurd h.1 (fun c => hb (by simp [c]))
  | cons y a ih =>
    cases b with
    | nil => simp only [List.nil_append, List.cons_append, List.cons.injEq] at h; exact absurd h.1.symm (fun c => ha (by simp [c]))
    | cons z b =>
      simp only [List.cons_append, List.cons.injEq] at h
      have := ih (fun c => ha (List.mem_cons_of_mem _ c)) (fun c => hb (List.mem_cons_of_mem _ c)) h.2
      exact ⟨by rw [h.1, this.1], this.2⟩

theorem cut_end {x : UInt8} {a b u v : Bytes} (hu : x ∉ u) (hv : x ∉ v) (h : a ++ x :: u = b ++ x :: v) : a = b ∧ u = v := by
  have h2 := congrArg List.reverse h
  simp only [List.reverse_append, List.reverse_cons, List.append_assoc, List.singleton_append] at h2
  have := cut (by simpa using hu) (by simpa using hv) h2
  exact ⟨List.reverse_inj.1 this.2, List.reverse_inj.1 this.1⟩

theorem natDec_inj {n m : Nat} (h : natDec n = natDec m) : n = m := by
  rw [← decPrefix_natDec n, h, decPrefix_natDec]

theorem natDec_no (n : Nat) (x : UInt8) (hx : x < 48) : x ∉ natDec n := by
  intro h
  obtain ⟨d, hd, e⟩ := natDec_digits n x h
  subst e
  have : ∀ d : Fin 10, ¬ UInt8.ofNat (48 + d.val) < 48 := by decide
  exact this ⟨d, hd⟩ hx

/-- No line breaks in the names. -/
def Plain (m : Mgr) : Prop := ∀ e ∈ m, 10 ∉ e.1 ∧ ∀ t ∈ e.2.tableUseCounts, 10 ∉ t.1

theorem lines_inj : ∀ (l l' : List (Bytes × Nat)) (u v : Bytes), (∀ t ∈ l, 10 ∉ t.1) → (∀ t ∈ l', 10 ∉ t.1) →
    l.flatMap tableLine ++ 10 :: u = l'.flatMap tableLine ++ 10 :: v → l = l' ∧ u = v := by
  have hd : ∀ e : Bytes × Nat, ∃ r, tableLine e = 32 :: r := by
    intro e
    refine ⟨(b!"   ") ++ e.1 ++ str ": " ++ natDec e.2 ++ [10], ?_⟩
    unfold tableLine
    rw [show str "    " = 32 :: (b!"   ") by decide +kernel]
    simp
  intro l
  induction l with
  | nil =>
    intro l' u v _ _ h
    cases l' with
    | nil => simpa using h
    | cons e l' =>
      obtain ⟨r, hr⟩ := hd e
      rw [List.flatMap_cons, hr] at h
      simp at h
  | cons a l ih =>
    intro l' u v h1 h2 h
    cases l' with
    | nil =>
      obtain ⟨r, hr⟩ := hd a
      rw [List.flatMap_cons, hr] at h
      simp at h
    | cons b l' =>
      simp only [List.flatMap_cons, tableLine, List.append_assoc, List.append_cancel_left_eq, List.singleton_append, List.cons_append] at h
      have hs : str ": " = [58, 32] := by decide +kernel
      rw [hs] at h
      have nn : ∀ e : Bytes × Nat, 10 ∉ e.1 → 10 ∉ e.1 ++ ([58, 32] ++ natDec e.2) := by
        intro e he hm
        simp only [List.mem_append] at hm
        rcases hm with hm | hm | hm
        · exact he hm
        · exact absurd hm (by decide)
        · exact natDec_no _ 10 (by decide) hm
      have re : ∀ (e : Bytes × Nat) (r : Bytes), e.1 ++ ([58, 32] ++ (natDec e.2 ++ 10 :: r)) =
          (e.1 ++ ([58, 32] ++ natDec e.2)) ++ 10 :: r := by intro e r; simp
      rw [re, re] at h
      have c1 := cut (nn a (h1 a (by simp))) (nn b (h2 b (by simp))) h
      have c2 := ih l' u v (fun t ht => h1 t (List.mem_cons_of_mem _ ht)) (fun t ht => h2 t (List.mem_cons_of_mem _ ht)) c1.2
      have re2 : ∀ (e : Bytes × Nat), e.1 ++ ([58, 32] ++ natDec e.2) = (e.1 ++ [58]) ++ 32 :: natDec e.2 := by intro e; simp
      have c3 := c1.1
      rw [re2, re2] at c3
      have c4 := cut_end (natDec_no _ 32 (by decide)) (natDec_no _ 32 (by decide)) c3
      have e1 : a.1 = b.1 := List.append_cancel_right c4.1
      have e2 : a.2 = b.2 := natDec_inj c4.2
      exact ⟨by rw [show a = b from Prod.ext e1 e2, c2.1], c2.2⟩

/-- **C132** Everything counted can be read off the text: reports with the same text are of the same numbers, as long as no
name has a line break in it. -/
theorem c132_readable (m m' : Mgr) (h : Plain m) (h' : Plain m') (he : report m = report m') : m = m' := by
  have hne : ∀ e : Bytes × Info, block e ≠ [] := by
    intro e hc
    unfold block at hc
    have := congrArg List.length hc
    simp at this
  induction m generalizing m' with
  | nil =>
    cases m' with
    | nil => rfl
    | cons e m' =>
      unfold report at he
      rw [List.flatMap_cons, List.flatMap_nil] at he
      exact absurd (List.append_eq_nil_iff.1 he.symm).1 (hne e)
  | cons a m ih =>
    cases m' with
    | nil =>
      unfold report at he
      rw [List.flatMap_cons, List.flatMap_nil] at he
      exact absurd (List.append_eq_nil_iff.1 he).1 (hne a)
    | cons b m' =>
      unfold report at he
      simp only [List.flatMap_cons, block, List.append_assoc, List.append_cancel_left_eq, List.singleton_append, List.cons_append] at he
      have c1 := cut (h a (by simp)).1 (h' b (by simp)).1 he
      have c2 := c1.2
      simp only [List.append_cancel_left_eq] at c2
      have c3 := cut (natDec_no _ 10 (by decide)) (natDec_no _ 10 (by decide)) c2
      have c4 := c3.2
      simp only [List.append_cancel_left_eq, List.cons.injEq, true_and] at c4
      have c5 := lines_inj _ _ _ _ (h a (by simp)).2 (h' b (by simp)).2 c4
      have hi : a.2 = b.2 := by
        have e1 := natDec_inj c3.1
        have e2 := c5.1
        cases ha : a.2; cases hb : b.2
        rw [ha] at e1 e2; rw [hb] at e1 e2
        simp only at e1 e2
        rw [e1, e2]
      rw [show a = b from Prod.ext c1.1 hi,
        ih m' (fun e he => h e (List.mem_cons_of_mem _ he)) (fun e he => h' e (List.mem_cons_of_mem _ he)) c5.2]

/-! ## Cases, and what the report does not say -/

def exOps : List Op :=
  [.begin 0, .begin 1, .authorize 0 .read (str "a") false false, .authorize 1 .update (str "b") false false,
   .authorize 0 .insert (str "journal0003") false false, .commit 0 (str "X") true, .commit 1 (str "X") false, .rollback 1,
   .begin 1, .authorize 1 .update (str "a") false false, .commit 1 (str "X") true]

-- two commits of `X`, both across `a`; the attempt across `b` was given up
example : (run exOps).mgr = [(str "X", { count := 2, tableUseCounts := [(str "a", 2)] })] ∧
    report (run exOps).mgr = str "Command: X\nTotal Count: 2\nTable usage\n    a: 2\n\n" := by decide +kernel

example : Plain (run exOps).mgr ∧ ¬ Hidden (str "a") := by
  constructor
  · have : (run exOps).mgr = [(str "X", { count := 2, tableUseCounts := [(str "a", 2)] })] := by decide +kernel
    rw [this]
    intro e he
    simp only [List.mem_singleton] at he
    subst he
    refine ⟨by decide +kernel, ?_⟩
    intro t ht
    simp only [List.mem_singleton] at ht
    subst ht
    decide +kernel
  · rw [← skipped_iff]; decide +kernel

/-- **C132** fails for tables of the application whose name begins like that of a journal: they are taken for journals.  A
command that always writes `journalEntries` is listed with no table at all. -/
theorem c132_journal_like_partial :
    (run [.begin 0, .authorize 0 .insert (str "journalEntries") false false, .commit 0 (str "X") true]).mgr =
      [(str "X", { count := 1 })] := by decide +kernel

/-- **C132** fails for commits on the sync thread: they are not counted, so commands that need a quorum are not in the report
however often they run. -/
theorem c132_sync_not_counted_partial (ops : List Op) (h : ∀ w name, Op.commit w name true ∉ ops) :
    report (run ops).mgr = [] := by
  have g : ∀ (ops : List Op) (s : S), (∀ w name, Op.commit w name true ∉ ops) → (ops.foldl step s).mgr = s.mgr := by
    intro ops
    induction ops with
    | nil => intro s _; rfl
    | cons op ops ih =>
      intro s h
      rw [List.foldl_cons, ih _ (fun w n hm => h w n (List.mem_cons_of_mem _ hm))]
      cases op with
      | commit w n ok =>
        cases ok with
        | false => rfl
        | true => exact absurd List.mem_cons_self (h w n)
      | authorize w a t r d =>
        dsimp only [step]
        split
        · rfl
        · split <;> rfl
      | _ => rfl
  unfold run
  rw [g ops {} h]
  rfl

/-- **C132** fails for accesses that were refused: a table counts as used though the statement was denied. -/
theorem c132_denied_counts_partial :
    (run [.begin 0, .authorize 0 .read (str "secret") false true, .authorize 0 .update (str "a") false false,
      .commit 0 (str "X") true]).mgr =
      [(str "X", { count := 1, tableUseCounts := [(str "a", 1), (str "secret", 1)] })] := by decide +kernel

end Bedrock.Report.Props
