import Verif.Lemmas.Cache

/-!
# C50: the cache stays within its size and evicts least recently used first
-/

namespace Bedrock.Cache.Props
open Bedrock Bedrock.Cache

/-- A connection on which `recursive_triggers` is in force, and a name that does not begin with a zero byte. -/
def Good : Op → Prop
  | .write rc r _ => rc = true ∧ cstr r.name ≠ []
  | .elsewhere rc r lru => rc = true ∧ cstr r.name ≠ [] ∧ ∀ n ∈ lru, n ≠ []
  | _ => True

structure Inv (s : Node) : Prop where
  exact : Exact s.db
  wf : Wf s.db
  lru : ∀ n ∈ s.lru, n ≠ []

theorem inv_init : Inv {} := ⟨rfl, ⟨by simp, by simp⟩, by simp⟩

theorem inv_write {e : Env} {r : WriteReq} {s : Node} (h : Inv s) (hn : cstr r.name ≠ []) :
    Inv (write e true r s).1 := by
  by_cases ha : (write e true r s).2 = .ok
  · obtain ⟨lru, t, hr, he, hw⟩ := write_db_of_ok ha
    rw [hw]
    obtain ⟨_, h2, popped, h3, h4, _⟩ := evict_spec he
    refine ⟨exact_insert (h2 (exact_invalidated h.exact)) _ _, ?_, ?_⟩
    · exact (h.wf.sub fun x hx => mem_invalidated (h4 x hx).1).insert _ _ hn
    · intro n hm
      rcases mem_pushMRU.1 hm with ⟨h5, _⟩ | rfl
      · exact h.lru n (by rw [h3]; simp [h5])
      · exact (refused_false hr).1
  · rw [write_inert ha]; exact h

theorem inv_step {e : Env} (ho : e.Ok) {s : Node} {o : Op} (h : Inv s) (hg : Good o) : Inv (step e s o).1 := by
  cases o with
  | read p =>
    simp only [step, Cache.read]
    split
    · exact h
    · split
      · exact h
      · rename_i r hr
        refine ⟨h.exact, h.wf, ?_⟩
        intro n hn
        have hm := List.mem_filter.1 (ho.mem _ _ hr)
        rcases mem_pushMRU.1 hn with ⟨h1, _⟩ | rfl
        · exact h.lru n h1
        · exact h.wf.named _ hm.1
  | write rc r c =>
    obtain ⟨rfl, hn⟩ := hg
    have hi := inv_write (e := e) h hn
    simp only [step]
    cases c
    · exact ⟨h.exact, h.wf, hi.lru⟩
    · exact hi
  | elsewhere rc r lru =>
    obtain ⟨rfl, hn, hl⟩ := hg
    have hi := inv_write (e := e) (s := { s with lru := lru }) ⟨h.exact, h.wf, hl⟩ hn
    exact ⟨hi.exact, hi.wf, h.lru⟩
  | restart => exact ⟨h.exact, h.wf, by simp [step]⟩

theorem inv_run {e : Env} (ho : e.Ok) : ∀ (ops : List Op) {s : Node}, Inv s → (∀ o ∈ ops, Good o) → Inv (run e s ops)
  | [], _, h, _ => h
  | o :: os, _, h, hg =>
    inv_run ho os (inv_step ho h (hg o (by simp))) (fun o' h' => hg o' (by simp [h']))

/-- C50: after any history in which every write ran on a connection with recursive triggers, the counter is the
number of characters stored. -/
theorem c50_counter {e : Env} (ho : e.Ok) (ops : List Op) (hg : ∀ o ∈ ops, Good o) :
    (run e {} ops).db.size = ((run e {} ops).db.rows.map fun r => (chars r.value : Int)).sum := by
  have h : (run e {} ops).db.size = total (run e {} ops).db.rows := (inv_run ho ops inv_init hg).exact
  rw [h]
  generalize (run e {} ops).db.rows = rows
  induction rows with
  | nil => rfl
  | cons r rs ih =>
    have : total (r :: rs) = chars r.value + total rs := by simp [total]
    rw [this]
    simp only [List.map_cons, List.sum_cons, ← ih]
    omega

/-- C50: right after a successful write, whatever the history, the values stored fit the configured size, as far as
they are plain ASCII.  Partial: SQLite counts characters and the configuration is in bytes (`c50_utf8_overflow`),
and the connection must have recursive triggers (`c50_drift`). -/
theorem c50_within_partial {e : Env} (ho : e.Ok) (ops : List Op) (hg : ∀ o ∈ ops, Good o) (r : WriteReq)
    (hn : cstr r.name ≠ []) (hok : (step e (run e {} ops) (.write true r true)).2 = .ok)
    (hascii : ∀ x ∈ (step e (run e {} ops) (.write true r true)).1.db.rows, ∀ b ∈ x.value, b < 0x80) :
    (((step e (run e {} ops) (.write true r true)).1.db.rows.map fun x => (x.value.length : Int)).sum) ≤ e.max := by
  have hi := inv_run ho ops inv_init hg
  revert hok hascii
  generalize run e {} ops = s at hi
  intro hok hascii
  simp only [step, if_true] at hok hascii ⊢
  obtain ⟨lru, t, hr, he, hw⟩ := write_db_of_ok hok
  obtain ⟨h1, h2, _⟩ := evict_spec he
  have hx := h2 (exact_invalidated hi.exact)
  have hx2 : (write e true r s).1.db.size = total (write e true r s).1.db.rows := by
    rw [hw]; exact exact_insert hx _ _
  have hs : (write e true r s).1.db.size ≤ e.max := by
    rw [hw]
    have := chars_cstr_le r.data
    simp only [insertOrReplace, if_true]
    omega
  have hl : ∀ rows : List Row, (∀ x ∈ rows, ∀ b ∈ x.value, b < 0x80) →
      (rows.map fun x => (x.value.length : Int)).sum = total rows := by
    intro rows
    induction rows with
    | nil => intro _; rfl
    | cons y ys ih =>
      intro h
      have h1 : chars y.value = y.value.length := charsFrom_ascii (h y (by simp))
      have h2 := ih fun x hx => h x (by simp [hx])
      have h3 : total (y :: ys) = chars y.value + total ys := by simp [total]
      simp only [List.map_cons, List.sum_cons, h2, h3, h1]
      omega
  rw [hl _ hascii]
  omega

/-- C50: in such a history no write ends the process. -/
theorem c50_no_crash {e : Env} (ho : e.Ok) (ops : List Op) (hg : ∀ o ∈ ops, Good o) (rc : Bool) (r : WriteReq)
    (c : Bool) : (step e (run e {} ops) (.write rc r c)).2 ≠ .crash := by
  have hi := inv_run ho ops inv_init hg
  simp only [step]
  rcases write_cases e rc r (run e {} ops) with ⟨_, h1⟩ | ⟨hr, hev, _⟩ | ⟨lru, t, _, _, h1⟩
  · rw [h1]; intro h; cases h
  · refine absurd hev (evict_some ho (refused_false hr).2.1 (exact_invalidated hi.exact) ?_ hi.lru)
    intro x hx; exact hi.wf.named x (mem_invalidated hx)
  · rw [h1]; intro h; cases h

/-- A step takes the row away only for one of the documented reasons: the same name was written, the name was
invalidated, or what is left after the invalidation and the new content do not fit together. -/
theorem c50_why_removed {e : Env} (ho : e.Ok) (ops : List Op) (hg : ∀ o ∈ ops, Good o) (o : Op) (x : Row)
    (hx : x ∈ (run e {} ops).db.rows) (hgone : x ∉ (step e (run e {} ops) o).1.db.rows) :
    ∃ r : WriteReq, ((∃ rc, o = .write rc r true) ∨ ∃ rc l, o = .elsewhere rc r l) ∧
      (step e (run e {} ops) o).2 = .ok ∧
      (x.name = cstr r.name ∨ (r.invalidate ≠ [] ∧ e.glob (cstr r.invalidate) x.name = true) ∨
        (((run e {} ops).db.rows.filter fun y => !(r.invalidate ≠ [] && e.glob (cstr r.invalidate) y.name)).map
          fun y => (chars y.value : Int)).sum + r.data.length > e.max) := by
  have hi := inv_run ho ops inv_init hg
  generalize run e {} ops = s at *
  have key : ∀ (rc : Bool) (r : WriteReq) (s0 : Node), s0.db = s.db → x ∉ (write e rc r s0).1.db.rows →
      (write e rc r s0).2 = .ok ∧
      (x.name = cstr r.name ∨ (r.invalidate ≠ [] ∧ e.glob (cstr r.invalidate) x.name = true) ∨
        ((s.db.rows.filter fun y => !(r.invalidate ≠ [] && e.glob (cstr r.invalidate) y.name)).map
          fun y => (chars y.value : Int)).sum + r.data.length > e.max) := by
    intro rc r s0 hdb hg0
    by_cases ha : (write e rc r s0).2 = .ok
    · refine ⟨ha, ?_⟩
      obtain ⟨lru, t, hr, he, hw⟩ := write_db_of_ok ha
      rw [hw] at hg0
      by_cases h1 : x.name = cstr r.name
      · exact Or.inl h1
      · right
        by_cases h2 : r.invalidate ≠ [] ∧ e.glob (cstr r.invalidate) x.name = true
        · exact Or.inl h2
        · right
          have hxi : x ∈ (invalidated e r s0.db).rows := by
            unfold invalidated
            split
            · rw [hdb]; exact hx
            · rename_i hne
              simp only [deleteWhere, List.mem_filter, Bool.not_eq_true']
              refine ⟨by rw [hdb]; exact hx, ?_⟩
              cases hgl : e.glob (cstr r.invalidate) x.name
              · rfl
              · exact absurd ⟨hne, hgl⟩ h2
          have hrows : (invalidated e r s0.db).rows =
              s.db.rows.filter fun y => !(r.invalidate ≠ [] && e.glob (cstr r.invalidate) y.name) := by
            unfold invalidated
            rw [hdb]
            by_cases hz : r.invalidate = []
            · rw [if_pos hz]; symm; apply List.filter_eq_self.2; intro a _; simp [hz]
            · simp [hz, deleteWhere]
          have hex : (invalidated e r s0.db).size = total (invalidated e r s0.db).rows :=
            exact_invalidated (by rw [hdb]; exact hi.exact)
          have htot : ∀ rows : List Row, (rows.map fun y => (chars y.value : Int)).sum = total rows := by
            intro rows
            induction rows with
            | nil => rfl
            | cons y ys ih =>
              have h3 : total (y :: ys) = chars y.value + total ys := by simp [total]
              simp only [List.map_cons, List.sum_cons, ih, h3]; omega
          rw [← hrows, htot, ← hex]
          by_cases hfit : (invalidated e r s0.db).size + (r.data.length : Int) ≤ e.max
          · exfalso
            unfold evict at he
            rw [if_pos hfit] at he
            simp only [Option.some.injEq, Prod.mk.injEq] at he
            apply hg0
            rw [← he.2]
            exact mem_insert.2 (Or.inl ⟨hxi, h1⟩)
          · omega
    · rw [write_inert ha, hdb] at hg0
      exact absurd hx hg0
  cases o with
  | read p =>
    refine absurd ?_ hgone
    simp only [step, Cache.read]
    split
    · exact hx
    · split <;> exact hx
  | write rc r c =>
    cases c
    · exact absurd hx hgone
    · exact ⟨r, Or.inl ⟨rc, rfl⟩, key rc r s rfl hgone⟩
  | elsewhere rc r lru => exact ⟨r, Or.inr ⟨rc, lru, rfl⟩, key rc r { s with lru := lru } rfl hgone⟩
  | restart => exact absurd hx hgone

/-- C50: a value just written is what a read of its name returns, for names and values without zero bytes. -/
theorem c50_read_back {e : Env} (ho : e.Ok) (ops : List Op) (hg : ∀ o ∈ ops, Good o) (r : WriteReq)
    (hlen : r.name.length ≤ 255) (hn0 : ∀ b ∈ r.name, b ≠ 0) (hv0 : ∀ b ∈ r.data, b ≠ 0)
    (hlit : ∀ m, e.glob r.name m = decide (m = r.name))
    (hok : (step e (run e {} ops) (.write true r true)).2 = .ok) :
    (step e (step e (run e {} ops) (.write true r true)).1 (.read r.name)).2 = .found r.name r.data := by
  have hi := inv_run ho ops inv_init hg
  generalize run e {} ops = s at *
  simp only [step, if_true] at hok ⊢
  obtain ⟨lru, t, hr, he, hw⟩ := write_db_of_ok hok
  have hne := (refused_false hr).1
  have hi2 : Inv (write e true r s).1 := inv_write hi (by rw [cstr_of_no_nul hn0]; exact hne)
  have hm : (⟨r.name, r.data⟩ : Row) ∈ (write e true r s).1.db.rows := by
    rw [hw, cstr_of_no_nul hn0, cstr_of_no_nul hv0]
    exact mem_insert.2 (Or.inr rfl)
  generalize (write e true r s).1 = s' at *
  have hl1 : ¬ (r.name.length < 1) := by
    intro h; apply hne; apply List.length_eq_zero_iff.1; omega
  have hl2 : ¬ (r.name.length > 255) := by omega
  simp only [Cache.read, hl1, hl2, decide_false, Bool.or_self, Bool.false_eq_true, if_false, cstr_of_no_nul hn0]
  have hfm : (⟨r.name, r.data⟩ : Row) ∈ s'.db.rows.filter fun y => e.glob r.name y.name := by
    simp [hm, hlit]
  cases hf : e.first (s'.db.rows.filter fun y => e.glob r.name y.name) with
  | none => exact absurd hf (ho.some _ (List.ne_nil_of_mem hfm))
  | some y =>
    have hy := List.mem_filter.1 (ho.mem _ _ hf)
    rw [hlit, decide_eq_true_eq] at hy
    have := hi2.wf.uniq y hy.1 _ hm hy.2
    subst this
    rfl

/-! ## Order of eviction -/

/-- The name a client used by an operation with this answer. -/
def usedBy : Op → Ans → List Bytes
  | .read _, .found n _ => [n]
  | .write _ r _, .ok => [r.name]
  | _, _ => []

/-- The names a client used, in order, as far as it can see: names returned by reads and names of accepted writes. -/
def uses (e : Env) (s : Node) : List Op → List Bytes
  | [] => []
  | o :: os =>
    usedBy o (step e s o).2 ++ uses e (step e s o).1 os

/-- `y` was used after the last use of `x`. -/
def UsedAfter (u : List Bytes) (y x : Bytes) : Prop := ∃ pre post, u = pre ++ y :: post ∧ x ∉ post

theorem usedAfter_append {u : List Bytes} {y x n : Bytes} (h : UsedAfter u y x) (hx : x ≠ n) :
    UsedAfter (u ++ [n]) y x := by
  obtain ⟨pre, post, rfl, h2⟩ := h
  exact ⟨pre, post ++ [n], by simp, by simp [h2, hx]⟩

/-- Only this node writes, every write commits, and it is not restarted. -/
def Steady : Op → Prop
  | .read _ => True
  | .write rc r c => rc = true ∧ c = true ∧ (∀ b ∈ r.name, b ≠ 0)
  | _ => False

theorem steady_good {e : Env} {s : Node} {o : Op} (h : Steady o) (hok : (step e s o).2 = .ok) : Good o := by
  cases o with
  | read => exact True.intro
  | write rc r c =>
    obtain ⟨rfl, rfl, h0⟩ := h
    refine ⟨rfl, ?_⟩
    rw [cstr_of_no_nul h0]
    simp only [step] at hok
    obtain ⟨_, _, hr, _⟩ := write_db_of_ok hok
    exact (refused_false hr).1
  | elsewhere => exact h.elim
  | restart => exact h.elim

structure Tracked (u : List Bytes) (s : Node) : Prop where
  inv : Inv s
  mem : ∀ r ∈ s.db.rows, r.name ∈ s.lru
  clean : ∀ n ∈ s.lru, cstr n = n
  ordered : s.lru.Pairwise fun x y => x ≠ y ∧ UsedAfter u y x

theorem pushMRU_pairwise {u : List Bytes} {lru : List Bytes} {n : Bytes}
    (h : lru.Pairwise fun x y => x ≠ y ∧ UsedAfter u y x) :
    (pushMRU lru n).Pairwise fun x y => x ≠ y ∧ UsedAfter (u ++ [n]) y x := by
  unfold pushMRU
  rw [List.pairwise_append]
  refine ⟨?_, by simp, ?_⟩
  · have h1 := h.filter (fun m => decide (m ≠ n))
    refine List.Pairwise.imp_of_mem ?_ h1
    intro a b ha _ hab
    have : a ≠ n := by simpa using (List.mem_filter.1 ha).2
    exact ⟨hab.1, usedAfter_append hab.2 this⟩
  · intro a ha b hb
    have : a ≠ n := by simpa using (List.mem_filter.1 ha).2
    simp only [List.mem_singleton] at hb
    subst hb
    exact ⟨this, u, [], by simp, by simp⟩

theorem tracked_write {e : Env} {u : List Bytes} {s : Node} {r : WriteReq} (h : Tracked u s)
    (h0 : ∀ b ∈ r.name, b ≠ 0) (hok : (write e true r s).2 = .ok) :
    Tracked (u ++ [r.name]) (write e true r s).1 := by
  obtain ⟨lru, t, hr, he, hw⟩ := write_db_of_ok hok
  obtain ⟨_, _, popped, h3, h4, _⟩ := evict_spec he
  have hc := cstr_of_no_nul h0
  refine ⟨inv_write h.inv (by rw [hc]; exact (refused_false hr).1), ?_, ?_, ?_⟩
  · rw [hw]
    intro x hx
    rcases mem_insert.1 hx with ⟨h5, h6⟩ | rfl
    · obtain ⟨h7, h8⟩ := h4 x h5
      have h9 := h.mem x (mem_invalidated h7)
      rw [h3, List.mem_append] at h9
      rw [hc] at h6
      refine mem_pushMRU.2 (Or.inl ⟨?_, h6⟩)
      rcases h9 with h9 | h9
      · exfalso; apply h8
        refine List.mem_map.2 ⟨x.name, h9, h.clean _ (by rw [h3]; simp [h9])⟩
      · exact h9
    · exact mem_pushMRU.2 (Or.inr hc)
  · rw [hw]
    intro n hn
    rcases mem_pushMRU.1 hn with ⟨h5, _⟩ | rfl
    · exact h.clean n (by rw [h3]; simp [h5])
    · exact hc
  · rw [hw]
    apply pushMRU_pairwise
    have := h.ordered
    rw [h3, List.pairwise_append] at this
    exact this.2.1

theorem tracked_run {e : Env} (ho : e.Ok) : ∀ (ops : List Op) {u : List Bytes} {s : Node}, Tracked u s →
    (∀ o ∈ ops, Steady o) → Tracked (u ++ uses e s ops) (run e s ops)
  | [], u, s, h, _ => by simpa [uses, run] using h
  | o :: os, u, s, h, hs => by
    have hso := hs o (by simp)
    have hsos : ∀ o ∈ os, Steady o := fun o' h' => hs o' (by simp [h'])
    have step1 : Tracked (u ++ usedBy o (step e s o).2) (step e s o).1 := by
      cases o with
      | read p =>
        simp only [step, Cache.read]
        split
        · simpa [usedBy] using h
        · split
          · simpa [usedBy] using h
          · rename_i r hr
            have hm := (List.mem_filter.1 (ho.mem _ _ hr)).1
            refine ⟨⟨h.inv.exact, h.inv.wf, ?_⟩, ?_, ?_, pushMRU_pairwise h.ordered⟩
            · intro n hn
              rcases mem_pushMRU.1 hn with ⟨h1, _⟩ | rfl
              · exact h.inv.lru n h1
              · exact h.inv.wf.named _ hm
            · intro x hx
              by_cases hxr : x.name = r.name
              · exact mem_pushMRU.2 (Or.inr hxr)
              · exact mem_pushMRU.2 (Or.inl ⟨h.mem x hx, hxr⟩)
            · intro n hn
              rcases mem_pushMRU.1 hn with ⟨h1, _⟩ | rfl
              · exact h.clean n h1
              · exact h.clean _ (h.mem r hm)
      | write rc r c =>
        obtain ⟨rfl, rfl, h0⟩ := hso
        by_cases hok : (write e true r s).2 = .ok
        · have := tracked_write h h0 hok
          simp only [step, if_true, hok]
          exact this
        · have h1 := write_inert hok
          have h2 : usedBy (.write true r true) (step e s (.write true r true)).2 = [] := by
            simp only [step]
            cases ha : (write e true r s).2 with
            | ok => exact absurd ha hok
            | _ => rfl
          rw [h2]
          simp only [step, if_true, h1, List.append_nil]
          exact h
      | elsewhere => exact hso.elim
      | restart => exact hso.elim
    have := tracked_run ho os step1 hsos
    simpa [uses, run, List.append_assoc] using this

/-- C50: least recently used first.  On a node that alone writes, where every write commits and which is not
restarted: if a write makes room by dropping `x` and keeps `y`, then `y` was used after the last use of `x`.
Partial: after a roll back, a restart or a change of leader the order is not kept (`c50_rollback_order`). -/
theorem c50_lru_partial {e : Env} (ho : e.Ok) (ops : List Op) (hs : ∀ o ∈ ops, Steady o) (r : WriteReq)
    (hok : (step e (run e {} ops) (.write true r true)).2 = .ok) (x y : Row)
    (hx : x ∈ (run e {} ops).db.rows) (hy : y ∈ (run e {} ops).db.rows)
    (hxn : x.name ≠ cstr r.name) (hxi : r.invalidate = [] ∨ e.glob (cstr r.invalidate) x.name = false)
    (hyn : y.name ≠ cstr r.name)
    (hgone : x ∉ (step e (run e {} ops) (.write true r true)).1.db.rows)
    (hkept : y ∈ (step e (run e {} ops) (.write true r true)).1.db.rows) :
    UsedAfter (uses e {} ops) y.name x.name := by
  have h : Tracked ([] ++ uses e {} ops) (run e {} ops) :=
    tracked_run ho ops ⟨inv_init, by simp, by simp, by simp⟩ hs
  rw [List.nil_append] at h
  generalize run e {} ops = s at *
  simp only [step, if_true] at hok hgone hkept
  obtain ⟨lru, t, hr, he, hw⟩ := write_db_of_ok hok
  obtain ⟨_, _, popped, h3, h4, h5⟩ := evict_spec he
  rw [hw] at hgone hkept
  have hyt : y ∈ t.rows := by
    rcases mem_insert.1 hkept with ⟨h6, _⟩ | h6
    · exact h6
    · exact absurd (by rw [h6]) hyn
  have hxt : x ∉ t.rows := fun hc => hgone (mem_insert.2 (Or.inl ⟨hc, hxn⟩))
  have hxi' : x ∈ (invalidated e r s.db).rows := by
    unfold invalidated
    split
    · exact hx
    · rename_i hne
      rcases hxi with hxi | hxi
      · exact absurd hxi hne
      · simp [deleteWhere, hx, hxi]
  have hyl : y.name ∈ lru := by
    have h6 := h.mem y hy
    rw [h3, List.mem_append] at h6
    rcases h6 with h6 | h6
    · exfalso
      exact (h4 y hyt).2 (List.mem_map.2 ⟨y.name, h6, h.clean _ (by rw [h3]; simp [h6])⟩)
    · exact h6
  rcases h5 x hxi' hxt with h6 | h6
  · obtain ⟨n, hn, hc⟩ := List.mem_map.1 h6
    rw [h.clean n (by rw [h3]; simp [hn])] at hc
    subst hc
    have := h.ordered
    rw [h3, List.pairwise_append] at this
    exact (this.2.2 _ hn _ hyl).2
  · rw [h6] at hyl; simp at hyl

/-! ## Cases and witnesses -/

/-- A cache of `m` bytes; patterns without wildcards. -/
def env (m : Int) : Env := { glob := fun p n => p = n, first := fun rows => rows.head?, max := m }

theorem env_ok (m : Int) : (env m).Ok :=
  ⟨fun rows r h => by cases rows <;> simp_all [env], fun rows h => by cases rows <;> simp_all [env]⟩

def w (n : Bytes) (v : Bytes) : Op := .write true { name := n, content := v } true

/-- `a`, `b` written, `a` read, then `c` does not fit: `b` goes, `a` stays. -/
example :
    (run (env 3) {} [w [97] [120], w [98] [120], .read [97], w [99] [120, 120]]).db.rows
      = [⟨[97], [120]⟩, ⟨[99], [120, 120]⟩] := by decide +kernel

example : UsedAfter (uses (env 3) {} [w [97] [120], w [98] [120], .read [97]]) [97] [98] :=
  c50_lru_partial (env_ok 3) _ (by
      intro o ho
      simp only [List.mem_cons, List.not_mem_nil, or_false] at ho
      rcases ho with rfl | rfl | rfl
      · exact ⟨rfl, rfl, by decide⟩
      · exact ⟨rfl, rfl, by decide⟩
      · exact True.intro)
    { name := [99], content := [120, 120] } (by decide +kernel) ⟨[98], [120]⟩ ⟨[97], [120]⟩
    (by decide +kernel) (by decide +kernel) (by decide +kernel) (Or.inl rfl) (by decide +kernel) (by decide +kernel)
    (by decide +kernel)

/-- The sizes hold with equality here. -/
example : (run (env 3) {} [w [97] [120], w [99] [120, 120]]).db.size = 3 := by decide +kernel

/-- Characters are not bytes: three bytes in a cache of two. -/
theorem c50_utf8_overflow :
    ((run (env 2) {} [w [97] [0xC3, 0xA9], w [98] [120]]).db.rows.map fun r => r.value.length).sum = 3 := by
  decide +kernel

/-- On a connection without recursive triggers overwriting makes the counter drift up; here one row of one
character counts as four, and the next write empties the cache and then ends the process. -/
theorem c50_drift :
    let o (n v : Bytes) : Op := .write false { name := n, content := v } true
    let s := run (env 4) {} [o [97] [120, 120], o [97] [120, 120], o [98] [120], o [98] [120]]
    s.db.rows = [⟨[98], [120]⟩] ∧ s.db.size = 4 ∧ (step (env 4) s (o [99] [120, 120, 120])).2 = .crash := by
  decide +kernel

/-- A write that is rolled back has used up the list: `a` is older than `b`, yet `b` goes and `a` stays. -/
theorem c50_rollback_order :
    let s := run (env 3) {} [w [97] [120], w [98] [120],
      .write true { name := [99], content := [120, 120] } false]
    s.db.rows = [⟨[97], [120]⟩, ⟨[98], [120]⟩] ∧
    (step (env 3) s (w [100] [120, 120])).1.db.rows = [⟨[97], [120]⟩, ⟨[100], [120, 120]⟩] := by
  decide +kernel

/-- A value is cut at its first zero byte. -/
theorem c50_nul_truncates :
    (step (env 9) (run (env 9) {} [w [97] [120, 0, 121]]) (.read [97])).2 = .found [97] [120] := by
  decide +kernel

/-- A name that begins with a zero byte is stored as the empty name; after a restart making room ends the
process. -/
theorem c50_nul_name_crash :
    let s := run (env 2) {} [w [0] [120, 120], .restart]
    s.db.rows = [⟨[], [120, 120]⟩] ∧ (step (env 2) s (w [97] [120])).2 = .crash := by
  decide +kernel

/-- **C50** What WriteCache refuses with 402, and nothing else: a name that is empty or longer than 255 bytes, a "value"
header above 1 MiB, without one a body above 64 MiB, neither of the two, or more bytes than the whole cache may hold. -/
theorem c50_limits (e : Env) (rc : Bool) (r : WriteReq) (s : Node) :
    (write e rc r s).2 = .err 402 ↔
      r.name = [] ∨ 255 < r.name.length ∨ 1048576 < r.value.length ∨ (r.value = [] ∧ r.content = []) ∨
      (r.value = [] ∧ 67108864 < r.content.length) ∨
      e.max < ((if r.value = [] then r.content.length else r.value.length : Nat) : Int) := by
  have h1 : (write e rc r s).2 = .err 402 ↔ refused e r = true := by
    unfold write
    by_cases h : refused e r = true
    · simp [h]
    · rw [if_neg h]
      dsimp only
      split <;> simp [h]
  rw [h1]
  have hl : ∀ l : Bytes, l.length < 1 ↔ l = [] := by intro l; cases l <;> simp
  unfold refused WriteReq.data
  simp only [Bool.or_eq_true, decide_eq_true_eq, hl, gt_iff_lt]
  by_cases hv : r.value = []
  · by_cases hc : r.content = [] <;> simp [hv, hc, or_assoc]
  · simp [hv, or_assoc]

/-- A header of exactly 1 MiB is accepted and one byte more is refused. -/
example (s : Node) (n : Nat) (hn : n = 1048576) :
    (write (env 9000000) true { name := [97], value := List.replicate (n + 1) 65 } s).2 = .err 402 ∧
    (write (env 9000000) true { name := [97], value := List.replicate n 65 } s).2 ≠ .err 402 := by
  rw [c50_limits, Ne, c50_limits]
  simp only [List.length_replicate, env]
  refine ⟨Or.inr (Or.inr (Or.inl (by omega))), ?_⟩
  have : List.replicate n (65 : UInt8) ≠ [] := by
    intro h
    have := congrArg List.length h
    rw [List.length_replicate, List.length_nil] at this
    omega
  simp only [this, if_false, false_and, List.length_replicate]
  simp
  omega

/-- One character of UTF-8: an ASCII byte, or a leading byte with continuation bytes. -/
def Char8 (c : Bytes) : Prop :=
  ∃ b rest, c = b :: rest ∧ ((b < 0x80 ∧ rest = []) ∨ (0xC0 ≤ b ∧ ∀ x ∈ rest, 0x80 ≤ x ∧ x < 0xC0))

theorem charsFrom_skip : ∀ (rest tail : Bytes), (∀ x ∈ rest, 0x80 ≤ x ∧ x < 0xC0) →
    charsFrom true (rest ++ tail) = charsFrom true tail
  | [], _, _ => rfl
  | x :: rest, tail, h => by
    have hx := h x (by simp)
    rw [List.cons_append, charsFrom, if_pos (by simp [hx.1, hx.2])]
    exact charsFrom_skip rest tail fun y hy => h y (by simp [hy])

theorem charsFrom_lead (skip : Bool) (b : UInt8) (t : Bytes) (h : b < 0x80 ∨ 0xC0 ≤ b) :
    charsFrom skip (b :: t) = 1 + charsFrom (0xC0 ≤ b) t := by
  rw [charsFrom, if_neg]
  rintro hc
  simp only [Bool.and_eq_true, decide_eq_true_eq] at hc
  rcases h with h | h
  · exact absurd hc.2.1 (UInt8.not_le.mpr h)
  · exact absurd hc.2.2 (UInt8.not_lt.mpr h)

/-- C50: what the counter counts of a value are its characters, whatever their length in bytes. -/
theorem c50_characters (cs : List Bytes) (h : ∀ c ∈ cs, Char8 c) : chars cs.flatten = cs.length := by
  have gen : ∀ (cs : List Bytes) (skip : Bool), (∀ c ∈ cs, Char8 c) → charsFrom skip cs.flatten = cs.length := by
    intro cs
    induction cs with
    | nil => intro skip _; rfl
    | cons c cs ih =>
      intro skip h
      obtain ⟨b, rest, rfl, hb⟩ := h c (by simp)
      have ht := fun skip => ih skip fun c hc => h c (by simp [hc])
      rcases hb with ⟨hb, rfl⟩ | ⟨hb, hr⟩
      · rw [List.flatten_cons, List.singleton_append, charsFrom_lead skip b _ (.inl hb), ht, List.length_cons]
        omega
      · rw [List.flatten_cons, List.cons_append, charsFrom_lead skip b _ (.inr hb),
          show decide (0xC0 ≤ b) = true by simpa using hb, charsFrom_skip _ _ hr, ht, List.length_cons]
        omega
  exact gen cs false h

/-- `a`, `é` and `€`. -/
example : (∀ c ∈ ([[97], [0xC3, 0xA9], [0xE2, 0x82, 0xAC]] : List Bytes), Char8 c) ∧
    chars ([[97], [0xC3, 0xA9], [0xE2, 0x82, 0xAC]] : List Bytes).flatten = 3 := by
  refine ⟨?_, by decide⟩
  intro c hc
  simp only [List.mem_cons, List.not_mem_nil, or_false] at hc
  rcases hc with rfl | rfl | rfl
  · exact ⟨_, _, rfl, .inl (by decide)⟩
  · exact ⟨_, _, rfl, .inr (by decide)⟩
  · exact ⟨_, _, rfl, .inr (by decide)⟩

end Bedrock.Cache.Props
