import Verif.Lemmas.LocalWrite
import Verif.Props.DB

/-!
# C131: a local write is whole or nothing, and replication does not notice
-/

namespace Bedrock.LocalWrite.Props
open Bedrock Bedrock.LocalWrite Bedrock.LocalWrite.Spec

/-! ## A small SQLite for the examples -/

/-- One-byte statements over two pages: 1 and 2 count a page up, 3 adds page 0 to page 1, others are errors. -/
def exStmt (b : UInt8) (d : Data) : Option Data :=
  if b = 1 then some (upd d 0 (d 0 + 1))
  else if b = 2 then some (upd d 1 (d 1 + 1))
  else if b = 3 then some (upd d 1 (d 0 + d 1))
  else none

def exTouch (b : UInt8) (p : Nat) : Bool :=
  (p == 0 && (b == 1 || b == 3)) || (p == 1 && (b == 2 || b == 3))

def exEval : Bytes → Data → Option Data
  | [], d => some d
  | b :: t, d => (exStmt b d).bind (exEval t)

def ex : Sqlite where
  pages := 2
  eval := exEval
  touch t _ p := t.any fun b => exTouch b p
  changes t _ := !t.isEmpty

theorem exStmt_frame (b : UInt8) (d d' : Data) (p : Nat) (h : exStmt b d = some d') (ht : exTouch b p = false) : d' p = d p := by
  unfold exStmt at h
  simp only [exTouch, Bool.or_eq_false_iff, Bool.and_eq_false_iff, beq_eq_false_iff_ne, ne_eq] at ht
  split at h
  · injection h with h; subst h; rw [upd_apply, if_neg]; rintro rfl; simp_all
  · split at h
    · injection h with h; subst h; rw [upd_apply, if_neg]; rintro rfl; simp_all
    · split at h
      · injection h with h; subst h; rw [upd_apply, if_neg]; rintro rfl; simp_all
      · cases h

theorem exStmt_depends (b : UInt8) (d e d' : Data) (he : ∀ p, exTouch b p = true → e p = d p) (h : exStmt b d = some d') :
    ∃ e', exStmt b e = some e' ∧ ∀ p, e' p = if exTouch b p then d' p else e p := by
  unfold exStmt at h ⊢
  split at h
  · rename_i hb; subst hb
    injection h with h; subst h
    refine ⟨_, if_pos rfl, fun p => ?_⟩
    rw [upd_apply, upd_apply]
    by_cases hp : p = 0
    · subst hp; rw [if_pos rfl, if_pos rfl, he 0 (by decide)]; rfl
    · rw [if_neg hp, if_neg hp, if_neg]; simp [exTouch, hp]
  · rename_i h1
    rw [if_neg h1]
    split at h
    · rename_i hb; subst hb
      injection h with h; subst h
      refine ⟨_, if_pos rfl, fun p => ?_⟩
      rw [upd_apply, upd_apply]
      by_cases hp : p = 1
      · subst hp; rw [if_pos rfl, if_pos rfl, he 1 (by decide)]; rfl
      · rw [if_neg hp, if_neg hp, if_neg]; simp [exTouch, hp]
    · rename_i h2
      rw [if_neg h2]
      split at h
      · rename_i hb; subst hb
        injection h with h; subst h
        refine ⟨_, if_pos rfl, fun p => ?_⟩
        rw [upd_apply, upd_apply]
        by_cases hp : p = 1
        · subst hp; rw [if_pos rfl, if_pos rfl, he 0 (by decide), he 1 (by decide)]; rfl
        · rw [if_neg hp, if_neg hp]
          split
          · rename_i ht; exact he p ht
          · rfl
      · cases h

theorem ex_frame (t : Bytes) : ∀ (d d' : Data) (p : Nat), exEval t d = some d' → (t.any fun b => exTouch b p) = false → d' p = d p := by
  induction t with
  | nil => intro d d' p h _; injection h with h; rw [h]
  | cons b t ih =>
    intro d d' p h ht
    simp only [List.any_cons, Bool.or_eq_false_iff] at ht
    obtain ⟨d1, h1, h2⟩ := Option.bind_eq_some_iff.mp h
    rw [ih d1 d' p h2 ht.2, exStmt_frame b d d1 p h1 ht.1]

theorem ex_depends (t : Bytes) : ∀ (d e d' : Data), (∀ p, (t.any fun b => exTouch b p) = true → e p = d p) → exEval t d = some d' →
    ∃ e', exEval t e = some e' ∧ ∀ p, e' p = if (t.any fun b => exTouch b p) then d' p else e p := by
  induction t with
  | nil => intro d e d' _ _; exact ⟨e, rfl, fun p => rfl⟩
  | cons b t ih =>
    intro d e d' he h
    obtain ⟨d1, h1, h2⟩ := Option.bind_eq_some_iff.mp h
    obtain ⟨e1, h3, h4⟩ := exStmt_depends b d e d1 (fun p hp => he p (by simp [hp])) h1
    obtain ⟨e', h5, h6⟩ := ih d1 e1 d' (fun p hp => by
      rw [h4]
      split
      · rfl
      · rename_i hb
        rw [he p (by rw [List.any_cons, hp, Bool.or_true])]
        exact (exStmt_frame b d d1 p h1 (by simpa using hb)).symm) h2
    refine ⟨e', Option.bind_eq_some_iff.mpr ⟨e1, h3, h5⟩, fun p => ?_⟩
    rw [h6, h4, List.any_cons]
    cases hb : exTouch b p <;> cases ht : t.any (fun b => exTouch b p)
    · rfl
    · rfl
    · simp only [Bool.or_false, if_true]; exact (ex_frame t d1 d' p h2 ht).symm
    · rfl

theorem ex_lawful : Lawful ex where
  bounded t d p h := by
    obtain ⟨b, _, hb⟩ := List.any_eq_true.mp h
    simp only [exTouch, Bool.or_eq_true, Bool.and_eq_true, beq_iff_eq] at hb
    show p < 2
    omega
  frame t d d' p h ht := ex_frame t d d' p h ht
  depends t d e d' he h := ex_depends t d e d' he h
  quiet t d d' h he := by
    cases t with
    | nil => injection he with he; exact he.symm
    | cons b t => cases h
  empty d := rfl
  append a b d := by
    show exEval (a ++ b) d = (exEval a d).bind (exEval b)
    induction a generalizing d with
    | nil => rfl
    | cons x a ih =>
      show (exStmt x d).bind (exEval (a ++ b)) = ((exStmt x d).bind (exEval a)).bind (exEval b)
      cases exStmt x d with
      | none => rfl
      | some d1 => exact ih d1

def ex0 : Data := fun _ => 1

/-! ## The data of a node -/

/-- What a node ends with, and what was observed. -/
abbrev last (env : DB.Env) (q : Sqlite) (d0 : Data) (os : List Op) : St := (run env q (init env d0) os).1
abbrev trace (env : DB.Env) (q : Sqlite) (d0 : Data) (os : List Op) : List (Op × Out) := (run env q (init env d0) os).2

/-- **C131** However threads interleave and wherever the process dies, the data of a node is what its committed
transactions and the local writes that returned `true`, each as a whole, make of the data it started with, one after the
other in the order in which they ended.  A local write that returned `false`, or never returned, has done nothing. -/
theorem c131_data (env : DB.Env) (q : Sqlite) (hl : Lawful q) (d0 : Data) (os : List Op) (hp : Plain os) :
    replay q ((events (trace env q d0 os)).map Ev.text) d0 = some (last env q d0 os).data ∧
    (events (trace env q d0 os)).filterMap Ev.shared = (DB.Spec.view (dbTrace (trace env q d0 os))).log := by
  have hi := inv_run (env := env) hl os (inv_init env q d0) hp
  refine ⟨hi.data, ?_⟩
  have := hi.shared
  rw [seen_db] at this
  exact this

/-- Two local writes, one of which meets a replicated transaction on the page it read, one that is cut short, and commits
that are disabled for replicated transactions. -/
def exRun : List Op :=
  [.lbegin 0 true, .begin 1 false false true, .write 1 [1] false, .lrun 0 (.sql [3]), .prepare 1 true [] true, .commit 1 true,
   .lend 0 true, .lbegin 0 true, .lrun 0 (.sql [3]), .lend 0 true, .setCommitEnabled 5 false,
   .lbegin 2 true, .lrun 2 (.sql [2, 2]), .lend 2 true, .lbegin 2 true, .lrun 2 (.sql [1, 9]), .lend 2 true,
   .lbegin 0 true, .lrun 0 (.sql [1]), .crash]

theorem exRun_plain : Plain exRun := by
  intro o ho h x hx
  subst hx
  simp only [exRun, List.mem_cons, List.not_mem_nil, or_false, reduceCtorEq, false_or, Op.lrun.injEq] at ho
  rcases ho with ⟨-, rfl⟩ | ⟨-, rfl⟩ | ⟨-, rfl⟩ | ⟨-, rfl⟩ | ⟨-, rfl⟩ <;> exact ⟨_, rfl⟩

example : (trace DB.exEnv ex ex0 exRun).filterMap (fun e => match e.2 with | .local' b => some b | _ => none) = [false, true, true, false] ∧
    events (trace DB.exEnv ex ex0 exRun) = [.replicated [1], .own [3], .own [2, 2]] ∧
    (last DB.exEnv ex ex0 exRun).data 0 = 2 ∧ (last DB.exEnv ex ex0 exRun).data 1 = 5 := by decide +kernel

/-- **C131** The journal, the commit number, the hashes and the feed of a node with local writes are those of a node on
which the same calls were made with the same results and no local write at all: C01 to C10 hold for it as they stand. -/
theorem c131_replication_untouched (env : DB.Env) (q : Sqlite) (d0 : Data) (os : List Op) :
    (last env q d0 os).sys = DB.final env ((dbTrace (trace env q d0 os)).map Prod.fst) ∧
    dbTrace (trace env q d0 os) = DB.trace env ((dbTrace (trace env q d0 os)).map Prod.fst) := by
  have h := run_sys env q os (init env d0)
  unfold DB.final DB.trace
  show _ = (DB.run env (init env d0).sys _).1 ∧ _ = (DB.run env (init env d0).sys _).2
  rw [h]
  exact ⟨rfl, rfl⟩

/-- A local write is no call on the database layer: it adds nothing to that trace. -/
theorem c131_no_journal (env : DB.Env) (q : Sqlite) (st : St) (h : Nat) (b : Bool) (x : Piece) (op : Op)
    (ho : op = .lbegin h b ∨ op = .lrun h x ∨ op = .lend h b) :
    (step env q st op).1.sys = st.sys ∧ dbTrace [(op, (step env q st op).2)] = [] := by
  have hno : (∀ o r, (step env q st op).2 ≠ .db o r) ∧ (step env q st op).1.sys = st.sys := by
    rcases step_sys env q st op with ⟨o, h1, _⟩ | h1
    · exfalso
      have : ∀ o r, (step env q st op).2 ≠ .db o r := by
        intro o r
        rcases ho with rfl | rfl | rfl
        · dsimp only [step]; split; simp; split; simp; split <;> simp
        · dsimp only [step]; split
          · simp
          · simp
          · split
            · dsimp only; split <;> simp
            · split <;> simp
            · split <;> simp
            · simp
            · simp
        · dsimp only [step]; split
          · simp
          · split <;> simp
      exact this _ _ h1
    · exact h1
  refine ⟨hno.2, ?_⟩
  have h1 := hno.1
  unfold dbTrace
  generalize (step env q st op).2 = w at h1
  cases w with
  | db o r => exact absurd rfl (h1 o r)
  | _ => rfl

example : (DB.Spec.view (dbTrace (trace DB.exEnv ex ex0 exRun))).log = [[1]] ∧ ((dbTrace (trace DB.exEnv ex ex0 exRun)).map Prod.fst).length = 6 := by
  decide +kernel

/-- **C131** The data changes at three moments only: a commit that succeeds, one that is on disk when the process dies, and
the return of a local write with `true`. -/
theorem c131_moment (env : DB.Env) (q : Sqlite) (hl : Lawful q) (d0 : Data) (os : List Op) (hp : Plain os) (op : Op)
    (ho : ∀ h x, op = .lrun h x → ∃ t, x = .sql t)
    (hc : (step env q (last env q d0 os) op).1.data ≠ (last env q d0 os).data) :
    (∃ o, (step env q (last env q d0 os) op).2 = .db o .committed) ∨
    (∃ h luck, op = .lend h luck ∧ (step env q (last env q d0 os) op).2 = .local' true) := by
  have hi := inv_run (env := env) hl os (inv_init env q d0) hp
  generalize (trace env q d0 os).foldl Seen.step {} = v at hi
  change I q d0 (last env q d0 os) v at hi
  generalize last env q d0 os = st at hi hc ⊢
  cases op with
  | begin h e sy ok => dsimp only [step] at hc; split at hc <;> exact absurd rfl hc
  | write h t a =>
    dsimp only [step] at hc
    split at hc
    · exact absurd rfl hc
    · split at hc <;> exact absurd rfl hc
  | prepare h w p ok => dsimp only [step] at hc; split at hc <;> exact absurd rfl hc
  | rollback h => dsimp only [step] at hc; split at hc <;> exact absurd rfl hc
  | setCommitEnabled t e => exact absurd rfl hc
  | pop => exact absurd rfl hc
  | crash => exact absurd rfl hc
  | commit h l =>
    refine .inl ?_
    dsimp only [step] at hc ⊢
    split at hc
    · exact absurd rfl hc
    · rename_i hloc
      rw [if_neg hloc]
      dsimp only [dbStep] at hc ⊢
      split at hc
      · rename_i hr; exact ⟨_, by rw [hr]⟩
      · exact absurd rfl hc
  | crashInCommit h =>
    refine .inl ?_
    dsimp only [step] at hc ⊢
    split at hc
    · exact absurd rfl hc
    · rename_i d hd
      dsimp only [dbStep] at hc ⊢
      split at hc
      · rename_i hr; exact ⟨_, by rw [hr]⟩
      · exact absurd rfl hc
  | lbegin h ok =>
    dsimp only [step] at hc
    split at hc
    · exact absurd rfl hc
    · split at hc
      · exact absurd rfl hc
      · split at hc <;> exact absurd rfl hc
  | lrun h x =>
    obtain ⟨t, rfl⟩ := ho h x rfl
    dsimp only [step] at hc
    cases hloc : st.loc h with
    | none => rw [hloc] at hc; exact absurd rfl hc
    | some b =>
      rw [hloc] at hc
      cases b with
      | false => exact absurd rfl hc
      | true =>
        obtain ⟨t', ht, _⟩ := hi.loc h hloc
        rw [ht] at hc
        exact absurd rfl hc
  | lend h luck =>
    refine .inr ⟨h, luck, rfl, ?_⟩
    dsimp only [step] at hc ⊢
    cases hloc : st.loc h with
    | none => rw [hloc] at hc; exact absurd rfl hc
    | some b =>
      rw [hloc] at hc
      dsimp only at hc ⊢
      split at hc
      · rfl
      · exact absurd rfl hc

example : (step DB.exEnv ex (last DB.exEnv ex ex0 (exRun.take 13)) (.lend 2 true)).1.data 1 ≠ (last DB.exEnv ex ex0 (exRun.take 13)).data 1 := by
  decide +kernel

/-! ## The handle -/

theorem begin_done (s : DB.Sys) (h : Nat) (e sy ok : Bool) (hd : (DB.begin' s h e sy ok).2 = .done) :
    ins (DB.begin' s h e sy ok).1 h = true := by
  have hok := (ins_begin s h e sy ok h).2.2.1 hd
  subst hok
  revert hd
  unfold DB.begin'
  split
  · intro hd; cases sy <;> cases hd
  · dsimp only
    generalize (if e = true then _ else s : DB.Sys) = s1
    split
    · intro hd; cases hd
    · intro _; simp [ins, upd_apply]

theorem write_on (env : DB.Env) (q : Sqlite) (st : St) (h : Nat) (t : Bytes) (a : Bool) (hin : ins st.sys h = true) (hloc : st.loc h = none) :
    ins (step env q st (.write h t a)).1.sys h = true ∧ (step env q st (.write h t a)).1.loc h = none := by
  have key : ∀ (keep ok : Bool) (tx : DB.Out → Nat → Option Tx),
      ins (dbStep env st (.write h t keep ok) (fun _ => st.data) tx).1.sys h = true ∧
      (dbStep env st (.write h t keep ok) (fun _ => st.data) tx).1.loc h = none := by
    intro keep ok tx
    have hw := ins_write st.sys h t keep ok h
    have hs : DB.step env st.sys (.write h t keep ok) = DB.write st.sys h t keep ok := by
      rw [step_of env st.sys _ _ rfl]
      refine if_neg ?_
      rcases hw.1 with ⟨h, _⟩ | ⟨h, _⟩ <;> rw [h] <;> simp
    refine ⟨?_, ?_⟩
    · show ins (DB.step env st.sys _).1 h = true
      rw [hs, hw.2, hin]
    · show (if _ then none else st.loc h) = none
      rw [hloc]; split <;> rfl
  dsimp only [step]
  rw [hloc, if_neg (by simp)]
  cases st.tx h with
  | none => exact key _ _ _
  | some t' => exact key _ _ _

/-- **C131** On a handle with a transaction open the call returns `false` and leaves that transaction, and everything else,
as it is. -/
theorem c131_refused (env : DB.Env) (q : Sqlite) (st : St) (h : Nat) (e sy ok ok' : Bool) (ws : List (Bytes × Bool)) (o : DB.Op)
    (hb : (step env q st (.begin h e sy ok)).2 = .db o .done) :
    let st' := (run env q (step env q st (.begin h e sy ok)).1 (ws.map fun w => .write h w.1 w.2)).1
    step env q st' (.lbegin h ok') = (st', .local' false) := by
  have h0 : ins (step env q st (.begin h e sy ok)).1.sys h = true ∧ (step env q st (.begin h e sy ok)).1.loc h = none := by
    dsimp only [step] at hb ⊢
    split at hb
    · cases hb
    · rename_i hloc
      rw [if_neg hloc]
      have hloc : st.loc h = none := by
        cases hx : st.loc h
        · rfl
        · rw [hx] at hloc; exact absurd rfl hloc
      have hr : (DB.step env st.sys (.begin h e sy (ok && (st.tx h).isNone))).2 = .done := by
        injection hb
      have hs : DB.step env st.sys (.begin h e sy (ok && (st.tx h).isNone)) = DB.begin' st.sys h e sy (ok && (st.tx h).isNone) := by
        rw [step_of env st.sys _ _ rfl, if_neg (ins_begin _ _ _ _ _ 0).1]
      refine ⟨?_, ?_⟩
      · show ins (DB.step env st.sys _).1 h = true
        rw [hs] at hr ⊢
        exact begin_done _ _ _ _ _ hr
      · show (if _ then none else st.loc h) = none
        rw [hloc]; split <;> rfl
  have all : ∀ (ws : List (Bytes × Bool)) (s : St), ins s.sys h = true ∧ s.loc h = none →
      ins (run env q s (ws.map fun w => .write h w.1 w.2)).1.sys h = true ∧ (run env q s (ws.map fun w => .write h w.1 w.2)).1.loc h = none := by
    intro ws
    induction ws with
    | nil => intro s hs; exact hs
    | cons w ws ih => intro s hs; exact ih _ (write_on env q s h w.1 w.2 hs.1 hs.2)
  obtain ⟨h1, h2⟩ := all ws _ h0
  intro st'
  show step env q st' (.lbegin h ok') = _
  have h1 : (st'.sys.handles h).inside = true := h1
  have h2 : st'.loc h = none := h2
  dsimp only [step]
  rw [h2, if_neg (by simp), if_pos h1]

example : (step DB.exEnv ex (init DB.exEnv ex0) (.begin 0 false false true)).2 = .db (.begin 0 false false true) .done := by
  decide +kernel

/-- **C131** When the call has returned, with whatever result, the handle is free: a transaction can be begun on it as if
there had been no local write. -/
theorem c131_handle_usable (env : DB.Env) (q : Sqlite) (st : St) (h : Nat) (luck e sy ok b : Bool)
    (hr : (step env q st (.lend h luck)).2 = .local' b) :
    (step env q (step env q st (.lend h luck)).1 (.begin h e sy ok)).2 =
      .db (.begin h e sy ok) (DB.step env st.sys (.begin h e sy ok)).2 := by
  have key : ∀ d, (step env q { sys := st.sys, data := d, tx := upd st.tx h none, loc := upd st.loc h none } (.begin h e sy ok)).2 =
      .db (.begin h e sy ok) (DB.step env st.sys (.begin h e sy ok)).2 := by
    intro d
    have h1 : upd st.loc h none h = none := by rw [upd_apply, if_pos rfl]
    have h2 : upd st.tx h none h = none := by rw [upd_apply, if_pos rfl]
    simp only [step, h1, h2, dbStep]
    simp
  have hs : ∃ d, (step env q st (.lend h luck)).1 = { sys := st.sys, data := d, tx := upd st.tx h none, loc := upd st.loc h none } := by
    dsimp only [step] at hr ⊢
    cases hl : st.loc h with
    | none => rw [hl] at hr; cases hr
    | some x =>
      dsimp only
      split
      · exact ⟨_, rfl⟩
      · exact ⟨_, rfl⟩
  obtain ⟨d, hd⟩ := hs
  rw [hd]
  exact key d

example : (step DB.exEnv ex (last DB.exEnv ex ex0 (exRun.take 16)) (.lend 2 true)).2 = .local' false := by decide +kernel

/-- **C131** A text that evaluates, on a handle that is not busy, with nobody else committing meanwhile: the call succeeds
and the data is what the text makes of it.  Nothing is asked of the commit lock, of whether commits are enabled or of any
other handle. -/
theorem c131_succeeds (env : DB.Env) (q : Sqlite) (hl : Lawful q) (d0 : Data) (os : List Op) (h : Nat) (text : Bytes) (d : Data)
    (hin : ((last env q d0 os).sys.handles h).inside = false) (hloc : (last env q d0 os).loc h = none)
    (he : q.eval text (last env q d0 os).data = some d) :
    let r := run env q (last env q d0 os) [.lbegin h true, .lrun h (.sql text), .lend h true]
    r.2.map Prod.snd = [.going, .going, .local' true] ∧ r.1.data = d ∧ r.1.sys = (last env q d0 os).sys := by
  have hidle : Idle (last env q d0 os) := idle_run env q os (fun _ _ _ => rfl)
  generalize last env q d0 os = st at hin hloc he hidle ⊢
  have htx : st.tx h = none := hidle h hin hloc
  have s1 : step env q st (.lbegin h true) = ({ st with
      tx := upd st.tx h (some (fresh st.data))
      loc := upd st.loc h (some true) }, .going) := by
    dsimp only [step]
    rw [hloc, if_neg (by simp), hin, if_neg (by simp), htx, if_neg (by simp)]
  have hex : exec q (fresh st.data) text = ({ base := st.data, mine := d, seen := fun p => false || q.touch text st.data p }, true) := by
    unfold exec
    have he : q.eval text (fresh st.data).mine = some d := he
    dsimp only
    rw [he]; rfl
  have s2 : step env q { st with tx := upd st.tx h (some (fresh st.data)), loc := upd st.loc h (some true) } (.lrun h (.sql text)) =
      ({ st with tx := upd (upd st.tx h (some (fresh st.data))) h (some (exec q (fresh st.data) text).1)
                 loc := upd (upd st.loc h (some true)) h (some true) }, .going) := by
    dsimp only [step]
    simp only [upd_apply, if_true, hex]
  have hm : merged (exec q (fresh st.data) text).1 st.data = d := by
    funext p
    rw [hex]
    show (if (false || q.touch text st.data p) = true then d p else st.data p) = d p
    rw [Bool.false_or]
    split
    · rfl
    · rename_i ht
      exact (hl.frame text st.data d p he (by simpa using ht)).symm
  have hf : fits q (exec q (fresh st.data) text).1 st.data = true := by
    unfold fits
    rw [List.all_eq_true]
    intro p _
    rw [hex]
    simp
  have s3 : step env q { st with tx := upd (upd st.tx h (some (fresh st.data))) h (some (exec q (fresh st.data) text).1)
                                 loc := upd (upd st.loc h (some true)) h (some true) } (.lend h true) =
      ({ st with data := d
                 tx := upd (upd (upd st.tx h (some (fresh st.data))) h (some (exec q (fresh st.data) text).1)) h none
                 loc := upd (upd (upd st.loc h (some true)) h (some true)) h none }, .local' true) := by
    dsimp only [step]
    simp only [upd_apply, if_true, commitTx, hf, Bool.and_self, hm]
  intro r
  have hr : r = run env q st [.lbegin h true, .lrun h (.sql text), .lend h true] := rfl
  simp only [run, s1, s2, s3] at hr
  rw [hr]
  exact ⟨rfl, rfl, rfl⟩

/-- It is so with commits disabled, as they are while a server shuts down, and while another handle holds the commit lock. -/
example : let os := [.setCommitEnabled 5 false, .begin 1 true false true]
    (last DB.exEnv ex ex0 os).sys.commitEnabled = false ∧
    ((last DB.exEnv ex ex0 os).sys.handles 0).inside = false ∧ (last DB.exEnv ex ex0 os).loc 0 = none ∧
    (ex.eval [3] (last DB.exEnv ex ex0 os).data).isSome = true := by decide +kernel

/-! ## Nodes with different local writes -/

/-- Local writes that leave a part of the data alone. -/
theorem own_only {α : Type} (q : Sqlite) (part : Data → α) (l : List Ev) : ∀ (d d' : Data),
    (∀ t, Ev.own t ∈ l → ∀ d d', q.eval t d = some d' → part d' = part d) →
    l.filterMap Ev.shared = [] → replay q (l.map Ev.text) d = some d' → part d' = part d := by
  induction l with
  | nil => intro d d' _ _ h; injection h with h; rw [h]
  | cons x l ih =>
    intro d d' ho hf h
    cases x with
    | replicated t => cases hf
    | own t =>
      have h : (q.eval t d).bind (replay q (l.map Ev.text)) = some d' := h
      obtain ⟨d1, h1, h2⟩ := Option.bind_eq_some_iff.mp h
      rw [ih d1 d' (fun t ht => ho t (List.mem_cons_of_mem _ ht)) hf h2]
      exact ho t List.mem_cons_self d d1 h1

/-- Up to the next replicated transaction. -/
theorem to_next {α : Type} (q : Sqlite) (part : Data → α) (t : Bytes) (s : List Bytes) (l : List Ev) : ∀ (d d' : Data),
    (∀ t, Ev.own t ∈ l → ∀ d d', q.eval t d = some d' → part d' = part d) →
    l.filterMap Ev.shared = t :: s → replay q (l.map Ev.text) d = some d' →
    ∃ (d1 d2 : Data) (r : List Ev), part d1 = part d ∧ q.eval t d1 = some d2 ∧ replay q (r.map Ev.text) d2 = some d' ∧
      r.filterMap Ev.shared = s ∧ ∀ x ∈ r, x ∈ l := by
  induction l with
  | nil => intro d d' _ hf; cases hf
  | cons x l ih =>
    intro d d' ho hf h
    cases x with
    | replicated t' =>
      have h : (q.eval t' d).bind (replay q (l.map Ev.text)) = some d' := h
      obtain ⟨d1, h1, h2⟩ := Option.bind_eq_some_iff.mp h
      have hf : t' :: l.filterMap Ev.shared = t :: s := hf
      injection hf with e1 e2
      subst e1
      exact ⟨d, d1, l, rfl, h1, h2, e2, fun x hx => List.mem_cons_of_mem _ hx⟩
    | own t' =>
      have h : (q.eval t' d).bind (replay q (l.map Ev.text)) = some d' := h
      obtain ⟨d1, h1, h2⟩ := Option.bind_eq_some_iff.mp h
      obtain ⟨a, b, r, h3, h4, h5, h6, h7⟩ := ih d1 d' (fun t ht => ho t (List.mem_cons_of_mem _ ht)) hf h2
      refine ⟨a, b, r, ?_, h4, h5, h6, fun x hx => List.mem_cons_of_mem _ (h7 x hx)⟩
      rw [h3]; exact ho t' List.mem_cons_self d d1 h1

theorem parts {α : Type} (q : Sqlite) (part : Data → α)
    (l : List Ev) : ∀ (m : List Ev) (d e d' e' : Data),
    (∀ t, Ev.own t ∈ l ∨ Ev.own t ∈ m → ∀ d d', q.eval t d = some d' → part d' = part d) →
    (∀ t, Ev.replicated t ∈ l → ∀ d e d' e', part d = part e → q.eval t d = some d' → q.eval t e = some e' → part d' = part e') →
    l.filterMap Ev.shared = m.filterMap Ev.shared → part d = part e →
    replay q (l.map Ev.text) d = some d' → replay q (m.map Ev.text) e = some e' → part d' = part e' := by
  induction l with
  | nil =>
    intro m d e d' e' ho _ hf hd h1 h2
    injection h1 with h1; subst h1
    rw [hd]
    exact (own_only q part m e e' (fun t ht => ho t (.inr ht)) hf.symm h2).symm
  | cons x l ih =>
    intro m d e d' e' ho hs hf hd h1 h2
    have ho' : ∀ t, Ev.own t ∈ l ∨ Ev.own t ∈ m → ∀ d d', q.eval t d = some d' → part d' = part d := by
      intro t ht
      rcases ht with ht | ht
      · exact ho t (.inl (List.mem_cons_of_mem _ ht))
      · exact ho t (.inr ht)
    have hs' : ∀ t, Ev.replicated t ∈ l → ∀ d e d' e', part d = part e → q.eval t d = some d' → q.eval t e = some e' → part d' = part e' :=
      fun t ht => hs t (List.mem_cons_of_mem _ ht)
    cases x with
    | own t =>
      have h1 : (q.eval t d).bind (replay q (l.map Ev.text)) = some d' := h1
      obtain ⟨d1, h3, h4⟩ := Option.bind_eq_some_iff.mp h1
      refine ih m d1 e d' e' ho' hs' hf ?_ h4 h2
      rw [ho t (.inl List.mem_cons_self) d d1 h3, hd]
    | replicated t =>
      have h1 : (q.eval t d).bind (replay q (l.map Ev.text)) = some d' := h1
      obtain ⟨d1, h3, h4⟩ := Option.bind_eq_some_iff.mp h1
      obtain ⟨a, b, r, h5, h6, h7, h8, h9⟩ := to_next q part t _ m e e' (fun t ht => ho t (.inr ht)) hf.symm h2
      refine ih r d1 b d' e' ?_ hs' h8.symm ?_ h4 h7
      · intro t' ht
        rcases ht with ht | ht
        · exact ho' t' (.inl ht)
        · exact ho' t' (.inr (h9 _ ht))
      · exact hs t List.mem_cons_self d a d1 b (by rw [hd, h5]) h3 h6

/-- **C131** Take a part of the data that no local write of either node changes, and on which what replicated transactions do
to it depends alone.  Two nodes that started with it equal and committed the same transactions have it equal, whatever
local writes each of them made, and however they fell between the transactions. -/
theorem c131_nodes_agree {α : Type} (part : Data → α) (e₁ e₂ : DB.Env) (q : Sqlite) (hl : Lawful q) (d₁ d₂ : Data)
    (os₁ os₂ : List Op) (p₁ : Plain os₁) (p₂ : Plain os₂)
    (hown : ∀ t, Ev.own t ∈ events (trace e₁ q d₁ os₁) ∨ Ev.own t ∈ events (trace e₂ q d₂ os₂) →
      ∀ d d', q.eval t d = some d' → part d' = part d)
    (hrep : ∀ t ∈ (DB.Spec.view (dbTrace (trace e₁ q d₁ os₁))).log,
      ∀ d e d' e', part d = part e → q.eval t d = some d' → q.eval t e = some e' → part d' = part e')
    (h0 : part d₁ = part d₂)
    (hh : (DB.Spec.view (dbTrace (trace e₁ q d₁ os₁))).log = (DB.Spec.view (dbTrace (trace e₂ q d₂ os₂))).log) :
    part (last e₁ q d₁ os₁).data = part (last e₂ q d₂ os₂).data := by
  obtain ⟨a₁, b₁⟩ := c131_data e₁ q hl d₁ os₁ p₁
  obtain ⟨a₂, b₂⟩ := c131_data e₂ q hl d₂ os₂ p₂
  refine parts q part _ _ d₁ d₂ _ _ hown ?_ (by rw [b₁, b₂, hh]) h0 a₁ a₂
  intro t ht
  refine hrep t ?_
  rw [← b₁]
  exact List.mem_filterMap.mpr ⟨_, ht, rfl⟩

/-- **C131** The same from hashes: nodes at the same commit with the same hash have that part of the data equal, or two of
their transactions collide under the hash function. -/
theorem c131_hash_agree {α : Type} (part : Data → α) (e₁ e₂ : DB.Env) (q : Sqlite) (hl : Lawful q) (d₁ d₂ : Data)
    (os₁ os₂ : List Op) (p₁ : Plain os₁) (p₂ : Plain os₂)
    (H : Bytes → Bytes) (k : Nat) (hk : 0 < k) (hlen : ∀ x, (H x).length = k) (h₁ : e₁.sha1hex = H) (h₂ : e₂.sha1hex = H)
    (n₁ : 0 < e₁.numJournals) (n₂ : 0 < e₂.numJournals)
    (c₁ : DB.Spec.Disciplined {} (dbTrace (trace e₁ q d₁ os₁))) (c₂ : DB.Spec.Disciplined {} (dbTrace (trace e₂ q d₂ os₂)))
    (hown : ∀ t, Ev.own t ∈ events (trace e₁ q d₁ os₁) ∨ Ev.own t ∈ events (trace e₂ q d₂ os₂) →
      ∀ d d', q.eval t d = some d' → part d' = part d)
    (hrep : ∀ t ∈ (DB.Spec.view (dbTrace (trace e₁ q d₁ os₁))).log,
      ∀ d e d' e', part d = part e → q.eval t d = some d' → q.eval t e = some e' → part d' = part e')
    (h0 : part d₁ = part d₂) (r₁ r₂ : DB.Row) (N : Nat)
    (l₁ : (DB.Spec.view (dbTrace (trace e₁ q d₁ os₁))).log.length = N)
    (l₂ : (DB.Spec.view (dbTrace (trace e₂ q d₂ os₂))).log.length = N)
    (g₁ : DB.getCommit e₁ (last e₁ q d₁ os₁).sys.tables N = some r₁)
    (g₂ : DB.getCommit e₂ (last e₂ q d₂ os₂).sys.tables N = some r₂)
    (hh : r₁.hash = r₂.hash) :
    part (last e₁ q d₁ os₁).data = part (last e₂ q d₂ os₂).data ∨ ∃ x y, DB.Spec.Collision H x y := by
  obtain ⟨f₁, t₁⟩ := c131_replication_untouched e₁ q d₁ os₁
  obtain ⟨f₂, t₂⟩ := c131_replication_untouched e₂ q d₂ os₂
  have v₁ : DB.history e₁ ((dbTrace (trace e₁ q d₁ os₁)).map Prod.fst) = (DB.Spec.view (dbTrace (trace e₁ q d₁ os₁))).log := by
    unfold DB.history; rw [← t₁]
  have v₂ : DB.history e₂ ((dbTrace (trace e₂ q d₂ os₂)).map Prod.fst) = (DB.Spec.view (dbTrace (trace e₂ q d₂ os₂))).log := by
    unfold DB.history; rw [← t₂]
  rcases DB.c01_same_hash_same_history e₁ e₂ H k hk hlen h₁ h₂ n₁ n₂ _ _ (by rw [← t₁]; exact c₁) (by rw [← t₂]; exact c₂)
    r₁ r₂ N (by rw [← f₁]; exact g₁) (by rw [← f₂]; exact g₂) hh with h | ⟨i, x, y, _, _, _, h⟩
  · left
    rw [v₁, v₂, List.take_of_length_le (by omega), List.take_of_length_le (by omega)] at h
    exact c131_nodes_agree part e₁ e₂ q hl d₁ d₂ os₁ os₂ p₁ p₂ hown hrep h0 h
  · exact .inr ⟨_, _, h⟩

/-- A node that counts page 0 up for itself before and after a replicated transaction on page 1, and one that does not. -/
def exA : List Op :=
  [.lbegin 0 true, .lrun 0 (.sql [1]), .lend 0 true, .begin 0 false false true, .write 0 [2] false, .prepare 0 true [] true, .commit 0 true,
   .lbegin 1 true, .lrun 1 (.sql [1]), .lend 1 true]

def exB : List Op := [.begin 0 false false true, .write 0 [2] false, .prepare 0 true [] true, .commit 0 true]

theorem exA_plain : Plain exA := by
  intro o ho h x hx
  subst hx
  simp only [exA, List.mem_cons, List.not_mem_nil, or_false, reduceCtorEq, false_or, Op.lrun.injEq] at ho
  rcases ho with ⟨-, rfl⟩ | ⟨-, rfl⟩ <;> exact ⟨_, rfl⟩

theorem exB_plain : Plain exB := by
  intro o ho h x hx
  subst hx
  simp [exB] at ho

/-- The hypotheses of the two theorems above hold of them, for page 1; page 0 differs. -/
example : (last DB.exEnv ex ex0 exA).data 1 = (last DB.exEnv ex ex0 exB).data 1 := by
  have ha : events (trace DB.exEnv ex ex0 exA) = [.own [1], .replicated [2], .own [1]] := by decide +kernel
  have hb : events (trace DB.exEnv ex ex0 exB) = [.replicated [2]] := by decide +kernel
  have hv : (DB.Spec.view (dbTrace (trace DB.exEnv ex ex0 exA))).log = [[2]] := by decide +kernel
  have hw : (DB.Spec.view (dbTrace (trace DB.exEnv ex ex0 exB))).log = [[2]] := by decide +kernel
  refine c131_nodes_agree (fun d => d 1) DB.exEnv DB.exEnv ex ex_lawful ex0 ex0 exA exB exA_plain exB_plain ?_ ?_ rfl (by rw [hv, hw])
  · intro t ht d d' he
    rw [ha, hb] at ht
    have ht : t = [1] := by simpa using ht
    subst ht
    exact ex_lawful.frame [1] d d' 1 he rfl
  · intro t ht d e d' e' hde h1 h2
    rw [hv] at ht
    have ht : t = [2] := by simpa using ht
    subst ht
    injection h1 with h1; injection h2 with h2
    subst h1; subst h2
    show d 1 + 1 = e 1 + 1
    have hde : d 1 = e 1 := hde
    rw [hde]

example : DB.Spec.Disciplined {} (dbTrace (trace DB.exEnv ex ex0 exA)) ∧ DB.Spec.Disciplined {} (dbTrace (trace DB.exEnv ex ex0 exB)) ∧
    (DB.getCommit DB.exEnv (last DB.exEnv ex ex0 exA).sys.tables 1).isSome = true ∧
    (DB.getCommit DB.exEnv (last DB.exEnv ex ex0 exA).sys.tables 1).map (·.hash) =
      (DB.getCommit DB.exEnv (last DB.exEnv ex ex0 exB).sys.tables 1).map (·.hash) ∧
    (last DB.exEnv ex ex0 exA).data 0 ≠ (last DB.exEnv ex ex0 exB).data 0 := by decide +kernel

/-! ## Where it is less than it seems -/

/-- **C131, limit** A `COMMIT` in the text: the part before it is in the database for good, and the call returns `false`.
The second transaction, which there no longer is, is why `COMMIT` then fails. -/
theorem c131_commit_inside_partial :
    let os : List Op := [.lbegin 0 true, .lrun 0 (.sql [1]), .lrun 0 (.commit true), .lend 0 true, .crash]
    (trace DB.exEnv ex ex0 os).map Prod.snd = [.going, .going, .going, .local' false, .db .crash .done] ∧
    (last DB.exEnv ex ex0 os).data 0 = 2 := by decide +kernel

/-- **C131, limit** A local write on data that a replicated statement reads: the same transaction leaves different data on
two nodes, with the same commit number and the same hash. -/
theorem c131_nodes_diverge_partial :
    let t : List Op := [.begin 0 false false true, .write 0 [3] false, .prepare 0 true [] true, .commit 0 true]
    let os : List Op := [.lbegin 0 true, .lrun 0 (.sql [1]), .lend 0 true] ++ t
    (DB.getCommit DB.exEnv (last DB.exEnv ex ex0 os).sys.tables 1).isSome = true ∧
    DB.getCommit DB.exEnv (last DB.exEnv ex ex0 os).sys.tables 1 = DB.getCommit DB.exEnv (last DB.exEnv ex ex0 t).sys.tables 1 ∧
    (last DB.exEnv ex ex0 os).sys.lastHash = (last DB.exEnv ex ex0 t).sys.lastHash ∧
    (last DB.exEnv ex ex0 os).data 1 = 3 ∧ (last DB.exEnv ex ex0 t).data 1 = 2 := by decide +kernel

/-- **C131, limit** A local write that lands between the statements of a replicated transaction and its commit makes that
commit fail, if they meet on a page; the commit lock, which the transaction holds, does not keep it out. -/
theorem c131_conflicts_partial :
    let a : List Op := [.begin 0 true false true, .write 0 [3] false, .prepare 0 true [] true]
    let l : List Op := [.lbegin 1 true, .lrun 1 (.sql [1]), .lend 1 true]
    (∃ o, (trace DB.exEnv ex ex0 (a ++ [.commit 0 true])).getLast?.map Prod.snd = some (.db o .committed)) ∧
    (trace DB.exEnv ex ex0 (a ++ l ++ [.commit 0 true])).getLast?.map Prod.snd = some (.db (.commit 0 false) .conflict) ∧
    (last DB.exEnv ex ex0 (a ++ l)).sys.lock.isSome = true := by
  refine ⟨⟨.commit 0 true, ?_⟩, ?_, ?_⟩ <;> decide +kernel

end Bedrock.LocalWrite.Props
