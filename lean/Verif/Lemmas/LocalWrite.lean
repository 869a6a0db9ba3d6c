import Verif.Spec.LocalWrite
import Verif.Lemmas.DB

/-! # Lemmas for local writes -/

namespace Bedrock.LocalWrite
open Bedrock Bedrock.LocalWrite.Spec

/-! ## Which handles are inside a transaction -/

/-- The flag of a handle. -/
abbrev ins (s : DB.Sys) (k : Nat) : Bool := (s.handles k).inside

theorem ins_release (s : DB.Sys) (k : Nat) : ins (DB.lockRelease s) k = ins s k := by
  unfold DB.lockRelease; split <;> rfl

theorem ins_acquire (s : DB.Sys) (h k : Nat) : ins (DB.lockAcquire s h) k = ins s k := by
  unfold DB.lockAcquire; split <;> rfl

theorem ins_rollback (s : DB.Sys) (h k : Nat) : ins (DB.rollback s h) k = if k = h then false else ins s k := by
  unfold DB.rollback
  dsimp only
  split
  · split
    · rw [ins_release]; simp only [ins, upd_apply]; split <;> rfl
    · simp only [ins, upd_apply]; split <;> rfl
  · rename_i hi
    split
    · rename_i hk; subst hk; simpa using hi
    · rfl

/-- A handle that is inside afterwards was so before, or its transaction has just begun. -/
theorem ins_begin (s : DB.Sys) (h : Nat) (e sy ok : Bool) (k : Nat) :
    (DB.begin' s h e sy ok).2 ≠ .abort ∧ (DB.begin' s h e sy ok).2 ≠ .committed ∧
    ((DB.begin' s h e sy ok).2 = .done → ok = true) ∧
    (ins (DB.begin' s h e sy ok).1 k = true → ins s k = true ∧ (k ≠ h ∨ (DB.begin' s h e sy ok).2 ≠ .done) ∨
      k = h ∧ (DB.begin' s h e sy ok).2 = .done) := by
  unfold DB.begin'
  split
  · cases sy <;> simp
  · dsimp only
    generalize hs1 : (if e = true then _ else s : DB.Sys) = s1
    have h1 : ins s1 k = ins s k := by
      rw [← hs1]
      split
      · simp only [ins, upd_apply]
        split
        · rename_i hk; subst hk; exact ins_acquire s k k
        · exact ins_acquire s h k
      · rfl
    split
    · refine ⟨by simp, by simp, by simp, ?_⟩
      intro hi
      rw [ins_rollback] at hi
      split at hi
      · cases hi
      · left; exact ⟨by rw [← h1]; exact hi, .inl (by assumption)⟩
    · refine ⟨by cases ok <;> simp, by cases ok <;> simp, by cases ok <;> simp, ?_⟩
      intro hi
      simp only [ins, upd_apply] at hi
      split at hi
      · rename_i hk
        right
        have : ok = true := hi
        exact ⟨hk, by simp [this]⟩
      · left; exact ⟨by rw [← h1]; exact hi, .inl (by assumption)⟩

theorem ins_write (s : DB.Sys) (h : Nat) (t : Bytes) (keep ok : Bool) (k : Nat) :
    ((DB.write s h t keep ok).2 = .done ∧ ok = true ∧ ins s h = true ∨
      (DB.write s h t keep ok).2 = .failed ∧ (DB.write s h t keep ok).1 = s ∧ (ok = false ∨ ins s h = false)) ∧
    ins (DB.write s h t keep ok).1 k = ins s k := by
  unfold DB.write
  dsimp only
  split
  · rename_i hc
    simp only [Bool.and_eq_true] at hc
    refine ⟨.inl ⟨rfl, hc.2, hc.1⟩, ?_⟩
    simp only [ins, upd_apply]
    split
    · rename_i hk; subst hk; rfl
    · rfl
  · rename_i hc
    refine ⟨.inr ⟨rfl, rfl, ?_⟩, rfl⟩
    cases ok
    · exact .inl rfl
    · right; simpa using hc

theorem ins_prepare (env : DB.Env) (s : DB.Sys) (h : Nat) (w : Bool) (p : List Nat) (ok : Bool) (k : Nat) :
    (DB.prepare env s h w p ok).2 ≠ .committed ∧
    (ins (DB.prepare env s h w p ok).1 k = true → ins s k = true) := by
  unfold DB.prepare
  dsimp only
  split
  · simp
  · split
    · refine ⟨by simp, ?_⟩
      simp only [ins, upd_apply]
      split
      · rename_i hk; subst hk; exact id
      · exact id
    · have ha : ∀ s' : DB.Sys, (∀ k, ins s' k = true → ins s k = true) → ∀ x : DB.Handle, x.inside = (s'.handles h).inside →
          (upd s'.handles h x k).inside = true → ins s k = true := by
        intro s' hs x hx hi
        rw [upd_apply] at hi
        split at hi
        · rename_i hk; subst hk; rw [hx] at hi; exact hs k hi
        · exact hs k hi
      generalize hs2 : (if (s.handles h).locked = true then _ else _ : DB.Sys) = s2
      have h2 : ∀ k, ins s2 k = true → ins s k = true := by
        intro k hi
        rw [← hs2] at hi
        split at hi
        · simp only [ins, upd_apply] at hi
          split at hi
          · rename_i hk; subst hk; exact hi
          · exact hi
        · simp only [ins, upd_apply] at hi
          split at hi
          · rename_i hk; subst hk
            have := (ins_acquire _ k k).symm.trans hi
            simp only [ins, upd_apply] at this
            simpa using this
          · have := (ins_acquire _ h k).symm.trans hi
            simp only [ins, upd_apply] at this
            rename_i hk
            rw [if_neg hk] at this
            exact this
      split
      · exact ⟨by simp, fun hi => by
          refine ha s2 h2 _ ?_ (show (upd s2.handles h _ k).inside = true from hi)
          rfl⟩
      · refine ⟨by simp, fun hi => ?_⟩
        rw [ins_rollback] at hi
        split at hi
        · cases hi
        · refine ha s2 h2 _ ?_ (show (upd s2.handles h _ k).inside = true from hi)
          rfl

theorem ins_commit (s : DB.Sys) (h : Nat) (ok : Bool) (k : Nat) :
    ((DB.commit s h ok).2 = .committed → ok = true ∧ ins s h = true) ∧
    (ins (DB.commit s h ok).1 k = true → ins s k = true) := by
  unfold DB.commit
  dsimp only
  split
  · simp
  · split
    · simp
    · rename_i hc
      split
      · rename_i hk
        simp only [Bool.or_eq_true, not_or, Bool.not_eq_true', Bool.not_eq_false] at hc
        refine ⟨fun _ => ⟨hk, by simpa using hc.1⟩, ?_⟩
        intro hi
        rw [ins_release] at hi
        simp only [ins, upd_apply] at hi
        split at hi
        · cases hi
        · exact hi
      · simp

theorem ins_restart (env : DB.Env) (tb : Nat → List DB.Row) (k : Nat) : ins (DB.restart env tb) k = false := rfl

/-! ## A transaction and the text kept of it -/

/-- The text, run on any pages that agree with the beginning of the transaction where it looked, does what it did. -/
structure TxInv (q : Sqlite) (t : Tx) (text : Bytes) : Prop where
  bounded : ∀ p, t.seen p = true → p < q.pages
  same : ∀ e, (∀ p, t.seen p = true → e p = t.base p) → ∃ e', q.eval text e = some e' ∧ ∀ p, e' p = if t.seen p then t.mine p else e p
  off : ∀ p, t.seen p = false → t.mine p = t.base p

theorem txInv_fresh {q : Sqlite} (hl : Lawful q) (d : Data) : TxInv q (fresh d) [] :=
  ⟨fun p h => (by cases h), fun e _ => ⟨e, hl.empty e, fun p => rfl⟩, fun _ _ => rfl⟩

/-- A text that goes well, or one that fails, or makes no change and is not kept. -/
theorem txInv_exec {q : Sqlite} (hl : Lawful q) {t : Tx} {text : Bytes} (hi : TxInv q t text) (x : Bytes) :
    (∀ m, q.eval x t.mine = some m → TxInv q (exec q t x).1 (text ++ x)) ∧
    (q.eval x t.mine = none ∨ q.changes x t.mine = false → TxInv q (exec q t x).1 text) := by
  have hb : ∀ p, (t.seen p || q.touch x t.mine p) = true → p < q.pages := by
    intro p hp
    rcases Bool.or_eq_true _ _ ▸ hp with h | h
    · exact hi.bounded p h
    · exact hl.bounded x t.mine p h
  have still : ∀ e, (∀ p, (t.seen p || q.touch x t.mine p) = true → e p = t.base p) →
      ∃ e', q.eval text e = some e' ∧ (∀ p, e' p = if t.seen p then t.mine p else e p) ∧
        ∀ p, (t.seen p || q.touch x t.mine p) = true → e' p = t.mine p := by
    intro e he
    obtain ⟨e', h1, h2⟩ := hi.same e fun p hp => he p (by rw [hp]; rfl)
    refine ⟨e', h1, h2, ?_⟩
    intro p hp
    rw [h2 p]
    by_cases hs : t.seen p = true
    · rw [if_pos hs]
    · rw [if_neg hs, he p hp, hi.off p (by simpa using hs)]
  constructor
  · intro m hm
    unfold exec
    rw [hm]
    refine ⟨hb, ?_, ?_⟩
    · intro e he
      obtain ⟨e', h1, h2, h3⟩ := still e he
      obtain ⟨e'', h4, h5⟩ := hl.depends x t.mine e' m (fun p hp => h3 p (by rw [hp]; simp)) hm
      refine ⟨e'', by rw [hl.append, h1]; exact h4, ?_⟩
      intro p
      rw [h5 p]
      by_cases hp : q.touch x t.mine p = true
      · simp [hp]
      · have hp' : q.touch x t.mine p = false := by simpa using hp
        simp only [hp', Bool.or_false, Bool.false_eq_true, if_false]
        rw [h2 p]
        split
        · exact (hl.frame x t.mine m p hm hp').symm
        · rfl
    · intro p hp
      simp only [Bool.or_eq_false_iff] at hp
      show m p = t.base p
      rw [hl.frame x t.mine m p hm hp.2]
      exact hi.off p hp.1
  · intro hq
    have hm : (exec q t x).1.mine = t.mine ∧ (exec q t x).1.base = t.base ∧
        (exec q t x).1.seen = fun p => t.seen p || q.touch x t.mine p := by
      unfold exec
      cases hm : q.eval x t.mine with
      | none => exact ⟨rfl, rfl, rfl⟩
      | some m =>
        rcases hq with hq | hq
        · rw [hq] at hm; cases hm
        · exact ⟨hl.quiet x t.mine m hq hm, rfl, rfl⟩
    obtain ⟨m1, m2, m3⟩ := hm
    refine ⟨by rw [m3]; exact hb, ?_, ?_⟩
    · intro e he
      rw [m3, m2] at he
      obtain ⟨e', h1, h2, h3⟩ := still e he
      refine ⟨e', h1, ?_⟩
      intro p
      rw [m1, m3]
      by_cases hp : (t.seen p || q.touch x t.mine p) = true
      · simp only [hp, if_true]; exact h3 p hp
      · have : t.seen p = false := by
          cases h : t.seen p
          · rfl
          · rw [h] at hp; simp at hp
        simp only [if_neg hp]
        rw [h2 p, this]
        rfl
    · intro p hp
      rw [m3] at hp
      simp only [Bool.or_eq_false_iff] at hp
      rw [m1, m2]
      exact hi.off p hp.1

/-- **Serialisability**: a transaction that commits does to the pages on disk what its text does. -/
theorem commit_eval {q : Sqlite} {t : Tx} {text : Bytes} (hi : TxInv q t text) {now d : Data} {luck : Bool}
    (h : commitTx q (some t) now luck = some d) : q.eval text now = some d := by
  unfold commitTx at h
  dsimp only at h
  split at h
  · rename_i hc
    simp only [Bool.and_eq_true] at hc
    obtain ⟨e', h1, h2⟩ := hi.same now (by
      intro p hp
      have := List.all_eq_true.mp hc.1 p (List.mem_range.mpr (hi.bounded p hp))
      simpa [hp] using this)
    rw [h1, ← h]
    congr 1
    funext p
    exact h2 p
  · cases h

/-! ## The invariant -/

structure I (q : Sqlite) (d0 : Data) (st : St) (v : Seen) : Prop where
  data : replay q (v.evs.map Ev.text) d0 = some st.data
  shared : v.evs.filterMap Ev.shared = v.db.log
  tx : ∀ k, ins st.sys k = true → ∃ t, st.tx k = some t ∧ TxInv q t (v.db.pend k)
  loc : ∀ k, st.loc k = some true → ∃ t, st.tx k = some t ∧ TxInv q t (v.pend k)
  apart : ∀ k, st.loc k ≠ none → ins st.sys k = false

theorem replay_append (q : Sqlite) (a b : List Bytes) (d : Data) :
    replay q (a ++ b) d = (replay q a d).bind (replay q b) := by
  unfold replay
  rw [List.foldlM_append]
  rfl

theorem replay_one (q : Sqlite) (t : Bytes) (d : Data) : replay q [t] d = q.eval t d := by
  unfold replay
  simp

/-- A call on the database layer keeps it. -/
theorem inv_db {env : DB.Env} {q : Sqlite} {d0 : Data} {st : St} {v : Seen} (hi : I q d0 st v) (op : Op) (o : DB.Op)
    (data : DB.Out → Data) (tx : DB.Out → Nat → Option Tx)
    (hd : ∃ l, (v.db.step (o, (DB.step env st.sys o).2)).log = v.db.log ++ l ∧
      replay q l st.data = some (data (DB.step env st.sys o).2))
    (ht : ∀ k, ins (DB.step env st.sys o).1 k = true → ∃ t, tx (DB.step env st.sys o).2 k = some t ∧
      TxInv q t ((v.db.step (o, (DB.step env st.sys o).2)).pend k))
    (hl : ∀ k, st.loc k ≠ none → ins (DB.step env st.sys o).1 k = false) :
    I q d0 (dbStep env st o data tx).1 (v.step (op, (dbStep env st o data tx).2)) := by
  obtain ⟨l, h1, h2⟩ := hd
  have he : (v.step (op, (dbStep env st o data tx).2)).evs = v.evs ++ l.map .replicated := by
    show v.evs ++ List.map Ev.replicated (List.drop _ _) = _
    rw [h1, List.drop_left]
  have hm : ∀ l : List Bytes, (l.map Ev.replicated).map Ev.text = l ∧ (l.map Ev.replicated).filterMap Ev.shared = l := by
    intro l
    induction l with
    | nil => exact ⟨rfl, rfl⟩
    | cons x l ih =>
      refine ⟨?_, ?_⟩
      · rw [List.map_cons, List.map_cons, ih.1]; rfl
      · rw [List.map_cons, List.filterMap_cons, ih.2]; rfl
  refine ⟨?_, ?_, ?_, ?_, ?_⟩
  · rw [he, List.map_append, (hm l).1, replay_append, hi.data]
    exact h2
  · rw [he, List.filterMap_append, (hm l).2, hi.shared]
    exact h1.symm
  · intro k hk
    have hk : ins (DB.step env st.sys o).1 k = true := hk
    obtain ⟨t, h3, h4⟩ := ht k hk
    refine ⟨t, ?_, h4⟩
    show (if ins (DB.step env st.sys o).1 k = true then _ else _) = _
    rw [if_pos hk, h3]
  · intro k hk
    have hk : (if ends o (DB.step env st.sys o).2 = true then none else st.loc k) = some true := hk
    split at hk
    · cases hk
    · rename_i hg
      obtain ⟨t, h3, h4⟩ := hi.loc k hk
      refine ⟨t, ?_, h4⟩
      show (if ins (DB.step env st.sys o).1 k = true then _ else _) = _
      rw [if_neg (by rw [hl k (by rw [hk]; simp)]; simp), if_pos (by rw [hk]; simpa using hg), h3]
  · intro k hk
    have hk : (if ends o (DB.step env st.sys o).2 = true then none else st.loc k) ≠ none := hk
    split at hk
    · exact absurd rfl hk
    · exact hl k hk

/-- What a step does to a handle. -/
theorem step_of (env : DB.Env) (s : DB.Sys) (o : DB.Op) (r : DB.Sys × DB.Out)
    (h : r = match o with
      | .begin h e sy ok => DB.begin' s h e sy ok
      | .write h q k ok => DB.write s h q k ok
      | .prepare h w p ok => DB.prepare env s h w p ok
      | .commit h ok => DB.commit s h ok
      | .rollback h => (DB.rollback s h, .done)
      | .setCommitEnabled t e =>
          if s.commitEnabled = e then (s, .done)
          else if DB.lockFree s t then ({ s with commitEnabled := e }, .done)
          else (s, .blocked)
      | .pop => ({ s with committed := [] }, .popped s.committed)
      | .crash => (DB.restart env s.tables, .done)
      | .crashInCommit h =>
          let r := DB.commit s h true
          (DB.restart env r.1.tables, if r.2 = .committed then .committed else .done)) :
    DB.step env s o = if r.2 = .abort then (DB.restart env s.tables, .abort) else r := by
  subst h; rfl

/-- Steps that neither begin nor write keep what is known of the open transactions. -/
theorem inv_quiet {env : DB.Env} {q : Sqlite} {d0 : Data} {st : St} {v : Seen} (hi : I q d0 st v) (op : Op) (o : DB.Op)
    (ho : ∀ r, (v.db.step (o, r)).pend = v.db.pend ∨ r = .abort ∨ o = .crash ∨ ∃ h, o = .crashInCommit h)
    (data : DB.Out → Data)
    (hd : ∃ l, (v.db.step (o, (DB.step env st.sys o).2)).log = v.db.log ++ l ∧
      replay q l st.data = some (data (DB.step env st.sys o).2))
    (hk : ∀ k, ins (DB.step env st.sys o).1 k = true → ins st.sys k = true)
    (hg : (DB.step env st.sys o).2 = .abort ∨ o = .crash ∨ (∃ h, o = .crashInCommit h) →
      ∀ k, ins (DB.step env st.sys o).1 k = false) :
    I q d0 (dbStep env st o data (fun _ => st.tx)).1 (v.step (op, (dbStep env st o data (fun _ => st.tx)).2)) := by
  refine inv_db hi op o data _ hd ?_ ?_
  · intro k h
    rcases ho (DB.step env st.sys o).2 with h1 | h1
    · rw [h1]; exact hi.tx k (hk k h)
    · rw [hg h1 k] at h; cases h
  · intro k h
    cases hh : ins (DB.step env st.sys o).1 k
    · rfl
    · have := hi.apart k h
      rw [hk k hh] at this; cases this

/-- A step of the database layer leaves no handle inside that was not, but for `begin`. -/
theorem ins_step (env : DB.Env) (s : DB.Sys) (o : DB.Op) (hb : ∀ h e sy ok, o ≠ .begin h e sy ok) (k : Nat) :
    (ins (DB.step env s o).1 k = true → ins s k = true) ∧
    ((DB.step env s o).2 = .abort ∨ o = .crash ∨ (∃ h, o = .crashInCommit h) → ins (DB.step env s o).1 k = false) := by
  have fin : ∀ r : DB.Sys × DB.Out, (DB.step env s o = if r.2 = .abort then (DB.restart env s.tables, .abort) else r) →
      (ins r.1 k = true → ins s k = true) →
      (o = .crash ∨ (∃ h, o = .crashInCommit h) → ins r.1 k = false) →
      (ins (DB.step env s o).1 k = true → ins s k = true) ∧
      ((DB.step env s o).2 = .abort ∨ o = .crash ∨ (∃ h, o = .crashInCommit h) → ins (DB.step env s o).1 k = false) := by
    intro r he h1 h2
    rw [he]
    split
    · exact ⟨fun h => absurd h (by simp [ins, DB.restart]), fun _ => rfl⟩
    · rename_i hne
      refine ⟨h1, ?_⟩
      rintro (h | h)
      · exact absurd h hne
      · exact h2 h
  have none' : ∀ r : DB.Sys × DB.Out, (o ≠ .crash ∧ ∀ h, o ≠ .crashInCommit h) →
      (o = .crash ∨ (∃ h, o = .crashInCommit h) → ins r.1 k = false) := by
    rintro r ⟨h1, h2⟩ (h | ⟨h, hh⟩)
    · exact absurd h h1
    · exact absurd hh (h2 h)
  cases o with
  | begin h e sy ok => exact absurd rfl (hb h e sy ok)
  | write h t keep ok => exact fin _ rfl (fun hi => by rw [(ins_write s h t keep ok k).2] at hi; exact hi) (none' _ ⟨by simp, by simp⟩)
  | prepare h w p ok => exact fin _ rfl (ins_prepare env s h w p ok k).2 (none' _ ⟨by simp, by simp⟩)
  | commit h ok => exact fin _ rfl (ins_commit s h ok k).2 (none' _ ⟨by simp, by simp⟩)
  | rollback h =>
    refine fin (DB.rollback s h, .done) rfl (fun hi => ?_) (none' _ ⟨by simp, by simp⟩)
    rw [ins_rollback] at hi
    split at hi
    · cases hi
    · exact hi
  | setCommitEnabled t e =>
    refine fin _ rfl (fun hi => ?_) (none' _ ⟨by simp, by simp⟩)
    dsimp only at hi
    split at hi
    · exact hi
    · split at hi <;> exact hi
  | pop => exact fin ({ s with committed := [] }, .popped s.committed) rfl (fun hi => hi) (none' _ ⟨by simp, by simp⟩)
  | crash => exact fin (DB.restart env s.tables, .done) rfl (fun hi => by cases hi) (fun _ => rfl)
  | crashInCommit h => exact fin _ rfl (fun hi => by cases hi) (fun _ => rfl)

/-- Every step keeps the invariant, if local texts hold no `COMMIT` and no `ROLLBACK`. -/
theorem inv_step {env : DB.Env} {q : Sqlite} (hl : Lawful q) {d0 : Data} {st : St} {v : Seen} (hi : I q d0 st v) (op : Op)
    (hp : ∀ h x, op = .lrun h x → ∃ t, x = .sql t) :
    I q d0 (step env q st op).1 (v.step (op, (step env q st op).2)) := by
  have nil : ∀ d : Data, replay q [] d = some d := fun d => rfl
  have plain : ∀ o : DB.Op, (∀ h e sy ok, o ≠ .begin h e sy ok) → (∀ h t k ok, o ≠ .write h t k ok) → (∀ h ok, o ≠ .commit h ok) →
      (∀ h, o ≠ .crashInCommit h) →
      I q d0 (dbStep env st o (fun _ => st.data) (fun _ => st.tx)).1
        (v.step (op, (dbStep env st o (fun _ => st.data) (fun _ => st.tx)).2)) := by
    intro o h1 h2 h3 h4
    have hv : ∀ r, (v.db.step (o, r)).log = v.db.log ∧
        ((v.db.step (o, r)).pend = v.db.pend ∨ r = .abort ∨ o = .crash ∨ ∃ h, o = .crashInCommit h) := by
      intro r
      cases o with
      | begin h e sy ok => exact absurd rfl (h1 h e sy ok)
      | write h t k ok => exact absurd rfl (h2 h t k ok)
      | commit h ok => exact absurd rfl (h3 h ok)
      | crashInCommit h => exact absurd rfl (h4 h)
      | prepare h w p ok => cases r <;> simp [DB.Spec.View.step]
      | rollback h => cases r <;> simp [DB.Spec.View.step]
      | setCommitEnabled t e => cases r <;> simp [DB.Spec.View.step]
      | pop => cases r <;> simp [DB.Spec.View.step]
      | crash => simp [DB.Spec.View.step]
    exact inv_quiet hi op o (fun r => (hv r).2) _ ⟨[], by rw [(hv _).1, List.append_nil], nil _⟩
      (fun k => (ins_step env st.sys o h1 k).1) (fun h k => (ins_step env st.sys o h1 k).2 h)
  have never : I q d0 st (v.step (op, .never)) := by
    have : v.step (op, .never) = v := by cases op <;> rfl
    rw [this]; exact hi
  cases op with
  | begin h e sy ok =>
    dsimp only [step]
    split
    · exact never
    · rename_i hloc
      have hs : DB.step env st.sys (.begin h e sy (ok && (st.tx h).isNone)) = DB.begin' st.sys h e sy (ok && (st.tx h).isNone) := by
        rw [step_of env st.sys _ _ rfl, if_neg (ins_begin _ _ _ _ _ 0).1]
      generalize hok : (ok && (st.tx h).isNone) = ok' at hs
      have key := fun k => ins_begin st.sys h e sy ok' k
      have hlog : ∀ r, r ≠ .abort → (v.db.step (.begin h e sy ok', r)).log = v.db.log := by
        intro r hr; cases r <;> first | rfl | exact absurd rfl hr
      refine inv_db hi _ _ _ _ ⟨[], ?_, nil _⟩ ?_ ?_
      · rw [hs, hlog _ (key 0).1, List.append_nil]
      · intro k hk
        rw [hs] at hk ⊢
        rcases (key k).2.2.2 hk with ⟨h1, h2⟩ | ⟨rfl, h2⟩
        · obtain ⟨t, h3, h4⟩ := hi.tx k h1
          by_cases hd : (DB.begin' st.sys h e sy ok').2 = .done
          · have hkh : k ≠ h := by rcases h2 with h2 | h2; exact h2; exact absurd hd h2
            refine ⟨t, ?_, ?_⟩
            · rw [if_pos hd, upd_apply, if_neg hkh, h3]
            · rw [hd]
              show TxInv q t (upd v.db.pend h [] k)
              rw [upd_apply, if_neg hkh]; exact h4
          · refine ⟨t, by rw [if_neg hd, h3], ?_⟩
            have : (v.db.step (.begin h e sy ok', (DB.begin' st.sys h e sy ok').2)).pend = v.db.pend := by
              have ha := (key 0).1
              revert ha hd
              generalize (DB.begin' st.sys h e sy ok').2 = r
              intro ha hd
              cases r <;> first | rfl | exact absurd rfl ha | exact absurd rfl hd
            rw [this]; exact h4
        · refine ⟨fresh st.data, by rw [if_pos h2, upd_apply, if_pos rfl], ?_⟩
          rw [h2]
          show TxInv q _ (upd v.db.pend k [] k)
          rw [upd_apply, if_pos rfl]
          exact txInv_fresh hl _
      · intro k hk
        rw [hs]
        cases hh : ins (DB.begin' st.sys h e sy ok').1 k
        · rfl
        · rcases (key k).2.2.2 hh with ⟨h1, _⟩ | ⟨rfl, _⟩
          · rw [hi.apart k hk] at h1; cases h1
          · exfalso; apply hloc
            cases hx : st.loc k
            · exact absurd hx hk
            · rfl
  | write h text always =>
    dsimp only [step]
    split
    · exact never
    · rename_i hloc
      have gen : ∀ (keep ok : Bool) (tx : DB.Out → Nat → Option Tx),
          (∀ k, k ≠ h → ∀ r, tx r k = st.tx k) →
          (ins st.sys h = true → ∃ t, tx (DB.write st.sys h text keep ok).2 h = some t ∧
            TxInv q t (if keep && ok then v.db.pend h ++ text else v.db.pend h)) →
          I q d0 (dbStep env st (.write h text keep ok) (fun _ => st.data) tx).1
            (v.step (.write h text always, (dbStep env st (.write h text keep ok) (fun _ => st.data) tx).2)) := by
        intro keep ok tx h1 h2
        have hw := fun k => ins_write st.sys h text keep ok k
        have hs : DB.step env st.sys (.write h text keep ok) = DB.write st.sys h text keep ok := by
          rw [step_of env st.sys _ _ rfl]
          refine if_neg ?_
          rcases (hw 0).1 with ⟨h, _⟩ | ⟨h, _⟩ <;> rw [h] <;> simp
        have hlog : (v.db.step (.write h text keep ok, (DB.write st.sys h text keep ok).2)).log = v.db.log := by
          rcases (hw 0).1 with ⟨h, _⟩ | ⟨h, _⟩ <;> rw [h] <;> cases keep <;> rfl
        refine inv_db hi _ _ _ _ ⟨[], by rw [hs, hlog, List.append_nil], nil _⟩ ?_ ?_
        · intro k hk
          rw [hs] at hk ⊢
          rw [(hw k).2] at hk
          have hpend : (v.db.step (.write h text keep ok, (DB.write st.sys h text keep ok).2)).pend =
              if keep = true ∧ (DB.write st.sys h text keep ok).2 = .done then upd v.db.pend h (v.db.pend h ++ text)
              else v.db.pend := by
            rcases (hw 0).1 with ⟨h, _⟩ | ⟨h, _⟩ <;> rw [h] <;> cases keep <;> rfl
          rw [hpend]
          by_cases hkh : k = h
          · subst hkh
            obtain ⟨t, h3, h4⟩ := h2 hk
            refine ⟨t, h3, ?_⟩
            rcases (hw 0).1 with ⟨e1, e2, _⟩ | ⟨e1, _, e2⟩
            · rw [e2, Bool.and_true] at h4
              cases keep
              · exact h4
              · rw [if_pos ⟨rfl, e1⟩, upd_apply, if_pos rfl]; exact h4
            · have e2 : ok = false := by
                rcases e2 with e2 | e2
                · exact e2
                · rw [hk] at e2; cases e2
              rw [e2, Bool.and_false] at h4
              rw [if_neg (by rw [e1]; simp)]; exact h4
          · obtain ⟨t, h3, h4⟩ := hi.tx k hk
            refine ⟨t, by rw [h1 k hkh, h3], ?_⟩
            split
            · rw [upd_apply, if_neg hkh]; exact h4
            · exact h4
        · intro k hk
          rw [hs, (hw k).2]; exact hi.apart k hk
      split
      · rename_i htx
        refine gen always false _ (fun k _ _ => rfl) ?_
        intro hin
        obtain ⟨t, h3, _⟩ := hi.tx h hin
        rw [h3] at htx; cases htx
      · rename_i t htx
        refine gen _ _ _ (fun k hk _ => by rw [upd_apply, if_neg hk]) ?_
        intro hin
        obtain ⟨t', h3, h4⟩ := hi.tx h hin
        have : t' = t := by rw [h3] at htx; exact Option.some.inj htx
        subst this
        refine ⟨(exec q t' text).1, by rw [upd_apply, if_pos rfl], ?_⟩
        obtain ⟨x1, x2⟩ := txInv_exec hl h4 text
        have hx : (exec q t' text).2 = (q.eval text t'.mine).isSome := by
          unfold exec; cases q.eval text t'.mine <;> rfl
        rw [hx]
        cases he : q.eval text t'.mine with
        | none => rw [Option.isSome_none, Bool.and_false]; exact x2 (.inl he)
        | some m =>
          rw [Option.isSome_some, Bool.and_true]
          split
          · exact x1 m he
          · rename_i hc
            simp only [Bool.or_eq_true, not_or, Bool.not_eq_true] at hc
            exact x2 (.inr hc.2)
  | prepare h w p ok =>
    dsimp only [step]
    split
    · exact never
    · exact plain _ (by simp) (by simp) (by simp) (by simp)
  | commit h luck =>
    dsimp only [step]
    split
    · exact never
    · have hv : ∀ (ok : Bool) (r : DB.Out), (v.db.step (.commit h ok, r)).pend = v.db.pend ∨ r = .abort ∨ DB.Op.commit h ok = .crash ∨
          ∃ h', DB.Op.commit h ok = .crashInCommit h' := by
        intro ok r; cases r <;> simp [DB.Spec.View.step]
      refine inv_quiet hi _ _ (hv _) _ ?_ (fun k => (ins_step env st.sys _ (by simp) k).1)
        (fun h' k => (ins_step env st.sys _ (by simp) k).2 h')
      have hs : (DB.step env st.sys (.commit h (commitTx q (st.tx h) st.data luck).isSome)).2 =
          (DB.commit st.sys h (commitTx q (st.tx h) st.data luck).isSome).2 := by
        rw [step_of env st.sys _ _ rfl]
        dsimp only
        split
        · rename_i he; exact he.symm
        · rfl
      rw [hs]
      by_cases hc : (DB.commit st.sys h (commitTx q (st.tx h) st.data luck).isSome).2 = .committed
      · refine ⟨[v.db.pend h], by rw [hc]; rfl, ?_⟩
        obtain ⟨h1, h2⟩ := (ins_commit st.sys h _ 0).1 hc
        obtain ⟨t, h3, h4⟩ := hi.tx h h2
        obtain ⟨d, hd⟩ := Option.isSome_iff_exists.mp h1
        rw [if_pos hc, hd, Option.getD_some, replay_one]
        rw [h3] at hd
        exact commit_eval h4 hd
      · refine ⟨[], ?_, by rw [if_neg hc]; rfl⟩
        rw [List.append_nil]
        generalize (DB.commit st.sys h (commitTx q (st.tx h) st.data luck).isSome).2 = r at hc
        cases r <;> first | rfl | exact absurd rfl hc
  | rollback h =>
    dsimp only [step]
    split
    · exact never
    · exact plain _ (by simp) (by simp) (by simp) (by simp)
  | setCommitEnabled t e => exact plain _ (by simp) (by simp) (by simp) (by simp)
  | pop => exact plain _ (by simp) (by simp) (by simp) (by simp)
  | crash => exact plain _ (by simp) (by simp) (by simp) (by simp)
  | crashInCommit h =>
    dsimp only [step]
    split
    · exact plain _ (by simp) (by simp) (by simp) (by simp)
    · rename_i d hd
      refine inv_quiet hi _ _ (fun r => .inr (.inr (.inr ⟨h, rfl⟩))) _ ?_ (fun k => (ins_step env st.sys _ (by simp) k).1)
        (fun h' k => (ins_step env st.sys _ (by simp) k).2 h')
      have hs : (DB.step env st.sys (.crashInCommit h)).2 = if (DB.commit st.sys h true).2 = .committed then .committed else .done := by
        rw [step_of env st.sys _ _ rfl]
        dsimp only
        split <;> split <;> simp_all
      rw [hs]
      by_cases hc : (DB.commit st.sys h true).2 = .committed
      · rw [if_pos hc]
        refine ⟨[v.db.pend h], rfl, ?_⟩
        obtain ⟨h1, h2⟩ := (ins_commit st.sys h true 0).1 hc
        obtain ⟨t, h3, h4⟩ := hi.tx h h2
        rw [h3] at hd
        rw [replay_one, if_pos rfl]
        exact commit_eval h4 hd
      · rw [if_neg hc]
        exact ⟨[], by rw [List.append_nil]; rfl, rfl⟩
  | lbegin h ok =>
    have ret : I q d0 st (v.step (.lbegin h ok, .local' false)) := hi
    dsimp only [step]
    split
    · exact never
    · split
      · exact ret
      · rename_i hin
        split
        · exact ret
        · refine ⟨hi.data, hi.shared, ?_, ?_, ?_⟩
          · intro k hk
            have hkh : k ≠ h := by rintro rfl; exact hin hk
            obtain ⟨t, h3, h4⟩ := hi.tx k hk
            exact ⟨t, by show upd st.tx h _ k = _; rw [upd_apply, if_neg hkh, h3], h4⟩
          · intro k hk
            by_cases hkh : k = h
            · subst hkh
              refine ⟨fresh st.data, by show upd st.tx k _ k = _; rw [upd_apply, if_pos rfl], ?_⟩
              show TxInv q _ (upd v.pend k [] k)
              rw [upd_apply, if_pos rfl]
              exact txInv_fresh hl _
            · have hk : upd st.loc h (some true) k = some true := hk
              rw [upd_apply, if_neg hkh] at hk
              obtain ⟨t, h3, h4⟩ := hi.loc k hk
              refine ⟨t, by show upd st.tx h _ k = _; rw [upd_apply, if_neg hkh, h3], ?_⟩
              show TxInv q _ (upd v.pend h [] k)
              rw [upd_apply, if_neg hkh]; exact h4
          · intro k hk
            by_cases hkh : k = h
            · subst hkh; simpa using hin
            · have hk : upd st.loc h (some true) k ≠ none := hk
              rw [upd_apply, if_neg hkh] at hk
              exact hi.apart k hk
  | lrun h x =>
    obtain ⟨text, rfl⟩ := hp h x rfl
    dsimp only [step]
    cases hloc : st.loc h with
    | none => exact never
    | some b =>
      cases b with
      | false => exact hi
      | true =>
        obtain ⟨t, h3, h4⟩ := hi.loc h hloc
        dsimp only
        rw [h3]
        dsimp only
        obtain ⟨x1, x2⟩ := txInv_exec hl h4 text
        have hx : (exec q t text).2 = (q.eval text t.mine).isSome := by
          unfold exec; cases q.eval text t.mine <;> rfl
        have hin : ins st.sys h = false := hi.apart h (by rw [hloc]; simp)
        have tx' : ∀ k, ins st.sys k = true → ∃ t', upd st.tx h (some (exec q t text).1) k = some t' ∧ TxInv q t' (v.db.pend k) := by
          intro k hk
          have hkh : k ≠ h := by rintro rfl; rw [hk] at hin; cases hin
          obtain ⟨t', h5, h6⟩ := hi.tx k hk
          exact ⟨t', by rw [upd_apply, if_neg hkh, h5], h6⟩
        have apart' : ∀ b k, upd st.loc h (some b) k ≠ none → ins st.sys k = false := by
          intro b k hk
          by_cases hkh : k = h
          · subst hkh; exact hin
          · rw [upd_apply, if_neg hkh] at hk; exact hi.apart k hk
        rw [hx]
        cases he : q.eval text t.mine with
        | none =>
          refine ⟨hi.data, hi.shared, tx', ?_, apart' _⟩
          intro k hk
          have hk : upd st.loc h (some false) k = some true := hk
          rw [upd_apply] at hk
          split at hk
          · cases hk
          · rename_i hkh
            obtain ⟨t', h5, h6⟩ := hi.loc k hk
            exact ⟨t', by show upd st.tx h _ k = _; rw [upd_apply, if_neg hkh, h5], h6⟩
        | some m =>
          refine ⟨hi.data, hi.shared, tx', ?_, apart' _⟩
          intro k hk
          by_cases hkh : k = h
          · subst hkh
            refine ⟨(exec q t text).1, by show upd st.tx k _ k = _; rw [upd_apply, if_pos rfl], ?_⟩
            show TxInv q _ (upd v.pend k (v.pend k ++ text) k)
            rw [upd_apply, if_pos rfl]
            exact x1 m he
          · have hk : upd st.loc h (some true) k = some true := hk
            rw [upd_apply, if_neg hkh] at hk
            obtain ⟨t', h5, h6⟩ := hi.loc k hk
            refine ⟨t', by show upd st.tx h _ k = _; rw [upd_apply, if_neg hkh, h5], ?_⟩
            show TxInv q _ (upd v.pend h (v.pend h ++ text) k)
            rw [upd_apply, if_neg hkh]; exact h6
  | lend h luck =>
    dsimp only [step]
    cases hloc : st.loc h with
    | none => exact never
    | some b =>
      dsimp only
      have hin : ins st.sys h = false := hi.apart h (by rw [hloc]; simp)
      have tx' : ∀ k, ins st.sys k = true → ∃ t', upd st.tx h none k = some t' ∧ TxInv q t' (v.db.pend k) := by
        intro k hk
        have hkh : k ≠ h := by rintro rfl; rw [hk] at hin; cases hin
        obtain ⟨t', h5, h6⟩ := hi.tx k hk
        exact ⟨t', by rw [upd_apply, if_neg hkh, h5], h6⟩
      have loc' : ∀ k, upd st.loc h none k = some true → ∃ t', upd st.tx h none k = some t' ∧ TxInv q t' (v.pend k) := by
        intro k hk
        rw [upd_apply] at hk
        split at hk
        · cases hk
        · rename_i hkh
          obtain ⟨t', h5, h6⟩ := hi.loc k hk
          exact ⟨t', by rw [upd_apply, if_neg hkh, h5], h6⟩
      have apart' : ∀ k, upd st.loc h none k ≠ none → ins st.sys k = false := by
        intro k hk
        by_cases hkh : k = h
        · subst hkh; exact hin
        · rw [upd_apply, if_neg hkh] at hk; exact hi.apart k hk
      cases hc : (if b = true then commitTx q (st.tx h) st.data luck else none) with
      | none => exact ⟨hi.data, hi.shared, tx', loc', apart'⟩
      | some d =>
        cases b with
        | false => cases hc
        | true =>
          obtain ⟨t, h3, h4⟩ := hi.loc h hloc
          rw [if_pos rfl, h3] at hc
          refine ⟨?_, ?_, tx', loc', apart'⟩
          · show replay q ((v.evs ++ [Ev.own (v.pend h)]).map Ev.text) d0 = some d
            rw [List.map_append, replay_append, hi.data]
            show replay q [v.pend h] st.data = some d
            rw [replay_one]
            exact commit_eval h4 hc
          · show (v.evs ++ [Ev.own (v.pend h)]).filterMap Ev.shared = v.db.log
            rw [List.filterMap_append, hi.shared]
            exact List.append_nil _

theorem inv_run {env : DB.Env} {q : Sqlite} (hl : Lawful q) {d0 : Data} (os : List Op) :
    ∀ {st : St} {v : Seen}, I q d0 st v → Plain os → I q d0 (run env q st os).1 ((run env q st os).2.foldl Seen.step v) := by
  induction os with
  | nil => intro st v hi _; exact hi
  | cons o os ih =>
    intro st v hi hp
    exact ih (inv_step hl hi o (hp o List.mem_cons_self)) (fun o' ho => hp o' (List.mem_cons_of_mem _ ho))

theorem inv_init (env : DB.Env) (q : Sqlite) (d0 : Data) : I q d0 (init env d0) {} :=
  ⟨rfl, rfl, fun k hk => (by cases hk), fun k hk => (by cases hk), fun k hk => absurd rfl hk⟩

/-! ## The database layer below -/

/-- A step is a step of the database layer, or leaves it alone. -/
theorem step_sys (env : DB.Env) (q : Sqlite) (st : St) (op : Op) :
    (∃ o, (step env q st op).2 = .db o (DB.step env st.sys o).2 ∧ (step env q st op).1.sys = (DB.step env st.sys o).1) ∨
    ((∀ o r, (step env q st op).2 ≠ .db o r) ∧ (step env q st op).1.sys = st.sys) := by
  cases op with
  | begin h e sy ok => dsimp only [step]; split; exact .inr ⟨by simp, rfl⟩; exact .inl ⟨_, rfl, rfl⟩
  | write h t a =>
    dsimp only [step]; split
    · exact .inr ⟨by simp, rfl⟩
    · split <;> exact .inl ⟨_, rfl, rfl⟩
  | prepare h w p ok => dsimp only [step]; split; exact .inr ⟨by simp, rfl⟩; exact .inl ⟨_, rfl, rfl⟩
  | commit h l => dsimp only [step]; split; exact .inr ⟨by simp, rfl⟩; exact .inl ⟨_, rfl, rfl⟩
  | rollback h => dsimp only [step]; split; exact .inr ⟨by simp, rfl⟩; exact .inl ⟨_, rfl, rfl⟩
  | setCommitEnabled t e => exact .inl ⟨_, rfl, rfl⟩
  | pop => exact .inl ⟨_, rfl, rfl⟩
  | crash => exact .inl ⟨_, rfl, rfl⟩
  | crashInCommit h => dsimp only [step]; split <;> exact .inl ⟨_, rfl, rfl⟩
  | lbegin h ok =>
    refine .inr ?_
    dsimp only [step]; split
    · exact ⟨by simp, rfl⟩
    · split
      · exact ⟨by simp, rfl⟩
      · split <;> exact ⟨by simp, rfl⟩
  | lrun h x =>
    refine .inr ?_
    dsimp only [step]; split
    · exact ⟨by simp, rfl⟩
    · exact ⟨by simp, rfl⟩
    · split
      · refine ⟨?_, rfl⟩
        intro o r; dsimp only; split <;> simp
      · split <;> exact ⟨by simp, rfl⟩
      · split <;> exact ⟨by simp, rfl⟩
      · exact ⟨by simp, rfl⟩
      · exact ⟨by simp, rfl⟩
  | lend h l =>
    refine .inr ?_
    dsimp only [step]; split
    · exact ⟨by simp, rfl⟩
    · split <;> exact ⟨by simp, rfl⟩

theorem run_sys (env : DB.Env) (q : Sqlite) (os : List Op) : ∀ st : St,
    DB.run env st.sys ((dbTrace (run env q st os).2).map Prod.fst) = ((run env q st os).1.sys, dbTrace (run env q st os).2) := by
  induction os with
  | nil => intro st; rfl
  | cons o os ih =>
    intro st
    have ih := ih (step env q st o).1
    have hr : run env q st (o :: os) = ((run env q (step env q st o).1 os).1, (o, (step env q st o).2) :: (run env q (step env q st o).1 os).2) := rfl
    rw [hr]
    dsimp only
    rcases step_sys env q st o with ⟨x, h1, h2⟩ | ⟨h1, h2⟩
    · have : dbTrace ((o, (step env q st o).2) :: (run env q (step env q st o).1 os).2) =
          (x, (DB.step env st.sys x).2) :: dbTrace (run env q (step env q st o).1 os).2 := by
        unfold dbTrace
        rw [h1]; rfl
      rw [this, List.map_cons]
      rw [h2] at ih
      show ((DB.run env (DB.step env st.sys x).1 _).1, (x, _) :: (DB.run env (DB.step env st.sys x).1 _).2) = _
      rw [ih]
    · have : dbTrace ((o, (step env q st o).2) :: (run env q (step env q st o).1 os).2) =
          dbTrace (run env q (step env q st o).1 os).2 := by
        unfold dbTrace
        rw [List.filterMap_cons]
        generalize (step env q st o).2 = w at h1
        cases w with
        | db o r => exact absurd rfl (h1 o r)
        | _ => rfl
      rw [this, ← h2]; exact ih

theorem seen_db (tr : List (Op × Out)) : ∀ v : Seen, (tr.foldl Seen.step v).db = (dbTrace tr).foldl DB.Spec.View.step v.db := by
  induction tr with
  | nil => intro v; rfl
  | cons e tr ih =>
    intro v
    obtain ⟨o, w⟩ := e
    rw [List.foldl_cons, ih]
    unfold dbTrace
    rw [List.filterMap_cons]
    cases w with
    | db o' r => rfl
    | local' b => cases o <;> cases b <;> rfl
    | going => cases o <;> rfl
    | bad => cases o <;> rfl
    | never => cases o <;> rfl

/-- A handle that is not inside a transaction and not inside a local write has no transaction in SQLite. -/
def Idle (st : St) : Prop := ∀ k, ins st.sys k = false → st.loc k = none → st.tx k = none

theorem idle_db (env : DB.Env) (st : St) (o : DB.Op) (data : DB.Out → Data) (tx : DB.Out → Nat → Option Tx) :
    Idle (dbStep env st o data tx).1 := by
  intro k h1 h2
  have h1 : ((DB.step env st.sys o).1.handles k).inside = false := h1
  have h2 : (if ends o (DB.step env st.sys o).2 then none else st.loc k) = none := h2
  show (if ((DB.step env st.sys o).1.handles k).inside then _ else _) = none
  rw [h1, if_neg (by simp)]
  split
  · rename_i h3
    simp only [Bool.and_eq_true, Bool.not_eq_true'] at h3
    rw [h3.2, if_neg (by simp)] at h2
    rw [h2] at h3; cases h3.1
  · rfl

theorem idle_step (env : DB.Env) (q : Sqlite) {st : St} (hi : Idle st) (op : Op) : Idle (step env q st op).1 := by
  cases op with
  | begin h e sy ok => dsimp only [step]; split; exact hi; exact idle_db _ _ _ _ _
  | write h t a =>
    dsimp only [step]; split
    · exact hi
    · split <;> exact idle_db _ _ _ _ _
  | prepare h w p ok => dsimp only [step]; split; exact hi; exact idle_db _ _ _ _ _
  | commit h l => dsimp only [step]; split; exact hi; exact idle_db _ _ _ _ _
  | rollback h => dsimp only [step]; split; exact hi; exact idle_db _ _ _ _ _
  | setCommitEnabled t e => exact idle_db _ _ _ _ _
  | pop => exact idle_db _ _ _ _ _
  | crash => exact idle_db _ _ _ _ _
  | crashInCommit h => dsimp only [step]; split <;> exact idle_db _ _ _ _ _
  | lbegin h ok =>
    dsimp only [step]; split
    · exact hi
    · split
      · exact hi
      · split
        · exact hi
        · intro k h1 h2
          have h2 : upd st.loc h (some true) k = none := h2
          show upd st.tx h _ k = none
          rw [upd_apply] at h2 ⊢
          split at h2
          · cases h2
          · rename_i hk; rw [if_neg hk]; exact hi k h1 h2
  | lrun h x =>
    have at' : ∀ (b : Bool) (t : Option Tx), Idle { st with tx := upd st.tx h t, loc := upd st.loc h (some b) } := by
      intro b t k h1 h2
      have h2 : upd st.loc h (some b) k = none := h2
      show upd st.tx h _ k = none
      rw [upd_apply] at h2 ⊢
      split at h2
      · cases h2
      · rename_i hk; rw [if_neg hk]; exact hi k h1 h2
    have fail : Idle { st with loc := upd st.loc h (some false) } := by
      intro k h1 h2
      have h2 : upd st.loc h (some false) k = none := h2
      rw [upd_apply] at h2
      split at h2
      · cases h2
      · exact hi k h1 h2
    have only : ∀ (hx : st.loc h = some true) (t : Option Tx) (d : Data), Idle { st with tx := upd st.tx h t, data := d } := by
      intro hx t d k h1 h2
      have h2 : st.loc k = none := h2
      show upd st.tx h _ k = none
      rw [upd_apply]
      split
      · rename_i hk; rw [hk, hx] at h2; cases h2
      · exact hi k h1 h2
    dsimp only [step]; split
    · exact hi
    · exact hi
    · rename_i hx
      split
      · exact at' _ _
      · split
        · exact hi
        · exact fail
      · split
        · exact only hx _ _
        · exact fail
      · exact only hx _ st.data
      · exact fail
  | lend h l =>
    dsimp only [step]; split
    · exact hi
    · have : ∀ d, Idle { sys := st.sys, data := d, tx := upd st.tx h none, loc := upd st.loc h none } := by
        intro d k h1 h2
        have h2 : upd st.loc h none k = none := h2
        show upd st.tx h _ k = none
        rw [upd_apply] at h2 ⊢
        split
        · rfl
        · rename_i hk; rw [if_neg hk] at h2; exact hi k h1 h2
      split
      · exact this _
      · exact this _

theorem idle_run (env : DB.Env) (q : Sqlite) (os : List Op) : ∀ {st : St}, Idle st → Idle (run env q st os).1 := by
  induction os with
  | nil => intro st hi; exact hi
  | cons o os ih => intro st hi; exact ih (idle_step env q hi o)

theorem run_app (env : DB.Env) (q : Sqlite) (a b : List Op) : ∀ st : St,
    run env q st (a ++ b) = ((run env q (run env q st a).1 b).1, (run env q st a).2 ++ (run env q (run env q st a).1 b).2) := by
  induction a with
  | nil => intro st; rfl
  | cons o a ih =>
    intro st
    show ((run env q (step env q st o).1 (a ++ b)).1, _ :: (run env q (step env q st o).1 (a ++ b)).2) = _
    rw [ih]; rfl

end Bedrock.LocalWrite
