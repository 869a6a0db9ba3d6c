import Verif.Model.TxTimes

/-! # C149: the times that are logged for a transaction -/

namespace Bedrock.TxTimes.Props
open Bedrock.TxTimes

/-- What can be between the beginning and the end of a transaction. -/
def Stays : Op → Bool
  | .idle _ => true
  | .read _ => true
  | .write _ _ => true
  | .prepare _ _ ok _ => ok
  | .commit _ ok _ _ => !ok
  | _ => false

/-- The time of the reads, of the writes that did not fail by a constraint, of the insertions into the journal. -/
def reads : List Op → Nat
  | [] => 0
  | .read d :: ops => d + reads ops
  | _ :: ops => reads ops

def writes : List Op → Nat
  | [] => 0
  | .write d false :: ops => d + writes ops
  | _ :: ops => writes ops

def prepares : List Op → Nat
  | [] => 0
  | .prepare _ d _ _ :: ops => d + prepares ops
  | _ :: ops => prepares ops

/-- The time of all of it. -/
def lasts : List Op → Nat
  | [] => 0
  | .idle d :: ops => d + lasts ops
  | .read d :: ops => d + lasts ops
  | .write d _ :: ops => d + lasts ops
  | .prepare w d _ _ :: ops => w + d + lasts ops
  | .commit d _ _ _ :: ops => d + lasts ops
  | _ :: ops => lasts ops

theorem body (ops : List Op) (h : ∀ o ∈ ops, Stays o = true) (s : St) (hs : s.inside = true) :
    run s ops = { s with now := s.now + lasts ops, read := s.read + reads ops, write := s.write + writes ops,
                         prep := s.prep + prepares ops } := by
  induction ops generalizing s with
  | nil => rfl
  | cons o ops ih =>
    have ho := h o (by simp)
    have ih := ih (fun o h' => h o (List.mem_cons_of_mem _ h'))
    have e : run s (o :: ops) = run (step s o) ops := rfl
    rw [e]
    cases o with
    | idle d => rw [ih] <;> first | exact hs | simp [step, lasts, reads, writes, prepares, Nat.add_assoc]
    | read d => rw [ih] <;> first | exact hs | simp [step, lasts, reads, writes, prepares, Nat.add_assoc]
    | write d c =>
      cases c with
      | false =>
        have e : step s (.write d false) = { s with now := s.now + d, write := s.write + d } := by simp [step, hs]
        rw [e, ih] <;> first | exact hs | simp [lasts, reads, writes, prepares, Nat.add_assoc]
      | true =>
        have e : step s (.write d true) = { s with now := s.now + d } := by simp [step, hs]
        rw [e, ih] <;> first | exact hs | simp [lasts, reads, writes, prepares, Nat.add_assoc]
    | prepare w d ok r =>
      have hk : ok = true := ho
      subst hk
      have e : step s (.prepare w d true r) = { s with now := s.now + w + d, prep := s.prep + d } := by simp [step]
      rw [e, ih] <;> first | exact hs | simp [lasts, reads, writes, prepares, Nat.add_assoc]
    | commit d ok hct c =>
      have hk : ok = false := by simpa [Stays] using ho
      subst hk
      have e : step s (.commit d false hct c) = { s with now := s.now + d } := by simp [step, hs]
      rw [e, ih] <;> first | exact hs | simp [lasts, reads, writes, prepares, Nat.add_assoc]
    | begin_ w d r => cases ho
    | rollback a d => cases ho

theorem parts_le (ops : List Op) : reads ops + writes ops + prepares ops ≤ lasts ops := by
  induction ops with
  | nil => exact Nat.le_refl _
  | cons o ops ih =>
    cases o with
    | write d c => cases c <;> simp only [reads, writes, prepares, lasts] <;> omega
    | _ => simp only [reads, writes, prepares, lasts]; omega

/-- **C149.** What is logged for a transaction that commits: one report, in which the times of the reads, the writes, the insertion
into the journal, the beginning and the commit are those of this transaction, whatever the handle was used for before, and the total
is that from the beginning to the end of the commit. -/
theorem c149_commit (s : St) (hs : s.inside = false) (w b r : Nat) (ops : List Op) (h : ∀ o ∈ ops, Stays o = true) (d c : Nat) :
    (run s (.begin_ w b r :: ops ++ [.commit d true none c])).logs = s.logs ++
      [{ totalElapsed := (b + reads ops + writes ops + prepares ops + d) / 1000, readElapsed := reads ops / 1000,
         writeElapsed := writes ops / 1000, prepareElapsed := prepares ops / 1000, commitElapsed := d / 1000, rollbackElapsed := 0,
         totalTransactionElapsed := (w + b + lasts ops + d) / 1000, beginElapsed := b / 1000 }] := by
  have e : run s (.begin_ w b r :: ops ++ [.commit d true none c]) =
      step (run (step s (.begin_ w b r)) ops) (.commit d true none c) := by
    simp [run, List.foldl_append]
  have e1 : (step s (.begin_ w b r)).inside = true := by simp [step, hs]
  rw [e, body ops h _ e1]
  simp only [step, hs, if_true, Bool.false_eq_true, if_false, log, report, Nat.zero_add, Nat.add_zero]
  have : s.now + w + b + lasts ops + d - s.now = w + b + lasts ops + d := by omega
  rw [this]

/-- **C149.** Nothing is counted twice: the times of the parts add up to no more than the sum that is logged, and that to no more than
the time from the beginning to the end of the commit. -/
theorem c149_once (s : St) (hs : s.inside = false) (w b r : Nat) (ops : List Op) (h : ∀ o ∈ ops, Stays o = true) (d c : Nat) :
    ∃ l, (run s (.begin_ w b r :: ops ++ [.commit d true none c])).logs = s.logs ++ [l] ∧
      l.beginElapsed + l.readElapsed + l.writeElapsed + l.prepareElapsed + l.commitElapsed + l.rollbackElapsed ≤ l.totalElapsed ∧
      l.totalElapsed ≤ l.totalTransactionElapsed := by
  refine ⟨_, c149_commit s hs w b r ops h d c, ?_, ?_⟩
  · dsimp only; omega
  · have := parts_le ops
    dsimp only; omega

/-- **C149.** A transaction that is rolled back: the time of the transaction is that up to the rollback, the rollback is in the sum. -/
theorem c149_rollback (s : St) (hs : s.inside = false) (w b r : Nat) (ops : List Op) (h : ∀ o ∈ ops, Stays o = true) (auto : Bool)
    (d : Nat) :
    (run s (.begin_ w b r :: ops ++ [.rollback auto d])).logs = s.logs ++
      [{ totalElapsed := (b + reads ops + writes ops + prepares ops + (if auto then 0 else d)) / 1000, readElapsed := reads ops / 1000,
         writeElapsed := writes ops / 1000, prepareElapsed := prepares ops / 1000, commitElapsed := 0,
         rollbackElapsed := (if auto then 0 else d) / 1000,
         totalTransactionElapsed := (w + b + lasts ops) / 1000, beginElapsed := b / 1000 }] := by
  have e : run s (.begin_ w b r :: ops ++ [.rollback auto d]) = step (run (step s (.begin_ w b r)) ops) (.rollback auto d) := by
    simp [run, List.foldl_append]
  have e1 : (step s (.begin_ w b r)).inside = true := by simp [step, hs]
  rw [e, body ops h _ e1]
  have e2 : s.now + w + b + lasts ops - s.now = w + b + lasts ops := by omega
  cases auto <;>
    simp [step, hs, rollback, log, report, e2]

/-- A whole transaction: how it begins, what is done, and how it ends. -/
structure Whole where
  w : Nat
  b : Nat
  ops : List Op
  stays : ∀ o ∈ ops, Stays o = true
  /-- `some (d, c)`: a commit; `none`: a rollback -/
  commits : Option (Nat × Nat)
  auto : Bool
  d : Nat

def Whole.last (t : Whole) : Op :=
  match t.commits with
  | some (d, c) => .commit d true none c
  | none => .rollback t.auto t.d

def Whole.all (t : Whole) : List Op := .begin_ t.w t.b 0 :: t.ops ++ [t.last]

theorem whole_out (s : St) (hs : s.inside = false) (t : Whole) : (run s t.all).inside = false := by
  have e : run s t.all = step (run (step s (.begin_ t.w t.b 0)) t.ops) t.last := by
    simp [run, Whole.all, List.foldl_append]
  have e1 : (step s (.begin_ t.w t.b 0)).inside = true := by simp [step, hs]
  rw [e, body t.ops t.stays _ e1]
  unfold Whole.last
  cases t.commits with
  | some p => simp [step, hs, log]
  | none => cases t.auto <;> simp [step, hs, rollback, log]

theorem whole_log (s : St) (hs : s.inside = false) (t : Whole) : ∃ l, (run s t.all).logs = s.logs ++ [l] ∧
    l.readElapsed = reads t.ops / 1000 ∧ l.writeElapsed = writes t.ops / 1000 ∧ l.beginElapsed = t.b / 1000 ∧
    l.prepareElapsed = prepares t.ops / 1000 ∧ l.commitElapsed = (match t.commits with | some (d, _) => d / 1000 | none => 0) := by
  unfold Whole.all Whole.last
  cases t.commits with
  | some p => exact ⟨_, c149_commit s hs t.w t.b 0 t.ops t.stays p.1 p.2, rfl, rfl, rfl, rfl, rfl⟩
  | none => exact ⟨_, c149_rollback s hs t.w t.b 0 t.ops t.stays t.auto t.d, rfl, rfl, rfl, rfl, rfl⟩

/-- The reports of some transactions, in order. -/
def Reports : List Whole → List Report → Prop
  | [], [] => True
  | t :: ts, l :: ls => (l.readElapsed = reads t.ops / 1000 ∧ l.writeElapsed = writes t.ops / 1000 ∧ l.beginElapsed = t.b / 1000 ∧
      l.prepareElapsed = prepares t.ops / 1000 ∧ l.commitElapsed = (match t.commits with | some (d, _) => d / 1000 | none => 0)) ∧ Reports ts ls
  | _, _ => False

/-- **C149.** One transaction after the other on a handle: one report for each, in order, each with the times of its own. -/
theorem c149_each (ts : List Whole) (s : St) (hs : s.inside = false) :
    (run s (ts.flatMap Whole.all)).inside = false ∧ ∃ ls, (run s (ts.flatMap Whole.all)).logs = s.logs ++ ls ∧ Reports ts ls := by
  induction ts generalizing s with
  | nil => exact ⟨hs, [], (List.append_nil _).symm, trivial⟩
  | cons t ts ih =>
    have e : run s ((t :: ts).flatMap Whole.all) = run (run s t.all) (ts.flatMap Whole.all) := by
      simp [run, List.foldl_append]
    obtain ⟨h1, ls, h2, h3⟩ := ih (run s t.all) (whole_out s hs t)
    obtain ⟨l, h4, h5⟩ := whole_log s hs t
    rw [e]
    exact ⟨h1, l :: ls, by rw [h2, h4, List.append_assoc]; rfl, h5, h3⟩

/-- A transaction with a read, a write that fails, one that does not, a conflict. -/
def ops1 : List Op := [.read 3000, .idle 500, .write 2000 true, .write 4000 false, .prepare 100 1000 true 0, .commit 700 false none 0]

example : (∀ o ∈ ops1, Stays o = true) ∧ reads ops1 = 3000 ∧ writes ops1 = 4000 ∧ lasts ops1 = 11300 := by decide +kernel
example : (run { read := 99000 } (.begin_ 1000 2000 0 :: ops1 ++ [.commit 5000 true none 9000])).logs =
    [⟨15, 3, 4, 1, 5, 0, 19, 2⟩] := by decide +kernel

def t1 : Whole := ⟨1000, 2000, ops1, by decide +kernel, some (5000, 9000), false, 0⟩
def t2 : Whole := ⟨0, 1000, [.read 2000], by decide +kernel, none, false, 4000⟩
example : (run {} ([t1, t2].flatMap Whole.all)).logs = [⟨15, 3, 4, 1, 5, 0, 19, 2⟩, ⟨7, 2, 0, 0, 0, 4, 3, 1⟩] := by decide +kernel

/-- **C149, not in full.** The timer of a transaction is stopped before `ROLLBACK` is run: the sum of the parts can be more than what
is logged as the time of the whole. -/
theorem c149_rollback_partial : ∃ ops : List Op, ∃ l, (run {} ops).logs = [l] ∧ l.totalTransactionElapsed < l.totalElapsed :=
  ⟨[.begin_ 0 1000 0, .rollback false 5000], ⟨6, 0, 0, 0, 0, 5, 1, 1⟩, by decide +kernel⟩

/-- **C149, not in full.** The query of statistics after a slow commit on HC-Tree is counted as a read of the transaction. -/
theorem c149_hctree_partial : ∃ ops : List Op, ∃ l, (run {} ops).logs = [l] ∧ l.rollbackElapsed = 0 ∧ 0 < l.readElapsed ∧ reads ops = 0 ∧
    l.totalTransactionElapsed < l.totalElapsed :=
  ⟨[.begin_ 0 1000 0, .prepare 0 1000 true 0, .commit 200000 true (some 3000) 0], ⟨205, 3, 0, 1, 200, 0, 202, 1⟩, by decide +kernel⟩

/-- **C149, not in full.** The time of a write that fails by a constraint is in no part. -/
theorem c149_constraint_partial (s : St) (hs : s.inside = true) (d : Nat) :
    step s (.write d true) = { s with now := s.now + d } := by simp [step, hs]

/-- **C149, not in full.** A rollback without a transaction logs the times of the transaction before, with what was read since. -/
theorem c149_stale_partial : ∃ ops : List Op, ∃ l1 l2, (run {} ops).logs = [l1, l2] ∧ l1.readElapsed < l2.readElapsed ∧
    l2.totalTransactionElapsed = 0 ∧ l1.commitElapsed = l2.commitElapsed ∧ 0 < l2.commitElapsed :=
  ⟨[.begin_ 0 1000 0, .prepare 0 1000 true 0, .commit 2000 true none 0, .read 7000, .rollback false 0],
    ⟨4, 0, 0, 1, 2, 0, 4, 1⟩, ⟨11, 7, 0, 1, 2, 0, 0, 1⟩, by decide +kernel⟩

end Bedrock.TxTimes.Props
