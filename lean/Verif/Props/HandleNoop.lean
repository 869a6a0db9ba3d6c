import Verif.Lemmas.HandleReplay
import Verif.Props.HandleCache

/-!
# C21: no-op mode
-/

namespace Bedrock.Handle.Props
open Bedrock Bedrock.Handle

variable {D S R : Type}

/-- `write` in no-op mode. -/
def Skipped (h : H D S R) : Op S → Prop
  | .write .plain _ _ => h.noop = true
  | _ => False

instance (h : H D S R) (o : Op S) : Decidable (Skipped h o) := by
  unfold Skipped; split <;> infer_instance

/-- The history without the plain writes issued in no-op mode. -/
def without (E : Engine D S R) [DecidableEq S] : H D S R → List (Op S) → List (Op S)
  | _, [] => []
  | h, o :: os => (if Skipped h o then [] else [o]) ++ without E (step E h o).1 os

/-- The answers of a history without those to plain writes issued in no-op mode. -/
def others (E : Engine D S R) [DecidableEq S] : H D S R → List (Op S) → List (Ans S R)
  | _, [] => []
  | h, o :: os => (if Skipped h o then [] else [(step E h o).2]) ++ others E (step E h o).1 os

/-- C21: after any history, in and out of transactions and of no-op mode, the handle, and with it the data, the
committed database and the text that will be replicated, is what it would be if the plain writes issued in no-op mode
had not been issued, and every other call answers the same. -/
theorem c21_as_if_not_issued (E : Engine D S R) [DecidableEq S] : ∀ (ops : List (Op S)) (h : H D S R),
    run E h (without E h ops) = ((run E h ops).1, others E h ops)
  | [], h => rfl
  | o :: os, h => by
    have ih := c21_as_if_not_issued E os (step E h o).1
    unfold without others
    by_cases hs : Skipped h o
    · rw [if_pos hs, if_pos hs]
      have hst : (step E h o).1 = h := by
        cases o with
        | write k q l =>
          cases k with
          | plain => simp only [step, write]; rw [if_pos (show h.noop = true from hs)]
          | _ => exact absurd hs id
        | _ => exact absurd hs id
      simp only [List.nil_append]
      rw [show (run E h (o :: os)).1 = (run E (step E h o).1 os).1 from rfl]
      rw [hst] at ih ⊢
      exact ih
    · rw [if_neg hs, if_neg hs]
      simp only [List.singleton_append]
      show ((run E (step E h o).1 (without E (step E h o).1 os)).1,
        (step E h o).2 :: (run E (step E h o).1 (without E (step E h o).1 os)).2) = _
      rw [ih]
      rfl

/-- What the code of a mocked command may do: plain writes, and reads that read. -/
def MockBody (E : Engine D S R) : Op S → Prop
  | .write .plain _ _ => True
  | .read q _ => ∀ s ∈ q, ReadOnly E s
  | _ => False

theorem mock_body {E : Engine D S R} (hE : E.Sound) [DecidableEq S] : ∀ (ops : List (Op S)) (h : H D S R),
    h.noop = true → h.inside = true → (∀ o ∈ ops, MockBody E o) →
    (run E h ops).1.data = h.data ∧ (run E h ops).1.base = h.base ∧ (run E h ops).1.pending = h.pending ∧
    (run E h ops).1.noop = true ∧ (run E h ops).1.inside = true ∧ (run E h ops).1.moved = h.moved
  | [], h, hn, hin, _ => ⟨rfl, rfl, rfl, hn, hin, rfl⟩
  | o :: os, h, hn, hin, hb => by
    have hstep : (step E h o).1.data = h.data ∧ (step E h o).1.base = h.base ∧ (step E h o).1.pending = h.pending ∧
        (step E h o).1.noop = true ∧ (step E h o).1.inside = true ∧ (step E h o).1.moved = h.moved := by
      have hbo := hb o (by simp)
      cases o with
      | read q l =>
        simp only [step]
        have hdata : (squery E h h.writing false l.vol q 3 l.busy h.data).d = h.data := squery_readOnly hE hbo _ _ _
        unfold Handle.read
        split
        · exact ⟨rfl, rfl, rfl, hn, hin, rfl⟩
        · have hbase : (if h.inside then h.base else h.data) = h.base := by rw [hin]; rfl
          simp only [hdata, hbase]
          split
          · split
            · exact ⟨rfl, rfl, rfl, hn, hin, rfl⟩
            · exact ⟨rfl, rfl, rfl, hn, hin, rfl⟩
          · exact ⟨rfl, rfl, rfl, hn, hin, rfl⟩
      | write k q l =>
        cases k with
        | plain =>
          simp only [step, write]
          rw [if_pos hn]
          exact ⟨rfl, rfl, rfl, hn, hin, rfl⟩
        | _ => exact absurd hbo id
      | _ => exact absurd hbo id
    obtain ⟨h1, h2, h3, h4, h5, h6⟩ := hstep
    obtain ⟨g1, g2, g3, g4, g5, g6⟩ := mock_body hE os (step E h o).1 h4 h5 (fun o' ho' => hb o' (by simp [ho']))
    exact ⟨g1.trans h1, g2.trans h2, g3.trans h3, g4, g5, g6.trans h6⟩

theorem run_append (E : Engine D S R) [DecidableEq S] : ∀ (a b : List (Op S)) (h : H D S R),
    (run E h (a ++ b)).1 = (run E (run E h a).1 b).1 ∧ (run E h (a ++ b)).2 = (run E h a).2 ++ (run E (run E h a).1 b).2
  | [], b, h => ⟨rfl, rfl⟩
  | o :: os, b, h => by
    obtain ⟨h1, h2⟩ := run_append E os b (step E h o).1
    refine ⟨h1, ?_⟩
    show (step E h o).2 :: (run E (step E h o).1 (os ++ b)).2 = _
    rw [h2]; rfl

/-- C21: a mocked command (`BedrockCore::processCommand` around `process`), on a handle in any state outside a
transaction and outside no-op mode, whatever authorizer, whitelist or rewriting is set: the transaction is committed,
the database is what it was, and a follower that applies the text, which is two pragmas, is where it was too. -/
theorem c21_mocked {E : Engine D S R} (hE : E.Sound) [DecidableEq S] (h : H D S R) (body : List (Op S))
    (ho : h.inside = false) (hn : h.noop = false) (hp : h.pending = []) (hb : ∀ o ∈ body, MockBody E o) :
    let ops := [.begin, .setNoop true] ++ body ++ [.setNoop false, .commit]
    (run E h ops).1.base = h.base ∧
    (run E h ops).1.data = h.base ∧
    (run E h ops).2.getLast? = some (.committed [.noop true, .noop false]) ∧
    ∀ v d, replay E v [.noop true, .noop false] false d = some (d, false) := by
  intro ops
  have h1 : (run E h [.begin, .setNoop true]).1.noop = true ∧ (run E h [.begin, .setNoop true]).1.inside = true ∧
      (run E h [.begin, .setNoop true]).1.data = h.base ∧ (run E h [.begin, .setNoop true]).1.base = h.base ∧
      (run E h [.begin, .setNoop true]).1.pending = [.noop true] ∧
      (run E h [.begin, .setNoop true]).1.moved = false := by
    simp [run, step, setNoop, ho, hn, hp]
  obtain ⟨a1, a2, a3, a4, a5, a6⟩ := h1
  obtain ⟨b1, b2, b3, b4, b5, b6⟩ := mock_body hE body (run E h [.begin, .setNoop true]).1 a1 a2 hb
  obtain ⟨r1, r2⟩ := run_append E ([.begin, .setNoop true] ++ body) [.setNoop false, .commit] h
  obtain ⟨s1, _⟩ := run_append E [.begin, .setNoop true] body h
  rw [← s1] at b1 b2 b3 b4 b5 b6
  generalize (run E h ([.begin, .setNoop true] ++ body)).1 = k at *
  have hk : (run E k [.setNoop false, .commit]).1.base = k.data ∧
      (run E k [.setNoop false, .commit]).1.data = k.data ∧
      (run E k [.setNoop false, .commit]).2 = [.ok [], .committed (k.pending ++ [.noop false])] := by
    have hm : k.moved = false := b6.trans a6
    simp [run, step, setNoop, b4, b5, hm]
  refine ⟨?_, ?_, ?_, fun v d => rfl⟩
  · show (run E h ([.begin, .setNoop true] ++ body ++ [.setNoop false, .commit])).1.base = _
    rw [r1, hk.1, b1, a3]
  · show (run E h ([.begin, .setNoop true] ++ body ++ [.setNoop false, .commit])).1.data = _
    rw [r1, hk.2.1, b1, a3]
  · show (run E h ([.begin, .setNoop true] ++ body ++ [.setNoop false, .commit])).2.getLast? = _
    rw [r2, hk.2.2, b3, a5]
    simp

/-- A mocked command that reads, writes and reads again. -/
example : (run toy (fresh ⟨5, 7⟩) [.begin, .setNoop true, .read [.getA] {}, .write .plain [.incA] {},
    .read [.getA] {}, .setNoop false, .commit]).2
    = [.ok [], .ok [], .ok [5], .ok [], .ok [5], .ok [], .committed [.noop true, .noop false]] := by decide +kernel

example : ∀ o ∈ ([.read [.getA] {}, .write .plain [.incA] {}, .read [.getA] {}] : List (Op TS)), MockBody toy o := by
  intro o ho
  simp only [List.mem_cons, List.not_mem_nil, or_false] at ho
  rcases ho with rfl | rfl | rfl
  · intro s hs; rw [List.mem_singleton.1 hs]; exact toy_getA
  · trivial
  · intro s hs; rw [List.mem_singleton.1 hs]; exact toy_getA

/-- The first half of the statement on a history: the plain write in no-op mode is gone, the idempotent one is not. -/
example : without toy (fresh ⟨5, 7⟩) [.begin, .setNoop true, .write .plain [.incA] {}, .write .idempotent [.incB] {},
    .setNoop false, .write .plain [.incA] {}]
    = [.begin, .setNoop true, .write .idempotent [.incB] {}, .setNoop false, .write .plain [.incA] {}] := rfl

/-- The other kinds of write reach SQLite in no-op mode: whether they change anything is up to its
`noop_update` pragma, which is about updates; here a statement it does not cover changes the data. -/
def toyInsert : Engine TD TS Nat :=
  { toy with exec := fun s c d => match s with
      | .incB => .ok { d with b := d.b + 1 } 0 true
      | s => toy.exec s c d }

theorem c21_idempotent_write_happens :
    let ops : List (Op TS) := [.begin, .setNoop true, .write .idempotent [.incB] {}, .setNoop false, .commit]
    (run toyInsert (fresh ⟨5, 7⟩) ops).2
      = [.ok [], .ok [], .ok [0], .ok [], .committed [.noop true, .stmt .incB, .noop false]] ∧
    (run toyInsert (fresh ⟨5, 7⟩) ops).1.base = ⟨5, 8⟩ := by
  decide +kernel

/-- If the authorizer refuses the pragma, the handle is in no-op mode and SQLite is not: leader and follower part at
the first write that is let through. -/
theorem c21_pragma_refused_diverges :
    let ops : List (Op TS) := [.begin, .setAuthorizer (some fun a => a != .pragma "noop_update" (some "ON")),
      .setNoop true, .write .idempotent [.incA] {}, .commit]
    (run toy (fresh ⟨5, 7⟩) ops).2 = [.ok [], .ok [], .ok [], .ok [0], .committed [.noop true, .stmt .incA]] ∧
    (run toy (fresh ⟨5, 7⟩) ops).1.base = ⟨6, 7⟩ ∧
    replay toy 0 [.noop true, .stmt .incA] false ⟨5, 7⟩ = some (⟨5, 7⟩, true) := by
  decide +kernel

/-- So if the function that rewrites queries takes the pragma for one of its own: it is asked about the pragma too, and the
pragma is then not run. -/
theorem c21_pragma_rewritten_diverges (h : H D S R) (f : Action → Option (List S)) (q : List S)
    (hf : h.rewrite = some f) (hq : f (.pragma "noop_update" (some "ON")) = some q) (hn : h.noop = false) :
    (setNoop true h).noop = true ∧ (setNoop true h).dbNoop = h.dbNoop := by
  simp [setNoop, hn, pragmaAllowed, prep, hf, hq]

/-- **C28** On a handle without a whitelist, an authorizer or a rewriter both modes are what was last asked for. -/
theorem c28_modes_take (on : Bool) (h : H D S R) (hw : h.whitelist = none) (ha : h.authorizer = none)
    (hr : h.rewrite = none) :
    (setQueryOnly on h).queryOnly = on ∧ (setNoop on h).noop = on ∧
    (h.noop ≠ on → (setNoop on h).dbNoop = on) := by
  have hp : ∀ name arg, pragmaAllowed h name arg = true := by
    intro name arg
    unfold pragmaAllowed
    simp [prep, authorize, hw, ha, hr]
  refine ⟨?_, ?_, ?_⟩
  · unfold setQueryOnly; rw [if_pos (hp _ _)]
  · unfold setNoop; split
    · assumption
    · rfl
  · intro hn
    unfold setNoop; rw [if_neg hn]; simp [hp]

end Bedrock.Handle.Props
