import Verif.Lemmas.Buffer
import Verif.Lemmas.Http

/-!
# Properties of socket buffers: C33, C34
-/

namespace Bedrock.Buffer.Props
open Bedrock.Buffer

/-- C33.  Under any history of appends, consumptions, clears, assignments and questions the buffer
shows the bytes of a plain queue; consuming too much is the only failure, and fails for both. -/
theorem c33_fifo (ops : List Op) : (Buf.run {} ops).map (·.view) = Spec.run [] ops :=
  run_view {} Ok.init ops

/-- C33.  So do its size and emptiness. -/
theorem c33_size (ops : List Op) (b : Buf) (h : Buf.run {} ops = some b) :
    ∃ q, Spec.run [] ops = some q ∧ b.size = q.length ∧ (b.empty = true ↔ q = []) := by
  have := c33_fifo ops
  rw [h] at this
  refine ⟨b.view, this.symm, by simp [Buf.size, Buf.view], ?_⟩
  have hl : b.view.length = b.size := by simp [Buf.size, Buf.view]
  unfold Buf.empty
  rw [beq_iff_eq, ← hl]
  exact List.length_eq_zero_iff

-- a history that moves the contents to the front of the memory
example : (Buf.run {} [.append false [1, 2, 3, 4], .consume 2, .append true [5], .consume 1]).map (·.view) =
    some [4, 5] ∧ Buf.run {} [.append false [1], .consume 2] = none := by decide +kernel

/-- C34 (partial).  Whatever the history, the buffer reports a complete request head exactly when
its bytes are something followed by an empty line — unless the bytes begin with `\n\r\n`.
Missing for the full property: that case, see `c34_depends_on_consumed_bytes`. -/
theorem c34_detects_partial (ops : List Op) (b : Buf) (h : Buf.run {} ops = some b)
    (hn : ¬ [10, 13, 10] <+: b.view) :
    b.startsWithRequest.1 = true ↔ Spec.Complete b.view := by
  rw [startsWith_complete b (run_ok _ _ Ok.init ops h)]
  constructor
  · rintro (hc | ⟨_, _, _, hp⟩)
    · exact hc
    · exact absurd hp hn
  · exact .inl

/-- C34.  Asking does not change any later answer: leaving out the questions of a history gives
the same answer at its end. -/
theorem c34_asking_is_harmless (ops : List Op) (b b' : Buf) (h : Buf.run {} ops = some b)
    (h' : Buf.run {} (ops.filter (· ≠ .query)) = some b') :
    b.startsWithRequest.1 = b'.startsWithRequest.1 := by
  rcases Same.run (a := {}) (b := {}) ⟨rfl, rfl⟩ ops with ⟨e, _⟩ | ⟨x, y, e1, e2, e3⟩
  · rw [e] at h; cases h
  · rw [e1] at h; rw [e2] at h'
    injection h with h; injection h' with h'
    subst h; subst h'
    have k1 := startsWith_complete x (run_ok _ _ Ok.init ops e1)
    have k2 := startsWith_complete y (run_ok _ _ Ok.init _ e2)
    have hv : x.view = y.view := by unfold Buf.view; rw [e3.1, e3.2]
    rw [hv, e3.1, e3.2, ← k2] at k1
    exact Bool.eq_iff_iff.mpr k1

/-- C34.  A complete request sent by the library's composer is always reported, with whatever
follows it. -/
theorem c34_requests_are_detected (ops : List Op) (b : Buf) (h : Buf.run {} ops = some b)
    (gz : Bytes → Bytes) (m : Http.Msg) (hm : Http.Spec.GoodMsg m) (x rest : Bytes)
    (hx : Http.compose gz m = some x) (hv : b.view = x ++ rest) : b.startsWithRequest.1 = true := by
  rw [startsWith_complete b (run_ok _ _ Ok.init ops h)]
  left
  rw [Http.compose_eq gz m hm] at hx
  injection hx with hx
  have hx : Http.bytes m = x := hx
  rw [hv, ← hx]
  have hsplit : ∃ head tail, head ≠ [] ∧ Http.bytes m = head ++ [13, 10, 13, 10] ++ tail := by
    refine ⟨m.methodLine ++ Http.crlf ++
      (((Http.sent m.table).map (fun e => Http.entryLine e.1 e.2)).flatMap (fun l => l ++ Http.crlf) ++
        Http.entryLine Http.sContentLength (Text.natDec m.content.length)), m.content, ?_, ?_⟩
    · simp [Http.crlf]
    · unfold Http.bytes Http.headerLines
      simp [Http.crlf, List.flatMap_append]
  obtain ⟨head, tail, h1, h2⟩ := hsplit
  refine ⟨?_, head, tail ++ rest, h1, .inr ?_⟩
  · rw [h2]; simp; omega
  · rw [h2]; simp

-- the head arrives in three pieces, with questions in between
example : ∃ b, Buf.run {} [.append false [71, 13, 10], .query, .append false [13], .query, .append false [10]] = some b ∧
    b.startsWithRequest.1 = true := by decide +kernel

/-- C34, the exception.  With the same five bytes in the buffer the answer depends on a byte that
has already been consumed, and on whether the memory was compacted. -/
theorem c34_depends_on_consumed_bytes :
    (Buf.run {} [.append false [13, 10, 13, 10, 65], .consume 1]).map
        (fun b => (b.view, b.startsWithRequest.1)) = some ([10, 13, 10, 65], true) ∧
    (Buf.run {} [.append false [65, 10, 13, 10, 65], .consume 1]).map
        (fun b => (b.view, b.startsWithRequest.1)) = some ([10, 13, 10, 65], false) ∧
    (Buf.run {} [.append false [13, 10, 13, 10], .consume 1, .append true [65]]).map
        (fun b => (b.view, b.startsWithRequest.1)) = some ([10, 13, 10, 65], false) := by
  decide +kernel

end Bedrock.Buffer.Props
