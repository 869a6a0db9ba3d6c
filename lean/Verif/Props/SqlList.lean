import Verif.Model.SqlList
import Verif.Props.Text
import Verif.Props.Param
import Verif.Props.Deadline

/-! # C31, for lists given as text -/

namespace Bedrock.Text.Props
open Bedrock.Text Bedrock.Http

/-- A byte that occurs in a list of integers. -/
def listByte (c : UInt8) : Prop := (48 ≤ c ∧ c ≤ 57) ∨ c = 45 ∨ c = 44 ∨ c = 32

theorem natDec_listByte (n : Nat) : ∀ c ∈ natDec n, listByte c := by
  intro c hc
  obtain ⟨d, hd, rfl⟩ := natDec_digits n c hc
  have : ∀ d < 10, listByte (UInt8.ofNat (48 + d)) := by unfold listByte; decide
  exact this d hd

theorem intDec_listByte (v : Int) : ∀ c ∈ intDec v, listByte c := by
  intro c hc
  unfold intDec at hc
  split at hc
  · rcases List.mem_cons.mp hc with rfl | h
    · unfold listByte; decide
    · exact natDec_listByte _ c h
  · exact natDec_listByte _ c hc

/-- C31.  A list of integers made from any text is the list of those of its elements that are
integers of 64 bits in their usual spelling, in order; nothing else of the text is left. -/
theorem c31_integers (s : Bytes) :
    ∃ vs : List Int, sqListText s true = composeList (vs.map intDec) (str ", ") ∧
      (∀ v ∈ vs, -2 ^ 63 ≤ v ∧ v < 2 ^ 63) ∧
      (vs.map intDec).Sublist (parseList s 44).1 ∧
      ∀ v : Int, -2 ^ 63 ≤ v → v < 2 ^ 63 → (vs.count v = (parseList s 44).1.count (intDec v)) := by
  refine ⟨((parseList s 44).1.filter canonical).map strtoll, ?_, ?_, ?_, ?_⟩
  · have e : (((parseList s 44).1.filter canonical).map strtoll).map intDec = (parseList s 44).1.filter canonical := by
      rw [List.map_map]
      conv => rhs; rw [← List.map_id ((parseList s 44).1.filter canonical)]
      apply List.map_congr_left
      intro a ha
      have := (List.mem_filter.mp ha).2
      exact beq_iff_eq.mp this
    rw [e]
    have hs : str ", " = [44, 32] := by decide +kernel
    rw [hs]
    rfl
  · intro v hv
    obtain ⟨e, _, rfl⟩ := List.mem_map.mp hv
    exact Deadline.Props.strtoll_range e
  · have e : (((parseList s 44).1.filter canonical).map strtoll).map intDec = (parseList s 44).1.filter canonical := by
      rw [List.map_map]
      conv => rhs; rw [← List.map_id ((parseList s 44).1.filter canonical)]
      apply List.map_congr_left
      intro a ha
      have := (List.mem_filter.mp ha).2
      exact beq_iff_eq.mp this
    rw [e]
    exact List.filter_sublist
  · intro v h1 h2
    generalize (parseList s 44).1 = l
    induction l with
    | nil => rfl
    | cons a l ih =>
      rw [List.count_cons, ← ih]
      by_cases ha : a = intDec v
      · have hc : canonical a = true := by
          unfold canonical; rw [ha, Param.Props.strtoll_intDec h1 h2, beq_self_eq_true]
        rw [List.filter_cons, if_pos hc, List.map_cons, List.count_cons, ha, Param.Props.strtoll_intDec h1 h2]
        simp
      · have hne : (a == intDec v) = false := by simpa using ha
        rw [hne]
        by_cases hc : canonical a = true
        · rw [List.filter_cons, if_pos hc, List.map_cons, List.count_cons]
          have : (strtoll a == v) = false := by
            cases hx : strtoll a == v with
            | false => rfl
            | true =>
              rw [beq_iff_eq] at hx
              unfold canonical at hc
              rw [hx, beq_iff_eq] at hc
              exact absurd hc.symm ha
          rw [this]
        · rw [List.filter_cons, if_neg hc]; simp

/-- C31.  So the result has no byte that could end the list or begin a literal or a comment with a
meaning of its own. -/
theorem c31_integers_bytes (s : Bytes) : ∀ c ∈ sqListText s true, listByte c := by
  obtain ⟨vs, h, _⟩ := c31_integers s
  rw [h]
  have hs : str ", " = [44, 32] := by decide +kernel
  rw [hs]
  intro c hc
  unfold composeList at hc
  split at hc
  · cases hc
  · have := List.mem_of_mem_take hc
    simp only [List.mem_flatMap, List.mem_map, List.mem_append] at this
    obtain ⟨_, ⟨v, _, rfl⟩, h | h⟩ := this
    · exact intDec_listByte v c h
    · simp only [List.mem_cons, List.not_mem_nil, or_false] at h
      rcases h with rfl | rfl <;> (unfold listByte; decide)

/-- C31.  A list of integers comes back as it is. -/
theorem c31_integers_kept (vs : List Int) (h : ∀ v ∈ vs, -2 ^ 63 ≤ v ∧ v < 2 ^ 63) :
    sqListText (composeList (vs.map intDec) (str ", ")) true = composeList (vs.map intDec) (str ", ") := by
  have hs : str ", " = (44 : UInt8) :: List.replicate 1 32 := by decide +kernel
  have hd : ∀ v : Int, ∀ c ∈ intDec v, c ≠ 44 ∧ c ≠ 32 ∧ c ≠ 0 := by
    intro v c hc
    have key : ∀ n : Nat, ∀ c ∈ natDec n, c ≠ 44 ∧ c ≠ 32 ∧ c ≠ 0 := by
      intro n c hc
      obtain ⟨d, hd, rfl⟩ := natDec_digits n c hc
      have : ∀ d < 10, UInt8.ofNat (48 + d) ≠ 44 ∧ UInt8.ofNat (48 + d) ≠ 32 ∧ UInt8.ofNat (48 + d) ≠ 0 := by decide
      exact this d hd
    unfold intDec at hc
    split at hc
    · rcases List.mem_cons.mp hc with rfl | h
      · decide
      · exact key _ c h
    · exact key _ c hc
  unfold sqListText
  have hr := c29_round_trip (vs.map intDec) 44 1 (by decide) (by
    intro e he
    obtain ⟨v, _, rfl⟩ := List.mem_map.mp he
    refine ⟨?_, ?_, fun hc => (hd v _ hc).1 rfl, fun hc => (hd v _ hc).2.2 rfl⟩
    · unfold intDec; split
      · simp
      · exact natDec_ne_nil _
    · intro hc
      exact (hd v 32 (List.mem_of_mem_head? hc)).2.1 rfl)
  rw [hs]
  simp only [hr, if_true]
  rw [List.filter_eq_self.mpr]
  · rfl
  · intro e he
    obtain ⟨v, hv, rfl⟩ := List.mem_map.mp he
    unfold canonical
    rw [Param.Props.strtoll_intDec (h v hv).1 (h v hv).2, beq_self_eq_true]

/-- C31.  Without the restriction to integers, the result is exactly as many literals as the text has
elements, with those elements as values. -/
theorem c31_text_list (s : Bytes) :
    Spec.sqlLiterals (parseList s 44).1.length (sqListText s false) = some (parseList s 44).1 := by
  have ok := ListParse.foldl_ok 44 (cstr s) {} (zero_not_mem_cstr s) ⟨by simp, by simp, by simp, by simp⟩
  refine c31_quoted_list _ ?_
  unfold parseList
  simp only
  intro e he
  split at he
  · have := ok.1 e he; exact this.2.2.2
  · rename_i hn
    rcases List.mem_append.mp he with he | he
    · exact (ok.1 e he).2.2.2
    · rw [List.mem_singleton] at he; subst he; exact ok.2.2.2

/-- C31, a limit: numbers in another spelling are dropped without an error. -/
theorem c31_integers_dropped :
    sqListText (str "1 ,+2,03,4,x,9223372036854775808,-0,'5") true = str "4" := by decide +kernel

example : sqListText (str "1,-22, 333") true = str "1, -22, 333" := by decide +kernel
example : sqListText (str "1); DROP TABLE jobs; --,2") true = str "2" := by decide +kernel
example : sqListText (str "a,o'b") false = str "'a', 'o''b'" := by decide +kernel

end Bedrock.Text.Props
