import Verif.Spec.Buffer

namespace Bedrock.Buffer

/-! ## Refinement -/

/-- `front` never passes the end, and is 0 when everything has been consumed. -/
structure Ok (b : Buf) : Prop where
  le : b.front ≤ b.data.length
  next : b.nextToCheck = b.front ∨
    (b.front ≤ b.nextToCheck ∧ b.nextToCheck + 4 ≤ b.data.length ∧
      ∀ i, b.front ≤ i → i < b.nextToCheck → b.data[i]? = some 10 → headerAt b.data b.front i = 0)
  found : b.headerLength ≠ 0 →
    ∃ i, b.front ≤ i ∧ b.data[i]? = some 10 ∧ headerAt b.data b.front i ≠ 0

theorem Ok.init : Ok {} := ⟨by simp, .inl rfl, by simp⟩

theorem headerAt_append (data more : Bytes) (front i : Nat) (h : i + 2 < data.length) :
    headerAt (data ++ more) front i = headerAt data front i := by
  unfold headerAt
  rw [List.getElem?_append_left (by omega : i + 1 < data.length),
    List.getElem?_append_left (by omega : i + 2 < data.length),
    List.getElem?_append_left (by omega : i - 1 < data.length)]
  simp only [List.length_append]
  simp only [show i < data.length + more.length - 1 by omega, show i < data.length - 1 by omega,
    show i < data.length + more.length - 2 by omega, show i < data.length - 2 by omega, true_and]

theorem headerAt_ne_append (data more : Bytes) (front i : Nat) (h : headerAt data front i ≠ 0) :
    headerAt (data ++ more) front i ≠ 0 := by
  unfold headerAt at h ⊢
  simp only at h ⊢
  have hmono : ∀ (j : Nat) (c : UInt8), data[j]? = some c → (data ++ more)[j]? = some c := by
    intro j c hj
    rw [List.getElem?_append_left (by
      have := List.getElem?_eq_some_iff.mp hj
      exact this.1)]
    exact hj
  by_cases h2 : i ≠ 0 ∧ i < data.length - 2 ∧ data[i - 1]? = some 13 ∧ data[i + 1]? = some 13 ∧
      data[i + 2]? = some 10
  · rw [if_pos h2] at h
    rw [if_pos ⟨h2.1, by rw [List.length_append]; omega, hmono _ _ h2.2.2.1, hmono _ _ h2.2.2.2.1,
      hmono _ _ h2.2.2.2.2⟩]
    exact h
  · rw [if_neg h2] at h
    by_cases h1 : i < data.length - 1 ∧ data[i + 1]? = some 10
    · rw [if_pos h1] at h
      have e1 := hmono _ _ h1.2
      rw [if_neg (by rw [e1]; simp), if_pos ⟨by rw [List.length_append]; omega, e1⟩]
      exact h
    · rw [if_neg h1] at h; exact absurd rfl h

theorem search_spec (data : Bytes) (front next : Nat) (l : Bytes) (hl : data.drop next = l) :
    search data front next l ≠ 0 ↔
      ∃ i, next ≤ i ∧ data[i]? = some 10 ∧ headerAt data front i ≠ 0 := by
  induction l generalizing next with
  | nil =>
    simp only [search, ne_eq, not_true_eq_false, false_iff]
    rintro ⟨i, h1, h2, _⟩
    have := List.drop_eq_nil_iff.mp hl
    have := (List.getElem?_eq_some_iff.mp h2).1
    omega
  | cons c rest ih =>
    have hc : data[next]? = some c := by
      have : (data.drop next)[0]? = some c := by rw [hl]; rfl
      simpa using this
    have hrest : data.drop (next + 1) = rest := by
      rw [← List.drop_drop, hl]; rfl
    have ih := ih (next + 1) hrest
    unfold search
    by_cases h : c = 10 ∧ headerAt data front next ≠ 0
    · rw [if_pos h]
      exact ⟨fun _ => ⟨next, Nat.le_refl _, by rw [hc, h.1], h.2⟩, fun _ => h.2⟩
    · rw [if_neg h, ih]
      constructor
      · rintro ⟨i, h1, h2, h3⟩; exact ⟨i, by omega, h2, h3⟩
      · rintro ⟨i, h1, h2, h3⟩
        refine ⟨i, ?_, h2, h3⟩
        by_cases e : i = next
        · subst e
          rw [hc] at h2
          injection h2 with h2
          exact absurd ⟨h2, h3⟩ h
        · omega

/-- The answer in terms of the whole buffer. -/
theorem startsWith_iff (b : Buf) (h : Ok b) :
    b.startsWithRequest.1 = true ↔
      4 ≤ b.size ∧ ∃ i, b.front ≤ i ∧ b.data[i]? = some 10 ∧ headerAt b.data b.front i ≠ 0 := by
  unfold Buf.startsWithRequest
  by_cases hs : b.size < 4
  · rw [if_pos hs]
    simp only [Bool.false_eq_true, false_iff]
    omega
  · rw [if_neg hs]
    simp only
    by_cases hh : b.headerLength = 0
    · rw [if_pos hh]
      have key := search_spec b.data b.front b.nextToCheck _ rfl
      have : (∃ i, b.nextToCheck ≤ i ∧ b.data[i]? = some 10 ∧ headerAt b.data b.front i ≠ 0) ↔
          ∃ i, b.front ≤ i ∧ b.data[i]? = some 10 ∧ headerAt b.data b.front i ≠ 0 := by
        rcases h.next with e | ⟨h1, _, h3⟩
        · rw [e]
        · constructor
          · rintro ⟨i, a1, a2, a3⟩; exact ⟨i, by omega, a2, a3⟩
          · rintro ⟨i, a1, a2, a3⟩
            by_cases hi : i < b.nextToCheck
            · exact absurd (h3 i a1 hi a2) a3
            · exact ⟨i, by omega, a2, a3⟩
      rw [this] at key
      by_cases hz : search b.data b.front b.nextToCheck (b.data.drop b.nextToCheck) = 0
      · rw [if_pos hz]
        simp only [Bool.false_eq_true, false_iff]
        rintro ⟨_, hx⟩
        exact (key.mpr hx) hz
      · rw [if_neg hz]
        simp only [true_iff]
        exact ⟨by omega, key.mp hz⟩
    · rw [if_neg hh, if_neg hh]
      simp only [true_iff]
      exact ⟨Nat.le_of_not_lt hs, h.found hh⟩

theorem query_front (b : Buf) : b.startsWithRequest.2.front = b.front := by
  unfold Buf.startsWithRequest; simp only; repeat' split
  all_goals rfl

theorem query_data (b : Buf) : b.startsWithRequest.2.data = b.data := by
  unfold Buf.startsWithRequest; simp only; repeat' split
  all_goals rfl

theorem Ok.query {b : Buf} (h : Ok b) : Ok b.startsWithRequest.2 := by
  have hiff := startsWith_iff b h
  have hr : b.startsWithRequest = b.startsWithRequest := rfl
  unfold Buf.startsWithRequest at hr hiff ⊢
  by_cases hs : b.size < 4
  · rw [if_pos hs]; exact h
  · rw [if_neg hs] at hiff ⊢
    simp only at hiff ⊢
    generalize (if b.headerLength = 0 then search b.data b.front b.nextToCheck (b.data.drop b.nextToCheck)
      else b.headerLength) = k at hiff ⊢
    by_cases hk : k = 0
    · rw [if_pos hk] at hiff ⊢
      have hno : ∀ i, b.front ≤ i → b.data[i]? = some 10 → headerAt b.data b.front i = 0 := by
        intro i h1 h2
        by_cases h3 : headerAt b.data b.front i = 0
        · exact h3
        · exact absurd (hiff.mpr ⟨Nat.le_of_not_lt hs, i, h1, h2, h3⟩) (by simp)
      refine ⟨h.le, .inr ⟨?_, ?_, fun i h1 _ h3 => hno i h1 h3⟩, h.found⟩
      · show b.front ≤ b.data.length - 4
        unfold Buf.size at hs; clear hiff hno hr; omega
      · show b.data.length - 4 + 4 ≤ b.data.length
        unfold Buf.size at hs; clear hiff hno hr; omega
    · rw [if_neg hk] at hiff ⊢
      exact ⟨h.le, h.next, fun _ => (hiff.mp rfl).2⟩

theorem Ok.append {b : Buf} (h : Ok b) (full : Bool) (bytes : Bytes) : Ok (b.append full bytes) := by
  unfold Buf.append
  split
  · exact ⟨by simp, .inl rfl, by simp⟩
  · refine ⟨?_, ?_, ?_⟩
    · show b.front ≤ (b.data ++ bytes).length
      rw [List.length_append]; have := h.le; omega
    · rcases h.next with e | ⟨h1, h2, h3⟩
      · exact .inl e
      · refine .inr ⟨h1, ?_, ?_⟩
        · show b.nextToCheck + 4 ≤ (b.data ++ bytes).length
          rw [List.length_append]; omega
        · intro i a1 a2 a3
          have a2 : i < b.nextToCheck := a2
          show headerAt (b.data ++ bytes) b.front i = 0
          rw [headerAt_append _ _ _ _ (by omega)]
          refine h3 i a1 a2 ?_
          have a3 : (b.data ++ bytes)[i]? = some 10 := a3
          rw [List.getElem?_append_left (by omega)] at a3
          exact a3
    · intro hh
      obtain ⟨i, a1, a2, a3⟩ := h.found hh
      refine ⟨i, a1, ?_, headerAt_ne_append _ _ _ _ a3⟩
      show (b.data ++ bytes)[i]? = some 10
      rw [List.getElem?_append_left (List.getElem?_eq_some_iff.mp a2).1]
      exact a2

theorem Ok.consume {b b' : Buf} {n : Nat} (hc : b.consumeFront n = some b') : Ok b' := by
  unfold Buf.consumeFront at hc
  repeat' split at hc
  · cases hc
  · injection hc with hc; subst hc; exact Ok.init
  · injection hc with hc; subst hc
    refine ⟨?_, .inl rfl, by simp⟩
    show b.front + n ≤ b.data.length
    omega

theorem Ok.step {b b' : Buf} (h : Ok b) {op : Op} (hs : b.step op = some b') : Ok b' := by
  cases op with
  | append full bytes => simp only [Buf.step, Option.some.injEq] at hs; subst hs; exact h.append full bytes
  | consume n => exact Ok.consume hs
  | clear => simp only [Buf.step, Option.some.injEq] at hs; subst hs; exact Ok.init
  | assign bytes =>
    simp only [Buf.step, Option.some.injEq] at hs; subst hs
    exact ⟨by simp [Buf.assign], .inl rfl, by simp [Buf.assign]⟩
  | query => simp only [Buf.step, Option.some.injEq] at hs; subst hs; exact h.query

theorem step_view (b : Buf) (h : Ok b) (op : Op) :
    (b.step op).map (·.view) = Spec.step b.view op := by
  cases op with
  | append full bytes =>
    simp only [Buf.step, Option.map_some, Spec.step, Option.some.injEq]
    unfold Buf.append
    split
    · simp [Buf.view]
    · simp only [Buf.view]
      rw [List.drop_append_of_le_length h.le]
  | consume n =>
    simp only [Buf.step, Spec.step]
    have hl : b.view.length = b.data.length - b.front := by simp [Buf.view]
    have := h.le
    unfold Buf.consumeFront
    by_cases h1 : b.data.length < b.front + n
    · rw [if_pos h1, if_neg (by rw [hl]; omega)]; rfl
    · rw [if_neg h1, if_pos (c := n ≤ _) (by rw [hl]; omega)]
      by_cases h2 : b.front + n = b.data.length
      · rw [if_pos h2]
        simp only [Option.map_some, Buf.clear, Buf.view, List.drop_drop, h2, List.drop_length, List.drop_nil]
      · rw [if_neg h2]
        simp only [Option.map_some, Buf.view, List.drop_drop]
  | clear => rfl
  | assign bytes => rfl
  | query =>
    simp only [Buf.step, Option.map_some, Spec.step, Buf.view, query_front, query_data]

theorem run_view (b : Buf) (h : Ok b) (ops : List Op) :
    (b.run ops).map (·.view) = Spec.run b.view ops := by
  induction ops generalizing b with
  | nil => rfl
  | cons op ops ih =>
    have hv := step_view b h op
    simp only [Buf.run, Spec.run]
    cases hs : b.step op with
    | none => rw [hs] at hv; simp only [Option.map_none] at hv; rw [← hv]; rfl
    | some b' =>
      rw [hs] at hv; simp only [Option.map_some] at hv; rw [← hv]
      simp only [Option.bind_some]
      exact ih b' (h.step hs)

theorem run_ok (b b' : Buf) (h : Ok b) (ops : List Op) (hr : b.run ops = some b') : Ok b' := by
  induction ops generalizing b with
  | nil => simp only [Buf.run, Option.some.injEq] at hr; subst hr; exact h
  | cons op ops ih =>
    simp only [Buf.run] at hr
    cases hs : b.step op with
    | none => rw [hs] at hr; cases hr
    | some b1 => rw [hs] at hr; exact ih b1 (h.step hs) hr

/-! ## What a hit at position `i` means -/

/-- `headerAt` is not 0: a line feed pair not at the front, or an empty line with carriage returns
whose first carriage return is not at the front (but may lie before it). -/
theorem headerAt_ne_iff (data : Bytes) (front i : Nat) (hf : front ≤ i) :
    headerAt data front i ≠ 0 ↔
      (front < i ∧ data[i + 1]? = some 10) ∨
      (i ≠ 0 ∧ i ≠ front + 1 ∧ data[i - 1]? = some 13 ∧ data[i + 1]? = some 13 ∧ data[i + 2]? = some 10) := by
  unfold headerAt
  simp only
  by_cases h2 : i ≠ 0 ∧ i < data.length - 2 ∧ data[i - 1]? = some 13 ∧ data[i + 1]? = some 13 ∧
      data[i + 2]? = some 10
  · rw [if_pos h2]
    obtain ⟨a, _, b, c, d⟩ := h2
    rw [c]
    by_cases he : i ≤ front
    · rw [if_pos he]
      refine ⟨fun _ => .inr ⟨a, by omega, b, rfl, d⟩, fun _ => by decide⟩
    · rw [if_neg he]
      constructor
      · intro h; exact .inr ⟨a, by omega, b, rfl, d⟩
      · rintro (⟨_, h⟩ | ⟨_, h, _⟩)
        · simp at h
        · omega
  · rw [if_neg h2]
    by_cases h1 : i < data.length - 1 ∧ data[i + 1]? = some 10
    · rw [if_pos h1, h1.2]
      constructor
      · intro h; exact .inl ⟨by omega, rfl⟩
      · rintro (⟨h, _⟩ | ⟨_, _, _, h, _⟩)
        · omega
        · simp at h
    · rw [if_neg h1]
      simp only [ne_eq, not_true_eq_false, false_iff, not_or, not_and]
      refine ⟨?_, ?_⟩
      · intro _ h
        have := (List.getElem?_eq_some_iff.mp h).1
        exact h1 ⟨by omega, h⟩
      · intro a b c d e
        have := (List.getElem?_eq_some_iff.mp e).1
        exact h2 ⟨a, by omega, c, d, e⟩

theorem split_at (b : Bytes) (i : Nat) (c : UInt8) (h : b[i]? = some c) :
    b = b.take i ++ c :: b.drop (i + 1) := by
  have hlt := (List.getElem?_eq_some_iff.mp h).1
  have he := (List.getElem?_eq_some_iff.mp h).2
  have := List.drop_eq_getElem_cons hlt
  rw [he] at this
  rw [← this, List.take_append_drop]

theorem complete_of_pair (b : Bytes) (i : Nat) (h4 : 4 ≤ b.length) (hi : i ≠ 0) (h1 : b[i]? = some 10)
    (h2 : b[i + 1]? = some 10) : Spec.Complete b := by
  refine ⟨h4, b.take i, b.drop (i + 2), ?_, .inl ?_⟩
  · intro e
    have hz := congrArg List.length e
    rw [List.length_take, List.length_nil] at hz
    have := (List.getElem?_eq_some_iff.mp h1).1
    omega
  · have e1 := split_at b i 10 h1
    have h2' : (b.drop (i + 1))[0]? = some 10 := by simpa using h2
    have e2 := split_at _ 0 10 h2'
    rw [List.drop_drop] at e2
    rw [e2] at e1
    simpa using e1

theorem complete_of_quad (b : Bytes) (i : Nat) (h4 : 4 ≤ b.length) (hi : i ≠ 0) (h0 : b[i]? = some 13)
    (h1 : b[i + 1]? = some 10) (h2 : b[i + 2]? = some 13) (h3 : b[i + 3]? = some 10) :
    Spec.Complete b := by
  refine ⟨h4, b.take i, b.drop (i + 4), ?_, .inr ?_⟩
  · intro e
    have hz := congrArg List.length e
    rw [List.length_take, List.length_nil] at hz
    have := (List.getElem?_eq_some_iff.mp h1).1
    omega
  · have e0 := split_at b i 13 h0
    have h1' : (b.drop (i + 1))[0]? = some 10 := by simpa using h1
    have e1 := split_at _ 0 10 h1'
    rw [List.drop_drop] at e1
    have h2' : (b.drop (i + 2))[0]? = some 13 := by simpa using h2
    have e2 := split_at _ 0 13 h2'
    rw [List.drop_drop] at e2
    have h3' : (b.drop (i + 3))[0]? = some 10 := by simpa using h3
    have e3 := split_at _ 0 10 h3'
    rw [List.drop_drop] at e3
    simp only [List.take_zero, List.nil_append] at e1 e2 e3
    rw [e1, show i + 1 + (0 + 1) = i + 2 from rfl, e2, show i + 2 + (0 + 1) = i + 3 from rfl, e3] at e0
    simpa using e0

/-- The answer in terms of the visible bytes and the last byte consumed. -/
theorem startsWith_complete (b : Buf) (h : Ok b) :
    b.startsWithRequest.1 = true ↔
      (Spec.Complete b.view ∨
        (4 ≤ b.view.length ∧ b.front ≠ 0 ∧ b.data[b.front - 1]? = some 13 ∧ [10, 13, 10] <+: b.view)) := by
  rw [startsWith_iff b h]
  have hvl : b.view.length = b.size := by simp [Buf.view, Buf.size]
  have hget : ∀ j, b.view[j]? = b.data[b.front + j]? := by
    intro j; simp [Buf.view, List.getElem?_drop]
  constructor
  · rintro ⟨h4, i, hi, h10, hne⟩
    have hilt := (List.getElem?_eq_some_iff.mp h10).1
    obtain ⟨j, rfl⟩ := Nat.exists_eq_add_of_le hi
    rcases (headerAt_ne_iff b.data b.front (b.front + j) hi).mp hne with ⟨hlt, hp⟩ | ⟨h0, h1, h2, h3, h5⟩
    · left
      refine complete_of_pair b.view j (by omega) (by omega) (by rw [hget]; exact h10) ?_
      rw [hget]; exact hp
    · by_cases hj : j = 0
      · right
        subst hj
        refine ⟨by omega, by simpa using h0, by simpa using h2, ?_⟩
        have g0 : b.view[0]? = some 10 := by rw [hget]; exact h10
        have g1 : b.view[1]? = some 13 := by rw [hget]; exact h3
        have g2 : b.view[2]? = some 10 := by rw [hget]; exact h5
        cases hv : b.view with
        | nil => rw [hv] at g0; simp at g0
        | cons a r =>
          rw [hv] at g0 g1 g2
          cases r with
          | nil => simp at g1
          | cons a' r =>
            cases r with
            | nil => simp at g2
            | cons a'' r =>
              simp at g0 g1 g2
              subst g0; subst g1; subst g2
              exact ⟨r, rfl⟩
      · left
        refine complete_of_quad b.view (j - 1) (by omega) (by omega) ?_ ?_ ?_ ?_
        · rw [hget, ← Nat.add_sub_assoc (by omega)]; exact h2
        · rw [hget, show b.front + (j - 1 + 1) = b.front + j by omega]; exact h10
        · rw [hget, show b.front + (j - 1 + 2) = b.front + j + 1 by omega]; exact h3
        · rw [hget, show b.front + (j - 1 + 3) = b.front + j + 2 by omega]; exact h5
  · rintro (⟨h4, head, rest, hne, hv⟩ | ⟨h4, h0, h13, r, hr⟩)
    · refine ⟨by omega, ?_⟩
      have hpos := List.length_pos_iff.mpr hne
      rcases hv with hv | hv
      · have g0 : b.data[b.front + head.length]? = some 10 := by
          rw [← hget, hv]; simp
        have g1 : b.data[b.front + head.length + 1]? = some 10 := by
          rw [Nat.add_assoc, ← hget, hv]; simp
        have := (List.getElem?_eq_some_iff.mp g0).1
        refine ⟨b.front + head.length, by omega, g0, ?_⟩
        exact (headerAt_ne_iff _ _ _ (by omega)).mpr (.inl ⟨by omega, g1⟩)
      · have g0 : b.data[b.front + head.length]? = some 13 := by
          rw [← hget, hv]; simp
        have g1 : b.data[b.front + head.length + 1]? = some 10 := by
          rw [Nat.add_assoc, ← hget, hv]; simp
        have g2 : b.data[b.front + head.length + 2]? = some 13 := by
          rw [Nat.add_assoc, ← hget, hv]; simp
        have g3 : b.data[b.front + head.length + 3]? = some 10 := by
          rw [Nat.add_assoc, ← hget, hv]; simp
        have := (List.getElem?_eq_some_iff.mp g1).1
        refine ⟨b.front + head.length + 1, by omega, g1, ?_⟩
        exact (headerAt_ne_iff _ _ _ (by omega)).mpr
          (.inr ⟨by omega, by omega, by simpa using g0, g2, g3⟩)
    · have g0 : b.data[b.front]? = some 10 := by rw [← Nat.add_zero b.front, ← hget, ← hr]; rfl
      have g1 : b.data[b.front + 1]? = some 13 := by rw [← hget, ← hr]; rfl
      have g2 : b.data[b.front + 2]? = some 10 := by rw [← hget, ← hr]; rfl
      refine ⟨by omega, b.front, Nat.le_refl _, g0, ?_⟩
      have := (List.getElem?_eq_some_iff.mp g0).1
      exact (headerAt_ne_iff _ _ _ (Nat.le_refl _)).mpr (.inr ⟨h0, by omega, h13, g1, g2⟩)

/-! ## Asking leaves no trace -/

/-- Two buffers with the same contents. -/
def Same (a b : Buf) : Prop := a.front = b.front ∧ a.data = b.data

theorem Same.step {a b : Buf} (h : Same a b) (op : Op) :
    (a.step op = none ∧ b.step op = none) ∨
      ∃ a' b', a.step op = some a' ∧ b.step op = some b' ∧ Same a' b' := by
  obtain ⟨h1, h2⟩ := h
  cases op with
  | append full bytes =>
    refine .inr ⟨_, _, rfl, rfl, ?_⟩
    unfold Buf.append Buf.view
    rw [h1, h2]
    split
    · exact ⟨rfl, rfl⟩
    · exact ⟨rfl, rfl⟩
  | consume n =>
    simp only [Buf.step, Buf.consumeFront]
    rw [h1, h2]
    repeat' split
    · exact .inl ⟨rfl, rfl⟩
    · exact .inr ⟨_, _, rfl, rfl, rfl, rfl⟩
    · exact .inr ⟨_, _, rfl, rfl, rfl, rfl⟩
  | clear => exact .inr ⟨_, _, rfl, rfl, rfl, rfl⟩
  | assign bytes => exact .inr ⟨_, _, rfl, rfl, rfl, rfl⟩
  | query =>
    refine .inr ⟨_, _, rfl, rfl, ?_⟩
    exact ⟨by rw [query_front, query_front, h1], by rw [query_data, query_data, h2]⟩

theorem Same.run {a b : Buf} (h : Same a b) (ops : List Op) :
    (a.run ops = none ∧ b.run (ops.filter (· ≠ .query)) = none) ∨
      ∃ a' b', a.run ops = some a' ∧ b.run (ops.filter (· ≠ .query)) = some b' ∧ Same a' b' := by
  induction ops generalizing a b with
  | nil => exact .inr ⟨a, b, rfl, rfl, h⟩
  | cons op ops ih =>
    by_cases hq : op = .query
    · subst hq
      have : ((Op.query :: ops).filter (· ≠ .query)) = ops.filter (· ≠ .query) := by simp
      rw [this]
      refine ih (a := a.startsWithRequest.2) ⟨?_, ?_⟩
      · rw [query_front]; exact h.1
      · rw [query_data]; exact h.2
    · have : ((op :: ops).filter (· ≠ .query)) = op :: ops.filter (· ≠ .query) := by simp [hq]
      rw [this]
      simp only [Buf.run]
      rcases h.step op with ⟨h1, h2⟩ | ⟨a', b', h1, h2, h3⟩
      · rw [h1, h2]; exact .inl ⟨rfl, rfl⟩
      · rw [h1, h2]; exact ih h3

end Bedrock.Buffer
