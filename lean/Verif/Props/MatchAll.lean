import Verif.Model.MatchAll

/-! # C147: all matches of a pattern -/

namespace Bedrock.MatchAll.Props
open Bedrock

/-- A word of the language begins there. -/
def Begins (L : Bytes → Prop) (s : Bytes) (i : Nat) : Prop := ∃ w, L w ∧ w <+: s.drop i

/-- A pattern for a language of words, whatever is around them: it finds the first place where a word begins, and a word there. -/
def Finds (L : Bytes → Prop) (re : Regex) : Prop :=
  ∀ s, match re s with
    | none => ∀ i, ¬ Begins L s i
    | some m => m.start + m.len ≤ s.length ∧ L ((s.drop m.start).take m.len) ∧ ∀ i, i < m.start → ¬ Begins L s i

/-- The matches cover the input from `off` on. -/
def Tiles (L : Bytes → Prop) (s : Bytes) : Nat → List (Nat × List Bytes) → Prop
  | off, [] => ∀ i, off ≤ i → ¬ Begins L s i
  | off, (o, texts) :: rest => off ≤ o ∧ (∀ i, off ≤ i → i < o → ¬ Begins L s i) ∧
      (∃ w more, texts = w :: more ∧ L w ∧ w <+: s.drop o ∧ Tiles L s (o + w.length) rest)

theorem begins_drop (L : Bytes → Prop) (s : Bytes) (off i : Nat) : Begins L (s.drop off) i ↔ Begins L s (off + i) := by
  unfold Begins
  rw [List.drop_drop]

theorem tiles (L : Bytes → Prop) (re : Regex) (h : Finds L re) (h0 : ¬ L []) (s : Bytes) (fuel off : Nat) (hoff : off ≤ s.length)
    (hf : s.length < fuel + off) : ∃ r, loop re s fuel off = some r ∧ Tiles L s off r := by
  induction fuel generalizing off with
  | zero => omega
  | succ fuel ih =>
    have hs := h (s.drop off)
    unfold loop search
    cases hm : re (s.drop off) with
    | none =>
      rw [hm] at hs
      refine ⟨[], rfl, fun i hi hb => ?_⟩
      refine hs (i - off) ((begins_drop L s off _).mpr ?_)
      rw [Nat.add_sub_cancel' hi]; exact hb
    | some m =>
      rw [hm] at hs
      obtain ⟨h1, h2, h3⟩ := hs
      rw [List.length_drop] at h1
      rw [List.drop_drop] at h2
      have hw : (piece s off (m.start, m.len)).length = m.len := by
        unfold piece
        rw [List.length_take, List.length_drop]
        dsimp only
        omega
      have hpos : 0 < m.len := by
        apply Nat.pos_of_ne_zero
        intro hz
        rw [hz, List.take_zero] at h2
        exact h0 h2
      obtain ⟨r, hr, ht⟩ := ih (off + m.start + m.len) (by omega) (by omega)
      refine ⟨(off + m.start, piece s off (m.start, m.len) :: m.groups.filterMap (fun g => g.map (piece s off))) :: r, ?_, ?_⟩
      · simp only [List.filterMap_cons, Option.map_some, List.headD_cons, hw, hr]
      · refine ⟨by omega, fun i hi hlt hb => ?_, _, _, rfl, h2, List.take_prefix _ _, ?_⟩
        · refine h3 (i - off) (by omega) ((begins_drop L s off _).mpr ?_)
          rw [Nat.add_sub_cancel' hi]; exact hb
        · rw [hw]; exact ht

theorem tiles_from {L : Bytes → Prop} {s : Bytes} {off : Nat} {r : List (Nat × List Bytes)} (h : Tiles L s off r) :
    (∀ e ∈ r, off ≤ e.1 ∧ ∃ w more, e.2 = w :: more ∧ L w ∧ w <+: s.drop e.1) ∧
    r.Pairwise (fun a b => a.1 + (a.2.headD []).length ≤ b.1) ∧
    ∀ i, off ≤ i → Begins L s i → ∃ e ∈ r, e.1 ≤ i ∧ (i = e.1 ∨ i < e.1 + (e.2.headD []).length) := by
  induction r generalizing off with
  | nil => exact ⟨fun _ he => (by cases he), List.Pairwise.nil, fun i hi hb => absurd hb (h i hi)⟩
  | cons e r ih =>
    obtain ⟨o, texts⟩ := e
    obtain ⟨h1, h2, w, more, rfl, h3, h4, h5⟩ := h
    obtain ⟨g1, g2, g3⟩ := ih h5
    refine ⟨fun e he => ?_, List.pairwise_cons.mpr ⟨fun e he => (g1 e he).1, g2⟩, fun i hi hb => ?_⟩
    · rcases List.mem_cons.mp he with rfl | he
      · exact ⟨h1, w, more, rfl, h3, h4⟩
      · obtain ⟨a, b⟩ := g1 e he
        exact ⟨by omega, b⟩
    · by_cases hlt : i < o
      · exact absurd hb (h2 i hi hlt)
      · by_cases hin : i < o + w.length
        · exact ⟨_, List.mem_cons_self .., by dsimp only; omega, .inr hin⟩
        · obtain ⟨e, he, hh⟩ := g3 i (by omega) hb
          exact ⟨e, List.mem_cons_of_mem _ he, hh⟩

/-- **C147** For a pattern that does not match the empty text, the search ends.  What it returns are words of the pattern, each as it
is in the input, in order and without overlap; and none is missed: wherever a word begins, it begins in one of those. -/
theorem c147_all (L : Bytes → Prop) (re : Regex) (h : Finds L re) (h0 : ¬ L []) (s : Bytes) (fuel : Nat) (hf : s.length < fuel) :
    ∃ r, matchAll re s fuel = some r ∧
      (∀ e ∈ r, ∃ w more, e.2 = w :: more ∧ L w ∧ w <+: s.drop e.1) ∧
      r.Pairwise (fun a b => a.1 + (a.2.headD []).length ≤ b.1) ∧
      ∀ i, Begins L s i → ∃ e ∈ r, e.1 ≤ i ∧ i < e.1 + (e.2.headD []).length := by
  obtain ⟨r, hr, ht⟩ := tiles L re h h0 s fuel 0 (Nat.zero_le _) (by omega)
  obtain ⟨g1, g2, g3⟩ := tiles_from ht
  refine ⟨r, hr, fun e he => (g1 e he).2, g2, fun i hb => ?_⟩
  obtain ⟨e, he, hle, hor⟩ := g3 i (Nat.zero_le _) hb
  refine ⟨e, he, hle, ?_⟩
  rcases hor with rfl | hlt
  · obtain ⟨_, w, more, hw, hl, _⟩ := g1 e he
    rw [hw]
    show e.1 < e.1 + w.length
    have : w ≠ [] := fun hh => h0 (hh ▸ hl)
    have := List.length_pos_iff.mpr this
    omega
  · exact hlt

/-- **C147** The groups of a match are parts of the input, in the order of the pattern. -/
theorem c147_groups (re : Regex) (s : Bytes) (off o : Nat) (texts : List Bytes) (h : search re s off = some (o, texts)) :
    ∃ m, re (s.drop off) = some m ∧ (m.groups.all Option.isSome = true →
      texts = (s.drop o).take m.len :: m.groups.map (fun g => (s.drop (off + (g.getD (0, 0)).1)).take (g.getD (0, 0)).2)) := by
  unfold search at h
  cases hm : re (s.drop off) with
  | none => rw [hm] at h; cases h
  | some m =>
    rw [hm] at h
    injection h with h
    injection h with h1 h2
    refine ⟨m, rfl, fun hall => ?_⟩
    subst h1 h2
    have key : ∀ gs : List (Option (Nat × Nat)), gs.all Option.isSome = true → gs.filterMap (fun g => g.map (piece s off)) =
        gs.map (fun g => (s.drop (off + (g.getD (0, 0)).1)).take (g.getD (0, 0)).2) := by
      intro gs
      induction gs with
      | nil => intro _; rfl
      | cons g gs ih =>
        intro hg
        rw [List.all_cons, Bool.and_eq_true] at hg
        cases g with
        | none => cases hg.1
        | some g => simp [piece, ih hg.2]
    simp only [List.filterMap_cons, Option.map_some, piece, key _ hall]

/-- **C147, what does not hold** If a match is empty the search is at the same place again, and does not end. -/
theorem c147_empty_partial (re : Regex) (s : Bytes) (m : Match) (hm : re s = some m) (h0 : m.start = 0) (hl : m.len = 0) (fuel : Nat) :
    matchAll re s fuel = none := by
  unfold matchAll
  induction fuel with
  | zero => rfl
  | succ fuel ih =>
    unfold loop search
    rw [List.drop_zero, hm]
    simp [piece, h0, hl, ih]

/-- A pattern for one byte, at the beginning of the text only: `^c`. -/
def anchored (c : UInt8) : Regex := fun s => if s.head? = some c then some ⟨0, 1, []⟩ else none

/-- **C147, what does not hold** The beginning of the rest is taken for the beginning of the text: `^a` is found three times in
`aaa`. -/
theorem c147_anchor_partial : matchAll (anchored 97) [97, 97, 97] 4 = some [(0, [[97]]), (1, [[97]]), (2, [[97]])] := by decide +kernel

/-- The pattern `(a)|(b)`. -/
def either : Regex := fun s =>
  match s.findIdx? (fun c => c == 97 || c == 98) with
  | none => none
  | some i => if s[i]? = some 97 then some ⟨i, 1, [some (i, 1), none]⟩ else some ⟨i, 1, [none, some (i, 1)]⟩

/-- **C147, what does not hold** A group that took no part is left out, and the next takes its place: of `(a)|(b)` one cannot tell which
was found by its number. -/
theorem c147_group_partial : matchAll either [97, 120, 98] 4 = some [(0, [[97], [97]]), (2, [[98], [98]])] := by decide +kernel

/-- The pattern for one byte, anywhere. -/
def single (c : UInt8) : Regex := fun s =>
  match s.findIdx? (· == c) with
  | none => none
  | some i => some ⟨i, 1, []⟩

theorem single_finds (c : UInt8) : Finds (fun w => w = [c]) (single c) := by
  intro s
  have hb : ∀ i, Begins (fun w => w = [c]) s i ↔ s[i]? = some c := by
    intro i
    unfold Begins
    constructor
    · rintro ⟨w, rfl, t, ht⟩
      have := congrArg (·[0]?) ht
      simpa using this.symm
    · intro h
      obtain ⟨hi, hc⟩ := List.getElem?_eq_some_iff.mp h
      exact ⟨[c], rfl, s.drop (i + 1), by rw [← hc]; simp⟩
  unfold single
  cases hf : s.findIdx? (· == c) with
  | none =>
    dsimp only
    intro i hh
    obtain ⟨hi, hc⟩ := List.getElem?_eq_some_iff.mp ((hb i).mp hh)
    have := List.findIdx?_eq_none_iff.mp hf s[i] (List.getElem_mem hi)
    simp [hc] at this
  | some i =>
    dsimp only
    obtain ⟨hi, h1, h2⟩ := List.findIdx?_eq_some_iff_getElem.mp hf
    refine ⟨by omega, ?_, fun j hj hh => ?_⟩
    · have : s[i] = c := by simpa using h1
      rw [List.drop_eq_getElem_cons hi, this]; simp
    · obtain ⟨hj', hc⟩ := List.getElem?_eq_some_iff.mp ((hb j).mp hh)
      have := h2 j hj
      simp [hc] at this

example : matchAll (single 97) [98, 97, 97, 99, 97] 6 = some [(1, [[97]]), (2, [[97]]), (4, [[97]])] ∧ ¬ (([] : Bytes) = [97]) := by
  decide +kernel

/-- `a*` at a text that does not begin with `a`. -/
example (fuel : Nat) : matchAll (fun s => some ⟨0, (s.takeWhile (· == 97)).length, []⟩) [98] fuel = none :=
  c147_empty_partial _ _ _ rfl rfl rfl fuel

end Bedrock.MatchAll.Props
