import Verif.Props.ResultColumn

/-!
# C84, continued: characters, their widths and tab stops, and the lines of a row
-/

namespace Bedrock.Results.Props
open Bedrock.Text Bedrock.Results

/-! ## UTF-8 -/

/-- Text in UTF-8, with the encoder of Lean's library. -/
def utf8 (cs : List Char) : Bytes := cs.flatMap String.utf8EncodeChar

theorem toNat_ofNat {n : Nat} (h : n < 256) : (UInt8.ofNat n).toNat = n := by
  rw [UInt8.toNat_ofNat']; exact Nat.mod_eq_of_lt h

theorem lt_ofNat {n : Nat} (h : n < 256) (k : UInt8) : UInt8.ofNat n < k ↔ n < k.toNat := by
  rw [UInt8.lt_iff_toNat_lt, toNat_ofNat h]

theorem le_ofNat {n : Nat} (h : n < 256) (k : UInt8) : k ≤ UInt8.ofNat n ↔ k.toNat ≤ n := by
  rw [UInt8.le_iff_toNat_le, toNat_ofNat h]

theorem trail_step (k cp v : Nat) (s : Bytes) (hv : v < 64) :
    trail (k + 1) cp (UInt8.ofNat (v + 128) :: s)
      = ((trail k (cp * 64 + v) s).1, UInt8.ofNat (v + 128) :: (trail k (cp * 64 + v) s).2.1,
          (trail k (cp * 64 + v) s).2.2) := by
  have h : 0x80 ≤ UInt8.ofNat (v + 128) ∧ UInt8.ofNat (v + 128) < 0xC0 := by
    rw [le_ofNat (by omega), lt_ofNat (by omega)]
    have e1 : (0x80 : UInt8).toNat = 128 := rfl
    have e2 : (0xC0 : UInt8).toNat = 192 := rfl
    omega
  have hm : (UInt8.ofNat (v + 128)).toNat % 64 = v := by
    rw [toNat_ofNat (by omega)]; omega
  simp only [trail, h, and_self, if_true, hm]

theorem decode_char (c : Char) (s : Bytes) :
    decode (String.utf8EncodeChar c ++ s) = (c.toNat, String.utf8EncodeChar c) :: decode s := by
  have hv : c.val.toNat < 1114112 := by
    rcases c.valid with h | h <;> omega
  have hc : c.toNat = c.val.toNat := rfl
  have e1 : (0x80 : UInt8).toNat = 128 := rfl
  have e2 : (0xC0 : UInt8).toNat = 192 := rfl
  have e3 : (0xE0 : UInt8).toNat = 224 := rfl
  have e4 : (0xF0 : UInt8).toNat = 240 := rfl
  have e5 : (0xF8 : UInt8).toNat = 248 := rfl
  unfold String.utf8EncodeChar
  dsimp only
  rw [hc]
  generalize c.val.toNat = v at hv
  repeat' split
  · rename_i h
    rw [List.cons_append, decode_cons]
    have : next (UInt8.ofNat v) ([] ++ s) = (v, [], s) := by
      unfold next
      rw [if_pos (by rw [lt_ofNat (by omega)]; omega), toNat_ofNat (by omega)]; rfl
    rw [this]
  · rename_i h h1
    rw [List.cons_append, decode_cons]
    have : next (UInt8.ofNat (v / 64 % 32 + 192)) ([UInt8.ofNat (v % 64 + 128)] ++ s)
        = (v, [UInt8.ofNat (v % 64 + 128)], s) := by
      unfold next
      rw [if_neg (by rw [lt_ofNat (by omega)]; omega),
        if_pos (by rw [lt_ofNat (by omega), le_ofNat (by omega)]; omega), List.singleton_append,
        trail_step 0 _ _ _ (by omega), toNat_ofNat (by omega)]
      simp only [trail]
      congr 1
      omega
    rw [this]
  · rename_i h h1 h2
    rw [List.cons_append, decode_cons]
    have : next (UInt8.ofNat (v / 4096 % 16 + 224)) ([UInt8.ofNat (v / 64 % 64 + 128), UInt8.ofNat (v % 64 + 128)] ++ s)
        = (v, [UInt8.ofNat (v / 64 % 64 + 128), UInt8.ofNat (v % 64 + 128)], s) := by
      unfold next
      rw [if_neg (by rw [lt_ofNat (by omega)]; omega),
        if_neg (by rw [lt_ofNat (by omega), le_ofNat (by omega)]; omega),
        if_pos (by rw [lt_ofNat (by omega), le_ofNat (by omega)]; omega), List.cons_append, List.singleton_append,
        trail_step 1 _ _ _ (by omega), trail_step 0 _ _ _ (by omega), toNat_ofNat (by omega)]
      simp only [trail]
      congr 1
      omega
    rw [this]
  · rename_i h h1 h2
    rw [List.cons_append, decode_cons]
    have : next (UInt8.ofNat (v / 262144 % 8 + 240))
          ([UInt8.ofNat (v / 4096 % 64 + 128), UInt8.ofNat (v / 64 % 64 + 128), UInt8.ofNat (v % 64 + 128)] ++ s)
        = (v, [UInt8.ofNat (v / 4096 % 64 + 128), UInt8.ofNat (v / 64 % 64 + 128), UInt8.ofNat (v % 64 + 128)], s) := by
      unfold next
      rw [if_neg (by rw [lt_ofNat (by omega)]; omega),
        if_neg (by rw [lt_ofNat (by omega), le_ofNat (by omega)]; omega),
        if_neg (by rw [lt_ofNat (by omega), le_ofNat (by omega)]; omega),
        if_pos (by rw [lt_ofNat (by omega), le_ofNat (by omega)]; omega), List.cons_append, List.cons_append,
        List.singleton_append, trail_step 2 _ _ _ (by omega), trail_step 1 _ _ _ (by omega),
        trail_step 0 _ _ _ (by omega), toNat_ofNat (by omega)]
      simp only [trail]
      congr 1
      omega
    rw [this]

/-- The reader of characters undoes UTF-8, for every text. -/
theorem decode_utf8 (cs : List Char) :
    decode (utf8 cs) = cs.map (fun c => (c.toNat, String.utf8EncodeChar c)) := by
  induction cs with
  | nil => rfl
  | cons c cs ih =>
    show decode (String.utf8EncodeChar c ++ utf8 cs) = _
    rw [decode_char, ih]; rfl

/-! ## Widths -/

/-- Characters that take no place: control characters, combining marks (the blocks of U+0300, U+1AB0, U+1DC0, U+20D0 and
U+FE20), the joiners and the variation selectors. -/
def silent : List (Nat × Nat) :=
  [(0, 0x1F), (0x7F, 0x7F), (0x300, 0x36F), (0x1AB0, 0x1AFF), (0x1DC0, 0x1DFF), (0x200C, 0x200D), (0x20D0, 0x20FF), (0xFE00, 0xFE0F),
   (0xFE20, 0xFE2F)]

/-- Characters that take two places: Hangul, the angle brackets, the CJK, Japanese and Yi blocks, the compatibility forms, the
full-width forms, and the symbols and pictographs. -/
def broad : List (Nat × Nat) :=
  [(0x1100, 0x115F), (0x2329, 0x232A), (0x2600, 0x26FF), (0x2700, 0x27BF), (0x2E80, 0xA4CF), (0xAC00, 0xD7A3), (0xF900, 0xFAFF),
   (0xFE10, 0xFE19), (0xFE30, 0xFE6F), (0xFF00, 0xFF60), (0xFFE0, 0xFFE6), (0x1F300, 0x1FAFF)]

def In (bs : List (Nat × Nat)) (n : Nat) : Prop := ∃ b ∈ bs, b.1 ≤ n ∧ n ≤ b.2

/-- The places characters take: none, two, or, for all others, one. -/
inductive Width : List Char → Nat → Prop
  | nil : Width [] 0
  | one {c : Char} {cs : List Char} {n : Nat} : ¬ In silent c.toNat → ¬ In broad c.toNat → Width cs n → Width (c :: cs) (n + 1)
  | none {c : Char} {cs : List Char} {n : Nat} : In silent c.toNat → Width cs n → Width (c :: cs) n
  | two {c : Char} {cs : List Char} {n : Nat} : In broad c.toNat → Width cs n → Width (c :: cs) (n + 2)

theorem silent_iff (n : Nat) : In silent n ↔ (n < 0x20 ∨ n = 0x7F) ∨ isCombining n = true := by
  simp only [In, silent, List.mem_cons, List.not_mem_nil, or_false, exists_eq_or_imp, exists_eq_left, isCombining, Bool.or_eq_true,
    Bool.and_eq_true, decide_eq_true_eq, beq_iff_eq]
  omega

theorem broad_iff (n : Nat) : In broad n ↔ isWide n = true := by
  simp only [In, broad, List.mem_cons, List.not_mem_nil, or_false, exists_eq_or_imp, exists_eq_left, isWide, Bool.or_eq_true,
    Bool.and_eq_true, decide_eq_true_eq]
  omega

theorem broad_not_silent {n : Nat} (h : In broad n) : ¬ In silent n := by
  simp only [In, broad, silent, List.mem_cons, List.not_mem_nil, or_false, exists_eq_or_imp, exists_eq_left] at h ⊢
  omega

theorem cpWidth_none {n : Nat} (h : In silent n) : cpWidth n = 0 := by
  unfold cpWidth
  rcases (silent_iff n).mp h with h | h
  · rw [if_pos h]
  · rw [if_pos h]; split <;> rfl

theorem cpWidth_two {n : Nat} (h : In broad n) : cpWidth n = 2 := by
  have hs := broad_not_silent h
  rw [silent_iff] at hs
  unfold cpWidth
  rw [if_neg (fun h => hs (.inl h)), if_neg (fun h => hs (.inr h)), if_pos ((broad_iff n).mp h)]

theorem cpWidth_one {n : Nat} (h : ¬ In silent n) (h' : ¬ In broad n) : cpWidth n = 1 := by
  rw [silent_iff] at h
  rw [broad_iff] at h'
  unfold cpWidth
  rw [if_neg (fun x => h (.inl x)), if_neg (fun x => h (.inr x)), if_neg h']

/-- C84.  Cells are measured by the places their characters take on a terminal, not by their bytes: an
accented letter takes one place, a combining accent none, an ideograph or a pictograph two. -/
theorem c84_width (cs : List Char) (n : Nat) (h : Width cs n) : displayWidth (utf8 cs) = n := by
  unfold displayWidth
  rw [decode_utf8]
  induction h with
  | nil => rfl
  | one hc hc' _ ih =>
    simp only [List.map_cons, List.sum_cons, ih, cpWidth_one hc hc']; omega
  | none hc _ ih =>
    simp only [List.map_cons, List.sum_cons, ih, cpWidth_none hc]; omega
  | two hc _ ih =>
    simp only [List.map_cons, List.sum_cons, ih, cpWidth_two hc]; omega

-- "é" as one letter, "é" as a letter and an accent, an ideograph and a face
example : Width ['é', 'e', '́', '日', '😀'] 6 :=
  .one (by unfold In silent; decide) (by unfold In broad; decide) <| .one (by unfold In silent; decide) (by unfold In broad; decide) <|
    .none (by unfold In silent; decide) <| .two (by unfold In broad; decide) <| .two (by unfold In broad; decide) .nil

/-! ## Tabs -/

/-- Where the cursor is after the pieces. -/
def cursor : Nat → List (Nat × Bytes) → Nat
  | col, [] => col
  | col, (cp, _) :: l => if cp = 9 then cursor (col + (8 - col % 8)) l else cursor (col + cpWidth cp) l

theorem expandGo_cursor : ∀ (l m : List (Nat × Bytes)) (col : Nat),
    expandGo col (l ++ m) = expandGo col l ++ expandGo (cursor col l) m
  | [], _, _ => rfl
  | (cp, raw) :: l, m, col => by
    by_cases h : cp = 9 <;>
      simp only [List.cons_append, expandGo, cursor, h, if_true, if_false, expandGo_cursor l m, List.append_assoc]

/-- Whether text starts in the middle of a sequence. -/
def Cont (s : Bytes) : Prop := ∃ c r, s = c :: r ∧ 0x80 ≤ c ∧ c < 0xC0

theorem trail_swap : ∀ (k cp : Nat) (s X : Bytes), (Cont X → Cont (trail k cp s).2.2) →
    trail k cp ((trail k cp s).2.1 ++ X) = ((trail k cp s).1, (trail k cp s).2.1, X)
  | 0, cp, s, X, _ => rfl
  | k + 1, cp, [], X, h => by
    simp only [trail, List.nil_append] at h ⊢
    cases X with
    | nil => rfl
    | cons x X =>
      simp only [trail]
      split
      · rename_i hx
        obtain ⟨c, r, hc, _⟩ := h ⟨x, X, rfl, hx⟩
        cases hc
      · rfl
  | k + 1, cp, b :: s, X, h => by
    simp only [trail] at h ⊢
    split
    · rename_i hb
      rw [if_pos hb] at h
      simp only [List.cons_append, trail, hb, and_self, if_true]
      rw [trail_swap k _ s X h]
    · rename_i hb
      rw [if_neg hb] at h
      simp only [List.nil_append]
      cases X with
      | nil => rfl
      | cons x X =>
        simp only [trail]
        split
        · rename_i hx
          obtain ⟨c, r, hc, hcc⟩ := h ⟨x, X, rfl, hx⟩
          cases hc
          exact absurd hcc hb
        · rfl

theorem next_swap (b : UInt8) (s X : Bytes) (h : Cont X → Cont (next b s).2.2) :
    next b ((next b s).2.1 ++ X) = ((next b s).1, (next b s).2.1, X) := by
  unfold next at h ⊢
  repeat' split
  all_goals first
    | rfl
    | (simp_all only [if_true, if_false, not_false_eq_true, and_self]; exact trail_swap _ _ s X h)

theorem not_cont_nil : ¬ Cont [] := by
  rintro ⟨c, r, h, _⟩
  cases h

theorem expandGo_cont (s : Bytes) (col : Nat) : Cont (expandGo col (decode s)) → Cont s := by
  cases s with
  | nil => exact fun h => absurd h not_cont_nil
  | cons b s =>
    rw [decode_cons]
    simp only [expandGo]
    split
    · have : 8 - col % 8 = 7 - col % 8 + 1 := by omega
      rw [this, List.replicate_succ]
      rintro ⟨c, r, hc, h1, h2⟩
      simp only [List.cons_append, List.cons.injEq] at hc
      rw [← hc.1] at h1
      exact absurd h1 (by decide)
    · rintro ⟨c, r, hc, h1, h2⟩
      simp only [List.cons_append, List.cons.injEq] at hc
      exact ⟨b, s, rfl, by rw [hc.1]; exact h1, by rw [hc.1]; exact h2⟩

theorem width_expand : ∀ (n : Nat) (s : Bytes) (col : Nat), s.length ≤ n →
    col + displayWidth (expandGo col (decode s)) = cursor col (decode s)
  | _, [], col, _ => rfl
  | 0, b :: s, _, h => by simp at h
  | n + 1, b :: s, col, h => by
    have hl := next_length b s
    simp only [List.length_cons] at h
    have ih := fun col => width_expand n (next b s).2.2 col (by omega)
    rw [decode_cons]
    simp only [expandGo, cursor]
    split
    · rw [← ih]
      have e : 8 - col % 8 = 7 - col % 8 + 1 := by omega
      have hw := width_blanks (7 - col % 8) [] (expandGo (col + (8 - col % 8)) (decode (next b s).2.2))
      rw [List.nil_append, width_nil, ← e] at hw
      rw [hw]
      omega
    · rw [← ih]
      have hd : displayWidth (b :: (next b s).2.1 ++ expandGo (col + cpWidth (next b s).1) (decode (next b s).2.2))
          = cpWidth (next b s).1 + displayWidth (expandGo (col + cpWidth (next b s).1) (decode (next b s).2.2)) := by
        unfold displayWidth
        rw [List.cons_append, decode_cons,
          next_swap b s _ (fun hc => expandGo_cont _ _ hc)]
        rfl
      rw [hd]
      omega

theorem starts_tab : Starts 9 := by unfold Starts; decide

/-- C84.  A tab goes on to the next place that is a multiple of eight, counted in places on the
terminal from the start of the cell's line: whatever bytes stand before it. -/
theorem c84_tab (s t : Bytes) : ∃ k u : Nat, 1 ≤ k ∧ k ≤ 8 ∧ displayWidth (expandTabs s) + k = 8 * u ∧
    ∃ r, expandTabs (s ++ 9 :: t) = expandTabs s ++ (List.replicate k 32 ++ r) ∧ (t = [] → r = []) := by
  have hw := width_expand s.length s 0 (Nat.le_refl _)
  rw [Nat.zero_add] at hw
  refine ⟨8 - cursor 0 (decode s) % 8, cursor 0 (decode s) / 8 + 1, by omega, by omega, ?_, ?_⟩
  · unfold expandTabs; rw [hw]; omega
  · unfold expandTabs
    have hn : next 9 t = (9, [], t) := by rfl
    rw [decode_append starts_tab t s.length s (Nat.le_refl _), decode_cons, hn, expandGo_cursor]
    refine ⟨expandGo (cursor 0 (decode s) + (8 - cursor 0 (decode s) % 8)) (decode t), ?_, ?_⟩
    · simp only [expandGo, if_true]
    · rintro rfl; rfl

-- after an ideograph and an accent the tab is five places wide
example : expandTabs (utf8 ['日', 'e', '́', '\t', 'x']) = utf8 ['日', 'e', '́', ' ', ' ', ' ', ' ', ' ', 'x'] := by
  decide +kernel

theorem expand_no_tab (cs : List Char) (h : ∀ c ∈ cs, c.toNat ≠ 9) : ∀ col : Nat,
    expandGo col (cs.map (fun c => (c.toNat, String.utf8EncodeChar c))) = utf8 cs := by
  induction cs with
  | nil => intro col; rfl
  | cons c cs ih =>
    intro col
    simp only [List.map_cons, expandGo, h c (List.mem_cons_self ..), if_false,
      ih (fun d hd => h d (List.mem_cons_of_mem _ hd))]
    rfl

/-- C84.  UTF-8 text without tabs is written as it is. -/
theorem c84_utf8_kept (cs : List Char) (h : '\t' ∉ cs) : expandTabs (utf8 cs) = utf8 cs := by
  unfold expandTabs
  rw [decode_utf8]
  refine expand_no_tab cs (fun c hc h9 => h ?_) 0
  have : c = '\t' := Char.toNat_inj.mp h9
  rwa [this] at hc

/-- Text in Latin-1 is not: the letter `é` (byte E9) reads as a cut-off UTF-8 sequence for a tab, and
blanks are written in its place. -/
theorem c84_latin1_lost :
    formatColumn false ⟨[str "n"], [[str "caf" ++ [0xE9, 33]]]⟩ = some (str "caf     !\n") := by decide +kernel

/-! ## The lines of a row -/

theorem splitOn10_length : ∀ s : Bytes, (splitOn10 s).length = s.count 10 + 1
  | [] => rfl
  | c :: s => by
    have ih := splitOn10_length s
    simp only [splitOn10]
    by_cases h : c = 10
    · simp [h, ih]
    · rw [if_neg h, List.count_cons_of_ne h, ← ih]
      cases hs : splitOn10 s with
      | nil => exact absurd hs (splitOn10_ne s)
      | cons l ls => rfl

/-- C84.  A row takes as many lines as its cell with the most lines, and at least one even if it has no
cells. -/
theorem c84_row_height (row : List Bytes) :
    IsMax (cellLines row).length (1 :: row.map (fun c => c.count 10 + 1)) := by
  have h := foldl_max (row.map (fun c => (splitLines c).length)) 1
  have e : (cellLines row).length = (row.map (fun c => (splitLines c).length)).foldl max 1 := by
    simp [cellLines, rowHeight]
  have e2 : row.map (fun c => c.count 10 + 1) = row.map (fun c => (splitLines c).length) := by
    apply List.map_congr_left
    intro c _
    simp [splitLines, splitOn10_length]
  rw [e, e2]
  exact h

example : (cellLines [str "a\nb\n", str "c"]).length = 3 ∧ (cellLines []).length = 1 ∧
    formatColumn false ⟨[str "n"], [[], [str "x"]]⟩ = some (str "\nx\n") := by decide +kernel

end Bedrock.Results.Props
