import Verif.Model.Attr
import Verif.Props.Param
import Verif.Props.Deadline

/-!
# C53 and C54: attributes and queries
-/

namespace Bedrock.Attr.Props
open Bedrock Bedrock.Text Bedrock.Http Bedrock.Attr

/-! ## C53 -/

/-- C53.  An integer attribute is accepted exactly if it is absent and may be, or is the decimal text of a 64-bit
integer as the server itself would write it, long enough. -/
theorem c53_int64 (v : Bytes) (minSize : Nat) :
    verifyInt64 v minSize = .accepted ↔
      minSize ≤ v.length ∧ (v = [] ∨ ∃ i : Int, -2 ^ 63 ≤ i ∧ i < 2 ^ 63 ∧ v = intDec i) := by
  unfold verifyInt64
  split
  · rename_i h
    simp only [reduceCtorEq, false_iff, not_and]
    intro h'
    omega
  · rename_i h
    by_cases he : v = []
    · subst he
      simp at h ⊢
      exact h
    · by_cases hc : v = intDec (strtoll v)
      · rw [if_neg (fun h => h.2 hc)]
        simp only [true_iff]
        exact ⟨by omega, .inr ⟨strtoll v, (Deadline.Props.strtoll_range v).1, (Deadline.Props.strtoll_range v).2, hc⟩⟩
      · rw [if_pos ⟨he, hc⟩]
        simp only [reduceCtorEq, false_iff, not_and]
        rintro _ (h' | ⟨i, h1, h2, h3⟩)
        · exact he h'
        · apply hc
          rw [h3, Param.Props.strtoll_intDec h1 h2]

example : verifyInt64 (intDec (-2 ^ 63)) 1 = .accepted :=
  (c53_int64 _ _).mpr ⟨by
    rw [show intDec (-2 ^ 63) = 45 :: natDec (2 ^ 63) from rfl]; simp, .inr ⟨-2 ^ 63, by decide, by decide, rfl⟩⟩

/-- C53.  What a plugin then reads from an accepted attribute is that number. -/
theorem c53_int64_value (i : Int) (h1 : -2 ^ 63 ≤ i) (h2 : i < 2 ^ 63) : strtoll (intDec i) = i :=
  Param.Props.strtoll_intDec h1 h2

/-- C53.  Limits on the size are inclusive, and the two errors are told apart. -/
theorem c53_size (v : Bytes) (lo hi : Nat) :
    (verifySize v lo hi = .accepted ↔ lo ≤ v.length ∧ v.length ≤ hi) ∧
    (verifySize v lo hi = .missing ↔ v.length < lo) := by
  unfold verifySize
  split
  · constructor <;> simp <;> omega
  · split
    · constructor <;> simp <;> omega
    · constructor <;> simp <;> omega

example : verifySize [1, 2, 3] 3 3 = .accepted := (c53_size _ _ _).1.mpr ⟨by decide, by decide⟩

/-- `w` is `v` in some mixture of small and capital letters. -/
def sameLetters (v w : Bytes) : Prop := v.map toLower = w.map toLower

theorem sIEquals_iff {v w : Bytes} (hw : 0 ∉ w) : sIEquals v w = true ↔ sameLetters (cstr v) w := by
  unfold sIEquals sameLetters
  rw [cstr_eq hw, beq_iff_eq]
  rfl

/-- C53.  A boolean attribute without NUL is accepted exactly if it is a spelling of `true` or `false`, or is empty and
may be.  The text up to a NUL is what counts. -/
theorem c53_bool (v : Bytes) (require : Bool) :
    verifyBool v require = .accepted ↔
      (v = [] ∧ require = false) ∨ (v ≠ [] ∧ (sameLetters (cstr v) (str "true") ∨ sameLetters (cstr v) (str "false"))) := by
  have h1 := sIEquals_iff (v := v) (w := str "true") (by decide +kernel)
  have h2 := sIEquals_iff (v := v) (w := str "false") (by decide +kernel)
  rw [← h1, ← h2]
  unfold verifyBool
  cases v with
  | nil => cases require <;> simp
  | cons c v =>
    cases sIEquals (c :: v) (str "true") <;> cases sIEquals (c :: v) (str "false") <;> simp

example : verifyBool (str "TrUe") true = .accepted ∧ verifyBool (str "yes") true = .malformed ∧
    verifyBool [] true = .missing := by decide +kernel

/-- C53.  Anything may follow a NUL in an accepted boolean. -/
theorem c53_bool_nul : verifyBool (str "true" ++ [0] ++ str "drop") true = .accepted := by decide +kernel

/-! ### Dates -/

/-- The texts a regular expression stands for. -/
def Lang : Re → Bytes → Prop
  | .eps, s => s = []
  | .one p, s => ∃ c, p c = true ∧ s = [c]
  | .seq a b, s => ∃ x y, s = x ++ y ∧ Lang a x ∧ Lang b y
  | .alt a b, s => Lang a s ∨ Lang b s

theorem mem_run (r : Re) (s t : Bytes) : t ∈ r.run s ↔ ∃ w, s = w ++ t ∧ Lang r w := by
  induction r generalizing s t with
  | eps =>
    simp only [Re.run, List.mem_singleton, Lang]
    constructor
    · intro h; exact ⟨[], h.symm, rfl⟩
    · rintro ⟨w, h, rfl⟩; exact h.symm
  | one p =>
    cases s with
    | nil =>
      simp only [Re.run, List.not_mem_nil, Lang, false_iff]
      rintro ⟨w, h, c, _, rfl⟩
      cases h
    | cons c s =>
      simp only [Re.run, Lang]
      by_cases hp : p c = true
      · simp only [hp, if_true, List.mem_singleton]
        constructor
        · rintro rfl; exact ⟨[c], rfl, c, hp, rfl⟩
        · rintro ⟨w, h, d, _, rfl⟩
          injection h with _ h
          exact h.symm
      · simp only [hp]
        constructor
        · intro h; cases h
        · rintro ⟨w, h, d, hd, rfl⟩
          injection h with h _
          subst h
          exact absurd hd hp
  | seq a b iha ihb =>
    simp only [Re.run, List.mem_flatMap, Lang]
    constructor
    · rintro ⟨u, h1, h2⟩
      obtain ⟨x, rfl, hx⟩ := (iha _ _).mp h1
      obtain ⟨y, rfl, hy⟩ := (ihb _ _).mp h2
      exact ⟨x ++ y, by simp, x, y, rfl, hx, hy⟩
    · rintro ⟨w, rfl, x, y, rfl, hx, hy⟩
      exact ⟨y ++ t, (iha _ _).mpr ⟨x, by simp, hx⟩, (ihb _ _).mpr ⟨y, rfl, hy⟩⟩
  | alt a b iha ihb =>
    simp only [Re.run, List.mem_append, Lang, iha, ihb]
    constructor
    · rintro (⟨w, h, hl⟩ | ⟨w, h, hl⟩)
      · exact ⟨w, h, .inl hl⟩
      · exact ⟨w, h, .inr hl⟩
    · rintro ⟨w, h, hl | hl⟩
      · exact .inl ⟨w, h, hl⟩
      · exact .inr ⟨w, h, hl⟩

theorem full_iff (r : Re) (s : Bytes) : r.full s = true ↔ Lang r s := by
  unfold Re.full
  rw [List.any_eq_true]
  constructor
  · rintro ⟨t, ht, he⟩
    rw [beq_iff_eq] at he
    subst he
    obtain ⟨w, h, hl⟩ := (mem_run r s []).mp ht
    rw [List.append_nil] at h
    rw [h]
    exact hl
  · intro h
    exact ⟨[], (mem_run r s []).mpr ⟨s, by simp, h⟩, rfl⟩

/-- Two digits of a number below 100. -/
def two (n : Nat) : Bytes := [UInt8.ofNat (48 + n / 10), UInt8.ofNat (48 + n % 10)]

/-- What a caller may take an accepted date for: a year from 1900 to 2999, a month, a day up to 31, and perhaps three
numbers of two digits. -/
def IsDate (s : Bytes) : Prop := ∃ y m d, 1900 ≤ y ∧ y < 3000 ∧ 1 ≤ m ∧ m ≤ 12 ∧ 1 ≤ d ∧ d ≤ 31 ∧
  (s = two (y / 100) ++ two (y % 100) ++ [45] ++ two m ++ [45] ++ two d ∨
    ∃ h i j, h < 100 ∧ i < 100 ∧ j < 100 ∧
      s = two (y / 100) ++ two (y % 100) ++ [45] ++ two m ++ [45] ++ two d ++ [32] ++ two h ++ [58] ++ two i ++ [58] ++ two j)

theorem digit_iff (a b : UInt8) (x y : Nat) (hx : x ≤ y) (hy : y < 10) (ha : a = UInt8.ofNat (48 + x))
    (hb : b = UInt8.ofNat (48 + y)) (c : UInt8) :
    (a ≤ c && c ≤ b) = true ↔ ∃ n, x ≤ n ∧ n ≤ y ∧ c = UInt8.ofNat (48 + n) := by
  subst ha hb
  rw [Bool.and_eq_true, decide_eq_true_iff, decide_eq_true_iff, UInt8.le_iff_toNat_le, UInt8.le_iff_toNat_le,
    UInt8.toNat_ofNat', UInt8.toNat_ofNat']
  constructor
  · intro h
    refine ⟨c.toNat - 48, by omega, by omega, ?_⟩
    rw [← UInt8.toNat_inj, UInt8.toNat_ofNat']
    have := c.toNat_lt
    omega
  · rintro ⟨n, h1, h2, rfl⟩
    rw [UInt8.toNat_ofNat']
    omega

theorem lang_ch (c : UInt8) (s : Bytes) : Lang (.ch c) s ↔ s = [c] := by
  simp only [Re.ch, Lang, beq_iff_eq]
  constructor
  · rintro ⟨d, rfl, h⟩; exact h
  · intro h; exact ⟨c, rfl, h⟩

theorem lang_digit (s : Bytes) : Lang .digit s ↔ ∃ n < 10, s = [UInt8.ofNat (48 + n)] := by
  simp only [Re.digit, Lang]
  constructor
  · rintro ⟨c, h, rfl⟩
    obtain ⟨n, _, h2, rfl⟩ := (digit_iff 48 57 0 9 (by omega) (by omega) rfl rfl c).mp h
    exact ⟨n, by omega, rfl⟩
  · rintro ⟨n, h, rfl⟩
    exact ⟨_, (digit_iff 48 57 0 9 (by omega) (by omega) rfl rfl _).mpr ⟨n, by omega, by omega, rfl⟩, rfl⟩

theorem lang_range (x y : Nat) (hx : x ≤ y) (hy : y < 10) (s : Bytes) :
    Lang (.range (UInt8.ofNat (48 + x)) (UInt8.ofNat (48 + y))) s ↔ ∃ n, x ≤ n ∧ n ≤ y ∧ s = [UInt8.ofNat (48 + n)] := by
  simp only [Re.range, Lang]
  constructor
  · rintro ⟨c, h, rfl⟩
    obtain ⟨n, h1, h2, rfl⟩ := (digit_iff _ _ x y hx hy rfl rfl c).mp h
    exact ⟨n, h1, h2, rfl⟩
  · rintro ⟨n, h1, h2, rfl⟩
    exact ⟨_, (digit_iff _ _ x y hx hy rfl rfl _).mpr ⟨n, h1, h2, rfl⟩, rfl⟩

theorem lang_two_digits (s : Bytes) : Lang (.seq .digit .digit) s ↔ ∃ n < 100, s = two n := by
  simp only [Lang, lang_digit]
  constructor
  · rintro ⟨x, y, rfl, ⟨a, ha, rfl⟩, ⟨b, hb, rfl⟩⟩
    refine ⟨10 * a + b, by omega, ?_⟩
    unfold two
    rw [show (10 * a + b) / 10 = a by omega, show (10 * a + b) % 10 = b by omega]
    rfl
  · rintro ⟨n, hn, rfl⟩
    exact ⟨_, _, rfl, ⟨n / 10, by omega, rfl⟩, ⟨n % 10, by omega, rfl⟩⟩

/-- One leading digit and a range of second ones. -/
theorem lang_tens (a x y : Nat) (hx : x ≤ y) (hy : y < 10) (s : Bytes) :
    Lang (.seq (.ch (UInt8.ofNat (48 + a))) (.range (UInt8.ofNat (48 + x)) (UInt8.ofNat (48 + y)))) s ↔
      ∃ n, 10 * a + x ≤ n ∧ n ≤ 10 * a + y ∧ s = two n := by
  simp only [Lang, lang_ch, lang_range x y hx hy]
  constructor
  · rintro ⟨p, q, rfl, rfl, n, h1, h2, rfl⟩
    refine ⟨10 * a + n, by omega, by omega, ?_⟩
    unfold two
    rw [show (10 * a + n) / 10 = a by omega, show (10 * a + n) % 10 = n by omega]
    rfl
  · rintro ⟨n, h1, h2, rfl⟩
    refine ⟨[UInt8.ofNat (48 + n / 10)], [UInt8.ofNat (48 + n % 10)], rfl, ?_, n % 10, by omega, by omega, rfl⟩
    rw [show n / 10 = a by omega]

theorem lang_century (s : Bytes) :
    Lang (.alt (.seq (.ch 49) (.ch 57)) (.seq (.ch 50) (.range 48 57))) s ↔ ∃ n, 19 ≤ n ∧ n ≤ 29 ∧ s = two n := by
  have h2 := lang_tens 2 0 9 (by omega) (by omega) s
  rw [show UInt8.ofNat (48 + 2) = 50 from rfl, show UInt8.ofNat (48 + 0) = 48 from rfl,
    show UInt8.ofNat (48 + 9) = 57 from rfl] at h2
  have h1 : Lang (.seq (.ch 49) (.ch 57)) s ↔ s = two 19 := by
    simp only [Lang, lang_ch]
    constructor
    · rintro ⟨x, y, rfl, rfl, rfl⟩; rfl
    · rintro rfl; exact ⟨[49], [57], rfl, rfl, rfl⟩
  show Lang (.seq (.ch 49) (.ch 57)) s ∨ Lang (.seq (.ch 50) (.range 48 57)) s ↔ _
  rw [h1, h2]
  constructor
  · rintro (h | ⟨n, h1, h2, h⟩)
    · exact ⟨19, by omega, by omega, h⟩
    · exact ⟨n, by omega, by omega, h⟩
  · rintro ⟨n, h1, h2, h⟩
    by_cases hn : n = 19
    · subst hn; exact .inl h
    · exact .inr ⟨n, by omega, by omega, h⟩

theorem lang_month (s : Bytes) :
    Lang (.alt (.seq (.ch 48) (.range 49 57)) (.seq (.ch 49) (.range 48 50))) s ↔ ∃ n, 1 ≤ n ∧ n ≤ 12 ∧ s = two n := by
  have h1 := lang_tens 0 1 9 (by omega) (by omega) s
  have h2 := lang_tens 1 0 2 (by omega) (by omega) s
  change _ ∨ _ ↔ _
  refine (or_congr h1 h2).trans ?_
  constructor
  · rintro (⟨n, h1, h2, h⟩ | ⟨n, h1, h2, h⟩)
    · exact ⟨n, by omega, by omega, h⟩
    · exact ⟨n, by omega, by omega, h⟩
  · rintro ⟨n, h1, h2, h⟩
    by_cases hn : n < 10
    · exact .inl ⟨n, by omega, by omega, h⟩
    · exact .inr ⟨n, by omega, by omega, h⟩

theorem lang_day (s : Bytes) :
    Lang (.alt (.seq (.ch 48) (.range 49 57)) (.alt (.seq (.range 49 50) (.range 48 57)) (.seq (.ch 51) (.range 48 49)))) s
      ↔ ∃ n, 1 ≤ n ∧ n ≤ 31 ∧ s = two n := by
  have h1 := lang_tens 0 1 9 (by omega) (by omega) s
  have h3 := lang_tens 3 0 1 (by omega) (by omega) s
  have h2 : Lang (.seq (.range 49 50) (.range 48 57)) s ↔ ∃ n, 10 ≤ n ∧ n ≤ 29 ∧ s = two n := by
    have ha := lang_range 1 2 (by omega) (by omega)
    have hb := lang_range 0 9 (by omega) (by omega)
    simp only [Lang]
    constructor
    · rintro ⟨x, y, rfl, hx, hy⟩
      obtain ⟨a, a1, a2, rfl⟩ := (ha x).mp hx
      obtain ⟨b, b1, b2, rfl⟩ := (hb y).mp hy
      refine ⟨10 * a + b, by omega, by omega, ?_⟩
      unfold two
      rw [show (10 * a + b) / 10 = a by omega, show (10 * a + b) % 10 = b by omega]
      rfl
    · rintro ⟨n, n1, n2, rfl⟩
      exact ⟨_, _, rfl, (ha _).mpr ⟨n / 10, by omega, by omega, rfl⟩, (hb _).mpr ⟨n % 10, by omega, by omega, rfl⟩⟩
  change _ ∨ _ ∨ _ ↔ _
  refine (or_congr h1 (or_congr h2 h3)).trans ?_
  constructor
  · rintro (⟨n, h1, h2, h⟩ | ⟨n, h1, h2, h⟩ | ⟨n, h1, h2, h⟩)
    all_goals exact ⟨n, by omega, by omega, h⟩
  · rintro ⟨n, h1, h2, h⟩
    by_cases hn : n < 10
    · exact .inl ⟨n, by omega, by omega, h⟩
    · by_cases hm : n < 30
      · exact .inr (.inl ⟨n, by omega, by omega, h⟩)
      · exact .inr (.inr ⟨n, by omega, by omega, h⟩)

theorem lang_assoc (a b c : Re) (s : Bytes) : Lang (.seq a (.seq b c)) s ↔ Lang (.seq (.seq a b) c) s := by
  simp only [Lang]
  constructor
  · rintro ⟨x, y, rfl, hx, u, v, rfl, hu, hv⟩
    exact ⟨x ++ u, v, by simp, ⟨x, u, rfl, hx, hu⟩, hv⟩
  · rintro ⟨x, y, rfl, ⟨u, v, rfl, hu, hv⟩, hy⟩
    exact ⟨u, v ++ y, by simp, hu, v, y, rfl, hv, hy⟩

theorem lang_seq_two (r : Re) (s : Bytes) :
    Lang (.seq .digit (.seq .digit r)) s ↔ ∃ n < 100, ∃ t, s = two n ++ t ∧ Lang r t := by
  rw [lang_assoc]
  constructor
  · rintro ⟨x, y, rfl, hx, hy⟩
    obtain ⟨n, hn, rfl⟩ := (lang_two_digits x).mp hx
    exact ⟨n, hn, y, rfl, hy⟩
  · rintro ⟨n, hn, t, rfl, ht⟩
    exact ⟨_, t, rfl, (lang_two_digits _).mpr ⟨n, hn, rfl⟩, ht⟩

theorem lang_seq_ch (c : UInt8) (r : Re) (s : Bytes) : Lang (.seq (.ch c) r) s ↔ ∃ t, s = c :: t ∧ Lang r t := by
  constructor
  · rintro ⟨x, y, rfl, hx, hy⟩
    rw [(lang_ch c x).mp hx]
    exact ⟨y, rfl, hy⟩
  · rintro ⟨t, rfl, ht⟩
    exact ⟨[c], t, rfl, (lang_ch c _).mpr rfl, ht⟩

/-- C53.  A date is accepted exactly if it has the form of one. -/
theorem c53_date (s : Bytes) : isValidDate s = true ↔ IsDate s := by
  unfold isValidDate
  rw [full_iff]
  constructor
  · rintro ⟨c, r0, e0, hc, h0⟩
    obtain ⟨cc, c1, c2, ec⟩ := (lang_century c).mp hc
    obtain ⟨yy, hy, r1, e1, h1⟩ := (lang_seq_two _ _).mp h0
    obtain ⟨r2, e2, h2⟩ := (lang_seq_ch _ _ _).mp h1
    obtain ⟨mm, r3, e3, hm, h3⟩ := h2
    obtain ⟨m, m1, m2, em⟩ := (lang_month mm).mp hm
    obtain ⟨r4, e4, h4⟩ := (lang_seq_ch _ _ _).mp h3
    obtain ⟨dd, r5, e5, hd, h5⟩ := h4
    obtain ⟨d, d1, d2, ed⟩ := (lang_day dd).mp hd
    refine ⟨100 * cc + yy, m, d, by omega, by omega, m1, m2, d1, d2, ?_⟩
    rw [show (100 * cc + yy) / 100 = cc by omega, show (100 * cc + yy) % 100 = yy by omega]
    rcases h5 with h5 | h5
    · obtain ⟨r6, e6, h6⟩ := (lang_seq_ch _ _ _).mp h5
      obtain ⟨h, hh, r7, e7, h7⟩ := (lang_seq_two _ _).mp h6
      obtain ⟨r8, e8, h8⟩ := (lang_seq_ch _ _ _).mp h7
      obtain ⟨i, hi, r9, e9, h9⟩ := (lang_seq_two _ _).mp h8
      obtain ⟨r10, e10, h10⟩ := (lang_seq_ch _ _ _).mp h9
      obtain ⟨j, hj, e11⟩ := (lang_two_digits _).mp h10
      exact .inr ⟨h, i, j, hh, hi, hj, by
        rw [e0, e1, e2, e3, e4, e5, e6, e7, e8, e9, e10, e11, ec, em, ed]; simp⟩
    · have e6 : r5 = [] := h5
      exact .inl (by rw [e0, e1, e2, e3, e4, e5, e6, ec, em, ed]; simp)
  · rintro ⟨y, m, d, y1, y2, m1, m2, d1, d2, hs⟩
    have key : ∀ t, Lang (.alt (.seq (.ch 32) <| .seq .digit <| .seq .digit <| .seq (.ch 58) <| .seq .digit <|
        .seq .digit <| .seq (.ch 58) <| .seq .digit .digit) .eps) t →
        Lang dateRe (two (y / 100) ++ (two (y % 100) ++ (45 :: (two m ++ (45 :: (two d ++ t)))))) := by
      intro t ht
      refine ⟨_, _, rfl, (lang_century _).mpr ⟨y / 100, by omega, by omega, rfl⟩, ?_⟩
      refine (lang_seq_two _ _).mpr ⟨y % 100, by omega, _, rfl, ?_⟩
      refine (lang_seq_ch _ _ _).mpr ⟨_, rfl, ?_⟩
      refine ⟨_, _, rfl, (lang_month _).mpr ⟨m, m1, m2, rfl⟩, ?_⟩
      refine (lang_seq_ch _ _ _).mpr ⟨_, rfl, ?_⟩
      exact ⟨_, _, rfl, (lang_day _).mpr ⟨d, d1, d2, rfl⟩, ht⟩
    rcases hs with rfl | ⟨h, i, j, hh, hi, hj, rfl⟩
    · have := key [] (.inr rfl)
      simpa using this
    · have := key (32 :: (two h ++ (58 :: (two i ++ (58 :: two j))))) (.inl (by
        refine (lang_seq_ch _ _ _).mpr ⟨_, rfl, ?_⟩
        refine (lang_seq_two _ _).mpr ⟨h, hh, _, rfl, ?_⟩
        refine (lang_seq_ch _ _ _).mpr ⟨_, rfl, ?_⟩
        refine (lang_seq_two _ _).mpr ⟨i, hi, _, rfl, ?_⟩
        refine (lang_seq_ch _ _ _).mpr ⟨_, rfl, ?_⟩
        exact (lang_two_digits _).mpr ⟨j, hj, rfl⟩))
      simpa using this

example : isValidDate (str "2026-11-16 05:44:00") = true :=
  (c53_date _).mpr ⟨2026, 11, 16, by decide, by decide, by decide, by decide, by decide, by decide,
    .inr ⟨5, 44, 0, by decide, by decide, by decide, by decide +kernel⟩⟩

/-- C53.  The form is not the calendar: days and times that do not exist are accepted. -/
theorem c53_date_not_calendar : isValidDate (str "2023-02-31 99:99:99") = true := by decide +kernel

/-- C53.  A date attribute is accepted exactly if it has the form, or is empty and may be. -/
theorem c53_date_attribute (v : Bytes) (require : Bool) :
    verifyDate v require = .accepted ↔ (v = [] ∧ require = false) ∨ (v ≠ [] ∧ IsDate v) := by
  rw [← c53_date]
  unfold verifyDate
  cases v with
  | nil => cases require <;> simp
  | cons c v => cases isValidDate (c :: v) <;> simp

/-! ## C54 -/

theorem toUpper_eq_iff (c d : UInt8) : toUpper c = toUpper d ↔ toLower c = toLower d := by
  have h1 : ∀ c : UInt8, toLower (toUpper c) = toLower c :=
    forall_u8 (P := fun c => toLower (toUpper c) = toLower c) (by decide +kernel)
  have h2 : ∀ c : UInt8, toUpper (toLower c) = toUpper c :=
    forall_u8 (P := fun c => toUpper (toLower c) = toUpper c) (by decide +kernel)
  constructor
  · intro h; rw [← h1 c, h, h1]
  · intro h; rw [← h2 c, h, h2]

theorem upper_same {v w : Bytes} : v.map toUpper = w.map toUpper ↔ sameLetters v w := by
  unfold sameLetters
  induction v generalizing w with
  | nil => cases w <;> simp
  | cons c v ih =>
    cases w with
    | nil => simp
    | cons d w => simp only [List.map_cons, List.cons.injEq, toUpper_eq_iff, ih]

/-- `q` begins with the word, in any letters. -/
def begins (q w : Bytes) : Prop := ∃ a b, q = a ++ b ∧ sameLetters a w

/-- `w` stands somewhere in `q`, in any letters. -/
def contains (q w : Bytes) : Prop := ∃ a b c, q = a ++ b ++ c ∧ sameLetters b w

theorem prefix_upper (q w : Bytes) (hw : w.map toUpper = w) : w.isPrefixOf (sToUpper q) = true ↔ begins q w := by
  rw [List.isPrefixOf_iff_prefix]
  constructor
  · rintro ⟨r, hr⟩
    refine ⟨q.take w.length, q.drop w.length, (List.take_append_drop _ _).symm, ?_⟩
    rw [← upper_same, hw, List.map_take, show q.map toUpper = w ++ r from hr.symm, List.take_left]
  · rintro ⟨a, b, rfl, h⟩
    refine ⟨b.map toUpper, ?_⟩
    unfold sToUpper
    rw [List.map_append, upper_same.mpr h, hw]

theorem infix_upper (q w : Bytes) (hw : w.map toUpper = w) : sContains (sToUpper q) w = true ↔ contains q w := by
  rw [sContains_iff]
  constructor
  · rintro ⟨x, y, h⟩
    have h : x ++ w ++ y = q.map toUpper := h
    rw [List.append_assoc] at h
    refine ⟨q.take x.length, (q.drop x.length).take w.length, (q.drop x.length).drop w.length, ?_, ?_⟩
    · rw [List.append_assoc, List.take_append_drop, List.take_append_drop]
    · rw [← upper_same, hw, List.map_take, List.map_drop, ← h, List.drop_left, List.take_left]
  · rintro ⟨a, b, c, rfl, h⟩
    refine ⟨a.map toUpper, c.map toUpper, ?_⟩
    unfold sToUpper
    rw [List.map_append, List.map_append, upper_same.mpr h, hw]

/-- The client allows it: `nowhere` is a spelling of `true`. -/
def allowed (m : Msg) : Prop := sameLetters (cstr (m.table.get (str "nowhere"))) (str "true")

theorem test_iff (v : Bytes) (h : verifyBool v false = .accepted) :
    Attr.test v = true ↔ sameLetters (cstr v) (str "true") := by
  unfold Attr.test
  rw [Bool.or_eq_true, sIEquals_iff (by decide +kernel)]
  constructor
  · rintro (h' | h')
    · exact h'
    · exfalso
      have hz : strtoll v = 0 := by
        rcases (c53_bool v false).mp h with ⟨rfl, _⟩ | ⟨_, hl⟩
        · rfl
        · have hh : ∃ c t, cstr v = c :: t ∧ (toLower c = 116 ∨ toLower c = 102) := by
            rcases hl with hl | hl
            · cases hc : cstr v with
              | nil => rw [hc] at hl; exact absurd hl (by unfold sameLetters; decide +kernel)
              | cons c t =>
                rw [hc] at hl
                unfold sameLetters at hl
                rw [show (str "true").map toLower = [116, 114, 117, 101] by decide +kernel] at hl
                injection hl with hl _
                exact ⟨c, t, rfl, .inl hl⟩
            · cases hc : cstr v with
              | nil => rw [hc] at hl; exact absurd hl (by unfold sameLetters; decide +kernel)
              | cons c t =>
                rw [hc] at hl
                unfold sameLetters at hl
                rw [show (str "false").map toLower = [102, 97, 108, 115, 101] by decide +kernel] at hl
                injection hl with hl _
                exact ⟨c, t, rfl, .inr hl⟩
          obtain ⟨c, t, e, hc⟩ := hh
          have hp : isSpace c = false ∧ c ≠ 45 ∧ c ≠ 43 ∧ decVal c = none := by
            revert hc
            exact forall_u8 (P := fun c => (toLower c = 116 ∨ toLower c = 102) →
              isSpace c = false ∧ c ≠ 45 ∧ c ≠ 43 ∧ decVal c = none) (by decide +kernel) c
          unfold strtoll scanDec
          rw [e, List.dropWhile_cons, hp.1]
          simp only [Bool.false_eq_true, if_false]
          split
          · rfl
          · rename_i heq
            split at heq
            · rename_i h45; injection h45 with h45 _; exact absurd h45 hp.2.1
            · rename_i h43; injection h43 with h43 _; exact absurd h43 hp.2.2.1
            · simp [startsDec, hp.2.2.2] at heq
      rw [hz] at h'
      exact absurd h' (by decide +kernel)
  · exact .inl

/-- C54.  Outside of no-op mode a query that begins with UPDATE or DELETE, in whatever letters and after whatever white
space, and in which WHERE does not stand between blanks, is refused, unless the client sends `nowhere: true`.  Every
other query is handed to the database as it is; a `nowhere` that is no boolean refuses every query. -/
theorem c54_guard (m : Msg) (hb : verifyBool (m.table.get (str "nowhere")) false = .accepted) :
    (process false m = .aborted ↔ ¬ allowed m ∧
      (begins (queryOf m) (str "UPDATE") ∨ begins (queryOf m) (str "DELETE")) ∧ ¬ contains (queryOf m) (str " WHERE ")) ∧
    (process false m ≠ .aborted → process false m = .written (queryOf m)) := by
  have h1 := test_iff _ hb
  have h2 := prefix_upper (queryOf m) (str "UPDATE") (by decide +kernel)
  have h3 := prefix_upper (queryOf m) (str "DELETE") (by decide +kernel)
  have h4 := infix_upper (queryOf m) (str " WHERE ") (by decide +kernel)
  unfold allowed
  rw [← h1, ← h2, ← h3, ← h4]
  unfold process
  rw [if_neg (by decide), if_neg (by simp [hb])]
  cases Attr.test (m.table.get (str "nowhere")) <;> cases (str "UPDATE").isPrefixOf (sToUpper (queryOf m)) <;>
    cases (str "DELETE").isPrefixOf (sToUpper (queryOf m)) <;> cases sContains (sToUpper (queryOf m)) (str " WHERE ") <;>
    simp

theorem dropWhile_all (p : UInt8 → Bool) (a s : Bytes) (ha : ∀ c ∈ a, p c = true) :
    (a ++ s).dropWhile p = s.dropWhile p := by
  induction a with
  | nil => rfl
  | cons c a ih =>
    rw [List.cons_append, List.dropWhile_cons, if_pos (ha c List.mem_cons_self)]
    exact ih fun d hd => ha d (List.mem_cons_of_mem _ hd)

/-- White space around a text that neither begins nor ends with any is taken off. -/
theorem trim_padded (a s b : Bytes) (ha : ∀ c ∈ a, isSpace c = true) (hb : ∀ c ∈ b, isSpace c = true)
    (h1 : ∀ c, s.head? = some c → isSpace c = false) (h2 : ∀ c, s.getLast? = some c → isSpace c = false) (hs : s ≠ []) :
    trim (a ++ s ++ b) = s := by
  have keep : ∀ t : Bytes, (∀ c, t.head? = some c → isSpace c = false) → t.dropWhile isSpace = t := by
    intro t ht
    cases t with
    | nil => rfl
    | cons c t => rw [List.dropWhile_cons, ht c rfl]; rfl
  unfold trim
  rw [List.append_assoc, dropWhile_all _ _ _ ha]
  rw [keep (s ++ b) (by
    intro c hc
    apply h1
    cases s with
    | nil => exact absurd rfl hs
    | cons d s => simpa using hc)]
  rw [List.reverse_append, dropWhile_all _ _ _ (fun c hc => hb c (List.mem_reverse.mp hc)), keep _ (by
    intro c hc
    apply h2
    rw [List.head?_reverse] at hc
    exact hc), List.reverse_reverse]

/-- C54.  White space and letters do not help: every such query without WHERE is refused. -/
theorem c54_refused (pad1 pad2 w body : Bytes) (h1 : ∀ c ∈ pad1, isSpace c = true) (h2 : ∀ c ∈ pad2, isSpace c = true)
    (hw : sameLetters w (str "UPDATE") ∨ sameLetters w (str "DELETE")) (hn : ¬ contains (w ++ body ++ [59]) (str " WHERE "))
    (m : Msg) (hm : ¬ begins m.methodLine (str "query:")) (hq : m.table.get (str "query") = pad1 ++ (w ++ body ++ [59]) ++ pad2)
    (ha : verifyBool (m.table.get (str "nowhere")) false = .accepted) (hna : ¬ allowed m) :
    process false m = .aborted := by
  have hne : w ≠ [] := by
    rintro rfl
    rcases hw with h | h <;> exact absurd h (by unfold sameLetters; decide +kernel)
  have hqe : queryOf m = w ++ body ++ [59] := by
    unfold queryOf
    rw [if_neg (by
      intro h
      apply hm
      rw [List.isPrefixOf_iff_prefix] at h
      obtain ⟨r, hr⟩ := h
      refine ⟨m.methodLine.take (str "query:").length, m.methodLine.drop (str "query:").length,
        (List.take_append_drop _ _).symm, ?_⟩
      unfold sameLetters
      rw [List.map_take, show m.methodLine.map toLower = str "query:" ++ r from hr.symm, List.take_left]
      decide +kernel), hq]
    apply trim_padded _ _ _ h1 h2
    · intro c hc
      cases w with
      | nil => exact absurd rfl hne
      | cons d w =>
        have hd : d = c := by simpa using hc
        subst hd
        have : toLower d = 117 ∨ toLower d = 100 := by
          rcases hw with h | h
          · unfold sameLetters at h
            rw [show (str "UPDATE").map toLower = [117, 112, 100, 97, 116, 101] by decide +kernel] at h
            injection h with h _
            exact .inl h
          · unfold sameLetters at h
            rw [show (str "DELETE").map toLower = [100, 101, 108, 101, 116, 101] by decide +kernel] at h
            injection h with h _
            exact .inr h
        revert this
        exact forall_u8 (P := fun d => (toLower d = 117 ∨ toLower d = 100) → isSpace d = false) (by decide +kernel) d
    · intro c hc
      rw [List.getLast?_concat] at hc
      injection hc with hc
      subst hc
      decide
    · simp
  refine (c54_guard m ha).1.mpr ⟨hna, ?_, by rw [hqe]; exact hn⟩
  rw [hqe]
  rcases hw with h | h
  · exact .inl ⟨w, body ++ [59], by simp, h⟩
  · exact .inr ⟨w, body ++ [59], by simp, h⟩

example : process false ⟨str "Query", [(str "query", str "\n  dElEtE from t;  ")], []⟩ = .aborted := by decide +kernel

/-- C54.  What the test does not see: a WHERE inside of a string, a comment or another statement before the word, a
`WITH` clause; all rows are written. -/
theorem c54_evaded :
    process false ⟨str "Query: UPDATE t SET a = 'x WHERE y';", [], []⟩ = .written (str "UPDATE t SET a = 'x WHERE y';") ∧
    process false ⟨str "Query: /**/DELETE FROM t;", [], []⟩ = .written (str "/**/DELETE FROM t;") ∧
    process false ⟨str "Query: SELECT 1; DELETE FROM t;", [], []⟩ = .written (str "SELECT 1; DELETE FROM t;") ∧
    process false ⟨str "Query: WITH a AS (SELECT 1) DELETE FROM t;", [], []⟩ =
      .written (str "WITH a AS (SELECT 1) DELETE FROM t;") := by
  decide +kernel

/-- C54.  What it refuses without need: a WHERE clause on a line of its own. -/
theorem c54_refused_needlessly :
    process false ⟨str "Query: DELETE FROM t\nWHERE a = 1;", [], []⟩ = .aborted := by
  decide +kernel

end Bedrock.Attr.Props
