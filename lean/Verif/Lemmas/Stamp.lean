import Verif.Model.Stamp
import Verif.Lemmas.Http

/-! # Lemmas about times as texts -/

namespace Bedrock.Stamp.Props
open Bedrock.Stamp Bedrock.Text

/-! ## The calendar -/

def Leap (y : Int) : Prop := (y % 4 = 0 ∧ y % 100 ≠ 0) ∨ y % 400 = 0

instance (y : Int) : Decidable (Leap y) := inferInstanceAs (Decidable (_ ∨ _))

/-- Days before January 1st. -/
def base (y : Int) : Int := 365 * (y - 1970) + ((y - 1) / 4 - (y - 1) / 100 + (y - 1) / 400 - 477)

/-- Days before a month of a year. -/
def before (y m : Int) : Int := monthStart m + if 2 < m ∧ Leap y then 1 else 0

theorem dim_eq (y : Nat) (m : Int) : Lookup.daysInMonth y m =
    if m = 4 ∨ m = 6 ∨ m = 9 ∨ m = 11 then 30 else if m = 2 then if Leap y then 29 else 28 else 31 := by
  unfold Lookup.daysInMonth Leap
  have h (k : Int) : (y : Int).tmod k = (y : Int) % k := Int.tmod_eq_emod_of_nonneg (by omega)
  simp only [h]
  congr

theorem yearLen_eq (y : Nat) : yearLen y = if Leap y then 366 else 365 := by
  unfold yearLen
  rw [dim_eq]
  simp only [Int.reduceEq, or_self, if_false, if_true]
  split <;> rfl

theorem base_succ (y : Nat) : base (y + 1) = base y + yearLen y := by
  rw [yearLen_eq]
  unfold base
  by_cases h : Leap y
  · rw [if_pos h]; unfold Leap at h; omega
  · rw [if_neg h]; unfold Leap at h; omega

theorem base_mono {a b : Int} (h : a ≤ b) : base a ≤ base b := by unfold base; omega

theorem base_leap (y : Int) : y / 4 - y / 100 + y / 400 = (y - 1) / 4 - (y - 1) / 100 + (y - 1) / 400 + if Leap y then 1 else 0 := by
  by_cases h : Leap y
  · rw [if_pos h]; unfold Leap at h; omega
  · rw [if_neg h]; unfold Leap at h; omega

theorem timegm_eq (t : Tm) :
    timegm t = (base t.year + before t.year t.month + (t.day - 1)) * 86400 + t.hour * 3600 + t.min * 60 + t.sec := by
  unfold timegm before base
  by_cases h : t.month ≤ 2
  · rw [if_neg (show ¬ (2 < t.month ∧ Leap t.year) by omega)]
    simp only [h, if_true]; omega
  · have := base_leap t.year
    simp only [h, if_false, show 2 < t.month by omega, true_and]
    split <;> rename_i hl <;> simp only [hl, if_true, if_false] at this <;> omega

theorem yearOf_spec : ∀ (fuel y d : Nat), d ≤ fuel →
    (yearOf fuel y d).2 < yearLen (yearOf fuel y d).1 ∧ y ≤ (yearOf fuel y d).1 ∧
      base (yearOf fuel y d).1 + (yearOf fuel y d).2 = base y + d
  | 0, y, d, h => by
    have hy := yearLen_eq y
    simp only [yearOf]
    refine ⟨?_, Nat.le_refl _, trivial⟩
    split at hy <;> omega
  | fuel + 1, y, d, h => by
    have hy := yearLen_eq y
    unfold yearOf
    split
    · exact ⟨‹_›, Nat.le_refl _, rfl⟩
    · rename_i hd
      obtain ⟨h1, h2, h3⟩ := yearOf_spec fuel (y + 1) (d - yearLen y) (by split at hy <;> omega)
      refine ⟨h1, by omega, ?_⟩
      rw [h3]
      have := base_succ y
      have e : ((y + 1 : Nat) : Int) = (y : Int) + 1 := by omega
      rw [e, this]; omega

theorem before_succ (y m : Nat) (h1 : 1 ≤ m) (h2 : m ≤ 11) :
    before y ((m + 1 : Nat) : Int) = before y m + (Lookup.daysInMonth y m).toNat := by
  rw [dim_eq]
  unfold before
  have : m = 1 ∨ m = 2 ∨ m = 3 ∨ m = 4 ∨ m = 5 ∨ m = 6 ∨ m = 7 ∨ m = 8 ∨ m = 9 ∨ m = 10 ∨ m = 11 := by omega
  by_cases hl : Leap y
  · rcases this with e | e | e | e | e | e | e | e | e | e | e <;> subst e <;> simp [hl, monthStart]
  · rcases this with e | e | e | e | e | e | e | e | e | e | e <;> subst e <;> simp [hl, monthStart]

theorem monthOf_spec (y : Nat) : ∀ (fuel m d : Nat), m + fuel = 12 → 1 ≤ m → before y m + d < yearLen y →
    1 ≤ (monthOf y fuel m d).1 ∧ (monthOf y fuel m d).1 ≤ 12 ∧
      ((monthOf y fuel m d).2 : Int) < Lookup.daysInMonth y (monthOf y fuel m d).1 ∧
      before y (monthOf y fuel m d).1 + (monthOf y fuel m d).2 = before y m + d
  | 0, m, d, h, h1, hd => by
    have e : m = 12 := by omega
    subst e
    simp only [monthOf]
    refine ⟨h1, Nat.le_refl _, ?_, trivial⟩
    rw [yearLen_eq] at hd
    rw [dim_eq]
    unfold before at hd
    by_cases hl : Leap y <;> simp [hl, monthStart] at hd ⊢ <;> omega
  | fuel + 1, m, d, h, h1, hd => by
    have hb := before_succ y m h1 (by omega)
    have hnn : 0 ≤ Lookup.daysInMonth y m := by rw [dim_eq]; repeat' split <;> omega
    unfold monthOf
    split
    · exact ⟨h1, by omega, by dsimp only; omega, rfl⟩
    · obtain ⟨a, b, c, e⟩ := monthOf_spec y fuel (m + 1) (d - (Lookup.daysInMonth y m).toNat) (by omega) (by omega)
        (by rw [hb]; omega)
      exact ⟨a, b, c, by rw [e, hb]; omega⟩

/-- The fields are those of a date and a time of the day. -/
structure Valid (t : Tm) : Prop where
  month : 1 ≤ t.month ∧ t.month ≤ 12
  day : 1 ≤ t.day ∧ t.day ≤ Lookup.daysInMonth t.year t.month
  hour : 0 ≤ t.hour ∧ t.hour < 24
  min : 0 ≤ t.min ∧ t.min < 60
  sec : 0 ≤ t.sec ∧ t.sec < 60

theorem gmtime_spec (t : Nat) : Valid (gmtime t) ∧ 1970 ≤ (gmtime t).year ∧ timegm (gmtime t) = t := by
  obtain ⟨y1, y2, y3⟩ := yearOf_spec (t / 86400) 1970 (t / 86400) (Nat.le_refl _)
  have hb : before ((yearOf (t / 86400) 1970 (t / 86400)).1 : Int) (1 : Nat) = 0 := by
    unfold before; simp [monthStart]
  obtain ⟨m1, m2, m3, m4⟩ := monthOf_spec (yearOf (t / 86400) 1970 (t / 86400)).1 11 1
    (yearOf (t / 86400) 1970 (t / 86400)).2 rfl (Nat.le_refl _) (by rw [hb]; omega)
  have b0 : base ((1970 : Nat) : Int) = 0 := by decide
  refine ⟨⟨?_, ?_, ?_, ?_, ?_⟩, ?_, ?_⟩
  · simp only [gmtime]; omega
  · simp only [gmtime]; omega
  · simp only [gmtime]; omega
  · simp only [gmtime]; omega
  · simp only [gmtime]; omega
  · simp only [gmtime]; omega
  · rw [timegm_eq]
    simp only [gmtime]
    rw [hb] at m4
    rw [b0] at y3
    have : base ((yearOf (t / 86400) 1970 (t / 86400)).1 : Int) +
        before ((yearOf (t / 86400) 1970 (t / 86400)).1 : Int)
          ((monthOf (yearOf (t / 86400) 1970 (t / 86400)).1 11 1 (yearOf (t / 86400) 1970 (t / 86400)).2).1 : Int) +
        (((monthOf (yearOf (t / 86400) 1970 (t / 86400)).1 11 1 (yearOf (t / 86400) 1970 (t / 86400)).2).2 : Int) + 1 - 1) =
        (t / 86400 : Nat) := by omega
    rw [this]; omega

/-! ## Order of dates -/

/-- The earlier in the order of the fields. -/
def Lex (f g : Tm) : Prop :=
  f.year < g.year ∨ f.year = g.year ∧ (f.month < g.month ∨ f.month = g.month ∧ (f.day < g.day ∨ f.day = g.day ∧
    (f.hour < g.hour ∨ f.hour = g.hour ∧ (f.min < g.min ∨ f.min = g.min ∧ f.sec < g.sec))))

theorem lex_total (f g : Tm) : f = g ∨ Lex f g ∨ Lex g f := by
  cases f; cases g
  simp only [Lex, Tm.mk.injEq]
  omega

theorem before_lt (y : Int) (hy : 0 ≤ y) (a b : Int) (ha : 1 ≤ a) (hab : a < b) (hb : b ≤ 12) :
    before y a + Lookup.daysInMonth y a ≤ before y b := by
  obtain ⟨n, rfl⟩ := Int.eq_ofNat_of_zero_le hy
  have step : ∀ k : Nat, a + 1 + k ≤ 12 → before n a + Lookup.daysInMonth n a ≤ before n (a + 1 + k) := by
    intro k
    have hpos : ∀ m : Nat, 0 ≤ Lookup.daysInMonth n m := by intro m; rw [dim_eq]; repeat' split <;> omega
    induction k with
    | zero =>
      intro h
      obtain ⟨m, rfl⟩ := Int.eq_ofNat_of_zero_le (show 0 ≤ a by omega)
      have := before_succ n m (by omega) (by omega)
      have e : (m : Int) + 1 + (0 : Nat) = ((m + 1 : Nat) : Int) := by omega
      rw [e, this]
      have := hpos m
      omega
    | succ k ih =>
      intro h
      obtain ⟨m, rfl⟩ := Int.eq_ofNat_of_zero_le (show 0 ≤ a by omega)
      have h1 := ih (by omega)
      have := before_succ n (m + 1 + k) (by omega) (by omega)
      have e : (m : Int) + 1 + ((k + 1 : Nat) : Int) = ((m + 1 + k + 1 : Nat) : Int) := by omega
      have e' : (m : Int) + 1 + (k : Nat) = ((m + 1 + k : Nat) : Int) := by omega
      rw [e, this]
      rw [e'] at h1
      omega
  have := step (b - a - 1).toNat (by omega)
  have e : a + 1 + ((b - a - 1).toNat : Int) = b := by omega
  rwa [e] at this

theorem before_year (y : Int) (hy : 0 ≤ y) (m : Int) (h1 : 1 ≤ m) (h2 : m ≤ 12) :
    0 ≤ before y m ∧ before y m + Lookup.daysInMonth y m ≤ base (y + 1) - base y := by
  obtain ⟨n, rfl⟩ := Int.eq_ofNat_of_zero_le hy
  have hb := base_succ n
  rw [yearLen_eq] at hb
  have h12 : before n 12 + 31 = if Leap n then 366 else 365 := by
    unfold before; by_cases hl : Leap n <;> simp [hl, monthStart]
  have hd : Lookup.daysInMonth n 12 = 31 := by rw [dim_eq]; simp
  constructor
  · unfold before monthStart
    repeat' split
    all_goals omega
  · by_cases h : m = 12
    · subst h; rw [hd, h12]
      split at hb <;> rename_i hl <;> simp only [hl, if_true, if_false] <;> omega
    · have := before_lt n (by omega) m 12 h1 (by omega) (by omega)
      split at hb <;> rename_i hl <;> simp only [hl, if_true, if_false] at h12 <;> omega

theorem timegm_lt {f g : Tm} (hf : Valid f) (hg : Valid g) (yf : 0 ≤ f.year) (yg : 0 ≤ g.year) (h : Lex f g) :
    timegm f < timegm g := by
  rw [timegm_eq, timegm_eq]
  have a := before_year f.year yf f.month hf.month.1 hf.month.2
  have b := before_year g.year yg g.month hg.month.1 hg.month.2
  have f1 := hf.day; have f2 := hf.hour; have f3 := hf.min; have f4 := hf.sec
  have g1 := hg.day; have g2 := hg.hour; have g3 := hg.min; have g4 := hg.sec
  rcases h with h | ⟨hy, h⟩
  · have := base_mono (show f.year + 1 ≤ g.year by omega)
    omega
  · rw [hy] at a f1 ⊢
    rcases h with h | ⟨hm, h⟩
    · have := before_lt g.year yg f.month g.month hf.month.1 h hg.month.2
      omega
    · rw [hm]
      omega

theorem gmtime_lex {a b : Nat} (h : a < b) : Lex (gmtime a) (gmtime b) := by
  obtain ⟨va, ya, ea⟩ := gmtime_spec a
  obtain ⟨vb, yb, eb⟩ := gmtime_spec b
  rcases lex_total (gmtime a) (gmtime b) with e | l | l
  · rw [e, eb] at ea; omega
  · exact l
  · have := timegm_lt vb va (by omega) (by omega) l
    omega

/-! ## Order of texts -/

theorem lt_append : ∀ {a b : Bytes}, a.length = b.length → a < b → ∀ x y, a ++ x < b ++ y
  | [], [], _, h, _, _ => absurd h (List.lt_irrefl _)
  | [], _ :: _, hl, _, _, _ => by simp at hl
  | _ :: _, [], hl, _, _, _ => by simp at hl
  | c :: a, d :: b, hl, h, x, y => by
    rw [List.cons_append, List.cons_append]
    rcases List.cons_lt_cons_iff.mp h with h | ⟨e, h⟩
    · exact List.cons_lt_cons_iff.mpr (.inl h)
    · exact List.cons_lt_cons_iff.mpr (.inr ⟨e, lt_append (by simpa using hl) h x y⟩)

theorem append_lt : ∀ (a : Bytes) {x y : Bytes}, x < y → a ++ x < a ++ y
  | [], _, _, h => h
  | c :: a, x, y, h => List.cons_lt_cons_iff.mpr (.inr ⟨rfl, append_lt a h⟩)

@[simp] theorem padded_length : ∀ (w n : Nat), (padded w n).length = w
  | 0, _ => rfl
  | w + 1, n => by simp [padded, padded_length w]

theorem padded_lt : ∀ (w : Nat) {n m : Nat}, n < m → m < 10 ^ w → padded w n < padded w m
  | 0, n, m, h, hm => by simp at hm; omega
  | w + 1, n, m, h, hm => by
    unfold padded
    by_cases hd : n / 10 < m / 10
    · exact lt_append (by simp) (padded_lt w hd (by rw [Nat.pow_succ] at hm; omega)) _ _
    · have e : n / 10 = m / 10 := by omega
      rw [e]
      refine append_lt _ (List.cons_lt_cons_iff.mpr (.inl ?_))
      rw [UInt8.lt_iff_toNat_lt]
      simp only [UInt8.toNat_ofNat']
      omega

theorem natDec_four {n : Nat} (h1 : 1000 ≤ n) (h2 : n < 10000) : natDec n = padded 4 n := by
  rw [natDec_ge (by omega), natDec_ge (by omega), natDec_ge (by omega),
    natDec_lt (by omega)]
  simp only [padded, List.nil_append]
  rw [show n / 10 / 10 / 10 % 10 = n / 10 / 10 / 10 by omega]

/-- What `SComposeTime` writes. -/
def textOf (t : Tm) : Bytes :=
  natDec t.year.toNat ++ b!"-" ++ padded 2 t.month.toNat ++ b!"-" ++ padded 2 t.day.toNat ++ b!" " ++
    padded 2 t.hour.toNat ++ b!":" ++ padded 2 t.min.toNat ++ b!":" ++ padded 2 t.sec.toNat

theorem dim_le (y m : Int) (hy : 0 ≤ y) : Lookup.daysInMonth y m ≤ 31 := by
  obtain ⟨n, rfl⟩ := Int.eq_ofNat_of_zero_le hy
  rw [dim_eq]; repeat' split <;> omega

theorem textOf_length {f : Tm} (f1 : 1970 ≤ f.year) (f2 : f.year < 10000) : (textOf f).length = 19 := by
  unfold textOf
  rw [natDec_four (by omega) (by omega)]
  simp

theorem textOf_lt {f g : Tm} (hf : Valid f) (hg : Valid g) (f1 : 1970 ≤ f.year) (f2 : f.year < 10000)
    (g1 : 1970 ≤ g.year) (g2 : g.year < 10000) (h : Lex f g) : textOf f < textOf g := by
  have a1 := hf.month; have a2 := hf.day; have a3 := hf.hour; have a4 := hf.min; have a5 := hf.sec
  have b1 := hg.month; have b2 := hg.day; have b3 := hg.hour; have b4 := hg.min; have b5 := hg.sec
  have c := dim_le g.year g.month (by omega)
  unfold textOf
  rw [natDec_four (n := f.year.toNat) (by omega) (by omega), natDec_four (n := g.year.toNat) (by omega) (by omega)]
  simp only [List.append_assoc]
  rcases h with h | ⟨hy, h⟩
  · exact lt_append (by simp) (padded_lt 4 (by omega) (by omega)) _ _
  rw [hy]; refine append_lt _ (append_lt _ ?_)
  rcases h with h | ⟨hy, h⟩
  · exact lt_append (by simp) (padded_lt 2 (by omega) (by omega)) _ _
  rw [hy]; refine append_lt _ (append_lt _ ?_)
  rcases h with h | ⟨hy, h⟩
  · exact lt_append (by simp) (padded_lt 2 (by omega) (by omega)) _ _
  rw [hy]; refine append_lt _ (append_lt _ ?_)
  rcases h with h | ⟨hy, h⟩
  · exact lt_append (by simp) (padded_lt 2 (by omega) (by omega)) _ _
  rw [hy]; refine append_lt _ (append_lt _ ?_)
  rcases h with h | ⟨hy, h⟩
  · exact lt_append (by simp) (padded_lt 2 (by omega) (by omega)) _ _
  rw [hy]; refine append_lt _ (append_lt _ ?_)
  exact padded_lt 2 (by omega) (by omega)

/-- Before the year 10000. -/
theorem year_lt {t : Nat} (h : t < 253402300800) : (gmtime t).year < 10000 := by
  obtain ⟨v, y, e⟩ := gmtime_spec t
  have b := before_year (gmtime t).year (by omega) (gmtime t).month v.month.1 v.month.2
  have v1 := v.day; have v2 := v.hour; have v3 := v.min; have v4 := v.sec
  rw [timegm_eq] at e
  by_cases hy : (gmtime t).year < 10000
  · exact hy
  · have := base_mono (show 10000 ≤ (gmtime t).year by omega)
    have b0 : base 10000 = 2932897 := by decide
    omega

theorem unquoted_lt {a b : Nat} (hb : b < 253402300800000000) (h : a / 1000000 < b / 1000000) : unquoted a < unquoted b := by
  obtain ⟨va, ya, _⟩ := gmtime_spec (a / 1000000)
  obtain ⟨vb, yb, _⟩ := gmtime_spec (b / 1000000)
  exact textOf_lt va vb ya (year_lt (by omega)) yb (year_lt (by omega)) (gmtime_lex h)

theorem unquoted_length {a : Nat} (ha : a < 253402300800000000) : (unquoted a).length = 19 :=
  textOf_length (gmtime_spec (a / 1000000)).2.1 (year_lt (by omega))

theorem unquoted_congr {a b : Nat} (h : a / 1000000 = b / 1000000) : unquoted a = unquoted b := by
  unfold unquoted; rw [h]

/-! ## Reading -/

theorem padded_cons : ∀ (w n : Nat), padded (w + 1) n = UInt8.ofNat (48 + n / 10 ^ w % 10) :: padded w (n % 10 ^ w)
  | 0, n => by simp [padded]
  | w + 1, n => by
    rw [padded, padded_cons w (n / 10)]
    rw [padded]
    rw [List.cons_append]
    congr 1
    · rw [Nat.div_div_eq_div_mul, Nat.pow_succ, Nat.mul_comm]
    · congr 1
      · congr 1
        rw [Nat.pow_succ, Nat.mul_comm (10 ^ w) 10, Nat.mod_mul_right_div_self]
      · congr 2
        rw [Nat.pow_succ, Nat.mul_comm (10 ^ w) 10, Nat.mod_mul_right_mod]

theorem digit_of (n : Nat) : digit (UInt8.ofNat (48 + n % 10)) = true ∧ (UInt8.ofNat (48 + n % 10)).toNat - 48 = n % 10 ∧
    isSpace (UInt8.ofNat (48 + n % 10)) = false := by
  have : ∀ k : Fin 10, digit (UInt8.ofNat (48 + k.val)) = true ∧ (UInt8.ofNat (48 + k.val)).toNat - 48 = k.val ∧
    isSpace (UInt8.ofNat (48 + k.val)) = false := by decide
  exact this ⟨n % 10, by omega⟩

theorem digits_padded (hi : Nat) (rest : Bytes) : ∀ (k v r : Nat), r < 10 ^ k → v * 10 ^ k + r ≤ hi →
    digits hi k v (padded k r ++ rest) = (v * 10 ^ k + r, rest)
  | 0, v, r, hr, h => by
    simp only [Nat.pow_zero] at hr
    have : r = 0 := by omega
    subst this
    simp [digits, padded]
  | k + 1, v, r, hr, h => by
    rw [padded_cons, List.cons_append, digits]
    obtain ⟨d1, d2, _⟩ := digit_of (r / 10 ^ k)
    have hp : 0 < 10 ^ k := Nat.pow_pos (by omega)
    have e : r / 10 ^ k % 10 = r / 10 ^ k := by
      refine Nat.mod_eq_of_lt (Nat.div_lt_of_lt_mul ?_)
      rw [Nat.pow_succ] at hr; exact hr
    have le : v * 10 ≤ hi := by
      have : v * 10 ≤ v * 10 ^ (k + 1) := by
        rw [Nat.pow_succ]
        exact Nat.mul_le_mul_left v (Nat.le_mul_of_pos_left 10 hp)
      omega
    have val : (v * 10 + r / 10 ^ k) * 10 ^ k + r % 10 ^ k = v * 10 ^ (k + 1) + r := by
      have := Nat.div_add_mod r (10 ^ k)
      rw [Nat.add_mul, Nat.pow_succ, Nat.mul_comm (r / 10 ^ k), Nat.mul_comm (10 ^ k) 10, Nat.mul_assoc]
      omega
    rw [if_pos ⟨le, d1⟩, d2, e, digits_padded hi rest k _ _ (Nat.mod_lt _ hp) (by rw [val]; exact h), val]

theorem getNumber_padded (lo hi w n : Nat) (rest : Bytes) (hw : n < 10 ^ (w + 1)) (hl : lo ≤ n) (hh : n ≤ hi) :
    getNumber lo hi (w + 1) (padded (w + 1) n ++ rest) = some (n, rest) := by
  unfold getNumber
  rw [padded_cons, List.cons_append]
  obtain ⟨d1, d2, d3⟩ := digit_of (n / 10 ^ w)
  rw [List.dropWhile_cons_of_neg (by rw [d3]; decide)]
  have hp : 0 < 10 ^ w := Nat.pow_pos (by omega)
  have e : n / 10 ^ w % 10 = n / 10 ^ w := by
    refine Nat.mod_eq_of_lt (Nat.div_lt_of_lt_mul ?_)
    rw [Nat.pow_succ] at hw; exact hw
  have val : n / 10 ^ w * 10 ^ w + n % 10 ^ w = n := by
    have := Nat.div_add_mod n (10 ^ w)
    rw [Nat.mul_comm]; exact this
  simp only [d1, if_true, Nat.add_sub_cancel]
  rw [d2, e, digits_padded hi rest w _ _ (Nat.mod_lt _ hp) (by rw [val]; exact hh), val]
  simp [hl, hh]

theorem strptime_textOf {t : Tm} (v : Valid t) (y1 : 1970 ≤ t.year) (y2 : t.year < 10000) (z : Tm) (rest : Bytes) :
    strptime format z (textOf t ++ rest) = t := by
  have a1 := v.month; have a2 := v.day; have a3 := v.hour; have a4 := v.min; have a5 := v.sec
  have c := dim_le t.year t.month (by omega)
  unfold textOf
  rw [natDec_four (n := t.year.toNat) (by omega) (by omega)]
  simp only [List.append_assoc]
  unfold format
  have sp : ∀ (w n : Nat) (r : Bytes), (b!" " ++ (padded (w + 1) n ++ r)).dropWhile isSpace = padded (w + 1) n ++ r := by
    intro w n r
    show ((32 : UInt8) :: (padded (w + 1) n ++ r)).dropWhile isSpace = _
    rw [List.dropWhile_cons_of_pos (by decide), padded_cons, List.cons_append]
    exact List.dropWhile_cons_of_neg (by rw [(digit_of _).2.2]; decide)
  simp only [strptime]
  rw [getNumber_padded 0 9999 3 t.year.toNat _ (by omega) (by omega) (by omega)]
  dsimp only
  simp only [List.cons_append, List.nil_append, if_true]
  rw [getNumber_padded 1 12 1 t.month.toNat _ (by omega) (by omega) (by omega)]
  dsimp only
  simp only [if_true]
  rw [getNumber_padded 1 31 1 t.day.toNat _ (by omega) (by omega) (by omega)]
  dsimp only
  have sp' := sp 1 t.hour.toNat
  simp only [List.cons_append, List.nil_append] at sp'
  rw [sp']
  rw [getNumber_padded 0 23 1 t.hour.toNat _ (by omega) (by omega) (by omega)]
  dsimp only
  simp only [if_true]
  rw [getNumber_padded 0 59 1 t.min.toNat _ (by omega) (by omega) (by omega)]
  dsimp only
  simp only [if_true]
  rw [getNumber_padded 0 61 1 t.sec.toNat _ (by omega) (by omega) (by omega)]
  dsimp only
  cases t
  simp only [Tm.mk.injEq] at *
  omega

end Bedrock.Stamp.Props
