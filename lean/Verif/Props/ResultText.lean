import Verif.Model.Results
import Verif.Spec.Results

/-!
# C82, C83: the CSV, quote, tabs and list forms of a query result can be read back
-/

namespace Bedrock.Results.Props
open Bedrock.Text Bedrock.Results

theorem fields_fit (h row : List Bytes) : fields h row = Spec.fit h row := by
  unfold fields Spec.fit
  split
  · rfl
  generalize h.length = n
  apply List.ext_getElem?
  intro i
  rw [List.getElem?_map]
  by_cases hi : i < n
  · rw [List.getElem?_eq_getElem (by simpa using hi), List.getElem_range]
    by_cases hr : i < row.length
    · rw [List.getElem?_append_left (by simp; omega), List.getElem?_take_of_lt hi]
      simp [List.getD_eq_getElem?_getD, List.getElem?_eq_getElem hr]
    · rw [List.getElem?_append_right (by simp; omega), List.getElem?_replicate_of_lt (by simp; omega)]
      simp [List.getD_eq_getElem?_getD, List.getElem?_eq_none (by omega : row.length ≤ i)]
  · rw [List.getElem?_eq_none (by simp; omega), List.getElem?_eq_none (by simp; omega)]
    rfl

theorem fit_same {h row : List Bytes} (hl : h = [] ∨ row.length = h.length) : Spec.fit h row = row := by
  unfold Spec.fit
  rcases hl with rfl | hl
  · simp
  · split
    · rfl
    · rw [← hl]; simp

/-! ## C82: CSV -/

theorem csv_quoted (fs : List Bytes) (t : Bytes) : ∀ (s f : Bytes),
    Spec.csv .quoted fs f (doubled 34 s ++ 34 :: t) = Spec.csv .quote fs (f ++ s) t
  | [], f => by simp [doubled, Spec.csv]
  | c :: s, f => by
    have ih := csv_quoted fs t s
    by_cases hc : c = 34
    · subst hc
      have : doubled 34 (34 :: s) = 34 :: 34 :: doubled 34 s := by simp [doubled]
      rw [this]
      simp only [List.cons_append, Spec.csv, if_true, ih]
      simp
    · have : doubled 34 (c :: s) = c :: doubled 34 s := by simp [doubled, hc]
      rw [this]
      simp only [List.cons_append, Spec.csv, hc, if_false, ih]
      simp

theorem csv_bare (fs : List Bytes) (t : Bytes) : ∀ (s f : Bytes), (∀ c ∈ s, c ≠ 10 ∧ c ≠ 34 ∧ c ≠ 44) →
    Spec.csv .bare fs f (s ++ t) = Spec.csv .bare fs (f ++ s) t
  | [], f, _ => by simp
  | c :: s, f, h => by
    obtain ⟨h1, h2, h3⟩ := h c (List.mem_cons_self ..)
    simp only [List.cons_append, Spec.csv, h1, h2, h3, if_false]
    rw [csv_bare fs t s _ (fun d hd => h d (List.mem_cons_of_mem _ hd))]
    simp

theorem plain_csv {s : Bytes} (h : needsQuoting s = false) : s ≠ [] ∧ ∀ c ∈ s, c ≠ 10 ∧ c ≠ 34 ∧ c ≠ 44 := by
  simp only [needsQuoting, Bool.or_eq_false_iff, List.any_eq_false] at h
  refine ⟨by rintro rfl; simp at h, fun c hc => ?_⟩
  have := h.2 c hc
  simp only [Bool.or_eq_true, beq_iff_eq, not_or] at this
  exact ⟨this.1.1.1.2, this.1.1.1.1.2, this.1.1.1.1.1⟩

/-- A written field is read as the field, up to the comma or line feed after it. -/
theorem csv_field (st : Spec.Csv) (hst : st = .record ∨ st = .field) (fs : List Bytes) (x t : Bytes) :
    Spec.csv st fs [] (quoteCSV x ++ 44 :: t) = Spec.csv .field (fs ++ [x]) [] t ∧
    Spec.csv st fs [] (quoteCSV x ++ 10 :: t) = (Spec.csv .record [] [] t).map ((fs ++ [x]) :: ·) := by
  unfold quoteCSV
  split
  · rename_i h; subst h
    rcases hst with rfl | rfl <;> simp [Spec.csv]
  split
  · rename_i h1 h2
    obtain ⟨_, h⟩ := plain_csv (by simpa using h2)
    cases x with
    | nil => exact absurd rfl h1
    | cons c x =>
      obtain ⟨c1, c2, c3⟩ := h c (List.mem_cons_self ..)
      have hx : ∀ d ∈ x, d ≠ 10 ∧ d ≠ 34 ∧ d ≠ 44 := fun d hd => h d (List.mem_cons_of_mem _ hd)
      rcases hst with rfl | rfl <;>
        simp only [List.cons_append, Spec.csv, c1, c2, c3, if_false, csv_bare fs _ x _ hx] <;>
        simp
  · rcases hst with rfl | rfl <;>
      simp only [List.cons_append, Spec.csv, List.append_assoc, List.nil_append, if_true, csv_quoted] <;>
      simp

theorem sepBy_cons (d : UInt8) (x y : Bytes) (xs : List Bytes) :
    sepBy d (x :: y :: xs) = x ++ d :: sepBy d (y :: xs) := rfl

theorem csv_fields : ∀ (xs : List Bytes) (x : Bytes) (st : Spec.Csv) (_ : st = .record ∨ st = .field)
    (fs : List Bytes) (t : Bytes),
    Spec.csv st fs [] (sepBy 44 ((x :: xs).map quoteCSV) ++ 10 :: t)
      = (Spec.csv .record [] [] t).map ((fs ++ x :: xs) :: ·)
  | [], x, st, hst, fs, t => (csv_field st hst fs x t).2
  | y :: ys, x, st, hst, fs, t => by
    rw [List.map_cons, List.map_cons, sepBy_cons, List.append_assoc, List.cons_append,
      (csv_field st hst fs x _).1]
    have := csv_fields ys y .field (.inr rfl) (fs ++ [x]) t
    rw [List.map_cons] at this
    rw [this]
    simp

theorem csv_row (row : List Bytes) (t : Bytes) :
    Spec.csv .record [] [] (sepBy 44 (row.map quoteCSV) ++ 10 :: t) = (Spec.csv .record [] [] t).map (row :: ·) := by
  cases row with
  | nil => simp [sepBy, Spec.csv]
  | cons x xs => simpa using csv_fields xs x .record (.inl rfl) [] t

theorem csv_rows (f : List Bytes → List Bytes) : ∀ rows : List (List Bytes),
    Spec.csv .record [] [] (rows.flatMap (fun row => sepBy 44 ((f row).map quoteCSV) ++ [10])) = some (rows.map f)
  | [] => rfl
  | row :: rows => by
    rw [List.flatMap_cons, List.append_assoc, List.singleton_append, csv_row, csv_rows f rows]
    rfl

/-- C82.  Every result, with any bytes in its cells and any number of rows and columns, is read back
from its CSV form: column names first if they were asked for, then each row as wide as the names. -/
theorem c82_csv (header : Bool) (r : Result) :
    Spec.readCSV (formatCSV header r)
      = some ((if header then [r.headers] else []) ++ r.rows.map (Spec.fit r.headers)) := by
  unfold Spec.readCSV formatCSV table
  have hf : r.rows.flatMap (fun row => sepBy 44 ((fields r.headers row).map quoteCSV) ++ [10])
      = r.rows.flatMap (fun row => sepBy 44 ((Spec.fit r.headers row).map quoteCSV) ++ [10]) := by
    simp only [fields_fit]
  rw [hf]
  cases header
  · simpa using csv_rows (Spec.fit r.headers) r.rows
  · rw [if_pos rfl, List.append_assoc, List.singleton_append, csv_row, csv_rows]
    rfl

/-- C82, for the results of queries: every row has as many cells as there are columns, and nothing is
lost. -/
theorem c82_lossless (r r' : Result) (h : ∀ row ∈ r.rows, row.length = r.headers.length)
    (h' : ∀ row ∈ r'.rows, row.length = r'.headers.length) (he : formatCSV true r = formatCSV true r') : r = r' := by
  have e := c82_csv true r
  rw [he, c82_csv] at e
  have fit : ∀ q : Result, (∀ row ∈ q.rows, row.length = q.headers.length) →
      q.rows.map (Spec.fit q.headers) = q.rows := by
    intro q hq
    conv => rhs; rw [← List.map_id q.rows]
    apply List.map_congr_left
    intro row hr
    exact fit_same (.inr (hq row hr))
  rw [fit r h, fit r' h'] at e
  simp only [if_true, List.singleton_append, Option.some.injEq, List.cons.injEq] at e
  cases r; cases r'
  simp_all

example : formatCSV true ⟨[str "a", str "b c"], [[str "1", str "say \"hi\""], [[], str "x,y\n"]]⟩
    = str "a,\"b c\"\n1,\"say \"\"hi\"\"\"\n\"\",\"x,y\n\"\n" := by decide +kernel

/-- The comment in the code says that NULL stays empty between separators, unlike the empty string:
it does not, both are two quotes (NULL reaches the formatter as the empty string). -/
theorem c82_null_is_empty : ∃ a b : List Value, a ≠ b ∧
    formatCSV true ⟨[str "a"], [a.map Value.asString]⟩ = formatCSV true ⟨[str "a"], [b.map Value.asString]⟩ ∧
    formatCSV true ⟨[str "a"], [a.map Value.asString]⟩ = str "a\n\"\"\n" :=
  ⟨[.none], [.text []], by decide +kernel⟩

/-! ## C83: quote -/

theorem digit_iff (c : UInt8) : isDigitChar c = true ↔ Spec.Digit c := by
  simp [isDigitChar, Spec.Digit]

theorem takeDigits {d t : Bytes} (hd : ∀ c ∈ d, Spec.Digit c) (ht : ∀ c, t.head? = some c → ¬ Spec.Digit c) :
    (d ++ t).takeWhile isDigitChar = d ∧ (d ++ t).dropWhile isDigitChar = t := by
  induction d with
  | nil =>
    cases t with
    | nil => simp
    | cons c t =>
      have : isDigitChar c = false := by
        have := ht c rfl
        rw [← digit_iff] at this
        simpa using this
      simp [this]
  | cons c d ih =>
    have h := (digit_iff c).mpr (hd c (List.mem_cons_self ..))
    have := ih (fun x hx => hd x (List.mem_cons_of_mem _ hx))
    simp [h, this]

theorem splitDigits (s : Bytes) : (∀ c ∈ s.takeWhile isDigitChar, Spec.Digit c) ∧
    (∀ c, (s.dropWhile isDigitChar).head? = some c → ¬ Spec.Digit c) ∧
    s = s.takeWhile isDigitChar ++ s.dropWhile isDigitChar := by
  induction s with
  | nil => simp
  | cons c s ih =>
    by_cases h : isDigitChar c = true
    · refine ⟨?_, ?_, ?_⟩
      · intro d hd
        simp only [List.takeWhile_cons, h, if_true, List.mem_cons] at hd
        rcases hd with rfl | hd
        · exact (digit_iff _).mp h
        · exact ih.1 d hd
      · simpa [h] using ih.2.1
      · simpa [h] using ih.2.2
    · refine ⟨by simp [h], ?_, by simp [h]⟩
      intro d hd
      simp only [List.dropWhile_cons, h, Bool.false_eq_true, if_false, List.head?_cons, Option.some.injEq] at hd
      subst hd
      rwa [← digit_iff]

/-- An exponent, or nothing. -/
def Exp (exp : Bytes) : Prop :=
  exp = [] ∨ ∃ e g d, exp = e :: (g ++ d) ∧ (e = 101 ∨ e = 69) ∧ (g = [] ∨ g = [43] ∨ g = [45]) ∧
      d ≠ [] ∧ ∀ c ∈ d, Spec.Digit c

theorem sign_cases (t : Bytes) : (∃ u, t = 43 :: u) ∨ (∃ u, t = 45 :: u) ∨
    (t.head? ≠ some 43 ∧ t.head? ≠ some 45) := by
  cases t with
  | nil => simp
  | cons c t =>
    by_cases h1 : c = 43
    · exact .inl ⟨t, by rw [h1]⟩
    by_cases h2 : c = 45
    · exact .inr (.inl ⟨t, by rw [h2]⟩)
    · exact .inr (.inr (by simp [h1, h2]))

theorem digits_head {d : Bytes} (hd : ∀ c ∈ d, Spec.Digit c) : d.head? ≠ some 43 ∧ d.head? ≠ some 45 := by
  cases d with
  | nil => simp
  | cons c d =>
    have := hd c (List.mem_cons_self ..)
    simp only [List.head?_cons, ne_eq, Option.some.injEq]
    constructor <;> rintro rfl <;> exact absurd this (by unfold Spec.Digit; decide)

/-- Skipping an optional sign. -/
def unsigned (t : Bytes) : Bytes :=
  match t with
  | 43 :: t => t
  | 45 :: t => t
  | t => t

theorem unsigned_same {t : Bytes} (h : t.head? ≠ some 43 ∧ t.head? ≠ some 45) : unsigned t = t := by
  unfold unsigned
  split
  · exact absurd rfl h.1
  · exact absurd rfl h.2
  · rfl

theorem unsigned_split (t : Bytes) : ∃ g, (g = [] ∨ g = [43] ∨ g = [45]) ∧ t = g ++ unsigned t := by
  rcases sign_cases t with ⟨u, rfl⟩ | ⟨u, rfl⟩ | h
  · exact ⟨[43], by simp, rfl⟩
  · exact ⟨[45], by simp, rfl⟩
  · exact ⟨[], by simp, by rw [unsigned_same h]; rfl⟩

theorem unsigned_signed {g d : Bytes} (hg : g = [] ∨ g = [43] ∨ g = [45])
    (hd : d.head? ≠ some 43 ∧ d.head? ≠ some 45) : unsigned (g ++ d) = d := by
  rcases hg with rfl | rfl | rfl
  · exact unsigned_same hd
  · rfl
  · rfl

theorem exponent_iff (s : Bytes) : exponentEnd s = true ↔ Exp s := by
  cases s with
  | nil => simp [exponentEnd, Exp]
  | cons c t =>
    have hu : exponentEnd (c :: t) = (if c = 101 ∨ c = 69 then
        !((unsigned t).takeWhile isDigitChar).isEmpty && ((unsigned t).dropWhile isDigitChar).isEmpty
        else false) := rfl
    rw [hu]
    constructor
    · intro h
      split at h
      · rename_i hc
        simp only [Bool.and_eq_true, Bool.not_eq_true', List.isEmpty_eq_false_iff, List.isEmpty_iff] at h
        obtain ⟨g, hg, ht⟩ := unsigned_split t
        have hs := splitDigits (unsigned t)
        refine .inr ⟨c, g, unsigned t, by rw [← ht], hc, hg, ?_, ?_⟩
        · intro e; rw [e] at h; simp at h
        · rw [hs.2.2, h.2, List.append_nil]; exact hs.1
      · cases h
    · rintro (h | ⟨e, g, d, h, he, hg, hd, hdd⟩)
      · cases h
      · cases h
        rw [if_pos he, unsigned_signed hg (digits_head hdd)]
        have := takeDigits (t := []) hdd (by simp)
        rw [List.append_nil] at this
        simp [this, hd]

theorem exp_head {s : Bytes} (h : Exp s) : ∀ c, s.head? = some c → ¬ Spec.Digit c ∧ c ≠ 46 := by
  rintro c hc
  rcases h with rfl | ⟨e, g, d, rfl, he, _⟩
  · simp at hc
  · simp only [List.head?_cons, Option.some.injEq] at hc
    subst hc
    rcases he with rfl | rfl <;> exact ⟨by unfold Spec.Digit; decide, by decide⟩

/-- The body of a number after its sign. -/
def Body (t : Bytes) : Prop :=
  ∃ int frac exp, t = int ++ (frac ++ exp) ∧ (∀ c ∈ int, Spec.Digit c) ∧
    (frac = [] ∧ int ≠ [] ∨ ∃ d, frac = 46 :: d ∧ (∀ c ∈ d, Spec.Digit c) ∧ (int ≠ [] ∨ d ≠ [])) ∧ Exp exp

def bodyNumeric (t : Bytes) : Bool :=
  match t.dropWhile isDigitChar with
  | 46 :: u =>
    (!(t.takeWhile isDigitChar).isEmpty || !(u.takeWhile isDigitChar).isEmpty) && exponentEnd (u.dropWhile isDigitChar)
  | rest => !(t.takeWhile isDigitChar).isEmpty && exponentEnd rest

theorem body_iff (t : Bytes) : bodyNumeric t = true ↔ Body t := by
  have hs := splitDigits t
  constructor
  · intro h
    unfold bodyNumeric at h
    split at h
    · rename_i u hu
      have hv := splitDigits u
      simp only [Bool.and_eq_true, Bool.or_eq_true, Bool.not_eq_true', List.isEmpty_eq_false_iff] at h
      refine ⟨t.takeWhile isDigitChar, 46 :: u.takeWhile isDigitChar, u.dropWhile isDigitChar, ?_, hs.1,
        .inr ⟨_, rfl, hv.1, h.1⟩, (exponent_iff _).mp h.2⟩
      rw [List.cons_append, ← hv.2.2, ← hu]
      exact hs.2.2
    · simp only [Bool.and_eq_true, Bool.not_eq_true', List.isEmpty_eq_false_iff] at h
      exact ⟨t.takeWhile isDigitChar, [], t.dropWhile isDigitChar, by simpa using hs.2.2, hs.1,
        .inl ⟨rfl, h.1⟩, (exponent_iff _).mp h.2⟩
  · rintro ⟨int, frac, exp, rfl, hi, hf, he⟩
    have hh := exp_head he
    rcases hf with ⟨rfl, hne⟩ | ⟨d, rfl, hd, hne⟩
    · have := takeDigits (t := exp) hi (fun c hc => (hh c hc).1)
      unfold bodyNumeric
      rw [List.nil_append, this.1, this.2]
      split
      · rename_i u
        exact absurd rfl (hh 46 rfl).2
      · simp [hne, (exponent_iff _).mpr he]
    · have h1 := takeDigits (t := 46 :: (d ++ exp)) hi (by
        intro c hc
        simp only [List.head?_cons, Option.some.injEq] at hc
        subst hc
        unfold Spec.Digit; decide)
      have h2 := takeDigits (t := exp) hd (fun c hc => (hh c hc).1)
      unfold bodyNumeric
      rw [List.cons_append, h1.1, h1.2]
      simp [h2, (exponent_iff _).mpr he, hne]

theorem body_head {t : Bytes} (h : Body t) : t.head? ≠ some 43 ∧ t.head? ≠ some 45 := by
  obtain ⟨int, frac, exp, rfl, hi, hf, _⟩ := h
  cases int with
  | nil =>
    rcases hf with ⟨_, hne⟩ | ⟨d, rfl, _⟩
    · exact absurd rfl hne
    · simp
  | cons c int =>
    have := digits_head hi
    simpa using this

/-- C83.  The texts written without quotes are exactly the numbers of SQL. -/
theorem c83_numeric (s : Bytes) : isNumeric s = true ↔ Spec.Number s := by
  have e : isNumeric s = bodyNumeric (unsigned s) := rfl
  rw [e, body_iff]
  constructor
  · rintro ⟨int, frac, exp, ht, hi, hf, he⟩
    obtain ⟨g, hg, hs⟩ := unsigned_split s
    exact ⟨g, int, frac, exp, by rw [← ht]; exact hs, hg, hi, hf, he⟩
  · rintro ⟨g, int, frac, exp, rfl, hg, hi, hf, he⟩
    have hb : Body (int ++ (frac ++ exp)) := ⟨int, frac, exp, rfl, hi, hf, he⟩
    rw [unsigned_signed hg (body_head hb)]
    exact hb

instance (s : Bytes) : Decidable (Spec.Number s) := decidable_of_iff _ (c83_numeric s)

example : Spec.Number (str "-.5e+10") ∧ Spec.Number (str "1.") ∧ ¬ Spec.Number (str "1e") ∧
    ¬ Spec.Number (str ".") ∧ ¬ Spec.Number (str "0x1f") := by decide +kernel

/-- The characters of a number. -/
theorem number_chars {s : Bytes} (h : Spec.Number s) : s ≠ [] ∧ ∀ c ∈ s, c ≠ 10 ∧ c ≠ 39 ∧ c ≠ 44 := by
  obtain ⟨g, int, frac, exp, rfl, hg, hi, hf, he⟩ := h
  have dig : ∀ c, Spec.Digit c → c ≠ 10 ∧ c ≠ 39 ∧ c ≠ 44 := by
    intro c hc
    refine ⟨?_, ?_, ?_⟩ <;> rintro rfl <;> exact absurd hc (by unfold Spec.Digit; decide)
  have sgn : ∀ g : Bytes, (g = [] ∨ g = [43] ∨ g = [45]) → ∀ c ∈ g, c ≠ 10 ∧ c ≠ 39 ∧ c ≠ 44 := by
    rintro g (rfl | rfl | rfl) <;> decide
  refine ⟨?_, ?_⟩
  · intro h
    simp only [List.append_eq_nil_iff] at h
    rcases hf with ⟨_, hne⟩ | ⟨d, hd, _⟩
    · exact hne h.2.1
    · rw [h.2.2.1] at hd; cases hd
  · intro c hc
    simp only [List.mem_append] at hc
    rcases hc with hc | hc | hc | hc
    · exact sgn g hg c hc
    · exact dig c (hi c hc)
    · rcases hf with ⟨rfl, _⟩ | ⟨d, rfl, hd, _⟩
      · cases hc
      · rcases List.mem_cons.mp hc with rfl | hc
        · decide
        · exact dig c (hd c hc)
    · rcases he with rfl | ⟨e, g', d, rfl, he, hg', _, hd⟩
      · cases hc
      · rcases List.mem_cons.mp hc with rfl | hc
        · rcases he with rfl | rfl <;> decide
        · rcases List.mem_append.mp hc with hc | hc
          · exact sgn g' hg' c hc
          · exact dig c (hd c hc)

theorem sql_quoted (fs : List Spec.Sql) (t : Bytes) : ∀ (s f : Bytes),
    Spec.sql .quoted fs f (doubled 39 s ++ 39 :: t) = Spec.sql .quote fs (f ++ s) t
  | [], f => by simp [doubled, Spec.sql]
  | c :: s, f => by
    have ih := sql_quoted fs t s
    by_cases hc : c = 39
    · subst hc
      have : doubled 39 (39 :: s) = 39 :: 39 :: doubled 39 s := by simp [doubled]
      rw [this]
      simp only [List.cons_append, Spec.sql, if_true, ih]
      simp
    · have : doubled 39 (c :: s) = c :: doubled 39 s := by simp [doubled, hc]
      rw [this]
      simp only [List.cons_append, Spec.sql, hc, if_false, ih]
      simp

theorem sql_bare (fs : List Spec.Sql) (t : Bytes) : ∀ (s f : Bytes), (∀ c ∈ s, c ≠ 10 ∧ c ≠ 39 ∧ c ≠ 44) →
    Spec.sql .bare fs f (s ++ t) = Spec.sql .bare fs (f ++ s) t
  | [], f, _ => by simp
  | c :: s, f, h => by
    obtain ⟨h1, h2, h3⟩ := h c (List.mem_cons_self ..)
    simp only [List.cons_append, Spec.sql, h1, h2, h3, if_false]
    rw [sql_bare fs t s _ (fun d hd => h d (List.mem_cons_of_mem _ hd))]
    simp

/-- How a field is written: as a number, or as a string literal. -/
inductive Written : Bytes → Spec.Sql → Prop
  | number {s : Bytes} : Spec.Number s → Written s (.word s)
  | string {s : Bytes} : Written (quoteSQL s) (.string s)

theorem sql_field (st : Spec.Csv) (hst : st = .record ∨ st = .field) (fs : List Spec.Sql) {x : Bytes} {v : Spec.Sql}
    (hw : Written x v) (t : Bytes) :
    Spec.sql st fs [] (x ++ 44 :: t) = Spec.sql .field (fs ++ [v]) [] t ∧
    Spec.sql st fs [] (x ++ 10 :: t) = (Spec.sql .record [] [] t).map ((fs ++ [v]) :: ·) := by
  cases hw with
  | number h =>
    obtain ⟨hne, h⟩ := number_chars h
    cases x with
    | nil => exact absurd rfl hne
    | cons c x =>
      obtain ⟨c1, c2, c3⟩ := h c (List.mem_cons_self ..)
      have hx : ∀ d ∈ x, d ≠ 10 ∧ d ≠ 39 ∧ d ≠ 44 := fun d hd => h d (List.mem_cons_of_mem _ hd)
      rcases hst with rfl | rfl <;>
        simp only [List.cons_append, Spec.sql, c1, c2, c3, if_false, sql_bare fs _ x _ hx] <;>
        simp
  | string =>
    unfold quoteSQL
    rcases hst with rfl | rfl <;>
      simp only [List.cons_append, Spec.sql, List.append_assoc, List.nil_append, if_true, sql_quoted] <;>
      simp

theorem sql_fields (w : Bytes → Bytes) (v : Bytes → Spec.Sql) (hw : ∀ x, Written (w x) (v x)) :
    ∀ (xs : List Bytes) (x : Bytes) (st : Spec.Csv) (_ : st = .record ∨ st = .field) (fs : List Spec.Sql) (t : Bytes),
    Spec.sql st fs [] (sepBy 44 ((x :: xs).map w) ++ 10 :: t)
      = (Spec.sql .record [] [] t).map ((fs ++ (x :: xs).map v) :: ·)
  | [], x, st, hst, fs, t => (sql_field st hst fs (hw x) t).2
  | y :: ys, x, st, hst, fs, t => by
    rw [List.map_cons, List.map_cons, sepBy_cons, List.append_assoc, List.cons_append,
      (sql_field st hst fs (hw x) _).1]
    have := sql_fields w v hw ys y .field (.inr rfl) (fs ++ [v x]) t
    rw [List.map_cons] at this
    rw [this]
    simp

theorem sql_row (w : Bytes → Bytes) (v : Bytes → Spec.Sql) (hw : ∀ x, Written (w x) (v x)) (row : List Bytes)
    (t : Bytes) :
    Spec.sql .record [] [] (sepBy 44 (row.map w) ++ 10 :: t) = (Spec.sql .record [] [] t).map (row.map v :: ·) := by
  cases row with
  | nil => simp [sepBy, Spec.sql]
  | cons x xs => simpa using sql_fields w v hw xs x .record (.inl rfl) [] t

theorem sql_rows (w : Bytes → Bytes) (v : Bytes → Spec.Sql) (hw : ∀ x, Written (w x) (v x))
    (f : List Bytes → List Bytes) : ∀ rows : List (List Bytes),
    Spec.sql .record [] [] (rows.flatMap (fun row => sepBy 44 ((f row).map w) ++ [10]))
      = some (rows.map (fun row => (f row).map v))
  | [] => rfl
  | row :: rows => by
    rw [List.flatMap_cons, List.append_assoc, List.singleton_append, sql_row w v hw, sql_rows w v hw f rows]
    rfl

/-- C83.  Every result is read back from its quote form by a reader of SQL values: column names are
string literals, a cell is a bare number exactly when it is a number, and a string literal otherwise. -/
theorem c83_quote (header : Bool) (r : Result) :
    Spec.readSQL (formatQuote header r)
      = some ((if header then [r.headers.map .string] else []) ++
          r.rows.map (fun row => (Spec.fit r.headers row).map
            (fun c => if Spec.Number c then Spec.Sql.word c else .string c))) := by
  have hw : ∀ x, Written ((fun c => if isNumeric c then c else quoteSQL c) x)
      ((fun c => if Spec.Number c then Spec.Sql.word c else .string c) x) := by
    intro x
    by_cases h : Spec.Number x
    · simp only [h, (c83_numeric x).mpr h, if_true]; exact .number h
    · have : isNumeric x = false := by
        rw [← c83_numeric] at h; simpa using h
      simp only [h, this, if_false]; exact .string
  have hh : ∀ x, Written (quoteSQL x) (Spec.Sql.string x) := fun x => .string
  unfold Spec.readSQL formatQuote table
  have hf : ∀ w : Bytes → Bytes, r.rows.flatMap (fun row => sepBy 44 ((fields r.headers row).map w) ++ [10])
      = r.rows.flatMap (fun row => sepBy 44 ((Spec.fit r.headers row).map w) ++ [10]) := by
    intro w; simp only [fields_fit]
  rw [hf]
  cases header
  · simpa using sql_rows _ _ hw (Spec.fit r.headers) r.rows
  · rw [if_pos rfl, List.append_assoc, List.singleton_append, sql_row _ _ hh, sql_rows _ _ hw]
    rfl

example : formatQuote true ⟨[str "it's", str "n"], [[str "O'Neil", str "-1.5e3"], [[], str "1-2"]]⟩
    = str "'it''s','n'\n'O''Neil',-1.5e3\n'','1-2'\n" := by decide +kernel

/-! ## C83: list and tabs -/

theorem lines_field (d : UInt8) (t : Bytes) : ∀ (x f : Bytes) (fs : List Bytes), (∀ c ∈ x, c ≠ 10 ∧ c ≠ d) →
    Spec.lines d fs f (x ++ t) = Spec.lines d fs (f ++ x) t
  | [], f, fs, _ => by simp
  | c :: x, f, fs, h => by
    obtain ⟨h1, h2⟩ := h c (List.mem_cons_self ..)
    simp only [List.cons_append, Spec.lines, h1, h2, if_false]
    rw [lines_field d t x _ fs (fun e he => h e (List.mem_cons_of_mem _ he))]
    simp

theorem lines_fields (d : UInt8) (hd : d ≠ 10) (t : Bytes) : ∀ (xs : List Bytes) (x : Bytes) (fs : List Bytes),
    (∀ y ∈ x :: xs, ∀ c ∈ y, c ≠ 10 ∧ c ≠ d) →
    Spec.lines d fs [] (sepBy d (x :: xs) ++ 10 :: t) = (fs ++ x :: xs) :: Spec.lines d [] [] t
  | [], x, fs, h => by
    rw [show sepBy d [x] = x from rfl, lines_field d _ x [] fs (h x (List.mem_cons_self ..))]
    simp [Spec.lines]
  | y :: ys, x, fs, h => by
    rw [sepBy_cons, List.append_assoc, List.cons_append, lines_field d _ x [] fs (h x (List.mem_cons_self ..))]
    simp only [Spec.lines, hd, if_false, if_true, List.nil_append]
    rw [lines_fields d hd t ys y _ (fun z hz => h z (List.mem_cons_of_mem _ hz))]
    simp

/-- A line of no fields reads as a line of one empty field. -/
def atLeast (l : List Bytes) : List Bytes := if l = [] then [[]] else l

theorem lines_row (d : UInt8) (hd : d ≠ 10) (t : Bytes) (row : List Bytes) (h : ∀ y ∈ row, ∀ c ∈ y, c ≠ 10 ∧ c ≠ d) :
    Spec.lines d [] [] (sepBy d row ++ 10 :: t) = atLeast row :: Spec.lines d [] [] t := by
  cases row with
  | nil => simp [sepBy, Spec.lines, atLeast]
  | cons x xs => simpa [atLeast] using lines_fields d hd t xs x [] h

theorem lines_rows (d : UInt8) (hd : d ≠ 10) (f : List Bytes → List Bytes) : ∀ rows : List (List Bytes),
    (∀ row ∈ rows, ∀ y ∈ f row, ∀ c ∈ y, c ≠ 10 ∧ c ≠ d) →
    Spec.lines d [] [] (rows.flatMap (fun row => sepBy d (f row) ++ [10])) = rows.map (fun row => atLeast (f row))
  | [], _ => rfl
  | row :: rows, h => by
    rw [List.flatMap_cons, List.append_assoc, List.singleton_append,
      lines_row d hd _ _ (h row (List.mem_cons_self ..)),
      lines_rows d hd f rows (fun r hr => h r (List.mem_cons_of_mem _ hr))]
    rfl

/-- C83.  A result whose names and cells hold no bar and no line feed, with at least one cell in each
row, is read back from its list form. -/
theorem c83_list_partial (r : Result) (hh : r.headers ≠ []) (hr : ∀ row ∈ r.rows, row ≠ [])
    (h : ∀ l ∈ r.headers :: r.rows, ∀ x ∈ l, ∀ c ∈ x, c ≠ 10 ∧ c ≠ 124) :
    Spec.readLines 124 (formatList true r) = r.headers :: r.rows := by
  unfold Spec.readLines formatList table
  have hl := lines_rows 124 (by decide) id r.rows (fun row hrow => h row (List.mem_cons_of_mem _ hrow))
  simp only [id] at hl
  rw [if_pos rfl, List.append_assoc, List.singleton_append,
    lines_row 124 (by decide) _ _ (h _ (List.mem_cons_self ..)), hl]
  have e : r.rows.map (fun row => atLeast row) = r.rows := by
    conv => rhs; rw [← List.map_id r.rows]
    apply List.map_congr_left
    intro row hrow
    simp [atLeast, hr row hrow]
  rw [e]
  simp [atLeast, hh]

example : formatList true ⟨[str "a", str "b"], [[str "1", []], [str "x y", str "\t"]]⟩
    = str "a|b\n1|\nx y|\t\n" := by decide +kernel

/-- With a bar in a cell, two different results have the same list form. -/
theorem c83_list_ambiguous : ∃ r r' : Result, r ≠ r' ∧ r.headers = r'.headers ∧
    (∀ row ∈ r.rows, row.length = r.headers.length) ∧ (∀ row ∈ r'.rows, row.length = r'.headers.length) ∧
    formatList true r = formatList true r' :=
  ⟨⟨[str "a", str "b"], [[str "x|y", str "z"]]⟩, ⟨[str "a", str "b"], [[str "x", str "y|z"]]⟩, by decide +kernel⟩

theorem trimEmpty_pad (l : List Bytes) : ∃ k, l = trimEmpty l ++ List.replicate k [] := by
  unfold trimEmpty
  refine ⟨(l.reverse.takeWhile List.isEmpty).length, ?_⟩
  have h : List.replicate (l.reverse.takeWhile List.isEmpty).length ([] : Bytes)
      = (l.reverse.takeWhile List.isEmpty).reverse := by
    symm
    rw [List.eq_replicate_iff]
    refine ⟨by simp, fun b hb => ?_⟩
    rw [List.mem_reverse] at hb
    have : ∀ (m : List Bytes), ∀ b ∈ m.takeWhile List.isEmpty, b = [] := by
      intro m
      induction m with
      | nil => simp
      | cons x m ih =>
        intro b hb
        by_cases hx : x.isEmpty = true
        · simp only [List.takeWhile_cons, hx, if_true, List.mem_cons] at hb
          rcases hb with rfl | hb
          · simpa using hx
          · exact ih b hb
        · simp [hx] at hb
    exact this _ b hb
  rw [h, ← List.reverse_append, List.takeWhile_append_dropWhile, List.reverse_reverse]

/-- C83.  A result whose names and cells hold no tab and no line feed is read back from its tabs form,
when each line is filled up to the number of columns. -/
theorem c83_tabs_partial (r : Result) (hh : r.headers ≠ []) (hr : ∀ row ∈ r.rows, row.length = r.headers.length)
    (h : ∀ l ∈ r.headers :: r.rows, ∀ x ∈ l, ∀ c ∈ x, c ≠ 10 ∧ c ≠ 9) :
    (Spec.readLines 9 (formatTabs true r)).map (Spec.pad r.headers.length) = r.headers :: r.rows := by
  unfold Spec.readLines formatTabs table
  have hf : ∀ row ∈ r.rows, fields r.headers row = row := fun row hrow => by
    rw [fields_fit, fit_same (.inr (hr row hrow))]
  have hsub : ∀ l : List Bytes, ∀ x ∈ trimEmpty l, x ∈ l := by
    intro l x hx
    unfold trimEmpty at hx
    rw [List.mem_reverse] at hx
    exact List.mem_reverse.mp ((List.dropWhile_sublist _).subset hx)
  rw [if_pos rfl, List.append_assoc, List.singleton_append,
    lines_row 9 (by decide) _ _ (h _ (List.mem_cons_self ..)),
    lines_rows 9 (by decide) (fun row => trimEmpty (fields r.headers row)) r.rows (by
      intro row hrow y hy
      rw [hf row hrow] at hy
      exact h row (List.mem_cons_of_mem _ hrow) y (hsub row y hy))]
  rw [List.map_cons, List.map_map]
  congr 1
  · simp [atLeast, hh, Spec.pad]
  · conv => rhs; rw [← List.map_id r.rows]
    apply List.map_congr_left
    intro row hrow
    simp only [Function.comp, hf row hrow, id]
    obtain ⟨k, hk⟩ := trimEmpty_pad row
    have hlen := congrArg List.length hk
    rw [List.length_append, List.length_replicate, hr row hrow] at hlen
    unfold atLeast Spec.pad
    split
    · rename_i he
      rw [he] at hlen hk
      have hpos : 0 < r.headers.length := List.length_pos_iff.mpr hh
      rw [hk, List.nil_append, List.length_singleton, ← List.replicate_one, List.replicate_append_replicate]
      congr 1
      simp at hlen
      omega
    · conv => rhs; rw [hk]
      congr 2
      omega

example : formatTabs true ⟨[str "a", str "b", str "c"], [[str "1", [], []], [[], str "x", []], [[], [], []]]⟩
    = str "a\tb\tc\n1\n\tx\n\n" := by decide +kernel

/-- With a tab in a cell, two different results have the same tabs form. -/
theorem c83_tabs_ambiguous : ∃ r r' : Result, r ≠ r' ∧ r.headers = r'.headers ∧
    (∀ row ∈ r.rows, row.length = r.headers.length) ∧ (∀ row ∈ r'.rows, row.length = r'.headers.length) ∧
    formatTabs true r = formatTabs true r' :=
  ⟨⟨[str "a", str "b"], [[str "x\ty", str "z"]]⟩, ⟨[str "a", str "b"], [[str "x", str "y\tz"]]⟩, by decide +kernel⟩

end Bedrock.Results.Props
