import Verif.Lemmas.Text
import Verif.Model.Deburr
import Verif.Spec.Deburr

/-!
# C80: `DEBURR` works character by character
-/

namespace Bedrock.Deburr.Props
open Bedrock.Text Bedrock.Deburr

/-! ## One character of the text is taken at a time -/

theorem ones0 {n : Nat} (h : n < 128) : leadingOnes (UInt8.ofNat n) = 0 := by
  have : UInt8.ofNat n < 0x80 := by
    rw [UInt8.lt_iff_toNat_lt, UInt8.toNat_ofNat_of_lt' (by show n < 256; omega)]; exact h
  simp [leadingOnes, this]

theorem ones1 {n : Nat} (h : n < 64) : leadingOnes (UInt8.ofNat (n + 128)) = 1 := by
  have e : (UInt8.ofNat (n + 128)).toNat = n + 128 := UInt8.toNat_ofNat_of_lt' (by show _ < 256; omega)
  unfold leadingOnes
  simp only [UInt8.lt_iff_toNat_lt, e]
  rw [if_neg (by show ¬ (n + 128 < 128); omega), if_pos (by show n + 128 < 192; omega)]

theorem ones2 {n : Nat} (h : n < 32) : leadingOnes (UInt8.ofNat (n + 192)) = 2 := by
  have e : (UInt8.ofNat (n + 192)).toNat = n + 192 := UInt8.toNat_ofNat_of_lt' (by show _ < 256; omega)
  unfold leadingOnes
  simp only [UInt8.lt_iff_toNat_lt, e]
  rw [if_neg (by show ¬ (n + 192 < 128); omega), if_neg (by show ¬ (n + 192 < 192); omega),
    if_pos (by show n + 192 < 224; omega)]

theorem ones3 {n : Nat} (h : n < 16) : leadingOnes (UInt8.ofNat (n + 224)) = 3 := by
  have e : (UInt8.ofNat (n + 224)).toNat = n + 224 := UInt8.toNat_ofNat_of_lt' (by show _ < 256; omega)
  unfold leadingOnes
  simp only [UInt8.lt_iff_toNat_lt, e]
  rw [if_neg (by show ¬ (n + 224 < 128); omega), if_neg (by show ¬ (n + 224 < 192); omega),
    if_neg (by show ¬ (n + 224 < 224); omega), if_pos (by show n + 224 < 240; omega)]

theorem ones4 {n : Nat} (h : n < 8) : leadingOnes (UInt8.ofNat (n + 240)) = 4 := by
  have e : (UInt8.ofNat (n + 240)).toNat = n + 240 := UInt8.toNat_ofNat_of_lt' (by show _ < 256; omega)
  unfold leadingOnes
  simp only [UInt8.lt_iff_toNat_lt, e]
  rw [if_neg (by show ¬ (n + 240 < 128); omega), if_neg (by show ¬ (n + 240 < 192); omega),
    if_neg (by show ¬ (n + 240 < 224); omega), if_neg (by show ¬ (n + 240 < 240); omega),
    if_pos (by show n + 240 < 248; omega)]

theorem cont {k cp n : Nat} (h : n < 64) (s : Bytes) :
    continuation (k + 1) cp (UInt8.ofNat (n + 128) :: s)
      = ((continuation k (cp * 64 + n) s).1,
         UInt8.ofNat (n + 128) :: (continuation k (cp * 64 + n) s).2.1,
         (continuation k (cp * 64 + n) s).2.2) := by
  have e : (UInt8.ofNat (n + 128)).toNat % 64 = n := by
    rw [UInt8.toNat_ofNat_of_lt' (by show _ < 256; omega)]; omega
  simp only [continuation, ones1 h, if_true, e]

/-- One round on the UTF-8 form of a character takes exactly that form, whatever follows. -/
theorem go_char (c : Char) (f : Nat) (rest : Bytes) :
    go (f + 1) (String.utf8EncodeChar c ++ rest)
      = (if c.toNat < 128 then String.utf8EncodeChar c else emit c.toNat (String.utf8EncodeChar c)) ++ go f rest := by
  have hv : c.toNat < 0x110000 := by
    have := c.valid
    show c.val.toNat < _
    unfold UInt32.isValidChar Nat.isValidChar at this
    omega
  have hc : c.val.toNat = c.toNat := rfl
  generalize hn : c.toNat = n at hv hc
  unfold String.utf8EncodeChar
  rw [hc]
  by_cases h1 : n ≤ 127
  · have hl : n < 128 := by omega
    simp only [h1, hl, if_true, List.cons_append, List.nil_append, go, ones0 hl]
  have hl : ¬ n < 128 := by omega
  by_cases h2 : n ≤ 2047
  · simp only [h1, h2, hl, if_true, if_false, List.cons_append, List.nil_append, go]
    rw [ones2 (by omega)]
    rw [if_neg (by decide), if_neg (by simp [List.length_cons])]
    rw [cont (by omega)]
    have e : (UInt8.ofNat (n / 64 % 32 + 192)).toNat = n / 64 % 32 + 192 :=
      UInt8.toNat_ofNat_of_lt' (by show _ < 256; omega)
    simp only [e, continuation]
    rw [show (n / 64 % 32 + 192) % 2 ^ (7 - 2) * 64 + n % 64 = n by omega]
  by_cases h3 : n ≤ 65535
  · simp only [h1, h2, h3, hl, if_true, if_false, List.cons_append, List.nil_append, go]
    rw [ones3 (by omega)]
    rw [if_neg (by decide), if_neg (by simp [List.length_cons])]
    rw [cont (by omega), cont (by omega)]
    have e' : (UInt8.ofNat (n / 4096 % 16 + 224)).toNat = n / 4096 % 16 + 224 :=
      UInt8.toNat_ofNat_of_lt' (by show _ < 256; omega)
    simp only [e', continuation]
    rw [show ((n / 4096 % 16 + 224) % 2 ^ (7 - 3) * 64 + n / 64 % 64) * 64 + n % 64 = n by omega]
  · simp only [h1, h2, h3, hl, if_false, List.cons_append, List.nil_append, go]
    rw [ones4 (by omega)]
    rw [if_neg (by decide), if_neg (by simp [List.length_cons])]
    rw [cont (by omega), cont (by omega), cont (by omega)]
    have e' : (UInt8.ofNat (n / 262144 % 8 + 240)).toNat = n / 262144 % 8 + 240 :=
      UInt8.toNat_ofNat_of_lt' (by show _ < 256; omega)
    simp only [e', continuation]
    rw [show (((n / 262144 % 8 + 240) % 2 ^ (7 - 4) * 64 + n / 4096 % 64) * 64 + n / 64 % 64) * 64 + n % 64 = n by omega]

/-- What a round writes for a character. -/
def out (c : Char) : Bytes :=
  if c.toNat < 128 then String.utf8EncodeChar c else emit c.toNat (String.utf8EncodeChar c)

theorem encode_length (c : Char) : 1 ≤ (String.utf8EncodeChar c).length := by
  unfold String.utf8EncodeChar
  simp only
  repeat' split
  all_goals simp

theorem utf8_cons (c : Char) (l : List Char) : Spec.utf8 (c :: l) = String.utf8EncodeChar c ++ Spec.utf8 l := by
  simp [Spec.utf8]

theorem utf8_append (a b : List Char) : Spec.utf8 (a ++ b) = Spec.utf8 a ++ Spec.utf8 b := by
  simp [Spec.utf8]

theorem go_all : ∀ (l : List Char) (f : Nat), (Spec.utf8 l).length ≤ f → go f (Spec.utf8 l) = l.flatMap out
  | [], f, _ => by cases f <;> rfl
  | c :: l, f, h => by
    rw [utf8_cons, List.length_append] at h
    have := encode_length c
    obtain ⟨f, rfl⟩ : ∃ g, f = g + 1 := ⟨f - 1, by omega⟩
    rw [utf8_cons, go_char, go_all l f (by omega)]
    simp [out]

/-! ## Characters and the table -/

theorem ofNat_toNat (c : Char) : Char.ofNat c.toNat = c := Char.ofNat_toNat c

/-- The part of the code that the table decides. -/
theorem table_checked : ∀ n < 0x180, 0xC0 ≤ n →
    emit n (String.utf8EncodeChar (Char.ofNat n)) = Spec.utf8 (Spec.done (Char.ofNat n)) := by
  decide +kernel

theorem forms_range : ∀ p ∈ Spec.plainForms, ∀ c ∈ p.2.toList, 0xC0 ≤ c.toNat ∧ c.toNat < 0x180 := by
  decide +kernel

theorem leftOut_range : ∀ c ∈ Spec.leftOut, 0xC0 ≤ c.toNat ∧ c.toNat < 0x180 := by
  decide +kernel

theorem plain_outside {c : Char} (h : c.toNat < 0xC0 ∨ 0x180 ≤ c.toNat) (hc : Spec.combining c = false) :
    Spec.done c = [c] := by
  have h1 : c ∉ Spec.leftOut := fun hm => by have := leftOut_range c hm; omega
  have h2 : c ≠ 'Đ' := by
    rintro rfl
    have : 'Đ'.toNat = 0x110 := by decide
    omega
  have h3 : Spec.plainForms.find? (fun p => p.2.toList.contains c) = none := by
    rw [List.find?_eq_none]
    intro p hp hm
    have := forms_range p hp c (by simpa using hm)
    omega
  simp only [Spec.done, h1, h2, Spec.plain, hc, h3]
  simp

theorem out_eq (c : Char) : out c = Spec.utf8 (Spec.done c) := by
  unfold out
  by_cases h1 : c.toNat < 128
  · have hc : Spec.combining c = false := by simp [Spec.combining]; omega
    rw [if_pos h1, plain_outside (.inl (by omega)) hc]; simp [Spec.utf8]
  rw [if_neg h1]
  by_cases h2 : 0xC0 ≤ c.toNat ∧ c.toNat < 0x180
  · have := table_checked c.toNat h2.2 h2.1
    rwa [ofNat_toNat] at this
  by_cases h3 : 0x300 ≤ c.toNat ∧ c.toNat ≤ 0x36F
  · have hc : Spec.combining c = true := by simp [Spec.combining]; omega
    have hl : c ∉ Spec.leftOut := fun hm => by have := leftOut_range c hm; omega
    have hd : c ≠ 'Đ' := by
      rintro rfl
      have : 'Đ'.toNat = 0x110 := by decide
      omega
    simp [emit, h3, Spec.done, hl, hd, Spec.plain, hc, Spec.utf8]
  · have hc : Spec.combining c = false := by simp [Spec.combining]; omega
    rw [plain_outside (by omega) hc]
    simp only [emit, h3, if_false, unicodeToAscii]
    rw [if_neg (by omega)]
    simp [Spec.utf8]

theorem encode_nul (c : Char) : (0 : UInt8) ∈ String.utf8EncodeChar c ↔ c = '\x00' := by
  have hv : c.toNat < 0x110000 := by
    have := c.valid
    show c.val.toNat < _
    unfold UInt32.isValidChar Nat.isValidChar at this
    omega
  have z : ∀ n, n < 256 → ((0 : UInt8) = UInt8.ofNat n ↔ n = 0) := by
    intro n hn
    constructor
    · intro h
      have := congrArg UInt8.toNat h
      rw [UInt8.toNat_ofNat_of_lt' hn] at this
      exact this.symm
    · rintro rfl; rfl
  have hc : c.val.toNat = c.toNat := rfl
  have hz : c = '\x00' ↔ c.toNat = 0 := by
    constructor
    · rintro rfl; rfl
    · intro h
      rw [← ofNat_toNat c, h]
  rw [hz]
  unfold String.utf8EncodeChar
  rw [hc]
  generalize c.toNat = n at hv
  simp only
  repeat' split
  all_goals simp only [List.mem_cons, List.not_mem_nil, or_false]
  · exact z _ (by omega)
  · rw [z _ (by omega), z _ (by omega)]; omega
  · rw [z _ (by omega), z _ (by omega), z _ (by omega)]; omega
  · rw [z _ (by omega), z _ (by omega), z _ (by omega), z _ (by omega)]; omega

theorem cstr_utf8 : ∀ l : List Char, cstr (Spec.utf8 l) = Spec.utf8 (l.takeWhile (· ≠ '\x00'))
  | [] => rfl
  | c :: l => by
    rw [utf8_cons]
    by_cases h : c = '\x00'
    · subst h; simp [cstr, Spec.utf8, String.utf8EncodeChar]
    · have h0 : (0 : UInt8) ∉ String.utf8EncodeChar c := fun hm => h ((encode_nul c).mp hm)
      have ih := cstr_utf8 l
      unfold cstr at ih ⊢
      rw [List.takeWhile_append_of_pos (by
        intro b hb
        simp only [decide_eq_true_eq]
        rintro rfl
        exact h0 hb), ih, List.takeWhile_cons_of_pos (by simpa using h), utf8_cons]

theorem takeWhile_nul {l : List Char} (h : ∀ c ∈ l, c ≠ '\x00') : l.takeWhile (· ≠ '\x00') = l := by
  induction l with
  | nil => rfl
  | cons c l ih =>
    rw [List.takeWhile_cons_of_pos (by simpa using h c (List.mem_cons_self ..)),
      ih (fun d hd => h d (List.mem_cons_of_mem _ hd))]

theorem mem_takeWhile_nul {l : List Char} : ∀ c ∈ l.takeWhile (· ≠ '\x00'), c ≠ '\x00' := by
  induction l with
  | nil => intro c hc; cases hc
  | cons d l ih =>
    intro c hc
    by_cases h : d = '\x00'
    · simp [h] at hc
    · rw [List.takeWhile_cons_of_pos (by simpa using h)] at hc
      rcases List.mem_cons.mp hc with rfl | hc
      · exact h
      · exact ih c hc

/-! ## The theorems -/

/-- C80, in full for the text the code is given: every text of characters is worked on character by
character, up to the first NUL, by the function `Spec.done`. -/
theorem c80_exact (l : List Char) :
    deburr (Spec.utf8 l) = Spec.utf8 ((l.takeWhile (· ≠ '\x00')).flatMap Spec.done) := by
  unfold deburr
  rw [cstr_utf8, go_all _ _ (Nat.le_refl _)]
  generalize l.takeWhile (· ≠ '\x00') = l
  induction l with
  | nil => rfl
  | cons c l ih => rw [List.flatMap_cons, List.flatMap_cons, utf8_append, ih, out_eq]

/-- C80.  Every accented letter of Latin-1 and Latin Extended-A is replaced by its plain form, every
combining accent is dropped and every other character stays as it is, wherever it stands: true of
every text without NUL and without the fourteen letters the table gets wrong. -/
theorem c80_chars_partial (l : List Char) (h0 : '\x00' ∉ l) (h : ∀ c ∈ l, c ∉ Spec.leftOut ∧ c ≠ 'Đ') :
    deburr (Spec.utf8 l) = Spec.utf8 (l.flatMap Spec.plain) := by
  rw [c80_exact]
  have : l.takeWhile (· ≠ '\x00') = l := takeWhile_nul (fun c hc he => h0 (he ▸ hc))
  rw [this]
  congr 1
  clear this h0
  induction l with
  | nil => rfl
  | cons c l ih =>
    rw [List.flatMap_cons, List.flatMap_cons, ih (fun d hd => h d (List.mem_cons_of_mem _ hd))]
    have hc := h c (List.mem_cons_self ..)
    simp [Spec.done, hc.1, hc.2]

example : deburr (Spec.utf8 "Crème Brûlée à Łódź 日本 e\u0301!".toList)
    = Spec.utf8 "Creme Brulee a Lodz 日本 e!".toList := by decide +kernel
example : ("Crème Brûlée à Łódź 日本 e\u0301!".toList).all
    (fun c => c ∉ Spec.leftOut ∧ c ≠ 'Đ' ∧ c ≠ '\x00') = true := by decide +kernel

/-- C80, disagreement: thirteen accented letters stay as they are, and the capital `Đ` becomes a small
`d`, in every text (the table sets U+0110 twice and never U+010F). -/
theorem c80_left_out (l : List Char) (h : ∀ c ∈ l, c ∈ Spec.leftOut) :
    deburr (Spec.utf8 l) = Spec.utf8 l := by
  rw [c80_exact]
  have h0 : ∀ c ∈ l, c ≠ '\x00' := by
    rintro c hc rfl
    have := leftOut_range _ (h _ hc)
    have : '\x00'.toNat = 0 := rfl
    omega
  have : l.takeWhile (· ≠ '\x00') = l := takeWhile_nul h0
  rw [this]
  congr 1
  clear this h0
  induction l with
  | nil => rfl
  | cons c l ih =>
    rw [List.flatMap_cons, ih (fun d hd => h d (List.mem_cons_of_mem _ hd))]
    simp [Spec.done, h c (List.mem_cons_self ..)]

example : Spec.plain 'ğ' = ['g'] ∧ deburr (Spec.utf8 ['ğ']) = Spec.utf8 ['ğ'] := by decide +kernel
example : Spec.plain 'Đ' = ['D'] ∧ deburr (Spec.utf8 ['Đ']) = Spec.utf8 ['d'] := by decide +kernel

/-- The letters that come out of the table are plain. -/
theorem forms_ascii : ∀ p ∈ Spec.plainForms, ∀ c ∈ p.1.toList, 0 < c.toNat ∧ c.toNat < 128 := by
  decide +kernel

theorem done_done (c d : Char) (hc : c ≠ '\x00') (h : d ∈ Spec.done c) : Spec.done d = [d] ∧ d ≠ '\x00' := by
  have small : ∀ d : Char, 0 < d.toNat → d.toNat < 128 → Spec.done d = [d] ∧ d ≠ '\x00' := by
    intro d h0 h1
    refine ⟨plain_outside (.inl (by omega)) (by simp [Spec.combining]; omega), ?_⟩
    rintro rfl
    have : '\x00'.toNat = 0 := rfl
    omega
  by_cases h1 : c ∈ Spec.leftOut
  · have e : Spec.done c = [c] := by simp [Spec.done, h1]
    rw [e, List.mem_singleton] at h
    subst h; exact ⟨e, hc⟩
  by_cases h2 : c = 'Đ'
  · have e : Spec.done c = ['d'] := by simp [Spec.done, h2]; intro h; exact absurd (h2 ▸ h) h1
    rw [e, List.mem_singleton] at h
    subst h; exact small _ (by decide) (by decide)
  have e : Spec.done c = Spec.plain c := by simp [Spec.done, h1, h2]
  by_cases h3 : Spec.combining c = true
  · simp [e, Spec.plain, h3] at h
  cases h4 : Spec.plainForms.find? (fun p => p.2.toList.contains c) with
  | none =>
    have e' : Spec.done c = [c] := by rw [e]; simp only [Spec.plain, h3, h4]; simp
    rw [e', List.mem_singleton] at h
    subst h; exact ⟨e', hc⟩
  | some p =>
    have e' : Spec.plain c = p.1.toList := by simp only [Spec.plain, h3, h4]; simp
    rw [e, e'] at h
    have := forms_ascii p (List.mem_of_find?_eq_some h4) d h
    exact small d this.1 this.2

/-- C80.  Removing accents twice is the same as removing them once, for every text. -/
theorem c80_idempotent (l : List Char) : deburr (deburr (Spec.utf8 l)) = deburr (Spec.utf8 l) := by
  rw [c80_exact, c80_exact]
  have h : ∀ c ∈ l.takeWhile (· ≠ '\x00'), c ≠ '\x00' := mem_takeWhile_nul
  generalize l.takeWhile (· ≠ '\x00') = l at h
  have key : ∀ d ∈ l.flatMap Spec.done, Spec.done d = [d] ∧ d ≠ '\x00' := by
    intro d hd
    obtain ⟨c, hc, hd⟩ := List.mem_flatMap.mp hd
    exact done_done c d (h c hc) hd
  generalize l.flatMap Spec.done = m at key
  have : m.takeWhile (· ≠ '\x00') = m := takeWhile_nul (fun c hc => (key c hc).2)
  rw [this]
  congr 1
  clear this h
  induction m with
  | nil => rfl
  | cons c m ih =>
    rw [List.flatMap_cons, ih (fun d hd => key d (List.mem_cons_of_mem _ hd)), (key c (List.mem_cons_self ..)).1]
    rfl

example : deburr (Spec.utf8 "Ǣ Æß\u0301".toList) = Spec.utf8 "Ǣ AEss".toList := by decide +kernel

/-- Not so for malformed bytes: a lead byte without its continuation is kept the first time and
dropped the second. -/
theorem c80_malformed : deburr [0xC3, 0xCC, 0x81] = [0xC3] ∧ deburr [0xC3] = [] := by decide +kernel

/-! ## Never longer -/

theorem asciiMap_length (cp : Nat) (m : Bytes) (h : asciiMap cp = some m) : m.length ≤ 2 := by
  have all : ∀ p ∈ mappings, (str p.1).length ≤ 2 := by decide +kernel
  unfold asciiMap at h
  generalize mappings = ms at all h
  have gen : ∀ (ms : List (String × List Nat)) (acc : Option Bytes), (∀ p ∈ ms, (str p.1).length ≤ 2) →
      (∀ m, acc = some m → m.length ≤ 2) →
      ∀ m, ms.foldl (fun acc m => if cp ∈ m.2 then some (str m.1) else acc) acc = some m → m.length ≤ 2 := by
    intro ms
    induction ms with
    | nil => intro acc _ ha m hm; exact ha m hm
    | cons p ms ih =>
      intro acc hall ha
      apply ih
      · exact fun q hq => hall q (List.mem_cons_of_mem _ hq)
      · intro m hm
        simp only at hm
        by_cases hp : cp ∈ p.2
        · rw [if_pos hp] at hm
          cases hm; exact hall p (List.mem_cons_self ..)
        · rw [if_neg hp] at hm; exact ha m hm
  exact gen ms none all (fun _ h => nomatch h) m h

theorem continuation_length : ∀ (k cp : Nat) (s : Bytes),
    (continuation k cp s).2.1.length + (continuation k cp s).2.2.length = s.length ∧
    ((continuation k cp s).2.1 = [] → (continuation k cp s).1 = cp)
  | 0, cp, s => by simp [continuation]
  | _ + 1, cp, [] => by simp [continuation]
  | k + 1, cp, b :: s => by
    simp only [continuation]
    split
    · have := continuation_length k (cp * 64 + b.toNat % 64) s
      simp only [List.length_cons]
      exact ⟨by omega, by simp⟩
    · simp

theorem go_length : ∀ (f : Nat) (s : Bytes), (go f s).length ≤ s.length
  | 0, s => by simp [go]
  | _ + 1, [] => by simp [go]
  | f + 1, b :: s => by
    simp only [go]
    split
    · simpa using go_length f s
    split
    · have := go_length f s
      simp only [List.length_cons]; omega
    · rename_i h0 h1
      have hc := continuation_length (leadingOnes b - 1) (b.toNat % 2 ^ (7 - leadingOnes b)) s
      generalize hr : continuation (leadingOnes b - 1) (b.toNat % 2 ^ (7 - leadingOnes b)) s = r at hc
      have ih := go_length f r.2.2
      have he : (emit r.1 (b :: r.2.1)).length ≤ r.2.1.length + 1 := by
        unfold emit
        split
        · simp
        · cases hu : unicodeToAscii r.1 with
          | none => simp
          | some m =>
            unfold unicodeToAscii at hu
            split at hu
            · rename_i hcp
              have hm := asciiMap_length _ _ hu
              have : r.2.1 ≠ [] := by
                intro hnil
                have e := hc.2 hnil
                have hn : 2 ≤ leadingOnes b := by
                  have : leadingOnes b ≠ 1 := fun h => h1 (.inl h)
                  omega
                have : b.toNat % 2 ^ (7 - leadingOnes b) < 2 ^ (7 - leadingOnes b) :=
                  Nat.mod_lt _ (Nat.two_pow_pos _)
                have : 2 ^ (7 - leadingOnes b) ≤ 2 ^ 5 := Nat.pow_le_pow_right (by decide) (by omega)
                omega
              have := List.length_pos_iff.mpr this
              simp only; omega
            · exact absurd hu (by simp)
      simp only [List.length_append, List.length_cons]
      omega

/-- C80.  The result is never longer than the argument, for any bytes whatever. -/
theorem c80_not_longer (s : Bytes) : (deburr s).length ≤ s.length := by
  unfold deburr
  have := go_length (cstr s).length (cstr s)
  have : (cstr s).length ≤ s.length := (List.takeWhile_prefix _).length_le
  omega

/-- The header comment promises small letters and ASCII only; neither holds. -/
example : deburr (str "ABC") = str "ABC" ∧ deburr (Spec.utf8 ['日']) = Spec.utf8 ['日'] := by decide +kernel

/-- The number of high bits that are set before the first clear one. -/
theorem leadingOnes_bits (b : UInt8) : leadingOnes b ≤ 8 ∧ (∀ k < leadingOnes b, b.toNat.testBit (7 - k) = true) ∧
    (leadingOnes b < 8 → b.toNat.testBit (7 - leadingOnes b) = false) :=
  forall_u8 (P := fun b => leadingOnes b ≤ 8 ∧ (∀ k < leadingOnes b, b.toNat.testBit (7 - k) = true) ∧
    (leadingOnes b < 8 → b.toNat.testBit (7 - leadingOnes b) = false)) (by decide +kernel) b

end Bedrock.Deburr.Props
