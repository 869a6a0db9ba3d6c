import Verif.Lemmas.Text

/-!
# Properties of the text codecs: C25, C26, C27, C28, C29, C31, C51
-/

namespace Bedrock.Text.Props
open Bedrock.Text

/-! ## C25: escape and unescape -/

/-- C25.  Unescaping an escaped text gives the text back: every text without NUL, every set of
characters to escape and every escape character that avoid the letters used as codes. -/
theorem c25_round_trip (s special : Bytes) (esc : UInt8) (h0 : 0 ∉ s) (he : esc ≠ 0)
    (hl : ∀ x ∈ ([98, 102, 110, 114, 116, 117] : Bytes), x ∉ special ∧ x ≠ esc) :
    unescape (escape s special esc) esc = s := by
  unfold unescape
  rw [cstr_eq (zero_not_mem_escape s special esc he)]
  unfold escape
  rw [cstr_eq h0]
  exact unescapeGo_flatMap special esc s h0 hl

-- quotes, the escape character itself, a newline, a control character and a letter
example : unescape (escape (str "a\"\\\n\x01é") [34, 92, 10, 1] 92) 92 = str "a\"\\\n\x01é" :=
  c25_round_trip _ _ _ (by decide) (by decide) (by decide)
example : escape (str "a\"\n\x01") [34, 10, 1] 92 = str "a\\\"\\n\\u0001" := by decide +kernel

/-- C25.  Outside its escape sequences the escaped text has none of the characters to be escaped
and no escape character. -/
theorem c25_nothing_unprotected (s special : Bytes) (esc : UInt8)
    (hu : (117 : UInt8) ∉ special ∧ (117 : UInt8) ≠ esc) :
    ∀ c ∈ Spec.bare esc (escape s special esc), c ∉ special ∧ c ≠ esc := by
  unfold escape
  generalize cstr s = t
  induction t with
  | nil => simp [Spec.bare]
  | cons a t ih =>
    rw [List.flatMap_cons, bare_escapeByte special esc a _ hu]
    split
    · exact ih
    · rename_i h
      intro c hc
      simp only [List.mem_cons] at hc
      cases hc with
      | inl e => subst e; exact ⟨fun x => h (.inl x), fun x => h (.inr x)⟩
      | inr e => exact ih c e

example : Spec.bare 92 (escape (str "a\"b\nc") [34, 10] 92) = str "abc" := by decide +kernel

/-- C25.  Characters with a letter code disappear from the escaped text altogether: this is what
keeps CR, LF and TAB out of a header value. -/
theorem c25_controls_absent (s special : Bytes) (esc : UInt8)
    (c : UInt8) (hc : c ∈ special) (hn : c ∈ ([8, 9, 10, 12, 13] : Bytes)) (he : c ≠ esc) :
    c ∉ escape s special esc := by
  unfold escape
  generalize cstr s = t
  simp only [List.mem_flatMap, not_exists, not_and]
  intro a _
  unfold escapeByte
  split
  · simp only [List.mem_cons, not_or]
    refine ⟨he, ?_⟩
    have : ∀ a c : Fin 256, UInt8.ofFin c ∈ ([8, 9, 10, 12, 13] : Bytes) →
        UInt8.ofFin c ∉ escapeCode (UInt8.ofFin a) := by decide +kernel
    exact this a.toFin c.toFin hn
  · rename_i h
    simp only [List.mem_singleton]
    intro e; subst e; exact h (.inl hc)

example : (10 : UInt8) ∉ escape (str "a\nb") (str "\r\n\t") 92 :=
  c25_controls_absent _ _ _ _ (by decide) (by decide) (by decide)

/-- C25, why the code letters are excluded: with `n` in the set the text `n` comes back as LF. -/
theorem c25_code_letter_breaks : unescape (escape (str "n") (str "n") 92) 92 = str "\n" := by
  decide +kernel

/-- C25, why NUL is excluded: a text is cut at its first NUL. -/
theorem c25_cut_at_nul (s t special : Bytes) (esc : UInt8) (h : 0 ∉ s) :
    escape (s ++ 0 :: t) special esc = escape s special esc := by
  unfold escape
  rw [cstr_eq h]
  have : cstr (s ++ 0 :: t) = s := by
    induction s with
    | nil => simp [cstr_cons]
    | cons c s ih =>
      simp only [List.mem_cons, not_or] at h
      rw [List.cons_append, cstr_cons, if_neg (fun e => h.1 e.symm), ih h.2]
  rw [this]

example : escape ([97, 0, 98]) [] 92 = [97] := by decide +kernel

/-! ## C26: URL components -/

/-- C26.  Decoding an encoded component gives back the bytes, for every byte string. -/
theorem c26_round_trip (s : Bytes) : uriDecode (uriEncode s) = s := by
  induction s with
  | nil => simp [uriEncode, uriDecode]
  | cons c s ih =>
    unfold uriEncode at ih ⊢
    rw [List.flatMap_cons, uriDecode_encodeByte, ih]

example : uriEncode [97, 32, 37, 0, 255] = str "a+%25%00%FF" := by decide +kernel

/-- C26.  The encoding consists of kept characters, `+` and `%XX` with upper-case digits only. -/
theorem c26_alphabet (s : Bytes) :
    ∃ units : List Bytes, uriEncode s = units.flatten ∧ ∀ t ∈ units, Spec.UriUnit t := by
  refine ⟨s.map uriEncodeByte, rfl, ?_⟩
  intro t ht
  simp only [List.mem_map] at ht
  obtain ⟨c, _, rfl⟩ := ht
  unfold uriEncodeByte
  split
  · rename_i h
    refine .inl ⟨c, ?_, rfl⟩
    revert h; revert c; intro c _
    have : ∀ c : UInt8, uriSafe c = true → c ∈ Spec.uriKept := forall_u8 (by decide +kernel)
    exact this c
  split
  · exact .inr (.inl rfl)
  · exact .inr (.inr ⟨_, _, (hexDigit_upper c).1, (hexDigit_upper c).2, rfl⟩)

/-- C26.  Kept characters stay readable: they are not percent-encoded. -/
theorem c26_kept (s : Bytes) (h : ∀ c ∈ s, c ∈ Spec.uriKept) : uriEncode s = s := by
  have key : ∀ c : UInt8, c ∈ Spec.uriKept → uriEncodeByte c = [c] := forall_u8 (by decide +kernel)
  unfold uriEncode
  induction s with
  | nil => rfl
  | cons c s ih =>
    rw [List.flatMap_cons, key c (h c (by simp)), ih (fun x hx => h x (by simp [hx]))]; rfl

example : uriEncode (str "Az09-_.!~*()") = str "Az09-_.!~*()" := c26_kept _ (by decide +kernel)

/-- C26.  Decoding accepts any text; it never produces more than it reads, and a text without `%`
and `+` is left as it is. -/
theorem c26_decode_no_growth (s : Bytes) : (uriDecode s).length ≤ s.length := by
  have key : ∀ n : Nat, ∀ s : Bytes, s.length ≤ n → (uriDecode s).length ≤ s.length := by
    intro n
    induction n with
    | zero => intro s h; cases s with
      | nil => simp [uriDecode]
      | cons => simp at h
    | succ n ih =>
      intro s h
      by_cases hs : s = []
      · subst hs; simp [uriDecode]
      · rw [uriDecode_cons s hs, List.length_append]
        have hc := uriDecodeChar_consumes s
        have h1 : (uriDecodeChar s).1.length ≤ (uriDecodeChar s).2 ∧
            (uriDecodeChar s).2 ≤ s.length := by
          unfold uriDecodeChar
          split
          · unfold uriDecodeTriple
            split
            · simp
            · split <;> simp
          all_goals simp_all
        have h2 := ih (s.drop (uriDecodeChar s).2) (by
          have : 0 < s.length := List.length_pos_iff.mpr hs
          rw [List.length_drop]; omega)
        rw [List.length_drop] at h2; omega
  exact key _ s (Nat.le_refl _)

theorem c26_decode_plain (s : Bytes) (h : 37 ∉ s ∧ 43 ∉ s) : uriDecode s = s := by
  induction s with
  | nil => simp [uriDecode]
  | cons c s ih =>
    simp only [List.mem_cons, not_or] at h
    rw [uriDecode_cons _ (by simp),
      uriDecodeChar_plain c s (fun e => h.1.1 e.symm) (fun e => h.2.1 e.symm)]
    simp only [List.drop_succ_cons, List.drop_zero, List.cons_append, List.nil_append]
    rw [ih ⟨h.1.2, h.2.2⟩]

-- malformed sequences are copied
example : uriDecode (str "%zz%4%") = str "%zz%4%" := by decide +kernel

/-! ## C27: hexadecimal -/

/-- C27.  Hex-encoding any byte string and decoding returns it. -/
theorem c27_bytes_round_trip (s : Bytes) : strFromHex (toHexStr s) = s := by
  induction s with
  | nil => rfl
  | cons c s ih =>
    unfold toHexStr at ih ⊢
    rw [List.flatMap_cons]
    simp only [List.cons_append, List.nil_append]
    rw [strFromHex, scanHex_pair, ih]

/-- C27.  Exactly two upper-case hex digits per byte. -/
theorem c27_bytes_shape (s : Bytes) :
    (toHexStr s).length = 2 * s.length ∧ ∀ c ∈ toHexStr s, Spec.IsUpperHex c := by
  induction s with
  | nil => simp [toHexStr]
  | cons b s ih =>
    unfold toHexStr at ih ⊢
    rw [List.flatMap_cons]
    constructor
    · simp only [List.length_append, List.length_cons, List.length_nil, ih.1]; omega
    · intro c hc
      simp only [List.mem_append, List.mem_cons, List.not_mem_nil, or_false] at hc
      rcases hc with (h | h) | h
      · rw [h]; exact (hexDigit_upper b).1
      · rw [h]; exact (hexDigit_upper b).2
      · exact ih.2 c h

example : toHexStr [0, 255, 26] = str "00FF1A" := by decide +kernel

/-- C27.  Decoding the hex form of a number gives its value modulo 16^digits, hence the number
itself whenever it fits the requested digits. -/
theorem c27_number_round_trip (v : UInt64) (digits : Nat) :
    (fromHex (toHexNum v digits)).toNat = v.toNat % 16 ^ digits := fromHex_toHexNum v digits

/-- C27.  Sixteen digits hold every 64-bit number. -/
theorem c27_number_sixteen (v : UInt64) : fromHex (toHexNum v 16) = v := by
  rw [← UInt64.toNat_inj, fromHex_toHexNum]
  exact Nat.mod_eq_of_lt v.toNat_lt

/-- C27.  Exactly the requested number of upper-case digits. -/
theorem c27_number_shape (v : UInt64) (digits : Nat) :
    (toHexNum v digits).length = digits ∧ ∀ c ∈ toHexNum v digits, Spec.IsUpperHex c := by
  refine ⟨toHexNum_length v digits, ?_⟩
  intro c hc
  obtain ⟨d, hd, rfl⟩ := toHexNum_digits v digits c hc
  have : ∀ i : Fin 16, Spec.IsUpperHex (hexDigit i.val) := by
    unfold Spec.IsUpperHex; decide +kernel
  exact this ⟨d, hd⟩

example : toHexNum 0x1a2b 8 = str "00001A2B" := by decide +kernel

/-- C27.  The number decoder also accepts lower case. -/
theorem c27_lower_case (v : UInt64) (digits : Nat) :
    fromHex (sToLower (toHexNum v digits)) = fromHex (toHexNum v digits) := by
  have key : ∀ (l : Bytes) (acc : UInt64), (∀ c ∈ l, ∃ d < 16, c = hexDigit d) →
      fromHexGo acc (sToLower l) = fromHexGo acc l := by
    intro l
    induction l with
    | nil => intro acc _; rfl
    | cons c l ih =>
      intro acc h
      obtain ⟨d, hd, rfl⟩ := h c (by simp)
      have e : ∀ i : Fin 16, hexVal (toLower (hexDigit i.val)) = some i.val := by decide +kernel
      have e' := e ⟨d, hd⟩
      simp only [sToLower, List.map_cons, fromHexGo] at ih ⊢
      rw [e', hexVal_hexDigit d hd]
      exact ih _ (fun c hc => h c (by simp [hc]))
  exact key _ _ (toHexNum_digits v digits)

/-! ## C28: constant time comparison -/

/-- C28.  The comparison decides equality. -/
theorem c28_decides (secret input : Bytes) :
    (constTimeEquals secret input).1 = true ↔ secret = input := by
  unfold constTimeEquals
  split
  · rename_i h
    refine ⟨fun h => by simp at h, fun e => ?_⟩
    subst e; simp at h
  · rw [constTimeLoop_fst]
    simp only [beq_iff_eq, Nat.zero_le, Nat.zero_add, true_implies]
    constructor
    · rintro ⟨hl, hp⟩
      apply List.ext_getElem hl
      intro i h1 h2
      have := hp i h1
      rw [Nat.mod_eq_of_lt h2] at this
      simpa [List.getD, h1, h2] using this
    · intro e; subst e
      exact ⟨rfl, fun j hj => by rw [Nat.mod_eq_of_lt hj]⟩

/-- C28.  The positions read depend on the two lengths only. -/
theorem c28_positions (s s' u u' : Bytes) (h1 : s.length = s'.length) (h2 : u.length = u'.length) :
    (constTimeEquals s u).2 = (constTimeEquals s' u').2 := by
  have e1 : s.isEmpty = s'.isEmpty := by
    cases s <;> cases s' <;> simp_all
  have e2 : u.isEmpty = u'.isEmpty := by
    cases u <;> cases u' <;> simp_all
  unfold constTimeEquals
  rw [e1, e2]
  split
  · rfl
  · rw [h1]; exact constTimeLoop_snd s u s' u' _ _ h2 0 _

/-- C28.  Every position of the secret is read exactly once and in order, whatever the input, and
no read is out of bounds. -/
theorem c28_reads (s u : Bytes) (h : s.isEmpty = u.isEmpty) :
    (constTimeEquals s u).2.map Prod.fst = List.range s.length ∧
    ∀ p ∈ (constTimeEquals s u).2, p.1 < s.length ∧ p.2 < u.length := by
  unfold constTimeEquals
  rw [if_neg (by simp [h])]
  constructor
  · have key : ∀ (n i : Nat) (e : Bool),
        (constTimeLoop s u e i n).2.map Prod.fst = List.range' i n := by
      intro n
      induction n with
      | zero => intro i e; rfl
      | succ n ih => intro i e; simp only [constTimeLoop, List.map_cons, ih, List.range'_succ]
    rw [key, List.range_eq_range']
  · intro p hp
    have := constTimeLoop_positions s u _ 0 _ p hp
    refine ⟨by omega, ?_⟩
    rw [this.2.2]
    apply Nat.mod_lt
    cases u with
    | nil => cases s with
      | nil => simp at this
      | cons => simp at h
    | cons => simp

/-- C28.  The case-insensitive form decides equality of the lower-cased strings. -/
theorem c28_ignoring_case (secret input : Bytes) :
    (constTimeIEquals secret input).1 = true ↔ sToLower secret = sToLower input :=
  c28_decides _ _

example : (constTimeEquals (str "secret") (str "sec")).1 = false := by decide +kernel
example : (constTimeEquals (str "aXa") (str "aYa")).2 = (constTimeEquals (str "bbb") (str "ccc")).2 :=
  c28_positions _ _ _ _ rfl rfl

/-! ## C29: lists -/

/-- C29.  Parsing a composed list returns it, for all lists of non-empty elements that do not
begin with a blank and contain neither the separator nor NUL, with a separator followed by any
number of blanks (the library's default is a comma and one blank). -/
theorem c29_round_trip (l : List Bytes) (sep : UInt8) (k : Nat) (hs : sep ≠ 0)
    (h : ∀ e ∈ l, e ≠ [] ∧ e.head? ≠ some 32 ∧ sep ∉ e ∧ 0 ∉ e) :
    (parseList (composeList l (sep :: List.replicate k 32)) sep).1 = l := by
  cases l with
  | nil => simp [composeList, parseList, cstr]
  | cons x l =>
    have hx := h x (by simp)
    rw [composeList_cons]
    have h0 : 0 ∉ x ++ l.flatMap (fun v => (sep :: List.replicate k 32) ++ v) := by
      simp only [List.mem_append, List.mem_flatMap, List.mem_cons, List.mem_replicate, not_or,
        not_exists, not_and]
      refine ⟨hx.2.2.2, fun e he => ⟨⟨fun h => hs h.symm, fun _ => by decide⟩, ?_⟩⟩
      exact (h e (by simp [he])).2.2.2
    unfold parseList
    rw [cstr_eq h0, List.foldl_append]
    rw [foldl_step_element sep [] x hx.1 hx.2.1 hx.2.2.1]
    obtain ⟨d', c', h1, h2, h3⟩ := foldl_step_tail sep k l [] x hx.1
      (fun e he => by have := h e (by simp [he]); exact ⟨this.1, this.2.1, this.2.2.1⟩)
    rw [h3]
    simp only [if_neg h1, h2]; simp

example : (parseList (composeList [str "a b", str "c "] (str ", ")) 44).1 = [str "a b", str "c "] :=
  c29_round_trip _ 44 1 (by decide) (by decide +kernel)

/-- C29, first half of the claim about any text: no element is empty, begins with a blank or
contains the separator.  Trailing blanks are *not* removed (`c29_trailing_blank_kept`), which is
what is missing from the full claim. -/
theorem c29_elements_partial (s : Bytes) (sep : UInt8) :
    ∀ e ∈ (parseList s sep).1, e ≠ [] ∧ e.head? ≠ some 32 ∧ sep ∉ e := by
  have ok := ListParse.foldl_ok sep (cstr s) {} (zero_not_mem_cstr s) ⟨by simp, by simp, by simp, by simp⟩
  unfold parseList
  simp only
  intro e he
  split at he
  · have := ok.1 e he; exact ⟨this.1, this.2.1, this.2.2.1⟩
  · rename_i hn
    simp only [List.mem_append, List.mem_singleton] at he
    cases he with
    | inl he => have := ok.1 e he; exact ⟨this.1, this.2.1, this.2.2.1⟩
    | inr he => subst he; exact ⟨hn, ok.2.1, ok.2.2.1⟩

/-- C29.  Nothing but separators and blanks is dropped, and the order is kept. -/
theorem c29_nothing_lost (s : Bytes) (sep : UInt8) (h0 : 0 ∉ s) :
    (parseList s sep).1.flatten.filter (· ≠ 32) = s.filter (fun x => x ≠ 32 ∧ x ≠ sep) := by
  have := ListParse.foldl_text sep (cstr s) {}
  rw [cstr_eq h0] at this
  unfold parseList
  rw [cstr_eq h0]
  simp only [ListParse.text, List.flatten_nil, List.append_nil, List.filter_nil,
    List.nil_append] at this
  rw [← this]
  simp only
  split
  · rename_i h; simp only [h, List.append_nil]
  · simp

/-- C29, disagreement: a trailing blank stays in the element. -/
theorem c29_trailing_blank_kept : (parseList (str "a , b") 44).1 = [str "a ", str "b"] := by
  decide +kernel

/-- Disagreement with the comment "Return if we were able to find anything": the flag only tells
whether the text after the last separator is non-blank. -/
theorem c29_flag_false_though_found : parseList (str "a,") 44 = ([str "a"], false) := by
  decide +kernel

/-! ## C31: SQL quoting -/

/-- C31.  A quoted string is one SQL literal with the original value, whatever follows. -/
theorem c31_quoted (s rest : Bytes) (h0 : 0 ∉ s) (hr : rest.head? ≠ some 39) :
    Spec.sqlLiteral (sq s ++ rest) = some (s, rest) := by
  unfold sq escape
  rw [cstr_eq h0]
  simp only [List.cons_append, List.nil_append, List.append_assoc, Spec.sqlLiteral]
  exact sqlBody_escape s rest hr

example : Spec.sqlLiteral (sq (str "'); DROP TABLE jobs; --") ++ str ");")
    = some (str "'); DROP TABLE jobs; --", str ");") := c31_quoted _ _ (by decide) (by decide)

/-- C31.  A quoted list is exactly as many literals, with the original values. -/
theorem c31_quoted_list (l : List Bytes) (h0 : ∀ s ∈ l, 0 ∉ s) :
    Spec.sqlLiterals l.length (sqList l) = some l := by
  unfold sqList
  induction l with
  | nil => simp [composeList, Spec.sqlLiterals]
  | cons x l ih =>
    cases l with
    | nil =>
      have := c31_quoted x [] (h0 x (by simp)) (by simp)
      rw [List.append_nil] at this
      simp only [List.map_cons, List.map_nil, composeList_cons, List.flatMap_nil, List.append_nil,
        List.length_cons, List.length_nil, Spec.sqlLiterals, this]
    | cons y l =>
      have ih := ih (fun s hs => h0 s (by simp [hs]))
      rw [List.map_cons, composeList_cons] at ih ⊢
      rw [List.map_cons, List.flatMap_cons]
      have := c31_quoted x ([44, 32] ++ (sq y ++ (l.map sq).flatMap (fun v => [44, 32] ++ v)))
        (h0 x (by simp)) (by simp)
      rw [List.append_assoc [44, 32]]
      simp only [List.length_cons, Spec.sqlLiterals, this]
      simp only [List.cons_append, List.nil_append]
      rw [List.length_cons] at ih
      simp only [List.cons_append, List.nil_append] at ih
      rw [ih]; rfl

example : sqList [str "a", str "o'b"] = str "'a', 'o''b'" := by decide +kernel

/-- C31.  With a NUL inside the result is still one literal, but of the text before the NUL. -/
theorem c31_nul_truncates (s t rest : Bytes) (h0 : 0 ∉ s) (hr : rest.head? ≠ some 39) :
    Spec.sqlLiteral (sq (s ++ 0 :: t) ++ rest) = some (s, rest) := by
  have := c31_quoted s rest h0 hr
  unfold sq at this ⊢
  rwa [c25_cut_at_nul s t _ _ h0]

example : sq [97, 0, 98] = str "'a'" := by decide +kernel

/-! ## C51: unicode escapes -/

/-- The value of four hexadecimal digits. -/
def quad (a b c d : Nat) : Nat := ((a * 16 + b) * 16 + c) * 16 + d

theorem hexVal_spec (c : UInt8) : hexVal c = Spec.hexDigitValue c := by
  revert c; exact forall_u8 (by decide +kernel)

theorem hexVal_lt {c : UInt8} {d : Nat} (h : hexVal c = some d) : d < 16 := by
  have : ∀ c : UInt8, ∀ d ∈ hexVal c, d < 16 := forall_u8 (by decide +kernel)
  exact this c d h

theorem hexVal_plain (c : UInt8) (h : (hexVal c).isSome) :
    c ≠ 0 ∧ isSpace c = false ∧ c ≠ 45 ∧ c ≠ 43 ∧ c ≠ 120 ∧ c ≠ 88 := by
  revert h; revert c; exact forall_u8 (by decide +kernel)

theorem utfScan_quad (a b c d : UInt8) (w x y z : Nat) (ha : hexVal a = some w)
    (hb : hexVal b = some x) (hc : hexVal c = some y) (hd : hexVal d = some z) :
    utfScan [a, b, c, d] = quad w x y z := by
  have pa := hexVal_plain a (by simp [ha])
  have pb := hexVal_plain b (by simp [hb])
  have pc := hexVal_plain c (by simp [hc])
  have pd := hexVal_plain d (by simp [hd])
  have e : cstr [a, b, c, d] = [a, b, c, d] := cstr_eq (by
    simp only [List.mem_cons, List.not_mem_nil, or_false, not_or]
    exact ⟨Ne.symm pa.1, Ne.symm pb.1, Ne.symm pc.1, Ne.symm pd.1⟩)
  have e2 : skip0x [a, b, c, d] = [a, b, c, d] := by
    unfold skip0x
    split
    · rename_i h; simp at h; exact absurd h.2.1 pb.2.2.2.2.1
    · rename_i h; simp at h; exact absurd h.2.1 pb.2.2.2.2.2
    · rfl
  have e3 : scanHex [a, b, c, d] = (quad w x y z : Int) := by
    unfold scanHex
    rw [e, List.dropWhile_cons]
    simp only [pa.2.1, Bool.false_eq_true, if_false]
    split
    · rename_i h; simp at h; exact absurd h.1 pa.2.2.1
    · rename_i h; simp at h; exact absurd h.1 pa.2.2.2.1
    · rw [e2]; simp [hexPrefix, ha, hb, hc, hd, quad]
  unfold utfScan
  rw [e3]
  have := hexVal_lt ha; have := hexVal_lt hb; have := hexVal_lt hc; have := hexVal_lt hd
  unfold quad; omega

theorem unescape_quad (a b c d : UInt8) (w x y z : Nat) (rest : Bytes)
    (ha : Spec.hexDigitValue a = some w) (hb : Spec.hexDigitValue b = some x)
    (hc : Spec.hexDigitValue c = some y) (hd : Spec.hexDigitValue d = some z) :
    unescape (92 :: 117 :: a :: b :: c :: d :: rest) 92
      = utf8Expand (quad w x y z) ++ unescape rest 92 := by
  rw [← hexVal_spec] at ha hb hc hd
  have pa := hexVal_plain a (by simp [ha])
  have pb := hexVal_plain b (by simp [hb])
  have pc := hexVal_plain c (by simp [hc])
  have pd := hexVal_plain d (by simp [hd])
  unfold unescape
  simp only [cstr_cons, pa.1, pb.1, pc.1, pd.1, if_false, show (92 : UInt8) ≠ 0 by decide,
    show (117 : UInt8) ≠ 0 by decide]
  rw [unescapeGo_u, utfScan_quad a b c d w x y z ha hb hc hd]

/-- C51, Basic Multilingual Plane: every `\uXXXX` escape, in either letter case, of a code point
that is not a surrogate becomes the UTF-8 form of that code point, wherever it stands. -/
theorem c51_bmp_partial (a b c d : UInt8) (w x y z : Nat) (rest : Bytes)
    (ha : Spec.hexDigitValue a = some w) (hb : Spec.hexDigitValue b = some x)
    (hc : Spec.hexDigitValue c = some y) (hd : Spec.hexDigitValue d = some z)
    (hs : quad w x y z < 0xD800 ∨ 0xDFFF < quad w x y z) :
    unescape (92 :: 117 :: a :: b :: c :: d :: rest) 92
      = Spec.utf8 (quad w x y z) ++ unescape rest 92 := by
  rw [unescape_quad a b c d w x y z rest ha hb hc hd]
  congr 1
  rw [← hexVal_spec] at ha hb hc hd
  have := hexVal_lt ha; have := hexVal_lt hb; have := hexVal_lt hc; have := hexVal_lt hd
  have hlt : quad w x y z < 65536 := by unfold quad; omega
  generalize quad w x y z = n at hs hlt
  have hv : n.isValidChar := by
    unfold Nat.isValidChar; omega
  have hn : (Char.ofNat n).val.toNat = n := by
    rw [Char.ofNat, dif_pos hv]; rfl
  unfold Spec.utf8 String.utf8EncodeChar utf8Expand
  rw [hn]
  by_cases h1 : n ≤ 127
  · simp only [h1, if_true]
  by_cases h2 : n ≤ 2047
  · simp only [h1, h2, if_true, if_false]
    rw [show 192 + n / 64 = n / 64 % 32 + 192 by omega,
      show 128 + n % 64 % 64 = n % 64 + 128 by omega]
  · have h3 : n ≤ 65535 := by omega
    simp only [h1, h2, h3, if_true, if_false]
    rw [show 224 + n / 4096 = n / 4096 % 16 + 224 by omega,
      show 128 + n % 4096 / 64 % 64 = n / 64 % 64 + 128 by omega,
      show 128 + n % 4096 % 64 = n % 64 + 128 by omega]

-- U+20AC
example : unescape (str "\\u20ac!") 92 = Spec.utf8 0x20AC ++ str "!" := by decide +kernel
example : Spec.utf8 0x20AC = [0xE2, 0x82, 0xAC] := by decide +kernel

/-- C51, disagreement: no surrogate pair decodes to its supplementary character.  Each half is
expanded on its own to three bytes (CESU-8, not valid UTF-8), where UTF-8 needs four in all. -/
theorem c51_surrogate_pair_wrong (a b c d e f g h : UInt8) (w x y z w' x' y' z' : Nat)
    (ha : Spec.hexDigitValue a = some w) (hb : Spec.hexDigitValue b = some x)
    (hc : Spec.hexDigitValue c = some y) (hd : Spec.hexDigitValue d = some z)
    (he : Spec.hexDigitValue e = some w') (hf : Spec.hexDigitValue f = some x')
    (hg : Spec.hexDigitValue g = some y') (hh : Spec.hexDigitValue h = some z')
    (hhi : 0xD800 ≤ quad w x y z ∧ quad w x y z ≤ 0xDBFF)
    (hlo : 0xDC00 ≤ quad w' x' y' z' ∧ quad w' x' y' z' ≤ 0xDFFF) :
    unescape [92, 117, a, b, c, d, 92, 117, e, f, g, h] 92
      ≠ Spec.utf8 (0x10000 + (quad w x y z - 0xD800) * 0x400 + (quad w' x' y' z' - 0xDC00)) := by
  rw [unescape_quad a b c d w x y z _ ha hb hc hd, unescape_quad e f g h w' x' y' z' _ he hf hg hh]
  intro hcontra
  have hl := congrArg List.length hcontra
  have e1 : (utf8Expand (quad w x y z)).length = 3 := by
    unfold utf8Expand
    rw [if_neg (by omega), if_neg (by omega), if_pos (by omega)]; rfl
  have e2 : (utf8Expand (quad w' x' y' z')).length = 3 := by
    unfold utf8Expand
    rw [if_neg (by omega), if_neg (by omega), if_pos (by omega)]; rfl
  have e3 : ∀ n, (Spec.utf8 n).length ≤ 4 := by
    intro n; unfold Spec.utf8 String.utf8EncodeChar
    simp only
    repeat' split
    all_goals simp
  have := e3 (0x10000 + (quad w x y z - 0xD800) * 0x400 + (quad w' x' y' z' - 0xDC00))
  simp only [List.length_append, e1, e2] at hl
  omega

-- U+1F600 as a pair
example : unescape (str "\\ud83d\\ude00") 92 ≠ Spec.utf8 0x1F600 := by decide +kernel

end Bedrock.Text.Props
