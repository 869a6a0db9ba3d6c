import Verif.Model.Text
import Verif.Spec.Text

/-! # Lemmas about the text codecs -/

namespace Bedrock.Text

/-- A property of bytes checked on the complete table of all 256 of them. -/
theorem forall_u8 {P : UInt8 → Prop} (h : ∀ i : Fin 256, P (UInt8.ofFin i)) (b : UInt8) : P b :=
  h b.toFin

theorem cstr_cons (c : UInt8) (s : Bytes) : cstr (c :: s) = if c = 0 then [] else c :: cstr s := by
  unfold cstr
  rw [List.takeWhile_cons]
  by_cases h : c = 0 <;> simp [h]

theorem cstr_eq {s : Bytes} (h : 0 ∉ s) : cstr s = s := by
  induction s with
  | nil => rfl
  | cons c s ih =>
    simp only [List.mem_cons, not_or] at h
    rw [cstr_cons, if_neg (fun e => h.1 e.symm), ih h.2]

theorem zero_not_mem_cstr (s : Bytes) : 0 ∉ cstr s := by
  induction s with
  | nil => simp [cstr]
  | cons c s ih =>
    rw [cstr_cons]
    split
    · simp
    · rename_i h; simp only [List.mem_cons, not_or]; exact ⟨fun e => h e.symm, ih⟩

/-! ## Hex -/

theorem scanHex_pair (b : UInt8) :
    UInt8.ofInt (scanHex [hexDigit (b >>> 4).toNat, hexDigit (b &&& 15).toNat]) = b := by
  revert b; exact forall_u8 (by decide +kernel)

theorem hexDigit_upper (b : UInt8) : Spec.IsUpperHex (hexDigit (b >>> 4).toNat) ∧
    Spec.IsUpperHex (hexDigit (b &&& 15).toNat) := by
  revert b; unfold Spec.IsUpperHex; exact forall_u8 (by decide +kernel)

theorem hexVal_hexDigit (d : Nat) (h : d < 16) : hexVal (hexDigit d) = some d := by
  have : ∀ i : Fin 16, hexVal (hexDigit i.val) = some i.val := by decide +kernel
  exact this ⟨d, h⟩

theorem fromHexGo_snoc (acc : UInt64) (l : Bytes) (x : UInt8) (d : Nat)
    (hl : ∀ c ∈ l, (hexVal c).isSome) (hx : hexVal x = some d) :
    fromHexGo acc (l ++ [x]) = (fromHexGo acc l) <<< 4 + UInt64.ofNat d := by
  induction l generalizing acc with
  | nil => simp [fromHexGo, hx]
  | cons c l ih =>
    have hc := hl c (by simp)
    cases e : hexVal c with
    | none => simp [e] at hc
    | some v =>
      simp only [List.cons_append, fromHexGo, e]
      exact ih _ (fun c hc => hl c (by simp [hc]))

theorem toHexNum_digits (v : UInt64) (n : Nat) : ∀ c ∈ toHexNum v n, ∃ d < 16, c = hexDigit d := by
  induction n generalizing v with
  | zero => simp [toHexNum]
  | succ n ih =>
    intro c hc
    simp only [toHexNum, List.mem_append, List.mem_singleton] at hc
    cases hc with
    | inl h => exact ih _ c h
    | inr h =>
      refine ⟨_, ?_, h⟩
      rw [UInt64.toNat_mod]; exact Nat.mod_lt _ (by decide)

theorem toHexNum_length (v : UInt64) (n : Nat) : (toHexNum v n).length = n := by
  induction n generalizing v with
  | zero => rfl
  | succ n ih => simp [toHexNum, ih]

theorem fromHex_toHexNum (v : UInt64) (n : Nat) :
    (fromHex (toHexNum v n)).toNat = v.toNat % 16 ^ n := by
  induction n generalizing v with
  | zero => simp [toHexNum, fromHex, fromHexGo, Nat.mod_one]
  | succ n ih =>
    have hm : (v % 16).toNat < 16 := by rw [UInt64.toNat_mod]; exact Nat.mod_lt _ (by decide)
    have := fromHexGo_snoc 0 (toHexNum (v / 16) n) (hexDigit (v % 16).toNat) (v % 16).toNat
      (by intro c hc
          obtain ⟨d, hd, rfl⟩ := toHexNum_digits _ _ c hc
          rw [hexVal_hexDigit d hd]; rfl)
      (hexVal_hexDigit _ hm)
    simp only [fromHex, toHexNum]
    rw [this]
    have ih' := ih (v / 16)
    simp only [fromHex] at ih'
    rw [UInt64.toNat_add, UInt64.toNat_shiftLeft, ih']
    simp only [UInt64.toNat_div, UInt64.toNat_mod, UInt64.toNat_ofNat', UInt64.reduceToNat]
    have hv := v.toNat_lt
    rw [Nat.shiftLeft_eq]
    have e1 : v.toNat % 16 ^ (n + 1) = (v.toNat / 16 % 16 ^ n) * 16 + v.toNat % 16 := by
      rw [Nat.pow_succ, Nat.mul_comm (16 ^ n) 16, Nat.mod_mul]; omega
    have e2 : v.toNat % 16 ^ (n + 1) ≤ v.toNat := Nat.mod_le _ _
    rw [e1] at e2 ⊢
    have h64 : (4 : Nat) % 64 = 4 := rfl
    rw [h64]
    omega

/-! ## Escape -/

theorem escapeByte_ne_zero (sp : Bytes) (esc c : UInt8) (hc : c ≠ 0) (he : esc ≠ 0) :
    0 ∉ escapeByte sp esc c := by
  unfold escapeByte
  split
  · simp only [List.mem_cons, not_or]
    refine ⟨fun h => he h.symm, ?_⟩
    revert hc; revert c
    have : ∀ c : UInt8, c ≠ 0 → 0 ∉ escapeCode c := forall_u8 (by decide +kernel)
    intro c _ hc; exact this c hc
  · simpa using fun h => hc h.symm

theorem zero_not_mem_escape (s sp : Bytes) (esc : UInt8) (he : esc ≠ 0) :
    0 ∉ escape s sp esc := by
  unfold escape
  simp only [List.mem_flatMap, not_exists, not_and]
  intro c hc
  exact escapeByte_ne_zero sp esc c (fun h => zero_not_mem_cstr s (h ▸ hc)) he

theorem unescapeGo_cons_ne (esc c : UInt8) (t : Bytes) (h : c ≠ esc) :
    unescapeGo esc (c :: t) = c :: unescapeGo esc t := by
  cases t with
  | nil => simp [unescapeGo]
  | cons d t => rw [unescapeGo]; simp [h]

theorem unescapeGo_code (esc d : UInt8) (t : Bytes) (h : d ≠ 117) :
    unescapeGo esc (esc :: d :: t) = unescapeCode d :: unescapeGo esc t := by
  rw [unescapeGo]; simp [h]

theorem unescapeGo_u (esc a b c d : UInt8) (t : Bytes) :
    unescapeGo esc (esc :: 117 :: a :: b :: c :: d :: t) =
      utf8Expand (utfScan [a, b, c, d]) ++ unescapeGo esc t := by
  rw [unescapeGo]; simp

/-- Escape codes decode to the byte they stand for. -/
theorem unescapeGo_escapeCode (esc c : UInt8) (t : Bytes) (h0 : c ≠ 0)
    (hc : c ∉ ([98, 102, 110, 114, 116, 117] : Bytes)) :
    unescapeGo esc (esc :: (escapeCode c ++ t)) = c :: unescapeGo esc t := by
  unfold escapeCode
  split
  · rename_i h; subst h; exact unescapeGo_code _ _ _ (by decide)
  split
  · rename_i h; subst h; exact unescapeGo_code _ _ _ (by decide)
  split
  · rename_i h; subst h; exact unescapeGo_code _ _ _ (by decide)
  split
  · rename_i h; subst h; exact unescapeGo_code _ _ _ (by decide)
  split
  · rename_i h; subst h; exact unescapeGo_code _ _ _ (by decide)
  split
  · rename_i h
    simp only [List.cons_append, List.nil_append]
    rw [unescapeGo_u]
    have : ∀ c : UInt8, ((0 < c && c < 32) || decide (c = 127)) = true →
        utf8Expand (utfScan [48, 48, toLower (hexDigit (c.toNat / 16)),
          toLower (hexDigit (c.toNat % 16))]) = [c] := forall_u8 (by decide +kernel)
    rw [this c h]; rfl
  · simp only [List.cons_append, List.nil_append]
    simp only [List.mem_cons, List.not_mem_nil, or_false, not_or] at hc
    rw [unescapeGo_code _ _ _ hc.2.2.2.2.2]
    simp [unescapeCode, hc]

theorem unescapeGo_escapeByte (sp : Bytes) (esc c : UInt8) (t : Bytes) (h0 : c ≠ 0)
    (hsp : ∀ x ∈ ([98, 102, 110, 114, 116, 117] : Bytes), x ∉ sp ∧ x ≠ esc) :
    unescapeGo esc (escapeByte sp esc c ++ t) = c :: unescapeGo esc t := by
  unfold escapeByte
  split
  · rename_i h
    refine unescapeGo_escapeCode esc c t h0 (fun hm => ?_)
    have := hsp c hm
    cases h with
    | inl h => exact this.1 h
    | inr h => exact this.2 h
  · rename_i h
    exact unescapeGo_cons_ne _ _ _ (fun e => h (.inr e))

theorem unescapeGo_flatMap (sp : Bytes) (esc : UInt8) (s : Bytes) (h0 : 0 ∉ s)
    (hsp : ∀ x ∈ ([98, 102, 110, 114, 116, 117] : Bytes), x ∉ sp ∧ x ≠ esc) :
    unescapeGo esc (s.flatMap (escapeByte sp esc)) = s := by
  induction s with
  | nil => simp [unescapeGo]
  | cons c s ih =>
    rw [List.flatMap_cons, unescapeGo_escapeByte sp esc c _ (fun h => h0 (by simp [h])) hsp,
      ih (fun h => h0 (by simp [h]))]

theorem bare_cons_ne (esc c : UInt8) (t : Bytes) (h : c ≠ esc) :
    Spec.bare esc (c :: t) = c :: Spec.bare esc t := by
  cases t with
  | nil => simp [Spec.bare]
  | cons d t => rw [Spec.bare]; simp [h]

theorem bare_code (esc d : UInt8) (t : Bytes) (h : d ≠ 117) :
    Spec.bare esc (esc :: d :: t) = Spec.bare esc t := by
  rw [Spec.bare]; simp [h]

theorem bare_escapeByte (sp : Bytes) (esc c : UInt8) (t : Bytes) (hu : 117 ∉ sp ∧ 117 ≠ esc) :
    Spec.bare esc (escapeByte sp esc c ++ t) =
      if c ∈ sp ∨ c = esc then Spec.bare esc t else c :: Spec.bare esc t := by
  unfold escapeByte
  split
  · rename_i h
    have hcu : c ≠ 117 := by
      intro e; subst e; cases h with
      | inl h => exact hu.1 h
      | inr h => exact hu.2 h
    unfold escapeCode
    simp only [List.cons_append]
    split
    · exact bare_code _ _ _ (by decide)
    split
    · exact bare_code _ _ _ (by decide)
    split
    · exact bare_code _ _ _ (by decide)
    split
    · exact bare_code _ _ _ (by decide)
    split
    · exact bare_code _ _ _ (by decide)
    split
    · simp only [List.cons_append, List.nil_append]
      rw [Spec.bare]; simp
    · exact bare_code _ _ _ hcu
  · rename_i h
    exact bare_cons_ne _ _ _ (fun e => h (.inr e))

/-! ## SQL -/

theorem sqlBody_escape (s t : Bytes) (ht : t.head? ≠ some 39) :
    Spec.sqlBody (s.flatMap (escapeByte [39] 39) ++ 39 :: t) = some (s, t) := by
  induction s with
  | nil =>
    simp only [List.flatMap_nil, List.nil_append]
    cases t with
    | nil => simp [Spec.sqlBody]
    | cons a t =>
      unfold Spec.sqlBody
      split <;> simp_all
  | cons c s ih =>
    rw [List.flatMap_cons, List.append_assoc]
    by_cases hc : c = 39
    · subst hc
      have : escapeByte [39] 39 39 = [39, 39] := by decide
      rw [this]
      simp only [List.cons_append, List.nil_append]
      rw [Spec.sqlBody, ih]; rfl
    · have : escapeByte [39] 39 c = [c] := by simp [escapeByte, hc]
      rw [this]
      simp only [List.cons_append, List.nil_append]
      rw [Spec.sqlBody, ih]
      · rfl
      all_goals simp_all

/-! ## URL components -/

theorem uriDecode_cons (s : Bytes) (h : s ≠ []) :
    uriDecode s = (uriDecodeChar s).1 ++ uriDecode (s.drop (uriDecodeChar s).2) := by
  cases s with
  | nil => exact absurd rfl h
  | cons c s => rw [uriDecode]

theorem uriDecodeChar_plain (c : UInt8) (t : Bytes) (h1 : c ≠ 37) (h2 : c ≠ 43) :
    uriDecodeChar (c :: t) = ([c], 1) := by
  unfold uriDecodeChar
  split <;> simp_all

theorem hexVal_pair (b : UInt8) : ∃ x y, hexVal (hexDigit (b >>> 4).toNat) = some x ∧
    hexVal (hexDigit (b &&& 15).toNat) = some y ∧ UInt8.ofNat (x * 16 + y) = b := by
  have h1 : (b >>> 4).toNat < 16 := by revert b; exact forall_u8 (by decide +kernel)
  have h2 : (b &&& 15).toNat < 16 := by revert b; exact forall_u8 (by decide +kernel)
  refine ⟨_, _, hexVal_hexDigit _ h1, hexVal_hexDigit _ h2, ?_⟩
  revert b
  intro b _ _
  revert b; exact forall_u8 (by decide +kernel)

theorem uriDecode_encodeByte (c : UInt8) (t : Bytes) :
    uriDecode (uriEncodeByte c ++ t) = c :: uriDecode t := by
  unfold uriEncodeByte
  split
  · rename_i h
    have h1 : c ≠ 37 := by intro e; subst e; revert h; decide
    have h2 : c ≠ 43 := by intro e; subst e; revert h; decide
    rw [uriDecode_cons _ (by simp)]
    simp only [List.cons_append, List.nil_append]
    rw [uriDecodeChar_plain c t h1 h2]; simp
  split
  · rename_i h; subst h
    rw [uriDecode_cons _ (by simp)]; simp [uriDecodeChar]
  · obtain ⟨x, y, hx, hy, e⟩ := hexVal_pair c
    rw [uriDecode_cons _ (by simp)]
    have : uriDecodeChar ([37, hexDigit (c >>> 4).toNat, hexDigit (c &&& 15).toNat] ++ t)
        = ([c], 3) := by
      simp only [uriDecodeChar, List.cons_append, List.nil_append, uriDecodeTriple, hx, hy, e]
    rw [this]; rfl

/-! ## Lists -/

theorem foldl_step_component (sep : UInt8) (d : List Bytes) (comp e : Bytes)
    (hc : comp ≠ []) (hs : sep ∉ e) :
    e.foldl (ListParse.step sep) ⟨d, comp⟩ = ⟨d, comp ++ e⟩ := by
  induction e generalizing comp with
  | nil => simp
  | cons a e ih =>
    simp only [List.mem_cons, not_or] at hs
    simp only [List.foldl_cons]
    have : ListParse.step sep ⟨d, comp⟩ a = ⟨d, comp ++ [a]⟩ := by
      have := Ne.symm hs.1; simp [ListParse.step, hc, this]
    rw [this, ih _ (by simp) hs.2]
    simp

theorem foldl_step_element (sep : UInt8) (d : List Bytes) (e : Bytes) (h0 : e ≠ [])
    (hh : e.head? ≠ some 32) (hs : sep ∉ e) :
    e.foldl (ListParse.step sep) ⟨d, []⟩ = ⟨d, e⟩ := by
  cases e with
  | nil => exact absurd rfl h0
  | cons a e =>
    simp only [List.head?_cons, ne_eq, Option.some.injEq] at hh
    simp only [List.mem_cons, not_or] at hs
    simp only [List.foldl_cons]
    have : ListParse.step sep ⟨d, []⟩ a = ⟨d, [a]⟩ := by
      have := Ne.symm hs.1; simp [ListParse.step, hh, this]
    rw [this, foldl_step_component sep d [a] e (by simp) hs.2]
    simp

theorem foldl_step_separator (sep : UInt8) (k : Nat) (d : List Bytes) (comp : Bytes)
    (hc : comp ≠ []) :
    (sep :: List.replicate k 32).foldl (ListParse.step sep) ⟨d, comp⟩ = ⟨d ++ [comp], []⟩ := by
  simp only [List.foldl_cons]
  have : ListParse.step sep ⟨d, comp⟩ sep = ⟨d ++ [comp], []⟩ := by simp [ListParse.step, hc]
  rw [this]
  induction k with
  | zero => rfl
  | succ k ih =>
    rw [List.replicate_succ, List.foldl_cons]
    have : ListParse.step sep ⟨d ++ [comp], []⟩ 32 = ⟨d ++ [comp], []⟩ := by simp [ListParse.step]
    rw [this]; exact ih

theorem composeList_cons (x : Bytes) (l : List Bytes) (sep : Bytes) :
    composeList (x :: l) sep = x ++ l.flatMap (fun v => sep ++ v) := by
  have key : ∀ (l : List Bytes) (x : Bytes), (x :: l).flatMap (fun v => v ++ sep) =
      (x ++ l.flatMap (fun v => sep ++ v)) ++ sep := by
    intro l
    induction l with
    | nil => intro x; simp
    | cons y l ih =>
      intro x
      rw [List.flatMap_cons, ih y]
      simp [List.append_assoc]
  unfold composeList
  rw [if_neg (by simp)]
  simp only [key]
  rw [show (x ++ l.flatMap (fun v => sep ++ v) ++ sep).length - sep.length
        = (x ++ l.flatMap (fun v => sep ++ v)).length by simp; omega]
  exact List.take_left'  rfl

theorem foldl_step_tail (sep : UInt8) (k : Nat) (l : List Bytes) (d : List Bytes) (comp : Bytes)
    (hc : comp ≠ []) (hl : ∀ e ∈ l, e ≠ [] ∧ e.head? ≠ some 32 ∧ sep ∉ e) :
    ∃ d' comp', comp' ≠ [] ∧ d' ++ [comp'] = d ++ [comp] ++ l ∧
      (l.flatMap (fun v => (sep :: List.replicate k 32) ++ v)).foldl (ListParse.step sep) ⟨d, comp⟩
        = ⟨d', comp'⟩ := by
  induction l generalizing d comp with
  | nil => exact ⟨d, comp, hc, by simp, by simp⟩
  | cons e l ih =>
    have he := hl e (by simp)
    rw [List.flatMap_cons, List.foldl_append, List.foldl_append, foldl_step_separator _ _ _ _ hc,
      foldl_step_element sep _ e he.1 he.2.1 he.2.2]
    obtain ⟨d', c', h1, h2, h3⟩ := ih (d ++ [comp]) e he.1 (fun x hx => hl x (by simp [hx]))
    exact ⟨d', c', h1, by rw [h2]; simp, h3⟩

/-- What the elements found so far and the one being read look like. -/
def ListParse.Ok (sep : UInt8) (p : ListParse) : Prop :=
  (∀ e ∈ p.done, e ≠ [] ∧ e.head? ≠ some 32 ∧ sep ∉ e ∧ 0 ∉ e) ∧
  p.component.head? ≠ some 32 ∧ sep ∉ p.component ∧ 0 ∉ p.component

theorem ListParse.step_ok (sep : UInt8) (p : ListParse) (c : UInt8) (h0 : c ≠ 0) (h : p.Ok sep) :
    (p.step sep c).Ok sep := by
  unfold ListParse.step
  split
  · exact h
  · split
    · rename_i hc
      refine ⟨?_, by simp, by simp, by simp⟩
      simp only
      split
      · exact h.1
      · rename_i hn
        intro e he
        simp only [List.mem_append, List.mem_singleton] at he
        cases he with
        | inl he => exact h.1 e he
        | inr he => subst he; exact ⟨hn, h.2⟩
    · rename_i hc hs
      refine ⟨h.1, ?_, ?_, ?_⟩
      · cases hcomp : p.component with
        | nil => simp [hcomp] at hc ⊢; exact hc
        | cons a l => have := h.2.1; simp [hcomp] at this ⊢; exact this
      · simp only [List.mem_append, List.mem_singleton, not_or]
        exact ⟨h.2.2.1, fun e => hs e.symm⟩
      · simp only [List.mem_append, List.mem_singleton, not_or]
        exact ⟨h.2.2.2, fun e => h0 e.symm⟩

theorem ListParse.foldl_ok (sep : UInt8) (s : Bytes) (p : ListParse) (h0 : 0 ∉ s) (h : p.Ok sep) :
    (s.foldl (ListParse.step sep) p).Ok sep := by
  induction s generalizing p with
  | nil => exact h
  | cons c s ih =>
    simp only [List.mem_cons, not_or] at h0
    exact ih _ h0.2 (ListParse.step_ok sep p c (fun e => h0.1 e.symm) h)

/-- Everything read so far except blanks. -/
def ListParse.text (p : ListParse) : Bytes := (p.done.flatten ++ p.component).filter (· ≠ 32)

theorem ListParse.step_text (sep : UInt8) (p : ListParse) (c : UInt8) :
    (p.step sep c).text = p.text ++ [c].filter (fun x => x ≠ 32 ∧ x ≠ sep) := by
  unfold ListParse.step
  split
  · rename_i h; simp [h.2]
  · split
    · rename_i h
      subst h
      unfold ListParse.text
      by_cases hc : p.component = [] <;> simp [hc]
    · rename_i h
      unfold ListParse.text
      by_cases hc : c = 32 <;> simp [hc, h]

theorem ListParse.foldl_text (sep : UInt8) (s : Bytes) (p : ListParse) :
    (s.foldl (ListParse.step sep) p).text = p.text ++ s.filter (fun x => x ≠ 32 ∧ x ≠ sep) := by
  induction s generalizing p with
  | nil => simp
  | cons c s ih =>
    rw [List.foldl_cons, ih, ListParse.step_text, List.append_assoc, ← List.filter_append]
    rfl

/-! ## Constant time comparison -/

theorem constTimeLoop_snd (s u s' u' : Bytes) (e e' : Bool) (h : u.length = u'.length)
    (i n : Nat) : (constTimeLoop s u e i n).2 = (constTimeLoop s' u' e' i n).2 := by
  induction n generalizing i e e' with
  | zero => rfl
  | succ n ih =>
    simp only [constTimeLoop]
    rw [h, ih]

theorem constTimeLoop_positions (s u : Bytes) (e : Bool) (i n : Nat) :
    ∀ p ∈ (constTimeLoop s u e i n).2, i ≤ p.1 ∧ p.1 < i + n ∧ p.2 = p.1 % u.length := by
  induction n generalizing i e with
  | zero => simp [constTimeLoop]
  | succ n ih =>
    intro p hp
    simp only [constTimeLoop, List.mem_cons] at hp
    cases hp with
    | inl h => subst h; exact ⟨Nat.le_refl _, by simp only; omega, rfl⟩
    | inr h => have := ih _ (i + 1) p h; exact ⟨by omega, by omega, this.2.2⟩

theorem constTimeLoop_fst (s u : Bytes) (e : Bool) (i n : Nat) :
    (constTimeLoop s u e i n).1 = true ↔
      e = true ∧ ∀ j, i ≤ j → j < i + n → s.getD j 0 = u.getD (j % u.length) 0 := by
  induction n generalizing i e with
  | zero => simp only [constTimeLoop]; exact ⟨fun h => ⟨h, fun j _ _ => by omega⟩, fun h => h.1⟩
  | succ n ih =>
    simp only [constTimeLoop]
    rw [ih]
    simp only [Bool.and_eq_true, beq_iff_eq]
    constructor
    · rintro ⟨⟨h1, h2⟩, h3⟩
      refine ⟨h1, fun j hj hn => ?_⟩
      by_cases e : j = i
      · subst e; exact h2
      · exact h3 j (by omega) (by omega)
    · rintro ⟨h1, h2⟩
      exact ⟨⟨h1, h2 i (by omega) (by omega)⟩, fun j hj hn => h2 j (by omega) (by omega)⟩

end Bedrock.Text
