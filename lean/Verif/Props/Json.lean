import Verif.Lemmas.Json

/-!
# Properties of the JSON functions: C30
-/

namespace Bedrock.Json.Props
open Bedrock Bedrock.Text Bedrock.Http Bedrock.Json Bedrock.Json.Spec

/-! ## Reading -/

theorem ws_all {w : Bytes} (hw : Blank w) : ws w = [] := by
  have := ws_blank hw []
  rw [List.append_nil] at this
  exact this

/-- C30.  Every JSON array, of any size and depth and with blanks anywhere, is read as its elements. -/
theorem c30_array_read (nv x w w' : Bytes) (vs : List Bytes) (h : Arr nv x vs) (hw : Blank w) (hw' : Blank w') :
    parseArray nv (w ++ (x ++ w')) = .ok vs := by
  obtain ⟨y, rfl, hy⟩ : ∃ y, x = 91 :: y ∧ 1 ≤ y.length := by cases h <;> exact ⟨_, rfl, by simp⟩
  have hh : ¬ (w ++ (91 :: y ++ w')).headD 0 = 0 := by
    cases w with
    | nil => simp
    | cons c w =>
      have := hw c (by simp)
      intro h0
      rw [List.cons_append, List.headD_cons] at h0
      rw [h0] at this
      exact absurd this (by decide)
  unfold parseArray
  rw [if_neg (by simp only [List.length_append, List.length_cons]; omega), if_neg hh, ws_blank hw, List.cons_append,
    ws_cons (by decide)]
  simp only [(accepts nv _).array y vs w' h (Nat.le_refl _), fuel, ws_all hw', if_true]

/-- C30.  Every JSON object is read as the table of its members: the members are stored in order, a later one in the
place of an earlier one of the same name. -/
theorem c30_object_read (nv x w w' : Bytes) (ms : List (Bytes × Bytes)) (h : Obj nv x ms) (hw : Blank w)
    (hw' : Blank w') :
    parseObject nv (w ++ (x ++ w')) = .ok (ms.foldl (fun t e => t.set e.1 e.2) []) := by
  obtain ⟨y, rfl, hy⟩ : ∃ y, x = 123 :: y ∧ 1 ≤ y.length := by cases h <;> exact ⟨_, rfl, by simp⟩
  have hh : ¬ (w ++ (123 :: y ++ w')).headD 0 = 0 := by
    cases w with
    | nil => simp
    | cons c w =>
      have := hw c (by simp)
      intro h0
      rw [List.cons_append, List.headD_cons] at h0
      rw [h0] at this
      exact absurd this (by decide)
  unfold parseObject
  rw [if_neg (by simp only [List.length_append, List.length_cons]; omega), if_neg hh, ws_blank hw, List.cons_append,
    ws_cons (by decide)]
  simp only [(accepts nv _).object y ms w' h (Nat.le_refl _), fuel, ws_all hw', if_true]

theorem blank_sp : Blank (str " ") := by unfold Blank; decide

-- ` [ 1 , [] , "a" ] `
example : parseArray [] (str " [ -1.5e3 , [] , \"a\" ] ") =
    .ok [str "-1.5e3", str "[]", unescape (str "a") 92] :=
  c30_array_read [] (str "[ -1.5e3 , [] , \"a\" ]") (str " ") (str " ") _
    (.some (x := str " -1.5e3 , [] , \"a\" ")
      (.more (w := str " ") (w' := str " ") (x := str "-1.5e3") (y := str " [] , \"a\" ") blank_sp
        (.num ⟨[45], str "1", str ".5", str "e3", .inr rfl, ⟨by decide, by decide⟩,
          .inr ⟨str "5", ⟨by decide, by decide⟩, rfl⟩,
          .inr ⟨101, [], str "3", .inl rfl, .inl rfl, ⟨by decide, by decide⟩, rfl⟩, rfl⟩) blank_sp
        (.more (w := str " ") (w' := str " ") (x := str "[]") (y := str " \"a\" ") blank_sp
          (.arr (.empty (w := []) blank_nil)) blank_sp
          (.one (w := str " ") (x := str "\"a\"") (w' := str " ") blank_sp
            (.lit (b := str "a") (.plain (by decide) (by decide) (by decide) .nil)) blank_sp))))
    blank_sp blank_sp

/-! ## No input without NUL ends the process -/

/-- C30.  Reading any text without a NUL byte returns: no assertion fails, and the recursion ends. -/
theorem c30_no_crash (nv s : Bytes) (h0 : 0 ∉ s) : parseArray nv s ≠ .abort ∧ parseObject nv s ≠ .abort := by
  have hh : 2 ≤ s.length → ¬ s.headD 0 = 0 := by
    intro hl
    cases s with
    | nil => simp at hl
    | cons c t => intro h; exact h0 (by rw [List.headD_cons] at h; simp [h])
  have hw := ws_clean h0
  constructor
  · unfold parseArray
    split
    · exact nofun
    · rename_i hl
      rw [if_neg (hh (by omega))]
      split
      · exact nofun
      · exact nofun
      · rename_i heq
        split at heq
        · cases heq
        · rename_i t ht
          rw [ht] at hw
          exact absurd heq ((clean nv _).array t (fun h => hw (List.mem_cons_of_mem _ h))).1
        · cases heq
      · rename_i heq
        split at heq
        · cases heq
        · exact absurd heq ((enough nv _).array _ (Nat.le_refl _)).1
        · cases heq
  · unfold parseObject
    split
    · exact nofun
    · rename_i hl
      rw [if_neg (hh (by omega))]
      split
      · exact nofun
      · exact nofun
      · rename_i heq
        split at heq
        · cases heq
        · rename_i t ht
          rw [ht] at hw
          exact absurd heq ((clean nv _).object t (fun h => hw (List.mem_cons_of_mem _ h))).1
        · cases heq
      · rename_i heq
        split at heq
        · cases heq
        · exact absurd heq ((enough nv _).object _ (Nat.le_refl _)).1
        · cases heq

example : parseArray [] (str "[[[{\"") ≠ .abort := (c30_no_crash [] _ (by decide)).1

/-- C30.  A NUL byte at the start, or where the name of a member should start, ends the process. -/
theorem c30_nul_ends_the_process :
    parseArray [] [0, 0] = .abort ∧ parseObject [] [123, 0] = .abort ∧ parseArray [] [91, 123, 32, 0] = .abort := by
  decide +kernel

/-! ## Composing and reading back -/

/-- The parser accepts the text to its end. -/
def Accepted (v : Bytes) : Prop := ∃ x, value (str "null") (fuel v) v = .ok [] x

/-- The text is enclosed in matching brackets. -/
def Bracketed (v : Bytes) : Prop :=
  2 ≤ v.length ∧ ((v.head? = some 91 ∧ v.getLast? = some 93) ∨ (v.head? = some 123 ∧ v.getLast? = some 125))

/-- The strings that survive: no NUL; `true`, `false` and `null` in lower case only; and, unless strings are forced, a
text in brackets that the parser accepts is indeed JSON. -/
structure Kept (force : Bool) (v : Bytes) : Prop where
  nul : 0 ∉ v
  lower : ∀ w ∈ [str "true", str "false", str "null"], sToLower v = w → v = w
  json : force = false → Bracketed v → Accepted v →
    (∃ vs, Arr (str "null") v vs) ∨ ∃ ms, Obj (str "null") v ms

theorem sIEquals_lower {v w : Bytes} (h0 : 0 ∉ v) (hw : w ∈ [str "true", str "false", str "null"]) :
    sIEquals v w = true ↔ sToLower v = w := by
  unfold sIEquals
  rw [cstr_eq h0, beq_iff_eq]
  simp only [List.mem_cons, List.not_mem_nil, or_false] at hw
  have : sToLower (cstr w) = w := by rcases hw with rfl | rfl | rfl <;> decide +kernel
  rw [this]

theorem natDec_number (n : Nat) : Digits (natDec n) := by
  refine ⟨natDec_ne_nil n, fun c hc => ?_⟩
  obtain ⟨d, hd, rfl⟩ := natDec_digits n c hc
  have : ∀ d : Fin 10, (48 : UInt8) ≤ UInt8.ofNat (48 + d.1) ∧ UInt8.ofNat (48 + d.1) ≤ 57 := by decide +kernel
  exact this ⟨d, hd⟩

theorem intDec_number (i : Int) : Number (intDec i) := by
  unfold intDec
  split
  · exact ⟨[45], natDec i.natAbs, [], [], .inr rfl, natDec_number _, .inl rfl, .inl rfl, by simp⟩
  · exact ⟨[], natDec i.natAbs, [], [], .inl rfl, natDec_number _, .inl rfl, .inl rfl, by simp⟩

theorem escapeByte_shape (c : UInt8) : c ≠ 0 →
    (escapeByte specials 92 c = [c] ∧ c ≠ 34 ∧ c ≠ 92) ∨
    ∃ k t, escapeByte specials 92 c = 92 :: k :: t ∧ ∀ d ∈ t, d ≠ 0 ∧ d ≠ 34 ∧ d ≠ 92 := by
  intro h0
  have key : c ≠ 0 → (escapeByte specials 92 c = [c] ∧ c ≠ 34 ∧ c ≠ 92) ∨
      (escapeByte specials 92 c = 92 :: (escapeByte specials 92 c).getD 1 0 :: (escapeByte specials 92 c).drop 2 ∧
        ∀ d ∈ (escapeByte specials 92 c).drop 2, d ≠ 0 ∧ d ≠ 34 ∧ d ≠ 92) :=
    forall_u8 (P := fun c => c ≠ 0 → (escapeByte specials 92 c = [c] ∧ c ≠ 34 ∧ c ≠ 92) ∨
      (escapeByte specials 92 c = 92 :: (escapeByte specials 92 c).getD 1 0 :: (escapeByte specials 92 c).drop 2 ∧
        ∀ d ∈ (escapeByte specials 92 c).drop 2, d ≠ 0 ∧ d ≠ 34 ∧ d ≠ 92)) (by decide +kernel) c
  rcases key h0 with h | h
  · exact .inl h
  · exact .inr ⟨_, _, h.1, h.2⟩

theorem body_plain {t b : Bytes} (ht : ∀ d ∈ t, d ≠ 0 ∧ d ≠ 34 ∧ d ≠ 92) (hb : Body b) : Body (t ++ b) := by
  induction t with
  | nil => exact hb
  | cons d t ih =>
    have := ht d (by simp)
    exact .plain this.1 this.2.1 this.2.2 (ih fun e he => ht e (by simp [he]))

theorem escape_body {v : Bytes} (h0 : 0 ∉ v) : Body (escape v specials 92) := by
  unfold escape
  rw [cstr_eq h0]
  induction v with
  | nil => exact .nil
  | cons c v ih =>
    rw [List.flatMap_cons]
    have hc : c ≠ 0 := fun h => h0 (by simp [h])
    have ih := ih fun h => h0 (by simp [h])
    rcases escapeByte_shape c hc with ⟨h, h34, h92⟩ | ⟨k, t, h, ht⟩
    · rw [h]; exact .plain hc h34 h92 ih
    · rw [h]; exact .escaped (body_plain ht ih)

/-- A string literal is read back as the string. -/
theorem quoted_val (nv : Bytes) {v : Bytes} (h0 : 0 ∉ v) : Val nv (quoted v) v := by
  have h := Val.lit (nv := nv) (escape_body h0)
  rw [Text.Props.c25_round_trip v specials 92 h0 (by decide) (by decide)] at h
  have e : quoted v = 34 :: (escape v specials 92 ++ [34]) := by simp [quoted]
  rw [e]
  exact h

theorem quoted_nul (v : Bytes) : 0 ∉ quoted v := by
  unfold quoted
  simp only [List.mem_append, List.mem_singleton]
  rintro ((h | h) | h)
  · exact absurd h (by decide)
  · exact zero_not_mem_escape v specials 92 (by decide) h
  · exact absurd h (by decide)

/-- A kept string is written as a JSON value that is read as the string. -/
theorem toJSON_val (isFloat : Bytes → Bool) (hF : ∀ v, isFloat v = true → Number v) (force : Bool) (v : Bytes)
    (h : Kept force v) : ∃ x, toJSON isFloat force v = some x ∧ Val (str "null") x v ∧ 0 ∉ x := by
  have lit : ∀ w ∈ [str "true", str "false", str "null"], sIEquals v w = true → v = w := fun w hw he =>
    h.lower w hw ((sIEquals_lower h.nul hw).mp he)
  have hq : Val (str "null") (quoted v) v ∧ 0 ∉ quoted v := ⟨quoted_val _ h.nul, quoted_nul v⟩
  unfold toJSON
  split
  · rename_i hi
    refine ⟨v, rfl, ?_, h.nul⟩
    rw [← hi]
    exact .num (intDec_number _)
  split
  · rename_i hf
    exact ⟨v, rfl, .num (hF v hf), h.nul⟩
  split
  · rename_i he
    have := lit _ (by simp) he
    exact ⟨_, rfl, by rw [this]; exact .tru, by decide⟩
  split
  · rename_i he
    have := lit _ (by simp) he
    exact ⟨_, rfl, by rw [this]; exact .fls, by decide⟩
  split
  · rename_i he
    have := lit _ (by simp) he
    exact ⟨_, rfl, by rw [this]; exact .nul, by decide⟩
  split
  · rename_i hb
    simp only [Bool.and_eq_true, Bool.not_eq_true', decide_eq_true_eq, Bool.or_eq_true, beq_iff_eq] at hb
    split
    · rename_i x hx
      refine ⟨v, rfl, ?_, h.nul⟩
      rcases h.json hb.1.1 ⟨hb.1.2, hb.2⟩ ⟨x, hx⟩ with ⟨vs, hv⟩ | ⟨ms, hv⟩
      · exact .arr hv
      · exact .obj hv
    · rename_i hx
      exact absurd hx ((clean _ _).value v h.nul).1
    · exact ⟨_, rfl, hq⟩
  · exact ⟨_, rfl, hq⟩

theorem joined_cons (x : Bytes) {xs : List Bytes} (h : xs ≠ []) : joined (x :: xs) = x ++ 44 :: joined xs := by
  cases xs with
  | nil => exact absurd rfl h
  | cons y ys => rfl

theorem elems_of (isFloat : Bytes → Bool) (hF : ∀ v, isFloat v = true → Number v) :
    ∀ l : List Bytes, l ≠ [] → (∀ v ∈ l, Kept false v) →
      ∃ xs, l.mapM (toJSON isFloat false) = some xs ∧ xs ≠ [] ∧ Elems (str "null") (joined xs) l ∧ 0 ∉ joined xs
  | [], h, _ => absurd rfl h
  | [v], _, hk => by
    obtain ⟨x, h1, h2, h3⟩ := toJSON_val isFloat hF false v (hk v (by simp))
    refine ⟨[x], by simp [h1], by simp, ?_, h3⟩
    have := Elems.one (w := []) (w' := []) blank_nil h2 blank_nil
    simpa [joined] using this
  | v :: u :: l, _, hk => by
    obtain ⟨x, h1, h2, h3⟩ := toJSON_val isFloat hF false v (hk v (by simp))
    obtain ⟨xs, i1, i2, i3, i4⟩ := elems_of isFloat hF (u :: l) (by simp) fun w hw => hk w (by simp [hw])
    refine ⟨x :: xs, ?_, by simp, ?_, ?_⟩
    · rw [List.mapM_cons, h1, i1]; rfl
    · rw [joined_cons x i2]
      exact Elems.more (w := []) (w' := []) blank_nil h2 blank_nil i3
    · rw [joined_cons x i2]
      simp only [List.mem_append, List.mem_cons]
      rintro (h | h | h)
      · exact h3 h
      · exact absurd h (by decide)
      · exact i4 h

/-- C30.  A list of kept strings is written as a JSON array of them, and read back as the same list. -/
theorem c30_array_partial (isFloat : Bytes → Bool) (hF : ∀ v, isFloat v = true → Number v) (l : List Bytes)
    (hk : ∀ v ∈ l, Kept false v) :
    ∃ x, composeArray isFloat l = some x ∧ Arr (str "null") x l ∧ parseArray (str "null") x = .ok l ∧ 0 ∉ x := by
  suffices h : ∃ x, composeArray isFloat l = some x ∧ Arr (str "null") x l ∧ 0 ∉ x by
    obtain ⟨x, h1, h2, h3⟩ := h
    refine ⟨x, h1, h2, ?_, h3⟩
    have := c30_array_read (str "null") x [] [] l h2 blank_nil blank_nil
    simpa using this
  cases l with
  | nil => exact ⟨[91, 93], rfl, .empty (w := []) blank_nil, by decide⟩
  | cons v l =>
    obtain ⟨xs, h1, _, h3, h4⟩ := elems_of isFloat hF (v :: l) (by simp) hk
    refine ⟨91 :: (joined xs ++ [93]), by simp [composeArray, h1], .some h3, ?_⟩
    simp only [List.mem_append, List.mem_cons, List.not_mem_nil, or_false]
    rintro (h | h | h)
    · exact absurd h (by decide)
    · exact h4 h
    · exact absurd h (by decide)

/-- A name that is written as it is and read as it is. -/
def PlainName (n : Bytes) : Prop := ∀ c ∈ n, c ≠ 0 ∧ c ≠ 34 ∧ c ≠ 92

theorem plainName_read {n : Bytes} (h : PlainName n) : Body n ∧ unescape n 92 = n := by
  constructor
  · have := body_plain h .nil
    simpa using this
  · unfold unescape
    have h0 : 0 ∉ n := fun h0 => (h 0 h0).1 rfl
    rw [cstr_eq h0]
    clear h0
    induction n with
    | nil => simp [unescapeGo]
    | cons c n ih =>
      rw [unescapeGo_cons_ne 92 c n (h c (by simp)).2.2, ih fun d hd => h d (by simp [hd])]

theorem mems_of (isFloat : Bytes → Bool) (hF : ∀ v, isFloat v = true → Number v) (force : Bool) :
    ∀ t : Table, t ≠ [] → (∀ e ∈ t, PlainName e.1 ∧ Kept force e.2) →
      ∃ xs, t.mapM (fun e => (toJSON isFloat force e.2).map fun x => [34] ++ e.1 ++ [34, 58] ++ x) = some xs ∧
        xs ≠ [] ∧ Mems (str "null") (joined xs) t ∧ 0 ∉ joined xs
  | [], h, _ => absurd rfl h
  | [e], _, hk => by
    obtain ⟨x, h1, h2, h3⟩ := toJSON_val isFloat hF force e.2 (hk e (by simp)).2
    obtain ⟨hb, hu⟩ := plainName_read (hk e (by simp)).1
    have hz : 0 ∉ e.1 := fun h0 => ((hk e (by simp)).1 0 h0).1 rfl
    refine ⟨[[34] ++ e.1 ++ [34, 58] ++ x], by simp [h1], by simp, ?_, ?_⟩
    · have := Mems.one (w := []) (w1 := []) (w2 := []) (w3 := []) blank_nil hb blank_nil blank_nil h2 blank_nil
      rw [hu] at this
      simpa [joined] using this
    · simp [joined, h3, hz]
  | e :: u :: l, _, hk => by
    obtain ⟨x, h1, h2, h3⟩ := toJSON_val isFloat hF force e.2 (hk e (by simp)).2
    obtain ⟨hb, hu⟩ := plainName_read (hk e (by simp)).1
    have hz : 0 ∉ e.1 := fun h0 => ((hk e (by simp)).1 0 h0).1 rfl
    obtain ⟨xs, i1, i2, i3, i4⟩ := mems_of isFloat hF force (u :: l) (by simp) fun w hw => hk w (by simp [hw])
    refine ⟨([34] ++ e.1 ++ [34, 58] ++ x) :: xs, ?_, by simp, ?_, ?_⟩
    · rw [List.mapM_cons, h1, i1]; rfl
    · rw [joined_cons _ i2]
      have := Mems.more (w := []) (w1 := []) (w2 := []) (w3 := []) blank_nil hb blank_nil blank_nil h2 blank_nil i3
      rw [hu] at this
      simpa using this
    · rw [joined_cons _ i2]
      simp [h3, hz, i4]

theorem foldl_set_same (acc es : Table) (h : (acc ++ es).Sorted) :
    es.foldl (fun t e => t.set e.1 e.2) acc = acc ++ es := by
  induction es generalizing acc with
  | nil => simp
  | cons e es ih =>
    rw [List.foldl_cons, Table.set_append]
    · rw [ih]
      · simp
      · rw [List.append_assoc]; exact h
    · intro a ha
      unfold Table.Sorted at h
      rw [List.pairwise_append] at h
      exact h.2.2 a ha e (by simp)

/-- C30.  A table of kept strings under plain names is written as a JSON object with them, and read back as the same
table. -/
theorem c30_object_partial (isFloat : Bytes → Bool) (hF : ∀ v, isFloat v = true → Number v) (force : Bool) (t : Table)
    (ht : t.Sorted) (hk : ∀ e ∈ t, PlainName e.1 ∧ Kept force e.2) :
    ∃ x, composeObject isFloat force t = some x ∧ Obj (str "null") x t ∧ parseObject (str "null") x = .ok t ∧
      0 ∉ x := by
  suffices h : ∃ x, composeObject isFloat force t = some x ∧ Obj (str "null") x t ∧ 0 ∉ x by
    obtain ⟨x, h1, h2, h3⟩ := h
    refine ⟨x, h1, h2, ?_, h3⟩
    have := c30_object_read (str "null") x [] [] t h2 blank_nil blank_nil
    rw [foldl_set_same [] t (by simpa using ht)] at this
    simpa using this
  cases t with
  | nil => exact ⟨[123, 125], rfl, .empty (w := []) blank_nil, by decide⟩
  | cons e t =>
    obtain ⟨xs, h1, _, h3, h4⟩ := mems_of isFloat hF force (e :: t) (by simp) hk
    refine ⟨123 :: (joined xs ++ [125]), by unfold composeObject; rw [h1]; simp, .some h3, ?_⟩
    simp only [List.mem_append, List.mem_cons, List.not_mem_nil, or_false]
    rintro (h | h | h)
    · exact absurd h (by decide)
    · exact h4 h
    · exact absurd h (by decide)

/-- C30.  Structures nest: the text of an array or object is itself a string that is kept, as an element or a
member of the next one. -/
theorem c30_nested (x : Bytes) (h0 : 0 ∉ x)
    (h : (∃ vs, Arr (str "null") x vs) ∨ ∃ ms, Obj (str "null") x ms) : Kept false x := by
  refine ⟨h0, ?_, fun _ _ _ => h⟩
  have hd : x.head? = some 91 ∨ x.head? = some 123 := by
    rcases h with ⟨_, h⟩ | ⟨_, h⟩ <;> cases h <;> simp
  intro w hw he
  exfalso
  cases x with
  | nil => simp at hd
  | cons c x =>
    simp only [List.head?_cons, Option.some.injEq] at hd
    simp only [List.mem_cons, List.not_mem_nil, or_false] at hw
    have hne : ∀ d : Bytes, sToLower (c :: x) = d → d.head? = some (toLower c) := by
      rintro d rfl; rfl
    have := hne w he
    rcases hd with rfl | rfl <;> rcases hw with rfl | rfl | rfl <;> exact absurd this (by decide)

/-- A text not in brackets, or one without NUL when strings are forced, is kept unless it is a variant of a literal. -/
theorem kept_plain {force : Bool} {v : Bytes} (h0 : 0 ∉ v)
    (hl : ∀ w ∈ [str "true", str "false", str "null"], sToLower v = w → v = w)
    (hb : force = true ∨ ¬ Bracketed v) : Kept force v := by
  refine ⟨h0, hl, fun hf hbr _ => ?_⟩
  rcases hb with hb | hb
  · rw [hb] at hf; cases hf
  · exact absurd hbr hb

-- a nested structure: an array with quotes and control characters inside an object
example : ∃ x y, composeArray (fun _ => false) [str "a\"b\n", str "-17", str "null", str "[", []] = some x ∧
    composeObject (fun _ => false) false [(str "k", x)] = some y ∧
    parseObject (str "null") y = .ok [(str "k", x)] ∧
    parseArray (str "null") x = .ok [str "a\"b\n", str "-17", str "null", str "[", []] := by
  have hF : ∀ v : Bytes, (fun _ => false) v = true → Number v := fun v h => nomatch h
  obtain ⟨x, h1, h2, h3, h4⟩ := c30_array_partial (fun _ => false) hF
    [str "a\"b\n", str "-17", str "null", str "[", []] (by
      intro v hv
      have : 0 ∉ v ∧ (∀ w ∈ [str "true", str "false", str "null"], sToLower v = w → v = w) ∧ ¬ Bracketed v := by
        unfold Bracketed
        revert v
        decide +kernel
      exact kept_plain this.1 this.2.1 (.inr this.2.2))
  obtain ⟨y, i1, _, i3, _⟩ := c30_object_partial (fun _ => false) hF false [(str "k", x)]
    (by unfold Table.Sorted; simp) (by
      intro e he
      rw [List.mem_singleton] at he
      rw [he]
      exact ⟨show PlainName (str "k") from by unfold PlainName; decide +kernel, c30_nested x h4 (.inl ⟨_, h2⟩)⟩)
  exact ⟨x, y, h1, i1, i3, h3⟩

/-! ## What does not survive -/

theorem not_int {v : Bytes} (h : strtoll (cstr v) = 0) (hv : v ≠ [48]) : intDec (strtoll (cstr v)) ≠ v := by
  rw [h]
  unfold intDec
  rw [if_neg (by decide), Int.natAbs_zero, natDec_lt (by decide)]
  exact fun h => hv h.symm

/-- C30.  The parser accepts an array or object that is cut off, so a string like `[[1]` passes for JSON, is written
without quotes, and swallows the elements behind it. -/
theorem c30_truncated_accepted :
    parseArray [] (str "[1,2") = .ok [str "1", str "2"] ∧
    composeArray (fun _ => false) [str "[[1]", str "[2]"] = some (str "[[[1],[2]]") ∧
    parseArray (str "null") (str "[[[1],[2]]") = .ok [str "[[1],[2]]"] := by
  refine ⟨by decide +kernel, ?_, by decide +kernel⟩
  have h1 : toJSON (fun _ => false) false (str "[[1]") = some (str "[[1]") := by
    unfold toJSON
    rw [if_neg (not_int (by decide +kernel) (by decide +kernel))]
    decide +kernel
  have h2 : toJSON (fun _ => false) false (str "[2]") = some (str "[2]") := by
    unfold toJSON
    rw [if_neg (not_int (by decide +kernel) (by decide +kernel))]
    decide +kernel
  simp only [composeArray, List.mapM_cons, List.mapM_nil, h1, h2]
  decide +kernel

/-- C30.  `TRUE` comes back as `true`. -/
theorem c30_literals_lose_case :
    composeArray (fun _ => false) [str "TRUE"] = some (str "[true]") ∧
    parseArray (str "null") (str "[true]") = .ok [str "true"] := by
  refine ⟨?_, by decide +kernel⟩
  have h1 : toJSON (fun _ => false) false (str "TRUE") = some (str "true") := by
    unfold toJSON
    rw [if_neg (not_int (by decide +kernel) (by decide +kernel))]
    decide +kernel
  simp only [composeArray, List.mapM_cons, List.mapM_nil, h1]
  decide +kernel

/-- C30.  Names are not escaped: one with a quote makes the whole object unreadable. -/
theorem c30_names_not_escaped :
    composeObject (fun _ => false) false [(str "a\"b", str "true")] = some (str "{\"a\"b\":true}") ∧
    parseObject (str "null") (str "{\"a\"b\":true}") = .ok [] := by
  constructor
  · have h1 : toJSON (fun _ => false) false (str "true") = some (str "true") := by
      unfold toJSON
      rw [if_neg (not_int (by decide +kernel) (by decide +kernel))]
      decide +kernel
    simp only [composeObject, List.mapM_cons, List.mapM_nil, h1]
    decide +kernel
  · decide +kernel

theorem escapeByte_printable (c : UInt8) (h : c ≠ 0) : ∀ b ∈ escapeByte specials 92 c, 32 ≤ b ∧ b ≠ 127 := by
  exact forall_u8 (P := fun c => c ≠ 0 → ∀ b ∈ escapeByte specials 92 c, 32 ≤ b ∧ b ≠ 127) (by decide +kernel) c h

/-- **C30** A text written into JSON as a string has no control character in it, whatever the text. -/
theorem c30_no_controls (v : Bytes) : ∀ b ∈ quoted v, 32 ≤ b ∧ b ≠ 127 := by
  intro b hb
  unfold quoted escape at hb
  simp only [List.mem_append, List.mem_singleton, List.mem_flatMap] at hb
  rcases hb with (rfl | ⟨c, hc, hb⟩) | rfl
  · decide
  · refine escapeByte_printable c ?_ b hb
    intro e
    subst e
    unfold cstr at hc
    have := List.all_takeWhile (l := v) (p := fun x : UInt8 => decide (x ≠ 0))
    rw [List.all_eq_true] at this
    simpa using this 0 hc
  · decide

/-- **C30** A text without control characters, quotes, backslashes and slashes is written as it is. -/
theorem c30_plain_text (v : Bytes) (h : ∀ c ∈ v, 32 ≤ c ∧ c ≠ 127 ∧ c ≠ 34 ∧ c ≠ 92 ∧ c ≠ 47) :
    quoted v = [34] ++ v ++ [34] := by
  have hb : ∀ c : UInt8, (32 ≤ c ∧ c ≠ 127 ∧ c ≠ 34 ∧ c ≠ 92 ∧ c ≠ 47) → c ≠ 0 ∧ escapeByte specials 92 c = [c] := by
    intro c hc
    exact forall_u8 (P := fun c => (32 ≤ c ∧ c ≠ 127 ∧ c ≠ 34 ∧ c ≠ 92 ∧ c ≠ 47) → c ≠ 0 ∧ escapeByte specials 92 c = [c])
      (by decide +kernel) c hc
  have h1 : cstr v = v := by
    induction v with
    | nil => rfl
    | cons a v ih =>
      have ha := (hb a (h a (by simp))).1
      have ih := ih (fun c hc => h c (List.mem_cons_of_mem _ hc))
      unfold cstr at ih ⊢
      rw [List.takeWhile_cons_of_pos (by simpa using ha), ih]
  have h2 : ∀ v : Bytes, (∀ c ∈ v, 32 ≤ c ∧ c ≠ 127 ∧ c ≠ 34 ∧ c ≠ 92 ∧ c ≠ 47) → v.flatMap (escapeByte specials 92) = v := by
    intro v
    induction v with
    | nil => intro _; rfl
    | cons a v ih =>
      intro h
      rw [List.flatMap_cons, (hb a (h a (by simp))).2, ih (fun c hc => h c (List.mem_cons_of_mem _ hc))]
      rfl
  unfold quoted escape
  rw [h1, h2 v h]

end Bedrock.Json.Props
