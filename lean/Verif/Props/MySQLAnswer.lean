import Verif.Props.MySQLQuery

/-!
# C100: the port's own answers, the names of tables, and the answer to a request
-/

namespace Bedrock.MySQL.Props
open Bedrock Bedrock.Text Bedrock.MySQL

/-! ## Variables -/

/-- Every name of a variable is a word. -/
theorem names_words (version : Bytes) : ∀ v ∈ variables version, v.1 ≠ [] ∧ ∀ c ∈ v.1, isWord c = true := by
  have h0 : (variablesBefore ++ (str "version_comment", []) :: variablesAfter).all
      (fun v => !v.1.isEmpty && v.1.all isWord) = true := by decide +kernel
  have h : ∀ v ∈ variablesBefore ++ (str "version_comment", []) :: variablesAfter, v.1 ≠ [] ∧ ∀ c ∈ v.1, isWord c = true := by
    intro v hv
    have := List.all_eq_true.mp h0 v hv
    rw [Bool.and_eq_true, List.all_eq_true] at this
    exact ⟨fun e => by rw [e] at this; exact absurd this.1 (by decide), this.2⟩
  intro v hv
  unfold variables at hv
  rcases List.mem_append.mp hv with hv | hv
  · exact h v (List.mem_append_left _ hv)
  · rcases List.mem_cons.mp hv with rfl | hv
    · exact h (str "version_comment", []) (List.mem_append_right _ List.mem_cons_self)
    · exact h v (List.mem_append_right _ (List.mem_cons_of_mem _ hv))

/-- C100.  There are as many variables as the loops over them count. -/
theorem c100_variables_count (version : Bytes) : (variables version).length = 292 := by
  unfold variables
  rw [List.length_append, List.length_cons, show variablesBefore.length = 287 by decide +kernel,
    show variablesAfter.length = 4 by decide +kernel]

theorem constants_short : (variablesBefore ++ (str "version_comment", []) :: variablesAfter).all
    (fun v => decide (v.1.length < 2000) && decide (v.2.length < 2000)) = true := by decide +kernel

theorem short_of (x y v : Bytes × Bytes) (l r : List (Bytes × Bytes)) (k : Nat) (hx : x.1 = y.1)
    (h : (l ++ x :: r).all (fun v => decide (v.1.length < k) && decide (v.2.length < k)) = true) (hk : y.2.length < k)
    (hv : v ∈ l ++ y :: r) : v.1.length < k ∧ v.2.length < k := by
  simp only [List.all_append, List.all_cons, Bool.and_eq_true, List.all_eq_true, decide_eq_true_eq] at h
  obtain ⟨h1, ⟨h2, _⟩, h3⟩ := h
  rcases List.mem_append.mp hv with hv | hv
  · exact h1 v hv
  · rcases List.mem_cons.mp hv with hv | hv
    · rw [hv, ← hx]; exact ⟨h2, hk⟩
    · exact h3 v hv

theorem values_short (version : Bytes) (hl : version.length < 2000) (v : Bytes × Bytes) (h : v ∈ variables version) :
    v.1.length < 2000 ∧ v.2.length < 2000 :=
  short_of (str "version_comment", []) (str "version_comment", version) v variablesBefore variablesAfter 2000 rfl
    constants_short hl h

theorem lenEncInt_short (n : Nat) : (lenEncInt n).length ≤ 9 := by
  unfold lenEncInt
  (repeat' split) <;> simp [memory_length]

theorem lenEncStr_short (s : Bytes) : (lenEncStr s).length ≤ 9 + s.length := by
  unfold lenEncStr
  have := lenEncInt_short s.length
  rw [List.length_append]
  omega

theorem rowPayload_short (k : Nat) (row : List Bytes) (h : ∀ c ∈ row, c.length ≤ k) :
    (rowPayload row).length ≤ row.length * (9 + k) + 1 := by
  unfold rowPayload
  rw [List.length_append, List.length_singleton]
  have : (row.flatMap lenEncStr).length ≤ row.length * (9 + k) := by
    induction row with
    | nil => simp
    | cons c row ih =>
      rw [List.flatMap_cons, List.length_append, List.length_cons, Nat.succ_mul]
      have := ih (fun c hc => h c (List.mem_cons_of_mem _ hc))
      have := lenEncStr_short c
      have := h c List.mem_cons_self
      omega
  omega

/-- Answers with few and short columns fit into packets. -/
theorem short_payloads (headers : List Bytes) (rows : List (List Bytes)) (hh : ∀ n ∈ headers, n.length < 2 ^ 20)
    (hr : ∀ r ∈ rows, r.length ≤ 2 ∧ ∀ c ∈ r, c.length < 2 ^ 20) :
    ∀ p ∈ responsePayloads headers rows, p.length < 2 ^ 24 := by
  intro p hp
  unfold responsePayloads at hp
  simp only [List.mem_append, List.mem_map, List.mem_cons, List.not_mem_nil, or_false] at hp
  rcases hp with (((rfl | ⟨n, hn, rfl⟩) | rfl) | ⟨r, hr', rfl⟩) | rfl
  · have := lenEncInt_short headers.length
    omega
  · have h1 := hh n hn
    have h2 := lenEncStr_short n
    have h3 : (columnPayload n).length ≤ 2 * (lenEncStr n).length + 200 := by
      unfold columnPayload
      have e1 : (lenEncStr (str "unknown")).length = 8 := by decide +kernel
      have e2 : (lenEncStr (str "def")).length = 4 := by decide +kernel
      simp only [List.length_append, memory_length, e1, e2, List.length_cons, List.length_nil]
      omega
    omega
  · decide
  · obtain ⟨h1, h2⟩ := hr r hr'
    have := rowPayload_short (2 ^ 20) r (fun c hc => Nat.le_of_lt (h2 c hc))
    have : r.length * (9 + 2 ^ 20) ≤ 2 * (9 + 2 ^ 20) := Nat.mul_le_mul_right _ h1
    omega
  · decide

theorem isWord_toLower (c : UInt8) : isWord (toLower c) = isWord c :=
  forall_u8 (P := fun c => isWord (toLower c) = isWord c) (by decide +kernel) c

theorem isWord_toUpper (c : UInt8) : isWord (toUpper c) = isWord c :=
  forall_u8 (P := fun c => isWord (toUpper c) = isWord c) (by decide +kernel) c

/-- A text whose part before a NUL has a character that is no word is not the name of a variable. -/
theorem no_variable {q : Bytes} (version : Bytes) {c : UInt8} (hc : c ∈ cstr q) (hw : isWord c = false) :
    variableRows version q = [] := by
  unfold variableRows
  cases h : (variables version).find? (fun v => sIEquals v.1 q) with
  | none => rfl
  | some v =>
    exfalso
    have h1 := List.find?_some h
    obtain ⟨_, h2⟩ := names_words version v (List.mem_of_find?_eq_some h)
    have h0 : 0 ∉ v.1 := fun h => absurd (h2 0 h) (by decide)
    unfold sIEquals at h1
    rw [beq_iff_eq, cstr_eq h0] at h1
    have : toLower c ∈ sToLower v.1 := by rw [h1]; exact List.mem_map_of_mem hc
    obtain ⟨d, hd, e⟩ := List.mem_map.mp this
    have := h2 d hd
    rw [← isWord_toLower, e, isWord_toLower, hw] at this
    cases this

theorem mem_cstr {a b : Bytes} {c : UInt8} (h0 : 0 ∉ a) (hc : c ∈ a) : c ∈ cstr (a ++ b) := by
  induction a with
  | nil => cases hc
  | cons x a ih =>
    rw [List.cons_append, cstr_cons, if_neg (fun h => h0 (by simp [h]))]
    rcases List.mem_cons.mp hc with rfl | hc
    · exact List.mem_cons_self
    · exact List.mem_cons_of_mem _ (ih (fun h => h0 (List.mem_cons_of_mem _ h)) hc)

theorem toUpper_fixed {c d : UInt8} (hd : (d < 65 ∨ 90 < d) ∧ (d < 97 ∨ 122 < d)) (h : toUpper c = d) : c = d := by
  have : ∀ c : UInt8, ((toUpper c < 65 ∨ 90 < toUpper c) ∧ (toUpper c < 97 ∨ 122 < toUpper c)) → c = toUpper c :=
    forall_u8 (by decide +kernel)
  rw [this c (by rw [h]; exact hd), h]

/-- A text that starts, but for case, with something that has a character which is neither letter nor word. -/
theorem start_cstr {q w : Bytes} (h : w <+: sToUpper q) (h0 : 0 ∉ w) {d : UInt8} (hd : d ∈ w)
    (hs : (d < 65 ∨ 90 < d) ∧ (d < 97 ∨ 122 < d)) : d ∈ cstr q := by
  obtain ⟨t, ht⟩ := h
  have hl : w.length ≤ q.length := by
    rw [← upper_length q, ← ht, List.length_append]; omega
  have e : sToUpper (q.take w.length) = w := by
    unfold sToUpper at ht ⊢
    rw [List.map_take, ← ht, List.take_left]
  have hq : q = q.take w.length ++ q.drop w.length := (List.take_append_drop _ _).symm
  rw [hq]
  refine mem_cstr ?_ ?_
  · intro hz
    exact h0 (e ▸ List.mem_map_of_mem (f := toUpper) hz)
  · rw [← e] at hd
    obtain ⟨c, hc, hcd⟩ := List.mem_map.mp hd
    rwa [toUpper_fixed hs hcd] at hc

/-- C100.  What is missing: a client that asks for a variable never learns its value.  Every such query, in whatever
form, is answered with no row at all, under a column whose name is the whole query. -/
theorem c100_variable_unanswered (version : Bytes) (seq : UInt8) (q : Bytes) (h : isVariable q = true) :
    special version seq q = some (.answer (queryResponse seq.toNat [q] [])) := by
  have hv : variableRows version q = [] := by
    rcases isVariable_start h with h | ⟨h, h'⟩ | h
    · exact no_variable version (start_cstr h (by decide +kernel) (d := 64) (by decide +kernel) (by decide)) (by decide)
    · -- the character after SELECT is a blank
      unfold isVariable at *
      obtain ⟨t, ht⟩ := h
      cases t with
      | nil =>
        rw [← ht] at h'
        exact absurd (List.isPrefixOf_iff_prefix.mpr h') (by decide +kernel)
      | cons d t =>
        rw [← ht] at h'
        have e : (str "SELECT" ++ d :: t).drop 6 = d :: t := rfl
        rw [e] at h'
        have key : ∀ d : UInt8, (isSpace d = true ∨ d = 64) → (d < 65 ∨ 90 < d) ∧ (d < 97 ∨ 122 < d) ∧ isWord d = false ∧ d ≠ 0 :=
          forall_u8 (by decide +kernel)
        have hd : isSpace d = true ∨ d = 64 := by
          by_cases hs : isSpace d = true
          · exact .inl hs
          · rw [List.dropWhile_cons_of_neg hs] at h'
            obtain ⟨t', ht'⟩ := h'
            exact .inr (List.cons.inj ht').1.symm
        obtain ⟨k1, k2, k3, k4⟩ := key d hd
        refine no_variable version (start_cstr (w := str "SELECT" ++ [d]) ⟨t, by rw [List.append_assoc]; exact ht⟩ ?_
          (d := d) (by simp) ⟨k1, k2⟩) k3
        intro hz
        rcases List.mem_append.mp hz with hz | hz
        · exact absurd hz (by decide +kernel)
        · exact k4 (List.mem_singleton.mp hz).symm
    · exact no_variable version (start_cstr h (by decide +kernel) (d := 32) (by decide +kernel) (by decide)) (by decide)
  unfold special
  rw [if_pos h, hv]
  rfl

example : isVariable (b!"select  @@session.tx_isolation;") = true ∧ isVariable (b!"SHOW VARIABLES LIKE 'version';") = true ∧
    isVariable (str "@@autocommit") = true ∧ isVariable (str "SELECT 1, @@x;") = false := by decide +kernel

/-- C100.  `SHOW VARIABLES` gives all of them, as a client reads it. -/
theorem c100_show_variables (version : Bytes) (hl : version.length < 2000) (seq : UInt8) (q : Bytes)
    (hq : sIEquals q (str "SHOW VARIABLES;") = true) :
    ∃ b, special version seq q = some (.answer b) ∧ ∀ rest, Spec.readResult 293 seq.toNat (b ++ rest) =
      some (([str "Variable Name", str "Value"], (variables version).map fun v => [v.1, v.2]), rest) := by
  have hv : isVariable q = false := by
    rw [Bool.eq_false_iff]
    intro h
    have hs := sIEquals_start hq (by decide +kernel) (by decide +kernel)
    rcases isVariable_start h with h | ⟨h, _⟩ | h
    · exact clash h hs (by decide +kernel)
    · exact clash h hs (by decide +kernel)
    · exact clash h hs (by decide +kernel)
  refine ⟨queryResponse seq.toNat [str "Variable Name", str "Value"] ((variables version).map fun v => [v.1, v.2]), ?_, ?_⟩
  · unfold special
    rw [hv, if_neg (by decide), if_pos hq]
    rfl
  · intro rest
    have hlen : ((variables version).map fun v => [v.1, v.2]).length + 1 = 293 := by
      rw [List.length_map, c100_variables_count]
    have := c52_answer_partial seq.toNat [str "Variable Name", str "Value"] ((variables version).map fun v => [v.1, v.2])
      (by simp) ?_ ?_ (by simp) rest
    · rwa [hlen] at this
    · refine short_payloads _ _ (by decide +kernel) ?_
      intro r hr
      obtain ⟨v, hv, rfl⟩ := List.mem_map.mp hr
      obtain ⟨h1, h2⟩ := values_short version hl v hv
      refine ⟨by simp, ?_⟩
      intro c hc
      simp only [List.mem_cons, List.not_mem_nil, or_false] at hc
      rcases hc with rfl | rfl
      · exact Nat.lt_trans h1 (by decide)
      · exact Nat.lt_trans h2 (by decide)
    · intro r hr
      obtain ⟨v, _, rfl⟩ := List.mem_map.mp hr
      rfl

/-! ## Past the fixed questions -/

theorem dropWhile_blank (a s : Bytes) (ha : ∀ c ∈ a, isSpace c = true) (hs : isSpace (s.headD 0) = false) :
    (a ++ s).dropWhile isSpace = s := by
  rw [Attr.Props.dropWhile_all isSpace a s ha]
  cases s with
  | nil => rfl
  | cons c s => rw [List.headD_cons] at hs; rw [List.dropWhile_cons_of_neg (by simp [hs])]

/-- The questions that are known by heart. -/
def byHeart : List Bytes := [str "SHOW VARIABLES;", str "SHOW DATABASES;", str "SELECT DATABASE();",
  str "SELECT * FROM (SELECT DATABASE() AS DATABASE_NAME) A WHERE A.DATABASE_NAME IS NOT NULL;",
  str "SHOW /*!50002 FULL*/ TABLES;", str "SHOW FULL TABLES;", odbcQuestion]

theorem byHeart_facts : ∀ w ∈ byHeart, 0 ∉ w ∧ sToUpper w = w := by decide +kernel

theorem not_byHeart {q : Bytes} (h : ∀ w ∈ byHeart, ¬ w <+: sToUpper q) (w : Bytes) (hw : w ∈ byHeart) :
    sIEquals q w = false ∧ sIEquals (sToUpper q) w = false :=
  ⟨Bool.eq_false_iff.mpr fun h' => h w hw (sIEquals_start h' (byHeart_facts w hw).1 (byHeart_facts w hw).2),
   Bool.eq_false_iff.mpr fun h' => h w hw (sIEquals_upper_start h' (byHeart_facts w hw).1 (byHeart_facts w hw).2)⟩

/-- What `special` does when the first questions do not fit. -/
theorem special_past (version : Bytes) (seq : UInt8) {q : Bytes} (hv : isVariable q = false)
    (h : ∀ w ∈ byHeart, ¬ w <+: sToUpper q) : special version seq q =
    if sContains (sToUpper q) (str "INFORMATION_SCHEMA.TABLES") then some (.request seq tablesSQL)
    else if sContains (sToUpper q) (str "INFORMATION_SCHEMA.VIEWS") then some (.request seq viewsSQL)
    else if sContains (sToUpper q) (str "INFORMATION_SCHEMA.COLUMNS") then
      some (named seq (columnsTable q) columnsParts "columns")
    else if sContains q (str "information_schema") then some (.answer (queryResponse seq.toNat [] []))
    else if (str "SET ").isPrefixOf (sToUpper q) ∨ (str "USE ").isPrefixOf (sToUpper q) ∨ sIEquals q (str "ROLLBACK;") then
      some (.answer (serialize (okPacket seq.toNat)))
    else if sIEquals (sToUpper q) (str "SELECT $$;") then some (.answer (serialize (okPacket seq.toNat)))
    else match parseCall (str "VERSION") q with
      | some alias => some (.answer (queryResponse seq.toNat [sToLower (alias.getD (str "version()"))] [[mysqlVersion]]))
      | none => match parseCall (str "CONNECTION_ID") q with
        | some alias => some (.answer (queryResponse seq.toNat [sToLower (alias.getD (str "connection_id()"))] [[str "1"]]))
        | none =>
          if sContains (sToUpper q) (str "SHOW KEYS FROM") then some (named seq (keysTable q) keysParts "SHOW KEYS")
          else if isForeign q then some (named seq (foreignTable q) foreignParts "foreign key")
          else none := by
  have hb := not_byHeart h
  unfold special
  rw [hv, (hb (str "SHOW VARIABLES;") (by simp [byHeart])).1, (hb (str "SHOW DATABASES;") (by simp [byHeart])).1,
    (hb (str "SELECT DATABASE();") (by simp [byHeart])).2,
    (hb (str "SELECT * FROM (SELECT DATABASE() AS DATABASE_NAME) A WHERE A.DATABASE_NAME IS NOT NULL;") (by simp [byHeart])).2,
    (hb (str "SHOW /*!50002 FULL*/ TABLES;") (by simp [byHeart])).2, (hb (str "SHOW FULL TABLES;") (by simp [byHeart])).2,
    (hb odbcQuestion (by simp [byHeart])).2]
  rfl

/-- A `SELECT` that goes on with something else than the fixed questions do. -/
theorem select_past {q : Bytes} (hs : str "SELECT" <+: sToUpper q)
    (hn : ∀ w ∈ [str "@@", str "DATABASE();", str "* FROM (SELECT DATABASE()", str "TABLE_NAME,TABLE_COMMENT,IF("],
      ¬ w <+: ((sToUpper q).drop 6).dropWhile isSpace) :
    isVariable q = false ∧ ∀ w ∈ byHeart, ¬ w <+: sToUpper q := by
  constructor
  · rw [Bool.eq_false_iff]
    intro h
    rcases isVariable_start h with h | ⟨_, h⟩ | h
    · exact clash h hs (by decide +kernel)
    · exact hn _ (by simp) h
    · exact clash h hs (by decide +kernel)
  · intro w hw h
    have all : ∀ w ∈ byHeart, ((w.isPrefixOf (str "SELECT") || (str "SELECT").isPrefixOf w) = false) ∨
        ∃ x ∈ [str "DATABASE();", str "* FROM (SELECT DATABASE()", str "TABLE_NAME,TABLE_COMMENT,IF("],
          (str "SELECT " ++ x).isPrefixOf w = true ∧ isSpace (x.headD 0) = false ∧ x ≠ [] := by decide +kernel
    rcases all w hw with h1 | ⟨x, hx, h2, h3, h4⟩
    · exact clash h hs h1
    · exact hn x (List.mem_cons_of_mem _ hx) (select_start (prefix_trans' h2 h) h3 h4).2

/-! ## Questions about the server -/

theorem parseCall_text (fn q a b r : Bytes) (hq : sToUpper q = str "SELECT" ++ a ++ (fn ++ str "(") ++ b ++ str ")" ++ r)
    (ha : ∀ c ∈ a, isSpace c = true) (hne : a ≠ []) (hb : ∀ c ∈ b, isSpace c = true)
    (hf : isSpace ((fn ++ str "(").headD 0) = false) :
    ((sToUpper q).drop 6).dropWhile isSpace = fn ++ str "(" ++ (b ++ (str ")" ++ r)) ∧ parseCall fn q = asAlias r := by
  have e1 : (sToUpper q).drop 6 = a ++ (fn ++ str "(" ++ (b ++ (str ")" ++ r))) := by
    rw [hq]; simp only [List.append_assoc]; rfl
  have e2 : ((sToUpper q).drop 6).dropWhile isSpace = fn ++ str "(" ++ (b ++ (str ")" ++ r)) := by
    rw [e1, dropWhile_blank _ _ ha]
    cases fn with
    | nil => exact hf
    | cons c fn => exact hf
  refine ⟨e2, ?_⟩
  unfold parseCall
  have hs : (str "SELECT").isPrefixOf (sToUpper q) = true := by
    rw [hq]; simp only [List.append_assoc]; exact List.isPrefixOf_iff_prefix.mpr (List.prefix_append _ _)
  have hsp : isSpace (((sToUpper q).drop 6).headD 0) = true := by
    rw [e1]
    cases a with
    | nil => exact absurd rfl hne
    | cons c a => exact ha c List.mem_cons_self
  have hp : (fn ++ str "(").isPrefixOf (fn ++ str "(" ++ (b ++ (str ")" ++ r))) = true :=
    List.isPrefixOf_iff_prefix.mpr (List.prefix_append _ _)
  have hd : (fn ++ str "(" ++ (b ++ (str ")" ++ r))).drop (fn.length + 1) = b ++ (str ")" ++ r) := by
    have : fn.length + 1 = (fn ++ str "(").length := by rw [List.length_append]; rfl
    rw [this, List.drop_left]
  simp only [hs, hsp, e2, Bool.and_self, if_true, hp, hd]
  rw [dropWhile_blank _ _ hb (by rfl)]
  rfl

theorem asAlias_none (c : Bytes) (hc : ∀ x ∈ c, isSpace x = true) : asAlias (c ++ str ";") = some none := by
  unfold asAlias
  have : (c ++ str ";").dropWhile isSpace = [59] := dropWhile_blank _ _ hc (by decide)
  simp [this]

theorem takeWhile_word (n s : Bytes) (hn : ∀ c ∈ n, isWord c = true) (hs : isWord (s.headD 0) = false) :
    (n ++ s).takeWhile isWord = n ∧ (n ++ s).dropWhile isWord = s := by
  have e : s.takeWhile isWord = [] ∧ s.dropWhile isWord = s := by
    cases s with
    | nil => exact ⟨rfl, rfl⟩
    | cons c s =>
      rw [List.headD_cons] at hs
      exact ⟨List.takeWhile_cons_of_neg (by simp [hs]), List.dropWhile_cons_of_neg (by simp [hs])⟩
  rw [List.takeWhile_append_of_pos hn, List.dropWhile_append_of_pos hn, e.1, e.2, List.append_nil]
  exact ⟨rfl, rfl⟩

theorem asAlias_some (c d n e : Bytes) (hc : ∀ x ∈ c, isSpace x = true) (hc' : c ≠ []) (hd : ∀ x ∈ d, isSpace x = true)
    (hd' : d ≠ []) (hn : ∀ x ∈ n, isWord x = true) (hn' : n ≠ []) (he : ∀ x ∈ e, isSpace x = true) :
    asAlias (c ++ (str "AS" ++ (d ++ (n ++ (e ++ str ";"))))) = some (some n) := by
  unfold asAlias
  have e1 : (c ++ (str "AS" ++ (d ++ (n ++ (e ++ str ";"))))).dropWhile isSpace = str "AS" ++ (d ++ (n ++ (e ++ str ";"))) :=
    dropWhile_blank _ _ hc (by rfl)
  have notsp : ∀ x : UInt8, isWord x = true → isSpace x = false := forall_u8 (by decide +kernel)
  have spnot : ∀ x : UInt8, isSpace x = true → isWord x = false := forall_u8 (by decide +kernel)
  have e2 : (d ++ (n ++ (e ++ str ";"))).dropWhile isSpace = n ++ (e ++ str ";") := by
    refine dropWhile_blank _ _ hd ?_
    cases n with
    | nil => exact absurd rfl hn'
    | cons x n => exact notsp x (hn x List.mem_cons_self)
  have hw : isWord ((e ++ str ";").headD 0) = false := by
    cases e with
    | nil => decide
    | cons x e => exact spnot x (he x List.mem_cons_self)
  obtain ⟨e3, e4⟩ := takeWhile_word n (e ++ str ";") hn hw
  have e5 : (e ++ str ";").dropWhile isSpace = [59] := dropWhile_blank _ _ he (by decide)
  have h1 : isSpace ((c ++ (str "AS" ++ (d ++ (n ++ (e ++ str ";"))))).headD 0) = true := by
    cases c with
    | nil => exact absurd rfl hc'
    | cons x c => exact hc x List.mem_cons_self
  have h2 : (str "AS").isPrefixOf (str "AS" ++ (d ++ (n ++ (e ++ str ";")))) = true :=
    List.isPrefixOf_iff_prefix.mpr (List.prefix_append _ _)
  have h3 : (str "AS" ++ (d ++ (n ++ (e ++ str ";")))).drop 2 = d ++ (n ++ (e ++ str ";")) := rfl
  have h4 : isSpace ((d ++ (n ++ (e ++ str ";"))).headD 0) = true := by
    cases d with
    | nil => exact absurd rfl hd'
    | cons x d => exact hd x List.mem_cons_self
  have h5 : ¬ (str "AS" ++ (d ++ (n ++ (e ++ str ";"))) = [] ∨ str "AS" ++ (d ++ (n ++ (e ++ str ";"))) = [59]) := by
    rintro (h | h)
    · cases h
    · cases h
  simp only [e1, if_neg h5, h1, h2, h3, h4, e2, e3, e4, e5, Bool.and_self, if_true]
  rw [if_pos ⟨hn', .inr trivial⟩]

/-- The answers to `VERSION()` and `CONNECTION_ID()`. -/
def callAnswer (fn : Bytes) : Bytes × Bytes :=
  if fn = str "VERSION" then (str "version()", str "5.1.73-log") else (str "connection_id()", str "1")

theorem call_special (version : Bytes) (seq : UInt8) (fn q a b r : Bytes) (al : Option Bytes)
    (hf : fn = str "VERSION" ∨ fn = str "CONNECTION_ID")
    (hq : sToUpper q = str "SELECT" ++ a ++ (fn ++ str "(") ++ b ++ str ")" ++ r)
    (ha : ∀ c ∈ a, isSpace c = true) (hne : a ≠ []) (hb : ∀ c ∈ b, isSpace c = true)
    (hi : ¬ str "INFORMATION_SCHEMA" <:+: sToUpper q) (hal : asAlias r = some al) :
    special version seq q = some (.answer (queryResponse seq.toNat [sToLower (al.getD (callAnswer fn).1)] [[(callAnswer fn).2]])) := by
  obtain ⟨h1, h2⟩ := parseCall_text fn q a b r hq ha hne hb (by rcases hf with rfl | rfl <;> decide +kernel)
  have hs : str "SELECT" <+: sToUpper q := by
    rw [hq]; simp only [List.append_assoc]; exact List.prefix_append _ _
  have hp : fn ++ str "(" <+: ((sToUpper q).drop 6).dropWhile isSpace := by rw [h1]; exact List.prefix_append _ _
  obtain ⟨p1, p2⟩ := select_past hs (fun w hw h => by
    have : (w.isPrefixOf (fn ++ str "(") || (fn ++ str "(").isPrefixOf w) = false := by
      rcases hf with rfl | rfl
      · exact (show ∀ w ∈ [str "@@", str "DATABASE();", str "* FROM (SELECT DATABASE()", str "TABLE_NAME,TABLE_COMMENT,IF("],
          (w.isPrefixOf (str "VERSION" ++ str "(") || (str "VERSION" ++ str "(").isPrefixOf w) = false by decide +kernel) w hw
      · exact (show ∀ w ∈ [str "@@", str "DATABASE();", str "* FROM (SELECT DATABASE()", str "TABLE_NAME,TABLE_COMMENT,IF("],
          (w.isPrefixOf (str "CONNECTION_ID" ++ str "(") || (str "CONNECTION_ID" ++ str "(").isPrefixOf w) = false by
            decide +kernel) w hw
    exact clash h hp this)
  have no (w : Bytes) (hw : sContains w (str "INFORMATION_SCHEMA") = true) : sContains (sToUpper q) w = false := by
    rw [Bool.eq_false_iff]
    intro h
    exact hi ((sContains_iff.mp hw).trans (sContains_iff.mp h))
  have e9 : sContains q (str "information_schema") = false := Bool.eq_false_iff.mpr fun h => by
    obtain ⟨x, y, hab⟩ := sContains_iff.mp h
    refine hi ⟨sToUpper x, sToUpper y, ?_⟩
    have : str "INFORMATION_SCHEMA" = sToUpper (str "information_schema") := by decide +kernel
    rw [this, ← upper_append, ← upper_append, hab]
  have e10 : ¬ ((str "SET ").isPrefixOf (sToUpper q) = true ∨ (str "USE ").isPrefixOf (sToUpper q) = true ∨
      sIEquals q (str "ROLLBACK;") = true) := by
    rintro (h | h | h)
    · exact clash (List.isPrefixOf_iff_prefix.mp h) hs (by decide +kernel)
    · exact clash (List.isPrefixOf_iff_prefix.mp h) hs (by decide +kernel)
    · exact clash (sIEquals_start h (by decide +kernel) (by decide +kernel)) hs (by decide +kernel)
  have e11 : ¬ sIEquals (sToUpper q) (str "SELECT $$;") = true := by
    intro h
    have := (select_start (w := str "$$;") (sIEquals_upper_start h (by decide +kernel) (by decide +kernel)) (by decide +kernel)
      (by decide +kernel)).2
    exact clash this hp (by rcases hf with rfl | rfl <;> decide +kernel)
  rw [special_past version seq p1 p2, no _ (by decide +kernel), no _ (by decide +kernel), no _ (by decide +kernel), e9,
    if_neg (by decide), if_neg (by decide), if_neg (by decide), if_neg (by decide), if_neg e10, if_neg e11]
  rcases hf with rfl | rfl
  · rw [h2, hal]
    rfl
  · have e12 : parseCall (str "VERSION") q = none := Classical.byContradiction fun h =>
      clash (parseCall_start h).2 hp (by decide +kernel)
    rw [e12, h2, hal]
    rfl

/-- C100.  `SELECT VERSION()` and `SELECT CONNECTION_ID()` have their one row, in whatever case and with whatever blanks
they are written. -/
theorem c100_call (version : Bytes) (seq : UInt8) (fn q a b c : Bytes) (hf : fn = str "VERSION" ∨ fn = str "CONNECTION_ID")
    (hq : sToUpper q = str "SELECT" ++ a ++ (fn ++ str "(") ++ b ++ str ")" ++ (c ++ str ";"))
    (ha : ∀ x ∈ a ++ b ++ c, isSpace x = true) (hne : a ≠ []) (hi : ¬ str "INFORMATION_SCHEMA" <:+: sToUpper q) :
    special version seq q = some (.answer (queryResponse seq.toNat [(callAnswer fn).1] [[(callAnswer fn).2]])) := by
  have := call_special version seq fn q a b (c ++ str ";") none hf hq (fun x hx => ha x (by simp [hx])) hne
    (fun x hx => ha x (by simp [hx])) hi (asAlias_none c (fun x hx => ha x (by simp [hx])))
  have low : sToLower ((none : Option Bytes).getD (callAnswer fn).1) = (callAnswer fn).1 := by
    rcases hf with rfl | rfl <;> decide +kernel
  rw [this, low]

example (version : Bytes) : special version 0 (b!"select\t  version( ) ;") =
    some (.answer (queryResponse 0 [str "version()"] [[str "5.1.73-log"]])) :=
  c100_call version 0 (str "VERSION") _ (str "\t  ") (str " ") (str " ") (.inl rfl) (by decide +kernel) (by decide +kernel)
    (by decide +kernel) (fun h => absurd (sContains_iff.mpr h) (by decide +kernel))

/-- C100.  With an alias the column has its name, in small letters. -/
theorem c100_call_alias (version : Bytes) (seq : UInt8) (fn q a b c d n e : Bytes) (hf : fn = str "VERSION" ∨ fn = str "CONNECTION_ID")
    (hq : sToUpper q = str "SELECT" ++ a ++ (fn ++ str "(") ++ b ++ str ")" ++ (c ++ (str "AS" ++ (d ++ (n ++ (e ++ str ";"))))))
    (ha : ∀ x ∈ a ++ b ++ c ++ d ++ e, isSpace x = true) (hne : a ≠ [] ∧ c ≠ [] ∧ d ≠ [] ∧ n ≠ [])
    (hn : ∀ x ∈ n, isWord x = true) (hi : ¬ str "INFORMATION_SCHEMA" <:+: sToUpper q) :
    special version seq q = some (.answer (queryResponse seq.toNat [sToLower n] [[(callAnswer fn).2]])) :=
  call_special version seq fn q a b _ (some n) hf hq (fun x hx => ha x (by simp [hx])) hne.1
    (fun x hx => ha x (by simp [hx])) hi (asAlias_some c d n e (fun x hx => ha x (by simp [hx])) hne.2.1
      (fun x hx => ha x (by simp [hx])) hne.2.2.1 hn hne.2.2.2 (fun x hx => ha x (by simp [hx])))

example (version : Bytes) : special version 0 (b!"SELECT Connection_Id() as ID_1;") =
    some (.answer (queryResponse 0 [str "id_1"] [[str "1"]])) :=
  c100_call_alias version 0 (str "CONNECTION_ID") _ (str " ") [] (str " ") (str " ") (str "ID_1") [] (.inr rfl) (by decide +kernel)
    (by decide +kernel) (by decide +kernel) (by decide +kernel) (fun h => absurd (sContains_iff.mpr h) (by decide +kernel))

/-! ## Questions about a table -/

theorem takeWhile_until (p : UInt8 → Bool) (n s : Bytes) (hn : ∀ c ∈ n, p c = true) (c : UInt8) (hc : p c = false) :
    (n ++ c :: s).takeWhile p = n ∧ (n ++ c :: s).dropWhile p = c :: s := by
  rw [List.takeWhile_append_of_pos hn, List.dropWhile_append_of_pos hn, List.takeWhile_cons_of_neg (by simp [hc]),
    List.dropWhile_cons_of_neg (by simp [hc]), List.append_nil]
  exact ⟨rfl, rfl⟩

theorem upper_mem_eq {s : Bytes} (h : 61 ∈ sToUpper s) : 61 ∈ s := by
  unfold sToUpper at h
  obtain ⟨c, hc, h⟩ := List.mem_map.mp h
  have : ∀ c : UInt8, toUpper c = 61 → c = 61 := forall_u8 (by decide +kernel)
  rw [this c h] at hc
  exact hc

theorem findSub_one (a s : Bytes) (h : 61 ∉ a) : findSub (str "=") (a ++ str "=" ++ s) = some a.length := by
  refine Edit.Props.findSub_at fun x hx => ?_
  rcases Nat.lt_or_ge x.length a.length with hl | hl
  · obtain ⟨t, ht⟩ := hx
    exfalso
    refine h ?_
    have e : (x ++ str "=" ++ t)[x.length]? = (a ++ str "=" ++ s)[x.length]? := by rw [ht]
    rw [List.append_assoc, List.getElem?_append_right (Nat.le_refl _), Nat.sub_self, List.append_assoc,
      List.getElem?_append_left hl] at e
    exact List.mem_of_getElem? (show a[x.length]? = some 61 from e.symm.trans rfl)
  · exact hl

/-- C100.  The name that is read from a question for columns: what stands in quotes after the first `=` after the first
`TABLE_NAME`. -/
theorem columns_name (pre tn mid lead name post : Bytes) (k : UInt8) (htn : sToUpper tn = str "TABLE_NAME")
    (hfirst : ∀ x, (x ++ str "TABLE_NAME") <+: sToUpper (pre ++ tn ++ (mid ++ (str "=" ++ (lead ++ k :: (name ++ k :: post))))) →
      pre.length ≤ x.length)
    (hmid : 61 ∉ mid) (hlead : 39 ∉ lead ∧ 34 ∉ lead) (hk : k = 39 ∨ k = 34) (hname : k ∉ name) :
    columnsTable (pre ++ tn ++ (mid ++ (str "=" ++ (lead ++ k :: (name ++ k :: post))))) = name := by
  let rest := mid ++ (str "=" ++ (lead ++ k :: (name ++ k :: post)))
  have hl : tn.length = 10 := by rw [← upper_length, htn]; rfl
  have f1 : findSub (str "TABLE_NAME") (sToUpper (pre ++ tn ++ rest)) = some pre.length := by
    have e : sToUpper (pre ++ tn ++ rest) = sToUpper pre ++ str "TABLE_NAME" ++ sToUpper rest := by
      rw [upper_append, upper_append, htn]
    have h1 := hfirst
    rw [show mid ++ (str "=" ++ (lead ++ k :: (name ++ k :: post))) = rest from rfl, e, ← upper_length pre] at h1
    rw [e, Edit.Props.findSub_at h1, upper_length]
  have d1 : (pre ++ tn ++ rest).drop pre.length = tn ++ rest := by rw [List.append_assoc, List.drop_left]
  have f2 : findSub (str "=") ((sToUpper (pre ++ tn ++ rest)).drop pre.length) = some (10 + mid.length) := by
    have e : (sToUpper (pre ++ tn ++ rest)).drop pre.length = (str "TABLE_NAME" ++ sToUpper mid) ++ str "=" ++
        sToUpper (lead ++ k :: (name ++ k :: post)) := by
      have : (sToUpper (pre ++ tn ++ rest)).drop pre.length = sToUpper ((pre ++ tn ++ rest).drop pre.length) := by
        unfold sToUpper; rw [List.map_drop]
      rw [this, d1, upper_append, htn, upper_append, upper_append]
      simp only [List.append_assoc]
      rfl
    rw [e, findSub_one _ _ ?_, List.length_append, upper_length]
    · rfl
    · rw [List.mem_append]
      rintro (h | h)
      · revert h; decide +kernel
      · exact hmid (upper_mem_eq h)
  have d2 : (pre ++ tn ++ rest).drop (pre.length + (10 + mid.length)) = (61 :: lead) ++ k :: (name ++ k :: post) := by
    rw [← List.drop_drop, d1, ← List.drop_drop, ← hl, List.drop_left, List.drop_left]
    rfl
  have hq : ∀ c ∈ (61 :: lead : Bytes), (fun c : UInt8 => c != 39 && c != 34) c = true := by
    intro c hc
    rcases List.mem_cons.mp hc with rfl | hc
    · decide
    · have h1 : c ≠ 39 := fun h => hlead.1 (h ▸ hc)
      have h2 : c ≠ 34 := fun h => hlead.2 (h ▸ hc)
      simp [h1, h2]
  have hkf : (fun c : UInt8 => c != 39 && c != 34) k = false := by rcases hk with rfl | rfl <;> decide
  have hn : ∀ c ∈ name, (fun c : UInt8 => c != k) c = true := by
    intro c hc
    have : c ≠ k := fun h => hname (h ▸ hc)
    simp [this]
  show columnsTable (pre ++ tn ++ rest) = name
  unfold columnsTable
  simp only [f1, f2, d2, (takeWhile_until _ (61 :: lead) (name ++ k :: post) hq k hkf).2]
  rw [if_pos (by simp), (takeWhile_until _ name post hn k (by simp)).1]

/-- C100.  A question for the columns of a table asks the database for the columns of that table. -/
theorem c100_columns (version : Bytes) (seq : UInt8) (pre tn mid lead name post q : Bytes) (k : UInt8)
    (hq : q = pre ++ tn ++ (mid ++ (str "=" ++ (lead ++ k :: (name ++ k :: post)))))
    (htn : sToUpper tn = str "TABLE_NAME") (hfirst : ∀ x, (x ++ str "TABLE_NAME") <+: sToUpper q → pre.length ≤ x.length)
    (hmid : 61 ∉ mid) (hlead : 39 ∉ lead ∧ 34 ∉ lead) (hk : k = 39 ∨ k = 34) (hname : k ∉ name) (hne : name ≠ [])
    (hsel : str "SELECT" <+: sToUpper q)
    (hn : ∀ w ∈ [str "@@", str "DATABASE();", str "* FROM (SELECT DATABASE()", str "TABLE_NAME,TABLE_COMMENT,IF("],
      ¬ w <+: ((sToUpper q).drop 6).dropWhile isSpace)
    (hc : str "INFORMATION_SCHEMA.COLUMNS" <:+: sToUpper q) (ht : ¬ str "INFORMATION_SCHEMA.TABLES" <:+: sToUpper q)
    (hv : ¬ str "INFORMATION_SCHEMA.VIEWS" <:+: sToUpper q) :
    special version seq q = some (.request seq (fill (sq name) columnsParts)) := by
  obtain ⟨p1, p2⟩ := select_past hsel hn
  rw [special_past version seq p1 p2, if_neg (fun h => ht (sContains_iff.mp h)), if_neg (fun h => hv (sContains_iff.mp h)),
    if_pos (sContains_iff.mpr hc), hq, columns_name pre tn mid lead name post k htn (hq ▸ hfirst) hmid hlead hk hname]
  unfold named
  rw [if_pos hne]

example (version : Bytes) : special version 0
      (b!"SELECT * FROM information_schema.columns WHERE table_name = 'it\"s' ORDER BY ordinal_position;") =
    some (.request 0 (fill (str "'it\"s'") columnsParts)) := by
  refine c100_columns version 0 (b!"SELECT * FROM information_schema.columns WHERE ") (str "table_name") (str " ") (str " ")
    (str "it\"s") (b!" ORDER BY ordinal_position;") _ 39 (by decide +kernel) (by decide +kernel) ?_ (by decide +kernel)
    (by decide +kernel) (.inl rfl) (by decide +kernel) (by decide +kernel) (List.isPrefixOf_iff_prefix.mp (by decide +kernel)) ?_
    (sContains_iff.mp (by decide +kernel)) (fun h => absurd (sContains_iff.mpr h) (by decide +kernel))
    (fun h => absurd (sContains_iff.mpr h) (by decide +kernel))
  · have hf : findSub (str "TABLE_NAME") (sToUpper (b!"SELECT * FROM information_schema.columns WHERE table_name = 'it\"s' ORDER BY ordinal_position;"))
        = some 47 := by decide +kernel
    exact (Edit.Props.findSub_first hf).2.1
  · intro w hw h
    exact absurd (List.isPrefixOf_iff_prefix.mpr h) (by revert w; decide +kernel)

/-- C100 fails here: a question that names the column before it compares it asks for the columns of something else - here
the columns of `main`, where the client asked for those of `jobs`. -/
theorem c100_columns_wrong_table (version : Bytes) : special version 0
      (str "SELECT table_name FROM information_schema.columns WHERE table_schema = 'main' AND table_name = 'jobs';") =
    some (.request 0 (fill (str "'main'") columnsParts)) := by
  have h : isVariable (str "SELECT table_name FROM information_schema.columns WHERE table_schema = 'main' AND table_name = 'jobs';")
      = false ∧ ∀ w ∈ byHeart, ¬ w <+: sToUpper (str "SELECT table_name FROM information_schema.columns WHERE table_schema = 'main' AND table_name = 'jobs';") := by
    refine select_past (List.isPrefixOf_iff_prefix.mp (by decide +kernel)) ?_
    intro w hw h
    exact absurd (List.isPrefixOf_iff_prefix.mpr h) (by revert w; decide +kernel)
  rw [special_past version 0 h.1 h.2]
  decide +kernel

/-- C100.  Any other question to `information_schema`, in small letters, is answered at once with nothing: also one for
foreign keys, which has a translation of its own, but further down. -/
theorem c100_foreign_shadowed (version : Bytes) (seq : UInt8) (q : Bytes) (hsel : str "SELECT" <+: sToUpper q)
    (hn : ∀ w ∈ [str "@@", str "DATABASE();", str "* FROM (SELECT DATABASE()", str "TABLE_NAME,TABLE_COMMENT,IF("],
      ¬ w <+: ((sToUpper q).drop 6).dropWhile isSpace)
    (hi : str "information_schema" <:+: q) (ht : ¬ str "INFORMATION_SCHEMA.TABLES" <:+: sToUpper q)
    (hv : ¬ str "INFORMATION_SCHEMA.VIEWS" <:+: sToUpper q) (hc : ¬ str "INFORMATION_SCHEMA.COLUMNS" <:+: sToUpper q) :
    special version seq q = some (.answer (queryResponse seq.toNat [] [])) := by
  obtain ⟨p1, p2⟩ := select_past hsel hn
  rw [special_past version seq p1 p2, if_neg (fun h => ht (sContains_iff.mp h)), if_neg (fun h => hv (sContains_iff.mp h)),
    if_neg (fun h => hc (sContains_iff.mp h)), if_pos (sContains_iff.mpr hi)]

-- the question DBeaver and others ask, as they write it
example (version : Bytes) : special version 0 ((b!"SELECT * FROM information_schema.key_column_usage k JOIN " ++
      b!"information_schema.referential_constraints r WHERE k.table_name = 'jobs';")) =
    some (.answer (queryResponse 0 [] [])) := by
  refine c100_foreign_shadowed version 0 _ (List.isPrefixOf_iff_prefix.mp (by decide +kernel)) ?_ (sContains_iff.mp (by decide +kernel))
    (fun h => absurd (sContains_iff.mpr h) (by decide +kernel)) (fun h => absurd (sContains_iff.mpr h) (by decide +kernel))
    (fun h => absurd (sContains_iff.mpr h) (by decide +kernel))
  intro w hw h
  exact absurd (List.isPrefixOf_iff_prefix.mpr h) (by revert w; decide +kernel)

theorem foreign_name (pre tn mid lead name post : Bytes) (k j : UInt8) (htn : sToUpper tn = str "TABLE_NAME")
    (hfirst : ∀ x, (x ++ str "TABLE_NAME") <+: sToUpper (pre ++ (tn ++ (mid ++ 61 :: (lead ++ k :: (name ++ j :: post))))) →
      pre.length ≤ x.length)
    (hb : ∀ c ∈ mid ++ lead, isSpace c = true) (hk : (k = 39 ∨ k = 34) ∧ (j = 39 ∨ j = 34))
    (hname : 39 ∉ name ∧ 34 ∉ name) (hne : name ≠ []) :
    foreignTable (pre ++ (tn ++ (mid ++ 61 :: (lead ++ k :: (name ++ j :: post))))) = name := by
  induction pre with
  | nil =>
    have hl : tn.length = 10 := by rw [← upper_length, htn]; rfl
    have hp : (str "TABLE_NAME").isPrefixOf (sToUpper (tn ++ (mid ++ 61 :: (lead ++ k :: (name ++ j :: post))))) = true := by
      rw [upper_append, htn]; exact List.isPrefixOf_iff_prefix.mpr (List.prefix_append _ _)
    have hd : (tn ++ (mid ++ 61 :: (lead ++ k :: (name ++ j :: post)))).drop 10 =
        mid ++ 61 :: (lead ++ k :: (name ++ j :: post)) := by rw [← hl, List.drop_left]
    have he : equalsName (mid ++ 61 :: (lead ++ k :: (name ++ j :: post))) = some name := by
      unfold equalsName
      have e1 : (mid ++ 61 :: (lead ++ k :: (name ++ j :: post))).dropWhile isSpace = 61 :: (lead ++ k :: (name ++ j :: post)) :=
        dropWhile_blank _ _ (fun c hc => hb c (List.mem_append_left _ hc)) (by rfl)
      have e2 : (lead ++ k :: (name ++ j :: post)).dropWhile isSpace = k :: (name ++ j :: post) :=
        dropWhile_blank _ _ (fun c hc => hb c (List.mem_append_right _ hc)) (by rcases hk.1 with rfl | rfl <;> rfl)
      have e3 := (takeWhile_until (fun c => c != 39 && c != 34) name post (fun c hc => by
        have h1 : c ≠ 39 := fun h => hname.1 (h ▸ hc)
        have h2 : c ≠ 34 := fun h => hname.2 (h ▸ hc)
        simp [h1, h2]) j (by rcases hk.2 with rfl | rfl <;> decide)).1
      simp only [e1, e2, e3]
      rw [if_pos ⟨hk.1, hne, by rw [List.length_append, List.length_cons]; omega⟩]
    show foreignTable (tn ++ (mid ++ 61 :: (lead ++ k :: (name ++ j :: post)))) = name
    cases tn with
    | nil => cases hl
    | cons t tn =>
      rw [List.cons_append] at hp hd ⊢
      rw [foreignTable, if_pos hp, hd, he]
  | cons c pre ih =>
    have hno : ¬ (str "TABLE_NAME").isPrefixOf (sToUpper (c :: (pre ++ (tn ++ (mid ++ 61 :: (lead ++ k :: (name ++ j :: post))))))) = true := by
      intro h
      have := hfirst [] (List.isPrefixOf_iff_prefix.mp h)
      cases this
    rw [List.cons_append, foreignTable, if_neg hno]
    refine ih fun x hx => ?_
    have := hfirst (toUpper c :: x) (by
      obtain ⟨t, ht⟩ := hx
      exact ⟨t, by
        exact (congrArg (toUpper c :: ·) ht).trans rfl⟩)
    simpa using this

/-- C100.  A question for foreign keys in capital letters asks the database for the foreign keys of the table it names. -/
theorem c100_foreign (version : Bytes) (seq : UInt8) (pre tn mid lead name post q : Bytes) (k j : UInt8)
    (hq : q = pre ++ (tn ++ (mid ++ 61 :: (lead ++ k :: (name ++ j :: post)))))
    (htn : sToUpper tn = str "TABLE_NAME") (hfirst : ∀ x, (x ++ str "TABLE_NAME") <+: sToUpper q → pre.length ≤ x.length)
    (hb : ∀ c ∈ mid ++ lead, isSpace c = true) (hk : (k = 39 ∨ k = 34) ∧ (j = 39 ∨ j = 34))
    (hname : 39 ∉ name ∧ 34 ∉ name) (hne : name ≠ []) (hsel : str "SELECT" <+: sToUpper q)
    (hn : ∀ w ∈ [str "@@", str "DATABASE();", str "* FROM (SELECT DATABASE()", str "TABLE_NAME,TABLE_COMMENT,IF(", str "$$;",
      str "VERSION(", str "CONNECTION_ID("], ¬ w <+: ((sToUpper q).drop 6).dropWhile isSpace)
    (h1 : str "INFORMATION_SCHEMA.KEY_COLUMN_USAGE" <:+: sToUpper q)
    (h2 : str "INFORMATION_SCHEMA.REFERENTIAL_CONSTRAINTS" <:+: sToUpper q)
    (hi : ¬ str "information_schema" <:+: q) (ht : ¬ str "INFORMATION_SCHEMA.TABLES" <:+: sToUpper q)
    (hv : ¬ str "INFORMATION_SCHEMA.VIEWS" <:+: sToUpper q) (hc : ¬ str "INFORMATION_SCHEMA.COLUMNS" <:+: sToUpper q)
    (hs : ¬ str "SHOW KEYS FROM" <:+: sToUpper q) :
    special version seq q = some (.request seq (fill (sq name) foreignParts)) := by
  obtain ⟨p1, p2⟩ := select_past hsel (fun w hw => hn w (by simp at hw ⊢; rcases hw with h | h | h | h <;> simp [h]))
  have e10 : ¬ ((str "SET ").isPrefixOf (sToUpper q) = true ∨ (str "USE ").isPrefixOf (sToUpper q) = true ∨
      sIEquals q (str "ROLLBACK;") = true) := by
    rintro (h | h | h)
    · exact clash (List.isPrefixOf_iff_prefix.mp h) hsel (by decide +kernel)
    · exact clash (List.isPrefixOf_iff_prefix.mp h) hsel (by decide +kernel)
    · exact clash (sIEquals_start h (by decide +kernel) (by decide +kernel)) hsel (by decide +kernel)
  have e11 : ¬ sIEquals (sToUpper q) (str "SELECT $$;") = true := fun h => hn (str "$$;") (by simp)
    (select_start (w := str "$$;") (sIEquals_upper_start h (by decide +kernel) (by decide +kernel)) (by decide +kernel)
      (by decide +kernel)).2
  have e12 : parseCall (str "VERSION") q = none := Classical.byContradiction fun h => hn (str "VERSION(") (by simp) (parseCall_start h).2
  have e13 : parseCall (str "CONNECTION_ID") q = none := Classical.byContradiction fun h =>
    hn (str "CONNECTION_ID(") (by simp) (parseCall_start h).2
  have e14 : isForeign q = true := by
    unfold isForeign
    rw [sContains_iff.mpr h1, sContains_iff.mpr h2]; rfl
  have e15 : foreignTable q = name := by
    rw [hq]; exact foreign_name pre tn mid lead name post k j htn (hq ▸ hfirst) hb hk hname hne
  rw [special_past version seq p1 p2, if_neg (fun h => ht (sContains_iff.mp h)), if_neg (fun h => hv (sContains_iff.mp h)),
    if_neg (fun h => hc (sContains_iff.mp h)), if_neg (fun h => hi (sContains_iff.mp h)), if_neg e10, if_neg e11, e12, e13]
  simp only [if_neg (fun h => hs (sContains_iff.mp h)), if_pos e14]
  unfold named
  rw [e15, if_pos hne]

example (version : Bytes) : special version 0 ((b!"SELECT * FROM INFORMATION_SCHEMA.KEY_COLUMN_USAGE k JOIN " ++
      b!"INFORMATION_SCHEMA.REFERENTIAL_CONSTRAINTS r WHERE k.table_name = \"jobs\";")) =
    some (.request 0 (fill (str "'jobs'") foreignParts)) := by
  refine c100_foreign version 0 ((b!"SELECT * FROM INFORMATION_SCHEMA.KEY_COLUMN_USAGE k JOIN " ++
      b!"INFORMATION_SCHEMA.REFERENTIAL_CONSTRAINTS r WHERE k.")) (str "table_name") (str " ") (str " ")
    (str "jobs") (str ";") _ 34 34 (by decide +kernel) (by decide +kernel) ?_ (by decide +kernel)
    ⟨.inr rfl, .inr rfl⟩ (by decide +kernel) (by decide +kernel) (List.isPrefixOf_iff_prefix.mp (by decide +kernel)) ?_
    (sContains_iff.mp (by decide +kernel)) (sContains_iff.mp (by decide +kernel))
    (fun h => absurd (sContains_iff.mpr h) (by decide +kernel))
    (fun h => absurd (sContains_iff.mpr h) (by decide +kernel)) (fun h => absurd (sContains_iff.mpr h) (by decide +kernel))
    (fun h => absurd (sContains_iff.mpr h) (by decide +kernel)) (fun h => absurd (sContains_iff.mpr h) (by decide +kernel))
  · have hf : findSub (str "TABLE_NAME") (sToUpper ((b!"SELECT * FROM INFORMATION_SCHEMA.KEY_COLUMN_USAGE k JOIN " ++
      b!"INFORMATION_SCHEMA.REFERENTIAL_CONSTRAINTS r WHERE k.table_name = \"jobs\";"))) = some 110 := by decide +kernel
    exact (Edit.Props.findSub_first hf).2.1
  · intro w hw h
    exact absurd (List.isPrefixOf_iff_prefix.mpr h) (by revert w; decide +kernel)

/-- `SHOW KEYS FROM` with a table. -/
theorem keys_special (version : Bytes) (seq : UInt8) (s r name : Bytes) (hs : sToUpper s = str "SHOW KEYS FROM")
    (hi : ¬ str "INFORMATION_SCHEMA" <:+: sToUpper (s ++ r)) (ht : keysTable (s ++ r) = name) (hne : name ≠ []) :
    special version seq (s ++ r) = some (.request seq (fill (sq name) keysParts)) := by
  have hp : str "SHOW KEYS FROM" <+: sToUpper (s ++ r) := by rw [upper_append, hs]; exact List.prefix_append _ _
  have hv : isVariable (s ++ r) = false := by
    rw [Bool.eq_false_iff]
    intro h
    rcases isVariable_start h with h | ⟨h, _⟩ | h
    · exact clash h hp (by decide +kernel)
    · exact clash h hp (by decide +kernel)
    · exact clash h hp (by decide +kernel)
  have hb : ∀ w ∈ byHeart, ¬ w <+: sToUpper (s ++ r) := fun w hw h =>
    clash h hp ((show ∀ w ∈ byHeart, (w.isPrefixOf (str "SHOW KEYS FROM") || (str "SHOW KEYS FROM").isPrefixOf w) = false by
      decide +kernel) w hw)
  have no (w : Bytes) (hw : sContains w (str "INFORMATION_SCHEMA") = true) : ¬ sContains (sToUpper (s ++ r)) w = true :=
    fun h => hi ((sContains_iff.mp hw).trans (sContains_iff.mp h))
  have e9 : ¬ sContains (s ++ r) (str "information_schema") = true := fun h => by
    obtain ⟨x, y, hab⟩ := sContains_iff.mp h
    refine hi ⟨sToUpper x, sToUpper y, ?_⟩
    have : str "INFORMATION_SCHEMA" = sToUpper (str "information_schema") := by decide +kernel
    rw [this, ← upper_append, ← upper_append, hab]
  have e10 : ¬ ((str "SET ").isPrefixOf (sToUpper (s ++ r)) = true ∨ (str "USE ").isPrefixOf (sToUpper (s ++ r)) = true ∨
      sIEquals (s ++ r) (str "ROLLBACK;") = true) := by
    rintro (h | h | h)
    · exact clash (List.isPrefixOf_iff_prefix.mp h) hp (by decide +kernel)
    · exact clash (List.isPrefixOf_iff_prefix.mp h) hp (by decide +kernel)
    · exact clash (sIEquals_start h (by decide +kernel) (by decide +kernel)) hp (by decide +kernel)
  have e11 : ¬ sIEquals (sToUpper (s ++ r)) (str "SELECT $$;") = true := fun h =>
    clash (sIEquals_upper_start h (by decide +kernel) (by decide +kernel)) hp (by decide +kernel)
  have e12 (fn : Bytes) : parseCall fn (s ++ r) = none := Classical.byContradiction fun h =>
    clash (parseCall_start h).1 hp (by decide +kernel)
  rw [special_past version seq hv hb, if_neg (no _ (by decide +kernel)), if_neg (no _ (by decide +kernel)),
    if_neg (no _ (by decide +kernel)), if_neg e9, if_neg e10, if_neg e11, e12, e12]
  simp only [if_pos (sContains_iff.mpr hp.isInfix)]
  unfold named
  rw [ht, if_pos hne]

theorem keys_from (s r : Bytes) (hs : sToUpper s = str "SHOW KEYS FROM") :
    findSub (str "FROM") (sToUpper (s ++ r)) = some 10 ∧ (s ++ r).drop (10 + 4) = r := by
  constructor
  · have : sToUpper (s ++ r) = str "SHOW KEYS " ++ str "FROM" ++ sToUpper r := by rw [upper_append, hs]; rfl
    rw [this, Edit.Props.findSub_at]
    · rfl
    · intro x hx
      show 10 ≤ x.length
      rcases Nat.lt_or_ge x.length 10 with hl | hl
      · exfalso
        obtain ⟨t, ht⟩ := hx
        have h14 := congrArg (List.take 14) ht
        rw [show (str "SHOW KEYS " ++ str "FROM" ++ sToUpper r).take 14 = str "SHOW KEYS FROM" from rfl] at h14
        have hx' : x = (str "SHOW KEYS FROM").take x.length := by
          rw [← h14, List.append_assoc, List.take_take, Nat.min_eq_left (by omega), List.take_left]
        have h4 : str "FROM" = ((str "SHOW KEYS FROM").drop x.length).take 4 := by
          rw [← h14, List.append_assoc, List.drop_take, List.drop_left, List.take_take, Nat.min_eq_left (by omega)]
          rfl
        have : ∀ n < 10, str "FROM" ≠ ((str "SHOW KEYS FROM").drop n).take 4 := by decide +kernel
        exact this _ hl h4
      · exact hl
  · have hl : s.length = 14 := by rw [← upper_length, hs]; rfl
    rw [show 10 + 4 = s.length from hl.symm, List.drop_left]

/-- C100.  `SHOW KEYS FROM` a table in back quotes asks the database for the key of that table. -/
theorem c100_keys (version : Bytes) (seq : UInt8) (s b name post : Bytes) (hs : sToUpper s = str "SHOW KEYS FROM")
    (hb : ∀ c ∈ b, c = 32 ∨ c = 9) (hn : 96 ∉ name) (hne : name ≠ [])
    (hi : ¬ str "INFORMATION_SCHEMA" <:+: sToUpper (s ++ (b ++ 96 :: (name ++ 96 :: post)))) :
    special version seq (s ++ (b ++ 96 :: (name ++ 96 :: post))) = some (.request seq (fill (sq name) keysParts)) := by
  refine keys_special version seq s _ name hs hi ?_ hne
  unfold keysTable
  obtain ⟨k1, k2⟩ := keys_from s (b ++ 96 :: (name ++ 96 :: post)) hs
  have e1 := (takeWhile_until (fun c => c == 32 || c == 9) b (name ++ 96 :: post)
    (fun c hc => by rcases hb c hc with rfl | rfl <;> decide) 96 (by decide)).2
  have e2 := (takeWhile_until (fun c => c != 96) name post (fun c hc => by
    have : c ≠ 96 := fun h => hn (h ▸ hc)
    simp [this]) 96 (by decide)).1
  simp only [k1, k2, e1, e2, if_true]
  rw [if_pos (by simp)]

example (version : Bytes) : special version 0 (b!"show keys FROM \t`it's` WHERE Key_name = 'PRIMARY';") =
    some (.request 0 (fill (str "'it''s'") keysParts)) :=
  c100_keys version 0 (str "show keys FROM") (str " \t") (str "it's") (b!" WHERE Key_name = 'PRIMARY';") (by decide +kernel)
    (by decide +kernel) (by decide +kernel) (by decide +kernel) (fun h => absurd (sContains_iff.mpr h) (by decide +kernel))

/-- C100.  The same without quotes: the name ends at a blank or a semicolon. -/
theorem c100_keys_bare (version : Bytes) (seq : UInt8) (s b name post : Bytes) (e : UInt8) (hs : sToUpper s = str "SHOW KEYS FROM")
    (hb : ∀ c ∈ b, c = 32 ∨ c = 9) (hn : ∀ c ∈ name, c ≠ 32 ∧ c ≠ 9 ∧ c ≠ 59) (hh : name.head? ≠ some 96) (hne : name ≠ [])
    (he : e = 32 ∨ e = 9 ∨ e = 59) (hi : ¬ str "INFORMATION_SCHEMA" <:+: sToUpper (s ++ (b ++ (name ++ e :: post)))) :
    special version seq (s ++ (b ++ (name ++ e :: post))) = some (.request seq (fill (sq name) keysParts)) := by
  refine keys_special version seq s _ name hs hi ?_ hne
  unfold keysTable
  obtain ⟨k1, k2⟩ := keys_from s (b ++ (name ++ e :: post)) hs
  have e2 := (takeWhile_until (fun c => c != 32 && c != 9 && c != 59) name post (fun c hc => by
    obtain ⟨h1, h2, h3⟩ := hn c hc
    simp [h1, h2, h3]) e (by rcases he with rfl | rfl | rfl <;> decide)).1
  cases name with
  | nil => exact absurd rfl hne
  | cons c name =>
    have hc := hn c List.mem_cons_self
    have hc' : c ≠ 96 := fun h => hh (by rw [h]; rfl)
    have e1 := (takeWhile_until (fun c => c == 32 || c == 9) b (name ++ e :: post)
      (fun c hc => by rcases hb c hc with rfl | rfl <;> decide) c (by simp [hc.1, hc.2.1])).2
    rw [List.cons_append] at k1 k2 e2 ⊢
    simp only [k1, k2, e1, if_neg hc', e2]

example (version : Bytes) : special version 0 (str "SHOW KEYS FROM jobs;") = some (.request 0 (fill (str "'jobs'") keysParts)) :=
  c100_keys_bare version 0 (str "SHOW KEYS FROM") (str " ") (str "jobs") [] 59 (by decide +kernel)
    (by decide +kernel) (by decide +kernel) (by decide +kernel) (by decide +kernel) (.inr (.inr rfl))
    (fun h => absurd (sContains_iff.mpr h) (by decide +kernel))

/-! ## Answers -/

theorem decPrefix_end (l r : Bytes) (hl : ∀ c ∈ l, (decVal c).isSome = true) (acc : Nat) :
    decPrefix acc (l ++ 32 :: r) = decPrefix acc l := by
  induction l generalizing acc with
  | nil => rfl
  | cons c l ih =>
    have := hl c List.mem_cons_self
    cases e : decVal c with
    | none => simp [e] at this
    | some v =>
      simp only [List.cons_append, decPrefix, e]
      exact ih (fun c hc => hl c (List.mem_cons_of_mem _ hc)) _

theorem cstr_append {a : Bytes} (r : Bytes) (h : 0 ∉ a) : cstr (a ++ r) = a ++ cstr r := by
  induction a with
  | nil => rfl
  | cons c a ih =>
    rw [List.cons_append, cstr_cons, if_neg (fun h' => h (by simp [h'])), ih (fun h' => h (List.mem_cons_of_mem _ h'))]
    rfl

/-- A number at the start of a text. -/
theorem scanDec_start (n : Nat) (r : Bytes) : scanDec (natDec n ++ 32 :: r) = some (n : Int) := by
  have h0 : 0 ∉ natDec n := fun h => (natDec_plain n 0 h).1 rfl
  unfold scanDec
  have e1 : cstr (natDec n ++ 32 :: r) = natDec n ++ 32 :: cstr r := by
    rw [cstr_append _ h0, cstr_cons, if_neg (by decide)]
  rw [e1]
  have hv : decPrefix 0 (natDec n ++ 32 :: cstr r) = n := by
    rw [decPrefix_end, decPrefix_natDec]
    intro c hc
    obtain ⟨d, hd, rfl⟩ := natDec_digits n c hc
    rw [decVal_digit d hd]; rfl
  cases e : natDec n with
  | nil => exact absurd e (natDec_ne_nil n)
  | cons c l =>
    have hp := natDec_plain n c (by rw [e]; simp)
    rw [e, List.cons_append] at hv
    rw [List.cons_append, List.dropWhile_cons]
    simp only [hp.2.1, Bool.false_eq_true, if_false]
    obtain ⟨d, hd, hc⟩ := natDec_digits n c (by rw [e]; simp)
    have hs : startsDec (c :: (l ++ 32 :: cstr r)) = true := by simp only [startsDec, hc, decVal_digit d hd]; rfl
    split
    · rename_i h; simp at h; exact absurd h.1 hp.2.2.1
    · rename_i h; simp at h; exact absurd h.1 hp.2.2.2.1
    · rw [if_pos hs, hv]

theorem toInt_start (n : Nat) (hn : n < 2 ^ 31) (r : Bytes) : Https.toInt (natDec n ++ 32 :: r) = n := by
  unfold Https.toInt strtoll
  have h0 : 0 ∉ natDec n := fun h => (natDec_plain n 0 h).1 rfl
  have : cstr (natDec n ++ 32 :: r) = natDec n ++ 32 :: cstr r := by
    rw [cstr_append _ h0, cstr_cons, if_neg (by decide)]
  rw [this, scanDec_start]
  dsimp only
  rw [if_neg (by omega), if_neg (by omega), toInt32_small n hn]

theorem space_split (d r : Bytes) (hd : 32 ∉ d) :
    Address.sBefore (d ++ 32 :: r) [32] = d ∧ Address.sAfter (d ++ 32 :: r) [32] = r := by
  have hf : findSub [32] (d ++ 32 :: r) = some d.length := by
    have := Edit.Props.findSub_at (find := [32]) (p := d) (s := r) (fun x hx => by
      rcases Nat.lt_or_ge x.length d.length with hl | hl
      · obtain ⟨t, ht⟩ := hx
        exfalso
        refine hd ?_
        have e : (x ++ [32] ++ t)[x.length]? = (d ++ [32] ++ r)[x.length]? := by rw [ht]
        rw [List.append_assoc, List.getElem?_append_right (Nat.le_refl _), Nat.sub_self, List.append_assoc,
          List.getElem?_append_left hl] at e
        exact List.mem_of_getElem? (show d[x.length]? = some 32 from e.symm.trans rfl)
      · exact hl)
    rw [List.append_assoc] at this
    exact this
  unfold Address.sBefore Address.sAfter
  rw [hf]
  constructor
  · simp
  · have e : d ++ 32 :: r = (d ++ [32]) ++ r := by simp
    have l : d.length + 1 = (d ++ [(32 : UInt8)]).length := by simp
    show (d ++ 32 :: r).drop (d.length + 1) = r
    rw [e, l, List.drop_left]

/-- C100.  A statement that was done and has no rows is answered `OK`. -/
theorem c100_done (reason error rest : Bytes) :
    ∃ b, complete 0 (str "200 " ++ reason) [] error = .bytes b ∧
      ∃ p, Spec.readPacket (b ++ rest) = some ((1, 0 :: p), rest) := by
  have h := toInt_start 200 (by omega) reason
  have e : natDec 200 ++ 32 :: reason = str "200 " ++ reason := by
    have : natDec 200 = str "200" := by decide +kernel
    rw [this]; rfl
  rw [e] at h
  refine ⟨serialize (okPacket 0), ?_, ?_⟩
  · unfold complete
    rw [if_pos (by rw [h]; rfl), if_pos rfl, show seqRead 0 = 0 by decide +kernel]
  · exact ⟨(okPacket 0).payload.drop 1, by rw [readPacket_serialize _ (by decide +kernel)]; rfl⟩

/-- C100.  The rows of a query come back as they were: what is sent, read the way a client reads it, has the names and the
values that stand in the answer of the database. -/
theorem c100_rows (reason error : Bytes) (x : Bytes) (v : Bytes) (vs : List Bytes) (m : List (Bytes × Bytes))
    (mss : List (List (Bytes × Bytes))) (hx : Json.Spec.Arr (str "null") x (v :: vs))
    (hv : Results.Props.Pairs (Json.Spec.Obj []) (v :: vs) (m :: mss)) (hm : m ≠ []) (hr : ∀ r ∈ mss, r.length = m.length)
    (hp : ∀ p ∈ responsePayloads (m.map Prod.fst) ((m :: mss).map (·.map Prod.snd)), p.length < 2 ^ 24)
    (hn : m.length < 2 ^ 64) (rest : Bytes) :
    ∃ b, complete 0 (str "200 " ++ reason) x error = .bytes b ∧
      Spec.readResult (mss.length + 2) 0 (b ++ rest) = some ((m.map Prod.fst, (m :: mss).map (·.map Prod.snd)), rest) := by
  have h := toInt_start 200 (by omega) reason
  have e : natDec 200 ++ 32 :: reason = str "200 " ++ reason := by
    have : natDec 200 = str "200" := by decide +kernel
    rw [this]; rfl
  rw [e] at h
  have hd := Results.Props.c81_array_form x [] [] v vs m mss hx hv (by intro c hc; cases hc) (by intro c hc; cases hc)
  rw [List.nil_append, List.append_nil] at hd
  refine ⟨queryResponse 0 (m.map Prod.fst) ((m :: mss).map (·.map Prod.snd)), ?_, ?_⟩
  · unfold complete
    obtain ⟨y, rfl⟩ := Results.Props.arr_cons hx
    rw [if_pos (by rw [h]; rfl), if_neg (by simp), hd, show seqRead 0 = 0 by decide +kernel]
  · have := c52_answer_partial 0 (m.map Prod.fst) ((m :: mss).map (·.map Prod.snd)) (by simpa using hm) hp (by
      intro r hr'
      obtain ⟨q, hq, rfl⟩ := List.mem_map.mp hr'
      rw [List.length_map, List.length_map]
      rcases List.mem_cons.mp hq with rfl | hq
      · rfl
      · exact hr q hq) (by rw [List.length_map]; exact hn) rest
    simpa using this

example : ∃ b, complete 0 (str "200 OK") (str "[{\"a\":1,\"b\":null},{\"a\":\"x\",\"b\":2}]") [] = .bytes b ∧
    Spec.readResult 3 0 b = some (([str "a", str "b"], [[str "1", []], [str "x", str "2"]]), []) := by
  refine ⟨queryResponse 0 [str "a", str "b"] [[str "1", []], [str "x", str "2"]], by decide +kernel, by decide +kernel⟩

/-- C100.  An answer that is no success becomes an error with its number and its text. -/
theorem c100_error (code : Nat) (hc : code < 2 ^ 16) (h2 : code ≠ 200) (reason content error rest : Bytes)
    (hl : reason.length + error.length + 4 < 2 ^ 24) :
    ∃ b, complete 0 (natDec code ++ str " " ++ reason) content error = .bytes b ∧
      ∃ p, Spec.readPacket (b ++ rest) = some ((1, p), rest) ∧ p.head? = some 0xFF ∧ Spec.le ((p.drop 1).take 2) = code ∧
        p.drop 3 = reason ++ str " " ++ error := by
  have e : natDec code ++ str " " ++ reason = natDec code ++ 32 :: reason := by rw [List.append_assoc]; rfl
  have hn : 32 ∉ natDec code := fun h => by
    obtain ⟨d, hd, h⟩ := natDec_digits code 32 h
    revert h
    have : ∀ d < 10, (32 : UInt8) ≠ UInt8.ofNat (48 + d) := by decide
    exact this d hd
  obtain ⟨s1, s2⟩ := space_split (natDec code) reason hn
  refine ⟨serialize (errPacket 0 code (reason ++ str " " ++ error)), ?_, ?_⟩
  · unfold complete
    rw [e, if_neg (by rw [toInt_start code (by omega)]; omega), s1, s2, Deadline.Props.strtoll_natDec code (by omega),
      show seqRead 0 = 0 by decide +kernel]
    have : toUInt16 (code : Int) = code := by unfold toUInt16; omega
    rw [this]
    rfl
  · obtain ⟨p, h1, h3⟩ := c52_error 0 code hc (reason ++ str " " ++ error) (by
      simp only [List.length_append]
      have : (str " ").length = 1 := rfl
      omega) rest
    exact ⟨p, h1, h3⟩

example : complete 0 (str "402 Bad query") [] (str "no such table: x") =
    .bytes (serialize (errPacket 0 402 (str "Bad query no such table: x"))) := by decide +kernel

/-- C100 fails here: only a request numbered 0 is answered with the right number.  The number is stored as a character and
read back as a decimal, so any other is answered as if it had been 0 - or as its digit, if the character is one. -/
theorem c100_sequence : ∀ seq : UInt8, seqRead seq = (if 48 ≤ seq ∧ seq ≤ 57 then seq.toNat - 48 else 0) := by
  exact forall_u8 (by decide +kernel)

theorem c100_sequence_lost : ∀ seq : UInt8, seq ≠ 0 → seqRead seq ≠ seq.toNat := by
  exact forall_u8 (by decide +kernel)

/-- C100 fails here: an answer with content that is not JSON ends the process. -/
theorem c100_abort (reason error : Bytes) (x : Bytes) (hx : x ≠ []) (hj : 91 ∉ x ∧ 123 ∉ x) :
    complete 0 (str "200 " ++ reason) x error = .abort := by
  have h := toInt_start 200 (by omega) reason
  have e : natDec 200 ++ 32 :: reason = str "200 " ++ reason := by
    have : natDec 200 = str "200" := by decide +kernel
    rw [this]; rfl
  rw [e] at h
  have hf : x.find? (fun c => c = 91 ∨ c = 123) = none := by
    rw [List.find?_eq_none]
    intro c hc
    simp only [decide_eq_true_eq, not_or]
    exact ⟨fun h => hj.1 (h ▸ hc), fun h => hj.2 (h ▸ hc)⟩
  unfold complete
  rw [if_pos (by rw [h]; rfl), if_neg hx]
  unfold Results.deserialize
  rw [hf]

example : complete 0 (str "200 OK") (str "a | b") [] = .abort := c100_abort (str "OK") [] _ (by decide +kernel) (by decide +kernel)

/-- C100 fails here: the empty answer has no columns, and what a client takes for the count of columns, 0, is the mark of
an `OK` instead. -/
theorem c100_empty_answer (seq : Nat) (rest : Bytes) :
    ∃ t, Spec.readPacket (queryResponse seq [] [] ++ rest) = some (((seq + 1) % 256, [0]), t) := by
  have e : queryResponse seq [] [] = serialize { sequenceID := UInt8.ofNat ((seq + 1) % 256), payload := [0] } ++
      ((numbered (seq + 1) [eofPayload, eofPayload]).flatMap serialize) := rfl
  refine ⟨(numbered (seq + 1) [eofPayload, eofPayload]).flatMap serialize ++ rest, ?_⟩
  rw [e, List.append_assoc, readPacket_serialize { sequenceID := UInt8.ofNat ((seq + 1) % 256), payload := [0] }
    (show 1 < 2 ^ 24 by decide), u8_toNat]

/-! ## Exactly which questions -/

theorem mem_takeWhile_imp {p : UInt8 → Bool} {s : Bytes} {c : UInt8} (h : c ∈ s.takeWhile p) : p c = true := by
  induction s with
  | nil => cases h
  | cons d s ih =>
    rw [List.takeWhile_cons] at h
    split at h
    · next hd =>
      rcases List.mem_cons.1 h with rfl | h
      · exact hd
      · exact ih h
    · cases h

/-- How a question for a variable starts. -/
def AsksVariable (p : Bytes) : Prop :=
  sToUpper p = str "@@" ∨ (∃ b, b ≠ [] ∧ (∀ c ∈ b, isSpace c = true) ∧ sToUpper p = str "SELECT" ++ b ++ str "@@") ∨
    sToUpper p = str "SHOW VARIABLES LIKE '"

theorem word_upper (c : UInt8) : isWord (toUpper c) = isWord c ∧ (toUpper c = 10 ↔ c = 10) :=
  forall_u8 (P := fun c => isWord (toUpper c) = isWord c ∧ (toUpper c = 10 ↔ c = 10)) (by decide +kernel) c

/-- A text in capitals comes from one of the same shape. -/
theorem upper_split {q x y : Bytes} (h : sToUpper q = x ++ y) : ∃ a b, q = a ++ b ∧ sToUpper a = x ∧ sToUpper b = y := by
  refine ⟨q.take x.length, q.drop x.length, (List.take_append_drop ..).symm, ?_, ?_⟩
  · unfold sToUpper at *; rw [List.map_take, h, List.take_left]
  · unfold sToUpper at *; rw [List.map_drop, h, List.drop_left]

theorem no_newline (s : Bytes) : (sToUpper s).contains 10 = false ↔ 10 ∉ s := by
  rw [← Bool.not_eq_true, List.contains_iff_mem]
  unfold sToUpper
  simp only [List.mem_map, not_exists, not_and]
  constructor
  · intro h hm; exact h 10 hm ((word_upper 10).2.2 rfl)
  · intro h c hc e; exact h ((word_upper c).2.1 e ▸ hc)

/-- C100.  A question for a variable is one of the three starts, then a letter, a digit or an underscore, then anything without
a line break; nothing else is. -/
theorem c100_variable_iff (q : Bytes) :
    isVariable q = true ↔ ∃ p c r, q = p ++ c :: r ∧ AsksVariable p ∧ isWord c = true ∧ 10 ∉ c :: r := by
  have named : ∀ (q x s : Bytes), sToUpper q = x ++ s → (isWord (s.headD 0) && !s.contains 10) = true →
      ∃ p c r, q = p ++ c :: r ∧ sToUpper p = x ∧ isWord c = true ∧ 10 ∉ c :: r := by
    intro q x s hq hs
    obtain ⟨a, b, e, ha, hb⟩ := upper_split hq
    rw [← hb, Bool.and_eq_true, Bool.not_eq_true', no_newline] at hs
    cases b with
    | nil => exact absurd hs.1 (by decide)
    | cons c r => exact ⟨a, c, r, e, ha, by rw [← (word_upper c).1]; exact hs.1, hs.2⟩
  have back : ∀ c r, isWord c = true → 10 ∉ c :: r →
      (isWord ((sToUpper (c :: r)).headD 0) && !(sToUpper (c :: r)).contains 10) = true := by
    intro c r hc hr
    rw [(no_newline _).2 hr]
    show (isWord (toUpper c) && true) = true
    rw [(word_upper c).1, hc]; rfl
  constructor
  · intro h
    unfold isVariable at h
    simp only [Bool.or_eq_true] at h
    rcases h with h | h
    · rw [Bool.and_eq_true] at h
      split at h
      · next hsel =>
        rw [Bool.and_eq_true] at hsel
        obtain ⟨t, ht⟩ := List.isPrefixOf_iff_prefix.1 hsel.1
        have hd : (sToUpper q).drop 6 = t := by rw [← ht]; rfl
        rw [hd] at h hsel
        obtain ⟨s, hs⟩ := List.isPrefixOf_iff_prefix.1 h.1
        have e : sToUpper q = (str "SELECT" ++ t.takeWhile isSpace ++ str "@@") ++ s := by
          rw [← ht, List.append_assoc, List.append_assoc, hs, List.takeWhile_append_dropWhile]
        have h2 := h.2
        rw [← hs] at h2
        obtain ⟨p, c, r, e1, e2, e3, e4⟩ := named q _ s e h2
        refine ⟨p, c, r, e1, .inr (.inl ⟨t.takeWhile isSpace, ?_, fun c hc => (mem_takeWhile_imp hc), e2⟩), e3, e4⟩
        cases t with
        | nil => exact absurd hsel.2 (by decide)
        | cons d t => rw [List.takeWhile_cons_of_pos (by simpa using hsel.2)]; exact List.cons_ne_nil _ _
      · obtain ⟨s, hs⟩ := List.isPrefixOf_iff_prefix.1 h.1
        have h2 := h.2
        rw [← hs] at h2
        obtain ⟨p, c, r, e1, e2, e3, e4⟩ := named q _ s hs.symm h2
        exact ⟨p, c, r, e1, .inl e2, e3, e4⟩
    · rw [Bool.and_eq_true] at h
      obtain ⟨s, hs⟩ := List.isPrefixOf_iff_prefix.1 h.1
      have h2 := h.2
      rw [← hs] at h2
      obtain ⟨p, c, r, e1, e2, e3, e4⟩ := named q _ s hs.symm h2
      exact ⟨p, c, r, e1, .inr (.inr e2), e3, e4⟩
  · rintro ⟨p, c, r, rfl, hp, hc, hr⟩
    have hb := back c r hc hr
    unfold isVariable
    simp only [Bool.or_eq_true, upper_append]
    rcases hp with hp | ⟨b, hb1, hb2, hp⟩ | hp
    · left
      rw [hp, if_neg (by simp only [show (str "SELECT").isPrefixOf (str "@@" ++ sToUpper (c :: r)) = false from rfl]; simp), Bool.and_eq_true]
      exact ⟨rfl, hb⟩
    · left
      have e : str "SELECT" ++ b ++ str "@@" ++ sToUpper (c :: r) = str "SELECT" ++ (b ++ (str "@@" ++ sToUpper (c :: r))) := by
        simp only [List.append_assoc]
      rw [hp, e]
      have hd : (str "SELECT" ++ (b ++ (str "@@" ++ sToUpper (c :: r)))).drop 6 = b ++ (str "@@" ++ sToUpper (c :: r)) := rfl
      have hs : isSpace ((b ++ (str "@@" ++ sToUpper (c :: r))).headD 0) = true := by
        cases b with
        | nil => exact absurd rfl hb1
        | cons d b => exact hb2 d List.mem_cons_self
      rw [hd, if_pos (by rw [hs, Bool.and_true]; exact List.isPrefixOf_iff_prefix.2 (List.prefix_append _ _)),
        dropWhile_blank b _ hb2 rfl, Bool.and_eq_true]
      exact ⟨rfl, hb⟩
    · right
      rw [hp, Bool.and_eq_true]
      exact ⟨List.isPrefixOf_iff_prefix.2 (List.prefix_append _ _), hb⟩

example : isVariable (b!"SELECT @@a\nFROM t;") = false ∧ isVariable (b!"select @@a from t;") = true := by decide +kernel

/-- A place that names a table: `table_name`, `=` and a quoted name, with blanks around the sign. -/
def Place (s name : Bytes) : Prop :=
  ∃ tn mid lead post k j, s = tn ++ (mid ++ 61 :: (lead ++ k :: (name ++ j :: post))) ∧ sToUpper tn = str "TABLE_NAME" ∧
    (∀ c ∈ mid ++ lead, isSpace c = true) ∧ ((k = 39 ∨ k = 34) ∧ (j = 39 ∨ j = 34)) ∧ (39 ∉ name ∧ 34 ∉ name) ∧ name ≠ []

theorem equalsName_some {s name : Bytes} (h : equalsName s = some name) :
    ∃ mid lead post k j, s = mid ++ 61 :: (lead ++ k :: (name ++ j :: post)) ∧ (∀ c ∈ mid ++ lead, isSpace c = true) ∧
      ((k = 39 ∨ k = 34) ∧ (j = 39 ∨ j = 34)) ∧ (39 ∉ name ∧ 34 ∉ name) ∧ name ≠ [] := by
  unfold equalsName at h
  split at h
  · next t ht =>
    split at h
    · cases h
    · next k body hb =>
      dsimp only at h
      split at h
      · next hc =>
        cases h
        have hsplit := List.takeWhile_append_dropWhile (p := fun c => c != 39 && c != 34) (l := body)
        have hmem : ∀ c ∈ body.takeWhile (fun c => c != 39 && c != 34), (c != 39 && c != 34) = true := fun c hc => mem_takeWhile_imp hc
        cases hdw : body.dropWhile (fun c => c != 39 && c != 34) with
        | nil =>
          rw [hdw, List.append_nil] at hsplit
          have := hc.2.2
          rw [hsplit] at this
          exact absurd this (Nat.lt_irrefl _)
        | cons j post =>
          have hj : j = 39 ∨ j = 34 := by
            have := List.head?_dropWhile_not (fun c => c != 39 && c != 34) body
            rw [hdw] at this
            simp at this
            by_cases h39 : j = 39
            · exact .inl h39
            · exact .inr (this h39)
          refine ⟨s.takeWhile isSpace, t.takeWhile isSpace, post, k, j, ?_, ?_, ⟨hc.1, hj⟩, ⟨?_, ?_⟩, hc.2.1⟩
          · rw [← hdw, hsplit, ← hb, List.takeWhile_append_dropWhile, ← ht, List.takeWhile_append_dropWhile]
          · intro c hc
            rcases List.mem_append.1 hc with hc | hc
            · exact mem_takeWhile_imp hc
            · exact mem_takeWhile_imp hc
          · intro h; exact absurd (hmem _ h) (by decide)
          · intro h; exact absurd (hmem _ h) (by decide)
      · cases h
  · cases h

theorem place_here {s name : Bytes} (h : Place s name) : foreignTable s = name := by
  obtain ⟨tn, mid, lead, post, k, j, rfl, h1, h2, h3, h4, h5⟩ := h
  exact foreign_name [] tn mid lead name post k j h1 (fun _ _ => Nat.zero_le _) h2 h3 h4 h5

/-- C100.  The table asked for is the one named at the first place that names one, whatever comes before it; without such a
place there is none. -/
theorem c100_foreign_first (q : Bytes) :
    (foreignTable q = [] ∧ ∀ pre s name, q = pre ++ s → ¬ Place s name) ∨
      ∃ pre s, q = pre ++ s ∧ Place s (foreignTable q) ∧
        ∀ pre' s' name', q = pre' ++ s' → pre'.length < pre.length → ¬ Place s' name' := by
  have noNil : ∀ name, ¬ Place [] name := by
    rintro name ⟨tn, mid, lead, post, k, j, e, h1, _⟩
    have := congrArg List.length e
    simp at this
  induction q with
  | nil =>
    left
    refine ⟨rfl, fun pre s name e => ?_⟩
    have : s = [] := (List.append_eq_nil_iff.1 e.symm).2
    rw [this]
    exact noNil name
  | cons c q ih =>
    by_cases hp : ∃ name, Place (c :: q) name
    · obtain ⟨name, hp⟩ := hp
      right
      exact ⟨[], c :: q, rfl, by rw [place_here hp]; exact hp, fun pre' s' name' _ hl => absurd hl (Nat.not_lt_zero _)⟩
    · have he : foreignTable (c :: q) = foreignTable q := by
        rw [foreignTable]
        split
        · next hs =>
          split
          · next name hn =>
            exfalso
            refine hp ⟨name, ?_⟩
            obtain ⟨mid, lead, post, k, j, e, h⟩ := equalsName_some hn
            refine ⟨(c :: q).take 10, mid, lead, post, k, j, by rw [← e, List.take_append_drop], ?_, h⟩
            obtain ⟨t, ht⟩ := List.isPrefixOf_iff_prefix.1 hs
            unfold sToUpper at *
            rw [List.map_take, ← ht]
            rfl
          · rfl
        · rfl
      rw [he]
      have step : ∀ pre s name, c :: q = pre ++ s → Place s name → ∃ pre0, pre = c :: pre0 ∧ q = pre0 ++ s := by
        intro pre s name e h
        cases pre with
        | nil => exact absurd ⟨name, (show c :: q = s from e) ▸ h⟩ hp
        | cons d pre =>
          obtain ⟨e1, e2⟩ := List.cons.inj e
          exact ⟨pre, by rw [e1], e2⟩
      rcases ih with ⟨h1, h2⟩ | ⟨pre, s, h1, h2, h3⟩
      · left
        refine ⟨h1, fun pre s name e h => ?_⟩
        obtain ⟨pre0, _, e0⟩ := step pre s name e h
        exact h2 pre0 s name e0 h
      · right
        refine ⟨c :: pre, s, by rw [h1]; rfl, h2, fun pre' s' name' e hl h => ?_⟩
        obtain ⟨pre0, rfl, e0⟩ := step pre' s' name' e h
        exact h3 pre0 s' name' e0 (by simpa using hl) h

example : foreignTable (b!"SELECT k.TABLE_NAME FROM x WHERE k.table_name = 'jobs';") = str "jobs" := by decide +kernel

/-- C100.  The questions for columns, keys and foreign keys read the three tables SQLite has for them; keys are the columns of
the primary key. -/
theorem c100_sources (lit : Bytes) :
    (b!" FROM pragma_table_info(" ++ lit ++ b!") ORDER BY cid;") <:+ fill lit columnsParts ∧
    (b!" FROM pragma_table_info(" ++ lit ++ b!") WHERE pk = 1 ORDER BY cid;") <:+ fill lit keysParts ∧
    (b!" FROM pragma_foreign_key_list(" ++ lit ++ b!") ORDER BY \"table\", seq;") <:+ fill lit foreignParts := by
  have key : ∀ (p x y a b : Bytes), x = p ++ y → ∀ z, (y ++ lit ++ a) <:+ (b ++ z ++ (x ++ lit ++ a)) := by
    rintro p x y a b rfl z
    exact ⟨b ++ z ++ p, by simp only [List.append_assoc]⟩
  have k2 : ∀ x y : Bytes, y <:+ x → ∃ p, x = p ++ y := fun x y ⟨p, hp⟩ => ⟨p, hp.symm⟩
  refine ⟨?_, ?_, ?_⟩
  · obtain ⟨p, hp⟩ := k2 (columnsParts.getD 1 []) (b!" FROM pragma_table_info(") (List.isSuffixOf_iff_suffix.1 (by decide +kernel))
    exact key p _ _ _ (b!"SELECT ") hp lit
  · obtain ⟨p, hp⟩ := k2 (keysParts.getD 1 []) (b!" FROM pragma_table_info(") (List.isSuffixOf_iff_suffix.1 (by decide +kernel))
    exact key p _ _ _ (b!"SELECT ") hp lit
  · obtain ⟨p, hp⟩ := k2 (foreignParts.getD 0 []) (b!" FROM pragma_foreign_key_list(") (List.isSuffixOf_iff_suffix.1 (by decide +kernel))
    refine ⟨p, ?_⟩
    show _ = foreignParts.getD 0 [] ++ lit ++ _
    rw [hp]
    simp only [List.append_assoc]
    rfl

end Bedrock.MySQL.Props
