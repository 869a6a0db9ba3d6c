import Verif.Model.MySQLQuery
import Verif.Model.Query
import Verif.Spec.MySQLQuery
import Verif.Props.MySQL
import Verif.Props.Text
import Verif.Props.Attr
import Verif.Props.Edit
import Verif.Props.RepeatText
import Verif.Props.ResultJson

/-!
# C100: what a MySQL client's query becomes
-/

namespace Bedrock.MySQL.Props
open Bedrock Bedrock.Text Bedrock.MySQL

/-! ## Letters -/

theorem toUpper_idem (c : UInt8) : toUpper (toUpper c) = toUpper c :=
  forall_u8 (P := fun c => toUpper (toUpper c) = toUpper c) (by decide +kernel) c

theorem toUpper_toLower (c : UInt8) : toUpper (toLower c) = toUpper c :=
  forall_u8 (P := fun c => toUpper (toLower c) = toUpper c) (by decide +kernel) c

theorem upper_idem (s : Bytes) : sToUpper (sToUpper s) = sToUpper s := by
  unfold sToUpper
  rw [List.map_map]
  exact List.map_congr_left (fun c _ => toUpper_idem c)

theorem upper_lower (s : Bytes) : sToUpper (sToLower s) = sToUpper s := by
  unfold sToUpper sToLower
  rw [List.map_map]
  exact List.map_congr_left (fun c _ => toUpper_toLower c)

theorem upper_append (a b : Bytes) : sToUpper (a ++ b) = sToUpper a ++ sToUpper b := List.map_append

theorem upper_length (s : Bytes) : (sToUpper s).length = s.length := List.length_map _

theorem cstr_prefix (s : Bytes) : cstr s <+: s := by
  unfold cstr
  exact List.takeWhile_prefix _

/-- A text that equals `w` but for the case of letters starts with `w`. -/
theorem sIEquals_start {q w : Bytes} (h : sIEquals q w = true) (h0 : 0 ∉ w) (hw : sToUpper w = w) : w <+: sToUpper q := by
  unfold sIEquals at h
  rw [beq_iff_eq, cstr_eq h0] at h
  have h := congrArg sToUpper h
  rw [upper_lower, upper_lower, hw] at h
  rw [← h]
  obtain ⟨t, ht⟩ := cstr_prefix q
  exact ⟨sToUpper t, by rw [← upper_append, ht]⟩

theorem sIEquals_upper_start {q w : Bytes} (h : sIEquals (sToUpper q) w = true) (h0 : 0 ∉ w) (hw : sToUpper w = w) :
    w <+: sToUpper q := by
  have := sIEquals_start h h0 hw
  rwa [upper_idem] at this

theorem isVariable_start {q : Bytes} (h : isVariable q = true) :
    str "@@" <+: sToUpper q ∨ (str "SELECT" <+: sToUpper q ∧ str "@@" <+: ((sToUpper q).drop 6).dropWhile isSpace) ∨
      str "SHOW VARIABLES LIKE '" <+: sToUpper q := by
  unfold isVariable at h
  simp only [Bool.or_eq_true, Bool.and_eq_true] at h
  rcases h with ⟨h, _⟩ | ⟨h, _⟩
  · split at h
    · rename_i hc
      exact .inr (.inl ⟨List.isPrefixOf_iff_prefix.mp hc.1, List.isPrefixOf_iff_prefix.mp h⟩)
    · exact .inl (List.isPrefixOf_iff_prefix.mp h)
  · exact .inr (.inr (List.isPrefixOf_iff_prefix.mp h))

theorem parseCall_start {name q : Bytes} (h : parseCall name q ≠ none) :
    str "SELECT" <+: sToUpper q ∧ (name ++ str "(") <+: ((sToUpper q).drop 6).dropWhile isSpace := by
  unfold parseCall at h
  simp only at h
  split at h
  · rename_i hc
    rw [Bool.and_eq_true] at hc
    split at h
    · rename_i hn
      exact ⟨List.isPrefixOf_iff_prefix.mp hc.1, List.isPrefixOf_iff_prefix.mp hn⟩
    · exact absurd rfl h
  · exact absurd rfl h

theorem prefix_trans' {a b c : Bytes} (h : a.isPrefixOf b = true) (h' : b <+: c) : a <+: c :=
  (List.isPrefixOf_iff_prefix.mp h).trans h'

/-- `SELECT` and something else that starts a text: what comes after the blanks. -/
theorem select_start {w u : Bytes} (h : (str "SELECT " ++ w) <+: u) (hw : isSpace (w.headD 0) = false) (hne : w ≠ []) :
    str "SELECT" <+: u ∧ w <+: (u.drop 6).dropWhile isSpace := by
  obtain ⟨t, rfl⟩ := h
  refine ⟨⟨str " " ++ w ++ t, by simp [str]⟩, t, ?_⟩
  have e : ((str "SELECT " ++ w ++ t).drop 6) = 32 :: (w ++ t) := by
    rw [List.append_assoc]; rfl
  rw [e]
  cases w with
  | nil => exact absurd rfl hne
  | cons a w =>
    rw [List.headD_cons] at hw
    rw [List.dropWhile_cons_of_pos (by decide), List.cons_append, List.dropWhile_cons_of_neg (by simp [hw])]

/-! ## Statements that are not special are passed on -/

theorem special_plain {q : Bytes} (version : Bytes) (seq : UInt8) (h : Spec.Plain q) : special version seq q = none := by
  obtain ⟨hm, hs, ha⟩ := h
  have hi : ¬ str "INFORMATION_SCHEMA" <:+: sToUpper q := hm _ (by simp)
  have no (w : Bytes) (hw : str "INFORMATION_SCHEMA" <:+: w) : sContains (sToUpper q) w = false := by
    rw [Bool.eq_false_iff]
    intro h
    exact hi (hw.trans (sContains_iff.mp h))
  have st (w w' : Bytes) (hw : w' ∈ [str "SET ", str "USE ", str "SHOW VARIABLES", str "SHOW DATABASES",
      str "SHOW FULL TABLES", str "SHOW /*!50002 FULL*/ TABLES", str "ROLLBACK;", str "@@"]) (hp : w'.isPrefixOf w = true) :
      ¬ w <+: sToUpper q := fun h => hs w' hw (prefix_trans' hp h)
  have e1 : isVariable q = false := by
    rw [Bool.eq_false_iff]
    intro h
    rcases isVariable_start h with h | ⟨h, h'⟩ | h
    · exact hs _ (by simp) h
    · exact ha h _ (by simp) h'
    · exact st _ (str "SHOW VARIABLES") (by simp) (by decide +kernel) h
  have ie (w w' : Bytes) (h0 : 0 ∉ w) (hup : sToUpper w = w) (hw : w' ∈ [str "SET ", str "USE ", str "SHOW VARIABLES",
      str "SHOW DATABASES", str "SHOW FULL TABLES", str "SHOW /*!50002 FULL*/ TABLES", str "ROLLBACK;", str "@@"])
      (hp : w'.isPrefixOf w = true) : sIEquals q w = false ∧ sIEquals (sToUpper q) w = false :=
    ⟨Bool.eq_false_iff.mpr fun h => st _ w' hw hp (sIEquals_start h h0 hup),
     Bool.eq_false_iff.mpr fun h => st _ w' hw hp (sIEquals_upper_start h h0 hup)⟩
  have se (w : Bytes) (h0 : 0 ∉ str "SELECT " ++ w) (hup : sToUpper (str "SELECT " ++ w) = str "SELECT " ++ w)
      (hsp : isSpace (w.headD 0) = false) (hne : w ≠ []) (hw : w ∈ [str "@@", str "VERSION(", str "CONNECTION_ID(",
      str "DATABASE();", str "$$;",
      str "* FROM (SELECT DATABASE() AS DATABASE_NAME) A WHERE A.DATABASE_NAME IS NOT NULL;"]) :
      sIEquals (sToUpper q) (str "SELECT " ++ w) = false :=
    Bool.eq_false_iff.mpr fun h => by
      obtain ⟨h1, h2⟩ := select_start (sIEquals_upper_start h h0 hup) hsp hne
      exact ha h1 w hw h2
  have e2 := (ie (str "SHOW VARIABLES;") (str "SHOW VARIABLES") (by decide +kernel) (by decide +kernel) (by simp)
    (by decide +kernel)).1
  have e3 := (ie (str "SHOW DATABASES;") (str "SHOW DATABASES") (by decide +kernel) (by decide +kernel) (by simp)
    (by decide +kernel)).1
  have e4 : sIEquals (sToUpper q) (str "SELECT DATABASE();") = false :=
    se (str "DATABASE();") (by decide +kernel) (by decide +kernel) (by decide +kernel) (by decide +kernel) (by simp)
  have e5 : sIEquals (sToUpper q)
      (str "SELECT * FROM (SELECT DATABASE() AS DATABASE_NAME) A WHERE A.DATABASE_NAME IS NOT NULL;") = false :=
    se (str "* FROM (SELECT DATABASE() AS DATABASE_NAME) A WHERE A.DATABASE_NAME IS NOT NULL;") (by decide +kernel)
      (by decide +kernel) (by decide +kernel) (by decide +kernel) (by simp)
  have e6 := (ie (str "SHOW /*!50002 FULL*/ TABLES;") (str "SHOW /*!50002 FULL*/ TABLES") (by decide +kernel)
    (by decide +kernel) (by simp) (by decide +kernel)).2
  have e7 := (ie (str "SHOW FULL TABLES;") (str "SHOW FULL TABLES") (by decide +kernel) (by decide +kernel) (by simp)
    (by decide +kernel)).2
  have e8 : sIEquals (sToUpper q) odbcQuestion = false := Bool.eq_false_iff.mpr fun h =>
    hi ((sContains_iff.mp (by decide +kernel)).trans
      (sIEquals_upper_start h (by decide +kernel) (by decide +kernel)).isInfix)
  have e9 : sContains q (str "information_schema") = false := Bool.eq_false_iff.mpr fun h => by
    obtain ⟨a, b, hab⟩ := sContains_iff.mp h
    refine hi ⟨sToUpper a, sToUpper b, ?_⟩
    have : str "INFORMATION_SCHEMA" = sToUpper (str "information_schema") := by decide +kernel
    rw [this, ← upper_append, ← upper_append, hab]
  have e10 : (str "SET ").isPrefixOf (sToUpper q) = false :=
    Bool.eq_false_iff.mpr fun h => hs _ (by simp) (List.isPrefixOf_iff_prefix.mp h)
  have e11 : (str "USE ").isPrefixOf (sToUpper q) = false :=
    Bool.eq_false_iff.mpr fun h => hs _ (by simp) (List.isPrefixOf_iff_prefix.mp h)
  have e12 := (ie (str "ROLLBACK;") (str "ROLLBACK;") (by decide +kernel) (by decide +kernel) (by simp)
    (by decide +kernel)).1
  have e13 : sIEquals (sToUpper q) (str "SELECT $$;") = false :=
    se (str "$$;") (by decide +kernel) (by decide +kernel) (by decide +kernel) (by decide +kernel) (by simp)
  have e14 : parseCall (str "VERSION") q = none := Classical.byContradiction fun h =>
    ha (parseCall_start h).1 (str "VERSION(") (by simp) (parseCall_start h).2
  have e15 : parseCall (str "CONNECTION_ID") q = none := Classical.byContradiction fun h =>
    ha (parseCall_start h).1 (str "CONNECTION_ID(") (by simp) (parseCall_start h).2
  have e16 : sContains (sToUpper q) (str "SHOW KEYS FROM") = false := Bool.eq_false_iff.mpr fun h =>
    hm _ (by simp) (sContains_iff.mp h)
  have e17 : isForeign q = false := by
    unfold isForeign
    rw [no _ (sContains_iff.mp (by decide +kernel)), Bool.false_and]
  unfold special
  simp only [e1, e2, e3, e4, e5, e6, e7, e8, e9, e10, e11, e12, e13, e14, e15, e16, e17,
    no _ (sContains_iff.mp (show sContains (str "INFORMATION_SCHEMA.TABLES") (str "INFORMATION_SCHEMA") = true by decide +kernel)),
    no _ (sContains_iff.mp (show sContains (str "INFORMATION_SCHEMA.VIEWS") (str "INFORMATION_SCHEMA") = true by decide +kernel)),
    no _ (sContains_iff.mp (show sContains (str "INFORMATION_SCHEMA.COLUMNS") (str "INFORMATION_SCHEMA") = true by decide +kernel)),
    Bool.false_eq_true, if_false, or_self]

/-- A statement with its semicolon. -/
def ended (t : Bytes) : Bytes := if t.getLast? = some 59 then t else t ++ [59]

theorem queryOf_padded (a t b : Bytes) (ha : ∀ c ∈ a, isSpace c = true) (hb : ∀ c ∈ b, isSpace c = true)
    (h1 : ∀ c, t.head? = some c → isSpace c = false) (h2 : ∀ c, t.getLast? = some c → isSpace c = false) (ht : t ≠ [])
    (hc : ¬ str "/*" <+: ended t) : queryOf (3 :: (a ++ t ++ b)) = ended t := by
  unfold queryOf
  rw [List.drop_succ_cons, List.drop_zero, Attr.Props.trim_padded a t b ha hb h1 h2 ht]
  exact if_neg (fun h => hc (List.isPrefixOf_iff_prefix.mp h))

/-- C100.  A statement that is not one of MySQL's own is passed to the database with its bytes unchanged, with a
semicolon if it had none; blanks around it do not matter. -/
theorem c100_passed_on (version : Bytes) (seq : UInt8) (a t b : Bytes) (ha : ∀ c ∈ a, isSpace c = true)
    (hb : ∀ c ∈ b, isSpace c = true) (h1 : ∀ c, t.head? = some c → isSpace c = false)
    (h2 : ∀ c, t.getLast? = some c → isSpace c = false) (ht : t ≠ []) (hc : ¬ str "/*" <+: ended t)
    (hp : Spec.Plain (ended t)) :
    act (special version) ⟨seq, 3 :: (a ++ t ++ b)⟩ = .request seq (ended t) := by
  unfold act
  simp only [List.head?_cons, if_true]
  rw [queryOf_padded a t b ha hb h1 h2 ht hc, special_plain version seq hp]
  rfl

theorem prefixes {a b u : Bytes} (ha : a <+: u) (hb : b <+: u) : a <+: b ∨ b <+: a := by
  rcases Nat.le_total a.length b.length with h | h
  · exact .inl (List.prefix_of_prefix_length_le ha hb h)
  · exact .inr (List.prefix_of_prefix_length_le hb ha h)

theorem clash {a b u : Bytes} (ha : a <+: u) (hb : b <+: u) (h : (a.isPrefixOf b || b.isPrefixOf a) = false) : False := by
  rw [Bool.or_eq_false_iff] at h
  rcases prefixes ha hb with h' | h'
  · rw [List.isPrefixOf_iff_prefix.mpr h'] at h; exact absurd h.1 (by simp)
  · rw [List.isPrefixOf_iff_prefix.mpr h'] at h; exact absurd h.2 (by simp)

/-- C100.  In particular every statement that changes data, if it mentions neither `INFORMATION_SCHEMA` nor
`SHOW KEYS FROM`. -/
theorem c100_writes_partial (q : Bytes) (w : Bytes)
    (hw : w ∈ [str "INSERT", str "UPDATE", str "DELETE", str "REPLACE", str "CREATE", str "DROP", str "ALTER", str "WITH",
      str "BEGIN", str "COMMIT", str "PRAGMA"])
    (hq : w <+: sToUpper q) (hi : ¬ str "INFORMATION_SCHEMA" <:+: sToUpper q) (hk : ¬ str "SHOW KEYS FROM" <:+: sToUpper q) :
    Spec.Plain q := by
  have key : ∀ w ∈ [str "INSERT", str "UPDATE", str "DELETE", str "REPLACE", str "CREATE", str "DROP", str "ALTER",
      str "WITH", str "BEGIN", str "COMMIT", str "PRAGMA"], ∀ v ∈ [str "SET ", str "USE ", str "SHOW VARIABLES",
      str "SHOW DATABASES", str "SHOW FULL TABLES", str "SHOW /*!50002 FULL*/ TABLES", str "ROLLBACK;", str "@@",
      str "SELECT"], (v.isPrefixOf w || w.isPrefixOf v) = false := by decide +kernel
  refine ⟨?_, ?_, ?_⟩
  · intro v hv
    simp only [List.mem_cons, List.not_mem_nil, or_false] at hv
    rcases hv with rfl | rfl
    · exact hi
    · exact hk
  · intro v hv h
    exact clash h hq (key w hw v (by
      simp only [List.mem_cons, List.not_mem_nil, or_false] at hv ⊢
      rcases hv with h | h | h | h | h | h | h | h <;> simp [h]))
  · intro h
    exact absurd (clash h hq (key w hw _ (by simp))) (by simp)

example : act (special (str "1")) ⟨0, 3 :: (str "\n " ++ str "Insert INTO t VALUES ( 'show keys' )" ++ str " ")⟩ =
    .request 0 (str "Insert INTO t VALUES ( 'show keys' );") :=
  c100_passed_on _ 0 _ _ _ (by decide +kernel) (by decide +kernel) (by decide +kernel) (by decide +kernel)
    (by decide +kernel) (fun h => absurd (List.isPrefixOf_iff_prefix.mpr h) (by decide +kernel))
    (c100_writes_partial _ (str "INSERT") (by simp) (List.isPrefixOf_iff_prefix.mp (by decide +kernel))
      (fun h => absurd (sContains_iff.mpr h) (by decide +kernel)) (fun h => absurd (sContains_iff.mpr h) (by decide +kernel)))

theorem act_version (version : Bytes) (p : Packet) (h1 : isVariable (queryOf p.payload) = false)
    (h2 : sIEquals (queryOf p.payload) (str "SHOW VARIABLES;") = false) : act (special version) p = act (special []) p := by
  have : special version p.sequenceID (queryOf p.payload) = special [] p.sequenceID (queryOf p.payload) := by
    unfold special
    simp only [h1, h2, Bool.false_eq_true, if_false]
  unfold act
  rw [this]

/-- C100.  What is missing: a statement that changes data and merely contains one of these names, in a string or in a
comment, is not run.  The first is answered with the list of tables, the second with nothing at all, as if it had worked. -/
theorem c100_write_lost (version : Bytes) :
    act (special version) ⟨0, 3 :: str "INSERT INTO notes VALUES ( 'see information_schema.tables' );"⟩ = .request 0 tablesSQL ∧
    act (special version) ⟨0, 3 :: str "DELETE FROM notes WHERE text = 'information_schema';"⟩ =
      .answer (queryResponse 0 [] []) ∧
    act (special version) ⟨0, 3 :: str "UPDATE notes SET text = 'show keys from x' WHERE id = 1;"⟩ =
      .request 0 (fill (sq (str "x'")) keysParts) := by
  refine ⟨?_, ?_, ?_⟩ <;> rw [act_version _ _ (by decide +kernel) (by decide +kernel)] <;> decide +kernel

/-! ## What is passed on is one statement -/

theorem queryOf_ends (payload : Bytes) : (queryOf payload).getLast? = some 59 := by
  unfold queryOf
  simp only
  generalize trim (payload.drop 1) = t
  have hq : (if t.getLast? = some 59 then t else t ++ [59]).getLast? = some 59 := by
    split
    · assumption
    · rw [List.getLast?_concat]
  generalize (if t.getLast? = some 59 then t else t ++ [59]) = q at hq
  split
  · split
    · rename_i i hi
      obtain ⟨h1, h2, _⟩ := findSub_some hi
      obtain ⟨h4, _, _⟩ := Edit.Props.findSub_first hi
      have hl : i + 2 < q.length := by
        apply Classical.byContradiction
        intro hn
        have e : i + 2 = q.length := by
          have : (str "*/").length = 2 := by decide
          omega
        rw [List.drop_of_length_le (show q.length ≤ i + (str "*/").length from by rw [← e]; exact Nat.le_refl _),
          List.append_nil] at h4
        rw [h4, List.getLast?_append] at hq
        rw [show (str "*/").getLast? = some 47 by decide +kernel, Option.some_or] at hq
        exact absurd hq (by decide)
      rw [List.getLast?_drop, if_neg (by omega), hq]
    · exact hq
  · exact hq

theorem statements_append (st : Option UInt8) (a b : Bytes) :
    Spec.statements st (a ++ b) = ((Spec.statements st a).1 + (Spec.statements (Spec.statements st a).2 b).1,
      (Spec.statements (Spec.statements st a).2 b).2) := by
  induction a generalizing st with
  | nil => simp [Spec.statements]
  | cons c a ih => simp only [List.cons_append, Spec.statements, ih, Nat.add_assoc]

theorem statements_escape (s : Bytes) : Spec.statements (some 39) (s.flatMap (escapeByte [39] 39)) = (0, some 39) := by
  induction s with
  | nil => rfl
  | cons c s ih =>
    rw [List.flatMap_cons, statements_append]
    have : Spec.statements (some 39) (escapeByte [39] 39 c) = (0, some 39) := by
      by_cases h : c = 39
      · subst h; decide +kernel
      · simp [escapeByte, h, Spec.statements, Spec.quoted]
    rw [this, ih, Nat.add_zero]

/-- A literal opens and closes its quotes and ends no statement, whatever the value. -/
theorem statements_sq (s : Bytes) : Spec.statements none (sq s) = (0, none) := by
  unfold sq escape
  rw [List.append_assoc, statements_append, show Spec.statements none [39] = (0, some 39) by decide, statements_append,
    statements_escape]
  decide

theorem fill_cons (lit p p' : Bytes) (ps : List Bytes) : fill lit (p :: p' :: ps) = p ++ lit ++ fill lit (p' :: ps) := rfl

theorem fill_prefix (lit p : Bytes) (ps : List Bytes) : p <+: fill lit (p :: ps) := by
  cases ps with
  | nil => exact List.prefix_refl _
  | cons p' ps => rw [fill_cons, List.append_assoc]; exact List.prefix_append _ _

theorem fill_last (lit p : Bytes) (ps : List Bytes) (c : UInt8) (h : ∀ x, (p :: ps).getLast? = some x → x.getLast? = some c) :
    (fill lit (p :: ps)).getLast? = some c := by
  induction ps generalizing p with
  | nil => exact h p (by simp)
  | cons p' ps ih =>
    rw [fill_cons, List.getLast?_append, ih p' (fun x hx => h x (by rw [List.getLast?_cons_cons]; exact hx)), Option.some_or]

theorem statements_fill (lit : Bytes) (hl : Spec.statements none lit = (0, none)) (p : Bytes) (ps : List Bytes)
    (h : ∀ x ∈ (p :: ps).dropLast, Spec.statements none x = (0, none)) (hn : ∀ x, (p :: ps).getLast? = some x →
      Spec.statements none x = (1, none)) :
    Spec.statements none (fill lit (p :: ps)) = (1, none) := by
  induction ps generalizing p with
  | nil => exact hn p (by simp)
  | cons p' ps ih =>
    rw [fill_cons, statements_append, statements_append, h p (by simp), hl, ih p' (fun x hx => h x (by
      rw [List.dropLast_cons_cons]; exact List.mem_cons_of_mem _ hx)) (fun x hx => hn x (by
      rw [List.getLast?_cons_cons]; exact hx))]
    simp

theorem c31_any (s rest : Bytes) (hr : rest.head? ≠ some 39) : Text.Spec.sqlLiteral (sq s ++ rest) = some (cstr s, rest) := by
  have h0 := zero_not_mem_cstr s
  have := Text.Props.c31_quoted (cstr s) rest h0 hr
  unfold sq escape at this ⊢
  rwa [cstr_eq h0] at this

theorem literals_cons (p p' : Bytes) (ps : List Bytes) (s : Bytes) : Spec.literals (p :: p' :: ps) s =
    if p.isPrefixOf s then
      match Text.Spec.sqlLiteral (s.drop p.length) with
      | some (v, rest) => (Spec.literals (p' :: ps) rest).map (v :: ·)
      | none => none
    else none := rfl

theorem literals_fill (name : Bytes) (p : Bytes) (ps : List Bytes) (h : ∀ x ∈ ps, x ≠ [] ∧ x.head? ≠ some 39) :
    Spec.literals (p :: ps) (fill (sq name) (p :: ps)) = some (ps.map fun _ => cstr name) := by
  induction ps generalizing p with
  | nil => simp [Spec.literals, fill]
  | cons p' ps ih =>
    have hp : p.isPrefixOf (fill (sq name) (p :: p' :: ps)) = true := by
      exact List.isPrefixOf_iff_prefix.mpr (fill_prefix _ _ _)
    rw [literals_cons, if_pos hp, fill_cons, List.append_assoc, List.drop_left, c31_any]
    · simp only [ih p' (fun x hx => h x (List.mem_cons_of_mem _ hx))]
      simp
    · obtain ⟨h1, h2⟩ := h p' List.mem_cons_self
      cases p' with
      | nil => exact absurd rfl h1
      | cons a p' => cases ps <;> simpa [fill] using h2

theorem if_inv {c : Prop} [Decidable c] {α : Type} {a b x : α} (h : (if c then a else b) = x) : c ∧ a = x ∨ ¬ c ∧ b = x := by
  by_cases hc : c
  · rw [if_pos hc] at h; exact .inl ⟨hc, h⟩
  · rw [if_neg hc] at h; exact .inr ⟨hc, h⟩

/-- The parts of a translation around the literals. -/
def parts : List (List Bytes) := [columnsParts, keysParts, foreignParts]

/-- C100.  What a translation asks of the database is one of six fixed `SELECT`s, the name of the table being there only
as the value of a string literal: whatever a client writes, it cannot break out of the literal.  With a NUL the literal
is what stands before it. -/
theorem c100_translated (version : Bytes) (seq s : UInt8) (q sql : Bytes) (h : special version seq q = some (.request s sql)) :
    s = seq ∧ (sql ∈ [fullTablesSQL, odbcTablesSQL, tablesSQL, viewsSQL] ∨
      ∃ ps ∈ parts, ∃ name, name ≠ [] ∧ sql = fill (sq name) ps ∧
        Spec.literals ps sql = some (List.replicate (ps.length - 1) (cstr name))) := by
  have hn : ∀ (t : Bytes) (ps : List Bytes) (w : String), ps ∈ parts → named seq t ps w = .request s sql →
      s = seq ∧ (sql ∈ [fullTablesSQL, odbcTablesSQL, tablesSQL, viewsSQL] ∨
      ∃ ps ∈ parts, ∃ name, name ≠ [] ∧ sql = fill (sq name) ps ∧
        Spec.literals ps sql = some (List.replicate (ps.length - 1) (cstr name))) := by
    intro t ps w hp h
    unfold named at h
    split at h
    · rename_i ht
      simp only [Action.request.injEq] at h
      obtain ⟨rfl, rfl⟩ := h
      refine ⟨rfl, .inr ⟨ps, hp, t, ht, rfl, ?_⟩⟩
      have hg : ∀ ps ∈ parts, ∃ p rest, ps = p :: rest ∧ ∀ x ∈ rest, x ≠ [] ∧ x.head? ≠ some 39 := by
        intro ps hp
        simp only [parts, List.mem_cons, List.not_mem_nil, or_false] at hp
        rcases hp with rfl | rfl | rfl
        · exact ⟨_, _, rfl, by decide +kernel⟩
        · exact ⟨_, _, rfl, by decide +kernel⟩
        · exact ⟨_, _, rfl, by decide +kernel⟩
      obtain ⟨p, rest, rfl, hr⟩ := hg ps hp
      rw [literals_fill t p rest hr, List.map_const']
      rfl
    · cases h
  have fix : ∀ x ∈ [fullTablesSQL, odbcTablesSQL, tablesSQL, viewsSQL], some (Action.request seq x) = some (.request s sql) →
      s = seq ∧ (sql ∈ [fullTablesSQL, odbcTablesSQL, tablesSQL, viewsSQL] ∨
      ∃ ps ∈ parts, ∃ name, name ≠ [] ∧ sql = fill (sq name) ps ∧
        Spec.literals ps sql = some (List.replicate (ps.length - 1) (cstr name))) := by
    intro x hx h
    simp only [Option.some.injEq, Action.request.injEq] at h
    obtain ⟨rfl, rfl⟩ := h
    exact ⟨rfl, .inl hx⟩
  unfold special rows okay at h
  rcases if_inv h with ⟨_, h⟩ | ⟨_, h⟩; · cases h
  rcases if_inv h with ⟨_, h⟩ | ⟨_, h⟩; · cases h
  rcases if_inv h with ⟨_, h⟩ | ⟨_, h⟩; · cases h
  rcases if_inv h with ⟨_, h⟩ | ⟨_, h⟩; · exact fix _ (by simp) h
  rcases if_inv h with ⟨_, h⟩ | ⟨_, h⟩; · exact fix _ (by simp) h
  rcases if_inv h with ⟨_, h⟩ | ⟨_, h⟩; · exact fix _ (by simp) h
  rcases if_inv h with ⟨_, h⟩ | ⟨_, h⟩; · exact fix _ (by simp) h
  rcases if_inv h with ⟨_, h⟩ | ⟨_, h⟩; · exact hn _ _ _ (by simp [parts]) (Option.some.inj h)
  rcases if_inv h with ⟨_, h⟩ | ⟨_, h⟩; · cases h
  rcases if_inv h with ⟨_, h⟩ | ⟨_, h⟩; · cases h
  rcases if_inv h with ⟨_, h⟩ | ⟨_, h⟩; · cases h
  split at h; · cases h
  split at h; · cases h
  rcases if_inv h with ⟨_, h⟩ | ⟨_, h⟩; · exact hn _ _ _ (by simp [parts]) (Option.some.inj h)
  rcases if_inv h with ⟨_, h⟩ | ⟨_, h⟩; · exact hn _ _ _ (by simp [parts]) (Option.some.inj h)
  cases h

theorem parts_facts : ∀ ps ∈ parts, (∀ x ∈ ps.dropLast, Spec.statements none x = (0, none)) ∧
    ps.getLast?.map (Spec.statements none) = some (1, none) ∧ ps.getLast?.map List.getLast? = some (some 59) ∧
    ps.head?.map (str "SELECT ").isPrefixOf = some true := by decide +kernel

/-- C100.  And it is exactly one statement, which starts with `SELECT` and ends with its semicolon. -/
theorem c100_one_statement (version : Bytes) (seq s : UInt8) (q sql : Bytes)
    (h : special version seq q = some (.request s sql)) :
    Spec.statements none sql = (1, none) ∧ str "SELECT " <+: sql ∧ sql.getLast? = some 59 := by
  obtain ⟨_, h | ⟨ps, hp, name, hne, rfl, _⟩⟩ := c100_translated version seq s q sql h
  · have : ∀ sql ∈ [fullTablesSQL, odbcTablesSQL, tablesSQL, viewsSQL], Spec.statements none sql = (1, none) ∧
        (str "SELECT ").isPrefixOf sql = true ∧ sql.getLast? = some 59 := by decide +kernel
    obtain ⟨h1, h2, h3⟩ := this sql h
    exact ⟨h1, List.isPrefixOf_iff_prefix.mp h2, h3⟩
  · obtain ⟨h1, h2, h4, h3⟩ := parts_facts ps hp
    cases ps with
    | nil => cases h2
    | cons p rest =>
    exact ⟨statements_fill _ (statements_sq name) _ _ h1 (fun x hx => by rw [hx] at h2; exact Option.some.inj h2),
      (List.isPrefixOf_iff_prefix.mp (Option.some.inj h3)).trans (fill_prefix _ _ _),
      fill_last _ _ _ _ (fun x hx => by rw [hx] at h4; exact Option.some.inj h4)⟩

/-- C100.  Whatever a client sends as a query, what reaches the `Query` command ends in a semicolon, which the command
insists on. -/
theorem c100_semicolon (version : Bytes) (p : Packet) (s : UInt8) (sql : Bytes)
    (h : act (special version) p = .request s sql) : sql.getLast? = some 59 := by
  unfold act at h
  split at h
  · cases e : special version p.sequenceID (queryOf p.payload) with
    | none =>
      rw [e, Option.getD_none, Action.request.injEq] at h
      rw [← h.2]
      exact queryOf_ends p.payload
    | some a =>
      rw [e, Option.getD_some] at h
      subst h
      exact (c100_one_statement version _ _ _ _ e).2.2
  · cases h

/-! ## The two functions answered without asking the database -/

/-- Spaces in front are skipped. -/
theorem skip (p : UInt8 → Bool) (s t : Bytes) (hs : ∀ c ∈ s, p c = true) (ht : ∀ c, t.head? = some c → p c = false) :
    (s ++ t).dropWhile p = t ∧ (s ++ t).takeWhile p = s := by
  induction s with
  | nil =>
    cases t with
    | nil => exact ⟨rfl, rfl⟩
    | cons c t => simp [ht c rfl]
  | cons c s ih =>
    have := ih fun x h => hs x (List.mem_cons_of_mem _ h)
    simp [hs c List.mem_cons_self, this]

theorem split_at (p : UInt8 → Bool) (s : Bytes) : ∃ a b, s = a ++ b ∧ (∀ c ∈ a, p c = true) ∧
    s.dropWhile p = b ∧ s.takeWhile p = a ∧ ∀ c, b.head? = some c → p c = false := by
  refine ⟨s.takeWhile p, s.dropWhile p, (List.takeWhile_append_dropWhile).symm, ?_, rfl, rfl, ?_⟩
  · induction s with
    | nil => intro c hc; cases hc
    | cons x s ih =>
      intro c hc
      rw [List.takeWhile_cons] at hc
      split at hc
      · rename_i hx
        rcases List.mem_cons.mp hc with rfl | hc
        · exact hx
        · exact ih c hc
      · cases hc
  · intro c hc
    induction s with
    | nil => cases hc
    | cons x s ih =>
      rw [List.dropWhile_cons] at hc
      split at hc
      · exact ih hc
      · rename_i h
        simp only [List.head?_cons, Option.some.injEq] at hc
        rw [← hc]; simpa using h

theorem stop_head {stop : Bytes} (h : stop ∈ [[], [(59 : UInt8)]]) :
    ∀ c, stop.head? = some c → isSpace c = false ∧ isWord c = false := by
  simp only [List.mem_cons, List.not_mem_nil, or_false] at h
  rcases h with rfl | rfl
  · intro c h; cases h
  · intro c h; cases h; decide

theorem head_of_spaces {s : Bytes} (h : s ≠ []) (hs : ∀ c ∈ s, isSpace c = true) (t : Bytes) :
    isSpace ((s ++ t).headD 0) = true := by
  cases s with
  | nil => exact absurd rfl h
  | cons c s => exact hs c List.mem_cons_self

theorem space_not_word : ∀ c : UInt8, isSpace c = true → isWord c = false := by
  intro c h
  have : ∀ n : Fin 256, isSpace (UInt8.ofNat n.val) = true → isWord (UInt8.ofNat n.val) = false := by decide +kernel
  have hc := this ⟨c.toNat, c.toNat_lt⟩
  simp only [UInt8.ofNat_toNat] at hc
  exact hc h

theorem isWord_iff (c : UInt8) : isWord c = true ↔
    (48 ≤ c ∧ c ≤ 57) ∨ (65 ≤ c ∧ c ≤ 90) ∨ (97 ≤ c ∧ c ≤ 122) ∨ c = 95 := by
  unfold isWord
  simp [or_assoc]

theorem word_not_space (c : UInt8) (h : isWord c = true) : isSpace c = false := by
  cases e : isSpace c
  · rfl
  · rw [space_not_word c e] at h; cases h

theorem alias_none_iff (s : Bytes) : asAlias s = some none ↔
    ∃ s3 stop, (∀ c ∈ s3, isSpace c = true) ∧ stop ∈ [[], [(59 : UInt8)]] ∧ s = s3 ++ stop := by
  constructor
  · intro h
    obtain ⟨a, b, rfl, ha, hb, _, _⟩ := split_at isSpace s
    refine ⟨a, b, ha, ?_, rfl⟩
    unfold asAlias at h
    rw [hb] at h
    dsimp only at h
    split at h
    · rename_i h; rcases h with h | h <;> simp [h]
    · split at h
      · split at h <;> cases h
      · cases h
  · rintro ⟨a, b, ha, hb, rfl⟩
    unfold asAlias
    rw [(skip isSpace a b ha fun c h => (stop_head hb c h).1).1]
    dsimp only
    rw [if_pos (by simpa using hb)]

theorem alias_some_iff (s w : Bytes) : asAlias s = some (some w) ↔
    ∃ s4 s5 s3 stop, s4 ≠ [] ∧ s5 ≠ [] ∧ (∀ c ∈ s4, isSpace c = true) ∧ (∀ c ∈ s5, isSpace c = true) ∧
      (∀ c ∈ s3, isSpace c = true) ∧ stop ∈ [[], [(59 : UInt8)]] ∧ w ≠ [] ∧ (∀ c ∈ w, isWord c = true) ∧
      s = s4 ++ (str "AS" ++ (s5 ++ (w ++ (s3 ++ stop)))) := by
  have eAS : str "AS" = [65, 83] := by decide +kernel
  constructor
  · intro h
    obtain ⟨a, b, rfl, ha, hb, _, _⟩ := split_at isSpace s
    unfold asAlias at h
    rw [hb] at h
    dsimp only at h
    split at h
    · cases h
    · split at h
      · rename_i hc
        simp only [Bool.and_eq_true] at hc
        obtain ⟨⟨h1, h2⟩, h3⟩ := hc
        split at h
        · rename_i hc
          obtain ⟨t, ht⟩ := List.isPrefixOf_iff_prefix.mp h2
          have hd : b.drop 2 = t := by rw [← ht, eAS]; rfl
          rw [hd] at h h3 hc
          obtain ⟨s5, r, rfl, h5, hr, _, _⟩ := split_at isSpace t
          rw [hr] at h hc
          obtain ⟨w', r', rfl, hw, hr', hw', _⟩ := split_at isWord r
          rw [hw'] at h hc
          rw [hr'] at hc
          obtain ⟨s3, stop, rfl, hs3, hst, _, _⟩ := split_at isSpace r'
          rw [hst] at hc
          have : w' = w := by simpa using h
          subst this
          refine ⟨a, s5, s3, stop, ?_, ?_, ha, h5, hs3, by simpa using hc.2, hc.1, hw, by rw [← ht]⟩
          · rintro rfl
            rw [← ht, eAS] at h1
            have h1 : isSpace 65 = true := h1
            exact absurd h1 (by decide)
          · rintro rfl
            rw [List.nil_append] at h3
            cases w' with
            | nil => exact hc.1 rfl
            | cons c w' =>
              rw [List.cons_append, List.headD_cons, word_not_space c (hw c List.mem_cons_self)] at h3
              cases h3
        · cases h
      · cases h
  · rintro ⟨s4, s5, s3, stop, n4, n5, h4, h5, h3, hst, hw, hww, rfl⟩
    unfold asAlias
    have d1 := skip isSpace s4 (str "AS" ++ (s5 ++ (w ++ (s3 ++ stop)))) h4 (by
      intro c h; rw [eAS] at h; cases h; decide)
    have hs3 : ∀ c, (s3 ++ stop).head? = some c → isWord c = false := by
      intro c h
      cases s3 with
      | nil => exact (stop_head hst c h).2
      | cons x s3 =>
        simp only [List.cons_append, List.head?_cons, Option.some.injEq] at h
        exact space_not_word c (h3 c (by simp [h]))
    have d2 := skip isSpace s5 (w ++ (s3 ++ stop)) h5 (by
      intro c h
      cases w with
      | nil => exact absurd rfl hw
      | cons x w =>
        simp only [List.cons_append, List.head?_cons, Option.some.injEq] at h
        exact word_not_space c (hww c (by simp [h])))
    have d3 := skip isWord w (s3 ++ stop) hww hs3
    have d4 := skip isSpace s3 stop h3 fun c h => (stop_head hst c h).1
    have e2 : (str "AS" ++ (s5 ++ (w ++ (s3 ++ stop)))).drop 2 = s5 ++ (w ++ (s3 ++ stop)) := by rw [eAS]; rfl
    have e3 : (str "AS").isPrefixOf (str "AS" ++ (s5 ++ (w ++ (s3 ++ stop)))) = true :=
      List.isPrefixOf_iff_prefix.mpr (List.prefix_append _ _)
    rw [d1.1]
    dsimp only
    rw [e2, d2.1, d3.1, d3.2, d4.1, e3, head_of_spaces n4 h4, head_of_spaces n5 h5]
    rw [if_neg (by rw [eAS]; simp), if_pos (by rfl), if_pos ⟨hw, by simpa using hst⟩]

/-- **C100** What is answered as a call of `VERSION()` or `CONNECTION_ID()`: exactly the texts `SELECT name()`, in any case
and with spaces where they may stand, an alias that is one word, and a semicolon or none.  Anything after that makes it
an ordinary query. -/
theorem c100_call_iff (name q : Bytes) (a : Option Bytes) (hn : ∀ c, (name ++ str "(").head? = some c → isSpace c = false) :
    parseCall name q = some a ↔ Spec.CallText name a (sToUpper q) := by
  have eS : (str "SELECT").length = 6 := by decide +kernel
  have eB : str ")" = [41] := by decide +kernel
  have eP : (name ++ str "(").length = name.length + 1 := by rw [List.length_append]; rfl
  unfold parseCall
  generalize sToUpper q = u
  dsimp only
  have fwd : ∀ s1 s2 r, s1 ≠ [] → (∀ c ∈ s1, isSpace c = true) → (∀ c ∈ s2, isSpace c = true) →
      u = str "SELECT" ++ (s1 ++ ((name ++ str "(") ++ (s2 ++ 41 :: r))) →
      (if ((str "SELECT").isPrefixOf u && isSpace ((u.drop 6).headD 0)) = true then
        if (name ++ str "(").isPrefixOf ((u.drop 6).dropWhile isSpace) = true then
          match (((u.drop 6).dropWhile isSpace).drop (name.length + 1)).dropWhile isSpace with
          | 41 :: r => asAlias r
          | _ => none
        else none
      else none) = asAlias r := by
    intro s1 s2 r n1 h1 h2 hu
    have d0 : u.drop 6 = s1 ++ ((name ++ str "(") ++ (s2 ++ 41 :: r)) := by
      rw [hu, ← eS, List.drop_left]
    have d1 := skip isSpace s1 ((name ++ str "(") ++ (s2 ++ 41 :: r)) h1 (by
      intro c h
      refine hn c ?_
      rw [List.head?_append] at h
      cases hh : (name ++ str "(").head? with
      | none => have : name ++ str "(" = [] := List.head?_eq_none_iff.mp hh
                have := congrArg List.length this
                rw [eP] at this; simp at this
      | some x => rw [hh] at h; exact h)
    have d2 := skip isSpace s2 (41 :: r) h2 (by intro c h; cases h; decide)
    rw [d0, d1.1, head_of_spaces n1 h1, hu, List.isPrefixOf_iff_prefix.mpr (List.prefix_append _ _),
      List.isPrefixOf_iff_prefix.mpr (List.prefix_append _ _), ← eP, List.drop_left, d2.1]
    rfl
  constructor
  · intro h
    split at h
    · rename_i hc
      simp only [Bool.and_eq_true] at hc
      obtain ⟨t, rfl⟩ := List.isPrefixOf_iff_prefix.mp hc.1
      have d0 : (str "SELECT" ++ t).drop 6 = t := by rw [← eS, List.drop_left]
      rw [d0] at h hc
      obtain ⟨s1, b, rfl, h1, hb, _, hh⟩ := split_at isSpace t
      rw [hb] at h
      split at h
      · rename_i hp
        obtain ⟨t, rfl⟩ := List.isPrefixOf_iff_prefix.mp hp
        rw [← eP, List.drop_left] at h
        obtain ⟨s2, b, rfl, h2, hb, _, _⟩ := split_at isSpace t
        rw [hb] at h
        have n1 : s1 ≠ [] := by
          rintro rfl
          rw [List.nil_append] at hc
          cases hx : ((name ++ str "(") ++ (s2 ++ b)) with
          | nil => have := congrArg List.length hx; rw [List.length_append, eP] at this; simp at this
          | cons x l =>
            rw [hx] at hc hh
            have := hh x rfl
            rw [List.headD_cons, this] at hc
            cases hc.2
        split at h
        · cases a with
          | none =>
            obtain ⟨s3, stop, h3, hst, rfl⟩ := (alias_none_iff _).mp h
            refine ⟨s1, s2, s3, stop, n1, ?_, hst, by rw [eB]; simp⟩
            intro c hc
            simp only [List.mem_append] at hc
            rcases hc with (hc | hc) | hc
            all_goals first | exact h1 c hc | exact h2 c hc | exact h3 c hc
          | some w =>
            obtain ⟨s4, s5, s3, stop, n4, n5, h4, h5, h3, hst, hw, hww, rfl⟩ := (alias_some_iff _ w).mp h
            refine ⟨s1, s2, s3, stop, n1, ?_, hst, s4, s5, n4, n5, ?_, hw, fun c h => (isWord_iff c).mp (hww c h), by rw [eB]; simp⟩
            · intro c hc
              simp only [List.mem_append] at hc
              rcases hc with (hc | hc) | hc
              all_goals first | exact h1 c hc | exact h2 c hc | exact h3 c hc
            · intro c hc
              simp only [List.mem_append] at hc
              rcases hc with hc | hc
              all_goals first | exact h4 c hc | exact h5 c hc
        · cases h
      · cases h
    · cases h
  · rintro ⟨s1, s2, s3, stop, n1, hs, hst, h⟩
    have h1 : ∀ c ∈ s1, isSpace c = true := fun c h => hs c (by simp [h])
    have h2 : ∀ c ∈ s2, isSpace c = true := fun c h => hs c (by simp [h])
    have h3 : ∀ c ∈ s3, isSpace c = true := fun c h => hs c (by simp [h])
    cases a with
    | none =>
      refine (fwd s1 s2 (s3 ++ stop) n1 h1 h2 (by rw [h, eB]; simp)).trans ?_
      exact (alias_none_iff _).mpr ⟨s3, stop, h3, hst, rfl⟩
    | some w =>
      obtain ⟨s4, s5, n4, n5, h45, hw, hww, h⟩ := h
      refine (fwd s1 s2 (s4 ++ (str "AS" ++ (s5 ++ (w ++ (s3 ++ stop))))) n1 h1 h2 (by rw [h, eB]; simp)).trans ?_
      exact (alias_some_iff _ w).mpr ⟨s4, s5, s3, stop, n4, n5, fun c h => h45 c (by simp [h]),
        fun c h => h45 c (by simp [h]), h3, hst, hw, fun c h => (isWord_iff c).mpr (hww c h), rfl⟩

/-- With an alias it is recognised, with a second column it is not. -/
example : parseCall (str "VERSION") (str "select version() as v ;") = some (some (str "V")) ∧
    parseCall (str "VERSION") (str "SELECT VERSION() AS v, 1;") = none := by
  decide +kernel

/-- **C100** An alias is made of letters, digits and underscores. -/
theorem c100_word (c : UInt8) : isWord c = true ↔
    c ∈ b!"0123456789ABCDEFGHIJKLMNOPQRSTUVWXYZabcdefghijklmnopqrstuvwxyz_" :=
  forall_u8 (P := fun c => isWord c = true ↔
    c ∈ b!"0123456789ABCDEFGHIJKLMNOPQRSTUVWXYZabcdefghijklmnopqrstuvwxyz_") (by decide +kernel) c

end Bedrock.MySQL.Props
