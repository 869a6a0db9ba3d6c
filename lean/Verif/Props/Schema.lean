import Verif.Model.Schema
import Verif.Props.Edit

/-!
# C96: the schema is checked up to white space, created once, and never changed without need
-/

namespace Bedrock.Schema.Props
open Bedrock Bedrock.Text Bedrock.Edit Bedrock.Edit.Props Bedrock.Schema

variable {D : Type}

/-- A text without its white space. -/
def dense (s : Bytes) : Bytes := s.filter (fun c => !isSpace c)

theorem collapsed_dense {s t : Bytes} (h : Collapsed s t) : t.filter (fun c => [32].contains c == false) = dense s := by
  induction h with
  | nil => rfl
  | text c s t hc _ ih =>
    have h32 : c ≠ 32 := by rintro rfl; revert hc; decide
    unfold dense at ih ⊢
    rw [List.filter_cons_of_pos (by simp [h32]), List.filter_cons_of_pos (by simp [hc]), ih]
  | run w s t _ hw _ _ ih =>
    unfold dense at ih ⊢
    rw [List.filter_cons_of_neg (by simp), List.filter_append, ih]
    have : w.filter (fun c => !isSpace c) = [] := by
      rw [List.filter_eq_nil_iff]
      intro c hc
      simp [hw c hc]
    rw [this]
    rfl

theorem collapsed_no_nul {s t : Bytes} (h : Collapsed s t) (h0 : 0 ∉ s) : 0 ∉ t := by
  induction h with
  | nil => exact h0
  | text c s t _ _ ih =>
    intro hm
    rcases List.mem_cons.mp hm with h | h
    · exact h0 (by simp [h])
    · exact ih (fun hs => h0 (by simp [hs])) h
  | run w s t _ _ _ _ ih =>
    intro hm
    rcases List.mem_cons.mp hm with h | h
    · cases h
    · exact ih (fun hs => h0 (by simp [hs])) h

/-- What is compared. -/
theorem strip_collapse (s : Bytes) (h0 : 0 ∉ s) : strip (collapse s) [32] false = dense s := by
  have h := (c95_collapse s _ h0).mp rfl
  unfold strip
  rw [cstr_eq (collapsed_no_nul h h0)]
  exact collapsed_dense h

theorem ends_semi (s : Bytes) : endsWith s [59] = true ↔ s.getLast? = some 59 := by
  rw [c95_ends, List.getLast?_eq_some_iff]
  exact ⟨fun ⟨p, h⟩ => ⟨p, h.symm⟩, fun ⟨p, h⟩ => ⟨p, h.symm⟩⟩

/-- The first row for the table. -/
def IsSql (l : List Entry) (type table s : Bytes) : Prop :=
  ∃ pre e post, l = pre ++ e :: post ∧ e.type = type ∧ e.table = table ∧ e.sql = some s ∧
    ∀ x ∈ pre, ¬ (x.type = type ∧ x.table = table)

theorem sqlOf_is {l : List Entry} {type table s : Bytes} (h : IsSql l type table s) : sqlOf l type table = some s := by
  obtain ⟨pre, e, post, rfl, h1, h2, h3, h4⟩ := h
  unfold sqlOf
  rw [List.find?_append, List.find?_eq_none.mpr]
  · rw [List.find?_cons_of_pos (by simp [h1, h2])]
    simp [h3]
  · intro x hx
    simpa using h4 x hx

theorem sqlOf_none {l : List Entry} {type table : Bytes} (h : ∀ x ∈ l, ¬ (x.type = type ∧ x.table = table)) :
    sqlOf l type table = none := by
  unfold sqlOf
  rw [List.find?_eq_none.mpr]
  · rfl
  · intro x hx
    simpa using h x hx

/-! ## Tables -/

/-- C96.  A table that is there is left alone; the answer is whether its text is the one given, up to white space. -/
theorem c96_table_there (E : Engine D) (name sql type : Bytes) (d : D) (s : Bytes) (hs : IsSql (E.master d) type name s)
    (h1 : 0 ∉ s) (h2 : 0 ∉ sql) (hsemi : sql.getLast? ≠ some 59) :
    ∃ r, verifyTable E name sql type d = .done d (r, false) ∧ (r = true ↔ dense s = dense sql) := by
  unfold verifyTable
  rw [if_neg (by rw [ends_semi]; exact hsemi), sqlOf_is hs]
  refine ⟨_, rfl, ?_⟩
  rw [beq_iff_eq, strip_collapse s h1, strip_collapse sql h2]

/-- C96.  A table that is not there is created with the text given, its white space collapsed. -/
theorem c96_table_missing (E : Engine D) (name sql type : Bytes) (d : D) (hs : ∀ x ∈ E.master d, ¬ (x.type = type ∧ x.table = name))
    (hsemi : sql.getLast? ≠ some 59) (t : Bytes) (h0 : 0 ∉ sql) (ht : Collapsed sql t) :
    verifyTable E name sql type d = match E.exec (t ++ [59]) d with
      | some d' => .done d' (true, true)
      | none => .abort := by
  unfold verifyTable
  rw [if_neg (by rw [ends_semi]; exact hsemi), sqlOf_none hs, (c95_collapse sql t h0).mpr ht]
  rfl

/-- C96.  A text that ends with a semicolon ends the process. -/
theorem c96_semicolon (E : Engine D) (name sql type : Bytes) (d : D) (h : sql.getLast? = some 59) : verifyTable E name sql type d = .abort := by
  unfold verifyTable
  rw [if_pos ((ends_semi sql).mpr h)]

/-- What SQLite does: a table is stored as `CREATE TABLE` and the text from its name on; dropping a table removes it with
what belongs to it; a column is added behind the last. -/
structure Faithful (E : Engine D) (name : Bytes) (valid : Bytes → Prop) : Prop where
  create : ∀ d kw rest, (kw = str "CREATE TABLE " ∨ kw = str "CREATE TABLE IF NOT EXISTS ") → valid rest →
    (∀ x ∈ E.master d, x.table ≠ name) →
    ∃ d', E.exec (kw ++ name ++ rest ++ [59]) d = some d' ∧
      E.master d' = E.master d ++ [⟨str "table", name, name, some (str "CREATE TABLE " ++ name ++ rest)⟩]
  drop : ∀ d, (∃ x ∈ E.master d, x.table = name) →
    ∃ d', E.exec (str "DROP TABLE " ++ name ++ [59]) d = some d' ∧ E.master d' = (E.master d).filter (fun x => x.table != name)
  add : ∀ d column type s, IsSql (E.master d) (str "table") name s → ∀ d',
    E.exec (str "ALTER TABLE " ++ name ++ str " ADD COLUMN " ++ column ++ [32] ++ type ++ [59]) d = some d' →
      ∃ a b, s = a ++ b ∧ IsSql (E.master d') (str "table") name (a ++ str ", " ++ column ++ [32] ++ type ++ b)

theorem getLast_ne {s t : Bytes} (h : Collapsed s t) (hl : s.getLast? ≠ some 59) : t.getLast? ≠ some 59 := by
  induction h with
  | nil => exact hl
  | text c s t hc h ih =>
    cases h with
    | nil => simpa using hl
    | text c' s' t' h1 h2 => rw [List.getLast?_cons_cons] at hl ⊢; exact ih hl
    | run w s' t' h1 h2 h3 h4 =>
      rw [List.getLast?_cons_cons]
      apply ih
      cases w with
      | nil => exact absurd rfl h1
      | cons x w => rw [List.cons_append, List.getLast?_cons_cons] at hl; exact hl
  | run w s t hw hs hh h ih =>
    cases t with
    | nil => simp
    | cons x t =>
      rw [List.getLast?_cons_cons]
      apply ih
      cases s with
      | nil => simp
      | cons y s => rw [List.getLast?_append] at hl; intro he; exact hl (by rw [he]; rfl)

/-- C96.  A table that was created passes the check from then on, with the same text or any other that differs in white space
only, without a write. -/
theorem c96_twice (E : Engine D) (name : Bytes) (valid : Bytes → Prop) (hE : Faithful E name valid) (rest sql sql' : Bytes) (d : D)
    (hc : Collapsed sql (str "CREATE TABLE " ++ name ++ rest)) (hv : valid rest) (h0 : 0 ∉ sql) (hsemi : sql.getLast? ≠ some 59)
    (hm : ∀ x ∈ E.master d, x.table ≠ name) (h0' : 0 ∉ sql') (hsemi' : sql'.getLast? ≠ some 59) (hsame : dense sql' = dense sql) :
    ∃ d', verifyTable E name sql (str "table") d = .done d' (true, true) ∧
      verifyTable E name sql' (str "table") d' = .done d' (true, false) := by
  obtain ⟨d', h1, h2⟩ := hE.create d (str "CREATE TABLE ") rest (.inl rfl) hv hm
  refine ⟨d', ?_, ?_⟩
  · rw [c96_table_missing E name sql _ d (fun x hx h => hm x hx h.2) hsemi _ h0 hc, h1]
  · have hi : IsSql (E.master d') (str "table") name (str "CREATE TABLE " ++ name ++ rest) :=
      ⟨E.master d, _, [], h2, rfl, rfl, rfl, fun x hx h => hm x hx h.2⟩
    obtain ⟨r, h3, h4⟩ := c96_table_there E name sql' _ d' _ hi (collapsed_no_nul hc h0) h0' hsemi'
    have : r = true := by
      rw [h4, hsame]
      have h32 := collapsed_dense hc
      rw [← h32]
      unfold dense
      apply List.filter_congr
      intro x hx
      -- what has been collapsed has no white space but blanks
      have key : ∀ {s t : Bytes}, Collapsed s t → ∀ x ∈ t, isSpace x = true → x = 32 := by
        intro s t h
        induction h with
        | nil => intro x hx; cases hx
        | text c s t hc _ ih =>
          intro x hx hsp
          rcases List.mem_cons.mp hx with rfl | hx
          · rw [hc] at hsp; cases hsp
          · exact ih x hx hsp
        | run w s t _ _ _ _ ih =>
          intro x hx hsp
          rcases List.mem_cons.mp hx with rfl | hx
          · rfl
          · exact ih x hx hsp
      by_cases hx32 : x = 32
      · subst hx32; decide
      · have hx' : isSpace x = false := by
          cases hb : isSpace x with
          | false => rfl
          | true => exact absurd (key hc x hx hb) hx32
        rw [hx']
        simp [hx32]
    rw [h3, this]

/-- C96, limits: a text with `IF NOT EXISTS` creates the table, but does not pass the check from then on. -/
theorem c96_if_not_exists (E : Engine D) (name : Bytes) (valid : Bytes → Prop) (hE : Faithful E name valid) (rest : Bytes) (d : D)
    (hv : valid rest) (hn : 0 ∉ name ++ rest) (hsemi : (str "CREATE TABLE IF NOT EXISTS " ++ name ++ rest).getLast? ≠ some 59)
    (hc : Collapsed (str "CREATE TABLE IF NOT EXISTS " ++ name ++ rest) (str "CREATE TABLE IF NOT EXISTS " ++ name ++ rest))
    (hm : ∀ x ∈ E.master d, x.table ≠ name) :
    ∃ d', verifyTable E name (str "CREATE TABLE IF NOT EXISTS " ++ name ++ rest) (str "table") d = .done d' (true, true) ∧
      verifyTable E name (str "CREATE TABLE IF NOT EXISTS " ++ name ++ rest) (str "table") d' = .done d' (false, false) := by
  obtain ⟨d', h1, h2⟩ := hE.create d (str "CREATE TABLE IF NOT EXISTS ") rest (.inr rfl) hv hm
  have z1 : (0 : UInt8) ∉ str "CREATE TABLE IF NOT EXISTS " := by decide +kernel
  have z2 : (0 : UInt8) ∉ str "CREATE TABLE " := by decide +kernel
  have n1 : 0 ∉ str "CREATE TABLE IF NOT EXISTS " ++ name ++ rest := by
    rw [List.append_assoc]
    intro h
    rcases List.mem_append.mp h with h | h
    · exact z1 h
    · exact hn h
  have n2 : 0 ∉ str "CREATE TABLE " ++ name ++ rest := by
    rw [List.append_assoc]
    intro h
    rcases List.mem_append.mp h with h | h
    · exact z2 h
    · exact hn h
  refine ⟨d', ?_, ?_⟩
  · rw [c96_table_missing E name _ _ d (fun x hx h => hm x hx h.2) hsemi _ n1 hc, h1]
  · have hi : IsSql (E.master d') (str "table") name (str "CREATE TABLE " ++ name ++ rest) :=
      ⟨E.master d, _, [], h2, rfl, rfl, rfl, fun x hx h => hm x hx h.2⟩
    obtain ⟨r, h3, h4⟩ := c96_table_there E name _ _ d' _ hi n2 n1 hsemi
    have : r = false := by
      cases r with
      | false => rfl
      | true =>
        have e := congrArg List.length (h4.mp rfl)
        unfold dense at e
        rw [List.append_assoc (str "CREATE TABLE "), List.append_assoc (str "CREATE TABLE IF NOT EXISTS "), List.filter_append, List.filter_append (l₁ := str "CREATE TABLE IF NOT EXISTS "), List.length_append, List.length_append] at e
        have e1 : ((str "CREATE TABLE ").filter (fun c => !isSpace c)).length = 11 := by decide +kernel
        have e2 : ((str "CREATE TABLE IF NOT EXISTS ").filter (fun c => !isSpace c)).length = 22 := by decide +kernel
        omega
    rw [h3, this]

/-- C96, limits: white space counts nowhere, not in a literal and not between words. -/
theorem c96_blanks_in_literals : dense (str "CREATE TABLE t ( a TEXT DEFAULT 'x y' )") = dense (str "CREATE TABLE t ( a TEXT DEFAULT 'xy' )") ∧
    dense (str "CREATE TABLE t ( a UNSIGNED BIG INT )") = dense (str "CREATE TABLE t ( a UNSIGNEDBIGINT )") := by decide +kernel

/-- C96.  The cache table: one round if it is missing or right, one drop and one more if it is not; then it is right. -/
theorem c96_rebuild (E : Engine D) (name : Bytes) (valid : Bytes → Prop) (hE : Faithful E name valid) (rest sql : Bytes) (d : D)
    (hc : Collapsed sql (str "CREATE TABLE " ++ name ++ rest)) (hv : valid rest) (h0 : 0 ∉ sql) (hsemi : sql.getLast? ≠ some 59)
    (hm : (∀ x ∈ E.master d, x.table ≠ name) ∨ ∃ s, IsSql (E.master d) (str "table") name s ∧ 0 ∉ s) :
    ∃ d', rebuild E name sql 2 d = some (.done d' ()) ∧ verifyTable E name sql (str "table") d' = .done d' (true, false) := by
  rcases hm with hm | ⟨s, hs, hs0⟩
  · obtain ⟨d', h1, h2⟩ := c96_twice E name valid hE rest sql sql d hc hv h0 hsemi hm h0 hsemi rfl
    exact ⟨d', by unfold rebuild; rw [h1], h2⟩
  · obtain ⟨r, h1, h2⟩ := c96_table_there E name sql _ d s hs hs0 h0 hsemi
    cases r with
    | true => exact ⟨d, by unfold rebuild; rw [h1], h1⟩
    | false =>
      have hex : ∃ x ∈ E.master d, x.table = name := by
        obtain ⟨pre, e, post, h, -, h', -⟩ := hs
        exact ⟨e, by rw [h]; simp, h'⟩
      obtain ⟨d₁, g1, g2⟩ := hE.drop d hex
      have hm : ∀ x ∈ E.master d₁, x.table ≠ name := by
        intro x hx
        rw [g2] at hx
        simpa using (List.mem_filter.mp hx).2
      obtain ⟨d', h3, h4⟩ := c96_twice E name valid hE rest sql sql d₁ hc hv h0 hsemi hm h0 hsemi rfl
      refine ⟨d', ?_, h4⟩
      unfold rebuild
      rw [h1]
      dsimp only
      rw [g1]
      dsimp only
      unfold rebuild
      rw [h3]

/-! ## Indexes -/

/-- The first row for the index. -/
def IsIndex (l : List Entry) (table name s : Bytes) : Prop :=
  ∃ pre e post, l = pre ++ e :: post ∧ e.type = str "index" ∧ e.table = table ∧ e.name = name ∧ e.sql = some s ∧
    ∀ x ∈ pre, ¬ (x.type = str "index" ∧ x.table = table ∧ x.name = name)

/-- C96.  An index that is there is left alone; the answer is whether its text is the one wanted, up to blanks and the case of
letters. -/
theorem c96_index_there (E : Engine D) (name table definition : Bytes) (unique create : Bool) (d : D) (s : Bytes)
    (hs : IsIndex (E.master d) table name s) (h0 : 0 ∉ s) (h1 : 0 ∉ name ++ table ++ definition) :
    ∃ r, verifyIndex E name table definition unique create d = .done d r ∧
      (r = true ↔ (s.filter (· ≠ 32)).map toLower = ((createIndex name table definition unique).filter (· ≠ 32)).map toLower) := by
  have e : indexSql (E.master d) table name = some s := by
    obtain ⟨pre, e, post, h, g1, g2, g3, g4, g5⟩ := hs
    unfold indexSql
    rw [h, List.find?_append, List.find?_eq_none.mpr]
    · rw [List.find?_cons_of_pos (by simp [g1, g2, g3])]
      simp [g4]
    · intro x hx
      simpa using g5 x hx
  unfold verifyIndex
  rw [e]
  refine ⟨_, rfl, ?_⟩
  rw [c95_remove_byte, c95_remove_byte]
  have z : ∀ u : Bytes, 0 ∉ u → cstr (u.filter (· ≠ 32)) = u.filter (· ≠ 32) := by
    intro u hu
    exact cstr_eq (fun h => hu (List.mem_filter.mp h).1)
  have hc : 0 ∉ createIndex name table definition unique := by
    unfold createIndex
    have a1 : (0 : UInt8) ∉ str "CREATE" := by decide +kernel
    have a2 : (0 : UInt8) ∉ (if unique then str " UNIQUE " else str " ") := by cases unique <;> decide +kernel
    have a3 : (0 : UInt8) ∉ str "INDEX " := by decide +kernel
    have a4 : (0 : UInt8) ∉ str " ON " := by decide +kernel
    simp only [List.mem_append, not_or] at h1 ⊢
    exact ⟨⟨⟨⟨⟨⟨⟨a1, a2⟩, a3⟩, h1.1.1⟩, a4⟩, h1.1.2⟩, by decide⟩, h1.2⟩
  unfold sIEquals sToLower
  rw [z _ h0, z _ hc, beq_iff_eq]
  exact ⟨Eq.symm, Eq.symm⟩

/-- C96.  An index that is not there is created if that is wanted; otherwise nothing is written and the answer is no. -/
theorem c96_index_missing (E : Engine D) (name table definition : Bytes) (unique : Bool) (d : D)
    (hs : ∀ x ∈ E.master d, ¬ (x.type = str "index" ∧ x.table = table ∧ x.name = name)) :
    verifyIndex E name table definition unique false d = .done d false ∧
    verifyIndex E name table definition unique true d = match E.exec (createIndex name table definition unique ++ [59]) d with
      | some d' => .done d' true
      | none => .abort := by
  have e : indexSql (E.master d) table name = none := by
    unfold indexSql
    rw [List.find?_eq_none.mpr]
    · rfl
    · intro x hx
      simpa using hs x hx
  unfold verifyIndex
  rw [e]
  exact ⟨rfl, rfl⟩

/-- C96, limits: the case of literals does not count, while line breaks and tabs do. -/
theorem c96_index_limits :
    sIEquals (replace (str "WHERE state='A b'") [32] []) (replace (str "WHERE state='ab'") [32] []) = true ∧
    sIEquals (replace (str "( a, b )") [32] []) (replace (str "( a,\n b )") [32] []) = false := by
  rw [c95_remove_byte, c95_remove_byte, c95_remove_byte, c95_remove_byte]
  decide +kernel

/-! ## Columns -/

theorem collapse_text : ∀ (w : Bytes) (out : Bytes) (b : Bool), (∀ c ∈ w, isSpace c = false) → w ≠ [] →
    w.foldl collapseStep (out, b) = (out ++ w, false)
  | [c], out, b, h, _ => by
    show collapseStep (out, b) c = _
    unfold collapseStep
    rw [if_neg (by rw [h c (by simp)]; simp)]
  | c :: d :: w, out, b, h, _ => by
    rw [List.foldl_cons]
    have : collapseStep (out, b) c = (out ++ [c], false) := by
      unfold collapseStep
      rw [if_neg (by rw [h c (by simp)]; simp)]
    rw [this, collapse_text (d :: w) _ _ (fun x hx => h x (List.mem_cons_of_mem _ hx)) (by simp)]
    simp

theorem collapse_mono : ∀ (q : Bytes) (o : Bytes) (b : Bool), o <+: (q.foldl collapseStep (o, b)).1
  | [], o, _ => List.prefix_refl o
  | c :: q, o, b => by
    rw [List.foldl_cons]
    unfold collapseStep
    dsimp only
    split
    · split
      · exact collapse_mono q _ _
      · exact (List.prefix_append _ _).trans (collapse_mono q _ _)
    · exact (List.prefix_append _ _).trans (collapse_mono q _ _)

theorem collapse_column (a column b : Bytes) (hc : ∀ c ∈ column, isSpace c = false) (hne : column ≠ [])
    (h0 : 0 ∉ a ++ str ", " ++ column ++ [32] ++ b) : ([32] ++ column ++ [32]) <:+: collapse (a ++ str ", " ++ column ++ [32] ++ b) := by
  unfold collapse
  rw [cstr_eq h0, List.foldl_append, List.foldl_append, List.foldl_append, List.foldl_append]
  generalize a.foldl collapseStep ([], false) = st
  obtain ⟨o, f⟩ := st
  have e1 : (str ", ").foldl collapseStep (o, f) = (o ++ [44] ++ [32], true) := by
    show collapseStep (collapseStep (o, f) 44) 32 = _
    rfl
  have e2 : [32].foldl collapseStep (o ++ [44] ++ [32] ++ column, false) = (o ++ [44] ++ [32] ++ column ++ [32], true) := rfl
  rw [e1, collapse_text column _ _ hc hne, e2]
  refine List.IsInfix.trans ?_ (collapse_mono b _ _).isInfix
  exact ⟨o ++ [44], [], by simp⟩

/-- C96.  `addColumn` writes exactly if the column's name does not stand, between blanks, in the text of the table. -/
theorem c96_column (E : Engine D) (table column type : Bytes) (d : D) (s : Bytes) (hs : IsSql (E.master d) (str "table") table s)
    (hq : 39 ∉ table) (t : Bytes) (h0 : 0 ∉ s) (ht : Collapsed s t) :
    (([32] ++ column ++ [32]) <:+: t → addColumn E table column type d = .done d false) ∧
    (¬ ([32] ++ column ++ [32]) <:+: t → addColumn E table column type d =
      match E.exec (str "ALTER TABLE " ++ table ++ str " ADD COLUMN " ++ column ++ [32] ++ type ++ [59]) d with
      | some d' => .done d' true
      | none => .abort) := by
  unfold addColumn
  rw [if_neg hq, sqlOf_is hs]
  dsimp only [Option.getD_some]
  rw [(c95_collapse s t h0).mpr ht]
  refine ⟨fun h => ?_, fun h => ?_⟩
  · rw [if_neg (by rw [sContains_iff.mpr h]; simp)]
  · have : sContains t ([32] ++ column ++ [32]) = false := by
      cases hb : sContains t ([32] ++ column ++ [32]) with
      | false => rfl
      | true => exact absurd (sContains_iff.mp hb) h
    rw [if_pos (by rw [this]; rfl)]
    rfl

/-- C96.  A column that was added is not added again. -/
theorem c96_column_twice (E : Engine D) (table : Bytes) (valid : Bytes → Prop) (hE : Faithful E table valid) (column type : Bytes) (d d' : D)
    (s : Bytes) (hs : IsSql (E.master d) (str "table") table s) (hq : 39 ∉ table) (h0 : 0 ∉ s) (h0' : 0 ∉ column ++ type)
    (hc : ∀ c ∈ column, isSpace c = false) (hne : column ≠ []) (h : addColumn E table column type d = .done d' true) :
    addColumn E table column type d' = .done d' false := by
  obtain ⟨t, ht⟩ := collapsed_exists s.length s (Nat.le_refl _)
  have h1 := c96_column E table column type d s hs hq t h0 ht
  by_cases hin : ([32] ++ column ++ [32]) <:+: t
  · rw [h1.1 hin] at h
    cases h
  · rw [h1.2 hin] at h
    cases he : E.exec (str "ALTER TABLE " ++ table ++ str " ADD COLUMN " ++ column ++ [32] ++ type ++ [59]) d with
    | none => rw [he] at h; cases h
    | some d₂ =>
      rw [he] at h
      cases h
      obtain ⟨a, b, rfl, hs'⟩ := hE.add d column type s hs d' he
      have z : 0 ∉ a ++ str ", " ++ column ++ [32] ++ (type ++ b) := by
        have c1 : (0 : UInt8) ∉ str ", " := by decide +kernel
        simp only [List.mem_append, not_or] at h0 h0' ⊢
        exact ⟨⟨⟨⟨h0.1, c1⟩, h0'.1⟩, by decide⟩, h0'.2, h0.2⟩
      have e : a ++ str ", " ++ column ++ [32] ++ type ++ b = a ++ str ", " ++ column ++ [32] ++ (type ++ b) := by simp
      rw [e] at hs'
      have hin := collapse_column a column (type ++ b) hc hne z
      exact (c96_column E table column type d' _ hs' hq _ z ((c95_collapse _ _ z).mp rfl)).1 hin

/-! ## A small engine -/

def upToName (s : Bytes) : Bytes := s.takeWhile (fun c => c ≠ 32 && c ≠ 40)

/-- Tables only; columns are added before the last byte. -/
def small : Engine (List Entry) where
  master := id
  exec := fun q d =>
    let q := q.dropLast
    let make (r : Bytes) : Option (List Entry) :=
      if d.any (fun e => e.table == upToName r) then none
      else some (d ++ [⟨str "table", upToName r, upToName r, some (str "CREATE TABLE " ++ r)⟩])
    if (str "CREATE TABLE IF NOT EXISTS ").isPrefixOf q then make (q.drop 27)
    else if (str "CREATE TABLE ").isPrefixOf q then make (q.drop 13)
    else if (str "DROP TABLE ").isPrefixOf q then some (d.filter (fun e => e.table != q.drop 11))
    else if (str "ALTER TABLE t ADD COLUMN ").isPrefixOf q then
      -- a column of that name: behind a parenthesis or a blank
      if d.any (fun e => sContains (e.sql.getD []) ([40] ++ upToName (q.drop 25) ++ [32]) ||
          sContains (e.sql.getD []) (str ", " ++ upToName (q.drop 25) ++ [32])) then none
      else some (d.map (fun e => if e.table = str "t" then { e with sql := e.sql.map (fun s => s.take (s.length - 1) ++ str ", " ++ q.drop 25 ++ s.drop (s.length - 1)) } else e))
    else none

/-- The hypotheses about SQLite can be met. -/
theorem small_faithful : Faithful small (str "t") (fun rest => ∃ c r, rest = c :: r ∧ (c = 32 ∨ c = 40)) where
  create := by
    rintro d kw rest hkw ⟨c, r, rfl, hc⟩ hm
    have hn : upToName (str "t" ++ c :: r) = str "t" := by
      show upToName (116 :: c :: r) = [116]
      unfold upToName
      rcases hc with rfl | rfl <;> simp
    have ha : d.any (fun e => e.table == upToName (str "t" ++ c :: r)) = false := by
      rw [hn, List.any_eq_false]
      intro e he
      simpa using hm e he
    refine ⟨d ++ [⟨str "table", str "t", str "t", some (str "CREATE TABLE " ++ str "t" ++ c :: r)⟩], ?_, ?_⟩
    · show (small.exec (kw ++ str "t" ++ c :: r ++ [59]) d) = _
      unfold small
      dsimp only
      rw [List.dropLast_concat]
      rcases hkw with rfl | rfl
      · rw [if_neg (by
          intro h
          have := List.isPrefixOf_iff_prefix.mp h
          obtain ⟨z, hz⟩ := this
          have := congrArg (fun l : Bytes => l.drop 13 |>.take 3) hz
          revert this
          show ([73, 70, 32] : Bytes) = 116 :: c :: r.take 1 → False
          intro h
          cases h), if_pos (by rw [List.isPrefixOf_iff_prefix, List.append_assoc]; exact List.prefix_append _ _)]
        have e : (str "CREATE TABLE " ++ str "t" ++ c :: r).drop 13 = str "t" ++ c :: r := rfl
        rw [e, ha]
        simp only [Bool.false_eq_true, if_false, hn]
        rw [List.append_assoc (str "CREATE TABLE ")]
      · rw [if_pos (by rw [List.isPrefixOf_iff_prefix, List.append_assoc]; exact List.prefix_append _ _)]
        have e : (str "CREATE TABLE IF NOT EXISTS " ++ str "t" ++ c :: r).drop 27 = str "t" ++ c :: r := rfl
        rw [e, ha]
        simp only [Bool.false_eq_true, if_false, hn]
        rw [List.append_assoc (str "CREATE TABLE ")]
    · rfl
  drop := by
    intro d _
    exact ⟨d.filter (fun e => e.table != str "t"), rfl, rfl⟩
  add := by
    rintro d column type s ⟨pre, e, post, rfl, h1, h2, h3, h4⟩ d' h
    have hq : (str "ALTER TABLE " ++ str "t" ++ str " ADD COLUMN " ++ column ++ [32] ++ type ++ [59]).dropLast =
        str "ALTER TABLE t ADD COLUMN " ++ (column ++ [32] ++ type) := by
      rw [List.dropLast_concat]
      simp only [List.append_assoc]
      rfl
    have hd : (str "ALTER TABLE t ADD COLUMN " ++ (column ++ [32] ++ type)).drop 25 = column ++ [32] ++ type := rfl
    have n1 : (str "CREATE TABLE IF NOT EXISTS ").isPrefixOf (str "ALTER TABLE t ADD COLUMN " ++ (column ++ [32] ++ type)) = false := rfl
    have n2 : (str "CREATE TABLE ").isPrefixOf (str "ALTER TABLE t ADD COLUMN " ++ (column ++ [32] ++ type)) = false := rfl
    have n3 : (str "DROP TABLE ").isPrefixOf (str "ALTER TABLE t ADD COLUMN " ++ (column ++ [32] ++ type)) = false := rfl
    have n4 : (str "ALTER TABLE t ADD COLUMN ").isPrefixOf (str "ALTER TABLE t ADD COLUMN " ++ (column ++ [32] ++ type)) = true :=
      List.isPrefixOf_iff_prefix.mpr (List.prefix_append _ _)
    unfold small at h
    dsimp only at h
    rw [hq, n1, n2, n3, n4, hd] at h
    simp only [Bool.false_eq_true, if_false, if_true] at h
    split at h
    · cases h
    · cases h
      refine ⟨s.take (s.length - 1), s.drop (s.length - 1), (List.take_append_drop _ _).symm, ?_⟩
      refine ⟨_, _, _, List.map_append.trans (by rw [List.map_cons]), ?_, ?_, ?_, ?_⟩
      · rw [if_pos h2]; exact h1
      · rw [if_pos h2]; exact h2
      · rw [if_pos h2]
        simp [h3]
      · intro x hx hh
        obtain ⟨y, hy, rfl⟩ := List.mem_map.mp hx
        split at hh
        · exact h4 y hy hh
        · exact h4 y hy hh

def oneTable (sql : String) : List Entry := [⟨str "table", str "t", str "t", some (str sql)⟩]

example : verifyTable small (str "t") (str "CREATE TABLE t (\n a TEXT\n)") (str "table") [] =
    .done (oneTable "CREATE TABLE t ( a TEXT )") (true, true) := by decide +kernel
example : verifyTable small (str "t") (str "CREATE TABLE t(a\tTEXT)") (str "table") (oneTable "CREATE TABLE t ( a TEXT )") =
    .done (oneTable "CREATE TABLE t ( a TEXT )") (true, false) := by decide +kernel
example : verifyTable small (str "t") (str "CREATE TABLE t(a TEXT)") (str "table") (oneTable "CREATE TABLE t ( b TEXT )") =
    .done (oneTable "CREATE TABLE t ( b TEXT )") (false, false) := by decide +kernel
example : rebuild small (str "t") (str "CREATE TABLE t (a TEXT)") 2 (oneTable "CREATE TABLE t ( b TEXT )") =
    some (.done (oneTable "CREATE TABLE t (a TEXT)") ()) := by decide +kernel
example : addColumn small (str "t") (str "b") (str "TEXT") (oneTable "CREATE TABLE t ( a TEXT )") =
    .done (oneTable "CREATE TABLE t ( a TEXT , b TEXT)") true := by decide +kernel

/-- C96, limits of `addColumn`: a first column right behind the parenthesis is not seen, so it is added again, which fails and
ends the process; a column with the name of a type, or of anything else in the text, is never added. -/
theorem c96_column_limits :
    addColumn small (str "t") (str "a") (str "TEXT") (oneTable "CREATE TABLE t (a TEXT)") = .abort ∧
    addColumn small (str "t") (str "NOT") (str "TEXT") (oneTable "CREATE TABLE t (a TEXT NOT NULL)") =
      .done (oneTable "CREATE TABLE t (a TEXT NOT NULL)") false := by decide +kernel

end Bedrock.Schema.Props
