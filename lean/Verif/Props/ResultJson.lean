import Verif.Props.Json
import Verif.Props.ResultColumn

/-!
# C81: query results through JSON
-/

namespace Bedrock.Results.Props
open Bedrock.Text Bedrock.Http Bedrock.Results Bedrock.Json Bedrock.Json.Spec Bedrock.Json.Props

theorem obj_cons {nv x : Bytes} {ms : List (Bytes × Bytes)} (h : Obj nv x ms) : ∃ y, x = 123 :: y := by
  cases h <;> exact ⟨_, rfl⟩

theorem arr_cons {nv x : Bytes} {vs : List Bytes} (h : Arr nv x vs) : ∃ y, x = 91 :: y := by
  cases h <;> exact ⟨_, rfl⟩

/-- The rows as JSON arrays, and what they are read as. -/
theorem rows_of (isFloat : Bytes → Bool) (hF : ∀ v, isFloat v = true → Number v) (n : Nat) :
    ∀ rows : List (List Bytes), (∀ row ∈ rows, row.length = n ∧ ∀ c ∈ row, Kept false c) →
    ∃ xs, rows.mapM (composeArray isFloat) = some xs ∧ (∀ x ∈ xs, Kept false x) ∧
      readRows n xs = .done ⟨[], rows⟩
  | [], _ => ⟨[], by simp, by simp, rfl⟩
  | row :: rows, h => by
    obtain ⟨xs, h1, h2, h3⟩ := rows_of isFloat hF n rows (fun q hq => h q (List.mem_cons_of_mem _ hq))
    obtain ⟨hl, hk⟩ := h row (List.mem_cons_self ..)
    obtain ⟨x, i1, i2, i3, i4⟩ := c30_array_partial isFloat hF row hk
    refine ⟨x :: xs, by simp [List.mapM_cons, i1, h1], ?_, ?_⟩
    · intro y hy
      rcases List.mem_cons.mp hy with rfl | hy
      · exact c30_nested _ i4 (.inl ⟨_, i2⟩)
      · exact h2 y hy
    · simp only [readRows, i3, hl, if_true, h3]

theorem names_sorted (h t : Bytes) : Table.Sorted [(str "headers", h), (str "rows", t)] := by
  have : keyLt (str "headers") (str "rows") = true := by decide +kernel
  unfold Table.Sorted
  simp [this]

theorem plain_names : PlainName (str "headers") ∧ PlainName (str "rows") := by
  unfold PlainName; decide +kernel

theorem find_names (h t : Bytes) :
    Table.find (str "headers") [(str "headers", h), (str "rows", t)] = some h ∧
    Table.find (str "rows") [(str "headers", h), (str "rows", t)] = some t := by
  have a1 : (keyLt (str "headers") (str "headers") || keyLt (str "headers") (str "headers")) = false := by decide +kernel
  have a2 : (keyLt (str "rows") (str "headers") || keyLt (str "headers") (str "rows")) = true := by decide +kernel
  have a3 : (keyLt (str "rows") (str "rows") || keyLt (str "rows") (str "rows")) = false := by decide +kernel
  constructor
  · rw [Table.find, a1]; rfl
  · rw [Table.find, a2, if_pos rfl, Table.find, a3]; rfl

/-- C81.  A result of kept strings, with as many cells in each row as there are columns, is written as
JSON and read back unchanged, whatever its size. -/
theorem c81_round_trip_partial (isFloat : Bytes → Bool) (hF : ∀ v, isFloat v = true → Number v) (r : Result)
    (hh : ∀ n ∈ r.headers, Kept false n)
    (hr : ∀ row ∈ r.rows, row.length = r.headers.length ∧ ∀ c ∈ row, Kept false c) :
    ∃ x, formatJSON isFloat true r = some x ∧ deserialize x = .done r := by
  obtain ⟨h, h1, h2, h3, h4⟩ := c30_array_partial isFloat hF r.headers hh
  obtain ⟨xs, i1, i2, i3⟩ := rows_of isFloat hF r.headers.length r.rows hr
  obtain ⟨t, j1, j2, j3, j4⟩ := c30_array_partial isFloat hF xs i2
  obtain ⟨y, k1, k2, k3, k4⟩ := c30_object_partial isFloat hF false [(str "headers", h), (str "rows", t)]
    (names_sorted h t) (by
      intro e he
      simp only [List.mem_cons, List.not_mem_nil, or_false] at he
      rcases he with rfl | rfl
      · exact ⟨plain_names.1, c30_nested h h4 (.inl ⟨_, h2⟩)⟩
      · exact ⟨plain_names.2, c30_nested t j4 (.inl ⟨_, j2⟩)⟩)
  refine ⟨y, ?_, ?_⟩
  · simp [formatJSON, h1, i1, j1, k1]
  · obtain ⟨z, rfl⟩ := obj_cons k2
    unfold deserialize
    rw [List.find?_cons_of_pos (by decide)]
    simp only [if_true, k3, (find_names h t).1, (find_names h t).2, h3, j3, i3]

-- cells that look like numbers, literals, quotes, and nothing at all
example : ∃ x, formatJSON (fun _ => false) true ⟨[str "a", str "b"], [[str "1", str "x\"y"], [[], str "null"]]⟩ = some x ∧
    deserialize x = .done ⟨[str "a", str "b"], [[str "1", str "x\"y"], [[], str "null"]]⟩ := by
  have hk : ∀ v ∈ [str "a", str "b", str "1", str "x\"y", [], str "null"], Kept false v := by
    intro v hv
    have : 0 ∉ v ∧ (∀ w ∈ [str "true", str "false", str "null"], sToLower v = w → v = w) ∧ ¬ Bracketed v := by
      unfold Bracketed
      revert v
      decide +kernel
    exact kept_plain this.1 this.2.1 (.inr this.2.2)
  apply c81_round_trip_partial (fun _ => false) (fun v h => by cases h)
  · intro n hn; exact hk n (by revert n; decide +kernel)
  · intro row hrow
    simp only [List.mem_cons, List.not_mem_nil, or_false] at hrow
    rcases hrow with rfl | rfl
    · exact ⟨rfl, fun c hc => hk c (by revert c; decide +kernel)⟩
    · exact ⟨rfl, fun c hc => hk c (by revert c; decide +kernel)⟩

/-- C81.  A JSON form written without the column names is refused. -/
theorem c81_no_names (isFloat : Bytes → Bool) (hF : ∀ v, isFloat v = true → Number v) (n : Nat) (r : Result)
    (hr : ∀ row ∈ r.rows, row.length = n ∧ ∀ c ∈ row, Kept false c) :
    ∃ x, formatJSON isFloat false r = some x ∧ deserialize x = .refused := by
  obtain ⟨xs, i1, i2, i3⟩ := rows_of isFloat hF n r.rows hr
  obtain ⟨t, j1, j2, j3, j4⟩ := c30_array_partial isFloat hF xs i2
  obtain ⟨y, k1, k2, k3, k4⟩ := c30_object_partial isFloat hF false [(str "rows", t)]
    (by unfold Table.Sorted; simp) (by
      intro e he
      rw [List.mem_singleton] at he
      subst he
      exact ⟨plain_names.2, c30_nested t j4 (.inl ⟨_, j2⟩)⟩)
  refine ⟨y, ?_, ?_⟩
  · simp [formatJSON, i1, j1, k1]
  · obtain ⟨z, rfl⟩ := obj_cons k2
    have a2 : (keyLt (str "headers") (str "rows") || keyLt (str "rows") (str "headers")) = true := by decide +kernel
    have hf : Table.find (str "headers") [(str "rows", t)] = none := by
      rw [Table.find, a2]; rfl
    unfold deserialize
    rw [List.find?_cons_of_pos (by decide)]
    simp only [if_true, k3, hf]

/-- C81.  A row with another number of cells is refused as a whole, wherever it stands. -/
theorem c81_ragged_refused (isFloat : Bytes → Bool) (hF : ∀ v, isFloat v = true → Number v) (r : Result)
    (hh : ∀ n ∈ r.headers, Kept false n) (hr : ∀ row ∈ r.rows, ∀ c ∈ row, Kept false c)
    (hbad : ∃ row ∈ r.rows, row.length ≠ r.headers.length) :
    ∃ x, formatJSON isFloat true r = some x ∧ deserialize x = .refused := by
  obtain ⟨h, h1, h2, h3, h4⟩ := c30_array_partial isFloat hF r.headers hh
  have rows : ∀ rows : List (List Bytes), (∀ row ∈ rows, ∀ c ∈ row, Kept false c) →
      ∃ xs, rows.mapM (composeArray isFloat) = some xs ∧ (∀ x ∈ xs, Kept false x) ∧
        ((∃ row ∈ rows, row.length ≠ r.headers.length) → readRows r.headers.length xs = .refused) ∧
        ((∀ row ∈ rows, row.length = r.headers.length) → ∃ q, readRows r.headers.length xs = .done q) := by
    intro rows
    induction rows with
    | nil => intro _; exact ⟨[], by simp, by simp, by simp, fun _ => ⟨_, rfl⟩⟩
    | cons row rows ih =>
      intro h
      obtain ⟨xs, e1, e2, e3, e4⟩ := ih (fun q hq => h q (List.mem_cons_of_mem _ hq))
      obtain ⟨x, i1, i2, i3, i4⟩ := c30_array_partial isFloat hF row (h row (List.mem_cons_self ..))
      refine ⟨x :: xs, by simp [List.mapM_cons, i1, e1], ?_, ?_, ?_⟩
      · intro y hy
        rcases List.mem_cons.mp hy with rfl | hy
        · exact c30_nested _ i4 (.inl ⟨_, i2⟩)
        · exact e2 y hy
      · rintro ⟨q, hq, hql⟩
        by_cases hl : row.length = r.headers.length
        · have : readRows r.headers.length xs = .refused := by
            apply e3
            rcases List.mem_cons.mp hq with rfl | hq
            · exact absurd hl hql
            · exact ⟨q, hq, hql⟩
          simp only [readRows, i3, hl, if_true, this]
        · simp only [readRows, i3, hl, if_false]
      · intro hall
        obtain ⟨q, hq⟩ := e4 (fun q hq => hall q (List.mem_cons_of_mem _ hq))
        exact ⟨{ q with rows := row :: q.rows }, by
          simp only [readRows, i3, hall row (List.mem_cons_self ..), if_true, hq]⟩
  obtain ⟨xs, i1, i2, i3, _⟩ := rows r.rows hr
  obtain ⟨t, j1, j2, j3, j4⟩ := c30_array_partial isFloat hF xs i2
  obtain ⟨y, k1, k2, k3, k4⟩ := c30_object_partial isFloat hF false [(str "headers", h), (str "rows", t)]
    (names_sorted h t) (by
      intro e he
      simp only [List.mem_cons, List.not_mem_nil, or_false] at he
      rcases he with rfl | rfl
      · exact ⟨plain_names.1, c30_nested h h4 (.inl ⟨_, h2⟩)⟩
      · exact ⟨plain_names.2, c30_nested t j4 (.inl ⟨_, j2⟩)⟩)
  refine ⟨y, ?_, ?_⟩
  · simp [formatJSON, h1, i1, j1, k1]
  · obtain ⟨z, rfl⟩ := obj_cons k2
    unfold deserialize
    rw [List.find?_cons_of_pos (by decide)]
    simp only [if_true, k3, (find_names h t).1, (find_names h t).2, h3, j3, i3 hbad]

/-! ## The array form -/

theorem members_obj (nv x : Bytes) (ms : List (Bytes × Bytes)) (h : Obj nv x ms) : members nv x = .ok (some ms) := by
  obtain ⟨y, rfl, hy⟩ : ∃ y, x = 123 :: y ∧ 1 ≤ y.length := by cases h <;> exact ⟨_, rfl, by simp⟩
  have := (accepts nv _).object y ms [] h (Nat.le_refl _)
  rw [List.append_nil] at this
  unfold members
  rw [if_neg (by simp only [List.length_cons]; omega), if_neg (by simp), ws_cons (by decide)]
  simp only [this, fuel]

theorem objects_of : ∀ (vs : List Bytes) (mss : List (List (Bytes × Bytes))), Pairs (Obj []) vs mss →
    readObjects vs = .done ⟨[], mss.map (·.map Prod.snd)⟩
  | [], _, .nil => rfl
  | v :: vs, ms :: mss, .cons h t => by
    simp only [readObjects, members_obj [] v ms h, objects_of vs mss t]
    rfl

/-- C81.  An array of objects, in the form SQLite writes, is read as a table: the names are those of
the first object and each row has the values of one object, in the order of the text; `null` is read as
the empty string. -/
theorem c81_array_form (x w w' : Bytes) (v : Bytes) (vs : List Bytes) (m : List (Bytes × Bytes))
    (mss : List (List (Bytes × Bytes))) (hx : Arr (str "null") x (v :: vs)) (hv : Pairs (Obj []) (v :: vs) (m :: mss))
    (hw : Blank w) (hw' : Blank w') :
    deserialize (w ++ (x ++ w')) = .done ⟨m.map Prod.fst, (m :: mss).map (·.map Prod.snd)⟩ := by
  have hp := c30_array_read (str "null") x w w' _ hx hw hw'
  have hf : (w ++ (x ++ w')).find? (fun c => c = 91 ∨ c = 123) = some 91 := by
    rw [List.find?_append]
    have : w.find? (fun c => c = 91 ∨ c = 123) = none := by
      rw [List.find?_eq_none]
      intro c hc
      have := hw c hc
      simp only [decide_eq_true_eq, not_or]
      constructor <;> rintro rfl <;> exact absurd this (by decide)
    rw [this]
    obtain ⟨y, rfl⟩ := arr_cons hx
    rfl
  have ho := objects_of _ _ hv
  cases hv with
  | cons h1 _ =>
    unfold deserialize
    rw [hf]
    simp only [hp, members_obj [] v m h1, ho]
    rfl

example : deserialize (str "[{\"a\":1,\"b\":null},\n{\"a\":\"x\",\"b\":[2]}]\n")
    = .done ⟨[str "a", str "b"], [[str "1", []], [str "x", str "[2]"]]⟩ := by decide +kernel

/-- In this form values are not matched to names: an object with its members in another order, or
with other names, is read under the names of the first. -/
theorem c81_order_of_text :
    deserialize (str "[{\"a\":1,\"b\":2},{\"b\":3,\"a\":4},{\"c\":5}]")
      = .done ⟨[str "a", str "b"], [[str "1", str "2"], [str "3", str "4"], [str "5"]]⟩ := by decide +kernel

/-- In the object form `null` is read as the text `null`, and NULL comes back as the empty string. -/
theorem c81_null :
    deserialize (str "{\"headers\":[\"a\"],\"rows\":[[null],[\"\"]]}") = .done ⟨[str "a"], [[str "null"], [[]]]⟩ ∧
    formatJSON (fun _ => false) true ⟨[str "a"], [[Value.none].map Value.asString]⟩
      = some (str "{\"headers\":[\"a\"],\"rows\":[[\"\"]]}") := by decide +kernel

end Bedrock.Results.Props
