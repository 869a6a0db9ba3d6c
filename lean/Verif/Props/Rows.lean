import Verif.Model.Rows
import Verif.Props.Attr

/-!
# C106: a value read by the name of its column is the value of that column in that row
-/

namespace Bedrock.Rows.Props
open Bedrock Bedrock.Rows Bedrock.Text

variable {ρ : Type}

theorem set_same (h : Heap ρ) (a : Nat) (r : Option (Res ρ)) : h.set a r a = r := if_pos rfl
theorem set_other (h : Heap ρ) {a b : Nat} (r : Option (Res ρ)) (hb : b ≠ a) : h.set a r b = h b := if_neg hb

/-- What is asked of a value by name: the first column of that name, and its value in the row. -/
def Cell (fmt : ρ → Bytes) (headers : List Bytes) (data : List (Value ρ)) (key : Bytes) (g : Got) : Prop :=
  (∃ i : Nat, ∃ v : Value ρ, headers[i]? = some key ∧ (∀ j < i, headers[j]? ≠ some key) ∧ data[i]? = some v ∧ g = .val (v.str fmt)) ∨
    ((∀ i : Nat, headers[i]? = some key → data.length ≤ i) ∧ g = .throws)

theorem search_spec (fmt : ρ → Bytes) (data : List (Value ρ)) (key : Bytes) (all : List Bytes) (i : Nat) (ns : List Bytes)
    (hns : all.drop i = ns) (hb : ∀ j < i, all[j]? ≠ some key) : Cell fmt all data key (search fmt data key i ns) := by
  induction ns generalizing i with
  | nil =>
    refine .inr ⟨fun j hj => ?_, rfl⟩
    have : all.length ≤ i := List.drop_eq_nil_iff.mp hns
    obtain ⟨hl, _⟩ := List.getElem?_eq_some_iff.mp hj
    exact absurd hj (hb j (by omega))
  | cons n ns ih =>
    have hn : all[i]? = some n := by
      have := congrArg (·[0]?) hns
      simpa using this
    unfold search
    split
    · rename_i hl
      refine .inr ⟨fun j hj => ?_, rfl⟩
      have : ¬ j < i := fun h => hb j h hj
      omega
    · rename_i hl
      split
      · rename_i hk
        have hi : i < data.length := by omega
        refine .inl ⟨i, data[i], ?_, hb, List.getElem?_eq_getElem hi, ?_⟩
        · rw [hn, hk]
        · unfold at'
          rw [List.getElem?_eq_getElem hi]
      · rename_i hk
        refine ih (i + 1) ?_ ?_
        · rw [← List.drop_drop, hns]
          rfl
        · intro j hj hc
          by_cases hji : j = i
          · subst hji
            rw [hn] at hc
            exact hk (Option.some.inj hc)
          · exact hb j (by omega) hc

/-- The rows of the result at `a` belong to it. -/
def Own (h : Heap ρ) (a : Nat) : Prop := ∀ r, h a = some r → ∀ x ∈ r.rows, x.owner = some a

/-- Operations after which a result owns its rows: all but the copy constructor. -/
def Op.Fills : Op ρ → Prop
  | .copy _ _ => False
  | _ => True

theorem query_owner (a : Nat) (ss : List (Stmt ρ)) (r : Res ρ) (hr : ∀ x ∈ r.rows, x.owner = some a) :
    ∀ x ∈ (ss.foldl (stmt a) r).rows, x.owner = some a := by
  induction ss generalizing r with
  | nil => exact hr
  | cons s ss ih =>
    refine ih (stmt a r s) ?_
    intro x hx
    unfold stmt at hx
    rcases List.mem_append.mp hx with h | h
    · exact hr x h
    · obtain ⟨_, _, rfl⟩ := List.mem_map.mp h
      rfl

theorem step_own (h : Heap ρ) (o : Op ρ) (ho : Op.Fills o) : Own (step h o) o.target := by
  intro r hr x hx
  cases o with
  | create a =>
    rw [show step h (.create a) (Op.target (.create a)) = _ from set_same _ _ _] at hr
    obtain rfl := Option.some.inj hr
    cases hx
  | copy a b => exact ho.elim
  | assign a b =>
    rw [show step h (.assign a b) (Op.target (.assign a b)) = _ from set_same _ _ _] at hr
    obtain ⟨r', _, rfl⟩ := Option.map_eq_some_iff.mp hr
    obtain ⟨y, _, rfl⟩ := List.mem_map.mp hx
    rfl
  | clear a =>
    rw [show step h (.clear a) (Op.target (.clear a)) = _ from set_same _ _ _] at hr
    obtain rfl := Option.some.inj hr
    cases hx
  | query a ss =>
    rw [show step h (.query a ss) (Op.target (.query a ss)) = _ from set_same _ _ _] at hr
    obtain rfl := Option.some.inj hr
    exact query_owner a ss {} (fun _ h => by cases h) x hx
  | destroy a =>
    rw [show step h (.destroy a) (Op.target (.destroy a)) = _ from set_same _ _ _] at hr
    cases hr

theorem step_other (h : Heap ρ) (o : Op ρ) {a : Nat} (ha : a ≠ o.target) : step h o a = h a := by
  cases o <;> exact set_other _ _ ha

theorem run_other (h : Heap ρ) (ops : List (Op ρ)) {a : Nat} (ha : ∀ o ∈ ops, a ≠ o.target) : run h ops a = h a := by
  induction ops generalizing h with
  | nil => rfl
  | cons o ops ih =>
    exact (ih (step h o) fun o ho => ha o (List.mem_cons_of_mem _ ho)).trans (step_other h o (ha o List.mem_cons_self))

/-- A result that owns its rows answers from its own names. -/
theorem get_own (fmt : ρ → Bytes) (h : Heap ρ) (a n : Nat) (key : Bytes) (r : Res ρ) (row : Row ρ) (hr : h a = some r)
    (hrow : r.rows[n]? = some row) (ho : Own h a) : Cell fmt r.headers row.data key (get fmt h a n key) := by
  have hx := ho r hr row (List.mem_of_getElem? hrow)
  unfold get
  rw [hr]
  dsimp only
  rw [hrow]
  dsimp only
  unfold byName
  rw [hx]
  dsimp only
  rw [hr]
  exact search_spec fmt row.data key r.headers 0 r.headers rfl (fun j hj => by omega)

/-- C106.  Whatever was done before: once a result is filled by a query, or another one is assigned to it, a value of it
read by name is the value, in the row asked for, of the first column of that name among its own columns; and if there is
none, an exception.  Copying, refilling and destroying other results, the one it was assigned from included, changes
nothing about it. -/
theorem c106_by_name (fmt : ρ → Bytes) (h : Heap ρ) (before : List (Op ρ)) (o : Op ρ) (after : List (Op ρ)) (ho : Op.Fills o)
    (ha : ∀ p ∈ after, o.target ≠ p.target) (r : Res ρ) (hr : run h (before ++ o :: after) o.target = some r) (n : Nat) (key : Bytes) :
    (r.rows.length ≤ n → get fmt (run h (before ++ o :: after)) o.target n key = .throws) ∧
      ∀ row, r.rows[n]? = some row → Cell fmt r.headers row.data key (get fmt (run h (before ++ o :: after)) o.target n key) := by
  constructor
  · intro hn
    unfold get
    rw [hr]
    dsimp only
    rw [List.getElem?_eq_none hn]
  · intro row hrow
    refine get_own fmt _ _ n key r row hr hrow ?_
    have hsame : run h (before ++ o :: after) o.target = step (run h before) o o.target := by
      unfold run
      rw [List.foldl_append, List.foldl_cons]
      exact run_other _ after ha
    intro r' hr' x hx
    rw [hsame] at hr'
    exact step_own (run h before) o ho r' hr' x hx

/-- C106.  Assignment copies names and values. -/
theorem c106_assign (h : Heap ρ) (a b : Nat) (r : Res ρ) (hb : h b = some r) :
    ∃ r', step h (.assign a b) a = some r' ∧ r'.headers = r.headers ∧ r'.rows.map Row.data = r.rows.map Row.data := by
  refine ⟨{ r with rows := r.rows.map fun x => { x with owner := some a } }, by rw [show step h (.assign a b) a = _ from set_same _ _ _, hb]; rfl, rfl, ?_⟩
  dsimp only
  rw [List.map_map]
  rfl

/-- C106.  A query of one statement: the names are those of its columns, in order, and each row has its values, in order;
as many as there are names. -/
theorem c106_query (a : Nat) (s : Stmt ρ) :
    (query a [s]).headers = s.headers ∧ (query a [s]).rows.map Row.data = s.rows.map (·.map fetch) := by
  refine ⟨rfl, ?_⟩
  show (([] : List (Row ρ)) ++ _).map Row.data = _
  rw [List.nil_append, List.map_map]
  rfl

/-- C106.  So each column of such a query can be read by its name in every row, unless an earlier one has the same name. -/
theorem c106_each_column (fmt : ρ → Bytes) (h : Heap ρ) (a n i : Nat) (s : Stmt ρ) (cs : List (Col ρ)) (key : Bytes) (c : Col ρ)
    (hrow : s.rows[n]? = some cs) (hkey : s.headers[i]? = some key) (hfirst : ∀ j < i, s.headers[j]? ≠ some key) (hc : cs[i]? = some c) :
    get fmt (step h (.query a [s])) a n key = .val ((fetch c).str fmt) := by
  have hr : step h (.query a [s]) a = some (query a [s]) := set_same _ _ _
  have hr2 : (query a [s]).rows[n]? = some { owner := some a, data := cs.map fetch } := by
    show (([] : List (Row ρ)) ++ _)[n]? = _
    rw [List.nil_append, List.getElem?_map, hrow]
    rfl
  have hg := get_own fmt (step h (.query a [s])) a n key _ _ hr hr2 (step_own h _ trivial)
  rcases hg with ⟨j, v, h1, h2, h3, h4⟩ | ⟨h1, h2⟩
  · have hj : j = i := by
      rcases Nat.lt_trichotomy j i with hlt | heq | hgt
      · exact absurd h1 (hfirst j hlt)
      · exact heq
      · exact absurd hkey (h2 i hgt)
    subst hj
    rw [h4]
    dsimp only at h3
    rw [List.getElem?_map, hc] at h3
    obtain rfl := Option.some.inj h3
    rfl
  · exfalso
    have := h1 i hkey
    dsimp only at this
    rw [List.length_map] at this
    obtain ⟨hl, _⟩ := List.getElem?_eq_some_iff.mp hc
    omega

/-- C106.  By number a value is the one at that place, or an exception; no other memory is read. -/
theorem c106_by_number (fmt : ρ → Bytes) (data : List (Value ρ)) (i : Nat) :
    (∀ hi : i < data.length, at' fmt data i = .val (data[i].str fmt)) ∧ (data.length ≤ i → at' fmt data i = .throws) := by
  unfold at'
  constructor
  · intro hi
    rw [List.getElem?_eq_getElem hi]
  · intro hi
    rw [List.getElem?_eq_none hi]

/-- C106.  Numbers, blobs and texts without NUL arrive as they are in the database. -/
theorem c106_value (fmt : ρ → Bytes) :
    (∀ i : Int, -2 ^ 63 ≤ i → i < 2 ^ 63 → strtoll ((fetch (.int i : Col ρ)).str fmt) = i) ∧
      (∀ s : Bytes, (fetch (.blob s : Col ρ)).str fmt = s) ∧
      (∀ s : Bytes, 0 ∉ s → (fetch (.text s : Col ρ)).str fmt = s) ∧ (fetch (.null : Col ρ)).str fmt = [] := by
  refine ⟨fun i h1 h2 => Param.Props.strtoll_intDec h1 h2, fun _ => rfl, fun s h0 => ?_, rfl⟩
  show cstr s = s
  unfold cstr
  induction s with
  | nil => rfl
  | cons c s ih =>
    have hc : c ≠ 0 := fun h => h0 (h ▸ List.mem_cons_self)
    rw [List.takeWhile_cons_of_pos (by simpa using hc), ih fun h => h0 (List.mem_cons_of_mem _ h)]

/-- C106.  The value of a column tells a null from everything else. -/
theorem c106_null (c : Col ρ) : fetch c = .none ↔ c = .null := by
  cases c <;> simp [fetch]

example : fetch (.text [] : Col Unit) ≠ .none := fun h => nomatch (c106_null _).1 h

/-- C106.  A read that is answered from the cache has the names and values of the one that filled it, and its rows can be
read by name like those of a query, even if the result that filled the cache is gone or was used for something else. -/
theorem c106_cached (fmt : ρ → Bytes) (h : Heap ρ) (a b c : Nat) (s s' : Stmt ρ) (between : List (Op ρ))
    (hnone : h c = none) (hbetween : ∀ o ∈ between, c ≠ o.target) (n : Nat) (key : Bytes) :
    let h1 := run (run h (readOps h a c [s])) between
    let h2 := run h1 (readOps h1 b c [s'])
    get fmt h2 b n key = get fmt (step h (.query b [s])) b n key := by
  have e1 : run h (readOps h a c [s]) = step (step h (.query a [s])) (.copy c a) := by
    unfold readOps
    rw [hnone]
    rfl
  have hc : run (run h (readOps h a c [s])) between c = some (query a [s]) := by
    rw [run_other _ between hbetween, e1]
    show Heap.set _ c (step h (.query a [s]) a) c = _
    rw [set_same]
    exact set_same _ _ _
  dsimp only
  generalize run (run h (readOps h a c [s])) between = h1 at hc
  have e2 : run h1 (readOps h1 b c [s']) = step h1 (.assign b c) := by
    unfold readOps
    rw [hc]
    rfl
  rw [e2]
  have hb : step h1 (.assign b c) b = some (query b [s]) := by
    rw [show step h1 (.assign b c) b = _ from set_same _ _ _, hc]
    simp only [Option.map_some, query, List.foldl_cons, List.foldl_nil, stmt, List.nil_append, List.map_map]
    rfl
  have hb' : step h (.query b [s]) b = some (query b [s]) := set_same _ _ _
  have key' : ∀ hh : Heap ρ, hh b = some (query b [s]) → get fmt hh b n key = match (query b [s]).rows[n]? with
      | none => .throws
      | some row => search fmt row.data key 0 s.headers := by
    intro hh hhb
    unfold get
    rw [hhb]
    dsimp only
    cases hrow : (query b [s]).rows[n]? with
    | none => rfl
    | some row =>
      have := query_owner b [s] {} (fun _ h => by cases h) row (List.mem_of_getElem? hrow)
      dsimp only
      unfold byName
      rw [this]
      dsimp only
      rw [hhb]
      rfl
  rw [key' _ hb, key' _ hb']

/-- C106.  Asking for one value gives the first column of the first row, and nothing if there is none or the query failed. -/
theorem c106_first (fmt : ρ → Bytes) (s : Stmt ρ) (c : Col ρ) (cs : List (Col ρ)) (rest : List (List (Col ρ))) (a : Nat)
    (hs : s.rows = (c :: cs) :: rest) :
    firstCell fmt (some (query a [s])) = (fetch c).str fmt ∧ firstCell fmt (none : Option (Res ρ)) = [] ∧
      firstCell fmt (some (query a [{ s with rows := [] }])) = [] := by
  refine ⟨?_, rfl, rfl⟩
  show firstCell fmt (some { headers := s.headers, rows := ([] : List (Row ρ)) ++ s.rows.map _ }) = _
  rw [hs]
  rfl

/-! ## Where the code differs -/

/-- Disagreement.  A copy that was made by the copy constructor reads the names of the original: once that is gone, what is
read is not there any more. -/
theorem c106_copy_dangles (fmt : ρ → Bytes) (h : Heap ρ) (a b : Nat) (hab : a ≠ b) (s : Stmt ρ) (cs : List (Col ρ)) (n : Nat)
    (hrow : s.rows[n]? = some cs) (key : Bytes) :
    get fmt (run h [.query a [s], .copy b a, .destroy a]) b n key = .ub := by
  have hr2 : (query a [s]).rows[n]? = some { owner := some a, data := cs.map fetch } := by
    show (([] : List (Row ρ)) ++ _)[n]? = _
    rw [List.nil_append, List.getElem?_map, hrow]
    rfl
  have hb : run h [.query a [s], .copy b a, .destroy a] b = some (query a [s]) := by
    show Heap.set _ a none b = _
    rw [set_other _ _ (Ne.symm hab)]
    show Heap.set _ b (step h (.query a [s]) a) b = _
    rw [set_same]
    exact set_same _ _ _
  have ha : run h [.query a [s], .copy b a, .destroy a] a = none := set_same _ _ _
  unfold get
  rw [hb]
  dsimp only
  rw [hr2]
  dsimp only
  unfold byName
  dsimp only
  rw [ha]

/-- Disagreement.  And once the original is used for another query, the copy names its columns after that. -/
theorem c106_copy_misnames : ∃ (s s' : Stmt Unit),
    get (fun _ => []) (run (fun _ => none) [.query 0 [s], .copy 1 0, .query 0 [s']]) 1 0 (b!"id") = .val (b!"x") ∧
      get (fun _ => []) (run (fun _ => none) [.query 0 [s], .copy 1 0]) 1 0 (b!"id") = .val (b!"7") := by
  refine ⟨{ headers := [b!"id", b!"name"], rows := [[.text (b!"7"), .text (b!"x")]] }, { headers := [b!"name", b!"id"], rows := [] }, ?_, ?_⟩ <;> rfl

/-- Disagreement.  Of a query of several statements the names are those of the last, the rows are those of all. -/
theorem c106_last_names (a : Nat) (ss : List (Stmt ρ)) (s : Stmt ρ) :
    (query a (ss ++ [s])).headers = s.headers ∧
      (query a (ss ++ [s])).rows.map Row.data = (ss ++ [s]).flatMap fun s => s.rows.map (·.map fetch) := by
  unfold query
  constructor
  · rw [List.foldl_append]
    rfl
  · have : ∀ (l : List (Stmt ρ)) (r : Res ρ), (l.foldl (stmt a) r).rows.map Row.data = r.rows.map Row.data ++ l.flatMap fun s => s.rows.map (·.map fetch) := by
      intro l
      induction l with
      | nil => intro r; exact (List.append_nil _).symm
      | cons s l ih =>
        intro r
        rw [List.foldl_cons, ih, List.flatMap_cons]
        unfold stmt
        rw [List.map_append, List.map_map, List.append_assoc]
        rfl
    rw [this]
    rfl

/-- Disagreement.  So a row can be read by a name that none of its columns has. -/
theorem c106_wrong_name : ∃ (s s' : Stmt Unit), b!"b" ∉ s.headers ∧
    get (fun _ => []) (run (fun _ => none) [.query 0 [s, s']]) 0 0 (b!"b") = .val (b!"1") :=
  ⟨{ headers := [b!"a"], rows := [[.text (b!"1")]] }, { headers := [b!"b"], rows := [[.text (b!"2")]] }, by decide, rfl⟩

/-- Disagreement.  A text with a NUL is cut there. -/
theorem c106_text_cut (fmt : ρ → Bytes) (s t : Bytes) (h0 : 0 ∉ s) : (fetch (.text (s ++ 0 :: t) : Col ρ)).str fmt = s := by
  show cstr (s ++ 0 :: t) = s
  unfold cstr
  induction s with
  | nil => rfl
  | cons c s ih =>
    have hc : c ≠ 0 := fun h => h0 (h ▸ List.mem_cons_self)
    rw [List.cons_append, List.takeWhile_cons_of_pos (by simpa using hc), ih fun h => h0 (List.mem_cons_of_mem _ h)]

/-! ## Cases -/

def people : Stmt Unit := { headers := [b!"id", b!"name", b!"id"], rows := [[.int 7, .text (b!"x"), .int 8], [.text (b!"-9"), .null, .int 0]] }

-- assigned from a copy whose original is gone
example : get (fun _ => []) (run (fun _ => none) [.query 0 [people], .copy 1 0, .destroy 0, .assign 2 1, .destroy 1]) 2 1 (b!"id") = .val (b!"-9") := rfl
example : get (fun _ => []) (run (fun _ => none) [.query 0 [people]]) 0 1 (b!"nom") = .throws := rfl
example : get (fun _ => []) (run (fun _ => none) [.query 0 [people]]) 0 2 (b!"id") = .throws := rfl
example : get (fun _ => []) (step (fun _ => none) (.query 0 [people])) 0 0 (b!"name") = .val (b!"x") :=
  c106_each_column _ _ 0 0 1 people [.int 7, .text (b!"x"), .int 8] _ (.text (b!"x")) rfl rfl (by decide) rfl
-- the second read comes from the cache
example : let h1 := run (fun _ => none) (readOps (fun _ => none) 0 9 [people])
    get (fun _ => []) (run h1 (readOps h1 1 9 [{ headers := [], rows := [] }])) 1 0 (b!"name") = .val (b!"x") := rfl

end Bedrock.Rows.Props
