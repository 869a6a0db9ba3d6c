import Verif.Props.Query

/-!
# Properties of the Query command, continued (C94): errors, `.schema`, what is run
-/

namespace Bedrock.Query.Props
open Bedrock Bedrock.Text Bedrock.Http Bedrock.Query

/-! ## The place of an error -/

theorem window_spec (rest : Bytes) (pos : Nat) (err : Int) (p : Nat) (e : Int) (h : window rest pos err = some (p, e)) :
    (p : Int) + e = pos + err ∧ e ≤ 50 ∧ pos ≤ p ∧ p ≤ pos + rest.length := by
  induction rest, pos, err using window.induct with
  | case1 pos err h50 => rw [window, if_pos h50] at h; cases h
  | case2 pos err h50 c t ih =>
    rw [window, if_pos h50] at h
    obtain ⟨h1, h2, h3, h4⟩ := ih h
    have := congrArg List.length (List.takeWhile_append_dropWhile (p := isCont) (l := t))
    rw [List.length_append] at this
    simp only [List.length_cons]
    refine ⟨by omega, h2, by omega, by omega⟩
  | case3 rest pos err h50 =>
    rw [window.eq_def, if_neg h50] at h
    injection h with h
    injection h with h1 h2
    subst h1 h2
    omega

theorem window_some (rest : Bytes) (pos : Nat) (err : Int) (h : err ≤ rest.length + 50) : ∃ w, window rest pos err = some w := by
  induction rest, pos, err using window.induct with
  | case1 pos err h50 => simp at h; omega
  | case2 pos err h50 c t ih =>
    rw [window, if_pos h50]
    apply ih
    have := congrArg List.length (List.takeWhile_append_dropWhile (p := isCont) (l := t))
    rw [List.length_append] at this
    simp only [List.length_cons] at h
    omega
  | case3 rest pos err h50 => rw [window.eq_def, if_neg h50]; exact ⟨_, rfl⟩

/-- No character has more than three continuation bytes. -/
def Chars (q : Bytes) : Prop := ∀ a b c, q = a ++ b ++ c → (∀ x ∈ b, isCont x = true) → b.length ≤ 3

theorem chars_drop {q a c : Bytes} (h : Chars q) (e : q = a ++ c) : Chars c := by
  intro x y z hc hy
  exact h (a ++ x) y z (by rw [e, hc]; simp) hy

theorem takeWhile_all {p : UInt8 → Bool} : ∀ (l : Bytes), ∀ x ∈ l.takeWhile p, p x = true
  | [], x, h => by cases h
  | c :: l, x, h => by
    rw [List.takeWhile_cons] at h
    split at h
    · rename_i hc
      rcases List.mem_cons.mp h with rfl | h
      · exact hc
      · exact takeWhile_all l x h
    · cases h

theorem window_low (rest : Bytes) (pos : Nat) (err : Int) (p : Nat) (e : Int) (hc : Chars rest) (h : window rest pos err = some (p, e)) :
    (e = err ∧ p = pos) ∨ 47 ≤ e := by
  induction rest, pos, err using window.induct with
  | case1 pos err h50 => rw [window, if_pos h50] at h; cases h
  | case2 pos err h50 c t ih =>
    rw [window, if_pos h50] at h
    have ht := List.takeWhile_append_dropWhile (p := isCont) (l := t)
    have hlen : (t.takeWhile isCont).length ≤ 3 := hc [c] (t.takeWhile isCont) (t.dropWhile isCont) (by simp) (takeWhile_all t)
    have hc' : Chars (t.dropWhile isCont) := chars_drop (a := c :: t.takeWhile isCont) hc (by simp)
    rcases ih hc' h with ⟨h1, _⟩ | h1
    · right; omega
    · exact .inr h1
  | case3 rest pos err h50 =>
    rw [window.eq_def, if_neg h50] at h
    injection h with h
    injection h with h1 h2
    exact .inl ⟨h2.symm, h1.symm⟩

/-- What is shown is a part of the query. -/
theorem shown_part (q : Bytes) (pos : Nat) : ∃ n, shown q pos = (q.drop pos).take n ∧ n ≤ 78 ∧ n ≤ (q.drop pos).length ∧
    (Chars q → 75 ≤ n ∨ n = (q.drop pos).length) := by
  unfold shown
  split
  · rename_i h
    generalize hr : ((q.drop pos).take 78) = r
    have hrl : r.length = 78 := by rw [← hr, List.length_take]; omega
    have h1 := List.takeWhile_append_dropWhile (p := isCont) (l := r.reverse)
    have h2 : r = (r.reverse.dropWhile isCont).reverse ++ (r.reverse.takeWhile isCont).reverse := by
      have := congrArg List.reverse h1
      rw [List.reverse_append, List.reverse_reverse] at this
      exact this.symm
    have hlen : (r.reverse.dropWhile isCont).reverse.length + (r.reverse.takeWhile isCont).reverse.length = 78 := by
      rw [← List.length_append, ← h2, hrl]
    refine ⟨(r.reverse.dropWhile isCont).reverse.length, ?_, by omega, by omega, ?_⟩
    · have h3 : r.take (r.reverse.dropWhile isCont).reverse.length = (r.reverse.dropWhile isCont).reverse := by
        conv => lhs; rw [h2]
        rw [List.take_left']
        simp
      rw [← h3, ← hr, List.take_take]
      congr 1
      rw [hr]
      rw [List.length_take]
      omega
    · intro hc
      left
      have h4 : q = q.take pos ++ (r.reverse.dropWhile isCont).reverse ++ (r.reverse.takeWhile isCont).reverse ++ (q.drop pos).drop 78 := by
        rw [List.append_assoc (q.take pos), ← h2, ← hr, List.append_assoc, List.take_append_drop, List.take_append_drop]
      have := hc _ _ _ h4 (by intro x hx; exact takeWhile_all _ x (List.mem_reverse.mp hx))
      omega
  · rename_i h
    exact ⟨(q.drop pos).length, by rw [List.take_length], by omega, Nat.le_refl _, fun _ => .inr rfl⟩

theorem mark_at (err : Int) (h : 0 ≤ err) : (mark err)[err.toNat]? = some 94 ∧ (mark err).count 94 = 1 := by
  unfold mark
  have e1 : (str "^--- error here").count 94 = 1 := by decide +kernel
  have e2 : (str "error here ---^").count 94 = 1 := by decide +kernel
  split
  · refine ⟨?_, ?_⟩
    · rw [List.getElem?_append_right (by simp)]
      simp only [List.length_replicate, Nat.sub_self]
      decide +kernel
    · rw [List.count_append, e1, List.count_replicate]
      simp
  · refine ⟨?_, ?_⟩
    · rw [List.getElem?_append_right (by simp; omega)]
      rw [show err.toNat - (List.replicate (err - 14).toNat (32 : UInt8)).length = 14 by simp; omega]
      decide +kernel
    · rw [List.count_append, e2, List.count_replicate]
      simp

/-- C94.  For an error at a byte of a UTF-8 query the message shows a part of the query, with white space as blanks, and the
mark in the line below stands under that byte. -/
theorem c94_caret (q msg : Bytes) (off : Nat) (ho : off ≤ q.length) (hc : Chars q) :
    ∃ pos n line, errorContext q msg off = some (msg ++ [10] ++ (flat ((q.drop pos).take n) ++ [10] ++ line) ++ [10]) ∧
      n ≤ 78 ∧ n ≤ (q.drop pos).length ∧ pos ≤ off ∧ line[off - pos]? = some 94 ∧ line.count 94 = 1 ∧
      (off < q.length → off - pos < n) := by
  obtain ⟨⟨pos, err⟩, hw⟩ := window_some q 0 off (by omega)
  obtain ⟨h1, h2, _, h4⟩ := window_spec q 0 off pos err hw
  have h5 := window_low q 0 off pos err hc hw
  obtain ⟨n, hs, hn1, hn2, hn3⟩ := shown_part q pos
  have he : 0 ≤ err := by omega
  have hoff : off - pos = err.toNat := by omega
  obtain ⟨m1, m2⟩ := mark_at err he
  refine ⟨pos, n, mark err, ?_, hn1, hn2, by omega, by rw [hoff]; exact m1, m2, ?_⟩
  · unfold errorContext
    rw [if_neg (by omega), hw]
    simp only [Option.map_some, hs]
  · intro hl
    rw [List.length_drop] at hn2 hn3
    rcases hn3 hc with h | h
    · omega
    · omega

/-- C94.  The message is written for any query, UTF-8 or not. -/
theorem c94_message_defined (q msg : Bytes) (off : Int) (ho : off ≤ q.length) : ∃ x, errorContext q msg off = some x := by
  unfold errorContext
  split
  · exact ⟨_, rfl⟩
  · obtain ⟨w, hw⟩ := window_some q 0 off (by omega)
    exact ⟨_, by rw [hw]; rfl⟩

example : errorContext (str "SELECT 1 FROMM x;") (str "near x") 9 =
    some (str "near x\nSELECT 1 FROMM x;\n         ^--- error here\n") := by decide +kernel

example : Chars (str "SELECT 1 FROMM x;") := by
  intro a b c e h
  cases b with
  | nil => simp
  | cons x b =>
    have : x ∈ str "SELECT 1 FROMM x;" := by rw [e]; simp
    have k : ∀ x ∈ str "SELECT 1 FROMM x;", isCont x = false := by decide +kernel
    have := k x this
    rw [h x (by simp)] at this
    cases this

/-- C94, limits: the part shown ends within a character whenever the 78th byte is the last of one: its last byte begins a
character whose other bytes are cut off. -/
theorem c94_cuts_character (q : Bytes) (pos : Nat) (hl : 78 < (q.drop pos).length) (b : UInt8)
    (hb : (q.drop pos)[77]? = some b) (hc : isCont b = true) :
    ∃ n c, shown q pos = (q.drop pos).take n ∧ n < 78 ∧ (q.drop pos)[n]? = some c ∧ isCont c = true := by
  unfold shown
  rw [if_pos hl]
  generalize hr : ((q.drop pos).take 78) = r
  have hrl : r.length = 78 := by rw [← hr, List.length_take]; omega
  have h1 := List.takeWhile_append_dropWhile (p := isCont) (l := r.reverse)
  have h2 : r = (r.reverse.dropWhile isCont).reverse ++ (r.reverse.takeWhile isCont).reverse := by
    have := congrArg List.reverse h1
    rw [List.reverse_append, List.reverse_reverse] at this
    exact this.symm
  have hr77 : r[77]? = some b := by rw [← hr, List.getElem?_take]; simp [hb]
  have hne : r.reverse.takeWhile isCont ≠ [] := by
    have hh : r.reverse.head? = some b := by
      rw [List.head?_reverse, List.getLast?_eq_getElem?, hrl]
      exact hr77
    cases hx : r.reverse with
    | nil => rw [hx] at hh; cases hh
    | cons y t =>
      rw [hx] at hh
      injection hh with hh
      subst hh
      rw [List.takeWhile_cons, if_pos hc]
      simp
  have hall : ∀ x ∈ (r.reverse.takeWhile isCont).reverse, isCont x = true := fun x hx =>
    takeWhile_all _ x (List.mem_reverse.mp hx)
  have hlen : (r.reverse.dropWhile isCont).reverse.length + (r.reverse.takeWhile isCont).reverse.length = 78 := by
    rw [← List.length_append, ← h2, hrl]
  generalize (r.reverse.dropWhile isCont).reverse = kept at *
  generalize hd : (r.reverse.takeWhile isCont).reverse = dropped at *
  have hdn : dropped ≠ [] := by
    intro e
    rw [e] at hd
    exact hne (by simpa using hd)
  obtain ⟨c, t, rfl⟩ := List.exists_cons_of_ne_nil hdn
  simp only [List.length_cons] at hlen
  refine ⟨kept.length, c, ?_, by omega, ?_, hall c (by simp)⟩
  · have h3 : r.take kept.length = kept := by rw [h2, List.take_left']; rfl
    rw [← hr, List.take_take, Nat.min_eq_left (by omega)] at h3
    exact h3.symm
  · have h3 : r[kept.length]? = some c := by rw [h2, List.getElem?_append_right (Nat.le_refl _)]; simp
    rw [← hr, List.getElem?_take] at h3
    split at h3
    · exact h3
    · cases h3

/-- Seventy-six letters, and an e with an accent, which is complete. -/
example : shown (List.replicate 76 65 ++ [0xc3, 0xa9] ++ str ";;") 0 = List.replicate 76 65 ++ [0xc3] := by decide +kernel

/-- C94, limits: in a query of several statements the mark is at the wrong place, for SQLite counts from the beginning of
the statement. -/
theorem c94_wrong_statement (D : Type) (d : D) (E : Engine D Unit Unit) (f : Fault)
    (hf : f = { start := 9, off := 1, msg := str "near SELEKT: syntax error" })
    (hE : (E.pieces (str "SELECT 1; SELEKT 2;")).2 = some f) :
    (str "SELECT 1; SELEKT 2;").drop (f.start + f.off.toNat) = str "SELEKT 2;" ∧
    (peek E ⟨str "Query: SELECT 1; SELEKT 2;", [], []⟩ d).2 =
      .bad (some (str "near SELEKT: syntax error\nSELECT 1; SELEKT 2;\n ^--- error here\n")) := by
  subst hf
  refine ⟨by decide +kernel, ?_⟩
  have e : Attr.queryOf ⟨str "Query: SELECT 1; SELEKT 2;", [], []⟩ = str "SELECT 1; SELEKT 2;" := by decide +kernel
  have e2 : rewrite (str "SELECT 1; SELEKT 2;") (lookOf ⟨str "Query: SELECT 1; SELEKT 2;", [], []⟩) =
    (str "SELECT 1; SELEKT 2;", {}) := by decide +kernel
  unfold peek
  rw [e]
  dsimp only
  rw [e2, if_neg (by decide +kernel)]
  dsimp only
  rw [if_neg (by decide +kernel), hE]
  dsimp only
  congr 1
  decide +kernel

/-! ## `.schema` -/

/-- `.schema` in any letters, white space, the name and white space. -/
def IsSchema (q name : Bytes) : Prop :=
  ∃ w1 word w2 w3, q = w1 ++ word ++ w2 ++ name ++ w3 ∧ Attr.Props.sameLetters word (str ".schema") ∧
    (∀ c ∈ w1 ++ w2 ++ w3, isSpace c = true) ∧ w2 ≠ [] ∧ 10 ∉ name ∧
    (∀ c, name.head? = some c → isSpace c = false) ∧ (∀ c, name.getLast? = some c → isSpace c = false)

theorem dropWhile_head {p : UInt8 → Bool} : ∀ (l : Bytes) (c : UInt8), (l.dropWhile p).head? = some c → p c = false
  | [], _, h => by cases h
  | x :: l, c, h => by
    rw [List.dropWhile_cons] at h
    split at h
    · exact dropWhile_head l c h
    · rename_i hx
      simp only [List.head?_cons, Option.some.injEq] at h
      subst h
      simpa using hx

/-- White space is taken off at both ends. -/
theorem trim_spec (r : Bytes) : ∃ a b, r = a ++ trim r ++ b ∧ (∀ c ∈ a ++ b, isSpace c = true) ∧
    (∀ c, (trim r).head? = some c → isSpace c = false) ∧ (∀ c, (trim r).getLast? = some c → isSpace c = false) := by
  unfold trim
  generalize hs : r.dropWhile isSpace = s
  have h1 := List.takeWhile_append_dropWhile (p := isSpace) (l := r)
  have h2 := List.takeWhile_append_dropWhile (p := isSpace) (l := s.reverse)
  have h3 : s = (s.reverse.dropWhile isSpace).reverse ++ (s.reverse.takeWhile isSpace).reverse := by
    have := congrArg List.reverse h2
    rw [List.reverse_append, List.reverse_reverse] at this
    exact this.symm
  refine ⟨r.takeWhile isSpace, (s.reverse.takeWhile isSpace).reverse, ?_, ?_, ?_, ?_⟩
  · rw [List.append_assoc, ← h3, ← hs, h1]
  · intro c hc
    rcases List.mem_append.mp hc with hc | hc
    · exact takeWhile_all _ c hc
    · exact takeWhile_all _ c (List.mem_reverse.mp hc)
  · intro c hc
    refine dropWhile_head r c ?_
    rw [hs, h3]
    cases hx : (s.reverse.dropWhile isSpace).reverse with
    | nil => rw [hx] at hc; cases hc
    | cons y t => rw [hx] at hc; exact hc
  · intro c hc
    rw [List.getLast?_reverse] at hc
    exact dropWhile_head _ c hc

theorem trim_all (a : Bytes) (h : ∀ c ∈ a, isSpace c = true) : trim a = [] := by
  unfold trim
  have := Attr.Props.dropWhile_all isSpace a [] h
  rw [List.append_nil] at this
  rw [this]
  rfl

/-- C94.  What is taken for `.schema` with a name, and the name. -/
theorem c94_schema (q name : Bytes) : schemaOf q = some (some name) ↔ IsSchema q name := by
  constructor
  · intro h
    unfold schemaOf at h
    dsimp only at h
    have h1 := List.takeWhile_append_dropWhile (p := isSpace) (l := q)
    split at h
    · rename_i hw
      split at h
      · cases h
      · rename_i c r hr
        split at h
        · rename_i hc
          split at h
          · cases h
          · rename_i h10
            injection h with h
            injection h with h
            obtain ⟨a, b, e, hs, hh, hl⟩ := trim_spec r
            rw [h] at e h10 hh hl
            refine ⟨q.takeWhile isSpace, (q.dropWhile isSpace).take 7, c :: a, b, ?_, ?_, ?_, by simp, h10, hh, hl⟩
            · have : q.dropWhile isSpace = (q.dropWhile isSpace).take 7 ++ (c :: r) := by
                rw [← hr, List.take_append_drop]
              conv => lhs; rw [← h1, this, e]
              simp
            · unfold Attr.Props.sameLetters
              have e2 : (str ".schema").map toLower = str ".schema" := by decide +kernel
              rw [e2]
              exact hw
            · intro x hx
              simp only [List.mem_append, List.mem_cons] at hx hs
              rcases hx with (hx | hx | hx) | hx
              · exact takeWhile_all _ x hx
              · rw [hx]; exact hc
              · exact hs x (.inl hx)
              · exact hs x (.inr hx)
        · cases h
    · cases h
  · rintro ⟨w1, word, w2, w3, rfl, hw, hsp, hw2, h10, hh, hl⟩
    have hlow : word.map toLower = str ".schema" := by
      unfold Attr.Props.sameLetters at hw
      rw [hw]
      decide +kernel
    have hlen : word.length = 7 := by
      have := congrArg List.length hlow
      rw [List.length_map] at this
      rw [this]
      decide +kernel
    have hd : (w1 ++ word ++ w2 ++ name ++ w3).dropWhile isSpace = word ++ (w2 ++ name ++ w3) := by
      rw [show w1 ++ word ++ w2 ++ name ++ w3 = w1 ++ (word ++ (w2 ++ name ++ w3)) by simp,
        Attr.Props.dropWhile_all _ _ _ (fun c hc => hsp c (by simp [hc]))]
      cases word with
      | nil => simp at hlen
      | cons c t =>
        have : isSpace c = false := by
          have e : toLower c = 46 := by
            have := congrArg List.head? hlow
            simp only [List.map_cons, List.head?_cons] at this
            have k : (str ".schema").head? = some 46 := by decide +kernel
            rw [k] at this
            exact Option.some.inj this
          have k : ∀ c : UInt8, toLower c = 46 → isSpace c = false := forall_u8 (by decide +kernel)
          exact k c e
        rw [List.cons_append, List.dropWhile_cons, this]
        rfl
    obtain ⟨c, w2', rfl⟩ := List.exists_cons_of_ne_nil hw2
    have htrim : trim (w2' ++ name ++ w3) = name := by
      by_cases hn : name = []
      · subst hn
        rw [List.append_nil]
        exact trim_all _ (fun x hx => hsp x (by
          simp only [List.mem_append, List.mem_cons] at hx ⊢
          rcases hx with hx | hx
          · exact .inl (.inr (.inr hx))
          · exact .inr hx))
      · exact Attr.Props.trim_padded _ _ _ (fun x hx => hsp x (by simp [hx])) (fun x hx => hsp x (by simp [hx])) hh hl hn
    unfold schemaOf
    dsimp only
    rw [hd, List.take_left' hlen, List.drop_left' hlen]
    have : sToLower word = str ".schema" := hlow
    rw [if_pos this]
    simp only [List.cons_append]
    rw [if_pos (hsp c (by simp)), htrim, if_neg h10]

/-- C94.  The query that is run for it asks for exactly this name: whatever it contains, it is one SQL literal, and
nothing follows but the semicolon. -/
theorem c94_schema_query (q name : Bytes) (l : Look) (h : IsSchema q name) (h0 : 0 ∉ name) :
    ∃ head, (rewrite q l).1 = head ++ sq name ++ str ";" ∧ head = str "SELECT sql FROM sqlite_schema WHERE tbl_name LIKE " ∧
      Text.Spec.sqlLiteral (sq name ++ str ";") = some (name, str ";") := by
  refine ⟨_, ?_, rfl, Text.Props.c31_quoted name (str ";") h0 (by decide +kernel)⟩
  unfold rewrite
  rw [(c94_schema q name).mpr h]

example : IsSchema (str ".SCHEMA  o'brien") (str "o'brien") :=
  ⟨[], str ".SCHEMA", str "  ", [], by decide +kernel, by unfold Attr.Props.sameLetters; decide +kernel, by decide +kernel, by decide +kernel, by decide +kernel,
    by decide +kernel, by decide +kernel⟩

/-- C94, limits: with a semicolon it is part of the name. -/
theorem c94_schema_semicolon (l : Look) :
    (rewrite (str ".schema jobs;") l).1 = str "SELECT sql FROM sqlite_schema WHERE tbl_name LIKE 'jobs;';" := by
  have : schemaOf (str ".schema jobs;") = some (some (str "jobs;")) := by decide +kernel
  unfold rewrite
  rw [this]
  dsimp only
  decide +kernel

/-- C94.  The message of SQLite always comes first; it is alone if the error is nowhere in particular. -/
theorem c94_message (q msg : Bytes) (off : Int) :
    (off < 0 → errorContext q msg off = some msg) ∧ (∀ out, errorContext q msg off = some out → msg <+: out) := by
  unfold errorContext
  refine ⟨fun h => by rw [if_pos h], fun out h => ?_⟩
  split at h
  · cases h; exact List.prefix_refl _
  · rw [Option.map_eq_some_iff] at h
    obtain ⟨w, -, rfl⟩ := h
    rw [List.append_assoc, List.append_assoc]
    exact List.prefix_append _ _

/-! ## What is run -/

/-- C94.  Which requests are queries: `Query` as the first word, or `Query:` in front, whatever the case. -/
theorem c94_is_query (m : Msg) : isQuery m = true ↔
    (∃ w r, m.methodLine = w ++ r ∧ Attr.Props.sameLetters w (str "query:")) ∨
    (∃ w r, m.methodLine = w ++ r ∧ 32 ∉ w ∧ (r = [] ∨ ∃ r', r = 32 :: r') ∧ sIEquals w (str "Query") = true) := by
  unfold isQuery
  rw [Bool.or_eq_true, List.isPrefixOf_iff_prefix]
  refine or_congr ?_ ?_
  · unfold Attr.Props.sameLetters
    constructor
    · rintro ⟨t, ht⟩
      have hl : 6 ≤ m.methodLine.length := by
        have := congrArg List.length ht
        simp only [List.length_append, sToLower, List.length_map] at this
        have h6 : (str "query:").length = 6 := rfl
        omega
      refine ⟨m.methodLine.take 6, m.methodLine.drop 6, (List.take_append_drop _ _).symm, ?_⟩
      have := congrArg (List.take 6) ht
      rw [List.take_append_of_le_length (by decide), List.take_of_length_le (by decide)] at this
      unfold sToLower at this
      rw [← List.map_take] at this
      rw [← this]
      decide +kernel
    · rintro ⟨w, r, h, hw⟩
      rw [h]
      have e : sToLower (w ++ r) = sToLower w ++ sToLower r := by unfold sToLower; exact List.map_append
      rw [e]
      have : sToLower w = str "query:" := by
        have hs : (str "query:").map toLower = str "query:" := by decide +kernel
        rw [← hs]
        exact hw
      rw [this]
      exact List.prefix_append _ _
  · constructor
    · intro h
      refine ⟨_, m.methodLine.dropWhile (· ≠ 32), (List.takeWhile_append_dropWhile).symm, ?_, ?_, h⟩
      · intro hm
        have := List.all_eq_true.mp (List.all_takeWhile (p := fun x : UInt8 => decide (x ≠ 32)) (l := m.methodLine)) 32 hm
        simp at this
      · cases hd : m.methodLine.dropWhile (· ≠ 32) with
        | nil => exact .inl rfl
        | cons c r =>
          have := List.head?_dropWhile_not (fun x : UInt8 => decide (x ≠ 32)) m.methodLine
          rw [hd] at this
          simp at this
          exact .inr ⟨r, by rw [this]⟩
    · rintro ⟨w, r, h, hw, hr, he⟩
      have ht : m.methodLine.takeWhile (· ≠ 32) = w := by
        rw [h, List.takeWhile_append_of_pos (by intro x hx; simp; rintro rfl; exact hw hx)]
        rcases hr with rfl | ⟨r', rfl⟩ <;> simp
      rw [ht]
      exact he

example : isQuery ⟨str "QUERY: SELECT 1;", [], []⟩ = true ∧ isQuery ⟨str "query", [], []⟩ = true ∧
    isQuery ⟨str "QueryAll", [], []⟩ = false := by decide +kernel

variable {D S R : Type}

/-- A statement said to read only leaves the database alone. -/
def Honest (E : Engine D S R) : Prop := ∀ s d, E.readonly s = true → (E.exec s d).1 = d

theorem runAll_reads {E : Engine D S R} (hE : Honest E) : ∀ (ss : List S) (acc : Rows R) (d : D),
    (∀ s ∈ ss, E.readonly s = true) → (runAll E ss acc d).1 = d
  | [], _, _, _ => rfl
  | s :: ss, acc, d, h => by
    have h1 := hE s d (h s (by simp))
    unfold runAll
    split
    · rename_i d' r he
      rw [he] at h1
      simp only at h1
      subst h1
      exact runAll_reads hE ss _ _ (fun x hx => h x (by simp [hx]))
    · rename_i d' e he
      rw [he] at h1
      exact h1

/-- C94.  `peek` does not change the database, whatever the request. -/
theorem c94_peek_reads (E : Engine D S R) (hE : Honest E) (m : Msg) (d : D) : (peek E m d).1 = d := by
  unfold peek
  dsimp only
  split
  · rfl
  · split
    · rfl
    · split
      · rfl
      · split
        · rfl
        · rename_i hw
          have hro : ∀ s ∈ (E.pieces (rewrite (Attr.queryOf m) (lookOf m)).1).1, E.readonly s = true := by
            intro s hs
            simp only [Bool.not_eq_true, List.any_eq_false] at hw
            simpa using hw s hs
          generalize (E.pieces (rewrite (Attr.queryOf m) (lookOf m)).1).1 = ss at *
          split
          · have := runAll_reads hE ss ⟨[], []⟩ d hro
            split <;> (rename_i he; rw [he] at this; exact this)
          · cases ss with
            | nil => rfl
            | cons s ss =>
              have := hE s d (hro s (by simp))
              unfold runText
              dsimp only
              cases he : E.exec s d with
              | mk d' r =>
                rw [he] at this
                cases r <;> exact this

/-- A query as a client sends it: short enough, complete. -/
structure Sent (m : Msg) (q : Bytes) : Prop where
  text : Attr.queryOf m = q
  length : 1 ≤ q.length ∧ q.length ≤ 1048576
  noDot : schemaOf q = none
  semi : q.getLast? = some 59

theorem peek_sent (E : Engine D S R) {m : Msg} {q : Bytes} (h : Sent m q) (d : D) (hp : (E.pieces q).2 = none) :
    peek E m d = if (E.pieces q).1.any (fun s => !E.readonly s) then (d, .write)
      else if sIEquals (m.table.get (str "Format")) (str "json") then
        match runAll E (E.pieces q).1 ⟨[], []⟩ d with
        | (d', .ok r) => (d', .json r)
        | (d', .error _) => (d', .failed)
      else
        match runText E (E.pieces q).1 d with
        | (d', .ok r) => (d', .text (lookOf m) r)
        | (d', .error _) => (d', .failed) := by
  have hl := h.length
  have e : rewrite q (lookOf m) = (q, lookOf m) := by unfold rewrite; rw [h.noDot]
  unfold peek
  rw [h.text]
  dsimp only
  rw [e, if_neg (by unfold maxQuery; omega)]
  dsimp only
  rw [if_neg (by rw [h.semi]; simp), hp]
  rfl

/-- C94.  A query is left to `process`, which runs on the leader, exactly if one of its statements writes. -/
theorem c94_escalates (E : Engine D S R) {m : Msg} {q : Bytes} (h : Sent m q) (d : D) (hp : (E.pieces q).2 = none) :
    (peek E m d).2 = .write ↔ ∃ s ∈ (E.pieces q).1, E.readonly s = false := by
  rw [peek_sent E h d hp]
  constructor
  · intro hw
    split at hw
    · rename_i ha
      obtain ⟨s, h1, h2⟩ := List.any_eq_true.mp ha
      exact ⟨s, h1, by simpa using h2⟩
    · split at hw <;> split at hw <;> cases hw
  · rintro ⟨s, h1, h2⟩
    rw [if_pos (List.any_eq_true.mpr ⟨s, h1, by simp [h2]⟩)]

/-- C94.  A query that is empty, too long, not ended by a semicolon, or that cannot be prepared, is refused, and nothing of
it is run. -/
theorem c94_refused (E : Engine D S R) (m : Msg) (d : D) (hd : schemaOf (Attr.queryOf m) = none) :
    (Attr.queryOf m = [] ∨ 1048576 < (Attr.queryOf m).length → peek E m d = (d, .missing)) ∧
    (Attr.queryOf m ≠ [] → (Attr.queryOf m).length ≤ 1048576 → (Attr.queryOf m).getLast? ≠ some 59 → peek E m d = (d, .semicolon)) ∧
    (∀ f, Sent m (Attr.queryOf m) → (E.pieces (Attr.queryOf m)).2 = some f →
      peek E m d = (d, .bad (errorContext (Attr.queryOf m) f.msg f.off))) := by
  have e : rewrite (Attr.queryOf m) (lookOf m) = (Attr.queryOf m, lookOf m) := by unfold rewrite; rw [hd]
  refine ⟨fun h => ?_, fun h1 h2 h3 => ?_, fun f h hf => ?_⟩
  · unfold peek
    dsimp only
    rw [if_pos]
    unfold maxQuery
    rcases h with h | h
    · left; rw [h]; simp
    · right; omega
  · have : 0 < (Attr.queryOf m).length := List.length_pos_iff.mpr h1
    unfold peek
    dsimp only
    rw [e, if_neg (by unfold maxQuery; omega)]
    dsimp only
    rw [if_pos h3]
  · have hl := h.length
    unfold peek
    dsimp only
    rw [e, if_neg (by unfold maxQuery; omega)]
    dsimp only
    rw [if_neg (by rw [h.semi]; simp), hf]

/-- What the statements return one after the other, if each succeeds. -/
inductive Runs (E : Engine D S R) : D → List S → List (Rows R) → Prop
  | nil (d) : Runs E d [] []
  | cons (d d' s ss r rs) : E.exec s d = (d', .ok r) → Runs E d' ss rs → Runs E d (s :: ss) (r :: rs)

theorem runAll_runs {E : Engine D S R} {d : D} {ss : List S} {rs : List (Rows R)} (h : Runs E d ss rs) : ∀ (acc : Rows R),
    ∃ d', runAll E ss acc d = (d', .ok ⟨(rs.getLast?.map (·.names)).getD acc.names, acc.rows ++ rs.flatMap (·.rows)⟩) := by
  induction h with
  | nil d => intro acc; exact ⟨d, by simp [runAll]⟩
  | cons d d' s ss r rs he _ ih =>
    intro acc
    obtain ⟨d₂, h⟩ := ih ⟨r.names, acc.rows ++ r.rows⟩
    refine ⟨d₂, ?_⟩
    unfold runAll
    rw [he]
    dsimp only
    rw [h]
    congr 3
    · cases rs with
      | nil => rfl
      | cons x rs => rw [List.getLast?_cons_cons]; cases hx : (x :: rs).getLast? with
        | none => simp at hx
        | some y => rfl
    · simp

/-- C94.  As JSON, the answer to a query that only reads has the rows of all its statements, in order, under the names of the
last one's columns. -/
theorem c94_json (E : Engine D S R) {m : Msg} {q : Bytes} (h : Sent m q) (d : D) (hp : (E.pieces q).2 = none)
    (hro : ∀ s ∈ (E.pieces q).1, E.readonly s = true) (hj : sIEquals (m.table.get (str "Format")) (str "json") = true)
    (rs : List (Rows R)) (hr : Runs E d (E.pieces q).1 rs) :
    (peek E m d).2 = .json ⟨(rs.getLast?.map (·.names)).getD [], rs.flatMap (·.rows)⟩ := by
  rw [peek_sent E h d hp, if_neg (by simp; exact hro), if_pos hj]
  obtain ⟨d', e⟩ := runAll_runs hr ⟨[], []⟩
  rw [e]
  simp

/-- C94.  Otherwise the answer to a query of one statement is its rows in the look asked for.  Limits: of several statements
only the first is run, whatever the others are, as long as they only read. -/
theorem c94_text (E : Engine D S R) {m : Msg} {q : Bytes} (h : Sent m q) (d : D) (hp : (E.pieces q).2 = none)
    (hro : ∀ s ∈ (E.pieces q).1, E.readonly s = true) (hj : sIEquals (m.table.get (str "Format")) (str "json") = false)
    (s : S) (ss : List S) (hs : (E.pieces q).1 = s :: ss) (d' : D) (r : Rows R) (hr : E.exec s d = (d', .ok r)) :
    peek E m d = (d', .text (lookOf m) (some r)) := by
  rw [peek_sent E h d hp, if_neg (by simp; exact hro), if_neg (by rw [hj]; simp), hs]
  unfold runText
  dsimp only
  rw [hr]

/-- C94.  Which headers decide on the look: `SQLiteArgs` before `ReadDBFlags`; `MYSQLFlags` gives separators for machines and
no titles; `SuppressResult` shows nothing. -/
theorem c94_headers (m : Msg) :
    (∀ a, m.table.find (str "SQLiteArgs") = some a → m.table.find (str "MYSQLFlags") = none → m.table.find (str "SuppressResult") = none →
      lookOf m = parseArgs a) ∧
    (∀ x, m.table.find (str "MYSQLFlags") = some x → (lookOf m).titles = .off ∧ (lookOf m).sep = some [0x1e] ∧ (lookOf m).null = some [10]) ∧
    (∀ x, m.table.find (str "SuppressResult") = some x → (lookOf m).style = .off) := by
  unfold lookOf
  dsimp only
  refine ⟨fun a h1 h2 h3 => ?_, fun x h => ?_, fun x h => ?_⟩
  · rw [h1, h2, h3]; rfl
  · rw [h]
    simp only [Option.isSome_some, if_true]
    split <;> exact ⟨rfl, rfl, rfl⟩
  · rw [h]
    rfl

/-! ### A concrete case -/

/-- An engine with the statements of one test query. -/
def toy : Engine Nat Nat Nat where
  pieces := fun q => if q = str "SELECT 1; SELECT 2;" then ([1, 2], none) else if q = str "UPDATE a SET b=1;" then ([0], none) else ([], none)
  readonly := fun s => s ≠ 0
  exec := fun s d => if s = 0 then (d + 1, .ok ⟨[], []⟩) else (d, .ok ⟨[str "c"], [s]⟩)

example : Honest toy := by
  intro s d h
  have hs : s ≠ 0 := by simpa [toy] using h
  simp [toy, hs]

def twoQueries : Msg := ⟨str "Query: SELECT 1; SELECT 2;", [], []⟩

example : Sent twoQueries (str "SELECT 1; SELECT 2;") :=
  ⟨by decide +kernel, by decide +kernel, by decide +kernel, by decide +kernel⟩

example : peek toy twoQueries 7 = (7, .text {} (some ⟨[str "c"], [1]⟩)) := by decide +kernel
example : peek toy { twoQueries with table := [(str "Format", str "json")] } 7 = (7, .json ⟨[str "c"], [1, 2]⟩) := by decide +kernel
example : peek toy ⟨str "Query: UPDATE a SET b=1;", [], []⟩ 7 = (7, .write) := by decide +kernel

/-- C94, limits: the number of the row is given only if the query begins with INSERT and a blank. -/
theorem c94_row_id : givesRowId (str "insert INTO t VALUES (1);") = true ∧ givesRowId (str "INSERT\nINTO t VALUES (1);") = false ∧
    givesRowId (str "REPLACE INTO t VALUES (1);") = false := by decide +kernel

end Bedrock.Query.Props
