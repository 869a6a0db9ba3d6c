import Verif.Model.Results

/-!
# C84: the column form of a query result is aligned
-/

namespace Bedrock.Results.Props
open Bedrock.Text Bedrock.Results

/-! ## Widths add up -/

/-- A byte that continues no UTF-8 sequence. -/
def Starts (c : UInt8) : Prop := ¬ (0x80 ≤ c ∧ c < 0xC0)

theorem trail_append {c : UInt8} (hc : Starts c) (b : Bytes) : ∀ (k cp : Nat) (a : Bytes),
    trail k cp (a ++ c :: b)
      = ((trail k cp a).1, (trail k cp a).2.1, (trail k cp a).2.2 ++ c :: b)
  | 0, cp, a => rfl
  | k + 1, cp, [] => by
    unfold Starts at hc
    simp [trail, hc]
  | k + 1, cp, x :: a => by
    simp only [List.cons_append, trail]
    split
    · rw [trail_append hc b k _ a]
    · rfl

theorem trail_length : ∀ (k cp : Nat) (s : Bytes), (trail k cp s).2.2.length ≤ s.length
  | 0, cp, s => Nat.le_refl _
  | _ + 1, cp, [] => by simp [trail]
  | k + 1, cp, x :: s => by
    simp only [trail]
    split
    · have := trail_length k (cp * 64 + x.toNat % 64) s
      simp only [List.length_cons]; omega
    · exact Nat.le_refl _

theorem next_append {c : UInt8} (hc : Starts c) (x : UInt8) (a b : Bytes) :
    next x (a ++ c :: b) = ((next x a).1, (next x a).2.1, (next x a).2.2 ++ c :: b) := by
  unfold next
  repeat' split
  all_goals first | rfl | exact trail_append hc b _ _ a

theorem next_length (x : UInt8) (s : Bytes) : (next x s).2.2.length ≤ s.length := by
  unfold next
  repeat' split
  all_goals first | exact Nat.le_refl _ | exact trail_length _ _ s

theorem decodeF_enough : ∀ (f g : Nat) (s : Bytes), s.length ≤ f → s.length ≤ g → decodeF f s = decodeF g s
  | 0, g, s, hf, hg => by
    have : s = [] := List.length_eq_zero_iff.mp (Nat.le_zero.mp hf)
    subst this
    cases g <;> rfl
  | f + 1, 0, s, hf, hg => by
    have : s = [] := List.length_eq_zero_iff.mp (Nat.le_zero.mp hg)
    subst this
    rfl
  | f + 1, g + 1, [], _, _ => rfl
  | f + 1, g + 1, b :: s, hf, hg => by
    have := next_length b s
    simp only [List.length_cons] at hf hg
    simp only [decodeF]
    rw [decodeF_enough f g _ (by omega) (by omega)]

theorem decode_cons (b : UInt8) (s : Bytes) :
    decode (b :: s) = ((next b s).1, b :: (next b s).2.1) :: decode (next b s).2.2 := by
  have := next_length b s
  unfold decode
  simp only [List.length_cons, decodeF]
  rw [decodeF_enough s.length _ _ this (Nat.le_refl _)]

theorem decode_append {c : UInt8} (hc : Starts c) (b : Bytes) : ∀ (n : Nat) (a : Bytes), a.length ≤ n →
    decode (a ++ c :: b) = decode a ++ decode (c :: b)
  | _, [], _ => rfl
  | 0, x :: a, h => by simp at h
  | n + 1, x :: a, h => by
    have := next_length x a
    simp only [List.length_cons] at h
    rw [List.cons_append, decode_cons, next_append hc, decode_cons, List.cons_append,
      decode_append hc b n _ (by omega)]

/-- Whatever the bytes before it, text that does not start in the middle of a sequence adds its own
width. -/
theorem width_append {c : UInt8} (hc : Starts c) (a b : Bytes) :
    displayWidth (a ++ c :: b) = displayWidth a + displayWidth (c :: b) := by
  simp [displayWidth, decode_append hc b a.length a (Nat.le_refl _)]

theorem width_nil : displayWidth [] = 0 := rfl

theorem width_ascii {c : UInt8} (h1 : 0x20 ≤ c) (h2 : c < 0x7F) (s : Bytes) :
    displayWidth (c :: s) = 1 + displayWidth s := by
  have hn : next c s = (c.toNat, [], s) := by
    have : c < 0x80 := by
      rw [UInt8.lt_iff_toNat_lt] at h2 ⊢
      have e1 : (0x7F : UInt8).toNat = 127 := rfl
      have e2 : (0x80 : UInt8).toNat = 128 := rfl
      omega
    simp [next, this]
  have hw : cpWidth c.toNat = 1 := by
    rw [UInt8.le_iff_toNat_le] at h1
    rw [UInt8.lt_iff_toNat_lt] at h2
    have e1 : (0x7F : UInt8).toNat = 127 := rfl
    have e2 : (0x20 : UInt8).toNat = 32 := rfl
    have key : ∀ n < 127, 32 ≤ n → cpWidth n = 1 := by decide +kernel
    exact key _ (by omega) (by omega)
  unfold displayWidth
  rw [decode_cons, hn]
  simp [hw]

theorem starts_blank : Starts 32 := by unfold Starts; decide

theorem width_blanks : ∀ (n : Nat) (a b : Bytes),
    displayWidth (a ++ (List.replicate (n + 1) 32 ++ b)) = displayWidth a + (n + 1) + displayWidth b
  | 0, a, b => by
    rw [show List.replicate (0 + 1) (32 : UInt8) ++ b = 32 :: b from rfl, width_append starts_blank,
      width_ascii (by decide) (by decide)]
    omega
  | n + 1, a, b => by
    rw [List.replicate_succ, List.cons_append, width_append starts_blank, width_ascii (by decide) (by decide)]
    have := width_blanks n [] b
    rw [List.nil_append, width_nil] at this
    rw [this]
    omega

theorem width_dashes : ∀ n : Nat, displayWidth (List.replicate n 45) = n
  | 0 => rfl
  | n + 1 => by
    rw [List.replicate_succ, width_ascii (by decide) (by decide), width_dashes n]; omega

/-! ## A line of cells -/

/-- Where column `j` starts when the columns have these widths and two blanks stand between them. -/
def start : List Nat → Nat → Nat
  | _, 0 => 0
  | [], _ + 1 => 0
  | w :: ws, j + 1 => w + 2 + start ws j

/-- In the line, each cell stands at the start of its column: the text before it has just that width. -/
def Aligned (off : Nat → Nat) (line : Bytes) (cells : List Bytes) : Prop :=
  ∀ (j : Nat) c, cells[j]? = some c → ∃ pre post, line = pre ++ (c ++ post) ∧ displayWidth pre = off j

theorem columnLine_aligned : ∀ (cells : List Bytes) (ws : List Nat), cells.length ≤ ws.length →
    (∀ (j : Nat) c w, cells[j]? = some c → ws[j]? = some w → displayWidth c ≤ w) →
    Aligned (start ws) (columnLine ws cells) cells
  | [], ws, _, _ => fun j c h => by simp at h
  | [c], ws, _, _ => fun j d h => by
    cases j with
    | zero =>
      simp only [List.getElem?_cons_zero, Option.some.injEq] at h
      subst h
      exact ⟨[], [], by simp [columnLine], by cases ws <;> rfl⟩
    | succ j => simp at h
  | c :: d :: cs, [], hl, _ => by simp at hl
  | c :: d :: cs, w :: ws, hl, hw => fun j x h => by
    have ih := columnLine_aligned (d :: cs) ws (by simpa using hl)
      (fun j c v hc hv => hw (j + 1) c v (by simpa using hc) (by simpa using hv))
    have h0 : displayWidth c ≤ w := hw 0 c w rfl rfl
    cases j with
    | zero =>
      simp only [List.getElem?_cons_zero, Option.some.injEq] at h
      subst h
      refine ⟨[], List.replicate (w - displayWidth c) 32 ++ [32, 32] ++ columnLine ws (d :: cs), ?_, rfl⟩
      simp [columnLine, padToWidth]
    | succ j =>
      obtain ⟨pre, post, he, hp⟩ := ih j x (by simpa using h)
      refine ⟨c ++ (List.replicate (w - displayWidth c + 1 + 1) 32 ++ pre), post, ?_, ?_⟩
      · have e : columnLine (w :: ws) (c :: d :: cs)
            = padToWidth c w ++ [32, 32] ++ columnLine ws (d :: cs) := rfl
        rw [e, he]
        have e2 : List.replicate (w - displayWidth c + 1 + 1) (32 : UInt8)
            = List.replicate (w - displayWidth c) 32 ++ [32, 32] := by
          rw [List.replicate_succ', List.replicate_succ', List.append_assoc]; rfl
        simp [padToWidth, e2]
      · rw [width_blanks, hp]
        show _ = w + 2 + start ws j
        omega

theorem dashes_eq : ∀ ws : List Nat, dashes ws = columnLine ws (ws.map (List.replicate · 45))
  | [] => rfl
  | [w] => rfl
  | w :: v :: ws => by
    have ih := dashes_eq (v :: ws)
    have e : columnLine (w :: v :: ws) ((w :: v :: ws).map (List.replicate · 45))
        = padToWidth (List.replicate w 45) w ++ [32, 32] ++ columnLine (v :: ws) ((v :: ws).map (List.replicate · 45)) := rfl
    rw [e, ← ih]
    simp [dashes, padToWidth, width_dashes]

/-! ## The widths of the columns -/

/-- `w` is the largest of the numbers. -/
def IsMax (w : Nat) (l : List Nat) : Prop := w ∈ l ∧ ∀ x ∈ l, x ≤ w

/-- The widths of the lines of a cell. -/
def lineWidths (c : Bytes) : List Nat := (splitLines c).map (fun l => displayWidth (expandTabs l))

theorem splitOn10_ne (s : Bytes) : splitOn10 s ≠ [] := by
  cases s with
  | nil => simp [splitOn10]
  | cons c s =>
    simp only [splitOn10]
    split
    · simp
    · split <;> simp

theorem foldl_max (l : List Nat) : ∀ a, IsMax (l.foldl max a) (a :: l) := by
  induction l with
  | nil => intro a; simp [IsMax]
  | cons x l ih =>
    intro a
    obtain ⟨h1, h2⟩ := ih (max a x)
    refine ⟨?_, ?_⟩
    · rw [List.foldl_cons]
      rcases List.mem_cons.mp h1 with h | h
      · rw [h]
        rcases Nat.le_total a x with hle | hle
        · rw [Nat.max_eq_right hle]; simp
        · rw [Nat.max_eq_left hle]; simp
      · exact List.mem_cons_of_mem _ (List.mem_cons_of_mem _ h)
    · intro y hy
      rw [List.foldl_cons]
      have h3 := h2 (max a x) (List.mem_cons_self ..)
      rcases List.mem_cons.mp hy with rfl | hy
      · omega
      · rcases List.mem_cons.mp hy with rfl | hy
        · omega
        · exact h2 y (List.mem_cons_of_mem _ hy)

theorem max_cell (w : Nat) (c : Bytes) : IsMax (max w (cellWidth c)) (w :: lineWidths c) := by
  have h := foldl_max (lineWidths c) 0
  have hne : lineWidths c ≠ [] := by
    simp [lineWidths, splitLines, splitOn10_ne]
  have e : cellWidth c = (lineWidths c).foldl max 0 := rfl
  rw [e]
  refine ⟨?_, ?_⟩
  · rcases Nat.le_total w ((lineWidths c).foldl max 0) with hle | hle
    · rw [Nat.max_eq_right hle]
      rcases List.mem_cons.mp h.1 with h0 | h0
      · rw [h0] at hle ⊢
        have : w = 0 := by omega
        subst this; simp
      · exact List.mem_cons_of_mem _ h0
    · rw [Nat.max_eq_left hle]; simp
  · intro x hx
    rcases List.mem_cons.mp hx with rfl | hx
    · omega
    · have := h.2 x (List.mem_cons_of_mem _ hx)
      omega

theorem widen_get : ∀ (ws : List Nat) (row : List Bytes) (ws' : List Nat), widen ws row = some ws' →
    row.length ≤ ws.length ∧ ws'.length = ws.length ∧
    ∀ (j : Nat) w', ws'[j]? = some w' → ∃ w, ws[j]? = some w ∧ IsMax w' (w :: (row[j]?).elim [] lineWidths)
  | ws, [], ws', h => by
    simp only [widen, Option.some.injEq] at h
    subst h
    exact ⟨by simp, rfl, fun j w hw => ⟨w, hw, by simp [IsMax]⟩⟩
  | [], c :: cs, ws', h => by simp [widen] at h
  | w :: ws, c :: cs, ws', h => by
    simp only [widen, Option.map_eq_some_iff] at h
    obtain ⟨vs, hv, rfl⟩ := h
    obtain ⟨h1, h2, h3⟩ := widen_get ws cs vs hv
    refine ⟨by simpa using h1, by simpa using h2, fun j w' hj => ?_⟩
    cases j with
    | zero =>
      simp only [List.getElem?_cons_zero, Option.some.injEq] at hj
      subst hj
      exact ⟨w, rfl, max_cell w c⟩
    | succ j =>
      obtain ⟨v, hv, hm⟩ := h3 j w' (by simpa using hj)
      exact ⟨v, by simpa using hv, by simpa using hm⟩

theorem widen_defined : ∀ (ws : List Nat) (row : List Bytes), row.length ≤ ws.length →
    ∃ ws', widen ws row = some ws' ∧ ws'.length = ws.length
  | ws, [], _ => ⟨ws, by simp [widen], rfl⟩
  | [], c :: cs, h => by simp at h
  | w :: ws, c :: cs, h => by
    obtain ⟨vs, hv, hl⟩ := widen_defined ws cs (by simpa using h)
    exact ⟨max w (cellWidth c) :: vs, by simp [widen, hv], by simp [hl]⟩

theorem isMax_append {w v : Nat} {a b : List Nat} (h1 : IsMax w a) (h2 : IsMax v (w :: b)) : IsMax v (a ++ b) := by
  refine ⟨?_, ?_⟩
  · rcases List.mem_cons.mp h2.1 with rfl | h
    · exact List.mem_append_left _ h1.1
    · exact List.mem_append_right _ h
  · intro x hx
    rcases List.mem_append.mp hx with hx | hx
    · exact Nat.le_trans (h1.2 x hx) (h2.2 w (List.mem_cons_self ..))
    · exact h2.2 x (List.mem_cons_of_mem _ hx)

theorem foldlM_widen : ∀ (rows : List (List Bytes)) (ws ws' : List Nat), rows.foldlM widen ws = some ws' →
    (∀ row ∈ rows, row.length ≤ ws.length) ∧ ws'.length = ws.length ∧
    ∀ (j : Nat) w', ws'[j]? = some w' → ∃ w, ws[j]? = some w ∧
      IsMax w' (w :: rows.flatMap (fun row => (row[j]?).elim [] lineWidths))
  | [], ws, ws', h => by
    have : ws = ws' := by simpa using h
    subst this
    exact ⟨by simp, rfl, fun j w hw => ⟨w, hw, by simp [IsMax]⟩⟩
  | row :: rows, ws, ws', h => by
    simp only [List.foldlM_cons, Option.bind_eq_bind, Option.bind_eq_some_iff] at h
    obtain ⟨vs, hv, hr⟩ := h
    obtain ⟨a1, a2, a3⟩ := widen_get ws row vs hv
    obtain ⟨b1, b2, b3⟩ := foldlM_widen rows vs ws' hr
    refine ⟨?_, by rw [b2, a2], ?_⟩
    · intro q hq
      rcases List.mem_cons.mp hq with rfl | hq
      · exact a1
      · rw [← a2]; exact b1 q hq
    · intro j w' hj
      obtain ⟨v, hv, hm⟩ := b3 j w' hj
      obtain ⟨w, hw, hm'⟩ := a3 j v hv
      refine ⟨w, hw, ?_⟩
      rw [List.flatMap_cons, ← List.cons_append]
      exact isMax_append hm' hm

theorem foldlM_defined : ∀ (rows : List (List Bytes)) (ws : List Nat), (∀ row ∈ rows, row.length ≤ ws.length) →
    ∃ ws', rows.foldlM widen ws = some ws'
  | [], ws, _ => ⟨ws, by simp⟩
  | row :: rows, ws, h => by
    obtain ⟨vs, hv, hl⟩ := widen_defined ws row (h row (List.mem_cons_self ..))
    obtain ⟨ws', hw⟩ := foldlM_defined rows vs (fun q hq => by rw [hl]; exact h q (List.mem_cons_of_mem _ hq))
    exact ⟨ws', by simp [List.foldlM_cons, hv, hw]⟩

/-- C84.  The column form is defined exactly when no row has more cells than there are column names;
otherwise the code writes past the end of its table of widths. -/
theorem c84_defined_iff (header : Bool) (r : Result) :
    (∃ out, formatColumn header r = some out) ↔ ∀ row ∈ r.rows, row.length ≤ r.headers.length := by
  unfold formatColumn widths
  constructor
  · rintro ⟨out, h⟩
    simp only [Option.map_eq_some_iff] at h
    obtain ⟨ws, hw, _⟩ := h
    simpa using (foldlM_widen r.rows _ ws hw).1
  · intro h
    obtain ⟨ws, hw⟩ := foldlM_defined r.rows (r.headers.map (fun h => displayWidth (expandTabs h))) (by simpa using h)
    exact ⟨_, by rw [hw]; rfl⟩

/-! ## The whole text -/

/-- Two lists of the same length, related entry by entry. -/
inductive Pairs {α β : Type} (R : α → β → Prop) : List α → List β → Prop
  | nil : Pairs R [] []
  | cons {a : α} {b : β} {l : List α} {m : List β} : R a b → Pairs R l m → Pairs R (a :: l) (b :: m)

theorem rtrim_spec (s : Bytes) : ∃ k, s = rtrim s ++ List.replicate k 32 ∧ (rtrim s).getLast? ≠ some 32 := by
  unfold rtrim
  refine ⟨(s.reverse.takeWhile (· = 32)).length, ?_, ?_⟩
  · have h : List.replicate (s.reverse.takeWhile (· = 32)).length (32 : UInt8)
        = (s.reverse.takeWhile (· = 32)).reverse := by
      symm
      rw [List.eq_replicate_iff]
      refine ⟨by simp, fun b hb => ?_⟩
      rw [List.mem_reverse] at hb
      have : ∀ (m : Bytes), ∀ b ∈ m.takeWhile (· = 32), b = 32 := by
        intro m
        induction m with
        | nil => simp
        | cons x m ih =>
          intro b hb
          by_cases hx : x = 32
          · simp only [List.takeWhile_cons, hx, decide_true, if_true, List.mem_cons] at hb
            rcases hb with rfl | hb
            · rfl
            · exact ih b hb
          · simp [hx] at hb
      exact this _ b hb
    rw [h, ← List.reverse_append, List.takeWhile_append_dropWhile, List.reverse_reverse]
  · rw [List.getLast?_reverse]
    intro h
    have : ∀ m : Bytes, (m.dropWhile (· = 32)).head? ≠ some 32 := by
      intro m
      induction m with
      | nil => simp
      | cons x m ih =>
        by_cases hx : x = 32
        · simpa [hx] using ih
        · simp [hx]
    exact this _ h

/-- The cells of one physical line: line `k` of each cell of the row, with tabs expanded. -/
def cellLines (row : List Bytes) : List (List Bytes) :=
  (List.range (rowHeight row)).map (fun k => row.map (fun c => expandTabs ((splitLines c).getD k [])))

theorem getD_lineWidth (c : Bytes) (k w : Nat) (h : ∀ x ∈ lineWidths c, x ≤ w) :
    displayWidth (expandTabs ((splitLines c).getD k [])) ≤ w := by
  by_cases hk : k < (splitLines c).length
  · apply h
    unfold lineWidths
    rw [List.mem_map]
    exact ⟨(splitLines c).getD k [], by
      rw [List.getD_eq_getElem?_getD, List.getElem?_eq_getElem hk]; exact List.getElem_mem hk, rfl⟩
  · rw [List.getD_eq_getElem?_getD, List.getElem?_eq_none (by omega)]
    exact Nat.zero_le _

/-- C84.  The column form, for every result with no row wider than the names and any bytes in the
cells: there are columns, one for each name, each as wide as the widest line of its name and cells and
two blanks apart; the text is the line of names and a line of dashes over the full width of each
column (if asked for), then for each row one line for each line of its cells.  In every line each cell
stands at the start of its column, and no line ends with a blank. -/
theorem c84_aligned (header : Bool) (r : Result) (out : Bytes) (h : formatColumn header r = some out) :
    ∃ ws : List Nat,
      ws.length = r.headers.length ∧
      (∀ (j : Nat) w, ws[j]? = some w → IsMax w ((r.headers[j]?).toList.map (fun n => displayWidth (expandTabs n)) ++
        r.rows.flatMap (fun row => (row[j]?).elim [] lineWidths))) ∧
      ∃ ls : List Bytes,
        out = ls.flatMap (· ++ [10]) ∧
        Pairs (fun cells l => l.getLast? ≠ some 32 ∧ ∃ k,
            Aligned (start ws) (l ++ List.replicate k 32) cells)
          ((if header then [r.headers.map expandTabs, ws.map (List.replicate · 45)] else []) ++
            r.rows.flatMap cellLines) ls := by
  unfold formatColumn at h
  simp only [Option.map_eq_some_iff] at h
  obtain ⟨ws, hw, rfl⟩ := h
  obtain ⟨h1, h2, h3⟩ := foldlM_widen r.rows _ ws hw
  rw [List.length_map] at h2
  have hmax : ∀ (j : Nat) w, ws[j]? = some w → IsMax w ((r.headers[j]?).toList.map (fun n => displayWidth (expandTabs n)) ++
        r.rows.flatMap (fun row => (row[j]?).elim [] lineWidths)) := by
    intro j w hj
    obtain ⟨v, hv, hm⟩ := h3 j w hj
    rw [List.getElem?_map, Option.map_eq_some_iff] at hv
    obtain ⟨n, hn, rfl⟩ := hv
    rw [hn]
    simpa using hm
  refine ⟨ws, h2, hmax, ?_⟩
  have line : ∀ cells : List Bytes, cells.length ≤ ws.length →
      (∀ (j : Nat) c w, cells[j]? = some c → ws[j]? = some w → displayWidth c ≤ w) →
      (rtrim (columnLine ws cells)).getLast? ≠ some 32 ∧ ∃ k,
            Aligned (start ws) (rtrim (columnLine ws cells) ++ List.replicate k 32) cells := by
    intro cells hl hc
    obtain ⟨k, hk, hr⟩ := rtrim_spec (columnLine ws cells)
    refine ⟨hr, k, ?_⟩
    rw [← hk]
    exact columnLine_aligned cells ws hl hc
  have hrow : ∀ row ∈ r.rows, ∀ k, (rtrim (columnLine ws (lineCells row k))).getLast? ≠ some 32 ∧ ∃ m,
      Aligned (start ws) (rtrim (columnLine ws (lineCells row k)) ++ List.replicate m 32) (lineCells row k) := by
    intro row hrow k
    apply line
    · have := h1 row hrow
      simp only [List.length_map] at this
      simp [lineCells, h2, this]
    · intro j c w hc hw
      unfold lineCells at hc
      rw [List.getElem?_map, Option.map_eq_some_iff] at hc
      obtain ⟨x, hx, rfl⟩ := hc
      apply getD_lineWidth
      intro y hy
      apply (hmax j w hw).2
      apply List.mem_append_right
      rw [List.mem_flatMap]
      exact ⟨row, hrow, by rw [hx]; exact hy⟩
  have hrows : Pairs (fun cells l => l.getLast? ≠ some 32 ∧ ∃ k,
            Aligned (start ws) (l ++ List.replicate k 32) cells)
      (r.rows.flatMap cellLines)
      (r.rows.flatMap (fun row => (List.range (rowHeight row)).map (fun k => rtrim (columnLine ws (lineCells row k))))) := by
    have : ∀ rows : List (List Bytes), (∀ row ∈ rows, row ∈ r.rows) →
        Pairs (fun cells l => l.getLast? ≠ some 32 ∧ ∃ k,
            Aligned (start ws) (l ++ List.replicate k 32) cells)
        (rows.flatMap cellLines)
        (rows.flatMap (fun row => (List.range (rowHeight row)).map (fun k => rtrim (columnLine ws (lineCells row k))))) := by
      intro rows
      induction rows with
      | nil => intro _; exact .nil
      | cons row rows ih =>
        intro hsub
        rw [List.flatMap_cons, List.flatMap_cons]
        have hm := hsub row (List.mem_cons_self ..)
        have : ∀ ks : List Nat, Pairs (fun cells l => l.getLast? ≠ some 32 ∧ ∃ k,
            Aligned (start ws) (l ++ List.replicate k 32) cells)
            (ks.map (fun k => row.map (fun c => expandTabs ((splitLines c).getD k []))))
            (ks.map (fun k => rtrim (columnLine ws (lineCells row k)))) := by
          intro ks
          induction ks with
          | nil => exact .nil
          | cons k ks ihk => exact .cons (hrow row hm k) ihk
        have app : ∀ {α β : Type} {R : α → β → Prop} {a c : List α} {b d : List β},
            Pairs R a b → Pairs R c d → Pairs R (a ++ c) (b ++ d) := by
          intro α β R a c b d hab hcd
          induction hab with
          | nil => exact hcd
          | cons h _ ih => exact .cons h ih
        exact app (this _) (ih (fun q hq => hsub q (List.mem_cons_of_mem _ hq)))
    exact this r.rows (fun _ h => h)
  have hflat : r.rows.flatMap (fun row =>
        (List.range (rowHeight row)).flatMap (fun k => rtrim (columnLine ws (lineCells row k)) ++ [10]))
      = (r.rows.flatMap (fun row =>
          (List.range (rowHeight row)).map (fun k => rtrim (columnLine ws (lineCells row k))))).flatMap (· ++ [10]) := by
    rw [List.flatMap_assoc]
    simp only [List.flatMap_map]
  rw [hflat]
  cases header
  · exact ⟨r.rows.flatMap (fun row =>
          (List.range (rowHeight row)).map (fun k => rtrim (columnLine ws (lineCells row k)))),
      by rw [if_neg (by decide), List.nil_append], by simpa using hrows⟩
  · refine ⟨rtrim (columnLine ws (r.headers.map expandTabs)) :: rtrim (dashes ws) :: r.rows.flatMap (fun row =>
          (List.range (rowHeight row)).map (fun k => rtrim (columnLine ws (lineCells row k)))), by simp, ?_⟩
    simp only [if_true, List.cons_append, List.nil_append]
    refine .cons (line _ (by simp [h2]) ?_) (.cons ?_ hrows)
    · intro j c w hc hw
      rw [List.getElem?_map, Option.map_eq_some_iff] at hc
      obtain ⟨n, hn, rfl⟩ := hc
      apply (hmax j w hw).2
      rw [hn]; simp
    · rw [dashes_eq]
      refine line _ (by simp) ?_
      intro j c w hc hw
      rw [List.getElem?_map, hw] at hc
      simp only [Option.map_some, Option.some.injEq] at hc
      subst hc
      rw [width_dashes]
      exact Nat.le_refl _

-- accents, wide characters, tabs, and a cell of two lines
example : formatColumn true ⟨[str "id", str "name"], [[str "1", [0xC3, 0xA9, 32]], [[0xE6, 0x97, 0xA5, 10, 65], str "x\ty"]]⟩
    = some (str "id  name\n--  ---------\n1   " ++ [0xC3, 0xA9] ++ str "\n" ++ [0xE6, 0x97, 0xA5] ++
        str "  x       y\nA\n") := by decide +kernel

/-! ## Lines and tabs of a cell -/

/-- C84.  The lines of a cell are its pieces between line feeds, each without a carriage return at its
end. -/
theorem c84_lines (s : Bytes) : ∃ ps : List Bytes, (∀ p ∈ ps, 10 ∉ p) ∧ s = sepBy 10 ps ∧
    Pairs (fun p l => p = l ++ [13] ∨ p = l ∧ l.getLast? ≠ some 13) ps (splitLines s) := by
  refine ⟨splitOn10 s, ?_, ?_, ?_⟩
  · induction s with
    | nil => simp [splitOn10]
    | cons c s ih =>
      simp only [splitOn10]
      split
      · intro p hp
        rcases List.mem_cons.mp hp with rfl | hp
        · simp
        · exact ih p hp
      · rename_i hc
        split
        · intro p hp
          rw [List.mem_singleton] at hp
          subst hp
          simpa using fun h => hc h.symm
        · rename_i l ls hs
          intro p hp
          rcases List.mem_cons.mp hp with rfl | hp
          · have := ih l (by rw [hs]; simp)
            simp only [List.mem_cons, not_or]
            exact ⟨fun h => hc h.symm, this⟩
          · exact ih p (by rw [hs]; exact List.mem_cons_of_mem _ hp)
  · induction s with
    | nil => rfl
    | cons c s ih =>
      simp only [splitOn10]
      split
      · rename_i hc
        cases hs : splitOn10 s with
        | nil => exact absurd hs (splitOn10_ne s)
        | cons l ls =>
          rw [hs] at ih
          have : sepBy 10 ([] :: l :: ls) = 10 :: sepBy 10 (l :: ls) := rfl
          rw [this, ← ih, hc]
      · cases hs : splitOn10 s with
        | nil => exact absurd hs (splitOn10_ne s)
        | cons l ls =>
          rw [hs] at ih
          simp only
          cases ls with
          | nil => rw [ih]; rfl
          | cons m ms => rw [ih]; rfl
  · unfold splitLines
    generalize splitOn10 s = ps
    induction ps with
    | nil => exact .nil
    | cons p ps ih =>
      refine .cons ?_ ih
      unfold dropCR
      split
      · rename_i h
        left
        rw [List.getLast?_eq_some_iff] at h
        obtain ⟨q, rfl⟩ := h
        simp
      · rename_i h
        exact .inr ⟨rfl, h⟩

theorem expandGo_no_tab : ∀ (l : List (Nat × Bytes)) (col : Nat), (∀ p ∈ l, p.1 ≠ 9 → 9 ∉ p.2) →
    9 ∉ expandGo col l
  | [], _, _ => by simp [expandGo]
  | (cp, raw) :: l, col, h => by
    have ih := fun col => expandGo_no_tab l col (fun p hp => h p (List.mem_cons_of_mem _ hp))
    simp only [expandGo]
    split
    · rw [List.mem_append]
      rintro (h9 | h9)
      · exact absurd (List.eq_of_mem_replicate h9) (by decide)
      · exact ih _ h9
    · rename_i hcp
      rw [List.mem_append]
      rintro (h9 | h9)
      · exact h _ (List.mem_cons_self ..) hcp h9
      · exact ih _ h9

theorem trail_mem : ∀ (k cp : Nat) (s : Bytes), ∀ c ∈ (trail k cp s).2.1, 0x80 ≤ c
  | 0, cp, s => by simp [trail]
  | _ + 1, cp, [] => by simp [trail]
  | k + 1, cp, x :: s => by
    simp only [trail]
    split
    · rename_i h
      intro c hc
      rcases List.mem_cons.mp hc with rfl | hc
      · exact h.1
      · exact trail_mem k _ s c hc
    · simp

theorem decodeF_tab : ∀ (f : Nat) (s : Bytes), ∀ p ∈ decodeF f s, p.1 ≠ 9 → 9 ∉ p.2
  | 0, _ => by simp [decodeF]
  | _ + 1, [] => by simp [decodeF]
  | f + 1, b :: s => by
    simp only [decodeF]
    intro p hp
    rcases List.mem_cons.mp hp with rfl | hp
    · simp only [List.mem_cons, not_or]
      intro h9
      refine ⟨?_, ?_⟩
      · intro hb
        apply h9
        rw [← hb]; rfl
      · intro hm
        have : ∀ c ∈ (next b s).2.1, 0x80 ≤ c := by
          unfold next
          repeat' split
          all_goals first | (intro c hc; cases hc) | exact trail_mem _ _ s
        exact absurd (this 9 hm) (by decide)
    · exact decodeF_tab f _ p hp

/-- C84.  No tab is left in a cell of the column form, whatever its bytes. -/
theorem c84_no_tabs (s : Bytes) : 9 ∉ expandTabs s :=
  expandGo_no_tab _ 0 (decodeF_tab _ s)

/-- The plain reading of tab stops: every eight places. -/
def tabStops : Nat → Bytes → Bytes
  | _, [] => []
  | col, c :: s =>
    if c = 9 then List.replicate (8 - col % 8) 32 ++ tabStops ((col / 8 + 1) * 8) s
    else c :: tabStops (col + 1) s

/-- C84.  In a printable ASCII cell every tab goes on to the next multiple of eight. -/
theorem c84_tab_stops (s : Bytes) (h : ∀ c ∈ s, c = 9 ∨ (0x20 ≤ c ∧ c < 0x7F)) : expandTabs s = tabStops 0 s := by
  unfold expandTabs
  generalize 0 = col
  induction s generalizing col with
  | nil => rfl
  | cons c s ih =>
    have hs := fun d hd => h d (List.mem_cons_of_mem _ hd)
    have hn : next c s = (c.toNat, [], s) := by
      have : c < 0x80 := by
        rcases h c (List.mem_cons_self ..) with rfl | ⟨_, h2⟩
        · decide
        · rw [UInt8.lt_iff_toNat_lt] at h2 ⊢
          have e1 : (0x7F : UInt8).toNat = 127 := rfl
          have e2 : (0x80 : UInt8).toNat = 128 := rfl
          omega
      simp [next, this]
    rw [decode_cons, hn]
    by_cases h9 : c = 9
    · subst h9
      have e : col + (8 - col % 8) = (col / 8 + 1) * 8 := by omega
      simp only [expandGo, tabStops, UInt8.reduceToNat, if_true, e, ih hs]
    · obtain ⟨h1, h2⟩ : 0x20 ≤ c ∧ c < 0x7F := by
        rcases h c (List.mem_cons_self ..) with h | h
        · exact absurd h h9
        · exact h
      have hw : cpWidth c.toNat = 1 ∧ c.toNat ≠ 9 := by
        rw [UInt8.le_iff_toNat_le] at h1
        rw [UInt8.lt_iff_toNat_lt] at h2
        have e1 : (0x7F : UInt8).toNat = 127 := rfl
        have e2 : (0x20 : UInt8).toNat = 32 := rfl
        have key : ∀ n < 127, 32 ≤ n → cpWidth n = 1 := by decide +kernel
        exact ⟨key _ (by omega) (by omega), by omega⟩
      simp only [expandGo, tabStops, hw, h9, if_false, List.cons_append, List.nil_append, ih hs]

example : expandTabs (str "ab\tc\t\td") = str "ab      c               d" := by decide +kernel

/-- Column names are not split into lines: a name with a line feed breaks the alignment of everything
after it. -/
theorem c84_name_with_newline :
    formatColumn true ⟨[str "a\nb", str "c"], [[str "x", str "y"]]⟩ = some (str "a\nb  c\n--  -\nx   y\n") := by
  decide +kernel

end Bedrock.Results.Props
