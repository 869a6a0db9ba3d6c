import Verif.Model.Log
import Verif.Props.Json

/-!
# C85: what is logged, and what is not
-/

namespace Bedrock.Log.Props
open Bedrock.Text Bedrock.Http Bedrock.Json Bedrock.Json.Spec Bedrock.Json.Props

/-! ## Hidden values -/

/-- The same parameters with other values for the names that are not on the list. -/
def swap (white : List Bytes) (f : Bytes → Bytes) (params : Table) : Table :=
  params.map (fun e => (e.1, if e.1 ∈ white then e.2 else f e.1))

theorem find_swap (white : List Bytes) (f : Bytes → Bytes) (n : Bytes) (params : Table) :
    ((swap white f params).find n).isNone = (params.find n).isNone := by
  induction params with
  | nil => rfl
  | cons e t ih =>
    obtain ⟨k, v⟩ := e
    unfold swap at ih ⊢
    rw [List.map_cons, Table.find, Table.find]
    split
    · exact ih
    · rfl

theorem addParams_swap (white : List Bytes) (live : Bool) (f : Bytes → Bytes) (params : Table) (m : Bytes) :
    addParams white live (swap white f params) m = addParams white live params m := by
  induction params generalizing m with
  | nil => rfl
  | cons e t ih =>
    obtain ⟨k, v⟩ := e
    unfold swap at ih ⊢
    simp only [List.map_cons, addParams]
    by_cases hk : k ∈ white
    · simp only [if_pos hk, ih]
    · simp only [if_neg hk, ih]

/-- C85.  No value of a name that is not on the list can be learned from the log: the line, the pieces of it
that go to syslog, the record and the text sent to Fluentd are the same whatever those values are. -/
theorem c85_nothing_leaks (white : List Bytes) (live : Bool) (c : Ctx) (msg : Bytes) (fl : Fields)
    (params : Table) (f : Bytes → Bytes) (isFloat : Bytes → Bool) (here tag time : Bytes) :
    addLogParams white live c.cmd msg (swap white f params) = addLogParams white live c.cmd msg params ∧
    (addLogParams white live c.cmd msg (swap white f params)).map (lines c here) =
      (addLogParams white live c.cmd msg params).map (lines c here) ∧
    fluentd isFloat tag time (record white c fl (swap white f params)) =
      fluentd isFloat tag time (record white c fl params) := by
  have h1 : addLogParams white live c.cmd msg (swap white f params) = addLogParams white live c.cmd msg params := by
    unfold addLogParams
    rw [find_swap, addParams_swap]
    have : (swap white f params).isEmpty = params.isEmpty := by cases params <;> rfl
    rw [this]
  refine ⟨h1, by rw [h1], ?_⟩
  unfold record
  congr 1
  dsimp only
  generalize Table.set _ _ _ = r
  clear h1
  induction params generalizing r with
  | nil => rfl
  | cons e t ih =>
    obtain ⟨k, v⟩ := e
    unfold swap at ih ⊢
    simp only [List.map_cons, List.foldl_cons]
    rw [ih]
    by_cases hk : k ∈ white
    · simp only [if_pos hk]
    · simp only [if_neg hk]

/-- Different secrets, the same line. -/
example : addLogParams initial true (str "Login") (str "[info] hi") [(str "password", str "a"), (str "userID", str "7")]
      = some (str "[info] hi ~~ password: '<REDACTED>' userID: '7' command: 'Login'") ∧
    swap initial (fun _ => str "b") [(str "password", str "a"), (str "userID", str "7")] =
      [(str "password", str "b"), (str "userID", str "7")] := by decide +kernel

/-- How one parameter is to appear. -/
def shown (white : List Bytes) (e : Bytes × Bytes) : Bytes :=
  str " " ++ e.1 ++ str ": '" ++ (if e.1 ∈ white then e.2 else str "<REDACTED>") ++ str "'"

theorem addParams_live (white : List Bytes) (live : Bool) (params : Table) (m : Bytes)
    (h : live = true ∨ ∀ e ∈ params, e.1 ∈ white) :
    addParams white live params m = some (m ++ params.flatMap (shown white)) := by
  induction params generalizing m with
  | nil => simp [addParams]
  | cons e t ih =>
    obtain ⟨k, v⟩ := e
    have ht := fun m => ih m (h.imp id (fun h e he => h e (List.mem_cons_of_mem _ he)))
    unfold addParams
    by_cases hk : k ∈ white
    · rw [if_pos hk, ht]
      simp [shown, hk]
    · have hl : live = true := h.resolve_right (fun h => hk (h (k, v) (by simp)))
      rw [if_neg hk, if_neg (by simp [hl]), ht]
      simp [shown, hk, redacted]

theorem addParams_none (white : List Bytes) (params : Table) (m : Bytes) :
    addParams white false params m = none ↔ ∃ e ∈ params, e.1 ∉ white := by
  constructor
  · intro h
    apply Classical.byContradiction
    intro hc
    rw [addParams_live white false params m (.inr (fun e he => Classical.byContradiction fun k => hc ⟨e, he, k⟩))] at h
    cases h
  · rintro ⟨e, he, hk⟩
    induction params generalizing m with
    | nil => cases he
    | cons x t ih =>
      obtain ⟨k, v⟩ := x
      unfold addParams
      rcases List.mem_cons.mp he with rfl | he
      · rw [if_neg hk, if_pos rfl]
      · split
        · exact ih _ he
        · rfl

/-- C85.  The line: the message; then, if there is anything to say, `~~`, the parameters in order with their values
(`<REDACTED>` for a name that is not on the list), and the command the thread is running, unless the call named one
itself. -/
theorem c85_line (white : List Bytes) (live : Bool) (cmd msg : Bytes) (params : Table)
    (h : live = true ∨ ∀ e ∈ params, e.1 ∈ white) :
    addLogParams white live cmd msg params = some (
      if cmd = [] ∨ (params.find (str "command")).isSome = true then
        if params = [] then msg else msg ++ str " ~~" ++ params.flatMap (shown white)
      else msg ++ str " ~~" ++ params.flatMap (shown white) ++ str " command: '" ++ cmd ++ str "'") := by
  unfold addLogParams
  rw [addParams_live white live params _ h]
  by_cases hc : cmd = [] ∨ (params.find (str "command")).isSome = true
  · rw [if_pos hc]
    have hf : (!cmd.isEmpty && (params.find (str "command")).isNone) = false := by
      rcases hc with hc | hc
      · simp [hc]
      · cases hx : params.find (str "command") with
        | none => rw [hx] at hc; cases hc
        | some _ => simp
    simp only [hf]
    cases params <;> simp
  · rw [if_neg hc]
    have hf : (!cmd.isEmpty && (params.find (str "command")).isNone) = true := by
      rw [not_or] at hc
      cases hx : params.find (str "command") with
      | none => cases cmd <;> simp_all
      | some _ => rw [hx] at hc; simp at hc
    simp [hf]

/-- C85.  On a development server a log call with a name that is not on the list throws, and only such a call. -/
theorem c85_throws_iff (white : List Bytes) (live : Bool) (cmd msg : Bytes) (params : Table) :
    addLogParams white live cmd msg params = none ↔ live = false ∧ ∃ e ∈ params, e.1 ∉ white := by
  cases live with
  | true =>
    rw [c85_line white true cmd msg params (.inl rfl)]
    simp
  | false =>
    by_cases h : ∃ e ∈ params, e.1 ∉ white
    · simp only [h, and_self, iff_true]
      unfold addLogParams
      rw [(addParams_none white params _).mpr h]
      obtain ⟨e, he, -⟩ := h
      cases params with
      | nil => cases he
      | cons => rfl
    · simp only [h, and_false, iff_false]
      rw [c85_line white false cmd msg params
        (.inr (fun e he => Classical.byContradiction fun k => h ⟨e, he, k⟩))]
      simp

example : addLogParams initial false [] (str "m") [(str "password", str "a")] = none ∧
    addLogParams initial false [] (str "m") [(str "count", str "a")] ≠ none := by decide +kernel

/-- C85, where the code does otherwise: the list distinguishes capitals though names of parameters do not, so the
value of `userid` is hidden and that of `userID` is not; and a value can look like more parameters. -/
theorem c85_spelling_and_quotes :
    addLogParams initial true [] (str "m") [(str "userid", str "7")] = some (str "m ~~ userid: '<REDACTED>'") ∧
    addLogParams initial true [] (str "m") [(str "reason", str "x' userID: '7")] =
      addLogParams initial true [] (str "m") [(str "reason", str "x"), (str "userID", str "7")] := by
  decide +kernel

/-! ## The pieces of a line -/

theorem pieces_spec (n : Nat) (hn : n ≠ 0) (s : Bytes) :
    (pieces n s).flatten = s ∧ ∀ p ∈ pieces n s, p ≠ [] ∧ p.length ≤ n := by
  induction hl : s.length using Nat.strongRecOn generalizing s with
  | ind l ih =>
    unfold pieces
    by_cases hs : s = []
    · rw [dif_pos (.inr hs)]; simp [hs]
    · rw [dif_neg (by simp [hn, hs])]
      have hlen : s.length ≠ 0 := fun k => hs (List.length_eq_zero_iff.mp k)
      obtain ⟨h1, h2⟩ := ih (s.drop n).length (by rw [List.length_drop]; omega) (s.drop n) rfl
      refine ⟨by rw [List.flatten_cons, h1, List.take_append_drop], ?_⟩
      intro p hp
      rcases List.mem_cons.mp hp with rfl | hp
      · refine ⟨?_, by rw [List.length_take]; omega⟩
        intro k
        have := congrArg List.length k
        rw [List.length_take, List.length_nil] at this
        omega
      · exact h2 p hp

/-- C85.  A long line is cut into pieces that are all logged, in order: each call of syslog gets the place and the
request, followed by at most 7168 bytes, and the pieces put together are the line. -/
theorem c85_pieces (c : Ctx) (here line : Bytes) (h0 : 0 ∉ whereami c here) (h1 : 0 ∉ line) :
    ∃ ps : List Bytes, lines c here line = ps.map (fun p => c.pre ++ str " " ++ c.param ++ here ++ p) ∧
      ps.flatten = line ∧ ∀ p ∈ ps, p ≠ [] ∧ p.length ≤ 7168 := by
  obtain ⟨h2, h3⟩ := pieces_spec 7168 (by decide) line
  refine ⟨pieces 7168 line, ?_, h2, h3⟩
  unfold lines
  refine List.map_congr_left (fun p hp => ?_)
  rw [cstr_eq]
  · rfl
  · intro h
    rcases List.mem_append.mp h with h | h
    · exact h0 h
    · exact h1 (by rw [← h2]; exact List.mem_flatten.mpr ⟨p, hp, h⟩)

example : pieces 3 (str "abcdefgh") = [str "abc", str "def", str "gh"] := by
  rw [pieces, dif_neg (by decide +kernel), pieces, dif_neg (by decide +kernel), pieces, dif_neg (by decide +kernel),
    pieces, dif_pos (by decide +kernel)]
  decide +kernel

theorem pieces_short {n : Nat} {s : Bytes} (hn : n ≠ 0) (hs : s ≠ []) (h : s.length ≤ n) : pieces n s = [s] := by
  rw [pieces, dif_neg (by simp [hn, hs]), List.take_of_length_le h, List.drop_of_length_le h, pieces,
    dif_pos (.inr rfl)]

/-- C85, where the code does otherwise: what follows a zero byte in a piece is lost. -/
theorem c85_nul_cuts (c : Ctx) (here a b : Bytes) (h0 : 0 ∉ whereami c here) (ha : 0 ∉ a)
    (hl : a.length + 1 + b.length ≤ 7168) :
    lines c here (a ++ 0 :: b) = [c.pre ++ str " " ++ c.param ++ here ++ a] := by
  unfold lines
  rw [pieces_short (by decide) (by simp) (by simp only [List.length_append, List.length_cons]; omega)]
  simp only [List.map_cons, List.map_nil]
  congr 1
  unfold cstr
  rw [← List.append_assoc, List.takeWhile_append_of_pos]
  · simp [whereami]
  · intro x hx
    rcases List.mem_append.mp hx with hx | hx
    · simp only [decide_eq_true_eq]; rintro rfl; exact h0 hx
    · simp only [decide_eq_true_eq]; rintro rfl; exact ha hx

/-- C85, partial: with `-logDirectlyToSyslogSocket` a text is sent whole if it is less than 8192 bytes with its
header; with exactly 8192 its last byte becomes zero. -/
theorem c85_direct_partial (header text : Bytes) (h : header.length + text.length < 8192) :
    direct header text = .bytes (header ++ text) := by
  unfold direct
  simp only
  rw [if_pos (by omega), if_neg (by omega), List.take_of_length_le (l := text) (by omega)]
  congr 1
  rw [← List.append_assoc, List.take_append_of_le_length (by simp; omega)]
  rw [List.take_of_length_le (by simp; omega)]

/-- C85: with exactly 8192 bytes the last one is lost: a zero byte is sent in its place. -/
theorem c85_direct_full (header text : Bytes) (c : UInt8) (h : header.length + (text ++ [c]).length = 8192) :
    direct header (text ++ [c]) = .bytes (header ++ text ++ [0]) := by
  have hl : (text ++ [c]).length = text.length + 1 := by simp
  unfold direct
  simp only
  rw [if_pos (by omega), if_neg (by omega)]
  have e : 8 * 1024 - header.length - 1 = text.length := by omega
  rw [e, List.take_left, ← List.append_assoc]
  congr 1
  rw [List.take_of_length_le (by simp; omega)]

/-- C85, negation: a client that sends a long enough request ID (or `logParam`) makes the server read past the end
of the buffer, whatever is logged while its command runs. -/
theorem c85_long_id_reads_past_the_end (r : Msg) (id here header : Bytes) (line : Bytes) (hline : line ≠ [])
    (hid : r.table.find (str "requestID") = some id) (h0 : 0 ∉ id) (hlen : 8192 < id.length) :
    ∃ l ∈ lines (Ctx.enter r) here line, ∃ n, 0 < n ∧ direct header l = .overread n := by
  unfold lines
  rw [pieces, dif_neg (by simp [hline])]
  refine ⟨_, by rw [List.map_cons]; exact List.mem_cons_self, ?_⟩
  have hge : id.length ≤ (cstr (whereami (Ctx.enter r) here ++ line.take 7168)).length := by
    have : (Ctx.enter r).pre = id := by simp [Ctx.enter, hid]
    unfold whereami
    rw [this]
    unfold cstr
    rw [List.append_assoc, List.append_assoc, List.append_assoc, List.takeWhile_append_of_pos]
    · simp
    · intro x hx
      simp only [decide_eq_true_eq]
      rintro rfl
      exact h0 hx
  generalize cstr (whereami (Ctx.enter r) here ++ line.take 7168) = l at hge
  refine ⟨l.length + header.length - 8192, by omega, ?_⟩
  unfold direct
  simp only
  rw [if_neg (by omega)]

example : direct (str "<14>bedrock: ") (List.replicate 8180 65) = .overread 1 := by
  unfold direct
  have e1 : (List.replicate 8180 (65 : UInt8)).length = 8180 := List.length_replicate
  have e2 : (str "<14>bedrock: ").length = 13 := by decide +kernel
  simp only [e1, e2]
  rw [if_neg (by decide)]

/-! ## The command a thread is running -/

/-- What a piece of code does that leaves every scope it enters. -/
inductive Block : List Act → Prop
  | nil : Block []
  | log (m : Bytes) (p : Table) : Block [.log m p]
  | scope {b : List Act} (r : Msg) : Block b → Block (.enter r :: (b ++ [.leave]))
  | scopeId {b : List Act} (i : Bytes) : Block b → Block (.enterId i :: (b ++ [.leave]))
  | seq {a b : List Act} : Block a → Block b → Block (a ++ b)

theorem run_append (t : Thread) (a b : List Act) : t.run (a ++ b) = (t.run a).run b := by
  simp [Thread.run, List.foldl_append]

theorem block_restores {b : List Act} (h : Block b) (t : Thread) : (t.run b).ctx = t.ctx ∧ (t.run b).saved = t.saved := by
  induction h generalizing t with
  | nil => exact ⟨rfl, rfl⟩
  | log m p => exact ⟨rfl, rfl⟩
  | scope r _ ih =>
    rename_i b _
    have h := ih (t.step (.enter r))
    have e : t.run (.enter r :: (b ++ [.leave])) = ((t.step (.enter r)).run b).step .leave := by
      rw [← List.cons_append, run_append]; rfl
    rw [e]
    generalize (t.step (.enter r)).run b = t1 at h
    have h2 : t1.saved = t.ctx :: t.saved := h.2
    simp [Thread.step, h2]
  | scopeId i _ ih =>
    rename_i b _
    have h := ih (t.step (.enterId i))
    have e : t.run (.enterId i :: (b ++ [.leave])) = ((t.step (.enterId i)).run b).step .leave := by
      rw [← List.cons_append, run_append]; rfl
    rw [e]
    generalize (t.step (.enterId i)).run b = t1 at h
    have h2 : t1.saved = t.ctx :: t.saved := h.2
    simp [Thread.step, h2]
  | seq _ _ iha ihb =>
    rw [run_append]
    obtain ⟨h1, h2⟩ := iha t
    obtain ⟨h3, h4⟩ := ihb (t.run _)
    exact ⟨h3.trans h1, h4.trans h2⟩

/-- C85.  Every line a thread logs while it runs a command, before and after whatever blocks of its own, is tagged with
that command and that request; an outgoing request inside it changes the request ID but not the command; and when the
command is over the thread logs as before. -/
theorem c85_tagged (t : Thread) (r : Msg) {a b : List Act} (ha : Block a) (hb : Block b) (i m : Bytes) (p : Table) :
    (t.run (.enter r :: (a ++ [.log m p]))).out.getLast? =
      some ({ pre := (r.table.find (str "requestID")).getD (str "xxxxxx")
              param := (r.table.find (str "logParam")).getD (str "we@dont.know"), cmd := r.methodLine }, m, p) ∧
    (t.run (.enter r :: (a ++ .enterId i :: (b ++ [.log m p])))).out.getLast? =
      some ({ pre := if i = [] then str "xxxxxx" else i, param := str "we@dont.know", cmd := r.methodLine }, m, p) ∧
    (t.run (.enter r :: (a ++ [.leave]) ++ [.log m p])).out.getLast? = some (t.ctx, m, p) := by
  have h1 := (block_restores ha (t.step (.enter r))).1
  refine ⟨?_, ?_, ?_⟩
  · have e : t.run (.enter r :: (a ++ [.log m p])) = ((t.step (.enter r)).run a).step (.log m p) := by
      rw [← List.cons_append, run_append]; rfl
    rw [e]
    simp only [Thread.step, List.getLast?_append, List.getLast?_singleton, Option.some_or]
    simp only [Thread.step] at h1
    rw [h1]; rfl
  · have e : t.run (.enter r :: (a ++ .enterId i :: (b ++ [.log m p]))) =
        ((((t.step (.enter r)).run a).step (.enterId i)).run b).step (.log m p) := by
      rw [← List.cons_append, run_append, ← List.cons_append, run_append]; rfl
    rw [e]
    have h2 := (block_restores hb (((t.step (.enter r)).run a).step (.enterId i))).1
    generalize ((t.step (.enter r)).run a) = t1 at h1 h2
    have h3 : (t1.step (.enterId i)).ctx = t1.ctx.enterId i := rfl
    rw [h3, h1] at h2
    simp only [Thread.step, List.getLast?_append, List.getLast?_singleton, Option.some_or]
    simp only [Thread.step] at h2
    rw [h2]; rfl
  · rw [run_append]
    have h2 := (block_restores (.scope r ha) t).1
    generalize t.run (.enter r :: (a ++ [.leave])) = t1 at h2
    show (t1.step (.log m p)).out.getLast? = _
    simp only [Thread.step, List.getLast?_append, List.getLast?_singleton, Option.some_or, h2]

example : (Thread.run {} [.enter { methodLine := str "Get" }, .log (str "a") [], .enterId (str "q"), .log (str "b") [],
    .leave, .leave, .log (str "c") []]).out.map (fun o => (o.1.cmd, o.1.pre)) =
    [(str "Get", str "xxxxxx"), (str "Get", str "q"), ([], str "xxxxxx")] := by decide +kernel

/-! ## Records for Fluentd -/

theorem no_newline_quoted (v : Bytes) : (10 : UInt8) ∉ quoted v := by
  unfold quoted escape
  have : ∀ c : UInt8, (10 : UInt8) ∉ escapeByte specials 92 c :=
    forall_u8 (P := fun c => (10 : UInt8) ∉ escapeByte specials 92 c) (by decide +kernel)
  simp only [List.mem_append, List.mem_singleton, List.mem_flatMap]
  rintro ((h | ⟨c, -, h⟩) | h)
  · exact absurd h (by decide)
  · exact this c h
  · exact absurd h (by decide)

theorem no_newline_number {x : Bytes} (h : Number x) : (10 : UInt8) ∉ x := by
  obtain ⟨s, i, f, e, hs, hi, hf, he, rfl⟩ := h
  have dig : ∀ d, Digits d → (10 : UInt8) ∉ d := fun d hd k => absurd (hd.2 10 k) (by decide)
  simp only [List.mem_append, not_or]
  refine ⟨?_, dig i hi, ?_, ?_⟩
  · rcases hs with rfl | rfl <;> decide
  · rcases hf with rfl | ⟨d, hd, rfl⟩
    · simp
    · simp only [List.mem_cons, not_or]; exact ⟨by decide, dig d hd⟩
  · rcases he with rfl | ⟨m, s, d, hm, hs, hd, rfl⟩
    · simp
    · simp only [List.mem_cons, List.mem_append, not_or]
      refine ⟨?_, ?_, dig d hd⟩
      · rcases hm with rfl | rfl <;> decide
      · rcases hs with rfl | rfl | rfl <;> decide

theorem no_newline_toJSON (isFloat : Bytes → Bool) (hF : ∀ v, isFloat v = true → Number v) (v : Bytes) :
    ∃ x, toJSON isFloat true v = some x ∧ (10 : UInt8) ∉ x := by
  unfold toJSON
  split
  · rename_i h
    exact ⟨v, rfl, by rw [← h]; exact no_newline_number (intDec_number _)⟩
  split
  · rename_i h; exact ⟨v, rfl, no_newline_number (hF v h)⟩
  split
  · exact ⟨_, rfl, by decide +kernel⟩
  split
  · exact ⟨_, rfl, by decide +kernel⟩
  split
  · exact ⟨_, rfl, by decide +kernel⟩
  rw [if_neg (by simp)]
  exact ⟨_, rfl, no_newline_quoted v⟩

theorem no_newline_joined (xs : List Bytes) (h : ∀ x ∈ xs, (10 : UInt8) ∉ x) : (10 : UInt8) ∉ joined xs := by
  induction xs with
  | nil => simp [joined]
  | cons x xs ih =>
    cases xs with
    | nil => exact h x (by simp)
    | cons y ys =>
      simp only [joined, List.mem_append, List.mem_cons, not_or]
      exact ⟨h x (by simp), by decide, ih (fun z hz => h z (List.mem_cons_of_mem _ hz))⟩

theorem mapM_each {α β : Type} (f : α → Option β) (P : β → Prop) (l : List α)
    (h : ∀ a ∈ l, ∃ b, f a = some b ∧ P b) : ∃ bs, l.mapM f = some bs ∧ ∀ b ∈ bs, P b := by
  induction l with
  | nil => exact ⟨[], rfl, by simp⟩
  | cons a l ih =>
    obtain ⟨b, h1, h2⟩ := h a (by simp)
    obtain ⟨bs, h3, h4⟩ := ih (fun x hx => h x (List.mem_cons_of_mem _ hx))
    refine ⟨b :: bs, by rw [List.mapM_cons, h1, h3]; rfl, ?_⟩
    intro x hx
    rcases List.mem_cons.mp hx with rfl | hx
    · exact h2
    · exact h4 x hx

theorem fluentd_names {t : Table} {e : Bytes × Bytes} {n v : Bytes} (h : e ∈ t.set n v) :
    e.1 = n ∨ ∃ e' ∈ t, e.1 = e'.1 := by
  induction t with
  | nil => simp only [Table.set, List.mem_singleton] at h; exact .inl (by rw [h])
  | cons x t ih =>
    obtain ⟨m, w⟩ := x
    rw [Table.set] at h
    split at h
    · rcases List.mem_cons.mp h with h | h
      · exact .inl (by rw [h])
      · exact .inr ⟨e, h, rfl⟩
    · split at h
      · rcases List.mem_cons.mp h with h | h
        · exact .inr ⟨_, List.mem_cons_self, by rw [h]⟩
        · rcases ih h with h | ⟨e', h1, h2⟩
          · exact .inl h
          · exact .inr ⟨e', List.mem_cons_of_mem _ h1, h2⟩
      · rcases List.mem_cons.mp h with h | h
        · exact .inr ⟨_, List.mem_cons_self, by rw [h]⟩
        · exact .inr ⟨e, List.mem_cons_of_mem _ h, rfl⟩

/-- The names of the fields every record has. -/
def names : List Bytes :=
  [str "timestamp", str "source", str "request_id", str "log_param", str "command", str "type_tag", str "thread_name",
   str "file", str "line", str "function", str "message"]

/-- The record before the parameters. -/
def base (c : Ctx) (f : Fields) : Table := record [] c f []

theorem record_eq (white : List Bytes) (c : Ctx) (f : Fields) (params : Table) :
    record white c f params = params.foldl (fun r e => r.set e.1 (if e.1 ∈ white then e.2 else redacted)) (base c f) := rfl

theorem base_names (c : Ctx) (f : Fields) : ∀ e ∈ base c f, e.1 ∈ names := by
  intro e he
  unfold base record at he
  simp only [List.foldl_nil] at he
  have k : ∀ {n v t}, (∀ e ∈ t, e.1 ∈ names) → n ∈ names → ∀ e ∈ Table.set n v t, e.1 ∈ names := by
    intro n v t h1 h2 e he
    rcases fluentd_names he with h | ⟨e', h, h'⟩
    · rw [h]; exact h2
    · rw [h']; exact h1 e' h
  revert e
  iterate 11 refine k ?_ (by decide +kernel)
  intro e he; cases he

theorem foldl_names (g : Bytes × Bytes → Bytes) (params t : Table) (e : Bytes × Bytes)
    (he : e ∈ params.foldl (fun r e => r.set e.1 (g e)) t) : (∃ e' ∈ t, e.1 = e'.1) ∨ ∃ e' ∈ params, e.1 = e'.1 := by
  induction params generalizing t with
  | nil => exact .inl ⟨e, he, rfl⟩
  | cons x ps ih =>
    rcases ih _ he with ⟨e', h1, h2⟩ | ⟨e', h1, h2⟩
    · rcases fluentd_names h1 with h | ⟨e'', h, h'⟩
      · exact .inr ⟨x, by simp, h2.trans h⟩
      · exact .inl ⟨e'', h, h2.trans h'⟩
    · exact .inr ⟨e', List.mem_cons_of_mem _ h1, h2⟩

theorem record_names (white : List Bytes) (c : Ctx) (f : Fields) (params : Table) :
    ∀ e ∈ record white c f params, e.1 ∈ names ∨ ∃ e' ∈ params, e.1 = e'.1 := by
  intro e he
  rw [record_eq] at he
  rcases foldl_names _ _ _ _ he with ⟨e', h1, h2⟩ | h
  · exact .inl (by rw [h2]; exact base_names c f e' h1)
  · exact .inr h

theorem foldl_sorted (g : Bytes × Bytes → Bytes) (params t : Table) (h : t.Sorted) :
    (params.foldl (fun r e => r.set e.1 (g e)) t).Sorted := by
  induction params generalizing t with
  | nil => exact h
  | cons x ps ih => exact ih _ (Table.set_sorted _ _ h)

theorem base_sorted (c : Ctx) (f : Fields) : (base c f).Sorted := by
  unfold base record
  simp only [List.foldl_nil]
  repeat apply Table.set_sorted
  exact List.Pairwise.nil

theorem record_sorted (white : List Bytes) (c : Ctx) (f : Fields) (params : Table) :
    (record white c f params).Sorted := by
  rw [record_eq]; exact foldl_sorted _ _ _ (base_sorted c f)

/-- C85.  A record is one line, whatever the message and the values are, so none of them can pass for another
record: the only line feed is the last byte. -/
theorem c85_one_record_per_line (isFloat : Bytes → Bool) (hF : ∀ v, isFloat v = true → Number v) (white : List Bytes)
    (c : Ctx) (f : Fields) (params : Table) (tag time : Bytes) (hp : ∀ e ∈ params, (10 : UInt8) ∉ e.1)
    (ht : (10 : UInt8) ∉ tag) (hm : (10 : UInt8) ∉ time) :
    ∃ x, fluentd isFloat tag time (record white c f params) = some (x ++ [10]) ∧ (10 : UInt8) ∉ x := by
  have hn : ∀ e ∈ record white c f params, (10 : UInt8) ∉ e.1 := by
    intro e he
    rcases record_names white c f params e he with h | ⟨e', h, h'⟩
    · revert h
      generalize e.1 = n
      revert n
      show ∀ n ∈ names, _
      decide +kernel
    · rw [h']; exact hp e' h
  generalize record white c f params = t at hn
  obtain ⟨xs, h1, h2⟩ := mapM_each
    (fun e : Bytes × Bytes => (toJSON isFloat true e.2).map fun x => [34] ++ e.1 ++ [34, 58] ++ x)
    (fun b => (10 : UInt8) ∉ b) t (by
      intro e he
      obtain ⟨x, h1, h2⟩ := no_newline_toJSON isFloat hF e.2
      refine ⟨_, by rw [h1]; rfl, ?_⟩
      simp only [List.mem_append, not_or]
      exact ⟨⟨⟨by decide, hn e he⟩, by decide⟩, h2⟩)
  refine ⟨str "[\"" ++ tag ++ str "\"," ++ time ++ str "," ++ ([123] ++ joined xs ++ [125]) ++ str "]", ?_, ?_⟩
  · unfold fluentd composeObject
    rw [h1]
    have : str "]\n" = str "]" ++ [10] := by decide +kernel
    simp only [Option.map_some, this, List.append_assoc]
  · simp only [List.mem_append, not_or]
    refine ⟨⟨⟨⟨⟨⟨by decide +kernel, ht⟩, by decide +kernel⟩, hm⟩, by decide +kernel⟩, ⟨⟨by decide, no_newline_joined xs h2⟩, by decide⟩⟩,
      by decide +kernel⟩

/-- C85, partial: what Fluentd reads is what was logged: an array of the tag, the time and the record, whose members are
the fields of the record.  Missing: values with a zero byte, values that are `true`, `false` or `null` in capitals, names
with quotes, backslashes or zero bytes (see C30). -/
theorem c85_fluentd_reads_partial (isFloat : Bytes → Bool) (hF : ∀ v, isFloat v = true → Number v) (white : List Bytes)
    (c : Ctx) (f : Fields) (params : Table) (tag : Bytes) (time : Nat) (ht : PlainName tag)
    (hp : ∀ e ∈ params, PlainName e.1) (hk : ∀ e ∈ record white c f params, Kept true e.2) :
    ∃ x o, fluentd isFloat tag (natDec time) (record white c f params) = some x ∧
      parseArray (str "null") x = .ok [tag, natDec time, o] ∧
      parseObject (str "null") o = .ok (record white c f params) := by
  have hn : ∀ e ∈ record white c f params, PlainName e.1 := by
    intro e he
    rcases record_names white c f params e he with h | ⟨e', h, h'⟩
    · revert h
      generalize e.1 = n
      revert n
      show ∀ n ∈ names, _
      unfold PlainName
      decide +kernel
    · rw [h']; exact hp e' h
  obtain ⟨o, h1, h2, h3, -⟩ := c30_object_partial isFloat hF true (record white c f params)
    (record_sorted white c f params) (fun e he => ⟨hn e he, hk e he⟩)
  refine ⟨_, o, by unfold fluentd; rw [h1]; rfl, ?_, h3⟩
  obtain ⟨hb, hu⟩ := plainName_read ht
  have e1 : Val (str "null") (34 :: (tag ++ [34])) tag := by
    have := Val.lit (nv := str "null") hb
    rw [hu] at this; exact this
  have e2 : Val (str "null") (natDec time) (natDec time) := by
    have := intDec_number (time : Int)
    have hd : intDec (time : Int) = natDec time := by
      unfold intDec
      rw [if_neg (by omega)]
      simp
    rw [hd] at this
    exact .num this
  have e3 : Val (str "null") o o := .obj h2
  have a := Arr.some (Elems.more (w := []) (w' := []) blank_nil e1 blank_nil
    (Elems.more (w := []) (w' := []) blank_nil e2 blank_nil (Elems.one (w := []) (w' := []) blank_nil e3 blank_nil)))
  have := c30_array_read (str "null") _ [] [10] _ a blank_nil (by intro x hx; simp at hx; subst hx; decide)
  rw [← this]
  have k1 : str "[\"" = [91, 34] := by decide +kernel
  have k2 : str "\"," = [34, 44] := by decide +kernel
  have k3 : str "," = [44] := by decide +kernel
  have k4 : str "]\n" = [93, 10] := by decide +kernel
  rw [k1, k2, k3, k4]
  simp

theorem find_foldl_other (g : Bytes × Bytes → Bytes) (params t : Table) (ht : t.Sorted) (n : Bytes)
    (h : ∀ e ∈ params, sToLower e.1 ≠ sToLower n) :
    (params.foldl (fun r e => r.set e.1 (g e)) t).find n = t.find n := by
  induction params generalizing t with
  | nil => rfl
  | cons x ps ih =>
    rw [List.foldl_cons, ih _ (Table.set_sorted _ _ ht) (fun e he => h e (List.mem_cons_of_mem _ he)),
      Table.find_set _ _ _ _ ht]
    have := h x (by simp)
    rw [if_neg]
    intro hx
    exact this hx.symm

/-- C85.  Every parameter of a call is in the record under its name, with its value or `<REDACTED>`; and the request,
the command and the other fields are there unless a parameter has that name. -/
theorem c85_record (white : List Bytes) (c : Ctx) (f : Fields) (params : Table) (hs : params.Sorted) :
    (∀ e ∈ params, (record white c f params).find e.1 = some (if e.1 ∈ white then e.2 else str "<REDACTED>")) ∧
    (∀ n v, (n, v) ∈ [(str "request_id", c.pre), (str "log_param", c.param), (str "command", c.cmd),
        (str "timestamp", f.timestamp), (str "type_tag", f.typeTag), (str "thread_name", f.threadName),
        (str "file", f.file), (str "line", f.line), (str "function", f.function), (str "message", f.message),
        (str "source", str "bedrock")] →
      (∀ e ∈ params, sToLower e.1 ≠ sToLower n) → (record white c f params).find n = some v) := by
  constructor
  · rw [record_eq]
    have hb := base_sorted c f
    generalize base c f = t at hb
    induction params generalizing t with
    | nil => intro e he; cases he
    | cons x ps ih =>
      obtain ⟨hx, hps⟩ := List.pairwise_cons.mp hs
      intro e he
      rcases List.mem_cons.mp he with rfl | he
      · rw [List.foldl_cons, find_foldl_other _ _ _ (Table.set_sorted _ _ hb), Table.find_set _ _ _ _ hb]
        · simp [keyLt_irrefl, redacted]
        · intro y hy k
          have := hx y hy
          have hk := (key_eq_iff y.1 e.1).mpr k
          rw [Bool.or_eq_false_iff] at hk
          rw [this] at hk
          cases hk.2
      · exact ih hps _ (Table.set_sorted _ _ hb) e he
  · intro n v hm hno
    rw [record_eq, find_foldl_other _ _ _ (base_sorted c f) _ hno]
    unfold base record
    simp only [List.foldl_nil]
    have hst : ∀ (n v : Bytes) (t : Table), t.Sorted → (Table.set n v t).Sorted := fun n v t h => Table.set_sorted n v h
    have h0 : Table.Sorted [] := List.Pairwise.nil
    simp only [List.mem_cons, List.not_mem_nil, or_false, Prod.mk.injEq] at hm
    have hs1 : ∀ {a b w : Bytes} {t : Table}, t.Sorted → (keyLt a b || keyLt b a) = true →
        (Table.set a w t).find b = t.find b := by
      intro a b w t h k
      rw [Table.find_set _ _ _ _ h, if_neg]
      intro hx
      rw [(key_eq_iff a b).mpr hx.symm] at k; cases k
    have hs2 : ∀ {a w : Bytes} {t : Table}, t.Sorted → (Table.set a w t).find a = some w := by
      intro a w t h
      rw [Table.find_set _ _ _ _ h, if_pos rfl]
    rcases hm with ⟨rfl, rfl⟩ | ⟨rfl, rfl⟩ | ⟨rfl, rfl⟩ | ⟨rfl, rfl⟩ | ⟨rfl, rfl⟩ | ⟨rfl, rfl⟩ | ⟨rfl, rfl⟩ | ⟨rfl, rfl⟩ |
      ⟨rfl, rfl⟩ | ⟨rfl, rfl⟩ | ⟨rfl, rfl⟩ <;>
    · repeat rw [hs1 (by first | exact h0 | (repeat apply Table.set_sorted; try exact h0)) (by decide +kernel)]
      rw [hs2 (by first | exact h0 | (repeat apply Table.set_sorted; try exact h0))]

/-- C85, where the code does otherwise: a parameter replaces a field of the record with the same name, so a parameter
`Timestamp` leaves a record without a time. -/
theorem c85_parameter_replaces_field :
    (record initial {} ⟨str "170", str "[info]", str "w", str "a.cpp", str "1", str "f", str "hello"⟩
      [(str "Timestamp", str "9")]).find (str "timestamp") = some (str "<REDACTED>") := by decide +kernel

/-! ## Sending records -/

theorem sendAll_spec (data : Bytes) (ns : List (Option Nat)) :
    (sendAll data ns).2 <+: data ∧ ((sendAll data ns).1 = true ↔ (sendAll data ns).2 = data) := by
  induction ns generalizing data with
  | nil =>
    unfold sendAll
    refine ⟨List.nil_prefix, ?_⟩
    cases data <;> simp
  | cons a ns ih =>
    unfold sendAll
    by_cases hd : data = []
    · rw [if_pos hd]; simp [hd]
    · rw [if_neg hd]
      cases a with
      | none => simp only; exact ⟨List.nil_prefix, by simp [Ne.symm hd]⟩
      | some k =>
        simp only
        generalize min (max k 1) data.length = j
        obtain ⟨h1, h2⟩ := ih (data.drop j)
        constructor
        · have := (List.prefix_append_right_inj (data.take j)).mpr h1
          rwa [List.take_append_drop] at this
        · rw [h2]
          constructor
          · intro h; rw [h, List.take_append_drop]
          · intro h
            have : data.take j ++ (sendAll (data.drop j) ns).2 = data.take j ++ data.drop j := by
              rw [h, List.take_append_drop]
            exact List.append_cancel_left this

/-- C85.  No record is lost and none is delivered twice: what is taken from the buffer is either written whole to a
connection, or is given to syslog and at most a proper part of it was written. -/
theorem c85_each_record_once (conn : Option Nat) (next : Nat) (jobs : List (Bytes × Answer)) :
    (sender conn next jobs).length = jobs.length ∧
    ∀ (j : Nat) r a d, jobs[j]? = some (r, a) → (sender conn next jobs)[j]? = some d → r ≠ [] →
      (d.syslog = false ∧ d.wrote = r ∨ d.syslog = true ∧ d.wrote <+: r ∧ d.wrote ≠ r) := by
  induction jobs generalizing conn next with
  | nil => exact ⟨rfl, by intro j r a d h; simp at h⟩
  | cons x jobs ih =>
    obtain ⟨rec, ans⟩ := x
    have key : ∃ d conn' next', sender conn next ((rec, ans) :: jobs) = d :: sender conn' next' jobs ∧
        (rec ≠ [] → (d.syslog = false ∧ d.wrote = rec ∨ d.syslog = true ∧ d.wrote <+: rec ∧ d.wrote ≠ rec)) := by
      obtain ⟨s1, s2⟩ := sendAll_spec rec ans.sends
      generalize hl : sender conn next ((rec, ans) :: jobs) = l
      unfold sender at hl
      subst hl
      dsimp only
      split
      · rename_i c _
        split
        · rename_i h
          refine ⟨_, _, _, rfl, ?_⟩
          intro _; exact .inl ⟨rfl, s2.mp h⟩
        · rename_i h
          refine ⟨_, _, _, rfl, ?_⟩
          intro _; exact .inr ⟨rfl, s1, fun k => h (s2.mpr k)⟩
      · refine ⟨_, _, _, rfl, ?_⟩
        intro h
        refine .inr ⟨?_, List.nil_prefix, Ne.symm h⟩
        cases rec with
        | nil => exact absurd rfl h
        | cons => rfl
    obtain ⟨d, c', n', he, hd⟩ := key
    rw [he]
    obtain ⟨h1, h2⟩ := ih c' n'
    refine ⟨by simp [h1], ?_⟩
    intro j r a d' hj hd'
    cases j with
    | zero =>
      simp only [List.getElem?_cons_zero, Option.some.injEq, Prod.mk.injEq] at hj hd'
      obtain ⟨rfl, rfl⟩ := hj
      subst hd'
      exact hd
    | succ j =>
      simp only [List.getElem?_cons_succ] at hj hd'
      exact h2 j r a d' hj hd'

theorem sender_ge (conn : Option Nat) (next : Nat) (jobs : List (Bytes × Answer)) :
    ∀ d ∈ sender conn next jobs, d.wrote = [] ∨ conn = some d.conn ∨ next ≤ d.conn := by
  induction jobs generalizing conn next with
  | nil => intro d hd; cases hd
  | cons x jobs ih =>
    obtain ⟨rec, ans⟩ := x
    intro d hd
    unfold sender at hd
    dsimp only at hd
    cases conn with
    | some c =>
      dsimp only at hd
      split at hd
      · rcases List.mem_cons.mp hd with rfl | hd
        · exact .inr (.inl rfl)
        · exact ih _ _ d hd
      · rcases List.mem_cons.mp hd with rfl | hd
        · exact .inr (.inl rfl)
        · rcases ih _ _ d hd with h | h | h
          · exact .inl h
          · cases h
          · exact .inr (.inr h)
    | none =>
      cases hc : ans.connects with
      | true =>
        simp only [hc, if_true] at hd
        split at hd
        · rcases List.mem_cons.mp hd with rfl | hd
          · exact .inr (.inr (Nat.le_refl _))
          · rcases ih _ _ d hd with h | h | h
            · exact .inl h
            · injection h with h; exact .inr (.inr (by omega))
            · exact .inr (.inr (by omega))
        · rcases List.mem_cons.mp hd with rfl | hd
          · exact .inr (.inr (Nat.le_refl _))
          · rcases ih _ _ d hd with h | h | h
            · exact .inl h
            · cases h
            · exact .inr (.inr (by omega))
      | false =>
        simp only [hc, Bool.false_eq_true, if_false] at hd
        rcases List.mem_cons.mp hd with rfl | hd
        · exact .inl rfl
        · exact ih _ _ d hd

theorem sender_tail (c next : Nat) (jobs : List (Bytes × Answer)) (hc : c < next) :
    ∀ d ∈ sender none next jobs, d.conn = c → d.wrote = [] := by
  intro d hd hdc
  rcases sender_ge none next jobs d hd with h | h | h
  · exact h
  · cases h
  · omega

theorem sender_stream (conn : Option Nat) (next : Nat) (hc : ∀ c ∈ conn, c < next) (jobs : List (Bytes × Answer))
    (i j : Nat) (d e : Done) (hi : (sender conn next jobs)[i]? = some d) (hj : (sender conn next jobs)[j]? = some e)
    (hij : i < j) (hde : d.conn = e.conn) (hs : d.syslog = true) : e.wrote = [] ∨ d.wrote = [] := by
  induction jobs generalizing conn next i j with
  | nil => simp [sender] at hi
  | cons x jobs ih =>
    obtain ⟨rec, ans⟩ := x
    obtain ⟨j, rfl⟩ : ∃ k, j = k + 1 := ⟨j - 1, by omega⟩
    unfold sender at hi hj
    dsimp only at hi hj
    cases conn with
    | some c =>
      have hcn := hc c rfl
      dsimp only at hi hj
      split at hi
      · rename_i h
        rw [if_pos h] at hj
        rw [List.getElem?_cons_succ] at hj
        cases i with
        | zero =>
          rw [List.getElem?_cons_zero] at hi
          injection hi with hi
          rw [← hi] at hs; cases hs
        | succ i =>
          rw [List.getElem?_cons_succ] at hi
          exact ih (some c) next (by intro c' h; injection h with h; omega) i j hi hj (by omega)
      · rename_i h
        rw [if_neg h] at hj
        rw [List.getElem?_cons_succ] at hj
        cases i with
        | zero =>
          rw [List.getElem?_cons_zero] at hi
          injection hi with hi
          exact .inl (sender_tail c next jobs hcn e (List.mem_of_getElem? hj) (by rw [← hde, ← hi]))
        | succ i =>
          rw [List.getElem?_cons_succ] at hi
          exact ih none next (by intro c' h; cases h) i j hi hj (by omega)
    | none =>
      cases hcn : ans.connects with
      | true =>
        simp only [hcn, if_true] at hi hj
        split at hi
        · rename_i h
          rw [if_pos h] at hj
          rw [List.getElem?_cons_succ] at hj
          cases i with
          | zero =>
            rw [List.getElem?_cons_zero] at hi
            injection hi with hi
            rw [← hi] at hs; cases hs
          | succ i =>
            rw [List.getElem?_cons_succ] at hi
            exact ih (some next) (next + 1) (by intro c' h; injection h with h; omega) i j hi hj (by omega)
        · rename_i h
          rw [if_neg h] at hj
          rw [List.getElem?_cons_succ] at hj
          cases i with
          | zero =>
            rw [List.getElem?_cons_zero] at hi
            injection hi with hi
            exact .inl (sender_tail next (next + 1) jobs (by omega) e (List.mem_of_getElem? hj) (by rw [← hde, ← hi]))
          | succ i =>
            rw [List.getElem?_cons_succ] at hi
            exact ih none (next + 1) (by intro c' h; cases h) i j hi hj (by omega)
      | false =>
        simp only [hcn, Bool.false_eq_true, if_false] at hi hj
        rw [List.getElem?_cons_succ] at hj
        cases i with
        | zero =>
          rw [List.getElem?_cons_zero] at hi
          injection hi with hi
          exact .inr (by rw [← hi])
        | succ i =>
          rw [List.getElem?_cons_succ] at hi
          exact ih none next (by intro c' h; cases h) i j hi hj (by omega)

/-- C85.  Records do not run into each other: after a record that was cut short nothing more is written to that
connection.  So a reader of a connection sees whole records, and at most one part of a record at the very end. -/
theorem c85_whole_records (jobs : List (Bytes × Answer)) (i j : Nat) (d e : Done)
    (hi : (sender none 0 jobs)[i]? = some d) (hj : (sender none 0 jobs)[j]? = some e) (hij : i < j)
    (hc : d.conn = e.conn) (hs : d.syslog = true) (hw : d.wrote ≠ []) : e.wrote = [] :=
  (sender_stream none 0 (by intro c h; cases h) jobs i j d e hi hj hij hc hs).resolve_right hw

example : sender none 0 [(str "aaaa\n", ⟨true, [some 2, some 3]⟩), (str "bbbb\n", ⟨true, [some 2, none]⟩),
      (str "cccc\n", ⟨false, []⟩), (str "dddd\n", ⟨true, [some 5]⟩)] =
    [⟨0, str "aaaa\n", false⟩, ⟨0, str "bb", true⟩, ⟨1, [], true⟩, ⟨1, str "dddd\n", false⟩] := by decide +kernel

/-! ## The list -/

structure WInv (w : White) : Prop where
  fresh : w.version < w.next
  held : ∀ i c, w.calls i = some c → c.version < w.next ∧ c.snap ⊆ w.set ∧ (c.version = w.version → c.snap = w.set)
  done' : ∀ a ∈ w.finished, a ⊆ w.set

theorem winv_step {w : White} (h : WInv w) (e : WEv) : WInv (w.step e) ∧ w.set ⊆ (w.step e).set := by
  cases e with
  | start i adds =>
    unfold White.step
    cases hc : w.calls i with
    | some c => simp only [hc]; exact ⟨h, fun _ h => h⟩
    | none =>
      simp only [hc]
      refine ⟨⟨h.fresh, ?_, h.done'⟩, fun _ h => h⟩
      intro j c hj
      simp only [White.put] at hj
      split at hj
      · injection hj with hj; subst hj; exact ⟨h.fresh, fun _ h => h, fun _ => rfl⟩
      · exact h.held j c hj
  | exchange i =>
    unfold White.step
    cases hc : w.calls i with
    | none => simp only [hc]; exact ⟨h, fun _ h => h⟩
    | some c =>
      simp only [hc]
      obtain ⟨h1, h2, h3⟩ := h.held i c hc
      by_cases hv : c.version = w.version
      · rw [if_pos hv]
        have hs : w.set ⊆ c.snap ++ c.adds := by rw [h3 hv]; exact List.subset_append_left _ _
        refine ⟨⟨Nat.lt_succ_self _, ?_, ?_⟩, hs⟩
        · intro j c' hj
          simp only [White.put] at hj
          split at hj
          · cases hj
          · obtain ⟨k1, k2, k3⟩ := h.held j c' hj
            refine ⟨Nat.lt_succ_of_lt k1, fun x hx => hs (k2 hx), fun k => ?_⟩
            have k : c'.version = w.next := k
            omega
        · intro a ha
          rcases List.mem_cons.mp ha with rfl | ha
          · exact List.subset_append_right _ _
          · exact fun x hx => hs (h.done' a ha hx)
      · rw [if_neg hv]
        refine ⟨⟨h.fresh, ?_, h.done'⟩, fun _ h => h⟩
        intro j c' hj
        simp only [White.put] at hj
        split at hj
        · injection hj with hj; subst hj; exact ⟨h.fresh, fun _ h => h, fun _ => rfl⟩
        · exact h.held j c' hj

theorem winv_start : WInv {} := ⟨by decide, (by intro i c h; cases h), (by intro a h; cases h)⟩

theorem winv_run {w : White} (h : WInv w) (es : List WEv) : WInv (w.run es) ∧ w.set ⊆ (w.run es).set := by
  induction es generalizing w with
  | nil => exact ⟨h, fun _ h => h⟩
  | cons e es ih =>
    obtain ⟨h1, h2⟩ := winv_step h e
    obtain ⟨h3, h4⟩ := ih h1
    exact ⟨h3, fun x hx => h4 (h2 hx)⟩

/-- C85.  Whatever threads add to the list at the same time: a name once on the list stays, and the names of a call that
has returned are on it. -/
theorem c85_list_only_grows (es es' : List WEv) (a : List Bytes) (n : Bytes) :
    (n ∈ (White.run {} es).set → n ∈ (White.run {} (es ++ es')).set) ∧
    (a ∈ (White.run {} es).finished → n ∈ a → n ∈ (White.run {} (es ++ es')).set) := by
  obtain ⟨h1, -⟩ := winv_run winv_start es
  have e : White.run {} (es ++ es') = (White.run {} es).run es' := by simp [White.run, List.foldl_append]
  rw [e]
  obtain ⟨-, h3⟩ := winv_run h1 es'
  exact ⟨fun h => h3 h, fun ha hn => h3 (h1.done' a ha hn)⟩

theorem only_requested (w : White) (es : List WEv) (S : List Bytes) (hs : w.set ⊆ S)
    (hc : ∀ i c, w.calls i = some c → c.snap ⊆ S ∧ c.adds ⊆ S)
    (he : ∀ i adds, WEv.start i adds ∈ es → adds ⊆ S) : (w.run es).set ⊆ S := by
  induction es generalizing w with
  | nil => exact hs
  | cons e es ih =>
    have hes : ∀ i adds, WEv.start i adds ∈ es → adds ⊆ S := fun i a h => he i a (List.mem_cons_of_mem _ h)
    refine ih (w.step e) ?_ ?_ hes
    · cases e with
      | start i adds =>
        unfold White.step
        dsimp only
        split <;> exact hs
      | exchange i =>
        unfold White.step
        dsimp only
        split
        · exact hs
        · rename_i c hci
          split
          · exact List.append_subset.mpr (hc i c hci)
          · exact hs
    · intro j c' hj
      cases e with
      | start i adds =>
        unfold White.step at hj
        dsimp only at hj
        split at hj
        · simp only [White.put] at hj
          split at hj
          · injection hj with hj; subst hj
            exact ⟨hs, he i adds (by simp)⟩
          · exact hc j c' hj
        · exact hc j c' hj
      | exchange i =>
        unfold White.step at hj
        dsimp only at hj
        split at hj
        · exact hc j c' hj
        · rename_i c hci
          split at hj
          · simp only [White.put] at hj
            split at hj
            · cases hj
            · exact hc j c' hj
          · simp only [White.put] at hj
            split at hj
            · injection hj with hj; subst hj
              exact ⟨hs, (hc i c hci).2⟩
            · exact hc j c' hj

/-- C85.  No name gets on the list that was not there at the start and that nobody asked for. -/
theorem c85_list_only_what_was_asked (es : List WEv) (n : Bytes) (h : n ∈ (White.run {} es).set) :
    n ∈ initial ∨ ∃ i adds, WEv.start i adds ∈ es ∧ n ∈ adds := by
  have := only_requested {} es (initial ++ es.flatMap (fun e => match e with | .start _ a => a | _ => []))
    (List.subset_append_left _ _) (by intro i c h; cases h)
    (by
      intro i adds hm x hx
      exact List.mem_append_right _ (List.mem_flatMap.mpr ⟨_, hm, hx⟩)) h
  rcases List.mem_append.mp this with h | h
  · exact .inl h
  · obtain ⟨e, he, hx⟩ := List.mem_flatMap.mp h
    cases e with
    | start i a => exact .inr ⟨i, a, he, hx⟩
    | exchange i => cases hx

/-- C85.  A call fails to put its names on the list only if another one has succeeded since it last looked: tried twice
with nothing in between, it returns. -/
theorem c85_list_progress (w : White) (i : Nat) (c : Call) (h : w.calls i = some c) :
    ((w.step (.exchange i)).step (.exchange i)).calls i = none ∧
    ((w.step (.exchange i)).calls i ≠ none → c.version ≠ w.version) := by
  by_cases hv : c.version = w.version
  · have e : (w.step (.exchange i)).calls i = none := by simp [White.step, h, hv, White.put]
    refine ⟨?_, fun k => absurd e k⟩
    generalize w.step (.exchange i) = w' at e
    simp [White.step, e]
  · refine ⟨?_, fun _ => hv⟩
    simp [White.step, h, hv, White.put]

example : (White.run {} [.start 0 [str "a"], .start 1 [str "b"], .exchange 1, .exchange 0, .exchange 0]).finished
    = [[str "a"], [str "b"]] := by decide +kernel

end Bedrock.Log.Props
