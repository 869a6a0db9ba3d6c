import Verif.Props.Http
import Verif.Props.Text
import Verif.Spec.HttpBody

/-!
# Properties of cookies and chunked bodies: C78, C79; refused method lines (C24)
-/

namespace Bedrock.Http.Props
open Bedrock.Text Bedrock.Http

/-! ## C24: method lines that would forge lines -/

/-- C24.  A method line with a control character other than tab, in particular with a line break,
is refused whatever else the message holds; every other one is composed. -/
theorem c24_method_line_refused (gz : Bytes → Bytes) (m : Msg) :
    compose gz m = none ↔ ∃ c ∈ m.methodLine, c ≠ 9 ∧ (c < 32 ∨ c = 127) := by
  unfold compose
  have key : ∀ c : UInt8, badMethodChar c = true ↔ c ≠ 9 ∧ (c < 32 ∨ c = 127) :=
    forall_u8 (by decide +kernel)
  by_cases h : m.methodLine.any badMethodChar = true
  · rw [if_pos h]
    obtain ⟨c, hc, hb⟩ := List.any_eq_true.mp h
    exact ⟨fun _ => ⟨c, hc, (key c).mp hb⟩, fun _ => rfl⟩
  · rw [if_neg h]
    refine ⟨fun e => by simp at e, ?_⟩
    rintro ⟨c, hc, hb⟩
    exact absurd (List.any_eq_true.mpr ⟨c, hc, (key c).mpr hb⟩) h

example : compose id { methodLine := str "200 OK\nX: y" } = none := by decide +kernel
example : compose id { methodLine := str "GET\t/" } ≠ none := by decide +kernel

/-! ## Messages as lines -/

theorem goodMsg_of_method {ml : Bytes} (h : Spec.GoodMethod ml) : Spec.GoodMsg { methodLine := ml } :=
  ⟨h, by simp, by simp, by simp⟩

/-- After the method line and the header lines. -/
theorem parse_head (ml : Bytes) (hm : Spec.GoodMethod ml) (ls : List Bytes) (hl : ∀ l ∈ ls, Line l)
    (rest : Bytes) (total : Nat) :
    run total {} (ml ++ crlf ++ (ls.flatMap (fun l => l ++ crlf) ++ rest)) =
      run total (ls.foldl headerLine { methodLine := ml }) rest := by
  obtain ⟨h1, h2, h3⟩ := method_line { methodLine := ml } (goodMsg_of_method hm)
  rw [run_line total {} ml _ h1 rfl (.inr h2)]
  have ea : advance {} ml = { methodLine := ml } := by
    unfold advance; rw [if_pos rfl, h3]
  rw [ea, run_lines total _ _ _ hl rfl hm.nonempty]

theorem parse_text (ml : Bytes) (hm : Spec.GoodMethod ml) (ls : List Bytes) (hl : ∀ l ∈ ls, Line l)
    (T : Table) (nm : Bytes)
    (hst : ls.foldl headerLine { methodLine := ml } = { methodLine := ml, table := T, name := nm })
    (hte : ∀ v, T.find sTransferEncoding = some v → sIEquals v sChunked = false)
    (content rest : Bytes) (hcl : T.find sContentLength = some (natDec content.length))
    (hs : content.length < 2 ^ 31) :
    parse (ml ++ crlf ++ (ls.flatMap (fun l => l ++ crlf) ++ (crlf ++ content)) ++ rest) =
      .ok (ml ++ crlf ++ (ls.flatMap (fun l => l ++ crlf) ++ (crlf ++ content))).length
        { methodLine := ml, table := T, content := content } := by
  have e0 : ml ++ crlf ++ (ls.flatMap (fun l => l ++ crlf) ++ (crlf ++ content)) ++ rest =
      ml ++ crlf ++ (ls.flatMap (fun l => l ++ crlf) ++ (crlf ++ (content ++ rest))) := by
    simp only [List.append_assoc]
  unfold parse
  generalize ht : (ml ++ crlf ++ (ls.flatMap (fun l => l ++ crlf) ++ (crlf ++ content)) ++ rest).length = total
  rw [e0, parse_head ml hm ls hl, hst]
  have hb : onInput total { methodLine := ml, table := T, name := nm } (crlf ++ (content ++ rest)) =
      .stop (finish total { methodLine := ml, table := T, name := nm } (crlf ++ (content ++ rest))) := by
    unfold onInput
    have e := takeWhile_line (l := []) (by simp) 13 (10 :: (content ++ rest)) (by decide)
    simp only [List.nil_append] at e
    have ec : crlf ++ (content ++ rest) = 13 :: 10 :: (content ++ rest) := rfl
    rw [ec]
    simp only [e.1, e.2]
    rw [if_neg (by simp)]
    simp only [if_true]
    unfold onBlank
    simp only
    rw [if_neg hm.nonempty]
    simp only [Bool.false_eq_true, if_false]
    cases hf : T.find sTransferEncoding with
    | none => rfl
    | some v => simp [hte v hf]
  rw [run_stop (by simp [crlf]) hb]
  unfold finish
  have et : eatTwo (crlf ++ (content ++ rest)) = content ++ rest := by
    simp [crlf, eatTwo, isEol]
  simp only [et, hcl]
  rw [stoll_natDec _ (by omega)]
  simp only
  rw [toInt32_small _ hs, if_neg (by simp only [List.length_append]; omega), if_neg (by omega)]
  have hlen : total - (content ++ rest).length + content.length =
      (ml ++ crlf ++ (ls.flatMap (fun l => l ++ crlf) ++ (crlf ++ content))).length := by
    rw [← ht]; simp only [List.length_append]; omega
  simp only [Int.toNat_natCast, List.take_left]
  rw [hlen]

/-! ## C78: cookies -/

def cookieLine (c : Bytes) : Bytes := sSetCookie ++ sColon ++ c

theorem goodName_cookie : Spec.GoodName sSetCookie := by
  refine ⟨by decide +kernel, by decide +kernel, by decide +kernel, by decide +kernel, ?_, by decide +kernel⟩
  intro c hc
  have : c = 83 := by
    have h : sSetCookie.head? = some 83 := by decide +kernel
    rw [h] at hc; injection hc with hc; exact hc.symm
  subst this; decide

theorem cookieLine_line {c : Bytes} (h : Spec.GoodCookie c) : Line (cookieLine c) := by
  refine ⟨by unfold cookieLine; simp [goodName_cookie.nonempty], ?_⟩
  intro x hx
  unfold cookieLine at hx
  rw [List.mem_append] at hx
  have k : ∀ x ∈ sSetCookie ++ sColon, isEol x = false := by decide +kernel
  rcases hx with hx | hx
  · exact k x hx
  · have := h.plain x hx
    simp [isEol, this.1, this.2.1]

theorem unescape_plain {c : Bytes} (h : 92 ∉ c) (h0 : 0 ∉ c) : unescape c 92 = c := by
  unfold unescape
  rw [cstr_eq h0]
  induction c with
  | nil => simp [unescapeGo]
  | cons x c ih =>
    rw [unescapeGo_cons_ne _ _ _ (fun e => h (by simp [e])),
      ih (fun e => h (by simp [e])) (fun e => h0 (by simp [e]))]

/-- What a cookie line does. -/
theorem headerLine_cookie (st : St) (c : Bytes) (h : Spec.GoodCookie c) :
    headerLine st (cookieLine c) =
      { st with name := sSetCookie
                table := match st.table.find sSetCookie with
                  | some old => st.table.set sSetCookie (old ++ [cookieSep] ++ c)
                  | none => st.table.set sSetCookie (unescape c 92) } := by
  have hsp : isSpace ((cookieLine c).headD 0) = false := by
    have : (cookieLine c).headD 0 = 83 := by
      unfold cookieLine
      have : sSetCookie = 83 :: sSetCookie.tail := by decide +kernel
      rw [this]; rfl
    rw [this]; decide
  have hcol : sColon = [58, 32] := by decide +kernel
  have htk : (cookieLine c).takeWhile (· ≠ 58) = sSetCookie ∧
      (cookieLine c).dropWhile (· ≠ 58) = 58 :: 32 :: c := by
    unfold cookieLine
    rw [hcol, List.append_assoc]
    have hp : ∀ x ∈ sSetCookie, decide (x ≠ 58) = true := by decide +kernel
    constructor
    · rw [List.takeWhile_append_of_pos hp]; simp
    · rw [List.dropWhile_append_of_pos hp]; simp
  unfold headerLine
  rw [hsp]
  simp only [Bool.false_eq_true, if_false]
  rw [htk.1, htk.2, trimEndSp_id goodName_cookie.stop]
  simp only [if_pos goodName_cookie.nonempty]
  have htr : trimSp ((58 :: 32 :: c).drop 1) = c := by
    have : trimSp ((58 :: 32 :: c).drop 1) = trimSp c := by simp [trimSp]
    rw [this, trimSp_id h.start h.stop]
  rw [htr, show sIEquals sSetCookie sSetCookie = true by decide +kernel]
  simp only [if_true]
  cases st.table.find sSetCookie <;> rfl

theorem find_snoc (T : Table) (n v : Bytes) (h : ∀ e ∈ T, keyLt e.1 n = true) :
    Table.find n (T ++ [(n, v)]) = some v := by
  induction T with
  | nil => simp [Table.find, keyLt_irrefl]
  | cons e T ih =>
    rw [List.cons_append, Table.find, if_pos (by simp [h e (by simp)])]
    exact ih (fun x hx => h x (by simp [hx]))

theorem set_snoc (T : Table) (n v w : Bytes) (h : ∀ e ∈ T, keyLt e.1 n = true) :
    Table.set n w (T ++ [(n, v)]) = T ++ [(n, w)] := by
  induction T with
  | nil => simp [Table.set, keyLt_irrefl]
  | cons e T ih =>
    rw [List.cons_append, Table.set, if_neg (by rw [keyLt_asymm (h e (by simp))]; decide),
      if_pos (h e (by simp)), ih (fun x hx => h x (by simp [hx]))]
    rfl

theorem find_none_of_lt (T : Table) (n : Bytes) (h : ∀ e ∈ T, keyLt e.1 n = true) :
    Table.find n T = none := by
  induction T with
  | nil => rfl
  | cons e T ih =>
    rw [Table.find, if_pos (by simp [h e (by simp)])]
    exact ih (fun x hx => h x (by simp [hx]))

theorem foldl_later (st : St) (T : Table) (v : Bytes) (cs : List Bytes)
    (hT : ∀ e ∈ T, keyLt e.1 sSetCookie = true) (hst : st.table = T ++ [(sSetCookie, v)])
    (hn : st.name = sSetCookie) (h : ∀ c ∈ cs, Spec.GoodCookie c) :
    (cs.map cookieLine).foldl headerLine st =
      { st with table := T ++ [(sSetCookie, v ++ cs.flatMap (fun c => [cookieSep] ++ c))] } := by
  induction cs generalizing st v with
  | nil => simp [← hst]
  | cons c cs ih =>
    simp only [List.map_cons, List.foldl_cons]
    rw [headerLine_cookie st c (h c (by simp)), hst, find_snoc T _ _ hT]
    simp only
    rw [set_snoc T _ _ _ hT]
    rw [ih _ (v ++ [cookieSep] ++ c) rfl rfl (fun x hx => h x (by simp [hx]))]
    simp [hn]

/-- All cookie lines of a message. -/
theorem foldl_cookies (st : St) (c : Bytes) (cs : List Bytes)
    (hT : ∀ e ∈ st.table, keyLt e.1 sSetCookie = true) (h : ∀ x ∈ c :: cs, Spec.GoodCookie x)
    (hb : 92 ∉ c) :
    ((c :: cs).map cookieLine).foldl headerLine st =
      { st with name := sSetCookie
                table := st.table ++ [(sSetCookie, composeList (c :: cs) [cookieSep])] } := by
  simp only [List.map_cons, List.foldl_cons]
  have hc := h c (by simp)
  rw [headerLine_cookie st c hc, find_none_of_lt _ _ hT]
  simp only
  rw [unescape_plain hb (fun e => (hc.plain 0 e).2.2.1 rfl), Table.set_append _ _ _ hT]
  rw [foldl_later _ st.table c cs hT rfl rfl (fun x hx => h x (by simp [hx])), composeList_cons]

/-- A message with cookies: they are one entry of the table, joined by the byte 255. -/
structure CookieMsg (m : Msg) (pre post : Table) (c : Bytes) (cs : List Bytes) : Prop where
  table : m.table = pre ++ (str "Set-Cookie", composeList (c :: cs) [255]) :: post
  method : Spec.GoodMethod m.methodLine
  ordinary : ∀ e ∈ pre ++ post, Spec.Ordinary e
  sorted : m.table.Pairwise (fun a b => keyLt a.1 b.1 = true)
  small : m.content.length < 2 ^ 31
  cookies : ∀ x ∈ c :: cs, Spec.GoodCookie x

theorem joined_parsed {c : Bytes} {cs : List Bytes} (h : ∀ x ∈ c :: cs, Spec.GoodCookie x) :
    (parseList (composeList (c :: cs) [255]) 255).1 = c :: cs := by
  have := Bedrock.Text.Props.c29_round_trip (c :: cs) 255 0 (by decide) (by
    intro e he
    have g := h e he
    exact ⟨g.nonempty, g.start, fun x => (g.plain _ x).2.2.2 rfl, fun x => (g.plain _ x).2.2.1 rfl⟩)
  simpa using this

theorem compose_cookies (gz : Bytes → Bytes) (m : Msg) (pre post : Table) (c : Bytes) (cs : List Bytes)
    (h : CookieMsg m pre post c cs) :
    compose gz m = some (m.methodLine ++ crlf ++ (((sent pre).map (fun e => entryLine e.1 e.2) ++
      ((c :: cs).map cookieLine ++ ((sent post).map (fun e => entryLine e.1 e.2) ++
      [entryLine sContentLength (natDec m.content.length)]))).flatMap (fun l => l ++ crlf) ++ (crlf ++ m.content))) := by
  have h1 : m.methodLine.any badMethodChar = false := by
    rw [List.any_eq_false]
    intro c hc
    have := h.method.noControl c hc
    have key : ∀ c : UInt8, (c = 9 ∨ (32 ≤ c ∧ c ≠ 127)) → ¬ badMethodChar c = true :=
      forall_u8 (by decide +kernel)
    exact key c this
  have h2 : m.table.any wantsGzip = false := by
    rw [List.any_eq_false]
    intro e he
    rw [h.table] at he
    have key : ∀ v, wantsGzip (str "Set-Cookie", v) = false := by
      intro v
      unfold wantsGzip
      rw [show sIEquals sSetCookie (str "Set-Cookie") = true by decide +kernel]
      rfl
    simp only [List.mem_append, List.mem_cons] at he
    rcases he with he | rfl | he
    · rw [not_wantsGzip (h.ordinary e (by simp [he]))]; decide
    · rw [key]; decide
    · rw [not_wantsGzip (h.ordinary e (by simp [he]))]; decide
  have h3 : composeEntry (str "Set-Cookie", composeList (c :: cs) [255]) =
      ((c :: cs).map cookieLine).flatMap (fun l => l ++ crlf) := by
    unfold composeEntry
    rw [if_pos (show sIEquals sSetCookie (str "Set-Cookie") = true by decide +kernel)]
    show (parseList (composeList (c :: cs) [255]) 255).1.flatMap _ = _
    rw [joined_parsed h.cookies, List.flatMap_map]
    rfl
  unfold compose
  rw [h1, h2]
  simp only [Bool.false_eq_true, if_false, Bool.false_and, ne_eq, not_true_eq_false]
  rw [h.table, List.flatMap_append, List.flatMap_cons, h3,
    flatMap_composeEntry pre (fun e he => h.ordinary e (by simp [he])),
    flatMap_composeEntry post (fun e he => h.ordinary e (by simp [he]))]
  simp only [List.flatMap_append, List.flatMap_cons, List.flatMap_nil, entryLine, escape_natDec, List.append_assoc,
    List.append_nil]

theorem carried_joined {c : Bytes} {cs : List Bytes} (h : ∀ x ∈ c :: cs, Spec.GoodCookie x) :
    Spec.carried (composeList (c :: cs) [255]) = composeList (c :: cs) [255] := by
  apply carried_good
  have hc := h c (by simp)
  rw [composeList_cons]
  refine ⟨?_, ?_, ?_⟩
  · intro hx
    simp only [List.mem_append, List.mem_flatMap, List.mem_singleton] at hx
    rcases hx with hx | ⟨d, hd, hx | hx⟩
    · exact (hc.plain 0 hx).2.2.1 rfl
    · revert hx; decide
    · exact ((h d (by simp [hd])).plain 0 hx).2.2.1 rfl
  · cases c with
    | nil => exact absurd rfl hc.nonempty
    | cons x c => simpa using hc.start
  · cases hl : cs.reverse with
    | nil =>
      have : cs = [] := by simpa using hl
      subst this
      simpa using hc.stop
    | cons d r =>
      have e : cs = r.reverse ++ [d] := by
        have := congrArg List.reverse hl
        simpa using this
      have hd := h d (by rw [e]; simp)
      subst e
      rw [List.flatMap_append]
      simp only [List.flatMap_cons, List.flatMap_nil, List.append_nil]
      have hdne := hd.nonempty
      rw [← List.append_assoc, ← List.append_assoc, List.getLast?_append, Option.or_of_isSome (by
        cases hg : d.getLast? with
        | none => exact absurd (List.getLast?_eq_none_iff.mp hg) hdne
        | some x => rfl)]
      exact hd.stop

/-- The table that arrives with the cookies in it. -/
def cookieTable (m : Msg) (pre post : Table) (c : Bytes) (cs : List Bytes) : Table :=
  Table.set sContentLength (natDec m.content.length)
    ((sent (pre ++ (sSetCookie, composeList (c :: cs) [255]) :: post)).map (fun e => (e.1, Spec.carried e.2)))

theorem sent_cookie (pre post : Table) (v : Bytes) :
    sent (pre ++ (sSetCookie, v) :: post) = sent pre ++ (sSetCookie, v) :: sent post := by
  unfold sent
  rw [List.filter_append, List.filter_cons]
  rw [if_pos (show (!sIEquals sContentLength sSetCookie) = true by decide +kernel)]

theorem foldl_cookieMsg (m : Msg) (pre post : Table) (c : Bytes) (cs : List Bytes)
    (h : CookieMsg m pre post c cs) (hb : 92 ∉ c) :
    ∃ nm, ((sent pre).map (fun e => entryLine e.1 e.2) ++
      ((c :: cs).map cookieLine ++ ((sent post).map (fun e => entryLine e.1 e.2) ++
      [entryLine sContentLength (natDec m.content.length)]))).foldl headerLine { methodLine := m.methodLine } =
      { methodLine := m.methodLine, table := cookieTable m pre post c cs, name := nm } := by
  have hsort : Table.Sorted (sent pre ++ (sSetCookie, composeList (c :: cs) [255]) :: sent post) := by
    rw [← sent_cookie]
    apply sent_sorted
    have := h.sorted
    rw [h.table] at this
    exact this
  have hpre := (List.pairwise_append.mp hsort).1
  have hlt : ∀ e ∈ sent pre, keyLt e.1 sSetCookie = true := by
    intro e he
    exact (List.pairwise_append.mp hsort).2.2 e he (sSetCookie, composeList (c :: cs) [255]) (List.mem_cons_self)
  rw [List.foldl_append, List.foldl_append, List.foldl_append]
  obtain ⟨n1, e1⟩ := foldl_headerLine { methodLine := m.methodLine } (sent pre) (by
    intro e he
    have := h.ordinary e (List.mem_append_left _ (List.mem_filter.mp he).1)
    exact ⟨this.name, this.notCookie⟩)
  rw [e1, foldl_set_sorted [] (sent pre) hpre, List.nil_append]
  rw [foldl_cookies _ c cs (by
    intro e he
    simp only [List.mem_map] at he
    obtain ⟨x, hx, rfl⟩ := he
    exact hlt x hx) h.cookies hb]
  obtain ⟨n2, e2⟩ := foldl_headerLine
    { methodLine := m.methodLine, name := sSetCookie
      table := (sent pre).map (fun e => (e.1, Spec.carried e.2)) ++ [(sSetCookie, composeList (c :: cs) [cookieSep])] }
    (sent post) (by
    intro e he
    have := h.ordinary e (List.mem_append_right _ (List.mem_filter.mp he).1)
    exact ⟨this.name, this.notCookie⟩)
  simp only at e2 ⊢
  rw [e2, foldl_set_sorted _ (sent post) (by
    have : (sent pre).map (fun e => (e.1, Spec.carried e.2)) ++ [(sSetCookie, composeList (c :: cs) [cookieSep])] ++
        sent post = (sent pre).map (fun e => (e.1, Spec.carried e.2)) ++
        (sSetCookie, composeList (c :: cs) [255]) :: sent post := by simp [cookieSep]
    rw [this]
    unfold Table.Sorted at hsort ⊢
    rw [List.pairwise_append] at hsort ⊢
    refine ⟨by rw [List.pairwise_map]; exact hsort.1, hsort.2.1, ?_⟩
    intro a ha b hb
    rw [List.mem_map] at ha
    obtain ⟨x, hx, rfl⟩ := ha
    exact hsort.2.2 x hx b hb)]
  simp only [List.foldl_cons, List.foldl_nil]
  rw [headerLine_entry _ _ _ goodName_contentLength (by unfold Spec.sameName; decide +kernel)]
  refine ⟨sContentLength, ?_⟩
  simp only
  rw [carried_natDec]
  unfold cookieTable
  rw [sent_cookie, List.map_append, List.map_cons]
  simp only [carried_joined h.cookies, cookieSep, List.append_assoc, List.singleton_append]

theorem cookie_base_sorted (m : Msg) (pre post : Table) (c : Bytes) (cs : List Bytes)
    (h : CookieMsg m pre post c cs) :
    Table.Sorted ((sent (pre ++ (sSetCookie, composeList (c :: cs) [255]) :: post)).map (fun e => (e.1, Spec.carried e.2))) := by
  have : Table.Sorted (sent (pre ++ (sSetCookie, composeList (c :: cs) [255]) :: post)) := by
    apply sent_sorted
    have := h.sorted
    rw [h.table] at this
    exact this
  unfold Table.Sorted at this ⊢
  rw [List.pairwise_map]
  exact this

/-- C78.  A message with any number of cookies arrives with all of them, each whole and in order, and
with its method line, its content and its other headers; whatever follows is left alone.  The
first cookie must not contain a backslash (`c78_first_backslash`); a cookie with a line break forges
headers (`c24_cookie_injects`). -/
theorem c78_round_trip_partial (gz : Bytes → Bytes) (m : Msg) (pre post : Table) (c : Bytes) (cs : List Bytes)
    (h : CookieMsg m pre post c cs) (hv : ∀ e ∈ pre ++ post, Spec.GoodValue e.2) (hb : 92 ∉ c) (rest : Bytes) :
    ∃ b m', compose gz m = some b ∧ parse (b ++ rest) = .ok b.length m' ∧
      m'.methodLine = m.methodLine ∧ m'.content = m.content ∧
      (∃ v, Table.find (str "Set-Cookie") m'.table = some v ∧ (parseList v 255).1 = c :: cs) ∧
      ∀ name, Table.find name m'.table =
        if sToLower name = sToLower (str "Content-Length") then some (natDec m.content.length)
        else Table.find name m.table := by
  obtain ⟨nm, hst⟩ := foldl_cookieMsg m pre post c cs h hb
  have hbase := cookie_base_sorted m pre post c cs h
  have hfind : ∀ name, Table.find name (cookieTable m pre post c cs) =
        if sToLower name = sToLower (str "Content-Length") then some (natDec m.content.length)
        else Table.find name m.table := by
    intro name
    unfold cookieTable
    rw [Table.find_set _ _ _ _ hbase]
    by_cases hn : sToLower name = sToLower sContentLength
    · rw [if_pos hn, if_pos (by exact hn)]
    · rw [if_neg hn, if_neg (by exact hn), find_map, find_sent _ _ (by
        intro e he
        simp only [List.mem_append, List.mem_cons] at he
        rcases he with he | rfl | he
        · exact (h.ordinary e (by simp [he])).name.noNul
        · show 0 ∉ sSetCookie; decide +kernel
        · exact (h.ordinary e (by simp [he])).name.noNul) hn]
      rw [h.table]
      show Option.map _ (Table.find name (pre ++ (sSetCookie, _) :: post)) = Table.find name (pre ++ (sSetCookie, _) :: post)
      cases hf : Table.find name (pre ++ (sSetCookie, composeList (c :: cs) [255]) :: post) with
      | none => rfl
      | some v =>
        obtain ⟨k, hk, _⟩ := Table.find_some_mem hf
        simp only [Option.map_some]
        simp only [List.mem_append, List.mem_cons] at hk
        rcases hk with hk | hk | hk
        · rw [carried_good (v := v) (hv (k, v) (by simp [hk]))]
        · injection hk with h1 h2
          rw [h2, carried_joined h.cookies]
        · rw [carried_good (v := v) (hv (k, v) (by simp [hk]))]
  have hl : ∀ l ∈ ((sent pre).map (fun e => entryLine e.1 e.2) ++
      ((c :: cs).map cookieLine ++ ((sent post).map (fun e => entryLine e.1 e.2) ++
      [entryLine sContentLength (natDec m.content.length)]))), Line l := by
    intro l hl
    rw [List.mem_append, List.mem_append, List.mem_append] at hl
    rcases hl with hl | hl | hl | hl
    · obtain ⟨e, he, rfl⟩ := List.mem_map.mp hl
      exact entryLine_line _ _ (h.ordinary e (List.mem_append_left _ (List.mem_filter.mp he).1)).name
    · obtain ⟨x, hx, rfl⟩ := List.mem_map.mp hl
      exact cookieLine_line (h.cookies x hx)
    · obtain ⟨e, he, rfl⟩ := List.mem_map.mp hl
      exact entryLine_line _ _ (h.ordinary e (List.mem_append_right _ (List.mem_filter.mp he).1)).name
    · rw [List.mem_singleton] at hl
      subst hl
      exact entryLine_line _ _ goodName_contentLength
  have hcookie : Table.find sSetCookie m.table = some (composeList (c :: cs) [255]) := by
    rw [h.table]
    have hs := h.sorted
    rw [h.table] at hs
    have hlt : ∀ e ∈ pre, keyLt e.1 sSetCookie = true := fun e he =>
      (List.pairwise_append.mp hs).2.2 e he (str "Set-Cookie", composeList (c :: cs) [255]) (List.mem_cons_self)
    have key : ∀ (p : Table), (∀ e ∈ p, keyLt e.1 sSetCookie = true) →
        Table.find sSetCookie (p ++ (sSetCookie, composeList (c :: cs) [255]) :: post) =
          some (composeList (c :: cs) [255]) := by
      intro p
      induction p with
      | nil => intro _; simp [Table.find, keyLt_irrefl]
      | cons e p ih =>
        intro hp
        rw [List.cons_append, Table.find, if_pos (by simp [hp e (by simp)])]
        exact ih (fun x hx => hp x (by simp [hx]))
    exact key pre hlt
  refine ⟨_, { methodLine := m.methodLine, table := cookieTable m pre post c cs, content := m.content },
    compose_cookies gz m pre post c cs h, ?_, rfl, rfl, ⟨composeList (c :: cs) [255], ?_, joined_parsed h.cookies⟩, hfind⟩
  · apply parse_text m.methodLine h.method _ hl _ nm hst _ m.content rest _ h.small
    · intro v hv
      rw [hfind, if_neg (by decide +kernel)] at hv
      obtain ⟨k, hk, hkn⟩ := Table.find_some_mem hv
      rw [h.table] at hk
      simp only [List.mem_append, List.mem_cons] at hk
      have ord : ∀ e : Bytes × Bytes, e ∈ pre ++ post → e = (k, v) → sIEquals v sChunked = false := by
        intro e he heq
        subst heq
        cases x : sIEquals v sChunked with
        | false => rfl
        | true =>
          have ho := h.ordinary _ he
          have hgv := ‹∀ e ∈ pre ++ post, Spec.GoodValue e.2› _ he
          refine absurd ⟨hkn, ?_⟩ ho.notChunked
          rw [carried_good hgv]
          exact (sIEquals_good hgv.noNul sChunked (by decide +kernel)).mp x
      rcases hk with hk | hk | hk
      · exact ord _ (by simp [hk]) rfl
      · injection hk with h1 h2
        rw [h1] at hkn
        exact absurd hkn (by decide +kernel)
      · exact ord _ (by simp [hk]) rfl
    · rw [hfind, if_pos (by decide +kernel)]
  · show Table.find sSetCookie (cookieTable m pre post c cs) = _
    rw [hfind, if_neg (by decide +kernel), hcookie]

example : CookieMsg { methodLine := str "200 OK", content := str "x", table := [(str "A", str "1"), (str "Set-Cookie", composeList [str "a=1; Path=/", str "b=\\2"] [255]), (str "Z", [])] }
    [(str "A", str "1")] [(str "Z", [])] (str "a=1; Path=/") [str "b=\\2"] := by
  refine ⟨by decide +kernel, ⟨by decide +kernel, by decide +kernel, by decide +kernel, by decide +kernel⟩, ?_,
    by decide +kernel, by decide +kernel, ?_⟩
  · intro e he
    have : e = (str "A", str "1") ∨ e = (str "Z", []) := by simpa using he
    rcases this with rfl | rfl <;>
    refine ⟨⟨by decide +kernel, by decide +kernel, by decide +kernel, by decide +kernel, ?_, by decide +kernel⟩,
      by unfold Spec.sameName; decide +kernel, by unfold Spec.sameName; decide +kernel,
      by unfold Spec.sameName; decide +kernel⟩ <;>
    · intro c hc
      have h1 : (str "A").head? = some 65 := by decide +kernel
      have h2 : (str "Z").head? = some 90 := by decide +kernel
      first
        | (rw [h1] at hc; injection hc with hc; subst hc; decide)
        | (rw [h2] at hc; injection hc with hc; subst hc; decide)
  · intro x hx
    have : x = str "a=1; Path=/" ∨ x = str "b=\\2" := by simpa using hx
    rcases this with rfl | rfl <;> exact ⟨by decide +kernel, by decide +kernel, by decide +kernel, by decide +kernel⟩

/-- C78 fails for a backslash in the first cookie: the first is unescaped, though the composer
escapes none. -/
theorem c78_first_backslash :
    ∃ m b k m', compose id m = some b ∧ parse b = .ok k m' ∧
      Table.find (str "Set-Cookie") m.table = some (str "a=\\n") ∧
      Table.find (str "Set-Cookie") m'.table = some (str "a=\n") := by
  refine ⟨{ methodLine := str "200 OK", table := [(str "Set-Cookie", str "a=\\n")] },
    str "200 OK\r\nSet-Cookie: a=\\n\r\nContent-Length: 0\r\n\r\n", 47,
    { methodLine := str "200 OK", table := [(str "Content-Length", str "0"), (str "Set-Cookie", str "a=\n")] }, ?_⟩
  rw [parse_eq_parseF]
  decide +kernel

/-! ## C79: chunked bodies -/

theorem hexRead_ge {a v : Nat} {s : Bytes} (h : Spec.hexRead a s = some v) : a ≤ v := by
  induction s generalizing a with
  | nil => simp only [Spec.hexRead, Option.some.injEq] at h; omega
  | cons c s ih =>
    simp only [Spec.hexRead] at h
    cases hd : Bedrock.Text.Spec.hexDigitValue c with
    | none => rw [hd] at h; cases h
    | some d => rw [hd] at h; have := ih h; omega

theorem hexRead_digits {a v : Nat} {s : Bytes} (h : Spec.hexRead a s = some v) :
    ∀ c ∈ s, (hexVal c).isSome = true := by
  induction s generalizing a with
  | nil => simp
  | cons c s ih =>
    simp only [Spec.hexRead] at h
    cases hd : Bedrock.Text.Spec.hexDigitValue c with
    | none => rw [hd] at h; cases h
    | some d =>
      rw [hd] at h
      intro x hx
      rcases List.mem_cons.mp hx with rfl | hx
      · rw [Bedrock.Text.Props.hexVal_spec, hd]; rfl
      · exact ih h x hx

theorem fromHexGo_read {acc : UInt64} {v : Nat} {s : Bytes} (h : Spec.hexRead acc.toNat s = some v)
    (hv : v < 2 ^ 64) : (fromHexGo acc s).toNat = v := by
  induction s generalizing acc with
  | nil => simpa [Spec.hexRead, fromHexGo] using h
  | cons c s ih =>
    simp only [Spec.hexRead] at h
    cases hd : Bedrock.Text.Spec.hexDigitValue c with
    | none => rw [hd] at h; cases h
    | some d =>
      rw [hd] at h
      have hge := hexRead_ge h
      rw [← Bedrock.Text.Props.hexVal_spec] at hd
      have hlt := Bedrock.Text.Props.hexVal_lt hd
      simp only [fromHexGo, hd]
      apply ih
      have e : (acc <<< 4 + UInt64.ofNat d).toNat = acc.toNat * 16 + d := by
        rw [UInt64.toNat_add, UInt64.toNat_shiftLeft, UInt64.toNat_ofNat']
        simp only [show (4 : UInt64).toNat % 64 = 4 by decide, Nat.shiftLeft_eq]
        omega
      rw [e]; exact h

theorem trimEndSp_cons (a x : Bytes) (c : UInt8) (hc : c ≠ 32) :
    trimEndSp (a ++ c :: x) = a ++ c :: trimEndSp x := by
  unfold trimEndSp
  have : (a ++ c :: x).reverse = x.reverse ++ c :: a.reverse := by simp
  rw [this, List.dropWhile_append]
  split
  · rename_i h
    have h : x.reverse.dropWhile (· == 32) = [] := by simpa using h
    rw [h, List.dropWhile_cons, if_neg (by simpa using hc)]
    simp
  · simp

theorem hexVal_blank : ∀ c : UInt8, (hexVal c).isSome = true → c ≠ 32 ∧ c ≠ 59 ∧ isEol c = false :=
  forall_u8 (by decide +kernel)

/-- The parser reads the size that is announced. -/
theorem chunkSize_line {size ext : Bytes} {n : Nat} (h : Spec.Announces size ext n) :
    chunkSize (size ++ ext) = size := by
  have hd := hexRead_digits h.value
  have hstart : size.head? ≠ some 32 := by
    cases e : size with
    | nil => simp
    | cons c s =>
      have := (hexVal_blank c (hd c (by rw [e]; simp))).1
      simpa using this
  have htw : ∀ x ∈ size, decide (x ≠ 59) = true := fun x hx => by
    simpa using (hexVal_blank x (hd x hx)).2.1
  unfold chunkSize
  rcases h.extForm with e | ⟨x, e⟩
  · rw [e, List.append_nil, trimSp_id hstart]
    · have := List.takeWhile_append_of_pos (p := fun x => decide (x ≠ 59)) (l₁ := size) (l₂ := []) htw
      simpa using this
    · intro hl
      have := List.mem_of_getLast? hl
      exact (hexVal_blank 32 (hd 32 this)).1 rfl
  · have hdrop : (size ++ ext).dropWhile (· == 32) = size ++ ext := by
      cases es : size with
      | nil => exact absurd es h.nonempty
      | cons c s =>
        have : c ≠ 32 := by rw [es] at hstart; simpa using hstart
        rw [List.cons_append, List.dropWhile_cons, if_neg (by simpa using this)]
    unfold trimSp
    rw [hdrop, e, trimEndSp_cons _ _ _ (by decide), List.takeWhile_append_of_pos htw]
    simp

theorem announce_line {size ext : Bytes} {n : Nat} (h : Spec.Announces size ext n) : Line (size ++ ext) := by
  refine ⟨by simp [h.nonempty], ?_⟩
  intro c hc
  rcases List.mem_append.mp hc with hc | hc
  · exact (hexVal_blank c (hexRead_digits h.value c hc)).2.2
  · have := h.extEol c hc
    simp [isEol, this]

theorem onLine_size (st : St) (size ext eol : Bytes) (n : Nat) (first : Bool) (h : Spec.Announces size ext n)
    (hn : n < 2 ^ 31) (hm : st.methodLine ≠ []) (hc : st.chunked = true) :
    onLine st (size ++ ext) eol first = if n = 0 then .go st (eatEol eol) else takeChunk st n eol := by
  unfold onLine
  have hsz : isChunkSize size = true := by
    unfold isChunkSize
    have h1 := List.length_pos_iff.mpr h.nonempty
    have h2 := h.digits
    simp only [Bool.and_eq_true, decide_eq_true_eq]
    exact ⟨⟨by omega, h2⟩, by rw [List.all_eq_true]; exact hexRead_digits h.value⟩
  rw [if_neg hm, chunkSize_line h, hc, hsz]
  simp only [Bool.and_self, if_true]
  have hv : (fromHex size).toNat = n := by
    unfold fromHex
    exact fromHexGo_read (by simpa using h.value) (by omega)
  rw [hv, toInt32_small n hn]
  by_cases h0 : n = 0
  · subst h0; rfl
  · rw [if_neg (by omega), if_neg h0]

/-- A chunk adds its data. -/
theorem run_chunk (total : Nat) (st : St) (c : Spec.Chunk) (rest : Bytes) (h : Spec.GoodChunk c)
    (hm : st.methodLine ≠ []) (hc : st.chunked = true) :
    run total st (c.text ++ rest) = run total { st with content := st.content ++ c.data } rest := by
  have hl := announce_line h.line
  have e0 : c.text ++ rest = (c.size ++ c.ext) ++ 13 :: 10 :: (c.data ++ 13 :: 10 :: rest) := by
    unfold Spec.Chunk.text; simp
  have e := takeWhile_line hl.2 13 (10 :: (c.data ++ 13 :: 10 :: rest)) (by decide)
  rw [e0]
  apply run_go (by simp)
  unfold onInput
  simp only [e.1, e.2]
  have hdl := List.length_pos_iff.mpr h.data
  rw [if_neg (by simp), if_neg hl.1, onLine_size _ _ _ _ _ _ h.line h.small hm hc, if_neg (by omega)]
  unfold takeChunk
  rw [if_neg (by omega), if_neg (by simp only [List.length_cons, List.length_append]; omega)]
  have ed : (13 :: 10 :: (c.data ++ 13 :: 10 :: rest)).drop (2 + c.data.length) = 13 :: 10 :: rest := by
    rw [Nat.add_comm]; simp
  simp only [Int.toNat_natCast, ed]
  simp [eatEol]

theorem run_chunks (total : Nat) (st : St) (cs : List Spec.Chunk) (rest : Bytes)
    (h : ∀ c ∈ cs, Spec.GoodChunk c) (hm : st.methodLine ≠ []) (hc : st.chunked = true) :
    run total st (cs.flatMap Spec.Chunk.text ++ rest) =
      run total { st with content := st.content ++ cs.flatMap (·.data) } rest := by
  induction cs generalizing st with
  | nil => simp
  | cons c cs ih =>
    rw [List.flatMap_cons, List.append_assoc, run_chunk total st c _ (h c (by simp)) hm hc,
      ih _ (fun x hx => h x (by simp [hx])) (by exact hm) (by exact hc)]
    simp

/-- The end of the chunks. -/
theorem run_last (total : Nat) (st : St) (z ext rest : Bytes) (h : Spec.Announces z ext 0)
    (hm : st.methodLine ≠ []) (hc : st.chunked = true) :
    run total st (z ++ ext ++ crlf ++ (crlf ++ rest)) = finishChunked total st (crlf ++ rest) := by
  have hl := announce_line h
  have e0 : z ++ ext ++ crlf ++ (crlf ++ rest) = (z ++ ext) ++ 13 :: 10 :: 13 :: 10 :: rest := by simp [crlf]
  have e := takeWhile_line hl.2 13 (10 :: 13 :: 10 :: rest) (by decide)
  have h1 : run total st (z ++ ext ++ crlf ++ (crlf ++ rest)) = run total st (13 :: 10 :: rest) := by
    rw [e0]
    apply run_go (by simp)
    unfold onInput
    simp only [e.1, e.2]
    rw [if_neg (by simp), if_neg hl.1, onLine_size _ _ _ _ _ _ h (by decide) hm hc]
    rfl
  rw [h1]
  apply run_stop (by simp)
  unfold onInput
  have e := takeWhile_line (l := []) (by simp) 13 (10 :: rest) (by decide)
  simp only [List.nil_append] at e
  simp only [e.1, e.2]
  rw [if_neg (by simp)]
  simp only [if_true]
  unfold onBlank
  rw [if_neg hm, hc]
  rfl

/-! ### The headers of another program -/

/-- A header another program may send: a name, and a value without characters the format escapes. -/
structure PlainHeader (e : Bytes × Bytes) : Prop where
  name : Spec.GoodName e.1
  notCookie : ¬ Spec.sameName e.1 (str "Set-Cookie")
  plain : ∀ c ∈ e.2, c ∉ ([0, 9, 10, 13, 92, 8, 12] : Bytes)

theorem escape_plain {v : Bytes} (h : ∀ c ∈ v, c ∉ ([0, 9, 10, 13, 92, 8, 12] : Bytes)) :
    escape v valueSpecial 92 = v := by
  have h0 : 0 ∉ v := fun hx => h 0 hx (by simp)
  unfold escape
  rw [cstr_eq h0]
  have key : ∀ c : UInt8, c ∉ ([0, 9, 10, 13, 92, 8, 12] : Bytes) → escapeByte valueSpecial 92 c = [c] :=
    forall_u8 (by decide +kernel)
  clear h0
  induction v with
  | nil => rfl
  | cons c v ih =>
    rw [List.flatMap_cons, key c (h c (by simp)), ih (fun x hx => h x (by simp [hx]))]
    rfl

theorem headerText_line {e : Bytes × Bytes} (h : PlainHeader e) :
    Spec.headerText e = entryLine e.1 e.2 ++ crlf := by
  unfold Spec.headerText entryLine
  rw [escape_plain h.plain, show sColon = [58, 32] by decide +kernel]
  rfl

theorem headers_lines {es : Table} (h : ∀ e ∈ es, PlainHeader e) :
    es.flatMap Spec.headerText = (es.map (fun e => entryLine e.1 e.2)).flatMap (fun l => l ++ crlf) := by
  induction es with
  | nil => rfl
  | cons e es ih =>
    rw [List.flatMap_cons, headerText_line (h e (by simp)), ih (fun x hx => h x (by simp [hx]))]
    simp

/-- The table made of header lines. -/
def tableOf (es : Table) : Table := es.foldl (fun t e => t.set e.1 (Spec.carried e.2)) []

theorem find_tableOf (es : Table) (name : Bytes) :
    Table.find name (tableOf es) = Spec.lastValue name es ∧ (tableOf es).Sorted := by
  have key : ∀ (es : Table), Table.find name (es.reverse.foldl (fun t e => t.set e.1 (Spec.carried e.2)) []) =
      Spec.lastValue name es.reverse ∧
      Table.Sorted (es.reverse.foldl (fun t e => t.set e.1 (Spec.carried e.2)) []) := by
    intro es
    induction es with
    | nil => exact ⟨rfl, List.Pairwise.nil⟩
    | cons e es ih =>
      rw [List.reverse_cons, List.foldl_append]
      simp only [List.foldl_cons, List.foldl_nil]
      refine ⟨?_, Table.set_sorted _ _ ih.2⟩
      rw [Table.find_set _ _ _ _ ih.2, ih.1]
      unfold Spec.lastValue
      rw [List.reverse_append]
      simp only [List.reverse_cons, List.reverse_nil, List.nil_append, List.singleton_append, List.find?_cons]
      by_cases hn : sToLower name = sToLower e.1
      · rw [if_pos hn]
        have : (e.1.map toLower == name.map toLower) = true := by
          rw [beq_iff_eq]; exact hn.symm
        rw [this]; rfl
      · rw [if_neg hn]
        have : (e.1.map toLower == name.map toLower) = false := by
          rw [beq_eq_false_iff_ne]; exact fun x => hn x.symm
        rw [this]
  have := key es.reverse
  rw [List.reverse_reverse] at this
  exact this

theorem erase_subset (n : Bytes) (t : Table) : ∀ e ∈ t.erase n, e ∈ t := by
  induction t with
  | nil => simp [Table.erase]
  | cons x t ih =>
    intro e he
    unfold Table.erase at he
    split at he
    · rcases List.mem_cons.mp he with rfl | he
      · simp
      · simp [ih e he]
    · simp [he]

theorem erase_sorted (n : Bytes) {t : Table} (h : t.Sorted) : (t.erase n).Sorted := by
  induction t with
  | nil => simpa [Table.erase] using h
  | cons x t ih =>
    have h' := List.pairwise_cons.mp h
    unfold Table.erase
    split
    · exact List.pairwise_cons.mpr ⟨fun e he => h'.1 e (erase_subset n t e he), ih h'.2⟩
    · exact h'.2

theorem find_erase (n m : Bytes) {t : Table} (h : t.Sorted) :
    Table.find m (t.erase n) = if sToLower m = sToLower n then none else Table.find m t := by
  induction t with
  | nil => simp [Table.erase, Table.find]
  | cons x t ih =>
    have h' := List.pairwise_cons.mp h
    unfold Table.erase
    cases hx : keyLt n x.1 || keyLt x.1 n with
    | true =>
      rw [if_pos rfl, Table.find, Table.find, ih h'.2]
      cases hm : keyLt m x.1 || keyLt x.1 m with
      | true => simp
      | false =>
        have e := (key_eq_iff m x.1).mp hm
        have hne : ¬ sToLower m = sToLower n := ?_
        · simp [hne]
        intro e2
        have : (keyLt n x.1 || keyLt x.1 n) = false := (key_eq_iff n x.1).mpr (e2.symm.trans e)
        rw [this] at hx; cases hx
    | false =>
      rw [if_neg (by decide), Table.find]
      have e := (key_eq_iff n x.1).mp hx
      have hgt : ∀ y ∈ t, keyLt x.1 y.1 = true := h'.1
      by_cases hm : sToLower m = sToLower n
      · rw [if_pos hm]
        have : ∀ (l : Table), (∀ y ∈ l, keyLt x.1 y.1 = true) → Table.find m l = none := by
          intro l
          induction l with
          | nil => intro _; rfl
          | cons y l ih =>
            intro hl
            have hy := hl y (by simp)
            have : keyLt m y.1 = true := by
              unfold keyLt at hy ⊢; rw [hm, e]; exact hy
            rw [Table.find, if_pos (by simp [this])]
            exact ih (fun z hz => hl z (by simp [hz]))
        exact this t hgt
      · rw [if_neg hm, if_pos]
        cases hk : keyLt m x.1 || keyLt x.1 m with
        | true => rfl
        | false => exact absurd (((key_eq_iff m x.1).mp hk).trans e.symm) hm

/-- A message with a chunked body as it is sent. -/
def chunkedText (ml : Bytes) (es : Table) (cs : List Spec.Chunk) (z ext : Bytes) : Bytes :=
  ml ++ [13, 10] ++ (es.flatMap Spec.headerText ++ ([13, 10] ++ (cs.flatMap Spec.Chunk.text ++
    (z ++ ext ++ [13, 10] ++ [13, 10]))))

/-- A chunked message: `Transfer-Encoding: chunked` in any capitals is its last word on the matter. -/
structure ChunkedMsg (ml : Bytes) (es : Table) (cs : List Spec.Chunk) (z ext : Bytes) : Prop where
  method : Spec.GoodMethod ml
  headers : ∀ e ∈ es, PlainHeader e
  chunked : ∃ v, Spec.lastValue (str "Transfer-Encoding") es = some v ∧ Spec.sameName v (str "chunked")
  chunks : ∀ c ∈ cs, Spec.GoodChunk c
  last : Spec.Announces z ext 0

theorem carried_noNul (v : Bytes) : 0 ∉ Spec.carried v := fun hm =>
  zero_not_mem_cstr v (mem_trimSp (s := cstr v) hm)

theorem find_chunked {ml : Bytes} {es : Table} {cs : List Spec.Chunk} {z ext : Bytes}
    (h : ChunkedMsg ml es cs z ext) :
    ∃ v, Table.find sTransferEncoding (tableOf es) = some v ∧ sIEquals v sChunked = true := by
  obtain ⟨v, hv, hn⟩ := h.chunked
  have hf := (find_tableOf es (str "Transfer-Encoding")).1
  rw [hv] at hf
  refine ⟨v, hf, ?_⟩
  have : 0 ∉ v := by
    unfold Spec.lastValue at hv
    rw [Option.map_eq_some_iff] at hv
    obtain ⟨e, _, rfl⟩ := hv
    exact carried_noNul _
  exact (sIEquals_good this sChunked (by decide +kernel)).mpr hn

/-- The input up to and with the blank line after the headers. -/
theorem run_chunkedHead (total : Nat) {ml : Bytes} {es : Table} {cs : List Spec.Chunk} {z ext : Bytes}
    (h : ChunkedMsg ml es cs z ext) :
    ∃ nm, ∀ rest, run total {} (ml ++ [13, 10] ++ (es.flatMap Spec.headerText ++ ([13, 10] ++ rest))) =
      run total { methodLine := ml, table := tableOf es, name := nm, chunked := true } rest := by
  obtain ⟨nm, e⟩ := foldl_headerLine { methodLine := ml } es
    (fun e he => ⟨(h.headers e he).name, (h.headers e he).notCookie⟩)
  refine ⟨nm, fun rest => ?_⟩
  rw [headers_lines h.headers]
  show run total {} (ml ++ crlf ++ _) = _
  rw [parse_head ml h.method _ (by
    intro l hl
    obtain ⟨x, hx, rfl⟩ := List.mem_map.mp hl
    exact entryLine_line _ _ (h.headers x hx).name), e]
  have e' := takeWhile_line (l := []) (by simp) 13 (10 :: rest) (by decide)
  simp only [List.nil_append] at e'
  apply run_go (by simp)
  unfold onInput
  simp only [List.cons_append, List.nil_append, e'.1, e'.2]
  rw [if_neg (by simp)]
  simp only [if_true]
  unfold onBlank
  obtain ⟨v, hv, hi⟩ := find_chunked h
  have hv : Table.find sTransferEncoding (es.foldl (fun t e => t.set e.1 (Spec.carried e.2)) []) = some v := hv
  simp only
  rw [if_neg h.method.nonempty, hv]
  simp only [Bool.false_eq_true, if_false, hi, if_true]
  rfl

/-- C79.  A message whose body is sent in chunks, any number of them and of any sizes, is read as the
concatenation of the chunks; exactly its bytes are consumed, whatever follows; `Transfer-Encoding` is
gone, `Content-Length` is the length of the body, and every other header has the value of its last
line. -/
theorem c79_body (ml : Bytes) (es : Table) (cs : List Spec.Chunk) (z ext rest : Bytes)
    (h : ChunkedMsg ml es cs z ext) :
    ∃ m', parse (chunkedText ml es cs z ext ++ rest) = .ok (chunkedText ml es cs z ext).length m' ∧
      m'.methodLine = ml ∧ m'.content = cs.flatMap (·.data) ∧
      ∀ name, Table.find name m'.table =
        if sToLower name = sToLower (str "Content-Length") then some (natDec (cs.flatMap (·.data)).length)
        else if sToLower name = sToLower (str "Transfer-Encoding") then none
        else Spec.lastValue name es := by
  unfold parse
  generalize ht : (chunkedText ml es cs z ext ++ rest).length = total
  obtain ⟨nm, e⟩ := run_chunkedHead total h
  have e0 : chunkedText ml es cs z ext ++ rest =
      ml ++ [13, 10] ++ (es.flatMap Spec.headerText ++ ([13, 10] ++ (cs.flatMap Spec.Chunk.text ++
        (z ++ ext ++ crlf ++ (crlf ++ rest))))) := by
    unfold chunkedText crlf; simp only [List.append_assoc]
  rw [e0, e, run_chunks _ _ _ _ h.chunks h.method.nonempty rfl, run_last _ _ _ _ _ h.last h.method.nonempty rfl]
  unfold finishChunked
  have et : eatTwo (crlf ++ rest) = rest := by simp [crlf, eatTwo, isEol]
  have hlen : total - rest.length = (chunkedText ml es cs z ext).length := by
    rw [← ht, List.length_append]; omega
  rw [et, hlen]
  refine ⟨_, rfl, rfl, by simp, ?_⟩
  intro name
  have hs := (find_tableOf es name).2
  simp only [List.nil_append]
  rw [Table.find_set _ _ _ _ (erase_sorted _ hs), find_erase _ _ hs, (find_tableOf es name).1]
  rfl

/-- An announced size whose line has not fully arrived. -/
theorem run_size_short (total : Nat) (st : St) (size ext p a : Bytes) (n : Nat) (h : Spec.Announces size ext n)
    (hn : n < 2 ^ 31) (hm : st.methodLine ≠ []) (hc : st.chunked = true)
    (hp : p ++ a = size ++ ext ++ [13, 10]) (ha : a ≠ []) : run total st p = .incomplete := by
  have hl := announce_line h
  rcases List.append_eq_append_iff.mp hp with ⟨x, h1, h2⟩ | ⟨x, h1, h2⟩
  · apply run_noEol
    intro c hcm
    exact hl.2 c (by rw [h1]; simp only [List.mem_append]; exact .inl hcm)
  · cases x with
    | nil => rw [h1, List.append_nil]; exact run_noEol _ _ _ hl.2
    | cons y x =>
      simp only [List.cons_append, List.cons.injEq] at h2
      obtain ⟨rfl, h2⟩ := h2
      cases x with
      | cons w x =>
        simp only [List.cons_append, List.cons.injEq] at h2
        have := congrArg List.length h2.2
        simp only [List.length_nil, List.length_append] at this
        exact absurd (List.length_eq_zero_iff.mp (by omega)) ha
      | nil =>
        rw [h1]
        have e := takeWhile_line hl.2 13 [] (by decide)
        have key : onInput total st (size ++ ext ++ [13]) =
            if n = 0 then .go st [] else takeChunk st n [13] := by
          unfold onInput
          simp only [e.1, e.2]
          rw [if_neg (by simp), if_neg hl.1, onLine_size _ _ _ _ _ _ h hn hm hc]
          rfl
        by_cases h0 : n = 0
        · rw [if_pos h0] at key
          rw [run_go (by simp) key, run_nil]
        · rw [if_neg h0] at key
          apply run_stop (by simp)
          rw [key]
          unfold takeChunk
          rw [if_neg (by omega), if_pos (by simp only [List.length_cons, List.length_nil]; omega)]

/-- A chunk that has not fully arrived. -/
theorem run_chunk_short (total : Nat) (st : St) (c : Spec.Chunk) (p a : Bytes) (h : Spec.GoodChunk c)
    (hm : st.methodLine ≠ []) (hc : st.chunked = true) (hp : p ++ a = c.text) (ha : a ≠ []) :
    run total st p = .incomplete := by
  have hl := announce_line h.line
  have e0 : c.text = (c.size ++ c.ext ++ [13, 10]) ++ (c.data ++ [13, 10]) := by
    unfold Spec.Chunk.text; simp
  rw [e0] at hp
  rcases List.append_eq_append_iff.mp hp with ⟨x, h1, h2⟩ | ⟨x, h1, h2⟩
  · by_cases hx : x = []
    · -- the whole line but no data
      subst hx
      rw [List.append_nil] at h1
      rw [← h1]
      have e := takeWhile_line hl.2 13 [10] (by decide)
      apply run_stop (by simp)
      unfold onInput
      have e1 : c.size ++ c.ext ++ [13, 10] = (c.size ++ c.ext) ++ 13 :: [10] := by simp
      have hdl := List.length_pos_iff.mpr h.data
      rw [e1]
      simp only [e.1, e.2]
      rw [if_neg (by simp), if_neg hl.1, onLine_size _ _ _ _ _ _ h.line h.small hm hc, if_neg (by omega)]
      unfold takeChunk
      rw [if_neg (by omega), if_pos (by simp only [List.length_cons, List.length_nil]; omega)]
    · exact run_size_short total st _ _ p x _ h.line h.small hm hc h1.symm hx
  · -- some of the data
    have e := takeWhile_line hl.2 13 (10 :: x) (by decide)
    have e1 : p = (c.size ++ c.ext) ++ 13 :: 10 :: x := by rw [h1]; simp
    have hdl := List.length_pos_iff.mpr h.data
    have hlen := congrArg List.length h2
    simp only [List.length_append, List.length_cons, List.length_nil] at hlen
    have hal := List.length_pos_iff.mpr ha
    have key : onInput total st p = takeChunk st c.data.length (13 :: 10 :: x) := by
      unfold onInput
      rw [e1]
      simp only [e.1, e.2]
      rw [if_neg (by simp), if_neg hl.1, onLine_size _ _ _ _ _ _ h.line h.small hm hc, if_neg (by omega)]
    have hpne : p ≠ [] := by rw [e1]; simp
    by_cases hle : x.length ≤ c.data.length
    · apply run_stop hpne
      rw [key]
      unfold takeChunk
      rw [if_neg (by omega), if_pos (by simp only [List.length_cons]; omega)]
    · -- the data and a carriage return
      have hx : x = c.data ++ [13] ∧ a = [10] := by
        rcases List.append_eq_append_iff.mp h2 with ⟨y, h3, h4⟩ | ⟨y, h3, h4⟩
        · cases y with
          | nil => exfalso; rw [h3] at hle; simp at hle
          | cons b y =>
            simp only [List.cons_append, List.cons.injEq] at h4
            obtain ⟨rfl, h4⟩ := h4
            cases y with
            | nil => exact ⟨h3, h4.symm⟩
            | cons b y =>
              simp only [List.cons_append, List.cons.injEq] at h4
              have := congrArg List.length h4.2
              simp only [List.length_nil, List.length_append] at this
              omega
        · exfalso
          rw [h3] at hle; simp at hle
      have hgo : takeChunk st c.data.length (13 :: 10 :: x) =
          .go { st with content := st.content ++ c.data } [] := by
        unfold takeChunk
        rw [if_neg (by omega), if_neg (by simp only [List.length_cons]; omega), hx.1]
        have ed : (13 :: 10 :: (c.data ++ [13])).drop (2 + c.data.length) = [13] := by
          rw [Nat.add_comm]; simp
        simp only [Int.toNat_natCast, ed]
        simp [eatEol]
      rw [run_go hpne (key.trans hgo), run_nil]

theorem run_chunks_short (total : Nat) (st : St) (cs : List Spec.Chunk) (p a : Bytes)
    (h : ∀ c ∈ cs, Spec.GoodChunk c) (hm : st.methodLine ≠ []) (hc : st.chunked = true)
    (hp : p ++ a = cs.flatMap Spec.Chunk.text) : run total st p = .incomplete := by
  induction cs generalizing st p with
  | nil => simp at hp; rw [hp.1]; exact run_nil _ _
  | cons c cs ih =>
    rw [List.flatMap_cons] at hp
    rcases List.append_eq_append_iff.mp hp with ⟨x, h1, h2⟩ | ⟨x, h1, h2⟩
    · by_cases hx : x = []
      · subst hx
        rw [List.append_nil] at h1
        rw [← h1, ← List.append_nil c.text, run_chunk total st c [] (h c (by simp)) hm hc, run_nil]
      · exact run_chunk_short total st c p x (h c (by simp)) hm hc h1.symm hx
    · rw [h1, run_chunk total st c _ (h c (by simp)) hm hc]
      exact ih _ x (fun y hy => h y (by simp [hy])) (by exact hm) (by exact hc) h2.symm

/-- C79.  As long as a chunked message lacks more than its very last byte, nothing is taken from it:
no message is read and no byte is consumed. -/
theorem c79_waits (ml : Bytes) (es : Table) (cs : List Spec.Chunk) (z ext p a : Bytes)
    (h : ChunkedMsg ml es cs z ext) (hp : p ++ a = chunkedText ml es cs z ext) (ha : 2 ≤ a.length) :
    parse p = .incomplete := by
  obtain ⟨hl, hb, htrim⟩ := method_line { methodLine := ml } (goodMsg_of_method h.method)
  simp only at hl hb htrim
  unfold parse
  generalize p.length = total
  have hne : ∀ x : Bytes, x.length ≥ 1 → x ≠ [] := by intro x hx e; subst e; simp at hx
  obtain ⟨nm0, est⟩ := foldl_headerLine { methodLine := ml } es
    (fun e he => ⟨(h.headers e he).name, (h.headers e he).notCookie⟩)
  have hlines : ∀ l ∈ es.map (fun e => entryLine e.1 e.2), Line l := by
    intro l hl
    obtain ⟨x, hx, rfl⟩ := List.mem_map.mp hl
    exact entryLine_line _ _ (h.headers x hx).name
  have ea : advance {} ml = { methodLine := ml } := by
    unfold advance; rw [if_pos rfl, htrim]
  unfold chunkedText at hp
  rcases List.append_eq_append_iff.mp hp with ⟨x, h1, h2⟩ | ⟨x, h1, h2⟩
  · by_cases hx : x = []
    · subst hx
      rw [List.append_nil] at h1
      rw [← h1]
      show run total {} (ml ++ crlf) = _
      rw [← List.append_nil (ml ++ crlf), run_line total {} ml [] hl rfl (.inr hb), run_nil]
    · exact run_line_short total {} ml p x hl rfl (.inr hb) h1.symm hx
  · rw [h1]
    show run total {} (ml ++ crlf ++ x) = _
    rw [run_line total {} ml _ hl rfl (.inr hb), ea]
    rw [headers_lines h.headers] at h2
    rcases List.append_eq_append_iff.mp h2.symm with ⟨y, h3, h4⟩ | ⟨y, h3, h4⟩
    · exact run_lines_short total _ _ x y hlines rfl h.method.nonempty h3.symm
    · cases y with
      | nil =>
        rw [h3, run_lines total _ _ _ hlines rfl h.method.nonempty, run_nil]
      | cons b y =>
        obtain ⟨nm, e⟩ := run_chunkedHead total h
        simp only [List.cons_append, List.nil_append, List.cons.injEq] at h4
        obtain ⟨rfl, h4⟩ := h4
        -- back to the whole text
        have back : ∀ r, run total { methodLine := ml } (((es.map (fun e => entryLine e.1 e.2)).flatMap
            (fun l => l ++ crlf)) ++ ([13, 10] ++ r)) =
            run total { methodLine := ml, table := tableOf es, name := nm, chunked := true } r := by
          intro r
          rw [← e r, headers_lines h.headers]
          show _ = run total {} (ml ++ crlf ++ _)
          rw [run_line total {} ml _ hl rfl (.inr hb), ea]
        cases y with
        | nil =>
          -- the carriage return of the blank line
          rw [h3, run_lines total _ _ _ hlines rfl h.method.nonempty, est]
          have e' := takeWhile_line (l := []) (by simp) 13 [] (by decide)
          simp only [List.nil_append] at e'
          have : onInput total { methodLine := ml, name := nm0, table := es.foldl (fun t e => t.set e.1 (Spec.carried e.2)) [] } [13] =
              .go { methodLine := ml, name := nm0, table := es.foldl (fun t e => t.set e.1 (Spec.carried e.2)) [], chunked := true } [] := by
            unfold onInput
            simp only [e'.1, e'.2]
            rw [if_neg (by simp)]
            simp only [if_true]
            unfold onBlank
            obtain ⟨v, hv, hi⟩ := find_chunked h
            have hv : Table.find sTransferEncoding (es.foldl (fun t e => t.set e.1 (Spec.carried e.2)) []) = some v := hv
            simp only
            rw [if_neg h.method.nonempty, hv]
            simp only [Bool.false_eq_true, if_false, hi, if_true]
            rfl
          rw [run_go (by simp) this, run_nil]
        | cons b y =>
          simp only [List.cons_append, List.cons.injEq] at h4
          obtain ⟨rfl, h4⟩ := h4
          rw [h3]
          have := back y
          simp only [List.cons_append, List.nil_append] at this
          rw [this]
          rcases List.append_eq_append_iff.mp h4.symm with ⟨w, h5, h6⟩ | ⟨w, h5, h6⟩
          · exact run_chunks_short total _ cs y w h.chunks h.method.nonempty rfl h5.symm
          · rw [h5, run_chunks total _ _ _ h.chunks h.method.nonempty rfl]
            have hz := announce_line h.last
            have e' := takeWhile_line hz.2 13 [10] (by decide)
            have e1 : z ++ ext ++ [13, 10] = (z ++ ext) ++ 13 :: [10] := by simp
            have key : ∀ st : St, st.methodLine ≠ [] → st.chunked = true →
                run total st (z ++ ext ++ [13, 10]) = .incomplete := by
              intro st hm hc
              rw [e1]
              have : onInput total st ((z ++ ext) ++ 13 :: [10]) = .go st [] := by
                unfold onInput
                simp only [e'.1, e'.2]
                rw [if_neg (by simp), if_neg hz.1, onLine_size _ _ _ _ _ _ h.last (by decide) hm hc]
                rfl
              rw [run_go (by simp) this, run_nil]
            rcases List.append_eq_append_iff.mp h6.symm with ⟨u, h7, h8⟩ | ⟨u, h7, h8⟩
            · by_cases hu : u = []
              · subst hu
                rw [List.append_nil] at h7
                rw [← h7]
                exact key _ h.method.nonempty rfl
              · exact run_size_short total _ z ext w u 0 h.last (by decide) h.method.nonempty rfl h7.symm hu
            · have hlen := congrArg List.length h8
              simp only [List.length_cons, List.length_nil, List.length_append] at hlen
              have hu : u = [] := List.length_eq_zero_iff.mp (by omega)
              subst hu
              rw [List.append_nil] at h7
              rw [h7]
              exact key _ h.method.nonempty rfl

/-! Two chunks, the second with an extension; header names in odd capitals. -/

def exHeaders : Table := [(str "Host", str "x"), (str "transfer-encoding", str " Chunked ")]
def exChunks : List Spec.Chunk := [{ size := str "3", data := [13, 10, 0] }, { size := str "0A", ext := str ";a=b", data := str "0123456789" }]

theorem exChunked : ChunkedMsg (str "200 OK") exHeaders exChunks (str "0") [] := by
  refine ⟨⟨by decide +kernel, by decide +kernel, by decide +kernel, by decide +kernel⟩, ?_,
    ⟨str "Chunked", by decide +kernel, by unfold Spec.sameName; decide +kernel⟩, ?_,
    ⟨by decide +kernel, by decide +kernel, by decide +kernel, .inl rfl, by decide +kernel⟩⟩
  · intro e he
    have : e = (str "Host", str "x") ∨ e = (str "transfer-encoding", str " Chunked ") := by
      simpa [exHeaders] using he
    rcases this with rfl | rfl <;>
    refine ⟨⟨by decide +kernel, by decide +kernel, by decide +kernel, by decide +kernel, ?_, by decide +kernel⟩,
      by unfold Spec.sameName; decide +kernel, by decide +kernel⟩ <;>
    · intro c hc
      have h1 : (str "Host").head? = some 72 := by decide +kernel
      have h2 : (str "transfer-encoding").head? = some 116 := by decide +kernel
      first
        | (rw [h1] at hc; injection hc with hc; subst hc; decide)
        | (rw [h2] at hc; injection hc with hc; subst hc; decide)
  · intro c hc
    have : c = { size := str "3", data := [13, 10, 0] } ∨
        c = { size := str "0A", ext := str ";a=b", data := str "0123456789" } := by simpa [exChunks] using hc
    rcases this with rfl | rfl
    · exact ⟨⟨by decide +kernel, by decide +kernel, by decide +kernel, .inl rfl, by decide +kernel⟩,
        by decide +kernel, by decide +kernel⟩
    · exact ⟨⟨by decide +kernel, by decide +kernel, by decide +kernel, .inr ⟨str "a=b", by decide +kernel⟩, by decide +kernel⟩,
        by decide +kernel, by decide +kernel⟩

example : ∃ m', parse (chunkedText (str "200 OK") exHeaders exChunks (str "0") [] ++ str "NEXT") =
    .ok (chunkedText (str "200 OK") exHeaders exChunks (str "0") []).length m' ∧
    m'.content = [13, 10, 0] ++ str "0123456789" := by
  obtain ⟨m', h1, _, h2, _⟩ := c79_body _ _ _ _ _ (str "NEXT") exChunked
  exact ⟨m', h1, by rw [h2]; decide +kernel⟩

/-- C79 fails for sizes of 80000000 (hexadecimal) and up: the size is kept in an `int`, so an answer
of a remote server makes the parser throw or copy outside of its buffer. -/
theorem c79_huge_chunk :
    parse (str "X\r\nTransfer-Encoding: chunked\r\n\r\n80000000\r\nabc") = .throws ∧
    parse (str "X\r\nTransfer-Encoding: chunked\r\n\r\n5\r\nabcde\r\nFFFFFFFF\r\nabc") = .ub := by
  rw [parse_eq_parseF]
  decide +kernel

/-- C79 fails for a size of nine digits: the line and the data are taken for headers. -/
theorem c79_nine_digits :
    ∃ m', parse (str "X\r\nTransfer-Encoding: chunked\r\n\r\n000000003\r\nxyz\r\n0\r\n\r\n") = .ok 54 m' ∧
      m'.content = [] := by
  refine ⟨{ methodLine := str "X", table := [(str "000000003", []), (str "Content-Length", str "0"), (str "xyz", [])] }, ?_⟩
  rw [parse_eq_parseF]
  decide +kernel

/-- **C79** A line that begins with a space continues the header before it. -/
theorem c79_folded : ∃ m', parse (str "X\r\nA: b\r\n c\r\nD: e\r\n\r\n") = .ok 21 m' ∧ m'.table.find (str "A") = some (str "b c") ∧
    m'.table.find (str "D") = some (str "e") := by
  refine ⟨{ methodLine := str "X", table := [(str "A", str "b c"), (str "D", str "e")] }, ?_⟩
  rw [parse_eq_parseF]
  decide +kernel

end Bedrock.Http.Props
