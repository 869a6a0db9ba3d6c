import Verif.Props.Http
import Verif.Lemmas.Gzip

/-! # C122: compressed bodies -/

namespace Bedrock.Gzip.Props
open Bedrock.Text Bedrock.Http
open Bedrock.Gzip.Spec (Lawful Fits stored)

/-- A message whose table asks for compression: besides the one header it is a message as in C22. -/
structure Asks (m : Msg) (others : Table) : Prop where
  table : ∃ pre post ce v, m.table = pre ++ (ce, v) :: post ∧ others = pre ++ post ∧
    Http.Spec.sameName ce (str "Content-Encoding") ∧ 0 ∉ ce ∧
    Http.Spec.sameName (v.takeWhile (· ≠ 0)) (str "gzip")
  once : ∀ e ∈ others, ¬ Http.Spec.sameName e.1 (str "Content-Encoding")
  good : Http.Spec.GoodMsg { m with table := others }
  values : ∀ e ∈ others, Http.Spec.GoodValue e.2

/-! ## The message that is composed -/

theorem zip_entry {ce v : Bytes} (h1 : Http.Spec.sameName ce (str "Content-Encoding")) (h0 : 0 ∉ ce)
    (h2 : Http.Spec.sameName (v.takeWhile (· ≠ 0)) (str "gzip")) :
    composeEntry (ce, v) = [] ∧ wantsGzip (ce, v) = true := by
  have hc : sIEquals sContentEncoding ce = true := by
    rw [sIEquals_comm]; exact (sIEquals_good h0 sContentEncoding (by decide +kernel)).mpr h1
  have hk : sIEquals sSetCookie ce = false := by
    cases x : sIEquals sSetCookie ce with
    | false => rfl
    | true =>
      rw [sIEquals_comm] at x
      have := (sIEquals_good h0 sSetCookie (by decide +kernel)).mp x
      exact absurd (h1.symm.trans this) (by decide +kernel)
  have hl : sIEquals sContentLength ce = false := by
    cases x : sIEquals sContentLength ce with
    | false => rfl
    | true =>
      rw [sIEquals_comm] at x
      have := (sIEquals_good h0 sContentLength (by decide +kernel)).mp x
      exact absurd (h1.symm.trans this) (by decide +kernel)
  have hv : sIEquals sGzip v = true := by
    rw [sIEquals_comm]
    unfold sIEquals
    rw [beq_iff_eq, cstr_eq (s := sGzip) (by decide +kernel)]
    exact h2
  refine ⟨?_, ?_⟩
  · unfold composeEntry
    simp [hk, hl, hc, hv]
  · unfold wantsGzip
    simp [hk, hl, hc, hv]

theorem noBad {m : Msg} (h : Http.Spec.GoodMethod m.methodLine) : m.methodLine.any badMethodChar = false := by
  rw [List.any_eq_false]
  intro c hc
  have key : ∀ c : UInt8, (c = 9 ∨ (32 ≤ c ∧ c ≠ 127)) → ¬ badMethodChar c = true :=
    forall_u8 (by decide +kernel)
  exact key c (h.noControl c hc)

/-- The header lines of a message with a compressed body. -/
def zipLines (others : Table) (body : Bytes) : List Bytes :=
  (sent others ++ [(sContentEncoding, sGzip)]).map (fun e => entryLine e.1 e.2) ++
    [entryLine sContentLength (natDec body.length)]

theorem compose_zip (gz : Bytes → Bytes) (m : Msg) (others : Table) (h : Asks m others)
    (hc : m.content ≠ []) (hz : gz m.content ≠ []) :
    Http.compose gz m = some (m.methodLine ++ crlf ++
      ((zipLines others (gz m.content)).flatMap (fun l => l ++ crlf) ++ (crlf ++ gz m.content))) := by
  obtain ⟨pre, post, ce, v, ht, ho, h1, h0, h2⟩ := h.table
  obtain ⟨he, hw⟩ := zip_entry h1 h0 h2
  unfold Http.compose
  rw [noBad h.good.method]
  have hany : m.table.any wantsGzip = true := by rw [ht]; simp [hw]
  have hcne : m.content.isEmpty = false := by cases hx : m.content with
    | nil => exact absurd hx hc
    | cons _ _ => rfl
  have htab : m.table.flatMap composeEntry = others.flatMap composeEntry := by
    rw [ht, ho]; simp [he]
  simp only [Bool.false_eq_true, if_false, hany, hcne, Bool.not_false, Bool.and_self, if_true, ne_eq, hz,
    not_false_eq_true]
  rw [htab, flatMap_composeEntry others h.good.ordinary]
  unfold zipLines
  have eg : escape sGzip valueSpecial 92 = sGzip := by decide +kernel
  rw [List.flatMap_append, List.map_append, List.flatMap_append]
  simp only [List.flatMap_cons, List.flatMap_nil, List.map_cons, List.map_nil, entryLine, escape_natDec, eg,
    List.append_assoc, List.nil_append, List.append_nil]

theorem compose_plain (gz : Bytes → Bytes) (m : Msg) (others : Table) (h : Asks m others)
    (hz : m.content = [] ∨ gz m.content = []) :
    Http.compose gz m = Http.compose gz { m with table := others } := by
  rw [compose_eq gz _ h.good]
  obtain ⟨pre, post, ce, v, ht, ho, h1, h0, h2⟩ := h.table
  obtain ⟨he, hw⟩ := zip_entry h1 h0 h2
  have htab : m.table.flatMap composeEntry = others.flatMap composeEntry := by
    rw [ht, ho]; simp [he]
  have hg : (if (m.table.any wantsGzip && !m.content.isEmpty) = true then gz m.content else []) = [] := by
    rcases hz with hz | hz
    · rw [hz]; simp
    · rw [hz]; simp
  unfold Http.compose
  simp only [hg, noBad h.good.method, Bool.false_eq_true, if_false, ne_eq, not_true_eq_false]
  rw [htab, flatMap_composeEntry others h.good.ordinary]
  unfold headerLines
  rw [List.flatMap_append]
  simp only [List.flatMap_cons, List.flatMap_nil, entryLine, escape_natDec, List.append_assoc,
    List.nil_append, List.append_nil]

/-! ## The message that is read -/

/-- The table the reader has. -/
def zipTable (others : Table) (body : Bytes) : Table :=
  Table.set sContentLength (natDec body.length)
    (Table.set sContentEncoding sGzip ((sent others).map (fun e => (e.1, Http.Spec.carried e.2))))

theorem goodName_contentEncoding : Http.Spec.GoodName sContentEncoding := by
  refine ⟨by decide +kernel, by decide +kernel, by decide +kernel, by decide +kernel, ?_, by decide +kernel⟩
  intro c hc
  have : c = 67 := by
    have h : sContentEncoding.head? = some 67 := by decide +kernel
    rw [h] at hc; injection hc with hc; exact hc.symm
  subst this; decide

theorem fold_zip (m : Msg) (others : Table) (h : Asks m others) (body : Bytes) :
    ∃ nm, (zipLines others body).foldl headerLine { methodLine := m.methodLine } =
      { methodLine := m.methodLine, table := zipTable others body, name := nm } := by
  unfold zipLines
  rw [List.foldl_append]
  obtain ⟨nm, e⟩ := foldl_headerLine { methodLine := m.methodLine }
    (sent others ++ [(sContentEncoding, sGzip)]) (by
    intro e he
    rcases List.mem_append.mp he with he | he
    · have := h.good.ordinary e (List.mem_filter.mp he).1
      exact ⟨this.name, this.notCookie⟩
    · rw [List.mem_singleton] at he; subst he
      exact ⟨goodName_contentEncoding, by unfold Http.Spec.sameName; decide +kernel⟩)
  rw [e]
  simp only [List.foldl_cons, List.foldl_nil]
  rw [headerLine_entry _ _ _ goodName_contentLength (by unfold Http.Spec.sameName; decide +kernel)]
  refine ⟨sContentLength, ?_⟩
  have hc : Http.Spec.carried sGzip = sGzip := by decide +kernel
  simp only [List.foldl_append, List.foldl_cons, List.foldl_nil]
  rw [foldl_set_sorted [] (sent others) (sent_sorted h.good.sorted), carried_natDec, hc]
  rfl

theorem base_sorted (m : Msg) (others : Table) (h : Asks m others) :
    Table.Sorted ((sent others).map (fun e => (e.1, Http.Spec.carried e.2))) :=
  arrived_base_sorted { m with table := others } h.good

theorem find_zip (m : Msg) (others : Table) (h : Asks m others) (body n : Bytes) :
    (zipTable others body).find n =
      if sToLower n = sToLower sContentLength then some (natDec body.length)
      else if sToLower n = sToLower sContentEncoding then some sGzip
      else (Table.find n others).map Http.Spec.carried := by
  unfold zipTable
  rw [Table.find_set _ _ _ _ (Table.set_sorted _ _ (base_sorted m others h))]
  split
  · rfl
  · rename_i hn
    rw [Table.find_set _ _ _ _ (base_sorted m others h)]
    split
    · rfl
    · rw [Http.Props.find_map, Http.Props.find_sent _ _ (fun e he => (h.good.ordinary e he).name.noNul) hn]

theorem find_zip_chunked (m : Msg) (others : Table) (h : Asks m others) (body v : Bytes)
    (hv : (zipTable others body).find sTransferEncoding = some v) : sIEquals v sChunked = false := by
  rw [find_zip m others h, if_neg (by decide +kernel), if_neg (by decide +kernel)] at hv
  refine find_arrived_chunked { m with table := others } h.good v ?_
  rw [Http.Props.find_arrived _ h.good, if_neg (by decide +kernel)]
  exact hv

theorem parse_zip (m : Msg) (others : Table) (h : Asks m others) (body rest : Bytes)
    (hs : body.length < 2 ^ 31) :
    parse (m.methodLine ++ crlf ++ ((zipLines others body).flatMap (fun l => l ++ crlf) ++
        (crlf ++ body)) ++ rest) =
      .ok (m.methodLine ++ crlf ++ ((zipLines others body).flatMap (fun l => l ++ crlf) ++
        (crlf ++ body))).length
        { methodLine := m.methodLine, table := zipTable others body, content := body } := by
  unfold parse
  generalize ht : (m.methodLine ++ crlf ++ ((zipLines others body).flatMap (fun l => l ++ crlf) ++
        (crlf ++ body)) ++ rest).length = total
  obtain ⟨hl, hb, htrim⟩ := method_line { m with table := others } h.good
  rw [List.append_assoc _ _ rest, List.append_assoc _ _ rest,
    run_line total {} m.methodLine _ hl rfl (.inr hb)]
  have ea : advance {} m.methodLine = { methodLine := m.methodLine } := by
    unfold advance; rw [if_pos rfl, htrim]
  rw [ea, run_lines total _ _ _ (by
    intro l hl
    unfold zipLines at hl
    simp only [List.map_append, List.mem_append, List.mem_map, List.mem_singleton] at hl
    rcases hl with (⟨e, he, rfl⟩ | ⟨e, he, rfl⟩) | rfl
    · exact entryLine_line _ _ (h.good.ordinary e (List.mem_filter.mp he).1).name
    · subst he; exact entryLine_line _ _ goodName_contentEncoding
    · exact entryLine_line _ _ goodName_contentLength) rfl h.good.method.nonempty]
  obtain ⟨nm, en⟩ := fold_zip m others h body
  rw [en]
  have hrb : run total { methodLine := m.methodLine, table := zipTable others body, name := nm }
      (crlf ++ body ++ rest) = finish total
        { methodLine := m.methodLine, table := zipTable others body, name := nm } (crlf ++ body ++ rest) := by
    have ec : crlf ++ body ++ rest = 13 :: (10 :: (body ++ rest)) := by simp [crlf]
    rw [ec]
    apply run_stop (by simp)
    unfold onInput
    have e := takeWhile_line (l := []) (by simp) 13 (10 :: (body ++ rest)) (by decide)
    simp only [List.nil_append] at e
    simp only [e.1, e.2]
    rw [if_neg (by simp)]
    simp only [if_true]
    unfold onBlank
    simp only
    rw [if_neg h.good.method.nonempty]
    simp only [Bool.false_eq_true, if_false]
    cases hf : (zipTable others body).find sTransferEncoding with
    | none => rfl
    | some v => simp [find_zip_chunked m others h body v hf]
  rw [hrb]
  have et : eatTwo (crlf ++ body ++ rest) = body ++ rest := by simp [crlf, eatTwo, isEol]
  unfold finish
  simp only [find_zip m others h, if_true]
  rw [stoll_natDec _ (by omega)]
  simp only
  rw [toInt32_small _ hs, et, if_neg (by rw [List.length_append]; omega), if_neg (by omega)]
  subst ht
  simp only [Int.toNat_natCast, List.take_left', List.length_append]
  congr 1
  omega

/-- C122.  Whatever the compressor answers, if it is not empty the reader gets it as the body, is
told that it is compressed, and gets every other header unchanged. -/
theorem c122_carried (gz : Bytes → Bytes) (m : Msg) (others : Table) (h : Asks m others)
    (rest : Bytes) (hc : m.content ≠ []) (hz : gz m.content ≠ []) (hs : (gz m.content).length < 2 ^ 31) :
    ∃ b m', Http.compose gz m = some b ∧ parse (b ++ rest) = .ok b.length m' ∧
      m'.methodLine = m.methodLine ∧ m'.content = gz m.content ∧
      ∀ name, Table.find name m'.table =
        if sToLower name = sToLower (str "Content-Length") then some (natDec (gz m.content).length)
        else if sToLower name = sToLower (str "Content-Encoding") then some (str "gzip")
        else Table.find name others := by
  refine ⟨_, _, compose_zip gz m others h hc hz, parse_zip m others h (gz m.content) rest hs, rfl, rfl, ?_⟩
  intro n
  show Table.find n (zipTable others (gz m.content)) = _
  rw [find_zip m others h]
  show (if _ then _ else if _ then _ else _) = (if _ then _ else if _ then _ else _)
  congr 2
  cases hf : Table.find n others with
  | none => rfl
  | some v =>
    obtain ⟨k, hk, _⟩ := Table.find_some_mem hf
    simp only [Option.map_some]
    rw [carried_good (h.values _ hk)]

/-! ## `SGZip` -/

theorem u32_small {n : Nat} (h : n < 2 ^ 32) : u32 n = n := Nat.mod_eq_of_lt h

theorem room_small {n : Nat} (h : n ≤ 4000000000) : room n = n + n / 1000 + 20 := by
  unfold room; apply u32_small; omega

/-- C122.  When the complete stream fits into the buffer, it is what `SGZip` returns. -/
theorem sgzip_fits (z : Zlib) (x : Bytes) (hd : z.deflates = true) (hx : x.length ≤ 4000000000)
    (hf : Fits z x) : sgzip z x = z.stream x := by
  unfold sgzip
  simp only [hd, Bool.not_true, Bool.false_eq_true, if_false]
  rw [u32_small (by omega), List.take_length, room_small hx]
  unfold deflate
  rw [if_neg (by omega), if_pos (show (z.stream x).length ≤ _ from hf)]

theorem sgzip_cut (z : Zlib) (x : Bytes) (hd : z.deflates = true) (hx : x.length ≤ 4000000000)
    (hf : ¬ Fits z x) (hb : z.busy x (x.length + x.length / 1000 + 20) = false) :
    sgzip z x = (z.stream x).take (x.length + x.length / 1000 + 20) := by
  unfold sgzip
  simp only [hd, Bool.not_true, Bool.false_eq_true, if_false]
  rw [u32_small (by omega), List.take_length, room_small hx]
  unfold deflate
  rw [if_neg (by omega), if_neg (show ¬ (z.stream x).length ≤ _ from hf)]
  simp [hb]

theorem stream_ne (z : Zlib) (hz : Lawful z) (x : Bytes) : z.stream x ≠ [] := by
  intro e
  have h := hz.reads x []
  have h' := hz.reads x (z.stream (0 :: x))
  rw [e, List.nil_append] at h h'
  have r := hz.reads (0 :: x) []
  rw [List.append_nil, h'] at r
  have := congrArg (fun i => i.out.length) r
  simp at this

/-- C122.  A reader that asked for compression gets a complete stream of exactly the content, and is
told so — provided the stream fits into the buffer, which is where the code falls short
(`c122_truncated`). -/
theorem c122_whole_partial (z : Zlib) (hz : Lawful z) (m : Msg) (others : Table) (h : Asks m others)
    (rest : Bytes) (hd : z.deflates = true) (hc : m.content ≠ []) (hl : m.content.length ≤ 2000000000)
    (hf : Fits z m.content) :
    ∃ b m', compose z m = some b ∧ parse (b ++ rest) = .ok b.length m' ∧
      m'.methodLine = m.methodLine ∧
      Table.find (str "content-encoding") m'.table = some (str "gzip") ∧
      z.inflate m'.content = ⟨m.content, .done, []⟩ := by
  have e := sgzip_fits z m.content hd (by omega) hf
  have hlen := hf
  unfold Fits at hlen
  obtain ⟨b, m', h1, h2, h3, h4, h5⟩ := c122_carried (sgzip z) m others h rest hc
    (by rw [e]; exact stream_ne z hz _) (by rw [e]; omega)
  refine ⟨b, m', h1, h2, h3, ?_, ?_⟩
  · rw [h5, if_neg (by decide +kernel), if_pos (by decide +kernel)]
  · rw [h4, e, ← List.append_nil (z.stream _)]; exact hz.reads _ _

/-- C122.  When compression fails, or there is nothing to compress, the reader gets the content
itself and is not told of any compression. -/
theorem c122_plain (z : Zlib) (m : Msg) (others : Table) (h : Asks m others) (rest : Bytes)
    (hf : z.deflates = false ∨ m.content = [] ∨
      (m.content.length ≤ 4000000000 ∧ ¬ Fits z m.content ∧
        z.busy m.content (m.content.length + m.content.length / 1000 + 20) = true)) :
    ∃ b m', compose z m = some b ∧ parse (b ++ rest) = .ok b.length m' ∧
      m'.methodLine = m.methodLine ∧ m'.content = m.content ∧
      Table.find (str "content-encoding") m'.table = none := by
  have hz : m.content = [] ∨ sgzip z m.content = [] := by
    rcases hf with hf | hf | ⟨h1, h2, h3⟩
    · right; unfold sgzip; simp [hf]
    · exact .inl hf
    · right
      unfold sgzip
      cases hd : z.deflates with
      | false => simp
      | true =>
        simp only [Bool.not_true, Bool.false_eq_true, if_false]
        rw [u32_small (by omega), List.take_length, room_small h1]
        unfold deflate
        rw [if_neg (by omega), if_neg (show ¬ (z.stream m.content).length ≤ _ from h2)]
        simp [h3]
  have hc := compose_plain (sgzip z) m others h hz
  obtain ⟨b, hb⟩ := Http.Props.c22_composes (sgzip z) { m with table := others } h.good
  obtain ⟨m', h1, h2, h3, h4⟩ := Http.Props.c22_round_trip (sgzip z) { m with table := others } b rest h.good
    h.values hb
  refine ⟨b, m', hc.trans hb, h1, h2, h3, ?_⟩
  rw [h4, if_neg (by decide +kernel)]
  cases hf : Table.find (str "content-encoding") others with
  | none => rfl
  | some v =>
    obtain ⟨k, hk, hn⟩ := Table.find_some_mem hf
    refine absurd ?_ (h.once _ hk)
    exact hn.trans (by decide +kernel)

/-- C122, where the code falls short.  When the complete stream does not fit into the buffer and only
its end is missing, the beginning that fits is sent as if it were complete: the reader is told that
the body is compressed and how long it is, and cannot decompress it. -/
theorem c122_truncated (z : Zlib) (hz : Lawful z) (m : Msg) (others : Table) (h : Asks m others)
    (rest : Bytes) (hd : z.deflates = true) (hc : m.content ≠ []) (hl : m.content.length ≤ 2000000000)
    (hf : ¬ Fits z m.content)
    (hb : z.busy m.content (m.content.length + m.content.length / 1000 + 20) = false) :
    ∃ b m' y s, compose z m = some b ∧ parse (b ++ rest) = .ok b.length m' ∧
      Table.find (str "content-encoding") m'.table = some (str "gzip") ∧
      m'.content <+: z.stream m.content ∧ m'.content ≠ z.stream m.content ∧
      z.inflate m'.content = ⟨y, .more, s⟩ := by
  have e := sgzip_cut z m.content hd (by omega) hf hb
  unfold Fits at hf
  have hlt : (sgzip z m.content).length = m.content.length + m.content.length / 1000 + 20 := by
    rw [e, List.length_take]; omega
  obtain ⟨b, m', h1, h2, h3, h4, h5⟩ := c122_carried (sgzip z) m others h rest hc
    (by intro hx; rw [hx] at hlt; simp at hlt) (by omega)
  have hdrop : (z.stream m.content).drop (m.content.length + m.content.length / 1000 + 20) ≠ [] := by
    intro hx
    have := congrArg List.length hx
    simp only [List.length_drop, List.length_nil] at this; omega
  obtain ⟨y, s, h6, _⟩ := hz.cut m.content _ _ (List.take_append_drop
    (m.content.length + m.content.length / 1000 + 20) (z.stream m.content)) hdrop
  refine ⟨b, m', y, s, h1, h2, ?_, ?_, ?_, ?_⟩
  · rw [h5, if_neg (by decide +kernel), if_pos (by decide +kernel)]
  · rw [h4, e]; exact List.take_prefix _ _
  · rw [h4]; intro hx
    rw [hx] at hlt; omega
  · rw [h4, e]; exact h6

/-- C122, where it happens.  zlib writes a short text that it cannot compress as one stored block,
which takes 23 bytes more than the text.  The buffer has only 20 more, until the text has 3000
bytes. -/
theorem c122_short_texts (z : Zlib) (x : Bytes) (hs : (z.stream x).length = x.length + 23) :
    Fits z x ↔ 3000 ≤ x.length := by
  unfold Fits; omega

/-- C122.  The library of `Spec/Gzip.lean`, which keeps the promises of the format, stores every
text; with it every short content is cut. -/
theorem c122_stored (m : Msg) (others : Table) (h : Asks m others) (rest : Bytes)
    (hc : m.content ≠ []) (hl : m.content.length < 3000) :
    ∃ b m' y s, compose stored m = some b ∧ parse (b ++ rest) = .ok b.length m' ∧
      Table.find (str "content-encoding") m'.table = some (str "gzip") ∧
      stored.inflate m'.content = ⟨y, .more, s⟩ := by
  have hf : ¬ Fits stored m.content := by
    rw [c122_short_texts stored _ (Spec.stored_length _ (by omega))]; omega
  obtain ⟨b, m', y, s, h1, h2, h3, _, _, h4⟩ := c122_truncated stored Spec.stored_lawful m others h rest rfl hc
    (by omega) hf rfl
  exact ⟨b, m', y, s, h1, h2, h3, h4⟩

/-- C122.  Content of 2^32 bytes or more is compressed only as far as its size modulo 2^32 reaches:
the rest is lost without an error. -/
theorem c122_wrapped (z : Zlib) (hz : Lawful z) (x : Bytes) (hd : z.deflates = true)
    (hx : 2 ^ 32 ≤ x.length) (hn : x.length % 2 ^ 32 ≤ 4000000000)
    (hf : Fits z (x.take (x.length % 2 ^ 32))) :
    z.inflate (sgzip z x) = ⟨x.take (x.length % 2 ^ 32), .done, []⟩ ∧
      x.take (x.length % 2 ^ 32) ≠ x := by
  have hlt : x.length % 2 ^ 32 < 2 ^ 32 := Nat.mod_lt _ (by omega)
  have hl : (x.take (x.length % 2 ^ 32)).length = x.length % 2 ^ 32 := by
    rw [List.length_take]; omega
  refine ⟨?_, fun e => by rw [e] at hl; omega⟩
  have e : sgzip z x = sgzip z (x.take (x.length % 2 ^ 32)) := by
    unfold sgzip
    simp only [hl]
    have : u32 (x.length % 2 ^ 32) = u32 x.length := by unfold u32; omega
    rw [this]
    have ht : (x.take (x.length % 2 ^ 32)).take (u32 x.length) = x.take (u32 x.length) := by
      rw [List.take_take]; congr 1; unfold u32; omega
    rw [ht]
  rw [e, sgzip_fits z _ hd (by rw [hl]; exact hn) hf, ← List.append_nil (z.stream _)]
  exact hz.reads _ _

/-! ## `SGUnzip` -/

theorem pieces_eq (v : Verdict) (fuel : Nat) : ∀ left data : Bytes, left.length < fuel →
    pieces v fuel left data = if v = .bad then none else some (data ++ left) := by
  induction fuel with
  | zero => intro _ _ h; omega
  | succ fuel ih =>
    intro left data h
    unfold pieces
    split
    · rename_i hc
      have : 0 < chunk := by decide
      rw [ih _ _ (by rw [List.length_drop]; omega), List.append_assoc, List.take_append_drop]
    · rfl

theorem sgunzip_eq (z : Zlib) (x : Bytes) (hi : z.inflates = true) (hx : x.length < 2 ^ 32) :
    sgunzip z x = if (z.inflate x).verdict = .bad then [] else (z.inflate x).out := by
  unfold sgunzip
  simp only [hi, Bool.not_true, Bool.false_eq_true, if_false]
  rw [u32_small hx, List.take_length, pieces_eq _ _ _ _ (Nat.lt_succ_self _)]
  split <;> simp

/-- C122.  `SGUnzip` gives back the text of a complete stream, however many pieces it takes; what
follows the stream is ignored. -/
theorem c122_unzip (z : Zlib) (hz : Lawful z) (x r : Bytes) (hi : z.inflates = true)
    (hl : (z.stream x ++ r).length < 2 ^ 32) : sgunzip z (z.stream x ++ r) = x := by
  rw [sgunzip_eq z _ hi hl, hz.reads, if_neg (by simp)]

/-- C122.  Hence the two functions are inverse when the stream fits. -/
theorem c122_inverse_partial (z : Zlib) (hz : Lawful z) (x : Bytes) (hd : z.deflates = true)
    (hi : z.inflates = true) (hx : x.length ≤ 4000000000) (hf : Fits z x) :
    sgunzip z (sgzip z x) = x := by
  have := hf
  unfold Fits at this
  rw [sgzip_fits z x hd hx hf, ← List.append_nil (z.stream x)]
  exact c122_unzip z hz x [] hi (by rw [List.append_nil]; omega)

/-- C122.  Data that is not gzip gives the empty text. -/
theorem c122_unzip_bad (z : Zlib) (x : Bytes) (hx : x.length < 2 ^ 32)
    (hb : (z.inflate x).verdict = .bad) : sgunzip z x = [] := by
  cases hi : z.inflates with
  | false => unfold sgunzip; simp [hi]
  | true => rw [sgunzip_eq z x hi hx, if_pos hb]

/-- C122, where the code falls short.  A stream that is cut short is no error: the caller gets the
beginning of the text that could be read. -/
theorem c122_unzip_cut (z : Zlib) (hz : Lawful z) (x p q : Bytes) (h : p ++ q = z.stream x) (hq : q ≠ [])
    (hi : z.inflates = true) (hp : p.length < 2 ^ 32) :
    ∃ y s, sgunzip z p = y ∧ y <+: x ∧ z.inflate p = ⟨y, .more, s⟩ := by
  obtain ⟨y, s, h1, h2⟩ := hz.cut x p q h hq
  exact ⟨y, s, by rw [sgunzip_eq z p hi hp, h1, if_neg (by simp)], h2, h1⟩

/-! ## Examples -/

example : Lawful stored := Spec.stored_lawful

/-- The checksum is the one of RFC 1952. -/
example : Spec.crc (str "123456789") = 0xCBF43926 := by decide +kernel

/-- Texts that fit. -/
example (x : Bytes) (h : 3000 ≤ x.length) (h' : x.length ≤ 65535) : Fits stored x := by
  rw [c122_short_texts stored _ (Spec.stored_length _ h')]; exact h

/-- A message that asks for compression. -/
def sample : Msg :=
  { methodLine := str "200 OK"
    table := [(str "a", str "b"), (str "Content-Encoding", str "gzip"), (str "x", str "y")]
    content := List.replicate 100 255 }

theorem sample_asks : Asks sample [(str "a", str "b"), (str "x", str "y")] where
  table := ⟨[(str "a", str "b")], [(str "x", str "y")], str "Content-Encoding", str "gzip", rfl, rfl,
    rfl, by decide +kernel, by unfold Http.Spec.sameName; decide +kernel⟩
  once := by unfold Http.Spec.sameName; decide +kernel
  good := by
    refine ⟨⟨by decide +kernel, by decide +kernel, by decide +kernel, by decide +kernel⟩, ?_, ?_, by
      show (List.replicate 100 (255 : UInt8)).length < 2 ^ 31; simp⟩
    · intro e he
      simp only [List.mem_cons, List.not_mem_nil, or_false] at he
      rcases he with rfl | rfl
      · refine ⟨⟨by decide +kernel, by decide +kernel, by decide +kernel, by decide +kernel, ?_, by decide +kernel⟩,
          by unfold Http.Spec.sameName; decide +kernel, by unfold Http.Spec.sameName; decide +kernel,
          by unfold Http.Spec.sameName; decide +kernel⟩
        intro c hc
        have h : (str "a").head? = some 97 := by decide +kernel
        rw [h] at hc; injection hc with hc; subst hc; decide
      · refine ⟨⟨by decide +kernel, by decide +kernel, by decide +kernel, by decide +kernel, ?_, by decide +kernel⟩,
          by unfold Http.Spec.sameName; decide +kernel, by unfold Http.Spec.sameName; decide +kernel,
          by unfold Http.Spec.sameName; decide +kernel⟩
        intro c hc
        have h : (str "x").head? = some 120 := by decide +kernel
        rw [h] at hc; injection hc with hc; subst hc; decide
    · show List.Pairwise _ [(str "a", str "b"), (str "x", str "y")]
      simp only [List.pairwise_cons, List.mem_cons, List.not_mem_nil, or_false, forall_eq, List.Pairwise.nil,
        and_true, false_implies, implies_true]
      decide +kernel
  values := by
    intro e he
    simp only [List.mem_cons, List.not_mem_nil, or_false] at he
    rcases he with rfl | rfl
    · exact ⟨by decide +kernel, by decide +kernel, by decide +kernel⟩
    · exact ⟨by decide +kernel, by decide +kernel, by decide +kernel⟩

/-- A hundred bytes that are stored are sent cut. -/
example : ∃ b m' y s, compose stored sample = some b ∧ parse (b ++ []) = .ok b.length m' ∧
    Table.find (str "content-encoding") m'.table = some (str "gzip") ∧
    stored.inflate m'.content = ⟨y, .more, s⟩ :=
  c122_stored sample _ sample_asks [] (by simp [sample]) (by simp [sample])

/-- A library that cannot start: the content is sent as it is. -/
example : ∃ b m', compose { stored with deflates := false } sample = some b ∧
    parse (b ++ []) = .ok b.length m' ∧ m'.methodLine = sample.methodLine ∧
    m'.content = sample.content ∧ Table.find (str "content-encoding") m'.table = none :=
  c122_plain _ sample _ sample_asks [] (.inl rfl)

/-- Longer content of the same message is sent whole. -/
example (c : Bytes) (h : 3000 ≤ c.length) (h' : c.length ≤ 65535) :
    ∃ b m', compose stored { sample with content := c } = some b ∧
    parse (b ++ []) = .ok b.length m' ∧ m'.methodLine = sample.methodLine ∧
    Table.find (str "content-encoding") m'.table = some (str "gzip") ∧
    stored.inflate m'.content = ⟨c, .done, []⟩ :=
  c122_whole_partial stored Spec.stored_lawful { sample with content := c } [(str "a", str "b"), (str "x", str "y")]
    ⟨sample_asks.table, sample_asks.once, ⟨sample_asks.good.method, sample_asks.good.ordinary,
      sample_asks.good.sorted, Nat.lt_of_le_of_lt h' (by omega)⟩, sample_asks.values⟩ [] rfl
    (by intro e; dsimp only at e; rw [e] at h; simp at h) (Nat.le_trans h' (by omega)) (by
      rw [c122_short_texts stored _ (Spec.stored_length _ h')]; exact h)

end Bedrock.Gzip.Props
