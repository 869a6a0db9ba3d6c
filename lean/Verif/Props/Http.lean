import Verif.Lemmas.Http

/-!
# Properties of the message format: C22, C23, C24
-/

namespace Bedrock.Http.Props
open Bedrock.Text Bedrock.Http

/-! ## Looking up headers in the parsed table -/

theorem find_map (t : Table) (f : Bytes → Bytes) (n : Bytes) :
    Table.find n (t.map (fun e => (e.1, f e.2))) = (Table.find n t).map f := by
  induction t with
  | nil => rfl
  | cons e t ih =>
    simp only [List.map_cons, Table.find]
    split
    · exact ih
    · rfl

theorem find_sent (t : Table) (n : Bytes) (hg : ∀ e ∈ t, 0 ∉ e.1)
    (hn : ¬ Spec.sameName n sContentLength) : Table.find n (sent t) = Table.find n t := by
  induction t with
  | nil => rfl
  | cons e t ih =>
    have ih := ih (fun x hx => hg x (by simp [hx]))
    unfold sent at ih ⊢
    rw [List.filter_cons]
    cases hcl : sIEquals sContentLength e.1 with
    | false =>
      simp only [Bool.not_false, if_true, Table.find]
      rw [ih]
    | true =>
      simp only [Bool.not_true, Bool.false_eq_true, if_false, Table.find]
      have he : sToLower e.1 = sToLower sContentLength := by
        rw [sIEquals_comm] at hcl
        exact (sIEquals_good (hg e (by simp)) sContentLength (by decide +kernel)).mp hcl
      rw [ih, if_pos]
      cases x : keyLt n e.1 || keyLt e.1 n with
      | true => rfl
      | false => exact absurd (((key_eq_iff n e.1).mp x).trans he) hn

theorem find_arrived (m : Msg) (h : Spec.GoodMsg m) (n : Bytes) :
    Table.find n (arrived m) =
      if sToLower n = sToLower sContentLength then some (natDec m.content.length)
      else (Table.find n m.table).map Spec.carried := by
  unfold arrived
  rw [Table.find_set _ _ _ _ (arrived_base_sorted m h)]
  split
  · rfl
  · rename_i hn
    rw [find_map, find_sent _ _ (fun e he => (h.ordinary e he).name.noNul) hn]

/-! ## C22: round trip -/

/-- C22.  A good message can always be composed. -/
theorem c22_composes (gz : Bytes → Bytes) (m : Msg) (h : Spec.GoodMsg m) :
    ∃ b, compose gz m = some b := ⟨_, compose_eq gz m h⟩

/-- C22.  Parsing a composed message gives back the method line, the content (any bytes) and every
header value (any bytes but NUL, not beginning or ending with a blank), and consumes exactly the
bytes composed, whatever follows them.  `Content-Length` always holds the length of the content. -/
theorem c22_round_trip (gz : Bytes → Bytes) (m : Msg) (b rest : Bytes) (h : Spec.GoodMsg m)
    (hv : ∀ e ∈ m.table, Spec.GoodValue e.2) (hc : compose gz m = some b) :
    ∃ m', parse (b ++ rest) = .ok b.length m' ∧
      m'.methodLine = m.methodLine ∧ m'.content = m.content ∧
      ∀ name, Table.find name m'.table =
        if sToLower name = sToLower (str "Content-Length") then some (natDec m.content.length)
        else Table.find name m.table := by
  rw [compose_eq gz m h] at hc
  injection hc with hc
  have hb : bytes m = b := hc
  have := parse_msg m h [] rest (.inl rfl)
  rw [hb] at this
  refine ⟨received m, by simpa using this, rfl, rfl, ?_⟩
  intro n
  show Table.find n (arrived m) = _
  rw [find_arrived m h]
  by_cases hn : sToLower n = sToLower sContentLength
  · rw [if_pos hn, if_pos (by exact hn)]
  · rw [if_neg hn, if_neg (by exact hn)]
    cases hf : Table.find n m.table with
    | none => rfl
    | some v =>
      obtain ⟨k, hk, _⟩ := Table.find_some_mem hf
      simp only [Option.map_some]
      rw [carried_good (hv _ hk)]

/-- C22.  Names keep their spelling. -/
theorem c22_names_kept (m : Msg) (rest : Bytes) (h : Spec.GoodMsg m) (gz : Bytes → Bytes) (b : Bytes)
    (hc : compose gz m = some b) (e : Bytes × Bytes) (he : e ∈ m.table)
    (hn : ¬ Spec.sameName e.1 (str "Content-Length")) :
    ∃ k m', parse (b ++ rest) = .ok k m' ∧ ∃ v, (e.1, v) ∈ m'.table := by
  rw [compose_eq gz m h] at hc
  injection hc with hc
  have hb : bytes m = b := hc
  have := parse_msg m h [] rest (.inl rfl)
  rw [hb] at this
  refine ⟨_, received m, by simpa using this, Spec.carried e.2, ?_⟩
  show _ ∈ arrived m
  unfold arrived
  have hmem : (e.1, Spec.carried e.2) ∈ (sent m.table).map (fun e => (e.1, Spec.carried e.2)) := by
    rw [List.mem_map]
    refine ⟨e, ?_, rfl⟩
    unfold sent
    rw [List.mem_filter]
    refine ⟨he, ?_⟩
    cases x : sIEquals sContentLength e.1 with
    | false => rfl
    | true =>
      rw [sIEquals_comm] at x
      exact absurd ((sIEquals_good (h.ordinary e he).name.noNul sContentLength (by decide +kernel)).mp x) hn
  have key : ∀ (t : Table) (v : Bytes), (e.1, Spec.carried e.2) ∈ t →
      (e.1, Spec.carried e.2) ∈ Table.set sContentLength v t := by
    intro t v
    induction t with
    | nil => simp
    | cons x t ih =>
      intro hx
      simp only [Table.set]
      simp only [List.mem_cons] at hx
      split
      · simp only [List.mem_cons]; rcases hx with hx | hx
        · exact .inr (.inl hx)
        · exact .inr (.inr hx)
      · split
        · simp only [List.mem_cons]; rcases hx with hx | hx
          · exact .inl hx
          · exact .inr (ih hx)
        · rename_i h1 h2
          rcases hx with hx | hx
          · have := (key_eq_iff x.1 sContentLength).mp (by simp [h1, h2])
            rw [← hx] at this
            exact absurd this hn
          · simp [hx]
  exact key _ _ hmem

/-- A message with two headers, one value with CR, LF, tab, backslash and colon, and content with
NUL, CR and LF. -/
def exMsg : Msg :=
  { methodLine := str "Query"
    table := [(str "query", str "SELECT 1;\r\nX: 1\\n\t"), (str "writeConsistency", str "ASYNC")]
    content := [0, 13, 10, 13, 10, 255] }

theorem goodName_of (n : Bytes) (h : n ≠ [] ∧ (∀ c ∈ n, c ≠ 13 ∧ c ≠ 10) ∧ 58 ∉ n ∧ 0 ∉ n ∧
    n.headD 32 ∉ ([9, 11, 12, 32] : Bytes) ∧ n.getLast? ≠ some 32) : Spec.GoodName n := by
  refine ⟨h.1, h.2.1, h.2.2.1, h.2.2.2.1, ?_, h.2.2.2.2.2⟩
  intro c hc
  cases n with
  | nil => simp at hc
  | cons d n => simp at hc; subst hc; exact h.2.2.2.2.1

theorem exMsg_good : Spec.GoodMsg exMsg := by
  refine ⟨⟨by decide +kernel, by decide +kernel, by decide +kernel, by decide +kernel⟩, ?_,
    by decide +kernel, by decide +kernel⟩
  intro e he
  simp only [exMsg, List.mem_cons, List.not_mem_nil, or_false] at he
  rcases he with rfl | rfl
  all_goals
    refine ⟨goodName_of _ (by decide +kernel), ?_, ?_, ?_⟩ <;> unfold Spec.sameName <;> decide +kernel

example : ∃ b, compose id exMsg = some b ∧ ∃ m', parse (b ++ str "GET / HTTP/1.1") = .ok b.length m' ∧
    m'.content = exMsg.content ∧
    Table.find (str "QUERY") m'.table = some (str "SELECT 1;\r\nX: 1\\n\t") := by
  obtain ⟨b, hb⟩ := c22_composes id exMsg exMsg_good
  obtain ⟨m', h1, _, h3, h4⟩ := c22_round_trip id exMsg b (str "GET / HTTP/1.1") exMsg_good (by
    intro e he
    simp only [exMsg, List.mem_cons, List.not_mem_nil, or_false] at he
    rcases he with rfl | rfl
    all_goals exact ⟨by decide +kernel, by decide +kernel, by decide +kernel⟩) hb
  refine ⟨b, hb, m', h1, h3, ?_⟩
  rw [h4, if_neg (by decide +kernel)]
  decide +kernel

/-- C22, why values must be trimmed: blanks at the ends of a value are lost. -/
theorem c22_blanks_lost :
    (compose id { methodLine := str "X", table := [(str "a", str " b ")] }).map parse =
      some (.ok 32 { methodLine := str "X"
                     table := [(str "a", str "b"), (str "Content-Length", str "0")] }) := by
  rw [parse_eq_parseF]
  decide +kernel

/-- C22, why the method line must not be empty: the first header becomes the method line. -/
theorem c22_empty_method_swallows_header :
    (compose id { methodLine := [], table := [(str "a", str "b")] }).map parse =
      some (.ok 29 { methodLine := str "a: b", table := [(str "Content-Length", str "0")] }) := by
  rw [parse_eq_parseF]
  decide +kernel

/-- C22, why `Transfer-Encoding: chunked` is excluded: the composer keeps the header but does not
chunk the content, so the receiver takes the content for chunk sizes. -/
theorem c22_chunked_header_breaks :
    (compose id { methodLine := str "X", table := [(str "Transfer-Encoding", str "chunked")]
                  content := str "abc" }).map parse = some .incomplete := by
  rw [parse_eq_parseF]
  decide +kernel

/-- C22, why `Content-Encoding: gzip` is excluded: without content the header is dropped. -/
theorem c22_gzip_header_lost :
    (compose id { methodLine := str "X", table := [(str "Content-Encoding", str "gzip")] }).map parse =
      some (.ok 24 { methodLine := str "X", table := [(str "Content-Length", str "0")] }) := by
  rw [parse_eq_parseF]
  decide +kernel

/-! ## C24: no injection through values -/

/-- C24.  Whatever bytes the header values contain, one message is parsed, exactly the composed
bytes are consumed, and every header has the value it was given up to the first NUL and without
blanks at the ends: no value changes another header, the method line or the content. -/
theorem c24_values_cannot_inject (gz : Bytes → Bytes) (m : Msg) (b rest : Bytes)
    (h : Spec.GoodMsg m) (hc : compose gz m = some b) :
    ∃ m', parse (b ++ rest) = .ok b.length m' ∧
      m'.methodLine = m.methodLine ∧ m'.content = m.content ∧
      ∀ name, Table.find name m'.table =
        if sToLower name = sToLower (str "Content-Length") then some (natDec m.content.length)
        else (Table.find name m.table).map Spec.carried := by
  rw [compose_eq gz m h] at hc
  injection hc with hc
  have hb : bytes m = b := hc
  have := parse_msg m h [] rest (.inl rfl)
  rw [hb] at this
  refine ⟨received m, by simpa using this, rfl, rfl, fun n => find_arrived m h n⟩

-- the value of `query` in `exMsg` looks like a second header; it does not become one
example : ∃ b m', compose id exMsg = some b ∧ parse b = .ok b.length m' ∧
    Table.find (str "X") m'.table = none := by
  obtain ⟨b, hb⟩ := c22_composes id exMsg exMsg_good
  obtain ⟨m', h1, _, _, h4⟩ := c24_values_cannot_inject id exMsg b [] exMsg_good hb
  refine ⟨b, m', hb, by simpa using h1, ?_⟩
  rw [h4, if_neg (by decide +kernel)]
  decide +kernel

/-- C24, limits: header *names* are written as they are, so a name can add a header. -/
theorem c24_name_injects :
    (compose id { methodLine := str "X", table := [(str "a: 1\r\nb", str "2")] }).map parse =
      some (.ok 36 { methodLine := str "X"
                     table := [(str "a", str "1"), (str "b", str "2"), (str "Content-Length", str "0")] }) := by
  rw [parse_eq_parseF]
  decide +kernel

/-- C24, limits: cookie values are not escaped, so a cookie can add a header. -/
theorem c24_cookie_injects :
    (compose id { methodLine := str "X", table := [(str "Set-Cookie", str "a=1\r\nb: 2")] }).map parse =
      some (.ok 47 { methodLine := str "X"
                     table := [(str "b", str "2"), (str "Content-Length", str "0"),
                               (str "Set-Cookie", str "a=1")] }) := by
  rw [parse_eq_parseF]
  decide +kernel

/-- Parser quirk: a line without a name overwrites the header before it. -/
theorem c24_nameless_line_overwrites :
    parse (str "X\r\na: 1\r\n: 2\r\n\r\n") =
      .ok 16 { methodLine := str "X", table := [(str "a", str "2")] } := by
  rw [parse_eq_parseF]
  decide +kernel

/-! ## C23: framing -/

/-- The receive loop on a buffer that holds some of the bytes still to come: it takes off complete
messages and leaves the beginning of the next. -/
theorem drain_spec (fuel : Nat) (ms : List Msg) (hm : ∀ m ∈ ms, Spec.GoodMsg m) (buf future q : Bytes)
    (hq : Gap q) (hfuel : buf.length ≤ fuel) (hb : buf ++ future = q ++ (ms.map bytes).flatten) :
    ∃ j q', j ≤ ms.length ∧ Gap q' ∧ (drain fuel buf).1 = (ms.take j).map received ∧
      (drain fuel buf).2 ++ future = q' ++ ((ms.drop j).map bytes).flatten ∧
      (∀ m, (ms.drop j).head? = some m → (drain fuel buf).2.length < (q' ++ bytes m).length) := by
  induction fuel generalizing ms buf q with
  | zero =>
    have hb0 : buf = [] := List.length_eq_zero_iff.mp (by omega)
    subst hb0
    refine ⟨0, q, by omega, hq, rfl, by simpa [drain] using hb, ?_⟩
    intro m _
    simp only [drain, List.length_nil, List.length_append, bytes, crlf, List.length_cons]
    omega
  | succ fuel ih =>
    cases ms with
    | nil =>
      -- only the gap can be in the buffer
      have hp : parse buf = .incomplete := by
        simp only [List.map_nil, List.flatten_nil, List.append_nil] at hb
        cases hq with
        | inl e =>
          subst e
          have : buf = [] := by simp at hb; exact hb.1
          subst this; unfold parse; exact run_nil _ _
        | inr e =>
          subst e
          cases buf with
          | nil => unfold parse; exact run_nil _ _
          | cons c buf =>
            simp at hb
            rw [hb.1, hb.2.1, parse_eq_parseF]
            decide +kernel
      refine ⟨0, q, by simp, hq, ?_, ?_, by simp⟩
      · simp [drain, hp]
      · simpa [drain, hp] using hb
    | cons m ms =>
      have hgm := hm m (by simp)
      have hblen : 0 < (bytes m).length := by
        simp only [bytes, List.length_append, crlf, List.length_cons]; omega
      have hb' : buf ++ future = (q ++ bytes m) ++ (ms.map bytes).flatten := by
        rw [hb]; simp
      rcases List.append_eq_append_iff.mp hb' with ⟨x, h1, h2⟩ | ⟨x, h1, h2⟩
      · by_cases hx : x = []
        · -- exactly the message
          subst hx
          rw [List.append_nil] at h1
          rw [List.nil_append] at h2
          have hp := parse_msg m hgm q [] hq
          rw [List.append_nil, h1] at hp
          have hl := congrArg List.length h1
          rw [List.length_append] at hl
          obtain ⟨k, hk⟩ : ∃ k, q.length + (bytes m).length = k + 1 := ⟨_, (Nat.succ_pred (by omega)).symm⟩
          rw [hk] at hp hl
          obtain ⟨j, q', hj, hq', e1, e2, e3⟩ := ih ms (fun x hx => hm x (by simp [hx])) [] [] 
            (.inl rfl) (by simp) (by simpa using h2)
          have hd : drain (fuel + 1) buf =
              (received m :: (drain fuel (buf.drop (k + 1))).1, (drain fuel (buf.drop (k + 1))).2) := by
            rw [drain, hp]
          have hdrop : buf.drop (k + 1) = [] := List.drop_of_length_le (by omega)
          rw [hdrop] at hd
          refine ⟨j + 1, q', by simpa using hj, hq', ?_, ?_, ?_⟩
          · rw [hd, e1]; rfl
          · rw [hd]; exact e2
          · rw [hd]; exact e3
        · -- the message is not complete
          rcases parse_short m hgm q buf x hq h1.symm hx with hp | ⟨hx10, _, hp⟩
          · have hd : drain (fuel + 1) buf = ([], buf) := by rw [drain, hp]
            refine ⟨0, q, by simp, hq, by rw [hd]; rfl, by rw [hd]; exact hb, ?_⟩
            intro m' hm'
            simp only [List.drop_zero, List.head?_cons, Option.some.injEq] at hm'
            subst hm'
            have := List.length_pos_iff.mpr hx
            rw [hd, h1, List.length_append]
            show buf.length < _
            omega
          · have hl := congrArg List.length h1
            rw [hx10] at hl
            simp only [List.length_append, List.length_cons, List.length_nil] at hl
            by_cases hbl : buf.length = 0
            · have : buf = [] := List.length_eq_zero_iff.mp hbl
              rw [this] at hp
              have : parse [] = .incomplete := by unfold parse; exact run_nil _ _
              rw [this] at hp; cases hp
            · obtain ⟨k, hk⟩ : ∃ k, buf.length = k + 1 := ⟨_, (Nat.succ_pred hbl).symm⟩
              rw [hk] at hp
              obtain ⟨j, q', hj, hq', e1, e2, e3⟩ := ih ms (fun x hx => hm x (by simp [hx])) [] [10]
                (.inr rfl) (by simp) (by rw [h2, hx10]; rfl)
              have hd : drain (fuel + 1) buf =
                  (received m :: (drain fuel (buf.drop (k + 1))).1, (drain fuel (buf.drop (k + 1))).2) := by
                rw [drain, hp]
              have hdrop : buf.drop (k + 1) = [] := List.drop_of_length_le (by omega)
              rw [hdrop] at hd
              refine ⟨j + 1, q', by simpa using hj, hq', ?_, ?_, ?_⟩
              · rw [hd, e1]; rfl
              · rw [hd]; exact e2
              · rw [hd]; exact e3
      · -- the message and some more
        have hp := parse_msg m hgm q x hq
        rw [← List.append_assoc, ← h1] at hp
        have hl := congrArg List.length h1
        simp only [List.length_append] at hl
        obtain ⟨k, hk⟩ : ∃ k, q.length + (bytes m).length = k + 1 := ⟨_, (Nat.succ_pred (by omega)).symm⟩
        rw [hk] at hp hl
        have hdrop : buf.drop (k + 1) = x := by
          rw [h1, ← hk, ← List.length_append]; exact List.drop_left
        obtain ⟨j, q', hj, hq', e1, e2, e3⟩ := ih ms (fun x hx => hm x (by simp [hx])) x []
          (.inl rfl) (by omega) (by simpa using h2.symm)
        have hd : drain (fuel + 1) buf =
            (received m :: (drain fuel (buf.drop (k + 1))).1, (drain fuel (buf.drop (k + 1))).2) := by
          rw [drain, hp]
        rw [hdrop] at hd
        refine ⟨j + 1, q', by simpa using hj, hq', ?_, ?_, ?_⟩
        · rw [hd, e1]; rfl
        · rw [hd]; exact e2
        · rw [hd]; exact e3

/-- The state of a connection that has received some of a stream of messages. -/
theorem receive_spec (ms : List Msg) (hm : ∀ m ∈ ms, Spec.GoodMsg m) (chunks : List Bytes)
    (future : Bytes) (hs : chunks.flatten ++ future = (ms.map bytes).flatten) :
    ∃ j q, j ≤ ms.length ∧ Gap q ∧
      (chunks.foldl Conn.receive {}).delivered = (ms.take j).map received ∧
      (chunks.foldl Conn.receive {}).buffer ++ future = q ++ ((ms.drop j).map bytes).flatten ∧
      (∀ m, (ms.drop j).head? = some m →
        (chunks.foldl Conn.receive {}).buffer.length < (q ++ bytes m).length) := by
  -- generalise over the connection reached so far
  have key : ∀ (chunks : List Bytes) (c : Conn) (j : Nat) (q : Bytes), j ≤ ms.length → Gap q →
      c.delivered = (ms.take j).map received →
      c.buffer ++ chunks.flatten ++ future = q ++ ((ms.drop j).map bytes).flatten →
      (∀ m, (ms.drop j).head? = some m → c.buffer.length < (q ++ bytes m).length) →
      ∃ j q, j ≤ ms.length ∧ Gap q ∧
        (chunks.foldl Conn.receive c).delivered = (ms.take j).map received ∧
        (chunks.foldl Conn.receive c).buffer ++ future = q ++ ((ms.drop j).map bytes).flatten ∧
        (∀ m, (ms.drop j).head? = some m →
          (chunks.foldl Conn.receive c).buffer.length < (q ++ bytes m).length) := by
    intro chunks
    induction chunks with
    | nil =>
      intro c j q hj hq h1 h2 h3
      exact ⟨j, q, hj, hq, h1, by simpa using h2, h3⟩
    | cons ch chunks ih =>
      intro c j q hj hq h1 h2 h3
      obtain ⟨i, q', hi, hq', e1, e2, e3⟩ := drain_spec (c.buffer ++ ch).length (ms.drop j)
        (fun m hmem => hm m (List.mem_of_mem_drop hmem)) (c.buffer ++ ch)
        (chunks.flatten ++ future) q hq (Nat.le_refl _) (by
          rw [← h2]; simp only [List.flatten_cons, List.append_assoc])
      rw [List.length_drop] at hi
      rw [List.foldl_cons]
      refine ih (c.receive ch) (j + i) q' (by omega) hq' ?_ ?_ ?_
      · show c.delivered ++ _ = _
        rw [h1, e1, ← List.map_append, List.take_add]
      · show (drain _ _).2 ++ _ ++ _ = _
        rw [List.append_assoc, e2, List.drop_drop]
      · intro m hmem
        exact e3 m (by rw [List.drop_drop]; exact hmem)
  refine key chunks {} 0 [] (by omega) (.inl rfl) rfl (by simpa using hs) ?_
  intro m _
  simp only [List.length_nil, List.length_append, bytes, crlf, List.length_cons]
  omega

/-- The messages a receiver is meant to get: the method line, content and header values sent (see
`c24_values_cannot_inject` for what `received` is). -/
def meant (gz : Bytes → Bytes) (m : Msg) (b : Bytes) (m' : Msg) : Prop :=
  compose gz m = some b ∧ parse b = .ok b.length m'

/-- C23.  A stream of composed messages, cut into pieces in any way, is decoded as exactly those
messages, in order; at the end nothing is left in the buffer but possibly one line feed (which the
next message skips). -/
theorem c23_stream (gz : Bytes → Bytes) (ms : List (Msg × Bytes × Msg))
    (hm : ∀ x ∈ ms, Spec.GoodMsg x.1 ∧ meant gz x.1 x.2.1 x.2.2)
    (chunks : List Bytes) (hs : chunks.flatten = (ms.map (·.2.1)).flatten) :
    (chunks.foldl Conn.receive {}).delivered = ms.map (·.2.2) ∧
    ((chunks.foldl Conn.receive {}).buffer = [] ∨ (chunks.foldl Conn.receive {}).buffer = [10]) := by
  have hb : ∀ x ∈ ms, bytes x.1 = x.2.1 ∧ received x.1 = x.2.2 := by
    intro x hx
    obtain ⟨hg, hcm, hp⟩ := hm x hx
    rw [compose_eq gz x.1 hg] at hcm
    injection hcm with hcm
    have hbx : bytes x.1 = x.2.1 := hcm
    refine ⟨hbx, ?_⟩
    have := parse_msg x.1 hg [] [] (.inl rfl)
    rw [List.nil_append, List.append_nil, hbx, hp] at this
    injection this with _ this
    exact this.symm
  have e1 : (ms.map (·.1)).map bytes = ms.map (·.2.1) := by
    rw [List.map_map]; exact List.map_congr_left (fun x hx => (hb x hx).1)
  have e2 : (ms.map (·.1)).map received = ms.map (·.2.2) := by
    rw [List.map_map]; exact List.map_congr_left (fun x hx => (hb x hx).2)
  obtain ⟨j, q, hj, hq, h1, h2, h3⟩ := receive_spec (ms.map (·.1))
    (by intro m hmem; rw [List.mem_map] at hmem; obtain ⟨x, hx, rfl⟩ := hmem; exact (hm x hx).1)
    chunks [] (by rw [e1, List.append_nil]; exact hs)
  rw [List.append_nil] at h2
  -- all messages have arrived
  have hall : j = (ms.map (·.1)).length := by
    by_cases hlt : j < (ms.map (·.1)).length
    · exfalso
      cases hd : (ms.map (·.1)).drop j with
      | nil => have := congrArg List.length hd; rw [List.length_drop, List.length_nil] at this; omega
      | cons m rest =>
        have := h3 m (by rw [hd]; rfl)
        rw [h2, hd] at this
        simp only [List.map_cons, List.flatten_cons, List.length_append] at this
        omega
    · omega
  rw [hall, List.take_length, e2] at h1
  rw [hall, List.drop_length] at h2
  refine ⟨h1, ?_⟩
  rw [h2]
  cases hq with
  | inl e => left; simp [e]
  | inr e => right; simp [e]

/-- C23.  While only a part of the stream has arrived, the messages delivered are the first `j`,
where all but at most the last byte of message `j` has arrived and message `j + 1` has not
completely arrived: an incomplete tail yields no message. -/
theorem c23_incomplete_tail (gz : Bytes → Bytes) (ms : List (Msg × Bytes × Msg))
    (hm : ∀ x ∈ ms, Spec.GoodMsg x.1 ∧ meant gz x.1 x.2.1 x.2.2)
    (chunks : List Bytes) (future : Bytes)
    (hs : chunks.flatten ++ future = (ms.map (·.2.1)).flatten) :
    ∃ j ≤ ms.length, (chunks.foldl Conn.receive {}).delivered = (ms.take j).map (·.2.2) ∧
      ((ms.take j).map (·.2.1)).flatten.length ≤ chunks.flatten.length + 1 ∧
      (j < ms.length → chunks.flatten.length < ((ms.take (j + 1)).map (·.2.1)).flatten.length) := by
  have hb : ∀ x ∈ ms, bytes x.1 = x.2.1 ∧ received x.1 = x.2.2 := by
    intro x hx
    obtain ⟨hg, hcm, hp⟩ := hm x hx
    rw [compose_eq gz x.1 hg] at hcm
    injection hcm with hcm
    have hbx : bytes x.1 = x.2.1 := hcm
    refine ⟨hbx, ?_⟩
    have := parse_msg x.1 hg [] [] (.inl rfl)
    rw [List.nil_append, List.append_nil, hbx, hp] at this
    injection this with _ this
    exact this.symm
  have e1 : (ms.map (·.1)).map bytes = ms.map (·.2.1) := by
    rw [List.map_map]; exact List.map_congr_left (fun x hx => (hb x hx).1)
  have e2 : ∀ j, ((ms.map (·.1)).take j).map received = (ms.take j).map (·.2.2) := by
    intro j
    rw [← List.map_take, List.map_map]
    exact List.map_congr_left (fun x hx => (hb x (List.mem_of_mem_take hx)).2)
  obtain ⟨j, q, hj, hq, h1, h2, h3⟩ := receive_spec (ms.map (·.1))
    (by intro m hmem; rw [List.mem_map] at hmem; obtain ⟨x, hx, rfl⟩ := hmem; exact (hm x hx).1)
    chunks future (by rw [e1]; exact hs)
  rw [List.length_map] at hj
  refine ⟨j, hj, by rw [h1, e2], ?_, ?_⟩
  · -- lengths
    have hl := congrArg List.length hs
    have hl2 := congrArg List.length h2
    have hsplit : (ms.map (·.2.1)).flatten.length =
        ((ms.take j).map (·.2.1)).flatten.length + (((ms.map (·.1)).drop j).map bytes).flatten.length := by
      rw [List.map_drop, e1, ← List.map_drop]
      rw [← List.length_append, ← List.flatten_append, ← List.map_append, List.take_append_drop]
    have hq1 : q.length ≤ 1 := by cases hq with
      | inl e => simp [e]
      | inr e => simp [e]
    simp only [List.length_append] at hl hl2
    omega
  · intro hlt
    have hl := congrArg List.length hs
    have hl2 := congrArg List.length h2
    cases hd : (ms.map (·.1)).drop j with
    | nil => have := congrArg List.length hd; rw [List.length_drop, List.length_nil, List.length_map] at this; omega
    | cons m rest =>
      have h4 := h3 m (by rw [hd]; rfl)
      have hsplit : (ms.map (·.2.1)).flatten.length =
          ((ms.take (j + 1)).map (·.2.1)).flatten.length + (rest.map bytes).flatten.length := by
        have hrest : rest = (ms.map (·.1)).drop (j + 1) := by
          rw [← List.drop_drop, hd]; rfl
        rw [hrest, List.map_drop, e1, ← List.map_drop]
        rw [← List.length_append, ← List.flatten_append, ← List.map_append, List.take_append_drop]
      rw [hd] at hl2
      simp only [List.map_cons, List.flatten_cons, List.length_append] at hl hl2 h4
      omega

-- two copies of `exMsg`, cut in the middle of the content of the first
example : ∃ b m', compose id exMsg = some b ∧
    ([b.take (b.length - 3), b.drop (b.length - 3) ++ b].foldl Conn.receive {}).delivered = [m', m'] := by
  obtain ⟨b, hb⟩ := c22_composes id exMsg exMsg_good
  obtain ⟨m', h1, _, _, _⟩ := c24_values_cannot_inject id exMsg b [] exMsg_good hb
  refine ⟨b, m', hb, ?_⟩
  refine (c23_stream id [(exMsg, b, m'), (exMsg, b, m')] ?_ _ ?_).1
  · intro x hx
    simp only [List.mem_cons, List.not_mem_nil, or_false, or_self] at hx
    subst hx
    exact ⟨exMsg_good, hb, by simpa using h1⟩
  · simp [← List.append_assoc]

/-- C23, the exception: a message without content is accepted one byte early.  The line feed that
arrives later is skipped. -/
theorem c23_one_byte_early :
    ([str "X\r\nContent-Length: 0\r\n\r", str "\n"].foldl Conn.receive {}).delivered =
      [{ methodLine := str "X", table := [(str "Content-Length", str "0")] }] ∧
    ([str "X\r\nContent-Length: 0\r\n\r"].foldl Conn.receive {}).delivered =
      [{ methodLine := str "X", table := [(str "Content-Length", str "0")] }] := by
  rw [receive_eq_receiveF]
  decide +kernel

/-- Parser defect: a chunk size of 80000000 or more is read as a negative `int`.  With content
already read this makes `memcpy` run over the buffer; as the first chunk it throws. -/
theorem c23_huge_chunk_is_undefined :
    parse (str "X\r\nTransfer-Encoding: chunked\r\n\r\n1\r\na\r\nFFFFFFFF\r\n") = .ub ∧
    parse (str "X\r\nTransfer-Encoding: chunked\r\n\r\nFFFFFFFF\r\n") = .throws := by
  rw [parse_eq_parseF]
  decide +kernel

/-- Parser defect: a buffer whose first line is blank is read before its first byte. -/
theorem c23_blank_first_line_is_undefined : parse (str "  \r\n") = .ub := by
  rw [parse_eq_parseF]
  decide +kernel

/-- Parser quirks of `Content-Length`: not a number or negative throws, 2^32 counts as 0. -/
theorem c23_content_length_quirks :
    parse (str "X\r\nContent-Length: x\r\n\r\n") = .throws ∧
    parse (str "X\r\nContent-Length: -1\r\n\r\n") = .throws ∧
    parse (str "X\r\nContent-Length: 4294967296\r\n\r\n") =
      .ok 33 { methodLine := str "X", table := [(str "Content-Length", str "4294967296")] } := by
  rw [parse_eq_parseF]
  decide +kernel

end Bedrock.Http.Props
