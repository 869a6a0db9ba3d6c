import Verif.Model.MySQL
import Verif.Spec.MySQL

/-!
# C52: the MySQL port
-/

namespace Bedrock.MySQL.Props
open Bedrock Bedrock.Text Bedrock.MySQL

/-! ## Integers and strings -/

theorem memory_length (k v : Nat) : (memory k v).length = k := by
  induction k generalizing v with
  | zero => rfl
  | succ k ih => simp [memory, ih]

theorem u8_toNat (v : Nat) : (UInt8.ofNat (v % 256)).toNat = v % 256 := by
  rw [UInt8.toNat_ofNat']; omega

theorem le_memory (k v : Nat) : Spec.le (memory k v) = v % 256 ^ k := by
  induction k generalizing v with
  | zero => simp [memory, Spec.le, Nat.mod_one]
  | succ k ih =>
    rw [memory, Spec.le, ih, u8_toNat, Nat.pow_succ', Nat.mod_mul]

theorem cut_append (a b : Bytes) : Spec.cut a.length (a ++ b) = some (a, b) := by
  unfold Spec.cut
  rw [if_neg (by simp), List.take_left, List.drop_left]

theorem cut_memory (k v : Nat) (rest : Bytes) : Spec.cut k (memory k v ++ rest) = some (memory k v, rest) := by
  have := cut_append (memory k v) rest
  rwa [memory_length] at this

/-- C52.  Every 64-bit value is read back by the protocol's rules, whatever follows it. -/
theorem c52_int_round_trip (v : Nat) (hv : v < 2 ^ 64) (rest : Bytes) :
    Spec.readInt (lenEncInt v ++ rest) = some (v, rest) := by
  unfold lenEncInt
  split
  · rename_i h
    have e : (UInt8.ofNat (v % 256)).toNat = v := by rw [u8_toNat]; omega
    simp only [memory, List.cons_append, List.nil_append, Spec.readInt, e]
    rw [if_pos (by omega)]
  · split
    · rename_i h
      rw [List.cons_append, Spec.readInt, if_neg (by decide), if_pos (by decide), cut_memory, Option.map_some, le_memory,
        Nat.mod_eq_of_lt (by omega)]
    · split
      · rename_i h
        rw [List.cons_append, Spec.readInt, if_neg (by decide), if_neg (by decide), if_pos (by decide), cut_memory,
          Option.map_some, le_memory, Nat.mod_eq_of_lt (by omega)]
      · rw [List.cons_append, Spec.readInt, if_neg (by decide), if_neg (by decide), if_neg (by decide),
          if_pos (by decide), cut_memory, Option.map_some, le_memory, Nat.mod_eq_of_lt (by omega)]

example : Spec.readInt (lenEncInt 251 ++ [7]) = some (251, [7]) ∧
    Spec.readInt (lenEncInt (2 ^ 64 - 1)) = some (2 ^ 64 - 1, []) :=
  ⟨c52_int_round_trip _ (by decide) _, by simpa using c52_int_round_trip (2 ^ 64 - 1) (by decide) []⟩

/-- C52.  Every string whose length is a 64-bit value is read back. -/
theorem c52_str_round_trip (s rest : Bytes) (h : s.length < 2 ^ 64) :
    Spec.readStr (lenEncStr s ++ rest) = some (s, rest) := by
  unfold Spec.readStr lenEncStr
  rw [List.append_assoc, c52_int_round_trip _ h, Option.bind_some, cut_append]

theorem readStrs_flatMap (l : List Bytes) (rest : Bytes) (h : ∀ s ∈ l, s.length < 2 ^ 64) :
    Spec.readStrs l.length (l.flatMap lenEncStr ++ rest) = some (l, rest) := by
  induction l with
  | nil => rfl
  | cons s l ih =>
    rw [List.flatMap_cons, List.length_cons, Spec.readStrs, List.append_assoc,
      c52_str_round_trip _ _ (h s List.mem_cons_self), Option.bind_some,
      ih (fun t ht => h t (List.mem_cons_of_mem _ ht))]
    rfl

/-! ## Packets -/

theorem serialize_eq (p : Packet) : ∃ a b c : UInt8,
    serialize p = a :: b :: c :: p.sequenceID :: p.payload ∧
    a.toNat + 256 * b.toNat + 65536 * c.toNat = p.payload.length % 2 ^ 24 := by
  refine ⟨_, _, _, rfl, ?_⟩
  rw [u8_toNat, u8_toNat, u8_toNat]
  omega

/-- C52.  The reader takes back every packet whose length fits the header, and nothing of what follows. -/
theorem c52_packet_round_trip (p old : Packet) (h : p.payload.length < 2 ^ 24) (rest : Bytes) :
    deserialize old (serialize p ++ rest) = ((serialize p).length, p) := by
  obtain ⟨a, b, c, e, hl⟩ := serialize_eq p
  rw [Nat.mod_eq_of_lt h] at hl
  rw [e]
  simp only [List.cons_append, deserialize, hl, List.length_append, List.length_cons]
  rw [if_neg (by omega), List.take_left]
  simp only [Prod.mk.injEq, and_true]
  omega

example : deserialize ⟨9, [1]⟩ (serialize ⟨255, [3, 0, 13]⟩ ++ [1, 0, 0]) = (7, ⟨255, [3, 0, 13]⟩) :=
  c52_packet_round_trip _ _ (by decide) _

/-- C52.  A packet that has not arrived completely is not consumed. -/
theorem c52_incomplete_kept (p old : Packet) (h : p.payload.length < 2 ^ 24) (s t : Bytes)
    (hs : s ++ t = serialize p) (ht : t ≠ []) : (deserialize old s).1 = 0 := by
  obtain ⟨a, b, c, e, hl⟩ := serialize_eq p
  rw [Nat.mod_eq_of_lt h] at hl
  rw [e] at hs
  have hlen := congrArg List.length hs
  have ht : 0 < t.length := List.length_pos_iff.mpr ht
  unfold deserialize
  split
  · rename_i a' b' c' s' r
    simp only [List.cons_append, List.cons.injEq] at hs
    obtain ⟨rfl, rfl, rfl, rfl, hr⟩ := hs
    rw [if_pos]
    have := congrArg List.length hr
    rw [List.length_append] at this
    omega
  · rfl

/-- C52.  Whatever arrives: what is consumed is one packet, and it is all in the buffer. -/
theorem c52_consumes_a_packet (old : Packet) (buf : Bytes) (h : (deserialize old buf).1 ≠ 0) :
    buf.take (deserialize old buf).1 = serialize (deserialize old buf).2 ∧
      (deserialize old buf).1 = (serialize (deserialize old buf).2).length ∧
      (deserialize old buf).2.payload.length < 2 ^ 24 := by
  unfold deserialize at h ⊢
  split at h
  · rename_i a b c s rest
    split at h
    · exact absurd rfl h
    · rename_i hn
      have ha := a.toNat_lt
      have hb := b.toNat_lt
      have hc := c.toNat_lt
      rw [if_neg hn]
      have hl : (rest.take (a.toNat + 256 * b.toNat + 65536 * c.toNat)).length =
          a.toNat + 256 * b.toNat + 65536 * c.toNat := by rw [List.length_take]; omega
      have hm : memory 3 (a.toNat + 256 * b.toNat + 65536 * c.toNat) = [a, b, c] := by
        have e1 : UInt8.ofNat ((a.toNat + 256 * b.toNat + 65536 * c.toNat) % 256) = a := by
          rw [← UInt8.toNat_inj, u8_toNat]; omega
        have e2 : UInt8.ofNat ((a.toNat + 256 * b.toNat + 65536 * c.toNat) / 256 % 256) = b := by
          rw [← UInt8.toNat_inj, u8_toNat]; omega
        have e3 : UInt8.ofNat ((a.toNat + 256 * b.toNat + 65536 * c.toNat) / 256 / 256 % 256) = c := by
          rw [← UInt8.toNat_inj, u8_toNat]; omega
        simp only [memory, e1, e2, e3]
      unfold serialize
      simp only [hl, hm]
      refine ⟨?_, ?_, by omega⟩
      · simp [Nat.add_comm 4]
      · simp only [List.length_append, List.length_cons, List.length_nil, hl]
  · exact absurd rfl h

/-- C52.  A payload of 16 MiB or more is not split as the protocol asks: its length is cut to three bytes, and the
reader takes another packet out of it. -/
theorem c52_long_packet_cut (p old : Packet) (h : 2 ^ 24 ≤ p.payload.length) (rest : Bytes) :
    deserialize old (serialize p ++ rest) =
      (4 + p.payload.length % 2 ^ 24, ⟨p.sequenceID, p.payload.take (p.payload.length % 2 ^ 24)⟩) ∧
    (deserialize old (serialize p ++ rest)).1 < (serialize p).length := by
  obtain ⟨a, b, c, e, hl⟩ := serialize_eq p
  have hlt : p.payload.length % 2 ^ 24 < p.payload.length := by omega
  have : deserialize old (serialize p ++ rest) =
      (4 + p.payload.length % 2 ^ 24, ⟨p.sequenceID, p.payload.take (p.payload.length % 2 ^ 24)⟩) := by
    rw [e]
    simp only [List.cons_append, deserialize, hl]
    rw [if_neg (by rw [List.length_append]; omega), List.take_append_of_le_length (by omega)]
  refine ⟨this, ?_⟩
  rw [this, e]
  simp only [List.length_cons]
  omega

/-! ## The stream -/

theorem deserialize_old (old old' : Packet) (buf : Bytes) :
    (deserialize old buf).1 = (deserialize old' buf).1 ∧
      ((deserialize old buf).1 ≠ 0 → (deserialize old buf).2 = (deserialize old' buf).2) := by
  unfold deserialize
  split
  · split
    · exact ⟨rfl, fun h => absurd rfl h⟩
    · exact ⟨rfl, fun _ => rfl⟩
  · exact ⟨rfl, fun h => absurd rfl h⟩

theorem consumed_le (old : Packet) (buf : Bytes) : (deserialize old buf).1 ≤ buf.length := by
  unfold deserialize
  split
  · split
    · exact Nat.zero_le _
    · simp only [List.length_cons]; omega
  · exact Nat.zero_le _

/-- More bytes do not change a packet that is complete. -/
theorem deserialize_append (old : Packet) (buf more : Bytes) (h : (deserialize old buf).1 ≠ 0) :
    deserialize old (buf ++ more) = deserialize old buf := by
  obtain ⟨h1, h2, h3⟩ := c52_consumes_a_packet old buf h
  generalize hp : deserialize old buf = r at *
  have e : buf = serialize r.2 ++ buf.drop r.1 := by rw [← h1, List.take_append_drop]
  rw [e, List.append_assoc, c52_packet_round_trip _ _ h3, ← h2]

theorem drain_old (old old' : Packet) (buf : Bytes) : drain old buf = drain old' buf := by
  obtain ⟨h1, h2⟩ := deserialize_old old old' buf
  by_cases h : (deserialize old buf).1 = 0 ∨ buf.length = 0
  · rw [drain, dif_pos h, drain, dif_pos (by rw [← h1]; exact h)]
  · have h' : ¬ ((deserialize old' buf).1 = 0 ∨ buf.length = 0) := by rw [← h1]; exact h
    conv => lhs; rw [drain, dif_neg h, h2 (fun e => h (.inl e)), h1]
    conv => rhs; rw [drain, dif_neg h']

theorem drain_append (n : Nat) (old : Packet) (buf more : Bytes) (hn : buf.length ≤ n) :
    drain old (buf ++ more) = ((drain old buf).1 ++ (drain old ((drain old buf).2 ++ more)).1,
      (drain old ((drain old buf).2 ++ more)).2) := by
  induction n generalizing old buf with
  | zero =>
    have : buf = [] := List.length_eq_zero_iff.mp (by omega)
    subst this
    rw [show drain old [] = ([], []) by rw [drain]; rfl]
    rfl
  | succ n ih =>
    by_cases h : (deserialize old buf).1 = 0 ∨ buf.length = 0
    · rw [show drain old buf = ([], buf) by rw [drain, dif_pos h]]
      rfl
    · have h0 : (deserialize old buf).1 ≠ 0 := fun e => h (.inl e)
      have hle := consumed_le old buf
      have ea := deserialize_append old buf more h0
      have e1 : drain old buf = ((deserialize old buf).2 :: (drain (deserialize old buf).2 (buf.drop (deserialize old buf).1)).1,
          (drain (deserialize old buf).2 (buf.drop (deserialize old buf).1)).2) := by
        rw [drain, dif_neg h]
      have e2 : drain old (buf ++ more) = ((deserialize old buf).2 ::
            (drain (deserialize old buf).2 (buf.drop (deserialize old buf).1 ++ more)).1,
          (drain (deserialize old buf).2 (buf.drop (deserialize old buf).1 ++ more)).2) := by
        rw [drain, dif_neg (by
          rw [ea, List.length_append]
          rintro (e | e)
          · exact h0 e
          · exact h (.inr (by omega))), ea, List.drop_append_of_le_length hle]
      rw [e1, e2, ih _ _ (by rw [List.length_drop]; omega)]
      simp only [List.cons_append]
      rw [drain_old old (deserialize old buf).2]

theorem drain_rest (n : Nat) (old : Packet) (buf : Bytes) (hn : buf.length ≤ n) :
    drain old (drain old buf).2 = ([], (drain old buf).2) := by
  induction n generalizing old buf with
  | zero =>
    have : buf = [] := List.length_eq_zero_iff.mp (by omega)
    subst this
    rw [show drain old [] = ([], []) by rw [drain]; rfl, show drain old [] = ([], []) by rw [drain]; rfl]
  | succ n ih =>
    by_cases h : (deserialize old buf).1 = 0 ∨ buf.length = 0
    · rw [show drain old buf = ([], buf) by rw [drain, dif_pos h], show drain old buf = ([], buf) by rw [drain, dif_pos h]]
    · have e1 : drain old buf = ((deserialize old buf).2 :: (drain (deserialize old buf).2 (buf.drop (deserialize old buf).1)).1,
          (drain (deserialize old buf).2 (buf.drop (deserialize old buf).1)).2) := by
        rw [drain, dif_neg h]
      rw [e1]
      simp only
      rw [drain_old old (deserialize old buf).2]
      exact ih _ _ (by rw [List.length_drop]; omega)

theorem feed_eq (chunks : List Bytes) (buf : Bytes) (hb : drain ⟨0, []⟩ buf = ([], buf)) :
    feed buf chunks = drain ⟨0, []⟩ (buf ++ chunks.flatten) := by
  induction chunks generalizing buf with
  | nil => rw [feed, List.flatten_nil, List.append_nil, hb]
  | cons c cs ih =>
    rw [feed, List.flatten_cons, ← List.append_assoc, drain_append _ _ (buf ++ c) _ (Nat.le_refl _)]
    rw [ih _ (drain_rest _ _ _ (Nat.le_refl _))]

/-- C52.  However the bytes of a connection are cut into pieces, the same packets are taken out of them, and the same
bytes wait for more. -/
theorem c52_chunking (chunks : List Bytes) : feed [] chunks = drain ⟨0, []⟩ chunks.flatten :=
  feed_eq chunks [] (by rw [drain]; rfl)

theorem drain_packets (ps : List Packet) (h : ∀ p ∈ ps, p.payload.length < 2 ^ 24) (old : Packet) (tail : Bytes)
    (ht : (deserialize old tail).1 = 0) : drain old (ps.flatMap serialize ++ tail) = (ps, tail) := by
  induction ps generalizing old with
  | nil => rw [List.flatMap_nil, List.nil_append, drain, dif_pos (.inl ht)]
  | cons p ps ih =>
    have hp := c52_packet_round_trip p old (h p List.mem_cons_self) (ps.flatMap serialize ++ tail)
    have hl : (serialize p).length ≠ 0 := by
      obtain ⟨a, b, c, e, _⟩ := serialize_eq p
      rw [e]
      simp
    rw [List.flatMap_cons, List.append_assoc, drain, dif_neg (by
      rw [hp, List.length_append]
      rintro (e | e)
      · exact hl e
      · omega), hp]
    simp only
    rw [List.drop_left, ih (fun q hq => h q (List.mem_cons_of_mem _ hq)) _ (by
      rw [(deserialize_old p old tail).1]; exact ht)]

/-- C52.  A client that sends packets, the last of them perhaps not completely: in whatever pieces they arrive, exactly
the complete ones are read, in order, and the incomplete one waits. -/
theorem c52_stream (ps : List Packet) (q : Packet) (h : ∀ p ∈ q :: ps, p.payload.length < 2 ^ 24) (s t : Bytes)
    (hs : s ++ t = serialize q) (ht : t ≠ []) (chunks : List Bytes) (hc : chunks.flatten = ps.flatMap serialize ++ s) :
    feed [] chunks = (ps, s) := by
  rw [c52_chunking, hc]
  exact drain_packets ps (fun p hp => h p (List.mem_cons_of_mem _ hp)) _ s
    (c52_incomplete_kept q _ (h q List.mem_cons_self) s t hs ht)

example : feed [] [[2, 0], [0, 7, 3], [65, 1, 0, 0, 8], [], [14, 9, 0]] = ([⟨7, [3, 65]⟩, ⟨8, [14]⟩], [9, 0]) :=
  c52_stream [⟨7, [3, 65]⟩, ⟨8, [14]⟩] ⟨0, [1, 2, 3, 4, 5, 6, 7, 8, 9]⟩ (by decide) [9, 0]
    (serialize ⟨0, [1, 2, 3, 4, 5, 6, 7, 8, 9]⟩ |>.drop 2) (by decide +kernel) (by decide +kernel) _ (by decide +kernel)

/-! ## Answers -/

theorem readPacket_serialize (p : Packet) (h : p.payload.length < 2 ^ 24) (rest : Bytes) :
    Spec.readPacket (serialize p ++ rest) = some ((p.sequenceID.toNat, p.payload), rest) := by
  unfold Spec.readPacket serialize
  rw [List.append_assoc, List.append_assoc, cut_memory, Option.bind_some]
  simp only
  rw [le_memory, Nat.mod_eq_of_lt (by omega)]
  have := cut_append [p.sequenceID] (p.payload ++ rest)
  rw [show ([p.sequenceID] : Bytes).length = 1 from rfl] at this
  rw [this, Option.bind_some]
  simp only
  rw [cut_append]
  simp [Spec.le]

theorem readPackets_numbered (seq : Nat) (ps : List Bytes) (h : ∀ p ∈ ps, p.length < 2 ^ 24) (rest : Bytes) :
    Spec.readPackets seq ps.length ((numbered seq ps).flatMap serialize ++ rest) = some (ps, rest) := by
  induction ps generalizing seq with
  | nil => rfl
  | cons p ps ih =>
    rw [numbered, List.flatMap_cons, List.length_cons, Spec.readPackets, List.append_assoc,
      readPacket_serialize _ (h p List.mem_cons_self), Option.bind_some]
    simp only
    rw [if_pos (u8_toNat _), ih _ (fun q hq => h q (List.mem_cons_of_mem _ hq))]
    rfl

theorem numbered_append (seq : Nat) (a b : List Bytes) :
    numbered seq (a ++ b) = numbered seq a ++ numbered (seq + a.length) b := by
  induction a generalizing seq with
  | nil => rfl
  | cons x a ih =>
    rw [List.cons_append, numbered, numbered, ih, List.cons_append, List.length_cons, Nat.add_assoc seq 1,
      Nat.add_comm 1]

/-- C52.  The name of a column is where a client looks for it. -/
theorem columnName_payload (n : Bytes) (h : n.length < 2 ^ 64) : Spec.columnName (columnPayload n) = some n := by
  have hk : ∀ k : Bytes, k ∈ [str "def", str "unknown", str "unknown", str "unknown", n] → k.length < 2 ^ 64 := by
    intro k hk
    simp only [List.mem_cons, List.not_mem_nil, or_false] at hk
    rcases hk with rfl | rfl | rfl | rfl | rfl
    · decide +kernel
    · decide +kernel
    · decide +kernel
    · decide +kernel
    · exact h
  have e : columnPayload n = [str "def", str "unknown", str "unknown", str "unknown", n].flatMap lenEncStr ++
      (lenEncStr n ++ [0x0c] ++ memory 2 8 ++ memory 4 1024 ++ [254] ++ memory 2 0 ++ [0] ++ memory 2 0) := by
    simp only [columnPayload, List.flatMap_cons, List.flatMap_nil, List.append_nil, List.append_assoc]
  unfold Spec.columnName
  rw [e]
  have := readStrs_flatMap [str "def", str "unknown", str "unknown", str "unknown", n]
    (lenEncStr n ++ [0x0c] ++ memory 2 8 ++ memory 4 1024 ++ [254] ++ memory 2 0 ++ [0] ++ memory 2 0) hk
  rw [show [str "def", str "unknown", str "unknown", str "unknown", n].length = 5 from rfl] at this
  rw [this]
  rfl

theorem eof_isEof : Spec.isEof eofPayload = true := by decide +kernel

theorem lenEncStr_length (s : Bytes) : s.length < (lenEncStr s).length := by
  unfold lenEncStr lenEncInt
  rw [List.length_append]
  split
  · rw [memory_length]; omega
  · split
    · rw [List.length_cons]; omega
    · split <;> rw [List.length_cons] <;> omega

theorem rowPayload_cell {row : List Bytes} {s : Bytes} (h : s ∈ row) : s.length < (rowPayload row).length := by
  unfold rowPayload
  rw [List.length_append]
  have : s.length < (row.flatMap lenEncStr).length := by
    induction row with
    | nil => cases h
    | cons x row ih =>
      rw [List.flatMap_cons, List.length_append]
      rcases List.mem_cons.mp h with rfl | h
      · have := lenEncStr_length s; omega
      · have := ih h; omega
  omega

/-- A row of at least one cell that fits a packet is not taken for the end of the rows. -/
theorem row_not_eof {row : List Bytes} (hr : row ≠ []) (hl : (rowPayload row).length < 2 ^ 24) :
    Spec.isEof (rowPayload row) = false := by
  cases row with
  | nil => exact absurd rfl hr
  | cons s row =>
    have hs := rowPayload_cell (row := s :: row) List.mem_cons_self
    have : (rowPayload (s :: row)).head? ≠ some 0xFE := by
      unfold rowPayload
      rw [List.flatMap_cons]
      unfold lenEncStr lenEncInt
      split
      · rename_i h
        simp only [memory, List.cons_append, List.head?_cons, ne_eq, Option.some.injEq]
        intro e
        have := congrArg UInt8.toNat e
        rw [u8_toNat] at this
        change _ = 254 at this
        omega
      · split
        · simp only [List.cons_append, List.head?_cons]; decide
        · split
          · simp only [List.cons_append, List.head?_cons]; decide
          · omega
    unfold Spec.isEof
    rw [beq_eq_false_iff_ne.mpr this]
    rfl

theorem readRows_ok (n : Nat) (hn : n ≠ 0) (rows : List (List Bytes)) (hr : ∀ r ∈ rows, r.length = n ∧
    (rowPayload r).length < 2 ^ 24) (seq : Nat) (rest : Bytes) (fuel : Nat) (hf : rows.length < fuel) :
    Spec.readRows n fuel seq ((numbered seq (rows.map rowPayload ++ [eofPayload])).flatMap serialize ++ rest) =
      some (rows, rest) := by
  induction rows generalizing seq fuel with
  | nil =>
    cases fuel with
    | zero => cases hf
    | succ fuel =>
      rw [List.map_nil, List.nil_append, numbered, List.flatMap_cons, Spec.readRows, List.append_assoc,
        readPacket_serialize _ (show eofPayload.length < 2 ^ 24 by decide +kernel), Option.bind_some]
      simp only
      rw [if_pos (u8_toNat _), if_pos eof_isEof]
      rfl
  | cons r rows ih =>
    cases fuel with
    | zero => cases hf
    | succ fuel =>
      obtain ⟨h1, h2⟩ := hr r List.mem_cons_self
      rw [List.map_cons, List.cons_append, numbered, List.flatMap_cons, Spec.readRows, List.append_assoc,
        readPacket_serialize _ h2, Option.bind_some]
      simp only
      rw [if_pos (u8_toNat _), if_neg (by
        rw [row_not_eof _ h2]
        · decide
        · intro e; subst e; exact hn h1.symm)]
      have := readStrs_flatMap r [0xFE] (fun s hs => by
        have := rowPayload_cell hs
        omega)
      rw [h1] at this
      unfold rowPayload
      rw [this, Option.bind_some]
      have ih := ih (fun q hq => hr q (List.mem_cons_of_mem _ hq)) (seq + 1) fuel (by
        rw [List.length_cons] at hf; omega)
      unfold rowPayload at ih
      rw [ih]
      rfl

theorem mapM_columnName (hs : List Bytes) (h : ∀ n ∈ hs, n.length < 2 ^ 64) :
    (hs.map columnPayload).mapM Spec.columnName = some hs := by
  induction hs with
  | nil => rfl
  | cons n hs ih =>
    rw [List.map_cons, List.mapM_cons, columnName_payload _ (h n List.mem_cons_self),
      ih (fun m hm => h m (List.mem_cons_of_mem _ hm))]
    rfl

/-- C52.  A client that follows the protocol reads every answer as it is: the names of the columns and the cells of all
rows, whatever bytes they contain and whatever the number of the query was; and what is sent next stays untouched.
Needs at least one column, and packets below 16 MiB. -/
theorem c52_answer_partial (seq : Nat) (headers : List Bytes) (rows : List (List Bytes)) (hh : headers ≠ [])
    (hp : ∀ p ∈ responsePayloads headers rows, p.length < 2 ^ 24)
    (hr : ∀ r ∈ rows, r.length = headers.length) (hn : headers.length < 2 ^ 64) (rest : Bytes) :
    Spec.readResult (rows.length + 1) seq (queryResponse seq headers rows ++ rest) = some ((headers, rows), rest) := by
  have hname : ∀ n ∈ headers, n.length < 2 ^ 64 := by
    intro n hn'
    have h1 := hp (columnPayload n) (by
      unfold responsePayloads
      simp only [List.mem_append, List.mem_map]
      exact .inl (.inl (.inl (.inr ⟨n, hn', rfl⟩))))
    have h2 : n.length < (columnPayload n).length := by
      unfold columnPayload
      have := lenEncStr_length n
      simp only [List.length_append]
      omega
    omega
  have e : responsePayloads headers rows = [lenEncInt headers.length] ++
      ((headers.map columnPayload ++ [eofPayload]) ++ (rows.map rowPayload ++ [eofPayload])) := by
    simp only [responsePayloads, List.append_assoc]
  rw [e] at hp
  unfold queryResponse Spec.readResult
  rw [e, numbered_append, List.flatMap_append, numbered_append, List.flatMap_append, List.append_assoc,
    List.append_assoc]
  have r1 := readPackets_numbered seq [lenEncInt headers.length] (fun p h => hp p (List.mem_append_left _ h))
  simp only [List.length_cons, List.length_nil, Nat.zero_add] at r1
  rw [r1, Option.bind_some]
  simp only
  have r2 := c52_int_round_trip headers.length hn []
  rw [List.append_nil] at r2
  rw [r2, Option.bind_some]
  simp only
  have r3 := readPackets_numbered (seq + 1) (headers.map columnPayload ++ [eofPayload])
    (fun p h => hp p (List.mem_append_right _ (List.mem_append_left _ h)))
  simp only [List.length_append, List.length_map, List.length_cons, List.length_nil, Nat.zero_add] at r3
  simp only [List.length_append, List.length_map, List.length_cons, List.length_nil, Nat.zero_add]
  rw [r3, Option.bind_some]
  simp only
  rw [if_pos (by rw [List.getLast?_concat, Option.map_some, eof_isEof])]
  have e4 : (headers.map columnPayload ++ [eofPayload]).take headers.length = headers.map columnPayload := by
    have := List.take_left (l₁ := headers.map columnPayload) (l₂ := [eofPayload])
    rwa [List.length_map] at this
  rw [e4, mapM_columnName headers hname, Option.bind_some, readRows_ok headers.length
    (by intro h; exact hh (List.length_eq_zero_iff.mp h)) rows (fun r h => ⟨hr r h, hp _ (by
      simp only [List.mem_append, List.mem_map]
      exact .inr (.inr (.inl ⟨r, h, rfl⟩)))⟩) _ _ _ (Nat.lt_succ_self _)]
  rfl

example : Spec.readResult 3 250 (queryResponse 250 [str "id", []] [[str "1", [0, 254, 255]], [[], str "x"]] ++ [9]) =
    some (([str "id", []], [[str "1", [0, 254, 255]], [[], str "x"]]), [9]) :=
  c52_answer_partial 250 _ _ (by decide) (by decide +kernel) (by decide +kernel) (by decide) _

/-- C52.  Every row carries one byte more than its cells, which the protocol does not have. -/
theorem c52_row_extra_byte (row : List Bytes) (h : ∀ s ∈ row, s.length < 2 ^ 64) :
    Spec.readStrs row.length (rowPayload row) = some (row, [0xFE]) :=
  readStrs_flatMap row [0xFE] h

/-- C52.  An error is marked as such, and carries its code and its message. -/
theorem c52_error (seq code : Nat) (hc : code < 2 ^ 16) (m : Bytes) (hm : m.length + 3 < 2 ^ 24) (rest : Bytes) :
    ∃ p, Spec.readPacket (serialize (errPacket seq code m) ++ rest) = some (((seq + 1) % 256, p), rest) ∧
      p.head? = some 0xFF ∧ Spec.le ((p.drop 1).take 2) = code ∧ p.drop 3 = m := by
  have hl : (errPacket seq code m).payload.length = m.length + 3 := by
    simp only [errPacket, List.length_append, memory_length, List.length_cons, List.length_nil]; omega
  refine ⟨[0xFF] ++ memory 2 code ++ m, ?_, ?_, ?_, ?_⟩
  · rw [readPacket_serialize _ (by omega)]
    simp only [errPacket, u8_toNat]
  · rfl
  · have := le_memory 2 code
    rw [Nat.mod_eq_of_lt (by omega)] at this
    simpa [memory, Spec.le] using this
  · simp [memory]

/-! ## Queries that arrive together -/

/-- C52.  One packet that arrives alone is answered or becomes the request. -/
theorem c52_single_served (special : UInt8 → Bytes → Option Action) (p : Packet) :
    (∃ b, act special p = .answer b ∧ onPortRecv special [p] = (b, none)) ∨
    (∃ s q, act special p = .request s q ∧ onPortRecv special [p] = ([], some (s, q))) := by
  cases h : act special p with
  | answer b => exact .inl ⟨b, rfl, by simp [onPortRecv, h]⟩
  | request s q => exact .inr ⟨s, q, rfl, by simp [onPortRecv, h]⟩

/-- C52.  Two queries in one buffer: the first is never run and never answered, for every pair of ordinary queries. -/
theorem c52_pipelined_lost (special : UInt8 → Bytes → Option Action) (p q : Packet)
    (hp : ∃ s t, act special p = .request s t) (hq : ∃ s t, act special q = .request s t) :
    onPortRecv special [p, q] = onPortRecv special [q] := by
  obtain ⟨s, t, hp⟩ := hp
  obtain ⟨s', t', hq⟩ := hq
  simp [onPortRecv, hp, hq]

example : onPortRecv (fun _ _ => none) [⟨0, 3 :: str "UPDATE a SET b=1 WHERE c=2"⟩, ⟨0, 3 :: str "SELECT 2"⟩] =
    ([], some (0, str "SELECT 2;")) := by decide +kernel

end Bedrock.MySQL.Props
