import Verif.Model.Forward
import Verif.Props.Http

/-!
# C63: a forwarded command is retried only if the peer cannot have run it
-/

namespace Bedrock.Forward.Props
open Bedrock Bedrock.Http Bedrock.Forward Bedrock.Text

/-- The send loop hands over a prefix of the buffer, all of it exactly when it finishes. -/
theorem sendLoop_spec (io : List SendIo) : ∀ (buf : Bytes), buf ≠ [] →
    (sendLoop buf io).1 <+: buf ∧ ((sendLoop buf io).2 = .finished ↔ (sendLoop buf io).1 = buf) := by
  induction io with
  | nil => intro buf hb; exact ⟨List.nil_prefix, by simp [sendLoop, Ne.symm hb]⟩
  | cons e io ih =>
    intro buf hb
    cases e with
    | notReady => exact ⟨List.nil_prefix, by simp [sendLoop, Ne.symm hb]⟩
    | fatal => exact ⟨List.nil_prefix, by simp [sendLoop, Ne.symm hb]⟩
    | again => exact ih buf hb
    | took n =>
      unfold sendLoop
      split
      · exact ⟨List.prefix_refl _, by simp⟩
      · rename_i hne
        obtain ⟨h1, h2⟩ := ih (buf.drop n) hne
        refine ⟨?_, ?_⟩
        · obtain ⟨t, ht⟩ := h1
          exact ⟨t, by rw [List.append_assoc, ht, List.take_append_drop]⟩
        · rw [h2]
          constructor
          · intro h; dsimp only; rw [h, List.take_append_drop]
          · intro h
            have h' : buf.take n ++ (sendLoop (buf.drop n) io).1 = buf.take n ++ buf.drop n := by
              rw [List.take_append_drop]; exact h
            exact List.append_cancel_left h'

/-- The bytes that arrived, in order. -/
def chunks (io : List RecvIo) : List Bytes := io.filterMap (fun e => match e with | .data b => some b | _ => none)

/-- A response is what the parser makes of a part of the bytes that arrived. -/
theorem recvLoop_response (io : List RecvIo) : ∀ (acc : Bytes) (m : Msg) (x : Bytes),
    recvLoop acc io = .response m x →
    ∃ got n, got <+: acc ++ (chunks io).flatten ∧ parse got = .ok n m := by
  induction io with
  | nil => intro acc m x h; simp [recvLoop] at h
  | cons e io ih =>
    intro acc m x h
    cases e with
    | notReady => simp [recvLoop] at h
    | fatal => simp [recvLoop] at h
    | closed => simp [recvLoop] at h
    | again => exact ih acc m x h
    | data b =>
      have hc : (chunks (RecvIo.data b :: io)).flatten = b ++ (chunks io).flatten := by simp [chunks]
      rw [hc, ← List.append_assoc]
      unfold recvLoop at h
      split at h
      · rename_i n m' hp
        injection h with h1 h2
        subst h1
        exact ⟨acc ++ b, n, List.prefix_append _ _, hp⟩
      · exact ih _ m x h
      · simp at h
      · simp at h

/-! ## C63 -/

/-- **C63** What reaches the peer is always a beginning of the request, sent at most once. -/
theorem c63_sends_a_prefix (lead : Bool) (req : Bytes) (hr : req ≠ []) (old : Msg) (rs : List Round) :
    (runOnPeer lead req old rs).delivered <+: req := by
  induction rs with
  | nil => exact List.nil_prefix
  | cons r rs ih =>
    cases r with
    | noAddress l =>
      unfold runOnPeer
      split
      · exact List.nil_prefix
      · exact ih
    | noSocket => exact List.nil_prefix
    | socket out inp ab =>
      have hs : (sendOnSocket req old out inp).delivered <+: req := by
        have := (sendLoop_spec out req hr).1
        unfold sendOnSocket
        split <;> rename_i h <;> rw [h] at this
        · exact this
        · exact this
        · split <;> exact this
      unfold runOnPeer
      dsimp only
      split
      · exact hs
      · exact hs

theorem sendOnSocket_cases (req : Bytes) (hr : req ≠ []) (old : Msg) (out : List SendIo) (inp : List RecvIo) :
    let r := sendOnSocket req old out inp
    (r.result = none) ∨
    (r.result = some false ∧ r.complete = false ∧ r.response = old ∧ r.delivered.length < req.length) ∨
    (r.result = some false ∧ r.complete = true ∧ r.response = errorResponse ∧ r.delivered = req) ∨
    (r.result = some true ∧ r.complete = true ∧ r.delivered = req ∧
      ∃ got n, got <+: (chunks inp).flatten ∧ parse got = .ok n r.response) := by
  have hs := sendLoop_spec out req hr
  intro r
  have hr' : r = sendOnSocket req old out inp := rfl
  unfold sendOnSocket at hr'
  split at hr'
  · left; rw [hr']
  · rename_i d h
    right; left
    rw [h] at hs
    rw [hr']
    refine ⟨rfl, rfl, rfl, ?_⟩
    have hne : d ≠ req := by
      intro he
      have := hs.2.mpr he
      simp at this
    have hle := hs.1.length_le
    have hle : d.length ≤ req.length := hle
    rcases Nat.lt_or_ge d.length req.length with h1 | h1
    · exact h1
    · exact absurd (hs.1.eq_of_length (show d.length = req.length by omega)) hne
  · rename_i d h
    rw [h] at hs
    have hd : d = req := hs.2.mp rfl
    split at hr'
    · left; rw [hr']
    · left; rw [hr']
    · right; right; left; rw [hr']; exact ⟨rfl, rfl, rfl, hd⟩
    · rename_i m x hrec
      right; right; right
      rw [hr']
      refine ⟨rfl, rfl, hd, ?_⟩
      obtain ⟨got, n, h1, h2⟩ := recvLoop_response inp [] m x hrec
      exact ⟨got, n, by simpa using h1, h2⟩

/-- The bytes that arrive from the peer over all rounds. -/
def arrived : List Round → Bytes
  | [] => []
  | .socket _ inp _ :: _ => (chunks inp).flatten
  | _ :: rs => arrived rs

/-- **C63** When forwarding fails and the command is left to be run again, the peer was not handed all
of the request, and the command is as it was. -/
theorem c63_retry_only_if_unsent (lead : Bool) (req : Bytes) (hr : req ≠ []) (old : Msg) (rs : List Round)
    (hf : (runOnPeer lead req old rs).result = some false)
    (hc : (runOnPeer lead req old rs).complete = false) :
    (runOnPeer lead req old rs).delivered.length < req.length ∧
    (runOnPeer lead req old rs).response = old := by
  have hpos : 0 < req.length := List.length_pos_iff.mpr hr
  induction rs with
  | nil => exact ⟨hpos, rfl⟩
  | cons r rs ih =>
    cases r with
    | noAddress l =>
      unfold runOnPeer at hf hc ⊢
      split
      · exact ⟨hpos, rfl⟩
      · rename_i h; rw [if_neg h] at hf hc; exact ih hf hc
    | noSocket => exact ⟨hpos, rfl⟩
    | socket out inp ab =>
      have hs := sendOnSocket_cases req hr old out inp
      unfold runOnPeer at hf hc ⊢
      dsimp only at hf hc hs ⊢
      split
      · rename_i h; rw [if_pos h] at hf; simp at hf
      · rename_i h
        rw [if_neg h] at hf hc
        rcases hs with hs | hs | hs | hs
        · rw [hs] at hf; simp at hf
        · exact ⟨hs.2.2.2, hs.2.2.1⟩
        · rw [hs.2.1] at hc; simp at hc
        · rw [hs.1] at hf; simp at hf

/-- **C63** When the whole request was handed over but no response came, the command is finished with
an error and not left to be run again. -/
theorem c63_lost_response_is_an_error (lead : Bool) (req : Bytes) (hr : req ≠ []) (old : Msg) (rs : List Round)
    (hf : (runOnPeer lead req old rs).result = some false)
    (hd : (runOnPeer lead req old rs).delivered = req) :
    (runOnPeer lead req old rs).complete = true ∧
    (runOnPeer lead req old rs).response.methodLine = str "500 Internal Server Error" := by
  induction rs with
  | nil => exact absurd (show ([] : Bytes) = req from hd) (Ne.symm hr)
  | cons r rs ih =>
    cases r with
    | noAddress l =>
      unfold runOnPeer at hf hd ⊢
      split
      · rename_i h; rw [if_pos h] at hd; exact absurd hd (Ne.symm hr)
      · rename_i h; rw [if_neg h] at hf hd; exact ih hf hd
    | noSocket => exact absurd (show ([] : Bytes) = req from hd) (Ne.symm hr)
    | socket out inp ab =>
      have hs := sendOnSocket_cases req hr old out inp
      unfold runOnPeer at hf hd ⊢
      dsimp only at hf hd hs ⊢
      split
      · rename_i h; rw [if_pos h] at hf; simp at hf
      · rename_i h
        rw [if_neg h] at hf hd
        rcases hs with hs | hs | hs | hs
        · rw [hs] at hf; simp at hf
        · rw [hd] at hs; omega
        · exact ⟨hs.2.1, by rw [hs.2.2.1]; rfl⟩
        · rw [hs.1] at hf; simp at hf

/-- **C63** When forwarding succeeds, the peer was handed the whole request and the response is what the
peer sent, or the client had gone and the command was given up with 556. -/
theorem c63_success (lead : Bool) (req : Bytes) (hr : req ≠ []) (old : Msg) (rs : List Round)
    (hf : (runOnPeer lead req old rs).result = some true) :
    (runOnPeer lead req old rs).complete = true ∧
    (((runOnPeer lead req old rs).delivered = req ∧
      ∃ got n, got <+: arrived rs ∧ parse got = .ok n (runOnPeer lead req old rs).response) ∨
     (runOnPeer lead req old rs).response.methodLine = str "556 Aborted") := by
  induction rs with
  | nil => simp [runOnPeer] at hf
  | cons r rs ih =>
    cases r with
    | noAddress l =>
      unfold runOnPeer at hf ⊢
      split
      · rename_i h; rw [if_pos h] at hf; simp at hf
      · rename_i h; rw [if_neg h] at hf; exact ih hf
    | noSocket => simp [runOnPeer] at hf
    | socket out inp ab =>
      have hs := sendOnSocket_cases req hr old out inp
      unfold runOnPeer at hf ⊢
      dsimp only at hf hs ⊢
      split
      · exact ⟨rfl, Or.inr rfl⟩
      · rename_i h
        rw [if_neg h] at hf
        rcases hs with hs | hs | hs | hs
        · rw [hs] at hf; simp at hf
        · rw [hs.1] at hf; simp at hf
        · rw [hs.1] at hf; simp at hf
        · exact ⟨hs.2.1, Or.inl ⟨hs.2.2.1, hs.2.2.2⟩⟩

/-- **C63** However the peer's response is cut into pieces, the command gets exactly that response: if
the peer's bytes are a composed message, a response is what parsing this message gives. -/
theorem c63_response_unchanged (gz : Bytes → Bytes) (m : Msg) (b : Bytes) (hg : Spec.GoodMsg m)
    (hb : compose gz m = some b) (lead : Bool) (req : Bytes) (hr : req ≠ []) (old : Msg) (rs : List Round)
    (ha : arrived rs <+: b) (hf : (runOnPeer lead req old rs).result = some true) :
    parse b = .ok b.length (runOnPeer lead req old rs).response ∨
    (runOnPeer lead req old rs).response.methodLine = str "556 Aborted" := by
  rcases (c63_success lead req hr old rs hf).2 with ⟨_, got, n, h1, h2⟩ | h
  · left
    rw [compose_eq gz m hg] at hb
    injection hb with hb
    have hb : bytes m = b := hb
    have hfull := parse_msg m hg [] [] (.inl rfl)
    rw [List.nil_append, List.append_nil, List.length_nil, Nat.zero_add, hb] at hfull
    obtain ⟨a, haa⟩ := h1.trans ha
    by_cases hae : a = []
    · subst hae
      rw [List.append_nil] at haa
      rw [haa, hfull] at h2
      injection h2 with _ h3
      rw [hfull, h3]
    · rcases parse_short m hg [] got a (.inl rfl) (by rw [haa, hb]; rfl) hae with h3 | ⟨_, _, h3⟩
      · rw [h3] at h2; simp at h2
      · rw [h3] at h2
        injection h2 with _ h4
        rw [hfull, h4]
  · exact Or.inr h

/-- **C63** A peer that reads what it was handed, in any pieces, runs nothing when the command is left
to be run again, except for a request without content of which all but the last byte was sent. -/
theorem c63_peer_runs_nothing_partial (gz : Bytes → Bytes) (m : Msg) (req : Bytes) (hg : Spec.GoodMsg m)
    (hb : compose gz m = some req) (hr : req ≠ []) (lead : Bool) (old : Msg) (rs : List Round)
    (hf : (runOnPeer lead req old rs).result = some false)
    (hc : (runOnPeer lead req old rs).complete = false)
    (pieces : List Bytes) (hp : pieces.flatten = (runOnPeer lead req old rs).delivered)
    (hn : m.content ≠ [] ∨ (runOnPeer lead req old rs).delivered.length + 1 < req.length) :
    (pieces.foldl Conn.receive {}).delivered = [] := by
  obtain ⟨hlt, _⟩ := c63_retry_only_if_unsent lead req hr old rs hf hc
  obtain ⟨a, ha⟩ := c63_sends_a_prefix lead req hr old rs
  generalize (runOnPeer lead req old rs).delivered = d at hlt ha hp hn
  rw [compose_eq gz m hg] at hb
  injection hb with hb
  have hb : bytes m = req := hb
  -- every partial buffer is incomplete
  have hinc : ∀ p a', p ++ a' = req → a' ≠ [] → (m.content ≠ [] ∨ p.length + 1 < req.length) →
      parse p = .incomplete := by
    intro p a' h1 h2 h3
    rcases parse_short m hg [] p a' (.inl rfl) (by rw [h1, hb]; rfl) h2 with h4 | ⟨h4, h5, _⟩
    · exact h4
    · rcases h3 with h3 | h3
      · exact absurd h5 h3
      · have := congrArg List.length h1; rw [h4] at this; simp at this; omega
  have hdrain : ∀ k p, parse p = .incomplete → drain k p = ([], p) := by
    intro k p h
    cases k with
    | zero => rfl
    | succ k => simp [drain, h]
  have key : ∀ (pieces : List Bytes) (c : Conn), c.delivered = [] → c.buffer ++ pieces.flatten = d →
      (pieces.foldl Conn.receive c).delivered = [] := by
    intro pieces
    induction pieces with
    | nil => intro c h1 _; exact h1
    | cons x xs ih =>
      intro c h1 h2
      rw [List.foldl_cons]
      have h3 : parse (c.buffer ++ x) = .incomplete := by
        refine hinc (c.buffer ++ x) (xs.flatten ++ a) ?_ ?_ ?_
        · rw [← ha, ← h2]; simp
        · intro h0
          have := congrArg List.length h0
          have h5 := congrArg List.length ha
          simp at this h5
          rw [this.2] at h5
          simp at h5
          omega
        · rcases hn with hn | hn
          · exact Or.inl hn
          · right
            have := congrArg List.length h2
            simp at this ⊢
            omega
      apply ih
      · show c.delivered ++ _ = _
        rw [h1, hdrain _ _ h3]; rfl
      · show (drain _ _).2 ++ _ = _
        rw [hdrain _ _ h3, ← h2]; simp
  exact key pieces {} rfl (by simpa using hp)

/-- The exception is real: all but the last byte of a request without content is handed over, then the
connection breaks.  The peer runs the command; here it is left to be run again. -/
theorem c63_one_byte_short_runs :
    let req := str "X\r\nContent-Length: 0\r\n\r\n"
    let r := runOnPeer true req {} [.socket [.took 23, .notReady] [] false]
    r.result = some false ∧ r.complete = false ∧
    ([r.delivered].foldl Conn.receive {}).delivered ≠ [] := by
  rw [receive_eq_receiveF]
  decide +kernel

/-- Non-vacuity: a success over a partial send, a lost response, a failure before everything is sent, a
client that goes away. -/
example :
    let req := str "X\r\nContent-Length: 0\r\n\r\n"
    (runOnPeer true req {} [.noAddress false, .socket [.again, .took 5, .took 100]
      [.data (str "200 OK\r\nCont"), .again, .data (str "ent-Length: 1\r\n\r\na")] false]).result = some true ∧
    (runOnPeer true req {} [.socket [.took 24] [.data (str "200 OK\r\n"), .closed] false]).complete = true ∧
    (runOnPeer true req {} [.socket [.took 5, .fatal] [] false]).complete = false ∧
    (runOnPeer true req {} [.socket [.took 5, .notReady] [] true]).response.methodLine = str "556 Aborted" := by
  unfold runOnPeer runOnPeer sendOnSocket recvLoop recvLoop recvLoop recvLoop
  rw [parse_eq_parseF]
  decide +kernel

end Bedrock.Forward.Props
