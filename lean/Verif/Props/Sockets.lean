import Verif.Model.Sockets
import Verif.Model.Https

/-!
# C89 and C90: what goes over a socket

What was handed to a socket and what arrived is read off the list of calls (`handed`, `arrivedRaw`, `arrivedTls`), not
off the model.
-/

namespace Bedrock.Sockets.Props
open Bedrock Bedrock.Text Bedrock.Http Bedrock.Sockets

/-- The bytes handed to `send`, in order. -/
def handed (ops : List Op) : Bytes :=
  ops.flatMap fun op => match op with | .send b _ => b | _ => []

/-- The bytes that arrived outside the TLS session. -/
def arrivedRaw (ops : List Op) : Bytes :=
  ops.flatMap fun op => match op with | .arriveRaw b => b | _ => []

/-- The bytes that arrived inside the TLS session. -/
def arrivedTls (ops : List Op) : Bytes :=
  ops.flatMap fun op => match op with | .arriveTls b => b | _ => []

/-- The bytes one call takes from the receive buffer. -/
def takenBy (s : Sock) : Op → Bytes
  | .take n => s.recvBuf.take n
  | _ => []

/-- The bytes the owner took from the receive buffer. -/
def taken (s : Sock) : List Op → Bytes
  | [] => []
  | op :: ops =>
    takenBy s op ++
      (match s.step op with | some s' => taken s' ops | none => [])

/-- The kinds of socket. -/
inductive Kind where
  | plain
  | secure
  | proxied (host requestID : Bytes)

/-- What has gone out for good, if a record waits to be flushed without that record. -/
def Base (s : Sock) (base : Bytes) : Prop :=
  match s.tls with
  | some t => t.stream = base ++ (if t.pending then s.sendBuf.take t.maxLen else [])
  | none => base = if s.proxy.isSome then [] else s.wire

def Raw (k : Kind) (s : Sock) : Prop :=
  match k with
  | .plain => s.proxy = none ∧ s.tls = none
  | .secure => s.proxy = none ∧ s.tls.isSome ∧ s.wire = []
  | .proxied h r => ∃ p, s.proxy = some p ∧ p.host = h ∧ p.requestID = r ∧
      ((p.filled = false ∧ p.pre = [] ∧ s.wire = []) ∨
        (p.filled = true ∧ ∃ c, connectText h r = some c ∧ s.wire ++ p.pre = c))

structure Inv (k : Kind) (s : Sock) (P : Bytes) : Prop where
  raw : Raw k s
  app : ∃ base, Base s base ∧ base ++ s.sendBuf <+: P ∧ (s.state.sendable = true → base ++ s.sendBuf = P)

theorem Inv.congr {k : Kind} {s s' : Sock} {P : Bytes} (h : Inv k s P) (h1 : s'.tls = s.tls) (h2 : s'.proxy = s.proxy)
    (h3 : s'.sendBuf = s.sendBuf) (h4 : s'.wire = s.wire) (h5 : s'.state.sendable = true → s.state.sendable = true) :
    Inv k s' P := by
  obtain ⟨hr, base, hb, hp, he⟩ := h
  refine ⟨?_, base, ?_, ?_, ?_⟩
  · cases k <;> simp only [Raw, h1, h2, h4] at hr ⊢ <;> exact hr
  · simp only [Base, h1, h2, h3, h4] at hb ⊢; exact hb
  · rw [h3]; exact hp
  · intro h; rw [h3]; exact he (h5 h)

theorem plainSend_parts (b : Bytes) (r : Sent) : (plainSend b r).2.1 ++ (plainSend b r).1 = b := by
  unfold plainSend
  split
  · rfl
  · cases r with
    | sent n => exact List.take_append_drop n b
    | failed e => dsimp only; split <;> rfl

theorem drop_min_take (b : Bytes) (m : Nat) : b.take m ++ b.drop (min b.length m) = b := by
  by_cases h : m ≤ b.length
  · rw [Nat.min_eq_right h, List.take_append_drop]
  · rw [Nat.min_eq_left (by omega), List.drop_length, List.append_nil, List.take_of_length_le (by omega)]

/-- Sending over TLS the bytes that were passed before, or without a waiting record. -/
theorem inv_sendTls {k : Kind} {s : Sock} {t : Tls} {P : Bytes} (h : Inv k s P) (ht : s.tls = some t) (w : Wr) :
    ∃ s' a, s.sendTls t w = .ok s' a ∧ Inv k s' P ∧ s'.state = s.state ∧ s'.wire = s.wire := by
  obtain ⟨hr, base, hb, hp, he⟩ := h
  have keep : ∀ (t' : Tls) (b' base' : Bytes), Base { s with tls := some t', sendBuf := b' } base' →
      base' ++ b' = base ++ s.sendBuf → Inv k { s with tls := some t', sendBuf := b' } P := by
    intro t' b' base' h1 h2
    refine ⟨?_, base', h1, ?_, ?_⟩
    · cases k <;> simp_all [Raw]
    · dsimp only; rw [h2]; exact hp
    · dsimp only; rw [h2]; exact he
  simp only [Base, ht] at hb
  unfold Sock.sendTls Tls.sendConsume
  by_cases hn : s.sendBuf = []
  · rw [if_pos hn]
    exact ⟨_, _, rfl, keep t s.sendBuf base hb rfl, rfl, rfl⟩
  · rw [if_neg hn]
    cases s.tlsAnswer w.tls with
    | dead => exact ⟨_, _, rfl, keep t s.sendBuf base hb rfl, rfl, rfl⟩
    | notReady =>
      refine ⟨_, _, rfl, keep t (s.sendBuf.drop 0) base ?_ ?_, rfl, rfl⟩
      · rw [List.drop_zero]; simp only [Base]; exact hb
      · rw [List.drop_zero]
    | done =>
      unfold Tls.send
      by_cases hpd : t.pending = true
      · simp only [hpd, if_true]
        rw [hpd, if_pos rfl] at hb
        refine ⟨_, _, rfl, keep _ _ t.stream (by simp [Base]) ?_, rfl, rfl⟩
        rw [hb, List.append_assoc, drop_min_take]
      · simp only [hpd, Bool.false_eq_true, if_false]
        rw [if_neg hpd, List.append_nil] at hb
        refine ⟨_, _, rfl, keep _ _ (t.stream ++ s.sendBuf.take t.maxLen) (by simp [Base, hpd]) ?_, rfl, rfl⟩
        rw [hb, List.append_assoc, drop_min_take]
    | blocked =>
      unfold Tls.send
      by_cases hpd : t.pending = true
      · simp only [hpd, if_true]
        exact ⟨_, _, rfl, keep _ _ base (by simpa [Base, hpd] using hb) (by simp), rfl, rfl⟩
      · simp only [hpd, Bool.false_eq_true, if_false]
        rw [if_neg hpd, List.append_nil] at hb
        exact ⟨_, _, rfl, keep _ _ base (by simp [Base, hb]) (by simp), rfl, rfl⟩

theorem inv_flush {k : Kind} {s : Sock} {P : Bytes} (h : Inv k s P) (w : Wr) :
    s.flush w = .ub ∨ ∃ s' a, s.flush w = .ok s' a ∧ Inv k s' P ∧ s'.state = s.state ∧ (s'.tls.isSome = s.tls.isSome) := by
  unfold Sock.flush
  have tls : ∀ t, s.tls = some t → ∃ s' a, s.sendTls t w = .ok s' a ∧ Inv k s' P ∧ s'.state = s.state ∧
      (s'.tls.isSome = s.tls.isSome) := by
    intro t ht
    obtain ⟨s', a, h1, h2, h3, _⟩ := inv_sendTls h ht w
    refine ⟨s', a, h1, h2, h3, ?_⟩
    unfold Sock.sendTls at h1
    injection h1 with h1
    rw [← h1, ht]; rfl
  cases hp : s.proxy with
  | none =>
    dsimp only
    cases ht : s.tls with
    | some t =>
      refine Or.inr ?_
      have := tls t ht
      rw [ht] at this
      exact this
    | none =>
      dsimp only
      refine Or.inr ?_
      split
      · refine ⟨_, _, rfl, ?_, rfl, by rw [ht]⟩
        obtain ⟨hr, base, hb, hpre, he⟩ := h
        simp only [Base, ht, hp] at hb
        have e : (s.wire ++ (plainSend s.sendBuf (s.answer w.plain)).2.1) ++ (plainSend s.sendBuf (s.answer w.plain)).1
            = s.wire ++ s.sendBuf := by rw [List.append_assoc, plainSend_parts]
        simp only [Option.isSome_none, Bool.false_eq_true, if_false] at hb
        refine ⟨?_, s.wire ++ (plainSend s.sendBuf (s.answer w.plain)).2.1, ?_, ?_, ?_⟩
        · cases k with
          | plain => exact ⟨hp, ht⟩
          | secure => have := hr.2.1; rw [ht] at this; cases this
          | proxied a b => obtain ⟨p, hp', _⟩ := hr; rw [hp] at hp'; cases hp'
        · simp [Base, ht, hp]
        · dsimp only; rw [e, ← hb]; exact hpre
        · dsimp only; rw [e, ← hb]; exact he
      · exact ⟨_, _, rfl, h, rfl, by rw [ht]⟩
  | some p =>
    dsimp only
    split
    · refine Or.inr ⟨_, _, rfl, ?_, rfl, rfl⟩
      rename_i hne
      obtain ⟨hr, base, hb, hpre, he⟩ := h
      refine ⟨?_, base, ?_, hpre, he⟩
      · cases k with
        | plain => rw [hr.1] at hp; cases hp
        | secure => rw [hr.1] at hp; cases hp
        | proxied a b =>
          obtain ⟨q, hq, h1, h2, h3⟩ := hr
          rw [hp] at hq; cases hq
          refine ⟨_, rfl, h1, h2, ?_⟩
          cases h3 with
          | inl h3 => exact absurd h3.2.1 hne
          | inr h3 =>
            obtain ⟨hf, c, hc, he2⟩ := h3
            exact Or.inr ⟨hf, c, hc, by rw [List.append_assoc, plainSend_parts]; exact he2⟩
      · simp only [Base, hp] at hb ⊢; exact hb
    · split
      · cases ht : s.tls with
        | some t =>
          refine Or.inr ?_
          have := tls t ht
          rw [ht] at this
          exact this
        | none => exact Or.inl rfl
      · exact Or.inr ⟨_, _, rfl, h, rfl, rfl⟩

/-- A call leaves no undefined behaviour unsaid: whatever socket it leaves satisfies the invariant. -/
def Keeps (k : Kind) (P : Bytes) (s : Sock) (o : Out) : Prop :=
  ∀ s', o.sock = some s' → Inv k s' P ∧ (s'.state.sendable = true → s.state.sendable = true)

theorem keeps_flush {k : Kind} {s : Sock} {P : Bytes} (h : Inv k s P) (w : Wr) : Keeps k P s (s.flush w) := by
  intro s' hs
  rcases inv_flush h w with hu | ⟨s1, a, h1, h2, h3, _⟩
  · rw [hu] at hs; cases hs
  · rw [h1] at hs; cases hs; exact ⟨h2, by rw [h3]; exact id⟩

theorem recvPlain_same (s : Sock) (r : Rd) : ∃ i b, (s.recvPlain r).1 = { s with inRaw := i, recvBuf := b } := ⟨_, _, rfl⟩
theorem recvTls_same (s : Sock) (r : Rd) : ∃ i b, (s.recvTls r).1 = { s with inTls := i, recvBuf := b } := ⟨_, _, rfl⟩

/-- Starting the TLS session: nothing of the application has gone out yet. -/
theorem inv_negotiated {k : Kind} {s : Sock} {P : Bytes} (h : Inv k s P) {p : Proxy} (hp : s.proxy = some p) (b : Bytes)
    (m : Nat) (hn : s.tls = none) :
    Inv k { s with proxy := some { p with negotiated := true }, recvBuf := b, tls := some { maxLen := m } } P := by
  obtain ⟨hr, base, hb, hpre, he⟩ := h
  simp only [Base, hn, hp, Option.isSome_some, if_true] at hb
  subst hb
  refine ⟨?_, [], ?_, hpre, he⟩
  · cases k with
    | plain => rw [hr.1] at hp; cases hp
    | secure => rw [hr.1] at hp; cases hp
    | proxied a b =>
      obtain ⟨q, hq, h1, h2, h3⟩ := hr
      rw [hp] at hq; cases hq
      exact ⟨_, rfl, h1, h2, h3⟩
  · simp [Base]

theorem inv_negotiated' {k : Kind} {s : Sock} {P : Bytes} (h : Inv k s P) {p : Proxy} (hp : s.proxy = some p) (b : Bytes) :
    Inv k { s with proxy := some { p with negotiated := true }, recvBuf := b } P := by
  obtain ⟨hr, base, hb, hpre, he⟩ := h
  refine ⟨?_, base, ?_, hpre, he⟩
  · cases k with
    | plain => rw [hr.1] at hp; cases hp
    | secure => rw [hr.1] at hp; cases hp
    | proxied a b =>
      obtain ⟨q, hq, h1, h2, h3⟩ := hr
      rw [hp] at hq; cases hq
      exact ⟨_, rfl, h1, h2, h3⟩
  · simp only [Base, hp] at hb ⊢; exact hb

/-- Before the negotiation there is no TLS session. -/
def NoTls (s : Sock) : Prop := ∀ p, s.proxy = some p → p.negotiated = false → s.tls = none

theorem keeps_recv {k : Kind} {s : Sock} {P : Bytes} (h : Inv k s P) (hn : NoTls s) (r : Rd) : Keeps k P s (s.recv r) := by
  intro s' hs
  unfold Sock.recv at hs
  have tls : ∀ s', Out.sock (.ok (s.recvTls r).1 (s.recvTls r).2) = some s' →
      Inv k s' P ∧ (s'.state.sendable = true → s.state.sendable = true) := by
    intro s' hs; cases hs
    exact ⟨h.congr rfl rfl rfl rfl id, id⟩
  cases hp : s.proxy with
  | none =>
    rw [hp] at hs; dsimp only at hs
    cases ht : s.tls with
    | some t => rw [ht] at hs; exact tls s' hs
    | none =>
      rw [ht] at hs; dsimp only at hs
      split at hs <;> cases hs
      · exact ⟨h.congr rfl rfl rfl rfl id, id⟩
      · exact ⟨h, id⟩
  | some p =>
    rw [hp] at hs; dsimp only at hs
    split at hs
    · cases hs; exact ⟨h, id⟩
    · split at hs
      · rename_i hng
        have hng : p.negotiated = false := by simpa using hng
        have h' : Inv k (s.recvPlain r).1 P := h.congr rfl rfl rfl rfl id
        have hp' : (s.recvPlain r).1.proxy = some p := hp
        have hn' : (s.recvPlain r).1.tls = none := hn p hp hng
        have hst : (s.recvPlain r).1.state = s.state := rfl
        rw [← hst]
        generalize (s.recvPlain r).1 = s1 at *
        generalize (s.recvPlain r).2 = a1 at *
        unfold Sock.proxyReply at hs
        split at hs
        · cases hs; exact ⟨h', id⟩
        · split at hs
          · cases hs; exact ⟨h', id⟩
          · cases hs; exact ⟨h', id⟩
          · cases hs
          · split at hs
            · cases hs; exact ⟨h', id⟩
            · split at hs
              · split at hs <;> cases hs
                · exact ⟨inv_negotiated' h' hp' _, id⟩
                · exact ⟨inv_negotiated h' hp' _ _ hn', id⟩
              · cases hs
                exact ⟨h'.congr rfl rfl rfl rfl (by intro hx; cases hx), by intro hx; cases hx⟩
      · cases ht : s.tls with
        | some t => rw [ht] at hs; exact tls s' hs
        | none => rw [ht] at hs; cases hs

theorem noTls_flush {s s' : Sock} (h : NoTls s) (w : Wr) (hs : (s.flush w).sock = some s') : NoTls s' := by
  unfold Sock.flush at hs
  cases hp : s.proxy with
  | none =>
    rw [hp] at hs; dsimp only at hs
    have : s'.proxy = none := by
      cases ht : s.tls with
      | some t => rw [ht] at hs; cases hs; exact hp
      | none =>
        rw [ht] at hs; dsimp only at hs
        split at hs <;> cases hs <;> exact hp
    intro p hp'; rw [this] at hp'; cases hp'
  | some p =>
    rw [hp] at hs; dsimp only at hs
    split at hs
    · cases hs
      intro q hq hng
      cases hq
      exact h p hp hng
    · split at hs
      · rename_i hng
        cases ht : s.tls with
        | some t =>
          rw [ht] at hs; cases hs
          intro q hq hng'
          have : some p = some q := hp.symm.trans hq
          cases this
          rw [hng] at hng'; cases hng'
        | none => rw [ht] at hs; cases hs
      · cases hs; exact h

theorem noTls_recv {s s' : Sock} (h : NoTls s) (r : Rd) (hs : (s.recv r).sock = some s') : NoTls s' := by
  unfold Sock.recv at hs
  cases hp : s.proxy with
  | none =>
    rw [hp] at hs; dsimp only at hs
    have : s'.proxy = none := by
      cases ht : s.tls with
      | some t => rw [ht] at hs; cases hs; exact hp
      | none =>
        rw [ht] at hs; dsimp only at hs
        split at hs <;> cases hs <;> exact hp
    intro p hp'; rw [this] at hp'; cases hp'
  | some p =>
    rw [hp] at hs; dsimp only at hs
    have key : ∀ s1 : Sock, NoTls s1 → ∀ a, (s1.proxyReply p r a).sock = some s' → NoTls s' := by
      intro s1 h1 a hs
      unfold Sock.proxyReply at hs
      split at hs
      · cases hs; exact h1
      · split at hs
        · cases hs; exact h1
        · cases hs; exact h1
        · cases hs
        · split at hs
          · cases hs; exact h1
          · split at hs
            · split at hs <;> cases hs <;>
              · intro q hq hng
                cases hq; cases hng
            · cases hs; exact h1
    split at hs
    · cases hs; exact h
    · split at hs
      · exact key _ (by intro q hq hng; exact h q hq hng) _ hs
      · cases ht : s.tls with
        | some t =>
          rw [ht] at hs; cases hs
          intro q hq hng
          exact h q hq hng
        | none => rw [ht] at hs; cases hs

theorem bind_sock {o : Out} {g : Sock → Bool → Out} {s' : Sock} (h : (o.bind g).sock = some s') :
    (∃ s1 a, o = .ok s1 a ∧ (g s1 a).sock = some s') ∨ o = .throws s' := by
  cases o with
  | ok s1 a => exact Or.inl ⟨s1, a, rfl, h⟩
  | throws s1 => cases h; exact Or.inr rfl
  | ub => cases h

/-- Both invariants, and that sending never becomes allowed again. -/
def Step (k : Kind) (P : Bytes) (s s' : Sock) : Prop :=
  Inv k s' P ∧ NoTls s' ∧ (s'.state.sendable = true → s.state.sendable = true)

theorem step_when {k : Kind} {P : Bytes} {s s' : Sock} (h : Inv k s P) (hn : NoTls s) (c : Bool) (f : Sock → Out)
    (hf : ∀ s', (f s).sock = some s' → Step k P s s') (hs : (s.when c f).sock = some s') : Step k P s s' := by
  unfold Sock.when at hs
  split at hs
  · exact hf s' hs
  · cases hs; exact ⟨h, hn, id⟩

theorem step_flush {k : Kind} {P : Bytes} {s : Sock} (h : Inv k s P) (hn : NoTls s) (w : Wr) :
    ∀ s', (s.flush w).sock = some s' → Step k P s s' := by
  intro s' hs
  exact ⟨(keeps_flush h w s' hs).1, noTls_flush hn w hs, (keeps_flush h w s' hs).2⟩

theorem step_recv {k : Kind} {P : Bytes} {s : Sock} (h : Inv k s P) (hn : NoTls s) (r : Rd) :
    ∀ s', (s.recv r).sock = some s' → Step k P s s' := by
  intro s' hs
  exact ⟨(keeps_recv h hn r s' hs).1, noTls_recv hn r hs, (keeps_recv h hn r s' hs).2⟩

theorem Step.trans {k : Kind} {P : Bytes} {s s1 s2 : Sock} (h1 : Step k P s s1) (h2 : Step k P s1 s2) : Step k P s s2 :=
  ⟨h2.1, h2.2.1, fun h => h1.2.2 (h2.2.2 h)⟩

theorem step_state {k : Kind} {P : Bytes} {s : Sock} (h : Inv k s P) (hn : NoTls s) (s' : Sock) (h1 : s'.tls = s.tls)
    (h2 : s'.proxy = s.proxy) (h3 : s'.sendBuf = s.sendBuf) (h4 : s'.wire = s.wire)
    (h5 : s'.state.sendable = true → s.state.sendable = true) : Step k P s s' :=
  ⟨h.congr h1 h2 h3 h4 h5, by intro p hp; rw [h1]; rw [h2] at hp; exact hn p hp, h5⟩

theorem step_connected {k : Kind} {P : Bytes} {s s' : Sock} (h : Inv k s P) (hn : NoTls s) (f : Flags) (r : Rd) (w : Wr)
    (hs : (s.onConnected f r w).sock = some s') : Step k P s s' := by
  unfold Sock.onConnected at hs
  dsimp only at hs
  rcases bind_sock hs with ⟨s1, a1, h1, hs1⟩ | h1
  · have e1 := step_when (s' := s1) h hn _ _ (step_recv h hn r) (by rw [h1]; rfl)
    rcases bind_sock hs1 with ⟨s2, a2, h2, hs2⟩ | h2
    · have e2 := step_when (s' := s2) e1.1 e1.2.1 _ _ (step_flush e1.1 e1.2.1 w) (by rw [h2]; rfl)
      refine (e1.trans e2).trans ?_
      split at hs2 <;> cases hs2
      · exact step_state e2.1 e2.2.1 _ rfl rfl rfl rfl (by intro hx; cases hx)
      · exact ⟨e2.1, e2.2.1, id⟩
    · exact e1.trans (step_when (s' := s') e1.1 e1.2.1 _ _ (step_flush e1.1 e1.2.1 w) (by rw [h2]; rfl))
  · exact step_when h hn _ _ (step_recv h hn r) (by rw [h1]; rfl)

theorem not_sendable_shutdown {s : Sock} : (s.shutdown .closed).state.sendable = false := rfl

theorem flush_tls {s s' : Sock} {a : Bool} (w : Wr) (h : s.flush w = .ok s' a) (ht : s.tls = none) : s'.tls = none := by
  unfold Sock.flush at h
  split at h
  · rw [ht] at h; dsimp only at h
    split at h <;> cases h <;> exact ht
  · split at h
    · cases h; exact ht
    · split at h
      · rw [ht] at h; cases h
      · cases h; exact ht

/-- Giving up what is in the send buffer of a socket that is shutting down. -/
theorem inv_cleared {k : Kind} {P : Bytes} {s : Sock} (h : Inv k s P) (hn : NoTls s) (ht : s.tls = none) :
    Step k P s ({ s.shutdown .shuttingDown with sendBuf := [] } : Sock) := by
  obtain ⟨hr, base, hb, hpre, he⟩ := h
  refine ⟨⟨?_, base, ?_, ?_, ?_⟩, ?_, ?_⟩
  · cases k <;> exact hr
  · simp only [Base, Sock.shutdown, ht] at hb ⊢; exact hb
  · dsimp only [Sock.shutdown]; rw [List.append_nil]; exact (List.prefix_append base s.sendBuf).trans hpre
  · intro hx; cases hx
  · intro p hp hng; exact ht
  · intro hx; cases hx

theorem step_shuttingDown {k : Kind} {P : Bytes} {s s' : Sock} (h : Inv k s P) (hn : NoTls s) (r : Rd) (w : Wr)
    (hs : (s.onShuttingDown r w).sock = some s') : Step k P s s' := by
  unfold Sock.onShuttingDown at hs
  split at hs
  · rcases bind_sock hs with ⟨s1, a1, h1, hs1⟩ | h1
    · have e1 := step_recv (s := s) h hn r s1 (by rw [h1]; rfl)
      rcases bind_sock hs1 with ⟨s2, a2, h2, hs2⟩ | h2
      · have e2 := step_flush e1.1 e1.2.1 w s2 (by rw [h2]; rfl)
        refine (e1.trans e2).trans ?_
        split at hs2 <;> cases hs2
        · exact step_state e2.1 e2.2.1 _ rfl rfl rfl rfl (by intro hx; cases hx)
        · exact ⟨e2.1, e2.2.1, id⟩
      · exact e1.trans (step_flush e1.1 e1.2.1 w s' (by rw [h2]; rfl))
    · exact step_recv h hn r s' (by rw [h1]; rfl)
  · rename_i htls
    have htls : s.tls = none := by simpa using htls
    rcases bind_sock hs with ⟨s1, a1, h1, hs1⟩ | h1
    · have e1 := step_when (s' := s1) h hn _ _ (step_flush h hn w) (by rw [h1]; rfl)
      have ht1 : s1.tls = none := by
        unfold Sock.when at h1
        split at h1
        · exact flush_tls w h1 htls
        · cases h1; exact htls
      dsimp only at hs1
      have e2 : Step k P s1 (if a1 = true then s1 else { s1.shutdown .shuttingDown with sendBuf := [] }) := by
        split
        · exact ⟨e1.1, e1.2.1, id⟩
        · exact inv_cleared e1.1 e1.2.1 ht1
      refine (e1.trans e2).trans ?_
      generalize (if a1 = true then s1 else { s1.shutdown .shuttingDown with sendBuf := [] } : Sock) = s2 at *
      split at hs1
      · rcases bind_sock hs1 with ⟨s3, a3, h3, hs3⟩ | h3
        · have e3 := step_recv e2.1 e2.2.1 r s3 (by rw [h3]; rfl)
          refine e3.trans ?_
          split at hs3 <;> cases hs3
          · exact ⟨e3.1, e3.2.1, id⟩
          · exact step_state e3.1 e3.2.1 _ rfl rfl rfl rfl (by intro hx; cases hx)
        · exact step_recv e2.1 e2.2.1 r s' (by rw [h3]; rfl)
      · cases hs1; exact ⟨e2.1, e2.2.1, id⟩
    · exact step_when h hn _ _ (step_flush h hn w) (by rw [h1]; rfl)

theorem step_poll {k : Kind} {P : Bytes} {s s' : Sock} (h : Inv k s P) (hn : NoTls s) (f : Flags) (e : Bool) (r : Rd) (w : Wr)
    (hs : (s.postPoll f e r w).sock = some s') : Step k P s s' := by
  unfold Sock.postPoll at hs
  cases hst : s.state with
  | connecting =>
    rw [hst] at hs; dsimp only at hs
    have hsend : s.state.sendable = true := by rw [hst]; rfl
    split at hs
    · cases hs; exact ⟨h, hn, id⟩
    · split at hs
      · cases hs
        refine step_state h hn _ ?_ ?_ ?_ ?_ (by intro hx; cases hx) <;> (dsimp only; split <;> rfl)
      · have e1 : Step k P s ({ (if f.hup = true then s.shutdown .closed else s) with state := .connected } : Sock) := by
          refine step_state h hn _ ?_ ?_ ?_ ?_ (fun _ => hsend) <;> (dsimp only; split <;> rfl)
        exact e1.trans (step_connected e1.1 e1.2.1 f r w hs)
  | connected => rw [hst] at hs; exact step_connected h hn f r w hs
  | shuttingDown => rw [hst] at hs; exact step_shuttingDown h hn r w hs
  | closed => rw [hst] at hs; cases hs; exact ⟨h, hn, id⟩

/-- Appending to the send buffer does not change the bytes of a waiting record. -/
def Calm (s : Sock) (b : Bytes) : Prop := ∀ t, s.tls = some t → t.pending = true → b = [] ∨ t.maxLen ≤ s.sendBuf.length

theorem inv_append {k : Kind} {P : Bytes} {s : Sock} (h : Inv k s P) (hs : s.state.sendable = true) {b : Bytes} (hc : Calm s b) :
    Inv k { s with sendBuf := s.sendBuf ++ b } (P ++ b) := by
  obtain ⟨hr, base, hb, hpre, he⟩ := h
  refine ⟨?_, base, ?_, ?_, ?_⟩
  · cases k <;> exact hr
  · cases ht : s.tls with
    | none => simp only [Base, ht] at hb ⊢; exact hb
    | some t =>
      simp only [Base, ht] at hb ⊢
      rw [hb]
      by_cases hp : t.pending = true
      · rw [if_pos hp, if_pos hp]
        rcases hc t ht hp with hc | hc
        · rw [hc, List.append_nil]
        · rw [List.take_append_of_le_length hc]
      · rw [if_neg hp, if_neg hp]
  · dsimp only; rw [← List.append_assoc, he hs]; exact List.prefix_refl _
  · intro _; dsimp only; rw [← List.append_assoc, he hs]

theorem step_send {k : Kind} {P : Bytes} {s s' : Sock} (h : Inv k s P) (hn : NoTls s) (b : Bytes) (w : Wr) (hc : Calm s b)
    (hs : (s.send b w).sock = some s') :
    (Step k (P ++ b) s s' ∨ (Step k P s s' ∧ s.state.sendable = false)) ∨
      (s' = s ∧ ∃ p, s.proxy = some p ∧ connectText p.host p.requestID = none) := by
  unfold Sock.send at hs
  by_cases hsend : s.state.sendable = true
  · rw [if_pos hsend] at hs
    have base := inv_append h hsend hc
    cases hp : s.proxy with
    | none =>
      rw [hp] at hs base
      refine Or.inl (Or.inl ?_)
      have := step_flush base (by intro p hp'; cases hp') w s' hs
      exact ⟨this.1, this.2.1, fun _ => hsend⟩
    | some p =>
      rw [hp] at hs base; dsimp only at hs
      split at hs
      · refine Or.inl (Or.inl ?_)
        have := step_flush base (by intro q hq hng; cases hq; exact hn p hp hng) w s' hs
        exact ⟨this.1, this.2.1, fun _ => hsend⟩
      · rename_i hfill
        cases hct : connectText p.host p.requestID with
        | none =>
          rw [hct] at hs; cases hs
          exact Or.inr ⟨rfl, p, rfl, hct⟩
        | some c =>
          rw [hct] at hs; dsimp only at hs
          refine Or.inl (Or.inl ?_)
          have b2 : Inv k { s with proxy := some { p with pre := p.pre ++ c, filled := true }, sendBuf := s.sendBuf ++ b } (P ++ b) := by
            obtain ⟨hr, base, hb, hpre, he⟩ := base
            refine ⟨?_, base, ?_, hpre, he⟩
            · cases k with
              | plain => cases hr.1
              | secure => cases hr.1
              | proxied x y =>
                obtain ⟨q, hq, h1, h2, h3⟩ := hr
                cases hq
                refine ⟨_, rfl, h1, h2, Or.inr ⟨rfl, c, ?_, ?_⟩⟩
                · rw [← h1, ← h2]; exact hct
                · cases h3 with
                  | inl h3 =>
                    dsimp only at h3 ⊢
                    rw [h3.2.2, h3.2.1]; rfl
                  | inr h3 => exact absurd h3.1 hfill
            · exact hb
          have := step_flush b2 (by intro q hq hng; cases hq; exact hn p hp hng) w s' hs
          exact ⟨this.1, this.2.1, fun _ => hsend⟩
  · rw [if_neg hsend] at hs
    exact Or.inl (Or.inr ⟨step_flush h hn w s' hs, by simpa using hsend⟩)

theorem Inv.weaken {k : Kind} {P : Bytes} {s : Sock} (h : Inv k s P) (hs : s.state.sendable = false) (b : Bytes) : Inv k s (P ++ b) := by
  obtain ⟨hr, base, hb, hpre, he⟩ := h
  exact ⟨hr, base, hb, hpre.trans (List.prefix_append _ _), by intro hx; rw [hs] at hx; cases hx⟩

/-- No call to `send` adds bytes while a record shorter than the limit waits to be flushed. -/
def Steady (s : Sock) : List Op → Prop
  | [] => True
  | op :: ops =>
    (match op with | .send b _ => Calm s b | _ => True) ∧
      (match s.step op with | some s' => Steady s' ops | none => True)

/-- The message to the proxy can be written (else every `send` throws). -/
def Writable (k : Kind) : Prop := ∀ h r, k = .proxied h r → (connectText h r).isSome

theorem inv_step {k : Kind} {P : Bytes} {s s' : Sock} (h : Inv k s P) (hn : NoTls s) (hw : Writable k) (op : Op)
    (hc : match op with | .send b _ => Calm s b | _ => True) (hs : s.step op = some s') :
    Inv k s' (P ++ handed [op]) ∧ NoTls s' := by
  cases op with
  | send b w =>
    have e : handed [Op.send b w] = b := by simp [handed]
    rw [e]
    rcases step_send h hn b w hc hs with (h1 | ⟨h1, h2⟩) | ⟨h1, p, h2, h3⟩
    · exact ⟨h1.1, h1.2.1⟩
    · refine ⟨h1.1.weaken ?_ b, h1.2.1⟩
      cases hx : s'.state.sendable with
      | false => rfl
      | true => rw [h1.2.2 hx] at h2; cases h2
    · exfalso
      cases k with
      | plain => rw [h.raw.1] at h2; cases h2
      | secure => rw [h.raw.1] at h2; cases h2
      | proxied x y =>
        obtain ⟨q, hq, e1, e2, _⟩ := h.raw
        rw [h2] at hq; cases hq
        have := hw x y rfl
        rw [← e1, ← e2, h3] at this
        cases this
  | poll f e r w =>
    have := step_poll h hn f e r w hs
    simp only [handed, List.flatMap_cons, List.flatMap_nil, List.append_nil]
    exact ⟨this.1, this.2.1⟩
  | take n => cases hs; simp only [handed, List.flatMap_cons, List.flatMap_nil, List.append_nil]
              exact ⟨h.congr rfl rfl rfl rfl id, hn⟩
  | shutdown hard => cases hs; simp only [handed, List.flatMap_cons, List.flatMap_nil, List.append_nil]
                     refine ⟨h.congr rfl rfl rfl rfl ?_, hn⟩
                     intro hx; cases hard <;> cases hx
  | arriveRaw b => cases hs; simp only [handed, List.flatMap_cons, List.flatMap_nil, List.append_nil]
                   exact ⟨h.congr rfl rfl rfl rfl id, hn⟩
  | arriveTls b => cases hs; simp only [handed, List.flatMap_cons, List.flatMap_nil, List.append_nil]
                   exact ⟨h.congr rfl rfl rfl rfl id, hn⟩

theorem inv_run {k : Kind} (hw : Writable k) (ops : List Op) : ∀ {P : Bytes} {s s' : Sock}, Inv k s P → NoTls s → Steady s ops →
    s.run ops = some s' → Inv k s' (P ++ handed ops) ∧ NoTls s' := by
  induction ops with
  | nil => intro P s s' h hn _ hs; cases hs; simp only [handed, List.flatMap_nil, List.append_nil]; exact ⟨h, hn⟩
  | cons op ops ih =>
    intro P s s' h hn hst hs
    unfold Sock.run at hs
    cases h1 : s.step op with
    | none => rw [h1] at hs; cases hs
    | some s1 =>
      rw [h1] at hs
      have e := inv_step h hn hw op hst.1 h1
      have hst2 := hst.2
      rw [h1] at hst2
      have := ih e.1 e.2 hst2 hs
      have eq : handed (op :: ops) = handed [op] ++ handed ops := by simp [handed]
      rw [eq, ← List.append_assoc]
      exact this

theorem inv_plain (bl : Bool) (st : State) : Inv .plain (plain bl st) [] :=
  ⟨⟨rfl, rfl⟩, [], rfl, List.prefix_refl _, fun _ => rfl⟩
theorem inv_secure (m : Nat) : Inv .secure (secure m) [] :=
  ⟨⟨rfl, rfl, rfl⟩, [], rfl, List.prefix_refl _, fun _ => rfl⟩
theorem inv_proxied (h r : Bytes) : Inv (.proxied h r) (proxied h r) [] :=
  ⟨⟨_, rfl, rfl, rfl, Or.inl ⟨rfl, rfl, rfl⟩⟩, [], rfl, List.prefix_refl _, fun _ => rfl⟩

theorem noTls_plain (s : Sock) (h : s.proxy = none) : NoTls s := by intro p hp; rw [h] at hp; cases hp
theorem noTls_proxied (h r : Bytes) : NoTls (proxied h r) := by intro p hp _; rfl

theorem steady_noTls {k : Kind} (hk : k = .plain) (hw : Writable k) (ops : List Op) : ∀ {P : Bytes} {s : Sock}, Inv k s P → NoTls s →
    Steady s ops := by
  subst hk
  induction ops with
  | nil => intros; trivial
  | cons op ops ih =>
    intro P s h hn
    have hc : match op with | .send b _ => Calm s b | _ => True := by
      cases op with
      | send b w => intro t ht; rw [h.raw.2] at ht; cases ht
      | _ => trivial
    refine ⟨hc, ?_⟩
    cases h1 : s.step op with
    | none => trivial
    | some s1 =>
      have e := inv_step h hn hw op hc h1
      exact ih e.1 e.2

theorem writable_plain : Writable .plain := by intro h r e; cases e
theorem writable_secure : Writable .secure := by intro h r e; cases e

/-! ## C89: sending -/

/-- **C89, in order.**  Over a plain connection the bytes given to the kernel are a prefix of the bytes handed to `send`:
for every sequence of calls, short writes, errors, polls and shutdowns, nothing is left out, repeated or reordered. -/
theorem c89_in_order (bl : Bool) (st : State) (ops : List Op) (s : Sock) (h : (plain bl st).run ops = some s) :
    s.wire <+: handed ops := by
  have i := inv_run writable_plain ops (inv_plain bl st) (noTls_plain _ rfl)
    (steady_noTls rfl writable_plain ops (inv_plain bl st) (noTls_plain _ rfl)) h
  rw [List.nil_append] at i
  obtain ⟨base, hb, hp, _⟩ := i.1.app
  simp only [Base, i.1.raw.2, i.1.raw.1] at hb
  simp only [Option.isSome_none, Bool.false_eq_true, if_false] at hb
  rw [hb] at hp
  exact (List.prefix_append _ _).trans hp

/-- **C89, nothing lost.**  As long as the socket was not shut down or closed, every byte handed to `send` was either
given to the kernel or waits in the send buffer, in order. -/
theorem c89_nothing_lost (bl : Bool) (st : State) (ops : List Op) (s : Sock) (h : (plain bl st).run ops = some s)
    (hs : s.state = .connecting ∨ s.state = .connected) : s.wire ++ s.sendBuf = handed ops := by
  have i := inv_run writable_plain ops (inv_plain bl st) (noTls_plain _ rfl)
    (steady_noTls rfl writable_plain ops (inv_plain bl st) (noTls_plain _ rfl)) h
  rw [List.nil_append] at i
  obtain ⟨base, hb, _, he⟩ := i.1.app
  simp only [Base, i.1.raw.2, i.1.raw.1] at hb
  simp only [Option.isSome_none, Bool.false_eq_true, if_false] at hb
  rw [← hb]
  apply he
  rcases hs with hs | hs <;> rw [hs] <;> rfl

/-- A short write, a full kernel buffer, then the rest. -/
example :
    ((plain false .connected).run
      [.send (str "hello ") ⟨.sent 2, .dead⟩, .send (str "world") ⟨.failed .wouldBlock, .dead⟩,
       .poll { out := true } false ⟨[], .eof, false, false, 0⟩ ⟨.sent 100, .dead⟩]).map (fun s => (s.wire, s.sendBuf, s.state))
      = some (str "hello world", [], .connected) := by decide +kernel

/-- **C89, TLS, partial.**  Over a TLS connection nothing goes out unencrypted, and the bytes put into the session are a
prefix of the bytes handed to `send`, if no bytes are added while a record shorter than the limit waits to be flushed
(missing: see `c89_tls_lost`). -/
theorem c89_tls_partial (m : Nat) (ops : List Op) (s : Sock) (h : (secure m).run ops = some s) (hst : Steady (secure m) ops) :
    s.wire = [] ∧ ∃ t, s.tls = some t ∧ t.stream <+: handed ops ∧
      (s.state = .connecting ∨ s.state = .connected → t.pending = false → t.stream ++ s.sendBuf = handed ops) := by
  have i := inv_run writable_secure ops (inv_secure m) (noTls_plain _ rfl) hst h
  rw [List.nil_append] at i
  refine ⟨i.1.raw.2.2, ?_⟩
  obtain ⟨base, hb, hp, he⟩ := i.1.app
  cases ht : s.tls with
  | none => have := i.1.raw.2.1; rw [ht] at this; cases this
  | some t =>
    simp only [Base, ht] at hb
    refine ⟨t, rfl, ?_, ?_⟩
    · rw [hb]
      refine List.IsPrefix.trans ?_ hp
      split
      · exact (List.prefix_append_right_inj base).2 (List.take_prefix _ _)
      · rw [List.append_nil]; exact List.prefix_append _ _
    · intro hs hpd
      rw [hpd] at hb
      simp only [Bool.false_eq_true, if_false, List.append_nil] at hb
      rw [hb]
      apply he
      rcases hs with hs | hs <;> rw [hs] <;> rfl

theorem steady_quiet {s : Sock} (ops : List Op) (h : ∀ b w, .send b w ∉ ops) : Steady s ops := by
  induction ops generalizing s with
  | nil => trivial
  | cons op ops ih =>
    refine ⟨?_, ?_⟩
    · cases op with
      | send b w => exact absurd (List.mem_cons_self) (h b w)
      | _ => trivial
    · cases s.step op with
      | none => trivial
      | some s' => exact ih fun b w hm => h b w (List.mem_cons_of_mem _ hm)

/-- **C89, one request.**  How HTTPS requests are sent: one `send`, then polls.  The request goes out encrypted, in order. -/
theorem c89_tls_one_request (m : Nat) (b : Bytes) (w : Wr) (ops : List Op) (hq : ∀ b w, .send b w ∉ ops) (s : Sock)
    (h : (secure m).run (.send b w :: ops) = some s) :
    s.wire = [] ∧ ∃ t, s.tls = some t ∧ t.stream <+: b ∧
      (s.state = .connecting ∨ s.state = .connected → t.pending = false → t.stream ++ s.sendBuf = b) := by
  have e : handed (.send b w :: ops) = b := by
    have : handed ops = [] := by
      unfold handed
      rw [List.flatMap_eq_nil_iff]
      intro op ho
      cases op with
      | send b w => exact absurd ho (hq b w)
      | _ => rfl
    have e2 : handed (.send b w :: ops) = b ++ handed ops := rfl
    rw [e2, this, List.append_nil]
  have := c89_tls_partial m (.send b w :: ops) s h ⟨(by intro t ht hp; cases ht; cases hp), (by
    cases (secure m).step (.send b w) with
    | none => trivial
    | some s' => exact steady_quiet ops hq)⟩
  rw [e] at this
  exact this

/-- A request that needs two records, the first of which blocks once. -/
example :
    ((secure 4).run
      [.send (str "GET /x") ⟨.sent 0, .notReady⟩, .poll { out := true } false ⟨[], .eof, true, false, 0⟩ ⟨.sent 0, .blocked⟩,
       .poll { out := true } false ⟨[], .eof, true, false, 0⟩ ⟨.sent 0, .done⟩,
       .poll { out := true } false ⟨[], .eof, true, false, 0⟩ ⟨.sent 0, .done⟩]).map
      (fun s => (s.wire, s.sendBuf, s.tls.map (·.stream))) = some ([], [], some (str "GET /x")) := by decide +kernel

/-- **C89, lost over TLS.**  If a record blocks and bytes are added before the next attempt, these are removed from the send
buffer and never sent: the call is not repeated with the same arguments, as the library asks. -/
theorem c89_tls_lost :
    ∃ ops s t, (secure 16384).run ops = some s ∧ s.tls = some t ∧ s.state = .connected ∧ handed ops = str "one two" ∧
      s.sendBuf = [] ∧ t.pending = false ∧ t.stream = str "one " :=
  ⟨[.poll { out := true } false ⟨[], .eof, true, false, 0⟩ ⟨.sent 0, .done⟩, .send (str "one ") ⟨.sent 0, .blocked⟩,
    .send (str "two") ⟨.sent 0, .done⟩], _, _, rfl, rfl, by decide +kernel⟩

/-! ### Shutting down and closing -/

/-- What holds for each part of `postPoll` holds for all of it. -/
structure Closed (R : Sock → Sock → Prop) : Prop where
  refl : ∀ s, R s s
  trans : ∀ s1 s2 s3, R s1 s2 → R s2 s3 → R s1 s3
  flush : ∀ s s' w, (s.flush w).sock = some s' → R s s'
  recv : ∀ s s' r, (s.recv r).sock = some s' → R s s'
  close : ∀ s, R s { s with state := .closed }
  shutdown : ∀ s, R s (s.shutdown .closed)
  fail : ∀ s h, R s ({ (if h = true then s.shutdown .closed else s) with state := .closed, connectFailure := true } : Sock)
  opens : ∀ s h, s.state = .connecting → R s ({ (if h = true then s.shutdown .closed else s) with state := .connected } : Sock)
  clear : ∀ s, s.tls = none → R s ({ s.shutdown .shuttingDown with sendBuf := [] } : Sock)

theorem Closed.when {R : Sock → Sock → Prop} (hR : Closed R) {s s' : Sock} {c : Bool} {f : Sock → Out}
    (hf : ∀ s', (f s).sock = some s' → R s s') (hs : (s.when c f).sock = some s') : R s s' := by
  unfold Sock.when at hs
  split at hs
  · exact hf s' hs
  · cases hs; exact hR.refl s

theorem Closed.connected {R : Sock → Sock → Prop} (hR : Closed R) {s s' : Sock} (f : Flags) (r : Rd) (w : Wr)
    (hs : (s.onConnected f r w).sock = some s') : R s s' := by
  unfold Sock.onConnected at hs
  dsimp only at hs
  rcases bind_sock hs with ⟨s1, a1, h1, hs1⟩ | h1
  · have e1 := hR.when (s' := s1) (fun s' => hR.recv s s' r) (by rw [h1]; rfl)
    rcases bind_sock hs1 with ⟨s2, a2, h2, hs2⟩ | h2
    · have e2 := hR.when (s' := s2) (fun s' => hR.flush s1 s' w) (by rw [h2]; rfl)
      refine hR.trans _ _ _ (hR.trans _ _ _ e1 e2) ?_
      split at hs2 <;> cases hs2
      · exact hR.close s2
      · exact hR.refl _
    · exact hR.trans _ _ _ e1 (hR.when (s' := s') (fun s' => hR.flush s1 s' w) (by rw [h2]; rfl))
  · exact hR.when (fun s' => hR.recv s s' r) (by rw [h1]; rfl)

theorem Closed.shuttingDown {R : Sock → Sock → Prop} (hR : Closed R) {s s' : Sock} (r : Rd) (w : Wr)
    (hs : (s.onShuttingDown r w).sock = some s') : R s s' := by
  unfold Sock.onShuttingDown at hs
  split at hs
  · rcases bind_sock hs with ⟨s1, a1, h1, hs1⟩ | h1
    · have e1 := hR.recv s s1 r (by rw [h1]; rfl)
      rcases bind_sock hs1 with ⟨s2, a2, h2, hs2⟩ | h2
      · have e2 := hR.flush s1 s2 w (by rw [h2]; rfl)
        refine hR.trans _ _ _ (hR.trans _ _ _ e1 e2) ?_
        split at hs2 <;> cases hs2
        · exact hR.shutdown s2
        · exact hR.refl _
      · exact hR.trans _ _ _ e1 (hR.flush s1 s' w (by rw [h2]; rfl))
    · exact hR.recv s s' r (by rw [h1]; rfl)
  · rename_i htls
    have htls : s.tls = none := by simpa using htls
    rcases bind_sock hs with ⟨s1, a1, h1, hs1⟩ | h1
    · have e1 := hR.when (s' := s1) (fun s' => hR.flush s s' w) (by rw [h1]; rfl)
      have ht1 : s1.tls = none := by
        unfold Sock.when at h1
        split at h1
        · exact flush_tls w h1 htls
        · cases h1; exact htls
      dsimp only at hs1
      have e2 : R s1 (if a1 = true then s1 else { s1.shutdown .shuttingDown with sendBuf := [] }) := by
        split
        · exact hR.refl s1
        · exact hR.clear s1 ht1
      refine hR.trans _ _ _ (hR.trans _ _ _ e1 e2) ?_
      generalize (if a1 = true then s1 else { s1.shutdown .shuttingDown with sendBuf := [] } : Sock) = s2 at *
      split at hs1
      · rcases bind_sock hs1 with ⟨s3, a3, h3, hs3⟩ | h3
        · have e3 := hR.recv s2 s3 r (by rw [h3]; rfl)
          refine hR.trans _ _ _ e3 ?_
          split at hs3 <;> cases hs3
          · exact hR.refl _
          · exact hR.shutdown _
        · exact hR.recv s2 s' r (by rw [h3]; rfl)
      · cases hs1; exact hR.refl _
    · exact hR.when (fun s' => hR.flush s s' w) (by rw [h1]; rfl)

theorem Closed.poll {R : Sock → Sock → Prop} (hR : Closed R) {s s' : Sock} (f : Flags) (e : Bool) (r : Rd) (w : Wr)
    (hs : (s.postPoll f e r w).sock = some s') : R s s' := by
  unfold Sock.postPoll at hs
  cases hst : s.state with
  | connecting =>
    rw [hst] at hs; dsimp only at hs
    split at hs
    · cases hs; exact hR.refl s
    · split at hs
      · cases hs; exact hR.fail s f.hup
      · exact hR.trans _ _ _ (hR.opens s f.hup hst) (hR.connected f r w hs)
  | connected => rw [hst] at hs; exact hR.connected f r w hs
  | shuttingDown => rw [hst] at hs; exact hR.shuttingDown r w hs
  | closed => rw [hst] at hs; cases hs; exact hR.refl s

/-- The three ways `send` can go. -/
theorem send_cases {s s' : Sock} {b : Bytes} {w : Wr} (h : (s.send b w).sock = some s') :
    (s.state.sendable = false ∧ (s.flush w).sock = some s') ∨ s' = s ∨
      ∃ px, ((({ s with proxy := px, sendBuf := s.sendBuf ++ b } : Sock).flush w).sock = some s') ∧ s.state.sendable = true ∧
        (px = s.proxy ∨ ∃ p c, s.proxy = some p ∧ p.filled = false ∧ connectText p.host p.requestID = some c ∧
          px = some { p with pre := p.pre ++ c, filled := true }) := by
  unfold Sock.send at h
  by_cases hs : s.state.sendable = true
  · rw [if_pos hs] at h
    cases hp : s.proxy with
    | none => rw [hp] at h; exact Or.inr (Or.inr ⟨none, h, hs, Or.inl rfl⟩)
    | some p =>
      rw [hp] at h; dsimp only at h
      split at h
      · exact Or.inr (Or.inr ⟨some p, h, hs, Or.inl rfl⟩)
      · rename_i hf
        cases hc : connectText p.host p.requestID with
        | none => rw [hc] at h; cases h; exact Or.inr (Or.inl rfl)
        | some c =>
          rw [hc] at h
          exact Or.inr (Or.inr ⟨_, h, hs, Or.inr ⟨p, c, rfl, by simpa using hf, hc, rfl⟩⟩)
  · rw [if_neg hs] at h
    exact Or.inl ⟨by simpa using hs, h⟩

/-- What a socket has written. -/
def written (s : Sock) : Bytes × Option Bytes := (s.wire, s.tls.map (·.stream))

theorem plainSend_failed (b : Bytes) (e : Errno) : (plainSend b (.failed e)).2.1 = [] ∧ (plainSend b (.failed e)).1 = b := by
  unfold plainSend
  split
  · exact ⟨rfl, rfl⟩
  · dsimp only; split <;> exact ⟨rfl, rfl⟩

theorem answer_shut {s : Sock} (h : s.shut = true ∨ s.fd = false) (r : Sent) : ∃ e, s.answer r = .failed e := by
  unfold Sock.answer
  rcases h with h | h
  · rw [h]; split <;> exact ⟨_, rfl⟩
  · rw [h]; exact ⟨_, rfl⟩

theorem sendTls_shut {s : Sock} (h : s.shut = true ∨ s.fd = false) (t : Tls) (ht : s.tls = some t) (w : Wr) :
    s.sendTls t w = .ok s (s.sendBuf == []) := by
  have hd : s.tlsAnswer w.tls = .dead := by
    unfold Sock.tlsAnswer
    rcases h with h | h <;> simp [h]
  unfold Sock.sendTls Tls.sendConsume
  rw [hd]
  by_cases hb : s.sendBuf = []
  · rw [if_pos hb]
    have e : ({ s with tls := some t } : Sock) = s := by rw [← ht]
    have e2 : (s.sendBuf == []) = true := by rw [hb]; rfl
    rw [e2]
    exact congrArg (fun x => Out.ok x true) e
  · simp only [if_neg hb, Tls.send]
    rw [← ht]
    simp [hb]

theorem flush_shut {s s' : Sock} (h : s.shut = true ∨ s.fd = false) (w : Wr) (hs : (s.flush w).sock = some s') : s' = s := by
  unfold Sock.flush at hs
  obtain ⟨e, he⟩ := answer_shut h w.plain
  cases hp : s.proxy with
  | none =>
    rw [hp] at hs; dsimp only at hs
    cases ht : s.tls with
    | some t =>
      rw [ht] at hs; dsimp only at hs
      rw [sendTls_shut h t ht] at hs; cases hs; rfl
    | none =>
      rw [ht] at hs; dsimp only at hs
      split at hs
      · unfold Sock.sendPlain at hs
        rw [he] at hs
        dsimp only at hs
        rw [(plainSend_failed s.sendBuf e).1, (plainSend_failed s.sendBuf e).2, List.append_nil] at hs
        cases hs; rfl
      · cases hs; rfl
  | some p =>
    rw [hp] at hs; dsimp only at hs
    split at hs
    · rw [he] at hs
      rw [(plainSend_failed p.pre e).1, (plainSend_failed p.pre e).2, List.append_nil] at hs
      cases hs
      rw [← hp]
    · split at hs
      · cases ht : s.tls with
        | some t =>
          rw [ht] at hs; dsimp only at hs
          rw [sendTls_shut h t ht] at hs; cases hs; rfl
        | none => rw [ht] at hs; cases hs
      · cases hs; rfl

/-- What `recv` changes. -/
theorem recv_same {s s' : Sock} (r : Rd) (hs : (s.recv r).sock = some s') :
    s'.wire = s.wire ∧ s'.sendBuf = s.sendBuf ∧ s'.shut = s.shut ∧ (s.tls.isSome = true → s.proxy = none ∨ NoTls s → s'.tls = s.tls) ∧
      (s.proxy = none → s'.tls = s.tls ∧ s'.proxy = none) ∧ (s.state.sendable = false → s'.state.sendable = false) ∧
      (s.state = .closed → s'.state = .closed) ∧
      (s.tls = none → s'.tls = none ∨ ∃ m, s'.tls = some { maxLen := m }) := by
  unfold Sock.recv at hs
  cases hp : s.proxy with
  | none =>
    rw [hp] at hs; dsimp only at hs
    cases ht : s.tls with
    | some t =>
      rw [ht] at hs; cases hs
      exact ⟨rfl, rfl, rfl, fun _ _ => ht, fun _ => ⟨ht, hp⟩, id, id, fun h => by cases h⟩
    | none =>
      rw [ht] at hs; dsimp only at hs
      split at hs <;> cases hs <;>
        exact ⟨rfl, rfl, rfl, fun h => (by cases h), fun _ => ⟨ht, hp⟩, id, id, fun _ => Or.inl ht⟩
  | some p =>
    rw [hp] at hs; dsimp only at hs
    split at hs
    · cases hs; exact ⟨rfl, rfl, rfl, fun _ _ => rfl, fun h => (by cases h), id, id, Or.inl⟩
    · split at hs
      · rename_i hng
        have hng : p.negotiated = false := by simpa using hng
        unfold Sock.proxyReply at hs
        have triv : ∀ s1 : Sock, s1 = (s.recvPlain r).1 → some s1 = some s' →
            s'.wire = s.wire ∧ s'.sendBuf = s.sendBuf ∧ s'.shut = s.shut ∧
            (s.tls.isSome = true → some p = none ∨ NoTls s → s'.tls = s.tls) ∧
            (some p = none → s'.tls = s.tls ∧ s'.proxy = none) ∧ (s.state.sendable = false → s'.state.sendable = false) ∧
            (s.state = .closed → s'.state = .closed) ∧
            (s.tls = none → s'.tls = none ∨ ∃ m, s'.tls = some { maxLen := m }) := by
          intro s1 e h; cases h; subst e
          exact ⟨rfl, rfl, rfl, fun _ _ => rfl, fun h => (by cases h), id, id, Or.inl⟩
        split at hs
        · exact triv _ rfl hs
        · split at hs
          · exact triv _ rfl hs
          · exact triv _ rfl hs
          · cases hs
          · split at hs
            · exact triv _ rfl hs
            · split at hs
              · split at hs <;> cases hs
                · exact ⟨rfl, rfl, rfl, fun _ _ => rfl, fun h => (by cases h), id, id, Or.inl⟩
                · refine ⟨rfl, rfl, rfl, ?_, fun h => (by cases h), id, id, fun _ => Or.inr ⟨_, rfl⟩⟩
                  intro h1 h2
                  rcases h2 with h2 | h2
                  · cases h2
                  · rw [h2 p hp hng] at h1; cases h1
              · cases hs
                exact ⟨rfl, rfl, rfl, fun _ _ => rfl, fun h => (by cases h), fun _ => rfl, fun _ => rfl, Or.inl⟩
      · cases ht : s.tls with
        | some t =>
          rw [ht] at hs; cases hs
          exact ⟨rfl, rfl, rfl, fun _ _ => ht, fun h => (by cases h), id, id, fun h => (by cases h)⟩
        | none => rw [ht] at hs; cases hs

/-- Nothing of the application has been written. -/
def noStream (s : Sock) : Prop := ∀ t, s.tls = some t → t.stream = []

theorem closed_shut : Closed fun s s' => s.shut = true → s'.shut = true ∧ s'.wire = s.wire ∧ (s.proxy = none → s'.proxy = none ∧ s'.tls = s.tls) where
  refl := fun s h => ⟨h, rfl, fun hp => ⟨hp, rfl⟩⟩
  trans := fun s1 s2 s3 h12 h23 h => by
    have e := h12 h
    have e2 := h23 e.1
    exact ⟨e2.1, e2.2.1.trans e.2.1, fun hp => ⟨(e2.2.2 (e.2.2 hp).1).1, (e2.2.2 (e.2.2 hp).1).2.trans (e.2.2 hp).2⟩⟩
  flush := fun s s' w hs h => by rw [flush_shut (Or.inl h) w hs]; exact ⟨h, rfl, fun hp => ⟨hp, rfl⟩⟩
  recv := fun s s' r hs h => by
    have e := recv_same r hs
    exact ⟨e.2.2.1.trans h, e.1, fun hp => ⟨(e.2.2.2.2.1 hp).2, (e.2.2.2.2.1 hp).1⟩⟩
  close := fun s h => ⟨h, rfl, fun hp => ⟨hp, rfl⟩⟩
  shutdown := fun s h => ⟨rfl, rfl, fun hp => ⟨hp, rfl⟩⟩
  fail := fun s x h => by cases x <;> exact ⟨by first | exact h | rfl, rfl, fun hp => ⟨hp, rfl⟩⟩
  opens := fun s x _ h => by cases x <;> exact ⟨by first | exact h | rfl, rfl, fun hp => ⟨hp, rfl⟩⟩
  clear := fun s _ h => ⟨rfl, rfl, fun hp => ⟨hp, rfl⟩⟩

theorem shut_run (ops : List Op) : ∀ {s s' : Sock}, s.shut = true → s.run ops = some s' →
    s'.shut = true ∧ s'.wire = s.wire ∧ (s.proxy = none → s'.proxy = none ∧ s'.tls = s.tls) := by
  induction ops with
  | nil => intro s s' h hs; cases hs; exact ⟨h, rfl, fun hp => ⟨hp, rfl⟩⟩
  | cons op ops ih =>
    intro s s' h hs
    unfold Sock.run at hs
    cases h1 : s.step op with
    | none => rw [h1] at hs; cases hs
    | some s1 =>
      rw [h1] at hs
      have e : s1.shut = true ∧ s1.wire = s.wire ∧ (s.proxy = none → s1.proxy = none ∧ s1.tls = s.tls) := by
        cases op with
        | send b w =>
          rcases send_cases h1 with ⟨_, h2⟩ | h2 | ⟨px, h2, _, h3⟩
          · rw [flush_shut (Or.inl h) w h2]; exact ⟨h, rfl, fun hp => ⟨hp, rfl⟩⟩
          · rw [h2]; exact ⟨h, rfl, fun hp => ⟨hp, rfl⟩⟩
          · rw [flush_shut (s := { s with proxy := px, sendBuf := s.sendBuf ++ b }) (Or.inl h) w h2]
            refine ⟨h, rfl, fun hp => ⟨?_, rfl⟩⟩
            rcases h3 with h3 | ⟨p, _, h4, _⟩
            · rw [hp] at h3; exact h3
            · rw [hp] at h4; cases h4
        | poll f x r w => exact closed_shut.poll f x r w h1 h
        | take n => cases h1; exact ⟨h, rfl, fun hp => ⟨hp, rfl⟩⟩
        | shutdown hard => cases h1; exact ⟨rfl, rfl, fun hp => ⟨hp, rfl⟩⟩
        | arriveRaw b => cases h1; exact ⟨h, rfl, fun hp => ⟨hp, rfl⟩⟩
        | arriveTls b => cases h1; exact ⟨h, rfl, fun hp => ⟨hp, rfl⟩⟩
      have e2 := ih e.1 hs
      exact ⟨e2.1, e2.2.1.trans e.2.1, fun hp => ⟨(e2.2.2 (e.2.2 hp).1).1, (e2.2.2 (e.2.2 hp).1).2.trans (e.2.2 hp).2⟩⟩

/-- **C89, shutting down drops what was not sent.**  `shutdown` closes both directions at once: whatever is done after it,
nothing more is written, so bytes that waited in the send buffer are lost (although the code of the state SHUTTINGDOWN
means to send them first). -/
theorem c89_shutdown_drops (s s' : Sock) (hard : Bool) (ops : List Op) (hp : s.proxy = none)
    (h : s.run (.shutdown hard :: ops) = some s') : written s' = written s := by
  unfold Sock.run at h
  have e := shut_run ops (s := s.shutdown (if hard then .closed else .shuttingDown)) rfl h
  have e2 := e.2.2 hp
  unfold written
  rw [e.2.1, e2.2]
  rfl

example :
    ((plain false .connected).run
      [.send (str "answer") ⟨.failed .wouldBlock, .dead⟩, .shutdown false,
       .poll { out := true } false ⟨[], .failed .wouldBlock, false, false, 0⟩ ⟨.sent 6, .dead⟩]).map
      (fun s => (s.wire, s.sendBuf, s.state)) = some ([], [], .closed) := by decide +kernel

theorem plainSend_le {b : Bytes} {r : Sent} : (plainSend b r).2.1 ++ (plainSend b r).1 = b := plainSend_parts b r

theorem closed_final : Closed fun s s' => s.state.sendable = false → s.proxy = none → s.tls = none →
    s'.state.sendable = false ∧ s'.proxy = none ∧ s'.tls = none ∧ s'.wire ++ s'.sendBuf <+: s.wire ++ s.sendBuf where
  refl := fun s h1 h2 h3 => ⟨h1, h2, h3, List.prefix_refl _⟩
  trans := fun s1 s2 s3 h12 h23 h1 h2 h3 => by
    obtain ⟨a, b, c, d⟩ := h12 h1 h2 h3
    obtain ⟨a', b', c', d'⟩ := h23 a b c
    exact ⟨a', b', c', d'.trans d⟩
  flush := fun s s' w hs h1 h2 h3 => by
    unfold Sock.flush at hs
    rw [h2, h3] at hs
    dsimp only at hs
    split at hs <;> cases hs
    · refine ⟨h1, h2, h3, ?_⟩
      dsimp only
      rw [List.append_assoc, plainSend_parts]
      exact List.prefix_refl _
    · exact ⟨h1, h2, h3, List.prefix_refl _⟩
  recv := fun s s' r hs h1 h2 h3 => by
    have e := recv_same r hs
    refine ⟨e.2.2.2.2.2.1 h1, (e.2.2.2.2.1 h2).2, (e.2.2.2.2.1 h2).1.trans h3, ?_⟩
    rw [e.1, e.2.1]; exact List.prefix_refl _
  close := fun s h1 h2 h3 => ⟨rfl, h2, h3, List.prefix_refl _⟩
  shutdown := fun s h1 h2 h3 => ⟨rfl, h2, h3, List.prefix_refl _⟩
  fail := fun s x h1 h2 h3 => by cases x <;> exact ⟨rfl, h2, h3, List.prefix_refl _⟩
  opens := fun s x h0 h1 => by rw [h0] at h1; cases h1
  clear := fun s _ h1 h2 h3 => ⟨rfl, h2, h3, by dsimp only [Sock.shutdown]; rw [List.append_nil]; exact List.prefix_append _ _⟩

/-- **C89, final.**  After a plain socket is shutting down or closed no call makes it usable again, and of what is handed to
it from then on nothing is written: at most what waited in the send buffer. -/
theorem c89_final (ops : List Op) : ∀ (s s' : Sock), s.state = .shuttingDown ∨ s.state = .closed → s.proxy = none → s.tls = none →
    s.run ops = some s' → (s'.state = .shuttingDown ∨ s'.state = .closed) ∧ s'.wire <+: s.wire ++ s.sendBuf := by
  have ns : ∀ s : Sock, (s.state = .shuttingDown ∨ s.state = .closed) ↔ s.state.sendable = false := by
    intro s; cases s.state <;> simp [State.sendable]
  have main : ∀ (s s' : Sock), s.state.sendable = false → s.proxy = none → s.tls = none →
      s.run ops = some s' → s'.state.sendable = false ∧ s'.wire ++ s'.sendBuf <+: s.wire ++ s.sendBuf := by
    induction ops with
    | nil => intro s s' h1 h2 h3 hs; cases hs; exact ⟨h1, List.prefix_refl _⟩
    | cons op ops ih =>
      intro s s' h1 h2 h3 hs
      unfold Sock.run at hs
      cases e1 : s.step op with
      | none => rw [e1] at hs; cases hs
      | some s1 =>
        rw [e1] at hs
        have e : s1.state.sendable = false ∧ s1.proxy = none ∧ s1.tls = none ∧ s1.wire ++ s1.sendBuf <+: s.wire ++ s.sendBuf := by
          cases op with
          | send b w =>
            rcases send_cases e1 with ⟨_, h⟩ | h | ⟨px, _, h, _⟩
            · exact closed_final.flush s s1 w h h1 h2 h3
            · rw [h]; exact ⟨h1, h2, h3, List.prefix_refl _⟩
            · rw [h1] at h; cases h
          | poll f x r w => exact closed_final.poll f x r w e1 h1 h2 h3
          | take n => cases e1; exact ⟨h1, h2, h3, List.prefix_refl _⟩
          | shutdown hard => cases e1; exact ⟨by cases hard <;> rfl, h2, h3, List.prefix_refl _⟩
          | arriveRaw b => cases e1; exact ⟨h1, h2, h3, List.prefix_refl _⟩
          | arriveTls b => cases e1; exact ⟨h1, h2, h3, List.prefix_refl _⟩
        have := ih s1 s' e.1 e.2.1 e.2.2.1 hs
        exact ⟨this.1, this.2.trans e.2.2.2⟩
  intro s s' h1 h2 h3 hs
  have := main s s' ((ns s).1 h1) h2 h3 hs
  exact ⟨(ns s').2 this.1, (List.prefix_append _ _).trans this.2⟩

/-- Bytes handed over after the connection closed. -/
example :
    ((plain false .connected).run
      [.send (str "abc") ⟨.sent 1, .dead⟩, .poll { inp := true } false ⟨[], .eof, false, false, 0⟩ ⟨.sent 0, .dead⟩,
       .send (str "later") ⟨.sent 10, .dead⟩]).map (fun s => (s.wire, s.sendBuf, s.state))
      = some (str "abc", [], .closed) := by decide +kernel

/-- Over a closed connection with a full buffer. -/
example : ((plain false .connected).run
      [.send (str "ab") ⟨.failed .wouldBlock, .dead⟩, .poll { out := true } false ⟨[], .eof, false, false, 0⟩ ⟨.failed .connReset, .dead⟩]).map
      (·.state) = some .closed := by decide +kernel

/-- The errors after which a connection goes on: EINTR, EINPROGRESS, ESHUTDOWN, EWOULDBLOCK. -/
def Temporary (e : Errno) : Prop := e = .intr ∨ e = .inProgress ∨ e = .eshutdown ∨ e = .wouldBlock

theorem alive_iff (e : Errno) : e.alive = true ↔ Temporary e := by
  unfold Temporary; cases e <;> simp [Errno.alive]

/-- The connection ended or failed while reading. -/
def ReadEnds (f : Fin) : Prop := f = .eof ∨ ∃ e, f = .failed e ∧ ¬ Temporary e

theorem fin_alive (f : Fin) : f.alive = false ↔ ReadEnds f := by
  unfold ReadEnds
  cases f with
  | eof => simp [Fin.alive]
  | failed e =>
    simp only [Fin.alive, reduceCtorEq, false_or]
    constructor
    · intro h; exact ⟨e, rfl, fun ht => by rw [(alive_iff e).2 ht] at h; cases h⟩
    · rintro ⟨e', h1, h2⟩
      cases h1
      cases hx : e.alive with
      | false => rfl
      | true => exact absurd ((alive_iff e).1 hx) h2

theorem readLoop_nonblocking (cap : Nat) (ks : List Nat) : ∀ (i b : Bytes), (readLoop cap false ks i b).2.2 = false := by
  induction ks with
  | nil => intro i b; rfl
  | cons k ks ih =>
    intro i b
    unfold readLoop
    dsimp only
    split
    · rfl
    · exact ih _ _

/-- **C89, when a connection ends.**  A poll of a connected, non-blocking plain socket closes it exactly if it is readable
and reading ends with end of file or an error that is not temporary, or it is writable and sending fails with such an
error or with more than a gigabyte waiting. -/
theorem c89_closes_iff (s s' : Sock) (f : Flags) (e : Bool) (r : Rd) (w : Wr) (hst : s.state = .connected) (hp : s.proxy = none)
    (ht : s.tls = none) (hb : s.blocking = false) (hfd : s.fd = true) (hsh : s.shut = false)
    (h : (s.postPoll f e r w).sock = some s') :
    (s'.state = .closed ∧ (((f.inp ∨ f.hup) ∧ ReadEnds r.fin) ∨
        (f.out ∧ s.sendBuf ≠ [] ∧ ∃ x, w.plain = .failed x ∧ (¬ Temporary x ∨ 2 ^ 30 < s.sendBuf.length)))) ∨
    (s'.state = .connected ∧ ¬ (((f.inp ∨ f.hup) ∧ ReadEnds r.fin) ∨
        (f.out ∧ s.sendBuf ≠ [] ∧ ∃ x, w.plain = .failed x ∧ (¬ Temporary x ∨ 2 ^ 30 < s.sendBuf.length)))) := by
  have hrecv : ∀ s1 : Sock, s1.proxy = none → s1.tls = none → s1.fd = true → s1.blocking = false → s1.shut = false →
      s1.recv r = .ok (s1.recvPlain r).1 r.fin.alive := by
    intro s1 a b c d d'
    unfold Sock.recv
    rw [a, b, c]
    simp only [if_true]
    congr 1
    unfold Sock.recvPlain Sock.ending
    rw [d, d']
    simp [readLoop_nonblocking]
  have hflush : ∀ s1 : Sock, s1.proxy = none → s1.tls = none → s1.fd = true → s1.shut = false → s1.sendBuf = s.sendBuf →
      s1.state = .connected → ∃ s2, s1.flush w = .ok s2 (plainSend s.sendBuf w.plain).2.2 ∧ s2.state = .connected := by
    intro s1 a b c d e0 e1
    unfold Sock.flush
    rw [a, b, c]
    simp only [if_true]
    unfold Sock.sendPlain Sock.answer
    rw [c, d, e0]
    exact ⟨_, rfl, e1⟩
  have hsend : (plainSend s.sendBuf w.plain).2.2 = false ↔
      (s.sendBuf ≠ [] ∧ ∃ x, w.plain = .failed x ∧ (¬ Temporary x ∨ 2 ^ 30 < s.sendBuf.length)) := by
    unfold plainSend
    by_cases hn : s.sendBuf = []
    · simp [hn]
    · rw [if_neg hn]
      cases w.plain with
      | sent n => simp
      | failed x =>
        dsimp only
        by_cases hl : 1024 * 1024 * 1024 < s.sendBuf.length
        · rw [if_pos hl]
          simp only [true_iff]
          exact ⟨hn, x, rfl, Or.inr (by omega)⟩
        · rw [if_neg hl]
          dsimp only
          constructor
          · intro hx
            exact ⟨hn, x, rfl, Or.inl fun ht => by rw [(alive_iff x).2 ht] at hx; cases hx⟩
          · rintro ⟨_, y, h1, h2⟩
            cases h1
            rcases h2 with h2 | h2
            · cases hx : x.alive with
              | false => rfl
              | true => exact absurd ((alive_iff x).1 hx) h2
            · exact absurd h2 (by omega)
  unfold Sock.postPoll at h
  rw [hst] at h
  dsimp only at h
  unfold Sock.onConnected at h
  rw [ht] at h
  simp only [Option.isSome_none, Bool.false_eq_true, if_false] at h
  have hr2 : (f.inp = true ∨ f.hup = true) ↔ f.read = true := by simp [Flags.read]
  rw [hr2, ← fin_alive, ← hsend]
  -- after the read
  obtain ⟨s1, a1, h1, e1, c1⟩ : ∃ s1 a1, (s.when f.read (·.recv r)) = .ok s1 a1 ∧ (a1 = false ↔ f.read = true ∧ r.fin.alive = false) ∧
      (s1.proxy = none ∧ s1.tls = none ∧ s1.fd = true ∧ s1.shut = false ∧ s1.sendBuf = s.sendBuf ∧ s1.state = .connected) := by
    unfold Sock.when
    cases hf : f.read with
    | true =>
      rw [if_pos rfl]
      dsimp only
      rw [hrecv s hp ht hfd hb hsh]
      exact ⟨_, _, rfl, by simp, hp, ht, hfd, hsh, rfl, hst⟩
    | false => exact ⟨_, _, rfl, by simp, hp, ht, hfd, hsh, rfl, hst⟩
  rw [h1] at h
  dsimp only [Out.bind] at h
  obtain ⟨s2, a2, h2, e2, c2⟩ : ∃ s2 a2, (s1.when f.out (·.flush w)) = .ok s2 a2 ∧
      (a2 = false ↔ f.out = true ∧ (plainSend s.sendBuf w.plain).2.2 = false) ∧ s2.state = .connected := by
    unfold Sock.when
    obtain ⟨q1, q2, q3, q4, q5, q6⟩ := c1
    cases hf : f.out with
    | true =>
      obtain ⟨s2, g1, g2⟩ := hflush s1 q1 q2 q3 q4 q5 q6
      rw [if_pos rfl]
      dsimp only
      rw [g1]
      exact ⟨_, _, rfl, by simp, g2⟩
    | false => exact ⟨_, _, rfl, by simp, q6⟩
  rw [h2] at h
  dsimp only [Out.bind] at h
  rw [← e1, ← e2]
  cases a1 <;> cases a2 <;> simp only [Bool.not_true, Bool.not_false, Bool.or_true, Bool.or_false, Bool.or_self, Bool.true_or, Bool.false_or, if_true, Bool.false_eq_true, if_false] at h <;>
    (cases h; simp [c2])

/-! ### Connecting -/

/-- **C89, a connection that fails.**  When `connect` failed the socket is closed, says so, and nothing was written. -/
theorem c89_connect_failed (s : Sock) (f : Flags) (r : Rd) (w : Wr) (hst : s.state = .connecting)
    (hf : f.out = true ∨ f.hup = true ∨ f.err = true) :
    ∃ s', s.postPoll f true r w = .ok s' true ∧ s'.state = .closed ∧ s'.connectFailure = true ∧ written s' = written s := by
  unfold Sock.postPoll
  rw [hst]
  dsimp only
  have : ¬ (!(f.out || f.hup || f.err)) = true := by rcases hf with h | h | h <;> simp [h]
  rw [if_neg this, if_pos rfl]
  refine ⟨_, rfl, rfl, rfl, ?_⟩
  cases f.hup <;> rfl

example : ((plain false .connecting).postPoll { err := true } true ⟨[], .eof, false, false, 0⟩ ⟨.sent 3, .dead⟩).sock =
    some { plain false .closed with connectFailure := true } := by decide +kernel

/-- **C89, still connecting.**  While nothing is reported the socket keeps waiting. -/
theorem c89_still_connecting (s : Sock) (f : Flags) (e : Bool) (r : Rd) (w : Wr) (hst : s.state = .connecting)
    (h1 : f.out = false) (h2 : f.hup = false) (h3 : f.err = false) : s.postPoll f e r w = .ok s true := by
  unfold Sock.postPoll
  rw [hst]
  simp [h1, h2, h3]

/-- **C89, hung up while connecting.**  The socket is closed, although the code sets it to CONNECTED after closing it. -/
theorem c89_hangup (s s' : Sock) (f : Flags) (e : Bool) (r : Rd) (w : Wr) (hst : s.state = .connecting) (hb : s.blocking = false)
    (hp : s.proxy = none) (hh : f.hup = true) (h : (s.postPoll f e r w).sock = some s') :
    s'.state = .closed ∧ written s' = written s := by
  have hw : written s' = written s := by
    have key : ∀ s1 : Sock, s1.shut = true → s1.proxy = none → written s1 = written s →
        ∀ s2, (s1.onConnected f r w).sock = some s2 → written s2 = written s := by
      intro s1 a b c s2 hs2
      have := closed_shut.connected f r w hs2 a
      rw [← c]
      unfold written
      rw [this.2.1, (this.2.2 b).2]
    unfold Sock.postPoll at h
    rw [hst] at h
    dsimp only at h
    have hn : ¬ (!(f.out || f.hup || f.err)) = true := by simp [hh]
    rw [if_neg hn, if_pos hh] at h
    split at h
    · cases h; rfl
    · exact key ({ s.shutdown .closed with state := .connected } : Sock) rfl hp rfl s' h
  refine ⟨?_, hw⟩
  unfold Sock.postPoll at h
  rw [hst] at h
  dsimp only at h
  have hn : ¬ (!(f.out || f.hup || f.err)) = true := by simp [hh]
  rw [if_neg hn, if_pos hh] at h
  split at h
  · cases h; rfl
  · unfold Sock.onConnected at h
    have hread : f.read = true := by simp [Flags.read, hh]
    generalize hs1 : ({ s.shutdown .closed with state := .connected } : Sock) = s1 at h
    have q1 : s1.proxy = none := by rw [← hs1]; exact hp
    have q2 : s1.shut = true := by rw [← hs1]; rfl
    have q3 : s1.blocking = false := by rw [← hs1]; exact hb
    have dead : ∃ s2, s1.recv r = .ok s2 false := by
      unfold Sock.recv
      rw [q1]
      dsimp only
      cases s1.tls with
      | some t => exact ⟨_, by simp [Sock.recvTls, q2]; rfl⟩
      | none =>
        dsimp only
        split
        · exact ⟨_, by simp [Sock.recvPlain, q3, readLoop_nonblocking, Sock.ending, q2, Fin.alive]; rfl⟩
        · exact ⟨_, rfl⟩
    obtain ⟨s2, hs2⟩ := dead
    have hw1 : (s1.when (if s1.tls.isSome = true then f.read || f.out else f.read) (·.recv r)) = .ok s2 false := by
      unfold Sock.when
      have : (if s1.tls.isSome = true then f.read || f.out else f.read) = true := by split <;> simp [hread]
      rw [if_pos this]; exact hs2
    dsimp only at h
    rw [hw1] at h
    dsimp only [Out.bind] at h
    rcases bind_sock h with ⟨s3, a3, h3, h4⟩ | h3
    · cases h4; rfl
    · exfalso
      unfold Sock.when at h3
      generalize (if s1.tls.isSome = true then f.read || f.out else f.out) = c at h3
      cases c with
      | true =>
        rw [if_pos rfl] at h3
        dsimp only at h3
        have pn : s2.proxy = none := by
          have := (recv_same r (s := s1) (s' := s2) (by rw [hs2]; rfl)).2.2.2.2.1 q1
          exact this.2
        unfold Sock.flush at h3
        rw [pn] at h3
        dsimp only at h3
        split at h3
        · cases h3
        · split at h3 <;> cases h3
      | false => cases h3

example : ((plain false .connecting).postPoll { hup := true, out := true } false ⟨[], .failed .wouldBlock, false, false, 0⟩
    ⟨.sent 0, .dead⟩).sock.map (·.state) = some .closed := by decide +kernel

/-- **C89, what is asked for.**  A socket that is not closed always asks to read.  It asks to write while connecting, and
over a plain connection exactly if bytes wait; over TLS after the handshake the same. -/
theorem c89_asks (s : Sock) (over : Bool) (h : Shake) (hc : s.state ≠ .closed) :
    ∃ wr, s.prePoll over h = some (true, wr) ∧ (s.state = .connecting → wr = true) ∧
      (s.state ≠ .connecting → s.tls = none ∨ over = true → (wr = true ↔ s.sendBuf ≠ [])) := by
  unfold Sock.prePoll
  rw [if_neg hc]
  by_cases h1 : s.state = .connecting
  · rw [if_pos h1]; exact ⟨true, rfl, fun _ => rfl, fun h2 => absurd h1 h2⟩
  · rw [if_neg h1]
    cases ht : s.tls with
    | none => exact ⟨_, rfl, fun h2 => absurd h2 h1, fun _ _ => by simp⟩
    | some t =>
      cases over with
      | true => exact ⟨_, rfl, fun h2 => absurd h2 h1, fun _ _ => by simp⟩
      | false => exact ⟨_, rfl, fun h2 => absurd h2 h1, fun _ h3 => by rcases h3 with h3 | h3 <;> cases h3⟩

/-- **C89, progress.**  A connected plain socket with bytes waiting asks to write, and when it may, the kernel gets exactly
as many as it takes. -/
theorem c89_progress (s s' : Sock) (r : Rd) (n : Nat) (t : TlsSent) (over : Bool) (h : Shake) (hst : s.state = .connected)
    (hp : s.proxy = none) (ht : s.tls = none) (hfd : s.fd = true) (hsh : s.shut = false) (hne : s.sendBuf ≠ [])
    (hs : (s.postPoll { out := true } false r ⟨.sent n, t⟩).sock = some s') :
    s.prePoll over h = some (true, true) ∧ s'.wire = s.wire ++ s.sendBuf.take n ∧ s'.sendBuf = s.sendBuf.drop n := by
  refine ⟨?_, ?_⟩
  · unfold Sock.prePoll
    rw [hst, ht]
    simp [hne]
  · unfold Sock.postPoll at hs
    rw [hst] at hs
    dsimp only at hs
    unfold Sock.onConnected Sock.when at hs
    rw [ht] at hs
    dsimp only [Option.isSome_none, Flags.read] at hs
    simp only [Bool.or_false, Bool.false_eq_true, if_false, if_true] at hs
    dsimp only [Out.bind] at hs
    unfold Sock.flush at hs
    rw [hp, ht, hfd] at hs
    simp only [if_true] at hs
    unfold Sock.sendPlain Sock.answer plainSend at hs
    rw [hfd, hsh, if_neg hne] at hs
    simp only [Bool.not_true, Bool.false_eq_true, if_false, Bool.or_self] at hs
    cases hs
    exact ⟨rfl, rfl⟩

/-- **C89, after the handshake.**  In the round in which `mbedtls_ssl_handshake` finishes, the socket does not ask to write
although bytes wait: they go out only when something arrives or the next round starts. -/
theorem c89_handshake_not_asked (s : Sock) (t : Tls) (hst : s.state = .connected) (ht : s.tls = some t) :
    s.prePoll false .finished = some (true, false) := by
  unfold Sock.prePoll
  rw [hst, ht]
  rfl

/-- A non-blocking socket that was shut down is closed by the next poll, whatever the kernel and the TLS library answer
and whatever still waits to be sent. -/
theorem c89_shutdown_ends (s s' : Sock) (f : Flags) (e : Bool) (r : Rd) (w : Wr) (hp : s.proxy = none) (hb : s.blocking = false)
    (h : ((s.shutdown .shuttingDown).postPoll f e r w).sock = some s') : s'.state = .closed := by
  unfold Sock.postPoll Sock.shutdown at h
  dsimp only at h
  unfold Sock.onShuttingDown at h
  cases ht : s.tls with
  | some t =>
    by_cases hbuf : s.sendBuf = []
    · simp [ht, hp, hbuf, Sock.recv, Sock.recvTls, Out.bind, Sock.flush, Sock.sendTls, Tls.sendConsume, Out.sock, Sock.shutdown] at h
      rw [← h]
    · simp [ht, hp, hbuf, Sock.recv, Sock.recvTls, Out.bind, Sock.flush, Sock.sendTls, Tls.sendConsume, Sock.tlsAnswer,
        Tls.send, Out.sock, Sock.shutdown] at h
      rw [← h]
  | none =>
    by_cases hbuf : s.sendBuf = []
    · cases hfd : s.fd
      · simp [ht, hp, hbuf, hfd, Sock.when, Sock.recv, Out.bind, Out.sock, Sock.shutdown] at h
        rw [← h]
      · simp [ht, hp, hbuf, hfd, Sock.when, Sock.recv, Sock.recvPlain, Out.bind, Out.sock, Sock.shutdown, Sock.ending, hb,
          readLoop_nonblocking, Fin.alive] at h
        rw [← h]
    · cases hfd : s.fd
      · simp [ht, hp, hbuf, hfd, Sock.when, Sock.recv, Sock.flush, Out.bind, Out.sock, Sock.shutdown] at h
        rw [← h]
      · simp [ht, hp, hbuf, hfd, Sock.when, Sock.recv, Sock.recvPlain, Sock.flush, Sock.sendPlain, plainSend, Sock.answer,
          Errno.alive, Out.bind, Out.sock, Sock.shutdown, Sock.ending, hb, readLoop_nonblocking, Fin.alive] at h
        rw [← h]

example : ((({ state := .connected, tls := some { maxLen := 9 }, sendBuf := str "abc" } : Sock).shutdown .shuttingDown).postPoll {}
    false ⟨[3], .failed .wouldBlock, true, false, 0⟩ ⟨.sent 3, .done⟩).sock.map (·.state) = some .closed := by decide

/-- **C89, moving.**  Moving a socket object drops what its buffers hold; it loses nothing exactly if they are empty, as for
a connection that was just accepted. -/
theorem c89_move (s : Sock) : s.moved = s ↔ s.sendBuf = [] ∧ s.recvBuf = [] := by
  unfold Sock.moved
  constructor
  · intro h
    exact ⟨(congrArg Sock.sendBuf h).symm, (congrArg Sock.recvBuf h).symm⟩
  · rintro ⟨h1, h2⟩
    cases s
    simp_all

end Bedrock.Sockets.Props
