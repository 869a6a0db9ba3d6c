import Verif.Props.Sockets

/-!
# C90: receiving, and HTTPS through a proxy
-/

namespace Bedrock.Sockets.Props
open Bedrock Bedrock.Text Bedrock.Http Bedrock.Sockets

/-! ## Receiving -/

theorem readLoop_parts (cap : Nat) (bl : Bool) (ks : List Nat) : ∀ (i b : Bytes),
    (readLoop cap bl ks i b).2.1 ++ (readLoop cap bl ks i b).1 = b ++ i := by
  induction ks with
  | nil => intro i b; rfl
  | cons k ks ih =>
    intro i b
    unfold readLoop
    dsimp only
    split
    · rfl
    · split
      · dsimp only; rw [List.append_assoc, List.take_append_drop]
      · rw [ih, List.append_assoc, List.take_append_drop]

/-- What was received or waits to be. -/
def inside (s : Sock) : Bytes := s.recvBuf ++ if s.tls.isSome then s.inTls else s.inRaw

/-- Another kind of socket does not come into being, and what is received is kept. -/
def Keep (s s' : Sock) : Prop :=
  s.proxy = none → s'.proxy = none ∧ s'.tls.isSome = s.tls.isSome ∧ inside s' = inside s

theorem keep_flush (s s' : Sock) (w : Wr) (hs : (s.flush w).sock = some s') : Keep s s' := by
  intro hp
  unfold Sock.flush at hs
  rw [hp] at hs
  dsimp only at hs
  cases ht : s.tls with
  | some t =>
    rw [ht] at hs; cases hs
    refine ⟨hp, rfl, ?_⟩
    simp [inside, ht]
  | none =>
    rw [ht] at hs; dsimp only at hs
    split at hs <;> cases hs
    · refine ⟨hp, by rw [ht], ?_⟩
      simp [inside, ht]
    · exact ⟨hp, by rw [ht], rfl⟩

theorem keep_recv (s s' : Sock) (r : Rd) (hs : (s.recv r).sock = some s') : Keep s s' := by
  intro hp
  unfold Sock.recv at hs
  rw [hp] at hs
  dsimp only at hs
  cases ht : s.tls with
  | some t =>
    rw [ht] at hs; cases hs
    refine ⟨hp, by rw [← ht]; rfl, ?_⟩
    simp only [inside, Sock.recvTls, ht]
    exact readLoop_parts _ _ _ _ _
  | none =>
    rw [ht] at hs; dsimp only at hs
    split at hs <;> cases hs
    · refine ⟨hp, by rw [← ht]; rfl, ?_⟩
      simp only [inside, Sock.recvPlain, ht]
      exact readLoop_parts _ _ _ _ _
    · exact ⟨hp, by rw [ht], rfl⟩

theorem closed_keep : Closed Keep where
  refl := fun s hp => ⟨hp, rfl, rfl⟩
  trans := fun s1 s2 s3 h12 h23 hp => by
    obtain ⟨a, b, c⟩ := h12 hp
    obtain ⟨a', b', c'⟩ := h23 a
    exact ⟨a', b'.trans b, c'.trans c⟩
  flush := keep_flush
  recv := keep_recv
  close := fun s hp => ⟨hp, rfl, rfl⟩
  shutdown := fun s hp => ⟨hp, rfl, rfl⟩
  fail := fun s x hp => by cases x <;> exact ⟨hp, rfl, rfl⟩
  opens := fun s x _ hp => by cases x <;> exact ⟨hp, rfl, rfl⟩
  clear := fun s _ hp => ⟨hp, rfl, rfl⟩

theorem received_run (ops : List Op) : ∀ (s s' : Sock), s.proxy = none → s.run ops = some s' →
    s'.tls.isSome = s.tls.isSome ∧
      taken s ops ++ inside s' = inside s ++ (if s.tls.isSome then arrivedTls ops else arrivedRaw ops) := by
  induction ops with
  | nil =>
    intro s s' hp hs
    cases hs
    refine ⟨rfl, ?_⟩
    simp [taken, arrivedTls, arrivedRaw]
  | cons op ops ih =>
    intro s s' hp hs
    unfold Sock.run at hs
    cases h1 : s.step op with
    | none => rw [h1] at hs; cases hs
    | some s1 =>
      rw [h1] at hs
      have e : s1.proxy = none ∧ s1.tls.isSome = s.tls.isSome ∧
          takenBy s op ++ inside s1 =
            inside s ++ (if s.tls.isSome then arrivedTls [op] else arrivedRaw [op]) := by
        cases op with
        | send b w =>
          have none' : (if s.tls.isSome then arrivedTls [Op.send b w] else arrivedRaw [Op.send b w]) = [] := by
            split <;> rfl
          rw [none', List.append_nil]; simp only [takenBy, List.nil_append]
          rcases send_cases h1 with ⟨_, h2⟩ | h2 | ⟨px, h2, _, h3⟩
          · exact keep_flush s s1 w h2 hp
          · rw [h2]; exact ⟨hp, rfl, rfl⟩
          · have hpx : px = none := by
              rcases h3 with h3 | ⟨p, _, h4, _⟩
              · rw [hp] at h3; exact h3
              · rw [hp] at h4; cases h4
            exact keep_flush { s with proxy := px, sendBuf := s.sendBuf ++ b } s1 w h2 hpx
        | poll f x r w =>
          have none' : (if s.tls.isSome then arrivedTls [Op.poll f x r w] else arrivedRaw [Op.poll f x r w]) = [] := by
            split <;> rfl
          rw [none', List.append_nil]; simp only [takenBy, List.nil_append]
          exact closed_keep.poll f x r w h1 hp
        | take n =>
          cases h1
          refine ⟨hp, rfl, ?_⟩
          have none' : (if s.tls.isSome then arrivedTls [Op.take n] else arrivedRaw [Op.take n]) = [] := by
            split <;> rfl
          rw [none', List.append_nil]
          unfold inside takenBy
          dsimp only
          rw [← List.append_assoc, List.take_append_drop]
        | shutdown hard =>
          cases h1
          have none' : (if s.tls.isSome then arrivedTls [Op.shutdown hard] else arrivedRaw [Op.shutdown hard]) = [] := by
            split <;> rfl
          rw [none', List.append_nil]; simp only [takenBy, List.nil_append]
          exact ⟨hp, rfl, rfl⟩
        | arriveRaw b =>
          cases h1
          refine ⟨hp, rfl, ?_⟩
          unfold inside
          cases ht : s.tls <;> simp [takenBy, arrivedTls, arrivedRaw]
        | arriveTls b =>
          cases h1
          refine ⟨hp, rfl, ?_⟩
          unfold inside
          cases ht : s.tls <;> simp [takenBy, arrivedTls, arrivedRaw]
      have e2 := ih s1 s' e.1 hs
      refine ⟨e2.1.trans e.2.1, ?_⟩
      have et : taken s (op :: ops) = takenBy s op ++ taken s1 ops := by
        show takenBy s op ++ (match s.step op with | some s' => taken s' ops | none => []) = _
        rw [h1]
      rw [et, List.append_assoc, e2.2, e.2.1, ← List.append_assoc, e.2.2, List.append_assoc]
      congr 1
      split
      · simp [arrivedTls]
      · simp [arrivedRaw]

/-- **C90, receiving.**  Over a plain connection the bytes the owner takes, followed by the bytes that wait to be taken or
read, are exactly the bytes that arrived, in order: for every way the kernel splits them, every poll, error and
shutdown. -/
theorem c90_received (bl : Bool) (st : State) (ops : List Op) (s : Sock) (h : (plain bl st).run ops = some s) :
    taken (plain bl st) ops ++ s.recvBuf ++ s.inRaw = arrivedRaw ops := by
  have := received_run ops _ s rfl h
  have ht : s.tls.isSome = false := this.1
  have h2 := this.2
  unfold inside at h2
  rw [ht] at h2
  simpa [plain] using h2

/-- **C90, receiving over TLS.** -/
theorem c90_received_tls (m : Nat) (ops : List Op) (s : Sock) (h : (secure m).run ops = some s) :
    taken (secure m) ops ++ s.recvBuf ++ s.inTls = arrivedTls ops := by
  have := received_run ops _ s rfl h
  have ht : s.tls.isSome = true := this.1
  have h2 := this.2
  unfold inside at h2
  rw [ht] at h2
  simpa [secure] using h2

/-- Three reads, with part of the bytes taken in between. -/
example :
    ((plain false .connected).run
      [.arriveRaw (str "hello wor"), .poll { inp := true } false ⟨[3, 4], .failed .wouldBlock, false, false, 0⟩ ⟨.sent 0, .dead⟩,
       .take 5, .arriveRaw (str "ld!"), .poll { inp := true } false ⟨[9], .failed .wouldBlock, false, false, 0⟩ ⟨.sent 0, .dead⟩]).map
      (fun s => (s.recvBuf, s.inRaw, s.state)) = some (str " world!", [], .connected) := by decide +kernel

/-! ## Through a proxy -/

/-- What holds for the bytes written as they are. -/
theorem closed_raw (h r : Bytes) : Closed fun s s' => Raw (.proxied h r) s → Raw (.proxied h r) s' where
  refl := fun s hr => hr
  trans := fun s1 s2 s3 h12 h23 hr => h23 (h12 hr)
  flush := fun s s' w hs hr => by
    obtain ⟨p, hp, h1, h2, h3⟩ := hr
    unfold Sock.flush at hs
    rw [hp] at hs; dsimp only at hs
    split at hs
    · rename_i hne
      cases hs
      refine ⟨_, rfl, h1, h2, ?_⟩
      cases h3 with
      | inl h3 => exact absurd h3.2.1 hne
      | inr h3 =>
        obtain ⟨hf, c, hc, he2⟩ := h3
        exact Or.inr ⟨hf, c, hc, by rw [List.append_assoc, plainSend_parts]; exact he2⟩
    · split at hs
      · cases ht : s.tls with
        | some t => rw [ht] at hs; cases hs; exact ⟨p, hp, h1, h2, h3⟩
        | none => rw [ht] at hs; cases hs
      · cases hs; exact ⟨p, hp, h1, h2, h3⟩
  recv := fun s s' r hs hr => by
    obtain ⟨p, hp, h1, h2, h3⟩ := hr
    unfold Sock.recv at hs
    rw [hp] at hs; dsimp only at hs
    split at hs
    · cases hs; exact ⟨p, hp, h1, h2, h3⟩
    · split at hs
      · unfold Sock.proxyReply at hs
        split at hs
        · cases hs; exact ⟨p, hp, h1, h2, h3⟩
        · split at hs
          · cases hs; exact ⟨p, hp, h1, h2, h3⟩
          · cases hs; exact ⟨p, hp, h1, h2, h3⟩
          · cases hs
          · split at hs
            · cases hs; exact ⟨p, hp, h1, h2, h3⟩
            · split at hs
              · split at hs <;> cases hs <;> exact ⟨_, rfl, h1, h2, h3⟩
              · cases hs; exact ⟨p, hp, h1, h2, h3⟩
      · cases ht : s.tls with
        | some t => rw [ht] at hs; cases hs; exact ⟨p, hp, h1, h2, h3⟩
        | none => rw [ht] at hs; cases hs
  close := fun s hr => hr
  shutdown := fun s hr => hr
  fail := fun s x hr => by cases x <;> exact hr
  opens := fun s x _ hr => by cases x <;> exact hr
  clear := fun s _ hr => hr

theorem raw_step (h r : Bytes) {s s' : Sock} (op : Op) (hr : Raw (.proxied h r) s) (hs : s.step op = some s') :
    Raw (.proxied h r) s' := by
  cases op with
  | send b w =>
    rcases send_cases hs with ⟨_, h2⟩ | h2 | ⟨px, h2, _, h3⟩
    · exact (closed_raw h r).flush s s' w h2 hr
    · rw [h2]; exact hr
    · refine (closed_raw h r).flush _ s' w h2 ?_
      obtain ⟨p, hp, e1, e2, e3⟩ := hr
      rcases h3 with h3 | ⟨q, c, h4, h5, h6, h7⟩
      · exact ⟨p, h3.trans hp, e1, e2, e3⟩
      · rw [hp] at h4; cases h4
        refine ⟨_, h7, e1, e2, Or.inr ⟨rfl, c, by rw [← e1, ← e2]; exact h6, ?_⟩⟩
        rcases e3 with e3 | e3
        · dsimp only; rw [e3.2.1, e3.2.2]; rfl
        · rw [h5] at e3; cases e3.1
  | poll f x rd w => exact (closed_raw h r).poll f x rd w hs hr
  | take n => cases hs; exact hr
  | shutdown hard => cases hs; exact hr
  | arriveRaw b => cases hs; exact hr
  | arriveTls b => cases hs; exact hr

theorem raw_run (h r : Bytes) (ops : List Op) : ∀ {s s' : Sock}, Raw (.proxied h r) s → s.run ops = some s' →
    Raw (.proxied h r) s' := by
  induction ops with
  | nil => intro s s' hr hs; cases hs; exact hr
  | cons op ops ih =>
    intro s s' hr hs
    unfold Sock.run at hs
    cases h1 : s.step op with
    | none => rw [h1] at hs; cases hs
    | some s1 => rw [h1] at hs; exact ih (raw_step h r op hr h1) hs

/-- **C90, nothing in the clear.**  Through a proxy the only bytes that are written unencrypted are those of the `CONNECT`
request, in order and once, whatever is handed to the socket and however the proxy behaves. -/
theorem c90_proxy_clear (h r : Bytes) (ops : List Op) (s : Sock) (hs : (proxied h r).run ops = some s) :
    s.wire = [] ∨ ∃ c, connectText h r = some c ∧ s.wire <+: c := by
  obtain ⟨p, _, _, _, e⟩ := raw_run h r ops (s := proxied h r) ⟨_, rfl, rfl, rfl, Or.inl ⟨rfl, rfl, rfl⟩⟩ hs
  rcases e with e | ⟨_, c, hc, he⟩
  · exact Or.inl e.2.2
  · exact Or.inr ⟨c, hc, by rw [← he]; exact List.prefix_append _ _⟩

example : connectText (str "api.example.com:443") (str "abc") =
    some (str "CONNECT api.example.com:443 HTTP/1.1\r\nHost: api.example.com:443\r\nX-Request-ID: abc\r\nContent-Length: 0\r\n\r\n") := by
  decide +kernel

/-- The proxy said yes in `b`: a complete message whose first line contains ` 200 `. -/
def SaysYes (b : Bytes) : Prop := ∃ k m, parse b = .ok k m ∧ str " 200 " <:+: m.methodLine

/-- The tunnel: what was received before it, and what allowed it. -/
def Tunnel (A : Bytes) (s : Sock) : Prop :=
  ∃ p, s.proxy = some p ∧ (p.negotiated = false → s.tls = none ∧ s.recvBuf ++ s.inRaw <:+ A) ∧
    (s.tls.isSome = true → ∃ b, b <:+: A ∧ SaysYes b)

theorem tunnel_same {A : Bytes} {s s' : Sock} (h : Tunnel A s) (h1 : s'.proxy = s.proxy) (h2 : s'.tls = s.tls)
    (h3 : s'.recvBuf = s.recvBuf) (h4 : s'.inRaw = s.inRaw) : Tunnel A s' := by
  unfold Tunnel at h ⊢
  rw [h1, h2, h3, h4]
  exact h

theorem closed_tunnel (A : Bytes) : Closed fun s s' => Tunnel A s → Tunnel A s' where
  refl := fun s hr => hr
  trans := fun s1 s2 s3 h12 h23 hr => h23 (h12 hr)
  flush := fun s s' w hs hr => by
    obtain ⟨p, hp, h1, h2⟩ := hr
    unfold Sock.flush at hs
    rw [hp] at hs; dsimp only at hs
    split at hs
    · cases hs
      exact ⟨_, rfl, h1, h2⟩
    · split at hs
      · rename_i hng
        cases ht : s.tls with
        | some t =>
          rw [ht] at hs; cases hs
          refine ⟨p, hp, fun h => (by rw [hng] at h; cases h), fun _ => h2 (by rw [ht]; rfl)⟩
        | none => rw [ht] at hs; cases hs
      · cases hs; exact ⟨p, hp, h1, h2⟩
  recv := fun s s' r hs hr => by
    obtain ⟨p, hp, h1, h2⟩ := hr
    unfold Sock.recv at hs
    rw [hp] at hs; dsimp only at hs
    split at hs
    · cases hs; exact ⟨p, hp, h1, h2⟩
    · split at hs
      · rename_i hng
        have hng : p.negotiated = false := by simpa using hng
        obtain ⟨hn, hsuf⟩ := h1 hng
        have hparts : (s.recvPlain r).1.recvBuf ++ (s.recvPlain r).1.inRaw = s.recvBuf ++ s.inRaw := readLoop_parts _ _ _ _ _
        have hn1 : (s.recvPlain r).1.tls = none := hn
        have hp1 : (s.recvPlain r).1.proxy = some p := hp
        rw [← hparts] at hsuf
        generalize (s.recvPlain r).1 = s1 at *
        generalize (s.recvPlain r).2 = a1 at *
        have t1 : Tunnel A s1 := ⟨p, hp1, fun _ => ⟨hn1, hsuf⟩, fun h => (by rw [hn1] at h; cases h)⟩
        unfold Sock.proxyReply at hs
        split at hs
        · cases hs; exact t1
        · split at hs
          · cases hs; exact t1
          · cases hs; exact t1
          · cases hs
          · rename_i k m hparse
            split at hs
            · cases hs; exact t1
            · split at hs
              · rename_i h200
                split at hs <;> cases hs
                · refine ⟨_, rfl, fun h => (by cases h), fun h => ?_⟩
                  dsimp only at h
                  rw [hn1] at h; cases h
                · refine ⟨_, rfl, fun h => (by cases h), fun _ => ⟨s1.recvBuf, ?_, k, m, hparse, sContains_iff.1 h200⟩⟩
                  obtain ⟨u, hu⟩ := hsuf
                  exact ⟨u, s1.inRaw, by rw [List.append_assoc, hu]⟩
              · cases hs
                exact ⟨p, hp1, fun _ => ⟨hn1, hsuf⟩, fun h => by rw [show ({ s1 with fd := false, state := .closed } : Sock).tls = none from hn1] at h; cases h⟩
      · rename_i hng
        cases ht : s.tls with
        | some t =>
          rw [ht] at hs; cases hs
          exact ⟨p, hp, fun h => (by simp [h] at hng), fun _ => h2 (by rw [ht]; rfl)⟩
        | none => rw [ht] at hs; cases hs
  close := fun s hr => tunnel_same hr rfl rfl rfl rfl
  shutdown := fun s hr => tunnel_same hr rfl rfl rfl rfl
  fail := fun s x hr => by cases x <;> exact tunnel_same hr rfl rfl rfl rfl
  opens := fun s x _ hr => by cases x <;> exact tunnel_same hr rfl rfl rfl rfl
  clear := fun s _ hr => tunnel_same hr rfl rfl rfl rfl

theorem tunnel_step {A : Bytes} {s s' : Sock} (op : Op) (hr : Tunnel A s) (hs : s.step op = some s') :
    Tunnel (A ++ arrivedRaw [op]) s' := by
  have nothing : ∀ A' : Bytes, A' = [] → Tunnel A s' → Tunnel (A ++ A') s' := by
    intro A' e h; rw [e, List.append_nil]; exact h
  cases op with
  | send b w =>
    refine nothing _ rfl ?_
    rcases send_cases hs with ⟨_, h2⟩ | h2 | ⟨px, h2, _, h3⟩
    · exact (closed_tunnel A).flush s s' w h2 hr
    · rw [h2]; exact hr
    · refine (closed_tunnel A).flush _ s' w h2 ?_
      obtain ⟨p, hp, e1, e2⟩ := hr
      rcases h3 with h3 | ⟨q, c, h4, h5, h6, h7⟩
      · exact ⟨p, h3.trans hp, e1, e2⟩
      · rw [hp] at h4; cases h4
        exact ⟨_, h7, e1, e2⟩
  | poll f x rd w => exact nothing _ rfl ((closed_tunnel A).poll f x rd w hs hr)
  | take n =>
    cases hs
    refine nothing _ rfl ?_
    obtain ⟨p, hp, e1, e2⟩ := hr
    refine ⟨p, hp, fun h => ⟨(e1 h).1, ?_⟩, e2⟩
    obtain ⟨u, hu⟩ := (e1 h).2
    refine ⟨u ++ s.recvBuf.take n, ?_⟩
    dsimp only
    rw [List.append_assoc, ← List.append_assoc (List.take n s.recvBuf), List.take_append_drop, hu]
  | shutdown hard => cases hs; exact nothing _ rfl (tunnel_same hr rfl rfl rfl rfl)
  | arriveRaw b =>
    cases hs
    obtain ⟨p, hp, e1, e2⟩ := hr
    have e : arrivedRaw [Op.arriveRaw b] = b := by simp [arrivedRaw]
    rw [e]
    refine ⟨p, hp, fun h => ⟨(e1 h).1, ?_⟩, fun h => ?_⟩
    · obtain ⟨u, hu⟩ := (e1 h).2
      refine ⟨u, ?_⟩
      dsimp only
      rw [← hu]; simp
    · obtain ⟨x, hx, hy⟩ := e2 h
      exact ⟨x, hx.trans (List.prefix_append A b).isInfix, hy⟩
  | arriveTls b => cases hs; exact nothing _ rfl (tunnel_same hr rfl rfl rfl rfl)

theorem tunnel_run (ops : List Op) : ∀ {A : Bytes} {s s' : Sock}, Tunnel A s → s.run ops = some s' → Tunnel (A ++ arrivedRaw ops) s' := by
  induction ops with
  | nil => intro A s s' hr hs; cases hs; simpa [arrivedRaw] using hr
  | cons op ops ih =>
    intro A s s' hr hs
    unfold Sock.run at hs
    cases h1 : s.step op with
    | none => rw [h1] at hs; cases hs
    | some s1 =>
      rw [h1] at hs
      have := ih (tunnel_step op hr h1) hs
      have eq : arrivedRaw (op :: ops) = arrivedRaw [op] ++ arrivedRaw ops := by simp [arrivedRaw]
      rw [eq, ← List.append_assoc]
      exact this

/-- **C90, the tunnel.**  The TLS session through a proxy is started, and anything of the application written, only after
the bytes that arrived contained a complete message that says ` 200 ` in its first line. -/
theorem c90_tunnel (h r : Bytes) (ops : List Op) (s : Sock) (hs : (proxied h r).run ops = some s) (t : Tls)
    (ht : s.tls = some t) : ∃ b, b <:+: arrivedRaw ops ∧ SaysYes b := by
  have h0 : Tunnel [] (proxied h r) := ⟨_, rfl, fun _ => ⟨rfl, List.suffix_refl _⟩, fun h => by cases h⟩
  obtain ⟨p, _, _, h2⟩ := tunnel_run ops h0 hs
  exact h2 (by rw [ht]; rfl)

/-- **C90, the request.**  One request through a proxy, as `SStandaloneHTTPSManager` sends it: what goes into the tunnel is a
prefix of the request. -/
theorem c90_one_request (h r : Bytes) (b : Bytes) (w : Wr) (ops : List Op) (hq : ∀ b w, .send b w ∉ ops) (s : Sock)
    (hc : (connectText h r).isSome) (hs : (proxied h r).run (.send b w :: ops) = some s) (t : Tls) (ht : s.tls = some t) :
    t.stream <+: b ∧ (s.state = .connecting ∨ s.state = .connected → t.pending = false → t.stream ++ s.sendBuf = b) := by
  have e : handed (.send b w :: ops) = b := by
    have : handed ops = [] := by
      unfold handed
      rw [List.flatMap_eq_nil_iff]
      intro op ho
      cases op with
      | send b w => exact absurd ho (hq b w)
      | _ => rfl
    have e2 : handed (.send b w :: ops) = b ++ handed ops := rfl
    rw [e2, this, List.append_nil]
  have i := inv_run (k := .proxied h r) (by intro h' r' e; cases e; exact hc) (.send b w :: ops) (inv_proxied h r) (noTls_proxied h r)
    ⟨(by intro t ht; cases ht), (by
      cases (proxied h r).step (.send b w) with
      | none => trivial
      | some s' => exact steady_quiet ops hq)⟩ hs
  rw [List.nil_append, e] at i
  obtain ⟨base, hb, hp, he⟩ := i.1.app
  simp only [Base, ht] at hb
  refine ⟨?_, ?_⟩
  · rw [hb]
    refine List.IsPrefix.trans ?_ hp
    split
    · exact (List.prefix_append_right_inj base).2 (List.take_prefix _ _)
    · rw [List.append_nil]; exact List.prefix_append _ _
  · intro hst hpd
    rw [hpd] at hb
    simp only [Bool.false_eq_true, if_false, List.append_nil] at hb
    rw [hb]
    apply he
    rcases hst with hst | hst <;> rw [hst] <;> rfl

def noRead : Rd := ⟨[], .failed .wouldBlock, true, false, 0⟩

/-- A request through a proxy whose reply comes in two pieces. -/
example :
    ((proxied (str "h:443") []).run
      [.send (str "GET /") ⟨.failed .wouldBlock, .dead⟩, .poll { out := true } false noRead ⟨.sent 1000, .dead⟩,
       .arriveRaw (str "HTTP/1.1 200 Connection est"), .poll { inp := true } false ⟨[4000], .failed .wouldBlock, true, false, 16384⟩ ⟨.sent 0, .dead⟩,
       .arriveRaw (str "ablished\r\n\r\n"), .poll { inp := true } false ⟨[4000], .failed .wouldBlock, true, false, 16384⟩ ⟨.sent 0, .dead⟩,
       .poll { out := true } false noRead ⟨.sent 0, .done⟩]).map
      (fun s => (s.wire, s.tls.map (·.stream), s.sendBuf, s.recvBuf, s.state))
      = some (str "CONNECT h:443 HTTP/1.1\r\nHost: h:443\r\nContent-Length: 0\r\n\r\n", some (str "GET /"), [], [], .connected) := by
  decide +kernel

/-- The proxy said no, and the connection was given up. -/
def Refused (s : Sock) : Prop :=
  s.fd = false ∧ s.state.sendable = false ∧ s.tls = none ∧ ∃ p, s.proxy = some p ∧ p.negotiated = false

theorem closed_refused : Closed fun s s' => Refused s → Refused s' ∧ written s' = written s ∧ s'.recvBuf = s.recvBuf where
  refl := fun s h => ⟨h, rfl, rfl⟩
  trans := fun s1 s2 s3 h12 h23 h => by
    obtain ⟨a, b, c⟩ := h12 h
    obtain ⟨a', b', c'⟩ := h23 a
    exact ⟨a', b'.trans b, c'.trans c⟩
  flush := fun s s' w hs h => by rw [flush_shut (Or.inr h.1) w hs]; exact ⟨h, rfl, rfl⟩
  recv := fun s s' r hs h => by
    obtain ⟨h1, h2, h3, p, hp, h4⟩ := h
    unfold Sock.recv at hs
    rw [hp] at hs
    dsimp only at hs
    rw [h1] at hs
    cases hs
    exact ⟨⟨h1, h2, h3, p, hp, h4⟩, rfl, rfl⟩
  close := fun s h => ⟨⟨h.1, rfl, h.2.2⟩, rfl, rfl⟩
  shutdown := fun s h => ⟨⟨h.1, rfl, h.2.2⟩, rfl, rfl⟩
  fail := fun s x h => by cases x <;> exact ⟨⟨h.1, rfl, h.2.2⟩, rfl, rfl⟩
  opens := fun s x h0 h => by have := h.2.1; rw [h0] at this; cases this
  clear := fun s _ h => ⟨⟨h.1, rfl, h.2.2⟩, rfl, rfl⟩

theorem refused_run (ops : List Op) : ∀ {s s' : Sock}, Refused s → s.run ops = some s' → Refused s' ∧ written s' = written s := by
  induction ops with
  | nil => intro s s' h hs; cases hs; exact ⟨h, rfl⟩
  | cons op ops ih =>
    intro s s' h hs
    unfold Sock.run at hs
    cases h1 : s.step op with
    | none => rw [h1] at hs; cases hs
    | some s1 =>
      rw [h1] at hs
      have e : Refused s1 ∧ written s1 = written s := by
        cases op with
        | send b w =>
          rcases send_cases h1 with ⟨_, h2⟩ | h2 | ⟨px, _, h2, _⟩
          · exact ⟨(closed_refused.flush s s1 w h2 h).1, (closed_refused.flush s s1 w h2 h).2.1⟩
          · rw [h2]; exact ⟨h, rfl⟩
          · rw [h.2.1] at h2; cases h2
        | poll f x r w =>
          have := closed_refused.poll f x r w h1 h
          exact ⟨this.1, this.2.1⟩
        | take n => cases h1; exact ⟨h, rfl⟩
        | shutdown hard => cases h1; exact ⟨⟨h.1, by cases hard <;> rfl, h.2.2⟩, rfl⟩
        | arriveRaw b => cases h1; exact ⟨h, rfl⟩
        | arriveTls b => cases h1; exact ⟨h, rfl⟩
      have e2 := ih e.1 hs
      exact ⟨e2.1, e2.2.trans e.2⟩

/-- **C90, a proxy that refuses.**  If the complete reply of the proxy does not say ` 200 ` the socket is closed, its reply
stays in the receive buffer, and nothing is written ever after. -/
theorem c90_refused (s s1 : Sock) (p : Proxy) (r : Rd) (hp : s.proxy = some p) (hn : p.negotiated = false) (hfd : s.fd = true)
    (ht : s.tls = none) (h1 : (s.recv r).sock = some s1) (k : Nat) (m : Msg) (hm : m.methodLine ≠ [])
    (hparse : parse (s.recvPlain r).1.recvBuf = .ok k m) (hno : ¬ str " 200 " <:+: m.methodLine) :
    s1.state = .closed ∧ s1.recvBuf = (s.recvPlain r).1.recvBuf ∧ s1.tls = none ∧
      ∀ ops s', s1.run ops = some s' → written s' = written s ∧ s'.tls = none := by
  have hne : (s.recvPlain r).1.recvBuf ≠ [] := by
    intro h
    rw [h] at hparse
    unfold parse at hparse
    rw [run, if_pos rfl] at hparse
    cases hparse
  have hno' : ¬ sContains m.methodLine (str " 200 ") = true := fun h => hno (sContains_iff.1 h)
  unfold Sock.recv at h1
  rw [hp] at h1
  dsimp only at h1
  rw [hfd, hn] at h1
  simp only [Bool.not_true, Bool.false_eq_true, if_false, Bool.not_false, if_true] at h1
  unfold Sock.proxyReply at h1
  rw [if_neg hne, hparse] at h1
  dsimp only at h1
  rw [if_neg (by intro h; exact hm h.1), if_neg hno'] at h1
  cases h1
  have hr : Refused ({ (s.recvPlain r).1 with fd := false, state := .closed } : Sock) := ⟨rfl, rfl, ht, p, hp, hn⟩
  refine ⟨rfl, rfl, ht, ?_⟩
  intro ops s' hs
  have := refused_run ops hr hs
  exact ⟨this.2.trans rfl, this.1.2.2.1⟩

/-- **C90, while the proxy is asked.**  Until the proxy has replied, the socket asks to write because the request waits, and
does nothing when it may: polling does not block. -/
theorem c90_waiting_spins (s : Sock) (p : Proxy) (w : Wr) (over : Bool) (h : Shake) (hp : s.proxy = some p) (h1 : p.pre = [])
    (h2 : p.negotiated = false) (ht : s.tls = none) (hst : s.state = .connected) (hne : s.sendBuf ≠ []) :
    s.prePoll over h = some (true, true) ∧ s.postPoll { out := true } false noRead w = .ok s true := by
  refine ⟨?_, ?_⟩
  · unfold Sock.prePoll
    rw [hst, ht]
    simp [hne]
  · unfold Sock.postPoll
    rw [hst]
    dsimp only
    unfold Sock.onConnected Sock.when
    rw [ht]
    dsimp only [Option.isSome_none, Flags.read]
    simp only [Bool.or_false, Bool.false_eq_true, if_false, if_true]
    dsimp only [Out.bind]
    unfold Sock.flush
    rw [hp]
    dsimp only
    rw [if_neg (by simp [h1]), h2]
    simp

example :
    ((proxied (str "h:443") []).run
      [.send (str "GET /") ⟨.sent 1000, .dead⟩, .poll { out := true } false noRead ⟨.sent 1000, .dead⟩]).map
      (fun s => (s.state, s.tls.isSome, s.sendBuf, s.proxy.map fun p => (p.pre, p.negotiated)))
      = some (.connected, false, str "GET /", some ([], false)) := by decide +kernel

/-- What `SStandaloneHTTPSManager::postPoll` finds in a socket. -/
def seen (s : Sock) (now lastSend idle : Nat) : Https.Poll :=
  { now, recv := s.recvBuf, closed := s.state == .closed, dead := s.state == .shuttingDown || s.state == .closed,
    lastSend, sendBufferEmpty := s.sendBuf == [], idle }

/-- **C90, a refusal taken for success.**  A proxy that replies `HTTP/1.1 200` without a reason is not understood: the
socket is closed and the request was not sent, but the transaction is reported as finished with the code 200. -/
theorem c90_refusal_is_success :
    ∃ ops s t, (proxied (str "api.example.com:443") []).run ops = some s ∧ handed ops = str "POST /pay HTTP/1.1\r\n\r\n" ∧
      s.tls = none ∧ s.sendBuf = handed ops ∧
      Https.postPoll { timeoutAt := 100000000 } (seen s 7 5 1000) = some t ∧ t.finished = 7 ∧ t.response = 200 :=
  ⟨[.send (str "POST /pay HTTP/1.1\r\n\r\n") ⟨.sent 1000, .dead⟩, .poll { out := true } false noRead ⟨.sent 0, .dead⟩,
    .arriveRaw (str "HTTP/1.1 200\r\n\r\n"),
    .poll { inp := true } false ⟨[4096], .failed .wouldBlock, true, false, 16384⟩ ⟨.sent 0, .dead⟩],
   { fd := false, state := .closed, proxy := some { host := str "api.example.com:443", requestID := [], filled := true },
     sendBuf := str "POST /pay HTTP/1.1\r\n\r\n", recvBuf := str "HTTP/1.1 200\r\n\r\n",
     wire := str "CONNECT api.example.com:443 HTTP/1.1\r\nHost: api.example.com:443\r\nContent-Length: 0\r\n\r\n" },
   { open_ := false, finished := 7, timeoutAt := 100000000, response := 200, full := { methodLine := str "HTTP/1.1 200" } },
   by decide +kernel⟩

/-- **C90, an exception while the session is set up.**  If creating the TLS session throws, the socket counts as negotiated
without a session: the next attempt to send or receive uses a null pointer. -/
theorem c90_session_throws (s s1 : Sock) (p : Proxy) (r r' : Rd) (w : Wr) (hp : s.proxy = some p) (hn : p.negotiated = false)
    (hfd : s.fd = true) (ht : s.tls = none) (hpre : p.pre = []) (h1 : s.recv r = .throws s1)
    (k : Nat) (m : Msg) (hparse : parse (s.recvPlain r).1.recvBuf = .ok k m) : s1.flush w = .ub ∧ s1.recv r' = .ub := by
  unfold Sock.recv at h1
  rw [hp] at h1
  dsimp only at h1
  rw [hfd, hn] at h1
  simp only [Bool.not_true, Bool.false_eq_true, if_false, Bool.not_false, if_true] at h1
  unfold Sock.proxyReply at h1
  rw [hparse] at h1
  dsimp only at h1
  split at h1
  · cases h1
  · split at h1
    · cases h1
    · split at h1
      · split at h1
        · cases h1
          constructor
          · unfold Sock.flush
            have ht' : (s.recvPlain r).1.tls = none := ht
            simp [hpre, ht']
          · unfold Sock.recv
            have ht' : (s.recvPlain r).1.tls = none := ht
            have hfd' : (s.recvPlain r).1.fd = true := hfd
            simp [ht', hfd']
        · cases h1
      · cases h1

/-- A socket that waits for the reply. -/
def asked : Sock :=
  { state := .connected, recvBuf := str "HTTP/1.1 200 OK\r\n\r\n",
    proxy := some { host := str "h", requestID := [], filled := true } }

example : asked.recv ⟨[], .failed .wouldBlock, true, true, 0⟩ =
    .throws { asked with recvBuf := [], proxy := some { host := str "h", requestID := [], filled := true, negotiated := true } } := by
  decide +kernel

/-- The proxy is asked for the host, and told the request ID if there is one; nothing else is in the message. -/
theorem c90_connect_text (host id : Bytes) : connectText host id = compose (fun b => b)
    { methodLine := str "CONNECT " ++ host ++ str " HTTP/1.1"
      table := (str "Host", host) :: (if id = [] then [] else [(str "X-Request-ID", id)]) } := by
  unfold connectText
  by_cases h : id = []
  · simp [h, Table.set]
  · have h1 : keyLt (str "X-Request-ID") (str "Host") = false := by decide +kernel
    have h2 : keyLt (str "Host") (str "X-Request-ID") = true := by decide +kernel
    simp [h, Table.set, h1, h2]

example : connectText (str "a:443") (str "r1") =
    some (str "CONNECT a:443 HTTP/1.1\r\nHost: a:443\r\nX-Request-ID: r1\r\nContent-Length: 0\r\n\r\n") := by decide +kernel

/-- When the proxy has agreed its reply is gone: none of it can be taken for a reply of the server. -/
theorem c90_reply_discarded (s s' : Sock) (r : Rd) (a : Bool) (p : Proxy) (hp : s.proxy = some p) (hn : p.negotiated = false)
    (ht : s.tls = none) (h : s.recv r = .ok s' a) (ht' : s'.tls ≠ none) : s'.recvBuf = [] ∧ s'.tls = some { maxLen := r.maxLen } := by
  unfold Sock.recv at h
  simp only [hp] at h
  split at h
  · cases h; exact absurd ht ht'
  · simp only [hn, Bool.not_false, if_true] at h
    have htp : (s.recvPlain r).1.tls = none := ht
    unfold Sock.proxyReply at h
    split at h
    · cases h; exact absurd htp ht'
    · split at h
      · cases h; exact absurd htp ht'
      · cases h
      · cases h
      · split at h
        · cases h; exact absurd htp ht'
        · split at h
          · split at h
            · cases h
            · cases h; exact ⟨rfl, rfl⟩
          · cases h; exact absurd htp ht'

example : asked.recv ⟨[], .failed .wouldBlock, true, false, 7⟩ =
    .ok { state := .connected, tls := some { maxLen := 7 },
          proxy := some { host := str "h", requestID := [], filled := true, negotiated := true } } true := by
  decide +kernel

/-- **C89** No read takes more than was asked of the system: in all at most `cap` bytes for each read, and on a blocking
socket one read. -/
theorem c89_read_capped (cap : Nat) (blocking : Bool) : ∀ (ks : List Nat) (inbox buf : Bytes),
    (readLoop cap blocking ks inbox buf).2.1.length ≤ buf.length + (if blocking then 1 else ks.length) * cap := by
  intro ks
  induction ks with
  | nil => intro inbox buf; simp [readLoop]
  | cons k ks ih =>
    intro inbox buf
    unfold readLoop
    dsimp only
    split
    · simp
    · cases blocking
      · simp only [Bool.false_eq_true, if_false] at ih ⊢
        refine Nat.le_trans (ih _ _) ?_
        rw [List.length_append, List.length_take, List.length_cons, Nat.succ_mul]
        omega
      · simp only [if_true, List.length_append, List.length_take]
        omega

end Bedrock.Sockets.Props
