import Verif.Lemmas.NodeWf

namespace Bedrock.Node.Node
open Bedrock Bedrock.Node Bedrock.Node.Spec

/-! ### Peer tables -/

theorem getD_map {ps : List Peer} {g : Peer → Peer} {α : Type} {F : Peer → α}
    (h : ∀ p, F (g p) = F p) (i : Nat) : F ((ps.map g).getD i {}) = F (ps.getD i {}) := by
  simp only [List.getD_eq_getElem?_getD, List.getElem?_map]
  cases ps[i]? <;> simp [h]

theorem getD_modify {ps : List Peer} {g : Peer → Peer} {i j : Nat} :
    (ps.modify i g).getD j {} = if i = j ∧ j < ps.length then g (ps.getD j {}) else ps.getD j {} := by
  simp only [List.getD_eq_getElem?_getD, List.getElem?_modify]
  by_cases hij : i = j
  · subst hij
    by_cases hl : i < ps.length
    · simp [hl]
    · simp [hl]
  · simp [hij]

theorem setPeer_peer (n : Node) (i j : Nat) (f : Peer → Peer) :
    (n.setPeer i f).peer j = if i = j ∧ j < n.peers.length then f (n.peer j) else n.peer j := getD_modify

theorem setPeer_field {n : Node} {i j : Nat} {f : Peer → Peer} {α : Type} (F : Peer → α)
    (h : ∀ p, F (f p) = F p) : F ((n.setPeer i f).peer j) = F (n.peer j) := by
  rw [setPeer_peer]; split
  · exact h _
  · rfl

theorem changeState_peers_cases (n : Node) (new : NState) :
    (changeState n new).peers = n.peers ∨
    (changeState n new).peers = n.peers.map (fun p => { p with subscribed := false }) ∨
    (changeState n new).peers = n.peers.map (fun p => { p with loggedIn := false }) ∨
    (changeState n new).peers =
      (n.peers.map (fun p => { p with subscribed := false })).map (fun p => { p with loggedIn := false }) := by
  generalize hr : (changeState n new).peers = r
  unfold changeState at hr
  dsimp only at hr
  repeat' split at hr
  all_goals first
    | exact Or.inl hr.symm
    | exact Or.inr (Or.inl hr.symm)
    | exact Or.inr (Or.inr (Or.inl hr.symm))
    | exact Or.inr (Or.inr (Or.inr hr.symm))

theorem changeState_peers (n : Node) (new : NState) : ∃ g : Peer → Peer, (changeState n new).peers = n.peers.map g ∧
    ∀ p, g p = { p with loggedIn := (g p).loggedIn, subscribed := (g p).subscribed } := by
  rcases changeState_peers_cases n new with h | h | h | h
  · exact ⟨fun p => p, by simp [h], fun p => rfl⟩
  · exact ⟨_, h, fun p => rfl⟩
  · exact ⟨_, h, fun p => rfl⟩
  · exact ⟨fun p => { p with subscribed := false, loggedIn := false }, by rw [h]; simp, fun p => rfl⟩

theorem changeState_field (n : Node) (new : NState) {α : Type} (F : Peer → α)
    (h : ∀ (p : Peer) a b, F { p with loggedIn := a, subscribed := b } = F p) (i : Nat) :
    F ((changeState n new).peer i) = F (n.peer i) := by
  obtain ⟨g, h1, h2⟩ := changeState_peers n new
  unfold peer
  rw [h1]
  exact getD_map (fun p => by rw [h2]; exact h ..) i

theorem reconnectAll_field (n : Node) {α : Type} (F : Peer → α)
    (h : ∀ (p : Peer) a, F { p with loggedIn := a } = F p) (i : Nat) :
    F ((reconnectAll n).peer i) = F (n.peer i) := getD_map (fun p => h p _) i

/-! ### What messages and disconnects can do to an election -/

/-- No vote appears. -/
def Keep (n n' : Node) : Prop :=
  ∀ i, (n'.peer i).standup = (n.peer i).standup ∨ (n'.peer i).standup = .none

structure K (n n' : Node) : Prop where
  keep : Keep n n'
  up : n'.state = .standingUp → n.state = .standingUp ∧ n'.stateChangeCount = n.stateChangeCount
  leading : n'.state = .leading → n.state = .leading
  leadish : Node.leadish n'.state = true → Node.leadish n.state = true
  prio : n'.priority = n.priority ∨ n'.priority = n.configured
  conf : n'.configured = n.configured

theorem Keep.trans {a b c : Node} (h1 : Keep a b) (h2 : Keep b c) : Keep a c := by
  intro i
  rcases h2 i with h | h
  · rcases h1 i with h' | h'
    · exact Or.inl (h.trans h')
    · exact Or.inr (h.trans h')
  · exact Or.inr h

theorem K.trans {a b c : Node} (h1 : K a b) (h2 : K b c) : K a c where
  keep := h1.keep.trans h2.keep
  up h := ⟨(h1.up (h2.up h).1).1, (h2.up h).2.trans (h1.up (h2.up h).1).2⟩
  leading h := h1.leading (h2.leading h)
  leadish h := h1.leadish (h2.leadish h)
  prio := by
    rcases h2.prio with h | h
    · rw [h]; exact h1.prio
    · rw [h, h1.conf]; exact Or.inr rfl
  conf := h2.conf.trans h1.conf

theorem Keep.of_eq {n m : Node} (h : m.peers = n.peers) : Keep n m := by
  intro i; left; unfold peer; rw [h]

/-- Nothing relevant changed. -/
theorem K.same {n m : Node} (h0 : Keep n m) (h1 : m.state = n.state)
    (h2 : m.stateChangeCount = n.stateChangeCount) (h3 : m.priority = n.priority ∨ m.priority = n.configured)
    (h4 : m.configured = n.configured) : K n m :=
  ⟨h0, fun h => ⟨h1 ▸ h, h2⟩, fun h => h1 ▸ h, fun h => h1 ▸ h, h3, h4⟩

theorem K.refl (n : Node) : K n n := .same (.of_eq rfl) rfl rfl (Or.inl rfl) rfl

theorem Keep.setPeer {n : Node} {i : Nat} {f : Peer → Peer}
    (h : ∀ p, (f p).standup = p.standup ∨ (f p).standup = .none) : Keep n (n.setPeer i f) := by
  intro j
  rw [setPeer_peer]
  split
  · exact h _
  · exact Or.inl rfl

theorem K.setPeer {n : Node} {i : Nat} {f : Peer → Peer}
    (h : ∀ p, (f p).standup = p.standup ∨ (f p).standup = .none) : K n (n.setPeer i f) :=
  .same (.setPeer h) (by simp) (by simp) (by simp) (by simp)

theorem K.change {n : Node} {new : NState} (h1 : new ≠ .standingUp) (h2 : new ≠ .leading)
    (h3 : new = .standingDown → Node.leadish n.state = true) : K n (n.changeState new) := by
  refine ⟨?_, ?_, ?_, ?_, ?_, by simp⟩
  · intro i; left; exact changeState_field n new (·.standup) (fun _ _ _ => rfl) i
  · rw [changeState_state]; intro h; exact absurd h h1
  · rw [changeState_state]; intro h; exact absurd h h2
  · rw [changeState_state]; intro h
    rcases leadish_cases h with h | h | h
    · exact absurd h h1
    · exact absurd h h2
    · exact h3 h
  · rw [changeState_priority]; split
    · exact Or.inr rfl
    · exact Or.inl rfl

theorem K.search {n : Node} : K n (n.changeState .searching) :=
  K.change (by decide) (by decide) (fun h => nomatch h)

theorem K.thenChange {n m : Node} {new : NState} (h : K n m) (h1 : new ≠ .standingUp) (h2 : new ≠ .leading)
    (h3 : new ≠ .standingDown) : K n (m.changeState new) :=
  h.trans (K.change h1 h2 (fun h => absurd h h3))

theorem K.thenSearch {n m : Node} (h : K n m) : K n (m.changeState .searching) := h.trans .search

theorem K.send {n : Node} (i : Nat) (m : OutMsg) : K n (n.send i m) :=
  .same (.of_eq (by simp)) (by simp) (by simp) (by simp) (by simp)

theorem K.fail {n : Node} (i : Nat) : K n (n.fail i) :=
  .same (.of_eq (by simp)) (by simp) (by simp) (by simp) (by simp)

theorem K.reconnectPeer {n : Node} (i : Nat) : K n (n.reconnectPeer i) :=
  .same (by
    intro j; left
    show ((n.setPeer i _).peer j).standup = _
    exact setPeer_field (·.standup) (fun _ => rfl)) (by simp) (by simp) (by simp) (by simp)

theorem K.reconnectAll {n : Node} : K n n.reconnectAll :=
  .same (fun i => Or.inl (reconnectAll_field n (·.standup) (fun _ _ => rfl) i))
    (by simp) (by simp) (by simp) (by simp)

theorem K.frame {n m : Node} (h0 : m.peers = n.peers) (h1 : m.state = n.state)
    (h2 : m.stateChangeCount = n.stateChangeCount) (h3 : m.priority = n.priority)
    (h4 : m.configured = n.configured) : K n m := .same (.of_eq h0) h1 h2 (Or.inl h3) h4

theorem K.dieIfForked {n : Node} : K n n.dieIfForked :=
  .frame (by simp) (by simp) (by simp) (by simp) (by simp)

/-- After `reconnectPeer` and changes to other fields, back to SEARCHING. -/
theorem K.reSearch {n m : Node} {i : Nat}
    (hp : m.peers = n.peers.modify i (fun p => { p with loggedIn := false }))
    (h1 : m.priority = n.priority) (h2 : m.configured = n.configured) :
    K n (m.changeState .searching) := by
  refine ⟨?_, by simp, by simp, by simp [Node.leadish], ?_, by simp [h2]⟩
  · intro j; left
    rw [changeState_field m .searching (·.standup) (fun _ _ _ => rfl) j]
    unfold peer
    rw [hp, getD_modify]; split <;> rfl
  · left; rw [changeState_priority]; simp [h1]

theorem K.thenDie {n m : Node} (h : K n m) : K n m.dieIfForked := h.trans .dieIfForked
theorem K.thenFail {n m : Node} (h : K n m) (i : Nat) : K n (m.fail i) := h.trans (.fail i)
theorem K.thenSend {n m : Node} (h : K n m) (i : Nat) (x : OutMsg) : K n (m.send i x) := h.trans (.send i x)
theorem K.thenReconnect {n m : Node} (h : K n m) (i : Nat) : K n (m.reconnectPeer i) :=
  h.trans (.reconnectPeer i)
theorem K.thenSet {n m : Node} (h : K n m) {i : Nat} {f : Peer → Peer}
    (hf : ∀ p, (f p).standup = p.standup ∨ (f p).standup = .none) : K n (m.setPeer i f) :=
  h.trans (.setPeer hf)
theorem K.thenSyncPeer {n m : Node} (h : K n m) {x : Option Nat} : K n { m with syncPeer := x } :=
  h.trans (.frame rfl rfl rfl rfl rfl)
theorem K.thenLeadPeer {n m : Node} (h : K n m) {x : Option Nat} : K n { m with leadPeer := x } :=
  h.trans (.frame rfl rfl rfl rfl rfl)

theorem sendStandupResponse_k {n : Node} (i : Nat) (scc : Option Int) : K n (sendStandupResponse n i scc) := by
  unfold sendStandupResponse
  dsimp only
  split
  · exact .send ..
  · split
    · rename_i hl
      split
      · refine K.trans ?_ (.send ..)
        repeat' split
        · exact .search
        · exact .change (by decide) (by decide) (fun _ => hl)
        · exact .refl n
      · refine K.trans ?_ (.send ..)
        split
        · exact .refl n
        · exact K.trans .reconnectAll .search
    · exact .send ..

theorem loginRecord_k {n : Node} (i : Nat) (prio : Int) (st : NState) (ver : Bytes) :
    K n (loginRecord n i prio st ver) := by
  unfold loginRecord
  dsimp only
  refine K.trans (.setPeer (i := i) (f := fun p =>
    { p with priority := prio, version := ver, state := st, permaFollower := prio = 0 })
    (fun p => Or.inl rfl)) ?_
  generalize (n.setPeer i fun p =>
    { p with priority := prio, version := ver, state := st, permaFollower := prio = 0 }) = m
  repeat' split
  · refine K.trans (b := { m with haveSeenSame := true, priority := m.configured }) ?_ .reconnectAll
    exact .same (.of_eq rfl) rfl rfl (Or.inr rfl) rfl
  · exact .frame rfl rfl rfl rfl rfl
  · exact .refl m

theorem loginCheck_k {n : Node} (i : Nat) : K n (loginCheck n i) := by
  unfold loginCheck
  split
  · exact K.thenDie (K.thenSet (.send ..) (fun p => Or.inl rfl))
  · exact .setPeer (fun p => Or.inl rfl)

theorem onLogin_k {n : Node} (i : Nat) (p : Option Int) (s : Option NState) (v : Option Bytes)
    (scc : Option Int) : K n (onLogin n i p s v scc) := by
  unfold onLogin
  dsimp only
  repeat' split
  · exact .fail i
  · exact .reconnectPeer i
  · exact (loginRecord_k ..).trans (loginCheck_k i)
  · exact ((loginRecord_k ..).trans (loginCheck_k i)).trans (sendStandupResponse_k ..)
  · exact (loginRecord_k ..).trans (loginCheck_k i)
  · exact .fail i

theorem onState_k {n : Node} (i : Nat) (s : Option NState) (p : Option Int) (scc : Option Int) :
    K n (onState n i s p scc) := by
  unfold onState
  dsimp only
  repeat' split
  · exact .setPeer (fun p => Or.inl rfl)
  · refine K.thenSet ?_ ?_
    · refine .setPeer ?_; intro p; exact Or.inl rfl
    · intro p; exact Or.inl rfl
  · refine K.trans ?_ (sendStandupResponse_k ..)
    exact .setPeer (fun p => Or.inl rfl)
  · exact .setPeer (fun p => Or.inl rfl)
  · exact .fail i

theorem onSynchronizeResponse_k {n : Node} (i : Nat) (hm : Bool) (o : DbOutcome) :
    K n (onSynchronizeResponse n i hm o) := by
  unfold onSynchronizeResponse
  dsimp only
  have db : K n { n with commits := o.commits, journal := o.journal } := .frame rfl rfl rfl rfl rfl
  repeat' split
  · exact .fail i
  · refine K.thenDie ?_
    refine .setPeer ?_; intro p; exact Or.inl rfl
  · refine K.thenFail ?_ i
    refine K.thenDie ?_
    refine .setPeer ?_; intro p; exact Or.inl rfl
  · exact .fail i
  · exact K.thenFail (K.reSearch (i := i) (by simp [reconnectPeer, setPeer]) (by simp) (by simp)) i
  · exact K.thenChange (.frame rfl rfl rfl rfl rfl) (by decide) (by decide) (by decide)
  · exact K.reSearch (i := i) (by simp [reconnectPeer, setPeer]) (by simp) (by simp)
  · exact .frame (by simp) (by simp) (by simp) (by simp) (by simp)
  · exact K.thenSearch (.frame (by simp) (by simp) (by simp) (by simp) (by simp))

theorem onSubscriptionApproved_k {n : Node} (i : Nat) (o : DbOutcome) :
    K n (onSubscriptionApproved n i o) := by
  unfold onSubscriptionApproved
  dsimp only
  have db : K n { n with commits := o.commits, journal := o.journal } := .frame rfl rfl rfl rfl rfl
  repeat' split
  · exact .fail i
  · exact .fail i
  · exact db.thenChange (by decide) (by decide) (by decide)
  · exact K.thenFail (K.reSearch (i := i) (by simp [reconnectPeer, setPeer]) (by simp) (by simp)) i

theorem onForked_k {n : Node} (i : Nat) : K n (onForked n i) := by
  unfold onForked
  dsimp only
  refine K.trans (b := (n.setPeer i fun p => { p with forked := true }).dieIfForked)
    (K.thenDie (.setPeer (fun p => Or.inl rfl))) ?_
  generalize (n.setPeer i fun p => { p with forked := true }).dieIfForked = m
  split
  · exact .refl m
  · refine K.trans (b := if m.leadPeer = some i then
        { m with leadPeer := none }.changeState .searching else m) ?_ ?_
    · split
      · exact K.thenSearch (.frame rfl rfl rfl rfl rfl)
      · exact .refl m
    · generalize (if m.leadPeer = some i then
        { m with leadPeer := none }.changeState .searching else m) = k
      repeat' split
      · exact K.thenSearch (.frame rfl rfl rfl rfl rfl)
      · exact .frame rfl rfl rfl rfl rfl
      · exact .refl k

/-- Everything but a vote. -/
theorem dispatch_k {n : Node} (i : Nat) (b : Body) (o : DbOutcome)
    (hb : ∀ s r, b ≠ .standupResponse s r) : K n (dispatch n i b o) := by
  unfold dispatch
  split
  · exact onLogin_k ..
  · split
    · unfold onLoggedIn
      split
      · exact onState_k ..
      · exact absurd rfl (hb _ _)
      · repeat' split
        · exact .send ..
        · exact .send ..
        · exact .fail ..
      · exact onSynchronizeResponse_k ..
      · repeat' split
        · exact .fail ..
        · exact .fail ..
        · exact K.thenSet (.send ..) (fun p => Or.inl rfl)
      · exact onSubscriptionApproved_k ..
      · exact onForked_k ..
      all_goals exact .refl n
    · exact .fail i

theorem checkLag_k {n : Node} (i : Nat) : K n (checkLag n i) :=
  .frame (by simp) (by simp) (by simp) (by simp) (by simp)

theorem onDisconnect_k {n : Node} (i : Nat) : K n (onDisconnect n i) := by
  unfold onDisconnect
  dsimp only
  refine K.trans (b := n.setPeer i Peer.reset) (.setPeer (fun p => Or.inr rfl)) ?_
  generalize n.setPeer i Peer.reset = m
  refine K.trans (b := if m.leadPeer = some i then
      { m with leadPeer := none }.changeState .searching else m) ?_ ?_
  · split
    · exact K.thenSearch (.frame rfl rfl rfl rfl rfl)
    · exact .refl m
  · generalize (if m.leadPeer = some i then
      { m with leadPeer := none }.changeState .searching else m) = k
    refine K.trans (b := if k.syncPeer = some i then
      { k with syncPeer := none }.changeState .searching else k) ?_ ?_
    · split
      · exact K.thenSearch (.frame rfl rfl rfl rfl rfl)
      · exact .refl k
    · generalize (if k.syncPeer = some i then
        { k with syncPeer := none }.changeState .searching else k) = j
      repeat' split
      · exact .search
      · exact .refl j
      · exact .refl j

/-- A message is recorded and then handled. -/
theorem onMessage_cases (n : Node) (i : Nat) (m : Msg) (o : DbOutcome) :
    onMessage n i m o = n ∨ onMessage n i m o = fail n i ∨
    ∃ c h, (n.peer i).forked = false ∧ m.commitCount = some c ∧ m.hash = some h ∧ onMessage n i m o =
      dispatch (checkLag (n.setPeer i (fun p => { p with commitCount := c, hash := h })) i) i m.body o := by
  obtain ⟨c, h, b⟩ := m
  unfold onMessage
  split
  · exact Or.inl rfl
  · rename_i hf
    have hf : (n.peer i).forked = false := by simpa using hf
    cases c <;> cases h
    · exact Or.inr (Or.inl rfl)
    · exact Or.inr (Or.inl rfl)
    · exact Or.inr (Or.inl rfl)
    · exact Or.inr (Or.inr ⟨_, _, hf, rfl, rfl, rfl⟩)

theorem record_k {n : Node} (i c : Nat) (h : Bytes) :
    K n (checkLag (n.setPeer i (fun p => { p with commitCount := c, hash := h })) i) :=
by
  refine K.trans ?_ (checkLag_k i)
  exact K.setPeer (fun p => Or.inl rfl)

theorem onMessage_k {n : Node} (i : Nat) (m : Msg) (o : DbOutcome)
    (hb : ∀ s r, m.body ≠ .standupResponse s r) : K n (onMessage n i m o) := by
  rcases onMessage_cases n i m o with e | e | ⟨c, h, _, _, _, e⟩
  · rw [e]; exact .refl n
  · rw [e]; exact .fail i
  · rw [e]; exact (record_k i c h).trans (dispatch_k i m.body o hb)

theorem updateSearching_k {n : Node} (hp : n.peers ≠ []) : K n (updateSearching n) := by
  unfold updateSearching
  have hp' : n.peers.isEmpty = false := by cases h : n.peers <;> simp_all
  simp only [hp']
  repeat' split
  · exact .refl n
  · simp_all
  · exact .refl n
  · exact .refl n
  · exact (K.refl n).thenChange (by decide) (by decide) (by decide)
  · exact K.thenChange (.frame (by simp) (by simp) (by simp) (by simp) (by simp)) (by decide) (by decide) (by decide)
  · exact .frame (by simp) (by simp) (by simp) (by simp) (by simp)

theorem updateSynchronizing_k {n : Node} (t : Bool) : K n (updateSynchronizing n t) := by
  unfold updateSynchronizing
  repeat' split
  · rename_i i _; exact K.reSearch (i := i) (by simp [reconnectPeer, setPeer]) (by simp) (by simp)
  · exact .frame rfl rfl rfl rfl rfl
  · exact .refl n

theorem updateSubscribing_k {n : Node} (t : Bool) : K n (updateSubscribing n t) := by
  unfold updateSubscribing
  repeat' split
  · exact .search
  · rename_i i _; exact K.reSearch (i := i) (by simp [reconnectPeer, setPeer]) (by simp) (by simp)
  · exact .frame rfl rfl rfl rfl rfl
  · exact .refl n

theorem updateFollowing_k {n : Node} (b : Bool) : K n (updateFollowing n b) := by
  unfold updateFollowing
  repeat' split
  · exact .search
  · exact .frame rfl rfl rfl rfl rfl
  · exact .search
  · exact .refl n

theorem freshest_mem {ps : List Peer} {f : Peer} (h : freshest ps = some f) :
    f ∈ ps ∧ ∀ p ∈ ps, p.commitCount ≤ f.commitCount := by
  have key : ∀ (l : List Peer) (a : Option Peer) (f : Peer),
      l.foldl (fun acc p => match acc with
        | none => some p
        | some q => if q.commitCount < p.commitCount then some p else some q) a = some f →
      (f ∈ l ∨ a = some f) ∧ (∀ p ∈ l, p.commitCount ≤ f.commitCount) ∧
        (∀ q, a = some q → q.commitCount ≤ f.commitCount) := by
    intro l
    induction l with
    | nil => intro a f h; exact ⟨Or.inr h, by simp, fun q hq => by simp_all⟩
    | cons x l ih =>
      intro a f h
      obtain ⟨h1, h2, h3⟩ := ih _ _ h
      cases a with
      | none =>
        have := h3 x rfl
        refine ⟨?_, ?_, by simp⟩
        · rcases h1 with h1 | h1
          · exact Or.inl (by simp [h1])
          · cases h1; exact Or.inl (by simp)
        · intro p hp
          rcases List.mem_cons.mp hp with rfl | hp
          · exact this
          · exact h2 p hp
      | some q =>
        by_cases hq : q.commitCount < x.commitCount
        · simp only [hq, if_true] at h1 h3
          have := h3 x rfl
          refine ⟨?_, ?_, ?_⟩
          · rcases h1 with h1 | h1
            · exact Or.inl (by simp [h1])
            · cases h1; exact Or.inl (by simp)
          · intro p hp
            rcases List.mem_cons.mp hp with rfl | hp
            · exact this
            · exact h2 p hp
          · intro q' hq'; cases hq'; omega
        · simp only [hq, if_false] at h1 h3
          have := h3 q rfl
          refine ⟨?_, ?_, ?_⟩
          · rcases h1 with h1 | h1
            · exact Or.inl (by simp [h1])
            · exact Or.inr h1
          · intro p hp
            rcases List.mem_cons.mp hp with rfl | hp
            · omega
            · exact h2 p hp
          · intro q' hq'; cases hq'; exact this
  obtain ⟨h1, h2, _⟩ := key ps none f h
  exact ⟨h1.resolve_right (by simp), h2⟩

theorem highest_mem {ps : List Peer} {f : Peer} (h : highest ps = some f) :
    f ∈ ps ∧ ∀ p ∈ ps, p.priority ≤ f.priority := by
  have key : ∀ (l : List Peer) (a : Option Peer) (f : Peer),
      l.foldl (fun acc p => match acc with
        | none => some p
        | some q => if q.priority < p.priority then some p else some q) a = some f →
      (f ∈ l ∨ a = some f) ∧ (∀ p ∈ l, p.priority ≤ f.priority) ∧
        (∀ q, a = some q → q.priority ≤ f.priority) := by
    intro l
    induction l with
    | nil => intro a f h; exact ⟨Or.inr h, by simp, fun q hq => by simp_all⟩
    | cons x l ih =>
      intro a f h
      obtain ⟨h1, h2, h3⟩ := ih _ _ h
      cases a with
      | none =>
        have := h3 x rfl
        refine ⟨?_, ?_, by simp⟩
        · rcases h1 with h1 | h1
          · exact Or.inl (by simp [h1])
          · cases h1; exact Or.inl (by simp)
        · intro p hp
          rcases List.mem_cons.mp hp with rfl | hp
          · exact this
          · exact h2 p hp
      | some q =>
        by_cases hq : q.priority < x.priority
        · simp only [hq, if_true] at h1 h3
          have := h3 x rfl
          refine ⟨?_, ?_, ?_⟩
          · rcases h1 with h1 | h1
            · exact Or.inl (by simp [h1])
            · cases h1; exact Or.inl (by simp)
          · intro p hp
            rcases List.mem_cons.mp hp with rfl | hp
            · exact this
            · exact h2 p hp
          · intro q' hq'; cases hq'; omega
        · simp only [hq, if_false] at h1 h3
          have := h3 q rfl
          refine ⟨?_, ?_, ?_⟩
          · rcases h1 with h1 | h1
            · exact Or.inl (by simp [h1])
            · exact Or.inr h1
          · intro p hp
            rcases List.mem_cons.mp hp with rfl | hp
            · omega
            · exact h2 p hp
          · intro q' hq'; cases hq'; exact this
  obtain ⟨h1, h2, _⟩ := key ps none f h
  exact ⟨h1.resolve_right (by simp), h2⟩

/-- WAITING: either nothing relevant, or the node stands up, with no votes yet. -/
theorem updateWaiting_k {n : Node} : K n (updateWaiting n) ∨
    (updateWaiting n = changeState { n with peers := n.peers.map (fun p => { p with standup := .none }) } .standingUp ∧
      n.shuttingDown = false ∧ 0 < n.priority ∧ currentLeader n.peers = none ∧
      n.peers.countP eligible ≤ 2 * n.peers.countP (fun p => eligible p && p.loggedIn) ∧
      (∃ p ∈ n.peers, (eligible p && p.loggedIn) = true) ∧
      ∀ p ∈ n.peers, (eligible p && p.loggedIn) = true → p.priority < n.priority ∧ p.commitCount ≤ n.commits) := by
  unfold updateWaiting
  dsimp only
  split
  · exact Or.inl .search
  · rename_i hsd
    split
    · rename_i h f hh hf
      split
      · left
        repeat' split
        · exact K.thenChange (.frame (by simp) (by simp) (by simp) (by simp) (by simp)) (by decide) (by decide)
            (by decide)
        · exact .search
        · exact .refl n
      · rename_i hcl
        split
        · exact Or.inl .search
        · rename_i hco
          split
          · rename_i hc
            right
            refine ⟨rfl, by simpa using hsd, hc.2.1, hcl, ?_, ⟨h, ?_⟩, ?_⟩
            · have := hc.1
              rw [← List.countP_eq_length_filter] at this
              omega
            · have := (highest_mem hh).1
              rw [List.mem_filter] at this; exact this
            · intro p hp hep
              have hm : p ∈ n.peers.filter (fun p => eligible p && p.loggedIn) := List.mem_filter.mpr ⟨hp, hep⟩
              have h1 := (highest_mem hh).2 p hm
              have h2 := (freshest_mem hf).2 p hm
              exact ⟨by have := hc.2.2; omega, by omega⟩
          · exact Or.inl (.refl n)
    · exact Or.inl .search

/-- STANDINGUP: either nothing relevant, or the node starts to lead. -/
theorem updateStandingUp_k {n : Node} (t : Bool) : K n (updateStandingUp n t) ∨
    (updateStandingUp n t = changeState n .leading ∧ n.shuttingDown = false ∧
      (∀ p ∈ n.peers, ¬ (full p = true ∧ p.loggedIn = true ∧ p.standup = .deny)) ∧
      n.peers.countP full ≤ 2 * n.peers.countP (fun p => full p && p.loggedIn && p.standup = .approve)) := by
  unfold updateStandingUp
  dsimp only
  split
  · exact Or.inl .search
  · rename_i hsd
    split
    · exact Or.inl .search
    · rename_i hd
      split
      · rename_i hc
        refine Or.inr ⟨rfl, by simpa using hsd, ?_, by have := hc.2; omega⟩
        intro p hp ⟨h1, h2, h3⟩
        apply hd
        rw [List.any_eq_true]
        exact ⟨p, hp, by simp [h1, h2, h3]⟩
      · split
        · exact Or.inl .search
        · exact Or.inl (.refl n)

/-- LEADING and STANDINGDOWN. -/
theorem updateLeading_k {n : Node} (hs : n.state = .leading ∨ n.state = .standingDown) :
    Keep n (updateLeading n) ∧ (updateLeading n).state ≠ .standingUp ∧
      ((updateLeading n).state = .leading → n.state = .leading) ∧
      (updateLeading n).configured = n.configured ∧
      ((updateLeading n).priority = n.priority ∨
        ((updateLeading n).priority = 1 ∧ n.state = .leading ∧ n.shuttingDown = true)) := by
  have main : ∀ m : Node, Keep n m → m.state ≠ .standingUp → (m.state = .leading → n.state = .leading) →
      m.configured = n.configured → (m.priority = n.priority ∨ (m.priority = 1 ∧ n.state = .leading ∧ n.shuttingDown = true)) →
      ∀ r, r = (if m.state = .standingDown then
        changeState (if m.shuttingDown then
          { m with out := m.out ++ (List.range m.peers.length).map .shutdownSocket } else m) .searching
        else m) → Keep n r ∧ r.state ≠ .standingUp ∧ (r.state = .leading → n.state = .leading) ∧
        r.configured = n.configured ∧ (r.priority = n.priority ∨ (r.priority = 1 ∧ n.state = .leading ∧ n.shuttingDown = true)) := by
    intro m h1 h2 h3 h4 h5 r hr
    subst hr
    split
    · refine ⟨?_, by simp, by simp, ?_, ?_⟩
      · refine h1.trans ?_
        split
        · refine K.keep (K.thenSearch ?_)
          exact .frame rfl rfl rfl rfl rfl
        · exact K.search.keep
      · split <;> simpa using h4
      · split <;> rw [changeState_priority] <;> simpa using h5
    · exact ⟨h1, h2, h3, h4, h5⟩
  refine main (if n.state = .leading then
      if n.priority = 1 then changeState (n.emit .sendOutstanding) .standingDown
      else if n.shuttingDown then changeState { n.emit .sendOutstanding with priority := 1 } .standingDown
      else if n.peers.any (standDownFor (n.emit .sendOutstanding)) then changeState (n.emit .sendOutstanding) .standingDown
      else (n.emit .sendOutstanding)
    else (n.emit .sendOutstanding)) ?_ ?_ ?_ ?_ ?_ _ rfl
  · have e : Keep n (n.emit .sendOutstanding) := .of_eq (by simp)
    have c : ∀ m : Node, Keep m (m.changeState .standingDown) := fun m i =>
      Or.inl (changeState_field m _ (·.standup) (fun _ _ _ => rfl) i)
    repeat' split
    · exact e.trans (c _)
    · exact Keep.trans (.of_eq (by simp)) (c _)
    · exact e.trans (c _)
    · exact e
    · exact e
  · rcases hs with hs | hs
    · repeat' split
      all_goals simp [hs]
    · simp [hs]
  · rcases hs with hs | hs
    · intro _; exact hs
    · simp [hs]
  · repeat' split
    all_goals simp
  · repeat' split
    all_goals (try rw [changeState_priority])
    all_goals simp_all

end Bedrock.Node.Node
