import Verif.Lemmas.NodeVotes

namespace Bedrock.Node.Node
open Bedrock Bedrock.Node Bedrock.Node.Spec

/-! ### Which steps bring a new priority into the set of logged-in nodes -/

/-- No peer logs in or changes priority, and the node's own priority changes only to 1 or while nobody
is logged in. -/
structure L (n n' : Node) : Prop where
  peer : ∀ i, (n'.peer i).loggedIn = true → (n.peer i).loggedIn = true ∧ (n'.peer i).priority = (n.peer i).priority
  own : n'.priority = n.priority ∨ n'.priority = 1 ∨ ∀ i, (n'.peer i).loggedIn = false

theorem L.trans {a b c : Node} (h1 : L a b) (h2 : L b c) : L a c where
  peer i h := ⟨(h1.peer i (h2.peer i h).1).1, (h2.peer i h).2.trans (h1.peer i (h2.peer i h).1).2⟩
  own := by
    rcases h2.own with h | h | h
    · rcases h1.own with h' | h' | h'
      · exact Or.inl (h.trans h')
      · exact Or.inr (Or.inl (h.trans h'))
      · refine Or.inr (Or.inr (fun i => ?_))
        cases hc : (c.peer i).loggedIn with
        | false => rfl
        | true => have := (h2.peer i hc).1; rw [h' i] at this; cases this
    · exact Or.inr (Or.inl h)
    · exact Or.inr (Or.inr h)

theorem L.frame {n m : Node} (h0 : m.peers = n.peers) (h3 : m.priority = n.priority) : L n m :=
  ⟨fun i h => by unfold Node.peer at h ⊢; rw [h0] at h ⊢; exact ⟨h, rfl⟩, Or.inl h3⟩

theorem L.refl (n : Node) : L n n := .frame rfl rfl

theorem L.setPeer {n : Node} {i : Nat} {f : Peer → Peer}
    (h : ∀ p, (f p).loggedIn = true → p.loggedIn = true ∧ (f p).priority = p.priority) : L n (n.setPeer i f) :=
  ⟨by
    intro j hj
    rw [setPeer_peer] at hj ⊢
    split at hj
    · rename_i hc; rw [if_pos hc]; exact h _ hj
    · rename_i hc; rw [if_neg hc]; exact ⟨hj, rfl⟩, Or.inl (by simp)⟩

theorem reconnectAll_none (n : Node) (i : Nat) : ((reconnectAll n).peer i).loggedIn = false := by
  unfold reconnectAll Node.peer
  rw [List.getD_eq_getElem?_getD, List.getElem?_map]
  cases n.peers[i]? <;> rfl

theorem L.reconnectAll {n m : Node} (h : m.peers = n.peers) : L n m.reconnectAll :=
  ⟨fun i hi => (by rw [reconnectAll_none] at hi; cases hi), Or.inr (Or.inr (fun i => reconnectAll_none m i))⟩

theorem changeState_reconnects {n : Node} {new : NState}
    (hc : new ≠ n.state ∧ new = .waiting ∧ n.haveBeenWaiting = false ∧ n.haveSeenSame = true) :
    (changeState n new).peers = n.peers.map (fun p => { p with loggedIn := false }) ∨
    (changeState n new).peers =
      (n.peers.map (fun p => { p with subscribed := false })).map (fun p => { p with loggedIn := false }) := by
  obtain ⟨h0, hw, h1, h2⟩ := hc
  subst hw
  generalize hr : (changeState n .waiting).peers = r
  unfold changeState at hr
  rw [if_neg h0] at hr
  dsimp only at hr
  repeat' split at hr
  all_goals first
    | exact Or.inl hr.symm
    | exact Or.inr hr.symm
    | (rename_i h; exact absurd h2 h)
    | (rename_i h; exact absurd ⟨rfl, h1⟩ h)
    | (rename_i h _; exact absurd ⟨rfl, h1⟩ h)

theorem L.change {n : Node} {new : NState} : L n (n.changeState new) := by
  refine ⟨fun i h => ⟨?_, changeState_field n new (·.priority) (fun _ _ _ => rfl) i⟩, ?_⟩
  · revert h
    unfold Node.peer
    simp only [List.getD_eq_getElem?_getD]
    rcases changeState_peers_cases n new with h | h | h | h <;> rw [h] <;>
      (try simp only [List.getElem?_map]) <;> cases n.peers[i]? <;> simp
  · rcases Classical.em ((n.changeState new).priority = n.priority) with h | h
    · exact Or.inl h
    · refine Or.inr (Or.inr ?_)
      have : (changeState n new).peers = n.peers.map (fun p => { p with loggedIn := false }) ∨
        (changeState n new).peers =
        (n.peers.map (fun p => { p with subscribed := false })).map (fun p => { p with loggedIn := false }) := by
        rw [changeState_priority] at h
        split at h
        · rename_i hc
          exact changeState_reconnects hc
        · exact absurd rfl h
      intro i
      unfold Node.peer
      simp only [List.getD_eq_getElem?_getD]
      rcases this with h | h <;> rw [h] <;>
        simp only [List.getElem?_map] <;> cases n.peers[i]? <;> simp

theorem L.send {n : Node} (i : Nat) (m : OutMsg) : L n (n.send i m) := .frame (by simp) (by simp)
theorem L.fail {n : Node} (i : Nat) : L n (n.fail i) := .frame (by simp) (by simp)
theorem L.dieIfForked {n : Node} : L n n.dieIfForked := .frame (by simp) (by simp)
theorem L.thenChange {n m : Node} {new : NState} (h : L n m) : L n (m.changeState new) := h.trans .change
theorem L.reconnectPeer {n : Node} (i : Nat) : L n (n.reconnectPeer i) := by
  unfold Node.reconnectPeer
  refine L.trans (b := n.setPeer i (fun p => { p with loggedIn := false })) ?_ (.frame (by simp) (by simp))
  refine .setPeer ?_; intro p h; cases h

theorem L.fork {n : Node} (i : Nat) : L n (n.setPeer i (fun p => { p with forked := true })).dieIfForked := by
  refine L.trans ?_ .dieIfForked
  refine .setPeer ?_; intro p h; exact ⟨h, rfl⟩

theorem L.reSearch {n m : Node} {i : Nat} {new : NState}
    (hp : m.peers = n.peers.modify i (fun p => { p with loggedIn := false }))
    (h1 : m.priority = n.priority) : L n (m.changeState new) := by
  refine L.trans (b := m) ?_ .change
  refine L.trans (b := n.setPeer i (fun p => { p with loggedIn := false })) ?_ (.frame hp (by simpa using h1))
  refine .setPeer ?_; intro p h; cases h

theorem sendStandupResponse_l {n : Node} (i : Nat) (scc : Option Int) : L n (sendStandupResponse n i scc) := by
  unfold sendStandupResponse
  dsimp only
  split
  · exact .send ..
  · split
    · split
      · refine L.trans ?_ (.send ..)
        repeat' split
        · exact .change
        · exact .change
        · exact .refl n
      · refine L.trans ?_ (.send ..)
        split
        · exact .refl n
        · exact L.trans (.reconnectAll rfl) .change
    · exact .send ..

theorem onSynchronizeResponse_l {n : Node} (i : Nat) (hm : Bool) (o : DbOutcome) :
    L n (onSynchronizeResponse n i hm o) := by
  unfold onSynchronizeResponse
  dsimp only
  repeat' split
  · exact .fail i
  · exact .fork i
  · exact L.trans (.fork i) (.fail i)
  · exact .fail i
  · exact L.trans (L.reSearch (i := i) (by simp [Node.reconnectPeer, Node.setPeer]) (by simp)) (.fail i)
  · exact L.thenChange (.frame rfl rfl)
  · exact L.reSearch (i := i) (by simp [Node.reconnectPeer, Node.setPeer]) (by simp)
  · exact .frame (by simp) (by simp)
  · exact L.thenChange (.frame (by simp) (by simp))

theorem onSubscriptionApproved_l {n : Node} (i : Nat) (o : DbOutcome) :
    L n (onSubscriptionApproved n i o) := by
  unfold onSubscriptionApproved
  dsimp only
  repeat' split
  · exact .fail i
  · exact .fail i
  · exact L.thenChange (.frame rfl rfl)
  · exact L.trans (L.reSearch (i := i) (by simp [Node.reconnectPeer, Node.setPeer]) (by simp)) (.fail i)

theorem onForked_l {n : Node} (i : Nat) : L n (onForked n i) := by
  unfold onForked
  dsimp only
  refine L.trans (.fork i) ?_
  generalize (n.setPeer i fun p => { p with forked := true }).dieIfForked = m
  split
  · exact .refl m
  · refine L.trans (b := if m.leadPeer = some i then
        { m with leadPeer := none }.changeState .searching else m) ?_ ?_
    · split
      · exact L.thenChange (.frame rfl rfl)
      · exact .refl m
    · generalize (if m.leadPeer = some i then
        { m with leadPeer := none }.changeState .searching else m) = k
      repeat' split
      · exact L.thenChange (.frame rfl rfl)
      · exact .frame rfl rfl
      · exact .refl k

theorem onDisconnect_l {n : Node} (i : Nat) : L n (onDisconnect n i) := by
  unfold onDisconnect
  dsimp only
  refine L.trans (b := n.setPeer i Peer.reset) (.setPeer (fun p h => by simp [Peer.reset] at h)) ?_
  generalize n.setPeer i Peer.reset = m
  refine L.trans (b := if m.leadPeer = some i then
      { m with leadPeer := none }.changeState .searching else m) ?_ ?_
  · split
    · exact L.thenChange (.frame rfl rfl)
    · exact .refl m
  · generalize (if m.leadPeer = some i then
      { m with leadPeer := none }.changeState .searching else m) = k
    refine L.trans (b := if k.syncPeer = some i then
      { k with syncPeer := none }.changeState .searching else k) ?_ ?_
    · split
      · exact L.thenChange (.frame rfl rfl)
      · exact .refl k
    · generalize (if k.syncPeer = some i then
        { k with syncPeer := none }.changeState .searching else k) = j
      repeat' split
      · exact .change
      · exact .refl j
      · exact .refl j

theorem record_l {n : Node} (i c : Nat) (h : Bytes) :
    L n (checkLag (n.setPeer i (fun p => { p with commitCount := c, hash := h })) i) := by
  refine L.trans (b := n.setPeer i (fun p => { p with commitCount := c, hash := h })) ?_ (.frame (by simp) (by simp))
  refine .setPeer ?_; intro p h; exact ⟨h, rfl⟩

theorem updateWaiting_l {n : Node} : L n (updateWaiting n) := by
  unfold updateWaiting
  dsimp only
  repeat' split
  · exact .change
  · exact L.thenChange (.frame (by simp) (by simp))
  · exact .change
  · exact .refl n
  · exact .change
  · refine L.thenChange ⟨fun i h => ?_, Or.inl rfl⟩
    have a := getD_map (ps := n.peers) (g := fun p => { p with standup := .none }) (F := fun p => p.loggedIn) (fun _ => rfl) i
    have b := getD_map (ps := n.peers) (g := fun p => { p with standup := .none }) (F := fun p => p.priority) (fun _ => rfl) i
    exact ⟨a.symm.trans h, b⟩
  · exact .refl n
  · exact .change

theorem update_l {n : Node} (t b : Bool) (hp : n.peers ≠ []) : L n (update n t b) := by
  have hp' : n.peers.isEmpty = false := by cases h : n.peers <;> simp_all
  unfold update
  split
  · exact .frame rfl rfl
  · unfold updateSearching
    simp only [hp']
    repeat' split
    · exact .refl n
    · simp_all
    · exact .refl n
    · exact .refl n
    · exact .change
    · exact L.thenChange (.frame (by simp) (by simp))
    · exact .frame (by simp) (by simp)
  · unfold updateSynchronizing
    repeat' split
    · rename_i i _; exact L.reSearch (i := i) (by simp [Node.reconnectPeer, Node.setPeer]) (by simp)
    · exact .frame rfl rfl
    · exact .refl n
  · exact updateWaiting_l
  · unfold updateStandingUp
    dsimp only
    repeat' split
    all_goals first | exact .change | exact .refl n
  all_goals first
    | (unfold updateLeading
       dsimp only
       generalize hm : (if (n.emit Effect.sendOutstanding).state = NState.leading then
          if (n.emit Effect.sendOutstanding).priority = 1 then (n.emit Effect.sendOutstanding).changeState NState.standingDown
          else if (n.emit Effect.sendOutstanding).shuttingDown = true then
            ({ n.emit Effect.sendOutstanding with priority := 1 } : Node).changeState NState.standingDown
          else if ((n.emit Effect.sendOutstanding).peers.any (n.emit Effect.sendOutstanding).standDownFor) = true then
            (n.emit Effect.sendOutstanding).changeState NState.standingDown
          else n.emit Effect.sendOutstanding
        else n.emit Effect.sendOutstanding) = m
       have hL : L n m := by
         rw [← hm]
         have e : L n (n.emit .sendOutstanding) := .frame (by simp) (by simp)
         repeat' split
         · exact e.thenChange
         · refine L.thenChange (e.trans ⟨fun i h => ⟨h, rfl⟩, Or.inr (Or.inl rfl)⟩)
         · exact e.thenChange
         · exact e
         · exact e
       refine hL.trans ?_
       repeat' split
       · exact L.thenChange (.frame rfl rfl)
       · exact .change
       · exact .refl m)
    | (unfold updateSubscribing
       repeat' split
       · exact .change
       · rename_i i _; exact L.reSearch (i := i) (by simp [Node.reconnectPeer, Node.setPeer]) (by simp)
       · exact .frame rfl rfl
       · exact .refl n)
    | (unfold updateFollowing
       repeat' split
       · exact .change
       · exact .frame rfl rfl
       · exact .change
       · exact .refl n)

/-- Messages other than LOGIN and STATE. -/
theorem dispatch_l {n : Node} (i : Nat) (b : Body) (o : DbOutcome)
    (h1 : ∀ p s v c, b ≠ .login p s v c) (h2 : ∀ p s c, b ≠ .state p s c) : L n (dispatch n i b o) := by
  unfold dispatch
  split
  · exact absurd rfl (h1 _ _ _ _)
  · split
    · unfold onLoggedIn
      split
      · exact absurd rfl (h2 _ _ _)
      · unfold onStandupResponse
        repeat' split
        · exact .refl n
        all_goals first | exact .refl n | exact .fail i | skip
        all_goals (refine .setPeer ?_; intro p h; exact ⟨h, rfl⟩)
      · repeat' split
        · exact .send ..
        · exact .send ..
        · exact .fail ..
      · exact onSynchronizeResponse_l ..
      · repeat' split
        · exact .fail ..
        · exact .fail ..
        · refine L.trans (.send i .subscriptionApproved) ?_
          refine .setPeer ?_; intro p h; exact ⟨h, rfl⟩
      · exact onSubscriptionApproved_l ..
      · exact onForked_l ..
      all_goals exact .refl n
    · exact .fail i

end Bedrock.Node.Node
