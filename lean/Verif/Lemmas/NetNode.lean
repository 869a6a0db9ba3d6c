import Verif.Lemmas.NodeSaid
import Verif.Props.NodeRules

/-!
# What the message of a peer does to what a node believes of that peer
-/

namespace Bedrock.Node.Node
open Bedrock Bedrock.Node Bedrock.Node.Spec Bedrock.Node.Props

theorem record_peer {n : Node} {i c : Nat} {h : Bytes} {α : Type} (F : Peer → α)
    (hF : ∀ p : Peer, F { p with commitCount := c, hash := h } = F p) (j : Nat) :
    F ((checkLag (n.setPeer i (fun p => { p with commitCount := c, hash := h })) i).peer j) = F (n.peer j) := by
  have : (checkLag (n.setPeer i (fun p => { p with commitCount := c, hash := h })) i).peer j =
      (n.setPeer i (fun p => { p with commitCount := c, hash := h })).peer j := by unfold peer; rw [checkLag_peers]
  rw [this]
  exact setPeer_field F hF

theorem record_approvals {n : Node} {i c : Nat} {h : Bytes} :
    approvals (checkLag (n.setPeer i (fun p => { p with commitCount := c, hash := h })) i).out = approvals n.out := by
  unfold checkLag
  dsimp only
  repeat' split
  all_goals simp [Node.emit, approvals]

theorem fail_approvals {n : Node} {i : Nat} : approvals (n.fail i).out = approvals n.out :=
  approvals_of_special (fail_special n i)

/-- A STATE message. -/
theorem state_at {n : Node} {i c : Nat} {h : Bytes} {s : NState} {p : Int} {x : Option Int} {o : DbOutcome} {n' : Node}
    (hn : n' = step n (.message i ⟨some c, some h, .state (some s) (some p) x⟩ o)) :
    (R none n n' ∧ approvals n'.out = approvals n.out) ∨
    ((n.peer i).loggedIn = true ∧ (n.peer i).forked = false ∧ (n'.peer i).state = s ∧
      (n'.peer i).permaFollower = decide (p = 0) ∧ (n'.peer i).standup = (n.peer i).standup) := by
  unfold step at hn
  split at hn
  · left; subst hn; exact ⟨.refl _, rfl⟩
  · dsimp only at hn
    split at hn
    · rename_i hi
      unfold onMessage at hn
      split at hn
      · left; subst hn; exact ⟨.refl _, rfl⟩
      · rename_i hf
        dsimp only at hn
        unfold dispatch at hn
        dsimp only at hn
        split at hn
        · rename_i hl
          rw [record_peer (·.loggedIn) (fun _ => rfl)] at hl
          right
          refine ⟨hl, by simpa using hf, ?_⟩
          unfold onLoggedIn onState at hn
          dsimp only at hn
          generalize hk : checkLag (n.setPeer i (fun p => { p with commitCount := c, hash := h })) i = k at hn
          have hm : ∃ m : Node, m = k.setPeer i (fun q => { q with priority := p, permaFollower := p = 0, state := s }) ∧
              Same (m.peer i) (n'.peer i) := by
            refine ⟨_, rfl, ?_⟩
            repeat' split at hn
            · subst hn; exact .refl _
            · subst hn
              exact (R.setPeer (x := none) (n := k.setPeer i (fun q => { q with priority := p, permaFollower := p = 0, state := s }))
                (i := i) (f := fun q => { q with subscribed := false }) (fun q => ⟨rfl, rfl, rfl, id⟩)).seen i nofun
            · subst hn
              exact (sendStandupResponse_r (x := none) ..).seen i nofun
            · subst hn; exact .refl _
          obtain ⟨m, e, hs⟩ := hm
          have hlen : i < k.peers.length := by rw [← hk]; simpa using hi
          rw [hs.state, hs.perma, hs.standup, e, setPeer_peer, if_pos ⟨rfl, hlen⟩]
          refine ⟨rfl, rfl, ?_⟩
          show (k.peer i).standup = _
          rw [← hk]
          exact record_peer (·.standup) (fun _ => rfl) i
        · left; subst hn
          exact ⟨(record_r i c h).trans (.fail i), fail_approvals.trans record_approvals⟩
    · left; subst hn; exact ⟨.refl _, rfl⟩

/-- A LOGIN. -/
theorem login_at {n : Node} {i c : Nat} {h : Bytes} {s : NState} {p : Int} {v : Bytes} {x : Option Int} {o : DbOutcome} {n' : Node}
    (hn : n' = step n (.message i ⟨some c, some h, .login (some p) (some s) (some v) x⟩ o)) :
    R none n n' ∨
    ((n.peer i).loggedIn = false ∧
      (n'.peer i).permaFollower = decide (p = 0) ∧ (n'.peer i).standup = (n.peer i).standup) := by
  unfold step at hn
  split at hn
  · left; subst hn; exact .refl _
  · dsimp only at hn
    split at hn
    · rename_i hi
      unfold onMessage at hn
      split at hn
      · left; subst hn; exact .refl _
      · dsimp only at hn
        unfold dispatch at hn
        dsimp only at hn
        generalize hk : checkLag (n.setPeer i (fun p => { p with commitCount := c, hash := h })) i = k at hn
        have hr : R none n k := by rw [← hk]; exact record_r i c h
        have hli : (k.peer i).loggedIn = (n.peer i).loggedIn := by
          rw [← hk]; exact record_peer (·.loggedIn) (fun _ => rfl) i
        have hsi : (k.peer i).standup = (n.peer i).standup := by
          rw [← hk]; exact record_peer (·.standup) (fun _ => rfl) i
        have hlen : i < k.peers.length := by rw [← hk]; simpa using hi
        unfold onLogin at hn
        split at hn
        · left; subst hn; exact hr.trans (.fail i)
        · rename_i hl
          dsimp only at hn
          split at hn
          · left; subst hn; exact hr.trans (.reconnectPeer i)
          · right
            refine ⟨by rw [← hli]; simpa using hl, ?_⟩
            have key : ((loginCheck (loginRecord k i p s v) i).peer i).permaFollower = decide (p = 0) ∧
                ((loginCheck (loginRecord k i p s v) i).peer i).standup = (n.peer i).standup := by
              have rec' : ((loginRecord k i p s v).peer i).permaFollower = decide (p = 0) ∧
                  ((loginRecord k i p s v).peer i).standup = (n.peer i).standup := by
                have hs := (loginRest_r (x := none) (k.setPeer i (fun q =>
                    { q with priority := p, version := v, state := s, permaFollower := p = 0 })) v).seen i nofun
                have e : loginRecord k i p s v = _ := rfl
                unfold loginRecord at e
                unfold loginRecord
                rw [hs.perma, hs.standup, setPeer_peer, if_pos ⟨rfl, hlen⟩]
                exact ⟨rfl, hsi⟩
              exact ⟨(loginCheck_field (·.permaFollower) (fun _ _ _ => rfl) i).trans rec'.1,
                (loginCheck_field (·.standup) (fun _ _ _ => rfl) i).trans rec'.2⟩
            split at hn
            · subst hn; exact key
            · split at hn
              · have hs := (sendStandupResponse_r (x := none) (n := loginCheck (loginRecord k i p s v) i) i x).seen i nofun
                subst hn
                rw [hs.perma, hs.standup]; exact key
              · subst hn; exact key
    · left; subst hn; exact .refl _

/-- A vote. -/
theorem vote_at {n : Node} {i c : Nat} {h : Bytes} {s : Option Int} {r : Option Bool} {o : DbOutcome} {n' : Node}
    (hn : n' = step n (.message i ⟨some c, some h, .standupResponse s r⟩ o)) :
    R none n n' ∨
    (∃ r', r = some r' ∧ n.state = .standingUp ∧ s.getD 0 = (n.stateChangeCount : Int) ∧ (n.peer i).loggedIn = true ∧
      (n'.peer i).state = (n.peer i).state ∧ (n'.peer i).permaFollower = (n.peer i).permaFollower ∧
      (n'.peer i).standup = if r' then .approve else .deny) := by
  unfold step at hn
  split at hn
  · left; subst hn; exact .refl _
  · dsimp only at hn
    split at hn
    · rename_i hi
      unfold onMessage at hn
      split at hn
      · left; subst hn; exact .refl _
      · dsimp only at hn
        generalize hk : checkLag (n.setPeer i (fun p => { p with commitCount := c, hash := h })) i = k at hn
        have hr : R none n k := by rw [← hk]; exact record_r i c h
        have hpi : ∀ {α : Type} (F : Peer → α), (∀ p : Peer, F { p with commitCount := c, hash := h } = F p) →
            F (k.peer i) = F (n.peer i) := by
          intro α F hF
          rw [← hk]; exact record_peer F hF i
        have hlen : i < k.peers.length := by rw [← hk]; simpa using hi
        have hst : k.state = n.state := by rw [← hk]; simp
        have hsc : k.stateChangeCount = n.stateChangeCount := by rw [← hk]; simp
        unfold dispatch at hn
        dsimp only at hn
        split at hn
        · rename_i hl
          unfold onLoggedIn onStandupResponse at hn
          dsimp only at hn
          split at hn
          case isFalse => left; subst hn; exact hr
          rename_i h1
          split at hn
          · left; subst hn; exact hr
          rename_i h2
          cases r with
          | none => left; subst hn; exact hr.trans (.fail i)
          | some r' =>
            right
            subst hn
            dsimp only
            rw [setPeer_peer, if_pos ⟨rfl, hlen⟩]
            refine ⟨r', rfl, hst ▸ h1, by rw [hsc] at h2; exact Decidable.not_not.1 h2, by rw [← hpi (·.loggedIn) (fun _ => rfl)]; exact hl,
              hpi (·.state) (fun _ => rfl), hpi (·.permaFollower) (fun _ => rfl), rfl⟩
        · left; subst hn; exact hr.trans (.fail i)
    · left; subst hn; exact .refl _

/-- Any other message. -/
theorem plain_at {n : Node} {i : Nat} {m : Msg} {o : DbOutcome} (hb : plain m.body = true) :
    R none n (step n (.message i m o)) := by
  unfold step
  split
  · exact .refl _
  · dsimp only
    split
    · exact onMessage_plain i m o hb
    · exact .refl _

theorem message_r {n : Node} {i : Nat} {m : Msg} {o : DbOutcome} : R (some i) n (step n (.message i m o)) := by
  unfold step
  split
  · exact .refl _
  · dsimp only
    split
    · exact onMessage_r i m o
    · exact .refl _

theorem disconnect_r {n : Node} {i : Nat} : R (some i) n (step n (.disconnect i)) := by
  unfold step
  split
  · exact .refl _
  · dsimp only
    split
    · exact onDisconnect_r i
    · exact .refl _

/-- A connection that is gone. -/
theorem disconnect_at {n : Node} {i : Nat} (hd : n.dead = false) (hi : i < n.peers.length) :
    ((step n (.disconnect i)).peer i).loggedIn = false ∧
    ((step n (.disconnect i)).peer i).permaFollower = (n.peer i).permaFollower ∧
    ((step n (.disconnect i)).peer i).standup = .none := by
  have e : step n (.disconnect i) = onDisconnect n i := by unfold step; simp [hd, hi]
  rw [e]
  unfold onDisconnect
  dsimp only
  have key : R none (n.setPeer i Peer.reset) (onDisconnect n i) := by
    unfold onDisconnect
    dsimp only
    generalize n.setPeer i Peer.reset = m
    refine R.trans (b := if m.leadPeer = some i then
        { m with leadPeer := none }.changeState .searching else m) ?_ ?_
    · split
      · refine R.thenChange (.frame ?_ ?_ ?_ ?_ ?_ ?_ ?_) _ <;> rfl
      · exact .refl m
    · generalize (if m.leadPeer = some i then
        { m with leadPeer := none }.changeState .searching else m) = k
      refine R.trans (b := if k.syncPeer = some i then
        { k with syncPeer := none }.changeState .searching else k) ?_ ?_
      · split
        · refine R.thenChange (.frame ?_ ?_ ?_ ?_ ?_ ?_ ?_) _ <;> rfl
        · exact .refl k
      · generalize (if k.syncPeer = some i then
          { k with syncPeer := none }.changeState .searching else k) = j
        repeat' split
        · exact .change _
        · exact .refl j
        · exact .refl j
  have hs := key.seen i nofun
  have hp : (n.setPeer i Peer.reset).peer i = (n.peer i).reset := by rw [setPeer_peer, if_pos ⟨rfl, hi⟩]
  rw [hp] at hs
  unfold onDisconnect at hs
  dsimp only at hs
  refine ⟨?_, hs.perma, hs.standup⟩
  have := hs.login
  cases hl : (Node.peer _ i).loggedIn with
  | false => rfl
  | true => exact absurd (this hl) (by simp [Peer.reset])

end Bedrock.Node.Node
