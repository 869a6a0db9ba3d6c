import Verif.Lemmas.Node

namespace Bedrock.Node.Node
open Bedrock Bedrock.Node Bedrock.Node.Spec

/-! ### Where the lead and sync peers come from -/

theorem foldl_inv {α β : Type} {P : β → Prop} {f : β → α → β} : ∀ {l : List α} {b : β},
    P b → (∀ b, ∀ x ∈ l, P b → P (f b x)) → P (l.foldl f b)
  | [], _, h, _ => h
  | x :: l, b, h, hs =>
    foldl_inv (l := l) (hs b x (by simp) h) (fun b y hy => hs b y (by simp [hy]))

theorem currentLeader_some {ps : List Peer} {l : Nat} (h : currentLeader ps = some l) :
    ∃ p, ps[l]? = some p ∧ eligible p = true ∧ p.loggedIn = true ∧ leadish p.state = true := by
  have key : ∀ o, currentLeader ps = o → ∀ l, o = some l →
      ∃ p, ps[l]? = some p ∧ eligible p = true ∧ p.loggedIn = true ∧ leadish p.state = true := by
    intro o ho
    subst ho
    unfold currentLeader
    refine foldl_inv (P := fun o : Option Nat => ∀ l, o = some l →
      ∃ p, ps[l]? = some p ∧ eligible p = true ∧ p.loggedIn = true ∧ leadish p.state = true)
      (by simp) ?_
    intro b x hx hb l hl
    split at hl
    · rename_i hc
      cases hl
      refine ⟨x.1, ?_, ?_⟩
      · have := List.mem_zipIdx_iff_getElem?.mp hx; simpa using this
      · simp only [Bool.and_eq_true] at hc; exact ⟨hc.1.1, hc.1.2, hc.2⟩
    · exact hb l hl
  exact key _ rfl l h

theorem syncCandidate_ok {ps : List Peer} {commits : Nat} {b : Option (Nat × Peer) × Option Nat}
    {x : Peer × Nat} (hx : x ∈ ps.zipIdx)
    (hb : (∀ j q, b.1 = some (j, q) → ps[j]? = some q ∧ q.loggedIn = true ∧ q.forked = false ∧
        commits < q.commitCount) ∧
      (∀ j, b.2 = some j → ∃ q, ps[j]? = some q ∧ q.loggedIn = true ∧ q.forked = false ∧
        commits < q.commitCount)) :
    (∀ j q, (syncCandidate commits b x).1 = some (j, q) → ps[j]? = some q ∧ q.loggedIn = true ∧
        q.forked = false ∧ commits < q.commitCount) ∧
      (∀ j, (syncCandidate commits b x).2 = some j → ∃ q, ps[j]? = some q ∧ q.loggedIn = true ∧
        q.forked = false ∧ commits < q.commitCount) := by
  have hg : ps[x.2]? = some x.1 := by simpa using List.mem_zipIdx_iff_getElem?.mp hx
  unfold syncCandidate
  dsimp only
  split
  · exact hb
  · rename_i h1
    simp only [Bool.or_eq_true, Bool.not_eq_true', decide_eq_true_eq, not_or, Bool.not_eq_false] at h1
    have h1' : x.1.loggedIn = true := by simpa using h1.1
    have h2' : commits < x.1.commitCount := by have := h1.2; omega
    split
    · exact hb
    · rename_i h3
      have h3' : x.1.forked = false := by simpa using h3
      split
      · refine ⟨hb.1, ?_⟩
        intro j hj; cases hj; exact ⟨x.1, hg, h1', h3', h2'⟩
      · have new : ∀ j q, (some (x.2, x.1) : Option (Nat × Peer)) = some (j, q) → ps[j]? = some q ∧
            q.loggedIn = true ∧ q.forked = false ∧ commits < q.commitCount := by
          intro j q hj; cases hj; exact ⟨hg, h1', h3', h2'⟩
        split
        · exact ⟨new, hb.2⟩
        · rename_i j q he
          have old : ∀ j' q', (some (j, q) : Option (Nat × Peer)) = some (j', q') → ps[j']? = some q' ∧
              q'.loggedIn = true ∧ q'.forked = false ∧ commits < q'.commitCount := by
            intro j' q' hj; exact hb.1 j' q' (by rw [he]; exact hj)
          repeat' split
          · exact ⟨new, hb.2⟩
          · exact ⟨old, hb.2⟩
          · exact ⟨new, hb.2⟩
          · exact ⟨new, hb.2⟩
          · exact ⟨old, hb.2⟩

theorem updateSyncPeer_some {n : Node} {i : Nat} (h : (updateSyncPeer n).syncPeer = some i) :
    ∃ p, n.peers[i]? = some p ∧ p.loggedIn = true ∧ p.forked = false ∧ n.commits < p.commitCount := by
  unfold updateSyncPeer at h
  dsimp only at h
  have key := foldl_inv (P := fun b : Option (Nat × Peer) × Option Nat =>
      (∀ j q, b.1 = some (j, q) → n.peers[j]? = some q ∧ q.loggedIn = true ∧ q.forked = false ∧
        n.commits < q.commitCount) ∧
      (∀ j, b.2 = some j → ∃ q, n.peers[j]? = some q ∧ q.loggedIn = true ∧ q.forked = false ∧
        n.commits < q.commitCount)) (f := syncCandidate n.commits) (l := n.peers.zipIdx) (b := (none, none))
      (by simp) (fun b x hx hb => syncCandidate_ok hx hb)
  generalize n.peers.zipIdx.foldl (syncCandidate n.commits) (none, none) = r at h key
  obtain ⟨r1, r2⟩ := r
  cases r1 with
  | none => simp at h; exact key.2 i h
  | some jq =>
    obtain ⟨j, q⟩ := jq
    simp at h; subst h
    obtain ⟨h1, h2⟩ := key.1 j q rfl
    exact ⟨q, h1, h2⟩

/-! ### Well-formed nodes -/

/-- A node has a lead peer exactly in SUBSCRIBING and FOLLOWING, a sync peer exactly in
SYNCHRONIZING, and is never in the state UNKNOWN. -/
structure W (n : Node) : Prop where
  lead1 : n.state = .subscribing ∨ n.state = .following → ∃ l, n.leadPeer = some l ∧ l < n.peers.length
  lead0 : n.state ≠ .subscribing → n.state ≠ .following → n.leadPeer = none
  sync1 : n.state = .synchronizing → ∃ l, n.syncPeer = some l ∧ l < n.peers.length
  sync0 : n.state ≠ .synchronizing → n.syncPeer = none
  known : n.state ≠ .unknown

theorem W.frame {n m : Node} (h : W n) (h1 : m.state = n.state) (h2 : m.leadPeer = n.leadPeer)
    (h3 : m.syncPeer = n.syncPeer) (h4 : m.peers.length = n.peers.length) : W m := by
  obtain ⟨a, b, c, d, e⟩ := h
  exact ⟨by rw [h1, h2, h4]; exact a, by rw [h1, h2]; exact b, by rw [h1, h3, h4]; exact c,
    by rw [h1, h3]; exact d, by rw [h1]; exact e⟩

/-- Changing to a state without lead or sync peer. -/
theorem W.plain {m : Node} {new : NState} (hn : new.rank < NState.subscribing.rank)
    (hs : new ≠ .synchronizing) (hu : new ≠ .unknown)
    (h1 : m.syncPeer = none) (h2 : m.state = new → m.leadPeer = none) : W (m.changeState new) := by
  have hne : new ≠ .subscribing ∧ new ≠ .following := by
    constructor <;> rintro rfl <;> simp [NState.rank] at hn
  refine ⟨?_, ?_, ?_, ?_, ?_⟩
  · rw [changeState_state]; rintro (h | h)
    · exact absurd h hne.1
    · exact absurd h hne.2
  · intro _ _; rw [changeState_leadPeer]
    split
    · rename_i h; exact h2 h.symm
    · rw [if_pos (Or.inl hn)]
  · rw [changeState_state]; intro h; exact absurd h hs
  · intro _; rw [changeState_syncPeer]; exact h1
  · rw [changeState_state]; exact hu

theorem W.search {n m : Node} (h : W n) (h1 : m.syncPeer = none) (h2 : m.state = n.state)
    (h3 : n.state = .searching → m.leadPeer = none) : W (m.changeState .searching) :=
  W.plain (by decide) (by decide) (by decide) h1 (fun h' => h3 (h2.symm.trans h'))

theorem W.noSync {n : Node} (h : W n) {s : NState} (hs : n.state = s) (hne : s ≠ .synchronizing) :
    n.syncPeer = none := h.sync0 (by rw [hs]; exact hne)

theorem W.noLead {n : Node} (h : W n) {s : NState} (hs : n.state = s) (h1 : s ≠ .subscribing)
    (h2 : s ≠ .following) : n.leadPeer = none := h.lead0 (by rw [hs]; exact h1) (by rw [hs]; exact h2)

theorem updateSearching_w {n : Node} (h : W n) (hs : n.state = .searching) : W (updateSearching n) := by
  have h0 := h.noSync hs (by decide)
  have h1 := h.noLead hs (by decide) (by decide)
  unfold updateSearching
  split
  · exact h
  · split
    · exact W.plain (by decide) (by decide) (by decide) h0 (fun _ => h1)
    · dsimp only
      split
      · exact h
      · split
        · exact h
        · split
          · exact W.plain (by decide) (by decide) (by decide) h0 (fun _ => h1)
          · split
            · rename_i i hi
              obtain ⟨p, hp, _⟩ := updateSyncPeer_some hi
              refine ⟨by simp, ?_, ?_, by simp, by simp⟩
              · intro _ _
                rw [changeState_leadPeer]
                split
                · simpa using h1
                · rw [if_pos (Or.inl (by decide))]
              · intro _
                refine ⟨i, by simpa using hi, ?_⟩
                have := (List.getElem?_eq_some_iff.mp hp).1
                simpa using this
            · rename_i hi
              exact h.frame (by simp) (by simp) (by rw [hi, h0]) (by simp)

theorem updateSynchronizing_w {n : Node} (h : W n) (t : Bool) (hs : n.state = .synchronizing) :
    W (updateSynchronizing n t) := by
  obtain ⟨i, hi, _⟩ := h.sync1 hs
  unfold updateSynchronizing
  split
  · simp only [hi]
    exact h.search rfl (by simp) (by simp [hs])
  · exact h

theorem updateWaiting_w {n : Node} (h : W n) (hs : n.state = .waiting) : W (updateWaiting n) := by
  have h0 := h.noSync hs (by decide)
  have srch : W (changeState n .searching) := h.search h0 rfl (by simp [hs])
  unfold updateWaiting
  split
  · exact srch
  · dsimp only
    split
    · split
      · rename_i l hl
        split
        · obtain ⟨p, hp, _⟩ := currentLeader_some hl
          refine ⟨?_, by simp, by simp, by simp [h0], by simp⟩
          intro _
          refine ⟨l, ?_, ?_⟩
          · rw [changeState_leadPeer]
            rw [if_neg (by simp [hs]), if_neg (by simp [hs, NState.rank])]
            simp
          · have := (List.getElem?_eq_some_iff.mp hp).1
            simpa using this
        · split
          · exact srch
          · exact h
      · split
        · exact srch
        · split
          · exact W.plain (by decide) (by decide) (by decide) h0 (by simp [hs])
          · exact h
    · exact srch

theorem updateStandingUp_w {n : Node} (h : W n) (t : Bool) (hs : n.state = .standingUp) :
    W (updateStandingUp n t) := by
  have h0 := h.noSync hs (by decide)
  have srch : W (changeState n .searching) := h.search h0 rfl (by simp [hs])
  unfold updateStandingUp
  dsimp only
  repeat' split
  · exact srch
  · exact srch
  · exact W.plain (by decide) (by decide) (by decide) h0 (by simp [hs])
  · exact srch
  · exact h

theorem updateLeading_w {n : Node} (h : W n) (hs : n.state = .leading ∨ n.state = .standingDown) :
    W (updateLeading n) := by
  have h0 : n.syncPeer = none := h.sync0 (by rcases hs with hs | hs <;> simp [hs])
  have h1 : n.leadPeer = none := by
    rcases hs with hs | hs <;> exact h.noLead hs (by decide) (by decide)
  have down : ∀ m : Node, W m → m.syncPeer = none →
      W (if m.state = .standingDown then
        changeState (if m.shuttingDown then
          { m with out := m.out ++ (List.range m.peers.length).map .shutdownSocket } else m) .searching
        else m) := by
    intro m hm hm0
    split
    · rename_i hst
      refine W.plain (by decide) (by decide) (by decide) ?_ ?_
      · split <;> exact hm0
      · intro h'; exfalso; revert h'; split <;> simp [hst]
    · exact hm
  have hd : ∀ m : Node, m.syncPeer = none → m.leadPeer = none → W (changeState m .standingDown) := by
    intro m a b; exact W.plain (by decide) (by decide) (by decide) a (fun _ => b)
  unfold updateLeading
  dsimp only
  refine down _ ?_ ?_
  · repeat' split
    · exact hd _ (by simpa using h0) (by simpa using h1)
    · exact hd _ (by simpa using h0) (by simpa using h1)
    · exact hd _ (by simpa using h0) (by simpa using h1)
    · exact h.frame (by simp) (by simp) (by simp) (by simp)
    · exact h.frame (by simp) (by simp) (by simp) (by simp)
  · repeat' split
    all_goals simpa using h0

theorem updateSubscribing_w {n : Node} (h : W n) (t : Bool) (hs : n.state = .subscribing) :
    W (updateSubscribing n t) := by
  have h0 := h.noSync hs (by decide)
  obtain ⟨i, hi, _⟩ := h.lead1 (Or.inl hs)
  unfold updateSubscribing
  split
  · exact h.search h0 rfl (by simp [hs])
  · split
    · simp only [hi]
      exact h.search (by simpa using h0) (by simp) (by simp [hs])
    · exact h

theorem updateFollowing_w {n : Node} (h : W n) (b : Bool) (hs : n.state = .following) :
    W (updateFollowing n b) := by
  have h0 := h.noSync hs (by decide)
  obtain ⟨i, hi, _⟩ := h.lead1 (Or.inr hs)
  have srch : W (changeState n .searching) := h.search h0 rfl (by simp [hs])
  unfold updateFollowing
  split
  · exact srch
  · simp only [hi]
    split
    · exact srch
    · exact h

theorem update_w {n : Node} (h : W n) (t b : Bool) : W (update n t b) := by
  unfold update
  split
  · rename_i hs; exact absurd hs h.known
  · rename_i hs; exact updateSearching_w h hs
  · rename_i hs; exact updateSynchronizing_w h t hs
  · rename_i hs; exact updateWaiting_w h hs
  · rename_i hs; exact updateStandingUp_w h t hs
  · rename_i hs; exact updateLeading_w h (Or.inl hs)
  · rename_i hs; exact updateLeading_w h (Or.inr hs)
  · rename_i hs; exact updateSubscribing_w h t hs
  · rename_i hs; exact updateFollowing_w h b hs

theorem leadish_cases {s : NState} (h : leadish s = true) :
    s = .standingUp ∨ s = .leading ∨ s = .standingDown := by
  cases s <;> simp_all [leadish]

theorem W.leadish {n : Node} (h : W n) (hl : Node.leadish n.state = true) :
    n.syncPeer = none ∧ n.leadPeer = none := by
  rcases leadish_cases hl with hs | hs | hs <;>
    exact ⟨h.noSync hs (by decide), h.noLead hs (by decide) (by decide)⟩

theorem sendStandupResponse_w {n : Node} (h : W n) (i : Nat) (scc : Option Int) :
    W (sendStandupResponse n i scc) := by
  unfold sendStandupResponse
  dsimp only
  split
  · exact h.frame (by simp) (by simp) (by simp) (by simp)
  · split
    · rename_i hl
      obtain ⟨h0, h1⟩ := h.leadish hl
      split
      · refine W.frame (n := if n.state = .standingUp then changeState n .searching
            else if n.state = .leading then changeState n .standingDown else n) ?_
            (by simp) (by simp) (by simp) (by simp)
        repeat' split
        · exact W.plain (by decide) (by decide) (by decide) h0 (fun _ => h1)
        · exact W.plain (by decide) (by decide) (by decide) h0 (fun _ => h1)
        · exact h
      · refine W.frame (n := if majoritySubscribed n then n else changeState (reconnectAll n) .searching)
            ?_ (by simp) (by simp) (by simp) (by simp)
        split
        · exact h
        · exact W.plain (by decide) (by decide) (by decide) (by simpa using h0) (fun _ => by simpa using h1)
    · exact h.frame (by simp) (by simp) (by simp) (by simp)

theorem loginRecord_w {n : Node} (h : W n) (i : Nat) (prio : Int) (st : NState) (ver : Bytes) :
    W (loginRecord n i prio st ver) := by
  unfold loginRecord
  dsimp only
  repeat' split
  all_goals exact h.frame (by simp) (by simp) (by simp) (by simp)

theorem loginCheck_w {n : Node} (h : W n) (i : Nat) : W (loginCheck n i) := by
  unfold loginCheck
  split
  all_goals exact h.frame (by simp) (by simp) (by simp) (by simp)

theorem onLogin_w {n : Node} (h : W n) (i : Nat) (p : Option Int) (s : Option NState) (v : Option Bytes)
    (scc : Option Int) : W (onLogin n i p s v scc) := by
  unfold onLogin
  dsimp only
  repeat' split
  · exact h.frame (by simp) (by simp) (by simp) (by simp)
  · exact h.frame (by simp) (by simp) (by simp) (by simp)
  · exact loginCheck_w (loginRecord_w h ..) i
  · exact sendStandupResponse_w (loginCheck_w (loginRecord_w h ..) i) i scc
  · exact loginCheck_w (loginRecord_w h ..) i
  · exact h.frame (by simp) (by simp) (by simp) (by simp)

theorem onState_w {n : Node} (h : W n) (i : Nat) (s : Option NState) (p : Option Int) (scc : Option Int) :
    W (onState n i s p scc) := by
  unfold onState
  dsimp only
  repeat' split
  · exact h.frame (by simp) (by simp) (by simp) (by simp)
  · exact h.frame (by simp) (by simp) (by simp) (by simp)
  · exact sendStandupResponse_w (h.frame (by simp) (by simp) (by simp) (by simp)) i scc
  · exact h.frame (by simp) (by simp) (by simp) (by simp)
  · exact h.frame (by simp) (by simp) (by simp) (by simp)

theorem onStandupResponse_w {n : Node} (h : W n) (i : Nat) (scc : Option Int) (r : Option Bool) :
    W (onStandupResponse n i scc r) := by
  unfold onStandupResponse
  repeat' split
  all_goals exact h.frame (by simp) (by simp) (by simp) (by simp)

theorem W.thenFail {n : Node} (h : W n) (i : Nat) : W (fail n i) :=
  h.frame (by simp) (by simp) (by simp) (by simp)

theorem onSynchronizeResponse_w {n : Node} (h : W n) (i : Nat) (hm : Bool) (o : DbOutcome) :
    W (onSynchronizeResponse n i hm o) := by
  unfold onSynchronizeResponse
  dsimp only
  split
  · exact h.thenFail i
  · rename_i hs
    have hs : n.state = .synchronizing := by simpa using hs
    have h1 := h.noLead hs (by decide) (by decide)
    split
    · split
      · exact h.frame (by simp) (by simp) (by simp) (by simp)
      · exact (h.frame (by simp) (by simp) (by simp) (by simp)).thenFail i
    · split
      · exact h.thenFail i
      · split
        · exact (h.search rfl (by simp) (by simp [hs])).thenFail i
        · split
          · exact W.plain (by decide) (by decide) (by decide) rfl (by simp [hs])
          · split
            · exact h.search rfl (by simp) (by simp [hs])
            · split
              · rename_i j hj
                obtain ⟨p, hp, _⟩ := updateSyncPeer_some hj
                refine ⟨by simp [hs], by simp [h1], ?_, by simp [hs], by simp [hs]⟩
                intro _
                refine ⟨j, by simpa using hj, ?_⟩
                have := (List.getElem?_eq_some_iff.mp hp).1
                simpa using this
              · rename_i hj
                exact h.search hj (by simp) (by simp [hs])

theorem onSubscriptionApproved_w {n : Node} (h : W n) (i : Nat) (o : DbOutcome) :
    W (onSubscriptionApproved n i o) := by
  unfold onSubscriptionApproved
  dsimp only
  split
  · exact h.thenFail i
  · rename_i hs
    have hs : n.state = .subscribing := by simpa using hs
    have h0 := h.noSync hs (by decide)
    obtain ⟨l, hl, hlt⟩ := h.lead1 (Or.inl hs)
    split
    · exact h.thenFail i
    · split
      · refine ⟨?_, by simp, by simp, by simp [h0], by simp⟩
        intro _
        refine ⟨l, ?_, by simpa using hlt⟩
        rw [changeState_leadPeer, if_neg (by simp [hs]), if_neg (by simp [hs, NState.rank])]
        exact hl
      · exact (h.search (by simpa using h0) (by simp) (by simp [hs])).thenFail i

theorem dropLead_w {n : Node} (h : W n) (i : Nat) :
    W (if n.leadPeer = some i then changeState { n with leadPeer := none } .searching else n) := by
  split
  · rename_i hl
    have h0 : n.syncPeer = none := by
      apply h.sync0
      intro hs
      have := h.noLead hs (by decide) (by decide)
      simp [hl] at this
    exact h.search h0 rfl (fun _ => rfl)
  · exact h

theorem onForked_w {n : Node} (h : W n) (i : Nat) : W (onForked n i) := by
  unfold onForked
  dsimp only
  have hm : W (n.setPeer i fun p => { p with forked := true }).dieIfForked :=
    h.frame (by simp) (by simp) (by simp) (by simp)
  split
  · exact hm
  · have hk := dropLead_w hm i
    generalize (if (n.setPeer i fun p => { p with forked := true }).dieIfForked.leadPeer = some i then
      changeState { (n.setPeer i fun p => { p with forked := true }).dieIfForked with leadPeer := none }
        .searching else (n.setPeer i fun p => { p with forked := true }).dieIfForked) = k at hk
    split
    · rename_i hsy
      split
      · rename_i hs
        exact hk.search rfl rfl (fun hs' => by simp_all)
      · rename_i hs
        exact absurd (hk.sync0 hs) (by simp [hsy])
    · exact hk

theorem onLoggedIn_w {n : Node} (h : W n) (i : Nat) (b : Body) (o : DbOutcome) : W (onLoggedIn n i b o) := by
  unfold onLoggedIn
  split
  · exact onState_w h ..
  · exact onStandupResponse_w h ..
  · repeat' split
    all_goals exact h.frame (by simp) (by simp) (by simp) (by simp)
  · exact onSynchronizeResponse_w h ..
  · repeat' split
    all_goals exact h.frame (by simp) (by simp) (by simp) (by simp)
  · exact onSubscriptionApproved_w h ..
  · exact onForked_w h ..
  all_goals exact h

theorem dispatch_w {n : Node} (h : W n) (i : Nat) (b : Body) (o : DbOutcome) : W (dispatch n i b o) := by
  unfold dispatch
  split
  · exact onLogin_w h ..
  · split
    · exact onLoggedIn_w h ..
    · exact h.thenFail i

theorem onMessage_w {n : Node} (h : W n) (i : Nat) (m : Msg) (o : DbOutcome) : W (onMessage n i m o) := by
  unfold onMessage
  split
  · exact h
  · split
    · exact dispatch_w (h.frame (by simp) (by simp) (by simp) (by simp)) ..
    · exact h.thenFail i

theorem onDisconnect_w {n : Node} (h : W n) (i : Nat) : W (onDisconnect n i) := by
  unfold onDisconnect
  dsimp only
  have hm : W (n.setPeer i Peer.reset) := h.frame (by simp) (by simp) (by simp) (by simp)
  have hk := dropLead_w hm i
  generalize (if (n.setPeer i Peer.reset).leadPeer = some i then
      changeState { n.setPeer i Peer.reset with leadPeer := none } .searching
      else n.setPeer i Peer.reset) = k at hk
  have hj : W (if k.syncPeer = some i then changeState { k with syncPeer := none } .searching else k) := by
    split
    · rename_i hsy
      refine hk.search rfl rfl (fun hs => ?_)
      exact absurd (hk.noSync hs (by decide)) (by simp [hsy])
    · exact hk
  generalize (if k.syncPeer = some i then changeState { k with syncPeer := none } .searching else k) = j
    at hj
  split
  · rename_i hl
    split
    · obtain ⟨h0, h1⟩ := hj.leadish hl
      exact hj.search h0 rfl (fun _ => h1)
    · exact hj
  · exact hj

theorem setPriority_w {n : Node} (h : W n) (p : Int) : W (setPriority n p).1 := by
  unfold setPriority
  dsimp only
  repeat' split
  · exact h
  · exact h
  · exact h
  · exact h
  · exact h.frame rfl rfl rfl rfl
  · rename_i hs
    have hs : n.state = .leading := by simpa using hs.1
    exact W.plain (by decide) (by decide) (by decide) (by simpa using h.noSync hs (by decide)) (by simp [hs])
  · rename_i hs _ _ _ _
    have hs : n.state = .following := by simpa using hs
    exact h.search (by simpa using h.noSync hs (by decide)) (by simp) (by simp [hs])
  · exact h.frame (by simp) (by simp) (by simp) (by simp)
  · exact h.frame (by simp) (by simp) (by simp) (by simp)
  · exact h.frame (by simp) (by simp) (by simp) (by simp)

theorem step_w {n : Node} (h : W n) (ev : Ev) : W (step n ev) := by
  unfold step
  split
  · exact h
  · split
    · exact update_w h ..
    · split
      · exact onMessage_w h ..
      · exact h
    · split
      · exact onDisconnect_w h ..
      · exact h
    · exact setPriority_w h ..
    · unfold setShutdownPriority; dsimp only; split
      · exact h.frame rfl rfl rfl rfl
      · exact h.frame rfl rfl rfl rfl
    · exact h.frame rfl rfl rfl rfl
    · exact h.frame rfl rfl rfl rfl

theorem run_w : ∀ (evs : List Ev) {n : Node}, W n → W (run n evs)
  | [], _, h => h
  | e :: evs, _, h => run_w evs (step_w h e)

theorem init_w (ps : List Peer) (c : Int) (v : Bytes) (k : Nat) (j : Nat → Bytes) :
    W (init ps c v k j) := W.plain (by decide) (by decide) (by decide) rfl (fun _ => rfl)

theorem init_ce (ps : List Peer) (c : Int) (v : Bytes) (k : Nat) (j : Nat → Bytes) :
    CE (init ps c v k j) := by
  constructor <;> rfl

/-! ### Only a fork kills -/

/-- At least half of the cluster is forked from this node. -/
def Outvoted (n : Node) : Prop := (clusterSize n + 1) / 2 ≤ forkedCount n

theorem dieIfForked_dead {n : Node} (h : n.dead = false) :
    (dieIfForked n).dead = true ↔ Outvoted n := by
  have e : dieIfForked n = if (clusterSize n + 1) / 2 ≤ forkedCount n then { n with dead := true } else n :=
    rfl
  rw [e]
  unfold Outvoted
  by_cases hc : (clusterSize n + 1) / 2 ≤ forkedCount n
  · rw [if_pos hc]; simp [hc]
  · rw [if_neg hc]; simp [hc, h]

theorem outvoted_congr {n m : Node} (h1 : m.peers = n.peers) (h2 : m.configured = n.configured) :
    Outvoted m ↔ Outvoted n := by
  unfold Outvoted clusterSize forkedCount fullCount; rw [h1, h2]

theorem dieIfForked_outvoted {n : Node} (h : n.dead = false) (hd : (dieIfForked n).dead = true) :
    Outvoted (dieIfForked n) :=
  (outvoted_congr (by simp) (by simp)).mpr ((dieIfForked_dead h).mp hd)

theorem update_dead {n : Node} (h : W n) (t b : Bool) : (update n t b).dead = n.dead := by
  unfold update
  split
  · rename_i hs; exact absurd hs h.known
  · unfold updateSearching; dsimp only; repeat' split
    all_goals simp
  · rename_i hs
    obtain ⟨i, hi, _⟩ := h.sync1 hs
    unfold updateSynchronizing; simp only [hi]; split <;> simp
  · unfold updateWaiting; dsimp only; repeat' split
    all_goals simp
  · unfold updateStandingUp; dsimp only; repeat' split
    all_goals simp
  · unfold updateLeading; dsimp only; repeat' split
    all_goals simp
  · unfold updateLeading; dsimp only; repeat' split
    all_goals simp
  · rename_i hs
    obtain ⟨i, hi, _⟩ := h.lead1 (Or.inl hs)
    unfold updateSubscribing; simp only [hi]; repeat' split
    all_goals simp
  · rename_i hs
    obtain ⟨i, hi, _⟩ := h.lead1 (Or.inr hs)
    unfold updateFollowing; simp only [hi]; repeat' split
    all_goals simp

@[simp] theorem sendStandupResponse_dead (n : Node) (i : Nat) (scc : Option Int) :
    (sendStandupResponse n i scc).dead = n.dead := by
  unfold sendStandupResponse; dsimp only; repeat' split
  all_goals simp

@[simp] theorem loginRecord_dead (n : Node) (i : Nat) (prio : Int) (st : NState) (ver : Bytes) :
    (loginRecord n i prio st ver).dead = n.dead := by
  unfold loginRecord; dsimp only; repeat' split
  all_goals simp

theorem loginCheck_outvoted {n : Node} {i : Nat} (h : n.dead = false) (hd : (loginCheck n i).dead = true) :
    Outvoted (loginCheck n i) := by
  unfold loginCheck at hd ⊢
  split at hd
  · rename_i hc
    rw [if_pos hc]; exact dieIfForked_outvoted (by simpa using h) hd
  · simp [h] at hd

theorem onLogin_outvoted {n : Node} {i : Nat} {p : Option Int} {s : Option NState} {v : Option Bytes}
    {scc : Option Int} (h : n.dead = false) (hd : (onLogin n i p s v scc).dead = true) :
    Outvoted (onLogin n i p s v scc) := by
  unfold onLogin at hd ⊢
  dsimp only at hd ⊢
  split at hd
  · simp [h] at hd
  · rename_i hl
    rw [if_neg hl]
    split at hd
    · split at hd
      · simp [h] at hd
      · rename_i hne
        simp only [if_neg hne]
        split at hd
        · rename_i hdead
          rw [if_pos hdead]; exact loginCheck_outvoted (by simpa using h) hdead
        · rename_i hdead
          exfalso
          split at hd
          · rw [sendStandupResponse_dead] at hd; exact hdead hd
          · exact hdead hd
    · simp [h] at hd

theorem onSynchronizeResponse_outvoted {n : Node} {i : Nat} {hm : Bool} {o : DbOutcome}
    (h : n.dead = false) (hd : (onSynchronizeResponse n i hm o).dead = true) :
    Outvoted (onSynchronizeResponse n i hm o) := by
  unfold onSynchronizeResponse at hd ⊢
  dsimp only at hd ⊢
  split at hd
  · simp [h] at hd
  · rename_i h1
    rw [if_neg h1]
    split at hd
    · rename_i h2
      rw [if_pos h2]
      split at hd
      · rename_i h3
        rw [if_pos h3]; exact dieIfForked_outvoted (by simpa using h) h3
      · rename_i h3
        exfalso
        simp only [fail_dead] at hd
        exact h3 hd
    · exfalso
      revert hd
      repeat' split
      all_goals simp [h]

theorem onForked_outvoted {n : Node} {i : Nat} (h : n.dead = false) (hd : (onForked n i).dead = true) :
    Outvoted (onForked n i) := by
  unfold onForked at hd ⊢
  dsimp only at hd ⊢
  split at hd
  · rename_i h3
    rw [if_pos h3]; exact dieIfForked_outvoted (by simpa using h) h3
  · rename_i h3
    exfalso
    revert hd h3
    generalize (n.setPeer i fun p => { p with forked := true }).dieIfForked = k
    repeat' split
    all_goals simp_all

theorem onLoggedIn_outvoted {n : Node} {i : Nat} {b : Body} {o : DbOutcome} (h : n.dead = false)
    (hd : (onLoggedIn n i b o).dead = true) : Outvoted (onLoggedIn n i b o) := by
  cases b with
  | synchronizeResponse hm => exact onSynchronizeResponse_outvoted h hd
  | forked => exact onForked_outvoted h hd
  | _ =>
    exfalso
    revert hd
    simp only [onLoggedIn, onState, onStandupResponse, onSubscriptionApproved]
    repeat' split
    all_goals simp [h]

theorem dispatch_outvoted {n : Node} {i : Nat} {b : Body} {o : DbOutcome} (h : n.dead = false)
    (hd : (dispatch n i b o).dead = true) : Outvoted (dispatch n i b o) := by
  have other : (if (n.peer i).loggedIn then onLoggedIn n i b o else fail n i).dead = true →
      Outvoted (if (n.peer i).loggedIn then onLoggedIn n i b o else fail n i) := by
    intro hd
    split at hd
    · rename_i hl; rw [if_pos hl]; exact onLoggedIn_outvoted h hd
    · simp [h] at hd
  cases b with
  | login p s v c => exact onLogin_outvoted h hd
  | _ => exact other hd

theorem onMessage_outvoted {n : Node} {i : Nat} {m : Msg} {o : DbOutcome} (h : n.dead = false)
    (hd : (onMessage n i m o).dead = true) : Outvoted (onMessage n i m o) := by
  obtain ⟨c, hh, body⟩ := m
  unfold onMessage at hd ⊢
  split at hd
  · simp [h] at hd
  · rename_i hf
    rw [if_neg hf]
    cases c <;> cases hh
    · simp [h] at hd
    · simp [h] at hd
    · simp [h] at hd
    · exact dispatch_outvoted (by simpa using h) hd

theorem onDisconnect_dead (n : Node) (i : Nat) : (onDisconnect n i).dead = n.dead := by
  unfold onDisconnect; dsimp only; repeat' split
  all_goals simp

theorem setPriority_dead (n : Node) (p : Int) : (setPriority n p).1.dead = n.dead := by
  unfold setPriority; dsimp only; repeat' split
  all_goals simp

theorem step_outvoted {n : Node} {ev : Ev} (hw : W n) (h : n.dead = true → Outvoted n)
    (hd : (step n ev).dead = true) : Outvoted (step n ev) := by
  cases hn : n.dead with
  | true =>
    have : step n ev = n := by unfold step; rw [if_pos hn]
    rw [this]; exact h hn
  | false =>
    unfold step at hd ⊢
    simp only [hn, Bool.false_eq_true, if_false] at hd ⊢
    cases ev with
    | update t b => simp [update_dead hw, hn] at hd
    | message i m o =>
      dsimp only at hd ⊢
      split at hd
      · rename_i hi; rw [if_pos hi]; exact onMessage_outvoted hn hd
      · simp [hn] at hd
    | disconnect i =>
      dsimp only at hd
      split at hd
      · simp [onDisconnect_dead, hn] at hd
      · simp [hn] at hd
    | setPriority p => simp [setPriority_dead, hn] at hd
    | setShutdownPriority =>
      exfalso; revert hd
      dsimp only
      unfold setShutdownPriority; dsimp only; split <;> simp [hn]
    | beginShutdown => simp [hn] at hd
    | database c j => simp [hn] at hd

theorem run_outvoted : ∀ (evs : List Ev) {n : Node}, W n → (n.dead = true → Outvoted n) →
    (run n evs).dead = true → Outvoted (run n evs)
  | [], _, _, h, hd => h hd
  | e :: evs, _, hw, h, hd => run_outvoted evs (step_w hw e) (fun h' => step_outvoted hw h h') hd

end Bedrock.Node.Node
