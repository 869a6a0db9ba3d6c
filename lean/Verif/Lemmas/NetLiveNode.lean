import Verif.Lemmas.NetElect

/-!
# One node during an undisturbed election
-/

namespace Bedrock.Net
open Bedrock Bedrock.Node Bedrock.Node.Node Bedrock.Node.Props

theorem countP_getD (q : Peer → Bool) : ∀ ps : List Peer, (List.range ps.length).countP (fun k => q (ps.getD k {})) = ps.countP q
  | [] => rfl
  | p :: ps => by
    rw [List.length_cons, List.range_succ_eq_map, List.countP_cons, List.countP_cons, List.countP_map, ← countP_getD q ps]
    rfl

theorem countP_range_congr {f g : Nat → Bool} {m : Nat} (h : ∀ k, k < m → f k = g k) :
    (List.range m).countP f = (List.range m).countP g :=
  List.countP_congr fun k hk => by rw [h k (List.mem_range.1 hk)]

/-- What the entry of a member says. -/
structure Known (C : Nat) (h : Bytes) (pr : Int) (p : Peer) : Prop where
  login : p.loggedIn = true
  forked : p.forked = false
  perma : p.permaFollower = false
  prio : p.priority = pr
  nz : pr ≠ 0
  commits : p.commitCount = C
  hash : p.hash = h

/-- What the entry of another node says. -/
structure Away (p : Peer) : Prop where
  login : p.loggedIn = false
  perma : p.permaFollower = false
  state : p.state = .searching

/-- A member; `K` are the entries of the others, `pr` their priorities. -/
structure Member (K : Nat → Bool) (pr : Nat → Int) (C : Nat) (h : Bytes) (n : Node) : Prop where
  dead : n.dead = false
  shut : n.shuttingDown = false
  waited : n.haveBeenWaiting = true
  blocked : n.blocked = false
  commits : n.commits = C
  journal : n.journal C = h
  out : n.out = []
  inn : ∀ k, k < n.peers.length → K k = true → Known C h (pr k) (n.peer k)
  away : ∀ k, k < n.peers.length → K k = false → Away (n.peer k)
  half : n.peers.length ≤ (List.range n.peers.length).countP K * 2
  other : ∃ k, k < n.peers.length ∧ K k = true

/-- `_changeState` to a state other than SEARCHING. -/
def turned (n : Node) (s : NState) : Node :=
  { n with
    state := s
    stateChangeCount := n.stateChangeCount + 1
    hist := n.hist ++ [s]
    commitEnabled := true
    leadPeer := if s.rank < 7 then none else n.leadPeer
    out := n.out ++ [.setCommitEnabled true, .sendAll (.state s n.priority (n.stateChangeCount + 1))] }

theorem changeState_turned {n : Node} {s : NState} (h1 : s ≠ n.state) (h2 : n.state ≠ .following)
    (h3 : inCharge n.state = false ∨ inCharge s = true) (h4 : s ≠ .searching) (h5 : n.haveBeenWaiting = true) :
    changeState n s = turned n s := by
  have e3 : (inCharge n.state && !inCharge s) = false := by
    rcases h3 with h | h <;> rw [h] <;> simp
  have e7 : NState.subscribing.rank = 7 := rfl
  unfold changeState turned
  rw [if_neg h1]
  simp only [h2, e3, h4, h5, if_false, if_true, Bool.false_eq_true, ne_eq, not_false_eq_true, Bool.true_eq_false, and_false, e7]
  by_cases hr : s.rank < 7
  · simp only [hr, h5, if_true, if_false, Bool.true_eq_false, and_false, List.append_assoc, List.cons_append, List.nil_append]
  · simp only [hr, h5, if_false, Bool.true_eq_false, and_false, List.append_assoc, List.cons_append, List.nil_append]

section
variable {K : Nat → Bool} {pr : Nat → Int} {C : Nat} {h : Bytes} {n : Node}

theorem Member.full_all (m : Member K pr C h n) {k : Nat} (hk : k < n.peers.length) : (n.peer k).permaFollower = false := by
  cases e : K k with
  | true => exact (m.inn k hk e).perma
  | false => exact (m.away k hk e).perma

theorem Member.loggedIn_iff (m : Member K pr C h n) {k : Nat} (hk : k < n.peers.length) : (n.peer k).loggedIn = K k := by
  cases e : K k with
  | true => exact (m.inn k hk e).login
  | false => exact (m.away k hk e).login

theorem Member.numFull (m : Member K pr C h n) : n.peers.countP full = n.peers.length := by
  rw [← countP_getD, countP_range_congr (g := fun _ => true)]
  · simp
  · intro k hk
    show (!(n.peer k).permaFollower) = true
    rw [m.full_all hk]; rfl

theorem Member.numIn (m : Member K pr C h n) :
    n.peers.countP (fun p => full p && p.loggedIn) = (List.range n.peers.length).countP K := by
  rw [← countP_getD, countP_range_congr (g := K)]
  intro k hk
  show (!(n.peer k).permaFollower && (n.peer k).loggedIn) = K k
  rw [m.full_all hk, m.loggedIn_iff hk]; simp

/-- The members among the peers. -/
theorem Member.of_mem (m : Member K pr C h n) {p : Peer} (hp : p ∈ n.peers) (hl : p.loggedIn = true) :
    ∃ k, k < n.peers.length ∧ K k = true ∧ p = n.peer k := by
  obtain ⟨k, hk, e⟩ := List.mem_iff_getElem.1 hp
  have hpk : p = n.peer k := by
    unfold peer
    rw [List.getD_eq_getElem?_getD, List.getElem?_eq_getElem hk, ← e]; rfl
  refine ⟨k, hk, ?_, hpk⟩
  rw [← m.loggedIn_iff hk, ← hpk]; exact hl

theorem peer_mem {n : Node} {k : Nat} (hk : k < n.peers.length) : n.peer k ∈ n.peers := by
  unfold peer
  rw [List.getD_eq_getElem?_getD, List.getElem?_eq_getElem hk]
  exact List.getElem_mem hk

theorem freshest_some : ∀ {ps : List Peer}, ps ≠ [] → ∃ f, freshest ps = some f := by
  intro ps hp
  unfold freshest
  have key : ∀ (ps : List Peer) (q : Peer), ∃ f, ps.foldl (fun acc p => match acc with
    | none => some p
    | some q => if q.commitCount < p.commitCount then some p else some q) (some q) = some f := by
    intro ps
    induction ps with
    | nil => intro q; exact ⟨q, rfl⟩
    | cons p ps ih =>
      intro q
      rw [List.foldl_cons]
      dsimp only
      split <;> exact ih _
  cases ps with
  | nil => exact absurd rfl hp
  | cons p ps => exact key ps p

theorem highest_some : ∀ {ps : List Peer}, ps ≠ [] → ∃ f, highest ps = some f := by
  intro ps hp
  unfold highest
  have key : ∀ (ps : List Peer) (q : Peer), ∃ f, ps.foldl (fun acc p => match acc with
    | none => some p
    | some q => if q.priority < p.priority then some p else some q) (some q) = some f := by
    intro ps
    induction ps with
    | nil => intro q; exact ⟨q, rfl⟩
    | cons p ps ih =>
      intro q
      rw [List.foldl_cons]
      dsimp only
      split <;> exact ih _
  cases ps with
  | nil => exact absurd rfl hp
  | cons p ps => exact key ps p

theorem Member.searching (m : Member K pr C h n) (hs : n.state = .searching) (b : Bool) :
    Node.step n (.update false b) = turned n .waiting := by
  obtain ⟨k0, hk0, hK0⟩ := m.other
  have hmem : n.peer k0 ∈ n.peers.filter (fun p => p.loggedIn && !p.forked) := by
    rw [List.mem_filter]
    refine ⟨peer_mem hk0, ?_⟩
    rw [(m.inn k0 hk0 hK0).login, (m.inn k0 hk0 hK0).forked]; rfl
  obtain ⟨f, hf⟩ := freshest_some (List.ne_nil_of_mem hmem)
  have hfm := (freshest_mem hf).1
  obtain ⟨hf1, hf2⟩ := List.mem_filter.1 hfm
  have hfl : f.loggedIn = true := by revert hf2; cases f.loggedIn <;> simp
  obtain ⟨k, hk, hK, e⟩ := m.of_mem hf1 hfl
  have hne : n.peers.isEmpty = false := by
    cases hp : n.peers with
    | nil => rw [hp] at hk; exact absurd hk (Nat.not_lt_zero _)
    | cons _ _ => rfl
  unfold Node.step
  rw [m.dead]
  show update n false b = _
  unfold update
  rw [hs]
  show updateSearching n = _
  unfold updateSearching
  rw [m.shut, hne]
  simp only [Bool.false_eq_true, if_false]
  rw [m.numFull, m.numIn, if_neg (Nat.not_lt.2 m.half), hf]
  dsimp only
  rw [if_pos (by rw [e, (m.inn k hk hK).commits, m.commits]; exact Nat.le_refl _)]
  exact changeState_turned (by rw [hs]; decide) (by rw [hs]; decide) (by rw [hs]; exact Or.inl rfl) (by decide) m.waited

theorem Member.cand (m : Member K pr C h n) : ∃ hi fr, highest (n.peers.filter (fun p => eligible p && p.loggedIn)) = some hi ∧
    freshest (n.peers.filter (fun p => eligible p && p.loggedIn)) = some fr ∧ fr.commitCount = C ∧
    (∃ k, k < n.peers.length ∧ K k = true ∧ hi.priority = pr k) ∧
    (∀ k, k < n.peers.length → K k = true → pr k ≤ hi.priority) := by
  have hin : ∀ k, k < n.peers.length → K k = true → n.peer k ∈ n.peers.filter (fun p => eligible p && p.loggedIn) := by
    intro k hk hK
    rw [List.mem_filter]
    refine ⟨peer_mem hk, ?_⟩
    unfold eligible full
    rw [(m.inn k hk hK).login, (m.inn k hk hK).forked, (m.inn k hk hK).perma]; rfl
  have hout : ∀ p ∈ n.peers.filter (fun p => eligible p && p.loggedIn), ∃ k, k < n.peers.length ∧ K k = true ∧ p = n.peer k := by
    intro p hp
    obtain ⟨h1, h2⟩ := List.mem_filter.1 hp
    refine m.of_mem h1 ?_
    revert h2; cases p.loggedIn <;> simp
  obtain ⟨k0, hk0, hK0⟩ := m.other
  have hne := List.ne_nil_of_mem (hin k0 hk0 hK0)
  obtain ⟨hi, hhi⟩ := highest_some hne
  obtain ⟨fr, hfr⟩ := freshest_some hne
  obtain ⟨k, hk, hK, e⟩ := hout hi (highest_mem hhi).1
  obtain ⟨k', hk', hK', e'⟩ := hout fr (freshest_mem hfr).1
  refine ⟨hi, fr, hhi, hfr, ?_, ⟨k, hk, hK, ?_⟩, ?_⟩
  · rw [e']; exact (m.inn k' hk' hK').commits
  · rw [e]; exact (m.inn k hk hK).prio
  · intro j hj hKj
    have := (highest_mem hhi).2 _ (hin j hj hKj)
    rw [(m.inn j hj hKj).prio] at this; exact this

theorem Member.numEligible (m : Member K pr C h n) : n.peers.countP eligible ≤ n.peers.length := List.countP_le_length

theorem Member.numCand (m : Member K pr C h n) :
    (n.peers.filter (fun p => eligible p && p.loggedIn)).length = (List.range n.peers.length).countP K := by
  rw [← List.countP_eq_length_filter, ← countP_getD, countP_range_congr (g := K)]
  intro k hk
  show (eligible (n.peer k) && (n.peer k).loggedIn) = K k
  cases e : K k with
  | true =>
    unfold eligible full
    rw [(m.inn k hk e).login, (m.inn k hk e).forked, (m.inn k hk e).perma]; rfl
  | false => rw [(m.away k hk e).login]; simp

theorem Member.leader_of (m : Member K pr C h n) {l : Nat} (hl : currentLeader n.peers = some l) :
    l < n.peers.length ∧ K l = true ∧ leadish (n.peer l).state = true := by
  obtain ⟨p, hp, _, h2, h3⟩ := currentLeader_some hl
  have hlt := (List.getElem?_eq_some_iff.1 hp).1
  have e : n.peer l = p := by
    unfold peer
    rw [List.getD_eq_getElem?_getD, hp]; rfl
  refine ⟨hlt, ?_, by rw [e]; exact h3⟩
  rw [← m.loggedIn_iff hlt, e]; exact h2

theorem Member.waiting_low (m : Member K pr C h n) (hs : n.state = .waiting) {t : Nat} (ht : t < n.peers.length) (hK : K t = true)
    (hp : n.priority < pr t) (ho : ∀ k, k < n.peers.length → K k = true → k ≠ t → leadish (n.peer k).state = false) (b : Bool) :
    ((n.peer t).state = .leading ∧ Node.step n (.update false b) =
      turned { n with leadPeer := some t, out := [.send t .subscribe] } .subscribing) ∨
    ((n.peer t).state ≠ .leading ∧ Node.step n (.update false b) = n) := by
  obtain ⟨hi, fr, h1, h2, h3, _, h5⟩ := m.cand
  have hpri : n.priority < hi.priority := Int.lt_of_lt_of_le hp (h5 t ht hK)
  have hnc : ¬ n.commits < fr.commitCount := by rw [h3, m.commits]; exact Nat.lt_irrefl _
  have hstep : Node.step n (.update false b) = updateWaiting n := by
    unfold Node.step
    rw [m.dead]
    show update n false b = _
    unfold update
    rw [hs]
  rw [hstep]
  unfold updateWaiting
  rw [if_neg (by rw [m.shut]; decide)]
  simp only [h1, h2]
  by_cases hst : (n.peer t).state = .leading
  · left
    refine ⟨hst, ?_⟩
    cases hc : currentLeader n.peers with
    | none =>
      have := currentLeader_none hc ht
      change (eligible (n.peer t) && (n.peer t).loggedIn && leadish (n.peer t).state) = false at this
      unfold eligible full at this
      rw [(m.inn t ht hK).login, (m.inn t ht hK).forked, (m.inn t ht hK).perma, hst] at this
      cases this
    | some l =>
      obtain ⟨l1, l2, l3⟩ := m.leader_of hc
      have hlt : l = t := by
        apply Classical.byContradiction
        intro hne
        rw [ho l l1 l2 hne] at l3; cases l3
      subst hlt
      dsimp only
      rw [if_pos ⟨hpri, hst⟩]
      have hsend : Node.send { n with leadPeer := some l } l .subscribe = { n with leadPeer := some l, out := [.send l .subscribe] } := by
        unfold Node.send
        rw [show (Node.peer { n with leadPeer := some l } l).forked = false from (m.inn l ht hK).forked]
        simp [emit, m.out]
      rw [hsend]
      exact changeState_turned (by show _ ≠ n.state; rw [hs]; decide) (by show n.state ≠ _; rw [hs]; decide)
        (Or.inl (by show inCharge n.state = false; rw [hs]; rfl)) (by decide) m.waited
  · right
    refine ⟨hst, ?_⟩
    cases hc : currentLeader n.peers with
    | none =>
      dsimp only
      rw [if_neg hnc, if_neg (fun e => absurd e.2.2 (Int.not_lt.2 (Int.le_of_lt hpri)))]
    | some l =>
      obtain ⟨l1, l2, l3⟩ := m.leader_of hc
      have hlt : l = t := by
        apply Classical.byContradiction
        intro hne
        rw [ho l l1 l2 hne] at l3; cases l3
      subst hlt
      dsimp only
      rw [if_neg (fun e => hst e.2), if_neg hnc]

theorem Member.waiting_top (m : Member K pr C h n) (hs : n.state = .waiting) (h0 : 0 < n.priority)
    (hp : ∀ k, k < n.peers.length → K k = true → pr k < n.priority)
    (ho : ∀ k, k < n.peers.length → K k = true → leadish (n.peer k).state = false) (b : Bool) :
    Node.step n (.update false b) =
      turned { n with peers := n.peers.map (fun p => { p with standup := .none }) } .standingUp := by
  obtain ⟨hi, fr, h1, h2, h3, ⟨k, hk, hK, h4⟩, _⟩ := m.cand
  have hnc : ¬ n.commits < fr.commitCount := by rw [h3, m.commits]; exact Nat.lt_irrefl _
  have hcl : currentLeader n.peers = none := by
    cases hc : currentLeader n.peers with
    | none => rfl
    | some l =>
      obtain ⟨l1, l2, l3⟩ := m.leader_of hc
      rw [ho l l1 l2] at l3; cases l3
  have hstep : Node.step n (.update false b) = updateWaiting n := by
    unfold Node.step
    rw [m.dead]
    show update n false b = _
    unfold update
    rw [hs]
  rw [hstep]
  unfold updateWaiting
  rw [if_neg (by rw [m.shut]; decide)]
  simp only [h1, h2, hcl]
  rw [if_neg hnc, if_pos ⟨Nat.le_trans m.numEligible (by rw [m.numCand]; exact m.half), h0, by rw [h4]; exact hp k hk hK⟩]
  exact changeState_turned (by show _ ≠ n.state; rw [hs]; decide) (by show n.state ≠ _; rw [hs]; decide)
    (Or.inl (by show inCharge n.state = false; rw [hs]; rfl)) (by decide) m.waited

theorem Member.standingUp (m : Member K pr C h n) (hs : n.state = .standingUp)
    (hd : ∀ k, k < n.peers.length → K k = true → (n.peer k).standup ≠ .deny) (b : Bool) :
    Node.step n (.update false b) = turned n .leading ∨
    (Node.step n (.update false b) = n ∧ ∃ k, k < n.peers.length ∧ K k = true ∧ (n.peer k).standup ≠ .approve) := by
  have hstep : Node.step n (.update false b) = updateStandingUp n false := by
    unfold Node.step
    rw [m.dead]
    show update n false b = _
    unfold update
    rw [hs]
  have hany : n.peers.any (fun p => full p && p.loggedIn && p.standup = .deny) = false := by
    rw [List.any_eq_false]
    intro p hp
    cases hl : p.loggedIn with
    | false => simp
    | true =>
      obtain ⟨k, hk, hK, e⟩ := m.of_mem hp hl
      have := hd k hk hK
      rw [← e] at this
      simp [this]
  rw [hstep]
  unfold updateStandingUp
  rw [m.shut, hany]
  simp only [Bool.false_eq_true, if_false]
  split
  · left
    exact changeState_turned (by rw [hs]; decide) (by rw [hs]; decide) (Or.inr rfl) (by decide) m.waited
  · rename_i hno
    right
    refine ⟨rfl, ?_⟩
    apply Classical.byContradiction
    intro hcon
    apply hno
    rw [m.numFull, m.numIn]
    refine ⟨m.half, ?_⟩
    have : n.peers.countP (fun p => full p && p.loggedIn && decide (p.standup = .approve)) = (List.range n.peers.length).countP K := by
      rw [← countP_getD, countP_range_congr (g := K)]
      intro k hk
      show (full (n.peer k) && (n.peer k).loggedIn && decide ((n.peer k).standup = .approve)) = K k
      cases e : K k with
      | true =>
        have hap : (n.peer k).standup = .approve := by
          apply Classical.byContradiction
          intro hna
          exact hcon ⟨k, hk, e, hna⟩
        unfold full
        rw [(m.inn k hk e).login, (m.inn k hk e).perma, hap]; rfl
      | false => rw [(m.away k hk e).login]; simp
    rw [this]; exact m.half

theorem Member.leading (m : Member K pr C h n) (hs : n.state = .leading) (h1 : n.priority ≠ 1)
    (hp : ∀ k, k < n.peers.length → K k = true → pr k < n.priority)
    (ho : ∀ k, k < n.peers.length → K k = true → leadish (n.peer k).state = false) (b : Bool) :
    Node.step n (.update false b) = { n with out := [.sendOutstanding] } := by
  have hstep : Node.step n (.update false b) = updateLeading n := by
    unfold Node.step
    rw [m.dead]
    show update n false b = _
    unfold update
    rw [hs]
  have hany : (n.emit .sendOutstanding).peers.any (standDownFor (n.emit .sendOutstanding)) = false := by
    show n.peers.any _ = false
    rw [List.any_eq_false]
    intro p hpm
    obtain ⟨k, hk, e⟩ := List.mem_iff_getElem.1 hpm
    have hpk : p = n.peer k := by
      unfold peer
      rw [List.getD_eq_getElem?_getD, List.getElem?_eq_getElem hk, ← e]; rfl
    unfold standDownFor
    cases hK : K k with
    | false =>
      rw [hpk, (m.away k hk hK).state]; simp
    | true =>
      have := ho k hk hK
      have hl : (n.peer k).state ≠ .leading := by intro e; rw [e] at this; cases this
      rw [hpk, if_neg hl]
      split
      · rw [(m.inn k hk hK).prio, (m.inn k hk hK).commits]
        show ¬ (decide (n.priority < pr k) || decide (n.commits < C)) = true
        rw [m.commits]
        have := hp k hk hK
        simp; omega
      · simp
  rw [hstep]
  unfold updateLeading
  dsimp only
  rw [hany]
  have e : n.emit .sendOutstanding = { n with out := [.sendOutstanding] } := by unfold emit; rw [m.out]; rfl
  simp only [show (n.emit .sendOutstanding).state = .leading from hs, if_true, show ((n.emit .sendOutstanding).priority = 1) = False from eq_false h1,
    if_false, show (n.emit .sendOutstanding).shuttingDown = false from m.shut, Bool.false_eq_true, reduceCtorEq]
  exact e

theorem Member.subscribing (m : Member K pr C h n) (hs : n.state = .subscribing) (b : Bool) : Node.step n (.update false b) = n := by
  unfold Node.step
  rw [m.dead]
  show update n false b = _
  unfold update
  rw [hs]
  show updateSubscribing n false = n
  unfold updateSubscribing
  rw [m.shut]; rfl

theorem Member.following (m : Member K pr C h n) (hs : n.state = .following) {t : Nat} (hl : n.leadPeer = some t)
    (ht : (n.peer t).state = .leading) (b : Bool) : Node.step n (.update false b) = n := by
  unfold Node.step
  rw [m.dead]
  show update n false b = _
  unfold update
  rw [hs]
  show updateFollowing n b = n
  unfold updateFollowing
  rw [m.shut, hl]
  simp [ht]

/-! ### Messages -/

theorem setPeer_self {n : Node} {k : Nat} {f : Peer → Peer} (h : f (n.peer k) = n.peer k) : n.setPeer k f = n := by
  unfold setPeer
  have : n.peers.modify k f = n.peers := by
    apply List.ext_getElem?
    intro i
    rw [List.getElem?_modify]
    by_cases e : k = i
    · subst e
      simp only [if_true]
      cases hp : n.peers[k]? with
      | none => rfl
      | some p =>
        have : n.peer k = p := by unfold peer; rw [List.getD_eq_getElem?_getD, hp]; rfl
        rw [this] at h
        simp [h]
    · simp [e]
  rw [this]

theorem Member.message (m : Member K pr C h n) {k : Nat} (hk : k < n.peers.length) (hK : K k = true) {body : Body}
    (hb : ∀ a b c d, body ≠ .login a b c d) (o : DbOutcome) :
    Node.step n (.message k { commitCount := some C, hash := some h, body } o) = onLoggedIn n k body o := by
  have hkn := m.inn k hk hK
  have hset : n.setPeer k (fun p => { p with commitCount := C, hash := h }) = n := by
    apply setPeer_self
    have e1 := hkn.commits
    have e2 := hkn.hash
    cases hp : n.peer k
    rw [hp] at e1 e2
    simp only at e1 e2
    rw [e1, e2]
  have hlag : checkLag n k = n := by
    unfold checkLag
    rw [hkn.commits, m.commits, m.blocked]
    have : signedDiff C C = 0 := by
      unfold signedDiff
      have : (C + 2 ^ 64 - C) % 2 ^ 64 = 0 := by
        rw [show C + 2 ^ 64 - C = 2 ^ 64 by omega]
      simp
    rw [this]
    simp
  unfold Node.step
  rw [m.dead]
  show (if k < n.peers.length then onMessage n k _ o else n) = _
  rw [if_pos hk]
  unfold onMessage
  rw [hkn.forked]
  simp only [Bool.false_eq_true, if_false]
  rw [hset, hlag]
  unfold dispatch
  split
  · rename_i a b c d; exact absurd rfl (hb a b c d)
  · rw [if_pos hkn.login]

/-- The entry after a STATE message. -/
def heard (n : Node) (k : Nat) (s : NState) : Node := n.setPeer k (fun p => { p with state := s })

theorem Member.state (m : Member K pr C h n) {k : Nat} (hk : k < n.peers.length) (hK : K k = true) {s : NState} (c : Nat)
    (h1 : s ≠ .searching) (h2 : s ≠ .standingUp) (o : DbOutcome) :
    Node.step n (.message k { commitCount := some C, hash := some h, body := .state (some s) (some (pr k)) (some (c : Int)) } o) = heard n k s := by
  rw [m.message hk hK (fun _ _ _ _ e => by cases e)]
  have hkn := m.inn k hk hK
  show onState n k (some s) (some (pr k)) (some (c : Int)) = _
  unfold onState
  dsimp only
  have e : n.setPeer k (fun p => { p with priority := pr k, permaFollower := pr k = 0, state := s }) = heard n k s := by
    unfold heard setPeer
    congr 1
    apply List.ext_getElem?
    intro i
    rw [List.getElem?_modify, List.getElem?_modify]
    by_cases e : k = i
    · subst e
      cases hp : n.peers[k]? with
      | none => rfl
      | some p =>
        have hpe : n.peer k = p := by unfold peer; rw [List.getD_eq_getElem?_getD, hp]; rfl
        rw [hpe] at hkn
        simp only [if_true, Option.map_eq_map, Option.map_some]
        have e1 := hkn.prio
        have e2 := hkn.perma
        have e3 := hkn.nz
        congr 1
        cases p
        simp only at e1 e2
        subst e1 e2
        simp [e3]
    · simp [e]
  rw [e]
  split
  · rfl
  · first | rfl | rw [if_neg h1, if_neg h2]

theorem Member.state_up (m : Member K pr C h n) {k : Nat} (hk : k < n.peers.length) (hK : K k = true) (c : Nat)
    (h1 : (n.peer k).state ≠ .standingUp) (h2 : leadish n.state = false)
    (ho : ∀ i, i < n.peers.length → K i = true → i ≠ k → leadish (n.peer i).state = false) (o : DbOutcome) :
    Node.step n (.message k { commitCount := some C, hash := some h, body := .state (some .standingUp) (some (pr k)) (some (c : Int)) } o) =
      { heard n k .standingUp with out := [.send k (.standupResponse (some (c : Int)) (some true))] } := by
  rw [m.message hk hK (fun _ _ _ _ e => by cases e)]
  have hkn := m.inn k hk hK
  show onState n k (some .standingUp) (some (pr k)) (some (c : Int)) = _
  unfold onState
  dsimp only
  have e : n.setPeer k (fun p => { p with priority := pr k, permaFollower := pr k = 0, state := .standingUp }) = heard n k .standingUp := by
    unfold heard setPeer
    congr 1
    apply List.ext_getElem?
    intro i
    rw [List.getElem?_modify, List.getElem?_modify]
    by_cases e : k = i
    · subst e
      cases hp : n.peers[k]? with
      | none => rfl
      | some p =>
        have hpe : n.peer k = p := by unfold peer; rw [List.getD_eq_getElem?_getD, hp]; rfl
        rw [hpe] at hkn
        simp only [if_true, Option.map_eq_map, Option.map_some]
        have e1 := hkn.prio
        have e2 := hkn.perma
        have e3 := hkn.nz
        congr 1
        cases p
        simp only at e1 e2
        subst e1 e2
        simp [e3]
    · simp [e]
  rw [e, if_neg h1, if_neg (by decide), if_pos rfl]
  have hlen : (heard n k .standingUp).peers.length = n.peers.length := by unfold heard setPeer; simp
  have hpe : ∀ i, i ≠ k → (heard n k .standingUp).peer i = n.peer i := by
    intro i hi
    unfold heard setPeer peer
    simp only [List.getD_eq_getElem?_getD, List.getElem?_modify]
    cases n.peers[i]? <;> simp [Ne.symm hi]
  have hpk : (heard n k .standingUp).peer k = { n.peer k with state := .standingUp } := by
    unfold heard setPeer peer
    simp only [List.getD_eq_getElem?_getD, List.getElem?_modify]
    rw [List.getElem?_eq_getElem hk]; simp
  unfold sendStandupResponse
  dsimp only
  rw [hpk]
  simp only [hkn.perma, Bool.false_eq_true, if_false, show (heard n k .standingUp).state = n.state from rfl, h2]
  have hcon : ((heard n k .standingUp).peers.zipIdx.any (fun x => x.2 != k && leadish x.1.state)) = false := by
    rw [List.any_eq_false]
    rintro ⟨p, i⟩ hx
    obtain ⟨h3, hlt, e⟩ := List.mem_zipIdx hx
    simp only [Nat.zero_add, Nat.sub_zero] at hlt e
    by_cases hi : i = k
    · simp [hi]
    · have hpi : p = n.peer i := by
        rw [← hpe i hi]
        unfold peer
        rw [List.getD_eq_getElem?_getD, List.getElem?_eq_getElem hlt, ← e]; rfl
      rw [hlen] at hlt
      have : leadish (n.peer i).state = false := by
        cases hKi : K i with
        | true => exact ho i hlt hKi hi
        | false => rw [(m.away i hlt hKi).state]; rfl
      simp [hpi, this]
  rw [hcon]
  unfold Node.send
  rw [hpk]
  simp only [hkn.forked, Bool.false_eq_true, if_false, Bool.not_false]
  unfold emit
  rw [show (heard n k .standingUp).out = [] from m.out]
  rfl

theorem Member.approved (m : Member K pr C h n) {k : Nat} (hk : k < n.peers.length) (hK : K k = true) (c : Int)
    (hc : n.state = .standingUp → c = (n.stateChangeCount : Int)) (o : DbOutcome) :
    Node.step n (.message k { commitCount := some C, hash := some h, body := .standupResponse (some c) (some true) } o) =
      if n.state = .standingUp then n.setPeer k (fun p => { p with standup := .approve }) else n := by
  rw [m.message hk hK (fun _ _ _ _ e => by cases e)]
  show onStandupResponse n k (some c) (some true) = _
  unfold onStandupResponse
  split
  · rename_i hs
    rw [if_neg (by rw [hc hs]; simp)]
    rfl
  · rfl

theorem Member.subscribe (m : Member K pr C h n) {k : Nat} (hk : k < n.peers.length) (hK : K k = true)
    (hs : n.state = .leading) {o : DbOutcome} (ho : o.queueOk = true) :
    Node.step n (.message k { commitCount := some C, hash := some h, body := .subscribe } o) =
      { n.setPeer k (fun p => { p with subscribed := true }) with out := [.send k .subscriptionApproved] } := by
  rw [m.message hk hK (fun _ _ _ _ e => by cases e)]
  show (if n.state ≠ .leading then fail n k else if o.queueOk = false then fail n k else _) = _
  rw [if_neg (by rw [hs]; simp), if_neg (by rw [ho]; decide)]
  unfold Node.send
  rw [(m.inn k hk hK).forked]
  simp only [Bool.false_eq_true, if_false]
  unfold emit setPeer
  rw [m.out]
  rfl

theorem Member.welcome (m : Member K pr C h n) {k : Nat} (hk : k < n.peers.length) (hK : K k = true)
    (hs : n.state = .subscribing) (hl : n.leadPeer = some k) {o : DbOutcome} (ho : o.recvOk = true) :
    Node.step n (.message k { commitCount := some C, hash := some h, body := .subscriptionApproved } o) =
      turned { n with commits := o.commits, journal := o.journal } .following := by
  rw [m.message hk hK (fun _ _ _ _ e => by cases e)]
  show onSubscriptionApproved n k o = _
  unfold onSubscriptionApproved
  rw [if_neg (by rw [hs]; simp), if_neg (by rw [hl]; simp)]
  dsimp only
  rw [if_pos ho]
  exact changeState_turned (by show _ ≠ n.state; rw [hs]; decide) (by show n.state ≠ _; rw [hs]; decide)
    (Or.inl (by show inCharge n.state = false; rw [hs]; rfl)) (by decide) m.waited

end

end Bedrock.Net
