import Verif.Lemmas.NodeVotes

/-!
# What a node says about its state, and what it believes of its peers
-/

namespace Bedrock.Node.Node
open Bedrock Bedrock.Node Bedrock.Node.Spec

/-- The states a list of effects announces, with priority and number. Anything else that would be sent to all shows up with
priority 0. -/
def stateMsgs (es : List Effect) : List (NState × Int × Nat) :=
  es.filterMap fun e => match e with
    | .send _ (.state s p c) => some (s, p, c)
    | .sendAll (.state s p c) => some (s, p, c)
    | .sendAll _ => some (.unknown, 0, 0)
    | _ => none

theorem stateMsgs_append (a b : List Effect) : stateMsgs (a ++ b) = stateMsgs a ++ stateMsgs b := by
  simp [stateMsgs]

theorem stateMsgs_shut (l : List Nat) : stateMsgs (l.map Effect.shutdownSocket) = [] := by
  simp [stateMsgs, List.filterMap_eq_nil_iff]

/-- The states entered are numbered; nobody is a permafollower. -/
structure Wf (n : Node) : Prop where
  len : n.hist.length = n.stateChangeCount
  last : n.hist.getLast? = some n.state
  prio : n.priority ≠ 0
  conf : n.configured ≠ 0

/-- What is announced are states that were entered, by their number, in order. -/
def Ok (c0 : Nat) (h : List NState) (es : List Effect) : Prop :=
  (∀ m ∈ stateMsgs es, m.2.1 ≠ 0 ∧ c0 ≤ m.2.2 ∧ 1 ≤ m.2.2 ∧ h[m.2.2 - 1]? = some m.1) ∧
    (stateMsgs es).Pairwise (fun a b => a.2.2 ≤ b.2.2)

/-- What matters of an entry of the table of peers is the same, except that a login may be gone. -/
structure Same (p p' : Peer) : Prop where
  state : p'.state = p.state
  perma : p'.permaFollower = p.permaFollower
  standup : p'.standup = p.standup
  login : p'.loggedIn = true → p.loggedIn = true

theorem Same.refl (p : Peer) : Same p p := ⟨rfl, rfl, rfl, id⟩
theorem Same.trans {a b c : Peer} (h1 : Same a b) (h2 : Same b c) : Same a c :=
  ⟨h2.state.trans h1.state, h2.perma.trans h1.perma, h2.standup.trans h1.standup, fun h => h1.login (h2.login h)⟩

structure Said (n n' : Node) : Prop where
  wf : Wf n → Wf n'
  said : Wf n → ∃ es l, n'.out = n.out ++ es ∧ n'.hist = n.hist ++ l ∧ Ok n.stateChangeCount n'.hist es

/-- … for all peers but `x`; and without standing up or becoming the leader. -/
structure R (x : Option Nat) (n n' : Node) : Prop extends Said n n' where
  seen : ∀ k, x ≠ some k → Same (n.peer k) (n'.peer k)
  up : n'.state = .standingUp → n.state = .standingUp ∧ n'.hist = n.hist
  charge : inCharge n'.state = true → inCharge n.state = true
  clean : leadish n'.state = true → ∃ l, n'.hist = n.hist ++ l ∧ ∀ s ∈ l, leadish s = true

theorem R.leadish {x : Option Nat} {n n' : Node} (h : R x n n') (hl : Node.leadish n'.state = true) : Node.leadish n.state = true := by
  rcases leadish_cases hl with h1 | h1 | h1
  · rw [(h.up h1).1]; rfl
  · have := h.charge (by rw [h1]; rfl)
    cases hs : n.state <;> rw [hs] at this <;> first | rfl | cases this
  · have := h.charge (by rw [h1]; rfl)
    cases hs : n.state <;> rw [hs] at this <;> first | rfl | cases this

theorem Said.trans {a b c : Node} (h1 : Said a b) (h2 : Said b c) : Said a c where
  wf h := h2.wf (h1.wf h)
  said h := by
    obtain ⟨es, l, e1, e2, e3, e4⟩ := h1.said h
    obtain ⟨es', l', f1, f2, f3, f4⟩ := h2.said (h1.wf h)
    have hb := (h1.wf h).len
    have ha := h.len
    refine ⟨es ++ es', l ++ l', by rw [f1, e1, List.append_assoc], by rw [f2, e2, List.append_assoc], ?_, ?_⟩
    · intro m hm
      rw [stateMsgs_append] at hm
      rcases List.mem_append.1 hm with hm | hm
      · obtain ⟨g1, g2, g3, g4⟩ := e3 m hm
        refine ⟨g1, g2, g3, ?_⟩
        rw [f2, List.getElem?_append_left (List.getElem?_eq_some_iff.1 g4).1]
        exact g4
      · obtain ⟨g1, g2, g3, g4⟩ := f3 m hm
        refine ⟨g1, ?_, g3, g4⟩
        have : a.stateChangeCount ≤ b.stateChangeCount := by rw [← ha, ← hb, e2, List.length_append]; omega
        omega
    · rw [stateMsgs_append, List.pairwise_append]
      refine ⟨e4, f4, fun x hx y hy => ?_⟩
      have h1 := (List.getElem?_eq_some_iff.1 (e3 x hx).2.2.2).1
      have h2 := (f3 y hy).2.1
      omega

theorem R.trans {x : Option Nat} {a b c : Node} (h1 : R x a b) (h2 : R x b c) : R x a c :=
  { h1.toSaid.trans h2.toSaid with
    seen := fun k hk => (h1.seen k hk).trans (h2.seen k hk)
    up := fun h => ⟨(h1.up (h2.up h).1).1, (h2.up h).2.trans (h1.up (h2.up h).1).2⟩
    charge := fun h => h1.charge (h2.charge h)
    clean := fun h => by
      obtain ⟨l, e1, e2⟩ := h1.clean (h2.leadish h)
      obtain ⟨l', f1, f2⟩ := h2.clean h
      exact ⟨l ++ l', by rw [f1, e1, List.append_assoc], fun s hs => (List.mem_append.1 hs).elim (e2 s) (f2 s)⟩ }

theorem R.weaken {x : Option Nat} {a b : Node} (h : R none a b) : R x a b :=
  { h with seen := fun k _ => h.seen k (fun h => by cases h) }

/-- Nothing about states is said or changed. -/
theorem Said.quiet {n m : Node} (es : List Effect) (h0 : m.out = n.out ++ es) (h1 : stateMsgs es = []) (h2 : m.state = n.state)
    (h3 : m.stateChangeCount = n.stateChangeCount) (h4 : m.hist = n.hist)
    (h5 : m.priority = n.priority ∨ m.priority = n.configured ∨ m.priority = 1) (h6 : m.configured = n.configured) : Said n m where
  wf h := ⟨by rw [h4, h3]; exact h.len, by rw [h4, h2]; exact h.last, by
    rcases h5 with e | e | e
    · rw [e]; exact h.prio
    · rw [e]; exact h.conf
    · rw [e]; decide, by rw [h6]; exact h.conf⟩
  said h := ⟨es, [], h0, by simp [h4], by rw [Ok, h1]; exact ⟨by simp, .nil⟩⟩

theorem R.quiet {x : Option Nat} {n m : Node} (es : List Effect) (h0 : m.out = n.out ++ es) (h1 : stateMsgs es = []) (h2 : m.state = n.state)
    (h3 : m.stateChangeCount = n.stateChangeCount) (h4 : m.hist = n.hist)
    (h5 : m.priority = n.priority ∨ m.priority = n.configured ∨ m.priority = 1) (h6 : m.configured = n.configured)
    (h7 : ∀ k, x ≠ some k → Same (n.peer k) (m.peer k)) : R x n m :=
  { Said.quiet es h0 h1 h2 h3 h4 h5 h6 with
    seen := h7
    up := fun h => ⟨h2 ▸ h, h4⟩
    charge := fun h => h2 ▸ h
    clean := fun _ => ⟨[], by simp [h4], by simp⟩ }

theorem same_of_peers {n m : Node} (h : m.peers = n.peers) (k : Nat) : Same (n.peer k) (m.peer k) := by
  unfold peer; rw [h]; exact .refl _

theorem R.frame {x : Option Nat} {n m : Node} (h0 : m.peers = n.peers) (h1 : m.state = n.state)
    (h2 : m.stateChangeCount = n.stateChangeCount) (h3 : m.priority = n.priority)
    (h4 : m.configured = n.configured) (h5 : m.hist = n.hist) (h6 : m.out = n.out) : R x n m :=
  .quiet [] (by simp [h6]) rfl h1 h2 h5 (Or.inl h3) h4 (fun k _ => same_of_peers h0 k)

theorem R.refl {x : Option Nat} (n : Node) : R x n n := .frame rfl rfl rfl rfl rfl rfl rfl

theorem R.emit {x : Option Nat} {n : Node} (e : Effect) (h : stateMsgs [e] = []) : R x n (n.emit e) :=
  .quiet [e] rfl h rfl rfl rfl (Or.inl rfl) rfl (fun k _ => same_of_peers rfl k)

theorem R.send {x : Option Nat} {n : Node} (i : Nat) (m : OutMsg) (h : stateMsgs [.send i m] = []) : R x n (n.send i m) := by
  unfold Node.send
  split
  · exact .refl n
  · exact .emit _ h

theorem R.setPeer {x : Option Nat} {n : Node} {i : Nat} {f : Peer → Peer} (h : ∀ p, Same p (f p)) : R x n (n.setPeer i f) :=
  .quiet [] (by simp) rfl (by simp) (by simp) (by simp) (by simp) (by simp) (fun k _ => by
    rw [setPeer_peer]; split
    · exact h _
    · exact .refl _)

theorem R.setPeerAt {n : Node} {i : Nat} {f : Peer → Peer} : R (some i) n (n.setPeer i f) :=
  .quiet [] (by simp) rfl (by simp) (by simp) (by simp) (by simp) (by simp) (fun k hk => by
    rw [setPeer_peer, if_neg (fun h => hk (by rw [h.1]))]; exact .refl _)

theorem R.reconnectPeer {x : Option Nat} {n : Node} (i : Nat) : R x n (n.reconnectPeer i) :=
  R.trans (b := n.setPeer i (fun p => { p with loggedIn := false })) (.setPeer (fun p => ⟨rfl, rfl, rfl, fun h => absurd h (by simp)⟩)) (.emit _ rfl)

theorem R.fail {x : Option Nat} {n : Node} (i : Nat) : R x n (n.fail i) := R.trans (.send _ _ rfl) (.emit _ rfl)

theorem R.reconnectAll {x : Option Nat} {n : Node} : R x n n.reconnectAll :=
  .quiet ((List.range n.peers.length).map .shutdownSocket) rfl (stateMsgs_shut _) rfl rfl rfl (Or.inl rfl) rfl (fun k _ =>
    ⟨reconnectAll_field n (·.state) (fun _ _ => rfl) k, reconnectAll_field n (·.permaFollower) (fun _ _ => rfl) k,
      reconnectAll_field n (·.standup) (fun _ _ => rfl) k, fun h => by
        unfold peer Node.reconnectAll at h
        simp only [List.getD_eq_getElem?_getD, List.getElem?_map] at h
        cases hk : n.peers[k]? <;> simp [hk] at h⟩)

theorem R.dieIfForked {x : Option Nat} {n : Node} : R x n n.dieIfForked :=
  .frame (by simp) (by simp) (by simp) (by simp) (by simp) (by simp) (by simp)

theorem quiet_append {o p e : List Effect} (h : ∃ es, p = o ++ es ∧ stateMsgs es = []) (he : stateMsgs e = []) :
    ∃ es, p ++ e = o ++ es ∧ stateMsgs es = [] := by
  obtain ⟨es, h1, h2⟩ := h
  exact ⟨es ++ e, by rw [h1, List.append_assoc], by rw [stateMsgs_append, h2, he]; rfl⟩

/-- `_changeState` says the new state under the next number. -/
theorem changeState_out (n : Node) {new : NState} (h : new ≠ n.state) :
    ∃ es, (changeState n new).out = n.out ++ (es ++ [.sendAll (.state new (changeState n new).priority (n.stateChangeCount + 1))]) ∧
      stateMsgs es = [] := by
  have key : ∃ o, (changeState n new).out = o ++ [.sendAll (.state new (changeState n new).priority (n.stateChangeCount + 1))] ∧
      ∃ es, o = n.out ++ es ∧ stateMsgs es = [] := by
    generalize hr : changeState n new = r
    unfold changeState at hr
    rw [if_neg h] at hr
    dsimp only at hr
    repeat' split at hr
    all_goals subst hr
    all_goals refine ⟨_, rfl, ?_⟩
    all_goals try dsimp only [Node.reconnectAll]
    all_goals repeat (refine quiet_append ?_ (by first | rfl | exact stateMsgs_shut _))
    all_goals exact ⟨[], (List.append_nil _).symm, rfl⟩
  obtain ⟨o, e1, es, e2, e3⟩ := key
  exact ⟨es, by rw [e1, e2, List.append_assoc], e3⟩

theorem said_change {x : Option Nat} {n : Node} (new : NState) : Said n (n.changeState new) ∧
    ∀ k, x ≠ some k → Same (n.peer k) ((n.changeState new).peer k) := by
  by_cases hs : new = n.state
  · rw [changeState_same hs]; exact ⟨(R.refl (x := none) n).toSaid, fun k _ => Same.refl _⟩
  have hp : (n.changeState new).priority = n.priority ∨ (n.changeState new).priority = n.configured := by
    rw [changeState_priority]; split
    · exact Or.inr rfl
    · exact Or.inl rfl
  have hh : (n.changeState new).hist = n.hist ++ [new] := by rw [changeState_hist, if_neg hs]
  have hc : (n.changeState new).stateChangeCount = n.stateChangeCount + 1 := by
    rw [changeState_scc, if_neg hs]
  have hpr : Wf n → (n.changeState new).priority ≠ 0 := by
    intro h
    rcases hp with e | e
    · rw [e]; exact h.prio
    · rw [e]; exact h.conf
  refine ⟨⟨?_, ?_⟩, ?_⟩
  · intro h
    refine ⟨by rw [hh, hc, List.length_append, h.len]; rfl, by rw [hh, changeState_state]; simp, hpr h, by simp [h.conf]⟩
  · intro h
    obtain ⟨es, e1, e2⟩ := changeState_out n hs
    refine ⟨_, [new], e1, hh, ?_⟩
    have hm : stateMsgs (es ++ [.sendAll (.state new (changeState n new).priority (n.stateChangeCount + 1))]) =
        [(new, (changeState n new).priority, n.stateChangeCount + 1)] := by rw [stateMsgs_append, e2]; rfl
    rw [Ok, hm]
    refine ⟨fun m hm => ?_, by simp⟩
    rw [List.mem_singleton] at hm
    subst hm
    refine ⟨hpr h, Nat.le_succ _, Nat.succ_le_succ (Nat.zero_le _), ?_⟩
    rw [hh, Nat.add_sub_cancel, ← h.len]
    simp
  · intro k _
    refine ⟨changeState_field n new (·.state) (fun _ _ _ => rfl) k, changeState_field n new (·.permaFollower) (fun _ _ _ => rfl) k,
      changeState_field n new (·.standup) (fun _ _ _ => rfl) k, fun h => ?_⟩
    have hl : ∀ (g : Peer → Peer), (∀ p, (g p).loggedIn = true → p.loggedIn = true) →
        ((n.peers.map g).getD k {}).loggedIn = true → (n.peer k).loggedIn = true := by
      intro g hg h
      unfold peer
      simp only [List.getD_eq_getElem?_getD, List.getElem?_map] at h ⊢
      cases hk : n.peers[k]? with
      | none => simp [hk] at h
      | some p => simp only [hk, Option.map_some, Option.getD_some] at h ⊢; exact hg p h
    rcases changeState_peers_cases n new with e | e | e | e
    · unfold peer at h ⊢; rw [e] at h; exact h
    · exact hl (fun p => { p with subscribed := false }) (fun p h => h) (by unfold peer at h; rw [e] at h; exact h)
    · exact hl (fun p => { p with loggedIn := false }) (fun p h => by simp at h) (by unfold peer at h; rw [e] at h; exact h)
    · refine hl (fun p => { p with subscribed := false, loggedIn := false }) (fun p h => by simp at h) ?_
      unfold peer at h; rw [e, List.map_map] at h; exact h

theorem R.change' {x : Option Nat} {n : Node} (new : NState)
    (hq : new ≠ .standingUp ∧ new ≠ .leading ∧ (new = .standingDown → inCharge n.state = true)) : R x n (n.changeState new) := by
  by_cases hs : new = n.state
  · rw [changeState_same hs]; exact .refl n
  have hh : (n.changeState new).hist = n.hist ++ [new] := by rw [changeState_hist, if_neg hs]
  refine { (said_change (x := x) new).1 with seen := (said_change new).2, up := ?_, charge := ?_, clean := ?_ }
  · rw [changeState_state]; exact fun h => absurd h hq.1
  · rw [changeState_state]
    intro h
    cases new <;> first | exact hq.2.2 rfl | exact absurd rfl hq.2.1 | cases h
  · rw [changeState_state]
    intro h
    exact ⟨[new], hh, fun s hs => by rw [List.mem_singleton] at hs; rw [hs]; exact h⟩

theorem R.change {x : Option Nat} {n : Node} (new : NState) (hq : Node.leadish new = false := by rfl) : R x n (n.changeState new) := by
  refine .change' new ⟨?_, ?_, ?_⟩ <;> intro h <;> rw [h] at hq <;> cases hq

theorem R.thenChange {x : Option Nat} {n m : Node} (h : R x n m) (new : NState) (hq : Node.leadish new = false := by rfl) :
    R x n (m.changeState new) := h.trans (.change new hq)
theorem R.thenDie {x : Option Nat} {n m : Node} (h : R x n m) : R x n m.dieIfForked := h.trans .dieIfForked
theorem R.thenFail {x : Option Nat} {n m : Node} (h : R x n m) (i : Nat) : R x n (m.fail i) := h.trans (.fail i)
theorem R.thenSet {x : Option Nat} {n m : Node} (h : R x n m) {i : Nat} {f : Peer → Peer}
    (hf : ∀ p, Same p (f p)) : R x n (m.setPeer i f) := h.trans (.setPeer hf)
theorem R.thenFrame {x : Option Nat} {n m k : Node} (h : R x n m) (h0 : k.peers = m.peers) (h1 : k.state = m.state)
    (h2 : k.stateChangeCount = m.stateChangeCount) (h3 : k.priority = m.priority)
    (h4 : k.configured = m.configured) (h5 : k.hist = m.hist) (h6 : k.out = m.out) : R x n k := h.trans (.frame h0 h1 h2 h3 h4 h5 h6)

/-! ### The functions -/

theorem sendStandupResponse_r {x : Option Nat} {n : Node} (i : Nat) (scc : Option Int) : R x n (sendStandupResponse n i scc) := by
  unfold sendStandupResponse
  dsimp only
  split
  · exact .send _ _ rfl
  · split
    · split
      · refine R.trans ?_ (.send _ _ rfl)
        repeat' split
        · exact .change _
        · rename_i hs
          exact .change' _ ⟨by decide, by decide, fun _ => by rw [hs]; rfl⟩
        · exact .refl n
      · refine R.trans ?_ (.send _ _ rfl)
        split
        · exact .refl n
        · exact R.trans .reconnectAll (.change _)
    · exact .send _ _ rfl

theorem loginRest_r {x : Option Nat} (m : Node) (ver : Bytes) :
    R x m (if m.haveSeenSame = false ∧ ver = m.version then
      let m := { m with haveSeenSame := true }
      if m.haveBeenWaiting then reconnectAll { m with priority := m.configured } else m
    else m) := by
  dsimp only
  repeat' split
  · refine R.trans (b := { m with haveSeenSame := true, priority := m.configured }) ?_ .reconnectAll
    exact .quiet [] (by simp) rfl rfl rfl rfl (Or.inr (Or.inl rfl)) rfl (fun k _ => same_of_peers rfl k)
  · exact .frame rfl rfl rfl rfl rfl rfl rfl
  · exact .refl m

theorem loginRecord_r {n : Node} (i : Nat) (prio : Int) (st : NState) (ver : Bytes) :
    R (some i) n (loginRecord n i prio st ver) :=
  R.trans (.setPeerAt) (loginRest_r _ ver)

theorem loginCheck_r {n : Node} (i : Nat) : R (some i) n (loginCheck n i) := by
  unfold loginCheck
  split
  · exact R.thenDie (R.trans (.send _ _ rfl) .setPeerAt)
  · exact .setPeerAt

theorem onLogin_r {n : Node} (i : Nat) (p : Option Int) (s : Option NState) (v : Option Bytes)
    (scc : Option Int) : R (some i) n (onLogin n i p s v scc) := by
  unfold onLogin
  dsimp only
  repeat' split
  · exact .fail i
  · exact .reconnectPeer i
  · exact (loginRecord_r ..).trans (loginCheck_r i)
  · exact ((loginRecord_r ..).trans (loginCheck_r i)).trans (sendStandupResponse_r ..)
  · exact (loginRecord_r ..).trans (loginCheck_r i)
  · exact .fail i

theorem onState_r {n : Node} (i : Nat) (s : Option NState) (p : Option Int) (scc : Option Int) :
    R (some i) n (onState n i s p scc) := by
  unfold onState
  dsimp only
  repeat' split
  · exact .setPeerAt
  · exact R.trans .setPeerAt .setPeerAt
  · exact R.trans .setPeerAt (sendStandupResponse_r ..)
  · exact .setPeerAt
  · exact .fail i

theorem onStandupResponse_r {n : Node} (i : Nat) (s : Option Int) (r : Option Bool) : R (some i) n (onStandupResponse n i s r) := by
  unfold onStandupResponse
  repeat' split
  all_goals first | exact .refl n | exact .fail i | exact .setPeerAt

theorem forkPeer_same (p : Peer) : Same p { p with forked := true } := ⟨rfl, rfl, rfl, id⟩

theorem onSynchronizeResponse_r {x : Option Nat} {n : Node} (i : Nat) (hm : Bool) (o : DbOutcome) :
    R x n (onSynchronizeResponse n i hm o) := by
  unfold onSynchronizeResponse
  dsimp only
  have db : R x n { n with commits := o.commits, journal := o.journal } := .frame rfl rfl rfl rfl rfl rfl rfl
  have db2 : ∀ y, R x n { n with commits := o.commits, journal := o.journal, syncPeer := y } := fun y => .frame rfl rfl rfl rfl rfl rfl rfl
  repeat' split
  · exact .fail i
  · exact R.thenDie (.setPeer forkPeer_same)
  · exact R.thenFail (R.thenDie (.setPeer forkPeer_same)) i
  · exact .fail i
  · refine R.thenFail (R.thenChange (R.thenFrame (db.trans (.reconnectPeer i)) ?_ ?_ ?_ ?_ ?_ ?_ ?_) _) i <;> rfl
  · exact R.thenChange (db2 _) _
  · refine R.thenChange (R.thenFrame (db.trans (.reconnectPeer i)) ?_ ?_ ?_ ?_ ?_ ?_ ?_) _ <;> rfl
  · exact R.trans (R.thenFrame db (by simp) (by simp) (by simp) (by simp) (by simp) (by simp) (by simp)) (.send _ _ rfl)
  · exact R.thenChange (R.thenFrame db (by simp) (by simp) (by simp) (by simp) (by simp) (by simp) (by simp)) _

theorem onSubscriptionApproved_r {x : Option Nat} {n : Node} (i : Nat) (o : DbOutcome) :
    R x n (onSubscriptionApproved n i o) := by
  unfold onSubscriptionApproved
  dsimp only
  have db : R x n { n with commits := o.commits, journal := o.journal } := .frame rfl rfl rfl rfl rfl rfl rfl
  repeat' split
  · exact .fail i
  · exact .fail i
  · exact db.thenChange _
  · exact R.thenFail (R.thenChange (db.trans (.reconnectPeer i)) _) i

theorem onForked_r {x : Option Nat} {n : Node} (i : Nat) : R x n (onForked n i) := by
  unfold onForked
  dsimp only
  refine R.trans (b := (n.setPeer i fun p => { p with forked := true }).dieIfForked)
    (R.thenDie (.setPeer forkPeer_same)) ?_
  generalize (n.setPeer i fun p => { p with forked := true }).dieIfForked = m
  split
  · exact .refl m
  · refine R.trans (b := if m.leadPeer = some i then
        { m with leadPeer := none }.changeState .searching else m) ?_ ?_
    · split
      · refine R.thenChange (.frame ?_ ?_ ?_ ?_ ?_ ?_ ?_) _ <;> rfl
      · exact .refl m
    · generalize (if m.leadPeer = some i then
        { m with leadPeer := none }.changeState .searching else m) = k
      repeat' split
      · refine R.thenChange (.frame ?_ ?_ ?_ ?_ ?_ ?_ ?_) _ <;> rfl
      · exact .frame rfl rfl rfl rfl rfl rfl rfl
      · exact .refl k

theorem subscribe_same (p : Peer) : Same p { p with subscribed := true } := ⟨rfl, rfl, rfl, id⟩

/-- Anything but a LOGIN, a STATE and a vote. -/
def plain : Body → Bool
  | .login .. | .state .. | .standupResponse .. => false
  | _ => true

theorem dispatch_plain {x : Option Nat} {n : Node} (i : Nat) (b : Body) (o : DbOutcome) (hb : plain b = true) :
    R x n (dispatch n i b o) := by
  unfold dispatch
  split
  · cases hb
  · split
    · unfold onLoggedIn
      split
      · cases hb
      · cases hb
      · repeat' split
        · exact .send _ _ rfl
        · exact .send _ _ rfl
        · exact .fail _
      · exact onSynchronizeResponse_r ..
      · repeat' split
        · exact .fail _
        · exact .fail _
        · exact R.thenSet (.send _ _ rfl) subscribe_same
      · exact onSubscriptionApproved_r ..
      · exact onForked_r ..
      all_goals exact .refl n
    · exact .fail i

theorem dispatch_r {n : Node} (i : Nat) (b : Body) (o : DbOutcome) : R (some i) n (dispatch n i b o) := by
  cases hb : plain b with
  | true => exact dispatch_plain i b o hb
  | false =>
    cases b with
    | login p s v c => exact onLogin_r ..
    | state s p c =>
      unfold dispatch
      dsimp only
      split
      · exact onState_r ..
      · exact .fail i
    | standupResponse c r =>
      unfold dispatch
      dsimp only
      split
      · exact onStandupResponse_r ..
      · exact .fail i
    | _ => cases hb

theorem checkLag_r {x : Option Nat} {n : Node} (i : Nat) : R x n (checkLag n i) := by
  unfold checkLag
  dsimp only
  repeat' split
  · refine R.thenFrame (.emit (.blockPort) rfl) ?_ ?_ ?_ ?_ ?_ ?_ ?_ <;> rfl
  · refine R.thenFrame (.emit (.unblockPort) rfl) ?_ ?_ ?_ ?_ ?_ ?_ ?_ <;> rfl
  · exact .refl n

theorem record_r {x : Option Nat} {n : Node} (i c : Nat) (h : Bytes) :
    R x n (checkLag (n.setPeer i (fun p => { p with commitCount := c, hash := h })) i) :=
  R.trans (b := n.setPeer i (fun p => { p with commitCount := c, hash := h })) (.setPeer (fun _ => ⟨rfl, rfl, rfl, id⟩)) (checkLag_r i)

theorem onMessage_r {n : Node} (i : Nat) (m : Msg) (o : DbOutcome) : R (some i) n (onMessage n i m o) := by
  rcases onMessage_cases n i m o with e | e | ⟨c, h, _, _, _, e⟩
  · rw [e]; exact .refl n
  · rw [e]; exact .fail i
  · rw [e]; exact (record_r i c h).trans (dispatch_r i m.body o)

theorem onMessage_plain {x : Option Nat} {n : Node} (i : Nat) (m : Msg) (o : DbOutcome) (hb : plain m.body = true) :
    R x n (onMessage n i m o) := by
  rcases onMessage_cases n i m o with e | e | ⟨c, h, _, _, _, e⟩
  · rw [e]; exact .refl n
  · rw [e]; exact .fail i
  · rw [e]; exact (record_r i c h).trans (dispatch_plain i m.body o hb)

theorem onDisconnect_r {n : Node} (i : Nat) : R (some i) n (onDisconnect n i) := by
  unfold onDisconnect
  dsimp only
  refine R.trans (b := n.setPeer i Peer.reset) .setPeerAt ?_
  generalize n.setPeer i Peer.reset = m
  refine R.trans (b := if m.leadPeer = some i then
      { m with leadPeer := none }.changeState .searching else m) ?_ ?_
  · split
    · refine R.thenChange (.frame ?_ ?_ ?_ ?_ ?_ ?_ ?_) _ <;> rfl
    · exact .refl m
  · generalize (if m.leadPeer = some i then
      { m with leadPeer := none }.changeState .searching else m) = k
    refine R.trans (b := if k.syncPeer = some i then
      { k with syncPeer := none }.changeState .searching else k) ?_ ?_
    · split
      · refine R.thenChange (.frame ?_ ?_ ?_ ?_ ?_ ?_ ?_) _ <;> rfl
      · exact .refl k
    · generalize (if k.syncPeer = some i then
        { k with syncPeer := none }.changeState .searching else k) = j
      repeat' split
      · exact .change _
      · exact .refl j
      · exact .refl j

theorem updateSearching_r {x : Option Nat} {n : Node} (hp : n.peers ≠ []) : R x n (updateSearching n) := by
  unfold updateSearching
  have hp' : n.peers.isEmpty = false := by cases h : n.peers <;> simp_all
  dsimp only
  repeat' split
  · exact .refl n
  · simp_all
  · exact .refl n
  · exact .refl n
  · exact .change _
  · exact R.thenChange (R.trans (.frame (by simp) (by simp) (by simp) (by simp) (by simp) (by simp) (by simp)) (.send _ _ rfl)) _
  · exact .frame (by simp) (by simp) (by simp) (by simp) (by simp) (by simp) (by simp)

theorem updateSynchronizing_r {x : Option Nat} {n : Node} (t : Bool) : R x n (updateSynchronizing n t) := by
  unfold updateSynchronizing
  repeat' split
  · rename_i i _
    refine R.thenChange (R.thenFrame (.reconnectPeer i) ?_ ?_ ?_ ?_ ?_ ?_ ?_) _ <;> rfl
  · exact .frame rfl rfl rfl rfl rfl rfl rfl
  · exact .refl n

theorem updateSubscribing_r {x : Option Nat} {n : Node} (t : Bool) : R x n (updateSubscribing n t) := by
  unfold updateSubscribing
  repeat' split
  · exact .change _
  · rename_i i _
    refine R.thenChange (R.thenFrame (.reconnectPeer i) ?_ ?_ ?_ ?_ ?_ ?_ ?_) _ <;> rfl
  · exact .frame rfl rfl rfl rfl rfl rfl rfl
  · exact .refl n

theorem updateFollowing_r {x : Option Nat} {n : Node} (b : Bool) : R x n (updateFollowing n b) := by
  unfold updateFollowing
  repeat' split
  · exact .change _
  · exact .frame rfl rfl rfl rfl rfl rfl rfl
  · exact .change _
  · exact .refl n

theorem updateStandingUp_r {x : Option Nat} {n : Node} (t : Bool) : R x n (updateStandingUp n t) ∨
    (updateStandingUp n t = changeState n .leading ∧
      n.peers.countP full ≤ n.peers.countP (fun p => full p && p.loggedIn && p.standup = .approve) * 2) := by
  unfold updateStandingUp
  dsimp only
  repeat' split
  · exact Or.inl (.change _)
  · exact Or.inl (.change _)
  · rename_i h
    exact Or.inr ⟨rfl, h.2⟩
  · exact Or.inl (.change _)
  · exact Or.inl (.refl n)

/-- Becoming the leader. -/
theorem lead_r {x : Option Nat} {n : Node} : Said n (changeState n .leading) ∧
    ∀ k, x ≠ some k → Same (n.peer k) ((changeState n .leading).peer k) := said_change _

theorem updateLeading_r {x : Option Nat} {n : Node} : R x n (updateLeading n) := by
  unfold updateLeading
  dsimp only
  refine R.trans (b := n.emit .sendOutstanding) (.emit _ rfl) ?_
  generalize n.emit .sendOutstanding = n
  refine R.trans (b := if n.state = .leading then
      if n.priority = 1 then changeState n .standingDown
      else if n.shuttingDown then changeState { n with priority := 1 } .standingDown
      else if n.peers.any (standDownFor n) then changeState n .standingDown
      else n
    else n) ?_ ?_
  · split
    · rename_i hs
      have hc : inCharge n.state = true := by rw [hs]; rfl
      repeat' split
      · exact .change' _ ⟨by decide, by decide, fun _ => hc⟩
      · refine R.trans (b := { n with priority := 1 }) ?_ (.change' _ ⟨by decide, by decide, fun _ => hc⟩)
        exact .quiet [] (by simp) rfl rfl rfl rfl (Or.inr (Or.inr rfl)) rfl (fun k _ => same_of_peers rfl k)
      · exact .change' _ ⟨by decide, by decide, fun _ => hc⟩
      · exact .refl n
    · exact .refl n
  · generalize (if n.state = .leading then
      if n.priority = 1 then changeState n .standingDown
      else if n.shuttingDown then changeState { n with priority := 1 } .standingDown
      else if n.peers.any (standDownFor n) then changeState n .standingDown
      else n
    else n) = m
    repeat' split
    · refine R.thenChange ?_ _
      exact .quiet ((List.range m.peers.length).map .shutdownSocket) rfl (stateMsgs_shut _) rfl rfl rfl (Or.inl rfl) rfl
        (fun k _ => same_of_peers rfl k)
    · exact .change _
    · exact .refl m

theorem updateWaiting_r {x : Option Nat} {n : Node} : R x n (updateWaiting n) ∨
    (updateWaiting n = changeState { n with peers := n.peers.map (fun p => { p with standup := .none }) } .standingUp ∧
      currentLeader n.peers = none) := by
  unfold updateWaiting
  dsimp only
  split
  · exact Or.inl (.change _)
  · split
    · split
      · left
        repeat' split
        · refine R.thenChange (R.trans (.frame ?_ ?_ ?_ ?_ ?_ ?_ ?_) (.send _ .subscribe rfl)) _ <;> rfl
        · exact .change _
        · exact .refl n
      · rename_i hcl
        split
        · exact Or.inl (.change _)
        · split
          · exact Or.inr ⟨rfl, hcl⟩
          · exact Or.inl (.refl n)
    · exact Or.inl (.change _)

/-- Standing up: the votes are forgotten, nothing else. -/
theorem standUp_said {n : Node} :
    Said n (changeState { n with peers := n.peers.map (fun p => { p with standup := .none }) } .standingUp) :=
  Said.trans (Said.quiet (n := n) (m := { n with peers := n.peers.map (fun p => { p with standup := .none }) }) [] (by simp) rfl rfl rfl rfl
    (Or.inl rfl) rfl) (said_change (x := none) .standingUp).1

theorem setShutdownPriority_r {x : Option Nat} {n : Node} : R x n (setShutdownPriority n) := by
  unfold setShutdownPriority
  dsimp only
  split
  · exact .quiet [] (by simp) rfl rfl rfl rfl (Or.inr (Or.inr rfl)) rfl (fun k _ => same_of_peers rfl k)
  · refine { wf := fun h => ⟨h.len, h.last, by simp [Node.emit], h.conf⟩, said := fun h => ?_, seen := fun k _ => same_of_peers rfl k,
             up := fun h => ⟨h, rfl⟩, charge := id, clean := fun _ => ⟨[], by simp [Node.emit], by simp⟩ }
    refine ⟨[.sendAll (.state n.state 1 n.stateChangeCount)], [], rfl, by simp [Node.emit], ?_, by simp [stateMsgs]⟩
    intro m hm
    rw [show stateMsgs [Effect.sendAll (.state n.state 1 n.stateChangeCount)] = [(n.state, 1, n.stateChangeCount)] from rfl,
      List.mem_singleton] at hm
    subst hm
    have hl := h.last
    have hne : n.hist ≠ [] := by intro e; rw [e] at hl; cases hl
    have hpos := List.length_pos_iff.2 hne
    rw [h.len] at hpos
    refine ⟨(show (1 : Int) ≠ 0 by decide), Nat.le_refl _, hpos, ?_⟩
    show n.hist[n.stateChangeCount - 1]? = some n.state
    rw [← h.len, ← List.getLast?_eq_getElem?]
    exact hl

theorem setPriority_r {x : Option Nat} {n : Node} (new : Int) (hnew : new ≠ 0) : R x n (setPriority n new).1 := by
  unfold setPriority
  dsimp only
  have q1 : R x n { n with configured := new } := by
    refine { wf := fun h => ⟨h.len, h.last, h.prio, hnew⟩, said := fun h => ⟨[], [], by simp, by simp, by simp [stateMsgs], by simp [stateMsgs]⟩,
             seen := fun k _ => same_of_peers rfl k, up := fun h => ⟨h, rfl⟩, charge := id, clean := fun _ => ⟨[], by simp, by simp⟩ }
  have q2 : R x n ({ n with configured := new, priority := new }.emit (.sendAll (.state n.state new n.stateChangeCount))) := by
    refine { wf := fun h => ⟨h.len, h.last, hnew, hnew⟩, said := fun h => ?_, seen := fun k _ => same_of_peers rfl k,
             up := fun h => ⟨h, rfl⟩, charge := id, clean := fun _ => ⟨[], by simp [Node.emit], by simp⟩ }
    refine ⟨[.sendAll (.state n.state new n.stateChangeCount)], [], rfl, by simp [Node.emit], ?_, by simp [stateMsgs]⟩
    intro m hm
    rw [show stateMsgs [Effect.sendAll (.state n.state new n.stateChangeCount)] = [(n.state, new, n.stateChangeCount)] from rfl,
      List.mem_singleton] at hm
    subst hm
    have hl := h.last
    have hne : n.hist ≠ [] := by intro e; rw [e] at hl; cases hl
    have hpos := List.length_pos_iff.2 hne
    rw [h.len] at hpos
    refine ⟨hnew, Nat.le_refl _, hpos, ?_⟩
    show n.hist[n.stateChangeCount - 1]? = some n.state
    rw [← h.len, ← List.getLast?_eq_getElem?]
    exact hl
  repeat' split
  · exact .refl n
  · exact .refl n
  · exact .refl n
  · exact .refl n
  · exact q1
  · rename_i h
    exact q2.trans (.change' _ ⟨by decide, by decide, fun _ => by rw [h.1]; rfl⟩)
  · exact q2.thenChange _
  · exact q2
  · exact q2
  · exact q2

/-- One step that is neither a message nor a disconnect. -/
theorem step_r {x : Option Nat} {n : Node} (ev : Ev) (hp : n.peers ≠ []) (h1 : ∀ i m o, ev ≠ .message i m o)
    (h2 : ∀ i, ev ≠ .disconnect i) (h3 : ∀ p, ev = .setPriority p → p ≠ 0) : R x n (step n ev) ∨
    (n.state = .waiting ∧
      step n ev = changeState { n with peers := n.peers.map (fun p => { p with standup := .none }) } .standingUp ∧
      currentLeader n.peers = none) ∨
    (n.state = .standingUp ∧ step n ev = changeState n .leading ∧
      n.peers.countP full ≤ n.peers.countP (fun p => full p && p.loggedIn && p.standup = .approve) * 2) := by
  unfold step
  split
  · exact Or.inl (.refl n)
  · cases ev with
    | update t b =>
      dsimp only
      unfold update
      split
      · exact Or.inl (.frame rfl rfl rfl rfl rfl rfl rfl)
      · exact Or.inl (updateSearching_r hp)
      · exact Or.inl (updateSynchronizing_r t)
      · rename_i hs
        rcases updateWaiting_r (x := x) (n := n) with h | h
        · exact Or.inl h
        · exact Or.inr (Or.inl ⟨hs, h⟩)
      · rename_i hs
        rcases updateStandingUp_r (x := x) (n := n) t with h | h
        · exact Or.inl h
        · exact Or.inr (Or.inr ⟨hs, h⟩)
      · exact Or.inl updateLeading_r
      · exact Or.inl updateLeading_r
      · exact Or.inl (updateSubscribing_r t)
      · exact Or.inl (updateFollowing_r b)
    | message i m o => exact absurd rfl (h1 i m o)
    | disconnect i => exact absurd rfl (h2 i)
    | setPriority p => exact Or.inl (setPriority_r p (h3 p rfl))
    | setShutdownPriority => exact Or.inl setShutdownPriority_r
    | beginShutdown => exact Or.inl (.frame rfl rfl rfl rfl rfl rfl rfl)
    | database c j => exact Or.inl (.frame rfl rfl rfl rfl rfl rfl rfl)

end Bedrock.Node.Node
