import Verif.Props.NodeRules
import Verif.Lemmas.NodePriority

/-!
# Priorities, permafollowers, the command port and commits (C08, C13, C18, C20)
-/

namespace Bedrock.Node.Props
open Bedrock Bedrock.Node Bedrock.Node.Node Bedrock.Node.Spec

/-! ### C08: the node's part -/

/-- Over every history, workers may commit exactly unless the node has left LEADING or STANDINGDOWN
for SEARCHING and has not left SEARCHING since. -/
theorem c08_node_disables_commits (ps : List Peer) (c : Int) (v : Bytes) (k : Nat) (j : Nat → Bytes)
    (evs : List Ev) :
    (run (init ps c v k j) evs).commitEnabled = writesAllowed (run (init ps c v k j) evs).hist :=
  ((run_moves evs).ce (init_ce ps c v k j)).2

/-- Leaving leadership first stops commits, then hands every outstanding transaction to the
subscribers, and only then drops the subscriptions and tells the peers. -/
theorem c08_order_on_leaving (n : Node) (h : n.state = .leading ∨ n.state = .standingDown) :
    (changeState n .searching).out = n.out ++ [.setCommitEnabled false, .sendOutstanding, .unsubscribeAll,
        .sendAll (.state .searching n.priority (n.stateChangeCount + 1))] ∧
    (changeState n .searching).commitEnabled = false ∧
    ∀ i, ((changeState n .searching).peer i).subscribed = false := by
  have hp : ∀ i, ((n.peers.map (fun p => { p with subscribed := false })).getD i ({} : Peer)).subscribed = false := by
    intro i
    rw [List.getD_eq_getElem?_getD, List.getElem?_map]
    cases n.peers[i]? <;> rfl
  have hin : inCharge n.state = true := by rcases h with h | h <;> rw [h] <;> rfl
  have hne : ¬ NState.searching = n.state := by rcases h with h | h <;> rw [h] <;> decide
  have hnf : ¬ n.state = .following := by rcases h with h | h <;> rw [h] <;> decide
  have e : changeState n .searching = { n with
      commitEnabled := false, leadPeer := none, state := .searching
      stateChangeCount := n.stateChangeCount + 1
      peers := n.peers.map (fun p => { p with subscribed := false })
      hist := n.hist ++ [.searching]
      out := n.out ++ [.setCommitEnabled false, .sendOutstanding, .unsubscribeAll] ++
        [.sendAll (.state .searching n.priority (n.stateChangeCount + 1))] } := by
    unfold changeState
    rw [if_neg hne, if_neg hnf]
    have h2 : inCharge .searching = false := rfl
    simp [hin, h2, NState.rank]
  rw [e]
  exact ⟨by simp, rfl, hp⟩

example : (run exNode (exElection ++ [.message 0 ⟨some 3, some [], .followerStatus⟩ {}, .update false true])).commitEnabled
    = false := by decide +kernel
example : (run exNode exElection).commitEnabled = true := by decide +kernel

/-! ### C20 -/

/-- After every event, of every history in which commit counts stay below 2^63, what the command
port was last told is what the rule says, and the rule starts from what it was told before. -/
theorem c20_port_follows_rule (ps : List Peer) (c : Int) (v : Bytes) (k : Nat) (j : Nat → Bytes) (evs : List Ev)
    (hc : ∀ pre, pre <+: evs → (run (init ps c v k j) pre).commits < 2 ^ 63)
    (hm : ∀ i x h b o, Ev.message i ⟨some x, h, b⟩ o ∈ evs → x < 2 ^ 63) :
    portBlocked (run (init ps c v k j) evs).out = (run (init ps c v k j) evs).blocked ∧
    ∀ pre ev, pre ++ [ev] = evs →
      portBlocked (run (init ps c v k j) evs).out = portRule (run (init ps c v k j) pre) ev := by
  induction evs using snocInd with
  | h0 => exact ⟨rfl, fun pre ev h => by simp at h⟩
  | h1 evs ev ih =>
    have ih' := (ih (fun pre hp => hc pre (hp.trans (List.prefix_append _ _)))
      (fun i x h b o hh => hm i x h b o (List.mem_append_left _ hh))).1
    obtain ⟨h1, h2⟩ := step_blocked (run (init ps c v k j) evs) ev (hc evs (List.prefix_append _ _))
      (fun i x h b o hh => hm i x h b o (by rw [hh]; simp))
    have er : run (init ps c v k j) (evs ++ [ev]) = step (run (init ps c v k j) evs) ev := by
      rw [run_append]; rfl
    rw [er]
    refine ⟨h2 ih', fun pre e he => ?_⟩
    have := List.append_inj' he rfl
    rw [this.1, List.singleton_inj.mp this.2]
    exact (h2 ih').trans h1

/-- The rule as a hysteresis when all messages come from the leader: once closed the port stays
closed until the leader is less than 1,000 ahead, once open it stays open until it is 12,500 ahead. -/
theorem c20_hysteresis (n : Node) (i x : Nat) (h : Bytes) (b : Body) (o : DbOutcome)
    (hd : n.dead = false) (hi : i < n.peers.length) (hf : (n.peer i).forked = false) (hl : n.leadPeer = some i) :
    (n.blocked = true → (portRule n (.message i ⟨some x, some h, b⟩ o) = false ↔ (x : Int) - n.commits < 1000)) ∧
    (n.blocked = false → (portRule n (.message i ⟨some x, some h, b⟩ o) = true ↔ (12500 : Int) ≤ (x : Int) - n.commits)) := by
  have e : portRule n (.message i ⟨some x, some h, b⟩ o) =
      (if (12500 : Int) ≤ (x : Int) - n.commits then true
        else if (x : Int) - n.commits < 1000 then false else n.blocked) := by
    show (if n.dead = true ∨ n.peers.length ≤ i ∨ (n.peer i).forked = true then n.blocked else _) = _
    rw [if_neg (by simp [hd, hf]; omega)]
    simp [hl]
  rw [e]
  constructor
  · intro hb; rw [hb]
    split
    · simp; omega
    · split <;> simp_all
  · intro hb; rw [hb]
    split
    · simp_all
    · simp_all

/-- The full claim fails: a follower 20,000 commits behind its leader has closed the port; a message
from another peer that lags as well opens it again, although the follower is still as far behind. -/
def exBehind : List Ev := exFollow ++ [.message 0 ⟨some 20000, some [], .followerStatus⟩ {}]
theorem c20_laggard_reopens :
    portBlocked (run exNode exBehind).out = true ∧
    portBlocked (run exNode (exBehind ++ [.message 1 ⟨some 5, some [], .followerStatus⟩ {}])).out = false ∧
    ((run exNode (exBehind ++ [.message 1 ⟨some 5, some [], .followerStatus⟩ {}])).peer 0).commitCount = 20000 ∧
    (run exNode (exBehind ++ [.message 1 ⟨some 5, some [], .followerStatus⟩ {}])).state = .following ∧
    (run exNode (exBehind ++ [.message 1 ⟨some 5, some [], .followerStatus⟩ {}])).commits = 0 := by decide +kernel

/-! ### C18: priority changes -/

/-- What `setPriority` answers, and that a refused change changes nothing. -/
theorem c18_decision (n : Node) (p : Int) :
    let bad := p < 0 ∨ p = 1
    let clash := 0 < p ∧ ∃ q ∈ n.peers, q.loggedIn = true ∧ q.priority = p
    let breaks := p = 0 ∧ 0 < n.priority ∧ fullCount n < (n.peers.length + 2) / 2
    (bad → setPriority n p = (n, .refused 400)) ∧
    (¬ bad → clash ∨ breaks → setPriority n p = (n, .refused 409)) ∧
    (¬ bad → ¬ clash → ¬ breaks → (setPriority n p).2 = .ok n.configured ∧
      (setPriority n p).1.configured = p) := by
  intro bad clash breaks
  have hc : n.peers.any (fun q => q.loggedIn && 0 < p && q.priority = p) = true ↔ clash := by
    rw [List.any_eq_true]
    constructor
    · rintro ⟨q, hq, h⟩; simp at h; exact ⟨h.1.2, q, hq, h.1.1, h.2⟩
    · rintro ⟨h0, q, hq, h1, h2⟩; exact ⟨q, hq, by simp [h0, h1, h2]⟩
  have hb : (p = 0 ∧ 0 < n.priority ∧ n.peers.countP full < (n.peers.length + 1 + 1) / 2) ↔ breaks := Iff.rfl
  refine ⟨fun h => ?_, fun h h' => ?_, fun h h1 h2 => ?_⟩
  · unfold setPriority; rw [if_pos h]
  · unfold setPriority; rw [if_neg h]
    split
    · rfl
    · rename_i hn
      dsimp only
      rw [if_pos (hb.mpr (h'.resolve_left (fun hh => hn (hc.mpr hh))))]
  · unfold setPriority
    rw [if_neg h, if_neg (fun hh => h1 (hc.mp hh))]
    dsimp only
    rw [if_neg (fun hh => h2 (hb.mp hh))]
    repeat' split
    all_goals first | exact ⟨rfl, by assumption⟩ | exact ⟨rfl, by simp⟩ | exact ⟨rfl, rfl⟩

/-- Priorities by which nodes compete: not -1 (not yet ready), 0 (permafollower) or 1 (shutting down). -/
def normal (p : Int) : Prop := p ≠ -1 ∧ p ≠ 0 ∧ p ≠ 1
instance (p : Int) : Decidable (normal p) := inferInstanceAs (Decidable (_ ∧ _ ∧ _))

/-- No logged-in peer competes with our own priority. -/
def Unique (n : Node) : Prop :=
  ∀ i, (n.peer i).loggedIn = true → normal n.priority → (n.peer i).priority ≠ n.priority

/-- Events that bring in a priority without the check: a STATE message by which a peer takes our own
priority, and the LOGIN of the first peer with our version, with the priority we are configured for,
after we were WAITING (our own priority is taken back on at that moment, after the check). -/
def Unchecked (n : Node) (ev : Ev) : Prop :=
  (∃ i c h st scc o, ev = .message i ⟨c, h, .state st (some n.priority) scc⟩ o) ∨
  (∃ i c h st scc o, ev = .message i ⟨c, h, .login (some n.configured) st (some n.version) scc⟩ o ∧
    n.haveSeenSame = false ∧ n.haveBeenWaiting = true)

theorem Unique.of_l {n m : Node} (h : Unique n) (l : L n m) : Unique m := by
  intro i hi hn
  rcases l.own with h' | h' | h'
  · rw [h'] at hn ⊢; rw [(l.peer i hi).2]; exact h i (l.peer i hi).1 hn
  · exact absurd h' hn.2.2
  · rw [h' i] at hi; cases hi

theorem onState_unique {n : Node} (h : Unique n) (i : Nat) (st : Option NState) (p : Option Int) (scc : Option Int)
    (hp : p ≠ some n.priority) : Unique (onState n i st p scc) := by
  unfold onState
  split
  · rename_i st p
    dsimp only
    have hs : Unique (n.setPeer i (fun q => { q with priority := p, permaFollower := p = 0, state := st })) := by
      intro j hj hn
      rw [setPeer_peer] at hj ⊢
      rw [setPeer_priority] at hn ⊢
      split
      · intro hh; apply hp; rw [← hh]
      · rename_i hc; rw [if_neg hc] at hj; exact h j hj hn
    generalize n.setPeer i (fun q => { q with priority := p, permaFollower := p = 0, state := st }) = m at hs
    repeat' split
    · exact hs
    · refine hs.of_l ?_
      refine .setPeer ?_; intro p h; exact ⟨h, rfl⟩
    · exact hs.of_l (sendStandupResponse_l ..)
    · exact hs
  · exact h.of_l (.fail i)

theorem onLogin_unique {n : Node} (h : Unique n) (i : Nat) (p : Option Int) (st : Option NState)
    (v : Option Bytes) (scc : Option Int)
    (hp : ¬ (p = some n.configured ∧ v = some n.version ∧ n.haveSeenSame = false ∧ n.haveBeenWaiting = true)) :
    Unique (onLogin n i p st v scc) := by
  unfold onLogin
  split
  · exact h.of_l (.fail i)
  · rename_i hl
    split
    · rename_i p st v
      split
      · exact h.of_l (.reconnectPeer i)
      · rename_i hc
        have h1 : (∀ j, j ≠ i → ((loginRecord n i p st v).peer j).loggedIn = true → normal (loginRecord n i p st v).priority →
            ((loginRecord n i p st v).peer j).priority ≠ (loginRecord n i p st v).priority) ∧
            (normal (loginRecord n i p st v).priority → p ≠ (loginRecord n i p st v).priority) ∧
            (((loginRecord n i p st v).peer i).loggedIn = true → False) ∧
            (i < n.peers.length → ((loginRecord n i p st v).peer i).priority = p) := by
          unfold loginRecord
          dsimp only
          have e : ∀ j, j ≠ i → (n.setPeer i (fun q => { q with priority := p, version := v, state := st, permaFollower := p = 0 })).peer j
              = n.peer j := by
            intro j hj; rw [setPeer_peer, if_neg (by intro h; exact hj h.1.symm)]
          have e' : ((n.setPeer i (fun q => { q with priority := p, version := v, state := st, permaFollower := p = 0 })).peer i).loggedIn
              = (n.peer i).loggedIn := setPeer_field (·.loggedIn) (fun _ => rfl)
          have e'' : i < n.peers.length → ((n.setPeer i (fun q => { q with priority := p, version := v, state := st, permaFollower := p = 0 })).peer i).priority
              = p := by intro hi; rw [setPeer_peer, if_pos ⟨rfl, hi⟩]
          have e3 : ∀ m : Node, (∀ j, j ≠ i → m.peer j = n.peer j) → (m.peer i).loggedIn = (n.peer i).loggedIn →
              (i < n.peers.length → (m.peer i).priority = p) → m.priority = n.priority →
              (∀ j, j ≠ i → (m.peer j).loggedIn = true → normal m.priority → (m.peer j).priority ≠ m.priority) ∧
              (normal m.priority → p ≠ m.priority) ∧ ((m.peer i).loggedIn = true → False) ∧
              (i < n.peers.length → (m.peer i).priority = p) := by
            intro m a b c d
            refine ⟨fun j hj => ?_, fun hn hh => ?_, fun hh => ?_, c⟩
            · rw [a j hj, d]; exact h j
            · rw [d] at hn hh; exact hc ⟨hn.1, hn.2.1, hn.2.2, hh⟩
            · rw [b] at hh; exact hl hh
          split
          · rename_i hs
            split
            · rename_i hw
              refine ⟨fun j _ hj => ?_, fun _ hh => ?_, fun hj => ?_, fun hi => ?_⟩
              · rw [reconnectAll_none] at hj; cases hj
              · simp at hh hs hw; exact hp ⟨by rw [hh], by rw [hs.2], hs.1, hw⟩
              · rw [reconnectAll_none] at hj; cases hj
              · rw [reconnectAll_field _ (·.priority) (fun _ _ => rfl) i]
                exact e'' hi
            · exact e3 _ e e' e'' rfl
          · exact e3 _ e e' e'' (by simp)
        have hlen : (loginRecord n i p st v).peers.length = n.peers.length := by
          unfold loginRecord; dsimp only; repeat' split
          all_goals simp [reconnectAll, setPeer]
        have h2 : Unique (loginCheck (loginRecord n i p st v) i) := by
          generalize loginRecord n i p st v = m at h1 hlen
          unfold loginCheck
          split
          · refine Unique.of_l (n := m) ?_ ?_
            · intro j hj hn
              by_cases hji : j = i
              · subst hji; exact (h1.2.2.1 hj).elim
              · exact h1.1 j hji hj hn
            · refine L.trans (.send i .forked) ?_
              exact .fork i
          · intro j hj hn
            rw [setPeer_peer] at hj ⊢
            rw [setPeer_priority] at hn ⊢
            by_cases hji : i = j
            · subst hji
              by_cases hi : i < m.peers.length
              · rw [if_pos ⟨rfl, hi⟩]
                show (m.peer i).priority ≠ _
                rw [h1.2.2.2 (hlen ▸ hi)]
                exact h1.2.1 hn
              · rw [if_neg (fun hh => hi hh.2)] at hj
                exact (h1.2.2.1 hj).elim
            · rw [if_neg (fun hh => hji hh.1)] at hj ⊢
              exact h1.1 j (fun hh => hji hh.symm) hj hn
        dsimp only
        split
        · exact h2
        · split
          · exact h2.of_l (sendStandupResponse_l ..)
          · exact h2
    · exact h.of_l (.fail i)

/-- Any other event keeps it: no logged-in peer competes with our priority. Missing from the full
property: the two unchecked events, for which it fails (below). -/
theorem c18_unique_step_partial (n : Node) (ev : Ev) (h : Unique n) (hu : ¬ Unchecked n ev) : Unique (step n ev) := by
  by_cases hp : n.peers = []
  · intro i hi
    have hl : (step n ev).peers = [] := by
      have := (step_moves (n := n) ev).len
      rw [hp] at this
      exact List.eq_nil_of_length_eq_zero this
    unfold peer at hi; rw [hl] at hi; simp at hi
  cases hd : n.dead with
  | true => have es : step n ev = n := by unfold step; rw [if_pos hd]
            rw [es]; exact h
  | false =>
    have e : ∀ x : Node, (if n.dead then n else x) = x := by intro x; simp [hd]
    cases ev with
    | update t b =>
      have es : step n (.update t b) = update n t b := e _
      rw [es]; exact h.of_l (update_l t b hp)
    | message i m o =>
      have es : step n (.message i m o) = if i < n.peers.length then onMessage n i m o else n := e _
      rw [es]
      split
      · obtain ⟨c, hh, b⟩ := m
        rcases onMessage_cases n i ⟨c, hh, b⟩ o with e | e | ⟨c', h', _, _, _, e⟩
        · rw [e]; exact h
        · rw [e]; exact h.of_l (.fail i)
        · rw [e]
          have hk := h.of_l (record_l i c' h')
          have hpr : (checkLag (n.setPeer i (fun p => { p with commitCount := c', hash := h' })) i).priority = n.priority := by simp
          have hcf : (checkLag (n.setPeer i (fun p => { p with commitCount := c', hash := h' })) i).configured = n.configured := by simp
          have hvv : (checkLag (n.setPeer i (fun p => { p with commitCount := c', hash := h' })) i).version = n.version := by simp
          have hss : (checkLag (n.setPeer i (fun p => { p with commitCount := c', hash := h' })) i).haveSeenSame = n.haveSeenSame := by simp
          have hbw : (checkLag (n.setPeer i (fun p => { p with commitCount := c', hash := h' })) i).haveBeenWaiting = n.haveBeenWaiting := by simp
          generalize checkLag (n.setPeer i (fun p => { p with commitCount := c', hash := h' })) i = k at *
          cases b with
          | login p s v scc =>
            refine onLogin_unique hk i p s v scc ?_
            rw [hcf, hvv, hss, hbw]
            rintro ⟨rfl, rfl, h3, h4⟩
            exact hu (Or.inr ⟨i, c, hh, s, scc, o, rfl, h3, h4⟩)
          | state s p scc =>
            show Unique (if (k.peer i).loggedIn then onState k i s p scc else fail k i)
            split
            · refine onState_unique hk i s p scc ?_
              rw [hpr]; rintro rfl
              exact hu (Or.inl ⟨i, c, hh, s, scc, o, rfl⟩)
            · exact hk.of_l (.fail i)
          | _ => exact hk.of_l (dispatch_l i _ o (by intros; simp) (by intros; simp))
      · exact h
    | disconnect i =>
      have es : step n (.disconnect i) = if i < n.peers.length then onDisconnect n i else n := e _
      rw [es]; split
      · exact h.of_l (onDisconnect_l i)
      · exact h
    | setPriority p =>
      have es : step n (.setPriority p) = (setPriority n p).1 := e _
      rw [es]
      unfold setPriority
      split
      · exact h
      · rename_i hb
        split
        · exact h
        · rename_i hcl
          dsimp only
          split
          · exact h
          · split
            · exact h
            · have hnew : Unique (({ n with configured := p, priority := p } : Node).emit
                  (.sendAll (.state n.state p n.stateChangeCount))) := by
                intro i hi hn hh
                have hn' : normal p := hn
                have hh' : (n.peer i).priority = p := hh
                have hi' : (n.peer i).loggedIn = true := hi
                apply hcl
                have hm : n.peer i ∈ n.peers := by
                  by_cases hil : i < n.peers.length
                  · unfold peer; rw [List.getD_eq_getElem?_getD, List.getElem?_eq_getElem hil]; exact List.getElem_mem hil
                  · have : n.peer i = {} := by
                      unfold peer; rw [List.getD_eq_getElem?_getD, List.getElem?_eq_none (Nat.le_of_not_lt hil)]; rfl
                    rw [this] at hi'; cases hi'
                rw [List.any_eq_true]
                refine ⟨_, hm, ?_⟩
                have : 0 < p := by unfold normal at hn'; omega
                simp [hi', hh', this]
              split
              · exact h.of_l (.frame rfl rfl)
              · split
                · exact hnew.of_l .change
                · split
                  · split
                    · split
                      · exact hnew.of_l .change
                      · exact hnew
                    · exact hnew
                  · exact hnew
    | setShutdownPriority =>
      have es : step n .setShutdownPriority = setShutdownPriority n := e _
      rw [es]
      unfold setShutdownPriority
      dsimp only
      split
      · intro i hi hn; exact absurd rfl hn.2.2
      · intro i hi hn; exact absurd rfl hn.2.2
    | beginShutdown =>
      have es : step n .beginShutdown = { n with shuttingDown := true } := e _
      rw [es]; exact h.of_l (.frame rfl rfl)
    | database c j =>
      have es : step n (.database c j) = { n with commits := c, journal := j } := e _
      rw [es]; exact h.of_l (.frame rfl rfl)

/-- Over histories: as long as none of the two unchecked events happens. -/
theorem c18_unique_partial (ps : List Peer) (c : Int) (v : Bytes) (k : Nat) (j : Nat → Bytes) (evs : List Ev)
    (hu : ∀ pre ev, pre ++ [ev] <+: evs → ¬ Unchecked (run (init ps c v k j) pre) ev) :
    Unique (run (init ps c v k j) evs) := by
  induction evs using snocInd with
  | h0 => intro i _ hn; exact absurd rfl hn.1
  | h1 evs ev ih =>
    rw [run_append]
    exact c18_unique_step_partial _ _ (ih (fun pre e h => hu pre e (h.trans (List.prefix_append _ _))))
      (hu evs ev (List.prefix_refl _))

/-- The elections of the examples meet the hypothesis. -/
example : Unique (run exNode exElection) ∧ normal (run exNode exElection).priority ∧
    ((run exNode exElection).peer 0).loggedIn = true := by
  refine ⟨?_, by decide +kernel, by decide +kernel⟩
  intro i hi
  have : i = 0 ∨ i = 1 ∨ i = 2 ∨ 3 ≤ i := by omega
  rcases this with rfl | rfl | rfl | h
  · exact fun _ => by decide +kernel
  · exact fun _ => by decide +kernel
  · exact fun _ => by decide +kernel
  · exfalso
    have hlen : (run exNode exElection).peers.length = 3 := by decide +kernel
    unfold peer at hi
    rw [List.getD_eq_getElem?_getD, List.getElem?_eq_none (by omega)] at hi
    cases hi

/-- The full claim fails. A peer that is logged in takes our priority by a STATE message: nothing
checks it. -/
theorem c18_state_message_unchecked :
    ¬ Unique (run exNode (exElection ++ [.message 0 ⟨some 0, some [], .state (some .following) (some 100) none⟩ {}])) := by
  intro h
  exact h 0 (by decide +kernel) (by decide +kernel) (by decide +kernel)

/-- And the LOGIN that makes us take on our configured priority is not checked against it: the check
compared with -1. -/
def exLate : List Ev :=
  [ .message 0 { login 10 .waiting 0 with body := .login (some 10) (some .waiting) (some [2]) none } {},
    .message 1 { login 20 .waiting 0 with body := .login (some 20) (some .waiting) (some [2]) none } {},
    .update false true, .disconnect 0, .message 0 (login 100 .waiting 0) {} ]
theorem c18_first_login_unchecked : ¬ Unique (run exNode exLate) := by
  intro h
  exact h 0 (by decide +kernel) (by decide +kernel) (by decide +kernel)

/-! ### C13: permafollowers -/

theorem not_leadish {s : NState} (h : leadish s = false) : s ≠ .standingUp ∧ s ≠ .leading ∧ s ≠ .standingDown := by
  cases s <;> simp_all [leadish]

structure Perma (n : Node) : Prop where
  conf : n.configured = 0
  prio : n.priority ≤ 0
  low : leadish n.state = false
  peers : n.peers ≠ []

theorem Perma.of_k {n m : Node} (h : Perma n) (k : K n m) (hl : m.peers.length = n.peers.length) : Perma m where
  conf := k.conf.trans h.conf
  prio := by
    rcases k.prio with e | e
    · rw [e]; exact h.prio
    · rw [e, h.conf]; omega
  low := by
    cases hm : leadish m.state with
    | false => rfl
    | true => have := k.leadish hm; rw [h.low] at this; cases this
  peers := by intro e; rw [e] at hl; exact h.peers (List.eq_nil_of_length_eq_zero hl.symm)

theorem step_perma {n : Node} (ev : Ev) (h : Perma n) (h1 : ev ≠ .setShutdownPriority)
    (h2 : ∀ p, ev = .setPriority p → p = 0) : Perma (step n ev) := by
  have hlen := (step_moves (n := n) ev).len
  cases hd : n.dead with
  | true => have es : step n ev = n := by unfold step; rw [if_pos hd]
            rw [es]; exact h
  | false =>
    have e : ∀ x : Node, (if n.dead then n else x) = x := by intro x; simp [hd]
    cases ev with
    | update t b =>
      have es : step n (.update t b) = update n t b := e _
      rw [es] at hlen ⊢
      have hlow := not_leadish h.low
      unfold update at hlen ⊢
      split at hlen
      · exact h.of_k (.frame rfl rfl rfl rfl rfl) hlen
      · exact h.of_k (updateSearching_k h.peers) hlen
      · exact h.of_k (updateSynchronizing_k t) hlen
      · rcases updateWaiting_k (n := n) with hk | ⟨_, _, hp, _⟩
        · exact h.of_k hk hlen
        · have := h.prio; omega
      · rename_i hs; exact absurd hs hlow.1
      · rename_i hs; exact absurd hs hlow.2.1
      · rename_i hs; exact absurd hs hlow.2.2
      · exact h.of_k (updateSubscribing_k t) hlen
      · exact h.of_k (updateFollowing_k b) hlen
    | message i m o =>
      have es : step n (.message i m o) = if i < n.peers.length then onMessage n i m o else n := e _
      rw [es] at hlen ⊢
      by_cases hi : i < n.peers.length
      · rw [if_pos hi] at hlen ⊢
        by_cases hb : ∀ s r, m.body ≠ .standupResponse s r
        · exact h.of_k (onMessage_k i m o hb) hlen
        · have : ∃ s r, m.body = .standupResponse s r := by
            apply Classical.byContradiction
            intro hh; apply hb; intro s r hs; exact hh ⟨s, r, hs⟩
          obtain ⟨s, r, hb⟩ := this
          obtain ⟨c, hh, b⟩ := m
          dsimp only at hb; subst hb
          rw [c15_stale_ignored n i c hh s r o (Or.inl (not_leadish h.low).1)] at hlen ⊢
          exact h.of_k (onMessage_k i _ o (by intros; simp)) hlen
      · rw [if_neg hi]; exact h
    | disconnect i =>
      have es : step n (.disconnect i) = if i < n.peers.length then onDisconnect n i else n := e _
      rw [es] at hlen ⊢
      by_cases hi : i < n.peers.length
      · rw [if_pos hi] at hlen ⊢; exact h.of_k (onDisconnect_k i) hlen
      · rw [if_neg hi]; exact h
    | setPriority p =>
      have hp0 := h2 p rfl
      subst hp0
      have es : step n (.setPriority 0) = (setPriority n 0).1 := e _
      rw [es]
      have : (setPriority n 0).1 = n := by
        unfold setPriority
        simp only [h.conf, if_true]
        repeat' split
        all_goals rfl
      rw [this]; exact h
    | setShutdownPriority => exact absurd rfl h1
    | beginShutdown =>
      have es : step n .beginShutdown = { n with shuttingDown := true } := e _
      rw [es]; exact ⟨h.conf, h.prio, h.low, h.peers⟩
    | database c j =>
      have es : step n (.database c j) = { n with commits := c, journal := j } := e _
      rw [es]; exact ⟨h.conf, h.prio, h.low, h.peers⟩

/-- A node configured with priority 0, with at least one peer, never stands up, leads or stands down,
whatever happens, unless its priority is changed. Missing from the full property: beginning a
shutdown changes it (below). -/
theorem c13_permafollower_never_leads_partial (ps : List Peer) (v : Bytes) (k : Nat) (j : Nat → Bytes) (evs : List Ev)
    (hp : ps ≠ []) (h1 : Ev.setShutdownPriority ∉ evs) (h2 : ∀ p, Ev.setPriority p ∈ evs → p = 0) :
    (run (init ps 0 v k j) evs).state ≠ .standingUp ∧ (run (init ps 0 v k j) evs).state ≠ .leading ∧
    (run (init ps 0 v k j) evs).state ≠ .standingDown := by
  have hinv : Perma (run (init ps 0 v k j) evs) := by
    induction evs using snocInd with
    | h0 => exact ⟨rfl, by show (-1 : Int) ≤ 0; omega, rfl, hp⟩
    | h1 evs ev ih =>
      rw [run_append]
      exact step_perma ev (ih (fun h => h1 (List.mem_append_left _ h)) (fun p h => h2 p (List.mem_append_left _ h)))
        (fun h => h1 (by simp [h])) (fun p h => h2 p (by simp [h]))
  exact not_leadish hinv.low

/-- The full claim fails: the shutdown priority, 1, is higher than 0. A permafollower that begins to
shut down, and has been WAITING with peers that are not ready yet (priority -1), is elected. -/
def exPermaShutdown : List Ev :=
  [ .message 0 (login (-1) .waiting 0) {}, .message 1 (login (-1) .waiting 0) {}, .update false true,
    .disconnect 0, .disconnect 1,
    .message 0 (login (-1) .waiting 0) {}, .message 1 (login (-1) .waiting 0) {},
    .setShutdownPriority, .update false true,
    .message 0 { commitCount := some 0, hash := some [], body := .standupResponse (some 3) (some true) } {},
    .message 1 { commitCount := some 0, hash := some [], body := .standupResponse (some 3) (some true) } {},
    .update false true ]
theorem c13_shutting_down_permafollower_leads :
    (run (init exPeers 0 [1] 0 (fun _ => [])) exPermaShutdown).hist =
      [.searching, .waiting, .standingUp, .leading] := by decide +kernel

/-- The same events without the shutdown leave it waiting. -/
example : (run (init exPeers 0 [1] 0 (fun _ => [])) (exPermaShutdown.filter
    (fun e => match e with | .setShutdownPriority => false | _ => true))).state = .waiting := by decide +kernel

/-! Decisions of the other nodes. Two peer tables are compared that differ only in permafollowers:
any number of them, in any state. -/

/-- The peers that count. -/
def fullPeers (ps : List Peer) : List Peer := ps.filter (fun p => !p.permaFollower)

theorem countP_full {ps qs : List Peer} (h : fullPeers ps = fullPeers qs) (f : Peer → Bool) :
    ps.countP (fun p => full p && f p) = qs.countP (fun p => full p && f p) := by
  have e : ∀ l : List Peer, l.countP (fun p => full p && f p) = (fullPeers l).countP f := by
    intro l; unfold fullPeers; rw [List.countP_filter]; apply List.countP_congr
    intro p _; simp [full, Bool.and_comm]
  rw [e, e, h]

theorem countP_full' {ps qs : List Peer} (h : fullPeers ps = fullPeers qs) : ps.countP full = qs.countP full := by
  have := countP_full h (fun _ => true)
  simpa using this

theorem filter_full {ps qs : List Peer} (h : fullPeers ps = fullPeers qs) (f : Peer → Bool) :
    ps.filter (fun p => full p && f p) = qs.filter (fun p => full p && f p) := by
  have e : ∀ l : List Peer, l.filter (fun p => full p && f p) = (fullPeers l).filter f := by
    intro l; unfold fullPeers; rw [List.filter_filter]; apply List.filter_congr
    intro p _; simp [full, Bool.and_comm]
  rw [e, e, h]

/-- Whether a candidate leads, gives up or waits on depends only on the full peers. -/
theorem c13_election_ignores_permafollowers (n : Node) (qs : List Peer) (t b : Bool)
    (hs : n.state = .standingUp) (h : fullPeers qs = fullPeers n.peers) :
    (step { n with peers := qs } (.update t b)).state = (step n (.update t b)).state := by
  unfold step
  split
  · rfl
  · simp only [update, hs]
    unfold updateStandingUp
    have c0 := countP_full' h
    have c1 := countP_full h (fun p => p.loggedIn)
    have c2 := countP_full h (fun p => p.loggedIn && p.standup = .approve)
    have c3 := filter_full h (fun p => p.loggedIn && p.standup = .deny)
    have any_iff : ∀ l : List Peer, l.any (fun p => full p && p.loggedIn && p.standup = .deny) =
        !(l.filter (fun p => full p && (p.loggedIn && p.standup = .deny))).isEmpty := by
      intro l
      rw [Bool.eq_iff_iff]
      simp [List.any_eq_true, and_assoc]
    simp only [Bool.and_assoc] at c0 c1 c2 c3 any_iff ⊢
    rw [any_iff, any_iff, c3, c0, c1, c2]
    repeat' split
    all_goals simp [hs]

theorem currentLeader_peer (ps : List Peer) :
    (currentLeader ps).map (fun l => ps.getD l {}) =
      (ps.filter (fun p => full p && (!p.forked && (p.loggedIn && leadish p.state)))).getLast? := by
  have e : (fun p : Peer => full p && (!p.forked && (p.loggedIn && leadish p.state))) =
      (fun p => eligible p && p.loggedIn && leadish p.state) := by
    funext p; simp [eligible, Bool.and_assoc]
  rw [e]
  induction ps using snocInd with
  | h0 => rfl
  | h1 ps p ih =>
    unfold currentLeader at ih ⊢
    rw [List.zipIdx_append, List.foldl_append, List.filter_append, List.getLast?_append]
    simp only [List.zipIdx_singleton, List.foldl_cons, List.foldl_nil, Nat.zero_add]
    split
    · rename_i hc
      simp [List.filter_cons, hc, List.getD_eq_getElem?_getD]
    · rename_i hc
      simp only [List.filter_cons, hc, if_false, List.filter_nil, Bool.false_eq_true, List.getLast?_nil, Option.none_or]
      rw [← ih]
      have hb : ∀ l, currentLeader ps = some l → (ps ++ [p]).getD l {} = ps.getD l {} := by
        intro l hl
        obtain ⟨q, hq, _⟩ := currentLeader_some hl
        have hlt : l < ps.length := by
          rcases Nat.lt_or_ge l ps.length with h | h
          · exact h
          · rw [List.getElem?_eq_none h] at hq; cases hq
        simp [List.getD_eq_getElem?_getD, List.getElem?_append_left hlt]
      unfold currentLeader at hb
      generalize hg : List.foldl (fun acc (x : Peer × Nat) => if (eligible x.1 && x.1.loggedIn && leadish x.1.state) = true then some x.2 else acc)
        none ps.zipIdx = r at hb
      cases r with
      | none => rfl
      | some l => simp only [Option.map_some]; rw [hb l rfl]

/-- What a waiting node does next (stand up, subscribe, search, wait) depends only on the full peers. -/
theorem c13_waiting_ignores_permafollowers (n : Node) (qs : List Peer) (t b : Bool)
    (hs : n.state = .waiting) (h : fullPeers qs = fullPeers n.peers) :
    (step { n with peers := qs } (.update t b)).state = (step n (.update t b)).state := by
  unfold step
  split
  · rfl
  · simp only [update, hs]
    unfold updateWaiting
    have c0 := countP_full h (fun p => !p.forked)
    have c1 := filter_full h (fun p => !p.forked && p.loggedIn)
    have c2 := filter_full h (fun p => !p.forked && (p.loggedIn && leadish p.state))
    have c3 := currentLeader_peer qs
    have c4 := currentLeader_peer n.peers
    rw [c2] at c3
    have c5 := c3.trans c4.symm
    have e1 : (fun p => eligible p && p.loggedIn) = fun p : Peer => full p && (!p.forked && p.loggedIn) := by
      funext p; simp [eligible, Bool.and_assoc]
    have e0 : qs.countP eligible = n.peers.countP eligible := c0
    simp only [e0, e1, c1]
    split
    · simp
    · cases hh : highest (n.peers.filter fun p => full p && (!p.forked && p.loggedIn)) with
      | none => simp
      | some hi =>
        cases hf : freshest (n.peers.filter fun p => full p && (!p.forked && p.loggedIn)) with
        | none => simp
        | some f =>
          simp only
          cases l1 : currentLeader qs with
          | none =>
            cases l2 : currentLeader n.peers with
            | none =>
              simp only
              repeat' split
              all_goals simp [hs]
            | some b => rw [l1, l2] at c5; simp at c5
          | some a =>
            cases l2 : currentLeader n.peers with
            | none => rw [l1, l2] at c5; simp at c5
            | some b =>
              rw [l1, l2] at c5
              have c6 : qs.getD a {} = n.peers.getD b {} := by simpa using c5
              simp only
              have c7 : ({ n with peers := qs, state := .waiting } : Node).peer a = n.peer b := c6
              rw [c7]
              repeat' split
              all_goals simp [hs]

/-- Whether a searching node has the quorum to go on depends only on the full peers: without it the
node stays where it is, whatever permafollowers are connected. -/
theorem c13_searching_needs_full_quorum (n : Node) (t b : Bool) (hs : n.state = .searching) (hp : n.peers ≠ [])
    (hq : 2 * loggedInCount n < fullCount n) : step n (.update t b) = n := by
  unfold step
  split
  · rfl
  · simp only [update, hs]
    unfold updateSearching
    have hp' : n.peers.isEmpty = false := by cases h : n.peers <;> simp_all
    simp only [hp', Bool.false_eq_true, if_false]
    split
    · rfl
    · rw [if_pos]
      unfold loggedInCount fullCount at hq
      show n.peers.countP (fun p => full p && p.loggedIn) * 2 < n.peers.countP full
      unfold full
      have e : n.peers.countP (fun p => !p.permaFollower) = n.peers.countP full := rfl
      omega

/-- Whether a fork kills the node depends only on the full peers. -/
theorem c13_fork_ignores_permafollowers (n : Node) (qs : List Peer) (h : fullPeers qs = fullPeers n.peers) :
    (dieIfForked { n with peers := qs }).dead = (dieIfForked n).dead := by
  unfold dieIfForked
  have c0 := countP_full' h
  have c1 := countP_full h (fun p => p.forked)
  dsimp only
  rw [c0, c1]
  by_cases hc : (List.countP full n.peers + (if n.configured ≠ 0 then 1 else 0) + 1) / 2 ≤
      List.countP (fun p => full p && p.forked) n.peers
  · rw [if_pos hc, if_pos hc]
  · rw [if_neg hc, if_neg hc]

/-- Whether a leader that is challenged by a peer of lower priority believes that a majority
subscribes to it depends only on the full peers. -/
theorem c13_subscription_quorum_ignores_permafollowers (n : Node) (qs : List Peer)
    (h : fullPeers qs = fullPeers n.peers) :
    majoritySubscribed { n with peers := qs } = majoritySubscribed n := by
  unfold majoritySubscribed
  have c0 := countP_full' h
  have c1 := countP_full h (fun p => p.subscribed)
  simp only [c0, c1]

/-- A permafollower added to the table of the elected candidate. -/
example : (step { run exNode (exElection.take 10) with
      peers := { permaFollower := true, loggedIn := true } :: (run exNode (exElection.take 10)).peers }
    (.update false true)).state = .leading := by decide +kernel
example : fullPeers ({ permaFollower := true, loggedIn := true } :: (run exNode (exElection.take 10)).peers) =
    fullPeers (run exNode (exElection.take 10)).peers := by decide +kernel

/-- Two more decisions that permafollowers do change. A waiting permafollower with more commits makes
the leader stand down. -/
theorem c13_permafollower_deposes_leader :
    (step { exLeader4 with peers := exLeader4.peers ++
      [{ permaFollower := true, loggedIn := true, state := .waiting, commitCount := 1 }] } (.update false true)).state = .searching ∧
    (step exLeader4 (.update false true)).state = .leading := by decide +kernel

/-- **C18** A follower that is given a higher priority than that of its leader looks for a leader anew; with a lower one it goes on
following. -/
theorem c18_follower_looks_anew (n : Node) (p : Int) (l : Nat) (hs : n.state = .following) (hl : n.leadPeer = some l)
    (hp : n.priority ≠ -1 ∧ n.priority ≠ 1) (hne : n.configured ≠ p) (hok : (setPriority n p).2 = .ok n.configured)
    (hlead : (n.peer l).loggedIn = true ∧ (n.peer l).state = .leading) :
    (setPriority n p).1.state = (if (n.peer l).priority < p then .searching else .following) := by
  have hpeer : ∀ n' : Node, n'.peers = n.peers → n'.peer l = n.peer l := by intro n' h; unfold peer; rw [h]
  unfold setPriority at hok ⊢
  split at hok
  · cases hok
  rename_i h1
  rw [if_neg h1]
  split at hok
  · cases hok
  rename_i h2
  rw [if_neg h2]
  dsimp only at hok ⊢
  split at hok
  · cases hok
  rename_i h3
  rw [if_neg h3, if_neg hne, if_neg (fun h => h.elim hp.1 hp.2)]
  have hin : ∀ (a : Node) (hst : a.state = .following) (hle : a.leadPeer = some l) (hpe : a.peers = n.peers),
      (if a.state = .leading ∧ (n.peers.any fun q => q.loggedIn && p < q.priority && q.state = .following) = true then
          (changeState a .standingDown, SetPriorityResult.ok n.configured)
        else if a.state = .following then
          match a.leadPeer with
          | some l => if (a.peer l).loggedIn ∧ (a.peer l).state = .leading ∧ (a.peer l).priority < p then
              (changeState a .searching, .ok n.configured) else (a, .ok n.configured)
          | none => (a, .ok n.configured)
        else (a, .ok n.configured)).1.state = (if (n.peer l).priority < p then .searching else .following) := by
    intro a hst hle hpe
    rw [if_neg (by rw [hst]; rintro ⟨h, _⟩; cases h), if_pos hst, hle]
    dsimp only
    rw [hpeer a hpe]
    by_cases hlt : (n.peer l).priority < p
    · rw [if_pos ⟨hlead.1, hlead.2, hlt⟩, if_pos hlt, changeState_state]
    · rw [if_neg (fun h => hlt h.2.2), if_neg hlt]
      exact hst
  exact hin _ hs hl rfl

example : ∃ n : Node, n.state = .following ∧ n.leadPeer = some 0 ∧ (setPriority n 300).2 = .ok n.configured ∧
    (setPriority n 300).1.state = .searching ∧ (setPriority n 60).1.state = .following := by
  refine ⟨{ init [{ loggedIn := true, state := .leading, priority := 200 }, { loggedIn := true, state := .following, priority := 50 }]
      100 [65] 3 (fun _ => []) with state := .following, leadPeer := some 0, priority := 100 }, ?_⟩
  decide +kernel

end Bedrock.Node.Props
