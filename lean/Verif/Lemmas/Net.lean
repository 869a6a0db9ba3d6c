import Verif.Lemmas.NetNode
import Verif.Model.Net

/-!
# What is under way between the nodes
-/

namespace Bedrock.Net
open Bedrock Bedrock.Node Bedrock.Node.Node Bedrock.Node.Props

/-! ### Peers and nodes -/

theorem idOf_ixOf {i j : Nat} (h : i ≠ j) : idOf i (ixOf i j) = j := by
  unfold idOf ixOf; repeat' split
  all_goals omega

theorem ixOf_of_idOf {i k j : Nat} (h : idOf i k = j) : k = ixOf i j := by
  unfold idOf at h; unfold ixOf; split at h <;> split <;> omega

theorem idOf_ne {i k : Nat} : idOf i k ≠ i := by
  unfold idOf; split <;> omega

theorem ixOf_lt {i j n : Nat} (hi : i < n) (hj : j < n) (h : i ≠ j) : ixOf i j < n - 1 := by
  unfold ixOf; split <;> omega

theorem idOf_lt {i k n : Nat} (hk : k + 1 < n) : idOf i k < n := by
  unfold idOf; split <;> omega

theorem ixOf_inj {i j k : Nat} (hj : i ≠ j) (hk : i ≠ k) (h : ixOf i j = ixOf i k) : j = k := by
  rw [← idOf_ixOf hj, h, idOf_ixOf hk]

/-! ### What is sent -/

def stOf : OutMsg → Option (NState × Int × Nat)
  | .state s p c => some (s, p, c)
  | _ => none

/-- The states announced by the messages under way. -/
def said (c : List Packet) : List (NState × Int × Nat) :=
  c.filterMap fun p => match p.payload with
    | .out m => stOf m
    | .login .. => none

theorem said_append (a b : List Packet) : said (a ++ b) = said a ++ said b := by simp [said]

theorem said_map (l : List OutMsg) (c : Nat) (h : Bytes) :
    said (l.map fun m => { commits := c, hash := h, payload := .out m }) = l.filterMap stOf := by
  unfold said
  rw [List.filterMap_map]
  rfl

def isLogin (p : Packet) : Bool := match p.payload with
  | .login .. => true
  | .out _ => false

/-- An approval of attempt `k`. -/
def approves (k : Int) (p : Packet) : Prop := p.payload = .out (.standupResponse (some k) (some true))

theorem sends_closed {i j : Nat} {f : Bool} : ∀ {s : Side} {es : List Effect}, (sends i j f s es).2 = .closed ↔ s = .closed
  | s, [] => Iff.rfl
  | s, e :: es => by
    cases e with
    | shutdownSocket k =>
      show (sends i j f (if idOf i k = j ∧ s = .open then .closing else s) es).2 = .closed ↔ _
      rw [sends_closed]
      split
      · rename_i h; simp [h.2]
      · exact Iff.rfl
    | send k m =>
      show (if idOf i k = j ∧ s = .open then (m :: (sends i j f s es).1, (sends i j f s es).2) else sends i j f s es).2 = .closed ↔ _
      split <;> exact sends_closed
    | sendAll m =>
      show (if s = .open ∧ f = false then (m :: (sends i j f s es).1, (sends i j f s es).2) else sends i j f s es).2 = .closed ↔ _
      split <;> exact sends_closed
    | _ => exact sends_closed (es := es)

theorem sends_mem {i j : Nat} {f : Bool} {m : OutMsg} : ∀ {s : Side} {es : List Effect}, m ∈ (sends i j f s es).1 →
    (∃ k, idOf i k = j ∧ Effect.send k m ∈ es) ∨ Effect.sendAll m ∈ es
  | s, [], h => by cases h
  | s, e :: es, h => by
    have lift : ((∃ k, idOf i k = j ∧ Effect.send k m ∈ es) ∨ Effect.sendAll m ∈ es) →
        (∃ k, idOf i k = j ∧ Effect.send k m ∈ e :: es) ∨ Effect.sendAll m ∈ e :: es := by
      rintro (⟨k, h1, h2⟩ | h)
      · exact Or.inl ⟨k, h1, List.mem_cons_of_mem _ h2⟩
      · exact Or.inr (List.mem_cons_of_mem _ h)
    cases e with
    | shutdownSocket k => exact lift (sends_mem (es := es) h)
    | send k m' =>
      change m ∈ (if idOf i k = j ∧ s = .open then (m' :: (sends i j f s es).1, (sends i j f s es).2) else sends i j f s es).1 at h
      split at h
      · rename_i hk
        rcases List.mem_cons.1 h with e | h
        · subst e; exact Or.inl ⟨k, hk.1, List.mem_cons_self⟩
        · exact lift (sends_mem h)
      · exact lift (sends_mem h)
    | sendAll m' =>
      change m ∈ (if s = .open ∧ f = false then (m' :: (sends i j f s es).1, (sends i j f s es).2) else sends i j f s es).1 at h
      split at h
      · rcases List.mem_cons.1 h with e | h
        · subst e; exact Or.inr List.mem_cons_self
        · exact lift (sends_mem h)
      · exact lift (sends_mem h)
    | _ => exact lift (sends_mem (es := es) h)

theorem sends_said {i j : Nat} {f : Bool} : ∀ {s : Side} {es : List Effect},
    ((sends i j f s es).1.filterMap stOf).Sublist (stateMsgs es)
  | s, [] => .slnil
  | s, e :: es => by
    cases e with
    | shutdownSocket k => exact sends_said (es := es)
    | send k m =>
      show ((if idOf i k = j ∧ s = .open then (m :: (sends i j f s es).1, (sends i j f s es).2) else sends i j f s es).1.filterMap stOf).Sublist _
      have ih := sends_said (i := i) (j := j) (f := f) (s := s) (es := es)
      split
      · cases m <;> first | exact ih | exact ih.cons_cons _ | exact ih.cons _
      · cases m <;> first | exact ih | exact ih.cons _
    | sendAll m =>
      show ((if s = .open ∧ f = false then (m :: (sends i j f s es).1, (sends i j f s es).2) else sends i j f s es).1.filterMap stOf).Sublist _
      have ih := sends_said (i := i) (j := j) (f := f) (s := s) (es := es)
      split
      · cases m <;> first | exact ih | exact ih.cons_cons _ | exact ih.cons _
      · cases m <;> first | exact ih | exact ih.cons _
    | _ => exact sends_said (es := es)

/-- An approval goes to the one that is asked, not to all. -/
theorem approve_to {i j : Nat} {f : Bool} {s : Side} {es : List Effect} {c : Option Int} {c0 : Nat} {hist : List NState}
    (ho : Ok c0 hist es) (h : OutMsg.standupResponse c (some true) ∈ (sends i j f s es).1) : (ixOf i j, c) ∈ approvals es := by
  rcases sends_mem h with ⟨k, hk, hm⟩ | hm
  · rw [← ixOf_of_idOf hk]
    exact List.mem_filterMap.2 ⟨_, hm, rfl⟩
  · exact absurd rfl (ho.1 (.unknown, 0, 0) (List.mem_filterMap.2 ⟨_, hm, rfl⟩)).1

/-! ### Everywhere, always -/

/-- What is announced between two nodes is the history of the one. -/
def Told (n : Node) (c : List Packet) : Prop :=
  (∀ m ∈ said c, 1 ≤ m.2.2 ∧ n.hist[m.2.2 - 1]? = some m.1) ∧ (said c).Pairwise (fun a b => a.2.2 ≤ b.2.2)

/-- No message says that its sender is a permafollower. -/
def Full (c : List Packet) : Prop := ∀ p ∈ c, match p.payload with
  | .login p _ _ => p ≠ 0
  | .out (.state _ p _) => p ≠ 0
  | .out _ => True

structure Base (net : Net) : Prop where
  two : 2 ≤ net.size
  wf : ∀ i, i < net.size → Wf (net.node i)
  quiet : ∀ i, i < net.size → (net.node i).out = []
  len : ∀ i, i < net.size → (net.node i).peers.length + 1 = net.size
  perma : ∀ i j, i < net.size → j < net.size → i ≠ j → (net.view i j).permaFollower = false
  told : ∀ i j, i < net.size → j < net.size → i ≠ j → net.side i j ≠ .closed → Told (net.node i) (net.chan i j)
  full : ∀ i j, Full (net.chan i j)
  login : ∀ i j, ∀ p ∈ (net.chan i j).tail, isLogin p = false
  approved : ∀ i j, i < net.size → j < net.size → i ≠ j → net.side i j ≠ .closed →
    ∀ k p, p ∈ net.chan j i → approves k p → k ≤ (net.node i).stateChangeCount

/-- Who is logged in is connected, and has sent its LOGIN before. -/
def Greeted (net : Net) : Prop := ∀ i j, i < net.size → j < net.size → i ≠ j → (net.view i j).loggedIn = true →
  net.side i j ≠ .closed ∧ ∀ p ∈ net.chan j i, isLogin p = false

theorem settle_node (net : Net) (i : Nat) (n : Node) (a : Nat) :
    (settle net i n).node a = if a = i then { n with out := [] } else net.node a := rfl

theorem settle_view (net : Net) (i : Nat) (n : Node) (a b : Nat) :
    (settle net i n).view a b = if a = i then n.peer (ixOf i b) else net.view a b := by
  unfold Net.view
  rw [settle_node]
  split
  · rename_i h; rw [h]; rfl
  · rfl

theorem settle_side (net : Net) (i : Nat) (n : Node) (a b : Nat) :
    (settle net i n).side a b = .closed ↔ net.side a b = .closed := by
  show (if a = i then (sends i b (n.peer (ixOf i b)).forked (net.side i b) n.out).2 else net.side a b) = .closed ↔ _
  split
  · rename_i h; rw [h]; exact sends_closed
  · exact Iff.rfl

theorem settle_chan_ne {net : Net} {i : Nat} {n : Node} {a b : Nat} (h : a ≠ i) : (settle net i n).chan a b = net.chan a b :=
  if_neg h

theorem settle_chan (net : Net) (i : Nat) (n : Node) (b : Nat) : (settle net i n).chan i b = net.chan i b ++
    (sends i b (n.peer (ixOf i b)).forked (net.side i b) n.out).1.map
      fun m => { commits := n.commits, hash := n.journal n.commits, payload := .out m } := if_pos rfl

theorem _root_.Bedrock.Node.Node.Said.scc {n n' : Node} (h : Said n n') (hw : Wf n) : n.stateChangeCount ≤ n'.stateChangeCount := by
  obtain ⟨es, l, _, e, _⟩ := h.said hw
  rw [← hw.len, ← (h.wf hw).len, e, List.length_append]
  omega

/-- A node does something. -/
theorem settle_base {net : Net} (h : Base net) {i : Nat} (hi : i < net.size) {n : Node} (hs : Said (net.node i) n)
    (hl : n.peers.length = (net.node i).peers.length)
    (hp : ∀ j, j < net.size → i ≠ j → (n.peer (ixOf i j)).permaFollower = false)
    (hav : ∀ j k, j < net.size → i ≠ j → net.side j i ≠ .closed → (ixOf i j, some k) ∈ approvals n.out →
      k ≤ (net.node j).stateChangeCount) : Base (settle net i n) := by
  have hwf := h.wf i hi
  have hq := h.quiet i hi
  obtain ⟨es, l, e1, e2, hok⟩ := hs.said hwf
  rw [hq, List.nil_append] at e1
  rw [e1.symm] at hok
  refine ⟨h.two, ?_, ?_, ?_, ?_, ?_, ?_, ?_, ?_⟩
  · intro a ha
    rw [settle_node]; split
    · have := hs.wf hwf
      exact ⟨this.len, this.last, this.prio, this.conf⟩
    · exact h.wf a ha
  · intro a ha
    rw [settle_node]; split
    · rfl
    · exact h.quiet a ha
  · intro a ha
    rw [settle_node]; split
    · show n.peers.length + 1 = net.size
      rw [hl]; exact h.len i hi
    · exact h.len a ha
  · intro a b ha hb hab
    rw [settle_view]; split
    · rename_i e; subst e; exact hp b hb hab
    · exact h.perma a b ha hb hab
  · intro a b ha hb hab hsd
    have hsd' : net.side a b ≠ .closed := fun e => hsd ((settle_side ..).2 e)
    have ht := h.told a b ha hb hab hsd'
    rw [settle_node]
    by_cases e : a = i
    · subst e
      rw [if_pos rfl, settle_chan]
      have hsub := sends_said (i := a) (j := b) (f := (n.peer (ixOf a b)).forked) (s := net.side a b) (es := n.out)
      have old : ∀ m ∈ said (net.chan a b), 1 ≤ m.2.2 ∧ n.hist[m.2.2 - 1]? = some m.1 := by
        intro m hm
        refine ⟨(ht.1 m hm).1, ?_⟩
        rw [e2, List.getElem?_append_left (List.getElem?_eq_some_iff.1 (ht.1 m hm).2).1]
        exact (ht.1 m hm).2
      refine ⟨?_, ?_⟩
      · intro m hm
        rw [said_append, said_map] at hm
        rcases List.mem_append.1 hm with hm | hm
        · exact old m hm
        · exact (hok.1 m (hsub.subset hm)).2.2
      · rw [said_append, said_map, List.pairwise_append]
        refine ⟨ht.2, hok.2.sublist hsub, fun x hx y hy => ?_⟩
        have h1 := (List.getElem?_eq_some_iff.1 (ht.1 x hx).2).1
        have h2 := (hok.1 y (hsub.subset hy)).2.1
        rw [hwf.len] at h1
        omega
    · rw [if_neg e, settle_chan_ne e]; exact ht
  · intro a b
    by_cases e : a = i
    · subst e
      rw [settle_chan]
      intro p hp
      rcases List.mem_append.1 hp with hp | hp
      · exact h.full a b p hp
      · obtain ⟨m, hm, e⟩ := List.mem_map.1 hp
        subst e
        cases m with
        | state s q c =>
          have hsub := sends_said (i := a) (j := b) (f := (n.peer (ixOf a b)).forked) (s := net.side a b) (es := n.out)
          exact (hok.1 (s, q, c) (hsub.subset (List.mem_filterMap.2 ⟨_, hm, rfl⟩))).1
        | _ => trivial
    · rw [settle_chan_ne e]; exact h.full a b
  · intro a b
    by_cases e : a = i
    · subst e
      rw [settle_chan]
      intro p hp
      have : ∀ c : List Packet, ∀ d : List OutMsg, p ∈ (c ++ d.map fun m =>
          ({ commits := n.commits, hash := n.journal n.commits, payload := .out m } : Packet)).tail →
          p ∈ c.tail ∨ ∃ m, p.payload = .out m := by
        intro c d hp
        cases c with
        | nil =>
          obtain ⟨m, _, e⟩ := List.mem_map.1 (List.mem_of_mem_tail hp)
          exact Or.inr ⟨m, by rw [← e]⟩
        | cons x c =>
          rcases List.mem_append.1 hp with hp | hp
          · exact Or.inl hp
          · obtain ⟨m, _, e⟩ := List.mem_map.1 hp
            exact Or.inr ⟨m, by rw [← e]⟩
      rcases this _ _ hp with hp | ⟨m, hm⟩
      · exact h.login a b p hp
      · unfold isLogin; rw [hm]
    · rw [settle_chan_ne e]; exact h.login a b
  · intro a b ha hb hab hsd k p hp hap
    have hsd' : net.side a b ≠ .closed := fun e => hsd ((settle_side ..).2 e)
    have old : p ∈ net.chan b a → k ≤ (net.node a).stateChangeCount := fun hp => h.approved a b ha hb hab hsd' k p hp hap
    have goal : k ≤ (net.node a).stateChangeCount → k ≤ ((settle net i n).node a).stateChangeCount := by
      intro hk
      rw [settle_node]; split
      · rename_i e; subst e
        have := hs.scc hwf
        show k ≤ (n.stateChangeCount : Int)
        omega
      · exact hk
    apply goal
    by_cases e : b = i
    · subst e
      rw [settle_chan] at hp
      rcases List.mem_append.1 hp with hp | hp
      · exact old hp
      · obtain ⟨m, hm, e⟩ := List.mem_map.1 hp
        rw [← e] at hap
        have em : m = .standupResponse (some k) (some true) := by injection hap
        subst em
        exact hav a k ha (Ne.symm hab) hsd' (approve_to hok hm)
    · rw [settle_chan_ne e] at hp
      exact old hp

theorem settle_greeted {net : Net} {i : Nat} {n : Node}
    (h : ∀ a j, a ≠ i → a < net.size → j < net.size → a ≠ j → (net.view a j).loggedIn = true →
      net.side a j ≠ .closed ∧ ∀ p ∈ net.chan j a, isLogin p = false)
    (hn : ∀ j, j < net.size → i ≠ j → (n.peer (ixOf i j)).loggedIn = true →
      net.side i j ≠ .closed ∧ ∀ p ∈ net.chan j i, isLogin p = false) : Greeted (settle net i n) := by
  intro a b ha hb hab hl
  rw [settle_view] at hl
  have base : net.side a b ≠ .closed ∧ ∀ p ∈ net.chan b a, isLogin p = false := by
    split at hl
    · rename_i e; subst e; exact hn b hb hab hl
    · rename_i e; exact h a b e ha hb hab hl
  refine ⟨fun e => base.1 ((settle_side ..).1 e), ?_⟩
  by_cases e : b = i
  · subst e
    rw [settle_chan]
    intro p hp
    rcases List.mem_append.1 hp with hp | hp
    · exact base.2 p hp
    · obtain ⟨m, _, e⟩ := List.mem_map.1 hp
      rw [← e]; rfl
  · rw [settle_chan_ne e]; exact base.2

end Bedrock.Net

namespace Bedrock.Net
open Bedrock Bedrock.Node Bedrock.Node.Node Bedrock.Node.Props

structure Good (net : Net) : Prop where
  base : Base net
  greeted : Greeted net

/-- No node is made a permafollower. -/
def Ev.full : Ev → Prop
  | .setPriority _ p => p ≠ 0
  | .restart _ c _ _ _ => c ≠ 0
  | _ => True

/-- What a node does of its own accord. -/
theorem own_step {n : Node} {ev : Node.Ev} (hp : n.peers ≠ []) (h1 : ∀ i m o, ev ≠ .message i m o)
    (h2 : ∀ i, ev ≠ .disconnect i) (h3 : ∀ p, ev = .setPriority p → p ≠ 0) :
    Said n (Node.step n ev) ∧ approvals (Node.step n ev).out = approvals n.out ∧
    ∀ k, ((Node.step n ev).peer k).permaFollower = (n.peer k).permaFollower ∧ ((Node.step n ev).peer k).state = (n.peer k).state ∧
      (((Node.step n ev).peer k).loggedIn = true → (n.peer k).loggedIn = true) := by
  have happ : approvals (Node.step n ev).out = approvals n.out := by
    by_cases h : approvals (Node.step n ev).out = approvals n.out
    · exact h
    · obtain ⟨i, m, o, _, _, e, _⟩ := c12_approves_only_unopposed n ev h
      exact absurd e (h1 i m o)
  rcases step_r (x := none) ev hp h1 h2 h3 with h | ⟨_, e, _⟩ | ⟨_, e, _⟩
  · exact ⟨h.toSaid, happ, fun k => ⟨(h.seen k nofun).perma, (h.seen k nofun).state, (h.seen k nofun).login⟩⟩
  · refine ⟨e ▸ standUp_said, happ, fun k => ?_⟩
    rw [e]
    have hs := (said_change (x := none) (n := { n with peers := n.peers.map (fun p => { p with standup := .none }) }) .standingUp).2 k nofun
    have hf : ∀ {α : Type} (F : Peer → α), (∀ p : Peer, F { p with standup := .none } = F p) →
        F (({ n with peers := n.peers.map (fun p => { p with standup := .none }) } : Node).peer k) = F (n.peer k) := by
      intro α F hF
      exact getD_map hF k
    refine ⟨hs.perma.trans (hf (·.permaFollower) (fun _ => rfl)), hs.state.trans (hf (·.state) (fun _ => rfl)), fun hl => ?_⟩
    exact (hf (·.loggedIn) (fun _ => rfl)).symm.trans (hs.login hl)
  · rw [e] at happ ⊢
    have hs := fun k => (lead_r (x := none) (n := n)).2 k nofun
    exact ⟨(lead_r (x := none)).1, happ, fun k => ⟨(hs k).perma, (hs k).state, (hs k).login⟩⟩

theorem Base.peers {net : Net} (h : Base net) {i : Nat} (hi : i < net.size) : (net.node i).peers ≠ [] := by
  intro e
  have := h.len i hi
  have := h.two
  rw [e] at *
  simp at *
  omega

theorem own_good {net : Net} (h : Good net) {i : Nat} (hi : i < net.size) {ev : Node.Ev} (h1 : ∀ i m o, ev ≠ .message i m o)
    (h2 : ∀ i, ev ≠ .disconnect i) (h3 : ∀ p, ev = .setPriority p → p ≠ 0) : Good (act net i ev) := by
  obtain ⟨hs, ha, hk⟩ := own_step (h.base.peers hi) h1 h2 h3
  refine ⟨settle_base h.base hi hs (step_moves ev).len ?_ ?_, settle_greeted ?_ ?_⟩
  · intro j hj hij
    rw [(hk _).1]; exact h.base.perma i j hi hj hij
  · intro j k _ _ _ hm
    rw [ha, h.base.quiet i hi] at hm; cases hm
  · intro a j _ ha hj haj hl
    exact h.greeted a j ha hj haj hl
  · intro j hj hij hl
    exact h.greeted i j hi hj hij ((hk _).2.2 hl)

/-- The message that was delivered is gone. -/
theorem drop_base {net : Net} (h : Base net) {i j : Nat} {p : Packet} {rest : List Packet} (hc : net.chan i j = p :: rest) :
    Base { net with chan := upd2 net.chan i j rest } := by
  have hsub : ∀ a b, (upd2 net.chan i j rest a b).Sublist (net.chan a b) := by
    intro a b
    unfold upd2
    split
    · rename_i e; rw [e.1, e.2, hc]; exact List.sublist_cons_self p rest
    · exact .refl _
  have hsaid : ∀ a b, (said (upd2 net.chan i j rest a b)).Sublist (said (net.chan a b)) := fun a b => (hsub a b).filterMap _
  refine ⟨h.two, h.wf, h.quiet, h.len, h.perma, ?_, ?_, ?_, ?_⟩
  · intro a b ha hb hab hs
    have ht := h.told a b ha hb hab hs
    exact ⟨fun m hm => ht.1 m ((hsaid a b).subset hm), ht.2.sublist (hsaid a b)⟩
  · intro a b q hq
    exact h.full a b q ((hsub a b).subset hq)
  · intro a b q hq
    refine h.login a b q ?_
    have : (upd2 net.chan i j rest a b).tail.Sublist (net.chan a b).tail := (hsub a b).tail
    exact this.subset hq
  · intro a b ha hb hab hs k q hq
    exact h.approved a b ha hb hab hs k q ((hsub b a).subset hq)

theorem body_plain {mm : Bool} {p : Payload} : plain (body mm p) = true ∨
    (∃ q s v, p = .login q s v ∧ body mm p = .login (some q) (some s) (some v) none) ∨
    (∃ s q c, p = .out (.state s q c) ∧ body mm p = .state (some s) (some q) (some (c : Int))) ∨
    (∃ c r, p = .out (.standupResponse c r) ∧ body mm p = .standupResponse c r) := by
  cases p with
  | login q s v => exact Or.inr (Or.inl ⟨q, s, v, rfl, rfl⟩)
  | out m =>
    cases m with
    | state s q c => exact Or.inr (Or.inr (Or.inl ⟨s, q, c, rfl, rfl⟩))
    | standupResponse c r => exact Or.inr (Or.inr (Or.inr ⟨c, r, rfl, rfl⟩))
    | _ => exact Or.inl rfl

/-- What a delivery leaves of a node. -/
structure Handled (net : Net) (i j : Nat) (p : Packet) (n' : Node) : Prop where
  r : R (some (ixOf j i)) (net.node j) n'
  perma : (n'.peer (ixOf j i)).permaFollower = false
  app : ∀ x c, (x, some c) ∈ approvals n'.out → x = ixOf j i ∧ ∃ s q k, p.payload = .out (.state s q k) ∧ c = (k : Int)

theorem deliver_handled {net : Net} (h : Base net) {i j : Nat} (hi : i < net.size) (hj : j < net.size) (hij : i ≠ j)
    {p : Packet} {rest : List Packet} (hc : net.chan i j = p :: rest) (mm : Bool) (o : DbOutcome) :
    Handled net i j p (Node.step (net.node j) (.message (ixOf j i)
      { commitCount := some p.commits, hash := some p.hash, body := body mm p.payload } o)) := by
  have hf := h.full i j p (by rw [hc]; exact List.mem_cons_self)
  have hpm := h.perma j i hj hi (Ne.symm hij)
  refine ⟨message_r, ?_, ?_⟩
  · rcases body_plain (mm := mm) (p := p.payload) with hb | ⟨q, s, v, e, hb⟩ | ⟨s, q, c, e, hb⟩ | ⟨c, r, e, hb⟩
    · rw [((plain_at (n := net.node j) hb).seen (ixOf j i) nofun).perma]; exact hpm
    · rw [hb]
      rcases login_at (n := net.node j) rfl with hr | ⟨_, hq, _⟩
      · rw [(hr.seen (ixOf j i) nofun).perma]; exact hpm
      · rw [hq]; rw [e] at hf; exact decide_eq_false hf
    · rw [hb]
      rcases state_at (n := net.node j) rfl with ⟨hr, _⟩ | ⟨_, _, _, hq, _⟩
      · rw [(hr.seen (ixOf j i) nofun).perma]; exact hpm
      · rw [hq]; rw [e] at hf; exact decide_eq_false hf
    · rw [hb]
      rcases vote_at (n := net.node j) rfl with hr | ⟨_, _, _, _, _, _, hq, _⟩
      · rw [(hr.seen (ixOf j i) nofun).perma]; exact hpm
      · rw [hq]; exact hpm
  · intro x c hm
    have hne : approvals (Node.step (net.node j) (.message (ixOf j i)
      { commitCount := some p.commits, hash := some p.hash, body := body mm p.payload } o)).out ≠ approvals (net.node j).out := by
      intro e
      rw [e, h.quiet j hj] at hm; cases hm
    obtain ⟨i', m, o', scc, _, e, ha, _, _, _, _, _, _, _, happ⟩ := c12_approves_only_unopposed _ _ hne
    rw [happ, h.quiet j hj] at hm
    injection e with e1 e2 e3
    subst e1 e2
    have hm' := List.mem_singleton.1 (show (x, some c) ∈ [(ixOf j i, scc)] from hm)
    injection hm' with g1 g2
    refine ⟨g1, ?_⟩
    subst g2
    dsimp only at ha
    cases hpl : p.payload with
    | login q s v =>
      rw [hpl] at ha
      cases s <;> first | cases ha | (simp only [body, announces] at ha; cases ha)
    | out m =>
      rw [hpl] at ha
      cases m with
      | state s q k =>
        refine ⟨s, q, k, rfl, ?_⟩
        cases s <;> simp only [body, announces] at ha <;> first | (injection ha with ha; injection ha with ha; exact ha.symm) | cases ha
      | _ => cases ha

theorem deliver_good {net : Net} (h : Good net) {i j : Nat} (hi : i < net.size) (hj : j < net.size) (hij : i ≠ j)
    (hs : net.side j i ≠ .closed)
    {p : Packet} {rest : List Packet} (hc : net.chan i j = p :: rest) (mm : Bool) (o : DbOutcome) :
    Good (act { net with chan := upd2 net.chan i j rest } j (.message (ixOf j i)
      { commitCount := some p.commits, hash := some p.hash, body := body mm p.payload } o)) := by
  have hd := drop_base h.base hc
  have hh := deliver_handled h.base hi hj hij hc mm o
  refine ⟨settle_base hd hj hh.r.toSaid (step_moves _).len ?_ ?_, settle_greeted ?_ ?_⟩
  · intro b hb hjb
    by_cases e : b = i
    · subst e; exact hh.perma
    · rw [(hh.r.seen (ixOf j b) (fun e' => e (ixOf_inj hjb (Ne.symm hij) (Option.some.inj e').symm))).perma]
      exact h.base.perma j b hj hb hjb
  · intro b k hb hjb hsb hm
    obtain ⟨e1, s, q, c, e2, e3⟩ := hh.app _ _ hm
    have e := ixOf_inj hjb (Ne.symm hij) e1
    subst e
    have ht := (h.base.told b j hb hj hij hsb).1 (s, q, c) (by
      rw [hc]
      exact List.mem_filterMap.2 ⟨p, List.mem_cons_self, by rw [e2]; rfl⟩)
    have h1 := (List.getElem?_eq_some_iff.1 ht.2).1
    rw [(h.base.wf b hb).len] at h1
    have h2 := ht.1
    dsimp only at h1 h2
    show k ≤ ((net.node b).stateChangeCount : Int)
    omega
  · intro a b hne ha hb hab hl
    have hg := h.greeted a b ha hb hab hl
    refine ⟨hg.1, fun q hq => hg.2 q ?_⟩
    have : upd2 net.chan i j rest b a = net.chan b a := if_neg (fun e => hne e.2)
    dsimp only at hq
    rw [this] at hq; exact hq
  · intro b hb hjb hl
    by_cases e : b = i
    · subst e
      refine ⟨hs, fun q hq => ?_⟩
      have : upd2 net.chan b j rest b j = rest := if_pos ⟨rfl, rfl⟩
      dsimp only at hq
      rw [this] at hq
      refine h.base.login b j q ?_
      rw [hc]; exact hq
    · have hl' := (hh.r.seen (ixOf j b) (fun e' => e (ixOf_inj hjb (Ne.symm hij) (Option.some.inj e').symm))).login hl
      have hg := h.greeted j b hj hb hjb hl'
      refine ⟨hg.1, fun q hq => hg.2 q ?_⟩
      have : upd2 net.chan i j rest b j = net.chan b j := if_neg (fun e' => e e'.1)
      dsimp only at hq
      rw [this] at hq; exact hq

theorem upd2_side {net : Net} {i j a b : Nat} (h : upd2 net.side i j .closed a b ≠ .closed) : net.side a b ≠ .closed := by
  unfold upd2 at h
  split at h
  · exact absurd rfl h
  · exact h

theorem lost_good {net : Net} (h : Good net) {i j : Nat} (hi : i < net.size) (hj : j < net.size) (hij : i ≠ j)
    (hd : (net.node i).dead = false) :
    Good (act { net with side := upd2 net.side i j .closed } i (.disconnect (ixOf i j))) := by
  have hb : Base { net with side := upd2 net.side i j .closed } :=
    ⟨h.base.two, h.base.wf, h.base.quiet, h.base.len, h.base.perma,
      fun a b ha hb hab hs => h.base.told a b ha hb hab (upd2_side hs), h.base.full, h.base.login,
      fun a b ha hb hab hs => h.base.approved a b ha hb hab (upd2_side hs)⟩
  have hlen : ixOf i j < (net.node i).peers.length := by
    have := h.base.len i hi
    have := ixOf_lt hi hj hij
    omega
  have hat := disconnect_at hd hlen
  have hr := disconnect_r (n := net.node i) (i := ixOf i j)
  refine ⟨settle_base hb hi hr.toSaid (step_moves _).len ?_ ?_, settle_greeted ?_ ?_⟩
  · intro b hb hib
    by_cases e : b = j
    · subst e; rw [hat.2.1]; exact h.base.perma i b hi hb hib
    · rw [(hr.seen (ixOf i b) (fun e' => e (ixOf_inj hib hij (Option.some.inj e').symm))).perma]
      exact h.base.perma i b hi hb hib
  · intro b k _ _ _ hm
    have : approvals (Node.step (net.node i) (.disconnect (ixOf i j))).out = approvals (net.node i).out := by
      apply Classical.byContradiction
      intro hne
      obtain ⟨_, _, _, _, _, e, _⟩ := c12_approves_only_unopposed _ _ hne
      cases e
    rw [this, h.base.quiet i hi] at hm
    cases hm
  · intro a b hne ha hb hab hl
    have hg := h.greeted a b ha hb hab hl
    refine ⟨?_, hg.2⟩
    have : upd2 net.side i j .closed a b = net.side a b := if_neg (fun e => hne e.1)
    dsimp only
    rw [this]; exact hg.1
  · intro b hb hib hl
    by_cases e : b = j
    · subst e
      rw [show ((Node.step (net.node i) (.disconnect (ixOf i b))).peer (ixOf i b)).loggedIn = false from hat.1] at hl
      cases hl
    · have hl' := (hr.seen (ixOf i b) (fun e' => e (ixOf_inj hib hij (Option.some.inj e').symm))).login hl
      have hg := h.greeted i b hi hb hib hl'
      refine ⟨?_, hg.2⟩
      have : upd2 net.side i j .closed i b = net.side i b := if_neg (fun e' => e e'.2)
      dsimp only
      rw [this]; exact hg.1

theorem hello_login (n : Node) : isLogin (hello n) = true := rfl

/-- The two channels of a new connection, and the others. -/
theorem connect_chan {c : Nat → Nat → List Packet} {i j : Nat} (x y : List Packet) (hij : i ≠ j) (a b : Nat) :
    upd2 (upd2 c i j x) j i y a b = if a = i ∧ b = j then x else if a = j ∧ b = i then y else c a b := by
  unfold upd2
  by_cases h1 : a = i ∧ b = j
  · rw [if_pos h1, if_neg (fun e => hij (h1.1.symm.trans e.1)), if_pos h1]
  · rw [if_neg h1, if_neg h1]

theorem connect_good {net : Net} (h : Good net) {i j : Nat} (hi : i < net.size) (hj : j < net.size) (hij : i ≠ j)
    (h1 : net.side i j = .closed) (h2 : net.side j i = .closed) :
    Good { net with
        side := upd2 (upd2 net.side i j .open) j i .open
        chan := upd2 (upd2 net.chan i j [hello (net.node i)]) j i [hello (net.node j)] } := by
  have hside : ∀ a b, ¬ (a = i ∧ b = j) → ¬ (a = j ∧ b = i) → upd2 (upd2 net.side i j .open) j i .open a b = net.side a b := by
    intro a b e1 e2
    unfold upd2
    rw [if_neg e2, if_neg e1]
  have hp : ∀ a, a < net.size → Full [hello (net.node a)] := by
    intro a ha p hp
    rw [List.mem_singleton] at hp
    subst hp
    exact (h.base.wf a ha).prio
  refine ⟨⟨h.base.two, h.base.wf, h.base.quiet, h.base.len, h.base.perma, ?_, ?_, ?_, ?_⟩, ?_⟩
  · intro a b ha hb hab hs
    dsimp only at hs ⊢
    rw [connect_chan _ _ hij]
    split
    · exact ⟨(fun m hm => by cases hm), .nil⟩
    · split
      · exact ⟨(fun m hm => by cases hm), .nil⟩
      · rename_i e1 e2
        rw [hside a b e1 e2] at hs
        exact h.base.told a b ha hb hab hs
  · intro a b
    dsimp only
    rw [connect_chan _ _ hij]
    split
    · exact hp i hi
    · split
      · exact hp j hj
      · exact h.base.full a b
  · intro a b
    dsimp only
    rw [connect_chan _ _ hij]
    split
    · intro p hp; cases hp
    · split
      · intro p hp; cases hp
      · exact h.base.login a b
  · intro a b ha hb hab hs k p hp hap
    dsimp only at hs hp ⊢
    rw [connect_chan _ _ hij] at hp
    split at hp
    · rw [List.mem_singleton] at hp; subst hp; cases hap
    · split at hp
      · rw [List.mem_singleton] at hp; subst hp; cases hap
      · rename_i e1 e2
        rw [hside a b (fun e => e2 ⟨e.2, e.1⟩) (fun e => e1 ⟨e.2, e.1⟩)] at hs
        exact h.base.approved a b ha hb hab hs k p hp hap
  · intro a b ha hb hab hl
    have hg := h.greeted a b ha hb hab hl
    have e1 : ¬ (a = i ∧ b = j) := fun e => hg.1 (by rw [e.1, e.2]; exact h1)
    have e2 : ¬ (a = j ∧ b = i) := fun e => hg.1 (by rw [e.1, e.2]; exact h2)
    dsimp only
    rw [hside a b e1 e2, connect_chan _ _ hij, if_neg (fun e => e2 ⟨e.2, e.1⟩), if_neg (fun e => e1 ⟨e.2, e.1⟩)]
    exact hg

theorem init_wf {ps : List Peer} {c : Int} {v : Bytes} {n : Nat} {j : Nat → Bytes} (hc : c ≠ 0) : Wf (Node.init ps c v n j) := by
  unfold Node.init
  refine ⟨?_, ?_, ?_, ?_⟩
  · rw [changeState_hist, changeState_scc]; rfl
  · rw [changeState_hist, changeState_state]; rfl
  · rw [changeState_priority]; simp
  · simpa using hc

theorem init_peers {ps : List Peer} {c : Int} {v : Bytes} {n : Nat} {j : Nat → Bytes} : (Node.init ps c v n j).peers = ps := by
  rfl

theorem restart_good {net : Net} (h : Good net) {i : Nat} (hi : i < net.size) {c : Int} (v : Bytes) (n : Nat) (jr : Nat → Bytes)
    (hc : c ≠ 0) : Good { net with
        node := upd net.node i { Node.init ((net.node i).peers.map Peer.reset) c v n jr with out := [] }
        side := fun a b => if a = i then .closed else net.side a b } := by
  have hnode : ∀ a, upd net.node i { Node.init ((net.node i).peers.map Peer.reset) c v n jr with out := [] } a =
      if a = i then { Node.init ((net.node i).peers.map Peer.reset) c v n jr with out := [] } else net.node a := fun a => rfl
  have hpeer : ∀ k, (Node.init ((net.node i).peers.map Peer.reset) c v n jr).peer k = ((net.node i).peer k).reset := by
    intro k
    unfold peer
    rw [init_peers]
    simp only [List.getD_eq_getElem?_getD, List.getElem?_map]
    cases (net.node i).peers[k]? <;> rfl
  refine ⟨⟨h.base.two, ?_, ?_, ?_, ?_, ?_, h.base.full, h.base.login, ?_⟩, ?_⟩
  · intro a ha
    dsimp only
    rw [hnode]; split
    · have := init_wf (ps := (net.node i).peers.map Peer.reset) (v := v) (n := n) (j := jr) hc
      exact ⟨this.len, this.last, this.prio, this.conf⟩
    · exact h.base.wf a ha
  · intro a ha
    dsimp only
    rw [hnode]; split
    · rfl
    · exact h.base.quiet a ha
  · intro a ha
    dsimp only
    rw [hnode]; split
    · show (Node.init ((net.node i).peers.map Peer.reset) c v n jr).peers.length + 1 = _
      rw [init_peers, List.length_map]; exact h.base.len i hi
    · exact h.base.len a ha
  · intro a b ha hb hab
    unfold Net.view
    dsimp only
    rw [hnode]; split
    · rename_i e; subst e
      show ((Node.init ((net.node a).peers.map Peer.reset) c v n jr).peer _).permaFollower = false
      rw [hpeer]; exact h.base.perma a b ha hb hab
    · exact h.base.perma a b ha hb hab
  · intro a b ha hb hab hs
    dsimp only at hs ⊢
    rw [hnode]
    split
    · rename_i e; rw [if_pos e] at hs; exact absurd rfl hs
    · rename_i e; rw [if_neg e] at hs; exact h.base.told a b ha hb hab hs
  · intro a b ha hb hab hs
    dsimp only at hs ⊢
    rw [hnode]
    split
    · rename_i e; rw [if_pos e] at hs; exact absurd rfl hs
    · rename_i e; rw [if_neg e] at hs; exact h.base.approved a b ha hb hab hs
  · intro a b ha hb hab hl
    unfold Net.view at hl
    dsimp only at hl ⊢
    rw [hnode] at hl
    split at hl
    · change ((Node.init ((net.node i).peers.map Peer.reset) c v n jr).peer _).loggedIn = true at hl
      rw [hpeer] at hl; cases hl
    · rename_i e
      rw [if_neg e]
      exact h.greeted a b ha hb hab hl

theorem alive_iff {net : Net} {i : Nat} : net.alive i = true ↔ i < net.size ∧ (net.node i).dead = false := by
  unfold Net.alive; simp

theorem step_good {net : Net} (h : Good net) (ev : Ev) (hf : ev.full) : Good (step net ev) := by
  cases ev with
  | update i t b =>
    show Good (if net.alive i then act net i (.update t b) else net)
    split
    · rename_i ha
      exact own_good (ev := .update t b) h (alive_iff.1 ha).1 (fun _ _ _ e => by cases e) (fun _ e => by cases e) (fun _ e => by cases e)
    · exact h
  | setShutdownPriority i =>
    show Good (if net.alive i then act net i (.setShutdownPriority) else net)
    split
    · rename_i ha
      exact own_good (ev := .setShutdownPriority) h (alive_iff.1 ha).1 (fun _ _ _ e => by cases e) (fun _ e => by cases e) (fun _ e => by cases e)
    · exact h
  | beginShutdown i =>
    show Good (if net.alive i then act net i (.beginShutdown) else net)
    split
    · rename_i ha
      exact own_good (ev := .beginShutdown) h (alive_iff.1 ha).1 (fun _ _ _ e => by cases e) (fun _ e => by cases e) (fun _ e => by cases e)
    · exact h
  | database i c j =>
    show Good (if net.alive i then act net i (.database c j) else net)
    split
    · rename_i ha
      exact own_good (ev := .database c j) h (alive_iff.1 ha).1 (fun _ _ _ e => by cases e) (fun _ e => by cases e) (fun _ e => by cases e)
    · exact h
  | setPriority i p =>
    show Good (if net.alive i then act net i (.setPriority p) else net)
    split
    · rename_i ha
      exact own_good (ev := .setPriority p) h (alive_iff.1 ha).1 (fun _ _ _ e => by cases e) (fun _ e => by cases e) (fun q e => by injection e with e; rw [← e]; exact hf)
    · exact h
  | deliver i j mm o =>
    unfold step; dsimp only; split
    · rename_i ha
      obtain ⟨hi, hj, hij, hs⟩ := ha
      split
      · exact h
      · rename_i p rest hc
        exact deliver_good h hi (alive_iff.1 hj).1 hij hs hc mm o
    · exact h
  | lost i j =>
    unfold step; dsimp only; split
    · rename_i ha
      obtain ⟨hi, hj, hij, hs⟩ := ha
      exact lost_good h (alive_iff.1 hi).1 hj hij (alive_iff.1 hi).2
    · exact h
  | connect i j =>
    unfold step; dsimp only; split
    · rename_i ha
      obtain ⟨hi, hj, hij, h1, h2⟩ := ha
      exact connect_good h (alive_iff.1 hi).1 (alive_iff.1 hj).1 hij h1 h2
    · exact h
  | restart i c v n jr =>
    unfold step; dsimp only; split
    · rename_i hi
      exact restart_good h hi v n jr hf
    · exact h

theorem run_good : ∀ (evs : List Ev) {net : Net}, Good net → (∀ ev ∈ evs, ev.full) → Good (run net evs)
  | [], _, h, _ => h
  | ev :: evs, _, h, hf => run_good evs (step_good h ev (hf ev List.mem_cons_self)) (fun e he => hf e (List.mem_cons_of_mem _ he))

theorem fresh_good {size : Nat} {c : Nat → Int} {v : Nat → Bytes} {n : Nat → Nat} {j : Nat → Nat → Bytes} (h2 : 2 ≤ size)
    (hc : ∀ i, i < size → c i ≠ 0) : Good (fresh size c v n j) := by
  have hpeer : ∀ i k, (Node.init (List.replicate (size - 1) {}) (c i) (v i) (n i) (j i)).peer k = {} := by
    intro i k
    unfold peer
    rw [init_peers]
    simp only [List.getD_eq_getElem?_getD, List.getElem?_replicate]
    split <;> rfl
  refine ⟨⟨h2, ?_, fun _ _ => rfl, ?_, ?_, fun _ _ _ _ _ hs => absurd rfl hs, (fun _ _ _ h => by cases h), (fun _ _ _ h => by cases h),
    fun _ _ _ _ _ hs => absurd rfl hs⟩, ?_⟩
  · intro i hi
    have := init_wf (ps := List.replicate (size - 1) {}) (v := v i) (n := n i) (j := j i) (hc i hi)
    exact ⟨this.len, this.last, this.prio, this.conf⟩
  · intro i hi
    show (Node.init (List.replicate (size - 1) {}) (c i) (v i) (n i) (j i)).peers.length + 1 = size
    rw [init_peers, List.length_replicate]; omega
  · intro i k _ _ _
    show ((Node.init (List.replicate (size - 1) {}) (c i) (v i) (n i) (j i)).peer _).permaFollower = false
    rw [hpeer]
  · intro i k _ _ _ hl
    change ((Node.init (List.replicate (size - 1) {}) (c i) (v i) (n i) (j i)).peer _).loggedIn = true at hl
    rw [hpeer] at hl; cases hl

end Bedrock.Net
