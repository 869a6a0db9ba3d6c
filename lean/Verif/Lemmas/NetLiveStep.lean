import Verif.Lemmas.NetLive

/-!
# Undisturbed elections: every event
-/

namespace Bedrock.Net
open Bedrock Bedrock.Node Bedrock.Node.Node Bedrock.Node.Props

/-- Nothing has changed among the nodes in `up`. -/
structure Alike (up : Nat → Bool) (net net' : Net) : Prop where
  size : net'.size = net.size
  node : ∀ a, a < net.size → up a = true → net'.node a = net.node a
  chan : ∀ a b, a < net.size → b < net.size → a ≠ b → up a = true → up b = true → net'.chan a b = net.chan a b

/-- The fields of an entry that stay. -/
structure Like (p q : Peer) : Prop where
  login : q.loggedIn = p.loggedIn
  forked : q.forked = p.forked
  perma : q.permaFollower = p.permaFollower
  prio : q.priority = p.priority
  commits : q.commitCount = p.commitCount
  hash : q.hash = p.hash

theorem Like.refl (p : Peer) : Like p p := ⟨rfl, rfl, rfl, rfl, rfl, rfl⟩

theorem member_of {K : Nat → Bool} {pr : Nat → Int} {C : Nat} {h : Bytes} {n n' : Node} (m : Member K pr C h n)
    (h1 : n'.dead = n.dead) (h2 : n'.shuttingDown = n.shuttingDown) (h3 : n'.haveBeenWaiting = n.haveBeenWaiting)
    (h4 : n'.blocked = n.blocked) (h5 : n'.commits = C) (h6 : n'.journal C = h) (hl : n'.peers.length = n.peers.length)
    (hp : ∀ k, k < n.peers.length → Like (n.peer k) (n'.peer k))
    (hs : ∀ k, k < n.peers.length → K k = false → (n'.peer k).state = (n.peer k).state) : Member K pr C h { n' with out := [] } := by
  refine ⟨h1.trans m.dead, h2.trans m.shut, h3.trans m.waited, h4.trans m.blocked, h5, h6, rfl, ?_, ?_, ?_, ?_⟩
  · intro k hk hK
    change k < n'.peers.length at hk
    rw [hl] at hk
    have l := hp k hk
    have kn := m.inn k hk hK
    exact ⟨l.login.trans kn.login, l.forked.trans kn.forked, l.perma.trans kn.perma, l.prio.trans kn.prio, kn.nz, l.commits.trans kn.commits,
      l.hash.trans kn.hash⟩
  · intro k hk hK
    change k < n'.peers.length at hk
    rw [hl] at hk
    have l := hp k hk
    have kn := m.away k hk hK
    exact ⟨l.login.trans kn.login, l.perma.trans kn.perma, (hs k hk hK).trans kn.state⟩
  · show n'.peers.length ≤ (List.range n'.peers.length).countP K * 2
    rw [hl]; exact m.half
  · obtain ⟨k, hk, hK⟩ := m.other
    exact ⟨k, by show k < n'.peers.length; rw [hl]; exact hk, hK⟩

theorem setPeer_peer {n : Node} {k : Nat} (hk : k < n.peers.length) (f : Peer → Peer) (i : Nat) :
    (n.setPeer k f).peer i = if i = k then f (n.peer k) else n.peer i := by
  unfold setPeer peer
  simp only [List.getD_eq_getElem?_getD, List.getElem?_modify]
  by_cases e : i = k
  · subst e
    rw [if_pos rfl, List.getElem?_eq_getElem hk]; simp
  · rw [if_neg e]
    cases n.peers[i]? <;> simp [Ne.symm e]

theorem out_nil {n : Node} (h : n.out = []) : { n with out := [] } = n := by
  cases n; simp only at h; subst h; rfl

section
variable {up : Nat → Bool} {top : Nat} {prio : Nat → Int} {C : Nat} {h : Bytes} {net : Net}

theorem Inv.lt (hI : Inv up top prio C h net) {i j : Nat} (hi : i < net.size) (hj : j < net.size) (hij : i ≠ j) (hui : up i = true) :
    ixOf i j < (net.node i).peers.length := by
  have := ixOf_lt hi hj hij
  have := hI.len i hi hui
  omega

/-- There is another node in `up`. -/
theorem Inv.someone (hI : Inv up top prio C h net) : ∃ i, i < net.size ∧ up i = true ∧ i ≠ top := by
  obtain ⟨k, hk, hK⟩ := (hI.mem top hI.top_lt hI.top_up).other
  have hl := hI.len top hI.top_lt hI.top_up
  obtain ⟨c, hc, htc, e⟩ := ix_cover hI.top_lt (k := k) (n := net.size) (by omega)
  refine ⟨c, hc, ?_, Ne.symm htc⟩
  subst e
  rw [idOf_ixOf htc] at hK; exact hK

/-- The entries of a node. -/
theorem Inv.entry (hI : Inv up top prio C h net) {x : Nat} (hx : x < net.size) (hux : up x = true) {k : Nat}
    (hk : k < (net.node x).peers.length) : ∃ j, j < net.size ∧ x ≠ j ∧ k = ixOf x j ∧ idOf x k = j := by
  have hl := hI.len x hx hux
  obtain ⟨c, hc, hxc, e⟩ := ix_cover hx (k := k) (n := net.size) (by omega)
  exact ⟨c, hc, hxc, e.symm, by rw [← e, idOf_ixOf hxc]⟩

theorem sumTo_update {n x : Nat} {f f' : Nat → Nat} (hx : x < n) (h1 : f' x + 1 ≤ f x) (h2 : ∀ k, k < n → k ≠ x → f' k ≤ f k) :
    sumTo n f' + 1 ≤ sumTo n f := by
  have h3 : sumTo n (fun k => f' k + if k = x then 1 else 0) ≤ sumTo n f := sumTo_mono fun k hk => by
    by_cases e : k = x
    · subst e; rw [if_pos rfl]; exact h1
    · rw [if_neg e]; exact h2 k hk e
  rw [sumTo_add, sumTo_single hx] at h3
  exact h3

/-- A node comes nearer to its place, and tells the others. -/
theorem effort_state {x : Nat} (hx : x < net.size) (hux : up x = true) {n' : Node} {ch : Nat → Nat → List Packet}
    (hload : ∀ a b, load (ch a b) ≤ load (net.chan a b)) (ha : away n'.state < away (net.node x).state)
    (hchan : ∀ b, b < net.size → b ≠ x → up b = true →
      (settle { net with chan := ch } x n').chan x b = net.chan x b ++ (outTo (ixOf x b) n'.out).map (pk C h))
    (h4 : ∀ b, b < net.size → b ≠ x → load ((outTo (ixOf x b) n'.out).map (pk C h)) ≤ 4) :
    effort up (settle { net with chan := ch } x n') < effort up net := by
  unfold effort
  have hsz : (settle { net with chan := ch } x n').size = net.size := rfl
  rw [hsz]
  have e1 : sumTo net.size (fun i => if up i = true then away ((settle { net with chan := ch } x n').node i).state else 0) + 1 ≤
      sumTo net.size (fun i => if up i = true then away (net.node i).state else 0) := by
    refine sumTo_update hx ?_ ?_
    · rw [if_pos hux, if_pos hux, settle_node, if_pos rfl]; exact ha
    · intro k _ hk
      rw [settle_node, if_neg hk]; exact Nat.le_refl _
  have e2 : sum2 net.size (fun i j => if up i = true ∧ up j = true ∧ i ≠ j then load ((settle { net with chan := ch } x n').chan i j) else 0) ≤
      sum2 net.size (fun i j => if up i = true ∧ up j = true ∧ i ≠ j then load (net.chan i j) else 0) + net.size * 4 := by
    rw [← sum2_row (c := 4) hx, ← sum2_add]
    refine sum2_mono fun a b _ hb => ?_
    split
    · rename_i hab
      by_cases e : a = x
      · subst e
        rw [hchan b hb (Ne.symm hab.2.2) hab.2.1, load_append, if_pos rfl]
        exact Nat.add_le_add_left (h4 b hb (Ne.symm hab.2.2)) _
      · rw [settle_chan_ne e, if_neg e]
        exact hload a b
    · exact Nat.zero_le _
  generalize sumTo net.size (fun i => if up i = true then away ((settle { net with chan := ch } x n').node i).state else 0) = A' at *
  generalize sumTo net.size (fun i => if up i = true then away (net.node i).state else 0) = A at *
  have : (4 * net.size + 1) * (A' + 1) ≤ (4 * net.size + 1) * A := Nat.mul_le_mul_left _ e1
  rw [Nat.mul_add, Nat.mul_one] at this
  omega

/-- A message is handled, and answered by a lighter one. -/
theorem effort_message {x y : Nat} (hx : x < net.size) (hy : y < net.size) (hxy : x ≠ y) (hux : up x = true) (huy : up y = true) {n' : Node}
    {p : Packet} {rest : List Packet} (hc : net.chan y x = p :: rest) (hs : n'.state = (net.node x).state)
    (hchan : ∀ b, b < net.size → b ≠ x → up b = true →
      (settle { net with chan := upd2 net.chan y x rest } x n').chan x b = net.chan x b ++ (outTo (ixOf x b) n'.out).map (pk C h))
    (h1 : load ((outTo (ixOf x y) n'.out).map (pk C h)) < weight p) (h2 : ∀ b, b < net.size → b ≠ x → b ≠ y → outTo (ixOf x b) n'.out = []) :
    effort up (settle { net with chan := upd2 net.chan y x rest } x n') < effort up net := by
  unfold effort
  have hsz : (settle { net with chan := upd2 net.chan y x rest } x n').size = net.size := rfl
  rw [hsz]
  have e1 : (fun i => if up i = true then away ((settle { net with chan := upd2 net.chan y x rest } x n').node i).state else 0) =
      (fun i => if up i = true then away (net.node i).state else 0) := by
    funext i
    rw [settle_node]
    by_cases e : i = x
    · subst e
      rw [if_pos rfl]
      show (if up i = true then away n'.state else 0) = _
      rw [hs]
    · rw [if_neg e]
  have e2 : sum2 net.size (fun i j => if up i = true ∧ up j = true ∧ i ≠ j then
        load ((settle { net with chan := upd2 net.chan y x rest } x n').chan i j) else 0) + weight p ≤
      sum2 net.size (fun i j => if up i = true ∧ up j = true ∧ i ≠ j then load (net.chan i j) else 0) + (weight p - 1) := by
    have s1 := sum2_single (c := weight p) hy hx
    have s2 := sum2_single (c := weight p - 1) hx hy
    have key : sum2 net.size (fun i j => (if up i = true ∧ up j = true ∧ i ≠ j then
        load ((settle { net with chan := upd2 net.chan y x rest } x n').chan i j) else 0) + if i = y ∧ j = x then weight p else 0) ≤
      sum2 net.size (fun i j => (if up i = true ∧ up j = true ∧ i ≠ j then load (net.chan i j) else 0) +
        if i = x ∧ j = y then weight p - 1 else 0) := by
      refine sum2_mono fun a b _ hb => ?_
      by_cases hab : up a = true ∧ up b = true ∧ a ≠ b
      · rw [if_pos hab, if_pos hab]
        by_cases e : a = x
        · subst e
          rw [hchan b hb (Ne.symm hab.2.2) hab.2.1, load_append, if_neg (fun e => hxy e.1)]
          by_cases e' : b = y
          · subst e'
            rw [if_pos ⟨rfl, rfl⟩]; omega
          · rw [h2 b hb (Ne.symm hab.2.2) e', if_neg (fun e => e' e.2)]; exact Nat.le_refl _
        · rw [settle_chan_ne e, if_neg (show ¬ (a = x ∧ b = y) from fun e' => e e'.1)]
          dsimp only
          unfold upd2
          by_cases e' : a = y ∧ b = x
          · rw [if_pos e', if_pos e', e'.1, e'.2, hc]
            show load rest + weight p ≤ weight p + load rest
            omega
          · rw [if_neg e', if_neg e']; exact Nat.le_refl _
      · rw [if_neg hab, if_neg hab, if_neg (show ¬ (a = y ∧ b = x) from fun e => hab ⟨e.1 ▸ huy, e.2 ▸ hux, by rw [e.1, e.2]; exact Ne.symm hxy⟩)]
        exact Nat.zero_le _
    rw [sum2_add, sum2_add, s1, s2] at key
    exact key
  rw [e1]
  omega

/-- A node does nothing. -/
theorem idle_move (hI : Inv up top prio C h net) {x : Nat} (hx : x < net.size) (hux : up x = true) {es : List Effect}
    (hes : ∀ k, outTo k es = []) (hno : noShut es) :
    Inv up top prio C h (settle net x { net.node x with out := es }) ∧ Alike up net (settle net x { net.node x with out := es }) := by
  have hm := hI.mem x hx hux
  have := inv_move hI hx hux (n' := { net.node x with out := es }) (ch := net.chan) (fun _ _ _ => rfl) (fun _ _ _ hp => hp)
    (by
      show Member _ _ C h { net.node x with out := [] }
      rw [out_nil hm.out]; exact hm)
    (hI.len x hx hux) (hI.pri x hx hux) hno
    (fun hxt j hj hxj huj hjt => ⟨(hI.humble x j hx hj hxj hux huj hxt hjt).1, by
      dsimp only
      rw [hes]; intro m hm; cases hm⟩)
    (fun e i hi hui hit => by
      subst e
      dsimp only
      rw [hes, List.append_nil]
      exact hI.pair i hi hui hit)
    (fun hxt => by
      dsimp only
      rw [hes, List.append_nil]
      exact hI.pair x hx hux hxt)
  refine ⟨this.1, rfl, ?_, ?_⟩
  · intro a _ _
    rw [settle_node]
    split
    · rename_i e
      subst e
      show { net.node a with out := [] } = net.node a
      exact out_nil hm.out
    · rfl
  · intro a b _ hb hab _ hub
    by_cases e : a = x
    · subst e
      have := this.2 b hb (Ne.symm hab) hub
      dsimp only at this
      rw [hes, List.map_nil, List.append_nil] at this
      exact this
    · exact settle_chan_ne e

/-- Node `x` has nothing to do. -/
structure Settled (mem : Nat → Bool) (top : Nat) (net : Net) (x : Nat) : Prop where
  searching : (net.node x).state ≠ .searching
  up : x = top → (net.node x).state ≠ .waiting ∧
    ((net.node x).state = .standingUp → ∃ i, i < net.size ∧ mem i = true ∧ i ≠ top ∧ (net.view top i).standup ≠ .approve)
  low : x ≠ top → (net.node x).state = .waiting → (net.view x top).state ≠ .leading

theorem turned_member {K : Nat → Bool} {pr : Nat → Int} {C : Nat} {h : Bytes} {n : Node} (m : Member K pr C h n) (s : NState) :
    Member K pr C h { turned n s with out := [] } :=
  member_of m rfl rfl rfl rfl m.commits m.journal rfl (fun _ _ => .refl _) (fun _ _ _ => rfl)

theorem turned_out {n : Node} (hn : n.out = []) (s : NState) (k : Nat) :
    outTo k (turned n s).out = [.state s n.priority (n.stateChangeCount + 1)] := by
  unfold turned
  dsimp only
  rw [hn]; rfl

theorem turned_noShut {n : Node} (hn : noShut n.out) (s : NState) : noShut (turned n s).out := by
  intro k hk
  rcases List.mem_append.1 hk with hk | hk
  · exact hn k hk
  · simp at hk

theorem nil_noShut {es : List Effect} (h : es = []) : noShut es := by
  subst h; intro k hk; cases hk

/-- The state a voter announces. -/
theorem update_voter (hI : Inv up top prio C h net) {x : Nat} (hx : x < net.size) (hux : up x = true) (hxt : x ≠ top) (b : Bool) :
    Inv up top prio C h (act net x (.update false b)) ∧
    (effort up (act net x (.update false b)) < effort up net ∨ (Alike up net (act net x (.update false b)) ∧ Settled up top net x)) := by
  have hm := hI.mem x hx hux
  have hpair := hI.pair x hx hux hxt
  have hlt := hI.lt hx hI.top_lt hxt hux
  have hK : up (idOf x (ixOf x top)) = true := by rw [idOf_ixOf hxt]; exact hI.top_up
  have hidle : Node.step (net.node x) (.update false b) = net.node x → Inv up top prio C h (act net x (.update false b)) ∧
      Alike up net (act net x (.update false b)) := by
    intro e
    have := idle_move hI hx hux (es := []) (fun _ => rfl) (nil_noShut rfl)
    rw [out_nil hm.out] at this
    unfold act
    rw [e]; exact this
  have hother : ∀ k, k < (net.node x).peers.length → up (idOf x k) = true → k ≠ ixOf x top → leadish ((net.node x).peer k).state = false := by
    intro k hk hKk hne
    obtain ⟨j, hj, hxj, e1, e2⟩ := hI.entry hx hux hk
    rw [e2] at hKk
    subst e1
    have hjt : j ≠ top := by rintro rfl; exact hne rfl
    exact (hI.humble x j hx hj hxj hux hKk hxt hjt).1.not_leadish
  rcases hpair.low with hs | hs | hs | hs
  · -- SEARCHING
    have e := hm.searching hs b
    unfold act
    rw [e]
    have hout := turned_out (n := net.node x) hm.out .waiting
    have := inv_move hI hx hux (n' := turned (net.node x) .waiting) (ch := net.chan) (fun _ _ _ => rfl) (fun _ _ _ hp => hp)
      (turned_member hm _) (hI.len x hx hux) (hI.pri x hx hux) (turned_noShut (nil_noShut hm.out) _)
      (fun _ j hj hxj huj hjt => ⟨(hI.humble x j hx hj hxj hux huj hxt hjt).1, by
        rw [hout, hI.pri x hx hux]
        intro m hm'
        rw [List.mem_singleton.1 hm']
        exact ⟨_, _, rfl, Or.inl rfl⟩⟩)
      (fun e => absurd e hxt)
      (fun _ => by
        rw [hout, hI.pri x hx hux]
        exact hpair.voter_waits hs _)
    refine ⟨this.1, Or.inl (effort_state hx hux (fun _ _ => Nat.le_refl _) ?_ this.2 ?_)⟩
    · rw [hs]; exact (by decide : 2 < 3)
    · intro b' _ _
      rw [hout]; exact (by decide : 2 ≤ 4)
  · -- WAITING
    rcases hm.waiting_low hs hlt hK (by
        rw [idOf_ixOf hxt, hI.pri x hx hux]; exact hI.lower x hx hux hxt) hother b with ⟨hv, e⟩ | ⟨hv, e⟩
    · unfold act
      rw [e]
      have hout : ∀ k, outTo k (turned { net.node x with leadPeer := some (ixOf x top), out := [.send (ixOf x top) .subscribe] } .subscribing).out =
          (if ixOf x top = k then [.subscribe] else []) ++ [.state .subscribing (net.node x).priority ((net.node x).stateChangeCount + 1)] := by
        intro k
        show outTo k [.send (ixOf x top) .subscribe, .setCommitEnabled true, .sendAll _] = _
        unfold outTo
        by_cases e : ixOf x top = k <;> simp [e]
      have := inv_move hI hx hux
        (n' := turned { net.node x with leadPeer := some (ixOf x top), out := [.send (ixOf x top) .subscribe] } .subscribing)
        (ch := net.chan) (fun _ _ _ => rfl) (fun _ _ _ hp => hp)
        (member_of hm rfl rfl rfl rfl hm.commits hm.journal rfl (fun _ _ => .refl _) (fun _ _ _ => rfl)) (hI.len x hx hux) (hI.pri x hx hux)
        (turned_noShut (by intro k hk; simp at hk) _)
        (fun _ j hj hxj huj hjt => ⟨(hI.humble x j hx hj hxj hux huj hxt hjt).1, by
          rw [hout, hI.pri x hx hux, if_neg (fun e => hjt (ixOf_inj hxj hxt e.symm))]
          intro m hm'
          rw [List.nil_append, List.mem_singleton] at hm'
          rw [hm']
          exact ⟨_, _, rfl, Or.inr (Or.inl rfl)⟩⟩)
        (fun e => absurd e hxt)
        (fun _ => by
          rw [hout, hI.pri x hx hux, if_pos rfl]
          exact hpair.voter_subscribes hs hv _)
      refine ⟨this.1, Or.inl (effort_state hx hux (fun _ _ => Nat.le_refl _) ?_ this.2 ?_)⟩
      · rw [hs]; exact (by decide : 1 < 2)
      · intro b' _ _
        rw [hout]
        split
        · exact (by decide : 4 ≤ 4)
        · exact (by decide : 2 ≤ 4)
    · obtain ⟨h1, h2⟩ := hidle e
      refine ⟨h1, Or.inr ⟨h2, ?_, fun e => absurd e hxt, fun _ _ => hv⟩⟩
      rw [hs]; decide
  · obtain ⟨h1, h2⟩ := hidle (hm.subscribing hs b)
    refine ⟨h1, Or.inr ⟨h2, ?_, fun e => absurd e hxt, ?_⟩⟩
    · rw [hs]; decide
    · intro _ e; rw [hs] at e; cases e
  · obtain ⟨h1, h2⟩ := hidle (hm.following hs (hpair.lead (Or.inr hs)).2 (hpair.lead (Or.inr hs)).1 b)
    refine ⟨h1, Or.inr ⟨h2, ?_, fun e => absurd e hxt, ?_⟩⟩
    · rw [hs]; decide
    · intro _ e; rw [hs] at e; cases e

theorem update_top (hI : Inv up top prio C h net) (b : Bool) :
    Inv up top prio C h (act net top (.update false b)) ∧
    (effort up (act net top (.update false b)) < effort up net ∨ (Alike up net (act net top (.update false b)) ∧ Settled up top net top)) := by
  have hx := hI.top_lt
  have hux := hI.top_up
  have hm := hI.mem top hx hux
  have hidle : ∀ es, (∀ k, outTo k es = []) → noShut es → Node.step (net.node top) (.update false b) = { net.node top with out := es } →
      Inv up top prio C h (act net top (.update false b)) ∧ Alike up net (act net top (.update false b)) := by
    intro es h1 h2 e
    have := idle_move hI hx hux h1 h2
    unfold act
    rw [e]; exact this
  have hlow : ∀ k, k < (net.node top).peers.length → up (idOf top k) = true →
      leadish ((net.node top).peer k).state = false ∧ prio (idOf top k) < (net.node top).priority := by
    intro k hk hKk
    obtain ⟨j, hj, hxj, e1, e2⟩ := hI.entry hx hux hk
    rw [e2] at hKk ⊢
    subst e1
    refine ⟨(hI.pair j hj hKk (Ne.symm hxj)).known.not_leadish, ?_⟩
    rw [hI.pri top hx hux]
    exact hI.lower j hj hKk (Ne.symm hxj)
  have hturn : ∀ (n1 : Node) (s : NState), Node.step (net.node top) (.update false b) = turned n1 s →
      Member (fun k => up (idOf top k)) (fun k => prio (idOf top k)) C h { turned n1 s with out := [] } →
      n1.out = [] → n1.priority = (net.node top).priority → n1.stateChangeCount = (net.node top).stateChangeCount →
      n1.peers.length = (net.node top).peers.length → (∀ k, (n1.peer k).state = ((net.node top).peer k).state) →
      (net.node top).state.rank < s.rank → (s = .waiting ∨ s = .standingUp ∨ s = .leading) →
      (s = .standingUp → ∀ k, (n1.peer k).standup = .none) → (s ≠ .standingUp → ∀ k, (n1.peer k).standup = ((net.node top).peer k).standup) →
      away s < away (net.node top).state →
      Inv up top prio C h (act net top (.update false b)) ∧ effort up (act net top (.update false b)) < effort up net := by
    intro n1 s e hmem ho hp hc hl hst hr hss hv hv' ha
    unfold act
    rw [e]
    have hout := turned_out ho s
    have := inv_move hI hx hux (n' := turned n1 s) (ch := net.chan) (fun _ _ _ => rfl) (fun _ _ _ hp => hp) hmem
      (by show n1.peers.length + 1 = _; rw [hl]; exact hI.len top hx hux) (hp.trans (hI.pri top hx hux)) (turned_noShut (nil_noShut ho) _)
      (fun e => absurd rfl e)
      (fun _ i hi hui hit => by
        rw [hout, hp, hI.pri top hx hux]
        show Pair _ _ _ s (n1.stateChangeCount + 1) (n1.peer _).state (n1.peer _).standup _ _ _ _ _
        rw [hc, hst]
        refine (hI.pair i hi hui hit).announce hr hss (fun e => hv e _) (fun e => hv' e _))
      (fun e => absurd rfl e)
    refine ⟨this.1, effort_state hx hux (fun _ _ => Nat.le_refl _) ha this.2 ?_⟩
    intro b' _ _
    rw [hout]
    exact Nat.le_of_lt (by decide : 2 < 4)
  obtain ⟨i0, hi0, hui0, hit0⟩ := hI.someone
  rcases (hI.pair i0 hi0 hui0 hit0).top with hs | hs | hs | hs
  · have := hturn (net.node top) .waiting (hm.searching hs b) (turned_member hm _) hm.out rfl rfl rfl (fun _ => rfl) (by rw [hs]; decide) (Or.inl rfl)
      (fun e => by cases e) (fun _ _ => rfl) (by rw [hs]; decide)
    exact ⟨this.1, Or.inl this.2⟩
  · have hpeer : ∀ k, Node.peer { net.node top with peers := (net.node top).peers.map (fun p => { p with standup := .none }) } k =
        { (net.node top).peer k with standup := .none } := by
      intro k
      unfold peer
      simp only [List.getD_eq_getElem?_getD, List.getElem?_map]
      cases (net.node top).peers[k]? <;> rfl
    have := hturn { net.node top with peers := (net.node top).peers.map (fun p => { p with standup := .none }) } .standingUp
      (hm.waiting_top hs (by rw [hI.pri top hx hux]; have := hI.high; omega) (fun k hk hK => (hlow k hk hK).2) (fun k hk hK => (hlow k hk hK).1) b)
      (member_of hm rfl rfl rfl rfl hm.commits hm.journal (List.length_map _)
        (fun k _ => by
          show Like _ (Node.peer { net.node top with peers := (net.node top).peers.map (fun p => { p with standup := .none }) } k)
          rw [hpeer]; exact ⟨rfl, rfl, rfl, rfl, rfl, rfl⟩)
        (fun k _ _ => by
          show (Node.peer { net.node top with peers := (net.node top).peers.map (fun p => { p with standup := .none }) } k).state = _
          rw [hpeer]))
      hm.out rfl rfl (List.length_map _) (fun k => by rw [hpeer]) (by rw [hs]; decide) (Or.inr (Or.inl rfl))
      (fun _ k => by rw [hpeer]) (fun e => absurd rfl e) (by rw [hs]; decide)
    exact ⟨this.1, Or.inl this.2⟩
  · have hnd : ∀ k, k < (net.node top).peers.length → up (idOf top k) = true → ((net.node top).peer k).standup ≠ .deny := by
      intro k hk hKk
      obtain ⟨j, hj, hxj, e1, e2⟩ := hI.entry hx hux hk
      rw [e2] at hKk
      subst e1
      exact ((hI.pair j hj hKk (Ne.symm hxj)).vote hs).1
    rcases hm.standingUp hs hnd b with e | ⟨e, k, hk, hK, hna⟩
    · have := hturn (net.node top) .leading e (turned_member hm _) hm.out rfl rfl rfl (fun _ => rfl) (by rw [hs]; decide) (Or.inr (Or.inr rfl))
        (fun e => by cases e) (fun _ _ => rfl) (by rw [hs]; decide)
      exact ⟨this.1, Or.inl this.2⟩
    · obtain ⟨h1, h2⟩ := hidle [] (fun _ => rfl) (nil_noShut rfl) (by rw [out_nil hm.out]; exact e)
      refine ⟨h1, Or.inr ⟨h2, by rw [hs]; decide, fun _ => ⟨by rw [hs]; decide, fun _ => ?_⟩, fun e => absurd rfl e⟩⟩
      obtain ⟨j, hj, hxj, e1, e2⟩ := hI.entry hx hux hk
      rw [e2] at hK
      subst e1
      exact ⟨j, hj, hK, Ne.symm hxj, hna⟩
  · obtain ⟨h1, h2⟩ := hidle [.sendOutstanding] (fun _ => rfl) (by intro k hk; simp at hk)
      (hm.leading hs (by rw [hI.pri top hx hux]; have := hI.high; omega) (fun k hk hK => (hlow k hk hK).2) (fun k hk hK => (hlow k hk hK).1) b)
    refine ⟨h1, Or.inr ⟨h2, by rw [hs]; decide, fun _ => ⟨by rw [hs]; decide, fun e => ?_⟩, fun e => absurd rfl e⟩⟩
    rw [hs] at e; cases e

end

end Bedrock.Net
