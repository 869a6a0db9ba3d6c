import Verif.Lemmas.NetLiveStep

/-!
# Undisturbed elections: messages, and other nodes
-/

namespace Bedrock.Net
open Bedrock Bedrock.Node Bedrock.Node.Node Bedrock.Node.Props

section
variable {up : Nat → Bool} {top : Nat} {prio : Nat → Int} {C : Nat} {h : Bytes} {net : Net}

theorem upd2_sub {x y : Nat} {p : Packet} {rest : List Packet} (hc : net.chan y x = p :: rest) (a b : Nat) (q : Packet)
    (hq : q ∈ upd2 net.chan y x rest a b) : q ∈ net.chan a b := by
  unfold upd2 at hq
  split at hq
  · rename_i e; rw [e.1, e.2, hc]; exact List.mem_cons_of_mem _ hq
  · exact hq

theorem upd2_load {x y : Nat} {p : Packet} {rest : List Packet} (hc : net.chan y x = p :: rest) (a b : Nat) :
    load (upd2 net.chan y x rest a b) ≤ load (net.chan a b) := by
  unfold upd2
  split
  · rename_i e; rw [e.1, e.2, hc]
    show load rest ≤ weight p + load rest
    omega
  · exact Nat.le_refl _

theorem upd2_ne {x y : Nat} {rest : List Packet} (a b : Nat) (hb : b ≠ x) : upd2 net.chan y x rest a b = net.chan a b := by
  unfold upd2
  rw [if_neg (fun e => hb e.2)]

theorem upd2_ne' {x y : Nat} {rest : List Packet} (a b : Nat) (ha : a ≠ y) : upd2 net.chan y x rest a b = net.chan a b := by
  unfold upd2
  rw [if_neg (fun e => ha e.1)]

theorem upd2_at {x y : Nat} {rest : List Packet} : upd2 net.chan y x rest y x = rest := if_pos ⟨rfl, rfl⟩

/-- The entry of a node changes, in one of the fields that may. -/
theorem Inv.edit (hI : Inv up top prio C h net) {x y : Nat} (hx : x < net.size) (hy : y < net.size) (hxy : x ≠ y) (hux : up x = true)
    (huy : up y = true) {f : Peer → Peer} (hf : ∀ p, Like p (f p)) :
    Member (fun k => up (idOf x k)) (fun k => prio (idOf x k)) C h { (net.node x).setPeer (ixOf x y) f with out := [] } := by
  have hm := hI.mem x hx hux
  have hk := hI.lt hx hy hxy hux
  refine member_of hm rfl rfl rfl rfl hm.commits hm.journal (by unfold setPeer; simp) ?_ ?_
  · intro k _
    rw [setPeer_peer hk]
    split
    · rename_i e; rw [e]; exact hf _
    · exact .refl _
  · intro k _ hK
    rw [setPeer_peer hk, if_neg]
    rintro rfl
    rw [idOf_ixOf hxy, huy] at hK
    cases hK

theorem edit_len (n : Node) (k : Nat) (f : Peer → Peer) : (n.setPeer k f).peers.length = n.peers.length := by unfold setPeer; simp

/-- A message between two nodes of which neither is to lead. -/
theorem deliver_humble (hI : Inv up top prio C h net) {x y : Nat} (hx : x < net.size) (hy : y < net.size) (hxy : x ≠ y) (hux : up x = true)
    (huy : up y = true) (hxt : x ≠ top) (hyt : y ≠ top) {p : Packet} {rest : List Packet} (hc : net.chan y x = p :: rest) (mm : Bool) (o : DbOutcome) :
    let net' := act { net with chan := upd2 net.chan y x rest } x
      (.message (ixOf x y) { commitCount := some p.commits, hash := some p.hash, body := body mm p.payload } o)
    Inv up top prio C h net' ∧ effort up net' < effort up net := by
  intro net'
  have hm := hI.mem x hx hux
  have hk := hI.lt hx hy hxy hux
  have hid := idOf_ixOf hxy
  obtain ⟨m, hpm⟩ := hI.plain y x hy hx (Ne.symm hxy) huy hux p (by rw [hc]; exact List.mem_cons_self)
  subst hpm
  obtain ⟨s, c, e, hss⟩ := (hI.humble y x hy hx (Ne.symm hxy) huy hux hyt hxt).2 m (by rw [hc]; exact List.mem_cons_self)
  subst e
  have h1 : s ≠ .searching := by rintro rfl; rcases hss with e | e | e <;> cases e
  have h2 : s ≠ .standingUp := by rintro rfl; rcases hss with e | e | e <;> cases e
  have hstep := hm.state hk (by rw [hid]; exact huy) c h1 h2 o
  rw [hid] at hstep
  have hnet : net' = settle { net with chan := upd2 net.chan y x rest } x (heard (net.node x) (ixOf x y) s) := by
    show settle _ x (Node.step (net.node x) _) = _
    rw [← hstep]; rfl
  have hpe := fun i => setPeer_peer hk (fun p => { p with state := s }) i
  have hmove := inv_move hI hx hux (n' := heard (net.node x) (ixOf x y) s) (ch := upd2 net.chan y x rest)
    (fun a b hb => upd2_ne a b hb) (upd2_sub hc)
    (hI.edit hx hy hxy hux huy (fun _ => ⟨rfl, rfl, rfl, rfl, rfl, rfl⟩))
    (by unfold heard; rw [edit_len]; exact hI.len x hx hux) (hI.pri x hx hux) (nil_noShut hm.out)
    (fun _ j hj hxj huj hjt => by
      refine ⟨?_, ?_⟩
      · unfold heard
        rw [hpe]
        split
        · rcases hss with e | e | e
          · exact Or.inr (Or.inl e)
          · exact Or.inr (Or.inr (Or.inl e))
          · exact Or.inr (Or.inr (Or.inr e))
        · exact (hI.humble x j hx hj hxj hux huj hxt hjt).1
      · rw [show (heard (net.node x) (ixOf x y) s).out = [] from hm.out]
        intro m hm'; cases hm')
    (fun e => absurd e hxt)
    (fun _ => by
      rw [show (heard (net.node x) (ixOf x y) s).out = [] from hm.out, upd2_ne' _ _ (Ne.symm hyt)]
      unfold heard
      rw [hpe, if_neg (fun e => hyt (ixOf_inj hxy hxt e.symm))]
      show Pair _ _ _ _ _ _ _ _ _ _ _ (_ ++ [])
      rw [List.append_nil]
      exact hI.pair x hx hux hxt)
  rw [hnet]
  refine ⟨hmove.1, effort_message hx hy hxy hux huy hc rfl hmove.2 ?_ ?_⟩
  · rw [show (heard (net.node x) (ixOf x y) s).out = [] from hm.out]
    exact (by decide : 0 < 2)
  · intro b _ _ _
    rw [show (heard (net.node x) (ixOf x y) s).out = [] from hm.out]; rfl

/-- A message from the node that is to lead. -/
theorem deliver_voter (hI : Inv up top prio C h net) {x : Nat} (hx : x < net.size) (hux : up x = true) (hxt : x ≠ top)
    {p : Packet} {rest : List Packet} (hc : net.chan top x = p :: rest) (mm : Bool) {o : DbOutcome}
    (ho : o.recvOk = true ∧ o.queueOk = true ∧ o.commits = C ∧ o.journal C = h) :
    let net' := act { net with chan := upd2 net.chan top x rest } x
      (.message (ixOf x top) { commitCount := some p.commits, hash := some p.hash, body := body mm p.payload } o)
    Inv up top prio C h net' ∧ effort up net' < effort up net := by
  intro net'
  have hm := hI.mem x hx hux
  have hk := hI.lt hx hI.top_lt hxt hux
  have hid := idOf_ixOf hxt
  have hK : up (idOf x (ixOf x top)) = true := by rw [hid]; exact hI.top_up
  have hpair := hI.pair x hx hux hxt
  obtain ⟨m, hpm⟩ := hI.plain top x hI.top_lt hx (Ne.symm hxt) hI.top_up hux p (by rw [hc]; exact List.mem_cons_self)
  subst hpm
  have hmsgs : msgs (net.chan top x) = m :: msgs rest := by rw [hc]; rfl
  rw [hmsgs] at hpair
  have hlow : ∀ j, j < net.size → x ≠ j → up j = true → j ≠ top → lowState ((net.node x).peer (ixOf x j)).state :=
    fun j hj hxj huj hjt => (hI.humble x j hx hj hxj hux huj hxt hjt).1
  have hother : ∀ k, k < (net.node x).peers.length → up (idOf x k) = true → k ≠ ixOf x top → leadish ((net.node x).peer k).state = false := by
    intro k hk hKk hne
    obtain ⟨j, hj, hxj, e1, e2⟩ := hI.entry hx hux hk
    rw [e2] at hKk
    subst e1
    have hjt : j ≠ top := by rintro rfl; exact hne rfl
    exact (hlow j hj hxj hKk hjt).not_leadish
  cases hpair.down m List.mem_cons_self with
  | state s c hss hcc =>
    by_cases hsu : s = .standingUp
    · subst hsu
      obtain ⟨hv, _, hnew⟩ := hpair.voter_votes
      have hstep := hm.state_up hk hK c hv hpair.low.not_leadish hother o
      rw [hid] at hstep
      have hnet : net' = settle { net with chan := upd2 net.chan top x rest } x
          { heard (net.node x) (ixOf x top) .standingUp with out := [.send (ixOf x top) (.standupResponse (some (c : Int)) (some true))] } := by
        show settle _ x (Node.step (net.node x) _) = _
        rw [← hstep]; rfl
      have hpe := fun i => setPeer_peer hk (fun p => { p with state := .standingUp }) i
      have hout : ∀ k, outTo k [Effect.send (ixOf x top) (.standupResponse (some (c : Int)) (some true))] =
          if ixOf x top = k then [.standupResponse (some (c : Int)) (some true)] else [] := by
        intro k
        unfold outTo
        by_cases e : ixOf x top = k <;> simp [e]
      have hmove := inv_move hI hx hux (n' := { heard (net.node x) (ixOf x top) .standingUp with
          out := [.send (ixOf x top) (.standupResponse (some (c : Int)) (some true))] }) (ch := upd2 net.chan top x rest)
        (fun a b hb => upd2_ne a b hb) (upd2_sub hc)
        (hI.edit hx hI.top_lt hxt hux hI.top_up (fun _ => ⟨rfl, rfl, rfl, rfl, rfl, rfl⟩))
        (by unfold heard; dsimp only; rw [edit_len]; exact hI.len x hx hux) (hI.pri x hx hux) (by intro k hk; simp at hk)
        (fun _ j hj hxj huj hjt => by
          have hne : ixOf x j ≠ ixOf x top := fun e => hjt (ixOf_inj hxj hxt e)
          refine ⟨?_, ?_⟩
          · show lowState (Node.peer (heard _ _ _) _).state
            unfold heard
            rw [hpe, if_neg hne]
            exact hlow j hj hxj huj hjt
          · dsimp only
            rw [hout, if_neg (Ne.symm hne)]
            intro m hm'; cases hm')
        (fun e => absurd e hxt)
        (fun _ => by
          dsimp only
          rw [hout, if_pos rfl, upd2_at]
          show Pair _ _ _ _ _ _ _ _ _ _ (Node.peer (heard _ _ _) _).state _
          unfold heard
          rw [hpe, if_pos rfl]
          exact hnew)
      rw [hnet]
      refine ⟨hmove.1, effort_message hx hI.top_lt hxt hux hI.top_up hc rfl hmove.2 ?_ ?_⟩
      · dsimp only
        rw [hout, if_pos rfl]
        exact (by decide : 1 < 2)
      · intro b hb hbx hbt
        dsimp only
        rw [hout, if_neg (fun e => hbt (ixOf_inj (Ne.symm hbx) hxt e.symm))]
    · obtain ⟨hv, _, hnew⟩ := hpair.voter_hears hsu
      have hstep := hm.state hk hK c hv hsu o
      rw [hid] at hstep
      have hnet : net' = settle { net with chan := upd2 net.chan top x rest } x (heard (net.node x) (ixOf x top) s) := by
        show settle _ x (Node.step (net.node x) _) = _
        rw [← hstep]; rfl
      have hpe := fun i => setPeer_peer hk (fun p => { p with state := s }) i
      have hmove := inv_move hI hx hux (n' := heard (net.node x) (ixOf x top) s) (ch := upd2 net.chan top x rest)
        (fun a b hb => upd2_ne a b hb) (upd2_sub hc)
        (hI.edit hx hI.top_lt hxt hux hI.top_up (fun _ => ⟨rfl, rfl, rfl, rfl, rfl, rfl⟩))
        (by unfold heard; rw [edit_len]; exact hI.len x hx hux) (hI.pri x hx hux) (nil_noShut hm.out)
        (fun _ j hj hxj huj hjt => by
          refine ⟨?_, ?_⟩
          · unfold heard
            rw [hpe, if_neg (fun e => hjt (ixOf_inj hxj hxt e))]
            exact hlow j hj hxj huj hjt
          · rw [show (heard (net.node x) (ixOf x top) s).out = [] from hm.out]
            intro m hm'; cases hm')
        (fun e => absurd e hxt)
        (fun _ => by
          rw [show (heard (net.node x) (ixOf x top) s).out = [] from hm.out, upd2_at]
          unfold heard
          rw [hpe, if_pos rfl]
          show Pair _ _ _ _ _ _ _ _ _ _ _ (_ ++ [])
          rw [List.append_nil]
          exact hnew)
      rw [hnet]
      refine ⟨hmove.1, effort_message hx hI.top_lt hxt hux hI.top_up hc rfl hmove.2 ?_ ?_⟩
      · rw [show (heard (net.node x) (ixOf x top) s).out = [] from hm.out]
        exact (by decide : 0 < 2)
      · intro b _ _ _
        rw [show (heard (net.node x) (ixOf x top) s).out = [] from hm.out]; rfl
  | welcome =>
    obtain ⟨hs, hnew⟩ := hpair.voter_welcome ((net.node x).stateChangeCount + 1)
    have hl := (hpair.lead (Or.inl hs)).2
    have hstep := hm.welcome hk hK hs hl ho.1
    have hnet : net' = settle { net with chan := upd2 net.chan top x rest } x
        (turned { net.node x with commits := o.commits, journal := o.journal } .following) := by
      show settle _ x (Node.step (net.node x) _) = _
      rw [← hstep]; rfl
    have hout := turned_out (n := { net.node x with commits := o.commits, journal := o.journal }) hm.out .following
    have hmove := inv_move hI hx hux (n' := turned { net.node x with commits := o.commits, journal := o.journal } .following)
      (ch := upd2 net.chan top x rest) (fun a b hb => upd2_ne a b hb) (upd2_sub hc)
      (member_of hm rfl rfl rfl rfl ho.2.2.1 ho.2.2.2 rfl (fun _ _ => .refl _) (fun _ _ _ => rfl)) (hI.len x hx hux) (hI.pri x hx hux)
      (turned_noShut (nil_noShut hm.out) _)
      (fun _ j hj hxj huj hjt => ⟨hlow j hj hxj huj hjt, by
        rw [hout]
        intro m hm'
        rw [List.mem_singleton.1 hm']
        exact ⟨_, _, by dsimp only; rw [hI.pri x hx hux], Or.inr (Or.inr rfl)⟩⟩)
      (fun e => absurd e hxt)
      (fun _ => by
        rw [hout, upd2_at]
        dsimp only
        rw [hI.pri x hx hux]
        exact hnew)
    rw [hnet]
    refine ⟨hmove.1, effort_state hx hux (upd2_load hc) ?_ hmove.2 ?_⟩
    · rw [hs]; exact (by decide : 0 < 1)
    · intro b' _ _
      rw [hout]; exact (by decide : 2 ≤ 4)

/-- A message to the node that is to lead. -/
theorem deliver_top (hI : Inv up top prio C h net) {y : Nat} (hy : y < net.size) (huy : up y = true) (hyt : y ≠ top)
    {p : Packet} {rest : List Packet} (hc : net.chan y top = p :: rest) (mm : Bool) {o : DbOutcome}
    (ho : o.recvOk = true ∧ o.queueOk = true ∧ o.commits = C ∧ o.journal C = h) :
    let net' := act { net with chan := upd2 net.chan y top rest } top
      (.message (ixOf top y) { commitCount := some p.commits, hash := some p.hash, body := body mm p.payload } o)
    Inv up top prio C h net' ∧ effort up net' < effort up net := by
  intro net'
  have hx := hI.top_lt
  have hux := hI.top_up
  have hxy : top ≠ y := Ne.symm hyt
  have hm := hI.mem top hx hux
  have hk := hI.lt hx hy hxy hux
  have hid := idOf_ixOf hxy
  have hK : up (idOf top (ixOf top y)) = true := by rw [hid]; exact huy
  have hpair := hI.pair y hy huy hyt
  obtain ⟨m, hpm⟩ := hI.plain y top hy hx hyt huy hux p (by rw [hc]; exact List.mem_cons_self)
  subst hpm
  have hmsgs : msgs (net.chan y top) = m :: msgs rest := by rw [hc]; rfl
  rw [hmsgs] at hpair
  -- one entry is edited, and perhaps one message sent to it
  have fin : ∀ (f : Peer → Peer) (l : List OutMsg) (es : List Effect), (∀ p, Like p (f p)) → noShut es →
      (∀ k, outTo k es = if ixOf top y = k then l else []) → load (l.map (pk C h)) < weight (pk C h m) →
      Node.step (net.node top) (.message (ixOf top y) { commitCount := some C, hash := some h, body := body mm (.out m) } o) =
        { (net.node top).setPeer (ixOf top y) f with out := es } →
      Pair (ixOf y top) (prio top) (prio y) (net.node top).state (net.node top).stateChangeCount (f (net.view top y)).state
        (f (net.view top y)).standup (msgs (net.chan top y) ++ l) (net.node y).state (net.node y).leadPeer (net.view y top).state (msgs rest) →
      Inv up top prio C h net' ∧ effort up net' < effort up net := by
    intro f l es hf hno hout hw hstep hp
    have hnet : net' = settle { net with chan := upd2 net.chan y top rest } top { (net.node top).setPeer (ixOf top y) f with out := es } := by
      show settle _ top (Node.step (net.node top) _) = _
      rw [← hstep]; rfl
    have hpe := fun i => setPeer_peer hk f i
    have hmove := inv_move hI hx hux (n' := { (net.node top).setPeer (ixOf top y) f with out := es }) (ch := upd2 net.chan y top rest)
      (fun a b hb => upd2_ne a b hb) (upd2_sub hc) (hI.edit hx hy hxy hux huy hf)
      (by dsimp only; rw [edit_len]; exact hI.len top hx hux) (hI.pri top hx hux) hno (fun e => absurd rfl e)
      (fun _ i hi hui hit => by
        show Pair _ _ _ (net.node top).state (net.node top).stateChangeCount (((net.node top).setPeer (ixOf top y) f).peer (ixOf top i)).state
          (((net.node top).setPeer (ixOf top y) f).peer (ixOf top i)).standup (msgs (net.chan top i) ++ outTo (ixOf top i) es) _ _ _ _
        rw [hpe, hout]
        by_cases e : i = y
        · subst e
          rw [if_pos rfl, if_pos rfl, upd2_at]; exact hp
        · have hne : ixOf top i ≠ ixOf top y := fun e' => e (ixOf_inj (Ne.symm hit) hxy e')
          rw [if_neg hne, if_neg (Ne.symm hne), upd2_ne' _ _ e, List.append_nil]
          exact hI.pair i hi hui hit)
      (fun e => absurd rfl e)
    rw [hnet]
    refine ⟨hmove.1, effort_message hx hy hxy hux huy hc rfl hmove.2 ?_ ?_⟩
    · dsimp only
      rw [hout, if_pos rfl]; exact hw
    · intro b hb hbx hby
      dsimp only
      rw [hout, if_neg (fun e => hby (ixOf_inj (Ne.symm hbx) hxy e.symm))]
  have hnone : ∀ k, outTo k [] = if ixOf top y = k then [] else [] := fun k => by split <;> rfl
  cases hpair.up m List.mem_cons_self with
  | state s c hss =>
    obtain ⟨h1, h2, _, hnew⟩ := hpair.top_hears
    have hstep := hm.state hk hK c h1 h2 o
    rw [hid] at hstep
    refine fin (fun p => { p with state := s }) [] [] (fun _ => ⟨rfl, rfl, rfl, rfl, rfl, rfl⟩) (nil_noShut rfl) hnone (by decide : 0 < 2) ?_ ?_
    · refine hstep.trans ?_
      exact (out_nil (n := heard (net.node top) (ixOf top y) s) hm.out).symm
    · rw [List.append_nil]; exact hnew
  | approve c hT hcc =>
    obtain ⟨_, _, hnew⟩ := hpair.top_counts
    have hstep := hm.approved hk hK c hcc o
    by_cases hs : (net.node top).state = .standingUp
    · rw [if_pos hs] at hstep hnew
      refine fin (fun p => { p with standup := .approve }) [] [] (fun _ => ⟨rfl, rfl, rfl, rfl, rfl, rfl⟩) (nil_noShut rfl) hnone (by decide : 0 < 1) ?_ ?_
      · refine hstep.trans ?_
        exact (out_nil (n := (net.node top).setPeer (ixOf top y) _) hm.out).symm
      · rw [List.append_nil]; exact hnew
    · rw [if_neg hs] at hstep hnew
      refine fin id [] [] (fun _ => .refl _) (nil_noShut rfl) hnone (by decide : 0 < 1) ?_ ?_
      · refine hstep.trans ?_
        rw [setPeer_self (f := id) rfl]
        exact (out_nil hm.out).symm
      · rw [List.append_nil]; exact hnew
  | subscribe =>
    obtain ⟨hs, hnew⟩ := hpair.top_welcomes
    have hstep := hm.subscribe hk hK hs ho.2.1
    refine fin (fun p => { p with subscribed := true }) [.subscriptionApproved] [.send (ixOf top y) .subscriptionApproved]
      (fun _ => ⟨rfl, rfl, rfl, rfl, rfl, rfl⟩) (by intro k hk; simp at hk) ?_ (by decide : 1 < 2) hstep hnew
    intro k
    unfold outTo
    by_cases e : ixOf top y = k <;> simp [e]

theorem Alike.inv {net' : Net} (ha : Alike up net net') (hs : ∀ a b, a < net.size → up a = true → net'.side a b = net.side a b)
    (hI : Inv up top prio C h net) : Inv up top prio C h net' := by
  have hview : ∀ a b, a < net.size → up a = true → net'.view a b = net.view a b := by
    intro a b h1 h2; unfold Net.view; rw [ha.node a h1 h2]
  refine ⟨?_, hI.top_up, hI.high, ?_, ?_, ?_, ?_, ?_, ?_, ?_, ?_⟩ <;> rw [ha.size]
  · exact hI.top_lt
  · exact hI.lower
  · intro i hi hui; rw [ha.node i hi hui]; exact hI.mem i hi hui
  · intro i hi hui; rw [ha.node i hi hui]; exact hI.len i hi hui
  · intro i hi hui; rw [ha.node i hi hui]; exact hI.pri i hi hui
  · intro i j hi hj hij hui; rw [hs i j hi hui]; exact hI.open' i j hi hj hij hui
  · intro i j hi hj hij hui huj; rw [ha.chan i j hi hj hij hui huj]; exact hI.plain i j hi hj hij hui huj
  · intro i j hi hj hij hui huj hit hjt
    rw [ha.chan i j hi hj hij hui huj, hview i j hi hui]; exact hI.humble i j hi hj hij hui huj hit hjt
  · intro i hi hui hit
    have ht := hI.top_lt
    have htu := hI.top_up
    rw [ha.chan top i ht hi (Ne.symm hit) htu hui, ha.chan i top hi ht hit hui htu, hview i top hi hui, hview top i ht htu, ha.node i hi hui,
      ha.node top ht htu]
    exact hI.pair i hi hui hit

theorem Alike.effort {net' : Net} (ha : Alike up net net') : effort up net' = effort up net := by
  unfold Net.effort
  rw [ha.size]
  have e1 : sumTo net.size (fun i => if up i = true then away (net'.node i).state else 0) =
      sumTo net.size (fun i => if up i = true then away (net.node i).state else 0) := by
    apply Nat.le_antisymm <;> refine sumTo_mono fun k hk => ?_
    · split
      · rename_i hu; rw [ha.node k hk hu]; exact Nat.le_refl _
      · exact Nat.le_refl _
    · split
      · rename_i hu; rw [ha.node k hk hu]; exact Nat.le_refl _
      · exact Nat.le_refl _
  have e2 : sum2 net.size (fun i j => if up i = true ∧ up j = true ∧ i ≠ j then load (net'.chan i j) else 0) =
      sum2 net.size (fun i j => if up i = true ∧ up j = true ∧ i ≠ j then load (net.chan i j) else 0) := by
    apply Nat.le_antisymm <;> refine sum2_mono fun a b h1 h2 => ?_
    · split
      · rename_i hu; rw [ha.chan a b h1 h2 hu.2.2 hu.1 hu.2.1]; exact Nat.le_refl _
      · exact Nat.le_refl _
    · split
      · rename_i hu; rw [ha.chan a b h1 h2 hu.2.2 hu.1 hu.2.1]; exact Nat.le_refl _
      · exact Nat.le_refl _
  rw [e1, e2]

theorem Alike.refl (net : Net) : Alike up net net := ⟨rfl, fun _ _ _ => rfl, fun _ _ _ _ _ _ _ => rfl⟩

theorem Alike.trans {a b c : Net} (h1 : Alike up a b) (h2 : Alike up b c) : Alike up a c := by
  have hs := h1.size
  refine ⟨h2.size.trans hs, ?_, ?_⟩
  · intro x hx hu; rw [h2.node x (by rw [hs]; exact hx) hu, h1.node x hx hu]
  · intro x y hx hy hxy hu hu'; rw [h2.chan x y (by rw [hs]; exact hx) (by rw [hs]; exact hy) hxy hu hu', h1.chan x y hx hy hxy hu hu']

/-- What a node outside of `up` does. -/
theorem act_away {x : Nat} (hux : up x = false) (n' : Node) {ch : Nat → Nat → List Packet} {sd : Nat → Nat → Side}
    (hch : ∀ a b, up a = true → up b = true → ch a b = net.chan a b) (hsd : ∀ a b, up a = true → sd a b = net.side a b) :
    Alike up net (settle { net with chan := ch, side := sd } x n') ∧
    ∀ a b, a < net.size → up a = true → (settle { net with chan := ch, side := sd } x n').side a b = net.side a b := by
  have hne : ∀ a, up a = true → a ≠ x := by rintro a ha rfl; rw [hux] at ha; cases ha
  refine ⟨⟨rfl, ?_, ?_⟩, ?_⟩
  · intro a _ hu; rw [settle_node, if_neg (hne a hu)]
  · intro a b _ _ _ hu hu'; rw [settle_chan_ne (hne a hu)]; exact hch a b hu hu'
  · intro a b _ hu
    show (if a = x then _ else sd a b) = _
    rw [if_neg (hne a hu)]; exact hsd a b hu

/-- What has become of an event that changes nothing. -/
def Idle (up : Nat → Bool) (top : Nat) (net : Net) : Ev → Prop
  | .update i _ _ => i < net.size → up i = true → Settled up top net i
  | .deliver i j _ _ => i < net.size → j < net.size → i ≠ j → up i = true → up j = true → net.chan i j = []
  | _ => True

theorem step_live (hI : Inv up top prio C h net) {ev : Ev} (he : Undisturbed up C h ev) :
    Inv up top prio C h (step net ev) ∧
    (effort up (step net ev) < effort up net ∨ (Alike up net (step net ev) ∧ Idle up top net ev)) := by
  have stay : ∀ {net' : Net} {P : Prop}, Alike up net net' ∧ (∀ a b, a < net.size → up a = true → net'.side a b = net.side a b) → P →
      Inv up top prio C h net' ∧ (effort up net' < effort up net ∨ (Alike up net net' ∧ P)) :=
    fun h hP => ⟨h.1.inv h.2 hI, Or.inr ⟨h.1, hP⟩⟩
  have same : Alike up net net ∧ (∀ a b, a < net.size → up a = true → net.side a b = net.side a b) := ⟨.refl net, fun _ _ _ _ => rfl⟩
  have own : ∀ {x : Nat} {e : Node.Ev} {P : Prop}, up x = false → P → Inv up top prio C h (if net.alive x then act net x e else net) ∧
      (effort up (if net.alive x then act net x e else net) < effort up net ∨ (Alike up net (if net.alive x then act net x e else net) ∧ P)) := by
    intro x e P hux hP
    split
    · exact stay (act_away (ch := net.chan) (sd := net.side) hux _ (fun _ _ _ _ => rfl) (fun _ _ _ => rfl)) hP
    · exact stay same hP
  cases ev with
  | update i t b =>
    by_cases hui : up i = true
    · have ht : t = false := he hui
      subst ht
      unfold step
      dsimp only
      split
      · rename_i ha
        have hi := (alive_iff.1 ha).1
        by_cases e : i = top
        · subst e
          have := update_top hI b
          exact ⟨this.1, this.2.imp_right fun h => ⟨h.1, fun _ _ => h.2⟩⟩
        · have := update_voter hI hi hui e b
          exact ⟨this.1, this.2.imp_right fun h => ⟨h.1, fun _ _ => h.2⟩⟩
      · rename_i ha
        refine stay same fun hi _ => ?_
        exact absurd (alive_iff.2 ⟨hi, (hI.mem i hi hui).dead⟩) ha
    · exact own (by cases hu : up i with
        | true => exact absurd hu hui
        | false => rfl) fun _ hu => absurd hu hui
  | deliver i j mm o =>
    unfold step
    dsimp only
    split
    · rename_i ha
      obtain ⟨hi, hj, hij, hs⟩ := ha
      have hj' := (alive_iff.1 hj).1
      cases hc : net.chan i j with
      | nil => exact stay same fun _ _ _ _ _ => hc
      | cons p rest =>
        dsimp only
        by_cases huj : up j = true
        · by_cases hui : up i = true
          · have hoo := he hui huj
            by_cases ejt : j = top
            · subst ejt
              have := deliver_top hI hi hui hij hc mm hoo
              exact ⟨this.1, Or.inl this.2⟩
            · by_cases eit : i = top
              · subst eit
                have := deliver_voter hI hj' huj ejt hc mm hoo
                exact ⟨this.1, Or.inl this.2⟩
              · have := deliver_humble hI hj' hi (Ne.symm hij) huj hui ejt eit hc mm o
                exact ⟨this.1, Or.inl this.2⟩
          · exact absurd ((hI.open' j i hj' hi (Ne.symm hij) huj).trans (if_neg hui)) hs
        · have huj' : up j = false := by
            cases hu : up j with
            | true => exact absurd hu huj
            | false => rfl
          exact stay (act_away (ch := upd2 net.chan i j rest) (sd := net.side) huj' _
            (fun a b _ hb => upd2_ne a b (by rintro rfl; exact huj hb)) (fun _ _ _ => rfl)) fun _ _ _ _ h => absurd h huj
    · rename_i ha
      refine stay same fun hi hj hij hui huj => absurd ⟨hi, alive_iff.2 ⟨hj, (hI.mem j hj huj).dead⟩, hij, ?_⟩ ha
      rw [hI.open' j i hj hi (Ne.symm hij) huj, if_pos hui]; decide
  | lost i j =>
    unfold step
    dsimp only
    split
    · refine stay (act_away (ch := net.chan) (sd := upd2 net.side i j .closed) he _ (fun _ _ _ _ => rfl) ?_) trivial
      intro a b ha
      unfold upd2
      rw [if_neg]
      rintro ⟨rfl, rfl⟩
      rw [show up a = false from he] at ha; cases ha
    · exact stay same trivial
  | connect i j =>
    unfold step
    dsimp only
    split
    · have h1 : ∀ a, up a = true → a ≠ i := by rintro a ha rfl; rw [he.1] at ha; cases ha
      have h2 : ∀ a, up a = true → a ≠ j := by rintro a ha rfl; rw [he.2] at ha; cases ha
      refine stay ⟨⟨rfl, fun _ _ _ => rfl, ?_⟩, ?_⟩ trivial
      · intro a b _ _ _ ha hb
        dsimp only
        unfold upd2
        rw [if_neg (fun e => h2 a ha e.1), if_neg (fun e => h1 a ha e.1)]
      · intro a b _ ha
        dsimp only
        unfold upd2
        rw [if_neg (fun e => h2 a ha e.1), if_neg (fun e => h1 a ha e.1)]
    · exact stay same trivial
  | restart i c v n jr =>
    unfold step
    dsimp only
    have h1 : ∀ a, up a = true → a ≠ i := by rintro a ha rfl; rw [show up a = false from he] at ha; cases ha
    split
    · refine stay ⟨⟨rfl, ?_, fun _ _ _ _ _ _ _ => rfl⟩, ?_⟩ trivial
      · intro a _ ha
        dsimp only
        unfold upd
        rw [if_neg (h1 a ha)]
      · intro a b _ ha
        dsimp only
        rw [if_neg (h1 a ha)]
    · exact stay same trivial
  | setPriority i p => exact own (e := .setPriority p) he trivial
  | setShutdownPriority i => exact own (e := .setShutdownPriority) he trivial
  | beginShutdown i => exact own (e := .beginShutdown) he trivial
  | database i c jr => exact own (e := .database c jr) he trivial

end

end Bedrock.Net
