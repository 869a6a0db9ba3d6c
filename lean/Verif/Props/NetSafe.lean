import Verif.Spec.NetSafe
import Verif.Lemmas.NetElect
import Verif.Props.OpenDB

/-!
# At most one leader
-/

namespace Bedrock.Net.Props
open Bedrock Bedrock.Node Bedrock.Node.Node

theorem idOf_inj {i k l : Nat} (h : idOf i k = idOf i l) : k = l := by
  unfold idOf at h
  split at h <;> split at h <;> omega

/-- Those whose approval `a` has counted. -/
def voters (net : Net) (a : Nat) : List Nat :=
  ((List.range (net.size - 1)).filter (fun k => ((net.node a).peer k).standup = .approve)).map (idOf a)

theorem mem_voters {net : Net} {a c : Nat} (ha : a < net.size) (h : c ∈ voters net a) :
    c < net.size ∧ a ≠ c ∧ (net.view a c).standup = .approve := by
  unfold voters at h
  obtain ⟨k, hk, e⟩ := List.mem_map.1 h
  obtain ⟨hk1, hk2⟩ := List.mem_filter.1 hk
  rw [List.mem_range] at hk1
  obtain ⟨d, hd, had, e'⟩ := ix_cover ha (k := k) (n := net.size) (by omega)
  have hdc : d = c := by rw [← e, ← e', idOf_ixOf had]
  subst hdc
  refine ⟨hd, had, ?_⟩
  unfold Net.view
  rw [e']
  exact of_decide_eq_true hk2

theorem nodup_voters (net : Net) (a : Nat) : (voters net a).Nodup := by
  unfold voters
  refine List.Pairwise.map (S := (· ≠ ·)) _ (fun x y h e => h (idOf_inj e)) (List.Pairwise.filter _ List.nodup_range)

theorem length_voters {net : Net} {a : Nat} (h : (net.node a).peers.length + 1 = net.size) :
    (voters net a).length = (net.node a).peers.countP (fun p => p.standup = .approve) := by
  unfold voters
  rw [List.length_map, ← List.countP_eq_length_filter, show net.size - 1 = (net.node a).peers.length by omega]
  have ext : ∀ ps : List Peer, (List.range ps.length).countP (fun k => (ps.getD k {}).standup = .approve) =
      ps.countP (fun p => p.standup = .approve) := by
    intro ps
    induction ps with
    | nil => rfl
    | cons p ps ih =>
      rw [List.length_cons, List.range_succ_eq_map, List.countP_cons, List.countP_cons, List.countP_map, ← ih]
      rfl
  exact ext _

theorem elect_unique {net : Net} (hb : Base net) (h : Elect net) {a b : Nat} (ha : a < net.size) (hb' : b < net.size)
    (h1 : inCharge (net.node a).state = true) (h2 : inCharge (net.node b).state = true) : a = b := by
  apply Classical.byContradiction
  intro hab
  have lead : ∀ s, inCharge s = true → leadish s = true := by
    intro s hs; cases s <;> first | rfl | cases hs
  have e1 := h.enough a ha h1
  have e2 := h.enough b hb' h2
  rw [← length_voters (hb.len a ha)] at e1
  rw [← length_voters (hb.len b hb')] at e2
  have l1 := hb.len a ha
  have l2 := hb.len b hb'
  have vote : ∀ x c, x < net.size → inCharge (net.node x).state = true → c ∈ voters net x → Vote net c x :=
    fun x c hx hc hm => ⟨lead _ hc, Or.inl (mem_voters hx hm).2.2⟩
  have hn : (a :: b :: (voters net a ++ voters net b)).Nodup := by
    have hnot : ∀ x y, x < net.size → y < net.size → inCharge (net.node x).state = true → inCharge (net.node y).state = true →
        x ∉ voters net y := by
      intro x y hx hy h1 h2 hm
      exact h.none x y hx hy (Ne.symm (mem_voters hy hm).2.1) (lead _ h1) (vote y x hy h2 hm)
    refine List.nodup_cons.2 ⟨?_, List.nodup_cons.2 ⟨?_, ?_⟩⟩
    · intro hm
      rcases List.mem_cons.1 hm with e | hm
      · exact hab e
      · rcases List.mem_append.1 hm with hm | hm
        · exact hnot a a ha ha h1 h1 hm
        · exact hnot a b ha hb' h1 h2 hm
    · intro hm
      rcases List.mem_append.1 hm with hm | hm
      · exact hnot b a hb' ha h2 h1 hm
      · exact hnot b b hb' hb' h2 h2 hm
    · refine List.nodup_append.2 ⟨nodup_voters _ _, nodup_voters _ _, ?_⟩
      intro x hx y hy e
      subst e
      have m1 := mem_voters ha hx
      have m2 := mem_voters hb' hy
      exact hab (h.one a b x ha hb' m1.1 m1.2.1 m2.2.1 (vote a x ha h1 hx) (vote b x hb' h2 hy))
  have hlen := OpenDB.Props.nodup_length _ (List.range net.size) hn (by
    intro x hx
    rw [List.mem_range]
    rcases List.mem_cons.1 hx with e | hx
    · rw [e]; exact ha
    · rcases List.mem_cons.1 hx with e | hx
      · rw [e]; exact hb'
      · rcases List.mem_append.1 hx with hx | hx
        · exact (mem_voters ha hx).1
        · exact (mem_voters hb' hx).1)
  rw [List.length_range] at hlen
  simp only [List.length_cons, List.length_append] at hlen
  omega

theorem full_of {evs : List Ev} (h : AllFull evs) : ∀ ev ∈ evs, ev.full := by
  intro ev he
  have := h ev he
  cases ev <;> first | exact this | trivial

theorem run_elect : ∀ (evs : List Ev) {net : Net}, Good net → Elect net → AllFull evs → Lasting net evs →
    Good (run net evs) ∧ Elect (run net evs)
  | [], _, hg, h, _, _ => ⟨hg, h⟩
  | ev :: evs, net, hg, h, hf, hk => by
    have he := full_of hf ev List.mem_cons_self
    exact run_elect evs (step_good hg ev he) (step_elect hg h ev he (fun i j hi hj => hk.1 i hi j hj))
      (fun e he => hf e (List.mem_cons_of_mem _ he)) hk.2

/-- **C112.** From a moment at which no node leads or tries to, and as long as connections last, at most one node leads. -/
theorem c112_one_leader {size : Nat} {priority : Nat → Int} {version : Nat → Bytes} {commits : Nat → Nat} {journal : Nat → Nat → Bytes}
    (before evs : List Ev) (h2 : 2 ≤ size) (hp : ∀ i, i < size → priority i ≠ 0) (hf : AllFull (before ++ evs))
    (h0 : ∀ i, i < size → ((run (fresh size priority version commits journal) before).node i).state ∉
      [NState.standingUp, .leading, .standingDown])
    (hl : Lasting (run (fresh size priority version commits journal) before) evs) {a b : Nat} (ha : a < size) (hb : b < size)
    (h1 : ((run (fresh size priority version commits journal) (before ++ evs)).node a).state ∈ [NState.leading, .standingDown])
    (h2 : ((run (fresh size priority version commits journal) (before ++ evs)).node b).state ∈ [NState.leading, .standingDown]) :
    a = b := by
  have hg : Good (run (fresh size priority version commits journal) before) :=
    run_good before (fresh_good ‹2 ≤ size› hp) (full_of (fun e he => hf e (List.mem_append_left _ he)))
  have hsz : ∀ (evs : List Ev) (net : Net), (run net evs).size = net.size := by
    intro evs
    induction evs with
    | nil => intro _; rfl
    | cons e evs ih =>
      intro net
      refine (ih (step net e)).trans ?_
      cases e <;> (unfold step; dsimp only; split) <;> first | rfl | (split <;> rfl)
  have hs : (run (fresh size priority version commits journal) before).size = size := hsz _ _
  have hno : ∀ i, i < size → leadish ((run (fresh size priority version commits journal) before).node i).state = false := by
    intro i hi
    have := h0 i hi
    revert this
    cases ((run (fresh size priority version commits journal) before).node i).state <;> simp [leadish]
  have hnv : ∀ c a, a < size → ¬ Vote (run (fresh size priority version commits journal) before) c a := by
    intro c a ha hv
    have := hv.1
    rw [hno a ha] at this; cases this
  have he : Elect (run (fresh size priority version commits journal) before) := by
    refine ⟨?_, ?_, ?_, ?_, ?_⟩ <;> rw [hs]
    · intro a c ha _ _ hl
      rw [hno a ha] at hl; cases hl
    · intro a c ha _ _ hv; exact absurd hv (hnv c a ha)
    · intro a b c ha _ _ _ _ hv; exact absurd hv (hnv c a ha)
    · intro a ha hc
      have : leadish ((run (fresh size priority version commits journal) before).node a).state = true := by
        cases hst : ((run (fresh size priority version commits journal) before).node a).state <;> rw [hst] at hc <;>
          first | rfl | cases hc
      rw [hno a ha] at this; cases this
    · intro a b _ hb _ _; exact hnv a b hb
  have hr := run_elect evs hg he (fun e he => hf e (List.mem_append_right _ he)) hl
  have happ : run (fresh size priority version commits journal) (before ++ evs) =
      run (run (fresh size priority version commits journal) before) evs := List.foldl_append
  rw [happ] at h1 h2
  have hin : ∀ s, s ∈ [NState.leading, .standingDown] → inCharge s = true := by
    intro s hs; cases s <;> simp_all [inCharge, NState.rank]
  refine elect_unique hr.1.base hr.2 ?_ ?_ (hin _ h1) (hin _ h2) <;> rw [hsz, hs] <;> assumption

/-! A run of three nodes: the first is elected with the vote of the third. -/

def three : Net := fresh 3 (fun i => [300, 200, 100].getD i 1) (fun _ => []) (fun _ => 0) (fun _ _ => [])

def ok : DbOutcome := { }

/-- Nodes 0 and 2 meet, learn that they run the same version, and meet again with their own priorities. -/
def meeting : List Ev := [.connect 0 2, .deliver 0 2 false ok, .deliver 2 0 false ok, .update 0 false true, .update 2 false true,
  .lost 0 2, .lost 2 0, .connect 0 2, .deliver 0 2 false ok, .deliver 2 0 false ok]

def electing : List Ev := [.update 0 false true, .deliver 0 2 false ok, .deliver 2 0 false ok, .update 2 false true,
  .update 2 false true, .update 0 false true, .deliver 0 2 false ok, .update 0 false true, .update 2 false true,
  .deliver 2 0 false ok, .deliver 0 2 false ok, .deliver 2 0 false ok, .deliver 2 0 false ok, .update 2 false true]

/-- The election meets the conditions of the theorem, and ends with a leader and a follower. -/
example : AllFull (meeting ++ electing) ∧
    (∀ i, i < 3 → ((run three meeting).node i).state ∉ [NState.standingUp, .leading, .standingDown]) ∧
    Lasting (run three meeting) electing ∧
    ((List.range 3).map fun i => ((run three (meeting ++ electing)).node i).state) = [.leading, .searching, .following] := by
  decide +kernel

/-- Node 1 meets node 2, which follows node 0. -/
def joining : List Ev := [.connect 1 2, .deliver 1 2 false ok, .deliver 2 1 false ok, .update 1 false true, .lost 1 2, .lost 2 1]

/-- Node 2 loses its connection to node 0, which does not know yet, and votes for node 1. -/
def splitting : List Ev := [.lost 2 0, .connect 1 2, .deliver 1 2 false ok, .deliver 2 1 false ok, .update 1 false true,
  .deliver 1 2 false ok, .deliver 2 1 false ok, .update 2 false true, .deliver 2 1 false ok, .update 1 false true,
  .deliver 1 2 false ok, .deliver 2 1 false ok, .update 1 false true]

/-- When the two sides of a connection do not learn at the same time that it is gone, two nodes lead at once. Of these events it is
only the loss of a connection by one side that the conditions of `c112_one_leader` exclude. -/
theorem c112_two_leaders : AllFull (meeting ++ electing ++ joining ++ splitting) ∧
    Lasting (run three (meeting ++ electing ++ joining ++ [.lost 2 0])) (splitting.drop 1) ∧
    ((run three (meeting ++ electing ++ joining ++ splitting)).node 0).state = .leading ∧
    ((run three (meeting ++ electing ++ joining ++ splitting)).node 1).state = .leading := by
  decide +kernel

/-- A LOGIN does not carry the StateChangeCount, so the answer to a node that logs in while it stands up does not either, and is not
counted: whatever node `c` answers to the LOGIN of node `a`, `a` regards it as it did before. -/
theorem c112_login_vote_not_counted {n : Node} {i : Nat} {r : Option Bool} {o : DbOutcome} {c : Nat} {h : Bytes}
    (hc : 0 < n.stateChangeCount) (k : Nat) :
    ((Node.step n (.message i { commitCount := some c, hash := some h, body := .standupResponse none r } o)).peer k).standup =
      (n.peer k).standup := by
  have lag : ∀ n : Node, (checkLag n i).peers = n.peers ∧ (checkLag n i).stateChangeCount = n.stateChangeCount := by
    intro n; unfold checkLag; dsimp only; split
    · exact ⟨rfl, rfl⟩
    · split <;> exact ⟨rfl, rfl⟩
  have hfail : ∀ n : Node, (fail n i).peers = n.peers := by
    intro n; unfold fail send; split <;> rfl
  have hset : ∀ k, ((n.setPeer i (fun p => { p with commitCount := c, hash := h })).peer k).standup = (n.peer k).standup := by
    intro k
    unfold setPeer peer
    simp only [List.getD_eq_getElem?_getD, List.getElem?_modify]
    split
    · cases n.peers[k]? <;> rfl
    · cases n.peers[k]? <;> rfl
  unfold Node.step
  split
  · rfl
  · show ((if i < n.peers.length then onMessage n i _ o else n).peer k).standup = _
    split
    · unfold onMessage
      split
      · rfl
      · dsimp only
        unfold dispatch
        dsimp only
        have hl := lag (n.setPeer i (fun p => { p with commitCount := c, hash := h }))
        split
        · unfold onLoggedIn onStandupResponse
          dsimp only
          split
          · rw [if_pos (by
              rw [hl.2]
              show (0 : Int) ≠ (n.stateChangeCount : Int)
              omega)]
            unfold peer
            rw [hl.1]
            exact hset k
          · unfold peer
            rw [hl.1]
            exact hset k
        · unfold peer
          rw [hfail, hl.1]
          exact hset k
    · rfl

/-- Node 0 stands up. Node 1 meets it too late to hear of that, and answers its LOGIN. The answer is on its way,
approves, and carries no count. -/
example : ((run three (meeting ++ [.update 0 false true, .connect 0 1, .deliver 0 1 false ok, .deliver 1 0 false ok])).node 0).state = .standingUp ∧
    (∃ p ∈ (run three (meeting ++ [.update 0 false true, .connect 0 1, .deliver 0 1 false ok, .deliver 1 0 false ok])).chan 1 0,
      p.payload = .out (.standupResponse none (some true))) := by
  decide +kernel

end Bedrock.Net.Props
