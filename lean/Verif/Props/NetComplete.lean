import Verif.Lemmas.NetComplete
import Verif.Props.NetSafe

/-!
# The leader has all commits
-/

namespace Bedrock.Net.Props
open Bedrock Bedrock.Node Bedrock.Node.Node

theorem step_size' (net : Net) (e : Ev) : (step net e).size = net.size := by
  cases e <;> (unfold step; dsimp only; split) <;> first | rfl | (split <;> rfl)

theorem run_size : ∀ (evs : List Ev) (net : Net), (run net evs).size = net.size
  | [], _ => rfl
  | e :: evs, net => (run_size evs (step net e)).trans (step_size' net e)

theorem met_sound {net : Net} (hg : Good net) (h : Met net) : Sound net := by
  have hno : ∀ i, i < net.size → leadish (net.node i).state = false := by
    intro i hi
    have := h.idle i hi
    revert this
    cases (net.node i).state <;> simp [leadish]
  refine ⟨?_, ?_⟩
  · intro i b hi hb hib e he
    rw [h.quiet i hi b hb hib] at he
    rw [List.mem_singleton.1 he]
    show _ ≤ (net.view b i).priority
    rw [(h.known b hb i hi (Ne.symm hib)).2]
    exact Int.le_refl _
  · obtain ⟨w, hw, hmax⟩ : ∃ w, w < net.size ∧ ∀ c, c < net.size → (net.node c).commits ≤ (net.node w).commits := by
      have key : ∀ n, 0 < n → ∃ w, w < n ∧ ∀ c, c < n → (net.node c).commits ≤ (net.node w).commits := by
        intro n
        induction n with
        | zero => intro h; cases h
        | succ n ih =>
          intro _
          by_cases h0 : n = 0
          · subst h0
            exact ⟨0, Nat.lt_succ_self _, fun c hc => by rw [Nat.lt_one_iff.1 hc]; exact Nat.le_refl _⟩
          · obtain ⟨w, hw, hm⟩ := ih (Nat.pos_of_ne_zero h0)
            by_cases hn : (net.node w).commits ≤ (net.node n).commits
            · refine ⟨n, Nat.lt_succ_self _, fun c hc => ?_⟩
              rcases Nat.lt_succ_iff_lt_or_eq.1 hc with hc | rfl
              · exact Nat.le_trans (hm c hc) hn
              · exact Nat.le_refl _
            · refine ⟨w, Nat.lt_succ_of_lt hw, fun c hc => ?_⟩
              rcases Nat.lt_succ_iff_lt_or_eq.1 hc with hc | rfl
              · exact hm c hc
              · omega
      exact key net.size (by have := hg.base.two; omega)
    refine ⟨w, hw, hmax, ?_, ?_⟩
    · intro x hx hl
      rw [hno x hx] at hl; cases hl
    · intro b hb hwb e he
      rw [h.quiet w hw b hb hwb] at he
      rw [List.mem_singleton.1 he]
      exact Or.inl ⟨hno w hw, (h.known b hb w hw (Ne.symm hwb)).1⟩

theorem run_sound : ∀ (evs : List Ev) {net : Net}, Good net → Joined net → Sound net → AllFull evs → Steady net evs →
    Sound (run net evs) ∧ ∀ c, c < net.size → (net.node c).commits ≤ ((run net evs).node c).commits
  | [], _, _, _, h, _, _ => ⟨h, fun _ _ => Nat.le_refl _⟩
  | ev :: evs, net, hg, hj, h, hf, hs => by
    have he := full_of hf ev List.mem_cons_self
    have hz := step_size' net ev
    have hj' : Joined (step net ev) := by
      unfold Joined
      rw [hz]
      exact hs.1.1
    have h3 : ∀ i, i < net.size → (net.node i).commits ≤ ((step net ev).node i).commits ∧
        (inCharge (net.node i).state = true ∨ ∃ j, j < net.size ∧ ((step net ev).node i).commits ≤ (net.node j).commits) := by
      intro i hi
      refine ⟨(hs.1.2.2 i hi).1, (hs.1.2.2 i hi).2.imp (fun hm => ?_) id⟩
      revert hm
      cases (net.node i).state <;> simp [inCharge, NState.rank]
    obtain ⟨r1, r2⟩ := run_sound evs (step_good hg ev he) hj' (step_sound hg hj h ev he hj' hs.1.2.1 h3)
      (fun e he => hf e (List.mem_cons_of_mem _ he)) hs.2
    exact ⟨r1, fun c hc => Nat.le_trans (h3 c hc).1 (r2 c (by rw [hz]; exact hc))⟩

theorem steady_append : ∀ {a b : List Ev} {net : Net}, Steady net (a ++ b) → Steady net a ∧ Steady (run net a) b
  | [], _, _, h => ⟨trivial, h⟩
  | _ :: _, _, _, h => ⟨⟨h.1, (steady_append h.2).1⟩, (steady_append h.2).2⟩

/-- **C115**, as long as no priority is raised. From a moment at which all nodes are connected, know each other's commits and priority
and none leads or tries to, and as long as they stay together: a node that leads or tries to has every commit that any node had by
then, and it is the only one. Missing: clusters in which the priority of a node is raised, where it does not hold
(`c115_raised_priority`), and those in which connections break. -/
theorem c115_leader_has_all_partial {size : Nat} {priority : Nat → Int} {version : Nat → Bytes} {commits : Nat → Nat}
    {journal : Nat → Nat → Bytes} (before evs later : List Ev) (h2 : 2 ≤ size) (hp : ∀ i, i < size → priority i ≠ 0)
    (hf : AllFull (before ++ (evs ++ later))) (hm : Met (run (fresh size priority version commits journal) before))
    (hs : Steady (run (fresh size priority version commits journal) before) (evs ++ later)) {a : Nat} (ha : a < size)
    (hl : ((run (fresh size priority version commits journal) (before ++ (evs ++ later))).node a).state ∈
      [NState.standingUp, .leading, .standingDown]) :
    (∀ c, c < size → ((run (fresh size priority version commits journal) (before ++ evs)).node c).commits ≤
      ((run (fresh size priority version commits journal) (before ++ (evs ++ later))).node a).commits) ∧
    ∀ b, b < size → ((run (fresh size priority version commits journal) (before ++ (evs ++ later))).node b).state ∈
      [NState.standingUp, .leading, .standingDown] → b = a := by
  have happ : ∀ x y (net : Net), run net (x ++ y) = run (run net x) y := fun x y net => List.foldl_append
  rw [happ, happ] at hl
  rw [happ before (evs ++ later), happ before evs, happ evs later]
  have hz : (run (fresh size priority version commits journal) before).size = size := run_size _ _
  have hg : Good (run (fresh size priority version commits journal) before) :=
    run_good before (fresh_good h2 hp) (full_of (fun e he => hf e (List.mem_append_left _ he)))
  generalize run (fresh size priority version commits journal) before = net at hm hs hl hz hg
  have hfe : AllFull (evs ++ later) := fun e he => hf e (List.mem_append_right _ he)
  obtain ⟨s1, s2⟩ := steady_append hs
  have hj : Joined net := hm.login
  have r1 := (run_sound (evs ++ later) hg hj (met_sound hg hm) hfe hs).1
  rw [happ] at r1
  have hz' : (run net evs).size = size := (run_size _ _).trans hz
  have hz'' : (run (run net evs) later).size = size := (run_size _ _).trans hz'
  -- what any node has later is at least what it had
  have hmono : ∀ c, c < size → ((run net evs).node c).commits ≤ ((run (run net evs) later).node c).commits := by
    have key : ∀ (l : List Ev) (m : Net), Steady m l → ∀ c, c < m.size → (m.node c).commits ≤ ((run m l).node c).commits := by
      intro l
      induction l with
      | nil => intro m _ c _; exact Nat.le_refl _
      | cons e l ih =>
        intro m h c hc
        exact Nat.le_trans (h.1.2.2 c hc).1 (ih (step m e) h.2 c (by rw [step_size']; exact hc))
    intro c hc
    exact key later _ s2 c (by rw [hz']; exact hc)
  have hlead : ∀ s : NState, s ∈ [NState.standingUp, .leading, .standingDown] → leadish s = true := by
    intro s h; cases s <;> simp_all [leadish]
  obtain ⟨w, hw, hall, hone, _⟩ := r1.most
  rw [hz''] at hw hall hone
  have ea := hone a ha (hlead _ hl)
  refine ⟨fun c hc => ?_, fun b hb hlb => ?_⟩
  · rw [ea]; exact Nat.le_trans (hmono c hc) (hall c hc)
  · rw [hone b hb (hlead _ hlb), ea]

/-! Three nodes that all meet. -/

def five : DbOutcome := { commits := 5, journal := fun _ => [1] }
def six : DbOutcome := { commits := 6, journal := fun _ => [1] }
def trio : Net := fresh 3 (fun i => [300, 200, 100].getD i 1) (fun _ => []) (fun _ => 5) (fun _ _ => [1])

def pairs : List (Nat × Nat) := [(0, 1), (0, 2), (1, 2)]
def joins : List Ev := pairs.flatMap fun p => [.connect p.1 p.2, .deliver p.1 p.2 false five, .deliver p.2 p.1 false five]
def turn (i : Nat) : Ev := .update i false true
def got (i j : Nat) : Ev := .deliver i j false five

/-- They meet, learn that they run the same version, and meet again with their own priorities. -/
def gathering : List Ev := joins ++ [turn 0, turn 1, turn 2] ++ (pairs.flatMap fun p => [.lost p.1 p.2, .lost p.2 p.1]) ++ joins ++
  [got 0 1, got 0 2, got 1 0, got 1 2, got 2 0, got 2 1]

theorem gathered : Met (run trio gathering) := by
  have hz : (run trio gathering).size = 3 := run_size _ _
  refine ⟨?_, ?_, ?_, ?_⟩ <;> rw [hz] <;> decide +kernel

/-- Node 0 leads, node 1 follows it, node 0 commits once more. -/
def leading0 : List Ev := [turn 0, got 0 1, got 0 2, got 1 0, got 2 0, turn 0, got 0 1, got 0 2, turn 1, got 1 0,
  .database 0 6 (fun _ => [1]), .deliver 0 1 false six, got 1 0]

/-- Node 0 is to stop, and node 1 takes over with the vote of node 2, which has fewer commits. -/
def leading1 : List Ev := [.setShutdownPriority 0, turn 0, got 0 1, got 0 1, got 0 1, got 0 2, got 0 2, got 0 2, got 1 0, got 1 0,
  got 1 2, got 1 2, got 1 2, turn 1, turn 1, turn 1, got 1 2, got 1 0, got 1 0, got 1 0, got 1 0, got 1 2, got 2 1, got 2 1, got 2 1,
  got 0 1, turn 1]

/-- The conditions of the theorem are met, and both lead in turn. -/
example : AllFull (gathering ++ (leading0 ++ leading1)) ∧ Steady (run trio gathering) (leading0 ++ leading1) ∧
    ((List.range 3).map fun i => ((run trio (gathering ++ leading0)).node i).state) = [.leading, .following, .waiting] ∧
    ((List.range 3).map fun i => ((run trio (gathering ++ leading0)).node i).commits) = [6, 6, 5] ∧
    ((List.range 3).map fun i => ((run trio (gathering ++ (leading0 ++ leading1))).node i).state) = [.searching, .leading, .waiting] ∧
    ((List.range 3).map fun i => ((run trio (gathering ++ (leading0 ++ leading1))).node i).commits) = [6, 6, 5] := by
  refine ⟨?_, ?_, ?_, ?_, ?_, ?_⟩ <;> decide +kernel

/-- Node 0 is elected with the vote of node 1 and commits, while its messages to node 2 are still under way. The priority of node 2 is
raised; node 0 stands down for it. Node 2 has heard of nothing, stands up, and node 1 votes for it. -/
def raising : List Ev := [turn 0, got 0 1, got 1 0, turn 0, .database 0 6 (fun _ => [1]), .setPriority 2 400, got 2 0, turn 0,
  got 0 1, got 0 1, got 0 1, got 2 1, turn 2, got 2 1, got 1 2, turn 2]

/-- When a priority is raised, a node leads without a commit of the leader before it, though all stay connected. The voters do not
compare the number of commits. -/
theorem c115_raised_priority : AllFull (gathering ++ raising) ∧ SteadyButPriority (run trio gathering) raising ∧
    ((run trio (gathering ++ raising)).node 2).state = .leading ∧
    ((run trio (gathering ++ raising)).node 2).commits < ((run trio (gathering ++ raising)).node 0).commits := by
  refine ⟨?_, ?_, ?_, ?_⟩ <;> decide +kernel

end Bedrock.Net.Props
