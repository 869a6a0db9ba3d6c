import Verif.Spec.NetLive
import Verif.Lemmas.NetLiveMsg
import Verif.Props.NetSafe

/-!
# A leader is elected
-/

namespace Bedrock.Net.Props
open Bedrock Bedrock.Node Bedrock.Node.Node

theorem step_size (net : Net) (e : Ev) : (step net e).size = net.size := by
  cases e <;> (unfold step; dsimp only; split) <;> first | rfl | (split <;> rfl)

theorem trace_size (net : Net) (ev : Nat → Ev) : ∀ n, (trace net ev n).size = net.size
  | 0 => rfl
  | n + 1 => (step_size _ _).trans (trace_size net ev n)

theorem countP_idOf (up : Nat → Bool) (i : Nat) : ∀ n, i < n →
    (List.range (n - 1)).countP (fun k => up (idOf i k)) + (if up i = true then 1 else 0) = (List.range n).countP up
  | 0, h => absurd h (Nat.not_lt_zero _)
  | m + 1, h => by
    rw [List.range_succ, List.countP_append, List.countP_singleton, Nat.add_sub_cancel]
    by_cases e : i = m
    · subst e
      rw [countP_range_congr (f := fun k => up (idOf i k)) (g := up) (fun k hk => by unfold idOf; rw [if_pos hk])]
    · have hi : i < m := by omega
      have ih := countP_idOf up i m hi
      obtain ⟨m', rfl⟩ : ∃ m', m = m' + 1 := ⟨m - 1, by omega⟩
      rw [Nat.add_sub_cancel] at ih
      rw [show (List.range (m' + 1)).countP (fun k => up (idOf i k)) =
        (List.range m').countP (fun k => up (idOf i k)) + (if up (idOf i m') = true then 1 else 0) by
          rw [List.range_succ, List.countP_append, List.countP_singleton]]
      rw [show idOf i m' = m' + 1 by unfold idOf; rw [if_neg (by omega)]]
      omega

theorem ready_inv {up : Nat → Bool} {C : Nat} {h : Bytes} {net : Net} (hr : Ready up C h net) {top : Nat} (ht : top < net.size)
    (hu : up top = true) (h1 : 1 < (net.node top).priority)
    (hl : ∀ i, i < net.size → up i = true → i ≠ top → (net.node i).priority < (net.node top).priority) :
    Inv up top (fun i => (net.node i).priority) C h net := by
  have hview : ∀ i k, i < net.size → up i = true → k < (net.node i).peers.length →
      ∃ j, j < net.size ∧ i ≠ j ∧ idOf i k = j ∧ (net.node i).peer k = net.view i j := by
    intro i k hi hui hk
    have := hr.peers i hi hui
    obtain ⟨j, hj, hij, e⟩ := ix_cover hi (k := k) (n := net.size) (by omega)
    refine ⟨j, hj, hij, ?_, ?_⟩
    · rw [← e, idOf_ixOf hij]
    · unfold Net.view; rw [e]
  have hstate : ∀ i, i < net.size → up i = true → (net.node i).state = .searching ∨ (net.node i).state = .waiting := by
    intro i hi hui
    have := (hr.idle i hi hui).1
    simpa using this
  have hlow : ∀ i, i < net.size → up i = true → lowState (net.node i).state :=
    fun i hi hui => (hstate i hi hui).imp_right Or.inl
  have htop : ∀ i, i < net.size → up i = true → topState (net.node i).state :=
    fun i hi hui => (hstate i hi hui).imp_right Or.inl
  have hcount : ∀ i, i < net.size → up i = true →
      (List.range (net.node i).peers.length).countP (fun k => up (idOf i k)) + 1 = (List.range net.size).countP up := by
    intro i hi hui
    have e := countP_idOf up i net.size hi
    rw [if_pos hui] at e
    rw [← e, show net.size - 1 = (net.node i).peers.length by have := hr.peers i hi hui; omega]
  refine ⟨ht, hu, h1, hl, ?_, hr.peers, fun _ _ _ => rfl, ?_, ?_, ?_, ?_⟩
  · intro i hi hui
    refine ⟨(hr.running i hi hui).1, (hr.running i hi hui).2.1, (hr.running i hi hui).2.2.1, (hr.running i hi hui).2.2.2,
      (hr.database i hi hui).1, (hr.database i hi hui).2, (hr.idle i hi hui).2, ?_, ?_, ?_, ?_⟩
    · intro k hk hK
      obtain ⟨j, hj, hij, e1, e2⟩ := hview i k hi hui hk
      rw [e1] at hK
      rw [e2, e1]
      have hv := hr.view i j hi hj hij hui hK
      exact ⟨hv.1, hv.2.1, hv.2.2.1, hv.2.2.2.1, hr.priority j hj hK, hv.2.2.2.2.2.1, hv.2.2.2.2.2.2⟩
    · intro k hk hK
      obtain ⟨j, hj, hij, e1, e2⟩ := hview i k hi hui hk
      rw [e1] at hK
      rw [e2]
      have hv := hr.gone i j hi hj hij hui hK
      exact ⟨hv.1, hv.2.1, hv.2.2.1⟩
    · have h1 := hcount i hi hui
      have h2 := hr.majority
      have h3 := hr.peers i hi hui
      omega
    · have h1 := hcount i hi hui
      have h2 := hr.two
      have hpos : 0 < (List.range (net.node i).peers.length).countP (fun k => up (idOf i k)) := by omega
      obtain ⟨k, hk, hK⟩ := List.countP_pos_iff.1 hpos
      exact ⟨k, List.mem_range.1 hk, hK⟩
  · intro i j hi hj hij hui
    split
    · rename_i huj; exact (hr.connected i j hi hj hij hui huj).1
    · rename_i huj
      exact (hr.gone i j hi hj hij hui (by cases e : up j with
        | true => exact absurd e huj
        | false => rfl)).2.2.2
  · intro i j hi hj hij hui huj p hp
    rw [(hr.connected i j hi hj hij hui huj).2] at hp; cases hp
  · intro i j hi hj hij hui huj _ _
    rw [(hr.connected i j hi hj hij hui huj).2, (hr.view i j hi hj hij hui huj).2.2.2.2.1]
    exact ⟨hlow j hj huj, fun m hm => by cases hm⟩
  · intro i hi hui hit
    rw [(hr.connected i top hi ht hit hui hu).2, (hr.connected top i ht hi (Ne.symm hit) hu hui).2,
      (hr.view i top hi ht hit hui hu).2.2.2.2.1, (hr.view top i ht hi (Ne.symm hit) hu hui).2.2.2.2.1]
    have hsi := hstate i hi hui
    refine ⟨htop top ht hu, hlow i hi hui, hlow i hi hui, htop top ht hu, (fun m hm => by cases hm), (fun m hm => by cases hm),
      List.pairwise_singleton _ _, rfl, ?_, ?_, ?_⟩
    · intro e; rcases hsi with h | h <;> rw [h] at e <;> rcases e with e | e <;> cases e
    · intro e; rcases hstate top ht hu with h | h <;> rw [h] at e <;> cases e
    · rw [if_neg]
      · rfl
      · intro e; rcases hsi with h | h <;> rw [h] at e <;> cases e

theorem eventually_min (f : Nat → Nat) : ∃ N, ∀ n, N ≤ n → f N ≤ f n := by
  have : ∀ b, ∀ M, f M ≤ b → ∃ N, M ≤ N ∧ ∀ n, N ≤ n → f N ≤ f n := by
    intro b
    induction b with
    | zero => exact fun M h => ⟨M, Nat.le_refl _, fun n _ => by omega⟩
    | succ b ih =>
      intro M h
      by_cases hx : ∃ n, M ≤ n ∧ f n < f M
      · obtain ⟨n, h1, h2⟩ := hx
        obtain ⟨N, h3, h4⟩ := ih n (by omega)
        exact ⟨N, by omega, h4⟩
      · refine ⟨M, Nat.le_refl _, fun n hn => ?_⟩
        exact Nat.le_of_not_lt fun hlt => hx ⟨n, hn, hlt⟩
  obtain ⟨N, _, h⟩ := this (f 0) 0 (Nat.le_refl _)
  exact ⟨N, h⟩

theorem Settled.back {up : Nat → Bool} {top x : Nat} {net net' : Net} (ha : Alike up net net') (ht : top < net.size) (htu : up top = true)
    (hx : x < net.size) (hux : up x = true) (h : Settled up top net' x) : Settled up top net x := by
  refine ⟨?_, ?_, ?_⟩
  · rw [← ha.node x hx hux]; exact h.searching
  · intro e
    have := h.up e
    rw [ha.node x hx hux, ha.size] at this
    unfold Net.view at this ⊢
    rw [ha.node top ht htu] at this
    exact this
  · intro e
    have := h.low e
    unfold Net.view at this ⊢
    rw [ha.node x hx hux] at this
    exact this

/-- A majority of the nodes, connected to each other, with the same commits and waiting, is left undisturbed; `top` has the highest
priority. Whatever the order in which they work and get their messages, and whatever the others do among themselves: from some
point on `top` leads, and all others of the majority follow it. At no time does another of them stand up or lead. -/
theorem c113_elects {up : Nat → Bool} {commits : Nat} {hash : Bytes} {net : Net} (hr : Ready up commits hash net) {top : Nat}
    (ht : top < net.size) (hu : up top = true) (h1 : 1 < (net.node top).priority)
    (hl : ∀ i, i < net.size → up i = true → i ≠ top → (net.node i).priority < (net.node top).priority) {ev : Nat → Ev}
    (he : ∀ k, Undisturbed up commits hash (ev k)) (hf : Fair up net.size ev) :
    (∃ N, ∀ n, N ≤ n → ((trace net ev n).node top).state = .leading ∧
      ∀ i, i < net.size → up i = true → i ≠ top →
        ((trace net ev n).node i).state = .following ∧ ((trace net ev n).node i).leadPeer = some (ixOf i top)) ∧
    (∀ n i, i < net.size → up i = true → i ≠ top →
      ((trace net ev n).node i).state ∈ [NState.searching, .waiting, .subscribing, .following]) := by
  have hinv : ∀ n, Inv up top (fun i => (net.node i).priority) commits hash (trace net ev n) := by
    intro n
    induction n with
    | zero => exact ready_inv hr ht hu h1 hl
    | succ n ih => exact (step_live ih (he n)).1
  have hsize := trace_size net ev
  refine ⟨?_, ?_⟩
  · obtain ⟨N, hN⟩ := eventually_min (fun n => effort up (trace net ev n))
    have hle : ∀ n, effort up (trace net ev (n + 1)) ≤ effort up (trace net ev n) := by
      intro n
      rcases (step_live (hinv n) (he n)).2 with h | h
      · exact Nat.le_of_lt h
      · exact Nat.le_of_eq h.1.effort
    have hconst : ∀ d, effort up (trace net ev (N + d)) ≤ effort up (trace net ev N) := by
      intro d
      induction d with
      | zero => exact Nat.le_refl _
      | succ d ih => exact Nat.le_trans (hle _) ih
    have hidle : ∀ n, N ≤ n → Alike up (trace net ev n) (trace net ev (n + 1)) ∧ Idle up top (trace net ev n) (ev n) := by
      intro n hn
      rcases (step_live (hinv n) (he n)).2 with h | h
      · have h2 : effort up (trace net ev N) ≤ effort up (trace net ev (n + 1)) := hN (n + 1) (by omega)
        have h3 := hconst (n - N)
        rw [show N + (n - N) = n by omega] at h3
        exact absurd (Nat.lt_of_lt_of_le h h3) (Nat.not_lt_of_le h2)
      · exact h
    have halike : ∀ n d, N ≤ n → Alike up (trace net ev n) (trace net ev (n + d)) := by
      intro n d hn
      induction d with
      | zero => exact .refl _
      | succ d ih => exact ih.trans (hidle (n + d) (by omega)).1
    refine ⟨N, fun n hn => ?_⟩
    have hch : ∀ i j, i < net.size → j < net.size → i ≠ j → up i = true → up j = true → (trace net ev n).chan i j = [] := by
      intro i j hi hj hij hui huj
      obtain ⟨k, hk, mm, o, e⟩ := hf.2 i j hi hj hij hui huj n
      have h2 := (hidle k (by omega)).2
      rw [e] at h2
      have h3 := h2 (by rw [hsize]; exact hi) (by rw [hsize]; exact hj) hij hui huj
      have h4 := halike n (k - n) hn
      rw [show n + (k - n) = k by omega] at h4
      rw [← h4.chan i j (by rw [hsize]; exact hi) (by rw [hsize]; exact hj) hij hui huj]
      exact h3
    have hse : ∀ x, x < net.size → up x = true → Settled up top (trace net ev n) x := by
      intro x hx hux
      obtain ⟨k, hk, b, e⟩ := hf.1 x hx hux n
      have h2 := (hidle k (by omega)).2
      rw [e] at h2
      have h3 := h2 (by rw [hsize]; exact hx) hux
      have h4 := halike n (k - n) hn
      rw [show n + (k - n) = k by omega] at h4
      exact Settled.back h4 (by rw [hsize]; exact ht) hu (by rw [hsize]; exact hx) hux h3
    have hpair := fun i hi hui hit => by
      have := (hinv n).pair i (by rw [hsize]; exact hi) hui hit
      rw [hch top i ht hi (Ne.symm hit) hu hui, hch i top hi ht hit hui hu] at this
      exact this
    have hlead : ((trace net ev n).node top).state = .leading := by
      have hs := hse top ht hu
      obtain ⟨k, hk, hK⟩ := ((hinv n).mem top (hinv n).top_lt hu).other
      obtain ⟨j, hj, hij, e1, e2⟩ := (hinv n).entry (hinv n).top_lt hu hk
      rw [e2] at hK
      rw [hsize] at hj
      rcases (hpair j hj hK (Ne.symm hij)).top with e | e | e | e
      · exact absurd e hs.searching
      · exact absurd e (hs.up rfl).1
      · obtain ⟨i, hi, hui, hit, hv⟩ := (hs.up rfl).2 e
        rw [hsize] at hi
        exact absurd ((hpair i hi hui hit).quiet.2.1 e) hv
      · exact e
    refine ⟨hlead, fun i hi hui hit => ?_⟩
    have hp := hpair i hi hui hit
    have hs := hse i hi hui
    have hst : ((trace net ev n).node i).state = .following := by
      rcases hp.low with e | e | e | e
      · exact absurd e hs.searching
      · exact absurd (hp.quiet.1.trans hlead) (hs.low hit e)
      · exact absurd e hp.quiet.2.2
      · exact e
    exact ⟨hst, (hp.lead (Or.inr hst)).2⟩
  · intro n i hi hui hit
    rcases ((hinv n).pair i (by rw [hsize]; exact hi) hui hit).low with e | e | e | e <;> rw [e] <;> decide

/-- Nodes 0 and 2 of three have met. -/
def pair02 : Nat → Bool := fun i => i == 0 || i == 2

/-- They take turns. -/
def turns (k : Nat) : Ev := match k % 4 with
  | 0 => .update 0 false true
  | 1 => .update 2 false true
  | 2 => .deliver 0 2 false ok
  | _ => .deliver 2 0 false ok

/-- The conditions of the theorem are met by two of three nodes that have connected, and take turns. -/
example : Ready pair02 0 [] (run three meeting) ∧ (0 < (run three meeting).size ∧ 1 < ((run three meeting).node 0).priority ∧
    ∀ i, i < (run three meeting).size → pair02 i = true → i ≠ 0 → ((run three meeting).node i).priority < ((run three meeting).node 0).priority) ∧
    (∀ k, Undisturbed pair02 0 [] (turns k)) ∧ Fair pair02 3 turns := by
  refine ⟨⟨?_, ?_, ?_, ?_, ?_, ?_, ?_, ?_, ?_, ?_⟩, ?_, ?_, ?_, ?_⟩
  · decide +kernel
  · decide +kernel
  · decide +kernel
  · decide +kernel
  · decide +kernel
  · decide +kernel
  · decide +kernel
  · have h1 : ∀ i, i < (run three meeting).size → ∀ j, j < (run three meeting).size → i ≠ j ∧ pair02 i = true ∧ pair02 j = true →
        ((run three meeting).view i j).loggedIn = true ∧ ((run three meeting).view i j).forked = false ∧
        ((run three meeting).view i j).permaFollower = false := by decide +kernel
    have h2 : ∀ i, i < (run three meeting).size → ∀ j, j < (run three meeting).size → i ≠ j ∧ pair02 i = true ∧ pair02 j = true →
        ((run three meeting).view i j).priority = ((run three meeting).node j).priority ∧
        ((run three meeting).view i j).state = ((run three meeting).node j).state ∧ ((run three meeting).view i j).commitCount = 0 ∧
        ((run three meeting).view i j).hash = [] := by decide +kernel
    intro i j hi hj e1 e2 e3
    have a := h1 i hi j hj ⟨e1, e2, e3⟩
    exact ⟨a.1, a.2.1, a.2.2, h2 i hi j hj ⟨e1, e2, e3⟩⟩
  · have : ∀ i, i < (run three meeting).size → ∀ j, j < (run three meeting).size → i ≠ j ∧ pair02 i = true ∧ pair02 j = false →
        ((run three meeting).view i j).loggedIn = false ∧ ((run three meeting).view i j).permaFollower = false ∧
        ((run three meeting).view i j).state = .searching ∧ (run three meeting).side i j = .closed := by decide +kernel
    exact fun i j hi hj h1 h2 h3 => this i hi j hj ⟨h1, h2, h3⟩
  · have : ∀ i, i < (run three meeting).size → ∀ j, j < (run three meeting).size → i ≠ j ∧ pair02 i = true ∧ pair02 j = true →
        (run three meeting).side i j = .open ∧ (run three meeting).chan i j = [] := by decide +kernel
    exact fun i j hi hj h1 h2 h3 => this i hi j hj ⟨h1, h2, h3⟩
  · decide +kernel
  · intro k
    unfold turns
    split
    · intro _; rfl
    · intro _; rfl
    · exact fun _ _ => ⟨rfl, rfl, rfl, rfl⟩
    · exact fun _ _ => ⟨rfl, rfl, rfl, rfl⟩
  · intro i hi hu k
    have : i = 0 ∨ i = 2 := by
      have : i = 0 ∨ i = 1 ∨ i = 2 := by omega
      rcases this with h | h | h
      · exact Or.inl h
      · subst h; cases hu
      · exact Or.inr h
    rcases this with h | h <;> subst h
    · refine ⟨4 * k, by omega, true, ?_⟩
      unfold turns; rw [show 4 * k % 4 = 0 by omega]; rfl
    · refine ⟨4 * k + 1, by omega, true, ?_⟩
      unfold turns; rw [show (4 * k + 1) % 4 = 1 by omega]; rfl
  · intro i j hi hj hij hui huj k
    have hi' : i = 0 ∨ i = 1 ∨ i = 2 := by omega
    have hj' : j = 0 ∨ j = 1 ∨ j = 2 := by omega
    rcases hi' with h | h | h <;> subst h
    · rcases hj' with h | h | h <;> subst h
      · exact absurd rfl hij
      · cases huj
      · refine ⟨4 * k + 2, by omega, false, ok, ?_⟩
        unfold turns; rw [show (4 * k + 2) % 4 = 2 by omega]; rfl
    · cases hui
    · rcases hj' with h | h | h <;> subst h
      · refine ⟨4 * k + 3, by omega, false, ok, ?_⟩
        unfold turns; rw [show (4 * k + 3) % 4 = 3 by omega]; rfl
      · cases huj
      · exact absurd rfl hij

end Bedrock.Net.Props
