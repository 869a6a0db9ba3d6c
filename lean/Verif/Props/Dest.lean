import Verif.Model.Dest
import Verif.Props.Lookup

/-! # C142: the node a command is sent on to -/

namespace Bedrock.Dest.Props
open Bedrock Text Lookup Lookup.Props
open Bedrock.Node (NState)

/-- A peer that follows and has the leader's version. -/
def Fit (k : Known) (p : Peer) : Prop := k.peerState p.id = .following ∧ k.version p.id = leaderVersion k

theorem mem_valid (k : Known) (peers : List Peer) (name : Bytes) :
    name ∈ validPeers k peers ↔ ∃ p ∈ peers, Fit k p ∧ p.name = name := by
  unfold validPeers Fit
  rw [List.mem_map]
  constructor
  · intro ⟨p, hp, hn⟩
    rw [List.mem_filter] at hp
    have := hp.2
    simp only [Bool.not_eq_true', Bool.or_eq_false_iff, bne_eq_false_iff_eq] at this
    exact ⟨p, hp.1, ⟨this.2, this.1⟩, hn⟩
  · intro ⟨p, hp, hf, hn⟩
    refine ⟨p, List.mem_filter.mpr ⟨hp, ?_⟩, hn⟩
    simp only [Bool.not_eq_true', Bool.or_eq_false_iff, bne_eq_false_iff_eq]
    exact ⟨hf.2, hf.1⟩

/-- **C142** The leader's version is that of this node if it leads or stands down, else that of the node it takes for the leader. -/
theorem c142_version (k : Known) :
    ((k.state = .leading ∨ k.state = .standingDown) → leaderVersion k = k.ownVersion) ∧
    (∀ l, k.lead = some l → k.state ≠ .leading → k.state ≠ .standingDown → leaderVersion k = k.version l) ∧
    (k.lead = none → k.state ≠ .leading → k.state ≠ .standingDown → leaderVersion k = []) := by
  unfold leaderVersion
  refine ⟨fun h => if_pos h, fun l hl h1 h2 => ?_, fun hl h1 h2 => ?_⟩
  · rw [if_neg (fun h => h.elim h1 h2), hl]
  · rw [if_neg (fun h => h.elim h1 h2), hl]

/-- **C142** Choosing never follows a null pointer, whatever is known of the peers and whatever their names. -/
theorem c142_no_crash (k : Known) (configured peers : List Peer) (hp : peers.Perm configured) (hs : Sorted peers) (r : Nat)
    (address : Nat → Bytes) : eligibleFollower k peers r address ≠ .crash := by
  unfold eligibleFollower
  dsimp only
  split
  · intro h; cases h
  · split
    · intro h; cases h
    · rename_i name hn
      obtain ⟨p, hm, _, rfl⟩ := (mem_valid k peers name).mp (List.mem_of_getElem? hn)
      split
      · intro h; cases h
      · rename_i hg
        exact absurd rfl (((c55_found_iff configured peers hp hs p.name).2.mp hg) p (hp.mem_iff.mp hm))

/-- **C142** If no two peers have the same name, a command for a follower goes only to a peer that follows and has the leader's
version, and only if that version is known. -/
theorem c142_fit (k : Known) (configured peers : List Peer) (hp : peers.Perm configured) (hs : Sorted peers)
    (hu : ∀ p ∈ configured, ∀ q ∈ configured, p.name = q.name → p = q) (r : Nat) (address : Nat → Bytes) (a : Bytes)
    (h : eligibleFollower k peers r address = .address a) (ha : a ≠ []) :
    leaderVersion k ≠ [] ∧ ∃ p ∈ configured, Fit k p ∧ address p.id = a := by
  unfold eligibleFollower at h
  dsimp only at h
  split at h
  · cases h; exact absurd rfl ha
  · rename_i hv
    refine ⟨hv, ?_⟩
    split at h
    · cases h; exact absurd rfl ha
    · rename_i name hn
      obtain ⟨p, hm, hf, rfl⟩ := (mem_valid k peers name).mp (List.mem_of_getElem? hn)
      rw [c55_found_by_name configured peers hp hs hu p (hp.mem_iff.mp hm)] at h
      cases h
      exact ⟨p, hp.mem_iff.mp hm, hf, rfl⟩

/-- **C142** Whenever the leader's version is known and there is a peer that fits, one is found, and each of them for some number drawn. -/
theorem c142_found (k : Known) (configured peers : List Peer) (hp : peers.Perm configured) (hs : Sorted peers)
    (hu : ∀ p ∈ configured, ∀ q ∈ configured, p.name = q.name → p = q) (address : Nat → Bytes) (hv : leaderVersion k ≠ [])
    (p : Peer) (hm : p ∈ configured) (hf : Fit k p) :
    (∀ r, ∃ q ∈ configured, Fit k q ∧ eligibleFollower k peers r address = .address (address q.id)) ∧
    ∃ r, r < configured.length ∧ eligibleFollower k peers r address = .address (address p.id) := by
  have hpv : p.name ∈ validPeers k peers := (mem_valid k peers p.name).mpr ⟨p, hp.mem_iff.mpr hm, hf, rfl⟩
  have hpos : 0 < (validPeers k peers).length := List.length_pos_of_mem hpv
  constructor
  · intro r
    unfold eligibleFollower
    dsimp only
    rw [if_neg hv, List.getElem?_eq_getElem (Nat.mod_lt r hpos)]
    dsimp only
    obtain ⟨q, hq, hfq, hn⟩ := (mem_valid k peers _).mp (List.getElem_mem (Nat.mod_lt r hpos))
    rw [← hn, c55_found_by_name configured peers hp hs hu q (hp.mem_iff.mp hq)]
    exact ⟨q, hp.mem_iff.mp hq, hfq, rfl⟩
  · obtain ⟨i, hi, he⟩ := List.mem_iff_getElem.mp hpv
    refine ⟨i, ?_, ?_⟩
    · have h1 : (validPeers k peers).length ≤ peers.length := by
        unfold validPeers; rw [List.length_map]; exact List.length_filter_le _ _
      have h2 := hp.length_eq
      omega
    · unfold eligibleFollower
      dsimp only
      rw [if_neg hv, Nat.mod_eq_of_lt hi, List.getElem?_eq_getElem hi, he]
      dsimp only
      rw [c55_found_by_name configured peers hp hs hu p hm]

/-- **C142** Without a peer that fits the command is not sent on to a follower. -/
theorem c142_none (k : Known) (peers : List Peer) (r : Nat) (address : Nat → Bytes) (h : ∀ p ∈ peers, ¬ Fit k p) :
    eligibleFollower k peers r address = .address [] := by
  have hv : validPeers k peers = [] := by
    rw [List.eq_nil_iff_forall_not_mem]
    intro n hn
    obtain ⟨p, hm, hf, _⟩ := (mem_valid k peers n).mp hn
    exact h p hm hf
  unfold eligibleFollower
  dsimp only
  rw [hv]
  split <;> rfl

/-- **C142** A command for the leader goes only to the peer this node takes for the leader, and only if that peer says that it leads. -/
theorem c142_leader (k : Known) (address : Nat → Bytes) (a : Bytes) (ha : a ≠ []) :
    leaderAddress k address = a ↔ ∃ l, k.lead = some l ∧ k.peerState l = .leading ∧ address l = a := by
  unfold leaderAddress
  constructor
  · intro h
    split at h
    · rename_i l hl
      split at h
      · exact ⟨l, hl, by assumption, h⟩
      · exact absurd h.symm ha
    · exact absurd h.symm ha
  · intro ⟨l, hl, hs, h⟩
    rw [hl]
    dsimp only
    rw [if_pos hs, h]

/-- **C142** A command for the leader is given up at once exactly if there is no address and this node leads or is about to. -/
theorem c142_round (onLeader : Bool) (k : Known) (peers : List Peer) (r : Nat) (address : Nat → Bytes) :
    (roundAddress onLeader k peers r address).2 = true ↔
      onLeader = true ∧ leaderAddress k address = [] ∧ (k.state = .leading ∨ k.state = .standingUp) := by
  unfold roundAddress
  cases onLeader with
  | true =>
    simp
  | false => simp

/-- **C142** Where a round sends: to the leader's address or to that of the follower chosen. -/
theorem c142_round_address (k : Known) (peers : List Peer) (r : Nat) (address : Nat → Bytes) :
    (roundAddress true k peers r address).1 = .address (leaderAddress k address) ∧
    (roundAddress false k peers r address).1 = eligibleFollower k peers r address := ⟨rfl, rfl⟩

/-- **C142** (as the code is) With two peers of the same name a command may go to one that does not fit: the name is looked up again. -/
theorem c142_same_name_partial : ∃ (k : Known) (peers : List Peer) (address : Nat → Bytes), Sorted peers ∧
    eligibleFollower k peers 0 address = .address (b!"old:1") ∧ ∀ p ∈ peers, address p.id = b!"old:1" → ¬ Fit k p := by
  refine ⟨{ state := .following, ownVersion := b!"1", lead := some 3, version := fun i => if i = 1 then b!"1" else b!"2"
            peerState := fun i => if i = 3 then .leading else .following },
    [⟨b!"a", 1⟩, ⟨b!"a", 2⟩, ⟨b!"l", 3⟩], fun i => if i = 1 then b!"old:1" else b!"new:1", ?_, ?_, ?_⟩
  · unfold Sorted; decide +kernel
  · decide +kernel
  · intro p hm ha hf
    simp only [List.mem_cons, List.not_mem_nil, or_false] at hm
    rcases hm with rfl | rfl | rfl
    · exact absurd hf.2 (by decide +kernel)
    · exact absurd ha (by decide +kernel)
    · exact absurd ha (by decide +kernel)

/-- A node of version 1 that follows a leader of version 2, with two followers of either version. -/
def mixed : Known :=
  { state := .following, ownVersion := b!"1", lead := some 3, version := fun i => if i = 1 then b!"1" else b!"2"
    peerState := fun i => if i = 3 then .leading else .following }

def mixedPeers : List Peer := [⟨b!"a", 1⟩, ⟨b!"b", 2⟩, ⟨b!"l", 3⟩, ⟨b!"m", 4⟩]

example : (List.range 3).map (fun r => eligibleFollower mixed mixedPeers r (fun i => [UInt8.ofNat i])) =
    [.address [2], .address [4], .address [2]] := by decide +kernel
example : Sorted mixedPeers := by unfold Sorted; decide +kernel
example : ∀ p ∈ mixedPeers, ∀ q ∈ mixedPeers, p.name = q.name → p = q := by decide +kernel
example : Fit mixed ⟨b!"m", 4⟩ ∧ leaderVersion mixed ≠ [] ∧ leaderAddress mixed (fun i => [UInt8.ofNat i]) = [3] := by
  unfold Fit; decide +kernel
example : (roundAddress true { mixed with state := .standingUp, lead := none } mixedPeers 0 (fun _ => [1])).2 = true := by decide +kernel

end Bedrock.Dest.Props
