import Verif.Model.PeerInfo
import Verif.Lemmas.Origin

/-! # C140: what a node tells of its peers -/

namespace Bedrock.PeerInfo.Props
open Bedrock Text Http Node Status

/-- The value of the first entry with this name, in any letter case. -/
def firstValue (n : Bytes) (es : List (Bytes × Bytes)) : Option Bytes :=
  (es.find? (fun e => sToLower e.1 == sToLower n)).map (·.2)

theorem firstValue_cons (n : Bytes) (e : Bytes × Bytes) (es : List (Bytes × Bytes)) :
    firstValue n (e :: es) = if sToLower n = sToLower e.1 then some e.2 else firstValue n es := by
  unfold firstValue
  rw [List.find?_cons]
  by_cases h : sToLower n = sToLower e.1
  · rw [if_pos h, show (sToLower e.1 == sToLower n) = true from beq_iff_eq.mpr h.symm]
    rfl
  · rw [if_neg h, show (sToLower e.1 == sToLower n) = false from beq_eq_false_iff_ne.mpr (fun x => h x.symm)]

theorem find_emplace (t : Table) (e : Bytes × Bytes) (n : Bytes) (hs : t.Sorted) :
    (emplace t e).find n = (t.find n).or (if sToLower n = sToLower e.1 then some e.2 else none) ∧ (emplace t e).Sorted := by
  unfold emplace
  by_cases h : (t.find e.1).isSome
  · rw [if_pos h]
    refine ⟨?_, hs⟩
    by_cases hn : sToLower n = sToLower e.1
    · rw [Bedrock.Origin.find_congr t hn]
      obtain ⟨v, hv⟩ := Option.isSome_iff_exists.mp h
      rw [hv]; rfl
    · rw [if_neg hn]; cases t.find n <;> rfl
  · rw [if_neg h]
    refine ⟨?_, Table.set_sorted _ _ hs⟩
    rw [Table.find_set _ _ _ _ hs]
    by_cases hn : sToLower n = sToLower e.1
    · rw [if_pos hn, if_pos hn, Bedrock.Origin.find_congr t hn, Option.not_isSome_iff_eq_none.mp h]; rfl
    · rw [if_neg hn, if_neg hn]; cases t.find n <;> rfl

theorem find_emplaces (es : List (Bytes × Bytes)) (t : Table) (n : Bytes) (hs : t.Sorted) :
    (es.foldl emplace t).find n = (t.find n).or (firstValue n es) ∧ (es.foldl emplace t).Sorted := by
  induction es generalizing t with
  | nil => exact ⟨by simp [firstValue], hs⟩
  | cons e es ih =>
    rw [List.foldl_cons]
    have he := find_emplace t e n hs
    have := ih (emplace t e) he.2
    refine ⟨?_, this.2⟩
    rw [this.1, he.1, firstValue_cons]
    by_cases hn : sToLower n = sToLower e.1
    · rw [if_pos hn, if_pos hn]; cases t.find n <;> rfl
    · rw [if_neg hn, if_neg hn]; cases t.find n <;> rfl

theorem find_getData (p : Info) (n : Bytes) :
    (getData p).find n = (if sToLower n = sToLower (b!"commandAddress") then some p.commandAddress
      else (firstValue n (standard p)).or (firstValue n p.params)) ∧ (getData p).Sorted := by
  unfold getData
  have h1 := find_emplaces (standard p) [] n List.Pairwise.nil
  have h2 := find_emplaces p.params _ n h1.2
  refine ⟨?_, Table.set_sorted _ _ h2.2⟩
  rw [Table.find_set _ _ _ _ h2.2, h2.1, h1.1]
  rfl

/-- What is known of a peer, by the names under which it is told. -/
def known (p : Info) : List (Bytes × Bytes) :=
  [(b!"name", p.name), (b!"host", p.host), (b!"id", natDec p.id), (b!"version", p.version), (b!"hash", p.hash),
   (b!"commitCount", natDec p.commitCount), (b!"latency", natDec p.latency), (b!"nextReconnect", natDec p.nextReconnect),
   (b!"priority", intDec p.priority), (b!"loggedIn", if p.loggedIn then b!"true" else b!"false"),
   (b!"subscribed", if p.subscribed then b!"true" else b!"false"),
   (b!"state", stateName p.state ++ if p.connected then b!"" else b!" (DISCONNECTED)"),
   (b!"standupResponse", match p.standupResponse with | .none => b!"NONE" | .approve => b!"APPROVE" | .deny => b!"DENY"),
   (b!"commandAddress", p.commandAddress)]

theorem lower_names (p : Info) : (standard p).map (fun e => sToLower e.1) =
    [sToLower (b!"name"), sToLower (b!"host"), sToLower (b!"state"), sToLower (b!"latency"), sToLower (b!"nextReconnect"),
     sToLower (b!"id"), sToLower (b!"loggedIn"), sToLower (b!"priority"), sToLower (b!"version"), sToLower (b!"hash"),
     sToLower (b!"commitCount"), sToLower (b!"standupResponse"), sToLower (b!"subscribed")] := rfl

theorem firstValue_of_nodup (es : List (Bytes × Bytes)) (h : (es.map (fun e => sToLower e.1)).Nodup) (e : Bytes × Bytes)
    (he : e ∈ es) (n : Bytes) (hn : sToLower n = sToLower e.1) : firstValue n es = some e.2 := by
  induction es with
  | nil => cases he
  | cons x es ih =>
    rw [firstValue_cons]
    rw [List.map_cons, List.nodup_cons] at h
    rcases List.mem_cons.mp he with rfl | he
    · rw [if_pos hn]
    · rw [if_neg, ih h.2 he]
      intro hx
      exact h.1 (List.mem_map.mpr ⟨e, he, hn.symm.trans hx⟩)

theorem standard_nodup (p : Info) : ((standard p).map (fun e => sToLower e.1)).Nodup := by
  rw [lower_names]; decide +kernel

theorem standard_no_address (p : Info) : sToLower (b!"commandAddress") ∉ (standard p).map (fun e => sToLower e.1) := by
  rw [lower_names]; decide +kernel

/-- **C140** Whatever the peer list says, what a node tells of a peer under these names is what it knows of it. -/
theorem c140_known (p : Info) : ∀ e ∈ known p, (getData p).find e.1 = some e.2 := by
  intro e he
  by_cases ha : e = (b!"commandAddress", p.commandAddress)
  · subst ha
    rw [(find_getData p _).1, if_pos rfl]
  · have hm : e ∈ standard p := by
      unfold known at he
      unfold standard stateText boolText responseName
      simp only [List.mem_cons, List.not_mem_nil, or_false] at he ⊢
      rcases he with h | h | h | h | h | h | h | h | h | h | h | h | h | h
      all_goals first
        | exact absurd h ha
        | (subst h; cases p.standupResponse <;> simp)
    rw [(find_getData p _).1, if_neg, firstValue_of_nodup _ (standard_nodup p) e hm _ rfl]
    · rfl
    · intro h
      exact standard_no_address p (List.mem_map.mpr ⟨e, hm, h⟩)

/-- **C140** A parameter of the peer list whose name is none of these, in any letter case, is shown as it was given. -/
theorem c140_parameter (p : Info) (n v : Bytes) (h : p.params.find n = some v)
    (hn : ∀ e ∈ known p, sToLower e.1 ≠ sToLower n) : (getData p).find n = some v := by
  have hp : firstValue n p.params = some v := by
    have key : ∀ t : Table, t.find n = firstValue n t := by
      intro t
      induction t with
      | nil => rfl
      | cons e t ih =>
        obtain ⟨m, w⟩ := e
        rw [firstValue_cons, ← ih]
        simp only [Table.find]
        by_cases hx : sToLower n = sToLower m
        · rw [if_pos hx, if_neg (by rw [(key_eq_iff n m).mpr hx]; decide)]
        · rw [if_neg hx, if_pos]
          cases e : keyLt n m || keyLt m n with
          | true => rfl
          | false => exact absurd ((key_eq_iff n m).mp e) hx
    rw [← key, h]
  have hstd : firstValue n (standard p) = none := by
    unfold firstValue
    rw [Option.map_eq_none_iff, List.find?_eq_none]
    intro e he
    have hk : e.1 ∈ (known p).map (·.1) := by
      unfold standard at he
      simp only [List.mem_cons, List.not_mem_nil, or_false] at he
      unfold known
      simp only [List.map_cons, List.mem_cons]
      rcases he with h | h | h | h | h | h | h | h | h | h | h | h | h <;> subst h <;> simp
    obtain ⟨x, hx, hxe⟩ := List.mem_map.mp hk
    have := hn x hx
    rw [hxe] at this
    simpa using this
  rw [(find_getData p n).1, if_neg, hstd, hp]
  · rfl
  · intro hc
    exact hn (b!"commandAddress", p.commandAddress) (by unfold known; simp) hc.symm

/-- **C140** Nothing else is told: each name told is one of these or a parameter of the peer list. -/
theorem c140_nothing_else (p : Info) (n v : Bytes) (h : (getData p).find n = some v) :
    (∃ e ∈ known p, sToLower e.1 = sToLower n ∧ e.2 = v) ∨ ∃ e ∈ p.params, sToLower e.1 = sToLower n ∧ e.2 = v := by
  by_cases hk : ∃ e ∈ known p, sToLower e.1 = sToLower n
  · obtain ⟨e, he, hen⟩ := hk
    have := c140_known p e he
    rw [Bedrock.Origin.find_congr _ hen, h] at this
    exact .inl ⟨e, he, hen, (Option.some.inj this).symm⟩
  · rw [(find_getData p n).1] at h
    split at h
    · rename_i hc
      exact absurd ⟨(b!"commandAddress", p.commandAddress), by unfold known; simp, hc.symm⟩ hk
    · cases hst : firstValue n (standard p) with
      | some w =>
        exfalso
        unfold firstValue at hst
        obtain ⟨e, he, _⟩ := Option.map_eq_some_iff.mp hst
        have hp := List.find?_some he
        have he := List.mem_of_find?_eq_some he
        have hk' : e.1 ∈ (known p).map (·.1) := by
          unfold standard at he
          simp only [List.mem_cons, List.not_mem_nil, or_false] at he
          unfold known
          simp only [List.map_cons, List.mem_cons]
          rcases he with h | h | h | h | h | h | h | h | h | h | h | h | h <;> subst h <;> simp
        obtain ⟨x, hx, hxe⟩ := List.mem_map.mp hk'
        exact hk ⟨x, hx, by rw [hxe]; exact beq_iff_eq.mp hp⟩
      | none =>
        rw [hst, Option.none_or] at h
        unfold firstValue at h
        obtain ⟨e, he, hv⟩ := Option.map_eq_some_iff.mp h
        have hp := List.find?_some he
        exact .inr ⟨e, List.mem_of_find?_eq_some he, beq_iff_eq.mp hp, hv⟩

/-- **C140** From the text of the state one can tell the state and whether the peer is connected. -/
theorem c140_state (p q : Info) (h : (getData p).find (b!"state") = (getData q).find (b!"state")) :
    p.state = q.state ∧ p.connected = q.connected := by
  rw [c140_known p (b!"state", stateName p.state ++ if p.connected then b!"" else b!" (DISCONNECTED)") (by unfold known; simp),
    c140_known q (b!"state", stateName q.state ++ if q.connected then b!"" else b!" (DISCONNECTED)") (by unfold known; simp)] at h
  have h := Option.some.inj h
  revert h
  dsimp only
  generalize p.state = s1, p.connected = c1, q.state = s2, q.connected = c2
  revert s1 c1 s2 c2
  intro s1 c1 s2 c2
  cases s1 <;> cases s2 <;> cases c1 <;> cases c2 <;> decide +kernel

/-- **C140** From the text of the vote one can tell the vote. -/
theorem c140_response (p q : Info) (h : (getData p).find (b!"standupResponse") = (getData q).find (b!"standupResponse")) :
    p.standupResponse = q.standupResponse := by
  have hp := c140_known p (b!"standupResponse", match p.standupResponse with | .none => b!"NONE" | .approve => b!"APPROVE" | .deny => b!"DENY") (by unfold known; simp)
  have hq := c140_known q (b!"standupResponse", match q.standupResponse with | .none => b!"NONE" | .approve => b!"APPROVE" | .deny => b!"DENY") (by unfold known; simp)
  rw [hp, hq] at h
  have h := Option.some.inj h
  revert h
  dsimp only
  generalize p.standupResponse = a, q.standupResponse = b
  cases a <;> cases b <;> decide +kernel

/-- **C140** The names a command for all peers goes to are the names of the peers, one for each, in their order, whatever the peer
list says. -/
theorem c140_all (peers : List Info) : runOnAllNames peers = peers.map (fun p => some p.name) := by
  unfold runOnAllNames
  rw [List.map_map]
  apply List.map_congr_left
  intro p _
  exact c140_known p (b!"name", p.name) (by unfold known; simp)

/-- **C140** One table for each peer, in their order; none without a node. -/
theorem c140_list (peers : List Info) : (getPeerInfo (some peers)).map (Table.find (b!"name")) = peers.map (fun p => some p.name) ∧
    getPeerInfo none = [] := ⟨c140_all peers, rfl⟩

/-- **C140** What a peer list says of a peer's command address is never shown: a peer not yet heard of has an empty one. -/
theorem c140_address (p : Address.Peer) : (getData (made p)).find (b!"commandAddress") = some [] :=
  c140_known (made p) (b!"commandAddress", []) (by unfold known made; simp)

/-- A peer list that tries to say otherwise. -/
def sly : Info :=
  { name := b!"db1", host := b!"db1:4444", id := 1, state := .leading, connected := true, commandAddress := b!"db1:8890",
    params := [(b!"COMMANDADDRESS", b!"evil:1"), (b!"Name", b!"db2"), (b!"zone", b!"a")] }

example : (getData sly).find (b!"NAME") = some (b!"db1") ∧ (getData sly).find (b!"Zone") = some (b!"a") ∧
    (getData sly).find (b!"commandaddress") = some (b!"db1:8890") := by decide +kernel

example : sly.params.Sorted := by unfold Table.Sorted sly; decide +kernel
example : ∀ e ∈ known sly, sToLower e.1 ≠ sToLower (b!"zone") := by decide +kernel
example : runOnAllNames [sly, { sly with name := b!"db2" }] = [some (b!"db1"), some (b!"db2")] := by decide +kernel

end Bedrock.PeerInfo.Props
