import Verif.Model.ReplQueue

/-! C98: the queue between a follower and its replication thread. -/

namespace Bedrock.ReplQueue.Props
open Bedrock.ReplQueue

theorem run_append (s : S) (a b : List Ev) : s.run (a ++ b) = (s.run a).run b := List.foldl_append ..

/-- The transaction the thread has taken from the queue and not committed. -/
def hand : Th → List Nat
  | .busy m => [m]
  | .status m => [m]
  | .commit m => [m]
  | _ => []

/-- What holds in every state that can be reached. -/
structure Inv (s : S) : Prop where
  /-- nothing is lost and nothing changes its place -/
  order : s.following = true → s.accepted = s.applied ++ hand s.th ++ s.skipped ++ s.queue
  pre : s.applied <+: s.accepted
  skip : s.skipped ≠ [] → s.following = true → s.th = .ended ∨ s.pc = .clearing
  away : s.following = false → s.pc = .idle ∧ s.exitAt = none ∧ s.queue = [] ∧ s.th = .none
  exit : s.exitAt ≠ none ↔ s.pc = .leaving ∨ s.pc = .joining ∨ s.pc = .clearing
  fin : s.th = .ended → (s.pc = .leaving ∨ s.pc = .joining) ∧ (s.queue = [] ∨ s.skipped ≠ [])
  none : s.th = .none → s.queue = [] ∨ s.pc = .pushed ∨ s.skipped ≠ []
  clr : s.pc = .clearing → s.th = .none
  join : s.pc = .joining → s.th ≠ .none
  wait : s.th = .waiting false → (s.queue = [] ∧ s.exitAt = Option.none) ∨ s.pc = .pushed ∨ s.pc = .leaving
  done : s.following = false → s.skipped = [] → s.applied = s.accepted
  stat : ∀ m ∈ s.statuses, m ∈ s.accepted

theorem inv_start : Inv {} := by
  constructor <;> simp [hand]

theorem wakeTh_hand (t : Th) : hand (wakeTh t) = hand t := by cases t <;> rfl
theorem wakeTh_ended (t : Th) : wakeTh t = .ended ↔ t = .ended := by cases t <;> simp [wakeTh]
theorem wakeTh_none (t : Th) : wakeTh t = .none ↔ t = .none := by cases t <;> simp [wakeTh]
theorem wakeTh_waiting (t : Th) : wakeTh t ≠ .waiting false := by cases t <;> simp [wakeTh]

theorem following_of_th {s : S} (h : Inv s) (ht : s.th ≠ .none) : s.following = true := by
  cases hf : s.following with
  | true => rfl
  | false => exact absurd (h.away hf).2.2.2 ht

theorem inv_lock {s : S} (h : Inv s) (ht : s.th = .top) (now : Nat) : Inv (s.lockStep now) := by
  have hf := following_of_th h (by rw [ht]; simp)
  have ho := h.order hf
  have hsk : s.skipped = [] := by
    cases hs : s.skipped with
    | nil => rfl
    | cons a l =>
      rcases h.skip (by simp [hs]) hf with h1 | h1
      · simp [ht] at h1
      · have := h.clr h1; simp [ht] at this
  have hpc : s.pc ≠ .clearing := fun h1 => by have := h.clr h1; simp [ht] at this
  obtain ⟨o, p, sk, aw, ex, fi, no, cl, jo, wa, dn, st⟩ := h
  unfold S.lockStep
  split
  · next h1 h2 =>
    constructor <;> simp_all [hand]
  · next m q h1 h2 =>
    constructor <;> simp_all [hand]
  · next t h1 h2 =>
    have : s.pc = .leaving ∨ s.pc = .joining := by
      rcases ex.1 (by simp [h1]) with h | h | h
      · exact Or.inl h
      · exact Or.inr h
      · exact absurd h hpc
    constructor <;> simp_all [hand]
  · next t m q h1 h2 =>
    have : s.pc = .leaving ∨ s.pc = .joining := by
      rcases ex.1 (by simp [h1]) with h | h | h
      · exact Or.inl h
      · exact Or.inr h
      · exact absurd h hpc
    split
    · constructor <;> simp_all [hand]
    · constructor <;> simp_all [hand]

theorem inv_step {s : S} (h : Inv s) (e : Ev) : Inv (s.step e) := by
  unfold S.step
  split
  · exact h
  · cases e with
    | lock now =>
      simp only
      split
      · next ht => exact inv_lock h ht now
      · exact h
    | follow =>
      simp only
      split
      · next hc =>
        have := h.away hc.2
        have hno := h.none
        obtain ⟨o, p, sk, aw, ex, fi, no, cl, jo, wa, dn, st⟩ := h
        constructor <;> simp_all [hand]
      · exact h
    | recv m =>
      simp only
      split
      · next hc =>
        obtain ⟨o, p, sk, aw, ex, fi, no, cl, jo, wa, dn, st⟩ := h
        have hp : s.applied <+: s.accepted ++ [m] := p.trans (List.prefix_append ..)
        constructor <;> simp_all [hand]
        · intro m' hm
          rcases st _ hm with h | h | h
          · exact Or.inl h
          · exact Or.inr (Or.inl h)
          · exact Or.inr (Or.inr (Or.inl h))
      · exact h
    | wake =>
      simp only
      split
      · next hc =>
        have hf : s.following = true := by
          cases hf : s.following with
          | true => rfl
          | false => have := (h.away hf).1; simp [hc] at this
        have hx : s.exitAt = Option.none := by
          have := h.exit
          simp only [hc] at this
          simpa using this
        have hth : s.th ≠ .ended := fun he => by have := (h.fin he).1; simp [hc] at this
        obtain ⟨o, p, sk, aw, ex, fi, no, cl, jo, wa, dn, st⟩ := h
        have hw := wakeTh_waiting s.th
        split
        · next hn => constructor <;> simp_all [hand]
        · next hn =>
          constructor <;> simp_all [wakeTh_hand, wakeTh_ended, wakeTh_none]
      · exact h
    | lose =>
      simp only
      split
      · next hc =>
        obtain ⟨o, p, sk, aw, ex, fi, no, cl, jo, wa, dn, st⟩ := h
        constructor <;> simp_all
      · exact h
    | leave now =>
      simp only
      split
      · next hc =>
        obtain ⟨hpc, hf⟩ := hc
        obtain ⟨o, p, sk, aw, ex, fi, no, cl, jo, wa, dn, st⟩ := h
        rcases hpc with hpc | hpc <;> constructor <;> simp_all
      · exact h
    | notify =>
      simp only
      split
      · next hc =>
        have hf : s.following = true := by
          cases hf : s.following with
          | true => rfl
          | false => have := (h.away hf).1; simp [hc] at this
        have hw := wakeTh_waiting s.th
        obtain ⟨o, p, sk, aw, ex, fi, no, cl, jo, wa, dn, st⟩ := h
        split
        · next hn => constructor <;> simp_all [hand]
        · next hn => constructor <;> simp_all [wakeTh_hand, wakeTh_ended, wakeTh_none]
      · exact h
    | join =>
      simp only
      split
      · next hc =>
        have hf := following_of_th h (by rw [hc.2]; simp)
        obtain ⟨o, p, sk, aw, ex, fi, no, cl, jo, wa, dn, st⟩ := h
        constructor <;> simp_all [hand]
      · exact h
    | clear =>
      simp only
      split
      · next hc =>
        have hf : s.following = true := by
          cases hf : s.following with
          | true => rfl
          | false => have := (h.away hf).1; simp [hc] at this
        have ht := h.clr hc
        have hn := h.none ht
        have ho := h.order hf
        obtain ⟨o, p, sk, aw, ex, fi, no, cl, jo, wa, dn, st⟩ := h
        constructor <;> simp_all [hand]
        rcases hn with hn | hn
        · exact fun _ => hn
        · exact fun h => absurd h hn
      · exact h
    | woken =>
      simp only
      split
      · next hc =>
        have hf := following_of_th h (by rw [hc]; simp)
        obtain ⟨o, p, sk, aw, ex, fi, no, cl, jo, wa, dn, st⟩ := h
        constructor <;> simp_all [hand]
      · exact h
    | spurious =>
      simp only
      split
      · next w hc =>
        have hf := following_of_th h (by rw [hc]; simp)
        obtain ⟨o, p, sk, aw, ex, fi, no, cl, jo, wa, dn, st⟩ := h
        constructor <;> simp_all [hand]
      · exact h
    | prepare ok status =>
      simp only
      split
      · next m hc =>
        have hf := following_of_th h (by rw [hc]; simp)
        obtain ⟨o, p, sk, aw, ex, fi, no, cl, jo, wa, dn, st⟩ := h
        split
        · constructor <;> simp_all [hand]
        · split <;> constructor <;> simp_all [hand]
      · exact h
    | send =>
      simp only
      split
      · next m hc =>
        have hf := following_of_th h (by rw [hc]; simp)
        have ho := h.order hf
        obtain ⟨o, p, sk, aw, ex, fi, no, cl, jo, wa, dn, st⟩ := h
        split
        · constructor <;> simp_all [hand]
          · intro m' hm
            rcases hm with hm | hm
            · exact st _ hm
            · simp [hm]
        · constructor <;> simp_all [hand]
      · exact h
    | commit ok =>
      simp only
      split
      · next m hc =>
        have hf := following_of_th h (by rw [hc]; simp)
        have ho := h.order hf
        obtain ⟨o, p, sk, aw, ex, fi, no, cl, jo, wa, dn, st⟩ := h
        split
        · constructor <;> simp_all [hand]
        · constructor <;> simp_all [hand]
      · exact h

theorem inv_run {s : S} (h : Inv s) (es : List Ev) : Inv (s.run es) := by
  induction es generalizing s with
  | nil => exact h
  | cons e es ih => exact ih (inv_step h e)

theorem inv (es : List Ev) : Inv (S.run {} es) := inv_run inv_start es

end Bedrock.ReplQueue.Props
