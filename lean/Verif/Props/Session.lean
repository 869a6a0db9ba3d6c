import Verif.Model.Session

/-! # C111: a client that sends the highest commit number it was given reads its own writes, on any node -/

namespace Bedrock.Session.Props
open Bedrock.Session

/-- No election loses a commit: the new leader has all of the old one's. -/
def Lossless (w : World) : List Op → Prop
  | [] => True
  | op :: ops => (∀ i, op = .elect i → (w.node i).hist = (w.node w.leader).hist) ∧ Lossless (step w op) ops

/-- The history of the leader. -/
abbrev _root_.Bedrock.Session.World.top (w : World) : List Nat := (w.node w.leader).hist

structure Inv (w : World) : Prop where
  pre : ∀ i, (w.node i).hist <+: w.top
  lo : ∀ i, (w.node i).count ≤ (w.node i).hist.length
  hi : ∀ i, (w.node i).hist.length ≤ (w.node i).count + 1
  ready : ∀ i, w.cmd = .ready i → w.seen ≤ (w.node i).hist.length
  opened : ∀ i v, w.cmd = .opened i v → v <+: w.top ∧ w.seen ≤ v.length ∧ v.length ≤ (w.node i).count + 1
  comm : ∀ i v p tx, w.cmd = .committed i v p tx →
    v <+: w.top ∧ w.seen ≤ v.length ∧ v.length ≤ (w.node i).count + 1 ∧ w.top[p]? = some tx ∧ v.length ≤ p
  ans : ∀ d ∈ w.log, d.ans ≤ w.seen
  view : ∀ d ∈ w.log, d.view <+: w.top ∧ d.view.length ≤ d.ans + 1
  wrote : ∀ d ∈ w.log, ∀ p tx, d.wrote = some (p, tx) → p < d.ans ∧ w.top[p]? = some tx ∧ d.view.length ≤ p
  pair : w.log.Pairwise fun a b =>
    (∀ p tx, a.wrote = some (p, tx) → b.view[p]? = some tx) ∧ a.view.take a.ans <+: b.view ∧
    (∀ p tx q ty, a.wrote = some (p, tx) → b.wrote = some (q, ty) → p < q)

theorem getElem?_of_prefix {l m : List Nat} (h : l <+: m) {p : Nat} (hp : p < l.length) : l[p]? = m[p]? := by
  obtain ⟨t, rfl⟩ := h
  rw [List.getElem?_append_left hp]

theorem getElem?_up {l m : List Nat} (h : l <+: m) {p tx : Nat} (hp : l[p]? = some tx) : m[p]? = some tx := by
  have : p < l.length := (List.getElem?_eq_some_iff.mp hp).1
  rw [← getElem?_of_prefix h this]; exact hp

/-- Facts that only depend on the leader's history growing, and on the client's side staying. -/
theorem inv_grow {w : World} (h : Inv w) (f : Nat → Node) (ht : w.top <+: (f w.leader).hist)
    (hp : ∀ i, (f i).hist <+: (f w.leader).hist) (hlo : ∀ i, (f i).count ≤ (f i).hist.length)
    (hhi : ∀ i, (f i).hist.length ≤ (f i).count + 1) (hc : ∀ i, (w.node i).count ≤ (f i).count)
    (hl : ∀ i, (w.node i).hist.length ≤ (f i).hist.length) : Inv { w with node := f } where
  pre := hp
  lo := hlo
  hi := hhi
  ready i hi := Nat.le_trans (h.ready i hi) (hl i)
  opened i v hi := by
    obtain ⟨a, b, c⟩ := h.opened i v hi
    exact ⟨a.trans ht, b, Nat.le_trans c (Nat.add_le_add_right (hc i) 1)⟩
  comm i v p tx hi := by
    obtain ⟨a, b, c, d, e⟩ := h.comm i v p tx hi
    exact ⟨a.trans ht, b, Nat.le_trans c (Nat.add_le_add_right (hc i) 1), getElem?_up ht d, e⟩
  ans := h.ans
  view d hd := ⟨(h.view d hd).1.trans ht, (h.view d hd).2⟩
  wrote d hd p tx hw := by
    obtain ⟨a, b, c⟩ := h.wrote d hd p tx hw
    exact ⟨a, getElem?_up ht b, c⟩
  pair := h.pair

theorem inv_append {w : World} (h : Inv w) (tx : Nat) (hf : (w.node w.leader).free = true) :
    Inv (w.set w.leader { w.node w.leader with hist := w.top ++ [tx] }) := by
  have hc : (w.node w.leader).count = w.top.length := by simpa [Node.free] using hf
  have hpre : w.top <+: w.top ++ [tx] := List.prefix_append ..
  apply inv_grow h
  · simp only [if_true]; exact hpre
  · intro i
    simp only [if_true]
    by_cases hi : i = w.leader
    · simp [hi]
    · simp only [if_neg hi]; exact (h.pre i).trans hpre
  · intro i
    by_cases hi : i = w.leader
    · simp only [hi, if_true, List.length_append, List.length_singleton]; omega
    · simp only [if_neg hi]; exact h.lo i
  · intro i
    by_cases hi : i = w.leader
    · simp only [hi, if_true, List.length_append, List.length_singleton]; omega
    · simp only [if_neg hi]; exact h.hi i
  · intro i
    by_cases hi : i = w.leader
    · simp [hi]
    · simp [hi]
  · intro i
    by_cases hi : i = w.leader
    · simp [hi]
    · simp [hi]

theorem inv_cmd {w : World} (h : Inv w) (c : Cmd) (hr : ∀ i, c = .ready i → w.seen ≤ (w.node i).hist.length)
    (ho : ∀ i v, c = .opened i v → v <+: w.top ∧ w.seen ≤ v.length ∧ v.length ≤ (w.node i).count + 1)
    (hc : ∀ i v p tx, c = .committed i v p tx →
      v <+: w.top ∧ w.seen ≤ v.length ∧ v.length ≤ (w.node i).count + 1 ∧ w.top[p]? = some tx ∧ v.length ≤ p) :
    Inv { w with cmd := c } :=
  ⟨h.pre, h.lo, h.hi, hr, ho, hc, h.ans, h.view, h.wrote, h.pair⟩

theorem inv_done {w : World} (h : Inv w) (d : Done) (hv : d.view <+: w.top) (hs : w.seen ≤ d.view.length)
    (ha : d.view.length ≤ d.ans + 1)
    (hw : ∀ p tx, d.wrote = some (p, tx) → p < d.ans ∧ w.top[p]? = some tx ∧ d.view.length ≤ p) : Inv (w.done d) where
  pre := h.pre
  lo := h.lo
  hi := h.hi
  ready i hi := by cases hi
  opened i v hi := by cases hi
  comm i v p tx hi := by cases hi
  ans e he := by
    show e.ans ≤ max w.seen d.ans
    rcases List.mem_append.mp he with he | he
    · have := h.ans e he; omega
    · rw [List.mem_singleton.mp he]; omega
  view e he := by
    rcases List.mem_append.mp he with he | he
    · exact h.view e he
    · rw [List.mem_singleton.mp he]; exact ⟨hv, ha⟩
  wrote e he p tx hp := by
    rcases List.mem_append.mp he with he | he
    · exact h.wrote e he p tx hp
    · rw [List.mem_singleton.mp he] at hp ⊢; exact hw p tx hp
  pair := by
    show (w.log ++ [d]).Pairwise _
    rw [List.pairwise_append]
    refine ⟨h.pair, List.pairwise_singleton _ _, ?_⟩
    intro a ham b hb
    rw [List.mem_singleton.mp hb]
    have h1 := h.ans a ham
    refine ⟨?_, ?_, ?_⟩
    · intro p tx hp
      obtain ⟨h2, h3, _⟩ := h.wrote a ham p tx hp
      rw [getElem?_of_prefix hv (by omega)]; exact h3
    · have h4 := (h.view a ham).1
      have h5 : a.view.take a.ans <+: w.top := (List.take_prefix ..).trans h4
      exact List.prefix_of_prefix_length_le h5 hv (by rw [List.length_take]; omega)
    · intro p tx q ty hp hq
      have h2 := (h.wrote a ham p tx hp).1
      have h3 := (hw q ty hq).2.2
      omega

theorem inv_step (w : World) (op : Op) (h : Inv w) (hl : ∀ i, op = .elect i → (w.node i).hist = w.top) : Inv (step w op) := by
  cases op with
  | commit tx =>
    show Inv (if (w.node w.leader).free then w.set w.leader { w.node w.leader with hist := (w.node w.leader).hist ++ [tx] } else w)
    by_cases hf : (w.node w.leader).free = true
    · rw [if_pos hf]; exact inv_append h tx hf
    · rw [if_neg hf]; exact h
  | apply i =>
    unfold step
    dsimp only
    split
    · rename_i tx htx
      split
      · rename_i hg
        simp only [Bool.and_eq_true, bne_iff_ne, decide_eq_true_eq] at hg
        obtain ⟨⟨hf, hne⟩, hlt⟩ := hg
        have hc : (w.node i).count = (w.node i).hist.length := by simpa [Node.free] using hf
        have hpre : (w.node i).hist ++ [tx] <+: w.top := by
          obtain ⟨t, ht⟩ := h.pre i
          have ht' : (w.node i).hist ++ t = (w.node w.leader).hist := ht
          rw [← ht', List.getElem?_append_right (Nat.le_refl _), Nat.sub_self] at htx
          cases t with
          | nil => simp at htx
          | cons x t =>
            simp only [List.getElem?_cons_zero, Option.some.injEq] at htx
            subst htx
            exact ⟨t, by rw [← ht]; simp⟩
        apply inv_grow h
        · simp only [if_neg (Ne.symm hne)]; exact List.prefix_refl _
        · intro j
          simp only [if_neg (Ne.symm hne)]
          by_cases hj : j = i
          · simp only [hj, if_true]; exact hpre
          · simp only [if_neg hj]; exact h.pre j
        · intro j
          by_cases hj : j = i
          · simp only [hj, if_true, List.length_append, List.length_singleton]; omega
          · simp only [if_neg hj]; exact h.lo j
        · intro j
          by_cases hj : j = i
          · simp only [hj, if_true, List.length_append, List.length_singleton]; omega
          · simp only [if_neg hj]; exact h.hi j
        · intro j; by_cases hj : j = i <;> simp [hj]
        · intro j; by_cases hj : j = i <;> simp [hj]
      · exact h
    · exact h
  | bump i =>
    show Inv (w.set i _)
    apply inv_grow h
    · by_cases hj : w.leader = i
      · simp only [hj, if_true]; exact hj ▸ List.prefix_refl _
      · simp only [if_neg hj]; exact List.prefix_refl _
    · intro j
      have : ∀ k, (if k = i then { w.node i with count := (w.node i).hist.length } else w.node k).hist = (w.node k).hist := by
        intro k; by_cases hk : k = i <;> simp [hk]
      rw [this, this]; exact h.pre j
    · intro j; by_cases hj : j = i
      · simp [hj]
      · simp only [if_neg hj]; exact h.lo j
    · intro j; by_cases hj : j = i
      · simp [hj]
      · simp only [if_neg hj]; exact h.hi j
    · intro j; by_cases hj : j = i
      · simp only [hj, if_true]; exact h.lo i
      · simp [hj]
    · intro j; by_cases hj : j = i <;> simp [hj]
  | elect i =>
    have ht : (w.node i).hist = w.top := hl i rfl
    exact ⟨fun j => by show _ <+: (w.node i).hist; rw [ht]; exact h.pre j, h.lo, h.hi, h.ready,
      fun j v hj => by show v <+: (w.node i).hist ∧ _; rw [ht]; exact h.opened j v hj,
      fun j v p tx hj => by show v <+: (w.node i).hist ∧ _ ∧ _ ∧ (w.node i).hist[p]? = _ ∧ _; rw [ht]; exact h.comm j v p tx hj,
      h.ans, fun d hd => by show d.view <+: (w.node i).hist ∧ _; rw [ht]; exact h.view d hd,
      fun d hd p tx hp => by show _ ∧ (w.node i).hist[p]? = _ ∧ _; rw [ht]; exact h.wrote d hd p tx hp, h.pair⟩
  | send i =>
    show Inv (if w.cmd = .idle then { w with cmd := .queued i } else w)
    split
    · exact inv_cmd h _ (fun _ h => by cases h) (fun _ _ h => by cases h) (fun _ _ _ _ h => by cases h)
    · exact h
  | check =>
    unfold step
    dsimp only
    split
    · rename_i i _
      split
      · exact h
      · rename_i hm
        have : w.seen ≤ (w.node i).count := by simpa [Waiting.mustWait] using hm
        exact inv_cmd h _ (fun j hj => by cases hj; exact Nat.le_trans this (h.lo i)) (fun _ _ h => by cases h)
          (fun _ _ _ _ h => by cases h)
    · exact h
  | begin =>
    unfold step
    dsimp only
    split
    · rename_i i hi
      exact inv_cmd h _ (fun _ h => by cases h)
        (fun j v hj => by cases hj; exact ⟨h.pre i, h.ready i hi, h.hi i⟩) (fun _ _ _ _ h => by cases h)
    · exact h
  | escalate =>
    unfold step
    dsimp only
    split
    · split
      · exact h
      · exact inv_cmd h _ (fun _ h => by cases h) (fun _ _ h => by cases h) (fun _ _ _ _ h => by cases h)
    · exact h
  | write tx =>
    unfold step
    dsimp only
    split
    · rename_i i v hi
      split
      · rename_i hg
        obtain ⟨rfl, hf⟩ := hg
        have h' := inv_append h tx hf
        obtain ⟨a, b, c⟩ := h.opened _ v hi
        refine inv_cmd h' _ (fun _ h => by cases h) (fun _ _ h => by cases h) ?_
        intro j u p ty hj
        cases hj
        have ht : (w.set w.leader { w.node w.leader with hist := w.top ++ [tx] }).top = w.top ++ [tx] := by
          simp [World.set, World.top]
        rw [ht]
        refine ⟨a.trans (List.prefix_append ..), b, ?_, ?_, a.length_le⟩
        · simp only [World.set, if_true]; exact c
        · rw [List.getElem?_append_right (Nat.le_refl _), Nat.sub_self]; rfl
      · exact h
    · exact h
  | answer =>
    unfold step
    dsimp only
    split
    · rename_i i v hi
      obtain ⟨a, b, c⟩ := h.opened i v hi
      exact inv_done h _ a b c (fun _ _ h => by cases h)
    · rename_i i v p tx hi
      obtain ⟨a, b, c, d, e⟩ := h.comm i v p tx hi
      split
      · exact h
      · split
        · exact inv_cmd h _ (fun _ h => by cases h) (fun _ _ h => by cases h) (fun _ _ _ _ h => by cases h)
        · refine inv_done h _ a b c ?_
          intro q ty hq
          cases hq
          exact ⟨by show _ < (w.node i).count; omega, d, e⟩
    · exact h

theorem inv_start : Inv {} where
  pre _ := List.prefix_refl _
  lo _ := Nat.le_refl _
  hi _ := Nat.le_succ _
  ready _ h := by cases h
  opened _ _ h := by cases h
  comm _ _ _ _ h := by cases h
  ans _ h := by cases h
  view _ h := by cases h
  wrote _ h := by cases h
  pair := List.Pairwise.nil

theorem inv_run (w : World) (ops : List Op) (h : Inv w) (hl : Lossless w ops) : Inv (run w ops) := by
  induction ops generalizing w with
  | nil => exact h
  | cons op ops ih => exact ih _ (inv_step w op h hl.1) hl.2

/-- **C111**: whatever nodes the client's commands go to, whatever other clients write and however far the nodes are behind: what a
command wrote is seen, in its place, by all later commands of the client; and their writes come after it.  As long as no
election loses a commit. -/
theorem c111_own_writes (ops : List Op) (hl : Lossless {} ops) :
    (run {} ops).log.Pairwise fun a b =>
      (∀ p tx, a.wrote = some (p, tx) → b.view[p]? = some tx) ∧
      (∀ p tx q ty, a.wrote = some (p, tx) → b.wrote = some (q, ty) → p < q) :=
  (inv_run {} ops inv_start hl).pair.imp fun h => ⟨h.1, h.2.2⟩

/-- **C111**: a later command of the client sees everything an earlier one saw, up to the number in the earlier answer, which is at most
one less than what the earlier one saw. -/
theorem c111_monotonic_partial (ops : List Op) (hl : Lossless {} ops) :
    ((run {} ops).log.Pairwise fun a b => a.view.take a.ans <+: b.view) ∧
    ∀ d ∈ (run {} ops).log, d.view.length ≤ d.ans + 1 :=
  ⟨(inv_run {} ops inv_start hl).pair.imp fun h => h.2.1, fun d hd => ((inv_run {} ops inv_start hl).view d hd).2⟩

/-- **C111**: what the client sees and writes is part of one history, that of the leader, and each answer to a write counts that
write. -/
theorem c111_one_history (ops : List Op) (hl : Lossless {} ops) (d : Done) (hd : d ∈ (run {} ops).log) :
    d.view <+: ((run {} ops).node (run {} ops).leader).hist ∧
    ∀ p tx, d.wrote = some (p, tx) → p < d.ans ∧ ((run {} ops).node (run {} ops).leader).hist[p]? = some tx :=
  ⟨((inv_run {} ops inv_start hl).view d hd).1,
    fun p tx h => ⟨((inv_run {} ops inv_start hl).wrote d hd p tx h).1, ((inv_run {} ops inv_start hl).wrote d hd p tx h).2.1⟩⟩

/-- A write through follower 1, then a read at follower 2, which has to wait for it. -/
def exOps : List Op := [.commit 5, .bump 0, .send 1, .check, .begin, .escalate, .check, .begin, .write 7, .bump 0, .answer,
  .send 2, .check, .begin, .apply 2, .bump 2, .check, .begin, .answer, .apply 2, .bump 2, .check, .begin, .answer]

theorem lossless_of_no_elect (w : World) (ops : List Op) (h : ∀ i, Op.elect i ∉ ops) : Lossless w ops := by
  induction ops generalizing w with
  | nil => trivial
  | cons op ops ih =>
    refine ⟨fun i hi => absurd (hi ▸ List.mem_cons_self ..) (h i), ih _ fun i hi => h i (List.mem_cons_of_mem _ hi)⟩

example : Lossless {} exOps := lossless_of_no_elect _ _ (by intro i; simp [exOps])
example : (run {} exOps).log = [⟨[5], some (1, 7), 2⟩, ⟨[5, 7], none, 2⟩] := by decide +kernel

/-- **C111** (disagreement): a read that falls between COMMIT and the count sees more than its answer tells; a later read of the client,
at another node, sees less than the first. -/
theorem c111_not_monotonic :
    Lossless {} [.commit 5, .send 0, .check, .begin, .answer, .send 1, .check, .begin, .answer] ∧
    (run {} [.commit 5, .send 0, .check, .begin, .answer, .send 1, .check, .begin, .answer]).log = [⟨[5], none, 0⟩, ⟨[], none, 0⟩] :=
  ⟨lossless_of_no_elect _ _ (by simp), by decide +kernel⟩

/-- **C111** (disagreement): a write is answered before any other node has it.  If the leader is lost then, another node leads without
it, and a later read of the client, which waits for the number, sees other commits in its place. -/
theorem c111_failover :
    (run {} [.send 0, .check, .begin, .write 7, .bump 0, .answer, .elect 1, .commit 8, .bump 1, .send 1, .check, .begin, .answer]).log =
      [⟨[], some (0, 7), 1⟩, ⟨[8], none, 1⟩] := by decide +kernel

end Bedrock.Session.Props
