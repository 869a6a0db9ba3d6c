import Verif.Model.QueueWait
import Verif.Props.CmdQueue

/-! # C143: no worker sleeps while there is work -/

namespace Bedrock.QueueWait.Props
open Bedrock.CmdQueue Bedrock.CmdQueue.Props

/-- The commands pushed in a history. -/
def pushedCmds : List Ev → List Cmd
  | [] => []
  | .push c _ :: evs => c :: pushedCmds evs
  | _ :: evs => pushedCmds evs

/-- The clock after a history. -/
def clock : List Ev → Nat
  | [] => 0
  | .tick d :: evs => d + clock evs
  | _ :: evs => clock evs

theorem dequeue_len (q : Q) (now : Nat) : q.queue.length = (q.dequeue now).1.toList.length + (q.dequeue now).2.queue.length := by
  have := (dequeue_perm q now).1.length_eq
  rwa [List.length_append] at this

theorem dequeue_some_of_due (q : Q) (hs : Sorted q) (he : Exact q) (now : Nat) (x : Cmd) (hx : x ∈ q.queue)
    (hd : x.sched ≤ now ∨ x.timeout ≤ now) : ∃ c ∈ q.queue, (q.dequeue now).1 = some c := by
  have hde := dequeue_exact q now he
  cases hl : q.lookup with
  | nil =>
    have : key x ∈ q.lookup := he.mem_iff.mpr (List.mem_map.mpr ⟨x, hx, rfl⟩)
    rw [hl] at this; cases this
  | cons e rest =>
    obtain ⟨t, s⟩ := e
    by_cases ht : t ≤ now
    · obtain ⟨c, hc, h, _⟩ := hde.2.1 t s rest hl ht
      exact ⟨c, hc, h⟩
    · have hno : ∀ t s rest, q.lookup = (t, s) :: rest → now < t := by
        intro t' s' rest' h
        rw [hl] at h; cases h; omega
      have hxt : t ≤ x.timeout := by
        have hm : key x ∈ q.lookup := he.mem_iff.mpr (List.mem_map.mpr ⟨x, hx, rfl⟩)
        have hsl := hs.lookup
        rw [hl] at hm hsl
        rcases List.mem_cons.mp hm with h | h
        · have := congrArg Prod.fst h
          simp only [key] at this; omega
        · have := (List.pairwise_cons.mp hsl).1 _ h
          simpa [key] using this
      have hxs : x.sched ≤ now := by omega
      rw [hde.2.2 hno]
      rcases dequeueScheduled_cases q now with ⟨_, h⟩ | ⟨c, rest', lk, h, _, h2, _⟩
      · rcases h with h | ⟨c, rest', h, hlt⟩
        · rw [h] at hx; cases hx
        · have hsq := hs.queue
          rw [h] at hsq hx
          rcases List.mem_cons.mp hx with rfl | hx
          · omega
          · have := (List.pairwise_cons.mp hsq).1 _ hx
            omega
      · exact ⟨c, by rw [h]; simp, by rw [h2]⟩

/-- What holds after any history. -/
structure Inv (s : St) : Prop where
  sorted : Sorted s.q
  exact : Exact s.q

theorem rouse_q (s : St) (k : Nat) : (s.rouse k).q = s.q ∧ (s.rouse k).now = s.now ∧ (s.rouse k).got = s.got ∧ (s.rouse k).left = s.left := by
  unfold St.rouse
  split <;> exact ⟨rfl, rfl, rfl, rfl⟩

theorem inv_dequeue {s : St} (h : Inv s) : Sorted (s.q.dequeue s.now).2 ∧ Exact (s.q.dequeue s.now).2 :=
  ⟨h.sorted.of_sublist (dequeue_perm s.q s.now).2.1 (dequeue_perm s.q s.now).2.2, (dequeue_exact s.q s.now h.exact).1⟩

theorem inv_step (s : St) (h : Inv s) (e : Ev) : Inv (step s e) := by
  have hd := inv_dequeue h
  cases e with
  | tick d => exact ⟨h.sorted, h.exact⟩
  | push c k =>
    refine ⟨?_, ?_⟩
    · show Sorted (St.rouse _ _).q
      rw [(rouse_q _ _).1]; exact h.sorted.push c
    · show Exact (St.rouse _ _).q
      rw [(rouse_q _ _).1]; exact h.exact.push c
  | enter id wait =>
    simp only [step]
    split
    all_goals (rename_i hq; rw [hq] at hd; exact ⟨hd.1, hd.2⟩)
  | wake k =>
    refine ⟨?_, ?_⟩
    · show Sorted (St.rouse _ _).q
      rw [(rouse_q _ _).1]; exact h.sorted
    · show Exact (St.rouse _ _).q
      rw [(rouse_q _ _).1]; exact h.exact
  | retry k =>
    simp only [step]
    split
    · exact h
    · split
      · rename_i hq
        rw [hq] at hd; exact ⟨hd.1, hd.2⟩
      · rename_i hq
        rw [hq] at hd
        split <;> exact ⟨hd.1, hd.2⟩

theorem inv_init : Inv {} := ⟨sorted_init, List.Perm.refl _⟩

theorem run_snoc (s : St) (evs : List Ev) (e : Ev) : run s (evs ++ [e]) = step (run s evs) e := by
  unfold run; rw [List.foldl_append]; rfl

theorem inv_run (evs : List Ev) : Inv (run {} evs) := by
  have key : ∀ (evs : List Ev) (s : St), Inv s → Inv (run s evs) := by
    intro evs
    induction evs with
    | nil => exact fun _ h => h
    | cons e evs ih => exact fun s h => ih _ (inv_step s h e)
  exact key evs _ inv_init

/-- **C143** Every command pushed is still in the queue or was handed to exactly one worker, once. -/
theorem c143_once (evs : List Ev) :
    (pushedCmds evs).Perm ((run {} evs).got.map (·.2) ++ (run {} evs).q.queue) := by
  have key : ∀ (evs : List Ev) (s : St), (s.got.map (·.2) ++ s.q.queue ++ pushedCmds evs).Perm
      ((run s evs).got.map (·.2) ++ (run s evs).q.queue) := by
    intro evs
    induction evs with
    | nil => intro s; simp [pushedCmds, run]
    | cons e evs ih =>
      intro s
      refine List.Perm.trans ?_ (ih (step s e))
      have hd := (dequeue_perm s.q s.now).1
      have same : ∀ s' : St, s'.got = s.got → s'.q.queue.Perm s.q.queue →
          (s.got.map (·.2) ++ s.q.queue ++ pushedCmds evs).Perm (s'.got.map (·.2) ++ s'.q.queue ++ pushedCmds evs) := by
        intro s' hg hq
        rw [hg]
        exact (List.Perm.append_left _ hq.symm).append_right _
      have took : ∀ (s' : St) (id : Nat) (c : Cmd), s'.got = s.got ++ [(id, c)] → s.q.queue.Perm (c :: s'.q.queue) →
          (s.got.map (·.2) ++ s.q.queue ++ pushedCmds evs).Perm (s'.got.map (·.2) ++ s'.q.queue ++ pushedCmds evs) := by
        intro s' id c hg hq
        rw [hg]
        have := (List.Perm.append_left (s.got.map (·.2)) hq).append_right (pushedCmds evs)
        simpa [List.append_assoc] using this
      cases e with
      | tick d => exact same _ rfl (List.Perm.refl _)
      | push c k =>
        simp only [pushedCmds, step]
        rw [(rouse_q _ _).1, (rouse_q _ _).2.2.1]
        have h1 : (s.q.push c).queue.Perm (c :: s.q.queue) := insertBy_perm _ _ _
        refine List.Perm.trans ?_ ((List.Perm.append_left _ h1.symm).append_right _)
        rw [List.append_assoc, List.append_assoc]
        exact List.Perm.append_left _ List.perm_middle
      | wake k => exact same _ (rouse_q _ _).2.2.1 (by show (St.rouse _ _).q.queue.Perm _; rw [(rouse_q _ _).1])
      | enter id wait =>
        simp only [pushedCmds, step]
        split
        · rename_i c q hq
          rw [hq] at hd
          exact took _ id c rfl hd
        · rename_i q hq
          rw [hq] at hd
          exact same _ rfl hd.symm
      | retry k =>
        simp only [pushedCmds, step]
        split
        · exact same _ rfl (List.Perm.refl _)
        · rename_i w _
          split
          · rename_i c q hq
            rw [hq] at hd
            exact took _ w.id c rfl hd
          · rename_i q hq
            rw [hq] at hd
            split
            · exact same _ rfl hd.symm
            · exact same _ rfl hd.symm
  have := key evs {}
  simpa using this

/-- **C143** A worker that looks at the queue while a command is due gets one, whether it comes or was woken. -/
theorem c143_served (evs : List Ev) (x : Cmd) (hx : x ∈ (run {} evs).q.queue)
    (hd : x.sched ≤ (run {} evs).now ∨ x.timeout ≤ (run {} evs).now) :
    (∀ id wait, ∃ c ∈ (run {} evs).q.queue, (run {} (evs ++ [.enter id wait])).got = (run {} evs).got ++ [(id, c)]) ∧
    (∀ k w, (run {} evs).awake[k]? = some w →
      ∃ c ∈ (run {} evs).q.queue, (run {} (evs ++ [.retry k])).got = (run {} evs).got ++ [(w.id, c)]) := by
  have hi := inv_run evs
  obtain ⟨c, hc, h⟩ := dequeue_some_of_due _ hi.sorted hi.exact _ x hx hd
  have hpair : (run {} evs).q.dequeue (run {} evs).now = (some c, ((run {} evs).q.dequeue (run {} evs).now).2) := by
    rw [← h]
  constructor
  · intro id wait
    refine ⟨c, hc, ?_⟩
    rw [run_snoc]
    simp only [step]
    rw [hpair]
  · intro k w hw
    refine ⟨c, hc, ?_⟩
    rw [run_snoc]
    simp only [step]
    rw [hw]
    dsimp only
    rw [hpair]

/-- Every command may be run at once when it is pushed. -/
def AtOnce (evs : List Ev) : Prop := ∀ a c k b, evs = a ++ .push c k :: b → c.sched ≤ clock a

theorem rouse_len (s : St) (k : Nat) : (s.rouse k).asleep.length + (s.rouse k).awake.length = s.asleep.length + s.awake.length ∧
    (k < s.asleep.length → (s.rouse k).awake.length = s.awake.length + 1) ∧ s.awake.length ≤ (s.rouse k).awake.length := by
  unfold St.rouse
  split
  · rename_i w hw
    have hk := (List.getElem?_eq_some_iff.mp hw).1
    simp only [List.length_cons, List.length_eraseIdx, if_pos hk]
    exact ⟨by omega, fun _ => trivial, by omega⟩
  · rename_i hn
    refine ⟨rfl, fun hk => ?_, Nat.le_refl _⟩
    rw [List.getElem?_eq_getElem hk] at hn; cases hn

theorem clock_now (evs : List Ev) : (run {} evs).now = clock evs := by
  have key : ∀ (evs : List Ev) (s : St), (run s evs).now = s.now + clock evs := by
    intro evs
    induction evs with
    | nil => intro s; rfl
    | cons e evs ih =>
      intro s
      show (run (step s e) evs).now = _
      rw [ih]
      cases e with
      | tick d => simp only [step, clock]; omega
      | push c k => simp only [step, clock]; rw [(rouse_q _ _).2.1]
      | enter id wait => simp only [step, clock]; split <;> rfl
      | wake k => simp only [step, clock]; rw [(rouse_q _ _).2.1]
      | retry k =>
        simp only [step, clock]
        split
        · rfl
        · split
          · rfl
          · split <;> rfl
  have := key evs {}
  simpa using this

/-- All commands in the queue are due, and while a worker sleeps no more than the workers that are awake. -/
structure Fed (s : St) : Prop where
  due : ∀ x ∈ s.q.queue, x.sched ≤ s.now
  enough : s.asleep ≠ [] → s.q.queue.length ≤ s.awake.length

theorem fed_step (s : St) (hi : Inv s) (h : Fed s) (e : Ev) (hp : ∀ c k, e = .push c k → c.sched ≤ s.now) : Fed (step s e) := by
  have hsub := (dequeue_perm s.q s.now).2.1
  have hlen := dequeue_len s.q s.now
  have hdue : ∀ x ∈ (s.q.dequeue s.now).2.queue, x.sched ≤ s.now := fun x hx => h.due x (hsub.subset hx)
  have hempty : (s.q.dequeue s.now).1 = none → s.q.queue = [] := by
    intro hn
    cases hq : s.q.queue with
    | nil => rfl
    | cons x xs =>
      obtain ⟨c, _, hc⟩ := dequeue_some_of_due s.q hi.sorted hi.exact s.now x (by rw [hq]; simp) (.inl (h.due x (by rw [hq]; simp)))
      rw [hn] at hc; cases hc
  cases e with
  | tick d => exact ⟨fun x hx => Nat.le_trans (h.due x hx) (Nat.le_add_right _ _), h.enough⟩
  | push c k =>
    have hc := hp c k rfl
    have hperm : (s.q.push c).queue.Perm (c :: s.q.queue) := insertBy_perm _ _ _
    have hl := rouse_len { s with q := s.q.push c } (k % s.asleep.length)
    refine ⟨?_, ?_⟩
    · simp only [step]
      rw [(rouse_q _ _).1, (rouse_q _ _).2.1]
      intro x hx
      rcases List.mem_cons.mp (hperm.mem_iff.mp hx) with rfl | hx
      · exact hc
      · exact h.due x hx
    · simp only [step]
      intro hne
      rw [(rouse_q _ _).1, hperm.length_eq, List.length_cons]
      have hs : s.asleep ≠ [] := by
        intro h0
        apply hne
        have h1 := hl.1
        have h3 := hl.2.2
        have hz : s.asleep.length = 0 := by rw [h0]; rfl
        change _ + _ = s.asleep.length + s.awake.length at h1
        change s.awake.length ≤ _ at h3
        exact List.length_eq_zero_iff.mp (by omega)
      rw [hl.2.1 (Nat.mod_lt _ (List.length_pos_iff.mpr hs))]
      have := h.enough hs
      show s.q.queue.length + 1 ≤ s.awake.length + 1
      omega
  | enter id wait =>
    simp only [step]
    split
    · rename_i c q hq
      rw [hq] at hdue hlen
      simp only [Option.toList_some, List.length_cons, List.length_nil] at hlen
      refine ⟨hdue, fun hne => ?_⟩
      have := h.enough hne
      show q.queue.length ≤ s.awake.length
      omega
    · rename_i q hq
      have h0 := hempty (by rw [hq])
      rw [hq] at hdue hlen
      simp only [Option.toList_none, List.length_nil, h0] at hlen
      refine ⟨hdue, fun _ => ?_⟩
      show q.queue.length ≤ s.awake.length
      omega
  | wake k =>
    have hl := rouse_len s k
    refine ⟨?_, ?_⟩
    · simp only [step]
      rw [(rouse_q _ _).1, (rouse_q _ _).2.1]; exact h.due
    · simp only [step]
      intro hne
      rw [(rouse_q _ _).1]
      have hs : s.asleep ≠ [] := by
        intro h0
        apply hne
        have h1 := hl.1
        have h3 := hl.2.2
        rw [h0] at h1
        simp only [List.length_nil, Nat.zero_add] at h1
        exact List.length_eq_zero_iff.mp (by omega)
      have := h.enough hs
      omega
  | retry k =>
    simp only [step]
    split
    · exact h
    · rename_i w hw
      have hk := (List.getElem?_eq_some_iff.mp hw).1
      split
      · rename_i c q hq
        rw [hq] at hdue hlen
        simp only [Option.toList_some, List.length_cons, List.length_nil] at hlen
        refine ⟨hdue, fun hne => ?_⟩
        have := h.enough hne
        show q.queue.length ≤ (s.awake.eraseIdx k).length
        rw [List.length_eraseIdx, if_pos hk]
        omega
      · rename_i q hq
        have h0 := hempty (by rw [hq])
        rw [hq] at hdue hlen
        simp only [Option.toList_none, List.length_nil, h0] at hlen
        split
        · refine ⟨hdue, fun _ => ?_⟩
          show q.queue.length ≤ _
          omega
        · refine ⟨hdue, fun _ => ?_⟩
          show q.queue.length ≤ _
          omega

/-- **C143** If every command may be run at once when it is pushed, then in every history, while a worker sleeps, the workers that are
awake and about to look at the queue are at least as many as the commands in it. -/
theorem c143_enough_awake (evs : List Ev) (h : AtOnce evs) (hs : (run {} evs).asleep ≠ []) :
    (run {} evs).q.queue.length ≤ (run {} evs).awake.length := by
  have key : ∀ n (evs : List Ev), evs.length = n → AtOnce evs → Fed (run {} evs) := by
    intro n
    induction n with
    | zero =>
      intro evs hl _
      rw [List.length_eq_zero_iff.mp hl]
      exact ⟨by simp [run], by simp [run]⟩
    | succ n ih =>
      intro evs hl ha
      have hne : evs ≠ [] := by intro h0; rw [h0] at hl; cases hl
      rw [← List.dropLast_concat_getLast hne, run_snoc]
      refine fed_step _ (inv_run _) (ih _ (by rw [List.length_dropLast]; omega) ?_) _ ?_
      · intro a c k b hab
        refine ha a c k (b ++ [evs.getLast hne]) ?_
        rw [← List.cons_append, ← List.append_assoc, ← hab, List.dropLast_concat_getLast hne]
      · intro c k he
        rw [clock_now]
        refine ha _ c k [] ?_
        rw [← he, List.dropLast_concat_getLast hne]
  exact (key evs.length evs rfl h).enough hs

/-- **C143** So if a worker sleeps and none is about to look, nothing waits. -/
theorem c143_quiet (evs : List Ev) (h : AtOnce evs) (hs : (run {} evs).asleep ≠ []) (ha : (run {} evs).awake = []) :
    (run {} evs).q.queue = [] := by
  have := c143_enough_awake evs h hs
  rw [ha] at this
  exact List.length_eq_zero_iff.mp (by simpa using this)

/-- **C143** A worker leaves without a command only after the time it wanted to wait, and only if none is due then, whatever the
commands. -/
theorem c143_timeout (evs : List Ev) : ∀ e ∈ (run {} evs).left, e.1.until' < e.2.1 ∧
    ∀ x ∈ e.2.2.queue, e.2.1 < x.sched ∧ e.2.1 < x.timeout := by
  have key : ∀ (evs : List Ev) (s : St), Inv s → (∀ e ∈ s.left, e.1.until' < e.2.1 ∧
      ∀ x ∈ e.2.2.queue, e.2.1 < x.sched ∧ e.2.1 < x.timeout) → ∀ e ∈ (run s evs).left, e.1.until' < e.2.1 ∧
      ∀ x ∈ e.2.2.queue, e.2.1 < x.sched ∧ e.2.1 < x.timeout := by
    intro evs
    induction evs with
    | nil => exact fun _ _ h => h
    | cons ev evs ih =>
      intro s hi h
      refine ih _ (inv_step s hi ev) ?_
      cases ev with
      | tick d => exact h
      | push c k => simp only [step]; rw [(rouse_q _ _).2.2.2]; exact h
      | enter id wait => simp only [step]; split <;> exact h
      | wake k => simp only [step]; rw [(rouse_q _ _).2.2.2]; exact h
      | retry k =>
        simp only [step]
        split
        · exact h
        · rename_i w _
          split
          · exact h
          · rename_i q hq
            split
            · rename_i hlt
              intro e he
              rcases List.mem_append.mp he with he | he
              · exact h e he
              · rw [List.mem_singleton] at he
                subst he
                refine ⟨hlt, fun x hx => ?_⟩
                dsimp only at hx ⊢
                have hsub := (dequeue_perm s.q s.now).2.1
                rw [hq] at hsub
                have hx' := hsub.subset hx
                constructor
                · rcases Nat.lt_or_ge s.now x.sched with h1 | h1
                  · exact h1
                  · obtain ⟨c, _, hc⟩ := dequeue_some_of_due s.q hi.sorted hi.exact s.now x hx' (.inl h1)
                    rw [hq] at hc; cases hc
                · rcases Nat.lt_or_ge s.now x.timeout with h1 | h1
                  · exact h1
                  · obtain ⟨c, _, hc⟩ := dequeue_some_of_due s.q hi.sorted hi.exact s.now x hx' (.inr h1)
                    rw [hq] at hc; cases hc
            · exact h
  exact key evs {} inv_init (by simp)

/-- **C143** (as the code is) A command for later wakes a worker when it is pushed, not when its time comes: then it waits although a
worker sleeps, until the end of the worker's time. -/
theorem c143_later_partial : ∃ evs, (run {} evs).asleep ≠ [] ∧ (run {} evs).awake = [] ∧
    ∃ x ∈ (run {} evs).q.queue, x.sched ≤ (run {} evs).now := by
  refine ⟨[.enter 1 100, .push ⟨10, 1000, 7⟩ 0, .retry 0, .tick 50], ?_, ?_, ⟨10, 1000, 7⟩, ?_, ?_⟩
  · intro h
    exact absurd (congrArg List.length h) (by decide +kernel)
  · exact List.length_eq_zero_iff.mp (by decide +kernel)
  · decide +kernel
  · decide +kernel

/-- Two workers sleep, two commands come; a third worker takes one of them. -/
def busy : List Ev := [.enter 1 100, .enter 2 100, .push ⟨0, 1000, 7⟩ 0, .push ⟨0, 1000, 8⟩ 0, .enter 3 100, .retry 1, .retry 0]

example : (run {} busy).got = [(3, ⟨0, 1000, 7⟩), (2, ⟨0, 1000, 8⟩)] ∧ (run {} busy).asleep = [⟨1, 100⟩] ∧
    (run {} busy).awake = [] := by decide +kernel

example : (run {} (busy ++ [.tick 101, .wake 0, .retry 0])).left.map (·.1) = [⟨1, 100⟩] := by decide +kernel

example : AtOnce busy := by
  intro a c k b h
  have hm : Ev.push c k ∈ busy := by rw [h]; simp
  unfold busy at hm
  simp only [List.mem_cons, List.not_mem_nil, or_false, reduceCtorEq, Ev.push.injEq, false_or] at hm
  rcases hm with ⟨rfl, _⟩ | ⟨rfl, _⟩ <;> exact Nat.zero_le _

/-- The workers that called `get`. -/
def entered : List Ev → List Nat
  | [] => []
  | .enter id _ :: evs => id :: entered evs
  | _ :: evs => entered evs

/-- How often a worker was served, left, sleeps or is awake. -/
def tally (a : Nat) (s : St) : Nat :=
  (s.got.map (·.1)).count a + (s.left.map (·.1.id)).count a + (s.asleep.map (·.id)).count a + (s.awake.map (·.id)).count a

theorem count_eraseIdx (l : List Worker) (k : Nat) (w : Worker) (h : l[k]? = some w) (a : Nat) :
    (l.map (·.id)).count a = (if w.id = a then 1 else 0) + ((l.eraseIdx k).map (·.id)).count a := by
  induction l generalizing k with
  | nil => simp at h
  | cons x xs ih =>
    cases k with
    | zero =>
      have hx : x = w := by simpa using h
      rw [hx, List.eraseIdx_cons_zero, List.map_cons, List.count_cons]
      by_cases hwa : w.id = a
      · simp [hwa]; omega
      · simp [hwa]
    | succ k =>
      have hx : xs[k]? = some w := by simpa using h
      rw [List.eraseIdx_cons_succ, List.map_cons, List.count_cons, List.map_cons, List.count_cons, ih k hx]
      omega

theorem tally_rouse (a : Nat) (s : St) (k : Nat) : tally a (s.rouse k) = tally a s := by
  unfold St.rouse
  split
  · rename_i w hw
    have := count_eraseIdx s.asleep k w hw a
    unfold tally
    dsimp only
    rw [List.map_cons, List.count_cons]
    by_cases hwa : w.id = a
    · simp [hwa] at this ⊢; omega
    · simp [hwa] at this ⊢; omega
  · rfl

/-- **C143** No worker is lost: as often as it called, it was served, left without a command, sleeps, or is awake. -/
theorem c143_no_worker_lost (evs : List Ev) (a : Nat) : tally a (run {} evs) = (entered evs).count a := by
  have key : ∀ (evs : List Ev) (s : St), tally a (run s evs) = tally a s + (entered evs).count a := by
    intro evs
    induction evs with
    | nil => intro s; rfl
    | cons e evs ih =>
      intro s
      show tally a (run (step s e) evs) = _
      rw [ih]
      cases e with
      | tick d => rfl
      | push c k =>
        simp only [step, entered]
        rw [tally_rouse]
        rfl
      | wake k =>
        simp only [step, entered]
        rw [tally_rouse]
      | enter id wait =>
        have hc : (entered (.enter id wait :: evs)).count a = (if id = a then 1 else 0) + (entered evs).count a := by
          simp only [entered, List.count_cons]
          by_cases h : id = a
          · simp [h]; omega
          · simp [h]
        rw [hc]
        simp only [step]
        split
        · unfold tally
          dsimp only
          rw [List.map_append, List.count_append]
          by_cases h : id = a
          · simp [h]; omega
          · simp [h]
        · unfold tally
          dsimp only
          rw [List.map_cons, List.count_cons]
          by_cases h : id = a
          · simp [h]; omega
          · simp [h]
      | retry k =>
        simp only [step, entered]
        split
        · rfl
        · rename_i w hw
          have := count_eraseIdx s.awake k w hw a
          split
          · unfold tally
            dsimp only
            rw [List.map_append, List.count_append]
            by_cases h : w.id = a
            · simp [h] at this ⊢; omega
            · simp [h] at this ⊢; omega
          · split
            · unfold tally
              dsimp only
              rw [List.map_append, List.count_append]
              by_cases h : w.id = a
              · simp [h] at this ⊢; omega
              · simp [h] at this ⊢; omega
            · unfold tally
              dsimp only
              rw [List.map_cons, List.count_cons]
              by_cases h : w.id = a
              · simp [h] at this ⊢; omega
              · simp [h] at this ⊢; omega
  have := key evs {}
  rw [this]
  exact Nat.zero_add _

example : (entered busy).count 3 = 1 ∧ (entered busy).count 1 = 1 ∧ (entered busy).count 4 = 0 ∧
    tally 3 (run {} busy) = 1 := by decide +kernel

end Bedrock.QueueWait.Props
