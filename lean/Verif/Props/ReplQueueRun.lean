import Verif.Props.ReplQueue

/-! C98: what a follower may rely on, and what it may not. -/

namespace Bedrock.ReplQueue.Props
open Bedrock.ReplQueue

/-- A node follows, gets three transactions while its thread works, and leaves; the thread finishes in time. -/
def life : List Ev :=
  [.follow, .recv 1, .wake, .recv 2, .lock 5, .wake, .prepare true true, .send, .commit true, .recv 3, .lock 6,
   .prepare true false, .wake, .leave 7, .commit true, .notify, .lock 8, .prepare true false, .commit true, .lock 9, .join, .clear]

/-- C98 (order).  At every moment, whatever the schedule, the transactions applied while following are the first of those
received from the leader, in the order received and each once. -/
theorem c98_prefix (es : List Ev) : (S.run {} es).applied <+: (S.run {} es).accepted := (inv es).pre

/-- C98 (nothing lost).  While the node follows, each transaction it was sent is applied, in the hands of the thread, in the
queue, or was taken too late; the parts are in this order. -/
theorem c98_conserved (es : List Ev) (hf : (S.run {} es).following = true) :
    (S.run {} es).accepted = (S.run {} es).applied ++ hand (S.run {} es).th ++ (S.run {} es).skipped ++ (S.run {} es).queue :=
  (inv es).order hf

example : (S.run {} (life.take 14)).following = true ∧ (S.run {} (life.take 14)).applied = [1] ∧
    hand (S.run {} (life.take 14)).th = [2] ∧ (S.run {} (life.take 14)).queue = [3] := by decide

/-- The thread reads the clock no later than the time it is to exit. -/
def Timely (s : S) : List Ev → Prop
  | [] => True
  | e :: es => (∀ now, e = .lock now → ∀ t, s.exitAt = some t → now ≤ t) ∧ Timely (s.step e) es

theorem timely_skipped {s : S} {es : List Ev} (hs : s.skipped = []) (h : Timely s es) : (s.run es).skipped = [] := by
  induction es generalizing s with
  | nil => exact hs
  | cons e es ih =>
    refine ih ?_ h.2
    have h1 := h.1
    unfold S.step
    split
    · exact hs
    · cases e with
      | lock now =>
        simp only
        split
        · unfold S.lockStep
          split
          · exact hs
          · exact hs
          · exact hs
          · next t m q hx hq =>
            have := h1 now rfl t hx
            rw [if_neg (by omega)]
            exact hs
        · exact hs
      | follow => simp only; split <;> simp [hs]
      | recv m => simp only; split <;> simp [hs]
      | wake => simp only; split <;> simp [hs]
      | lose => simp only; split <;> simp [hs]
      | leave now => simp only; split <;> simp [hs]
      | notify => simp only; (repeat' split) <;> simp [hs]
      | join => simp only; split <;> simp [hs]
      | clear => simp only; split <;> simp [hs]
      | woken => simp only; split <;> simp [hs]
      | spurious => simp only; split <;> simp [hs]
      | prepare ok st => simp only; (repeat' split) <;> simp [hs]
      | send => simp only; (repeat' split) <;> simp [hs]
      | commit ok => simp only; (repeat' split) <;> simp [hs]

/-- C98 (leaving).  A node that stops following, and whose thread gets through the queue within the ten seconds it has, has
applied everything it was sent. -/
theorem c98_all_applied (es : List Ev) (ht : Timely {} es) (hf : (S.run {} es).following = false) :
    (S.run {} es).applied = (S.run {} es).accepted :=
  (inv es).done hf (timely_skipped rfl ht)

example : Timely {} life ∧ (S.run {} life).following = false ∧ (S.run {} life).applied = [1, 2, 3] := by
  refine ⟨?_, by decide, by decide⟩
  simp [Timely, life, S.step, S.lockStep, wakeTh]

theorem leaving_step {s : S} (h : Inv s) {T : Nat} (hx : s.exitAt = some T ∨ s.following = false) {e : Ev} (he : e ≠ .follow) :
    (s.step e).exitAt = some T ∨ (s.step e).following = false := by
  unfold S.step
  split
  · exact hx
  · cases e with
    | follow => exact absurd rfl he
    | leave now =>
      simp only
      split
      · next hc =>
        rcases hx with hx | hx
        · have := h.exit.1 (by simp [hx])
          rcases hc.1 with hc | hc <;> simp [hc] at this
        · simp [hx] at hc
      · exact hx
    | lock now => simp only [S.lockStep]; (repeat' split) <;> first | exact hx | (right; simpa using hx)
    | clear => simp only; split <;> first | exact hx | simp
    | recv m => simp only; (repeat' split) <;> exact hx
    | wake => simp only; (repeat' split) <;> exact hx
    | lose => simp only; (repeat' split) <;> exact hx
    | notify => simp only; (repeat' split) <;> exact hx
    | join => simp only; (repeat' split) <;> exact hx
    | woken => simp only; (repeat' split) <;> exact hx
    | spurious => simp only; (repeat' split) <;> exact hx
    | prepare ok st => simp only; (repeat' split) <;> exact hx
    | send => simp only; (repeat' split) <;> exact hx
    | commit ok => simp only; (repeat' split) <;> exact hx

theorem leaving_timely {s : S} (h : Inv s) {T : Nat} (hx : s.exitAt = some T ∨ s.following = false) (fs : List Ev)
    (hn : Ev.follow ∉ fs) (ht : ∀ t, Ev.lock t ∈ fs → t ≤ T) : Timely s fs := by
  induction fs generalizing s with
  | nil => trivial
  | cons e fs ih =>
    refine ⟨?_, ih (inv_step h e) (leaving_step h hx (fun he => hn (by simp [he]))) (fun h' => hn (List.mem_cons_of_mem _ h'))
      (fun t h' => ht t (List.mem_cons_of_mem _ h'))⟩
    intro now he t hxt
    have := ht now (by simp [he])
    rcases hx with hx | hx
    · rw [hx] at hxt; cases hxt; exact this
    · rw [(h.away hx).2.1] at hxt; cases hxt

/-- C98 (ten seconds).  So a node that begins to leave has ten seconds: whatever it had received is applied when it has left, if
the thread comes back for its next transaction no later than that. -/
theorem c98_ten_seconds (es fs : List Ev) (now : Nat) (hf : (S.run {} es).following = true)
    (hp : (S.run {} es).pc = .idle ∨ (S.run {} es).pc = .lost)
    (hd : (S.run {} es).died = false) (hu : (S.run {} es).ub = false) (hn : Ev.follow ∉ fs)
    (ht : ∀ t, Ev.lock t ∈ fs → t ≤ now + 10 * 1000 * 1000)
    (hg : (S.run {} (es ++ .leave now :: fs)).following = false) :
    (S.run {} (es ++ .leave now :: fs)).applied = (S.run {} (es ++ .leave now :: fs)).accepted := by
  have hi := inv es
  refine (inv _).done hg ?_
  rw [run_append]
  generalize S.run {} es = s at *
  have h1 : s.step (.leave now) = { s with exitAt := some (now + 10000000), pc := .leaving } := by
    simp [S.step, hd, hu, hp, hf]
  show ((s.step (.leave now)).run fs).skipped = []
  refine timely_skipped ?_ (leaving_timely (T := now + 10000000) (inv_step hi _) (Or.inl (by rw [h1])) fs hn ht)
  rw [h1]
  show s.skipped = []
  cases hs : s.skipped with
  | nil => rfl
  | cons a l =>
    rcases hi.skip (by simp [hs]) hf with h2 | h2
    · have := (hi.fin h2).1
      rcases hp with hp | hp <;> simp [hp] at this
    · rcases hp with hp | hp <;> simp [hp] at h2

example : life = life.take 13 ++ .leave 7 :: life.drop 14 ∧ (S.run {} (life.take 13)).pc = .idle ∧
    Ev.follow ∉ life.drop 14 ∧ (S.run {} life).following = false := by decide

/-- C98 (leaving too late).  Without that, transactions that were received are never applied. -/
theorem c98_dropped : ∃ es, (S.run {} es).following = false ∧ (S.run {} es).died = false ∧ (S.run {} es).ub = false ∧
    (S.run {} es).accepted = [1, 2] ∧ (S.run {} es).applied = [] :=
  ⟨[.follow, .recv 1, .wake, .recv 2, .wake, .leave 0, .notify, .lock 10000001, .join, .clear], by decide⟩

/-- C98 (deadline).  Once the time to exit has passed, the thread ends as soon as it is done with what it has … -/
theorem c98_deadline (es : List Ev) (t now : Nat) (hd : (S.run {} es).died = false) (hu : (S.run {} es).ub = false)
    (hth : (S.run {} es).th = .top) (hx : (S.run {} es).exitAt = some t) (hn : t < now) :
    (S.run {} (es ++ [.lock now])).th = .ended := by
  rw [run_append]
  show ((S.run {} es).step (.lock now)).th = .ended
  simp only [S.step, hd, hu, hth, S.lockStep, hx]
  cases (S.run {} es).queue with
  | nil => rfl
  | cons m q => simp [hn]

example : (S.run {} [.follow, .recv 1, .wake, .leave 0]).th = .top ∧
    (S.run {} [.follow, .recv 1, .wake, .leave 0]).exitAt = some 10000000 := by decide

theorem ended_step {s : S} (h : Inv s) (hq : s.th = .ended ∨ s.following = false ∨ s.pc = .clearing) (e : Ev) (he : e ≠ .follow) :
    ((s.step e).th = .ended ∨ (s.step e).following = false ∨ (s.step e).pc = .clearing) ∧ (s.step e).applied = s.applied := by
  have hx : s.th = .ended ∨ s.th = .none := by
    rcases hq with h1 | h1 | h1
    · exact Or.inl h1
    · exact Or.inr (h.away h1).2.2.2
    · exact Or.inr (h.clr h1)
  have hpc : s.pc = .leaving ∨ s.pc = .joining ∨ s.pc = .clearing ∨ (s.following = false ∧ s.pc = .idle) := by
    rcases hq with h1 | h1 | h1
    · rcases (h.fin h1).1 with h2 | h2
      · exact Or.inl h2
      · exact Or.inr (Or.inl h2)
    · exact Or.inr (Or.inr (Or.inr ⟨h1, (h.away h1).1⟩))
    · exact Or.inr (Or.inr (Or.inl h1))
  unfold S.step
  split
  · exact ⟨hq, rfl⟩
  · have hnl : ∀ now, s.pc ≠ .clearing ∨ s.th ≠ .top ∨ now = 0 := fun now => by
      rcases hx with hx | hx <;> simp [hx]
    cases e with
    | follow => exact absurd rfl he
    | lock now => rcases hx with hx | hx <;> simp_all
    | recv m => rcases hx with hx | hx <;> rcases hpc with hpc | hpc | hpc | hpc <;> simp_all
    | wake => rcases hx with hx | hx <;> rcases hpc with hpc | hpc | hpc | hpc <;> simp_all
    | lose => rcases hx with hx | hx <;> rcases hpc with hpc | hpc | hpc | hpc <;> simp_all
    | leave now => rcases hx with hx | hx <;> rcases hpc with hpc | hpc | hpc | hpc <;> simp_all
    | notify => rcases hx with hx | hx <;> rcases hpc with hpc | hpc | hpc | hpc <;> simp_all [wakeTh]
    | join => rcases hx with hx | hx <;> rcases hpc with hpc | hpc | hpc | hpc <;> simp_all
    | clear => rcases hx with hx | hx <;> rcases hpc with hpc | hpc | hpc | hpc <;> simp_all
    | woken => rcases hx with hx | hx <;> simp_all
    | spurious => rcases hx with hx | hx <;> simp_all
    | prepare ok st => rcases hx with hx | hx <;> simp_all
    | send => rcases hx with hx | hx <;> simp_all
    | commit ok => rcases hx with hx | hx <;> simp_all

/-- … and then nothing is applied until the node follows again. -/
theorem c98_quiet (es fs : List Ev) (hth : (S.run {} es).th = .ended ∨ (S.run {} es).following = false)
    (hn : Ev.follow ∉ fs) : (S.run {} (es ++ fs)).applied = (S.run {} es).applied := by
  rw [run_append]
  have hi := inv es
  generalize S.run {} es = s at hth hi
  have hq : s.th = .ended ∨ s.following = false ∨ s.pc = .clearing := by
    rcases hth with h | h
    · exact Or.inl h
    · exact Or.inr (Or.inl h)
  clear hth
  induction fs generalizing s with
  | nil => rfl
  | cons e fs ih =>
    obtain ⟨h1, h2⟩ := ended_step hi hq e (fun h => hn (by simp [h]))
    show ((s.step e).run fs).applied = s.applied
    rw [ih (fun h => hn (List.mem_cons_of_mem _ h)) _ (inv_step hi e) h1, h2]

/-- C98 (no old transactions).  A node that begins to follow again has nothing left from its earlier leader: its queue is
empty, there is no thread, and what it applies from then on it was sent since. -/
theorem c98_fresh (es fs : List Ev) (hf : (S.run {} es).following = false) (hd : (S.run {} es).died = false)
    (hu : (S.run {} es).ub = false) :
    (S.run {} (es ++ [.follow])).queue = [] ∧ (S.run {} (es ++ [.follow])).th = .none ∧
    (S.run {} (es ++ [.follow])).exitAt = none ∧ (S.run {} (es ++ [.follow])).following = true ∧
    (S.run {} (es ++ [.follow])).accepted = [] ∧
    (∀ m ∈ (S.run {} (es ++ [.follow] ++ fs)).applied, m ∈ (S.run {} (es ++ [.follow] ++ fs)).accepted) := by
  have h1 : S.run {} (es ++ [.follow]) = (S.run {} es).step .follow := run_append _ _ _
  have h2 := (inv es).away hf
  rw [h1]
  refine ⟨?_, ?_, ?_, ?_, ?_, fun m hm => (inv _).pre.subset hm⟩ <;> simp [S.step, hd, hu, hf, h2]

/-- C98 (no lost wake-up).  A thread that waits and was not notified has nothing to do, or the other thread is just about to
notify it; in particular a node that waits for its thread to end never waits for one that sleeps. -/
theorem c98_wakeup (es : List Ev) (hw : (S.run {} es).th = .waiting false) :
    ((S.run {} es).queue = [] ∧ (S.run {} es).exitAt = none) ∨ (S.run {} es).pc = .pushed ∨ (S.run {} es).pc = .leaving :=
  (inv es).wait hw

example : (S.run {} [.follow, .recv 1, .wake, .lock 0, .prepare true false, .commit true, .lock 0, .recv 2]).th = .waiting false ∧
    (S.run {} [.follow, .recv 1, .wake, .lock 0, .prepare true false, .commit true, .lock 0, .recv 2]).queue = [2] := by decide

/-- C98 (state).  Whenever the thread has a transaction in hand the node follows: the check for that (1964, 2024) never ends the
process.  And there is no thread when it does not. -/
theorem c98_following (es : List Ev) (h : (S.run {} es).th ≠ .none) : (S.run {} es).following = true :=
  following_of_th (inv es) h

example : (S.run {} [.follow, .recv 1, .wake]).th ≠ .none := by decide

/-- An event at which a transaction fails. -/
def failure : Ev → Bool
  | .prepare ok _ => !ok
  | .commit ok => !ok
  | _ => false

theorem died_step {s : S} (h : Inv s) {e : Ev} (he : failure e = false) (hd : s.died = false) : (s.step e).died = false := by
  unfold S.step
  split
  · exact hd
  · cases e with
    | lock now => simp only [S.lockStep]; (repeat' split) <;> simp [hd]
    | follow => simp only; split <;> simp [hd]
    | recv m => simp only; split <;> simp [hd]
    | wake => simp only; split <;> simp [hd]
    | lose => simp only; split <;> simp [hd]
    | leave now => simp only; split <;> simp [hd]
    | notify => simp only; (repeat' split) <;> simp [hd]
    | join => simp only; split <;> simp [hd]
    | clear => simp only; split <;> simp [hd]
    | woken => simp only; split <;> simp [hd]
    | spurious => simp only; split <;> simp [hd]
    | send => simp only; (repeat' split) <;> simp [hd]
    | prepare ok st =>
      simp only
      split
      · next m hm =>
        have hf := following_of_th h (by rw [hm]; simp)
        have : ok = true := by simpa [failure] using he
        simp [this, hf, hd]
      · exact hd
    | commit ok =>
      simp only
      split
      · next m hm =>
        have hf := following_of_th h (by rw [hm]; simp)
        have : ok = true := by simpa [failure] using he
        simp [this, hf, hd]
      · exact hd

/-- C98 (process).  Only a transaction that cannot be applied ends the process: not the end of following, however it falls. -/
theorem c98_survives (es : List Ev) (h : ∀ e ∈ es, failure e = false) : (S.run {} es).died = false := by
  suffices ∀ s : S, Inv s → s.died = false → (s.run es).died = false from this {} inv_start rfl
  induction es with
  | nil => exact fun s _ hd => hd
  | cons e es ih =>
    intro s hi hd
    exact ih (fun x hx => h x (List.mem_cons_of_mem _ hx)) _ (inv_step hi e) (died_step hi (h e (List.mem_cons_self ..)) hd)

example : ∀ e ∈ life, failure e = false := by decide

/-- Running the thread alone: it wakes if notified, and takes and applies one transaction after the other. -/
def work (s : S) : List Ev :=
  (match s.th with
   | .waiting _ => [.woken]
   | .busy _ => [.prepare true false, .commit true]
   | .status _ => [.send, .commit true]
   | .commit _ => [.commit true]
   | _ => []) ++ s.queue.flatMap (fun _ => [.lock 0, .prepare true false, .commit true])

theorem work_queue (s : S) (hd : s.died = false) (hu : s.ub = false) (hf : s.following = true) (hth : s.th = .top) :
    (s.run (s.queue.flatMap (fun _ => [.lock 0, .prepare true false, .commit true]))).applied = s.applied ++ s.queue ∧
    (s.run (s.queue.flatMap (fun _ => [.lock 0, .prepare true false, .commit true]))).th = .top ∧
    (s.run (s.queue.flatMap (fun _ => [.lock 0, .prepare true false, .commit true]))).queue = [] := by
  generalize hq : s.queue = q
  induction q generalizing s with
  | nil => simp [S.run, hth, hq]
  | cons m q ih =>
    have h3 : (s.run [.lock 0, .prepare true false, .commit true]) = { s with queue := q, th := .top, applied := s.applied ++ [m] } := by
      cases hx : s.exitAt <;> simp [S.run, S.step, S.lockStep, hd, hu, hf, hth, hq, hx]
    simp only [List.flatMap_cons, run_append, h3]
    have := ih { s with queue := q, th := .top, applied := s.applied ++ [m] } hd hu hf rfl rfl
    simpa using this

/-- C98 (progress).  While the node follows and does nothing else, its thread, if it only gets to run and if nothing fails,
applies all that was received: it needs no wake-up beyond those it was given. -/
theorem c98_progress (es : List Ev) (hf : (S.run {} es).following = true) (hp : (S.run {} es).pc = .idle)
    (hd : (S.run {} es).died = false) (hu : (S.run {} es).ub = false)
    (hl : ∀ m, (S.run {} es).th = .status m → (S.run {} es).lead = true) :
    (S.run {} (es ++ work (S.run {} es))).applied = (S.run {} es).accepted := by
  rw [run_append]
  have hi := inv es
  generalize S.run {} es = s at *
  have ho := hi.order hf
  have hsk : s.skipped = [] := by
    cases hs : s.skipped with
    | nil => rfl
    | cons a l =>
      rcases hi.skip (by simp [hs]) hf with h1 | h1
      · have := (hi.fin h1).1; simp [hp] at this
      · simp [hp] at h1
  have hx : s.exitAt = none := by
    have := hi.exit
    simp only [hp] at this
    simpa using this
  rw [hsk, List.append_nil] at ho
  unfold work
  rw [run_append]
  cases hth : s.th with
  | none =>
    have := hi.none hth
    simp [hp, hsk] at this
    rw [this] at ho ⊢
    simpa [S.run, hth, hand] using ho.symm
  | top =>
    have := (work_queue s hd hu hf hth).1
    refine Eq.trans ?_ ho.symm
    rw [hth]
    simpa [S.run, hand] using this
  | waiting w =>
    cases w with
    | false =>
      have := hi.wait hth
      simp [hp] at this
      rw [this.1] at ho ⊢
      refine Eq.trans ?_ ho.symm
      rw [hth]
      simp [S.run, S.step, hd, hu, hth, hand]
    | true =>
      have h1 : s.run [.woken] = { s with th := .top } := by simp [S.run, S.step, hd, hu, hth]
      have := (work_queue { s with th := .top } hd hu hf rfl).1
      simp only [h1]
      refine Eq.trans ?_ ho.symm
      rw [hth]
      simpa [hand] using this
  | busy m =>
    have h1 : s.run [.prepare true false, .commit true] = { s with th := .top, applied := s.applied ++ [m] } := by
      simp [S.run, S.step, hd, hu, hth, hf]
    have := (work_queue { s with th := .top, applied := s.applied ++ [m] } hd hu hf rfl).1
    simp only [h1]
    refine Eq.trans ?_ ho.symm
    rw [hth]
    simpa [hand] using this
  | status m =>
    have h1 : s.run [.send, .commit true] = { s with th := .top, applied := s.applied ++ [m], statuses := s.statuses ++ [m] } := by
      simp [S.run, S.step, hd, hu, hth, hf, hl m hth]
    have := (work_queue { s with th := .top, applied := s.applied ++ [m], statuses := s.statuses ++ [m] } hd hu hf rfl).1
    simp only [h1]
    refine Eq.trans ?_ ho.symm
    rw [hth]
    simpa [hand] using this
  | commit m =>
    have h1 : s.run [.commit true] = { s with th := .top, applied := s.applied ++ [m] } := by
      simp [S.run, S.step, hd, hu, hth, hf]
    have := (work_queue { s with th := .top, applied := s.applied ++ [m] } hd hu hf rfl).1
    simp only [h1]
    refine Eq.trans ?_ ho.symm
    rw [hth]
    simpa [hand] using this
  | ended =>
    have := (hi.fin hth).1
    simp [hp] at this

example : (S.run {} (life.take 6)).pc = .idle ∧ (S.run {} (life.take 6)).lead = true ∧
    (S.run {} (life.take 6)).accepted = [1, 2] ∧ (S.run {} (life.take 6)).applied = [] := by decide

/-- C98 (leaving ends).  A node in the middle of leaving is not stuck: its thread, run alone, ends, whatever it had to do — unless
it is between the two reads of `c98_null`. -/
theorem c98_leaves (es : List Ev) (hp : (S.run {} es).pc = .joining)
    (hd : (S.run {} es).died = false) (hu : (S.run {} es).ub = false)
    (hl : ∀ m, (S.run {} es).th = .status m → (S.run {} es).lead = true) :
    ∃ fs, (S.run {} (es ++ fs)).following = false ∧ (S.run {} (es ++ fs)).pc = .idle ∧ (S.run {} (es ++ fs)).died = false ∧
      (S.run {} (es ++ fs)).ub = false := by
  have hi := inv es
  have hrun : ∀ fs, S.run {} (es ++ fs) = (S.run {} es).run fs := run_append _ _
  simp only [hrun]
  generalize S.run {} es = s at *
  have hf : s.following = true := by
    cases hf : s.following with
    | true => rfl
    | false => have := (hi.away hf).1; simp [hp] at this
  obtain ⟨t, hx⟩ : ∃ t, s.exitAt = some t := by
    have := hi.exit.2 (Or.inr (Or.inl hp))
    exact Option.ne_none_iff_exists'.1 this
  have key : ∀ s' : S, s'.th = .top → s'.exitAt = some t → s'.pc = .joining → s'.died = false → s'.ub = false →
      (s'.run [.lock (t + 1), .join, .clear]).following = false ∧ (s'.run [.lock (t + 1), .join, .clear]).pc = .idle ∧
      (s'.run [.lock (t + 1), .join, .clear]).died = false ∧ (s'.run [.lock (t + 1), .join, .clear]).ub = false := by
    intro s' h1 h2 h3 h4 h5
    cases hq : s'.queue <;> simp [S.run, S.step, S.lockStep, h1, h2, h3, h4, h5, hq]
  cases hth : s.th with
  | none => exact absurd hth (hi.join hp)
  | ended => exact ⟨[.join, .clear], by simp [S.run, S.step, hd, hu, hth, hp]⟩
  | top => exact ⟨_, key s hth hx hp hd hu⟩
  | waiting w =>
    cases w with
    | false => have := hi.wait hth; simp [hp, hx] at this
    | true =>
      refine ⟨[.woken] ++ [.lock (t + 1), .join, .clear], ?_⟩
      have h1 : s.run [.woken] = { s with th := .top } := by simp [S.run, S.step, hd, hu, hth]
      simp only [run_append, h1]
      exact key _ rfl hx hp hd hu
  | busy m =>
    refine ⟨[.prepare true false, .commit true] ++ [.lock (t + 1), .join, .clear], ?_⟩
    have h1 : s.run [.prepare true false, .commit true] = { s with th := .top, applied := s.applied ++ [m] } := by
      simp [S.run, S.step, hd, hu, hth, hf]
    simp only [run_append, h1]
    exact key _ rfl hx hp hd hu
  | status m =>
    refine ⟨[.send, .commit true] ++ [.lock (t + 1), .join, .clear], ?_⟩
    have h1 : s.run [.send, .commit true] = { s with th := .top, applied := s.applied ++ [m], statuses := s.statuses ++ [m] } := by
      simp [S.run, S.step, hd, hu, hth, hf, hl m hth]
    simp only [run_append, h1]
    exact key _ rfl hx hp hd hu
  | commit m =>
    refine ⟨[.commit true] ++ [.lock (t + 1), .join, .clear], ?_⟩
    have h1 : s.run [.commit true] = { s with th := .top, applied := s.applied ++ [m] } := by
      simp [S.run, S.step, hd, hu, hth, hf]
    simp only [run_append, h1]
    exact key _ rfl hx hp hd hu

example : (S.run {} (life.take 16)).pc = .joining ∧ (S.run {} (life.take 16)).lead = true := by decide

theorem lead_step {s : S} (h : Inv s) (hl : s.following = true → s.lead = true) (hu : s.ub = false) {e : Ev} (he : e ≠ .lose) :
    ((s.step e).following = true → (s.step e).lead = true) ∧ (s.step e).ub = false := by
  unfold S.step
  split
  · exact ⟨hl, hu⟩
  · cases e with
    | lose => exact absurd rfl he
    | lock now => simp only [S.lockStep]; (repeat' split) <;> exact ⟨hl, hu⟩
    | follow => simp only; split <;> simp_all
    | recv m => simp only; split <;> exact ⟨hl, hu⟩
    | wake => simp only; split <;> exact ⟨hl, hu⟩
    | leave now => simp only; split <;> exact ⟨hl, hu⟩
    | notify => simp only; (repeat' split) <;> exact ⟨hl, hu⟩
    | join => simp only; split <;> exact ⟨hl, hu⟩
    | clear => simp only; split <;> simp_all
    | woken => simp only; split <;> exact ⟨hl, hu⟩
    | spurious => simp only; split <;> exact ⟨hl, hu⟩
    | prepare ok st => simp only; (repeat' split) <;> exact ⟨hl, hu⟩
    | send =>
      simp only
      split
      · next m hm =>
        have hf := following_of_th h (by rw [hm]; simp)
        simp [hl hf, hu]
      · exact ⟨hl, hu⟩
    | commit ok => simp only; (repeat' split) <;> exact ⟨hl, hu⟩

/-- C98 (leader's pointer, partial: only while the leader is not lost).  As long as `_leadPeer` is cleared only after the thread
was joined, the thread never uses a null pointer. -/
theorem c98_no_null_partial (es : List Ev) (h : Ev.lose ∉ es) : (S.run {} es).ub = false := by
  suffices ∀ s : S, Inv s → (s.following = true → s.lead = true) → s.ub = false → (s.run es).ub = false from
    this {} inv_start (by simp) rfl
  induction es with
  | nil => exact fun s _ _ hu => hu
  | cons e es ih =>
    intro s hi hl hu
    obtain ⟨h1, h2⟩ := lead_step hi hl hu (e := e) (fun h' => h (by simp [h']))
    exact ih (fun h' => h (List.mem_cons_of_mem _ h')) _ (inv_step hi e) h1 h2

example : Ev.lose ∉ life := by decide

/-- C98 (leader's pointer: the other case).  When the leader disconnects, or says the node is forked, its pointer is cleared
before the thread is joined.  A thread that had found it there and reads it again to send its status uses a null pointer. -/
theorem c98_null : ∃ es, (∀ e ∈ es, failure e = false) ∧ (S.run {} es).ub = true :=
  ⟨[.follow, .recv 1, .wake, .lock 0, .prepare true true, .lose, .send], by decide⟩

/-- C98 (status).  A follower that may lead says how far it is with exactly one of any ten commits in a row, and a
permafollower never does. -/
theorem c98_every_tenth (p : Int) (hp : p ≠ 0) (n : Nat) :
    ∃ k < 10, statusDue p (n + k) = true ∧ ∀ j < 10, statusDue p (n + j) = true → j = k := by
  refine ⟨(10 - n % 10) % 10, by omega, ?_, ?_⟩
  · simp only [statusDue, Bool.and_eq_true, decide_eq_true_eq]
    refine ⟨hp, by omega⟩
  · intro j hj h
    simp only [statusDue, Bool.and_eq_true, decide_eq_true_eq] at h
    omega

theorem c98_permafollower (n : Nat) : statusDue 0 n = false := by simp [statusDue]

example : statusDue 100 20 = true ∧ statusDue 100 21 = false := by decide

/-- C98 (statuses are about the transactions received). -/
theorem c98_statuses (es : List Ev) : ∀ m ∈ (S.run {} es).statuses, m ∈ (S.run {} es).accepted := (inv es).stat

/-- C98 (messages in other states).  A transaction that comes when the node does not follow, or is leaving, changes nothing. -/
theorem c98_ignored (es : List Ev) (m : Nat) (h : (S.run {} es).following = false ∨ (S.run {} es).exitAt ≠ none) :
    S.run {} (es ++ [.recv m]) = S.run {} es := by
  rw [run_append]
  show (S.run {} es).step (.recv m) = _
  unfold S.step
  split
  · rfl
  · simp only
    rw [if_neg]
    rintro ⟨h1, h2, h3⟩
    rcases h with h | h
    · simp [h] at h2
    · exact h h3

/-- C98 (received).  And one that comes while it follows is queued, whatever the thread does. -/
theorem c98_received (es : List Ev) (m : Nat) (hf : (S.run {} es).following = true) (hp : (S.run {} es).pc = .idle)
    (hd : (S.run {} es).died = false) (hu : (S.run {} es).ub = false) :
    (S.run {} (es ++ [.recv m])).accepted = (S.run {} es).accepted ++ [m] ∧
    (S.run {} (es ++ [.recv m])).queue = (S.run {} es).queue ++ [m] ∧
    (S.run {} (es ++ [.recv m, .wake])).th ≠ .none := by
  have hx : (S.run {} es).exitAt = none := by
    have := (inv es).exit
    simp only [hp] at this
    simpa using this
  simp only [run_append]
  generalize S.run {} es = s at *
  refine ⟨by simp [S.run, S.step, hf, hp, hd, hu, hx], by simp [S.run, S.step, hf, hp, hd, hu, hx], ?_⟩
  simp only [S.run, S.step, hf, hp, hd, hu, hx, List.foldl]
  by_cases ht : s.th = .none <;> simp [ht, wakeTh_none]

example : (S.run {} (life.take 3)).following = true ∧ (S.run {} (life.take 3)).pc = .idle := by decide

end Bedrock.ReplQueue.Props
