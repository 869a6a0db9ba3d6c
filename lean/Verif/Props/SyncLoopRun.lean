import Verif.Props.SyncLoop

/-! The loop of the sync thread, the schema upgrade and the end of the workers (C97). -/

namespace Bedrock.SyncLoop.Props
open Bedrock.SyncLoop
open Bedrock.Node (NState)
open Bedrock.Ports (Shut)

/-- C97: there is never more than one upgrade command, from its creation to the end of the callback that tells the sync
thread how it went, in the queues, put aside or being run. -/
theorem c97_one_upgrade (es : List Ev) : ((pending (S.run {} es)).filter (·.upgrade)).length ≤ 1 := by
  rw [← List.countP_eq_length_filter, (inv es).up]
  split <;> omega

/-- What one step can do to the history of starts: nothing, except for the start itself. -/
theorem step_starts (s : S) (e : Ev) : (s.step e).starts = s.starts ∨
    (s.pc = .look2 ∧ s.running = false ∧ s.node = .leading ∧ e = .start true ∧ (s.step e).pc = .inline s.next ∧
      (s.step e).starts = s.starts ++ [{ node := s.node, majority := true, completed := s.completed }]) := by
  cases e with
  | start m =>
    simp only [S.step]
    by_cases hp : s.pc = .look2
    · rw [if_pos hp]
      unfold S.doStart
      split
      · exact Or.inl rfl
      · next hc =>
        simp only [not_or, Bool.not_eq_true, Bool.not_eq_false, Decidable.not_not] at hc
        refine Or.inr ⟨hp, hc.1, hc.2.1, by rw [hc.2.2], rfl, by rw [hc.2.2]⟩
    · rw [if_neg hp]
      exact Or.inl rfl
  | top due => left; simp only [S.step]; split <;> rfl
  | update to =>
    left
    simp only [S.step]
    split
    · unfold S.doUpdate; dsimp only; split <;> rfl
    · rfl
  | look => left; simp only [S.step]; split <;> rfl
  | test q =>
    left
    simp only [S.step]
    split
    · unfold S.doTest; split <;> rfl
    · rfl
  | close => left; simp only [S.step]; split <;> rfl
  | reset => left; simp only [S.step]; split <;> rfl
  | create => left; simp only [S.step]; split <;> rfl
  | put id q =>
    left
    simp only [S.step]
    split
    · rw [release_ite]; cases q <;> rfl
    · rfl
  | take id q =>
    left
    simp only [S.step]
    split
    · rfl
    · split
      · cases q <;> rfl
      · rfl
  | ready id =>
    left
    simp only [S.step]
    split
    · split <;> rfl
    · rfl
  | write id =>
    left
    simp only [S.step]
    split
    · split <;> rfl
    · rfl
  | finish id ok =>
    left
    simp only [S.step]
    split
    · unfold S.doFinish; dsimp only; split <;> rfl
    · rfl
  | clear id => left; simp only [S.step]; split <;> rfl
  | gone id =>
    left
    simp only [S.step]
    split
    · rw [release_ite]
    · rfl
  | shutdown later => left; simp only [S.step]; split <;> rfl
  | idle => left; simp only [S.step]; split <;> rfl

/-- C97: the upgrade is started only by a node that leads, with a majority of the full peers subscribed, and when no upgrade
command is under way. -/
theorem c97_start (es : List Ev) (e : Ev) (h : (S.run {} (es ++ [e])).starts ≠ (S.run {} es).starts) :
    (S.run {} es).node = .leading ∧ e = .start true ∧ (pending (S.run {} es)).filter (·.upgrade) = [] := by
  rw [run_append] at h
  have hi := inv es
  generalize S.run {} es = s at h hi
  have h : (s.step e).starts ≠ s.starts := h
  rcases step_starts s e with h1 | ⟨_, hr, hn, he, _⟩
  · exact absurd h1 h
  · refine ⟨hn, he, ?_⟩
    have := hi.up
    rw [hr, if_neg (by simp), List.countP_eq_length_filter] at this
    exact List.eq_nil_of_length_eq_zero this

/-- Once an upgrade has succeeded, that stays so until the server is attached again, and the sync thread does not come to the
second half of its test any more. -/
theorem step_completed (s : S) (e : Ev) (he : e ≠ .reset) (h : s.completed = true) :
    (s.step e).completed = true ∧ ((s.step e).pc = .look2 → s.pc = .look2) := by
  cases e with
  | reset => exact absurd rfl he
  | start m =>
    simp only [S.step]
    split
    · unfold S.doStart; split <;> exact ⟨h, by simp⟩
    · exact ⟨h, id⟩
  | top due =>
    simp only [S.step]
    split
    · exact ⟨h, by simp [S.doTop]⟩
    · exact ⟨h, id⟩
  | update to =>
    simp only [S.step]
    split
    · unfold S.doUpdate; dsimp only
      split <;> exact ⟨h, by split <;> simp⟩
    · exact ⟨h, id⟩
  | look =>
    simp only [S.step]
    split
    · exact ⟨h, by simp [h]⟩
    · exact ⟨h, id⟩
  | test q =>
    simp only [S.step]
    split
    · unfold S.doTest; split <;> exact ⟨h, by simp⟩
    · exact ⟨h, id⟩
  | close =>
    simp only [S.step]
    split
    · exact ⟨h, by simp⟩
    · exact ⟨h, id⟩
  | create => simp only [S.step]; split <;> exact ⟨h, id⟩
  | put id q =>
    simp only [S.step]
    split
    · rw [release_ite]
      cases q <;> refine ⟨h, ?_⟩ <;>
        show (if s.pc = .inline id then Pc.test else s.pc) = .look2 → s.pc = .look2 <;> split <;> simp
    · exact ⟨h, fun x => x⟩
  | take id q =>
    simp only [S.step]
    split
    · exact ⟨h, fun x => x⟩
    · split
      · cases q <;> exact ⟨h, fun x => x⟩
      · exact ⟨h, fun x => x⟩
  | ready id =>
    simp only [S.step]
    split
    · split <;> exact ⟨h, fun x => x⟩
    · exact ⟨h, fun x => x⟩
  | write id =>
    simp only [S.step]
    split
    · split <;> exact ⟨h, fun x => x⟩
    · exact ⟨h, fun x => x⟩
  | finish id ok =>
    simp only [S.step]
    split
    · unfold S.doFinish
      dsimp only
      split
      · exact ⟨by simp [h], fun x => x⟩
      · exact ⟨h, fun x => x⟩
    · exact ⟨h, fun x => x⟩
  | clear id => simp only [S.step]; split <;> exact ⟨h, fun x => x⟩
  | gone id =>
    simp only [S.step]
    split
    · rw [release_ite]
      refine ⟨h, ?_⟩
      show (if s.pc = .inline id then Pc.test else s.pc) = .look2 → s.pc = .look2
      split <;> simp
    · exact ⟨h, fun x => x⟩
  | shutdown later => simp only [S.step]; split <;> exact ⟨h, fun x => x⟩
  | idle => simp only [S.step]; split <;> exact ⟨h, fun x => x⟩

/-- C97: after an upgrade has succeeded no other is started until the server is attached again, unless the sync thread was
just between the two halves of its test. -/
theorem c97_no_more_partial (s : S) (es : List Ev) (h : s.completed = true) (hp : s.pc ≠ .look2) (hr : Ev.reset ∉ es) :
    (s.run es).starts = s.starts := by
  induction es generalizing s with
  | nil => rfl
  | cons e es ih =>
    simp only [List.mem_cons, not_or] at hr
    obtain ⟨h1, h2⟩ := step_completed s e (fun x => hr.1 x.symm) h
    have h3 : (s.step e).starts = s.starts := by
      rcases step_starts s e with h3 | h3
      · exact h3
      · exact absurd h3.1 hp
    have := ih (s.step e) h1 (fun x => hp (h2 x)) hr.2
    rw [← h3]
    exact this

/-- C97: and then it is one more at most. -/
theorem c97_one_more (s : S) (es : List Ev) (h : s.completed = true) (hr : Ev.reset ∉ es) :
    (s.run es).starts.length ≤ s.starts.length + 1 := by
  induction es generalizing s with
  | nil => exact Nat.le_succ _
  | cons e es ih =>
    simp only [List.mem_cons, not_or] at hr
    obtain ⟨h1, h2⟩ := step_completed s e (fun x => hr.1 x.symm) h
    rcases step_starts s e with h3 | h3
    · have := ih (s.step e) h1 hr.2
      rw [h3] at this
      exact this
    · have := c97_no_more_partial (s.step e) es h1 (by rw [h3.2.2.2.2.1]; simp) hr.2
      show ((s.step e).run es).starts.length ≤ _
      rw [this, h3.2.2.2.2.2]
      simp

/-- C97, limits: that does happen.  The sync thread reads "no upgrade has succeeded", then the upgrade that a worker was
running (it had gone into a queue) ends with success, and then the sync thread reads "none is running": it starts another. -/
theorem c97_upgraded_twice :
    let es := [.top [], .update .leading, .look, .start true, .put 0 .blocking, .test false, .take 0 .blocking,
      .top [], .update .leading, .look, .finish 0 true, .clear 0, .gone 0, .start true]
    (S.run {} es).starts = [⟨.leading, true, false⟩, ⟨.leading, true, true⟩] ∧ (S.run {} es).success = [0] := by
  decide +kernel

/-- C97: an upgrade that failed is tried again: as long as none has succeeded and none is under way, the next round of the
sync loop that finds the node leading and a majority subscribed starts one. -/
theorem c97_retried (s : S) (due : List Nat) (hp : s.pc = .top) (hc : s.completed = false) (hr : s.running = false) :
    (s.run [.top due, .update .leading, .look, .start true]).starts =
      s.starts ++ [{ node := .leading, majority := true, completed := false }] ∧
    (s.run [.top due, .update .leading, .look, .start true]).pc = .inline s.next := by
  have e1 : s.step (.top due) = s.doTop due := by simp only [S.step, if_pos hp]
  have e2 : (s.doTop due).step (.update .leading) = { s.doTop due with node := .leading, pc := .look } := by
    simp [S.step, S.doTop, S.doUpdate]
  have e3 : ({ s.doTop due with node := .leading, pc := .look } : S).step .look =
      { s.doTop due with node := .leading, pc := .look2 } := by
    simp [S.step, S.doTop, hc]
  show ((((s.step (.top due)).step (.update .leading)).step .look).step (.start true)).starts = _ ∧
    ((((s.step (.top due)).step (.update .leading)).step .look).step (.start true)).pc = _
  rw [e1, e2, e3]
  simp [S.step, S.doStart, S.doTop, hr, hc]

/-- C97: a node that leads or stands down is ready for commands only after one of its upgrades has succeeded since the server
was attached; one that follows always is, and in every other state it is not. -/
theorem c97_ready (es : List Ev) : (S.run {} es).dbReady = true ↔
    (S.run {} es).node = .following ∨
      (((S.run {} es).node = .leading ∨ (S.run {} es).node = .standingDown) ∧ (S.run {} es).success ≠ []) := by
  have := (inv es).succ
  generalize S.run {} es = s at this
  unfold S.dbReady
  cases s.node <;> simp [← this]

/-- C97: a command other than the upgrade writes only after an upgrade has succeeded, if the node was leading (or standing
down) when the readiness was asked for.  (In full: every write comes after an upgrade has succeeded.) -/
theorem c97_write_after_upgrade_partial (es : List Ev) (w : Write) (h : w ∈ (S.run {} es).writes) (hf : w.before ≠ .following) :
    w.completed = true := by
  rcases (inv es).wr w h with h | h
  · exact absurd h hf
  · exact h

/-- C97, limits: the state of the node is read twice before a command writes.  If it follows at the first and leads at the
second, the command writes before the upgrade. -/
theorem c97_write_before_upgrade :
    let es := [.top [], .update .following, .look, .start true, .create, .ready 0, .test false, .top [], .update .searching,
      .test false, .top [], .update .leading, .write 0]
    (S.run {} es).writes = [⟨.following, false⟩] ∧ (S.run {} es).starts = [] := by
  decide +kernel

/-- C97: at any moment every command there ever was is in exactly one place: in a queue, put aside, being run, in its
destructor, finished, or among the commands for later that were dropped when the shutdown began.  None is ever thrown away
with the queues. -/
theorem c97_conserved (es : List Ev) :
    let s := S.run {} es
    ((s.main ++ s.blocking ++ s.aside ++ s.hand ++ s.recorded ++ s.cleared ++ s.finished ++ s.abandoned).map (·.id)).Perm
      (List.range s.next) ∧ s.discarded = [] := by
  have h := inv es
  refine ⟨?_, h.disc⟩
  have := h.once
  unfold everything live pending at this
  rw [h.disc, List.append_nil] at this
  exact this

/-- C97: when the sync loop has ended there is no command left: all have been finished, but for those that were dropped when
the shutdown began.  In particular the upgrade command is gone, which refers to variables of that function. -/
theorem c97_ended (es : List Ev) (h : (S.run {} es).pc = .ended ∨ (S.run {} es).pc = .closed) :
    let s := S.run {} es
    ((s.finished ++ s.abandoned).map (·.id)).Perm (List.range s.next) ∧ s.count = 0 := by
  have hi := inv es
  generalize S.run {} es = s at h hi
  have hl := hi.none_left (hi.over.1 h)
  refine ⟨?_, count_zero.2 hl⟩
  have := hi.once
  unfold everything at this
  rw [hl, hi.disc, List.append_nil, List.nil_append] at this
  exact this

/-- C97: commands dropped when a shutdown begins are commands for later, and never the upgrade. -/
theorem c97_abandoned (s : S) (later : List Nat) (c : Cmd) (h : c ∈ (s.step (.shutdown later)).abandoned) (hn : c ∉ s.abandoned) :
    c.id ∈ later ∧ c.upgrade = false ∧ c ∈ s.main := by
  simp only [S.step] at h
  split at h
  · rcases List.mem_append.1 h with h | h
    · exact absurd h hn
    · rw [List.mem_filter] at h
      simp at h
      exact ⟨h.2.1, h.2.2, h.1⟩
  · exact absurd h hn

/-- C97: once the main thread has found the commands finished, the only command there can be is the upgrade. -/
theorem c97_only_upgrade_left (es : List Ev) (h : (S.run {} es).shut = .commandsFinished) :
    ∀ c ∈ live (S.run {} es), c.upgrade = true := (inv es).fin h

theorem release_kept (s : S) (id : Nat) : (s.release id).nodeStops = s.nodeStops ∧ (s.release id).shut = s.shut := by
  unfold S.release
  split <;> exact ⟨rfl, rfl⟩

/-- C97: the node is told to shut down only when the main thread has found the commands finished: it does not give up the
lead under commands that still have to be run. -/
theorem c97_node_stops_last (es : List Ev) (h : (S.run {} es).nodeStops = true) :
    (S.run {} es).shut = .commandsFinished ∨ (S.run {} es).shut = .done := by
  revert h
  refine run_ind (P := fun s => s.nodeStops = true → s.shut = .commandsFinished ∨ s.shut = .done) (by simp) ?_ es
  intro s e h
  cases e with
  | put id q =>
    simp only [S.step]
    split
    · rw [(release_kept _ id).1, (release_kept _ id).2]
      cases q <;> exact h
    · exact h
  | take id q =>
    simp only [S.step]
    split
    · exact h
    · split
      · cases q <;> exact h
      · exact h
  | top due =>
    simp only [S.step]
    split
    · simp only [S.doTop, Bool.or_eq_true, decide_eq_true_eq]
      rintro (h' | h')
      · exact h h'
      · exact .inl h'
    · exact h
  | _ =>
    simp only [S.step]
    (repeat' split) <;> simp_all [S.doUpdate, S.doStart, S.doTest, S.doFinish, S.release]
    all_goals (try ((repeat' split) <;> simp_all))

example : (S.run {} [.shutdown [], .idle, .top []]).nodeStops = true := by decide

/-- C97: a shutdown comes to its end: with the commands finished, the node in a state it can stop in and nothing left, the next
round of the loop is the last. -/
theorem c97_stops (es : List Ev) (h : (S.run {} es).pc = .top) (hs : (S.run {} es).shut = .commandsFinished)
    (hl : live (S.run {} es) = []) (to : NState) (hto : to = .searching ∨ to = .synchronizing ∨ to = .waiting) :
    (S.run {} (es ++ [.top [], .update to, .test true])).pc = .ended := by
  rw [run_append]
  generalize S.run {} es = s at h hs hl
  obtain ⟨h1, h2, h3, h4, h5, h6⟩ := live_nil hl
  have e1 : s.step (.top []) = s.doTop [] := by simp only [S.step, if_pos h]
  show (((s.step (.top [])).step (.update to)).step (.test true)).pc = .ended
  rw [e1]
  have e2 : ∃ t : S, (s.doTop []).step (.update to) = t ∧ t.nodeStops = true ∧ t.node = to ∧ t.pc = .test ∧ t.count = 0 := by
    refine ⟨_, rfl, ?_⟩
    simp only [S.step, S.doTop, h3, List.filter_nil, List.append_nil]
    unfold S.doUpdate
    rcases hto with rfl | rfl | rfl <;> dsimp only <;> split <;> simp [S.count, hs, h1, h2, h4, h5, h6]
  obtain ⟨t, e2, ha, hb, hc, hd⟩ := e2
  rw [e2]
  simp only [S.step, if_pos hc]
  unfold S.doTest
  rw [if_pos ⟨ha, by rw [hb]; rcases hto with rfl | rfl | rfl <;> decide, rfl, hd⟩]

/-- C97: a node that leaves the lead, or otherwise changes its state without leading, gives all commands of the blocking queue
back to the main queue, behind those there, in order. -/
theorem c97_gives_back (s : S) (pre to : NState) (hp : s.pc = .iter pre) (h1 : to ≠ .leading) (h2 : to ≠ pre) :
    (s.step (.update to)).main = s.main ++ s.blocking ∧ (s.step (.update to)).blocking = [] := by
  simp only [S.step, hp]
  unfold S.doUpdate
  rw [if_pos ⟨h1, h2⟩]
  exact ⟨rfl, rfl⟩

/-- C97: in a shutdown no command stays put aside beyond the next round of the loop. -/
theorem c97_aside (s : S) (due : List Nat) (hp : s.pc = .top) (hs : s.shut ≠ .running) :
    (s.step (.top due)).main = s.main ++ s.aside ∧ (s.step (.top due)).aside = [] := by
  simp only [S.step, if_pos hp]
  unfold S.doTop
  simp [hs]

/-- C97, limits: a shutdown waits for an upgrade command that was started meanwhile and went into a queue, however often the
loop goes round: until a worker is through with it (it may wait an hour for a node that leads). -/
theorem c97_shutdown_waits (n : Nat) :
    let s := S.run {} [.top [], .update .leading, .shutdown [], .idle, .look, .start true, .put 0 .blocking, .test true]
    s.shut = .commandsFinished ∧
      (s.run (List.replicate n [.top [], .update .searching, .test true]).flatten).pc = .top := by
  refine ⟨by decide +kernel, ?_⟩
  have key : ∀ (n : Nat) (s : S), s.pc = .top → 0 < s.main.length + s.blocking.length →
      (s.run (List.replicate n [.top [], .update .searching, .test true]).flatten).pc = .top := by
    intro n
    induction n with
    | zero => intro s h _; exact h
    | succ n ih =>
      intro s h hq
      rw [List.replicate_succ, List.flatten_cons, run_append]
      have e1 : s.step (.top []) = s.doTop [] := by simp only [S.step, if_pos h]
      have hu : ∀ t : S, t.pc = .iter s.node → 0 < t.main.length + t.blocking.length →
          ((t.step (.update .searching)).step (.test true)).pc = .top ∧
          0 < ((t.step (.update .searching)).step (.test true)).main.length +
            ((t.step (.update .searching)).step (.test true)).blocking.length := by
        intro t ht hq
        have : ∃ m b, m.length + b.length = t.main.length + t.blocking.length ∧
            t.step (.update .searching) = { t with main := m, blocking := b, node := .searching, pc := .test } := by
          simp only [S.step, ht]
          unfold S.doUpdate
          dsimp only
          split
          · exact ⟨t.main ++ t.blocking, [], by simp, by simp⟩
          · exact ⟨t.main, t.blocking, rfl, by simp⟩
        obtain ⟨m, b, hmb, e⟩ := this
        rw [e]
        simp only [S.step, if_true]
        unfold S.doTest
        rw [if_neg (by simp only [S.count]; omega)]
        exact ⟨rfl, by show 0 < m.length + b.length; omega⟩
      have hd := hu (s.doTop []) rfl (by simp [S.doTop]; omega)
      apply ih
      · show (((s.step (.top [])).step (.update .searching)).step (.test true)).pc = .top
        rw [e1]
        exact hd.1
      · show 0 < ((((s.step (.top [])).step (.update .searching)).step (.test true))).main.length +
          ((((s.step (.top [])).step (.update .searching)).step (.test true))).blocking.length
        rw [e1]
        exact hd.2
  exact key n _ (by decide +kernel) (by decide +kernel)

/-! ## Cases -/

/-- A life: commands come, the node leads, the first upgrade fails, the second succeeds, a command writes; the node stops leading
with a command in the blocking queue; a shutdown drops a command for later and ends; the server is attached again. -/
def life : List Ev :=
  [.create, .top [], .update .leading, .look, .ready 0, .start false, .test false,
   .top [], .update .leading, .look, .start true, .finish 1 false, .clear 1, .gone 1, .test true,
   .top [], .update .leading, .look, .start true, .finish 2 true, .clear 2, .gone 2, .ready 0, .write 0, .finish 0 true,
   .test true, .create, .create, .put 3 .blocking, .put 4 .main, .top [], .update .standingDown, .look, .test true,
   .shutdown [4], .take 3 .main, .finish 3 true, .idle, .top [], .update .searching, .test true]

example : (S.run {} life).pc = .ended ∧ (S.run {} life).finished = [⟨1, true⟩, ⟨2, true⟩, ⟨0, false⟩, ⟨3, false⟩] ∧
    (S.run {} life).abandoned = [⟨4, false⟩] ∧ (S.run {} life).starts = [⟨.leading, true, false⟩, ⟨.leading, true, false⟩] ∧
    (S.run {} life).writes = [⟨.leading, true⟩] := by decide +kernel

example : (S.run {} (life.take 19)).completed = false ∧ ((pending (S.run {} (life.take 19))).filter (·.upgrade)) = [⟨2, true⟩] := by
  decide +kernel

example : (S.run {} (life ++ [.close, .reset])).pc = .top ∧ (S.run {} (life ++ [.close, .reset])).dbReady = false := by
  decide +kernel

end Bedrock.SyncLoop.Props
