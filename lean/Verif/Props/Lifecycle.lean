import Verif.Model.Lifecycle

/-!
# C75: stopping, detaching and attaching a server
-/

namespace Bedrock.Lifecycle.Props
open Bedrock.Ports (Shut)

theorem run_append (s : S) (a b : List Ev) : s.run (a ++ b) = (s.run a).run b := List.foldl_append ..

theorem run_concat (s : S) (a : List Ev) (e : Ev) : s.run (a ++ [e]) = (s.run a).step e := by
  rw [run_append]; rfl

theorem run_ind {P : S → Prop} {s : S} (h0 : P s) (hs : ∀ s e, P s → P (s.step e)) (es : List Ev) : P (s.run es) := by
  induction es generalizing s with
  | nil => exact h0
  | cons e es ih => exact ih (hs s e h0)

/-- Case analysis over the step and the tests in it. -/
macro "steps" e:ident : tactic =>
  `(tactic| (cases $e:ident <;> simp only [S.step, S.beginShutdown] <;> (repeat' split)))

structure Inv (s : S) : Prop where
  plug : s.plugDet = true ↔ s.thread = .sleeping
  flag : s.thread = .sync → s.loopFlag = true
  shutEnd : s.thread = .ended ∨ s.thread = .exited → s.shut = .done
  shutSync : s.thread = .sync → s.shut ≠ .done

theorem inv_start (b : Bool) : Inv (start b) := by
  cases b <;> constructor <;> simp [start]

theorem inv_step (s : S) (e : Ev) (h : Inv s) : Inv (s.step e) := by
  obtain ⟨h1, h2, h3, h4⟩ := h
  obtain ⟨d, l, p, b, sh, t, th, m, a⟩ := s
  simp only at h1 h2 h3 h4
  steps e <;> constructor <;> simp_all

theorem inv (b : Bool) (es : List Ev) : Inv ((start b).run es) := run_ind (inv_start b) inv_step es

/-- C75.  A server that says it is detached has no node and no open database, whatever commands and
signals came in whatever order. -/
theorem c75_detached_means_closed (b : Bool) (es : List Ev) (h : ((start b).run es).isDetached = true) :
    ((start b).run es).thread = .sleeping := by
  refine (inv b es).plug.mp ?_
  simp only [S.isDetached, Bool.and_eq_true] at h
  exact h.2

theorem copying_step (s : S) (e : Ev) (hi : Inv s) (h : s.main = .copying → s.thread = .sleeping ∧ s.detach = true)
    (he : s.main = .copying → e ≠ .cmdAttachDone) :
    (s.step e).main = .copying → (s.step e).thread = .sleeping ∧ (s.step e).detach = true := by
  obtain ⟨h1, h2, h3, h4⟩ := hi
  obtain ⟨d, l, p, b, sh, t, th, m, a⟩ := s
  simp only at h1 h2 h3 h4
  steps e <;> simp_all [S.isDetached]

theorem copying_run (es : List Ev) (s : S) (hi : Inv s) (h : s.main = .copying → s.thread = .sleeping ∧ s.detach = true)
    (he : ∀ pre post, es = pre ++ .cmdAttachDone :: post → (s.run pre).main ≠ .copying) :
    (s.run es).main = .copying → (s.run es).thread = .sleeping := by
  induction es generalizing s with
  | nil => exact fun hm => (h hm).1
  | cons e es ih =>
    refine ih (s.step e) (inv_step s e hi) (copying_step s e hi h ?_) ?_
    · intro hm hc
      exact he [] es (by rw [hc]; rfl) hm
    · intro pre post hp
      exact he (e :: pre) post (by rw [hp]; rfl)

/-- C75, partial: while a backup copies the database file nobody has it open, as long as no `Attach`
is carried out during the copying (see `c75_attach_during_backup`). -/
theorem c75_copy_closed_partial (b : Bool) (es : List Ev)
    (h : ∀ pre post, es = pre ++ .cmdAttachDone :: post → ((start b).run pre).main ≠ .copying)
    (hc : ((start b).run es).main = .copying) : ((start b).run es).thread = .sleeping :=
  copying_run es (start b) (inv_start b) (by cases b <;> simp [start]) h hc

/-- The server runs, attached and not on its way out. -/
def Up (s : S) : Prop := s.thread = .sync ∧ s.shut = .running ∧ s.detach = false ∧ s.main = .polling ∧ s.att = 0

/-- C75.  A running server can be stopped: after the signal, once the clients are gone, the sync
thread ends and the main thread goes on to the end of the process. -/
theorem c75_stops (b : Bool) (es : List Ev) (h : Up ((start b).run es)) :
    let s := (start b).run (es ++ [.term, .poll, .commandsDone, .syncEnd, .wrapper, .check])
    s.thread = .exited ∧ s.main = .joining := by
  rw [run_append]
  generalize (start b).run es = s at h
  obtain ⟨d, l, p, b, sh, t, th, m, a⟩ := s
  obtain ⟨h1, h2, h3, h4, h5⟩ := h
  simp only at h1 h2 h3 h4 h5
  subst h1 h2 h3 h4 h5
  exact ⟨rfl, rfl⟩

/-- C75.  A running server can be detached and attached again, and then runs as before. -/
theorem c75_detach_attach (b : Bool) (es : List Ev) (h : Up ((start b).run es)) :
    ((start b).run (es ++ [.cmdDetach, .commandsDone, .syncEnd, .wrapper])).isDetached = true ∧
    Up ((start b).run (es ++ [.cmdDetach, .commandsDone, .syncEnd, .wrapper] ++ [.cmdAttach, .cmdAttachDone, .wake])) := by
  have hp : ((start b).run es).plugDet = false := by
    have := (inv b es).plug
    cases hq : ((start b).run es).plugDet with
    | false => rfl
    | true => rw [h.1] at this; exact absurd (this.mp hq) (by simp)
  rw [run_append, run_append, run_append]
  generalize (start b).run es = s at h hp
  obtain ⟨d, l, p, b, sh, t, th, m, a⟩ := s
  obtain ⟨h1, h2, h3, h4, h5⟩ := h
  simp only at h1 h2 h3 h4 h5 hp
  subst h1 h2 h3 h4 h5 hp
  exact ⟨rfl, rfl, rfl, rfl, rfl, rfl⟩

/-- C75.  `BeginBackup` on a running server: the database is copied while closed, and then the server
runs again. -/
theorem c75_backup (b : Bool) (es : List Ev) (h : Up ((start b).run es)) :
    ((start b).run (es ++ [.cmdBackup, .commandsDone, .syncEnd, .wrapper, .copy])).main = .copying ∧
    Up ((start b).run (es ++ [.cmdBackup, .commandsDone, .syncEnd, .wrapper, .copy] ++ [.copied, .wake])) := by
  rw [run_append, run_append, run_append]
  generalize (start b).run es = s at h
  obtain ⟨d, l, p, b, sh, t, th, m, a⟩ := s
  obtain ⟨h1, h2, h3, h4, h5⟩ := h
  simp only at h1 h2 h3 h4 h5
  subst h1 h2 h3 h4 h5
  exact ⟨rfl, rfl, rfl, rfl, rfl, rfl⟩

def Gone (s : S) : Prop := s.main = .joining → (s.thread = .ended ∨ s.thread = .exited) ∧ s.detach = false

theorem gone_step (s : S) (e : Ev) (hi : Inv s) (h : Gone s) (ht : s.term = true → s.detach = false ∧ s.thread ≠ .sleeping) :
    Gone (s.step e) := by
  unfold Gone at h ⊢
  obtain ⟨h1, h2, h3, h4⟩ := hi
  obtain ⟨d, l, p, b, sh, t, th, m, a⟩ := s
  simp only at h1 h2 h3 h4 ht
  cases th <;> steps e <;> simp_all [S.shutdownComplete]

theorem gone_run (es : List Ev) (s : S) (hi : Inv s) (h : Gone s)
    (ht : ∀ pre post, es = pre ++ post → (s.run pre).term = true → (s.run pre).detach = false ∧ (s.run pre).thread ≠ .sleeping) :
    Gone (s.run es) := by
  induction es generalizing s with
  | nil => exact h
  | cons e es ih =>
    refine ih (s.step e) (inv_step s e hi) (gone_step s e hi h (ht [] _ rfl)) ?_
    intro pre post hp
    exact ht (e :: pre) post (by rw [hp]; rfl)

/-- C75, partial: the process ends.  When the main thread waits for the sync thread, that one has left
`sync` and its next step is its last, as long as the server was not detached, detaching or about to be
attached when the signal came or later (see `c75_stop_while_detached`). -/
theorem c75_ends_partial (b : Bool) (es : List Ev)
    (ht : ∀ pre post, es = pre ++ post → ((start b).run pre).term = true →
      ((start b).run pre).detach = false ∧ ((start b).run pre).thread ≠ .sleeping)
    (hm : ((start b).run es).main = .joining) :
    ((start b).run (es ++ [.wrapper])).thread = .exited := by
  have := gone_run es (start b) (inv_start b) (by cases b <;> simp [start, Gone]) ht hm
  rw [run_concat]
  generalize (start b).run es = s at this
  obtain ⟨d, l, p, b, sh, t, th, m, a⟩ := s
  obtain ⟨h1, h2⟩ := this
  simp only at h1 h2
  subst h2
  rcases h1 with h1 | h1 <;> subst h1 <;> rfl

/-! ## Where the code does otherwise -/

def stuckJoin (s : S) : Prop := s.main = .joining ∧ s.thread = .sync ∧ (s.shut = .running ∨ s.shut = .startShutdown)

theorem stuckJoin_step (s : S) (e : Ev) (h : stuckJoin s) : stuckJoin (s.step e) := by
  obtain ⟨d, l, p, b, sh, t, th, m, a⟩ := s
  obtain ⟨h1, h2, h3⟩ := h
  simp only at h1 h2 h3
  subst h1 h2
  unfold stuckJoin
  rcases h3 with h3 | h3 <;> subst h3 <;> steps e <;> simp_all

/-- C75, negation: a detached server that gets SIGTERM attaches itself and never ends.  The main thread
takes the server for finished and waits for the sync thread, which has opened the database and joined
the cluster again; nothing that happens from then on ends either. -/
theorem c75_stop_while_detached (es : List Ev) :
    let s := (start false).run ([.cmdDetach, .commandsDone, .syncEnd, .wrapper, .term, .poll, .commandsDone, .check, .wake] ++ es)
    s.main = .joining ∧ s.thread = .sync := by
  intro s
  have : stuckJoin s := by
    show stuckJoin (S.run _ _)
    rw [run_append]
    exact run_ind (by unfold stuckJoin; decide +kernel) stuckJoin_step es
  exact ⟨this.1, this.2.1⟩

/-- C75, negation: so does one that gets it just after a backup. -/
theorem c75_stop_after_backup (es : List Ev) :
    let s := (start false).run ([.cmdBackup, .commandsDone, .syncEnd, .wrapper, .copy, .copied, .term, .check, .wake] ++ es)
    s.main = .joining ∧ s.thread = .sync := by
  intro s
  have : stuckJoin s := by
    show stuckJoin (S.run _ _)
    rw [run_append]
    exact run_ind (by unfold stuckJoin; decide +kernel) stuckJoin_step es
  exact ⟨this.1, this.2.1⟩

def wedged (s : S) : Prop :=
  s.main = .polling ∧ s.thread = .sleeping ∧ s.detach = true ∧ s.loopFlag = true ∧ s.att = 0 ∧
  (s.shut = .startShutdown ∨ s.shut = .commandsFinished)

theorem wedged_step (s : S) (e : Ev) (h : wedged s) : wedged (s.step e) := by
  obtain ⟨d, l, p, b, sh, t, th, m, a⟩ := s
  obtain ⟨h1, h2, h3, h4, h5, h6⟩ := h
  simp only at h1 h2 h3 h4 h5 h6
  subst h1 h2 h3 h4 h5
  unfold wedged
  rcases h6 with h6 | h6 <;> subst h6 <;> steps e <;> simp_all [S.isDetached, S.shutdownComplete]

/-- C75, negation: `Detach` right after an `Attach`, before the sync thread has woken up (it sleeps for a
second at a time), leaves a server that neither attaches nor stops, whatever is sent to it; it does not
even say it is detached. -/
theorem c75_detach_after_attach (es : List Ev) :
    let s := (start false).run ([.cmdDetach, .commandsDone, .syncEnd, .wrapper, .cmdAttach, .cmdAttachDone, .cmdDetach] ++ es)
    s.thread = .sleeping ∧ s.main = .polling ∧ s.isDetached = false := by
  intro s
  have : wedged s := by
    show wedged (S.run _ _)
    rw [run_append]
    exact run_ind (by unfold wedged; decide +kernel) wedged_step es
  exact ⟨this.2.1, this.1, by simp [S.isDetached, this.2.2.2.1]⟩

/-- C75, negation: so does `Detach` on a server started with `-bootstrap`. -/
theorem c75_detach_after_bootstrap (es : List Ev) :
    let s := (start true).run (.cmdDetach :: es)
    s.thread = .sleeping ∧ s.main = .polling ∧ s.isDetached = false := by
  intro s
  have : wedged s := by
    show wedged (((start true).step .cmdDetach).run es)
    exact run_ind (by unfold wedged; decide +kernel) wedged_step es
  exact ⟨this.2.1, this.1, by simp [S.isDetached, this.2.2.2.1]⟩

/-- C75, negation: an `Attach` during a backup opens the database that is being copied. -/
theorem c75_attach_during_backup :
    let s := (start false).run [.cmdBackup, .commandsDone, .syncEnd, .wrapper, .copy, .cmdAttach, .cmdAttachDone, .wake]
    s.main = .copying ∧ s.thread = .sync := by decide +kernel

/-! ## Cases -/

example : Up ((start true).run [.cmdAttach, .cmdAttachDone, .wake]) := by
  refine ⟨?_, ?_, ?_, ?_, ?_⟩ <;> decide +kernel

example : ((start false).run [.term, .poll, .commandsDone, .syncEnd, .check]).main = .joining ∧
    ((start false).run [.term, .poll, .commandsDone, .syncEnd, .check]).thread = .ended := by decide +kernel

example : ((start false).run [.cmdDetach, .commandsDone, .syncEnd, .wrapper]).isDetached = true := by decide +kernel

end Bedrock.Lifecycle.Props
