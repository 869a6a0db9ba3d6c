import Verif.Model.Waiting
import Verif.Lemmas.CmdQueue

/-!
# C72: commands that wait for a commit
-/

namespace Bedrock.Waiting.Props
open Bedrock.CmdQueue (insertBy takeFirst insertBy_perm insertBy_sorted takeFirst_some takeFirst_none
  SortedBy)

/-- Both maps are sorted, and the timeouts are those of the commands. -/
structure Inv (w : W) : Prop where
  cmds : SortedBy Cmd.commit w.cmds
  touts : SortedBy Prod.fst w.touts
  exact' : w.touts.Perm (w.cmds.map (fun c => (c.timeout, c.commit)))

theorem inv_empty : Inv {} := ⟨List.Pairwise.nil, List.Pairwise.nil, List.Perm.refl _⟩

theorem inv_setAside {w : W} (h : Inv w) (c : Cmd) : Inv (w.setAside c) := by
  refine ⟨insertBy_sorted _ _ _ h.cmds, insertBy_sorted _ _ _ h.touts, ?_⟩
  refine (insertBy_perm _ _ _).trans ?_
  refine List.Perm.trans ?_ ((insertBy_perm Cmd.commit c w.cmds).map _).symm
  exact h.exact'.cons _

/-- The first half of the sweep. -/
theorem expire_spec (now : Nat) (touts : List (Nat × Nat)) (cmds : List Cmd)
    (hi : Inv { cmds := cmds, touts := touts }) :
    Inv (expire now touts cmds).2 ∧
    ((expire now touts cmds).1 ++ (expire now touts cmds).2.cmds).Perm cmds ∧
    (∀ c ∈ (expire now touts cmds).1, c.timeout < now) ∧
    (∀ c ∈ (expire now touts cmds).2.cmds, now ≤ c.timeout) := by
  induction touts generalizing cmds with
  | nil =>
    have he : cmds = [] := by
      have := hi.exact'.length_eq
      simp only [List.length_nil, List.length_map] at this
      exact List.length_eq_zero_iff.mp this.symm
    subst he
    exact ⟨hi, List.Perm.refl _, by simp [expire], by simp [expire]⟩
  | cons e rest ih =>
    obtain ⟨t, k⟩ := e
    unfold expire
    by_cases ht : t < now
    · rw [if_pos ht]
      cases hf : takeFirst (fun c : Cmd => c.commit == k && c.timeout == t) cmds with
      | none =>
        exfalso
        have hm : (t, k) ∈ cmds.map (fun c => (c.timeout, c.commit)) :=
          hi.exact'.mem_iff.mp (List.mem_cons_self)
        obtain ⟨c, hc, he⟩ := List.mem_map.mp hm
        have := takeFirst_none hf c hc
        simp only [Prod.mk.injEq] at he
        simp [he.1, he.2] at this
      | some r =>
        obtain ⟨c, cmds'⟩ := r
        obtain ⟨hp, hperm, hsub⟩ := takeFirst_some hf
        have hi' : Inv { cmds := cmds', touts := rest } := by
          refine ⟨hi.cmds.sublist hsub, (List.pairwise_cons.mp hi.touts).2, ?_⟩
          have h1 := hi.exact'.trans (hperm.map (fun c => (c.timeout, c.commit)))
          simp only [Bool.and_eq_true, beq_iff_eq] at hp
          simp only [List.map_cons, hp.1, hp.2] at h1
          exact h1.cons_inv
        obtain ⟨h1, h2, h3, h4⟩ := ih cmds' hi'
        refine ⟨h1, ?_, ?_, h4⟩
        · exact (h2.cons c).trans hperm.symm
        · intro x hx
          rcases List.mem_cons.mp hx with rfl | hx
          · simp only [Bool.and_eq_true, beq_iff_eq] at hp; omega
          · exact h3 x hx
    · rw [if_neg ht]
      refine ⟨hi, List.Perm.refl _, by simp, ?_⟩
      intro c hc
      have hm : (c.timeout, c.commit) ∈ (t, k) :: rest :=
        hi.exact'.mem_iff.mpr (List.mem_map.mpr ⟨c, hc, rfl⟩)
      rcases List.mem_cons.mp hm with e | hm
      · injection e with e1 e2; omega
      · have := (List.pairwise_cons.mp hi.touts).1 _ hm
        simp only at this
        omega

/-- The second half of the sweep. -/
theorem release_spec (count : Nat) (stopping : Bool) (cmds : List Cmd) (touts : List (Nat × Nat))
    (hi : Inv { cmds := cmds, touts := touts }) :
    Inv (release count stopping cmds touts).2 ∧
    (release count stopping cmds touts).1 ++ (release count stopping cmds touts).2.cmds = cmds ∧
    (∀ c ∈ (release count stopping cmds touts).1, c.commit ≤ count ∨ stopping = true) ∧
    (∀ c ∈ (release count stopping cmds touts).2.cmds, count < c.commit ∧ stopping = false) := by
  induction cmds generalizing touts with
  | nil => exact ⟨hi, rfl, by simp [release], by simp [release]⟩
  | cons c rest ih =>
    unfold release
    by_cases hc : (decide (c.commit ≤ count) || stopping) = true
    · rw [if_pos hc]
      cases hf : takeFirst (fun e => e == (c.timeout, c.commit)) touts with
      | none =>
        exfalso
        have hm : (c.timeout, c.commit) ∈ touts := hi.exact'.mem_iff.mpr (by simp)
        have := takeFirst_none hf _ hm
        simp at this
      | some r =>
        obtain ⟨e, touts'⟩ := r
        obtain ⟨hp, hperm, hsub⟩ := takeFirst_some hf
        have hi' : Inv { cmds := rest, touts := touts' } := by
          refine ⟨(List.pairwise_cons.mp hi.cmds).2, hi.touts.sublist hsub, ?_⟩
          have h1 := hperm.symm.trans hi.exact'
          simp only [beq_iff_eq] at hp
          simp only [List.map_cons, hp] at h1
          exact h1.cons_inv
        obtain ⟨h1, h2, h3, h4⟩ := ih touts' hi'
        refine ⟨h1, by simpa using h2, ?_, h4⟩
        intro x hx
        rcases List.mem_cons.mp hx with rfl | hx
        · simpa using hc
        · exact h3 x hx
    · rw [if_neg hc]
      simp only [Bool.or_eq_true, decide_eq_true_eq, not_or, Bool.not_eq_true] at hc
      refine ⟨hi, rfl, by simp, ?_⟩
      intro x hx
      refine ⟨?_, hc.2⟩
      rcases List.mem_cons.mp hx with rfl | hx
      · omega
      · have := (List.pairwise_cons.mp hi.cmds).1 x hx; omega

theorem inv_sweep {w : W} (h : Inv w) (now count : Nat) (stopping : Bool) :
    Inv (w.sweep now count stopping).2 := by
  have h1 := (expire_spec now w.touts w.cmds h).1
  exact (release_spec count stopping _ _ h1).1

theorem inv_run (s : St) (es : List Ev) (h : Inv s.w) : Inv (s.run es).w := by
  induction es generalizing s with
  | nil => exact h
  | cons e es ih =>
    apply ih
    cases e with
    | setAside c => exact inv_setAside h c
    | sweep now count stopping => exact inv_sweep h now count stopping

/-- The commands workers have set aside in a history. -/
def aside : List Ev → List Cmd
  | [] => []
  | .setAside c :: es => c :: aside es
  | _ :: es => aside es

theorem run_perm (s : St) (es : List Ev) (h : Inv s.w) :
    ((s.run es).back ++ (s.run es).w.cmds).Perm (s.back ++ s.w.cmds ++ aside es) := by
  induction es generalizing s with
  | nil => simp [St.run, aside]
  | cons e es ih =>
    cases e with
    | setAside c =>
      refine (ih (s.step (.setAside c)) (inv_setAside h c)).trans ?_
      simp only [St.step, W.setAside, aside]
      rw [List.append_assoc, List.append_assoc]
      refine List.Perm.append_left _ ?_
      refine ((insertBy_perm Cmd.commit c s.w.cmds).append_right _).trans ?_
      exact List.perm_middle.symm
    | sweep now count stopping =>
      refine (ih (s.step (.sweep now count stopping)) (inv_sweep h now count stopping)).trans ?_
      simp only [St.step, aside]
      refine List.Perm.append_right _ ?_
      rw [List.append_assoc]
      refine List.Perm.append_left _ ?_
      obtain ⟨h1, h2, -, -⟩ := expire_spec now s.w.touts s.w.cmds h
      have h4 := (release_spec count stopping _ _ h1).2.1
      simp only [W.sweep, List.append_assoc]
      rw [h4]
      exact h2

/-! ## The properties -/

/-- C72.  No command is lost and none is handed back twice: at any point of any history, the commands
handed back together with those still waiting are exactly those set aside. -/
theorem c72_none_lost_none_twice (es : List Ev) :
    (((St.run {} es).back ++ (St.run {} es).w.cmds).Perm (aside es)) := by
  have := run_perm {} es inv_empty
  simpa using this

/-- C72.  After any history, a sweep hands back every waiting command whose commit is there, whose
deadline has passed, or every one if the server is stopping; the ones that go on waiting are exactly
the others. -/
theorem c72_sweep (es : List Ev) (now count : Nat) (stopping : Bool) (c : Cmd) :
    c ∈ ((St.run {} es).w.sweep now count stopping).2.cmds ↔
      c ∈ (St.run {} es).w.cmds ∧ count < c.commit ∧ now ≤ c.timeout ∧ stopping = false := by
  have hi := inv_run {} es inv_empty
  generalize (St.run {} es).w = w at hi ⊢
  obtain ⟨h1, h2, h3, h4⟩ := expire_spec now w.touts w.cmds hi
  obtain ⟨-, g2, g3, g4⟩ := release_spec count stopping _ _ h1
  constructor
  · intro hc
    have hc' : c ∈ (expire now w.touts w.cmds).2.cmds := by
      rw [← g2]; exact List.mem_append_right _ hc
    have hg := g4 c hc
    exact ⟨h2.mem_iff.mp (List.mem_append_right _ hc'), hg.1, h4 c hc', hg.2⟩
  · rintro ⟨hc, hcount, hnow, hs⟩
    rcases List.mem_append.mp (h2.mem_iff.mpr hc) with hx | hx
    · have := h3 c hx; omega
    · rw [← g2] at hx
      rcases List.mem_append.mp hx with hx | hx
      · rcases g3 c hx with h | h
        · omega
        · rw [hs] at h; cases h
      · exact hx

/-- C72.  A command is handed back only for a reason: its commit is there, its deadline has passed or
the server is stopping. -/
theorem c72_not_early (es : List Ev) (now count : Nat) (stopping : Bool) (c : Cmd)
    (h : c ∈ ((St.run {} es).w.sweep now count stopping).1) :
    c.commit ≤ count ∨ c.timeout < now ∨ stopping = true := by
  have hi := inv_run {} es inv_empty
  generalize (St.run {} es).w = w at hi h
  obtain ⟨h1, -, h3, -⟩ := expire_spec now w.touts w.cmds hi
  obtain ⟨-, -, g3, -⟩ := release_spec count stopping _ _ h1
  rcases List.mem_append.mp h with h | h
  · exact .inr (.inl (h3 c h))
  · rcases g3 c h with h | h
    · exact .inl h
    · exact .inr (.inr h)

/-- C72.  Commands released because their commits arrived go back in the order of their commits, so a
command that needs an older state is not queued behind one that needs a newer state. -/
theorem c72_in_commit_order (es : List Ev) (now count : Nat) (stopping : Bool) :
    (((St.run {} es).w.sweep now count stopping).1.filter (fun c => now ≤ c.timeout)).Pairwise
      (fun a b => a.commit ≤ b.commit) := by
  have hi := inv_run {} es inv_empty
  generalize (St.run {} es).w = w at hi ⊢
  obtain ⟨h1, -, h3, -⟩ := expire_spec now w.touts w.cmds hi
  have he : (expire now w.touts w.cmds).1.filter (fun c => decide (now ≤ c.timeout)) = [] := by
    rw [List.filter_eq_nil_iff]
    intro c hc
    have := h3 c hc
    simp only [decide_eq_true_eq]
    omega
  obtain ⟨-, g2, -, -⟩ := release_spec count stopping _ _ h1
  have q := List.sublist_append_left
    (release count stopping (expire now w.touts w.cmds).2.cmds (expire now w.touts w.cmds).2.touts).1
    (release count stopping (expire now w.touts w.cmds).2.cmds (expire now w.touts w.cmds).2.touts).2.cmds
  rw [g2] at q
  simp only [W.sweep, List.filter_append, he, List.nil_append]
  exact List.Pairwise.sublist (List.filter_sublist.trans q) h1.cmds

/-- C72.  A command runs only on a node that has the commit it asks for. -/
theorem c72_never_behind (now count commit timeout : Nat) (h : intake now count commit timeout = .run) :
    commit ≤ count := by
  unfold intake mustWait at h
  split at h
  · cases h
  · split at h
    · cases h
    · rename_i h1; simp at h1; exact h1

/-- C72.  No bouncing: a command that a sweep has handed back, with the server not stopping, is not set aside again by
the worker that takes it later — it runs if its commit was there, and is answered with a timeout if its deadline had
passed. -/
theorem c72_no_bounce (es : List Ev) (now count : Nat) (c : Cmd)
    (h : c ∈ ((St.run {} es).w.sweep now count false).1) (later count' : Nat) (ht : now ≤ later) (hc : count ≤ count') :
    intake later count' c.commit c.timeout = .timedOut ∨
      intake later count' c.commit c.timeout = .run ∧ c.commit ≤ count' := by
  unfold intake mustWait
  rcases c72_not_early es now count false c h with h | h | h
  · by_cases h1 : c.timeout ≤ later
    · rw [if_pos h1]; exact .inl rfl
    · rw [if_neg h1, if_neg (by simp; omega)]; exact .inr ⟨rfl, by omega⟩
  · rw [if_pos (by omega)]; exact .inl rfl
  · cases h

/-- C72.  A command that does not ask for more than the node has is not delayed. -/
theorem c72_not_delayed (now count commit timeout : Nat) (hc : commit ≤ count) (ht : now < timeout) :
    intake now count commit timeout = .run := by
  unfold intake mustWait
  rw [if_neg (by omega), if_neg (by simp; omega)]

example : intake 100 10 11 500 = .aside ∧ intake 100 11 11 500 = .run ∧ intake 500 9 11 500 = .timedOut := by decide

/-- Three commands wait; one times out, one gets its commit, one goes on waiting, then the server
stops. -/
def exEvs : List Ev :=
  [.setAside ⟨12, 500, 1⟩, .setAside ⟨11, 900, 2⟩, .setAside ⟨12, 400, 3⟩, .sweep 450 11 false]

example : (St.run {} exEvs) =
    { back := [⟨12, 400, 3⟩, ⟨11, 900, 2⟩], w := { cmds := [⟨12, 500, 1⟩], touts := [(500, 12)] } } := by
  decide

example : (St.run {} (exEvs ++ [.sweep 460 11 true])).back.map Cmd.id = [3, 2, 1] := by decide

/-- A command whose deadline is this very microsecond goes on waiting: the comparison is strict. -/
example : (St.run {} [.setAside ⟨12, 500, 1⟩, .sweep 500 11 false]).back = [] := by decide

end Bedrock.Waiting.Props
