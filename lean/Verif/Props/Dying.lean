import Verif.Model.Dying
import Verif.Props.Crash

/-!
# C129: what a thread that dies tells the others
-/

namespace Bedrock.Dying.Props
open Bedrock.Text Bedrock.Http Bedrock.Crash Bedrock.Dying

theorem snoc_induction {α : Type} {P : List α → Prop} (h0 : P [])
    (hs : ∀ l x, P l → P (l ++ [x])) (l : List α) : P l := by
  have : ∀ r : List α, P r.reverse := by
    intro r
    induction r with
    | nil => exact h0
    | cons x r ih => rw [List.reverse_cons]; exact hs _ _ ih
  have h := this l.reverse
  rwa [List.reverse_reverse] at h

theorem run_snoc (p : List I) (i : I) : Th.run (p ++ [i]) = (Th.run p).step i := by
  simp [Th.run, List.foldl_append]

/-- A step inside a call of `runCommand` that leaves it its command. -/
def Keeps (i : I) : Prop := i ≠ .ret ∧ i ≠ .give ∧ ∀ c, i ≠ .call c

/-- A step that does not replace the die function by a text. -/
def Silent (i : I) : Prop := i ≠ .init ∧ ∀ t, i ≠ .say t

/-- After the steps `p`, the thread is running command `c`: it was given to `runCommand`, which has not
returned and has not moved the command on, and the die function was set for it. -/
def Running (p : List I) (c : Cmd) : Prop :=
  ∃ a b₁ b₂, p = a ++ .call c :: (b₁ ++ .arm :: b₂) ∧ (∀ i ∈ b₁, Keeps i) ∧ ∀ i ∈ b₂, Keeps i ∧ Silent i

/-- After the steps `p`, a call of `runCommand` has the command `c`. -/
def Holds (p : List I) (c : Cmd) (n : Nat) : Prop :=
  ∃ a b, p = a ++ .call c :: b ∧ (∀ i ∈ b, Keeps i) ∧ (Th.run a).calls = n

structure Inv (p : List I) : Prop where
  below : ∀ n, (Th.run p).die = .command n → n < (Th.run p).calls
  frame : ∀ n o, (Th.run p).frame = some (n, o) → (Th.run p).calls = n + 1
  holds : ∀ n c, (Th.run p).frame = some (n, some c) → Holds p c n
  armed : ∀ n c, (Th.run p).frame = some (n, some c) → (Th.run p).die = .command n → Running p c

theorem keeps_snoc {b : List I} {i : I} (h : ∀ j ∈ b, Keeps j) (hi : Keeps i) : ∀ j ∈ b ++ [i], Keeps j := by
  intro j hj
  rcases List.mem_append.mp hj with hj | hj
  · exact h j hj
  · rw [List.mem_singleton] at hj; exact hj ▸ hi

theorem holds_snoc {p : List I} {c : Cmd} {n : Nat} {i : I} (h : Holds p c n) (hi : Keeps i) :
    Holds (p ++ [i]) c n := by
  obtain ⟨a, b, rfl, hb, hn⟩ := h
  exact ⟨a, b ++ [i], by simp, keeps_snoc hb hi, hn⟩

theorem running_snoc {p : List I} {c : Cmd} {i : I} (h : Running p c) (hi : Keeps i) (hs : Silent i) :
    Running (p ++ [i]) c := by
  obtain ⟨a, b₁, b₂, rfl, h1, h2⟩ := h
  refine ⟨a, b₁, b₂ ++ [i], by simp, h1, ?_⟩
  intro j hj
  rcases List.mem_append.mp hj with hj | hj
  · exact h2 j hj
  · rw [List.mem_singleton] at hj; exact hj ▸ ⟨hi, hs⟩

theorem inv (p : List I) : Inv p := by
  refine snoc_induction (P := Inv) ?_ ?_ p
  · exact ⟨(by intro n h; cases h), (by intro n o h; cases h), (by intro n c h; cases h), (by intro n c h; cases h)⟩
  · intro p i ih
    cases i with
    | init =>
      have hk : Keeps .init := ⟨by simp, by simp, by simp⟩
      refine ⟨?_, ?_, ?_, ?_⟩ <;> rw [run_snoc]
      · intro n h; cases h
      · exact ih.frame
      · intro n c h; exact holds_snoc (ih.holds n c h) hk
      · intro n c _ h; cases h
    | say t =>
      have hk : Keeps (.say t) := ⟨by simp, by simp, by simp⟩
      refine ⟨?_, ?_, ?_, ?_⟩ <;> rw [run_snoc]
      · intro n h; cases h
      · exact ih.frame
      · intro n c h; exact holds_snoc (ih.holds n c h) hk
      · intro n c _ h; cases h
    | build x =>
      have hk : Keeps (.build x) := ⟨by simp, by simp, by simp⟩
      refine ⟨?_, ?_, ?_, ?_⟩ <;> rw [run_snoc]
      · exact ih.below
      · exact ih.frame
      · intro n c h; exact holds_snoc (ih.holds n c h) hk
      · intro n c h1 h2; exact running_snoc (ih.armed n c h1 h2) hk ⟨by simp, by simp⟩
    | call x =>
      refine ⟨?_, ?_, ?_, ?_⟩ <;> rw [run_snoc]
      · intro n h; exact Nat.lt_succ_of_lt (ih.below n h)
      · intro n o h
        simp only [Th.step, Option.some.injEq, Prod.mk.injEq] at h ⊢
        omega
      · intro n c h
        simp only [Th.step, Option.some.injEq, Prod.mk.injEq] at h
        obtain ⟨h1, h2⟩ := h
        subst h2
        exact ⟨p, [], rfl, by simp, h1⟩
      · intro n c h hd
        simp only [Th.step, Option.some.injEq, Prod.mk.injEq] at h hd
        have := ih.below n hd
        omega
    | arm =>
      have hk : Keeps .arm := ⟨by simp, by simp, by simp⟩
      refine ⟨?_, ?_, ?_, ?_⟩ <;> rw [run_snoc] <;> unfold Th.step <;> dsimp only <;>
        (cases hf : (Th.run p).frame with
          | none => ?_
          | some f => ?_)
      · exact ih.below
      · intro n h
        have := ih.frame f.1 f.2 (by rw [hf])
        simp only [Die.command.injEq] at h ⊢
        omega
      · dsimp only; rw [hf]; intro n o h; cases h
      · dsimp only; intro n o h; exact ih.frame n o (hf.trans h)
      · dsimp only; rw [hf]; intro n c h; cases h
      · dsimp only; intro n c h; exact holds_snoc (ih.holds n c (hf.trans h)) hk
      · dsimp only; rw [hf]; intro n c h; cases h
      · dsimp only; intro n c h _
        obtain ⟨a, b, rfl, hb, _⟩ := ih.holds n c (hf.trans h)
        exact ⟨a, b, [], by simp, hb, by simp⟩
    | give =>
      refine ⟨?_, ?_, ?_, ?_⟩ <;> rw [run_snoc] <;> unfold Th.step <;> dsimp only <;>
        (cases hf : (Th.run p).frame with
          | none => ?_
          | some f => ?_)
      · exact ih.below
      · exact ih.below
      · dsimp only; rw [hf]; intro n o h; cases h
      · intro n o h
        simp only [Option.some.injEq, Prod.mk.injEq] at h
        have := ih.frame f.1 f.2 (by rw [hf])
        dsimp only; omega
      · dsimp only; rw [hf]; intro n c h; cases h
      · intro n c h; simp at h
      · dsimp only; rw [hf]; intro n c h; cases h
      · intro n c h; simp at h
    | ret =>
      refine ⟨?_, ?_, ?_, ?_⟩ <;> rw [run_snoc]
      · exact ih.below
      · intro n o h; cases h
      · intro n c h; cases h
      · intro n c h; cases h

theorem keeps_frame (b : List I) (h : ∀ i ∈ b, Keeps i) (t : Th) (n : Nat) (c : Cmd)
    (hf : t.frame = some (n, some c)) : (b.foldl Th.step t).frame = some (n, some c) := by
  induction b generalizing t with
  | nil => exact hf
  | cons i b ih =>
    refine ih (fun j hj => h j (List.mem_cons_of_mem _ hj)) _ ?_
    have hk := h i List.mem_cons_self
    cases i with
    | ret => exact absurd rfl hk.1
    | give => exact absurd rfl hk.2.1
    | call x => exact absurd rfl (hk.2.2 x)
    | arm => simp only [Th.step, hf]
    | _ => exact hf

theorem silent_die (b : List I) (h : ∀ i ∈ b, Keeps i ∧ Silent i) (t : Th) (n : Nat) (c : Cmd)
    (hf : t.frame = some (n, some c)) (hd : t.die = .command n) :
    (b.foldl Th.step t).die = .command n := by
  induction b generalizing t with
  | nil => exact hd
  | cons i b ih =>
    have hk := h i List.mem_cons_self
    have hf' := keeps_frame [i] (by simpa using hk.1) t n c hf
    refine ih (fun j hj => h j (List.mem_cons_of_mem _ hj)) _ hf' ?_
    cases i with
    | init => exact absurd rfl hk.2.1
    | say x => exact absurd rfl (hk.2.2 x)
    | ret => exact absurd rfl hk.1.1
    | give => exact absurd rfl hk.1.2.1
    | call x => exact absurd rfl (hk.1.2.2 x)
    | arm => simp only [Th.step, hf]
    | build x => exact hd

theorem arm_die {t : Th} {n : Nat} {o : Option Cmd} (h : t.frame = some (n, o)) :
    (t.step .arm).die = .command n := by
  simp only [Th.step, h]

theorem running_state {p : List I} {c : Cmd} (h : Running p c) :
    ∃ n, (Th.run p).frame = some (n, some c) ∧ (Th.run p).die = .command n := by
  obtain ⟨a, b₁, b₂, rfl, h1, h2⟩ := h
  refine ⟨(Th.run a).calls, ?_, ?_⟩
  · rw [Th.run, List.foldl_append]
    refine keeps_frame (b₁ ++ .arm :: b₂) ?_ _ _ _ rfl
    intro i hi
    rcases List.mem_append.mp hi with hi | hi
    · exact h1 i hi
    · rcases List.mem_cons.mp hi with hi | hi
      · subst hi; exact ⟨by simp, by simp, by simp⟩
      · exact (h2 i hi).1
  · rw [Th.run, List.foldl_append, List.foldl_cons, List.foldl_append, List.foldl_cons]
    have hf := keeps_frame b₁ h1 ((Th.run a).step (.call c)) (Th.run a).calls c rfl
    have hf2 := keeps_frame [.arm] (by simp [Keeps]) _ _ _ hf
    refine silent_die b₂ h2 _ _ c hf2 ?_
    exact arm_die hf

/-! ## The report -/

/-- C129.  A thread that dies while it runs a command tells the other nodes which, names the command in
the log, and cuts the connections. -/
theorem c129_reports_partial (gz : Bytes → Bytes) (e : Env) (p : List I) (c : Cmd) (h : Running p c)
    (hm : e.messenger = true) (hn : e.node = .alive) (m : Msg) (hc : crashMessage gz c.req c.keys = some m) :
    crash gz e (Th.run p) =
      ⟨some m, some (b!"CRASHING from BedrockServer::runCommand, command:" ++ c.req.methodLine), true⟩ := by
  obtain ⟨n, h1, h2⟩ := running_state h
  simp [crash, h1, h2, hm, hc, after, hn, crashLine]

/-- C129.  Nothing else is ever reported: a report is that of the command the thread is running.
Whatever the thread did before. -/
theorem c129_only_running (gz : Bytes → Bytes) (e : Env) (p : List I) (m : Msg)
    (h : (crash gz e (Th.run p)).report = some m) :
    ∃ c, Running p c ∧ crashMessage gz c.req c.keys = some m := by
  unfold crash at h
  split at h
  · cases h
  · cases h
  · cases h
  · rename_i n hd
    split at h
    · rename_i k c hf
      split at h
      · rename_i hk
        split at h
        · rename_i r hr
          injection h with h
          subst h
          exact ⟨c, (inv p).armed n c (hk.1 ▸ hf) hd, hr⟩
        · cases h
      · cases h
    · cases h

/-- A thread has only one command at a time. -/
theorem running_unique {p : List I} {c c' : Cmd} (h : Running p c) (h' : Running p c') : c = c' := by
  obtain ⟨n, h1, _⟩ := running_state h
  obtain ⟨n', h2, _⟩ := running_state h'
  rw [h1] at h2
  simp only [Option.some.injEq, Prod.mk.injEq] at h2
  exact h2.2

/-! ## The threads of the server -/

theorem worker_append (os os' : List (Option Run)) :
    workerSteps (os ++ os') = workerSteps os ++ (os'.flatMap fun o => .say sEarly :: (o.elim [] Run.steps)) := by
  simp [workerSteps]

/-- C129.  Every command a worker runs is one whose crash is reported, from the moment the die function is
set, whatever the worker ran before; and that moment comes before anything of the command is run. -/
theorem c129_worker_arms (os : List (Option Run)) (r : Run) (os' : List (Option Run)) (he : r.expired = false) :
    Running (workerSteps os ++ [.say sEarly, .call r.cmd, .arm]) r.cmd ∧
    (workerSteps os ++ [.say sEarly, .call r.cmd, .arm]) <+: workerSteps (os ++ some r :: os') := by
  refine ⟨⟨workerSteps os ++ [.say sEarly], [], [], by simp, by simp, by simp⟩, ?_⟩
  rw [worker_append]
  refine List.prefix_append_right_inj _ |>.mpr ?_
  simp [Run.steps, he]

/-- The same for the thread of one command. -/
theorem c129_command_thread_arms (r : Run) (he : r.expired = false) :
    Running [.init, .call r.cmd, .arm] r.cmd ∧ [.init, .call r.cmd, .arm] <+: cmdSteps r := by
  refine ⟨⟨[.init], [], [], rfl, by simp, by simp⟩, ?_⟩
  simp [cmdSteps, Run.steps, he]

/-- C129.  A worker that dies while it waits for a command says so, reports nothing and cuts the
connections, whatever it ran before. -/
theorem c129_waiting (gz : Bytes → Bytes) (e : Env) (os : List (Option Run)) (hn : e.node = .alive) :
    crash gz e (Th.run (workerSteps os ++ [.say sEarly])) =
      ⟨none, some (b!"Die function called early with no command, probably died in `commandQueue.get`."), true⟩ := by
  rw [run_snoc]
  simp [Th.step, crash, after, hn, sEarly]

/-- C129.  So with the sync thread, and it blames no command. -/
theorem c129_sync_thread (gz : Bytes → Bytes) (e : Env) (p : List I) (hp : p <+: syncSteps) :
    (crash gz e (Th.run p)).report = none ∧
      (p ≠ [] → e.node = .alive → (crash gz e (Th.run p)).cut = true) := by
  have : p = [] ∨ p = [.init] ∨ p = [.init, .say sSync] ∨ p = [.init, .say sSync, .say sDown] := by
    obtain ⟨q, hq⟩ := hp
    unfold syncSteps at hq
    match p, hq with
    | [], _ => exact .inl rfl
    | [_], hq => injection hq with h1 _; exact .inr (.inl (by rw [h1]))
    | [_, _], hq =>
      injection hq with h1 h2; injection h2 with h2 _
      exact .inr (.inr (.inl (by rw [h1, h2])))
    | [_, _, _], hq =>
      injection hq with h1 h2; injection h2 with h2 h3; injection h3 with h3 _
      exact .inr (.inr (.inr (by rw [h1, h2, h3])))
    | _ :: _ :: _ :: _ :: _, hq => simp at hq
  rcases this with rfl | rfl | rfl | rfl <;>
    simp +contextual [Th.run, Th.step, crash, after, Outcome.gone]

/-- C129.  The other nodes then refuse the command that killed this one, whatever they heard before and
hear later (with C69). -/
theorem c129_refused_elsewhere_partial (gz : Bytes → Bytes) (e : Env) (p : List I) (c : Cmd) (h : Running p c)
    (hm : e.messenger = true) (hn : e.node = .alive) (hg : Crash.Props.GoodReport c.req c.keys)
    (hs : ∀ m, crashMessage gz c.req c.keys = some m → m.content.length < 2 ^ 31) :
    ∃ m a, (crash gz e (Th.run p)).report = some m ∧ transport gz m = some a ∧
      ∀ (before later : List Crash.Ev), Crash.Ev.clear ∉ later →
        ∀ r : Msg, r.methodLine = c.req.methodLine → Crash.Props.Same c.req c.keys r →
          wouldCrash (Bl.run [] (before ++ Crash.Ev.report a.content :: later)) r = true := by
  have hc := Crash.Props.crashMessage_eq gz hg
  obtain ⟨a, ha, _⟩ := Crash.Props.c69_report_arrives gz c.req c.keys hg _ hc (hs _ hc)
  have ha' := ha
  obtain ⟨m, hm1, _, hm3⟩ := ha
  refine ⟨m, a, ?_, hm3, ?_⟩
  · rw [c129_reports_partial gz e p c h hm hn m hm1]
  · intro before later hl r h1 h2
    exact Crash.Props.c69_refused_partial gz c.req c.keys a hg ha' before later hl r h1 h2

/-! ## What is missing -/

/-- C129, fails: a request that kills the thread that reads it and builds its command is not reported to
anyone, so the client that sends it again takes the next node down. -/
theorem c129_building_unreported (gz : Bytes → Bytes) (e : Env) (cs : List Cmd) (p : List I)
    (hp : p <+: socketSteps cs) : (crash gz e (Th.run p)).report = none := by
  cases hr : (crash gz e (Th.run p)).report with
  | none => rfl
  | some m =>
    obtain ⟨c, ⟨a, b₁, b₂, rfl, _⟩, _⟩ := c129_only_running gz e p m hr
    have : I.call c ∈ socketSteps cs := hp.subset (by simp)
    simp [socketSteps] at this

/-- C129, fails: between the return of `runCommand` and the next turn of the worker, and to the end of the
thread of a command, the die function refers to a variable that is gone.  A thread that dies there
neither reports nor cuts. -/
theorem c129_stale (gz : Bytes → Bytes) (e : Env) (a : List I) (r : Run) (he : r.expired = false) :
    crash gz e (Th.run (a ++ r.steps)) = .gone := by
  have h : ∃ b, r.steps = .call r.cmd :: .arm :: (b ++ [.ret]) ∧ (b = [] ∨ b = [.give]) := by
    cases hg : r.given
    · exact ⟨[], by simp [Run.steps, he, hg], .inl rfl⟩
    · exact ⟨[.give], by simp [Run.steps, he, hg], .inr rfl⟩
  obtain ⟨b, hb, rfl | rfl⟩ := h <;> rw [hb] <;>
    simp [Th.run, List.foldl_append, Th.step, crash]

/-- C129, fails: so with a command that was moved into a queue. -/
theorem c129_moved_away (gz : Bytes → Bytes) (e : Env) (a : List I) (c : Cmd) :
    crash gz e (Th.run (a ++ [.call c, .arm, .give])) = .gone := by
  simp [Th.run, List.foldl_append, Th.step, crash]

/-- C129, fails: while the node detaches or shuts down there is no messenger.  A thread that dies running a
command then neither reports nor cuts. -/
theorem c129_no_messenger (gz : Bytes → Bytes) (e : Env) (p : List I) (c : Cmd) (h : Running p c)
    (hm : e.messenger = false) : crash gz e (Th.run p) = .gone := by
  obtain ⟨n, h1, h2⟩ := running_state h
  simp [crash, h1, h2, hm]

/-- C129, fails: after the node object is destroyed its address is still used. -/
theorem c129_node_destroyed (gz : Bytes → Bytes) (e : Env) (t : Th) (hn : e.node = .destroyed) :
    (crash gz e t).cut = false := by
  unfold crash
  repeat' split
  all_goals simp [after, hn, Outcome.gone]

/-- C129, fails: a command whose method line has a control character is not reported, and the connections
are not cut. -/
theorem c129_control_character :
    ∃ c : Cmd, (∃ m, parse (str "Foo\x01\r\n\r\n") = .ok m c.req) ∧
      ∀ gz e, crash gz e (Th.run [.init, .call c, .arm]) = .gone := by
  refine ⟨⟨{ methodLine := str "Foo\x01" }, []⟩, ⟨8, by rw [parse_eq_parseF]; decide +kernel⟩, ?_⟩
  intro gz e
  have : crashMessage gz { methodLine := str "Foo\x01" } [] = none := by
    unfold crashMessage compose
    rw [if_pos (by decide +kernel)]
    rfl
  simp [Th.run, Th.step, crash, this]

/-! ## The connections after `kill` -/

theorem run_append (n : Nd) (es es' : List Ev) : n.run (es ++ es') = (n.run es).run es' := by
  simp [Nd.run, List.foldl_append]

/-- What stays true once `kill` was called on peers `ps` with no `update` or `postPoll` under way. -/
structure Killed (n : Nd) : Prop where
  killed : n.killed = true
  outside : n.inside = false
  covered : ∀ ps, n.todo = some ps → ∀ i ∈ n.open_, i ∈ ps
  shut : n.todo = none → n.open_ = [] ∧ n.port = false ∧ n.done = true

theorem killed_step {n : Nd} (h : Killed n) (ev : Ev) : Killed (n.step ev) := by
  have hk := h.killed
  have ho := h.outside
  cases ev with
  | begin_ => simpa [Nd.step, hk] using h
  | finish => exact ⟨hk, rfl, h.covered, h.shut⟩
  | connect i => simpa [Nd.step, ho] using h
  | login i => simpa [Nd.step, ho] using h
  | openPort => simpa [Nd.step, ho] using h
  | lose i =>
    refine ⟨hk, ho, ?_, ?_⟩
    · intro ps hp j hj
      exact h.covered ps hp j (List.mem_filter.mp hj).1
    · intro hp
      obtain ⟨h1, h2, h3⟩ := h.shut hp
      exact ⟨by simp [Nd.step, h1], h2, h3⟩
  | kill ps => simpa [Nd.step, hk] using h
  | killStep =>
    unfold Nd.step
    dsimp only
    split
    · exact h
    · rename_i ht
      refine ⟨hk, ho, (by intro ps hp; cases hp), fun _ => ⟨?_, rfl, rfl⟩⟩
      refine List.eq_nil_iff_forall_not_mem.mpr ?_
      intro i hi
      cases h.covered [] ht i hi
    · rename_i j ps ht
      refine ⟨hk, ho, ?_, (by intro hp; cases hp)⟩
      intro qs hq i hi
      injection hq with hq
      subst hq
      have := List.mem_filter.mp hi
      rcases List.mem_cons.mp (h.covered _ ht i this.1) with rfl | h2
      · simp at this
      · exact h2

theorem killed_run {n : Nd} (h : Killed n) (es : List Ev) : Killed (n.run es) := by
  induction es generalizing n with
  | nil => exact h
  | cons e es ih => exact ih (killed_step h e)

/-- C129.  Once `kill` returns, no peer is connected and the port is free, and it stays so for ever, if the
sync thread was between two turns when it was called: whatever happened before, whatever is tried
later. -/
theorem c129_cut_partial (n : Nd) (before later : List Ev) (ps : List Nat)
    (hk : (n.run before).killed = false) (hi : (n.run before).inside = false)
    (hp : ∀ i ∈ (n.run before).open_, i ∈ ps)
    (hd : (n.run (before ++ .kill ps :: later)).todo = none) :
    (n.run (before ++ .kill ps :: later)).open_ = [] ∧ (n.run (before ++ .kill ps :: later)).port = false := by
  have h : Killed ((n.run before).step (.kill ps)) := by
    simp only [Nd.step, hk, Bool.false_eq_true, ↓reduceIte]
    refine ⟨rfl, hi, ?_, (by intro h; cases h)⟩
    intro qs hq i hi'
    injection hq with hq
    subst hq
    exact hp i hi'
  have h2 := killed_run h later
  rw [run_append] at hd ⊢
  have := h2.shut hd
  exact ⟨this.1, this.2.1⟩

/-- The same without regard to what the sync thread does, as long as there is no login and the port is
not opened. -/
structure Killed' (n : Nd) : Prop where
  killed : n.killed = true
  covered : ∀ ps, n.todo = some ps → ∀ i ∈ n.open_, i ∈ ps
  shut : n.todo = none → n.open_ = [] ∧ n.port = false

theorem killed'_step {n : Nd} (h : Killed' n) (ev : Ev) (hl : ∀ i, ev ≠ .login i) (hp : ev ≠ .openPort) :
    Killed' (n.step ev) := by
  have hk := h.killed
  cases ev with
  | begin_ => simpa [Nd.step, hk] using h
  | finish => exact ⟨hk, h.covered, h.shut⟩
  | connect i => simpa [Nd.step, hk] using h
  | login i => exact absurd rfl (hl i)
  | openPort => exact absurd rfl hp
  | lose i =>
    refine ⟨hk, ?_, ?_⟩
    · intro ps hp j hj
      exact h.covered ps hp j (List.mem_filter.mp hj).1
    · intro hp
      obtain ⟨h1, h2⟩ := h.shut hp
      exact ⟨by simp [Nd.step, h1], h2⟩
  | kill ps => simpa [Nd.step, hk] using h
  | killStep =>
    unfold Nd.step
    dsimp only
    split
    · exact h
    · rename_i ht
      refine ⟨hk, (by intro ps hp; cases hp), fun _ => ⟨?_, rfl⟩⟩
      refine List.eq_nil_iff_forall_not_mem.mpr ?_
      intro i hi
      cases h.covered [] ht i hi
    · rename_i j ps ht
      refine ⟨hk, ?_, (by intro hp; cases hp)⟩
      intro qs hq i hi
      injection hq with hq
      subst hq
      have := List.mem_filter.mp hi
      rcases List.mem_cons.mp (h.covered _ ht i this.1) with rfl | h2
      · simp at this
      · exact h2

/-- C129.  Even if the sync thread is in the middle of a turn, no peer is reconnected: only a LOGIN being
handled, or an update about to open the port, can undo the cut. -/
theorem c129_no_reconnect (n : Nd) (before later : List Ev) (ps : List Nat)
    (hk : (n.run before).killed = false) (hp : ∀ i ∈ (n.run before).open_, i ∈ ps)
    (hl : ∀ i, .login i ∉ later) (ho : .openPort ∉ later)
    (hd : (n.run (before ++ .kill ps :: later)).todo = none) :
    (n.run (before ++ .kill ps :: later)).open_ = [] ∧ (n.run (before ++ .kill ps :: later)).port = false := by
  have h : Killed' ((n.run before).step (.kill ps)) := by
    simp only [Nd.step, hk, Bool.false_eq_true, ↓reduceIte]
    refine ⟨rfl, ?_, (by intro h; cases h)⟩
    intro qs hq i hi'
    injection hq with hq
    subst hq
    exact hp i hi'
  have gen : ∀ (es : List Ev) (m : Nd), (∀ i, .login i ∉ es) → .openPort ∉ es → Killed' m → Killed' (m.run es) := by
    intro es
    induction es with
    | nil => intro m _ _ h; exact h
    | cons e es ih =>
      intro m h1 h2 h3
      refine ih _ (fun i hi => h1 i (List.mem_cons_of_mem _ hi)) (fun hi => h2 (List.mem_cons_of_mem _ hi)) ?_
      refine killed'_step h3 e ?_ ?_
      · intro i hi; exact h1 i (by rw [hi]; exact List.mem_cons_self)
      · intro hi; exact h2 (by rw [hi]; exact List.mem_cons_self)
  have h2 := gen later _ hl ho h
  rw [run_append] at hd ⊢
  exact h2.shut hd

/-- What `kill` has left to do. -/
def left (n : Nd) : Nat := match n.todo with | none => 0 | some ps => ps.length + 1

def isStep : Ev → Bool
  | .killStep => true
  | _ => false

theorem left_step {n : Nd} (hk : n.killed = true) (ev : Ev) :
    (n.step ev).killed = true ∧ left (n.step ev) = left n - (if isStep ev then 1 else 0) := by
  cases ev with
  | begin_ => simp [Nd.step, hk, isStep]
  | finish => simp [Nd.step, hk, left, isStep]
  | connect i => simp [Nd.step, hk, isStep]
  | login i => unfold Nd.step; dsimp only; split <;> simp [hk, left, isStep]
  | openPort => unfold Nd.step; dsimp only; split <;> simp [hk, left, isStep]
  | lose i => simp [Nd.step, hk, left, isStep]
  | kill ps => simp [Nd.step, hk, isStep]
  | killStep =>
    unfold Nd.step
    dsimp only
    split <;> rename_i ht <;> simp [hk, left, ht, isStep]

/-- C129.  It takes one step for each peer and one for the port: `kill` always comes to its end. -/
theorem c129_kill_ends (n : Nd) (ps : List Nat) (hk : n.killed = false) (later : List Ev)
    (hl : ps.length + 1 ≤ (later.filter isStep).length) :
    (n.run (.kill ps :: later)).todo = none := by
  have gen : ∀ (es : List Ev) (n : Nd), n.killed = true →
      left n ≤ (es.filter isStep).length → (n.run es).todo = none := by
    intro es
    induction es with
    | nil =>
      intro n _ h
      unfold left at h
      split at h
      · assumption
      · simp at h
    | cons e es ih =>
      intro n hk h
      obtain ⟨h1, h2⟩ := left_step hk e
      refine ih _ h1 ?_
      rw [h2]
      rw [List.filter_cons] at h
      split at h
      · rename_i hc
        rw [if_pos hc]
        simp only [List.length_cons] at h
        omega
      · rename_i hc
        rw [if_neg hc]
        omega
  refine gen later (n.step (.kill ps)) ?_ ?_
  · simp [Nd.step, hk]
  · simpa [Nd.step, hk, left] using hl

/-- C129, fails: a peer that logs in during a poll already under way stays connected to a node that is
dead, and an update already under way opens the port again. -/
theorem c129_login_survives :
    let n := Nd.run {} [.begin_, .kill [1, 2], .killStep, .killStep, .login 1, .killStep, .openPort, .finish]
    n.done = true ∧ n.open_ = [1] ∧ n.port = true := by
  exact ⟨rfl, rfl, rfl⟩

/-! ## Cases -/

def exCmd : Cmd := ⟨Crash.Props.exReq, [str "userID"]⟩
def exOther : Cmd := ⟨{ methodLine := str "Query" }, []⟩

/-- A worker that ran another command, waited in vain and now runs this one. -/
example : Running (workerSteps [some ⟨exOther, false, false⟩, none] ++ [.say sEarly, .call exCmd, .arm]) exCmd :=
  (c129_worker_arms _ ⟨exCmd, false, false⟩ [] rfl).1

example : (crash id ⟨true, .alive⟩ (Th.run (workerSteps [some ⟨exOther, false, false⟩, none] ++
    [.say sEarly, .call exCmd, .arm]))).report = crashMessage id exCmd.req exCmd.keys := by
  decide +kernel

example : Crash.Props.GoodReport exCmd.req exCmd.keys := Crash.Props.exReq_good

/-- A node with two peers, cut between two turns; later attempts change nothing. -/
example :
    let es : List Ev := [.begin_, .connect 1, .login 2, .finish]
    let n := Nd.run {} (es ++ .kill [1, 2] :: [.begin_, .killStep, .login 1, .connect 1, .killStep, .killStep,
      .begin_, .login 2, .openPort])
    (Nd.run {} es).open_ = [2, 1] ∧ (Nd.run {} es).inside = false ∧ (Nd.run {} es).killed = false ∧
      n.todo = none ∧ n.open_ = [] ∧ n.port = false := by
  refine ⟨rfl, rfl, rfl, rfl, rfl, rfl⟩

/-- Cut in the middle of a turn. -/
example :
    let es : List Ev := [.begin_, .connect 1]
    let n := Nd.run {} (es ++ .kill [1] :: [.killStep, .connect 1, .killStep, .connect 1])
    (Nd.run {} es).open_ = [1] ∧ (Nd.run {} es).inside = true ∧ n.todo = none ∧ n.open_ = [] := by
  refine ⟨rfl, rfl, rfl, rfl⟩

end Bedrock.Dying.Props
