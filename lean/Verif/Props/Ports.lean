import Verif.Model.Ports

/-!
# C71: blocking the command port; C74: a node that is behind
-/

namespace Bedrock.Ports.Props
open Bedrock.Text

/-! ## Invariant -/

/-- Closed ports stay closed for a reason. -/
structure Inv (s : Srv) : Prop where
  blocked : s.reasons ≠ [] → s.pub = false ∧ s.plug = false
  stopping : s.shut ≠ .running → s.pub = false ∧ s.priv = false ∧ s.plug = false ∧
    (s.detach = false → s.ctrl = false)
  detachedClosed : s.detach = true → s.pub = false ∧ s.priv = false ∧ s.plug = false ∧
    (s.shut = .running → s.ready = false)
  doneNotReady : s.shut = .done → s.ready = false

/-- The server at the start; with `-bootstrap` it begins detached (BedrockServer.cpp:1026). -/
def start (bootstrap : Bool) : Srv := { detach := bootstrap }

theorem inv_start (b : Bool) : Inv (start b) := ⟨by simp [start], by simp [start], by simp [start], by simp [start]⟩

theorem inv_step {s : Srv} (h : Inv s) (e : Ev) : Inv (s.step e) := by
  obtain ⟨h1, h2, h3, h4⟩ := h
  cases e with
  | block r =>
    simp only [Srv.step, Srv.block]
    split
    · refine ⟨fun _ => ⟨rfl, rfl⟩, ?_, ?_, h4⟩
      · intro hs; have := h2 hs; exact ⟨rfl, this.2.1, rfl, this.2.2.2⟩
      · intro hd; have := h3 hd; exact ⟨rfl, this.2.1, rfl, this.2.2.2⟩
    · rename_i hl
      refine ⟨?_, h2, h3, h4⟩
      intro _
      refine h1 ?_
      intro hn
      simp [hn] at hl
  | unblock r =>
    simp only [Srv.step, Srv.unblock]
    have key : ∀ s' : Srv, s'.pub = s.pub → s'.priv = s.priv → s'.plug = s.plug → s'.ctrl = s.ctrl →
        s'.shut = s.shut → s'.detach = s.detach → s'.ready = s.ready →
        (s'.reasons ≠ [] → s.reasons ≠ []) → Inv s' := by
      intro s' a b c d e f g hr
      refine ⟨?_, ?_, ?_, by rw [e, g]; exact h4⟩
      · intro h; rw [a, c]; exact h1 (hr h)
      · rw [a, b, c, d, e, f]; exact h2
      · rw [a, b, c, e, f, g]; exact h3
    by_cases hm : r ∈ s.reasons
    · rw [if_pos hm]
      have hne : s.reasons ≠ [] := by intro hn; rw [hn] at hm; cases hm
      split
      · exact key _ rfl rfl rfl rfl rfl rfl rfl (fun _ => hne)
      · exact key _ rfl rfl rfl rfl rfl rfl rfl (fun _ => hne)
    · rw [if_neg hm]
      split
      · exact key _ rfl rfl rfl rfl rfl rfl rfl id
      · exact ⟨h1, h2, h3, h4⟩
  | poll =>
    simp only [Srv.step, Srv.poll]
    split
    · rename_i hp
      refine ⟨fun h => absurd hp.1 h, fun h => absurd hp.2.2 h, ?_, h4⟩
      intro hd
      have := (h3 hd).2.2.2 hp.2.2
      rw [hp.2.1] at this; cases this
    · exact ⟨h1, h2, h3, h4⟩
  | shutdown d =>
    simp only [Srv.step, Srv.beginShutdown]
    split
    · refine ⟨fun _ => ⟨rfl, rfl⟩, ?_, ?_, by intro h; cases h⟩
      · intro _
        refine ⟨rfl, rfl, rfl, ?_⟩
        intro hd
        simp only at hd
        simp [hd]
      · intro _
        exact ⟨rfl, rfl, rfl, by intro h; cases h⟩
    · exact ⟨h1, h2, h3, h4⟩
  | commandsDone t c =>
    simp only [Srv.step, Srv.commandsDone]
    split
    · rename_i hc
      refine ⟨h1, fun _ => h2 (by rw [hc.1]; decide), ?_, by intro h; cases h⟩
      intro hd; have := h3 hd
      exact ⟨this.1, this.2.1, this.2.2.1, by intro h; cases h⟩
    · exact ⟨h1, h2, h3, h4⟩
  | syncDone =>
    simp only [Srv.step, Srv.syncDone]
    split
    · rename_i hc
      refine ⟨h1, fun _ => h2 (by rw [hc]; decide), ?_, fun _ => rfl⟩
      intro hd; have := h3 hd
      exact ⟨this.1, this.2.1, this.2.2.1, fun _ => rfl⟩
    · exact ⟨h1, h2, h3, h4⟩
  | detached =>
    simp only [Srv.step, Srv.detached]
    split
    · rename_i hc
      refine ⟨h1, fun h => absurd rfl h, ?_, by intro h; cases h⟩
      intro hd; have := h3 hd
      exact ⟨this.1, this.2.1, this.2.2.1, fun _ => h4 hc.2⟩
    · exact ⟨h1, h2, h3, h4⟩
  | attach =>
    simp only [Srv.step, Srv.attach, Srv.reset]
    split
    · refine ⟨fun h => absurd rfl h, fun h => absurd rfl h, ?_, by intro h; cases h⟩
      intro hd; cases hd
    · exact ⟨h1, h2, h3, h4⟩
  | node r =>
    simp only [Srv.step, Srv.node]
    split
    · exact ⟨h1, h2, h3, h4⟩
    · rename_i hn
      simp only [not_or] at hn
      refine ⟨h1, h2, ?_, fun hd => absurd hd hn.2⟩
      intro hd; have := h3 hd
      exact ⟨this.1, this.2.1, this.2.2.1, fun hr => absurd ⟨hd, hr⟩ hn.1⟩

theorem inv_run {s : Srv} (h : Inv s) (es : List Ev) : Inv (s.run es) := by
  induction es generalizing s with
  | nil => exact h
  | cons e es ih => exact ih (inv_step h e)

/-! ## C71 -/

/-- C71.  At every point of every history: while there is a reason to block, the public command port
and the plugins' ports are closed. -/
theorem c71_blocked_means_closed (b : Bool) (es : List Ev) (r : Bytes)
    (h : r ∈ ((start b).run es).reasons) :
    ((start b).run es).pub = false ∧ ((start b).run es).plug = false :=
  (inv_run (inv_start b) es).blocked (by intro hn; rw [hn] at h; cases h)

/-- How often the port is blocked for a reason: every block counts, and is taken back by one unblock
for the same reason.  Written without the server. -/
def outstanding (r : Bytes) : Nat → List Ev → Nat
  | n, [] => n
  | n, .block r' :: es => outstanding r (if r' = r then n + 1 else n) es
  | n, .unblock r' :: es => outstanding r (if r' = r then n - 1 else n) es
  | n, _ :: es => outstanding r n es

theorem count_step {s : Srv} (e : Ev) (he : e ≠ .attach) (r : Bytes) :
    (s.step e).reasons.count r = outstanding r (s.reasons.count r) [e] := by
  cases e with
  | block r' =>
    simp only [Srv.step, Srv.block, outstanding]
    have hc : (r' :: s.reasons).count r = if r' = r then s.reasons.count r + 1 else s.reasons.count r := by
      rw [List.count_cons]
      by_cases h : r' = r
      · simp [h]
      · simp [h]
    split <;> exact hc
  | unblock r' =>
    simp only [Srv.step, Srv.unblock, outstanding]
    have hc : (s.reasons.erase r').count r = if r' = r then s.reasons.count r - 1 else s.reasons.count r := by
      by_cases h : r' = r
      · subst h; simp [List.count_erase_self]
      · rw [List.count_erase_of_ne (fun h' => h h'.symm), if_neg h]
    by_cases hm : r' ∈ s.reasons
    · rw [if_pos hm]
      split <;> exact hc
    · rw [if_neg hm]
      rw [List.erase_of_not_mem hm] at hc
      split <;> exact hc
  | poll => simp only [Srv.step, Srv.poll, outstanding]; split <;> rfl
  | shutdown d => simp only [Srv.step, Srv.beginShutdown, outstanding]; split <;> rfl
  | commandsDone t c => simp only [Srv.step, Srv.commandsDone, outstanding]; split <;> rfl
  | syncDone => simp only [Srv.step, Srv.syncDone, outstanding]; split <;> rfl
  | detached => simp only [Srv.step, Srv.detached, outstanding]; split <;> rfl
  | attach => exact absurd rfl he
  | node d => simp only [Srv.step, Srv.node, outstanding]; split <;> rfl

theorem outstanding_cons (r : Bytes) (n : Nat) (e : Ev) (es : List Ev) :
    outstanding r n (e :: es) = outstanding r (outstanding r n [e]) es := by
  cases e <;> rfl

theorem count_run (s : Srv) (es : List Ev) (h : Ev.attach ∉ es) (r : Bytes) :
    (s.run es).reasons.count r = outstanding r (s.reasons.count r) es := by
  induction es generalizing s with
  | nil => rfl
  | cons e es ih =>
    have h1 := ih (s.step e) (fun hx => h (List.mem_cons_of_mem _ hx))
    rw [count_step e (fun hx => h (by rw [hx]; exact List.mem_cons_self)), ← outstanding_cons] at h1
    exact h1

/-- C71.  Every block needs an unblock of its own, for the same reason: in any history without a
re-attach the port is blocked for a reason exactly as often as that. -/
theorem c71_each_block_needs_its_unblock (b : Bool) (es : List Ev) (h : Ev.attach ∉ es) (r : Bytes) :
    ((start b).run es).reasons.count r = outstanding r 0 es := count_run (start b) es h r

/-- C71.  So as long as one block is outstanding, clients find the port closed. -/
theorem c71_outstanding_means_closed (b : Bool) (es : List Ev) (h : Ev.attach ∉ es) (r : Bytes)
    (ho : 0 < outstanding r 0 es) : ((start b).run es).pub = false ∧ ((start b).run es).plug = false := by
  rw [← c71_each_block_needs_its_unblock b es h r] at ho
  exact c71_blocked_means_closed b es r (List.count_pos_iff.mp ho)

/-- C71.  When nothing is outstanding, the server is not shutting down and the node leads or follows,
the next poll opens the ports. -/
theorem c71_opens (b : Bool) (es : List Ev) (h : Ev.attach ∉ es) (ho : ∀ r, outstanding r 0 es = 0)
    (hr : ((start b).run es).ready = true) (hs : ((start b).run es).shut = .running) :
    ((start b).run (es ++ [.poll])).pub = true ∧ ((start b).run (es ++ [.poll])).priv = true ∧
      ((start b).run (es ++ [.poll])).plug = true := by
  have hn : ((start b).run es).reasons = [] := by
    cases hx : ((start b).run es).reasons with
    | nil => rfl
    | cons r rs =>
      have h1 := c71_each_block_needs_its_unblock b es h r
      rw [ho r, hx, List.count_cons_self] at h1
      cases h1
  unfold Srv.run at hn hr hs ⊢
  rw [List.foldl_append, List.foldl_cons, List.foldl_nil]
  simp only [Srv.step, Srv.poll]
  rw [if_pos ⟨hn, hr, hs⟩]
  exact ⟨rfl, rfl, rfl⟩

/-- C71.  Nothing else opens them: a port for commands that is opened is opened by a poll, when nothing blocks the port, the node leads
or follows and the server is not shutting down. -/
theorem c71_opens_only (s : Srv) (e : Ev)
    (h : ((s.step e).pub = true ∧ s.pub = false) ∨ ((s.step e).priv = true ∧ s.priv = false) ∨
      ((s.step e).plug = true ∧ s.plug = false)) :
    e = .poll ∧ s.ready = true ∧ s.shut = .running ∧ (((s.step e).pub = true ∧ s.pub = false) → s.reasons = []) := by
  cases e <;>
    simp only [Srv.step, Srv.block, Srv.unblock, Srv.poll, Srv.beginShutdown, Srv.commandsDone, Srv.syncDone, Srv.detached,
      Srv.attach, Srv.reset, Srv.node] at h ⊢ <;>
    (repeat' split at h) <;> simp_all

/-- C71.  From the beginning of a shutdown that is not a detach on, every command port and the control
port of an attached server stay closed, whatever is blocked or unblocked and whatever the node does. -/
theorem c71_shutdown_is_final (b : Bool) (es es' : List Ev)
    (hr : ((start b).run es).shut = .running) (_hd : ((start b).run es).detach = false) :
    let s := (start b).run (es ++ .shutdown false :: es')
    s.pub = false ∧ s.priv = false ∧ s.plug = false ∧ s.ctrl = false := by
  have hinv := inv_run (inv_start b) (es ++ .shutdown false :: es')
  have key : ∀ (t : Srv), t.shut ≠ .running ∧ t.detach = false →
      (t.run es').shut ≠ .running ∧ (t.run es').detach = false := by
    induction es' with
    | nil => intro t ht; exact ht
    | cons e es' ih =>
      intro t ht
      refine ih (inv_run (inv_start b) _) (t.step e) ?_
      obtain ⟨h1, h2⟩ := ht
      cases e with
      | block r => simp only [Srv.step, Srv.block]; split <;> exact ⟨h1, h2⟩
      | unblock r =>
        simp only [Srv.step, Srv.unblock]
        by_cases hm : r ∈ t.reasons
        · rw [if_pos hm]; split <;> exact ⟨h1, h2⟩
        · rw [if_neg hm]; split <;> exact ⟨h1, h2⟩
      | poll => simp only [Srv.step, Srv.poll]; split <;> exact ⟨h1, h2⟩
      | shutdown d => simp only [Srv.step, Srv.beginShutdown]; rw [if_neg h1]; exact ⟨h1, h2⟩
      | commandsDone a c =>
        simp only [Srv.step, Srv.commandsDone]
        split
        · exact ⟨(by decide : Shut.commandsFinished ≠ .running), h2⟩
        · exact ⟨h1, h2⟩
      | syncDone =>
        simp only [Srv.step, Srv.syncDone]
        split
        · exact ⟨(by decide : Shut.done ≠ .running), h2⟩
        · exact ⟨h1, h2⟩
      | detached =>
        simp only [Srv.step, Srv.detached]
        rw [if_neg (by rintro ⟨h, _⟩; rw [h2] at h; cases h)]
        exact ⟨h1, h2⟩
      | attach =>
        simp only [Srv.step, Srv.attach]
        rw [if_neg (by rintro ⟨h, _⟩; rw [h2] at h; cases h)]
        exact ⟨h1, h2⟩
      | node d => simp only [Srv.step, Srv.node]; split <;> exact ⟨h1, h2⟩
  have hk := key (((start b).run es).beginShutdown false) (by
    unfold Srv.beginShutdown
    rw [if_pos hr]
    exact ⟨(by decide : Shut.startShutdown ≠ .running), rfl⟩)
  have he : (start b).run (es ++ .shutdown false :: es') = (((start b).run es).beginShutdown false).run es' := by
    unfold Srv.run
    rw [List.foldl_append, List.foldl_cons]
    rfl
  rw [← he] at hk
  have := hinv.stopping hk.1
  exact ⟨this.1, this.2.1, this.2.2.1, this.2.2.2 hk.2⟩

/-- C71.  A detached server, from the moment the detach begins until it is attached again, accepts no
connection on a command port. -/
theorem c71_detached_is_closed (b : Bool) (es : List Ev) (h : ((start b).run es).detach = true) :
    ((start b).run es).pub = false ∧ ((start b).run es).priv = false ∧ ((start b).run es).plug = false :=
  ⟨((inv_run (inv_start b) es).detachedClosed h).1, ((inv_run (inv_start b) es).detachedClosed h).2.1,
    ((inv_run (inv_start b) es).detachedClosed h).2.2.1⟩

theorem likely_step {s : Srv} (h : s.likely = true ↔ s.reasons ≠ []) (e : Ev) (he : e ≠ .attach) :
    (s.step e).likely = true ↔ (s.step e).reasons ≠ [] := by
  cases e with
  | block r => simp only [Srv.step, Srv.block]; split <;> simp
  | unblock r =>
    simp only [Srv.step, Srv.unblock]
    by_cases hm : r ∈ s.reasons
    · rw [if_pos hm]
      have hl : s.likely = true := h.mpr (by intro hn; rw [hn] at hm; cases hm)
      split
      · rename_i hn
        constructor
        · intro hx; cases hx
        · intro hx; exact absurd hn hx
      · rename_i hn
        exact ⟨fun _ => hn, fun _ => hl⟩
    · rw [if_neg hm]
      split
      · rename_i hn; simp [hn]
      · exact h
  | poll => simp only [Srv.step, Srv.poll]; split <;> exact h
  | shutdown d => simp only [Srv.step, Srv.beginShutdown]; split <;> exact h
  | commandsDone t c => simp only [Srv.step, Srv.commandsDone]; split <;> exact h
  | syncDone => simp only [Srv.step, Srv.syncDone]; split <;> exact h
  | detached => simp only [Srv.step, Srv.detached]; split <;> exact h
  | attach => exact absurd rfl he
  | node d => simp only [Srv.step, Srv.node]; split <;> exact h

/-- C71.  Without a re-attach, clients of the public port that are still connected are told to go away
exactly while the port is blocked. -/
theorem c71_clients_sent_away_partial (b : Bool) (es : List Ev) (h : Ev.attach ∉ es) :
    ((start b).run es).closesClients true = true ↔ ∃ r, 0 < outstanding r 0 es := by
  have hl : ((start b).run es).likely = true ↔ ((start b).run es).reasons ≠ [] := by
    have : ∀ s : Srv, (s.likely = true ↔ s.reasons ≠ []) → ((s.run es).likely = true ↔ (s.run es).reasons ≠ []) := by
      induction es with
      | nil => intro s hs; exact hs
      | cons e es ih =>
        intro s hs
        exact ih (fun hx => h (List.mem_cons_of_mem _ hx)) (s.step e)
          (likely_step hs e (fun hx => h (by rw [hx]; exact List.mem_cons_self)))
    exact this (start b) (by simp [start])
  unfold Srv.closesClients
  rw [Bool.true_and, hl]
  constructor
  · intro hn
    cases hx : ((start b).run es).reasons with
    | nil => exact absurd hx hn
    | cons r rs =>
      refine ⟨r, ?_⟩
      rw [← c71_each_block_needs_its_unblock b es h r, hx, List.count_cons_self]
      omega
  · rintro ⟨r, hr⟩ hn
    rw [← c71_each_block_needs_its_unblock b es h r, hn] at hr
    simp at hr

/-- A server that is blocked, detached and attached again. -/
def exEvs : List Ev :=
  [.node true, .poll, .block (str "MANUAL"), .shutdown true, .commandsDone 0 0, .syncDone, .detached,
   .attach, .node true, .poll]

/-- C71, fails: a re-attach forgets the blocks but not the flag, so although the port is open and
nothing blocks it, every client on it is told to close its connection after each request, until the
next pair of block and unblock. -/
theorem c71_flag_survives_reattach :
    ((start false).run exEvs).reasons = [] ∧ ((start false).run exEvs).pub = true ∧
      ((start false).run exEvs).closesClients true = true := by decide +kernel

/-- C71, fails: when no thread can be made for a new connection, blocking the port locks a mutex that
the thread already holds. -/
theorem c71_no_thread_is_undefined (s : Srv) (h : s.noThreads = false) : s.acceptNoThread = none := by
  unfold Srv.acceptNoThread blockLocking
  rw [h]
  rfl

/-- Two blocks for the same reason and one for another; two unblocks are not enough. -/
example : let es : List Ev := [.node true, .poll, .block (str "A"), .block (str "A"), .block (str "B"),
      .unblock (str "A"), .unblock (str "B"), .poll]
    ((start false).run es).pub = false ∧ outstanding (str "A") 0 es = 1 ∧
    ((start false).run (es ++ [.unblock (str "A"), .poll])).pub = true := by decide +kernel

example : ((start false).run [.node true, .poll]).pub = true ∧ ((start true).run [.node true, .poll]).pub = false := by
  decide +kernel

/-! ## C74 -/

/-- The messages of peers, in order: from the leader or another node, with the difference of the commit
counts. -/
def Lag.run (l : Lag) (ms : List (Bool × Int)) : Lag := ms.foldl (fun l m => l.onMessage m.1 m.2) l

theorem block_count (s : Srv) (r : Bytes) : (s.block r).reasons = r :: s.reasons := by
  unfold Srv.block; simp only; split <;> rfl

theorem unblock_reasons (s : Srv) (r : Bytes) : (s.unblock r).reasons = s.reasons.erase r := by
  unfold Srv.unblock
  by_cases hm : r ∈ s.reasons
  · simp only [if_pos hm]; split <;> rfl
  · simp only [if_neg hm, List.erase_of_not_mem hm]; split <;> rfl

theorem lag_step (l : Lag) (h : l.srv.reasons.count lagReason = if l.flag then 1 else 0) (m : Bool × Int) :
    (l.onMessage m.1 m.2).srv.reasons.count lagReason = if (l.onMessage m.1 m.2).flag then 1 else 0 := by
  unfold Lag.onMessage
  split
  · rename_i hc
    rw [hc.2.2] at h
    simp only [block_count, List.count_cons_self, if_true]
    simpa using h
  · split
    · rename_i hc
      rw [hc.2] at h
      simp only [unblock_reasons, List.count_erase_self, Bool.false_eq_true, if_false]
      simp only [if_true] at h
      omega
    · exact h

/-- C74.  However many messages come from however many peers, the port is blocked for this reason at
most once, so one unblock opens it. -/
theorem c74_blocked_once (ms : List (Bool × Int)) :
    (Lag.run {} ms).srv.reasons.count lagReason = if (Lag.run {} ms).flag then 1 else 0 := by
  have : ∀ l : Lag, l.srv.reasons.count lagReason = (if l.flag then 1 else 0) →
      (Lag.run l ms).srv.reasons.count lagReason = if (Lag.run l ms).flag then 1 else 0 := by
    induction ms with
    | nil => intro l h; exact h
    | cons m ms ih => intro l h; exact ih _ (lag_step l h m)
  exact this {} rfl

/-- What the leader's messages alone say: far behind, or close enough, or as before. -/
def farBehind : Bool → List Int → Bool
  | b, [] => b
  | b, d :: ds => farBehind (if 12500 ≤ d then true else if d < 1000 then false else b) ds

theorem run_leader (ds : List Int) (l : Lag) :
    (Lag.run l (ds.map (fun d => (true, d)))).flag = farBehind l.flag ds := by
  induction ds generalizing l with
  | nil => rfl
  | cons d ds ih =>
    have := ih (l.onMessage true d)
    simp only [farBehind]
    refine this.trans ?_
    congr 1
    unfold Lag.onMessage
    by_cases h1 : 12500 ≤ d
    · rw [if_pos h1]
      cases hf : l.flag with
      | true =>
        rw [if_neg (by simp), if_neg (by omega)]
        exact hf
      | false => rw [if_pos ⟨rfl, h1, rfl⟩]
    · rw [if_neg h1, if_neg (by omega)]
      by_cases h2 : d < 1000
      · rw [if_pos h2]
        cases hf : l.flag with
        | true => rw [if_pos ⟨h2, rfl⟩]
        | false => rw [if_neg (by simp)]; exact hf
      · rw [if_neg h2, if_neg (by omega)]

/-- C74, as far as it holds: when only the leader's messages are heard, the port is blocked from the
message that shows the node 12500 commits behind until the one that shows it less than 1000 behind. -/
theorem c74_behind_leader_partial (ds : List Int) :
    (lagReason ∈ (Lag.run {} (ds.map (fun d => (true, d)))).srv.reasons) ↔ farBehind false ds = true := by
  have h1 := c74_blocked_once (ds.map (fun d => (true, d)))
  have h2 := run_leader ds {}
  rw [h2] at h1
  rw [← List.count_pos_iff, h1]
  show _ ↔ farBehind ({} : Lag).flag ds = true
  cases farBehind ({} : Lag).flag ds <;> simp

/-- C74, fails: a message of any other peer that is not ahead opens the port again, although the node
is still far behind its leader. -/
theorem c74_other_peer_opens (l : Lag) (d : Int) (hd : d < 1000)
    (h : l.srv.reasons.count lagReason = 1) (hf : l.flag = true) :
    lagReason ∉ (l.onMessage false d).srv.reasons := by
  unfold Lag.onMessage
  rw [if_neg (by simp), if_pos ⟨hd, hf⟩]
  intro hm
  rw [unblock_reasons] at hm
  have := List.count_pos_iff.mpr hm
  rw [List.count_erase_self, h] at this
  omega

example : (Lag.run {} [(true, 20000)]).srv.reasons = [lagReason] ∧
    (Lag.run {} [(true, 20000), (false, -5)]).srv.reasons = [] ∧
    (Lag.run {} [(true, 20000), (true, 5000)]).srv.reasons = [lagReason] ∧
    (Lag.run {} [(true, 20000), (true, 900)]).srv.reasons = [] := by decide +kernel

/-- **C71** Together with the others the control port is open after such a poll. -/
theorem c71_opens_control (b : Bool) (es : List Ev) (h : Ev.attach ∉ es) (ho : ∀ r, outstanding r 0 es = 0)
    (hr : ((start b).run es).ready = true) (hs : ((start b).run es).shut = .running) :
    ((start b).run (es ++ [.poll])).ctrl = true := by
  have hn : ((start b).run es).reasons = [] := by
    cases hx : ((start b).run es).reasons with
    | nil => rfl
    | cons r rs =>
      have := c71_each_block_needs_its_unblock b es h r
      rw [hx, ho r] at this
      simp at this
  have : (start b).run (es ++ [.poll]) = ((start b).run es).poll := by
    unfold Srv.run; rw [List.foldl_append]; rfl
  rw [this]
  unfold Srv.poll
  rw [if_pos ⟨hn, hr, hs⟩]

end Bedrock.Ports.Props
