import Verif.Lemmas.DBLock

/-!
# Properties of the database layer (C01, C06, C08, C09, C10)

`env` is arbitrary: any digest function, any compression function, any maximum journal size,
any positive number of journal tables. The only facts used about the digest are that its text
is never empty and (C01 only) has a fixed length, as the 40 hex digits of a SHA1 have.
-/

namespace Bedrock.DB
open Spec

/-- The observable trace of a database that starts empty. -/
def trace (env : Env) (ops : List Op) : List (Op × Out) := (run env (init env) ops).2

/-- The final state of a database that starts empty. -/
def final (env : Env) (ops : List Op) : Sys := (run env (init env) ops).1

/-- Its committed transactions, read off the trace. -/
def history (env : Env) (ops : List Op) : List Bytes := (view (trace env ops)).log

theorem reach {env : Env} (hnj : 0 < env.numJournals) (hne : ∀ x, env.sha1hex x ≠ [])
    (ops : List Op) (hd : Disciplined {} (trace env ops)) :
    Inv env (final env ops) (view (trace env ops)) :=
  inv_run hnj hne ops _ _ (inv_init env) hd

/-- A toy environment used for the non-vacuity examples: a two-byte "digest". -/
def exEnv : Env where
  sha1hex x := [UInt8.ofNat x.length, x.foldl (fun a b => 31 * a + b) 7]
  compress x := 0 :: x
  maxJournalSize := 1
  numJournals := 2

/-- Two handles interleaving, one rollback, one conflict, a drain and a crash. -/
def exOps : List Op :=
  [.begin 0 false false true, .begin 1 false false true,
   .write 0 [65] true true, .write 1 [66] true true, .write 1 [67] false true,
   .prepare 0 true [] true, .prepare 1 true [] true, .commit 0 true,
   .prepare 1 true [] true, .commit 1 false, .rollback 1, .pop,
   .begin 1 true false true, .write 1 [66] true true, .prepare 1 true [1] true, .commit 1 true,
   .begin 0 false true true, .write 0 [68] true true, .prepare 0 true [1, 2] true, .rollback 0,
   .begin 0 false true true, .write 0 [69] true true, .prepare 0 true [1, 2] true, .commit 0 true]

instance : ∀ v op, Decidable (okCall v op) := fun v op => by
  cases op <;> unfold okCall <;> infer_instance

instance decDisc : ∀ (tr : List (Op × Out)) (v : View), Decidable (Disciplined v tr)
  | [], _ => .isTrue trivial
  | e :: tr, v => by
    unfold Disciplined
    exact @instDecidableAnd _ _ _ (decDisc tr (v.step e))

instance decCareful : ∀ (tr : List (Op × Out)) (f : Nat → Bool), Decidable (Careful f tr)
  | [], _ => .isTrue trivial
  | e :: tr, f => by
    unfold Careful
    exact @instDecidableAnd _ _ (by cases e.1 <;> infer_instance) (decCareful tr (openStep f e))

theorem exEnv_ne : ∀ x, exEnv.sha1hex x ≠ [] := by intro x; simp [exEnv]

/-- The example run is disciplined and careful and commits three transactions. -/
example : Disciplined {} (trace exEnv exOps) ∧ Careful (fun _ => false) (trace exEnv exOps) ∧
    history exEnv exOps = [[65], [66], [69]] := by decide +kernel

/-! ## C01: equal hash at `N` means equal history up to `N` -/

theorem chain_length {H : Bytes → Bytes} {k : Nat} (hl : ∀ x, (H x).length = k) (a : List Bytes)
    (h : a ≠ []) : (chain H a).length = k := by
  obtain ⟨l, x, rfl⟩ : ∃ l x, a = l ++ [x] :=
    ⟨a.dropLast, a.getLast h, (List.dropLast_concat_getLast h).symm⟩
  rw [chain_append]; exact hl _

/-- **C01** (hash chains). If two histories of the same length have the same hash, they are equal
or the position where they first (from the end) disagree exhibits two different digest inputs,
taken from the two histories, with the same digest. -/
theorem c01_chain_agreement (H : Bytes → Bytes) (k : Nat) (hl : ∀ x, (H x).length = k)
    (a b : List Bytes) (hlen : a.length = b.length) (hh : chain H a = chain H b) :
    a = b ∨ ∃ i, ∃ (hi : i < a.length) (hj : i < b.length),
      Collision H (chain H (a.take i) ++ a[i]) (chain H (b.take i) ++ b[i]) := by
  obtain ⟨n, hn⟩ : ∃ n, a.length = n := ⟨_, rfl⟩
  induction n generalizing a b with
  | zero =>
    left
    have h1 : a = [] := List.length_eq_zero_iff.1 hn
    have h2 : b = [] := List.length_eq_zero_iff.1 (by omega)
    rw [h1, h2]
  | succ n ih =>
    have ha : a ≠ [] := by intro h; simp [h] at hn
    have hb : b ≠ [] := by intro h; simp [h] at hlen; exact ha hlen
    obtain ⟨a', x, rfl⟩ : ∃ l x, a = l ++ [x] :=
      ⟨a.dropLast, a.getLast ha, (List.dropLast_concat_getLast ha).symm⟩
    obtain ⟨b', y, rfl⟩ : ∃ l x, b = l ++ [x] :=
      ⟨b.dropLast, b.getLast hb, (List.dropLast_concat_getLast hb).symm⟩
    simp only [List.length_append, List.length_singleton] at hn hlen
    have hlen' : a'.length = b'.length := by omega
    by_cases hin : chain H a' ++ x = chain H b' ++ y
    · have hcl : (chain H a').length = (chain H b').length := by
        by_cases h0 : a' = []
        · have : b' = [] := List.length_eq_zero_iff.1 (by rw [← hlen', h0]; rfl)
          rw [h0, this]
        · have : b' ≠ [] := by intro h; rw [h] at hlen'; exact h0 (List.length_eq_zero_iff.1 hlen')
          rw [chain_length hl a' h0, chain_length hl b' this]
      obtain ⟨hc, hxy⟩ := List.append_inj hin hcl
      rcases ih a' b' hlen' hc (by omega) with h | ⟨i, hi, hj, hcol⟩
      · left; rw [h, hxy]
      · right
        refine ⟨i, by simp; omega, by simp; omega, ?_⟩
        rw [List.take_append_of_le_length (by omega), List.take_append_of_le_length (by omega),
          List.getElem_append_left hi, List.getElem_append_left hj]
        exact hcol
    · right
      refine ⟨a'.length, by simp, by simp; omega, ?_⟩
      have e1 : (a' ++ [x]).take a'.length = a' := by simp
      have e2 : (b' ++ [y]).take a'.length = b' := by rw [hlen']; simp
      have e3 : (b' ++ [y])[a'.length]'(by simp; omega) = y := by simp [hlen']
      rw [e1, e2, e3]
      simp only [List.getElem_concat_length]
      refine ⟨hin, ?_⟩
      rw [← chain_append H, ← chain_append H]; exact hh

/-- **C01** (databases). Take any two databases, each after any disciplined run (crashes
included). If both hold a journal row for the same commit number `N` with the same hash, then
their first `N` committed transactions are the same, byte for byte, or the two histories contain
an explicit digest collision. -/
theorem c01_same_hash_same_history (e₁ e₂ : Env) (H : Bytes → Bytes) (k : Nat)
    (hk : 0 < k) (hl : ∀ x, (H x).length = k) (h₁ : e₁.sha1hex = H) (h₂ : e₂.sha1hex = H)
    (n₁ : 0 < e₁.numJournals) (n₂ : 0 < e₂.numJournals) (ops₁ ops₂ : List Op)
    (d₁ : Disciplined {} (trace e₁ ops₁)) (d₂ : Disciplined {} (trace e₂ ops₂))
    (r₁ r₂ : Row) (N : Nat)
    (g₁ : getCommit e₁ (final e₁ ops₁).tables N = some r₁)
    (g₂ : getCommit e₂ (final e₂ ops₂).tables N = some r₂)
    (hh : r₁.hash = r₂.hash) :
    (history e₁ ops₁).take N = (history e₂ ops₂).take N ∨
    ∃ i x y, (history e₁ ops₁)[i]? = some x ∧ (history e₂ ops₂)[i]? = some y ∧ i < N ∧
      Collision H (chain H ((history e₁ ops₁).take i) ++ x) (chain H ((history e₂ ops₂).take i) ++ y) := by
  have hne : ∀ x, H x ≠ [] := by
    intro x hx; have := hl x; rw [hx] at this; simp at this; omega
  have i₁ := reach n₁ (by rw [h₁]; exact hne) ops₁ d₁
  have i₂ := reach n₂ (by rw [h₂]; exact hne) ops₂ d₂
  have key : ∀ (e : Env) (ops : List Op), Inv e (final e ops) (view (trace e ops)) →
      ∀ r, getCommit e (final e ops).tables N = some r →
        N ≤ (history e ops).length ∧ r.hash = chain e.sha1hex ((history e ops).take N) := by
    intro e ops hi r hr
    have hid : r.id = N := by simpa using List.find?_some hr
    obtain ⟨t, _, hmem⟩ := (mem_allRows _ _ _).1 (List.mem_of_find?_eq_some hr)
    obtain ⟨_, a, _, b⟩ := hi.rows t r hmem
    exact ⟨hid ▸ a, hid ▸ b⟩
  obtain ⟨a₁, b₁⟩ := key _ _ i₁ r₁ g₁
  obtain ⟨a₂, b₂⟩ := key _ _ i₂ r₂ g₂
  rw [h₁] at b₁; rw [h₂] at b₂
  rcases c01_chain_agreement H k hl ((history e₁ ops₁).take N) ((history e₂ ops₂).take N)
    (by simp [a₁, a₂]) (by rw [← b₁, ← b₂, hh]) with h | ⟨i, hi, hj, hc⟩
  · exact Or.inl h
  · right
    simp only [List.length_take] at hi hj
    refine ⟨i, (history e₁ ops₁)[i]'(by omega), (history e₂ ops₂)[i]'(by omega),
      by simp, by simp, by omega, ?_⟩
    rw [List.take_take, List.take_take, Nat.min_eq_left (by omega)] at hc
    simpa using hc

/-- Hypotheses met: the example run (and the same run after a crash) both hold commit 3. -/
example : (getCommit exEnv (final exEnv exOps).tables 3).map Row.hash =
    (getCommit exEnv (final exEnv (exOps ++ [.crash])).tables 3).map Row.hash ∧
    (getCommit exEnv (final exEnv exOps).tables 3).isSome := by decide +kernel

/-! ## C06: the replication feed -/

/-- **C06** At every moment what was handed out for replication since the process started,
followed by what is waiting to be handed out, is exactly the list of transactions committed since
then: each once, in commit order, numbered consecutively, with the text stored in the journal
and the hash of the history up to it. -/
theorem c06_feed_complete (env : Env) (hnj : 0 < env.numJournals) (hne : ∀ x, env.sha1hex x ≠ [])
    (ops : List Op) (hd : Disciplined {} (trace env ops)) :
    (view (trace env ops)).feed ++ (final env ops).committed =
      entries env (history env ops) (view (trace env ops)).startedAt :=
  (reach hnj hne ops hd).feed

theorem run_append (env : Env) (s : Sys) (a b : List Op) :
    run env s (a ++ b) =
      ((run env (run env s a).1 b).1, (run env s a).2 ++ (run env (run env s a).1 b).2) := by
  induction a generalizing s with
  | nil => simp [run]
  | cons x xs ih => simp [run, ih]

theorem view_append (a b : List (Op × Out)) : view (a ++ b) = b.foldl View.step (view a) := by
  simp [view]

/-- **C06** After draining, what was handed out is exactly the committed transactions; the drain
itself commits nothing. In particular a rolled-back transaction is never handed out. -/
theorem c06_drain (env : Env) (hnj : 0 < env.numJournals) (hne : ∀ x, env.sha1hex x ≠ [])
    (ops : List Op) (hd : Disciplined {} (trace env ops)) :
    let v := view (trace env (ops ++ [.pop]))
    v.log = history env ops ∧ v.feed = entries env v.log v.startedAt := by
  have h := c06_feed_complete env hnj hne ops hd
  have ht : trace env (ops ++ [.pop]) = trace env ops ++ [(.pop, .popped (final env ops).committed)] := by
    simp [trace, run_append, run, step, final]
  rw [ht, view_append]
  exact ⟨rfl, h⟩

example : (view (trace exEnv (exOps ++ [.pop]))).feed =
    [(1, ([0, 65], exEnv.sha1hex [65])),
     (2, ([0, 66], exEnv.sha1hex (exEnv.sha1hex [65] ++ [66]))),
     (3, ([0, 69], exEnv.sha1hex (exEnv.sha1hex (exEnv.sha1hex [65] ++ [66]) ++ [69])))] := by
  decide +kernel

/-! ## C08: commits disabled -/

/-- A call that may switch commits back on: enabling them, or the process restarting. -/
def mayEnable : Op × Out → Bool
  | (.setCommitEnabled _ true, _) => true
  | (.crash, _) | (.crashInCommit _, _) | (_, .abort) => true
  | _ => false

/-- A successful commit. -/
def isCommit : Op × Out → Bool
  | (.commit _ _, .committed) | (.crashInCommit _, .committed) => true
  | _ => false

theorem lockRelease_enabled (s : Sys) : (lockRelease s).commitEnabled = s.commitEnabled := by
  rw [lockRelease_lock]

theorem rollback_enabled (s : Sys) (h : Nat) : (rollback s h).commitEnabled = s.commitEnabled := by
  unfold rollback
  dsimp only
  repeat' split
  · rw [lockRelease_enabled]
  · rfl
  · rfl

theorem acquire_enabled (s : Sys) (h : Nat) : (acquire s h).commitEnabled = s.commitEnabled := by
  unfold acquire lockAcquire; dsimp only; split <;> rfl

theorem step_disabled (env : Env) (s : Sys) (op : Op) (hs : s.commitEnabled = false)
    (hm : mayEnable (op, (step env s op).2) = false) :
    (step env s op).1.commitEnabled = false ∧ isCommit (op, (step env s op).2) = false := by
  have hab : (step env s op).2 ≠ .abort := by
    intro h; rw [h] at hm
    cases op with
    | setCommitEnabled t e => cases e <;> simp [mayEnable] at hm
    | _ => simp [mayEnable] at hm
  cases op with
  | begin h e sy ok =>
    refine ⟨?_, by simp [isCommit]⟩
    simp only [step] at hab ⊢
    split
    · rename_i hc; simp [hc] at hab
    · unfold begin'
      have core : ∀ s1 : Sys, s1.commitEnabled = false →
          (if ((s1.handles h).inside || !(s1.handles h).uhash.isEmpty || !(s1.handles h).uquery.isEmpty) = true
               then (rollback s1 h, Out.failed)
               else ({ s1 with handles := upd s1.handles h { s1.handles h with inside := ok } },
                     if ok = true then Out.done else Out.failed)).1.commitEnabled = false := by
        intro s1 h1
        split
        · rw [rollback_enabled]; exact h1
        · exact h1
      split
      · exact hs
      · cases e with
        | false => exact core s hs
        | true => exact core (acquire s h) (by rw [acquire_enabled]; exact hs)
  | write h q k ok =>
    refine ⟨?_, by simp [isCommit]⟩
    simp only [step] at hab ⊢
    split
    · rename_i hc; simp [hc] at hab
    · unfold write; dsimp only; split <;> exact hs
  | prepare h w p ok =>
    refine ⟨?_, by simp [isCommit]⟩
    simp only [step] at hab ⊢
    split
    · rename_i hc; simp [hc] at hab
    · rename_i hna
      by_cases hin : (s.handles h).inside = true
      · rcases prepare_cases env s h w p ok hin with ⟨he, _⟩ | ⟨s2, hs2, he⟩
        · rw [he]; exact hs
        · rw [he]
          have h2 : s2.commitEnabled = false := by
            rcases hs2 with ⟨rfl, _⟩ | ⟨rfl, _⟩
            · exact hs
            · rw [acquire_enabled]; exact hs
          cases ok with
          | true => exact h2
          | false =>
            show (rollback _ h).commitEnabled = false
            rw [rollback_enabled]; exact h2
      · simp [prepare, hin] at hna
  | commit h ok =>
    have : commit s h ok = (s, .disabled) := by simp [commit, hs]
    simp [step, this, hs, isCommit]
  | rollback h =>
    refine ⟨?_, by simp [isCommit]⟩
    simp only [step, reduceCtorEq, if_false]
    rw [rollback_enabled]; exact hs
  | setCommitEnabled t e =>
    refine ⟨?_, by simp [isCommit]⟩
    cases e with
    | true => simp [mayEnable] at hm
    | false => simp [step, hs]
  | pop => simp [step, hs, isCommit]
  | crash => simp [mayEnable] at hm
  | crashInCommit h => simp [mayEnable] at hm

theorem run_disabled (env : Env) (ops : List Op) : ∀ s : Sys, s.commitEnabled = false →
    (∀ e ∈ (run env s ops).2, mayEnable e = false) →
    ∀ e ∈ (run env s ops).2, isCommit e = false := by
  induction ops with
  | nil => intro s _ _ e he; simp [run] at he
  | cons op ops ih =>
    intro s hs hm e he
    simp only [run, List.mem_cons, forall_eq_or_imp] at hm he
    obtain ⟨h1, h2⟩ := step_disabled env s op hs hm.1
    rcases he with rfl | he
    · exact h2
    · exact ih _ h1 hm.2 e he

/-- **C08** In any run whatsoever, after a completed `setCommitEnabled(false)` and until commits
are switched on again (or the process restarts), no commit on any handle succeeds. -/
theorem c08_no_commit_while_disabled (env : Env) (before after : List Op) (t : Nat)
    (hdone : (step env (final env before) (.setCommitEnabled t false)).2 = .done)
    (hm : ∀ e ∈ (run env (step env (final env before) (.setCommitEnabled t false)).1 after).2,
      mayEnable e = false) :
    ∀ e ∈ (run env (step env (final env before) (.setCommitEnabled t false)).1 after).2,
      isCommit e = false := by
  apply run_disabled _ _ _ ?_ hm
  simp only [step] at hdone ⊢
  by_cases h1 : (final env before).commitEnabled = false
  · simp [h1]
  · by_cases h2 : lockFree (final env before) t = true
    · simp [h1, h2]
    · simp [h1, h2] at hdone

/-- **C08** `setCommitEnabled(false)` cannot complete while another handle is between `prepare`
and the end of its transaction (it waits for the commit lock), so no commit is under way when it
returns. -/
theorem c08_disable_waits_for_commits (env : Env) (hnj : 0 < env.numJournals)
    (hne : ∀ x, env.sha1hex x ≠ []) (ops : List Op) (hd : Disciplined {} (trace env ops))
    (t h : Nat) (hen : (final env ops).commitEnabled = true)
    (hp : (view (trace env ops)).prepped h = true) (hth : t ≠ h) :
    step env (final env ops) (.setCommitEnabled t false) = (final env ops, .blocked) := by
  have hi := reach hnj hne ops hd
  have H := hi.handle h
  have hu : ((final env ops).handles h).uhash ≠ [] := by
    intro hc; have := H.prepped; rw [hp, hc] at this; simp at this
  obtain ⟨n, hn⟩ := H.locked (H.prepared hu).2.1
  have hf : lockFree (final env ops) t = false := by
    simp [lockFree, hn]; exact fun h' => hth h'.symm
  simp [step, hen, hf]

/-- **C08** A refused commit changes nothing at all, and a rollback then ends the transaction and
gives the commit lock back. -/
theorem c08_refused_commit_can_roll_back (env : Env) (hnj : 0 < env.numJournals)
    (hne : ∀ x, env.sha1hex x ≠ []) (ops : List Op) (hd : Disciplined {} (trace env ops))
    (hc : Careful (fun _ => false) (trace env ops)) (h : Nat) (ok : Bool)
    (hr : (step env (final env ops) (.commit h ok)).2 = .disabled) :
    (step env (final env ops) (.commit h ok)).1 = final env ops ∧
    (let s := (step env (final env ops) (.rollback h)).1
     (s.handles h).inside = false ∧ (s.handles h).locked = false ∧ (∀ n, s.lock ≠ some (h, n)) ∧
     s.tables = (final env ops).tables ∧ s.commitCount = (final env ops).commitCount) := by
  have hl : LockInv (final env ops) _ := lockInv_run hnj hne ops _ _ _ (inv_init env)
    (lockInv_restart _ _ _) hd hc
  constructor
  · by_cases hen : (final env ops).commitEnabled = true
    · exfalso
      have : (commit (final env ops) h ok).2 ≠ .disabled := by
        unfold commit
        rw [if_neg (by simp [hen])]
        dsimp only
        repeat' split
        all_goals simp
      simp only [step] at hr
      split at hr
      · simp at hr
      · exact this hr
    · have : commit (final env ops) h ok = (final env ops, .disabled) := by
        simp [commit, hen]
      simp [step, this]
  · have h2 := lockInv_rollback hl h
    have e : step env (final env ops) (.rollback h) = (rollback (final env ops) h, .done) := by
      simp [step]
    rw [e]
    have hin : ((rollback (final env ops) h).handles h).inside = false := by
      cases hc : ((rollback (final env ops) h).handles h).inside with
      | false => rfl
      | true => have := h2.opened h hc; simp at this
    have hlk : ((rollback (final env ops) h).handles h).locked = false := by
      cases hc : ((rollback (final env ops) h).handles h).locked with
      | false => rfl
      | true => have := (h2.held h hc).2; simp [hin] at this
    refine ⟨hin, hlk, ?_, ?_, ?_⟩
    · intro n hn
      have := (h2.owner h n hn).2
      simp [hlk] at this
    · simp only [rollback]; repeat' split
      · rw [lockRelease_lock]
      · rfl
      · rfl
    · simp only [rollback]; repeat' split
      · rw [lockRelease_lock]
      · rfl
      · rfl

/-- Non-vacuity: an open prepared transaction on the disabling thread itself is refused. -/
example : (trace exEnv [.begin 0 false true true, .write 0 [65] true true, .prepare 0 true [] true,
      .setCommitEnabled 1 false, .setCommitEnabled 0 false, .commit 0 true, .rollback 0]).map Prod.snd =
    [.done, .done, .done, .blocked, .done, .disabled, .done] := by decide +kernel

/-! ## C09: journal trimming and restart -/

/-- **C09** After any disciplined run, each of the newest `maxJournalSize + 1` commits is still
found in the journal with its exact text and hash; and any row that is found at all is right. -/
theorem c09_newest_commits_kept (env : Env) (hnj : 0 < env.numJournals)
    (hne : ∀ x, env.sha1hex x ≠ []) (ops : List Op) (hd : Disciplined {} (trace env ops)) (i : Nat)
    (h1 : 1 ≤ i) (h2 : i ≤ (history env ops).length)
    (h3 : (history env ops).length ≤ i + env.maxJournalSize + 1) :
    getCommit env (final env ops).tables i =
      some ⟨i, stored env ((history env ops).getD (i - 1) []),
        chain env.sha1hex ((history env ops).take i)⟩ := by
  have hi := reach hnj hne ops hd
  obtain ⟨t, ht, r, hr, hid⟩ := hi.kept i h1 h2 h3
  cases hg : getCommit env (final env ops).tables i with
  | none =>
    have := List.find?_eq_none.1 hg r ((mem_allRows _ _ _).2 ⟨t, ht, hr⟩)
    simp [hid] at this
  | some r' =>
    have hid' : r'.id = i := by simpa using List.find?_some hg
    obtain ⟨t', _, hmem⟩ := (mem_allRows _ _ _).1 (List.mem_of_find?_eq_some hg)
    obtain ⟨_, _, c, d⟩ := hi.rows t' r' hmem
    cases r' with
    | mk id q hsh => simp only at hid' c d; subst hid'; rw [c, d]; rfl

/-- **C09** A journal row that is found is always the right one, however old. -/
theorem c09_rows_sound (env : Env) (hnj : 0 < env.numJournals)
    (hne : ∀ x, env.sha1hex x ≠ []) (ops : List Op) (hd : Disciplined {} (trace env ops)) (i : Nat)
    (r : Row) (hg : getCommit env (final env ops).tables i = some r) :
    1 ≤ i ∧ i ≤ (history env ops).length ∧
    r = ⟨i, stored env ((history env ops).getD (i - 1) []),
        chain env.sha1hex ((history env ops).take i)⟩ := by
  have hi := reach hnj hne ops hd
  have hid' : r.id = i := by simpa using List.find?_some hg
  obtain ⟨t', _, hmem⟩ := (mem_allRows _ _ _).1 (List.mem_of_find?_eq_some hg)
  obtain ⟨a, b, c, d⟩ := hi.rows t' r hmem
  cases r with
  | mk id q hsh =>
    simp only at hid' a b c d; subst hid'; exact ⟨a, b, by rw [c, d]; rfl⟩

/-- **C09** At every moment — in particular right after a crash at any point, including one in the
middle of `commit` — the reported commit count and hash are those of the committed history. -/
theorem c09_restart_recovers (env : Env) (hnj : 0 < env.numJournals)
    (hne : ∀ x, env.sha1hex x ≠ []) (ops : List Op) (hd : Disciplined {} (trace env ops)) :
    (final env ops).commitCount = (history env ops).length ∧
    (final env ops).lastHash = chain env.sha1hex (history env ops) ∧
    (final env (ops ++ [.crash])).commitCount = (history env ops).length ∧
    (final env (ops ++ [.crash])).lastHash = chain env.sha1hex (history env ops) ∧
    history env (ops ++ [.crash]) = history env ops := by
  have hi := reach hnj hne ops hd
  have hr := inv_restart hi
  have e : final env (ops ++ [.crash]) = restart env (final env ops).tables := by
    simp [final, run_append, run, step]
  refine ⟨hi.count, hi.hash, ?_, ?_, ?_⟩
  · rw [e]; exact hr.count
  · rw [e]; exact hr.hash
  · simp [history, trace, run_append, run, step, view, View.step]

/-- **C09** Dying inside `commit` after the data is durable loses nothing: the transaction is part
of the history the restarted process reports. -/
theorem c09_crash_in_commit (env : Env) (hnj : 0 < env.numJournals)
    (hne : ∀ x, env.sha1hex x ≠ []) (ops : List Op) (hd : Disciplined {} (trace env ops)) (h : Nat)
    (hp : (view (trace env ops)).prepped h = true) (hen : (final env ops).commitEnabled = true) :
    let h' := history env ops ++ [(view (trace env ops)).pend h]
    history env (ops ++ [.crashInCommit h]) = h' ∧
    (final env (ops ++ [.crashInCommit h])).commitCount = h'.length ∧
    (final env (ops ++ [.crashInCommit h])).lastHash = chain env.sha1hex h' := by
  have hi := reach hnj hne ops hd
  have H := hi.handle h
  have hu : ((final env ops).handles h).uhash ≠ [] := by
    intro hc; have := H.prepped; rw [hp, hc] at this; simp at this
  have hin := (H.prepared hu).1
  have hc : (commit (final env ops) h true).2 = .committed := by
    simp [commit, hen, hin, hu]
  have hs := inv_step hi (.crashInCommit h) trivial hnj hne
  have hstep : step env (final env ops) (.crashInCommit h) =
      (restart env (commit (final env ops) h true).1.tables, .committed) := by
    simp [step, hc]
  have ht : trace env (ops ++ [.crashInCommit h]) = trace env ops ++ [(.crashInCommit h, .committed)] := by
    have : run env (init env) (ops ++ [.crashInCommit h]) = _ := run_append env _ _ _
    unfold trace; rw [this]
    simp only [run]
    congr 2
    exact congrArg (fun x => (Op.crashInCommit h, x)) (congrArg Prod.snd hstep)
  have hf : final env (ops ++ [.crashInCommit h]) = (step env (final env ops) (.crashInCommit h)).1 := by
    unfold final; rw [run_append]; rfl
  have hlog : history env (ops ++ [.crashInCommit h]) =
      history env ops ++ [(view (trace env ops)).pend h] := by
    unfold history; rw [ht, view_append]; simp [View.step]
  refine ⟨hlog, ?_, ?_⟩
  · rw [hf, hs.count, ← hlog, hstep]
    unfold history; rw [ht, view_append]; rfl
  · rw [hf, hs.hash, ← hlog, hstep]
    unfold history; rw [ht, view_append]; rfl

/-- Non-vacuity, and trimming really deletes: after the example run (maximum size 1) commit 1
is gone although 3 commits happened, commits 2 and 3 are kept. -/
example : (getCommit exEnv (final exEnv (exOps ++ [.begin 0 false true true, .prepare 0 true [1, 2] true,
      .commit 0 true])).tables 1) = none ∧
    (getCommit exEnv (final exEnv (exOps ++ [.begin 0 false true true, .prepare 0 true [1, 2] true,
      .commit 0 true, .crash])).tables 3).isSome = true ∧
    (final exEnv (exOps ++ [.begin 0 false true true, .prepare 0 true [1, 2] true,
      .crashInCommit 0])).commitCount = 4 := by decide +kernel

/-! ## C10: the commit lock -/

/-- **C10** At most one handle holds the commit lock, and a handle that prepared holds it. -/
theorem c10_lock_exclusive (env : Env) (hnj : 0 < env.numJournals)
    (hne : ∀ x, env.sha1hex x ≠ []) (ops : List Op) (hd : Disciplined {} (trace env ops)) :
    (∀ h₁ h₂, ((final env ops).handles h₁).locked = true → ((final env ops).handles h₂).locked = true →
      h₁ = h₂) ∧
    (∀ h, (view (trace env ops)).prepped h = true →
      ((final env ops).handles h).locked = true ∧ ∃ n, (final env ops).lock = some (h, n + 1)) ∧
    (∀ h₁ h₂, (view (trace env ops)).prepped h₁ = true → (view (trace env ops)).prepped h₂ = true →
      h₁ = h₂) := by
  have hi := reach hnj hne ops hd
  have h1 : ∀ h₁ h₂, ((final env ops).handles h₁).locked = true →
      ((final env ops).handles h₂).locked = true → h₁ = h₂ := by
    intro h₁ h₂ a b
    obtain ⟨n, hn⟩ := (hi.handle h₁).locked a
    obtain ⟨m, hm⟩ := (hi.handle h₂).locked b
    rw [hn] at hm; simp at hm; exact hm.1
  have h2 : ∀ h, (view (trace env ops)).prepped h = true →
      ((final env ops).handles h).locked = true ∧ ∃ n, (final env ops).lock = some (h, n + 1) := by
    intro h hp
    have H := hi.handle h
    have hu : ((final env ops).handles h).uhash ≠ [] := by
      intro hc; have := H.prepped; rw [hp, hc] at this; simp at this
    have := (H.prepared hu).2.1
    exact ⟨this, H.locked this⟩
  exact ⟨h1, h2, fun h₁ h₂ a b => h1 _ _ (h2 _ a).1 (h2 _ b).1⟩

/-- **C10** (giving the lock back; partial: needs callers that never `begin` twice on one handle,
and SQLite's `BEGIN` not to fail – without that the lock leaks, see the two witnesses below).
The lock is held only by a handle whose user has a transaction open, and never recursively; so
after a successful commit or a rollback the handle does not hold it, and when no transaction is
open it is free. -/
theorem c10_lock_given_back_partial (env : Env) (hnj : 0 < env.numJournals)
    (hne : ∀ x, env.sha1hex x ≠ []) (ops : List Op) (hd : Disciplined {} (trace env ops))
    (hc : Careful (fun _ => false) (trace env ops)) (h n : Nat)
    (hlock : (final env ops).lock = some (h, n)) :
    n = 1 ∧ (trace env ops).foldl openStep (fun _ => false) h = true := by
  have hl : LockInv (final env ops) _ := lockInv_run hnj hne ops _ _ _ (inv_init env)
    (lockInv_restart _ _ _) hd hc
  obtain ⟨a, b⟩ := hl.owner h n hlock
  exact ⟨a, hl.opened h (hl.held h b).2⟩

/-- **C10** Corollary: right after a rollback, or after a commit that succeeded, the handle does
not own the lock. -/
theorem c10_released_after_end_partial (env : Env) (hnj : 0 < env.numJournals)
    (hne : ∀ x, env.sha1hex x ≠ []) (ops : List Op) (op : Op)
    (hd : Disciplined {} (trace env (ops ++ [op])))
    (hc : Careful (fun _ => false) (trace env (ops ++ [op]))) (h : Nat)
    (hop : op = .rollback h ∨ (∃ ok, op = .commit h ok ∧
      (step env (final env ops) op).2 = .committed)) (n : Nat) :
    (final env (ops ++ [op])).lock ≠ some (h, n) := by
  intro hl
  have h2 := (c10_lock_given_back_partial env hnj hne _ hd hc h n hl).2
  have ht : trace env (ops ++ [op]) = trace env ops ++ [(op, (step env (final env ops) op).2)] := by
    unfold trace; rw [run_append]; rfl
  rw [ht, List.foldl_append] at h2
  simp only [List.foldl_cons, List.foldl_nil] at h2
  rcases hop with rfl | ⟨ok, rfl, hk⟩
  · have : (step env (final env ops) (.rollback h)).2 = .done := by simp [step]
    rw [this] at h2
    simp [openStep] at h2
  · rw [hk] at h2; simp [openStep] at h2

/-- The example run is careful (see above) and at its end the lock is free. -/
example : (final exEnv exOps).lock = none := by decide +kernel

/-- **C10, violation**: calling `beginTransaction(EXCLUSIVE)` on a handle whose exclusive
transaction is open locks the recursive mutex a second time, but the rollback it triggers unlocks
only once: the lock stays taken for ever although no handle believes it holds it, and every other
handle's `prepare` fails. -/
theorem c10_double_begin_leaks_lock :
    let ops : List Op := [.begin 0 true false true, .begin 0 true false true, .rollback 0,
      .begin 1 false false true, .prepare 1 true [] true]
    (final exEnv ops).lock = some (0, 1) ∧ ((final exEnv ops).handles 0).locked = false ∧
    (trace exEnv ops).map Prod.snd = [.done, .failed, .done, .done, .failed] := by decide +kernel

/-- **C10, violation**: if SQLite's `BEGIN` fails after the exclusive lock was taken, `rollback`
does nothing because no transaction is open, and the lock stays taken. -/
theorem c10_failed_begin_leaks_lock :
    let ops : List Op := [.begin 0 true false false, .rollback 0,
      .begin 1 false false true, .prepare 1 true [] true]
    (final exEnv ops).lock = some (0, 1) ∧
    (trace exEnv ops).map Prod.snd = [.failed, .done, .done, .failed] := by decide +kernel

theorem minEntry_le {l : List Row} {r : Row} (h : r ∈ l) : minEntry l ≤ r.id := by
  have fold : ∀ (l : List Nat) (a : Nat), l.foldl min a ≤ a ∧ ∀ x ∈ l, l.foldl min a ≤ x := by
    intro l
    induction l with
    | nil => intro a; exact ⟨Nat.le_refl _, by simp⟩
    | cons b l ih =>
      intro a
      simp only [List.foldl_cons]
      refine ⟨Nat.le_trans (ih _).1 (by omega), ?_⟩
      intro x hx
      rcases List.mem_cons.1 hx with rfl | hx
      · exact Nat.le_trans (ih _).1 (by omega)
      · exact (ih _).2 x hx
  have hm : r.id ∈ l.map Row.id := List.mem_map_of_mem h
  unfold minEntry
  cases hl : l.map Row.id with
  | nil => rw [hl] at hm; simp at hm
  | cons x xs =>
    rw [hl] at hm
    rcases List.mem_cons.1 hm with e | e
    · rw [e]; exact (fold xs x).1
    · exact (fold xs x).2 _ e

theorem trims_stay (t i : Nat) : ∀ (l : List (Nat × List Nat)) (tb : Nat → List Row), (∀ r ∈ tb t, r.id ≠ i) →
    ∀ r ∈ (l.foldl (fun tb e => upd tb e.1 ((tb e.1).filter (fun r => !e.2.contains r.id))) tb) t, r.id ≠ i := by
  intro l
  induction l with
  | nil => intro tb h; exact h
  | cons e l ih =>
    intro tb h
    simp only [List.foldl_cons]
    refine ih _ ?_
    intro r hr
    unfold upd at hr
    by_cases he : t = e.1
    · rw [if_pos he] at hr
      exact h r (by rw [he]; exact (List.mem_filter.1 hr).1)
    · rw [if_neg he] at hr
      exact h r hr

/-- **C09** Trimming happens: a commit of a handle that holds the lock removes from the journal table it writes to the entry
SQLite comes to first among those more than `maxJournalSize` commits old. -/
theorem c09_old_entry_goes (env : Env) (s : Sys) (h i : Nat) (pick : List Nat) (hne : ∀ x, env.sha1hex x ≠ [])
    (hen : s.commitEnabled = true) (hin : (s.handles h).inside = true) (hlk : (s.handles h).locked = true)
    (hold : i + env.maxJournalSize < s.commitCount)
    (hrow : ∃ r ∈ s.tables (s.nextJournal % env.numJournals), r.id = i) :
    (commit (prepare env s h true (i :: pick) true).1 h true).2 = .committed ∧
    ∀ r ∈ (commit (prepare env s h true (i :: pick) true).1 h true).1.tables (s.nextJournal % env.numJournals), r.id ≠ i := by
  obtain ⟨r0, hr0, hi0⟩ := hrow
  have hk : oldestToKeep env s.commitCount = s.commitCount - env.maxJournalSize := by
    unfold oldestToKeep; rw [if_neg (by omega)]
  have hin' : i ∈ trimIds env s (s.nextJournal % env.numJournals) (i :: pick) := by
    unfold trimIds
    have hmin := minEntry_le hr0
    rw [if_pos (by rw [hk]; omega)]
    rw [List.filter_cons_of_pos]
    · simp
    · simp only [Bool.and_eq_true, List.contains_iff_mem, decide_eq_true_eq]
      exact ⟨List.mem_map.2 ⟨r0, hr0, hi0⟩, by rw [hk]; omega⟩
  unfold prepare
  simp only [hin, hlk, Bool.not_true, Bool.false_and, Bool.false_eq_true, if_false, if_true]
  unfold commit
  simp only [hen, Bool.not_true, Bool.false_eq_true, if_false, upd, if_true, hin, Bool.false_or]
  rw [if_neg (by simpa using hne _)]
  refine ⟨rfl, ?_⟩
  intro r hr
  have lr : ∀ x : Sys, (lockRelease x).tables = x.tables := by
    intro x; unfold lockRelease; split <;> rfl
  rw [lr] at hr
  simp only [incrementCommit, applyJournal, List.foldl_cons, upd, if_true, List.mem_append, List.mem_singleton] at hr
  rcases hr with hr | rfl
  · refine trims_stay _ i _ _ ?_ r hr
    intro r' hr'
    simp only [upd, if_true] at hr'
    intro e
    have := (List.mem_filter.1 hr').2
    rw [e] at this
    simp [hin'] at this
  · simp only
    omega

end Bedrock.DB
