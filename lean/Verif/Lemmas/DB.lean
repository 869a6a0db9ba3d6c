import Verif.Spec.DB

namespace Bedrock.DB
open Spec

/-! ## Facts about the hash chain and the replication entries -/

theorem chain_append (H : Bytes → Bytes) (log : List Bytes) (q : Bytes) :
    chain H (log ++ [q]) = H (chain H log ++ q) := by
  simp [chain]

theorem entries_self (env : Env) (log : List Bytes) : entries env log log.length = [] := by
  simp [entries]

theorem entries_append (env : Env) (log : List Bytes) (q : Bytes) (k : Nat) (hk : k ≤ log.length) :
    entries env (log ++ [q]) k =
      entries env log k ++
        [(log.length + 1, (stored env q, chain env.sha1hex (log ++ [q])))] := by
  unfold entries
  have : (log ++ [q]).length - k = (log.length - k) + 1 := by simp; omega
  rw [this, List.range'_concat, List.map_append]
  congr 1
  · apply List.map_congr_left
    intro i hi
    have hi' : i < log.length := by
      simp [List.mem_range'] at hi; omega
    simp [List.getD, List.getElem?_append_left hi', List.take_append_of_le_length (show i + 1 ≤ log.length by omega)]
  · have : k + (log.length - k) = log.length := by omega
    simp [this, List.take_of_length_le]

theorem entries_keys_le (env : Env) (log : List Bytes) (k : Nat) :
    ∀ e ∈ entries env log k, e.1 ≤ log.length := by
  intro e he
  simp [entries, List.mem_range'] at he
  obtain ⟨i, hi, rfl⟩ := he
  simp; omega

/-! ## Map lemmas -/

theorem find_insertOrAssign (m : TxMap) (k : Nat) (v : Bytes × Bytes) :
    (m.insertOrAssign k v).find k = some (k, v) := by
  simp [TxMap.insertOrAssign, TxMap.find]

theorem insertSorted_last (m : TxMap) (e : Nat × (Bytes × Bytes)) (h : ∀ x ∈ m, x.1 < e.1) :
    m.insertSorted e = m ++ [e] := by
  induction m with
  | nil => rfl
  | cons x xs ih =>
    have hx := h x (by simp)
    simp only [TxMap.insertSorted]
    rw [if_neg (by omega), if_neg (by omega), ih (fun y hy => h y (by simp [hy]))]
    rfl

/-! ## The invariant relating the model's state to the observed trace -/

structure HandleInv (env : Env) (s : Sys) (v : View) (h : Nat) : Prop where
  outside : (s.handles h).inside = false →
    (s.handles h).uhash = [] ∧ (s.handles h).uquery = [] ∧ (s.handles h).pending = none ∧
      (s.handles h).trims = []
  opened : (s.handles h).inside = true → (s.handles h).uhash = [] →
    (s.handles h).uquery = v.pend h ∧ (s.handles h).pending = none
  prepared : (s.handles h).uhash ≠ [] →
    (s.handles h).inside = true ∧ (s.handles h).locked = true ∧
    (s.handles h).uhash = env.sha1hex (s.lastHash ++ v.pend h) ∧
    (∃ t, t < env.numJournals ∧
      (s.handles h).pending = some (t, ⟨s.commitCount + 1, stored env (v.pend h), (s.handles h).uhash⟩)) ∧
    s.prepared.find (s.commitCount + 1) =
      some (s.commitCount + 1, (stored env (v.pend h), (s.handles h).uhash))
  prepped : v.prepped h = !(s.handles h).uhash.isEmpty
  trims : ∀ e ∈ (s.handles h).trims, ∀ i ∈ e.2, i + env.maxJournalSize < s.commitCount
  locked : (s.handles h).locked = true → ∃ n, s.lock = some (h, n + 1)

structure Inv (env : Env) (s : Sys) (v : View) : Prop where
  count : s.commitCount = v.log.length
  hash : s.lastHash = chain env.sha1hex v.log
  started : v.startedAt ≤ v.log.length
  feed : v.feed ++ s.committed = entries env v.log v.startedAt
  handle : ∀ h, HandleInv env s v h
  rows : ∀ t, ∀ r ∈ s.tables t, 1 ≤ r.id ∧ r.id ≤ v.log.length ∧
    r.query = stored env (v.log.getD (r.id - 1) []) ∧
    r.hash = chain env.sha1hex (v.log.take r.id)
  kept : ∀ i, 1 ≤ i → i ≤ v.log.length → v.log.length ≤ i + env.maxJournalSize + 1 →
    ∃ t, t < env.numJournals ∧ ∃ r ∈ s.tables t, r.id = i

/-! ## Restart -/

theorem foldl_max_ge (l : List Row) (m : Nat) : m ≤ l.foldl (fun m r => max m r.id) m := by
  induction l generalizing m with
  | nil => simp
  | cons x xs ih => simp only [List.foldl_cons]; exact Nat.le_trans (Nat.le_max_left _ _) (ih _)

theorem foldl_max_mem (l : List Row) (m : Nat) (r : Row) (hr : r ∈ l) :
    r.id ≤ l.foldl (fun m r => max m r.id) m := by
  induction l generalizing m with
  | nil => simp at hr
  | cons x xs ih =>
    simp only [List.foldl_cons]
    rcases List.mem_cons.1 hr with rfl | h
    · exact Nat.le_trans (Nat.le_max_right _ _) (foldl_max_ge _ _)
    · exact ih _ h

theorem foldl_max_le (l : List Row) (m b : Nat) (hm : m ≤ b) (h : ∀ r ∈ l, r.id ≤ b) :
    l.foldl (fun m r => max m r.id) m ≤ b := by
  induction l generalizing m with
  | nil => simpa
  | cons x xs ih =>
    simp only [List.foldl_cons]
    exact ih _ (Nat.max_le.2 ⟨hm, h x (by simp)⟩) (fun r hr => h r (by simp [hr]))

theorem mem_allRows (env : Env) (tb : Nat → List Row) (r : Row) :
    r ∈ allRows env tb ↔ ∃ t, t < env.numJournals ∧ r ∈ tb t := by
  simp [allRows]

theorem restart_count_hash (env : Env) (tb : Nat → List Row) (log : List Bytes)
    (rows : ∀ t, ∀ r ∈ tb t, 1 ≤ r.id ∧ r.id ≤ log.length ∧
      r.query = stored env (log.getD (r.id - 1) []) ∧ r.hash = chain env.sha1hex (log.take r.id))
    (kept : ∀ i, 1 ≤ i → i ≤ log.length → log.length ≤ i + env.maxJournalSize + 1 →
      ∃ t, t < env.numJournals ∧ ∃ r ∈ tb t, r.id = i) :
    (restart env tb).commitCount = log.length ∧
    (restart env tb).lastHash = chain env.sha1hex log := by
  have hmax : maxId env tb = log.length := by
    apply Nat.le_antisymm
    · apply foldl_max_le _ _ _ (Nat.zero_le _)
      intro r hr
      obtain ⟨t, _, hr⟩ := (mem_allRows env tb r).1 hr
      exact (rows t r hr).2.1
    · rcases Nat.eq_zero_or_pos log.length with h0 | hpos
      · omega
      · obtain ⟨t, ht, r, hr, hid⟩ := kept log.length hpos (Nat.le_refl _) (by omega)
        have := foldl_max_mem (allRows env tb) 0 r ((mem_allRows env tb r).2 ⟨t, ht, hr⟩)
        unfold maxId; omega
  refine ⟨hmax, ?_⟩
  show (match getCommit env tb (maxId env tb) with | some r => r.hash | none => []) = _
  rw [hmax]
  cases hg : getCommit env tb log.length with
  | some r =>
    have hmem := List.mem_of_find?_eq_some hg
    have hid : r.id = log.length := by simpa using List.find?_some hg
    obtain ⟨t, _, hr⟩ := (mem_allRows env tb r).1 hmem
    have := (rows t r hr).2.2.2
    simp [this, hid]
  | none =>
    rcases Nat.eq_zero_or_pos log.length with h0 | hpos
    · have : log = [] := List.length_eq_zero_iff.1 h0
      subst this; simp [chain]
    · obtain ⟨t, ht, r, hr, hid⟩ := kept log.length hpos (Nat.le_refl _) (by omega)
      have := List.find?_eq_none.1 hg r ((mem_allRows env tb r).2 ⟨t, ht, hr⟩)
      simp [hid] at this

theorem inv_restart {env : Env} {s : Sys} {v : View} (hi : Inv env s v) :
    Inv env (restart env s.tables)
      { v with pend := fun _ => [], prepped := fun _ => false, startedAt := v.log.length, feed := [] } := by
  obtain ⟨h1, h2⟩ := restart_count_hash env s.tables v.log hi.rows hi.kept
  refine ⟨h1, h2, Nat.le_refl _, ?_, ?_, hi.rows, hi.kept⟩
  · simp [restart, entries_self]
  · intro h
    refine ⟨?_, ?_, ?_, ?_, ?_, ?_⟩ <;> simp [restart]

theorem inv_init (env : Env) : Inv env (init env) {} := by
  obtain ⟨h1, h2⟩ := restart_count_hash env (fun _ => []) [] (by simp) (by simp; omega)
  refine ⟨h1, h2, by simp, ?_, ?_, ?_, ?_⟩
  · simp [init, restart, entries]
  · intro h
    refine ⟨?_, ?_, ?_, ?_, ?_, ?_⟩ <;> simp [init, restart]
  · simp [init, restart]
  · simp; omega


/-! ## Lock handling -/

theorem lockFree_others {env : Env} {s : Sys} {v : View} (hi : Inv env s v) {h h' : Nat}
    (hf : lockFree s h = true) (hne : h' ≠ h) : (s.handles h').locked = false := by
  cases hl : (s.handles h').locked with
  | false => rfl
  | true =>
    obtain ⟨n, hn⟩ := (hi.handle h').locked hl
    simp [lockFree, hn] at hf
    exact absurd hf hne

theorem locked_others {env : Env} {s : Sys} {v : View} (hi : Inv env s v) {h h' : Nat}
    (hf : (s.handles h).locked = true) (hne : h' ≠ h) : (s.handles h').locked = false := by
  cases hl : (s.handles h').locked with
  | false => rfl
  | true =>
    obtain ⟨n, hn⟩ := (hi.handle h').locked hl
    obtain ⟨m, hm⟩ := (hi.handle h).locked hf
    rw [hn] at hm; simp at hm
    exact absurd hm.1 hne

/-- The state after taking the lock for handle `h`. -/
def acquire (s : Sys) (h : Nat) : Sys :=
  let s0 := lockAcquire s h
  { s0 with handles := upd s0.handles h { s0.handles h with locked := true } }

theorem lockAcquire_eq (s : Sys) (h : Nat) (hf : lockFree s h = true) :
    ∃ n, lockAcquire s h = { s with lock := some (h, n + 1) } := by
  unfold lockAcquire lockFree at *
  split
  · exact ⟨0, rfl⟩
  · rename_i o n heq
    simp [heq] at hf
    exact ⟨n, by rw [hf]⟩

theorem acquire_eq (s : Sys) (h : Nat) (hf : lockFree s h = true) :
    ∃ n, acquire s h = { s with lock := some (h, n + 1),
                                handles := upd s.handles h { s.handles h with locked := true } } := by
  obtain ⟨n, hn⟩ := lockAcquire_eq s h hf
  exact ⟨n, by simp [acquire, hn]⟩

theorem inv_acquire {env : Env} {s : Sys} {v : View} (hi : Inv env s v) (h : Nat)
    (hf : lockFree s h = true) : Inv env (acquire s h) v := by
  obtain ⟨n, hn⟩ := acquire_eq s h hf
  rw [hn]
  refine ⟨hi.count, hi.hash, hi.started, hi.feed, ?_, hi.rows, hi.kept⟩
  intro h'
  have H := hi.handle h'
  by_cases hh : h' = h
  · subst hh
    refine ⟨?_, ?_, ?_, ?_, ?_, ?_⟩ <;> simp only [upd_same]
    · exact H.outside
    · exact H.opened
    · intro hu
      obtain ⟨a, _, c⟩ := H.prepared hu
      exact ⟨a, trivial, c⟩
    · exact H.prepped
    · exact H.trims
    · intro _; exact ⟨n, rfl⟩
  · have hl := lockFree_others hi hf hh
    refine ⟨?_, ?_, ?_, ?_, ?_, ?_⟩ <;> simp only [upd_ne _ _ hh]
    · exact H.outside
    · exact H.opened
    · exact H.prepared
    · exact H.prepped
    · exact H.trims
    · intro h2; simp [hl] at h2

/-! ## Rollback -/

/-- A handle with no transaction. -/
def idle (hd : Handle) : Handle :=
  { hd with inside := false, uhash := [], uquery := [], locked := false, pending := none, trims := [] }

/-- Ending the transaction of a handle (with or without the lock), leaving the log alone. -/
theorem inv_endTx {env : Env} {s : Sys} {v : View} (hi : Inv env s v) (h : Nat)
    (lk : Option (Nat × Nat))
    (hlk : ∀ h', h' ≠ h → (s.handles h').locked = true → lk = s.lock) :
    Inv env { s with handles := upd s.handles h (idle (s.handles h)), lock := lk }
      { v with prepped := upd v.prepped h false } := by
  refine ⟨hi.count, hi.hash, hi.started, hi.feed, ?_, hi.rows, hi.kept⟩
  intro h'
  have H := hi.handle h'
  by_cases hh : h' = h
  · subst hh
    refine ⟨?_, ?_, ?_, ?_, ?_, ?_⟩ <;> simp [upd_same, idle]
  · refine ⟨?_, ?_, ?_, ?_, ?_, ?_⟩ <;> simp only [upd_ne _ _ hh]
    · exact H.outside
    · exact H.opened
    · exact H.prepared
    · exact H.prepped
    · exact H.trims
    · intro h2; rw [hlk h' hh h2]; exact H.locked h2

theorem lockRelease_lock (s : Sys) : lockRelease s = { s with lock := (lockRelease s).lock } := by
  unfold lockRelease; split <;> rfl

theorem lockRelease_congr (a b : Sys) (h : a.lock = b.lock) :
    (lockRelease a).lock = (lockRelease b).lock := by
  unfold lockRelease; rw [h]; split <;> rfl

theorem lockRelease_eq (a b : Sys) (h : a.lock = b.lock) :
    lockRelease a = { a with lock := (lockRelease b).lock } := by
  rw [lockRelease_lock a, lockRelease_congr a b h]

theorem inv_rollback {env : Env} {s : Sys} {v : View} (hi : Inv env s v) (h : Nat) :
    Inv env (rollback s h) { v with prepped := upd v.prepped h false } := by
  unfold rollback
  by_cases hin : (s.handles h).inside = true
  · simp only [hin, if_true]
    by_cases hl : (s.handles h).locked = true
    · simp only [hl, if_true]
      rw [lockRelease_lock]
      exact inv_endTx hi h _ (fun h' hne h2 => by
        have := locked_others hi hl hne; simp [this] at h2)
    · simp only [hl]
      exact inv_endTx hi h s.lock (fun _ _ _ => rfl)
  · simp only [hin]
    have hu := ((hi.handle h).outside (by simpa using hin)).1
    have hp := (hi.handle h).prepped
    rw [hu] at hp
    have : upd v.prepped h false = v.prepped := by
      funext x; by_cases hx : x = h
      · subst hx; simp [hp]
      · simp [upd_ne _ _ hx]
    simpa [this] using hi

/-! ## The individual operations -/

theorem inv_begin {env : Env} {s : Sys} {v : View} (hi : Inv env s v) (h : Nat)
    (e sy ok : Bool) :
    Inv env (begin' s h e sy ok).1 (v.step (.begin h e sy ok, (begin' s h e sy ok).2)) := by
  have core : ∀ s1 : Sys, Inv env s1 v →
      Inv env (if ((s1.handles h).inside || !(s1.handles h).uhash.isEmpty || !(s1.handles h).uquery.isEmpty) = true
               then (rollback s1 h, Out.failed)
               else ({ s1 with handles := upd s1.handles h { s1.handles h with inside := ok } },
                     if ok = true then Out.done else Out.failed)).1
        (v.step (.begin h e sy ok,
          (if ((s1.handles h).inside || !(s1.handles h).uhash.isEmpty || !(s1.handles h).uquery.isEmpty) = true
               then (rollback s1 h, Out.failed)
               else ({ s1 with handles := upd s1.handles h { s1.handles h with inside := ok } },
                     if ok = true then Out.done else Out.failed)).2)) := by
    intro s1 hi1
    split
    · exact inv_rollback hi1 h
    · rename_i hcond
      simp only [Bool.or_eq_true, Bool.not_eq_true', not_or, Bool.not_eq_true, Bool.not_eq_false,
        List.isEmpty_iff] at hcond
      obtain ⟨⟨hin, huh⟩, huq⟩ := hcond
      obtain ⟨_, _, hpd, htr⟩ := (hi1.handle h).outside hin
      have hpr := (hi1.handle h).prepped
      rw [huh] at hpr
      have key : ∀ pend', (∀ h', h' ≠ h → pend' h' = v.pend h') → (ok = true → pend' h = []) →
          Inv env { s1 with handles := upd s1.handles h { s1.handles h with inside := ok } }
            { v with pend := pend', prepped := upd v.prepped h false } := by
        intro pend' hpo hph
        refine ⟨hi1.count, hi1.hash, hi1.started, hi1.feed, ?_, hi1.rows, hi1.kept⟩
        intro h'
        have H := hi1.handle h'
        by_cases hh : h' = h
        · subst hh
          refine ⟨?_, ?_, ?_, ?_, ?_, ?_⟩ <;> simp only [upd_same]
          · intro _; exact ⟨huh, huq, hpd, htr⟩
          · intro hok _; exact ⟨by rw [huq, hph hok], hpd⟩
          · intro hne; exact absurd huh hne
          · simp [huh]
          · simp [htr]
          · exact H.locked
        · refine ⟨?_, ?_, ?_, ?_, ?_, ?_⟩ <;> simp only [upd_ne _ _ hh, hpo h' hh]
          · exact H.outside
          · exact H.opened
          · exact H.prepared
          · exact H.prepped
          · exact H.trims
          · exact H.locked
      cases ok with
      | true => exact key _ (fun h' hh => by simp [upd_ne _ _ hh]) (fun _ => by simp)
      | false => exact key v.pend (fun _ _ => rfl) (by simp)
  unfold begin'
  split
  · rename_i hc
    simp only [Bool.and_eq_true, Bool.not_eq_true'] at hc
    cases sy with
    | false => exact hi
    | true =>
      -- the handle cannot be prepared, it would own the lock
      have hpp : v.prepped h = false := by
        rw [(hi.handle h).prepped]
        cases hu : (s.handles h).uhash with
        | nil => rfl
        | cons a b =>
          obtain ⟨_, hl, _⟩ := (hi.handle h).prepared (by simp [hu])
          obtain ⟨n, hn⟩ := (hi.handle h).locked hl
          simp [lockFree, hn] at hc
      have : upd v.prepped h false = v.prepped := by
        funext x; by_cases hx : x = h
        · subst hx; simp [hpp]
        · simp [upd_ne _ _ hx]
      show Inv env s { v with prepped := upd v.prepped h false }
      rw [this]; exact hi
  · rename_i hc
    cases e with
    | false => exact core s hi
    | true =>
      have hf : lockFree s h = true := by simpa using hc
      exact core (acquire s h) (inv_acquire hi h hf)

theorem inv_write {env : Env} {s : Sys} {v : View} (hi : Inv env s v) (h : Nat) (q : Bytes)
    (k ok : Bool) (hd : v.prepped h = false) :
    Inv env (write s h q k ok).1 (v.step (.write h q k ok, (write s h q k ok).2)) := by
  by_cases hcond : ((s.handles h).inside && ok) = true
  · have hw : write s h q k ok = 
        ({ s with
            handles := upd s.handles h
                         { s.handles h with
                           uquery := if k then (s.handles h).uquery ++ q else (s.handles h).uquery } },
        .done) := by simp only [write, hcond, if_true]
    rw [hw]
    have hc := hcond
    simp only [Bool.and_eq_true] at hc
    have huh : (s.handles h).uhash = [] := by
      have := (hi.handle h).prepped; rw [hd] at this
      simpa using this.symm
    obtain ⟨huq, hpd⟩ := (hi.handle h).opened hc.1 huh
    have key : ∀ (pend' : Nat → Bytes) (uq' : Bytes), (∀ h', h' ≠ h → pend' h' = v.pend h') → pend' h = uq' →
        Inv env { s with handles := upd s.handles h { s.handles h with uquery := uq' } }
          { v with pend := pend' } := by
      intro pend' uq' hpo hph
      refine ⟨hi.count, hi.hash, hi.started, hi.feed, ?_, hi.rows, hi.kept⟩
      intro h'
      have H := hi.handle h'
      by_cases hh : h' = h
      · subst hh
        refine ⟨?_, ?_, ?_, ?_, ?_, ?_⟩ <;> simp only [upd_same]
        · intro hin; rw [hc.1] at hin; simp at hin
        · intro _ _; exact ⟨hph.symm, hpd⟩
        · intro hne; exact absurd huh hne
        · exact H.prepped
        · exact H.trims
        · exact H.locked
      · refine ⟨?_, ?_, ?_, ?_, ?_, ?_⟩ <;> simp only [upd_ne _ _ hh, hpo h' hh]
        · exact H.outside
        · exact H.opened
        · exact H.prepared
        · exact H.prepped
        · exact H.trims
        · exact H.locked
    cases k with
    | true => exact key _ _ (fun h' hh => by simp [upd_ne _ _ hh]) (by simp [huq])
    | false => exact key v.pend _ (fun _ _ => rfl) (by simp [huq])
  · have hw : write s h q k ok = (s, .failed) := by simp only [write, hcond]; rfl
    rw [hw]
    cases k <;> exact hi

theorem trimIds_lt (env : Env) (s : Sys) (t : Nat) (pick : List Nat) :
    ∀ i ∈ trimIds env s t pick, i + env.maxJournalSize < s.commitCount := by
  intro i hi
  unfold trimIds at hi
  split at hi
  · have h2 := (List.mem_filter.1 (List.mem_of_mem_take hi)).2
    simp only [Bool.and_eq_true, decide_eq_true_eq] at h2
    have h3 := h2.2
    unfold oldestToKeep at h3
    split at h3 <;> omega
  · simp at hi

/-- Recording the trimmed rows in the open transaction. -/
theorem inv_trim {env : Env} {s : Sys} {v : View} (hi : Inv env s v) (h : Nat) (t nj : Nat)
    (ids : List Nat) (hin : (s.handles h).inside = true)
    (hids : ∀ i ∈ ids, i + env.maxJournalSize < s.commitCount) :
    Inv env { s with nextJournal := nj,
                     handles := upd s.handles h { s.handles h with trims := (t, ids) :: (s.handles h).trims } } v := by
  refine ⟨hi.count, hi.hash, hi.started, hi.feed, ?_, hi.rows, hi.kept⟩
  intro h'
  have H := hi.handle h'
  by_cases hh : h' = h
  · subst hh
    refine ⟨?_, ?_, ?_, ?_, ?_, ?_⟩ <;> simp only [upd_same]
    · intro h2; rw [hin] at h2; simp at h2
    · exact H.opened
    · exact H.prepared
    · exact H.prepped
    · intro e he
      rcases List.mem_cons.1 he with rfl | he
      · exact hids
      · exact H.trims e he
    · exact H.locked
  · refine ⟨?_, ?_, ?_, ?_, ?_, ?_⟩ <;> simp only [upd_ne _ _ hh]
    · exact H.outside
    · exact H.opened
    · exact H.prepared
    · exact H.prepped
    · exact H.trims
    · exact H.locked

/-- The prepared state of a handle: what `prepare` does once the lock is held. -/
def prepFinish (env : Env) (s2 : Sys) (h t : Nat) : Sys :=
  let hd2 := s2.handles h
  let hash := env.sha1hex (s2.lastHash ++ hd2.uquery)
  let q := stored env hd2.uquery
  let row : Row := { id := s2.commitCount + 1, query := q, hash := hash }
  { s2 with
    prepared := s2.prepared.insertOrAssign (s2.commitCount + 1) (q, hash)
    handles := upd s2.handles h
          { hd2 with uhash := hash, uquery := q, pending := some (t, row) } }

theorem inv_prepFinish {env : Env} {s : Sys} {v : View} (hi : Inv env s v) (h t : Nat)
    (ht : t < env.numJournals) (hin : (s.handles h).inside = true)
    (hlk : (s.handles h).locked = true) (huh : (s.handles h).uhash = [])
    (hne : ∀ x, env.sha1hex x ≠ []) :
    Inv env (prepFinish env s h t) { v with prepped := upd v.prepped h true } := by
  obtain ⟨huq, hpd⟩ := (hi.handle h).opened hin huh
  refine ⟨hi.count, hi.hash, hi.started, hi.feed, ?_, hi.rows, hi.kept⟩
  intro h'
  have H := hi.handle h'
  by_cases hh : h' = h
  · subst hh
    refine ⟨?_, ?_, ?_, ?_, ?_, ?_⟩ <;> simp only [prepFinish, upd_same]
    · intro h2; rw [hin] at h2; simp at h2
    · intro _ h2; exact absurd h2 (hne _)
    · intro _
      refine ⟨hin, hlk, by rw [huq], ⟨t, ht, by rw [huq]⟩, ?_⟩
      rw [huq]; exact find_insertOrAssign _ _ _
    · simp [hne]
    · exact H.trims
    · exact H.locked
  · have hl := locked_others hi hlk hh
    refine ⟨?_, ?_, ?_, ?_, ?_, ?_⟩ <;> simp only [prepFinish, upd_ne _ _ hh]
    · exact H.outside
    · exact H.opened
    · intro h2; have := (H.prepared h2).2.1; simp [hl] at this
    · exact H.prepped
    · exact H.trims
    · exact H.locked

theorem prepare_cases (env : Env) (s : Sys) (h : Nat) (w : Bool) (pick : List Nat) (ok : Bool)
    (hin : (s.handles h).inside = true) :
    let t := s.nextJournal % env.numJournals
    let hd1 : Handle := { s.handles h with trims := (t, trimIds env s t pick) :: (s.handles h).trims }
    let s1 : Sys := { s with nextJournal := s.nextJournal + 1, handles := upd s.handles h hd1 }
    (prepare env s h w pick ok = (s1, .failed) ∧ (s.handles h).locked = false) ∨
    ∃ s2, ((s2 = s1 ∧ (s.handles h).locked = true) ∨
           (s2 = acquire s1 h ∧ lockFree s1 h = true ∧ (s.handles h).locked = false)) ∧
      (prepare env s h w pick ok =
        if ok then (prepFinish env s2 h t, .done) else (rollback (prepFinish env s2 h t) h, .failed)) := by
  intro t hd1 s1
  have e0 : prepare env s h w pick ok =
      if (!(s.handles h).locked && !(w && lockFree s1 h)) = true then (s1, .failed)
      else if ok then (prepFinish env (if (s.handles h).locked then s1 else acquire s1 h) h t, .done)
      else (rollback (prepFinish env (if (s.handles h).locked then s1 else acquire s1 h) h t) h,
        .failed) := by
    unfold prepare
    rw [if_neg (by simp [hin])]
    rfl
  by_cases hc : (!(s.handles h).locked && !(w && lockFree s1 h)) = true
  · left
    refine ⟨by rw [e0, if_pos hc], ?_⟩
    simp at hc; exact hc.1
  · right
    rw [e0, if_neg hc]
    by_cases hl : (s.handles h).locked = true
    · exact ⟨s1, Or.inl ⟨rfl, hl⟩, by rw [if_pos hl]⟩
    · have hf : lockFree s1 h = true := by
        simp only [Bool.not_eq_true] at hl
        simp [hl] at hc; exact hc.2
      exact ⟨acquire s1 h, Or.inr ⟨rfl, hf, by simpa using hl⟩, by rw [if_neg hl]⟩

theorem inv_prepare {env : Env} {s : Sys} {v : View} (hi : Inv env s v) (h : Nat) (w : Bool)
    (pick : List Nat) (ok : Bool) (hd : v.prepped h = false) (hin : (s.handles h).inside = true)
    (hnj : 0 < env.numJournals) (hne : ∀ x, env.sha1hex x ≠ []) :
    Inv env (prepare env s h w pick ok).1
      (v.step (.prepare h w pick ok, (prepare env s h w pick ok).2)) := by
  have huh : (s.handles h).uhash = [] := by
    have := (hi.handle h).prepped; rw [hd] at this
    simpa using this.symm
  have hi1 := inv_trim hi h (s.nextJournal % env.numJournals) (s.nextJournal + 1) _ hin
    (trimIds_lt env s (s.nextJournal % env.numJournals) pick)
  have ht := Nat.mod_lt s.nextJournal hnj
  have hupd : upd (upd v.prepped h true) h false = v.prepped := by
    funext x; by_cases hx : x = h
    · subst hx; simp [hd]
    · simp [upd_ne _ _ hx]
  rcases prepare_cases env s h w pick ok hin with ⟨he, _⟩ | ⟨s2, hs2, he⟩
  · rw [he]; exact hi1
  · rw [he]
    have fin : ∀ s2, Inv env s2 v → (s2.handles h).inside = true → (s2.handles h).locked = true →
        (s2.handles h).uhash = [] →
        Inv env (if ok = true then (prepFinish env s2 h (s.nextJournal % env.numJournals), Out.done)
            else (rollback (prepFinish env s2 h (s.nextJournal % env.numJournals)) h, Out.failed)).1
          (v.step (.prepare h w pick ok,
            (if ok = true then (prepFinish env s2 h (s.nextJournal % env.numJournals), Out.done)
            else (rollback (prepFinish env s2 h (s.nextJournal % env.numJournals)) h, Out.failed)).2)) := by
      intro s2 hi2 a b c
      have := inv_prepFinish hi2 h _ ht a b c hne
      cases ok with
      | true => exact this
      | false =>
        have h3 := inv_rollback this h
        simp only [hupd] at h3
        exact h3
    rcases hs2 with ⟨rfl, hl⟩ | ⟨rfl, hf, hk⟩
    · exact fin _ hi1 (by simpa using hin) (by simpa using hl) (by simpa using huh)
    · have hi2 := inv_acquire hi1 h hf
      obtain ⟨n, hn⟩ := acquire_eq _ h hf
      exact fin _ hi2 (by rw [hn]; simpa using hin) (by rw [hn]; simp) (by rw [hn]; simpa using huh)

/-! ## Commit -/

theorem trim_fold_mem (trims : List (Nat × List Nat)) (tb : Nat → List Row) (t : Nat) (r : Row) :
    r ∈ trims.foldl (fun tb e => upd tb e.1 ((tb e.1).filter (fun r => !e.2.contains r.id))) tb t →
    r ∈ tb t := by
  induction trims generalizing tb with
  | nil => simp
  | cons e es ih =>
    intro hr
    simp only [List.foldl_cons] at hr
    have := ih _ hr
    rw [upd_apply] at this
    split at this
    · rename_i he; subst he; exact (List.mem_filter.1 this).1
    · exact this

theorem trim_fold_keeps (trims : List (Nat × List Nat)) (tb : Nat → List Row) (t : Nat) (r : Row)
    (hk : ∀ e ∈ trims, r.id ∉ e.2) (hr : r ∈ tb t) :
    r ∈ trims.foldl (fun tb e => upd tb e.1 ((tb e.1).filter (fun r => !e.2.contains r.id))) tb t := by
  induction trims generalizing tb with
  | nil => simpa
  | cons e es ih =>
    simp only [List.foldl_cons]
    apply ih _ (fun e' he' => hk e' (by simp [he']))
    rw [upd_apply]
    split
    · rename_i he; subst he
      exact List.mem_filter.2 ⟨hr, by simpa using hk e (by simp)⟩
    · exact hr

theorem inv_commit {env : Env} {s : Sys} {v : View} (hi : Inv env s v) (h : Nat) (ok : Bool)
    (hna : (commit s h ok).2 ≠ .abort) :
    Inv env (commit s h ok).1 (v.step (.commit h ok, (commit s h ok).2)) := by
  by_cases hen : s.commitEnabled = false
  · have : commit s h ok = (s, .disabled) := by simp [commit, hen]
    rw [this]; exact hi
  simp only [Bool.not_eq_false] at hen
  by_cases hassert : (!(s.handles h).inside || (s.handles h).uhash.isEmpty) = true
  · have : commit s h ok = (s, .abort) := by
      simp only [commit, hen, hassert]; rfl
    rw [this] at hna; exact absurd rfl hna
  cases ok with
  | false =>
    have : commit s h false = (s, .conflict) := by
      simp only [commit, hen, hassert]; rfl
    rw [this]; exact hi
  | true =>
    simp only [Bool.or_eq_true, Bool.not_eq_true', List.isEmpty_iff, not_or, Bool.not_eq_false] at hassert
    obtain ⟨hin, huh⟩ := hassert
    obtain ⟨_, hlk, hhash, ⟨t, ht, hpend⟩, hfind⟩ := (hi.handle h).prepared huh
    have hlen : (v.log ++ [v.pend h]).length = v.log.length + 1 := by simp
    have hch : chain env.sha1hex (v.log ++ [v.pend h]) = (s.handles h).uhash := by
      rw [chain_append, hhash, hi.hash]
    have hent := entries_append env v.log (v.pend h) v.startedAt hi.started
    have hsorted : s.committed.insertSorted
        (s.commitCount + 1, (stored env (v.pend h), (s.handles h).uhash)) =
        s.committed ++ [(s.commitCount + 1, (stored env (v.pend h), (s.handles h).uhash))] := by
      apply insertSorted_last
      intro x hx
      have : x ∈ entries env v.log v.startedAt := by rw [← hi.feed]; simp [hx]
      have := entries_keys_le env v.log v.startedAt x this
      simp only [hi.count]; omega
    have hcomm : commit s h true =
        ({ s with
            tables := applyJournal s.tables (s.handles h).trims (s.handles h).pending
            commitCount := s.commitCount + 1
            committed := s.committed ++ [(s.commitCount + 1, (stored env (v.pend h), (s.handles h).uhash))]
            prepared := s.prepared.eraseKey (s.commitCount + 1)
            lastHash := (s.handles h).uhash
            handles := upd s.handles h (idle (s.handles h))
            lock := (lockRelease s).lock }, .committed) := by
      rw [commit, if_neg (by simp [hen])]
      simp only [hin, Bool.not_true, Bool.false_or, Bool.false_eq_true, if_false,
        List.isEmpty_iff, huh, if_true, incrementCommit, hfind, hsorted, idle]
      refine Prod.ext ?_ rfl
      exact lockRelease_eq _ s rfl
    rw [hcomm]
    refine ⟨?_, ?_, ?_, ?_, ?_, ?_, ?_⟩
    · show s.commitCount + 1 = (v.log ++ [v.pend h]).length
      rw [hlen, hi.count]
    · exact hch.symm
    · show v.startedAt ≤ (v.log ++ [v.pend h]).length
      have := hi.started; omega
    · show v.feed ++ (s.committed ++ _) = entries env (v.log ++ [v.pend h]) v.startedAt
      rw [hent, ← List.append_assoc, hi.feed, hch, hi.count]
    · intro h'
      have H := hi.handle h'
      by_cases hh : h' = h
      · subst hh
        refine ⟨?_, ?_, ?_, ?_, ?_, ?_⟩ <;> simp [upd_same, idle, View.step]
      · have hl := locked_others hi hlk hh
        refine ⟨?_, ?_, ?_, ?_, ?_, ?_⟩ <;> simp only [upd_ne _ _ hh, View.step]
        · exact H.outside
        · exact H.opened
        · intro h2; have := (H.prepared h2).2.1; simp [hl] at this
        · exact H.prepped
        · intro e he i hi'; have := H.trims e he i hi'; omega
        · intro h2; simp [hl] at h2
    · intro t' r hr
      show 1 ≤ r.id ∧ r.id ≤ (v.log ++ [v.pend h]).length ∧
        r.query = stored env ((v.log ++ [v.pend h]).getD (r.id - 1) []) ∧
        r.hash = chain env.sha1hex ((v.log ++ [v.pend h]).take r.id)
      have hcase : r ∈ s.tables t' ∨
          r = ⟨s.commitCount + 1, stored env (v.pend h), (s.handles h).uhash⟩ := by
        simp only [applyJournal, hpend] at hr
        rw [upd_apply] at hr
        split at hr
        · rename_i he; subst he
          rcases List.mem_append.1 hr with h2 | h2
          · exact Or.inl (trim_fold_mem _ _ _ _ h2)
          · exact Or.inr (by simpa using h2)
        · exact Or.inl (trim_fold_mem _ _ _ _ hr)
      rcases hcase with h2 | h2
      · obtain ⟨a, b, c, d⟩ := hi.rows t' r h2
        refine ⟨a, by omega, ?_, ?_⟩
        · rw [c]; congr 1
          simp only [List.getD]
          rw [List.getElem?_append_left (by omega)]
        · rw [d, List.take_append_of_le_length b]
      · subst h2
        refine ⟨by simp, by simp [hi.count], ?_, ?_⟩
        · simp [hi.count]
        · simp only [hi.count]
          rw [← hlen, List.take_length, hch]
    · intro i h1 h2 h3
      show ∃ t', t' < env.numJournals ∧
        ∃ r ∈ applyJournal s.tables (s.handles h).trims (s.handles h).pending t', r.id = i
      have h2' : i ≤ v.log.length + 1 := by rw [← hlen]; exact h2
      have h3' : v.log.length + 1 ≤ i + env.maxJournalSize + 1 := by rw [← hlen]; exact h3
      by_cases hlast : i = v.log.length + 1
      · refine ⟨t, ht, ⟨s.commitCount + 1, stored env (v.pend h), (s.handles h).uhash⟩, ?_, ?_⟩
        · simp only [applyJournal, hpend, upd_same]
          simp
        · simp [hi.count, hlast]
      · obtain ⟨t', ht', r, hr, hid⟩ := hi.kept i h1 (by omega) (by omega)
        refine ⟨t', ht', r, ?_, hid⟩
        have hk : ∀ e ∈ (s.handles h).trims, r.id ∉ e.2 := by
          intro e he hmem
          have := (hi.handle h).trims e he _ hmem
          rw [hi.count] at this; omega
        have hr' := trim_fold_keeps _ _ _ r hk hr
        simp only [applyJournal, hpend]
        rw [upd_apply]
        split
        · rename_i he; subst he; exact List.mem_append_left _ hr'
        · exact hr'

/-! ## Every step preserves the invariant -/

theorem inv_step {env : Env} {s : Sys} {v : View} (hi : Inv env s v) (op : Op)
    (hok : okCall v op) (hnj : 0 < env.numJournals) (hne : ∀ x, env.sha1hex x ≠ []) :
    Inv env (step env s op).1 (v.step (op, (step env s op).2)) := by
  have habort : ∀ op' : Op, (∀ o, v.step (op', .abort) = v.step (.crash, o)) := by
    intro op' o; cases op' <;> rfl
  cases op with
  | begin h e sy ok =>
    have hna : (begin' s h e sy ok).2 ≠ .abort := by
      unfold begin'; split
      · cases sy <;> simp
      · dsimp only
        repeat' split
        all_goals simp
    simp only [step, hna, if_false]
    exact inv_begin hi h e sy ok
  | write h q k ok =>
    have hna : (write s h q k ok).2 ≠ .abort := by
      unfold write; dsimp only; split <;> simp
    simp only [step, hna, if_false]
    exact inv_write hi h q k ok hok
  | prepare h w p ok =>
    by_cases hin : (s.handles h).inside = true
    · have hna : (prepare env s h w p ok).2 ≠ .abort := by
        rcases prepare_cases env s h w p ok hin with ⟨he, _⟩ | ⟨s2, _, he⟩
        · rw [he]; simp
        · rw [he]; cases ok <;> simp
      simp only [step, hna, if_false]
      exact inv_prepare hi h w p ok hok hin hnj hne
    · have : prepare env s h w p ok = (s, .abort) := by simp [prepare, hin]
      simp only [step, this, if_true]
      rw [habort _ .done]
      exact inv_restart hi
  | commit h ok =>
    by_cases hna : (commit s h ok).2 = .abort
    · simp only [step, hna, if_true]
      rw [habort _ .done]
      exact inv_restart hi
    · simp only [step, hna, if_false]
      exact inv_commit hi h ok hna
  | rollback h =>
    simp only [step]
    exact inv_rollback hi h
  | setCommitEnabled t e =>
    have hi' : Inv env { s with commitEnabled := e } v :=
      ⟨hi.count, hi.hash, hi.started, hi.feed,
        fun h => ⟨(hi.handle h).outside, (hi.handle h).opened, (hi.handle h).prepared,
          (hi.handle h).prepped, (hi.handle h).trims, (hi.handle h).locked⟩, hi.rows, hi.kept⟩
    simp only [step]
    by_cases h1 : s.commitEnabled = e
    · simp only [h1, if_true]; exact hi
    · by_cases h2 : lockFree s t = true
      · simp only [h1, h2, if_false, if_true]; exact hi'
      · simp only [h1, h2, if_false]; exact hi
  | pop =>
    simp only [step]
    refine ⟨hi.count, hi.hash, hi.started, ?_,
        fun h => ⟨(hi.handle h).outside, (hi.handle h).opened, (hi.handle h).prepared,
          (hi.handle h).prepped, (hi.handle h).trims, (hi.handle h).locked⟩, hi.rows, hi.kept⟩
    show (v.feed ++ s.committed) ++ [] = _
    rw [List.append_nil]; exact hi.feed
  | crash =>
    simp only [step]
    exact inv_restart hi
  | crashInCommit h =>
    by_cases hc : (commit s h true).2 = .committed
    · have h1 := inv_restart (inv_commit hi h true (by rw [hc]; simp))
      rw [hc] at h1
      have : step env s (.crashInCommit h) = (restart env (commit s h true).1.tables, .committed) := by
        simp [step, hc]
      rw [this]
      exact h1
    · have hs : (commit s h true).1.tables = s.tables := by
        have : (commit s h true).1 = s := by
          unfold commit at hc ⊢
          dsimp only at hc ⊢
          repeat' split
          all_goals simp_all
        rw [this]
      have : step env s (.crashInCommit h) = (restart env s.tables, .done) := by
        simp [step, hc, hs]
      rw [this]
      exact inv_restart hi

theorem inv_run {env : Env} (hnj : 0 < env.numJournals) (hne : ∀ x, env.sha1hex x ≠ [])
    (ops : List Op) : ∀ (s : Sys) (v : View), Inv env s v → Disciplined v (run env s ops).2 →
    Inv env (run env s ops).1 ((run env s ops).2.foldl View.step v) := by
  induction ops with
  | nil => intro s v hi _; exact hi
  | cons op ops ih =>
    intro s v hi hd
    simp only [run, Disciplined] at hd ⊢
    exact ih _ _ (inv_step hi op hd.1 hnj hne) hd.2

end Bedrock.DB
