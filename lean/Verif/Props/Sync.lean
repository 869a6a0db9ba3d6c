import Verif.Lemmas.SyncReply
import Verif.Props.DB

/-!
# Properties of replication between two nodes (C03, C04, C05)

`after env ops` is any database reached by any sequence of calls from an empty one; `committed` is
the list of transactions committed so far, read off the trace of calls.
-/

namespace Bedrock.Sync
open Bedrock Bedrock.DB Bedrock.DB.Spec Bedrock.Sync.Spec

/-- A database that has gone through `ops`, with its trace. -/
def after (env : REnv) (ops : List Op) : Traced := { s := final env.db ops, tr := trace env.db ops }

/-- Committed transactions, oldest first. -/
def committed (t : Traced) : List Bytes := (view t.tr).log

/-- The commit count and hash a node announces agree with its committed transactions. -/
def Consistent (env : REnv) (t : Traced) : Prop :=
  t.s.commitCount = (committed t).length ∧ t.s.lastHash = chain env.db.sha1hex (committed t)

theorem after_inv {env : REnv} (hnj : 0 < env.db.numJournals) (hne : ∀ x, env.db.sha1hex x ≠ [])
    (ops : List Op) (hd : Disciplined {} (trace env.db ops)) :
    Inv env.db (after env ops).s ((after env ops).view {}) := reach hnj hne ops hd

theorem inv_consistent {env : REnv} {t : Traced} (hi : Inv env.db t.s (t.view {})) :
    Consistent env t := ⟨hi.count, hi.hash⟩

/-- Toy environment of the examples. -/
def exREnv : REnv where
  db := exEnv
  decompress
    | [] => some []
    | 0 :: x => some x
    | _ => none
  expand x := x

/-- Two commits, then a transaction left rolled back. -/
def exFollower : List Op :=
  [.begin 0 false false true, .write 0 [65] true true, .prepare 0 true [] true, .commit 0 true,
   .begin 0 false false true, .write 0 [66] true true, .prepare 0 true [] true, .commit 0 true,
   .begin 1 false false true, .write 1 [67] true true, .rollback 1]

/-- A longer history with the same first two commits. -/
def exSource : List Op := exFollower ++
  [.begin 0 false false true, .write 0 [68] true true, .prepare 0 true [] true, .commit 0 true]

example : Disciplined {} (trace exEnv exFollower) ∧
    committed (after exREnv exFollower) = [[65], [66]] ∧
    committed (after exREnv exSource) = [[65], [66], [68]] := by decide +kernel

/-! ## C05: a replicated transaction is applied exactly or not at all -/

/-- **C05** Whatever TRANSACTION message arrives at a follower in whatever state, and however the
unmodelled parts turn out: either the follower's process stops and its committed history is what
it was, or the transaction was announced with the next commit number and with the hash of the
follower's own history extended by the replayed text, and exactly that text was appended. -/
theorem c05_applied_exactly_or_not_at_all (env : REnv) (hnj : 0 < env.db.numJournals)
    (hne : ∀ x, env.db.sha1hex x ≠ []) (ops : List Op) (hd : Disciplined {} (trace env.db ops))
    (h : Nat) (m : TxMsg) (o : Outcomes) :
    let t := after env ops
    let r := replicateOne env t h m o
    Consistent env r.1 ∧
    ((r.2 = .died ∧ committed r.1 = committed t) ∨
     (r.2 = .applied ∧ ∃ raw, env.decompress m.content = some raw ∧
        m.newCount = some ((committed t).length + 1) ∧
        m.newHash = some (chain env.db.sha1hex (committed t ++ [env.expand raw])) ∧
        committed r.1 = committed t ++ [env.expand raw])) := by
  intro t r
  obtain ⟨h1, h2, h3⟩ := replicateOne_facts env hnj hne h {} t m o (after_inv hnj hne ops hd)
  refine ⟨inv_consistent h1, ?_⟩
  cases hr : r.2 with
  | died => exact Or.inl ⟨rfl, h2 hr⟩
  | applied =>
    obtain ⟨raw, a, _, c, d, e⟩ := h3 hr
    exact Or.inr ⟨rfl, raw, a, c, d, e⟩

/-- The message announcing commit 3 of the example. -/
def exMsg : TxMsg where
  id := some [51]
  newCount := some 3
  newHash := some (chain exEnv.sha1hex [[65], [66], [68]])
  content := [0, 68]

/-- Both outcomes occur. -/
example : (replicateOne exREnv (after exREnv exFollower) 5 exMsg {}).2 = .applied ∧
    committed (replicateOne exREnv (after exREnv exFollower) 5 exMsg {}).1 = [[65], [66], [68]] ∧
    (replicateOne exREnv (after exREnv exFollower) 5 { exMsg with newCount := some 4 } {}).2 = .died ∧
    (replicateOne exREnv (after exREnv exFollower) 5 { exMsg with content := [0, 69] } {}).2 = .died ∧
    (replicateOne exREnv (after exREnv exFollower) 5 exMsg { commitOk := false }).2 = .died := by
  decide +kernel

theorem replicateOne_accepts (env : REnv) (hnj : 0 < env.db.numJournals)
    (hne : ∀ x, env.db.sha1hex x ≠ []) (t : Traced) (hi : Inv env.db t.s (t.view {}))
    (h : Nat) (m : TxMsg) (o : Outcomes) (raw : Bytes)
    (hready : Ready t.s h) (hfine : o.fine)
    (hid : m.id.isSome) (hdec : env.decompress m.content = some raw)
    (hcount : m.newCount = some ((committed t).length + 1))
    (hhash : m.newHash = some (chain env.db.sha1hex (committed t ++ [env.expand raw]))) :
    let r := replicateOne env t h m o
    r.2 = .applied ∧ committed r.1 = committed t ++ [env.expand raw] := by
  intro r
  obtain ⟨f1, f2, f3, f4, f5, f6⟩ := hfine
  obtain ⟨t1, t2, t3, t4, e1, e2, e3, e4, -⟩ :=
    ready_tx hnj hne hi h hready false (env.expand raw) o.pick
  obtain ⟨j1, j2, j3, j4, j5, j6, j7, j8⟩ :=
    prepared_facts hnj hne hi h false _ _ _ _ _ _ _ _ _ e1 e2 e3
  have hr : r = ((t4.call env.db .pop).1, .applied) := by
    show replicateOne env t h m o = _
    obtain ⟨i, hid⟩ := Option.isSome_iff_exists.1 hid
    have hu := ((hi.handle h).outside hready.idle).1
    unfold replicateOne
    rw [if_neg (by simp [f6]), if_neg (by simp [hu])]
    simp only [f1, e1, hdec]
    rw [if_neg (by simp)]
    simp only [f2, e2, hid, hcount, hhash, f3, f4, e3]
    rw [if_neg (by simp), if_neg (by simp), if_neg (by simpa using j7),
      if_neg (by rw [j8]; simp; rfl), if_neg (by rw [j6]; simp; rfl)]
    simp only [f5, e4, if_true]
  obtain ⟨_, _, h3⟩ := replicateOne_facts env hnj hne h {} t m o hi
  have ha : r.2 = .applied := by rw [hr]
  obtain ⟨raw', a, _, _, _, e⟩ := h3 ha
  rw [hdec] at a
  cases a
  exact ⟨ha, e⟩

/-- **C05** (nothing valid is refused). A follower at rest applies the transaction that really
follows its history, provided SQLite itself does not fail. -/
theorem c05_accepts_next (env : REnv) (hnj : 0 < env.db.numJournals)
    (hne : ∀ x, env.db.sha1hex x ≠ []) (ops : List Op) (hd : Disciplined {} (trace env.db ops))
    (h : Nat) (m : TxMsg) (o : Outcomes) (raw : Bytes)
    (hready : Ready (after env ops).s h) (hfine : o.fine)
    (hid : m.id.isSome) (hdec : env.decompress m.content = some raw)
    (hcount : m.newCount = some ((committed (after env ops)).length + 1))
    (hhash : m.newHash =
      some (chain env.db.sha1hex (committed (after env ops) ++ [env.expand raw]))) :
    let r := replicateOne env (after env ops) h m o
    r.2 = .applied ∧ committed r.1 = committed (after env ops) ++ [env.expand raw] :=
  replicateOne_accepts env hnj hne (after env ops) (after_inv hnj hne ops hd) h m o raw hready hfine
    hid hdec hcount hhash

example : Ready (after exREnv exFollower).s 5 ∧ ({} : Outcomes).fine :=
  ⟨⟨by decide +kernel, by decide +kernel, by decide +kernel, by decide +kernel⟩,
   ⟨rfl, rfl, rfl, rfl, rfl, rfl⟩⟩

/-! ## C03: synchronisation applies only consecutive, hash-verified commits -/

theorem justified_length {env : REnv} : ∀ {log : List Bytes} {items : List Item} {qs : List Bytes},
    Justified env log items qs → qs.length ≤ items.length
  | _, _, [], _ => by simp
  | _, [], _ :: _, h => by simp [Justified] at h
  | _, c :: items, q :: qs, h => by
    obtain ⟨_, _, _, _, h⟩ := h
    have := justified_length h
    simp; omega

/-- A `Justified` extension, element by element. -/
theorem justified_get {env : REnv} : ∀ {log : List Bytes} {items : List Item} {qs : List Bytes},
    Justified env log items qs → ∀ (k : Nat) (hk : k < qs.length) (hk' : k < items.length),
    items[k].isCommit = true ∧ items[k].index = some ((log.length + k + 1 : Nat) : Int) ∧
    (∃ raw, env.decompress items[k].content = some raw ∧ qs[k] = env.expand raw) ∧
    items[k].hash = some (chain env.db.sha1hex (log ++ qs.take (k + 1)))
  | _, _, [], _ => by simp
  | _, [], _ :: _, h => by simp [Justified] at h
  | log, c :: items, q :: qs, h => by
    obtain ⟨h1, h2, h3, h4, h⟩ := h
    intro k hk hk'
    cases k with
    | zero => exact ⟨h1, by simpa using h2, h3, by simpa using h4⟩
    | succ k =>
      obtain ⟨a, b, c, d⟩ := justified_get h k (by simpa using hk) (by simpa using hk')
      refine ⟨a, ?_, c, ?_⟩
      · simp only [List.getElem_cons_succ]; rw [b]; simp; omega
      · simp only [List.getElem_cons_succ]; rw [d]; simp

theorem recvSync_facts (env : REnv) (hnj : 0 < env.db.numJournals)
    (hne : ∀ x, env.db.sha1hex x ≠ []) (t : Traced) (hi : Inv env.db t.s (t.view {}))
    (h : Nat) (m : SyncMsg) (os : Nat → Outcomes) :
    let r := recvSynchronize env t h m os
    Inv env.db r.1.s (r.1.view {}) ∧
    ∃ qs, committed r.1 = committed t ++ qs ∧ Justified env (committed t) m.items qs ∧
      (r.2 = true → m.numCommits = some (m.items.length : Int) ∧
        (qs.length = m.items.length ∨ (qs.length + 1 = m.items.length ∧
          (view r.1.tr).prepped h = true ∧
          (∃ q, Justified env (committed t) m.items (qs ++ [q])) ∧
          (r.1.s.commitEnabled = false ∨ ∃ k < m.items.length, (os k).commitOk = false)))) := by
  intro r
  have triv : (t, false) = r → Inv env.db r.1.s (r.1.view {}) ∧
    ∃ qs, committed r.1 = committed t ++ qs ∧ Justified env (committed t) m.items qs ∧
      (r.2 = true → m.numCommits = some (m.items.length : Int) ∧
        (qs.length = m.items.length ∨ (qs.length + 1 = m.items.length ∧
          (view r.1.tr).prepped h = true ∧
          (∃ q, Justified env (committed t) m.items (qs ++ [q])) ∧
          (r.1.s.commitEnabled = false ∨ ∃ k < m.items.length, (os k).commitOk = false)))) := by
    intro e; rw [← e]; exact ⟨hi, [], by simp, trivial, by simp⟩
  by_cases hs : m.shuttingDown = true
  · exact triv (by show _ = recvSynchronize env t h m os; simp [recvSynchronize, hs])
  cases hn : m.numCommits with
  | none => exact hn ▸ triv (by show _ = recvSynchronize env t h m os; simp [recvSynchronize, hs, hn])
  | some n =>
    obtain ⟨qs, h1, h2, h3, h4⟩ := recvLoop_facts env hnj hne h {}
      (m.items.zipIdx.map fun e => (e.1, os e.2)) t n hi
    have e : r = ((recvLoop env h t n (m.items.zipIdx.map fun e => (e.1, os e.2))).1,
        decide ((recvLoop env h t n (m.items.zipIdx.map fun e => (e.1, os e.2))).2 = some 0)) := by
      show recvSynchronize env t h m os = _
      simp [recvSynchronize, hs, hn]
    rw [e]
    have hmap : (m.items.zipIdx.map fun e => (e.1, os e.2)).map Prod.fst = m.items := by
      rw [List.map_map, show (Prod.fst ∘ fun e : Item × Nat => (e.1, os e.2)) = Prod.fst from rfl]
      simp
    rw [hmap] at h3 h4
    refine ⟨h1, qs, h2, h3, ?_⟩
    intro hr
    obtain ⟨a, b⟩ := h4 0 (by simpa using hr)
    simp only [List.length_map, List.length_zipIdx, Int.zero_add] at a b
    refine ⟨by rw [a], ?_⟩
    rcases b with b | ⟨b1, b2, b3, b4⟩
    · exact Or.inl b
    · refine Or.inr ⟨b1, b2, b3, ?_⟩
      rcases b4 with b4 | ⟨x, hx, b4⟩
      · exact Or.inl b4
      · right
        obtain ⟨y, hy, rfl⟩ := List.mem_map.1 hx
        have hz := List.mem_zipIdx hy
        exact ⟨y.2, by omega, b4⟩

/-- **C03** Whatever is in a SYNCHRONIZE_RESPONSE and whatever fails underneath: the node ends
with its old history extended by texts `qs`, where the `k`-th one is the replay of the `k`-th
element of the response, which was a COMMIT numbered with the node's next commit number and
claiming the hash of exactly the history it produced. -/
theorem c03_only_verified_commits (env : REnv) (hnj : 0 < env.db.numJournals)
    (hne : ∀ x, env.db.sha1hex x ≠ []) (ops : List Op) (hd : Disciplined {} (trace env.db ops))
    (h : Nat) (m : SyncMsg) (os : Nat → Outcomes) :
    let t := after env ops
    let r := recvSynchronize env t h m os
    Consistent env r.1 ∧
    ∃ qs, committed r.1 = committed t ++ qs ∧ qs.length ≤ m.items.length ∧
      ∀ (k : Nat) (hk : k < qs.length) (hk' : k < m.items.length),
        m.items[k].isCommit = true ∧ m.items[k].index = some (((committed t).length + k + 1 : Nat) : Int) ∧
        (∃ raw, env.decompress m.items[k].content = some raw ∧ qs[k] = env.expand raw) ∧
        m.items[k].hash = some (chain env.db.sha1hex (committed t ++ qs.take (k + 1))) := by
  intro t r
  obtain ⟨h1, qs, h2, h3, _⟩ := recvSync_facts env hnj hne t (after_inv hnj hne ops hd) h m os
  exact ⟨inv_consistent h1, qs, h2, justified_length h3, fun k hk hk' => justified_get h3 k hk hk'⟩

/-- **C03** (first bad element). If element `k` is not a COMMIT, is not numbered consecutively, has
no hash or cannot be decompressed, the exchange is reported as failed and at most the `k` elements
before it have been applied. -/
theorem c03_bad_element_stops (env : REnv) (hnj : 0 < env.db.numJournals)
    (hne : ∀ x, env.db.sha1hex x ≠ []) (ops : List Op) (hd : Disciplined {} (trace env.db ops))
    (h : Nat) (m : SyncMsg) (os : Nat → Outcomes) (k : Nat) (hk : k < m.items.length)
    (hbad : m.items[k].isCommit = false ∨
      m.items[k].index ≠ some (((committed (after env ops)).length + k + 1 : Nat) : Int) ∨
      m.items[k].hash = none ∨ env.decompress m.items[k].content = none ∨
      ∀ qs : List Bytes, qs.length = k + 1 → m.items[k].hash ≠
        some (chain env.db.sha1hex (committed (after env ops) ++ qs))) :
    let r := recvSynchronize env (after env ops) h m os
    r.2 = false ∧ (committed r.1).length ≤ (committed (after env ops)).length + k := by
  intro r
  obtain ⟨h1, qs, h2, h3, h4⟩ := recvSync_facts env hnj hne (after env ops)
    (after_inv hnj hne ops hd) h m os
  have key : ∀ qs, Justified env (committed (after env ops)) m.items qs → qs.length ≤ k := by
    intro qs hj
    apply Decidable.byContradiction
    intro hlt
    obtain ⟨a, b, ⟨raw, c, _⟩, d⟩ := justified_get hj k (by omega) hk
    rcases hbad with x | x | x | x | x
    · rw [a] at x; simp at x
    · exact x b
    · rw [d] at x; simp at x
    · rw [c] at x; simp at x
    · exact x (qs.take (k + 1)) (by simp; omega) d
  constructor
  · cases hr : r.2 with
    | false => rfl
    | true =>
      exfalso
      rcases (h4 hr).2 with x | ⟨x, _, ⟨q, hj⟩, _⟩
      · have := key qs h3; omega
      · have := key _ hj; simp at this; omega
  · show (committed (recvSynchronize env (after env ops) h m os).1).length ≤ _
    rw [h2]; simp [key qs h3]

/-- **C03** (reported success), partial. If the exchange is reported as successful and SQLite
refused no commit on the way, every element was applied and the announced number was right.
Missing from the full claim "success means everything was applied": the result of the last
`commit` is not looked at by the code; see `c03_ignored_commit_failure`. -/
theorem c03_success_means_all_applied_partial (env : REnv) (hnj : 0 < env.db.numJournals)
    (hne : ∀ x, env.db.sha1hex x ≠ []) (ops : List Op) (hd : Disciplined {} (trace env.db ops))
    (h : Nat) (m : SyncMsg) (os : Nat → Outcomes)
    (hok : (recvSynchronize env (after env ops) h m os).2 = true)
    (hen : (recvSynchronize env (after env ops) h m os).1.s.commitEnabled = true)
    (hco : ∀ k < m.items.length, (os k).commitOk = true) :
    m.numCommits = some (m.items.length : Int) ∧
    (committed (recvSynchronize env (after env ops) h m os).1).length =
      (committed (after env ops)).length + m.items.length := by
  obtain ⟨h1, qs, h2, h3, h4⟩ := recvSync_facts env hnj hne (after env ops)
    (after_inv hnj hne ops hd) h m os
  obtain ⟨a, b⟩ := h4 hok
  refine ⟨a, ?_⟩
  rcases b with b | ⟨_, _, _, b | ⟨k, hk, b⟩⟩
  · rw [h2]; simp [b]
  · rw [hen] at b; simp at b
  · rw [hco k hk] at b; simp at b

/-- A response with the one commit the example node lacks. -/
def exResp : SyncMsg where
  numCommits := some 1
  items := [honestItem exEnv [[65], [66], [68]] 3]

/-- The hypotheses of the theorems above are met: success with everything applied, and failure. -/
example : (recvSynchronize exREnv (after exREnv exFollower) 5 exResp (fun _ => {})).2 = true ∧
    committed (recvSynchronize exREnv (after exREnv exFollower) 5 exResp (fun _ => {})).1 =
      [[65], [66], [68]] ∧
    (recvSynchronize exREnv (after exREnv exFollower) 5 exResp (fun _ => {})).1.s.commitEnabled = true ∧
    (recvSynchronize exREnv (after exREnv exFollower) 5
      { exResp with items := [{ honestItem exEnv [[65], [66], [68]] 3 with index := some 2 }] }
      (fun _ => {})).2 = false := by
  decide +kernel

/-- **C03** (the code breaks the full claim). If the final `commit` fails, the exchange is still
reported as successful although the commit is missing and the transaction is left open.
(`_recvSynchronize` calls `_db.commit(...)` and ignores its result, SQLiteNode.cpp:1811.) -/
theorem c03_ignored_commit_failure :
    ∃ (env : REnv) (ops : List Op) (m : SyncMsg) (os : Nat → Outcomes),
      Disciplined {} (trace env.db ops) ∧
      (recvSynchronize env (after env ops) 5 m os).2 = true ∧ m.items.length = 1 ∧
      committed (recvSynchronize env (after env ops) 5 m os).1 = committed (after env ops) ∧
      ((recvSynchronize env (after env ops) 5 m os).1.s.handles 5).inside = true :=
  ⟨exREnv, exFollower, exResp, fun _ => { commitOk := false }, by decide +kernel⟩

/-! ## C04: replies carry the right range and peers catch up -/

/-- **C04** (content of the reply). Reply of any node with any history `log` to a peer announcing
`pc` commits and hash `ph`: if it carries commits at all, the peer really holds the first `pc`
hashes in common, and the reply is exactly the commits `pc+1, …, to` of our history in order,
with `to` the whole history (of a leader: what it has broadcast) for a subscriber, and at most
101 commits further than the peer otherwise. -/
theorem c04_reply_exact (env : REnv) (hnj : 0 < env.db.numJournals)
    (hne : ∀ x, env.db.sha1hex x ≠ []) (ops : List Op) (hd : Disciplined {} (trace env.db ops))
    (lastSent : Option Nat) (pc : Nat) (ph : Bytes) (sendAll readOk : Bool) (m : SyncMsg)
    (hm : queueSynchronize env.db (after env ops).s lastSent pc ph sendAll readOk = .commits m) :
    let log := committed (after env ops)
    let target := lastSent.getD log.length
    let to := if sendAll then target else min target (pc + 101)
    pc ≤ log.length ∧ (pc ≠ 0 → ph = chain env.db.sha1hex (log.take pc)) ∧ pc ≤ target ∧
    m.shuttingDown = false ∧ m.numCommits = some ((to - pc : Nat) : Int) ∧
    m.items = honestItems env.db log pc to :=
  queueSync_exact (after_inv hnj hne ops hd) lastSent pc ph sendAll readOk m hm

/-- Commits `a+1 … b` are still in the journal. -/
def Journaled (env : REnv) (s : Sys) (a b : Nat) : Prop :=
  ∀ i, a < i → i ≤ b → (getCommit env.db s.tables i).isSome

/-- **C04** (decision). A peer ahead of us gets an error; a peer whose hash differs from the hash
of our history at its position gets told that position and our hash; a peer that shares our
history, with a journal reaching back to its position, gets commits. -/
theorem c04_reply_decision (env : REnv) (hnj : 0 < env.db.numJournals)
    (hne : ∀ x, env.db.sha1hex x ≠ []) (ops : List Op) (hd : Disciplined {} (trace env.db ops))
    (lastSent : Option Nat) (pc : Nat) (ph : Bytes) (sendAll : Bool) :
    let log := committed (after env ops)
    let reply := queueSynchronize env.db (after env ops).s lastSent pc ph sendAll true
    (log.length < pc → reply = .error) ∧
    (pc ≠ 0 → pc ≤ log.length → (getCommit env.db (after env ops).s.tables pc).isSome →
      ph ≠ chain env.db.sha1hex (log.take pc) →
      reply = .mismatch pc (chain env.db.sha1hex (log.take pc))) ∧
    ((pc = 0 ∨ ((getCommit env.db (after env ops).s.tables pc).isSome ∧
        ph = chain env.db.sha1hex (log.take pc))) →
      pc ≤ lastSent.getD log.length → lastSent.getD log.length ≤ log.length →
      Journaled env (after env ops).s pc (lastSent.getD log.length) →
      ∃ m, reply = .commits m) := by
  intro log reply
  have hi := after_inv hnj hne ops hd
  have hcnt : (after env ops).s.commitCount = log.length := hi.count
  refine ⟨?_, ?_, ?_⟩
  · intro h; show queueSynchronize _ _ _ _ _ _ _ = _
    unfold queueSynchronize; rw [hcnt, if_pos h]
  · intro h0 hle hs hph
    show queueSynchronize _ _ _ _ _ _ _ = _
    obtain ⟨row, hg⟩ := Option.isSome_iff_exists.1 hs
    obtain ⟨_, _, hrow⟩ := c09_rows_sound env.db hnj hne ops hd pc row hg
    unfold queueSynchronize
    rw [hcnt, if_neg (by omega), if_neg h0, hg]
    have hrh : row.hash = chain env.db.sha1hex (log.take pc) := by rw [hrow]; rfl
    simp only [hrh]
    rw [if_pos (fun e => hph e.symm)]
  · intro h0 h1 h2 hj
    show ∃ m, queueSynchronize _ _ _ _ _ _ _ = _
    generalize htg : lastSent.getD log.length = target at *
    have tail : ∃ m, (if pc = target then SyncReply.commits { numCommits := some 0, items := [] }
        else if (!true) = true then .error
        else if ((getCompressedCommits env.db (after env ops).s.tables (pc + 1)
            (if sendAll then target else min target (pc + 1 + 100))).length : Int) ≠
            (↑(if sendAll then target else min target (pc + 1 + 100)) : Int) - ↑(pc + 1) + 1 then .error
        else .commits
          { numCommits := some ((getCompressedCommits env.db (after env ops).s.tables (pc + 1)
              (if sendAll then target else min target (pc + 1 + 100))).length : Int)
            items := commitItems pc (getCompressedCommits env.db (after env ops).s.tables (pc + 1)
              (if sendAll then target else min target (pc + 1 + 100))) }) = .commits m := by
      by_cases h3 : pc = target
      · rw [if_pos h3]; exact ⟨_, rfl⟩
      · rw [if_neg h3, if_neg (by simp)]
        generalize hto : (if sendAll then target else min target (pc + 1 + 100)) = to
        have hb : pc < to ∧ to ≤ target := by rw [← hto]; split <;> omega
        have := compressed_full hi pc to hb.1 (fun i a b => hj i a (by omega))
        rw [if_neg (by rw [this]; omega)]
        exact ⟨_, rfl⟩
    unfold queueSynchronize
    rw [hcnt, if_neg (by omega)]
    rcases h0 with h0 | ⟨hs, hph⟩
    · rw [if_pos h0, htg]; exact tail
    · by_cases hz : pc = 0
      · rw [if_pos hz, htg]; exact tail
      · obtain ⟨row, hg⟩ := Option.isSome_iff_exists.1 hs
        obtain ⟨_, _, hrow⟩ := c09_rows_sound env.db hnj hne ops hd pc row hg
        rw [if_neg hz, hg, htg]
        simp only
        rw [if_neg (by rw [hrow, hph]; simp; rfl)]
        exact tail

/-- The example's source journal is complete, and each kind of reply occurs. -/
example :
    queueSynchronize exEnv (after exREnv exSource).s none 2 (chain exEnv.sha1hex [[65], [66]]) false true
      = .commits exResp ∧
    queueSynchronize exEnv (after exREnv exSource).s none 4 [] false true = .error ∧
    queueSynchronize exEnv (after exREnv exSource).s none 2 [9] false true =
      .mismatch 2 (chain exEnv.sha1hex [[65], [66]]) := by decide +kernel

/-- **C04** (catching up). A node at rest whose history is a prefix of the source's, talking to a
source that does not change and whose journal still holds everything after that prefix, has
exactly the first `min(target, p + 101·n)` transactions of the source after `n` exchanges, none
of which fails; `target` is the source's whole history, or what it has broadcast if it leads.
So it holds the whole of it as soon as `101·n ≥ target - p`. -/
theorem c04_catches_up (env : REnv) (hnj : 0 < env.db.numJournals)
    (hne : ∀ x, env.db.sha1hex x ≠ [])
    (src dst : List Op) (hs : Disciplined {} (trace env.db src)) (hd : Disciplined {} (trace env.db dst))
    (h : Nat) (os : Nat → Outcomes) (hfine : ∀ k, (os k).fine) (lastSent : Option Nat) (p target : Nat)
    (htg : target = lastSent.getD (committed (after env src)).length)
    (htl : target ≤ (committed (after env src)).length) (hp : p ≤ target)
    (hpre : committed (after env dst) = (committed (after env src)).take p)
    (hready : Ready (after env dst).s h)
    (hrep : Replayable env (committed (after env src)))
    (hj : Journaled env (after env src).s (p - 1) target) (n : Nat) :
    let r := syncRounds env (after env src).s lastSent h os n (after env dst)
    r.2 = true ∧ committed r.1 = (committed (after env src)).take (min target (p + 101 * n)) := by
  have main : ∀ (n : Nat) (t : Traced) (p : Nat), p ≤ target →
      Inv env.db t.s (t.view {}) → Ready t.s h → (t.view {}).log = (committed (after env src)).take p →
      Journaled env (after env src).s (p - 1) target →
      (syncRounds env (after env src).s lastSent h os n t).2 = true ∧
      committed (syncRounds env (after env src).s lastSent h os n t).1 =
        (committed (after env src)).take (min target (p + 101 * n)) := by
    intro n
    induction n with
    | zero =>
      intro t p hp hi _ hl _
      refine ⟨rfl, ?_⟩
      show (t.view {}).log = _
      rw [hl]; congr 1; omega
    | succ n ih =>
      intro t p hp hi hr hl hj
      have hlen : (t.view {}).log.length = p := by rw [hl]; simp; omega
      have hc : t.s.commitCount = p := by rw [hi.count, hlen]
      have hh : t.s.lastHash = chain env.db.sha1hex ((committed (after env src)).take p) := by
        rw [hi.hash, hl]
      obtain ⟨-, -, h3⟩ := c04_reply_decision env hnj hne src hs lastSent p t.s.lastHash false
      rw [← htg] at h3
      have h0 : p = 0 ∨ ((getCommit env.db (after env src).s.tables p).isSome ∧
          t.s.lastHash = chain env.db.sha1hex ((committed (after env src)).take p)) := by
        by_cases hz : p = 0
        · exact Or.inl hz
        · exact Or.inr ⟨hj p (by omega) (by omega), hh⟩
      obtain ⟨m, hm⟩ := h3 h0 hp htl (fun i a b => hj i (by omega) b)
      obtain ⟨-, -, -, x1, x2, x3⟩ := c04_reply_exact env hnj hne src hs lastSent p t.s.lastHash false true m hm
      rw [← htg] at x2 x3
      simp only [Bool.false_eq_true, if_false] at x2 x3
      generalize hto : min target (p + 101) = to at *
      have hto' : p ≤ to ∧ to ≤ target := by omega
      obtain ⟨t', r1, r2, r3, r4⟩ := recvLoop_honest env hnj hne h {} (committed (after env src)) hrep
        (to - p) p (m.items.zipIdx.map fun e => (e.1, os e.2)) t ((to - p : Nat) : Int) hi hr hl (by omega)
        (by
          rw [List.map_map, show (Prod.fst ∘ fun e : Item × Nat => (e.1, os e.2)) = Prod.fst from rfl]
          simp [x3, honestItems])
        (by
          intro e he
          obtain ⟨y, _, rfl⟩ := List.mem_map.1 he
          exact hfine _)
      have hround : syncRound env (after env src).s lastSent h os t = (t', true) := by
        unfold syncRound
        rw [hc, hm]
        simp only [recvSynchronize, x1, x2]
        rw [if_neg (by simp), r1]
        simp
      unfold syncRounds
      rw [hround]
      simp only [if_true]
      have := ih t' to hto'.2 r2 r3 (by rw [r4]; congr 1; omega) (fun i a b => hj i (by omega) b)
      refine ⟨this.1, ?_⟩
      rw [this.2]; congr 1; omega
  exact main n _ p hp (after_inv hnj hne dst hd) hready hpre hj

/-- The hypotheses are met by the example source and follower, and one round suffices. -/
example : ({} : Outcomes).fine ∧ Replayable exREnv (committed (after exREnv exSource)) ∧
    committed (after exREnv exFollower) = (committed (after exREnv exSource)).take 2 ∧
    (∀ i, 1 < i → i ≤ 3 → (getCommit exEnv (after exREnv exSource).s.tables i).isSome) ∧
    committed (syncRounds exREnv (after exREnv exSource).s none 5 (fun _ => {}) 1
      (after exREnv exFollower)).1 = committed (after exREnv exSource) := by
  refine ⟨⟨rfl, rfl, rfl, rfl, rfl, rfl⟩, ?_, by decide +kernel, ?_, by decide +kernel⟩
  · intro q hq
    have : q = [65] ∨ q = [66] ∨ q = [68] := by
      have e : committed (after exREnv exSource) = [[65], [66], [68]] := by decide +kernel
      rw [e] at hq; simpa using hq
    rcases this with rfl | rfl | rfl
    · exact ⟨[65], by decide +kernel⟩
    · exact ⟨[66], by decide +kernel⟩
    · exact ⟨[68], by decide +kernel⟩
  intro i h1 h2
  have : i = 2 ∨ i = 3 := by omega
  rcases this with rfl | rfl <;> decide +kernel

end Bedrock.Sync
