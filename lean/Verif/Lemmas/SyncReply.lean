import Verif.Lemmas.Sync

/-! Helper lemmas about `queueSynchronize` and about applying its replies. -/

namespace Bedrock.Sync
open Bedrock Bedrock.DB Bedrock.DB.Spec Bedrock.Sync.Spec

theorem mem_insRow (r x : Row) (l : List Row) : x ∈ insRow r l ↔ x = r ∨ x ∈ l := by
  induction l with
  | nil => simp [insRow]
  | cons y ys ih =>
    unfold insRow
    split
    · simp
    · split
      · rename_i h; subst h; simp
      · simp only [List.mem_cons, ih]; constructor <;> (intro h; rcases h with h | h | h <;> simp [h])

/-- Strictly increasing ids. -/
def Inc (l : List Row) : Prop := l.Pairwise (fun a b => a.id < b.id)

theorem insRow_inc (r : Row) (l : List Row) (hl : Inc l) (hf : ∀ x ∈ l, x.id = r.id → x = r) :
    Inc (insRow r l) := by
  induction l with
  | nil => simp [insRow, Inc]
  | cons y ys ih =>
    unfold insRow
    have hy := List.pairwise_cons.1 hl
    split
    · rename_i h
      refine List.pairwise_cons.2 ⟨?_, hl⟩
      intro z hz
      rcases List.mem_cons.1 hz with rfl | hz
      · exact h
      · exact Nat.lt_trans h (hy.1 z hz)
    · rename_i h
      split
      · exact hl
      · rename_i hne
        refine List.pairwise_cons.2 ⟨?_, ih hy.2 (fun x hx => hf x (by simp [hx]))⟩
        intro z hz
        rcases (mem_insRow r z ys).1 hz with rfl | hz
        · have : y.id ≠ z.id := fun e => hne ((hf y (by simp) e).symm)
          omega
        · exact hy.1 z hz

theorem foldr_insRow (l : List Row) (hf : ∀ x ∈ l, ∀ y ∈ l, x.id = y.id → x = y) :
    Inc (l.foldr insRow []) ∧ ∀ x, x ∈ l.foldr insRow [] ↔ x ∈ l := by
  induction l with
  | nil => simp [Inc]
  | cons y ys ih =>
    obtain ⟨a, b⟩ := ih (fun x hx z hz => hf x (by simp [hx]) z (by simp [hz]))
    simp only [List.foldr_cons]
    refine ⟨insRow_inc _ _ a ?_, ?_⟩
    · intro x hx e; exact hf x (by simp [(b x).1 hx]) y (by simp) e
    · intro x; rw [mem_insRow, b]; simp

/-- A strictly increasing list of ids within `[a+1, a+n]` has at most `n` entries, and if it has
`n` they are `a+1, …, a+n`. -/
theorem inc_bound (l : List Nat) : ∀ (a n : Nat), l.Pairwise (· < ·) →
    (∀ x ∈ l, a + 1 ≤ x ∧ x ≤ a + n) →
    l.length ≤ n ∧ (l.length = n → l = List.range' (a + 1) n) := by
  induction l with
  | nil => intro a n _ _; refine ⟨by simp, fun h => ?_⟩; simp at h; subst h; simp
  | cons x xs ih =>
    intro a n hp hb
    have hx := List.pairwise_cons.1 hp
    have hxb := hb x (by simp)
    obtain ⟨k, rfl⟩ : ∃ k, n = k + 1 := ⟨n - 1, by omega⟩
    have := ih (a + 1) k hx.2 (fun y hy => by
      have h1 := hx.1 y hy
      have h2 := hb y (by simp [hy])
      omega)
    refine ⟨by simp only [List.length_cons]; omega, fun hl => ?_⟩
    simp only [List.length_cons, Nat.add_right_cancel_iff] at hl
    have e := this.2 hl
    have : x = a + 1 := by
      cases k with
      | zero => omega
      | succ k =>
        have hm : a + 1 + 1 ∈ xs := by rw [e]; simp [List.range'_succ]
        have := hx.1 _ hm
        omega
    rw [e, this]
    simp [List.range'_succ]

theorem commitItems_map (start : Nat) (rows : List Row) (f : Nat → Item)
    (hf : ∀ k (hk : k < rows.length), f (start + 1 + k) =
      { isCommit := true, index := some ((start + k + 1 : Nat) : Int), hash := some rows[k].hash,
        content := rows[k].query }) :
    commitItems start rows = (List.range' (start + 1) rows.length).map f := by
  induction rows generalizing start with
  | nil => rfl
  | cons r rs ih =>
    simp only [commitItems, List.length_cons, List.range'_succ, List.map_cons]
    congr 1
    · have := hf 0 (by simp); simpa using this.symm
    · apply ih
      intro k hk
      have := hf (k + 1) (by simp; omega)
      simp only [List.getElem_cons_succ] at this
      rw [← show start + 1 + (k + 1) = start + 1 + 1 + k by omega, this]
      congr 2; omega

theorem rows_unique {env : DB.Env} {s : Sys} {v : View} (hi : Inv env s v) (x y : Row)
    (hx : x ∈ allRows env s.tables) (hy : y ∈ allRows env s.tables) (e : x.id = y.id) : x = y := by
  obtain ⟨t, _, hx⟩ := (mem_allRows _ _ _).1 hx
  obtain ⟨t', _, hy⟩ := (mem_allRows _ _ _).1 hy
  obtain ⟨_, _, a, b⟩ := hi.rows t x hx
  obtain ⟨_, _, c, d⟩ := hi.rows t' y hy
  cases x; cases y; simp_all

/-- What the journal query returns, in a reachable state, when its row count is the size of the
range asked for. -/
theorem compressed_exact {env : DB.Env} {s : Sys} {v : View} (hi : Inv env s v) (a b : Nat)
    (hab : a < b)
    (hl : (getCompressedCommits env s.tables (a + 1) b).length = b - a) :
    commitItems a (getCompressedCommits env s.tables (a + 1) b) = honestItems env v.log a b := by
  generalize hrows : getCompressedCommits env s.tables (a + 1) b = rows at *
  have hfold := foldr_insRow
    ((allRows env s.tables).filter fun r => a + 1 ≤ r.id && (b == 0 || r.id ≤ b))
    (fun x hx y hy e => rows_unique hi x y (List.mem_filter.1 hx).1 (List.mem_filter.1 hy).1 e)
  have hdef : rows = ((allRows env s.tables).filter fun r => a + 1 ≤ r.id && (b == 0 || r.id ≤ b)).foldr insRow [] := by
    rw [← hrows]; rfl
  rw [← hdef] at hfold
  obtain ⟨hinc, hmem⟩ := hfold
  have hids : rows.map Row.id = List.range' (a + 1) (b - a) := by
    have := inc_bound (rows.map Row.id) a (b - a) (List.pairwise_map.2 hinc) (by
      intro x hx
      obtain ⟨r, hr, rfl⟩ := List.mem_map.1 hx
      have := (List.mem_filter.1 ((hmem r).1 hr)).2
      simp at this
      omega)
    exact this.2 (by simpa using hl)
  unfold honestItems
  rw [← hl]
  apply commitItems_map
  intro k hk
  have hid : (rows[k]).id = a + 1 + k := by
    have : (rows.map Row.id)[k]'(by simpa using hk) = (List.range' (a + 1) (b - a))[k]'(by simp; omega) := by
      simp [hids]
    simpa using this
  obtain ⟨t, _, hr⟩ := (mem_allRows _ _ _).1 (List.mem_filter.1 ((hmem rows[k]).1 (List.getElem_mem hk))).1
  obtain ⟨_, _, hq, hh⟩ := hi.rows t _ hr
  rw [hid] at hq hh
  simp only [honestItem, hq, hh]
  congr 2; omega

/-- When every commit of the range still has its row, the query returns all of them. -/
theorem compressed_full {env : DB.Env} {s : Sys} {v : View} (hi : Inv env s v) (a b : Nat)
    (hab : a < b)
    (hall : ∀ i, a < i → i ≤ b → (getCommit env s.tables i).isSome) :
    (getCompressedCommits env s.tables (a + 1) b).length = b - a := by
  generalize hrows : getCompressedCommits env s.tables (a + 1) b = rows at *
  have hfold := foldr_insRow
    ((allRows env s.tables).filter fun r => a + 1 ≤ r.id && (b == 0 || r.id ≤ b))
    (fun x hx y hy e => rows_unique hi x y (List.mem_filter.1 hx).1 (List.mem_filter.1 hy).1 e)
  have hdef : rows = ((allRows env s.tables).filter fun r => a + 1 ≤ r.id && (b == 0 || r.id ≤ b)).foldr insRow [] := by
    rw [← hrows]; rfl
  rw [← hdef] at hfold
  obtain ⟨hinc, hmem⟩ := hfold
  have hb := inc_bound (rows.map Row.id) a (b - a) (List.pairwise_map.2 hinc) (by
      intro x hx
      obtain ⟨r, hr, rfl⟩ := List.mem_map.1 hx
      have := (List.mem_filter.1 ((hmem r).1 hr)).2
      simp at this
      omega)
  have hge : (List.range' (a + 1) (b - a)).length ≤ (rows.map Row.id).length := by
    apply List.Nodup.length_le_of_subset (List.nodup_range')
    intro i hi'
    have hi2 : a + 1 ≤ i ∧ i < a + 1 + (b - a) := by simpa using hi'
    have hsome := hall i (by omega) (by omega)
    obtain ⟨r, hr⟩ := Option.isSome_iff_exists.1 hsome
    have hid : r.id = i := by simpa using List.find?_some hr
    refine List.mem_map.2 ⟨r, (hmem r).2 (List.mem_filter.2 ⟨List.mem_of_find?_eq_some hr, ?_⟩), hid⟩
    simp [hid]; omega
  simp at hge
  have := hb.1
  simp at this
  omega

end Bedrock.Sync

namespace Bedrock.Sync
open Bedrock Bedrock.DB Bedrock.DB.Spec Bedrock.Sync.Spec

/-- The unmodelled parts of a transaction all succeed. -/
def Outcomes.fine (o : Outcomes) : Prop :=
  o.beginOk = true ∧ o.writeOk = true ∧ o.lockOk = true ∧ o.insertOk = true ∧ o.commitOk = true ∧
  o.following = true

theorem take_succ_getD (L : List Bytes) (a : Nat) (h : a < L.length) :
    L.take (a + 1) = L.take a ++ [L.getD a []] := by
  rw [List.take_add_one]; simp [h]

theorem recvLoop_honest (env : REnv) (hnj : 0 < env.db.numJournals)
    (hne : ∀ x, env.db.sha1hex x ≠ []) (h : Nat) (v : View) (L : List Bytes)
    (hrep : Replayable env L) :
    ∀ (n a : Nat) (its : List (Item × Outcomes)) (t : Traced) (rem : Int),
    Inv env.db t.s (t.view v) → Ready t.s h → (t.view v).log = L.take a → a + n ≤ L.length →
    its.map Prod.fst = (List.range' (a + 1) n).map (honestItem env.db L) →
    (∀ e ∈ its, e.2.fine) →
    ∃ t', recvLoop env h t rem its = (t', some (rem - n)) ∧ Inv env.db t'.s (t'.view v) ∧
      Ready t'.s h ∧ (t'.view v).log = L.take (a + n) := by
  intro n
  induction n with
  | zero =>
    intro a its t rem hi hr hl _ hit _
    simp at hit
    subst hit
    exact ⟨t, by simp [recvLoop], hi, hr, by simpa using hl⟩
  | succ n ih =>
    intro a its t rem hi hr hl hlen hit hf
    obtain ⟨⟨c, o⟩, rest, rfl⟩ : ∃ x xs, its = x :: xs := by
      cases its with
      | nil => simp at hit
      | cons x xs => exact ⟨x, xs, rfl⟩
    simp only [List.map_cons, List.range'_succ, List.cons.injEq] at hit
    obtain ⟨hc, hrest⟩ := hit
    obtain ⟨f1, f2, f3, f4, f5, f6⟩ := hf (c, o) (by simp)
    simp only at f1 f2 f3 f4 f5 f6
    have hcount : t.s.commitCount = a := by
      rw [hi.count, hl]; simp; omega
    obtain ⟨raw, hd, he⟩ := hrep (L.getD a []) (by
      rw [List.getD_eq_getElem?_getD, List.getElem?_eq_getElem (by omega)]; simp)
    obtain ⟨t1, t2, t3, t4, e1, e2, e3, e4, hr4⟩ :=
      ready_tx hnj hne hi h hr true (env.expand raw) o.pick
    obtain ⟨j1, j2, j3, j4, j5, j6, j7, j8⟩ := prepared_facts hnj hne hi h true _ _ _ _ _ _ _ _ _ e1 e2 e3
    obtain ⟨k1, k2, k3⟩ := commit_facts hnj hne j1 h true
    have k2' := k2 (by rw [e4])
    rw [e4] at k1 k2'
    simp only at k1 k2'
    have hlog4 : (t4.view v).log = L.take (a + 1) := by
      rw [k2', j2, j3, hl, he, take_succ_getD L a (by omega)]
    obtain ⟨t', r1, r2, r3, r4⟩ := ih (a + 1) rest t4 (rem - 1) k1 hr4 hlog4 (by omega) hrest
      (fun e he => hf e (by simp [he]))
    refine ⟨t', ?_, r2, r3, by rw [r4]; congr 1; omega⟩
    have hu : (t3.s.handles h).uhash = chain env.db.sha1hex (L.take (a + 1)) := by
      rw [j6, hl, he, take_succ_getD L a (by omega)]
    unfold recvLoop
    simp only [hc, honestItem, Bool.not_true, Bool.false_eq_true, if_false]
    rw [if_neg (by omega)]
    rw [if_neg (by rw [hcount]; simp)]
    simp only [f1, e1, f2, f3, f4, f5, Nat.add_sub_cancel, hd]
    rw [if_neg (by simp)]
    simp only [e2, e3, hu, e4]
    simp only [ne_eq, not_true_eq_false, if_false]
    rw [r1]
    congr 2; simp; omega

end Bedrock.Sync

namespace Bedrock.Sync
open Bedrock Bedrock.DB Bedrock.DB.Spec Bedrock.Sync.Spec

theorem row_sound {env : DB.Env} {s : Sys} {v : View} (hi : Inv env s v) (i : Nat) (r : Row)
    (hg : getCommit env s.tables i = some r) : r.hash = chain env.sha1hex (v.log.take i) := by
  have hid' : r.id = i := by simpa using List.find?_some hg
  obtain ⟨t', _, hmem⟩ := (mem_allRows _ _ _).1 (List.mem_of_find?_eq_some hg)
  rw [(hi.rows t' r hmem).2.2.2, hid']

theorem queueSync_exact {env : DB.Env} {s : Sys} {v : View} (hi : Inv env s v)
    (lastSent : Option Nat) (pc : Nat) (ph : Bytes) (sendAll readOk : Bool) (m : SyncMsg)
    (hm : queueSynchronize env s lastSent pc ph sendAll readOk = .commits m) :
    let log := v.log
    let target := lastSent.getD log.length
    let to := if sendAll then target else min target (pc + 101)
    pc ≤ log.length ∧ (pc ≠ 0 → ph = chain env.sha1hex (log.take pc)) ∧ pc ≤ target ∧
    m.shuttingDown = false ∧ m.numCommits = some ((to - pc : Nat) : Int) ∧
    m.items = honestItems env log pc to := by
  intro log target to
  have hcnt : s.commitCount = log.length := hi.count
  unfold queueSynchronize at hm
  rw [hcnt] at hm
  by_cases h1 : log.length < pc
  · rw [if_pos h1] at hm; simp at hm
  rw [if_neg h1] at hm
  have body : ∀ (hb : (if pc = target then SyncReply.commits { numCommits := some 0, items := [] }
        else if (!readOk) = true then .error
        else if ((getCompressedCommits env s.tables (pc + 1)
            (if sendAll then target else min target (pc + 1 + 100))).length : Int) ≠
            (↑(if sendAll then target else min target (pc + 1 + 100)) : Int) - ↑(pc + 1) + 1 then .error
        else .commits
          { numCommits := some ((getCompressedCommits env s.tables (pc + 1)
              (if sendAll then target else min target (pc + 1 + 100))).length : Int)
            items := commitItems pc (getCompressedCommits env s.tables (pc + 1)
              (if sendAll then target else min target (pc + 1 + 100))) }) = .commits m),
      pc ≤ target ∧ m.shuttingDown = false ∧ m.numCommits = some ((to - pc : Nat) : Int) ∧
      m.items = honestItems env log pc to := by
    intro hb
    by_cases h2 : pc = target
    · rw [if_pos h2] at hb
      have hto : to = pc := by
        show (if sendAll then target else min target (pc + 101)) = pc
        split <;> omega
      cases hb
      refine ⟨by omega, rfl, by simp [hto], by simp [honestItems, hto]⟩
    · rw [if_neg h2] at hb
      by_cases h3 : (!readOk) = true
      · rw [if_pos h3] at hb; simp at hb
      rw [if_neg h3] at hb
      have hto : (if sendAll then target else min target (pc + 1 + 100)) = to := by
        show _ = (if sendAll then target else min target (pc + 101))
        have : pc + 1 + 100 = pc + 101 := by omega
        rw [this]
      rw [hto] at hb
      by_cases h4 : ((getCompressedCommits env s.tables (pc + 1) to).length : Int) ≠
          (to : Int) - ↑(pc + 1) + 1
      · rw [if_pos h4] at hb; simp at hb
      rw [if_neg h4] at hb
      have h5 := Decidable.not_not.1 h4
      have hto2 : to ≤ target := by
        show (if sendAll then target else min target (pc + 101)) ≤ target
        split <;> omega
      have hge : pc ≤ to := by omega
      have hne2 : pc ≠ to := by
        intro e
        have : to = (if sendAll then target else min target (pc + 101)) := rfl
        by_cases hsa : sendAll = true
        · rw [if_pos hsa] at this; omega
        · rw [if_neg hsa] at this; omega
      have hlen : (getCompressedCommits env s.tables (pc + 1) to).length = to - pc := by
        omega
      cases hb
      refine ⟨by omega, rfl, by simp only [hlen], ?_⟩
      exact compressed_exact hi pc to (by omega) hlen
  by_cases h0 : pc = 0
  · rw [if_pos h0] at hm
    exact ⟨by omega, by simp [h0], body hm⟩
  · rw [if_neg h0] at hm
    cases hg : getCommit env s.tables pc with
    | none => rw [hg] at hm; simp at hm
    | some row =>
      rw [hg] at hm
      simp only at hm
      by_cases h6 : row.hash ≠ ph
      · rw [if_pos h6] at hm; simp at hm
      · rw [if_neg h6] at hm
        refine ⟨by omega, fun _ => ?_, body hm⟩
        rw [← Decidable.not_not.1 h6]; exact row_sound hi pc row hg

end Bedrock.Sync
