import Verif.Model.Interrupt

/-!
# C103: a query ends when its time is up or its client is gone, and part of a result is never handed out
-/

namespace Bedrock.Interrupt.Props
open Bedrock.Interrupt

variable {Q R : Type}

/-! ## What a query gives if nothing stops it -/

/-- The rows up to the first statement that fails, and its code. -/
def plan : List (Stmt R) → List R × Nat
  | [] => ([], 0)
  | s :: ss => if s.code = 0 then (s.rows ++ (plan ss).1, (plan ss).2) else (s.rows, s.code)

/-- The limits after a query was given up: the next check throws. -/
def Stopped (t : T) (flag : Prop) : Prop := (t.limit ≠ 0 ∧ t.error ≠ 0) ∨ (t.ref = true ∧ flag)

/-- The limit is not before its start: `setTimeout` did not wrap. -/
def Sane (t : T) : Prop := t.limit = 0 ∨ t.start ≤ t.limit

theorem late {t : T} (hs : Sane t) (hl : t.limit ≠ 0) {now : UInt64} (h : now > t.limit) : now - t.start ≠ 0 := by
  have h1 : t.start ≤ t.limit := hs.resolve_left hl
  rw [UInt64.le_iff_toNat_le] at h1
  have h2 := UInt64.lt_iff_toNat_lt.mp h
  intro e
  have e' := congrArg UInt64.toNat e
  rw [UInt64.toNat_sub_of_le _ _ (UInt64.le_iff_toNat_le.mpr (by omega))] at e'
  have : (0 : UInt64).toNat = 0 := rfl
  omega

/-- Same limit, start and flag. -/
def Same (t t' : T) : Prop := t'.limit = t.limit ∧ t'.start = t.start ∧ t'.ref = t.ref

theorem Same.sane {t t' : T} (h : Same t t') (hs : Sane t) : Sane t' := by
  unfold Sane
  rw [h.1, h.2.1]
  exact hs

theorem callback_cases (t : T) (r : Reading) (hs : Sane t) :
    callback t r = (t, false) ∨ ((callback t r).2 = true ∧ Same t (callback t r).1 ∧ Stopped (callback t r).1 (r.flag = true)) := by
  unfold callback
  split
  · rename_i h
    exact .inr ⟨rfl, ⟨rfl, rfl, rfl⟩, .inl ⟨h.1, late hs h.1 h.2⟩⟩
  · cases hf : (t.ref && r.flag) with
    | false => exact .inl rfl
    | true =>
      rw [Bool.and_eq_true] at hf
      exact .inr ⟨rfl, ⟨rfl, rfl, rfl⟩, .inr hf⟩

theorem Stopped.mono {t : T} {p q : Prop} (h : Stopped t p) (hpq : p → q) : Stopped t q :=
  h.imp id (And.imp_right hpq)

theorem ticks_cases (t : T) (rs : List Reading) (hs : Sane t) :
    ticks t rs = (t, false) ∨ ((ticks t rs).2 = true ∧ Same t (ticks t rs).1 ∧ Stopped (ticks t rs).1 (∃ r ∈ rs, r.flag = true)) := by
  induction rs with
  | nil => exact .inl rfl
  | cons r rs ih =>
    unfold ticks
    rcases callback_cases t r hs with h | ⟨h1, h2, h3⟩
    · rw [h]
      exact ih.imp id fun ⟨a, b, c⟩ => ⟨a, b, c.mono fun ⟨x, hx, e⟩ => ⟨x, List.mem_cons_of_mem _ hx, e⟩⟩
    · generalize callback t r = x at h1 h2 h3
      obtain ⟨t', b⟩ := x
      obtain rfl : b = true := h1
      exact .inr ⟨rfl, h2, h3.mono fun e => ⟨r, List.mem_cons_self, e⟩⟩

theorem runStmt_cases (env : Nat → List Reading) (code : Nat) (j : Nat) (rows : List R) (t : T) (hs : Sane t) :
    runStmt env code j rows t = (t, rows, code) ∨
      (∃ t' out, runStmt env code j rows t = (t', out, interrupt) ∧ out <+: rows ∧ Same t t' ∧
        Stopped t' (∃ j, ∃ r ∈ env j, r.flag = true)) := by
  induction rows generalizing j with
  | nil =>
    unfold runStmt
    rcases ticks_cases t (env j) hs with h | ⟨h1, h2, h3⟩
    · rw [h]; exact .inl rfl
    · generalize ticks t (env j) = x at h1 h2 h3
      obtain ⟨t', b⟩ := x
      obtain rfl : b = true := h1
      exact .inr ⟨t', [], rfl, List.nil_prefix, h2, h3.mono fun h => ⟨j, h⟩⟩
  | cons r rows ih =>
    unfold runStmt
    rcases ticks_cases t (env j) hs with h | ⟨h1, h2, h3⟩
    · rw [h]
      rcases ih (j + 1) with h | ⟨t', out, h, hp, h2, h3⟩
      · left; simp only [h]
      · right; refine ⟨t', r :: out, ?_, List.cons_prefix_cons.mpr ⟨rfl, hp⟩, h2, h3⟩; simp only [h]
    · generalize ticks t (env j) = x at h1 h2 h3
      obtain ⟨t', b⟩ := x
      obtain rfl : b = true := h1
      exact .inr ⟨t', [], rfl, List.nil_prefix, h2, h3.mono fun h => ⟨j, h⟩⟩

theorem runQuery_cases (env : Nat → Nat → List Reading) (i : Nat) (ss : List (Stmt R)) (t : T) (hs : Sane t) :
    runQuery env i ss t = (t, plan ss) ∨
      (∃ t' out, runQuery env i ss t = (t', out, interrupt) ∧ out <+: (plan ss).1 ∧ Same t t' ∧
        Stopped t' (∃ i j, ∃ r ∈ env i j, r.flag = true)) := by
  induction ss generalizing i with
  | nil => exact .inl rfl
  | cons s ss ih =>
    unfold runQuery plan
    rcases runStmt_cases (env i) s.code 0 s.rows t hs with h | ⟨t', out, h, hp, h2, h3⟩
    · rw [h]
      by_cases hc : s.code = 0
      · rw [hc, if_pos rfl]
        rcases ih (i + 1) with h | ⟨t', out, h, hp, h2, h3⟩
        · left; simp only [h]
        · right; refine ⟨t', s.rows ++ out, ?_, (List.prefix_append_right_inj _).mpr hp, h2, h3⟩; simp only [h]
      · rw [if_neg hc]
        left
        cases hn : s.code with
        | zero => exact absurd hn hc
        | succ n => rfl
    · right
      refine ⟨t', out, ?_, ?_, h2, h3.mono fun h => ⟨i, h⟩⟩
      · rw [h]; rfl
      · split
        · exact hp.trans (List.prefix_append _ _)
        · exact hp

theorem check_same (t : T) (r : Reading) : Same t (check t r).1 := by
  unfold check
  dsimp only
  split <;> exact ⟨rfl, rfl, rfl⟩

theorem check_stopped {t : T} {p : Prop} (r : Reading) (hs : Sane t) (h : Stopped t p) (hp : p → r.flag = true) :
    (check t r).2 ≠ none := by
  unfold check
  dsimp only
  split
  · rename_i hl
    dsimp only
    split
    · exact nofun
    · rw [if_pos (And.intro hl.1 (late hs hl.1 hl.2))]
      exact nofun
  · split
    · exact nofun
    · rename_i hf
      rcases h with h | h
      · rw [if_pos h]
        exact nofun
      · rw [h.1, hp h.2] at hf
        exact absurd rfl hf

theorem check_none {t : T} {r : Reading} (hs : Sane t) (h : (check t r).2 = none) :
    (t.limit ≠ 0 → r.now ≤ t.limit) ∧ (t.ref = true → r.flag = false) := by
  unfold check at h
  dsimp only at h
  split at h
  · rename_i hl
    dsimp only at h
    split at h
    · exact absurd h nofun
    · rw [if_pos (And.intro hl.1 (late hs hl.1 hl.2))] at h
      exact absurd h nofun
  · rename_i hl
    split at h
    · exact absurd h nofun
    · rename_i hf
      refine ⟨fun h0 => UInt64.not_lt.mp fun h1 => hl ⟨h0, h1⟩, fun hr => ?_⟩
      rw [hr] at hf
      cases hb : r.flag with
      | false => rfl
      | true => rw [hb] at hf; exact absurd rfl hf

/-! ## Histories -/

/-- Calls on a handle.  `write`, `begin` and `finish` (commit or rollback) come with the database as it is afterwards. -/
inductive Op (Q R : Type) where
  | read (q : Q) (e : Env)
  | write (q : Q) (e : Env) (db : Q → List (Stmt R))
  | begin (db : Q → List (Stmt R))
  | finish (db : Q → List (Stmt R))
  | setTimeout (now us : UInt64)
  | clearTimeout
  | setAbortRef
  | clearAbortRef

/-- The flag is only ever set (BedrockServer.cpp:2404-2420): if it was seen set during a call, so it is at the end.  And
clock and limit fit 64 bits. -/
def Env.Fair (e : Env) : Prop := ∀ i j, ∀ r ∈ e.env i j, r.flag = true → e.last.flag = true

def Op.Fair : Op Q R → Prop
  | .read _ e => Env.Fair e
  | .write _ e _ => Env.Fair e
  | .setTimeout now us => now.toNat + us.toNat < 2 ^ 64
  | _ => True

/-- A handle and the database. -/
structure S (Q R : Type) where
  h : H Q R := {}
  db : Q → List (Stmt R)

variable [DecidableEq Q]

def step (s : S Q R) : Op Q R → S Q R × Option (Ans R)
  | .read q e => match read s.db s.h q e with | (h, a) => ({ s with h := h }, some a)
  | .write q e db => match write s.db s.h q e with | (h, a) => (⟨h, db⟩, some a)
  | .begin db => (⟨{ s.h with inside := true, cache := [] }, db⟩, none)
  | .finish db => (⟨{ s.h with inside := false, cache := [] }, db⟩, none)
  | .setTimeout now us => ({ s with h := { s.h with t := s.h.t.setTimeout now us } }, none)
  | .clearTimeout => ({ s with h := { s.h with t := s.h.t.clearTimeout } }, none)
  | .setAbortRef => ({ s with h := { s.h with t := s.h.t.setAbortRef } }, none)
  | .clearAbortRef => ({ s with h := { s.h with t := s.h.t.clearAbortRef } }, none)

def run (s : S Q R) : List (Op Q R) → S Q R
  | [] => s
  | o :: os => run (step s o).1 os

/-- Limits are sane and what is cached is whole. -/
def Good (s : S Q R) : Prop := Sane s.h.t ∧ ∀ q rows, (q, rows) ∈ s.h.cache → plan (s.db q) = (rows, 0)

theorem read_good (s : S Q R) (q : Q) (e : Env) (hg : Good s) (hf : Env.Fair e) :
    Good (⟨(read s.db s.h q e).1, s.db⟩ : S Q R) ∧ (∀ rows, (read s.db s.h q e).2 = .ok rows →
      plan (s.db q) = (rows, 0) ∧ (s.h.t.limit ≠ 0 → e.last.now ≤ s.h.t.limit) ∧ (s.h.t.ref = true → e.last.flag = false)) := by
  unfold read
  split
  · rename_i c hc
    have hc' : c ∈ s.h.cache ∧ c.1 = q := by
      cases he : e.cacheable with
      | false => rw [he] at hc; exact absurd hc nofun
      | true =>
        rw [he, if_pos rfl] at hc
        have := List.find?_some hc
        exact ⟨List.mem_of_find?_eq_some hc, of_decide_eq_true this⟩
    have hp := hg.2 c.1 c.2 hc'.1
    rw [hc'.2] at hp
    have hsame := check_same s.h.t e.last
    cases hk : check s.h.t e.last with
    | mk t x =>
      rw [hk] at hsame
      cases x with
      | some x => exact ⟨⟨hsame.sane hg.1, hg.2⟩, fun _ h => absurd h nofun⟩
      | none =>
        refine ⟨⟨hsame.sane hg.1, hg.2⟩, fun rows h => ?_⟩
        obtain rfl : c.2 = rows := Ans.ok.inj h
        exact ⟨hp, check_none hg.1 (by rw [hk])⟩
  · rcases runQuery_cases e.env 0 (s.db q) s.h.t hg.1 with h | ⟨t', out, h, hp, h2, h3⟩
    · rw [h]
      dsimp only
      have hcache : ∀ q' rows, (q', rows) ∈ (if e.cacheable && decide ((plan (s.db q)).2 = 0) && s.h.inside then s.h.cache ++ [(q, (plan (s.db q)).1)] else s.h.cache) →
          plan (s.db q') = (rows, 0) := by
        intro q' rows hm
        split at hm
        · rename_i hc
          rw [Bool.and_eq_true, Bool.and_eq_true] at hc
          rcases List.mem_append.mp hm with hm | hm
          · exact hg.2 _ _ hm
          · obtain ⟨rfl, rfl⟩ := Prod.mk.inj (List.mem_singleton.mp hm)
            exact Prod.ext rfl (of_decide_eq_true hc.1.2)
        · exact hg.2 _ _ hm
      have hsame := check_same s.h.t e.last
      cases hk : check s.h.t e.last with
      | mk t x =>
        rw [hk] at hsame
        cases x with
        | some x => exact ⟨⟨hsame.sane hg.1, hcache⟩, fun _ h => absurd h nofun⟩
        | none =>
          refine ⟨⟨hsame.sane hg.1, hcache⟩, fun rows h => ?_⟩
          dsimp only at h
          split at h
          · rename_i h0
            obtain rfl := Ans.ok.inj h
            exact ⟨Prod.ext rfl h0, check_none hg.1 (by rw [hk])⟩
          · exact absurd h nofun
    · rw [h]
      dsimp only
      rw [if_neg (by simp [interrupt])]
      have hsame := check_same t' e.last
      have hstop := check_stopped e.last (h2.sane hg.1) h3 (fun ⟨i, j, r, hr, hfl⟩ => hf i j r hr hfl)
      cases hk : check t' e.last with
      | mk t x =>
        rw [hk] at hsame hstop
        cases x with
        | some x => exact ⟨⟨hsame.sane (h2.sane hg.1), hg.2⟩, fun _ h => absurd h nofun⟩
        | none => exact absurd rfl hstop

omit [DecidableEq Q] in
theorem write_good (db : Q → List (Stmt R)) (h : H Q R) (q : Q) (e : Env) (hs : Sane h.t) (hf : Env.Fair e) :
    Sane (write db h q e).1.t ∧ (write db h q e).1.cache = [] ∧ (∀ rows, (write db h q e).2 = .ok rows →
      plan (db q) = (rows, 0) ∧ (h.t.limit ≠ 0 → e.last.now ≤ h.t.limit) ∧ (h.t.ref = true → e.last.flag = false)) := by
  unfold write
  rcases runQuery_cases e.env 0 (db q) h.t hs with h1 | ⟨t', out, h1, hp, h2, h3⟩
  · rw [h1]
    dsimp only
    split
    · exact ⟨hs, rfl, fun _ h => absurd h nofun⟩
    · have hsame := check_same h.t e.last
      cases hk : check h.t e.last with
      | mk t x =>
        rw [hk] at hsame
        cases x with
        | some x => exact ⟨hsame.sane hs, rfl, fun _ h => absurd h nofun⟩
        | none =>
          refine ⟨hsame.sane hs, rfl, fun rows h => ?_⟩
          dsimp only at h
          split at h
          · rename_i h0
            obtain rfl := Ans.ok.inj h
            exact ⟨Prod.ext rfl h0, check_none hs (by rw [hk])⟩
          · exact absurd h nofun
  · rw [h1]
    dsimp only
    rw [if_neg (by decide)]
    have hsame := check_same t' e.last
    have hstop := check_stopped e.last (h2.sane hs) h3 (fun ⟨i, j, r, hr, hfl⟩ => hf i j r hr hfl)
    cases hk : check t' e.last with
    | mk t x =>
      rw [hk] at hsame hstop
      cases x with
      | some x => exact ⟨hsame.sane (h2.sane hs), rfl, fun _ h => absurd h nofun⟩
      | none => exact absurd rfl hstop

theorem good_step (s : S Q R) (o : Op Q R) (hg : Good s) (hf : o.Fair) : Good (step s o).1 := by
  cases o with
  | read q e => exact (read_good s q e hg hf).1
  | write q e db =>
    obtain ⟨h1, h2, _⟩ := write_good s.db s.h q e hg.1 hf
    refine ⟨h1, fun q rows hm => ?_⟩
    have : (q, rows) ∈ (write s.db s.h _ e).1.cache := hm
    rw [h2] at this
    exact absurd this List.not_mem_nil
  | begin db => exact ⟨hg.1, fun _ _ h => absurd h List.not_mem_nil⟩
  | finish db => exact ⟨hg.1, fun _ _ h => absurd h List.not_mem_nil⟩
  | setTimeout now us =>
    refine ⟨.inr ?_, hg.2⟩
    show now ≤ now + us
    rw [UInt64.le_iff_toNat_le, UInt64.toNat_add, Nat.mod_eq_of_lt hf]
    omega
  | clearTimeout => exact ⟨.inl rfl, hg.2⟩
  | setAbortRef => exact ⟨hg.1, hg.2⟩
  | clearAbortRef => exact ⟨hg.1, hg.2⟩

theorem good_run (s : S Q R) (os : List (Op Q R)) (hg : Good s) (hf : ∀ o ∈ os, o.Fair) : Good (run s os) := by
  induction os generalizing s with
  | nil => exact hg
  | cons o os ih =>
    exact ih _ (good_step s o hg (hf o List.mem_cons_self)) (fun o' h => hf o' (List.mem_cons_of_mem _ h))

/-! ## The theorems -/

/-- C103.  After any calls on a handle, a read that answers has the whole result: all rows of all statements, each of
which succeeded, on the database as it is; never what a query had found when it was given up.  Also if it answers from
the cache.  And the answer is in time: the limit is not passed and the client is there. -/
theorem c103_read_whole (db : Q → List (Stmt R)) (os : List (Op Q R)) (hf : ∀ o ∈ os, o.Fair) (q : Q) (e : Env) (he : Env.Fair e)
    (rows : List R) (h : (step (run ⟨{}, db⟩ os) (.read q e)).2 = some (.ok rows)) :
    let s := run ⟨{}, db⟩ os
    rows = (s.db q).flatMap Stmt.rows ∧ (∀ x ∈ s.db q, x.code = 0) ∧ (s.h.t.limit ≠ 0 → e.last.now ≤ s.h.t.limit) ∧
      (s.h.t.ref = true → e.last.flag = false) := by
  have hg := good_run (⟨{}, db⟩ : S Q R) os ⟨.inl rfl, fun _ _ h => absurd h List.not_mem_nil⟩ hf
  obtain ⟨h1, h2⟩ := (read_good _ q e hg he).2 rows (Option.some.inj h)
  have key : ∀ (ss : List (Stmt R)) rows, plan ss = (rows, 0) → rows = ss.flatMap Stmt.rows ∧ ∀ x ∈ ss, x.code = 0 := by
    intro ss
    induction ss with
    | nil => intro rows h; exact ⟨(Prod.mk.inj h).1.symm, nofun⟩
    | cons s ss ih =>
      intro rows h
      unfold plan at h
      split at h
      · rename_i h0
        obtain ⟨e1, e2⟩ := Prod.mk.inj h
        obtain ⟨a, b⟩ := ih _ (Prod.ext rfl e2 : plan ss = ((plan ss).1, 0))
        refine ⟨by rw [← e1, List.flatMap_cons, ← a], fun x hx => ?_⟩
        rcases List.mem_cons.mp hx with rfl | hx
        · exact h0
        · exact b x hx
      · rename_i h0
        exact absurd (Prod.mk.inj h).2 h0
  exact ⟨(key _ _ h1).1, (key _ _ h1).2, h2⟩

/-- C103.  The same of a write. -/
theorem c103_write_whole (db : Q → List (Stmt R)) (os : List (Op Q R)) (hf : ∀ o ∈ os, o.Fair) (q : Q) (e : Env) (he : Env.Fair e)
    (db' : Q → List (Stmt R)) (rows : List R) (h : (step (run ⟨{}, db⟩ os) (.write q e db')).2 = some (.ok rows)) :
    let s := run ⟨{}, db⟩ os
    (∀ x ∈ s.db q, x.code = 0) ∧ (s.h.t.limit ≠ 0 → e.last.now ≤ s.h.t.limit) ∧ (s.h.t.ref = true → e.last.flag = false) := by
  have hg := good_run (⟨{}, db⟩ : S Q R) os ⟨.inl rfl, fun _ _ h => absurd h List.not_mem_nil⟩ hf
  obtain ⟨h1, h2⟩ := (write_good _ _ q e hg.1 he).2.2 rows (Option.some.inj h)
  refine ⟨?_, h2⟩
  have key : ∀ (ss : List (Stmt R)) rows, plan ss = (rows, 0) → ∀ x ∈ ss, x.code = 0 := by
    intro ss
    induction ss with
    | nil => intro rows h; exact nofun
    | cons s ss ih =>
      intro rows h x hx
      unfold plan at h
      split at h
      · rename_i h0
        rcases List.mem_cons.mp hx with rfl | hx
        · exact h0
        · exact ih _ (Prod.ext rfl (Prod.mk.inj h).2 : plan ss = ((plan ss).1, 0)) x hx
      · rename_i h0
        exact absurd (Prod.mk.inj h).2 h0
  exact key _ _ h1

/-- Nothing stops a query: every look at clock and flag finds the limit not passed and the client there. -/
def Calm (t : T) (r : Reading) : Prop := (t.limit ≠ 0 → r.now ≤ t.limit) ∧ (t.ref = true → r.flag = false)

theorem callback_calm {t : T} {r : Reading} (h : Calm t r) : callback t r = (t, false) := by
  unfold callback
  rw [if_neg (fun ⟨h1, h2⟩ => absurd (h.1 h1) (UInt64.not_le.mpr h2))]
  cases ht : t.ref with
  | false => rfl
  | true => rw [h.2 ht]; rfl

theorem ticks_calm {t : T} {rs : List Reading} (h : ∀ r ∈ rs, Calm t r) : ticks t rs = (t, false) := by
  induction rs with
  | nil => rfl
  | cons r rs ih =>
    unfold ticks
    rw [callback_calm (h r List.mem_cons_self)]
    exact ih fun x hx => h x (List.mem_cons_of_mem _ hx)

theorem runStmt_calm {env : Nat → List Reading} {t : T} (h : ∀ j, ∀ r ∈ env j, Calm t r) (code j : Nat) (rows : List R) :
    runStmt env code j rows t = (t, rows, code) := by
  induction rows generalizing j with
  | nil => unfold runStmt; rw [ticks_calm (h j)]
  | cons r rows ih => unfold runStmt; rw [ticks_calm (h j)]; simp only [ih]

theorem runQuery_calm {env : Nat → Nat → List Reading} {t : T} (h : ∀ i j, ∀ r ∈ env i j, Calm t r) (i : Nat) (ss : List (Stmt R)) :
    runQuery env i ss t = (t, plan ss) := by
  induction ss generalizing i with
  | nil => rfl
  | cons s ss ih =>
    unfold runQuery plan
    rw [runStmt_calm (h i)]
    by_cases hc : s.code = 0
    · rw [hc, if_pos rfl]
      simp only [ih]
    · rw [if_neg hc]
      cases hn : s.code with
      | zero => exact absurd hn hc
      | succ n => rfl

theorem check_calm {t : T} {r : Reading} (h : Calm t r) (he : t.error = 0) : check t r = (t, none) := by
  unfold check
  dsimp only
  rw [if_neg (fun ⟨h1, h2⟩ => absurd (h.1 h1) (UInt64.not_le.mpr h2))]
  have : (t.ref && r.flag) = false := by
    cases ht : t.ref with
    | false => rfl
    | true => rw [h.2 ht]; rfl
  rw [this, if_neg (by decide), if_neg (fun h => h.2 he)]

theorem plan_ok {ss : List (Stmt R)} (h : ∀ x ∈ ss, x.code = 0) : plan ss = (ss.flatMap Stmt.rows, 0) := by
  induction ss with
  | nil => rfl
  | cons s ss ih =>
    unfold plan
    rw [if_pos (h s List.mem_cons_self), ih (fun x hx => h x (List.mem_cons_of_mem _ hx)), List.flatMap_cons]

/-- C103.  A query is not given up early: from a limit being set on, as long as the clock has not passed it and the client
is there, a query whose statements succeed is answered with all rows. -/
theorem c103_not_early (db : Q → List (Stmt R)) (h : H Q R) (hc : h.cache = []) (q : Q) (e : Env) (now us : UInt64)
    (hcalm : ∀ r, (r = e.last ∨ ∃ i j, r ∈ e.env i j) → r.now ≤ now + us ∧ r.flag = false) (hq : ∀ x ∈ db q, x.code = 0) :
    (read db { h with t := (h.t.setTimeout now us).setAbortRef } q e).2 = .ok ((db q).flatMap Stmt.rows) := by
  have hc' : ∀ r, (r = e.last ∨ ∃ i j, r ∈ e.env i j) → Calm (h.t.setTimeout now us).setAbortRef r := fun r hr =>
    ⟨fun _ => (hcalm r hr).1, fun _ => (hcalm r hr).2⟩
  unfold read
  rw [hc]
  simp only [List.find?_nil, ite_self]
  rw [runQuery_calm (fun i j r hr => hc' r (.inr ⟨i, j, hr⟩)), plan_ok hq]
  dsimp only
  rw [check_calm (hc' _ (.inl rfl)) rfl]
  rfl

/-- C103.  When limit and client are taken back, nothing stops a query any more, whatever happened before. -/
theorem c103_cleared (db : Q → List (Stmt R)) (h : H Q R) (hc : h.cache = []) (q : Q) (e : Env) (hq : ∀ x ∈ db q, x.code = 0) :
    (read db { h with t := h.t.clearTimeout.clearAbortRef } q e).2 = .ok ((db q).flatMap Stmt.rows) := by
  have hc' : ∀ r, Calm h.t.clearTimeout.clearAbortRef r := fun r => ⟨fun h => absurd rfl h, fun h => Bool.noConfusion h⟩
  unfold read
  rw [hc]
  simp only [List.find?_nil, ite_self]
  rw [runQuery_calm (fun i j r _ => hc' r), plan_ok hq]
  dsimp only
  rw [check_calm (hc' _) rfl]
  rfl

/-- C103.  If the client is gone a read throws 499, even if the limit has passed as well. -/
theorem c103_gone (db : Q → List (Stmt R)) (h : H Q R) (q : Q) (e : Env) (hr : h.t.ref = true) (hl : e.last.flag = true)
    (hs : h.t.limit = 0 ∨ h.t.start ≤ h.t.limit) : (read db h q e).2 = .threw .gone := by
  have key : ∀ t : T, t.ref = true → (check t e.last).2 = some .gone := by
    intro t ht
    unfold check
    dsimp only
    have : (if t.limit ≠ 0 ∧ e.last.now > t.limit then { t with error := e.last.now - t.start } else t).ref = true := by
      split <;> exact ht
    rw [this, hl]
    rfl
  have fin : ∀ (t : T) (k : T → Ans R), t.ref = true → ∀ c : List (Q × List R),
      (match check t e.last with | (t, some x) => (({ h with t := t, cache := c } : H Q R), Ans.threw x) | (t, none) => ({ h with t := t, cache := c }, k t)).2 =
        .threw .gone := by
    intro t k ht c
    have := key t ht
    generalize check t e.last = x at this
    obtain ⟨a, b⟩ := x
    obtain rfl : b = some .gone := this
    rfl
  unfold read
  split
  · exact fin h.t (fun _ => _) hr h.cache
  · rcases runQuery_cases e.env 0 (db q) h.t hs with h1 | ⟨t', out, h1, hp, h2, h3⟩
    · rw [h1]
      exact fin h.t (fun _ => _) hr _
    · rw [h1]
      exact fin t' (fun _ => _) (by rw [h2.2.2]; exact hr) _

theorem read_ref (db : Q → List (Stmt R)) (h : H Q R) (q : Q) (e : Env) (hs : Sane h.t) :
    (read db h q e).1.t.ref = h.t.ref := by
  have fin : ∀ (t : T) (c : List (Q × List R)) (k : Ans R), (match check t e.last with
      | (t, some x) => (({ h with t := t, cache := c } : H Q R), Ans.threw x)
      | (t, none) => ({ h with t := t, cache := c }, k)).1.t.ref = t.ref := by
    intro t c k
    have := (check_same t e.last).2.2
    generalize check t e.last = x at this
    obtain ⟨a, b⟩ := x
    cases b <;> exact this
  unfold read
  split
  · exact fin h.t h.cache _
  · rcases runQuery_cases e.env 0 (db q) h.t hs with h1 | ⟨t', out, h1, hp, h2, h3⟩
    · rw [h1]; exact fin h.t _ _
    · rw [h1]; exact (fin t' _ _).trans h2.2.2

theorem write_ref (db : Q → List (Stmt R)) (h : H Q R) (q : Q) (e : Env) (hs : Sane h.t) :
    (write db h q e).1.t.ref = h.t.ref := by
  have fin : ∀ (t : T) (k : Ans R), (match check t e.last with
      | (t, some x) => (({ h with t := t, cache := [] } : H Q R), Ans.threw x)
      | (t, none) => ({ h with t := t, cache := [] }, k)).1.t.ref = t.ref := by
    intro t k
    have := (check_same t e.last).2.2
    generalize check t e.last = x at this
    obtain ⟨a, b⟩ := x
    cases b <;> exact this
  unfold write
  rcases runQuery_cases e.env 0 (db q) h.t hs with h1 | ⟨t', out, h1, hp, h2, h3⟩
  · rw [h1]
    dsimp only
    split
    · rfl
    · exact fin h.t _
  · rw [h1]
    dsimp only
    split
    · exact h2.2.2
    · exact (fin t' _).trans h2.2.2

/-- **C103** A command that watches its client is stopped once that is gone: from the moment it is told to watch, over any
calls that do not tell it to stop watching. -/
theorem c103_watches (db : Q → List (Stmt R)) (os os' : List (Op Q R)) (hf : ∀ o ∈ os ++ .setAbortRef :: os', o.Fair)
    (hn : Op.clearAbortRef ∉ os') (q : Q) (e : Env) (hl : e.last.flag = true) :
    (step (run ⟨{}, db⟩ (os ++ .setAbortRef :: os')) (.read q e)).2 = some (.threw .gone) := by
  have hg := good_run (⟨{}, db⟩ : S Q R) (os ++ .setAbortRef :: os') ⟨.inl rfl, fun _ _ h => absurd h List.not_mem_nil⟩ hf
  have app : ∀ (a b : List (Op Q R)) (s : S Q R), run s (a ++ b) = run (run s a) b := by
    intro a
    induction a with
    | nil => intro b s; rfl
    | cons o a ih => intro b s; exact ih b _
  have keep : ∀ (a : List (Op Q R)) (s : S Q R), Op.clearAbortRef ∉ a → s.h.t.ref = true → Good s → (∀ o ∈ a, o.Fair) →
      (run s a).h.t.ref = true := by
    intro a
    induction a with
    | nil => intro s _ h _ _; exact h
    | cons o a ih =>
      intro s hn hr hg hf
      have hg' := good_run s [o] hg (by intro x hx; rw [List.mem_singleton] at hx; exact hx ▸ hf o (by simp))
      refine ih (step s o).1 (fun h => hn (by simp [h])) ?_ hg' (fun x hx => hf x (by simp [hx]))
      cases o with
      | read q e => exact (read_ref s.db s.h q e hg.1).trans hr
      | write q e db => exact (write_ref s.db s.h q e hg.1).trans hr
      | clearAbortRef => exact absurd (by simp) hn
      | setAbortRef => rfl
      | _ => exact hr
  have hr : (run ⟨{}, db⟩ (os ++ .setAbortRef :: os')).h.t.ref = true := by
    rw [app]
    refine keep os' _ hn rfl ?_ (fun o ho => hf o (by simp [ho]))
    have := good_run (⟨{}, db⟩ : S Q R) (os ++ [.setAbortRef]) ⟨.inl rfl, fun _ _ h => absurd h List.not_mem_nil⟩
      (fun o ho => hf o (by
        rcases List.mem_append.mp ho with h | h
        · exact List.mem_append_left _ h
        · rw [List.mem_singleton] at h; rw [h]; simp))
    rw [app] at this
    exact this
  have := c103_gone (run ⟨{}, db⟩ (os ++ .setAbortRef :: os')).db _ q e hr hl hg.1
  unfold step
  rw [← this]

theorem ticks_stop {t : T} {rs : List Reading} {r : Reading} (hr : r ∈ rs) (h : ¬ Calm t r) (hs : Sane t) : (ticks t rs).2 = true := by
  induction rs with
  | nil => exact absurd hr List.not_mem_nil
  | cons x rs ih =>
    unfold ticks
    rcases callback_cases t x hs with hx | ⟨h1, _, _⟩
    · rw [hx]
      rcases List.mem_cons.mp hr with rfl | hr
      · refine absurd ⟨fun h0 => UInt64.not_lt.mp fun h1 => ?_, fun h1 => ?_⟩ h
        · unfold callback at hx
          rw [if_pos ⟨h0, h1⟩] at hx
          exact absurd (Prod.mk.inj hx).2 (by decide)
        · unfold callback at hx
          split at hx
          · exact absurd (Prod.mk.inj hx).2 (by decide)
          · have := (Prod.mk.inj hx).2
            rwa [h1, Bool.true_and] at this
      · exact ih hr
    · generalize callback t x = y at h1
      obtain ⟨t', b⟩ := y
      obtain rfl : b = true := h1
      rfl

theorem runStmt_stop {env : Nat → List Reading} {t : T} (hs : Sane t) {r : Reading} (h : ¬ Calm t r) (code i j : Nat) (rows : List R)
    (hr : r ∈ env (i + j)) (hj : j ≤ rows.length) :
    (runStmt env code i rows t).2.2 ≠ 0 ∧ (runStmt env code i rows t).2.1.length ≤ j := by
  have stop : ∀ n, (ticks t (env n)).2 = true → (runStmt env code n rows t).2.2 = interrupt ∧ (runStmt env code n rows t).2.1 = [] := by
    intro n hn
    cases rows with
    | nil =>
      unfold runStmt
      generalize ticks t (env n) = y at hn
      obtain ⟨t', b⟩ := y
      obtain rfl : b = true := hn
      exact ⟨rfl, rfl⟩
    | cons x rows =>
      unfold runStmt
      generalize ticks t (env n) = y at hn
      obtain ⟨t', b⟩ := y
      obtain rfl : b = true := hn
      exact ⟨rfl, rfl⟩
  induction rows generalizing i j with
  | nil =>
    obtain rfl : j = 0 := Nat.le_zero.mp hj
    obtain ⟨h1, h2⟩ := stop i (ticks_stop hr h hs)
    rw [h1, h2]
    exact ⟨by decide, Nat.le_refl _⟩
  | cons x rows ih =>
    rcases ticks_cases t (env i) hs with hx | ⟨h1, _, _⟩
    · cases j with
      | zero =>
        rw [ticks_stop hr h hs |> fun h => (Prod.ext rfl h : ticks t (env i) = ((ticks t (env i)).1, true))] at hx
        exact absurd (Prod.mk.inj hx).2 (by decide)
      | succ j =>
        have := ih (i + 1) j (by rwa [Nat.add_assoc, Nat.add_comm 1 j]) (by rw [List.length_cons] at hj; omega) (by
          intro n hn
          cases rows with
          | nil =>
            unfold runStmt
            generalize ticks t (env n) = y at hn
            obtain ⟨t', b⟩ := y
            obtain rfl : b = true := hn
            exact ⟨rfl, rfl⟩
          | cons x rows =>
            unfold runStmt
            generalize ticks t (env n) = y at hn
            obtain ⟨t', b⟩ := y
            obtain rfl : b = true := hn
            exact ⟨rfl, rfl⟩)
        unfold runStmt
        rw [hx]
        dsimp only
        refine ⟨this.1, ?_⟩
        rw [List.length_cons]
        exact Nat.succ_le_succ this.2
    · obtain ⟨a, b⟩ := stop i h1
      rw [a, b]
      exact ⟨by decide, Nat.zero_le _⟩

/-- C103.  A query does not go on for long: once the handler has found the limit passed or the client gone, no further row
is fetched and no further statement is begun, and the query fails. -/
theorem c103_no_row_after (env : Nat → Nat → List Reading) (pre post : List (Stmt R)) (s : Stmt R) (t : T)
    (hs : t.limit = 0 ∨ t.start ≤ t.limit) (j : Nat) (hj : j ≤ s.rows.length) (r : Reading) (hr : r ∈ env pre.length j)
    (hbad : (t.limit ≠ 0 ∧ r.now > t.limit) ∨ (t.ref = true ∧ r.flag = true)) :
    (runQuery env 0 (pre ++ s :: post) t).2.2 ≠ 0 ∧
      (runQuery env 0 (pre ++ s :: post) t).2.1.length ≤ (pre.flatMap Stmt.rows).length + j := by
  have hc : ¬ Calm t r := fun h => hbad.elim (fun ⟨a, b⟩ => absurd (h.1 a) (UInt64.not_le.mpr b)) (fun ⟨a, b⟩ => by
    rw [h.2 a] at b; exact absurd b (by decide))
  have gen : ∀ i, r ∈ env (i + pre.length) j → (runQuery env i (pre ++ s :: post) t).2.2 ≠ 0 ∧
      (runQuery env i (pre ++ s :: post) t).2.1.length ≤ (pre.flatMap Stmt.rows).length + j := by
    clear hr
    induction pre with
    | nil =>
      intro i hr
      rw [List.nil_append]
      unfold runQuery
      obtain ⟨h1, h2⟩ := runStmt_stop hs hc s.code 0 j s.rows (by rwa [Nat.zero_add]) hj
      generalize runStmt (env i) s.code 0 s.rows t = y at h1 h2
      obtain ⟨t', out, c⟩ := y
      cases c with
      | zero => exact absurd rfl h1
      | succ c => exact ⟨h1, by rw [List.flatMap_nil]; exact Nat.le_trans h2 (Nat.le_add_left _ _)⟩
    | cons p pre ih =>
      intro i hr
      rw [List.cons_append]
      unfold runQuery
      rw [List.flatMap_cons, List.length_append]
      rcases runStmt_cases (env i) p.code 0 p.rows t hs with h | ⟨t', out, h, hp, _, _⟩
      · rw [h]
        cases hk : p.code with
        | zero =>
          obtain ⟨h1, h2⟩ := ih (i + 1) (by rw [List.length_cons] at hr; rwa [Nat.add_assoc, Nat.add_comm 1])
          refine ⟨h1, ?_⟩
          show (p.rows ++ (runQuery env (i + 1) (pre ++ s :: post) t).2.1).length ≤ _
          rw [List.length_append, Nat.add_assoc]
          exact Nat.add_le_add_left h2 _
        | succ c =>
          refine ⟨Nat.succ_ne_zero _, ?_⟩
          show p.rows.length ≤ _
          omega
      · rw [h]
        have := hp.length_le
        refine ⟨(by decide : interrupt ≠ 0), ?_⟩
        show out.length ≤ _
        omega
  exact gen 0 (by rwa [Nat.zero_add])

/-- The limit has been found passed. -/
def Late (t : T) : Prop := t.limit ≠ 0 ∧ t.error ≠ 0

theorem callback_late {t : T} (r : Reading) (hs : Sane t) (h : Late t) : Late (callback t r).1 := by
  unfold callback
  split
  · rename_i hl
    exact ⟨hl.1, late hs hl.1 hl.2⟩
  · exact h

theorem ticks_late {t : T} (rs : List Reading) (hs : Sane t) (h : Late t) : Late (ticks t rs).1 := by
  induction rs generalizing t with
  | nil => exact h
  | cons r rs ih =>
    unfold ticks
    have hl := callback_late r hs h
    rcases callback_cases t r hs with hx | ⟨h1, _, _⟩
    · rw [hx]
      exact ih hs h
    · generalize callback t r = y at h1 hl
      obtain ⟨t', b⟩ := y
      obtain rfl : b = true := h1
      exact hl

theorem runStmt_late (env : Nat → List Reading) (code j : Nat) (rows : List R) {t : T} (hs : Sane t) (h : Late t) :
    Late (runStmt env code j rows t).1 := by
  induction rows generalizing j with
  | nil =>
    unfold runStmt
    have := ticks_late (env j) hs h
    generalize ticks t (env j) = y at this
    obtain ⟨t', _ | _⟩ := y <;> exact this
  | cons r rows ih =>
    unfold runStmt
    have hl := ticks_late (env j) hs h
    rcases ticks_cases t (env j) hs with hx | ⟨h1, _, _⟩
    · rw [hx]; exact ih (j + 1)
    · generalize ticks t (env j) = y at h1 hl
      obtain ⟨t', b⟩ := y
      obtain rfl : b = true := h1
      exact hl

theorem runQuery_late (env : Nat → Nat → List Reading) (i : Nat) (ss : List (Stmt R)) {t : T} (hs : Sane t) (h : Late t) :
    Late (runQuery env i ss t).1 := by
  induction ss generalizing i with
  | nil => exact h
  | cons s ss ih =>
    unfold runQuery
    have hl := runStmt_late (env i) s.code 0 s.rows hs h
    rcases runStmt_cases (env i) s.code 0 s.rows t hs with hx | ⟨t', out, hx, _, _, _⟩
    · rw [hx]
      cases s.code with
      | zero => exact ih (i + 1)
      | succ n => exact h
    · rw [hx] at hl ⊢
      exact hl

theorem check_late {t : T} (r : Reading) (hs : Sane t) (h : Late t) : Late (check t r).1 := by
  unfold check
  dsimp only
  split
  · rename_i hl
    exact ⟨hl.1, late hs hl.1 hl.2⟩
  · exact h

theorem check_timeout {t : T} {r : Reading} {us : UInt64} (h : (check t r).2 = some (.timeout us)) : Late (check t r).1 := by
  unfold check at h ⊢
  dsimp only at h ⊢
  generalize (if t.limit ≠ 0 ∧ r.now > t.limit then ({ t with error := r.now - t.start } : T) else t) = t' at h
  split at h
  · exact absurd (Option.some.inj h) nofun
  · split at h
    · assumption
    · exact absurd h nofun

/-- A call that is not `setTimeout` or `clearTimeout`. -/
def Op.keepsLimit : Op Q R → Bool
  | .setTimeout _ _ => false
  | .clearTimeout => false
  | _ => true

theorem read_t (db : Q → List (Stmt R)) (h : H Q R) (q : Q) (e : Env) :
    (read db h q e).1.t = (check h.t e.last).1 ∨ (read db h q e).1.t = (check (runQuery e.env 0 (db q) h.t).1 e.last).1 := by
  unfold read
  split
  · left
    generalize check h.t e.last = y
    obtain ⟨t, _ | x⟩ := y <;> rfl
  · right
    generalize runQuery e.env 0 (db q) h.t = y
    obtain ⟨t, rows, code⟩ := y
    dsimp only
    generalize check t e.last = y
    obtain ⟨t, _ | x⟩ := y <;> rfl

omit [DecidableEq Q] in
theorem write_t (db : Q → List (Stmt R)) (h : H Q R) (q : Q) (e : Env) :
    (write db h q e).1.t = (runQuery e.env 0 (db q) h.t).1 ∨ (write db h q e).1.t = (check (runQuery e.env 0 (db q) h.t).1 e.last).1 := by
  unfold write
  generalize runQuery e.env 0 (db q) h.t = y
  obtain ⟨t, rows, code⟩ := y
  dsimp only
  split
  · exact .inl rfl
  · right
    generalize check t e.last = y
    obtain ⟨t, _ | x⟩ := y <;> rfl

theorem runQuery_sane (env : Nat → Nat → List Reading) (i : Nat) (ss : List (Stmt R)) {t : T} (hs : Sane t) : Sane (runQuery env i ss t).1 := by
  rcases runQuery_cases env i ss t hs with h | ⟨t', out, h, _, h2, _⟩
  · rw [h]; exact hs
  · rw [h]; exact h2.sane hs

theorem late_step (s : S Q R) (o : Op Q R) (ho : o.keepsLimit = true) (hs : Sane s.h.t ∧ Late s.h.t) :
    Sane (step s o).1.h.t ∧ Late (step s o).1.h.t := by
  have hr := fun (e : Env) (q : Q) => And.intro (runQuery_sane e.env 0 (s.db q) hs.1) (runQuery_late e.env 0 (s.db q) hs.1 hs.2)
  have hk := fun (t : T) (ht : Sane t ∧ Late t) r => And.intro ((check_same t r).sane ht.1) (check_late r ht.1 ht.2)
  cases o with
  | read q e =>
    rcases read_t s.db s.h q e with h | h
    · show Sane (read s.db s.h q e).1.t ∧ Late (read s.db s.h q e).1.t
      rw [h]; exact hk _ hs _
    · show Sane (read s.db s.h q e).1.t ∧ Late (read s.db s.h q e).1.t
      rw [h]; exact hk _ (hr e q) _
  | write q e db =>
    rcases write_t s.db s.h q e with h | h
    · show Sane (write s.db s.h q e).1.t ∧ Late (write s.db s.h q e).1.t
      rw [h]; exact hr e q
    · show Sane (write s.db s.h q e).1.t ∧ Late (write s.db s.h q e).1.t
      rw [h]; exact hk _ (hr e q) _
  | begin db => exact hs
  | finish db => exact hs
  | setTimeout now us => exact Bool.noConfusion ho
  | clearTimeout => exact Bool.noConfusion ho
  | setAbortRef => exact hs
  | clearAbortRef => exact hs

theorem read_late (db : Q → List (Stmt R)) (h : H Q R) (q : Q) (e : Env) (hs : Sane h.t) (hl : Late h.t) :
    ∃ x, (read db h q e).2 = .threw x := by
  have key : ∀ t : T, Sane t → Late t → ∃ x, (check t e.last).2 = some x := fun t hs hl =>
    Option.ne_none_iff_exists'.mp (check_stopped (p := False) e.last hs (.inl hl) False.elim)
  unfold read
  split
  · obtain ⟨x, hx⟩ := key _ hs hl
    generalize check h.t e.last = y at hx
    obtain ⟨t, b⟩ := y
    obtain rfl : b = some x := hx
    exact ⟨x, rfl⟩
  · obtain ⟨x, hx⟩ := key _ (runQuery_sane e.env 0 (db q) hs) (runQuery_late e.env 0 (db q) hs hl)
    generalize runQuery e.env 0 (db q) h.t = y at hx
    obtain ⟨t, rows, code⟩ := y
    dsimp only at hx ⊢
    generalize check t e.last = y at hx
    obtain ⟨t, b⟩ := y
    obtain rfl : b = some x := hx
    exact ⟨x, rfl⟩

theorem read_threw (db : Q → List (Stmt R)) (h : H Q R) (q : Q) (e : Env) (hs : Sane h.t) {x : Exc} (hx : (read db h q e).2 = .threw x) :
    ∃ t, Sane t ∧ (read db h q e).1.t = (check t e.last).1 ∧ (check t e.last).2 = some x := by
  revert hx
  unfold read
  split
  · intro hx
    refine ⟨h.t, hs, ?_⟩
    revert hx
    generalize check h.t e.last = y
    obtain ⟨t, _ | z⟩ := y
    · exact fun hx => absurd hx nofun
    · exact fun hx => ⟨rfl, congrArg some (Ans.threw.inj hx)⟩
  · have hq := runQuery_sane e.env 0 (db q) hs
    generalize runQuery e.env 0 (db q) h.t = y at hq
    obtain ⟨t, rows, code⟩ := y
    intro hx
    refine ⟨t, hq, ?_⟩
    revert hx
    dsimp only
    generalize check t e.last = y
    obtain ⟨t, _ | z⟩ := y
    · intro hx
      dsimp only at hx
      split at hx <;> exact absurd hx nofun
    · exact fun hx => ⟨rfl, congrArg some (Ans.threw.inj hx)⟩

/-- C103.  After one query of a command has run out of time no other read is answered, whatever the command catches and
tries and even if the clock is set back, until a new limit is set. -/
theorem c103_sticky (s : S Q R) (hs : s.h.t.limit = 0 ∨ s.h.t.start ≤ s.h.t.limit) (q : Q) (e : Env) (us : UInt64)
    (h : (step s (.read q e)).2 = some (.threw (.timeout us))) (os : List (Op Q R)) (ho : ∀ o ∈ os, o.keepsLimit = true) (q' : Q) (e' : Env) :
    ∃ x, (step (run (step s (.read q e)).1 os) (.read q' e')).2 = some (.threw x) := by
  have first : Sane (step s (.read q e)).1.h.t ∧ Late (step s (.read q e)).1.h.t := by
    have h' : (read s.db s.h q e).2 = .threw (.timeout us) := Option.some.inj h
    obtain ⟨t, h1, h2, h3⟩ := read_threw s.db s.h q e hs h'
    show Sane (read s.db s.h q e).1.t ∧ Late (read s.db s.h q e).1.t
    rw [h2]
    exact ⟨(check_same t e.last).sane h1, check_timeout h3⟩
  have rest : ∀ (os : List (Op Q R)) (s : S Q R), (∀ o ∈ os, o.keepsLimit = true) → Sane s.h.t ∧ Late s.h.t →
      Sane (run s os).h.t ∧ Late (run s os).h.t := by
    intro os
    induction os with
    | nil => exact fun s _ h => h
    | cons o os ih =>
      exact fun s ho h => ih _ (fun o' h' => ho o' (List.mem_cons_of_mem _ h')) (late_step s o (ho o List.mem_cons_self) h)
  obtain ⟨h1, h2⟩ := rest os _ ho first
  obtain ⟨x, hx⟩ := read_late _ _ q' e' h1 h2
  exact ⟨x, congrArg some hx⟩

omit [DecidableEq Q] in
/-- C103.  Commits fetched for a peer are all there if the call reports success, and no limit is left behind. -/
theorem c103_commits (db : Q → List (Stmt R)) (t : T) (q : Q) (now us : UInt64) (hw : now.toNat + us.toNat < 2 ^ 64) (ht : t.limit = 0) (e : Env)
    (h : (getCommits db t q now us e).2.2 = 0) :
    (getCommits db t q now us e).2.1 = (db q).flatMap Stmt.rows ∧ (getCommits db t q now us e).1.limit = 0 := by
  have hs : Sane (if us ≠ 0 then t.setTimeout now us else t) := by
    split
    · right
      show now ≤ now + us
      rw [UInt64.le_iff_toNat_le, UInt64.toNat_add, Nat.mod_eq_of_lt hw]
      omega
    · exact .inl ht
  unfold getCommits at h ⊢
  rcases runQuery_cases e.env 0 (db q) _ hs with h1 | ⟨t', out, h1, _⟩
  · rw [h1] at h ⊢
    refine ⟨?_, rfl⟩
    dsimp only at h ⊢
    generalize db q = ss at h
    clear h1
    induction ss with
    | nil => rfl
    | cons s ss ih =>
      unfold plan at h ⊢
      split at h
      · rename_i h0
        rw [if_pos h0, List.flatMap_cons, ← ih h]
      · exact absurd h (by assumption)
  · rw [h1] at h
    exact absurd h (by decide : interrupt ≠ 0)

/-! ## Cases -/

/-- One statement with three rows. -/
def three : Nat → List (Stmt Nat) := fun _ => [⟨[1, 2, 3], 0⟩]

/-- Limit 100 from time 1000: done at 1050, then at 1200, then with the client gone. -/
example : (step (run ⟨{}, three⟩ [.setTimeout 1000 100, .setAbortRef]) (.read 0 { last := ⟨1050, false⟩ })).2 = some (.ok [1, 2, 3]) := by
  decide +kernel

example : (step (run ⟨{}, three⟩ [.setTimeout 1000 100, .setAbortRef]) (.read 0 { last := ⟨1200, false⟩ })).2 =
    some (.threw (.timeout 200)) := by decide +kernel

example : (step (run ⟨{}, three⟩ [.setTimeout 1000 100, .setAbortRef]) (.read 0 { last := ⟨1200, true⟩ })).2 = some (.threw .gone) := by
  decide +kernel

/-- The handler finds the limit passed before the third row; the clock is set back; the read and the next one throw. -/
example : (runQuery (fun _ j => if j = 2 then [⟨1101, false⟩] else []) 0 (three 0) (({} : T).setTimeout 1000 100)).2 = ([1, 2], 9) ∧
    (step (run ⟨{}, three⟩ [.setTimeout 1000 100, .begin three,
      .read 0 { env := fun _ j => if j = 2 then [⟨1101, false⟩] else [], last := ⟨1001, false⟩ }]) (.read 0 { last := ⟨1001, false⟩ })).2 =
      some (.threw (.timeout 101)) := by decide +kernel

/-- A fair history with a limit, a transaction and a cached answer: the second read of `0` is answered from the cache. -/
example : let os : List (Op Nat Nat) := [.setTimeout 1000 100, .setAbortRef, .begin three, .read 0 { last := ⟨1010, false⟩ }]
    (∀ o ∈ os, o.Fair) ∧ (run ⟨{}, three⟩ os).h.cache = [(0, [1, 2, 3])] ∧
      (step (run ⟨{}, three⟩ os) (.read 0 { last := ⟨1100, false⟩ })).2 = some (.ok [1, 2, 3]) ∧
      (step (run ⟨{}, three⟩ os) (.read 0 { last := ⟨1101, false⟩ })).2 = some (.threw (.timeout 101)) := by
  refine ⟨?_, by decide +kernel, by decide +kernel, by decide +kernel⟩
  intro o ho
  simp only [List.mem_cons, List.not_mem_nil, or_false] at ho
  rcases ho with rfl | rfl | rfl | rfl
  · exact (by decide : (1000 : UInt64).toNat + (100 : UInt64).toNat < 2 ^ 64)
  · trivial
  · trivial
  · exact fun _ _ _ h => absurd h List.not_mem_nil

/-- A write that is late is not answered. -/
example : (step (run ⟨{}, three⟩ [.setTimeout 1000 100, .begin three]) (.write 0 { last := ⟨1101, false⟩ } three)).2 =
    some (.threw (.timeout 101)) := by decide +kernel

example : (getCommits three {} 0 1000 100 { env := fun _ j => if j = 1 then [⟨1200, false⟩] else [] }).2 = ([1], 9) ∧
    (getCommits three {} 0 1000 100 {}).2 = ([1, 2, 3], 0) := by decide +kernel

/-- **C103** Once the flag of the client is attached to a handle, no read on it answers when the flag was seen set at the end. -/
theorem c103_abort_heeded (s : S Q R) (hg : Good s) (q : Q) (e : Env) (hf : Env.Fair e) (rows : List R)
    (h : (step (step s .setAbortRef).1 (.read q e)).2 = some (.ok rows)) : e.last.flag = false := by
  have hg' : Good (step s .setAbortRef).1 := hg
  have := (read_good (step s .setAbortRef).1 q e hg' hf).2 rows (by
    have h : some (read (step s .setAbortRef).1.db (step s .setAbortRef).1.h q e).2 = some (.ok rows) := h
    injection h)
  exact this.2.2 rfl

/-- **C103** Without it the flag does not matter: what a read answers, and what is left of the handle, is the same whatever
the flag. -/
theorem c103_detached_ignored (s : S Q R) (r : Reading) (b : Bool) :
    (callback (step s .clearAbortRef).1.h.t { r with flag := b }) = callback (step s .clearAbortRef).1.h.t r := rfl

end Bedrock.Interrupt.Props
