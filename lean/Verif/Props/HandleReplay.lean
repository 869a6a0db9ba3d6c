import Verif.Lemmas.HandleReplay
import Verif.Props.HandleCache

/-!
# C65, C66: what is recorded is what happened; functions refused in writes
-/

namespace Bedrock.Handle.Props
open Bedrock Bedrock.Handle

variable {D S R : Type}

/-! ## Who answered how -/

/-- The write did not come back with an answer. -/
def cutShort : Ans S R → Bool
  | .thrown => true
  | .crash => true
  | _ => false

def answered : Ans S R → Bool
  | .ok _ => true
  | _ => false

/-- A write that may have done something that is not recorded: it was interrupted, or it has several statements and
failed, was rewritten, or met `SQLITE_BUSY`. -/
def doubtful (E : Engine D S R) (h : H D S R) : Op S → Bool
  | .write k q l =>
    h.inside && !(k = .plain && h.noop) &&
      (cutShort (write E k q l h).2 ||
        (decide (1 < q.length) && (!answered (write E k q l h).2 || !l.busy.isEmpty || h.rewrite.isSome)))
  | _ => false

/-- Whether the transaction contains a doubtful write. -/
def spoil (E : Engine D S R) (sp : Bool) (h : H D S R) : Op S → Bool
  | .begin => false
  | .rollback => false
  | o => sp || doubtful E h o

/-- A rewriting handler that returns one statement, whose volatile functions are ones that writes refuse. -/
def OneStatement (E : Engine D S R) (q : List S) : Prop := q.length ≤ 1 ∧ ∀ s ∈ q, Written E s

/-- What is asked of the caller: reads read; writes are not issued with `query_only` on and call no volatile function
the code does not know; there is no whitelist; transactions begin and end outside no-op mode; and a transaction with a
doubtful write is rolled back. -/
def Allowed (E : Engine D S R) (sp : Bool) (h : H D S R) : Op S → Prop
  | .read q _ => ∀ s ∈ q, ReadOnly E s
  | .write _ q _ => h.queryOnly = false ∧ ∀ s ∈ q, Written E s
  | .setNoop on => h.noop = on ∨ pragmaAllowed h "noop_update" (if on then "ON" else "OFF") = true
  | .setWhitelist w => w = none
  | .setRewrite f => ∀ g, f = some g → ∀ a q, g a = some q → OneStatement E q
  | .begin => h.noop = false
  | .commit => sp = false ∧ h.noop = false
  | .external text => ∃ r, (∀ v, replay E v text false h.base = r) ∧ ∀ d n, r = some (d, n) → n = false
  | _ => True

/-- `Allowed` at every step of a history. -/
def Good (E : Engine D S R) [DecidableEq S] : Bool → H D S R → List (Op S) → Prop
  | _, _, [] => True
  | sp, h, o :: os => Allowed E sp h o ∧ Good E (spoil E sp h o) (step E h o).1 os

/-- The texts of the transactions that commit during a history, by this handle and by others. -/
def logged (E : Engine D S R) [DecidableEq S] : H D S R → List (Op S) → List (List (Item S))
  | _, [] => []
  | h, o :: os =>
    (match (step E h o).2, o with
      | .committed t, _ => [t]
      | .ok _, .external t => [t]
      | _, _ => []) ++ logged E (step E h o).1 os

/-- A follower applies the texts in order; `v i`: what volatile functions see during transaction `i`. -/
def follow (E : Engine D S R) (v : Nat → Nat) : Nat → List (List (Item S)) → D → Option D
  | _, [], d => some d
  | i, t :: ts, d =>
    match replay E (v i) t false d with
    | some (d', _) => follow E v (i + 1) ts d'
    | none => none

structure Rep (E : Engine D S R) (sp : Bool) (h : H D S R) : Prop where
  whitelist : h.whitelist = none
  handler : ∀ g, h.rewrite = some g → ∀ a q, g a = some q → OneStatement E q
  rewritten : OneStatement E h.rewritten
  noop : h.dbNoop = h.noop
  outside : h.inside = false → h.data = h.base ∧ h.pending = []
  inside : h.inside = true → sp = false → ∃ d0, (h.moved = false → h.base = d0) ∧
    ∀ v, replay E v h.pending false d0 = some (h.data, h.noop)

/-! ## Lemmas -/

theorem prep_rewrite {h : H D S R} {w r : Bool} {q : List S} : ∀ {as : List Action}, prep h w r as = .rewrite q →
    ∃ g a, h.rewrite = some g ∧ g a = some q
  | [], hp => by simp [prep] at hp
  | a :: as, hp => by
    unfold prep at hp
    split at hp
    · rename_i q' hq
      injection hp with hp
      subst hp
      split at hq
      · cases hq
      · cases hg : h.rewrite with
        | none => rw [hg] at hq; cases hq
        | some g => rw [hg] at hq; exact ⟨g, a, rfl, hq⟩
    · split at hp
      · cases hp
      · split at hp
        · split at hp <;> cases hp
        · exact prep_rewrite hp

theorem runOnce_rewrite {E : Engine D S R} {h : H D S R} {w r : Bool} {v : Nat} {q : List S} : ∀ {b : Option Nat}
    {x : List S} {d : D}, (runOnce E h w r v b x d).rewrite = some q → ∃ g a, h.rewrite = some g ∧ g a = some q
  | _, [], _, hp => by simp [runOnce] at hp
  | b, s :: ss, d, hp => by
    unfold runOnce at hp
    split at hp
    · cases hp
    · split at hp
      · cases hp
      · rename_i hp'
        injection hp with hp
        subst hp
        exact prep_rewrite hp'
      · split at hp
        · cases hp
        · exact runOnce_rewrite hp

theorem squery_rewrite {E : Engine D S R} {h : H D S R} {w r : Bool} {v : Nat} {x q : List S} : ∀ {n : Nat}
    {b : List (Option Nat)} {d : D}, (squery E h w r v x n b d).rewrite = some q →
    ∃ g a, h.rewrite = some g ∧ g a = some q
  | 0, _, _, hp => by simp [squery] at hp
  | n + 1, b, d, hp => by
    unfold squery at hp
    simp only at hp
    split at hp
    · exact squery_rewrite hp
    · exact runOnce_rewrite hp

theorem rewritten_ok {E : Engine D S R} {sp : Bool} {h : H D S R} (hi : Rep E sp h) {w r : Bool} {v : Nat}
    {x : List S} {n : Nat} {b : List (Option Nat)} {d : D} :
    OneStatement E ((squery E h w r v x n b d).rewrite.getD h.rewritten) := by
  cases hr : (squery E h w r v x n b d).rewrite with
  | none => exact hi.rewritten
  | some q =>
    obtain ⟨g, a, h1, h2⟩ := squery_rewrite hr
    exact hi.handler g h1 a q h2

/-- The effect of the query of a write that is not doubtful: if it succeeds, its text takes the old data to the new;
if it fails, nothing happened. -/
theorem writeQuery_effect {E : Engine D S R} (hE : E.Sound) {sp : Bool} {h : H D S R} (hi : Rep E sp h) {q : List S}
    {l : Luck} (hqo : h.queryOnly = false) (hw : ∀ s ∈ q, Written E s) {o : Out D S R} {rw' : List S}
    (ho : writeQuery E q l h = some (o, rw'))
    (hd : q.length ≤ 1 ∨ (o.code = none ∧ l.busy = [] ∧ h.rewrite = none)) :
    OneStatement E rw' ∧
    (o.code ≠ none → o.d = h.data) ∧
    (o.code = none → (o.changed = false → o.d = h.data) ∧
      ∀ v, replay E v (o.text.map .stmt) h.dbNoop h.data = some (o.d, h.dbNoop)) := by
  -- what a single walk does
  have walk : ∀ (r : Bool) (x : List S), (∀ s ∈ x, Written E s) →
      (runOnce E h true r l.vol none x h.data).code = none →
      ((runOnce E h true r l.vol none x h.data).changed = false →
        (runOnce E h true r l.vol none x h.data).d = h.data) ∧
      ∀ v, replay E v ((runOnce E h true r l.vol none x h.data).text.map .stmt) h.dbNoop h.data
        = some ((runOnce E h true r l.vol none x h.data).d, h.dbNoop) := by
    intro r x hx hc
    refine ⟨runOnce_quiet hE hc, fun v => ?_⟩
    have := runOnce_replay hE hi.whitelist hqo (v' := v) (r := r) (v := l.vol) (d := h.data) [] hx hc
    simpa [replay] using this
  unfold writeQuery at ho
  simp only at ho
  split at ho
  · rename_i hcond
    split at ho
    · cases ho
    · injection ho with ho
      injection ho with ho hr
      have hq1 : q.length ≤ 1 := by
        rcases hd with hd | ⟨_, _, hn⟩
        · exact hd
        · rw [hn] at hcond; simp at hcond
      obtain ⟨h1, h2⟩ := (squery_single hE (h := h) (w := true) (r := false) (v := l.vol) hq1 3 l.busy h.data).1
        (by rw [hcond.2]; simp)
      have hok := rewritten_ok hi (w := true) (r := false) (v := l.vol) (x := q) (n := 3) (b := l.busy) (d := h.data)
      rw [hr] at hok ho
      rw [h1, h2] at ho
      have hs2 := squery_single hE (h := h) (w := true) (r := true) (v := l.vol) hok.1 3 [] h.data
      refine ⟨hok, ?_, ?_⟩
      · intro hc
        rw [← ho] at hc ⊢
        exact (hs2.1 hc).1
      · intro hc
        rw [← ho] at hc ⊢
        simp only [Bool.false_or] at hc ⊢
        have heq := hs2.2 hc
        rw [heq] at hc ⊢
        exact walk true rw' hok.2 hc
  · injection ho with ho
    injection ho with ho hr
    have hok := rewritten_ok hi (w := true) (r := false) (v := l.vol) (x := q) (n := 3) (b := l.busy) (d := h.data)
    rw [hr] at hok
    refine ⟨hok, ?_⟩
    rcases hd with hd | ⟨hc0, hb, _⟩
    · have hs := squery_single hE (h := h) (w := true) (r := false) (v := l.vol) hd 3 l.busy h.data
      rw [ho] at hs
      refine ⟨fun hc => (hs.1 hc).1, fun hc => ?_⟩
      have heq := hs.2 hc
      rw [heq] at hc ⊢
      exact walk false q hw hc
    · refine ⟨fun hc => absurd hc0 hc, fun hc => ?_⟩
      have heq : o = runOnce E h true false l.vol none q h.data := by
        rw [← ho, hb]; exact squery_nobusy hE
      rw [heq] at hc ⊢
      exact walk false q hw hc

theorem writeQuery_rewritten {E : Engine D S R} {sp : Bool} {h : H D S R} (hi : Rep E sp h) {q : List S}
    {l : Luck} {o : Out D S R} {rw' : List S} (ho : writeQuery E q l h = some (o, rw')) : OneStatement E rw' := by
  have hok := rewritten_ok hi (w := true) (r := false) (v := l.vol) (x := q) (n := 3) (b := l.busy) (d := h.data)
  unfold writeQuery at ho
  simp only at ho
  split at ho
  · split at ho
    · cases ho
    · injection ho with ho
      injection ho with ho hr
      rw [hr] at hok; exact hok
  · injection ho with ho
    injection ho with ho hr
    rw [hr] at hok; exact hok

theorem rep_writeIdempotent {E : Engine D S R} (hE : E.Sound) {sp : Bool} {h : H D S R} (hi : Rep E sp h) (keep : Bool)
    {q : List S} {l : Luck} (hqo : h.queryOnly = false) (hw : ∀ s ∈ q, Written E s) (hin : h.inside = true) :
    Rep E (sp || (cutShort (writeIdempotent E keep q l h).2 ||
        (decide (1 < q.length) && (!answered (writeIdempotent E keep q l h).2 || !l.busy.isEmpty || h.rewrite.isSome))))
      (writeIdempotent E keep q l h).1 := by
  unfold writeIdempotent
  rw [show (!h.inside) = false by rw [hin]; rfl]
  simp only [Bool.false_eq_true, if_false]
  split
  · split
    · refine ⟨hi.whitelist, hi.handler, hi.rewritten, hi.noop, ?_, ?_⟩
      · intro h'; exact absurd (hin.symm.trans h') (by simp)
      · intro _ h'; simp [cutShort] at h'
    · rename_i o rw' ho
      have hrw := writeQuery_rewritten hi ho
      unfold finishWrite
      split
      · -- constraint
        rename_i hc
        refine ⟨hi.whitelist, hi.handler, hrw, hi.noop, ?_, ?_⟩
        · intro h'; exact absurd (hin.symm.trans h') (by simp)
        · intro _ h'
          simp only [answered, Bool.not_false, Bool.true_or, Bool.and_true, Bool.or_eq_false_iff,
            decide_eq_false_iff_not, Nat.not_lt] at h'
          obtain ⟨_, hf, _⟩ := writeQuery_effect hE hi hqo hw ho (.inl h'.2.2)
          have hdat : o.d = h.data := hf (by rw [hc]; simp)
          simp only [hdat]
          exact hi.inside hin h'.1
      · split
        · refine ⟨hi.whitelist, hi.handler, hrw, hi.noop, ?_, ?_⟩
          · intro h'; exact absurd (hin.symm.trans h') (by simp)
          · intro _ h'; simp [cutShort] at h'
        · split
          · rename_i c hc
            refine ⟨hi.whitelist, hi.handler, hrw, hi.noop, ?_, ?_⟩
            · intro h'; exact absurd (hin.symm.trans h') (by simp)
            · intro _ h'
              simp only [answered, Bool.not_false, Bool.true_or, Bool.and_true, Bool.or_eq_false_iff,
                decide_eq_false_iff_not, Nat.not_lt] at h'
              obtain ⟨_, hf, _⟩ := writeQuery_effect hE hi hqo hw ho (.inl h'.2.2)
              have hdat : o.d = h.data := hf (by rw [hc]; simp)
              simp only [hdat]
              exact hi.inside hin h'.1
          · rename_i hc
            refine ⟨hi.whitelist, hi.handler, hrw, hi.noop, ?_, ?_⟩
            · intro h'; exact absurd (hin.symm.trans h') (by simp)
            · intro _ h'
              simp only [answered, Bool.not_true, Bool.false_or, Bool.or_eq_false_iff] at h'
              have hd : q.length ≤ 1 ∨ (o.code = none ∧ l.busy = [] ∧ h.rewrite = none) := by
                have h3 := h'.2.2
                rcases Nat.lt_or_ge 1 q.length with hlt | hge
                · right
                  simp only [hlt, decide_true, Bool.true_and, Bool.or_eq_false_iff] at h3
                  refine ⟨hc, ?_, ?_⟩
                  · simpa using h3.1
                  · simpa using h3.2
                · exact .inl hge
              obtain ⟨_, _, hs⟩ := writeQuery_effect hE hi hqo hw ho hd
              obtain ⟨hquiet, hrep⟩ := hs hc
              obtain ⟨d0, hb, hr⟩ := hi.inside hin h'.1
              refine ⟨d0, hb, fun v => ?_⟩
              simp only
              split
              · rw [replay_append, hr v]
                simp only [Option.bind_some]
                rw [← hi.noop]
                exact hrep v
              · rename_i hk
                simp only [Bool.or_eq_true, not_or, Bool.not_eq_true] at hk
                rw [hquiet hk.2]
                exact hr v
  · refine ⟨hi.whitelist, hi.handler, hi.rewritten, hi.noop, ?_, ?_⟩
    · intro h'; exact absurd (hin.symm.trans h') (by simp)
    · intro _ h'; simp [cutShort] at h'

theorem rep_write {E : Engine D S R} (hE : E.Sound) {sp : Bool} {h : H D S R} (hi : Rep E sp h) (k : Kind)
    {q : List S} {l : Luck} (hqo : h.queryOnly = false) (hw : ∀ s ∈ q, Written E s) :
    Rep E (spoil E sp h (.write k q l)) (write E k q l h).1 := by
  cases hin : h.inside with
  | false =>
    have h1 : (write E k q l h).1 = h := by
      cases k <;> simp only [write, writeIdempotent, hin, Bool.not_false, if_true]
      split <;> rfl
    rw [h1]
    simp only [spoil, doubtful, hin, Bool.false_and, Bool.or_false]
    exact hi
  | true =>
    have key := fun keep => rep_writeIdempotent hE hi keep (l := l) hqo hw hin
    cases k with
    | plain =>
      simp only [spoil, doubtful, write, hin, Bool.true_and]
      cases hn : h.noop with
      | true => simp only [decide_true, Bool.and_self, Bool.not_true, Bool.false_and, Bool.or_false, if_true]; exact hi
      | false =>
        simp only [Bool.and_false, Bool.not_false, Bool.true_and, Bool.false_eq_true, if_false]
        exact key false
    | idempotent =>
      simp only [spoil, doubtful, write, hin, Bool.true_and, reduceCtorEq, decide_false, Bool.false_and, Bool.not_false]
      exact key false
    | unmodified =>
      simp only [spoil, doubtful, write, hin, Bool.true_and, reduceCtorEq, decide_false, Bool.false_and, Bool.not_false]
      exact key true

theorem rep_read {E : Engine D S R} (hE : E.Sound) [DecidableEq S] {sp : Bool} {h : H D S R} (hi : Rep E sp h)
    {q : List S} {l : Luck} (hq : ∀ s ∈ q, ReadOnly E s) :
    Rep E sp (read E q l h).1 ∧ (read E q l h).1.base = h.base := by
  cases hf : h.cache.find? (fun e => e.1 = q) with
  | some e => rw [read_hit hf]; exact ⟨hi, rfl⟩
  | none =>
    have hdata : (squery E h h.writing false l.vol q 3 l.busy h.data).d = h.data :=
      squery_readOnly hE hq _ _ _
    have hok := rewritten_ok hi (w := h.writing) (r := false) (v := l.vol) (x := q) (n := 3) (b := l.busy)
      (d := h.data)
    have hbase : (if h.inside then h.base else (squery E h h.writing false l.vol q 3 l.busy h.data).d) = h.base := by
      split
      · rfl
      · rename_i hin
        rw [hdata]
        exact (hi.outside (by simpa using hin)).1
    have main : ∀ c, Rep E sp { h with
        data := (squery E h h.writing false l.vol q 3 l.busy h.data).d,
        base := if h.inside then h.base else (squery E h h.writing false l.vol q 3 l.busy h.data).d,
        rewritten := (squery E h h.writing false l.vol q 3 l.busy h.data).rewrite.getD h.rewritten,
        cache := c } := by
      intro c
      refine ⟨hi.whitelist, hi.handler, hok, hi.noop, ?_, ?_⟩
      · simp only [hbase]; rw [hdata]; exact hi.outside
      · simp only [hbase]; rw [hdata]; exact hi.inside
    unfold Handle.read
    rw [hf]
    simp only
    split
    · split
      · exact ⟨main _, hbase⟩
      · exact ⟨main h.cache, hbase⟩
    · exact ⟨main h.cache, hbase⟩

/-- One step keeps the invariant and says how the committed database moves. -/
theorem rep_step {E : Engine D S R} (hE : E.Sound) [DecidableEq S] {sp : Bool} {h : H D S R} (hi : Rep E sp h)
    (o : Op S) (ho : Allowed E sp h o) :
    Rep E (spoil E sp h o) (step E h o).1 ∧
    ∀ v, match (step E h o).2, o with
      | .committed t, _ => replay E v t false h.base = some ((step E h o).1.base, false)
      | .ok _, .external t => replay E v t false h.base = some ((step E h o).1.base, false)
      | _, _ => (step E h o).1.base = h.base := by
  cases o with
  | begin =>
    simp only [step]
    split
    · refine ⟨⟨hi.whitelist, hi.handler, hi.rewritten, hi.noop, fun _ => ⟨rfl, rfl⟩, fun h' => ?_⟩, fun _ => rfl⟩
      cases h'
    · rename_i hin
      refine ⟨⟨hi.whitelist, hi.handler, hi.rewritten, hi.noop, fun h' => ?_, fun _ _ => ?_⟩, fun _ => rfl⟩
      · cases h'
      · refine ⟨h.base, fun _ => rfl, fun v => ?_⟩
        simp only [(hi.outside (by simpa using hin)).2, replay]
        rw [show h.noop = false from ho]
  | read q l =>
    obtain ⟨h1, h2⟩ := rep_read hE hi (l := l) ho
    simp only [step, spoil, doubtful, Bool.or_false]
    refine ⟨h1, fun v => ?_⟩
    have : ∀ t, (read E q l h).2 ≠ .committed t := by
      intro t
      unfold Handle.read
      split
      · simp only; split <;> simp
      · simp only
        split <;> (simp only; split <;> simp)
    split
    · rename_i hc; exact absurd hc (this _)
    · rename_i heq; cases heq
    · exact h2
  | write k q l =>
    refine ⟨rep_write hE hi k ho.1 ho.2, fun v => ?_⟩
    have hb := (write_fields E k q l h).2.1
    simp only [step]
    have : ∀ t, (write E k q l h).2 ≠ .committed t := by
      intro t
      have hwi : ∀ keep, (writeIdempotent E keep q l h).2 ≠ .committed t := by
        intro keep
        unfold writeIdempotent
        split
        · simp
        · split
          · split
            · simp
            · unfold finishWrite
              split
              · simp
              · split
                · simp
                · split <;> simp
          · simp
      cases k <;> simp only [write]
      · split
        · simp
        · exact hwi _
      · exact hwi _
      · exact hwi _
    split
    · rename_i hc; exact absurd hc (this _)
    · rename_i heq; cases heq
    · exact hb
  | setNoop on =>
    simp only [step, spoil, doubtful, Bool.or_false]
    refine ⟨?_, fun v => ?_⟩
    · unfold setNoop
      split
      · exact hi
      · rename_i hne
        have hpa : pragmaAllowed h "noop_update" (if on then "ON" else "OFF") = true := by
          rcases ho with ho | ho
          · exact absurd ho hne
          · exact ho
        refine ⟨hi.whitelist, hi.handler, hi.rewritten, by simp only [hpa, if_true], ?_, ?_⟩
        · intro hin
          obtain ⟨h1, h2⟩ := hi.outside hin
          refine ⟨h1, ?_⟩
          rw [show h.inside = false from hin]
          exact h2
        · intro hin hsp
          obtain ⟨d0, hb, hr⟩ := hi.inside hin hsp
          refine ⟨d0, hb, fun v => ?_⟩
          rw [show h.inside = true from hin]
          simp only [if_true]
          rw [replay_append, hr v]
          rfl
    · unfold setNoop; split <;> rfl
  | setQueryOnly on =>
    simp only [step, spoil, doubtful, Bool.or_false]
    unfold setQueryOnly
    generalize pragmaAllowed h "query_only" _ = p
    cases p
    · exact ⟨hi, fun _ => rfl⟩
    · exact ⟨⟨hi.whitelist, hi.handler, hi.rewritten, hi.noop, hi.outside, hi.inside⟩, fun _ => rfl⟩
  | setWhitelist w =>
    simp only [step, spoil, doubtful, Bool.or_false]
    exact ⟨⟨ho, hi.handler, hi.rewritten, hi.noop, hi.outside, hi.inside⟩, fun _ => trivial⟩
  | setAuthorizer f =>
    simp only [step, spoil, doubtful, Bool.or_false]
    exact ⟨⟨hi.whitelist, hi.handler, hi.rewritten, hi.noop, hi.outside, hi.inside⟩, fun _ => trivial⟩
  | setRewrite f =>
    simp only [step, spoil, doubtful, Bool.or_false]
    exact ⟨⟨hi.whitelist, ho, hi.rewritten, hi.noop, hi.outside, hi.inside⟩, fun _ => trivial⟩
  | rollback =>
    simp only [step]
    refine ⟨⟨hi.whitelist, hi.handler, hi.rewritten, hi.noop, fun _ => ⟨rfl, ?_⟩, fun h' => ?_⟩, fun _ => trivial⟩
    · simp only
      split
      · rfl
      · rename_i hin; exact (hi.outside (by simpa using hin)).2
    · cases h'
  | commit =>
    simp only [step, spoil, doubtful, Bool.or_false]
    split
    · exact ⟨hi, fun _ => rfl⟩
    · rename_i hin
      split
      · exact ⟨hi, fun _ => rfl⟩
      · rename_i hm
        have hin' : h.inside = true := by simpa using hin
        refine ⟨⟨hi.whitelist, hi.handler, hi.rewritten, hi.noop, fun _ => ⟨rfl, rfl⟩, fun h' => ?_⟩, fun v => ?_⟩
        · cases h'
        · obtain ⟨d0, hb, hr⟩ := hi.inside hin' ho.1
          simp only
          rw [hb (by simpa using hm), hr v, ho.2]
  | external text =>
    obtain ⟨r, hall, hn⟩ := ho
    simp only [step, spoil, doubtful, Bool.or_false]
    split
    · rename_i d n hr
      have hn' : n = false := by
        rw [hall 0] at hr
        exact hn d n hr
      have hv : ∀ v, replay E v text false h.base = some (d, false) := fun v => by
        rw [hall v, ← hall 0, hr, hn']
      split
      · rename_i hin
        refine ⟨⟨hi.whitelist, hi.handler, hi.rewritten, hi.noop, ?_, ?_⟩, fun v => hv v⟩
        · intro h'; exact absurd (hin.symm.trans h') (by simp)
        · intro _ hsp
          obtain ⟨d0, _, hr'⟩ := hi.inside hin hsp
          exact ⟨d0, (fun h' => nomatch h'), hr'⟩
      · rename_i hin
        have hin' : h.inside = false := by simpa using hin
        refine ⟨⟨hi.whitelist, hi.handler, hi.rewritten, hi.noop, ?_, ?_⟩, fun v => hv v⟩
        · intro _; exact ⟨rfl, (hi.outside hin').2⟩
        · intro h'; exact absurd (hin'.symm.trans h') (by simp)
    · exact ⟨hi, fun _ => rfl⟩

theorem rep_follow {E : Engine D S R} (hE : E.Sound) [DecidableEq S] (v : Nat → Nat) : ∀ (ops : List (Op S)) (i : Nat)
    (sp : Bool) (h : H D S R), Rep E sp h → Good E sp h ops →
    follow E v i (logged E h ops) h.base = some (run E h ops).1.base
  | [], i, sp, h, _, _ => rfl
  | o :: os, i, sp, h, hi, hg => by
    obtain ⟨hi', hb⟩ := rep_step hE hi o hg.1
    have hb := hb (v i)
    have ih := fun j => rep_follow hE v os j _ _ hi' hg.2
    have hrun : (run E h (o :: os)).1 = (run E (step E h o).1 os).1 := rfl
    rw [hrun]
    unfold logged
    split at hb
    · simp only [List.singleton_append]
      unfold follow
      rw [hb]
      exact ih (i + 1)
    · simp only [List.singleton_append]
      unfold follow
      rw [hb]
      exact ih (i + 1)
    · rw [List.nil_append, ← hb]
      exact ih i

/-! ## C65 -/

/-- C65: after any history of transactions on this handle (begun, written, interrupted, rolled back, committed, in and
out of no-op mode, with rewriting and authorizers) and of other threads' commits, a follower that starts from the same
database and applies the recorded texts in order ends with the same database, whatever volatile functions return there.
Partial: see `Allowed`, and the witnesses below for what it excludes. -/
theorem c65_followers_agree_partial {E : Engine D S R} (hE : E.Sound) [DecidableEq S] (d0 : D) (ops : List (Op S))
    (hops : Good E false (fresh d0) ops) (v : Nat → Nat) :
    follow E v 0 (logged E (fresh d0) ops) d0 = some (run E (fresh d0) ops).1.base :=
  rep_follow hE v ops 0 false (fresh d0)
    ⟨rfl, (fun _ hg => nomatch hg), ⟨Nat.zero_le _, (fun _ hs => nomatch hs)⟩, rfl, (fun _ => ⟨rfl, rfl⟩),
      (fun h => nomatch h)⟩ hops

theorem toy_written (s : TS) (hs : s ≠ .blob ∧ s ≠ .blobA) : Written toy s := by
  intro n hn hv
  cases s <;> simp only [toy, List.mem_cons, List.not_mem_nil, reduceCtorEq, or_false, false_or, Action.function.injEq]
    at hn
  case blob => exact absurd rfl hs.1
  case blobA => exact absurd rfl hs.2
  all_goals (subst hn; decide +kernel)

/-- Two transactions with an interrupted one between them, which is rolled back. -/
def toyHistory : List (Op TS) :=
  [.begin, .read [.getA] {}, .write .plain [.incA, .incB] {}, .write .plain [.bad] {}, .commit,
   .begin, .write .plain [.incA] { interrupted := true }, .rollback,
   .begin, .setNoop true, .write .plain [.incB] {}, .write .unmodified [.incA] {}, .setNoop false,
   .write .idempotent [.incB] { busy := [some 0] }, .commit]

example : (run toy (fresh ⟨5, 7⟩) toyHistory).2 =
    [.ok [], .ok [5], .ok [0, 0], .failed, .committed [.stmt .incA, .stmt .incB],
     .ok [], .thrown, .ok [],
     .ok [], .ok [], .ok [], .ok [0], .ok [], .ok [0], .committed [.noop true, .stmt .incA, .noop false, .stmt .incB]]
    ∧ (run toy (fresh ⟨5, 7⟩) toyHistory).1.base = ⟨6, 9⟩ := by decide +kernel

example : Good toy false (fresh ⟨5, 7⟩) toyHistory := by
  refine ⟨rfl, ?_, ⟨rfl, ?_⟩, ⟨rfl, ?_⟩, ⟨rfl, rfl⟩, rfl, ⟨rfl, ?_⟩, trivial, rfl, .inr (by decide +kernel), ⟨rfl, ?_⟩,
    ⟨rfl, ?_⟩, .inr (by decide +kernel), ⟨rfl, ?_⟩, ⟨by decide +kernel, rfl⟩, trivial⟩
  · intro s hs; rw [List.mem_singleton.1 hs]; exact toy_getA
  all_goals
    intro s hs
    refine toy_written s ?_
    revert hs s
    decide +kernel

/-! ### What `Allowed` excludes, and what then happens -/

/-- A write of two statements of which the second fails returns `false`; the caller carries on and commits.  The first
statement has happened and is not in the text: the follower ends with other data. -/
theorem c65_failed_half_is_lost :
    let ops : List (Op TS) := [.begin, .write .plain [.incA, .bad] {}, .write .plain [.incB] {}, .commit]
    (run toy (fresh ⟨5, 7⟩) ops).2 = [.ok [], .failed, .ok [0], .committed [.stmt .incB]] ∧
    (run toy (fresh ⟨5, 7⟩) ops).1.base = ⟨6, 8⟩ ∧
    follow toy (fun _ => 0) 0 (logged toy (fresh ⟨5, 7⟩) ops) ⟨5, 7⟩ = some ⟨5, 8⟩ := by
  decide +kernel

/-- `SQLITE_BUSY` at the second statement: the whole query is run again, the first statement happens twice and is
recorded once. -/
theorem c65_busy_runs_twice :
    let ops : List (Op TS) := [.begin, .write .plain [.incA, .incB] { busy := [some 1] }, .commit]
    (run toy (fresh ⟨5, 7⟩) ops).2 = [.ok [], .ok [0, 0], .committed [.stmt .incA, .stmt .incB]] ∧
    (run toy (fresh ⟨5, 7⟩) ops).1.base = ⟨7, 8⟩ ∧
    follow toy (fun _ => 0) 0 (logged toy (fresh ⟨5, 7⟩) ops) ⟨5, 7⟩ = some ⟨6, 8⟩ := by
  decide +kernel

/-- Updates of the column `b` are rewritten to an update of `a`. -/
def bToA : Action → Option (List TS)
  | .update "t" "b" => some [.incA]
  | _ => none

/-- A query of two statements of which the second is rewritten: the first has happened, and only the rewritten one is
recorded. -/
theorem c65_rewritten_half_is_lost :
    let ops : List (Op TS) := [.setRewrite (some bToA), .begin, .write .plain [.incA, .incB] {}, .commit]
    (run toy (fresh ⟨5, 7⟩) ops).2 = [.ok [], .ok [], .ok [0], .committed [.stmt .incA]] ∧
    (run toy (fresh ⟨5, 7⟩) ops).1.base = ⟨7, 7⟩ ∧
    follow toy (fun _ => 0) 0 (logged toy (fresh ⟨5, 7⟩) ops) ⟨5, 7⟩ = some ⟨6, 7⟩ := by
  decide +kernel

/-- A write refused because it calls `random()` makes the handle run the query it last rewrote once more, and the
caller is told that the write succeeded. -/
theorem c65_stale_rewrite_runs :
    let ops : List (Op TS) := [.setRewrite (some bToA), .begin, .write .plain [.incB] {}, .write .plain [.rndA] {},
      .commit]
    (run toy (fresh ⟨5, 7⟩) ops).2 = [.ok [], .ok [], .ok [], .ok [], .committed [.stmt .incA, .stmt .incA]] ∧
    (run toy (fresh ⟨5, 7⟩) ops).1.base = ⟨7, 7⟩ := by
  decide +kernel

/-- If nothing has been rewritten yet, the same write ends the process. -/
theorem c65_refused_write_crashes :
    (run toy (fresh ⟨5, 7⟩) [.setRewrite (some bToA), .begin, .write .plain [.rndA] {}]).2
      = [.ok [], .ok [], .crash] := by
  decide +kernel

/-- `randomblob` is not refused in writes: leader and follower store different values. -/
theorem c65_randomblob_diverges :
    let ops : List (Op TS) := [.begin, .write .plain [.blobA] { vol := 1 }, .commit]
    (run toy (fresh ⟨5, 7⟩) ops).2 = [.ok [], .ok [0], .committed [.stmt .blobA]] ∧
    (run toy (fresh ⟨5, 7⟩) ops).1.base = ⟨1, 7⟩ ∧
    follow toy (fun _ => 2) 0 (logged toy (fresh ⟨5, 7⟩) ops) ⟨5, 7⟩ = some ⟨2, 7⟩ := by
  decide +kernel

/-- A statement that writes, given to `read`: it happens, is committed, and is not recorded. -/
theorem c65_write_through_read :
    let ops : List (Op TS) := [.begin, .read [.incA] {}, .write .plain [.incB] {}, .commit]
    (run toy (fresh ⟨5, 7⟩) ops).2 = [.ok [], .ok [0], .ok [0], .committed [.stmt .incB]] ∧
    (run toy (fresh ⟨5, 7⟩) ops).1.base = ⟨6, 8⟩ ∧
    follow toy (fun _ => 0) 0 (logged toy (fresh ⟨5, 7⟩) ops) ⟨5, 7⟩ = some ⟨5, 8⟩ := by
  decide +kernel

/-! ## C66 -/

/-- No recorded statement calls a function refused in writes. -/
def NoRefused (E : Engine D S R) (h : H D S R) : Prop :=
  ∀ s, Item.stmt s ∈ h.pending → ∀ n, Action.function n ∈ E.acts s → n ∉ refusedInWrites

theorem writeQuery_text {E : Engine D S R} (hE : E.Sound) {h : H D S R} {q : List S} {l : Luck} {o : Out D S R}
    {rw' : List S} (ho : writeQuery E q l h = some (o, rw')) :
    ∀ s ∈ o.text, ∀ n, Action.function n ∈ E.acts s → n ∉ refusedInWrites := by
  unfold writeQuery at ho
  simp only at ho
  split at ho
  · split at ho
    · cases ho
    · injection ho with ho
      injection ho with ho hr
      rw [← ho]
      exact squery_text hE _ _ _
  · injection ho with ho
    injection ho with ho hr
    rw [← ho]
    exact squery_text hE _ _ _

theorem noRefused_writeIdempotent {E : Engine D S R} (hE : E.Sound) {h : H D S R} (hi : NoRefused E h) (keep : Bool)
    (q : List S) (l : Luck) : NoRefused E (writeIdempotent E keep q l h).1 := by
  unfold writeIdempotent
  split
  · exact hi
  · split
    · split
      · exact hi
      · rename_i o rw' ho
        have ht := writeQuery_text hE ho
        unfold finishWrite
        split
        · exact hi
        · split
          · exact hi
          · split
            · exact hi
            · simp only
              intro s hs
              simp only at hs
              split at hs
              · rcases List.mem_append.1 hs with hs | hs
                · exact hi s hs
                · obtain ⟨s', h1, h2⟩ := List.mem_map.1 hs
                  injection h2 with h2
                  subst h2
                  exact ht s' h1
              · exact hi s hs
    · exact hi

theorem noRefused_step {E : Engine D S R} (hE : E.Sound) [DecidableEq S] (h : H D S R) (o : Op S)
    (hi : NoRefused E h) : NoRefused E (step E h o).1 ∧
      ∀ t, (step E h o).2 = .committed t → ∀ s, Item.stmt s ∈ t → ∀ n, Action.function n ∈ E.acts s →
        n ∉ refusedInWrites := by
  have empty : ∀ h' : H D S R, h'.pending = [] → NoRefused E h' := by
    intro h' hp s hs; rw [hp] at hs; cases hs
  have same : ∀ h' : H D S R, h'.pending = h.pending → NoRefused E h' := by
    intro h' hp; unfold NoRefused; rw [hp]; exact hi
  cases o with
  | begin =>
    simp only [step]
    split
    · exact ⟨empty _ rfl, by intro t ht; cases ht⟩
    · exact ⟨same _ rfl, by intro t ht; cases ht⟩
  | read q l =>
    simp only [step]
    unfold Handle.read
    split
    · refine ⟨hi, ?_⟩
      intro t ht
      simp only at ht
      split at ht <;> cases ht
    · simp only
      split
      · refine ⟨?_, ?_⟩
        · split <;> exact same _ rfl
        · intro t ht
          simp only at ht
          (repeat' split at ht) <;> cases ht
      · refine ⟨same _ rfl, ?_⟩
        intro t ht
        simp only at ht
        (repeat' split at ht) <;> cases ht
  | write k q l =>
    simp only [step]
    refine ⟨?_, ?_⟩
    · cases k <;> simp only [write]
      · split
        · exact hi
        · exact noRefused_writeIdempotent hE hi _ _ _
      · exact noRefused_writeIdempotent hE hi _ _ _
      · exact noRefused_writeIdempotent hE hi _ _ _
    · intro t ht
      have hwi : ∀ keep, (writeIdempotent E keep q l h).2 ≠ .committed t := by
        intro keep
        unfold writeIdempotent
        split
        · simp
        · split
          · split
            · simp
            · unfold finishWrite
              split
              · simp
              · split
                · simp
                · split <;> simp
          · simp
      cases k <;> simp only [write] at ht
      · split at ht
        · cases ht
        · exact absurd ht (hwi _)
      · exact absurd ht (hwi _)
      · exact absurd ht (hwi _)
  | setNoop on =>
    simp only [step]
    refine ⟨?_, by intro t ht; cases ht⟩
    unfold setNoop
    split
    · exact hi
    · intro s hs
      simp only at hs
      split at hs
      · rcases List.mem_append.1 hs with hs | hs
        · exact hi s hs
        · simp at hs
      · exact hi s hs
  | setQueryOnly on =>
    simp only [step]
    unfold setQueryOnly
    generalize pragmaAllowed h "query_only" _ = p
    cases p <;> exact ⟨same _ rfl, by intro t ht; cases ht⟩
  | setWhitelist w => exact ⟨same _ rfl, by intro t ht; cases ht⟩
  | setAuthorizer f => exact ⟨same _ rfl, by intro t ht; cases ht⟩
  | setRewrite f => exact ⟨same _ rfl, by intro t ht; cases ht⟩
  | rollback =>
    refine ⟨?_, by intro t ht; cases ht⟩
    simp only [step]
    intro s hs
    simp only at hs
    split at hs
    · cases hs
    · exact hi s hs
  | commit =>
    simp only [step]
    split
    · exact ⟨hi, by intro t ht; cases ht⟩
    · split
      · exact ⟨hi, by intro t ht; cases ht⟩
      · refine ⟨empty _ rfl, ?_⟩
        intro t ht
        injection ht with ht
        subst ht
        exact hi
  | external text =>
    simp only [step]
    split
    · split
      · exact ⟨same _ rfl, by intro t ht; cases ht⟩
      · exact ⟨same _ rfl, by intro t ht; cases ht⟩
    · exact ⟨hi, by intro t ht; cases ht⟩

/-- C66: whatever the handle is asked to do, and whatever is rewritten to what, no transaction it commits carries a
statement that calls `random()`, `current_timestamp`, `last_insert_rowid()`, `changes()` or `sqlite_version()`, whose
value on a follower would be another. -/
theorem c66_never_recorded {E : Engine D S R} (hE : E.Sound) [DecidableEq S] (d0 : D) : ∀ (ops : List (Op S))
    (t : List (Item S)), Ans.committed t ∈ (run E (fresh d0) ops).2 → ∀ s, Item.stmt s ∈ t → ∀ n,
    Action.function n ∈ E.acts s → n ∉ refusedInWrites := by
  have gen : ∀ (ops : List (Op S)) (h : H D S R), NoRefused E h → ∀ t, Ans.committed t ∈ (run E h ops).2 →
      ∀ s, Item.stmt s ∈ t → ∀ n, Action.function n ∈ E.acts s → n ∉ refusedInWrites := by
    intro ops
    induction ops with
    | nil => intro h _ t ht; cases ht
    | cons o os ih =>
      intro h hi t ht
      obtain ⟨h1, h2⟩ := noRefused_step hE h o hi
      rcases List.mem_cons.1 ht with ht | ht
      · exact h2 t ht.symm
      · exact ih _ h1 t ht
  intro ops
  exact gen ops (fresh d0) fun s hs => nomatch hs

/-- C66: without rewriting, a write that contains a call of a refused function is not carried out: the caller is told,
nothing is recorded, and if the call is in the only statement nothing happens. -/
theorem c66_refused {E : Engine D S R} (hE : E.Sound) [DecidableEq S] (h : H D S R) (k : Kind) (q : List S) (l : Luck)
    (hr : h.rewrite = none) (hn : k = .plain → h.noop = false) {s : S} {n : String} (hs : s ∈ q)
    (hf : Action.function n ∈ E.acts s) (href : n ∈ refusedInWrites) :
    (∀ rows, (step E h (.write k q l)).2 ≠ .ok rows) ∧
    (step E h (.write k q l)).1.pending = h.pending ∧
    (q.length ≤ 1 → (step E h (.write k q l)).1.data = h.data) := by
  have hrun : ∀ (q : List S) (d : D) , s ∈ q → (runOnce E h true false l.vol none q d).code ≠ none := by
    intro q
    induction q with
    | nil => intro d hs; cases hs
    | cons x xs ih =>
      intro d hs hc
      obtain ⟨_, hid, d', rows, ch, hp, he, hc', _⟩ := runOnce_go hc
      rcases List.mem_cons.1 hs with rfl | hs
      · exact prep_go_refused hp n hf href
      · exact ih _ hs hc'
  have hsq : (squery E h true false l.vol q 3 l.busy h.data).code ≠ none := by
    intro hc
    obtain ⟨d1, h1, _⟩ := squery_ok hc
    exact hrun q d1 hs h1
  have hwq : ∀ o rw', writeQuery E q l h = some (o, rw') →
      o = squery E h true false l.vol q 3 l.busy h.data := by
    intro o rw' ho
    unfold writeQuery at ho
    simp only [hr, Option.isSome_none, Bool.false_eq_true, false_and, if_false] at ho
    injection ho with ho
    injection ho with ho _
    exact ho.symm
  have key : ∀ keep, (∀ rows, (writeIdempotent E keep q l h).2 ≠ .ok rows) ∧
      (writeIdempotent E keep q l h).1.pending = h.pending ∧
      (q.length ≤ 1 → (writeIdempotent E keep q l h).1.data = h.data) := by
    intro keep
    unfold writeIdempotent
    split
    · exact ⟨by simp, rfl, fun _ => rfl⟩
    · split
      · split
        · exact ⟨by simp, rfl, fun _ => rfl⟩
        · rename_i o rw' ho
          have ho' := hwq _ _ ho
          have hc : o.code ≠ none := by rw [ho']; exact hsq
          have hd : q.length ≤ 1 → o.d = h.data := by
            intro hl
            rw [ho']
            exact ((squery_single hE hl 3 l.busy h.data).1 hsq).1
          unfold finishWrite
          split
          · exact ⟨by simp, rfl, hd⟩
          · split
            · exact ⟨by simp, rfl, hd⟩
            · split
              · exact ⟨by simp, rfl, hd⟩
              · rename_i hc'; exact absurd hc' hc
      · exact ⟨by simp, rfl, fun _ => rfl⟩
  simp only [step]
  cases k with
  | plain =>
    simp only [write, hn rfl, Bool.false_eq_true, if_false]
    exact key false
  | idempotent => exact key false
  | unmodified => exact key true

example : (run toy (fresh ⟨5, 7⟩) [.begin, .write .plain [.rndA] { vol := 3 }, .write .plain [.incB] {}, .commit]).2
    = [.ok [], .failed, .ok [0], .committed [.stmt .incB]] := by decide +kernel

/-- Outside a write the same functions may be read. -/
example : (run toy (fresh ⟨5, 7⟩) [.begin, .read [.rnd] { vol := 3 }]).2 = [.ok [], .ok [3]] := by decide +kernel

/-- A write that was interrupted leaves the handle believing that it is still writing: after the rollback, and until
some later write ends normally, reads of `random()` are refused. -/
theorem c66_interrupted_sticks :
    (run toy (fresh ⟨5, 7⟩) [.begin, .write .plain [.incA] { interrupted := true }, .rollback,
      .read [.rnd] { vol := 3 }, .begin, .read [.rnd] { vol := 4 }]).2
      = [.ok [], .thrown, .ok [], .failed, .ok [], .failed] := by
  decide +kernel

end Bedrock.Handle.Props
