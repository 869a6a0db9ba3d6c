import Verif.Lemmas.Handle

/-!
# C56: cached reads equal fresh reads
-/

namespace Bedrock.Handle.Props
open Bedrock Bedrock.Handle

variable {D S R : Type}

/-- A fresh connection on a database. -/
def fresh (d : D) : H D S R := { data := d, base := d }

/-- Reads are given read-only statements whose volatile functions, if any, are ones the code knows about, and the
whitelist and the rewriting are not changed in the middle of a transaction. -/
def Calm (E : Engine D S R) (h : H D S R) : Op S → Prop
  | .read q _ => ∀ s ∈ q, ReadOnly E s ∧ ∀ n, Action.function n ∈ E.acts s → n ∈ volatile → n ∈ uncached
  | .setWhitelist _ => h.inside = false
  | .setRewrite _ => h.inside = false
  | _ => True

structure CacheOk (E : Engine D S R) (h : H D S R) : Prop where
  outside : h.inside = false → h.cache = []
  readOnly : ∀ e ∈ h.cache, ∀ s ∈ e.1, ReadOnly E s
  stable : ∀ e ∈ h.cache, ∀ s ∈ e.1, Stable E s
  valid : ∀ e ∈ h.cache, (runOnce E h false false 0 none e.1 h.data).code = none ∧
    (runOnce E h false false 0 none e.1 h.data).rows = e.2

theorem cacheOk_congr {E : Engine D S R} (hE : E.Sound) {h h' : H D S R} (hi : CacheOk E h) (hc : SameConf h h')
    (hcache : h'.cache = h.cache) (hdata : h'.data = h.data) (hin : h'.inside = h.inside) : CacheOk E h' := by
  refine ⟨?_, ?_, ?_, ?_⟩
  · rw [hin, hcache]; exact hi.outside
  · rw [hcache]; exact hi.readOnly
  · rw [hcache]; exact hi.stable
  · rw [hcache, hdata]
    intro e he
    have := runOnce_indep hE hc (w := false) (w' := false) (r := false) (v := 0) (v' := 0) (b := none) e.1 h.data
      (hi.readOnly e he) (hi.stable e he)
    rw [← this]
    exact hi.valid e he

theorem cacheOk_empty {E : Engine D S R} {h : H D S R} (hc : h.cache = []) : CacheOk E h := by
  refine ⟨fun _ => hc, ?_, ?_, ?_⟩ <;> rw [hc] <;> intro e he <;> cases he

theorem read_hit {E : Engine D S R} [DecidableEq S] {q : List S} {l : Luck} {h : H D S R} {e : List S × List R}
    (hf : h.cache.find? (fun e => e.1 = q) = some e) :
    read E q l h = (h, if l.interrupted then .thrown else .ok e.2) := by
  unfold read; rw [hf]

theorem stable_of {E : Engine D S R} {s : S}
    (hv : ∀ n, Action.function n ∈ E.acts s → n ∈ volatile → n ∈ uncached)
    (hd : ((E.acts s).all fun a => match a with | .function n => !uncached.contains n | _ => true) = true) :
    Stable E s := by
  intro n hn hvol
  have h1 := List.all_eq_true.1 hd _ hn
  have h2 := hv n hn hvol
  simp [h2] at h1

theorem cacheOk_read {E : Engine D S R} (hE : E.Sound) [DecidableEq S] {q : List S} {l : Luck} {h : H D S R}
    (hi : CacheOk E h)
    (hq : ∀ s ∈ q, ReadOnly E s ∧ ∀ n, Action.function n ∈ E.acts s → n ∈ volatile → n ∈ uncached) :
    CacheOk E (read E q l h).1 := by
  cases hf : h.cache.find? (fun e => e.1 = q) with
  | some e => rw [read_hit hf]; exact hi
  | none =>
    have hdata : (squery E h h.writing false l.vol q 3 l.busy h.data).d = h.data :=
      squery_readOnly hE (fun s hs => (hq s hs).1) _ _ _
    unfold Handle.read
    rw [hf]
    simp only
    have base : ∀ rw', CacheOk E { h with
        data := (squery E h h.writing false l.vol q 3 l.busy h.data).d,
        base := if h.inside then h.base else (squery E h h.writing false l.vol q 3 l.busy h.data).d,
        rewritten := rw' } := by
      intro rw'
      exact cacheOk_congr hE hi ⟨rfl, rfl, rfl⟩ rfl hdata rfl
    split
    · rename_i hcode
      split
      · rename_i hdet
        simp only [Bool.and_eq_true] at hdet
        have hst : ∀ s ∈ q, Stable E s := fun s hs =>
          stable_of (hq s hs).2 (List.all_eq_true.1 hdet.1 s hs)
        obtain ⟨d0, h1, h2, h3, _, _⟩ := squery_ok hcode
        have hd0 : d0 = h.data := by
          have : (runOnce E h h.writing false l.vol none q d0).d = d0 := by
            refine runOnce_data (fun x => x = d0) none q d0 ?_ rfl
            intro s hs hid d1 _ hd
            subst hd
            split
            · rename_i he; exact (hq s hs).1.same _ _ _ _ _ he
            · rename_i he; exact hE.undo _ _ _ _ _ he
          rw [← this, ← h2, hdata]
        subst hd0
        refine ⟨?_, ?_, ?_, ?_⟩
        · intro hin; rw [hin] at hdet; exact absurd hdet.2 (by simp)
        · intro e he
          rcases List.mem_cons.1 he with rfl | he
          · exact fun s hs => (hq s hs).1
          · exact hi.readOnly e he
        · intro e he
          rcases List.mem_cons.1 he with rfl | he
          · exact hst
          · exact hi.stable e he
        · intro e he
          rcases List.mem_cons.1 he with rfl | he
          · simp only [hdata]
            have hx := runOnce_indep hE (h := h) (h' := { h with
                data := h.data,
                base := if h.inside then h.base else h.data,
                rewritten := (squery E h h.writing false l.vol q 3 l.busy h.data).rewrite.getD h.rewritten,
                cache := (q, (squery E h h.writing false l.vol q 3 l.busy h.data).rows) :: h.cache })
              ⟨rfl, rfl, rfl⟩ (w := h.writing) (w' := false) (r := false) (v := l.vol) (v' := 0) (b := none) q h.data
              (fun s hs => (hq s hs).1) hst
            rw [← hx]
            exact ⟨h1, h3.symm⟩
          · have hb := (base ((squery E h h.writing false l.vol q 3 l.busy h.data).rewrite.getD h.rewritten)).valid e he
            have hx := runOnce_indep hE (h := { h with
                data := (squery E h h.writing false l.vol q 3 l.busy h.data).d,
                base := if h.inside then h.base else (squery E h h.writing false l.vol q 3 l.busy h.data).d,
                rewritten := (squery E h h.writing false l.vol q 3 l.busy h.data).rewrite.getD h.rewritten })
              (h' := { h with
                data := (squery E h h.writing false l.vol q 3 l.busy h.data).d,
                base := if h.inside then h.base else (squery E h h.writing false l.vol q 3 l.busy h.data).d,
                rewritten := (squery E h h.writing false l.vol q 3 l.busy h.data).rewrite.getD h.rewritten,
                cache := (q, (squery E h h.writing false l.vol q 3 l.busy h.data).rows) :: h.cache })
              ⟨rfl, rfl, rfl⟩ (w := false) (w' := false) (r := false) (v := 0) (v' := 0) (b := none) e.1
              (squery E h h.writing false l.vol q 3 l.busy h.data).d (hi.readOnly e he) (hi.stable e he)
            rw [← hx]; exact hb
      · exact base _
    · exact base _

theorem cacheOk_step {E : Engine D S R} (hE : E.Sound) [DecidableEq S] (h : H D S R) (o : Op S)
    (hi : CacheOk E h) (ho : Calm E h o) : CacheOk E (step E h o).1 := by
  cases o with
  | begin => simp only [step]; split <;> exact cacheOk_empty rfl
  | read q l => exact cacheOk_read hE hi ho
  | write k q l =>
    rcases (write_fields E k q l h).1 with h1 | h1
    · exact cacheOk_empty h1
    · simp only [step]; rw [h1]; exact hi
  | setNoop on =>
    simp only [step, setNoop]
    split
    · exact hi
    · exact cacheOk_congr hE hi ⟨rfl, rfl, rfl⟩ rfl rfl rfl
  | setQueryOnly on =>
    simp only [step]
    unfold setQueryOnly
    generalize pragmaAllowed h "query_only" _ = p
    cases p
    · exact hi
    · exact cacheOk_congr hE hi ⟨rfl, rfl, rfl⟩ rfl rfl rfl
  | setWhitelist w => exact cacheOk_empty (hi.outside ho)
  | setAuthorizer f => exact cacheOk_empty rfl
  | setRewrite f => exact cacheOk_empty (hi.outside ho)
  | rollback => exact cacheOk_empty rfl
  | commit =>
    simp only [step]
    split
    · exact hi
    · split
      · exact hi
      · exact cacheOk_empty rfl
  | external text =>
    simp only [step]
    split
    · split
      · exact cacheOk_congr hE hi ⟨rfl, rfl, rfl⟩ rfl rfl rfl
      · rename_i hin
        exact cacheOk_empty (hi.outside (by simpa using hin))
    · exact hi

/-- C56: after any history of transactions, reads, writes, changes of mode and other threads' commits, a read answers
what it would answer if nothing had been cached.  Partial: volatile functions the code does not know about
(`c56_randomblob_repeats`) and a whitelist set in the middle of a transaction (`c59_cache_leak`) are excluded. -/
theorem c56_fresh_partial {E : Engine D S R} (hE : E.Sound) [DecidableEq S] (d0 : D) (ops : List (Op S))
    (hops : Along E (Calm E) (fresh d0) ops) (q : List S) (l : Luck) (hb : l.busy = []) :
    (step E (run E (fresh d0) ops).1 (.read q l)).2
      = (step E { (run E (fresh d0) ops).1 with cache := [] } (.read q l)).2 := by
  have hi : CacheOk E (run E (fresh d0) ops).1 :=
    along_inv (fun h o => cacheOk_step hE h o) ops _ (cacheOk_empty rfl) hops
  generalize (run E (fresh d0) ops).1 = h at hi
  simp only [step]
  cases hf : h.cache.find? (fun e => e.1 = q) with
  | none =>
    unfold Handle.read
    rw [hf]
    simp only [List.find?_nil]
    have : squery E h h.writing false l.vol q 3 l.busy h.data
        = squery E { h with cache := [] } h.writing false l.vol q 3 l.busy h.data := by
      exact squery_congr (h := h) (h' := { h with cache := [] }) ⟨rfl, rfl, rfl⟩ rfl rfl _ _ _ _ _ _ _
    rw [← this]
    split <;> rfl
  | some e =>
    rw [read_hit hf]
    have hm := List.mem_of_find?_eq_some hf
    have hq : e.1 = q := by simpa using List.find?_some hf
    obtain ⟨h1, h2⟩ := hi.valid e hm
    rw [hq] at h1 h2
    have hx := runOnce_indep hE (h := h) (h' := { h with cache := [] })
      ⟨rfl, rfl, rfl⟩ (w := false) (w' := h.writing) (r := false) (v := 0) (v' := l.vol) (b := none) q h.data
      (by rw [← hq]; exact hi.readOnly e hm) (by rw [← hq]; exact hi.stable e hm)
    rw [hx] at h1 h2
    unfold Handle.read
    simp only [List.find?_nil]
    rw [hb, squery_nobusy hE, h1, h2]

/-! ## A small engine for cases and witnesses -/

/-- One row with the columns `a` and `b` of the table `t`. -/
structure TD where
  a : Nat
  b : Nat
  deriving DecidableEq, Repr

inductive TS where
  /-- `SELECT a FROM t;` -/
  | getA
  /-- `SELECT b FROM t;` -/
  | getB
  /-- `SELECT randomblob(8);` -/
  | blob
  /-- `SELECT random();` -/
  | rnd
  /-- `UPDATE t SET a = a + 1;` -/
  | incA
  /-- `UPDATE t SET b = b + 1;` -/
  | incB
  /-- `UPDATE t SET a = random();` -/
  | rndA
  /-- `UPDATE t SET a = randomblob(8);` -/
  | blobA
  /-- a statement that fails -/
  | bad
  deriving DecidableEq, Repr

def tUpdate (c : Ctx) (d d' : TD) : Res TD Nat :=
  if c.queryOnly then .fail .error d else if c.noop then .ok d 0 false else .ok d' 0 (d' ≠ d)

def toy : Engine TD TS Nat where
  acts
    | .getA => [.select, .read "t" "a"]
    | .getB => [.select, .read "t" "b"]
    | .blob => [.select, .function "randomblob"]
    | .rnd => [.select, .function "random"]
    | .incA => [.update "t" "a", .read "t" "a"]
    | .incB => [.update "t" "b", .read "t" "b"]
    | .rndA => [.function "random", .update "t" "a"]
    | .blobA => [.function "randomblob", .update "t" "a"]
    | .bad => []
  exec
    | .getA, c, d => .ok d (if ("t", "a") ∈ c.hidden then 0 else d.a) false
    | .getB, c, d => .ok d (if ("t", "b") ∈ c.hidden then 0 else d.b) false
    | .blob, c, d => .ok d c.vol false
    | .rnd, c, d => .ok d c.vol false
    | .incA, c, d => tUpdate c d { d with a := d.a + 1 }
    | .incB, c, d => tUpdate c d { d with b := d.b + 1 }
    | .rndA, c, d => tUpdate c d { d with a := c.vol }
    | .blobA, c, d => tUpdate c d { d with a := c.vol }
    | .bad, _, d => .fail .error d
  expand := id

theorem toy_sound : toy.Sound := by
  refine ⟨?_, ?_, ?_, ?_, ?_, ?_⟩
  · intro s hs c v d
    cases s
    case blob => exact absurd (by decide +kernel) (hs "randomblob" (by decide +kernel))
    case rnd => exact absurd (by decide +kernel) (hs "random" (by decide +kernel))
    case rndA => exact absurd (by decide +kernel) (hs "random" (by decide +kernel))
    case blobA => exact absurd (by decide +kernel) (hs "randomblob" (by decide +kernel))
    all_goals rfl
  · intro s c d d' r h
    cases s <;> simp only [toy, tUpdate] at h
    case bad => cases h
    all_goals (repeat' split at h) <;> first | (cases h; done) | (injection h with h1 h2 h3; first | exact h1.symm | (simp only [ne_eq, decide_eq_false_iff_not, Decidable.not_not] at h3; rw [← h1]; exact h3))
  · intro s c d k d' h
    cases s <;> simp only [toy, tUpdate] at h
    all_goals (repeat' split at h) <;> first | (cases h; done) | (injection h with h1 h2; exact h2.symm)
  · intro s c d k d' h
    cases s <;> simp only [toy, tUpdate] at h
    all_goals (repeat' split at h) <;> first | (cases h; done) | (injection h with h1 h2; rw [← h1]; decide)
  · intro s; rfl
  · intro s; rfl

theorem toy_getA : ReadOnly toy .getA :=
  ⟨fun c d d' r ch h => by simp only [toy] at h; injection h with h1; exact h1.symm, fun c n qo d => rfl⟩

theorem toy_getB : ReadOnly toy .getB :=
  ⟨fun c d d' r ch h => by simp only [toy] at h; injection h with h1; exact h1.symm, fun c n qo d => rfl⟩

/-- A read, a write, a read: the second read sees the write; the third is served from the cache. -/
example : (run toy (fresh ⟨5, 7⟩) [.begin, .read [.getA] {}, .write .plain [.incA] {}, .read [.getA] {},
    .read [.getA] {}]).2 = [.ok [], .ok [5], .ok [0], .ok [6], .ok [6]] := by decide +kernel

example : Along toy (Calm toy) (fresh ⟨5, 7⟩) [.begin, .read [.getA] {}, .write .plain [.incA] {},
    .read [.getA] {}] := by
  refine ⟨True.intro, ?_, True.intro, ?_, True.intro⟩ <;>
  · intro s hs
    rw [List.mem_singleton.1 hs]
    refine ⟨toy_getA, fun n hn => ?_⟩
    simp [toy] at hn

/-- `randomblob` is not on the list of functions that keep a result out of the cache: asked twice, with the random
generator at 1 and then at 2, the second answer is the first. -/
theorem c56_randomblob_repeats :
    (run toy (fresh ⟨5, 7⟩) [.begin, .read [.blob] { vol := 1 }, .read [.blob] { vol := 2 }]).2
      = [.ok [], .ok [1], .ok [1]] ∧
    (run toy (fresh ⟨5, 7⟩) [.begin, .read [.rnd] { vol := 1 }, .read [.rnd] { vol := 2 }]).2
      = [.ok [], .ok [1], .ok [2]] := by
  decide +kernel

end Bedrock.Handle.Props
