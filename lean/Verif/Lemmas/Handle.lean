import Verif.Model.Handle

/-! # Lemmas about the handle model -/

namespace Bedrock.Handle
open Bedrock

variable {D S R : Type}

/-- Functions of SQLite whose value is not determined by their arguments and the data. -/
def volatile : List String :=
  ["random", "randomblob", "date", "time", "datetime", "julianday", "unixepoch", "strftime", "timediff",
   "current_date", "current_time", "current_timestamp", "changes", "total_changes", "last_insert_rowid",
   "sqlite_version"]

/-- The statement calls no such function. -/
def Stable (E : Engine D S R) (s : S) : Prop := ∀ n, Action.function n ∈ E.acts s → n ∉ volatile

/-- What is taken from SQLite. -/
structure Engine.Sound (E : Engine D S R) : Prop where
  /-- a statement without volatile functions depends on the data only -/
  det : ∀ s, Stable E s → ∀ (c : Ctx) (v : Nat) d, E.exec s { c with vol := v } d = E.exec s c d
  /-- a statement that moved neither counter changed nothing -/
  quiet : ∀ s c d d' r, E.exec s c d = .ok d' r false → d' = d
  /-- a failed statement is undone -/
  undo : ∀ s c d k d', E.exec s c d = .fail k d' → d' = d
  /-- `SQLITE_BUSY` is an input of the model (`Luck.busy`) -/
  notBusy : ∀ s c d k d', E.exec s c d = .fail k d' → k ≠ .busy
  /-- the expanded statement is the same statement -/
  expandActs : ∀ s, E.acts (E.expand s) = E.acts s
  expandExec : ∀ s, E.exec (E.expand s) = E.exec s

/-- A statement that only reads. -/
structure ReadOnly (E : Engine D S R) (s : S) : Prop where
  same : ∀ c d d' r ch, E.exec s c d = .ok d' r ch → d' = d
  indep : ∀ (c : Ctx) n qo d, E.exec s { c with noop := n, queryOnly := qo } d = E.exec s c d

/-- The settings of a handle that `prep` looks at. -/
structure SameConf (h h' : H D S R) : Prop where
  authorizer : h.authorizer = h'.authorizer
  whitelist : h.whitelist = h'.whitelist
  rewrite : h.rewrite = h'.rewrite

theorem authorize_congr {h h' : H D S R} (hc : SameConf h h') (w : Bool) (a : Action) :
    authorize h w a = authorize h' w a := by
  unfold authorize; rw [hc.authorizer, hc.whitelist]

theorem prep_congr {h h' : H D S R} (hc : SameConf h h') (w r : Bool) : ∀ as : List Action,
    prep h w r as = prep h' w r as
  | [] => rfl
  | a :: as => by
    unfold prep
    rw [hc.rewrite, authorize_congr hc w a, prep_congr hc w r as]

theorem refused_volatile : ∀ n ∈ refusedInWrites, n ∈ volatile := by decide +kernel

/-- For a stable statement it does not matter whether the handle thinks it is writing. -/
theorem prep_writing {h : H D S R} (w w' r : Bool) : ∀ as : List Action,
    (∀ n, Action.function n ∈ as → n ∉ volatile) → prep h w r as = prep h w' r as
  | [], _ => rfl
  | a :: as, hs => by
    have ih := prep_writing (h := h) w w' r as fun n hn => hs n (by simp [hn])
    have ha : authorize h w a = authorize h w' a := by
      unfold authorize
      cases a with
      | function n =>
        have : refusedInWrites.contains n = false := by
          cases hc : refusedInWrites.contains n
          · rfl
          · exact absurd (refused_volatile n (by simpa using hc)) (hs n (by simp))
        simp only [this, Bool.and_false]
      | _ => rfl
    unfold prep
    rw [ha, ih]

theorem runOnce_go {E : Engine D S R} {h : H D S R} {w r : Bool} {v : Nat} {b : Option Nat} {s : S} {ss : List S}
    {d : D} (hc : (runOnce E h w r v b (s :: ss) d).code = none) :
    b ≠ some 0 ∧ ∃ hid d' rows ch, prep h w r (E.acts s) = .go hid ∧
      E.exec s { noop := h.dbNoop, queryOnly := h.queryOnly, vol := v, hidden := hid } d = .ok d' rows ch ∧
      (runOnce E h w r v (b.map (· - 1)) ss d').code = none ∧
      runOnce E h w r v b (s :: ss) d =
        { runOnce E h w r v (b.map (· - 1)) ss d' with
          rows := rows :: (runOnce E h w r v (b.map (· - 1)) ss d').rows,
          text := E.expand s :: (runOnce E h w r v (b.map (· - 1)) ss d').text,
          changed := ch || (runOnce E h w r v (b.map (· - 1)) ss d').changed } := by
  have heq : runOnce E h w r v b (s :: ss) d = runOnce E h w r v b (s :: ss) d := rfl
  conv at heq => rhs; unfold runOnce
  split at heq
  · rw [heq] at hc; cases hc
  · rename_i hb
    refine ⟨hb, ?_⟩
    split at heq
    · rw [heq] at hc; cases hc
    · rw [heq] at hc; cases hc
    · rename_i hid hp
      split at heq
      · rw [heq] at hc; cases hc
      · rename_i d' rows ch he
        refine ⟨hid, d', rows, ch, hp, he, ?_, heq⟩
        rw [heq] at hc; exact hc

/-- A successful walk does not depend on where it might have been busy. -/
theorem runOnce_busy {E : Engine D S R} {h : H D S R} {w r : Bool} {v : Nat} : ∀ {b : Option Nat} {q : List S} {d : D},
    (runOnce E h w r v b q d).code = none → runOnce E h w r v none q d = runOnce E h w r v b q d
  | _, [], _, _ => by simp [runOnce]
  | b, s :: ss, d, hc => by
    obtain ⟨_, hid, d', rows, ch, hp, he, hc', heq⟩ := runOnce_go hc
    rw [heq]
    have ih := runOnce_busy hc'
    conv => lhs; unfold runOnce
    simp only [reduceCtorEq, if_false, hp, he, Option.map_none, ih]

theorem runOnce_not_busy {E : Engine D S R} (hE : E.Sound) {h : H D S R} {w r : Bool} {v : Nat} :
    ∀ (q : List S) (d : D), (runOnce E h w r v none q d).code ≠ some .busy
  | [], _ => by simp [runOnce]
  | s :: ss, d => by
    unfold runOnce
    simp only [reduceCtorEq, if_false]
    split
    · simp
    · simp
    · split
      · rename_i he
        intro hk
        exact hE.notBusy _ _ _ _ _ he (by simpa using hk)
      · exact runOnce_not_busy hE ss _

/-- The attempt whose result `SQuery` returns, when it succeeds. -/
theorem squery_ok {E : Engine D S R} {h : H D S R} {w r : Bool} {v : Nat} {q : List S} : ∀ {n : Nat}
    {b : List (Option Nat)} {d : D}, (squery E h w r v q n b d).code = none →
    ∃ d0, (runOnce E h w r v none q d0).code = none ∧
      (squery E h w r v q n b d).d = (runOnce E h w r v none q d0).d ∧
      (squery E h w r v q n b d).rows = (runOnce E h w r v none q d0).rows ∧
      (squery E h w r v q n b d).text = (runOnce E h w r v none q d0).text ∧
      ((squery E h w r v q n b d).changed = false → (runOnce E h w r v none q d0).changed = false)
  | 0, _, _, hc => by simp [squery] at hc
  | n + 1, b, d, hc => by
    have heq : squery E h w r v q (n + 1) b d = squery E h w r v q (n + 1) b d := rfl
    conv at heq => rhs; unfold squery
    simp only at heq
    split at heq
    · rename_i hb
      rw [heq] at hc
      obtain ⟨d0, h1, h2, h3, h4, h5⟩ := squery_ok (n := n) (b := b.tail) hc
      refine ⟨d0, h1, by rw [heq]; exact h2, by rw [heq]; exact h3, by rw [heq]; exact h4, ?_⟩
      rw [heq]; intro hf
      simp only [Bool.or_eq_false_iff] at hf
      exact h5 hf.2
    · rw [heq] at hc
      have h1 := runOnce_busy hc
      refine ⟨d, by rw [h1]; exact hc, by rw [heq, h1], by rw [heq, h1], by rw [heq, h1], ?_⟩
      rw [heq, h1]; exact fun h => h

/-- Without `SQLITE_BUSY` there is one attempt. -/
theorem squery_nobusy {E : Engine D S R} (hE : E.Sound) {h : H D S R} {w r : Bool} {v : Nat} {q : List S} {n : Nat}
    {d : D} : squery E h w r v q (n + 1) [] d = runOnce E h w r v none q d := by
  unfold squery
  refine if_neg ?_
  intro hb
  exact runOnce_not_busy hE _ _ hb.1

/-- Any property of the data kept by every statement that gets executed is kept by `SQuery`. -/
theorem runOnce_data {E : Engine D S R} {h : H D S R} {w r : Bool} {v : Nat} (P : D → Prop) :
    ∀ (b : Option Nat) (q : List S) (d : D),
    (∀ s ∈ q, ∀ hid d, prep h w r (E.acts s) = .go hid → P d →
      match E.exec s { noop := h.dbNoop, queryOnly := h.queryOnly, vol := v, hidden := hid } d with
      | .ok d' _ _ => P d'
      | .fail _ d' => P d') →
    P d → P (runOnce E h w r v b q d).d
  | _, [], d, _, hd => by simpa [runOnce] using hd
  | b, s :: ss, d, hs, hd => by
    unfold runOnce
    split
    · exact hd
    · split
      · exact hd
      · exact hd
      · rename_i hid hp
        have h1 := hs s (by simp) hid d hp hd
        split
        · rename_i he; rw [he] at h1; exact h1
        · rename_i he; rw [he] at h1
          exact runOnce_data P _ ss _ (fun s' h' => hs s' (by simp [h'])) h1

theorem squery_data {E : Engine D S R} {h : H D S R} {w r : Bool} {v : Nat} (P : D → Prop) {q : List S}
    (hs : ∀ s ∈ q, ∀ hid d, prep h w r (E.acts s) = .go hid → P d →
      match E.exec s { noop := h.dbNoop, queryOnly := h.queryOnly, vol := v, hidden := hid } d with
      | .ok d' _ _ => P d'
      | .fail _ d' => P d') :
    ∀ (n : Nat) (b : List (Option Nat)) (d : D), P d → P (squery E h w r v q n b d).d
  | 0, _, _, hd => by simpa [squery] using hd
  | n + 1, b, d, hd => by
    have h1 := runOnce_data P (b.head?.getD none) q d hs hd
    unfold squery
    simp only
    split
    · exact squery_data P hs n _ _ h1
    · exact h1

/-- Read-only statements leave the data alone. -/
theorem squery_readOnly {E : Engine D S R} (hE : E.Sound) {h : H D S R} {w r : Bool} {v : Nat} {q : List S}
    (hq : ∀ s ∈ q, ReadOnly E s) (n : Nat) (b : List (Option Nat)) (d : D) :
    (squery E h w r v q n b d).d = d := by
  refine squery_data (fun x => x = d) ?_ n b d rfl
  intro s hs hid d1 _ hd
  subst hd
  split
  · rename_i he; exact (hq s hs).same _ _ _ _ _ he
  · rename_i he; exact hE.undo _ _ _ _ _ he

/-- What a walk over stable read-only statements returns depends on the settings and the data only. -/
theorem runOnce_indep {E : Engine D S R} (hE : E.Sound) {h h' : H D S R} (hc : SameConf h h') {w w' r : Bool}
    {v v' : Nat} {b : Option Nat} : ∀ (q : List S) (d : D), (∀ s ∈ q, ReadOnly E s) → (∀ s ∈ q, Stable E s) →
    runOnce E h w r v b q d = runOnce E h' w' r v' b q d := by
  intro q
  induction q generalizing b with
  | nil => intro d _ _; simp [runOnce]
  | cons s ss ih =>
    intro d hr hs
    have hp : prep h w r (E.acts s) = prep h' w' r (E.acts s) := by
      rw [prep_congr hc, prep_writing w w' r _ (hs s (by simp))]
    have hx : ∀ hid, E.exec s { noop := h.dbNoop, queryOnly := h.queryOnly, vol := v, hidden := hid } d
        = E.exec s { noop := h'.dbNoop, queryOnly := h'.queryOnly, vol := v', hidden := hid } d := by
      intro hid
      have h1 := (hr s (by simp)).indep
        { noop := h'.dbNoop, queryOnly := h'.queryOnly, vol := v, hidden := hid } h.dbNoop h.queryOnly d
      have h2 := hE.det s (hs s (by simp))
        { noop := h'.dbNoop, queryOnly := h'.queryOnly, vol := v', hidden := hid } v d
      exact h1.trans h2
    unfold runOnce
    rw [hp]
    split
    · rfl
    · split
      · rfl
      · rfl
      · rw [hx]
        split
        · rfl
        · rw [ih _ (fun s' h' => hr s' (by simp [h'])) (fun s' h' => hs s' (by simp [h']))]

/-- The handle matters for a query only through its settings. -/
theorem runOnce_congr {E : Engine D S R} {h h' : H D S R} (hc : SameConf h h') (hn : h.dbNoop = h'.dbNoop)
    (hq : h.queryOnly = h'.queryOnly) (w r : Bool) (v : Nat) : ∀ (q : List S) (b : Option Nat) (d : D),
    runOnce E h w r v b q d = runOnce E h' w r v b q d
  | [], _, _ => by simp [runOnce]
  | s :: ss, b, d => by
    have ih := runOnce_congr (E := E) hc hn hq w r v ss
    unfold runOnce
    simp only [prep_congr hc, hn, hq, ih]

theorem squery_congr {E : Engine D S R} {h h' : H D S R} (hc : SameConf h h') (hn : h.dbNoop = h'.dbNoop)
    (hq : h.queryOnly = h'.queryOnly) (w r : Bool) (v : Nat) (q : List S) : ∀ (n : Nat) (b : List (Option Nat)) (d : D),
    squery E h w r v q n b d = squery E h' w r v q n b d
  | 0, _, _ => by simp [squery]
  | n + 1, b, d => by
    have ih := squery_congr (E := E) hc hn hq w r v q n
    unfold squery
    simp only [runOnce_congr hc hn hq, ih]

/-- A condition on each operation of a history, in the state in which it is issued. -/
def Along (E : Engine D S R) [DecidableEq S] (P : H D S R → Op S → Prop) : H D S R → List (Op S) → Prop
  | _, [] => True
  | h, o :: os => P h o ∧ Along E P (step E h o).1 os

theorem along_inv {E : Engine D S R} [DecidableEq S] {P : H D S R → Op S → Prop} {I : H D S R → Prop}
    (hstep : ∀ h o, I h → P h o → I (step E h o).1) : ∀ (os : List (Op S)) (h : H D S R), I h → Along E P h os →
    I (run E h os).1
  | [], _, hi, _ => hi
  | o :: os, h, hi, ha => along_inv hstep os _ (hstep h o hi ha.1) ha.2

theorem finishWrite_fields (keep : Bool) (l : Luck) (o : Out D S R) (h : H D S R) :
    (finishWrite keep l o h).1.cache = h.cache ∧ (finishWrite keep l o h).1.data = h.data ∧
    (finishWrite keep l o h).1.base = h.base ∧ (finishWrite keep l o h).1.inside = h.inside ∧
    (finishWrite keep l o h).1.moved = h.moved ∧ (finishWrite keep l o h).1.noop = h.noop ∧
    (finishWrite keep l o h).1.dbNoop = h.dbNoop ∧ (finishWrite keep l o h).1.queryOnly = h.queryOnly ∧
    SameConf (finishWrite keep l o h).1 h := by
  unfold finishWrite
  split
  · exact ⟨rfl, rfl, rfl, rfl, rfl, rfl, rfl, rfl, ⟨rfl, rfl, rfl⟩⟩
  · split
    · exact ⟨rfl, rfl, rfl, rfl, rfl, rfl, rfl, rfl, ⟨rfl, rfl, rfl⟩⟩
    · split <;> exact ⟨rfl, rfl, rfl, rfl, rfl, rfl, rfl, rfl, ⟨rfl, rfl, rfl⟩⟩

/-- What a write leaves alone. -/
theorem writeIdempotent_fields (E : Engine D S R) (keep : Bool) (q : List S) (l : Luck) (h : H D S R) :
    ((writeIdempotent E keep q l h).1.cache = [] ∨ (writeIdempotent E keep q l h).1 = h) ∧
    (writeIdempotent E keep q l h).1.base = h.base ∧ (writeIdempotent E keep q l h).1.inside = h.inside ∧
    (writeIdempotent E keep q l h).1.moved = h.moved ∧ (writeIdempotent E keep q l h).1.noop = h.noop ∧
    (writeIdempotent E keep q l h).1.dbNoop = h.dbNoop ∧ (writeIdempotent E keep q l h).1.queryOnly = h.queryOnly ∧
    SameConf (writeIdempotent E keep q l h).1 h := by
  unfold writeIdempotent
  split
  · exact ⟨Or.inr rfl, rfl, rfl, rfl, rfl, rfl, rfl, ⟨rfl, rfl, rfl⟩⟩
  · split
    · split
      · exact ⟨Or.inl rfl, rfl, rfl, rfl, rfl, rfl, rfl, ⟨rfl, rfl, rfl⟩⟩
      · rename_i o rw' _
        obtain ⟨h1, _, h3, h4, h5, h6, h7, h8, h9⟩ :=
          finishWrite_fields keep l o { h with cache := [], data := o.d, rewritten := rw' }
        exact ⟨Or.inl h1, h3, h4, h5, h6, h7, h8, ⟨h9.authorizer, h9.whitelist, h9.rewrite⟩⟩
    · exact ⟨Or.inl rfl, rfl, rfl, rfl, rfl, rfl, rfl, ⟨rfl, rfl, rfl⟩⟩

theorem write_fields (E : Engine D S R) (k : Kind) (q : List S) (l : Luck) (h : H D S R) :
    ((write E k q l h).1.cache = [] ∨ (write E k q l h).1 = h) ∧
    (write E k q l h).1.base = h.base ∧ (write E k q l h).1.inside = h.inside ∧
    (write E k q l h).1.moved = h.moved ∧ (write E k q l h).1.noop = h.noop ∧
    (write E k q l h).1.dbNoop = h.dbNoop ∧ (write E k q l h).1.queryOnly = h.queryOnly ∧
    SameConf (write E k q l h).1 h := by
  cases k with
  | plain =>
    simp only [write]
    split
    · exact ⟨Or.inr rfl, rfl, rfl, rfl, rfl, rfl, rfl, ⟨rfl, rfl, rfl⟩⟩
    · exact writeIdempotent_fields E false q l h
  | idempotent => exact writeIdempotent_fields E false q l h
  | unmodified => exact writeIdempotent_fields E true q l h

end Bedrock.Handle
