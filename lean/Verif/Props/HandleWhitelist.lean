import Verif.Lemmas.HandleReplay
import Verif.Props.HandleCache

/-!
# C59: handles with a whitelist
-/

namespace Bedrock.Handle.Props
open Bedrock Bedrock.Handle

variable {D S R V W : Type}

/-- Actions of a statement that only reads. -/
def reading : Action → Bool
  | .select => true
  | .function _ => true
  | .read _ _ => true
  | .pragma n a => lower n == "schema_version" && a.isNone
  | _ => false

/-- Two results that look the same to the caller. -/
def SameAnswer : Res D R → Res D R → Prop
  | .ok _ r ch, .ok _ r' ch' => r = r' ∧ ch = ch'
  | .fail c _, .fail c' _ => c = c'
  | _, _ => False

/-- What is taken from SQLite about reading: a statement that announces only reading actions changes nothing, and what
it returns depends on the columns it announced and that are not replaced by `NULL`, and on the shape of the database
(its tables and their numbers of rows). -/
structure Announces (E : Engine D S R) (col : D → String → String → V) (shape : D → W) : Prop where
  still : ∀ s c d, (E.acts s).all reading = true → match E.exec s c d with
    | .ok d' _ _ => d' = d
    | .fail _ d' => d' = d
  blind : ∀ s c d d', (E.acts s).all reading = true → shape d = shape d' →
    (∀ t x, Action.read t x ∈ E.acts s → (t, x) ∉ c.hidden → col d t x = col d' t x) →
    SameAnswer (E.exec s c d) (E.exec s c d')

/-- The column is on the whitelist. -/
def Listed (w : List (String × List String)) (t x : String) : Prop :=
  ∃ e, w.find? (fun e => e.1 = t) = some e ∧ x ∈ e.2

/-- Databases of the same shape that agree on the listed columns. -/
def Agree (col : D → String → String → V) (shape : D → W) (w : List (String × List String)) (d d' : D) : Prop :=
  shape d = shape d' ∧ ∀ t x, Listed w t x → col d t x = col d' t x

/-- What passes the authorizer under a whitelist only reads, and columns that are not listed are hidden. -/
theorem prep_listed {h : H D S R} {w : List (String × List String)} (hw : h.whitelist = some w) {wr r : Bool} :
    ∀ {as : List Action} {hid : List (String × String)}, prep h wr r as = .go hid →
    as.all reading = true ∧ ∀ t x, Action.read t x ∈ as → (t, x) ∉ hid → Listed w t x
  | [], hid, _ => ⟨rfl, fun t x hm => nomatch hm⟩
  | a :: as, hid, hp => by
    unfold prep at hp
    split at hp
    · cases hp
    · have hv : authorize h wr a = .deny ∨ authorize h wr a = whitelisted w a := by
        unfold authorize
        rw [hw]
        simp only
        repeat' split
        all_goals first | exact .inl rfl | exact .inr rfl
      split at hp
      · cases hp
      · rename_i hnd
        have hv' : authorize h wr a = whitelisted w a := by
          rcases hv with hv | hv
          · exact absurd hv hnd
          · exact hv
        split at hp
        · rename_i hid' hp'
          obtain ⟨ih1, ih2⟩ := prep_listed hw hp'
          have hra : reading a = true := by
            rw [hv'] at hnd
            cases a with
            | pragma n x =>
              simp only [whitelisted] at hnd
              split at hnd
              · rename_i hc; simp [reading, hc.1, hc.2]
              · exact absurd rfl hnd
            | select => rfl
            | function n => rfl
            | read t c => rfl
            | _ => exact absurd rfl hnd
          refine ⟨by simp [hra, ih1], ?_⟩
          intro t x hm hnot
          split at hp
          · rename_i t' c' hig
            injection hp with hp
            subst hp
            rcases List.mem_cons.1 hm with heq | hm
            · injection heq with h1 h2
              subst h1; subst h2
              exact absurd (by simp) hnot
            · exact ih2 t x hm (fun hc => hnot (by simp [hc]))
          · rename_i hni
            injection hp with hp
            subst hp
            rcases List.mem_cons.1 hm with heq | hm
            · subst heq
              rw [hv'] at hni hnd
              unfold Listed
              simp only [whitelisted] at hni hnd
              split at hni
              · rename_i e he
                refine ⟨e, he, ?_⟩
                split at hni
                · rename_i hcon; simpa using hcon
                · exact absurd rfl (hni t x rfl)
              · exact absurd rfl (hni t x rfl)
            · exact ih2 t x hm hnot
        · rename_i hno
          exact absurd hp (hno _)

/-! ## Nothing is changed -/

theorem runOnce_still {E : Engine D S R} {col : D → String → String → V} {shape : D → W} (hA : Announces E col shape)
    {h : H D S R} {w : List (String × List String)} (hw : h.whitelist = some w) {wr r : Bool} {v : Nat}
    (b : Option Nat) (q : List S) (d : D) : (runOnce E h wr r v b q d).d = d := by
  refine runOnce_data (fun x => x = d) b q d ?_ rfl
  intro s _ hid d1 hp hd
  have := hA.still s { noop := h.dbNoop, queryOnly := h.queryOnly, vol := v, hidden := hid } d1 (prep_listed hw hp).1
  subst hd
  split
  · rename_i he; rw [he] at this; exact this
  · rename_i he; rw [he] at this; exact this

theorem squery_still {E : Engine D S R} {col : D → String → String → V} {shape : D → W} (hA : Announces E col shape)
    {h : H D S R} {w : List (String × List String)} (hw : h.whitelist = some w) {wr r : Bool} {v : Nat} (q : List S)
    (n : Nat) (b : List (Option Nat)) (d : D) : (squery E h wr r v q n b d).d = d := by
  refine squery_data (fun x => x = d) ?_ n b d rfl
  intro s _ hid d1 hp hd
  have := hA.still s { noop := h.dbNoop, queryOnly := h.queryOnly, vol := v, hidden := hid } d1 (prep_listed hw hp).1
  subst hd
  split
  · rename_i he; rw [he] at this; exact this
  · rename_i he; rw [he] at this; exact this

/-- The same walk over two databases that agree on what is listed. -/
theorem runOnce_twin {E : Engine D S R} {col : D → String → String → V} {shape : D → W} (hA : Announces E col shape)
    {h : H D S R} {w : List (String × List String)} (hw : h.whitelist = some w) {wr r : Bool} {v : Nat} {d d' : D}
    (hd : Agree col shape w d d') : ∀ (q : List S) (b : Option Nat),
    runOnce E h wr r v b q d' = { runOnce E h wr r v b q d with d := d' }
  | [], _ => by simp [runOnce]
  | s :: ss, b => by
    have hs := fun x => runOnce_still hA hw (wr := wr) (r := r) (v := v) (b.map (· - 1)) ss x
    unfold runOnce
    split
    · rfl
    · cases hp : prep h wr r (E.acts s) with
      | denied => rfl
      | rewrite q => rfl
      | go hid =>
        simp only
        obtain ⟨hr, hl⟩ := prep_listed hw hp
        have h1 := hA.still s { noop := h.dbNoop, queryOnly := h.queryOnly, vol := v, hidden := hid } d hr
        have h2 := hA.still s { noop := h.dbNoop, queryOnly := h.queryOnly, vol := v, hidden := hid } d' hr
        have h3 := hA.blind s { noop := h.dbNoop, queryOnly := h.queryOnly, vol := v, hidden := hid } d d' hr hd.1
          (fun t x hm hn => hd.2 t x (hl t x hm hn))
        revert h1 h2 h3
        cases E.exec s { noop := h.dbNoop, queryOnly := h.queryOnly, vol := v, hidden := hid } d with
        | fail c x =>
          cases E.exec s { noop := h.dbNoop, queryOnly := h.queryOnly, vol := v, hidden := hid } d' with
          | fail c' x' =>
            intro h1 h2 h3
            simp only [SameAnswer] at h1 h2 h3
            simp only
            rw [h3, h2]
          | ok x' y z => intro _ _ h3; exact absurd h3 id
        | ok x y z =>
          cases E.exec s { noop := h.dbNoop, queryOnly := h.queryOnly, vol := v, hidden := hid } d' with
          | fail c' x' => intro _ _ h3; exact absurd h3 id
          | ok x' y' z' =>
            intro h1 h2 h3
            simp only [SameAnswer] at h1 h2 h3
            simp only
            rw [h1, h2, h3.1, h3.2, runOnce_twin hA hw hd ss (b.map (· - 1))]

theorem squery_twin {E : Engine D S R} {col : D → String → String → V} {shape : D → W} (hA : Announces E col shape)
    {h : H D S R} {w : List (String × List String)} (hw : h.whitelist = some w) {wr r : Bool} {v : Nat} {d d' : D}
    (hd : Agree col shape w d d') (q : List S) : ∀ (n : Nat) (b : List (Option Nat)),
    squery E h wr r v q n b d' = { squery E h wr r v q n b d with d := d' }
  | 0, _ => by simp [squery]
  | n + 1, b => by
    unfold squery
    rw [runOnce_twin hA hw hd]
    simp only [runOnce_still hA hw]
    split
    · rw [squery_twin hA hw hd q n b.tail]
    · rfl

theorem writeQuery_still {E : Engine D S R} {col : D → String → String → V} {shape : D → W} (hA : Announces E col shape)
    {h : H D S R} {w : List (String × List String)} (hw : h.whitelist = some w) {q : List S} {l : Luck}
    {o : Out D S R} {rw' : List S} (ho : writeQuery E q l h = some (o, rw')) : o.d = h.data := by
  unfold writeQuery at ho
  simp only at ho
  split at ho
  · split at ho
    · cases ho
    · injection ho with ho
      injection ho with ho _
      rw [← ho]
      simp only [squery_still hA hw]
  · injection ho with ho
    injection ho with ho _
    rw [← ho]
    exact squery_still hA hw _ _ _ _

theorem writeQuery_twin {E : Engine D S R} {col : D → String → String → V} {shape : D → W} (hA : Announces E col shape)
    {h : H D S R} {w : List (String × List String)} (hw : h.whitelist = some w) {q : List S} {l : Luck} {d' b' : D}
    (hd : Agree col shape w h.data d') :
    writeQuery E q l { h with data := d', base := b' }
      = (writeQuery E q l h).map fun p => ({ p.1 with d := d' }, p.2) := by
  have hc := fun wr r x d => squery_congr (E := E) (h := { h with data := d', base := b' }) (h' := h)
    ⟨rfl, rfl, rfl⟩ rfl rfl wr r l.vol x 3 l.busy d
  have hc2 := fun wr r x d => squery_congr (E := E) (h := { h with data := d', base := b' }) (h' := h)
    ⟨rfl, rfl, rfl⟩ rfl rfl wr r l.vol x 3 [] d
  unfold writeQuery
  simp only [hc, hc2, squery_twin hA hw hd, squery_still hA hw]
  split
  · split
    · rfl
    · rfl
  · rfl

theorem writeIdempotent_twin {E : Engine D S R} {col : D → String → String → V} {shape : D → W}
    (hA : Announces E col shape) {h : H D S R} {w : List (String × List String)} (hw : h.whitelist = some w)
    {keep : Bool} {q : List S} {l : Luck} {d' b' : D} (hd : Agree col shape w h.data d') :
    (writeIdempotent E keep q l h).1.data = h.data ∧
    writeIdempotent E keep q l { h with data := d', base := b' }
      = ({ (writeIdempotent E keep q l h).1 with data := d', base := b' }, (writeIdempotent E keep q l h).2) := by
  have hpc := prep_congr (h := { h with data := d', base := b' }) (h' := h) ⟨rfl, rfl, rfl⟩ h.writing false
    [.pragma "schema_version" none]
  unfold writeIdempotent
  simp only [hpc, writeQuery_twin hA hw hd]
  split
  · exact ⟨rfl, rfl⟩
  · split
    · cases ho : writeQuery E q l h with
      | none => exact ⟨rfl, rfl⟩
      | some p =>
        obtain ⟨o, rw'⟩ := p
        have hs := writeQuery_still hA hw ho
        simp only [Option.map_some]
        unfold finishWrite
        simp only [hs]
        split
        · exact ⟨rfl, rfl⟩
        · split
          · exact ⟨rfl, rfl⟩
          · split
            · exact ⟨rfl, rfl⟩
            · exact ⟨rfl, rfl⟩
    · exact ⟨rfl, rfl⟩

theorem write_twin {E : Engine D S R} {col : D → String → String → V} {shape : D → W}
    (hA : Announces E col shape) {h : H D S R} {w : List (String × List String)} (hw : h.whitelist = some w)
    {k : Kind} {q : List S} {l : Luck} {d' b' : D} (hd : Agree col shape w h.data d') :
    (write E k q l h).1.data = h.data ∧
    write E k q l { h with data := d', base := b' }
      = ({ (write E k q l h).1 with data := d', base := b' }, (write E k q l h).2) := by
  have key := fun keep => writeIdempotent_twin hA hw (keep := keep) (q := q) (l := l) (b' := b') hd
  cases k <;> simp only [write]
  · split
    · exact ⟨rfl, rfl⟩
    · exact key false
  · exact key false
  · exact key true

theorem read_twin {E : Engine D S R} [DecidableEq S] {col : D → String → String → V} {shape : D → W}
    (hA : Announces E col shape) {h : H D S R} {w : List (String × List String)} (hw : h.whitelist = some w)
    {q : List S} {l : Luck} {d' b' : D} (hd : Agree col shape w h.data d') :
    (read E q l h).1.data = h.data ∧ ((read E q l h).1.base = h.base ∨ (read E q l h).1.base = h.data) ∧
    (read E q l h).1.whitelist = h.whitelist ∧
    ∃ y, ((read E q l h).1.base = h.base ∧ y = b' ∨ (read E q l h).1.base = h.data ∧ y = d') ∧
      read E q l { h with data := d', base := b' } = ({ (read E q l h).1 with data := d', base := y }, (read E q l h).2) := by
  have hc := fun d => squery_congr (E := E) (h := { h with data := d', base := b' }) (h' := h)
    ⟨rfl, rfl, rfl⟩ rfl rfl h.writing false l.vol q 3 l.busy d
  cases hf : h.cache.find? (fun e => e.1 = q) with
  | some e =>
    rw [read_hit hf, read_hit (h := { h with data := d', base := b' }) hf]
    exact ⟨rfl, .inl rfl, rfl, b', .inl ⟨rfl, rfl⟩, rfl⟩
  | none =>
    unfold Handle.read
    simp only [hf, hc, squery_twin hA hw hd, squery_still hA hw]
    cases hin : h.inside with
    | true =>
      simp only [if_true]
      split
      · split
        · exact ⟨rfl, .inl rfl, rfl, b', .inl ⟨rfl, rfl⟩, rfl⟩
        · exact ⟨rfl, .inl rfl, rfl, b', .inl ⟨rfl, rfl⟩, rfl⟩
      · exact ⟨rfl, .inl rfl, rfl, b', .inl ⟨rfl, rfl⟩, rfl⟩
    | false =>
      simp only [Bool.and_false, Bool.false_eq_true, if_false]
      split
      · exact ⟨rfl, .inr rfl, rfl, d', .inr ⟨rfl, rfl⟩, rfl⟩
      · exact ⟨rfl, .inr rfl, rfl, d', .inr ⟨rfl, rfl⟩, rfl⟩

/-- The whitelist stays, and nobody else writes. -/
def Restricted : Op S → Prop
  | .setWhitelist _ => False
  | .external _ => False
  | _ => True

theorem step_twin {E : Engine D S R} [DecidableEq S] {col : D → String → String → V} {shape : D → W}
    (hA : Announces E col shape) {h : H D S R} {w : List (String × List String)} (hw : h.whitelist = some w)
    {d' b' : D} (hd : Agree col shape w h.data d') (hb : Agree col shape w h.base b') (o : Op S) (ho : Restricted o) :
    (step E h o).1.whitelist = some w ∧
    ((step E h o).1.data = h.data ∨ (step E h o).1.data = h.base) ∧
    ((step E h o).1.base = h.data ∨ (step E h o).1.base = h.base) ∧
    ∃ x y, Agree col shape w (step E h o).1.data x ∧ Agree col shape w (step E h o).1.base y ∧
      step E { h with data := d', base := b' } o = ({ (step E h o).1 with data := x, base := y }, (step E h o).2) := by
  cases o with
  | begin =>
    simp only [step]
    split
    · exact ⟨hw, .inr rfl, .inr rfl, b', b', hb, hb, rfl⟩
    · exact ⟨hw, .inr rfl, .inr rfl, b', b', hb, hb, rfl⟩
  | read q l =>
    obtain ⟨h1, h2, h3, y, h4, h5⟩ := read_twin hA hw (q := q) (l := l) (b' := b') hd
    simp only [step]
    refine ⟨h3.trans hw, .inl h1, h2.symm, d', y, ?_, ?_, h5⟩
    · rw [h1]; exact hd
    · rcases h4 with ⟨h4, rfl⟩ | ⟨h4, rfl⟩
      · rw [h4]; exact hb
      · rw [h4]; exact hd
  | write k q l =>
    obtain ⟨h1, h5⟩ := write_twin hA hw (k := k) (q := q) (l := l) (b' := b') hd
    have hf := write_fields E k q l h
    simp only [step]
    refine ⟨?_, .inl h1, .inr hf.2.1, d', b', ?_, ?_, h5⟩
    · exact hf.2.2.2.2.2.2.2.whitelist.trans hw
    · rw [h1]; exact hd
    · rw [hf.2.1]; exact hb
  | setNoop on =>
    have hpc := fun a => prep_congr (h := { h with data := d', base := b' }) (h' := h) ⟨rfl, rfl, rfl⟩ h.writing false a
    simp only [step, setNoop, pragmaAllowed, hpc]
    split
    · exact ⟨hw, .inl rfl, .inr rfl, d', b', hd, hb, rfl⟩
    · exact ⟨hw, .inl rfl, .inr rfl, d', b', hd, hb, rfl⟩
  | setQueryOnly on =>
    have hpc : pragmaAllowed { h with data := d', base := b' } "query_only" (if on then "true" else "false")
        = pragmaAllowed h "query_only" (if on then "true" else "false") := by
      unfold pragmaAllowed
      rw [prep_congr (h := { h with data := d', base := b' }) (h' := h) ⟨rfl, rfl, rfl⟩]
    simp only [step]
    unfold setQueryOnly
    rw [hpc]
    generalize pragmaAllowed h "query_only" _ = p
    cases p
    · exact ⟨hw, .inl rfl, .inr rfl, d', b', hd, hb, rfl⟩
    · exact ⟨hw, .inl rfl, .inr rfl, d', b', hd, hb, rfl⟩
  | setWhitelist w => exact absurd ho id
  | setAuthorizer f => exact ⟨hw, .inl rfl, .inr rfl, d', b', hd, hb, rfl⟩
  | setRewrite f => exact ⟨hw, .inl rfl, .inr rfl, d', b', hd, hb, rfl⟩
  | rollback => exact ⟨hw, .inr rfl, .inr rfl, b', b', hb, hb, rfl⟩
  | commit =>
    simp only [step]
    split
    · exact ⟨hw, .inl rfl, .inr rfl, d', b', hd, hb, rfl⟩
    · split
      · exact ⟨hw, .inl rfl, .inr rfl, d', b', hd, hb, rfl⟩
      · exact ⟨hw, .inl rfl, .inl rfl, d', d', hd, hd, rfl⟩
  | external text => exact absurd ho id

/-! ## C59 -/

/-- C59: while a whitelist is in force no call changes the database, whatever is read, written or rewritten, in or out
of transactions, with any authorizer. -/
theorem c59_no_change {E : Engine D S R} [DecidableEq S] {col : D → String → String → V} {shape : D → W}
    (hA : Announces E col shape) (w : List (String × List String)) : ∀ (ops : List (Op S)) (h : H D S R) (d : D),
    h.whitelist = some w → h.data = d → h.base = d → (∀ o ∈ ops, Restricted o) →
    (run E h ops).1.data = d ∧ (run E h ops).1.base = d
  | [], h, d, _, h1, h2, _ => ⟨h1, h2⟩
  | o :: os, h, d, hw, h1, h2, ho => by
    obtain ⟨a1, a2, a3, _⟩ := step_twin hA hw (d' := h.data) (b' := h.base) ⟨rfl, fun _ _ _ => rfl⟩
      ⟨rfl, fun _ _ _ => rfl⟩ o (ho o (by simp))
    refine c59_no_change hA w os (step E h o).1 d a1 ?_ ?_ (fun o' h' => ho o' (by simp [h']))
    · rcases a2 with a2 | a2 <;> rw [a2] <;> assumption
    · rcases a3 with a3 | a3 <;> rw [a3] <;> assumption

/-- C59: what the caller is told under a whitelist depends only on the listed columns and on the shape of the database:
on two databases that agree on these, every history of calls gets the same answers.  Partial: the numbers of rows are
part of the shape, so they are not protected (a hidden column reads as `NULL`, and `COUNT(*)` counts); and the cache
must not hold results from before (`c59_cache_leak`). -/
theorem c59_only_listed_partial {E : Engine D S R} [DecidableEq S] {col : D → String → String → V} {shape : D → W}
    (hA : Announces E col shape) (w : List (String × List String)) (ops : List (Op S)) (d d' : D)
    (hd : Agree col shape w d d') (ho : ∀ o ∈ ops, Restricted o) :
    (run E { fresh d with whitelist := some w } ops).2 = (run E { fresh d' with whitelist := some w } ops).2 := by
  have gen : ∀ (ops : List (Op S)) (h : H D S R) (d' b' : D), h.whitelist = some w → Agree col shape w h.data d' →
      Agree col shape w h.base b' → (∀ o ∈ ops, Restricted o) →
      (run E h ops).2 = (run E { h with data := d', base := b' } ops).2 := by
    intro ops
    induction ops with
    | nil => intros; rfl
    | cons o os ih =>
      intro h d' b' hw hd hb ho
      obtain ⟨a1, _, _, x, y, a4, a5, a6⟩ := step_twin hA hw hd hb o (ho o (by simp))
      show (step E h o).2 :: (run E (step E h o).1 os).2
        = (step E { h with data := d', base := b' } o).2 :: (run E (step E { h with data := d', base := b' } o).1 os).2
      rw [a6]
      simp only
      rw [ih (step E h o).1 x y a1 a4 a5 (fun o' h' => ho o' (by simp [h']))]
  exact gen ops { fresh d with whitelist := some w } d' d' rfl hd hd ho

/-- C59: under a whitelist a statement that writes, changes the schema or attaches a database is refused. -/
theorem c59_refused {E : Engine D S R} [DecidableEq S] (h : H D S R) (w : List (String × List String))
    (hw : h.whitelist = some w) (hr : h.rewrite = none) (k : Kind) (s : S) (l : Luck)
    (hs : ∃ a ∈ E.acts s, reading a = false) :
    (k = .plain ∧ h.noop = true ∨ ∀ rows, (step E h (.write k [s] l)).2 ≠ .ok rows) ∧
    (h.cache = [] → ∀ rows, (step E h (.read [s] l)).2 ≠ .ok rows) := by
  have hno : ∀ wr v b n, (squery E h wr false v [s] n b h.data).code ≠ none := by
    intro wr v b n hc
    obtain ⟨d1, h1, _⟩ := squery_ok hc
    obtain ⟨_, hid, _, _, _, hp, _⟩ := runOnce_go h1
    obtain ⟨a, ha, hra⟩ := hs
    have := List.all_eq_true.1 (prep_listed hw hp).1 a ha
    rw [hra] at this
    cases this
  constructor
  · have key : ∀ keep rows, (writeIdempotent E keep [s] l h).2 ≠ .ok rows := by
      intro keep rows
      unfold writeIdempotent writeQuery
      simp only [hr, Option.isSome_none, Bool.false_eq_true, false_and, if_false]
      split
      · simp
      · split
        · unfold finishWrite
          split
          · simp
          · split
            · simp
            · split
              · simp
              · rename_i hc; exact absurd hc (hno _ _ _ _)
        · simp
    cases k with
    | plain =>
      cases hn : h.noop with
      | true => exact .inl ⟨rfl, rfl⟩
      | false =>
        right
        simp only [step, write, hn, Bool.false_eq_true, if_false]
        exact key false
    | idempotent => right; exact key false
    | unmodified => right; exact key true
  · intro hc rows
    simp only [step]
    unfold Handle.read
    simp only [hc, List.find?_nil]
    split
    · rename_i hcode; exact absurd hcode (hno _ _ _ _)
    · cases l.interrupted <;> simp

/-! ## Cases -/

def toyCol (d : TD) (t x : String) : Nat :=
  if t = "t" then if x = "a" then d.a else if x = "b" then d.b else 0 else 0

theorem toy_announces : Announces toy toyCol (fun _ => ()) := by
  refine ⟨?_, ?_⟩
  · intro s c d hs
    cases s <;> first | rfl | exact absurd hs (by decide +kernel)
  · intro s c d d' hs _ hc
    cases s <;> first | exact ⟨rfl, rfl⟩ | exact absurd hs (by decide +kernel) | rfl | skip
    · simp only [toy, SameAnswer, and_true]
      split
      · rfl
      · rename_i hn
        exact hc "t" "a" (by simp [toy]) hn
    · simp only [toy, SameAnswer, and_true]
      split
      · rfl
      · rename_i hn
        exact hc "t" "b" (by simp [toy]) hn

/-- With only column `a` listed, `b` reads as `NULL` (0 here) and writes are refused. -/
example : (run toy { fresh ⟨5, 7⟩ with whitelist := some [("t", ["a"])] }
    [.begin, .read [.getA] {}, .read [.getB] {}, .write .plain [.incA] {}, .commit]).2
    = [.ok [], .ok [5], .ok [0], .failed, .committed []] := by decide +kernel

example : Agree toyCol (fun _ => ()) [("t", ["a"])] ⟨5, 7⟩ ⟨5, 8⟩ := by
  refine ⟨rfl, ?_⟩
  rintro t x ⟨e, he, hx⟩
  simp only [List.find?_cons] at he
  split at he
  · injection he with he
    subst he
    rename_i ht
    simp only [decide_eq_true_eq] at ht
    simp only [List.mem_singleton] at hx
    subst ht; subst hx
    rfl
  · simp at he

/-- A result that was cached before the whitelist was set is still served. -/
theorem c59_cache_leak :
    (run toy (fresh ⟨5, 7⟩) [.begin, .read [.getB] {}, .setWhitelist (some [("t", ["a"])]), .read [.getB] {}]).2
      = [.ok [], .ok [7], .ok [], .ok [7]] ∧
    (run toy (fresh ⟨5, 7⟩) [.begin, .setWhitelist (some [("t", ["a"])]), .read [.getB] {}]).2
      = [.ok [], .ok [], .ok [0]] := by
  decide +kernel

/-- Leaving and entering `query_only` is refused without notice under a whitelist: a handle made read-only before it
stays so, and one not yet read-only does not become so. -/
theorem c59_query_only_stays :
    (run toy (fresh ⟨5, 7⟩) [.setWhitelist (some [("t", ["a"])]), .setQueryOnly true, .setWhitelist none, .begin,
      .write .plain [.incA] {}]).2 = [.ok [], .ok [], .ok [], .ok [], .ok [0]] := by
  decide +kernel

end Bedrock.Handle.Props
