import Verif.Lemmas.Handle

/-! # What is recorded and what a follower makes of it -/

namespace Bedrock.Handle
open Bedrock

variable {D S R : Type}

/-- The statement calls no volatile function but those that are refused in writes. -/
def Written (E : Engine D S R) (s : S) : Prop :=
  ∀ n, Action.function n ∈ E.acts s → n ∈ volatile → n ∈ refusedInWrites

/-- A statement that passed the authorizer of a write calls no refused function. -/
theorem prep_go_refused {h : H D S R} {r : Bool} : ∀ {as : List Action} {hid : List (String × String)},
    prep h true r as = .go hid → ∀ n, Action.function n ∈ as → n ∉ refusedInWrites
  | [], _, _, n, hn => by cases hn
  | a :: as, hid, hp, n, hn => by
    unfold prep at hp
    split at hp
    · cases hp
    · split at hp
      · cases hp
      · rename_i hv
        split at hp
        · rename_i hid' hp'
          rcases List.mem_cons.1 hn with rfl | hn
          · intro hr
            apply hv
            unfold authorize
            have : refusedInWrites.contains n = true := by simpa using hr
            simp only [this, Bool.and_self, if_true]
          · exact prep_go_refused hp' n hn
        · rename_i hno
          exact absurd hp (hno _)

/-- Without a whitelist nothing is hidden. -/
theorem prep_go_hidden {h : H D S R} (hw : h.whitelist = none) {w r : Bool} : ∀ {as : List Action}
    {hid : List (String × String)}, prep h w r as = .go hid → hid = []
  | [], _, hp => by unfold prep at hp; injection hp with hp; exact hp.symm
  | a :: as, hid, hp => by
    unfold prep at hp
    split at hp
    · cases hp
    · have hni : authorize h w a ≠ .ignore := by
        unfold authorize
        rw [hw]
        intro hc
        simp only at hc
        repeat' split at hc
        all_goals cases hc
      split at hp
      · cases hp
      · split at hp
        · rename_i hp'
          have ih := prep_go_hidden hw hp'
          split at hp
          · rename_i hv; exact absurd hv hni
          · injection hp with hp; rw [← hp, ih]
        · rename_i hno
          exact absurd hp (hno _)

/-- On a follower every statement without refused functions passes. -/
theorem prep_follower {d : D} : ∀ {as : List Action}, (∀ n, Action.function n ∈ as → n ∉ refusedInWrites) →
    prep ({ data := d, base := d } : H D S R) true false as = .go []
  | [], _ => rfl
  | a :: as, hr => by
    have ih : prep ({ data := d, base := d } : H D S R) true false as = .go [] :=
      prep_follower fun n hn => hr n (by simp [hn])
    have ha : authorize ({ data := d, base := d } : H D S R) true a = .ok := by
      unfold authorize
      cases a with
      | function n =>
        have : refusedInWrites.contains n = false := by
          cases hc : refusedInWrites.contains n
          · rfl
          · exact absurd (by simpa using hc) (hr n (by simp))
        simp only [this, Bool.and_false]
        rfl
      | _ => rfl
    unfold prep
    rw [ha, ih]
    rfl

/-- A successful walk, replayed on the same data, leads to the same data. -/
theorem runOnce_replay {E : Engine D S R} (hE : E.Sound) {h : H D S R} (hw : h.whitelist = none)
    (hq : h.queryOnly = false) {r : Bool} {v v' : Nat} : ∀ {q : List S} {d : D} (rest : List (Item S)),
    (∀ s ∈ q, Written E s) → (runOnce E h true r v none q d).code = none →
    replay E v' ((runOnce E h true r v none q d).text.map .stmt ++ rest) h.dbNoop d
      = replay E v' rest h.dbNoop (runOnce E h true r v none q d).d
  | [], d, rest, _, _ => by simp [runOnce]
  | s :: ss, d, rest, hs, hc => by
    obtain ⟨_, hid, d', rows, ch, hp, he, hc', heq⟩ := runOnce_go hc
    simp only [Option.map_none] at heq hc'
    have hhid := prep_go_hidden hw hp
    subst hhid
    have href := prep_go_refused hp
    have hst : Stable E s := fun n hn hv => href n hn (hs s (by simp) n hn hv)
    have ih := runOnce_replay hE hw hq (v' := v') rest (fun s' h' => hs s' (by simp [h'])) hc'
    rw [heq]
    simp only [List.map_cons, List.cons_append]
    conv => lhs; unfold replay
    rw [hE.expandActs, prep_follower href, hE.expandExec]
    simp only
    have hd := hE.det s hst { noop := h.dbNoop, queryOnly := false, vol := v, hidden := [] } v' d
    rw [hq] at he
    have hd' : E.exec s { noop := h.dbNoop, queryOnly := false, vol := v', hidden := [] } d = .ok d' rows ch :=
      hd.trans he
    rw [hd']
    exact ih

theorem runOnce_quiet {E : Engine D S R} (hE : E.Sound) {h : H D S R} {w r : Bool} {v : Nat} : ∀ {q : List S} {d : D},
    (runOnce E h w r v none q d).code = none → (runOnce E h w r v none q d).changed = false →
    (runOnce E h w r v none q d).d = d
  | [], d, _, _ => by simp [runOnce]
  | s :: ss, d, hc, hch => by
    obtain ⟨_, hid, d', rows, ch, hp, he, hc', heq⟩ := runOnce_go hc
    simp only [Option.map_none] at heq hc'
    rw [heq] at hch ⊢
    simp only [Bool.or_eq_false_iff] at hch
    obtain ⟨rfl, hch'⟩ := hch
    have h1 := hE.quiet _ _ _ _ _ he
    subst h1
    exact runOnce_quiet hE hc' hch'

/-- A single statement that fails leaves nothing. -/
theorem runOnce_single_fail {E : Engine D S R} (hE : E.Sound) {h : H D S R} {w r : Bool} {v : Nat} {b : Option Nat}
    {q : List S} {d : D} (hl : q.length ≤ 1) (hc : (runOnce E h w r v b q d).code ≠ none) :
    (runOnce E h w r v b q d).d = d ∧ (runOnce E h w r v b q d).changed = false := by
  match q, hl with
  | [], _ => simp [runOnce] at hc
  | [s], _ =>
    unfold runOnce at hc ⊢
    split
    · exact ⟨rfl, rfl⟩
    · rename_i hb
      rw [if_neg hb] at hc
      split
      · exact ⟨rfl, rfl⟩
      · exact ⟨rfl, rfl⟩
      · rename_i hp
        rw [hp] at hc
        simp only at hc
        split
        · rename_i he
          exact ⟨hE.undo _ _ _ _ _ he, rfl⟩
        · rename_i he
          rw [he] at hc
          simp [runOnce] at hc

theorem squery_single {E : Engine D S R} (hE : E.Sound) {h : H D S R} {w r : Bool} {v : Nat} {q : List S}
    (hl : q.length ≤ 1) : ∀ (n : Nat) (b : List (Option Nat)) (d : D),
    ((squery E h w r v q n b d).code ≠ none →
      (squery E h w r v q n b d).d = d ∧ (squery E h w r v q n b d).changed = false) ∧
    ((squery E h w r v q n b d).code = none → squery E h w r v q n b d = runOnce E h w r v none q d)
  | 0, b, d => by simp [squery]
  | n + 1, b, d => by
    have heq : squery E h w r v q (n + 1) b d = squery E h w r v q (n + 1) b d := rfl
    conv at heq => rhs; unfold squery
    simp only at heq
    split at heq
    · rename_i hb
      obtain ⟨h1, h2⟩ := runOnce_single_fail hE hl (b := b.head?.getD none) (h := h) (w := w) (r := r) (v := v) (d := d)
        (by rw [hb.1]; simp)
      rw [h1, h2] at heq
      obtain ⟨h3, h4⟩ := squery_single hE (h := h) (w := w) (r := r) (v := v) hl n b.tail d
      rw [heq]
      simp only [Bool.false_or]
      exact ⟨h3, h4⟩
    · rw [heq]
      exact ⟨fun hc => runOnce_single_fail hE hl hc, fun hc => (runOnce_busy hc).symm⟩

/-- The statements in the text of a query passed the authorizer of a write. -/
theorem runOnce_text {E : Engine D S R} (hE : E.Sound) {h : H D S R} {r : Bool} {v : Nat} : ∀ {b : Option Nat}
    {q : List S} {d : D}, ∀ s ∈ (runOnce E h true r v b q d).text, ∀ n, Action.function n ∈ E.acts s →
    n ∉ refusedInWrites
  | _, [], d, s, hs => by simp [runOnce] at hs
  | b, x :: xs, d, s, hs => by
    unfold runOnce at hs
    split at hs
    · cases hs
    · split at hs
      · cases hs
      · cases hs
      · rename_i hp
        split at hs
        · cases hs
        · rcases List.mem_cons.1 hs with rfl | hs
          · rw [hE.expandActs]; exact prep_go_refused hp
          · exact runOnce_text hE s hs

theorem squery_text {E : Engine D S R} (hE : E.Sound) {h : H D S R} {r : Bool} {v : Nat} {q : List S} :
    ∀ (n : Nat) (b : List (Option Nat)) (d : D), ∀ s ∈ (squery E h true r v q n b d).text, ∀ m,
    Action.function m ∈ E.acts s → m ∉ refusedInWrites
  | 0, _, _, s, hs => by simp [squery] at hs
  | n + 1, b, d, s, hs => by
    unfold squery at hs
    simp only at hs
    split at hs
    · exact squery_text hE n _ _ s hs
    · exact runOnce_text hE s hs

theorem replay_append {E : Engine D S R} {v : Nat} : ∀ (a b : List (Item S)) (n : Bool) (d : D),
    replay E v (a ++ b) n d = (replay E v a n d).bind fun p => replay E v b p.2 p.1
  | [], b, n, d => rfl
  | .noop on :: is, b, n, d => by
    simp only [List.cons_append, replay]
    exact replay_append is b on d
  | .stmt s :: is, b, n, d => by
    simp only [List.cons_append, replay]
    split
    · split
      · exact replay_append is b n _
      · rfl
    · rfl

end Bedrock.Handle
