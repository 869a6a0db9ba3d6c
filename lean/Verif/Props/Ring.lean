import Verif.Lemmas.Ring

/-!
# Properties of the ring buffer: C35
-/

namespace Bedrock.Ring.Props
open Bedrock.Ring

variable {T : Type}

/-- The items accepted during an execution, in the order in which their slots were claimed: the
values of the exchanges that took effect, and the shutdown marker (`none`). -/
def accepted (C : Nat) (s : Ring T) : List (Step T) → List (Option T)
  | [] => []
  | e :: es =>
    match step C s e with
    | none => []
    | some s' =>
      (match e with
        | .exchange p _ _ =>
          match s.producers p, s'.producers p with
          | .checked _ v, .claimed _ _ => [some v]
          | _, _ => []
        | .close _ => [none]
        | _ => []) ++ accepted C s' es

/-- What `pop` returned during an execution. -/
def popped (C : Nat) (s : Ring T) : List (Step T) → List (Option T)
  | [] => []
  | e :: es =>
    match step C s e with
    | none => []
    | some s' =>
      (match e, s.consumer with
        | .advance, .emptied v => [v]
        | _, _ => []) ++ popped C s' es

theorem accepted_claims (C : Nat) (es : List (Step T)) (s s' : Ring T) (h : run C s es = some s') :
    s'.claims = s.claims ++ accepted C s es := by
  induction es generalizing s with
  | nil => simp only [run, Option.some.injEq] at h; subst h; simp [accepted]
  | cons e es ih =>
    simp only [run] at h
    cases hs : step C s e with
    | none => rw [hs] at h; cases h
    | some s1 =>
      rw [hs] at h
      rw [ih s1 h]
      simp only [accepted, hs]
      rw [← List.append_assoc]
      congr 1
      cases e with
      | exchange p sp w =>
        simp only [step] at hs
        cases hp : s.producers p with
        | checked w0 v =>
          rw [hp] at hs
          simp only at hs
          split at hs
          · injection hs with hs; subst hs; simp [upd_self, hp]
          · split at hs
            · injection hs with hs; subst hs; simp [upd_self, hp]
            · cases hs
        | _ => rw [hp] at hs; cases hs
      | close p =>
        simp only [step] at hs
        cases hp : s.producers p with
        | idle =>
          rw [hp] at hs
          simp only at hs
          split at hs
          · cases hs
          · injection hs with hs; subst hs; rfl
        | _ => rw [hp] at hs; cases hs
      | _ =>
        simp only [step] at hs
        repeat' split at hs
        all_goals first
          | (cases hs; done)
          | (injection hs with hs; subst hs; simp)

theorem popped_delivered (C : Nat) (es : List (Step T)) (s s' : Ring T) (h : run C s es = some s') :
    s'.delivered = s.delivered ++ popped C s es := by
  induction es generalizing s with
  | nil => simp only [run, Option.some.injEq] at h; subst h; simp [popped]
  | cons e es ih =>
    simp only [run] at h
    cases hs : step C s e with
    | none => rw [hs] at h; cases h
    | some s1 =>
      rw [hs] at h
      rw [ih s1 h]
      simp only [popped, hs]
      rw [← List.append_assoc]
      congr 1
      cases e with
      | advance =>
        simp only [step] at hs
        cases hc : s.consumer with
        | emptied v =>
          rw [hc] at hs
          simp only at hs
          injection hs with hs; subst hs; rfl
        | _ => rw [hc] at hs; cases hs
      | _ =>
        simp only [step] at hs
        repeat' split at hs
        all_goals first
          | (cases hs; done)
          | (injection hs with hs; subst hs; simp)

/-- C35.  Under every interleaving of any number of producers with the consumer, what has been
popped is a prefix of what has been accepted, in the order the slots were claimed: every item is
delivered at most once, none is skipped, none is invented. -/
theorem c35_in_order (C : Nat) (es : List (Step T)) (s : Ring T) (h : run C (init T) es = some s) :
    popped C (init T) es <+: accepted C (init T) es := by
  have hinv := (Inv.init C).run es h
  have h1 := accepted_claims C es _ _ h
  have h2 := popped_delivered C es _ _ h
  have h3 := hinv.del
  rw [h1, h2] at h3
  simp only [init, List.nil_append] at h3
  rw [show popped C (init T) es = _ from h3]
  exact List.take_prefix _ _

/-- C35.  Nothing accepted is lost: once no producer is in the middle of a call, popping (while no
producer interferes) delivers every accepted item. -/
theorem c35_all_delivered (C : Nat) (es : List (Step T)) (s : Ring T) (h : run C (init T) es = some s)
    (hp : ∀ p, s.producers p = .idle) (hc : s.consumer = .idle) :
    ∃ es' s', run C (init T) (es ++ es') = some s' ∧ accepted C (init T) (es ++ es') = accepted C (init T) es ∧
      popped C (init T) (es ++ es') = accepted C (init T) es := by
  have hinv := (Inv.init C).run es h
  -- drain the ring
  have key : ∀ n (s : Ring T), Inv C s → (∀ p, s.producers p = .idle) → s.consumer = .idle →
      s.writeIndex - s.readIndex = n →
      ∃ es' s', run C s es' = some s' ∧ s'.claims = s.claims ∧ s'.delivered = s.claims := by
    intro n
    induction n with
    | zero =>
      intro s hi _ _ hn
      refine ⟨[], s, rfl, rfl, ?_⟩
      have := hi.le
      rw [hi.del, List.take_of_length_le (by rw [hi.len]; omega)]
    | succ n ih =>
      intro s hi hp hc hn
      have hno : ∀ p, ¬ owns (s.producers p) s.readIndex := by
        intro p ho; rw [hp p] at ho; exact ho
      rcases hi.cover s.readIndex (Nat.le_refl _) (by omega) hno with hf | hf
      · have hrun : ∃ st, ∃ s1, run C s st = some s1 ∧ s1.claims = s.claims ∧ s1.producers = s.producers ∧
            s1.consumer = .idle ∧ s1.writeIndex = s.writeIndex ∧ s1.readIndex = s.readIndex + 1 := by
          rcases hf with ⟨a, v, b, c⟩ | ⟨a, b⟩
          · refine ⟨[.look false, .move, .release, .advance], ?_⟩
            simp [run, step, hc, a]
          · refine ⟨[.look false, .release, .advance], ?_⟩
            simp [run, step, hc, a]
        obtain ⟨st, s1, e0, e1, e2, e3, e4, e5⟩ := hrun
        obtain ⟨es', s', r1, r2, r3⟩ := ih s1 (hi.run st e0) (by rw [e2]; exact hp) e3 (by rw [e4, e5]; omega)
        refine ⟨st ++ es', s', ?_, by rw [r2, e1], by rw [r3, e1]⟩
        have happ : ∀ (a b : List (Step T)) (x y : Ring T), run C x a = some y → run C x (a ++ b) = run C y b := by
          intro a
          induction a with
          | nil => intro b x y hxy; simp only [run, Option.some.injEq] at hxy; subst hxy; rfl
          | cons e a iha =>
            intro b x y hxy
            simp only [run, List.cons_append] at hxy ⊢
            cases hx : step C x e with
            | none => rw [hx] at hxy; cases hxy
            | some x1 => rw [hx] at hxy; exact iha b x1 y hxy
        rw [happ st es' s s1 e0]; exact r1
      · rw [hc] at hf; exact hf.2.elim
  obtain ⟨es', s', r1, r2, r3⟩ := key _ s hinv hp hc rfl
  have happ : ∀ (a b : List (Step T)) (x y : Ring T), run C x a = some y → run C x (a ++ b) = run C y b := by
    intro a
    induction a with
    | nil => intro b x y hxy; simp only [run, Option.some.injEq] at hxy; subst hxy; rfl
    | cons e a iha =>
      intro b x y hxy
      simp only [run, List.cons_append] at hxy ⊢
      cases hx : step C x e with
      | none => rw [hx] at hxy; cases hxy
      | some x1 => rw [hx] at hxy; exact iha b x1 y hxy
  have hrun := happ es es' _ _ h
  rw [r1] at hrun
  have a1 := accepted_claims C _ _ _ hrun
  have a2 := accepted_claims C _ _ _ h
  have a3 := popped_delivered C _ _ _ hrun
  simp only [init, List.nil_append] at a1 a2 a3
  refine ⟨es', s', hrun, ?_, ?_⟩
  · exact a1.symm.trans (r2.trans a2)
  · exact a3.symm.trans (r3.trans a2)

/-- C35.  No slot is overwritten before it has been consumed: a producer that is about to write has
an empty slot that no other thread and no undelivered item uses. -/
theorem c35_no_overwrite (C : Nat) (es : List (Step T)) (s : Ring T) (h : run C (init T) es = some s)
    (p w : Nat) (hp : (∃ v, s.producers p = .claimed w v ∨ s.producers p = .stored w v) ∨ s.producers p = .closing w) :
    (s.slots (at_ C w)).state = .empty ∧ s.readIndex ≤ w ∧
    (∀ q, q ≠ p → ∀ w', (∃ v, s.producers q = .claimed w' v ∨ s.producers q = .stored w' v) ∨
      s.producers q = .closing w' → at_ C w' ≠ at_ C w) ∧
    (∀ i, s.readIndex ≤ i → i < s.writeIndex → i ≠ w → at_ C i ≠ at_ C w) := by
  have hinv := (Inv.init C).run es h
  have hown : ∀ q w, (∃ v, s.producers q = .claimed w v ∨ s.producers q = .stored w v) ∨
      s.producers q = .closing w → owns (s.producers q) w := by
    rintro q w (⟨v, e | e⟩ | e) <;> rw [e] <;> rfl
  have ho := hown p w hp
  have hr := hinv.owner_range ho
  have hroom := hinv.room'
  have hdisj : ∀ i, s.readIndex ≤ i → i < s.writeIndex → i ≠ w → at_ C i ≠ at_ C w := by
    intro i h1 h2 hne e
    exact hne (at_inj h1 (by omega) hr.1 (by omega) e)
  refine ⟨?_, hr.1, ?_, hdisj⟩
  · have hprod := hinv.prod p
    rcases hp with ⟨v, e | e⟩ | e <;> rw [e] at hprod
    · exact hprod.2.2.2
    · exact hprod.2.2.2.1
    · exact hprod.2.2.2
  · intro q hq w' hw'
    have ho' := hown q w' hw'
    have hr' := hinv.owner_range ho'
    apply hdisj w' hr'.1 hr'.2
    intro e
    subst e
    exact hq (hinv.uniq q p _ ho' ho)

/-- C35.  At most `C` items and the shutdown marker are accepted and not yet delivered. -/
theorem c35_bounded (C : Nat) (es : List (Step T)) (s : Ring T) (h : run C (init T) es = some s) :
    (accepted C (init T) es).length ≤ (popped C (init T) es).length + C + 1 := by
  have hinv := (Inv.init C).run es h
  have h1 := accepted_claims C es _ _ h
  have h2 := popped_delivered C es _ _ h
  simp only [init, List.nil_append] at h1 h2
  have e1 : (accepted C (init T) es).length = s.writeIndex := by rw [← hinv.len, h1]; rfl
  have e2 : (popped C (init T) es).length = s.readIndex := by
    have h3 := hinv.del
    have : s.delivered.length = s.readIndex := by
      rw [h3, List.length_take, hinv.len]; have := hinv.le; omega
    rw [← this, h2]; rfl
  have := hinv.room'
  omega

/-- C35.  A push that is rejected has changed nothing: until its exchange succeeds a push touches
neither slots nor indices. -/
theorem c35_rejected_has_no_effect (C : Nat) (s s' : Ring T) (e : Step T) (hs : step C s e = some s')
    (he : (∃ p v w, e = .load p v w) ∨ (∃ p r, e = .check p r) ∨
      (∃ p sp w, e = .exchange p sp w ∧ ∀ w v, s'.producers p ≠ .claimed w v)) :
    s'.slots = s.slots ∧ s'.readIndex = s.readIndex ∧ s'.writeIndex = s.writeIndex ∧
      s'.claims = s.claims ∧ s'.delivered = s.delivered ∧ s'.consumer = s.consumer := by
  rcases he with ⟨p, v, w, rfl⟩ | ⟨p, r, rfl⟩ | ⟨p, sp, w, rfl, hno⟩
  · simp only [step] at hs
    repeat' split at hs
    all_goals first
      | (cases hs; done)
      | (injection hs with hs; subst hs; exact ⟨rfl, rfl, rfl, rfl, rfl, rfl⟩)
  · simp only [step] at hs
    repeat' split at hs
    all_goals first
      | (cases hs; done)
      | (injection hs with hs; subst hs; exact ⟨rfl, rfl, rfl, rfl, rfl, rfl⟩)
  · simp only [step] at hs
    cases hp : s.producers p with
    | checked w0 v =>
      rw [hp] at hs
      simp only at hs
      split at hs
      · injection hs with hs; subst hs
        exact absurd (upd_self _ _ _) (hno w0 v)
      · split at hs
        · injection hs with hs; subst hs; exact ⟨rfl, rfl, rfl, rfl, rfl, rfl⟩
        · cases hs
    | _ => rw [hp] at hs; cases hs

/-- Two producers race for the first slot of a ring with two places, the loser takes the second, the
second is published first; the consumer gets them in the order claimed. -/
def race : List (Step Nat) :=
  [.load 0 10 0, .load 1 20 0, .check 1 0, .check 0 0, .exchange 1 false 0, .exchange 0 false 1, .check 0 0,
   .exchange 0 false 0, .store 0, .publish 0, .look false, .store 1, .publish 1, .look false, .move, .release,
   .advance, .look false, .move, .release, .advance]

example : (run 2 (init Nat) race).isSome = true ∧ accepted 2 (init Nat) race = [some 20, some 10] ∧
    popped 2 (init Nat) race = [some 20, some 10] := by decide +kernel

/-- Limit: a push can be rejected although the ring is empty.  A producer that loads the write index
and is overtaken by a complete push and pop computes a negative fill level, which wraps. -/
theorem c35_rejected_though_empty :
    ∃ (es : List (Step Nat)) (s : Ring Nat), run 2 (init Nat) es = some s ∧
      (∃ v, s.producers 0 = .loaded 0 v) ∧ s.readIndex = s.writeIndex ∧
      ∃ s', step 2 s (.check 0 s.readIndex) = some s' ∧ (match s'.producers 0 with | .idle => True | _ => False) := by
  refine ⟨[.load 0 10 0, .load 1 20 0, .check 1 0, .exchange 1 false 0, .store 1, .publish 1, .look false, .move,
    .release, .advance], _, rfl, ⟨10, rfl⟩, rfl, _, rfl, trivial⟩

theorem closed_run (C : Nat) : ∀ (es : List (Step T)) (s s' : Ring T), run C s es = some s' → (∀ p, Step.close p ∉ es) →
    s'.closed = s.closed
  | [], s, s', h, _ => by simp only [run] at h; cases h; rfl
  | e :: es, s, s', h, hn => by
    unfold run at h
    cases hs : step C s e with
    | none => rw [hs] at h; cases h
    | some s1 =>
      rw [hs] at h
      rw [closed_run C es s1 s' h fun p hp => hn p (List.mem_cons_of_mem _ hp)]
      cases e with
      | close p => exact absurd List.mem_cons_self (hn p)
      | _ =>
        simp only [step] at hs
        repeat' split at hs
        all_goals first
          | (cases hs; done)
          | (injection hs with hs; rw [← hs])

/-- C35.  A ring that was not shut down can be, in whatever state it is, by any thread that is in no other call. -/
theorem c35_can_close (C : Nat) (es : List (Step T)) (s : Ring T) (h : run C (init T) es = some s) (hn : ∀ p, Step.close p ∉ es)
    (p : Nat) (hp : s.producers p = .idle) :
    ∃ s', run C (init T) (es ++ [.close p]) = some s' ∧ accepted C (init T) (es ++ [.close p]) = accepted C (init T) es ++ [none] := by
  have hc : s.closed = false := closed_run C es _ _ h hn
  obtain ⟨s', hs⟩ : ∃ s', step C s (.close p) = some s' ∧ s'.claims = s.claims ++ [none] := by
    simp only [step, hp, hc]
    exact ⟨_, rfl, rfl⟩
  have happ : ∀ (es : List (Step T)) (a : Ring T), run C a es = some s → run C a (es ++ [.close p]) = some s' := by
    intro es
    induction es with
    | nil => intro a h; simp only [run] at h; cases h; simp only [List.nil_append, run, hs.1, Option.bind_some]
    | cons e es ih =>
      intro a h
      simp only [run, List.cons_append] at h ⊢
      cases he : step C a e with
      | none => rw [he] at h; cases h
      | some b => rw [he] at h; exact ih b h
  have hr := happ es _ h
  refine ⟨s', hr, ?_⟩
  have h1 := accepted_claims C es _ _ h
  have h2 := accepted_claims C _ _ _ hr
  rw [hs.2, h1] at h2
  simpa [init] using h2.symm

end Bedrock.Ring.Props
