import Verif.Model.Ring

namespace Bedrock.Ring

variable {T : Type}

theorem upd_self {A : Type} (f : Nat → A) (i : Nat) (a : A) : upd f i a i = a := by simp [upd]

theorem upd_ne {A : Type} (f : Nat → A) (i j : Nat) (a : A) (h : j ≠ i) : upd f i a j = f j := by
  simp [upd, h]

/-- Indices less than `C + 1` apart have different slots. -/
theorem at_inj {C r i j : Nat} (hi : r ≤ i) (hi' : i < r + C + 1) (hj : r ≤ j) (hj' : j < r + C + 1)
    (h : at_ C i = at_ C j) : i = j := by
  unfold at_ at h
  rcases Nat.lt_trichotomy i j with hlt | he | hlt
  · have := Nat.sub_mod_eq_zero_of_mod_eq h.symm
    rw [Nat.mod_eq_of_lt (by omega)] at this
    omega
  · exact he
  · have := Nat.sub_mod_eq_zero_of_mod_eq h
    rw [Nat.mod_eq_of_lt (by omega)] at this
    omega

/-- The slot index a producer has claimed and not yet published. -/
def owns : Producer T → Nat → Prop
  | .claimed w _, i => w = i
  | .stored w _, i => w = i
  | .closing w, i => w = i
  | _, _ => False

/-- Slot `i` holds what was claimed for it. -/
def Filled (C : Nat) (s : Ring T) (i : Nat) : Prop :=
  ((s.slots (at_ C i)).state = .ready ∧ ∃ v, (s.slots (at_ C i)).data = some v ∧ s.claims[i]? = some (some v)) ∨
  ((s.slots (at_ C i)).state = .shutdown ∧ s.claims[i]? = some none)

/-- The consumer has already taken the payload of the slot at the read index. -/
def Taken : Consumer T → Prop
  | .moved _ => True
  | .emptied _ => True
  | _ => False

/-- What holds for a producer. -/
def ProdOk (C : Nat) (s : Ring T) : Producer T → Prop
  | .idle => True
  | .loaded w _ => w ≤ s.writeIndex
  | .checked w _ => w ≤ s.writeIndex ∧ w < s.readIndex + C
  | .claimed i v => s.readIndex ≤ i ∧ i < s.writeIndex ∧ s.claims[i]? = some (some v) ∧
      (s.slots (at_ C i)).state = .empty
  | .stored i v => s.readIndex ≤ i ∧ i < s.writeIndex ∧ s.claims[i]? = some (some v) ∧
      (s.slots (at_ C i)).state = .empty ∧ (s.slots (at_ C i)).data = some v
  | .closing i => s.readIndex ≤ i ∧ i < s.writeIndex ∧ s.claims[i]? = some none ∧
      (s.slots (at_ C i)).state = .empty

/-- What holds for the consumer. -/
def ConsOk (C : Nat) (s : Ring T) : Consumer T → Prop
  | .idle => True
  | .found => s.readIndex < s.writeIndex ∧ (∀ p, ¬ owns (s.producers p) s.readIndex) ∧
      ∃ v, (s.slots (at_ C s.readIndex)).data = some v ∧ s.claims[s.readIndex]? = some (some v)
  | .marker => s.readIndex < s.writeIndex ∧ (∀ p, ¬ owns (s.producers p) s.readIndex) ∧
      s.claims[s.readIndex]? = some none
  | .moved v => s.readIndex < s.writeIndex ∧ (∀ p, ¬ owns (s.producers p) s.readIndex) ∧
      s.claims[s.readIndex]? = some v
  | .emptied v => s.readIndex < s.writeIndex ∧ (∀ p, ¬ owns (s.producers p) s.readIndex) ∧
      s.claims[s.readIndex]? = some v ∧ (s.slots (at_ C s.readIndex)).state = .empty

/-- The invariant. -/
structure Inv (C : Nat) (s : Ring T) : Prop where
  len : s.claims.length = s.writeIndex
  del : s.delivered = s.claims.take s.readIndex
  le : s.readIndex ≤ s.writeIndex
  room : s.writeIndex ≤ s.readIndex + C + (if s.closed then 1 else 0)
  prod : ∀ p, ProdOk C s (s.producers p)
  uniq : ∀ p q i, owns (s.producers p) i → owns (s.producers q) i → p = q
  cover : ∀ i, s.readIndex ≤ i → i < s.writeIndex → (∀ p, ¬ owns (s.producers p) i) →
    Filled C s i ∨ (i = s.readIndex ∧ Taken s.consumer)
  cons : ConsOk C s s.consumer
  free : ∀ j, (∀ i, s.readIndex ≤ i → i < s.writeIndex → at_ C i ≠ j) → (s.slots j).state = .empty

theorem Inv.init (C : Nat) : Inv C (init T) := by
  refine ⟨rfl, rfl, by simp [Ring.init], by simp [Ring.init], fun p => trivial, ?_, ?_, trivial, fun _ _ => rfl⟩
  · intro p q i h; exact h.elim
  · intro i _ h; simp [Ring.init] at h

theorem Inv.room' {C : Nat} {s : Ring T} (h : Inv C s) : s.writeIndex ≤ s.readIndex + C + 1 := by
  have := h.room
  split at this <;> omega

/-- An owner's index lies between the two indices. -/
theorem Inv.owner_range {C : Nat} {s : Ring T} (h : Inv C s) {p i : Nat} (ho : owns (s.producers p) i) :
    s.readIndex ≤ i ∧ i < s.writeIndex := by
  have hp := h.prod p
  cases hs : s.producers p with
  | idle => rw [hs] at ho; exact ho.elim
  | loaded w v => rw [hs] at ho; exact ho.elim
  | checked w v => rw [hs] at ho; exact ho.elim
  | claimed w v => rw [hs] at ho hp; obtain rfl : w = i := ho; exact ⟨hp.1, hp.2.1⟩
  | stored w v => rw [hs] at ho hp; obtain rfl : w = i := ho; exact ⟨hp.1, hp.2.1⟩
  | closing w => rw [hs] at ho hp; obtain rfl : w = i := ho; exact ⟨hp.1, hp.2.1⟩

/-- Steps that only change a producer that owns nothing. -/
theorem Inv.quiet {C : Nat} {s : Ring T} (h : Inv C s) (p : Nat) (pr : Producer T)
    (hold : ∀ i, ¬ owns (s.producers p) i) (hnew : ∀ i, ¬ owns pr i) (hok : ProdOk C s pr) :
    Inv C { s with producers := upd s.producers p pr } := by
  have hown : ∀ q i, owns (upd s.producers p pr q) i ↔ owns (s.producers q) i := by
    intro q i
    by_cases hq : q = p
    · subst hq; rw [upd_self]; exact ⟨fun x => (hnew i x).elim, fun x => (hold i x).elim⟩
    · rw [upd_ne _ _ _ _ hq]
  refine ⟨h.len, h.del, h.le, h.room, ?_, ?_, ?_, ?_, h.free⟩
  · intro q
    by_cases hq : q = p
    · subst hq; simp only [upd_self]
      cases pr <;> exact hok
    · simp only [upd_ne _ _ _ _ hq]
      have := h.prod q
      cases hs : s.producers q <;> rw [hs] at this <;> exact this
  · intro a b i ha hb
    exact h.uniq a b i ((hown a i).mp ha) ((hown b i).mp hb)
  · intro i h1 h2 h3
    exact h.cover i h1 h2 (fun q hq => h3 q ((hown q i).mpr hq))
  · have := h.cons
    cases hc : s.consumer with
    | idle => trivial
    | found => rw [hc] at this; exact ⟨this.1, fun q hq => this.2.1 q ((hown q _).mp hq), this.2.2⟩
    | moved v => rw [hc] at this; exact ⟨this.1, fun q hq => this.2.1 q ((hown q _).mp hq), this.2.2⟩
    | marker => rw [hc] at this; exact ⟨this.1, fun q hq => this.2.1 q ((hown q _).mp hq), this.2.2⟩
    | emptied v => rw [hc] at this; exact ⟨this.1, fun q hq => this.2.1 q ((hown q _).mp hq), this.2.2⟩

/-- Claiming the next slot. -/
theorem Inv.claim {C : Nat} {s : Ring T} (h : Inv C s) (p : Nat) (item : Option T) (pr : Producer T) (cl : Bool)
    (hold : ∀ i, ¬ owns (s.producers p) i) (hroom : s.writeIndex ≤ s.readIndex + C)
    (hcl : s.writeIndex + 1 ≤ s.readIndex + C + (if cl then 1 else 0))
    (hpr : pr = .closing s.writeIndex ∧ item = none ∨ ∃ v, pr = .claimed s.writeIndex v ∧ item = some v) :
    Inv C { s with writeIndex := s.writeIndex + 1, claims := s.claims ++ [item], closed := cl
                   producers := upd s.producers p pr } := by
  have hnew : ∀ i, owns pr i ↔ i = s.writeIndex := by
    intro i
    rcases hpr with ⟨rfl, _⟩ | ⟨v, rfl, _⟩ <;> exact ⟨fun e => Eq.symm e, fun e => Eq.symm e⟩
  have hlt : ∀ q i, owns (s.producers q) i → i < s.writeIndex := fun q i ho => (h.owner_range ho).2
  have hget : ∀ i, i < s.writeIndex → (s.claims ++ [item])[i]? = s.claims[i]? := by
    intro i hi; rw [List.getElem?_append_left (by rw [h.len]; exact hi)]
  have hlast : (s.claims ++ [item])[s.writeIndex]? = some item := by
    rw [← h.len]; simp
  have hfree : (s.slots (at_ C s.writeIndex)).state = .empty := by
    apply h.free
    intro i h1 h2 he
    have := at_inj h1 (by omega) h.le (by omega) he
    omega
  refine ⟨?_, ?_, ?_, hcl, ?_, ?_, ?_, ?_, ?_⟩
  · simp only [List.length_append, h.len, List.length_cons, List.length_nil]
  · simp only
    rw [h.del, List.take_append_of_le_length (by rw [h.len]; exact h.le)]
  · have := h.le
    show s.readIndex ≤ s.writeIndex + 1
    omega
  · intro q
    by_cases hq : q = p
    · subst hq; simp only [upd_self]
      rcases hpr with ⟨rfl, rfl⟩ | ⟨v, rfl, rfl⟩
      · exact ⟨h.le, Nat.lt_succ_self _, hlast, hfree⟩
      · exact ⟨h.le, Nat.lt_succ_self _, hlast, hfree⟩
    · simp only [upd_ne _ _ _ _ hq]
      have := h.prod q
      cases hs : s.producers q with
      | idle => trivial
      | loaded w v => rw [hs] at this; exact Nat.le_succ_of_le this
      | checked w v => rw [hs] at this; exact ⟨Nat.le_succ_of_le this.1, this.2⟩
      | claimed w v =>
        rw [hs] at this
        refine ⟨this.1, Nat.lt_succ_of_lt this.2.1, ?_, this.2.2.2⟩
        simp only; rw [hget w this.2.1]; exact this.2.2.1
      | stored w v =>
        rw [hs] at this
        refine ⟨this.1, Nat.lt_succ_of_lt this.2.1, ?_, this.2.2.2⟩
        simp only; rw [hget w this.2.1]; exact this.2.2.1
      | closing w =>
        rw [hs] at this
        refine ⟨this.1, Nat.lt_succ_of_lt this.2.1, ?_, this.2.2.2⟩
        simp only; rw [hget w this.2.1]; exact this.2.2.1
  · intro a b i ha hb
    by_cases ha' : a = p <;> by_cases hb' : b = p
    · rw [ha', hb']
    · subst ha'
      simp only [upd_self, upd_ne _ _ _ _ hb'] at ha hb
      have e := (hnew i).mp ha
      have := hlt b i hb
      omega
    · subst hb'
      simp only [upd_self, upd_ne _ _ _ _ ha'] at ha hb
      have e := (hnew i).mp hb
      have := hlt a i ha
      omega
    · simp only [upd_ne _ _ _ _ ha', upd_ne _ _ _ _ hb'] at ha hb
      exact h.uniq a b i ha hb
  · intro i h1 h2 h3
    have hne : i ≠ s.writeIndex := by
      intro e
      exact h3 p (by simp only [upd_self]; exact (hnew i).mpr e)
    have hi : i < s.writeIndex := by
      have : i < s.writeIndex + 1 := h2
      omega
    have hno : ∀ q, ¬ owns (s.producers q) i := by
      intro q hq
      by_cases e : q = p
      · subst e; exact hold i hq
      · exact h3 q (by simp only [upd_ne _ _ _ _ e]; exact hq)
    rcases h.cover i h1 hi hno with hf | hf
    · left
      rcases hf with ⟨a, v, b, c⟩ | ⟨a, b⟩
      · exact .inl ⟨a, v, b, by simp only; rw [hget i hi]; exact c⟩
      · exact .inr ⟨a, by simp only; rw [hget i hi]; exact b⟩
    · exact .inr hf
  · have hno : ∀ i, i < s.writeIndex → (∀ q, ¬ owns (s.producers q) i) →
        ∀ q, ¬ owns (upd s.producers p pr q) i := by
      intro i hi hx q hq
      by_cases e : q = p
      · subst e; rw [upd_self] at hq; have := (hnew i).mp hq; omega
      · rw [upd_ne _ _ _ _ e] at hq; exact hx q hq
    have := h.cons
    cases hc : s.consumer with
    | idle => trivial
    | found =>
      rw [hc] at this
      obtain ⟨a, b, v, c, d⟩ := this
      exact ⟨Nat.lt_succ_of_lt a, hno _ a b, v, c, by simp only; rw [hget _ a]; exact d⟩
    | marker =>
      rw [hc] at this
      obtain ⟨a, b, d⟩ := this
      exact ⟨Nat.lt_succ_of_lt a, hno _ a b, by simp only; rw [hget _ a]; exact d⟩
    | moved v =>
      rw [hc] at this
      obtain ⟨a, b, d⟩ := this
      exact ⟨Nat.lt_succ_of_lt a, hno _ a b, by simp only; rw [hget _ a]; exact d⟩
    | emptied v =>
      rw [hc] at this
      obtain ⟨a, b, d, e⟩ := this
      exact ⟨Nat.lt_succ_of_lt a, hno _ a b, by simp only; rw [hget _ a]; exact d, e⟩
  · intro j hj
    apply h.free
    intro i h1 h2
    exact hj i h1 (Nat.lt_succ_of_lt h2)

/-- A producer that owns slot `w` writes to it. -/
theorem Inv.write {C : Nat} {s : Ring T} (h : Inv C s) (p w : Nat) (slot : Slot T) (pr : Producer T)
    (hown : owns (s.producers p) w)
    (hpr : (pr = .idle ∧ ((slot.state = .ready ∧ ∃ v, slot.data = some v ∧ s.claims[w]? = some (some v)) ∨
        (slot.state = .shutdown ∧ s.claims[w]? = some none))) ∨
      ∃ v, pr = .stored w v ∧ slot.state = .empty ∧ slot.data = some v ∧ s.claims[w]? = some (some v)) :
    Inv C { s with slots := upd s.slots (at_ C w) slot, producers := upd s.producers p pr } := by
  have hr := h.owner_range hown
  have hroom := h.room'
  have hslot : ∀ i, s.readIndex ≤ i → i < s.writeIndex → i ≠ w →
      upd s.slots (at_ C w) slot (at_ C i) = s.slots (at_ C i) := by
    intro i h1 h2 hne
    apply upd_ne
    intro he
    exact hne (at_inj h1 (by omega) hr.1 (by omega) he)
  have hnew : ∀ i, owns pr i → i = w := by
    intro i ho
    rcases hpr with ⟨rfl, _⟩ | ⟨v, rfl, _⟩
    · exact ho.elim
    · exact Eq.symm ho
  have hother : ∀ q i, q ≠ p → owns (s.producers q) i → i ≠ w := by
    intro q i hq ho e
    subst e
    exact hq (h.uniq q p i ho hown)
  refine ⟨h.len, h.del, h.le, h.room, ?_, ?_, ?_, ?_, ?_⟩
  · intro q
    by_cases hq : q = p
    · subst hq; simp only [upd_self]
      rcases hpr with ⟨rfl, _⟩ | ⟨v, rfl, h1, h2, h3⟩
      · trivial
      · refine ⟨hr.1, hr.2, h3, ?_, ?_⟩ <;> simp only [upd_self]
        · exact h1
        · exact h2
    · simp only [upd_ne _ _ _ _ hq]
      have := h.prod q
      cases hs : s.producers q with
      | idle => trivial
      | loaded w v => rw [hs] at this; exact this
      | checked w v => rw [hs] at this; exact this
      | claimed i v =>
        rw [hs] at this
        have hne := hother q i hq (by rw [hs]; rfl)
        refine ⟨this.1, this.2.1, this.2.2.1, ?_⟩
        simp only; rw [hslot i this.1 this.2.1 hne]; exact this.2.2.2
      | stored i v =>
        rw [hs] at this
        have hne := hother q i hq (by rw [hs]; rfl)
        refine ⟨this.1, this.2.1, this.2.2.1, ?_⟩
        simp only; rw [hslot i this.1 this.2.1 hne]; exact this.2.2.2
      | closing i =>
        rw [hs] at this
        have hne := hother q i hq (by rw [hs]; rfl)
        refine ⟨this.1, this.2.1, this.2.2.1, ?_⟩
        simp only; rw [hslot i this.1 this.2.1 hne]; exact this.2.2.2
  · intro a b i ha hb
    have hkey : ∀ q, owns (upd s.producers p pr q) i → owns (s.producers q) i := by
      intro q hq
      by_cases e : q = p
      · subst e; rw [upd_self] at hq; rw [hnew i hq]; exact hown
      · rw [upd_ne _ _ _ _ e] at hq; exact hq
    exact h.uniq a b i (hkey a ha) (hkey b hb)
  · intro i h1 h2 h3
    by_cases hiw : i = w
    · subst hiw
      left
      rcases hpr with ⟨_, hf⟩ | ⟨v, rfl, _⟩
      · rcases hf with ⟨a, v, b, c⟩ | ⟨a, b⟩
        · exact .inl ⟨by simp only [upd_self]; exact a, v, by simp only [upd_self]; exact b, c⟩
        · exact .inr ⟨by simp only [upd_self]; exact a, b⟩
      · exact absurd rfl (fun e : i = i => h3 p (by simp only [upd_self]; exact e))
    · have hno : ∀ q, ¬ owns (s.producers q) i := by
        intro q hq
        by_cases e : q = p
        · subst e
          have : ∀ i', owns (s.producers q) i' → i' = w := by
            intro i' ho
            cases hs : s.producers q <;> rw [hs] at ho hown <;> first
              | exact ho.elim
              | exact (Eq.symm ho).trans hown
          exact hiw (this i hq)
        · exact h3 q (by simp only [upd_ne _ _ _ _ e]; exact hq)
      rcases h.cover i h1 h2 hno with hf | hf
      · left
        unfold Filled at hf ⊢
        simp only
        rw [hslot i h1 h2 hiw]
        exact hf
      · exact .inr hf
  · have hno : ∀ i, (∀ q, ¬ owns (s.producers q) i) → ∀ q, ¬ owns (upd s.producers p pr q) i := by
      intro i hx q hq
      by_cases e : q = p
      · subst e; rw [upd_self] at hq; rw [hnew i hq] at hx; exact hx q hown
      · rw [upd_ne _ _ _ _ e] at hq; exact hx q hq
    have hne : (∀ q, ¬ owns (s.producers q) s.readIndex) → s.readIndex ≠ w := by
      intro hx e; rw [e] at hx; exact hx p hown
    have := h.cons
    cases hc : s.consumer with
    | idle => trivial
    | found =>
      rw [hc] at this
      obtain ⟨a, b, v, c, d⟩ := this
      exact ⟨a, hno _ b, v, by simp only; rw [hslot _ (Nat.le_refl _) a (hne b)]; exact c, d⟩
    | marker =>
      rw [hc] at this
      obtain ⟨a, b, d⟩ := this
      exact ⟨a, hno _ b, d⟩
    | moved v =>
      rw [hc] at this
      obtain ⟨a, b, d⟩ := this
      exact ⟨a, hno _ b, d⟩
    | emptied v =>
      rw [hc] at this
      obtain ⟨a, b, d, e⟩ := this
      exact ⟨a, hno _ b, d, by simp only; rw [hslot _ (Nat.le_refl _) a (hne b)]; exact e⟩
  · intro j hj
    simp only
    rw [upd_ne _ _ _ _ (Ne.symm (hj w hr.1 hr.2))]
    exact h.free j hj

/-- The consumer changes its own state and the slot at the read index. -/
theorem Inv.consume {C : Nat} {s : Ring T} (h : Inv C s) (slot : Slot T) (c : Consumer T)
    (hlt : s.readIndex < s.writeIndex) (hno : ∀ p, ¬ owns (s.producers p) s.readIndex)
    (htaken : Taken c) (hc : ∀ s' : Ring T, s'.readIndex = s.readIndex → s'.writeIndex = s.writeIndex →
      s'.producers = s.producers → s'.claims = s.claims → s'.slots (at_ C s.readIndex) = slot →
      ConsOk C s' c) :
    Inv C { s with consumer := c, slots := upd s.slots (at_ C s.readIndex) slot } := by
  have hroom := h.room'
  have hslot : ∀ i, s.readIndex ≤ i → i < s.writeIndex → i ≠ s.readIndex →
      upd s.slots (at_ C s.readIndex) slot (at_ C i) = s.slots (at_ C i) := by
    intro i h1 h2 hne
    apply upd_ne
    intro he
    exact hne (at_inj h1 (by omega) (Nat.le_refl _) (by omega) he)
  refine ⟨h.len, h.del, h.le, h.room, ?_, h.uniq, ?_, ?_, ?_⟩
  · intro q
    have := h.prod q
    have hq := hno q
    show ProdOk C _ (s.producers q)
    cases hs : s.producers q with
    | idle => trivial
    | loaded w v => rw [hs] at this; exact this
    | checked w v => rw [hs] at this; exact this
    | claimed i v =>
      rw [hs] at this hq
      refine ⟨this.1, this.2.1, this.2.2.1, ?_⟩
      simp only; rw [hslot i this.1 this.2.1 hq]; exact this.2.2.2
    | stored i v =>
      rw [hs] at this hq
      refine ⟨this.1, this.2.1, this.2.2.1, ?_⟩
      simp only; rw [hslot i this.1 this.2.1 hq]; exact this.2.2.2
    | closing i =>
      rw [hs] at this hq
      refine ⟨this.1, this.2.1, this.2.2.1, ?_⟩
      simp only; rw [hslot i this.1 this.2.1 hq]; exact this.2.2.2
  · intro i h1 h2 h3
    by_cases hi : i = s.readIndex
    · exact .inr ⟨hi, htaken⟩
    · rcases h.cover i h1 h2 h3 with hf | hf
      · left
        unfold Filled at hf ⊢
        simp only
        rw [hslot i h1 h2 hi]
        exact hf
      · exact absurd hf.1 hi
  · exact hc _ rfl rfl rfl rfl (upd_self _ _ _)
  · intro j hj
    simp only
    rw [upd_ne _ _ _ _ (Ne.symm (hj s.readIndex (Nat.le_refl _) hlt))]
    exact h.free j hj

/-- Changing only the consumer's position to one that has not taken anything. -/
theorem Inv.position {C : Nat} {s : Ring T} (h : Inv C s) (c : Consumer T) (hnt : ¬ Taken s.consumer)
    (hc : ConsOk C s c) : Inv C { s with consumer := c } := by
  refine ⟨h.len, h.del, h.le, h.room, ?_, h.uniq, ?_, ?_, h.free⟩
  · intro q
    have := h.prod q
    show ProdOk C _ (s.producers q)
    cases hs : s.producers q <;> rw [hs] at this <;> exact this
  · intro i h1 h2 h3
    rcases h.cover i h1 h2 h3 with hf | hf
    · exact .inl hf
    · exact absurd hf.2 hnt
  · cases c <;> exact hc

/-- The slot at the read index when the consumer is idle and finds it not empty. -/
theorem Inv.look {C : Nat} {s : Ring T} (h : Inv C s) (hc : s.consumer = .idle)
    (hne : (s.slots (at_ C s.readIndex)).state ≠ .empty) :
    s.readIndex < s.writeIndex ∧ (∀ p, ¬ owns (s.producers p) s.readIndex) ∧ Filled C s s.readIndex := by
  have hlt : s.readIndex < s.writeIndex := by
    by_cases hlt : s.readIndex < s.writeIndex
    · exact hlt
    · exact absurd (h.free _ (fun i h1 h2 => by omega)) hne
  have hno : ∀ p, ¬ owns (s.producers p) s.readIndex := by
    intro p ho
    have := h.prod p
    cases hs : s.producers p with
    | idle => rw [hs] at ho; exact ho
    | loaded w v => rw [hs] at ho; exact ho
    | checked w v => rw [hs] at ho; exact ho
    | claimed w v => rw [hs] at this ho; obtain rfl : w = _ := ho; exact hne this.2.2.2
    | stored w v => rw [hs] at this ho; obtain rfl : w = _ := ho; exact hne this.2.2.2.1
    | closing w => rw [hs] at this ho; obtain rfl : w = _ := ho; exact hne this.2.2.2
  refine ⟨hlt, hno, ?_⟩
  rcases h.cover _ (Nat.le_refl _) hlt hno with hf | hf
  · exact hf
  · rw [hc] at hf; exact hf.2.elim

/-- Advancing the read index. -/
theorem Inv.advance {C : Nat} {s : Ring T} (h : Inv C s) (v : Option T) (hc : s.consumer = .emptied v) :
    Inv C { s with consumer := .idle, readIndex := s.readIndex + 1, delivered := s.delivered ++ [v] } := by
  have hcons := h.cons
  rw [hc] at hcons
  obtain ⟨hlt, hno, hv, hempty⟩ := hcons
  have hne : ∀ q i, owns (s.producers q) i → s.readIndex + 1 ≤ i := by
    intro q i ho
    have := (h.owner_range ho).1
    by_cases e : i = s.readIndex
    · subst e; exact absurd ho (hno q)
    · omega
  refine ⟨h.len, ?_, hlt, ?_, ?_, h.uniq, ?_, trivial, ?_⟩
  · simp only
    rw [h.del]
    have hl : s.readIndex < s.claims.length := by rw [h.len]; exact hlt
    rw [List.getElem?_eq_getElem hl] at hv
    injection hv with hv
    rw [← hv]
    exact (List.take_succ_eq_append_getElem hl).symm
  · have := h.room
    show s.writeIndex ≤ s.readIndex + 1 + C + (if s.closed then 1 else 0)
    omega
  · intro q
    have := h.prod q
    have hq := hne q
    show ProdOk C _ (s.producers q)
    cases hs : s.producers q with
    | idle => trivial
    | loaded w v => rw [hs] at this; exact this
    | checked w v =>
      rw [hs] at this
      refine ⟨this.1, ?_⟩
      have := this.2
      show w < s.readIndex + 1 + C
      omega
    | claimed i v => rw [hs] at this hq; exact ⟨hq i rfl, this.2⟩
    | stored i v => rw [hs] at this hq; exact ⟨hq i rfl, this.2⟩
    | closing i => rw [hs] at this hq; exact ⟨hq i rfl, this.2⟩
  · intro i h1 h2 h3
    have h1 : s.readIndex + 1 ≤ i := h1
    rcases h.cover i (by omega) h2 h3 with hf | hf
    · exact .inl hf
    · omega
  · intro j hj
    by_cases e : at_ C s.readIndex = j
    · subst e; exact hempty
    · apply h.free
      intro i h1 h2
      by_cases e' : i = s.readIndex
      · subst e'; exact e
      · exact hj i (by show s.readIndex + 1 ≤ i; omega) h2

/-- Every step keeps the invariant. -/
theorem Inv.step {C : Nat} {s s' : Ring T} (h : Inv C s) {e : Step T} (hs : step C s e = some s') :
    Inv C s' := by
  cases e with
  | load p v w =>
    simp only [Ring.step] at hs
    cases hp : s.producers p with
    | idle =>
      rw [hp] at hs
      simp only at hs
      split at hs
      · rename_i hw
        injection hs with hs; subst hs
        exact h.quiet p _ (by rw [hp]; exact fun _ => id) (fun _ => id) hw
      · cases hs
    | _ => rw [hp] at hs; cases hs
  | check p r =>
    simp only [Ring.step] at hs
    cases hp : s.producers p with
    | loaded w v =>
      rw [hp] at hs
      simp only at hs
      have hpok := h.prod p
      rw [hp] at hpok
      split at hs
      · cases hs
      · split at hs
        · injection hs with hs; subst hs
          exact h.quiet p _ (by rw [hp]; exact fun _ => id) (fun _ => id) trivial
        · injection hs with hs; subst hs
          refine h.quiet p _ (by rw [hp]; exact fun _ => id) (fun _ => id) ⟨hpok, ?_⟩
          omega
    | _ => rw [hp] at hs; cases hs
  | exchange p sp w' =>
    simp only [Ring.step] at hs
    cases hp : s.producers p with
    | checked w v =>
      rw [hp] at hs
      simp only at hs
      have hpok := h.prod p
      rw [hp] at hpok
      split at hs
      · rename_i hw
        injection hs with hs; subst hs
        obtain ⟨rfl, _⟩ := hw
        have hlt := hpok.2
        exact h.claim p (some v) _ s.closed (by rw [hp]; exact fun _ => id) (by omega) (by split <;> omega)
          (.inr ⟨v, rfl, rfl⟩)
      · split at hs
        · rename_i hw
          injection hs with hs; subst hs
          exact h.quiet p _ (by rw [hp]; exact fun _ => id) (fun _ => id) hw
        · cases hs
    | _ => rw [hp] at hs; cases hs
  | store p =>
    simp only [Ring.step] at hs
    cases hp : s.producers p with
    | claimed w v =>
      rw [hp] at hs
      simp only at hs
      have hpok := h.prod p
      rw [hp] at hpok
      injection hs with hs; subst hs
      exact h.write p w _ _ (by rw [hp]; rfl) (.inr ⟨v, rfl, hpok.2.2.2, rfl, hpok.2.2.1⟩)
    | _ => rw [hp] at hs; cases hs
  | publish p =>
    simp only [Ring.step] at hs
    cases hp : s.producers p with
    | stored w v =>
      rw [hp] at hs
      simp only at hs
      have hpok := h.prod p
      rw [hp] at hpok
      injection hs with hs; subst hs
      exact h.write p w _ _ (by rw [hp]; rfl)
        (.inl ⟨rfl, .inl ⟨rfl, v, hpok.2.2.2.2, hpok.2.2.1⟩⟩)
    | closing w =>
      rw [hp] at hs
      simp only at hs
      have hpok := h.prod p
      rw [hp] at hpok
      injection hs with hs; subst hs
      exact h.write p w _ _ (by rw [hp]; rfl) (.inl ⟨rfl, .inr ⟨rfl, hpok.2.2.1⟩⟩)
    | _ => rw [hp] at hs; cases hs
  | close p =>
    simp only [Ring.step] at hs
    cases hp : s.producers p with
    | idle =>
      rw [hp] at hs
      simp only at hs
      split at hs
      · cases hs
      · rename_i hcl
        injection hs with hs; subst hs
        have hroom := h.room
        rw [if_neg hcl] at hroom
        exact h.claim p none _ true (by rw [hp]; exact fun _ => id) (by omega) (by simp; omega)
          (.inl ⟨rfl, rfl⟩)
    | _ => rw [hp] at hs; cases hs
  | look old =>
    simp only [Ring.step] at hs
    cases hc : s.consumer with
    | idle =>
      rw [hc] at hs
      simp only at hs
      split at hs
      · injection hs with hs; subst hs; exact h
      · rename_i hst
        split at hs
        · injection hs with hs; subst hs; exact h
        · injection hs with hs; subst hs
          obtain ⟨h1, h2, h3⟩ := h.look hc (by rw [hst]; simp)
          refine h.position _ (by rw [hc]; exact id) ⟨h1, h2, ?_⟩
          rcases h3 with ⟨_, v, a, b⟩ | ⟨a, _⟩
          · exact ⟨v, a, b⟩
          · rw [hst] at a; cases a
      · rename_i hst
        split at hs
        · injection hs with hs; subst hs; exact h
        · injection hs with hs; subst hs
          obtain ⟨h1, h2, h3⟩ := h.look hc (by rw [hst]; simp)
          refine h.position _ (by rw [hc]; exact id) ⟨h1, h2, ?_⟩
          rcases h3 with ⟨a, _⟩ | ⟨_, a⟩
          · rw [hst] at a; cases a
          · exact a
    | _ => rw [hc] at hs; cases hs
  | move =>
    simp only [Ring.step] at hs
    cases hc : s.consumer with
    | found =>
      rw [hc] at hs
      simp only at hs
      injection hs with hs; subst hs
      have hcons := h.cons
      rw [hc] at hcons
      obtain ⟨h1, h2, v, h3, h4⟩ := hcons
      refine h.consume _ _ h1 h2 trivial ?_
      intro s' e1 e2 e3 e4 e5
      refine ⟨by rw [e1, e2]; exact h1, by rw [e1, e3]; exact h2, ?_⟩
      rw [e1, e4, h3]; exact h4
    | _ => rw [hc] at hs; cases hs
  | release =>
    simp only [Ring.step] at hs
    cases hc : s.consumer with
    | moved v =>
      rw [hc] at hs
      simp only at hs
      injection hs with hs; subst hs
      have hcons := h.cons
      rw [hc] at hcons
      obtain ⟨h1, h2, h3⟩ := hcons
      refine h.consume _ _ h1 h2 trivial ?_
      intro s' e1 e2 e3 e4 e5
      refine ⟨by rw [e1, e2]; exact h1, by rw [e1, e3]; exact h2, by rw [e1, e4]; exact h3, ?_⟩
      rw [e1, e5]
    | marker =>
      rw [hc] at hs
      simp only at hs
      injection hs with hs; subst hs
      have hcons := h.cons
      rw [hc] at hcons
      obtain ⟨h1, h2, h3⟩ := hcons
      refine h.consume _ _ h1 h2 trivial ?_
      intro s' e1 e2 e3 e4 e5
      refine ⟨by rw [e1, e2]; exact h1, by rw [e1, e3]; exact h2, by rw [e1, e4]; exact h3, ?_⟩
      rw [e1, e5]
    | _ => rw [hc] at hs; cases hs
  | advance =>
    simp only [Ring.step] at hs
    cases hc : s.consumer with
    | emptied v =>
      rw [hc] at hs
      simp only at hs
      injection hs with hs; subst hs
      exact h.advance v hc
    | _ => rw [hc] at hs; cases hs

theorem Inv.run {C : Nat} {s s' : Ring T} (h : Inv C s) (es : List (Step T)) (hr : run C s es = some s') :
    Inv C s' := by
  induction es generalizing s with
  | nil => simp only [Ring.run, Option.some.injEq] at hr; subst hr; exact h
  | cons e es ih =>
    simp only [Ring.run] at hr
    cases hs : Ring.step C s e with
    | none => rw [hs] at hr; cases hr
    | some s1 => rw [hs] at hr; exact ih (h.step hs) hr

end Bedrock.Ring
