import Verif.Model.PerfTimer

/-! # C137: the performance lines account for the time -/

namespace Bedrock.PerfTimer.Props
open Bedrock

/-- The measurements follow each other, from a time on. -/
def Chrono : Nat → List Span → Prop
  | _, [] => True
  | lo, s :: l => lo ≤ s.from_ ∧ s.from_ ≤ s.to ∧ Chrono s.to l

instance : (lo : Nat) → (l : List Span) → Decidable (Chrono lo l)
  | _, [] => isTrue trivial
  | lo, s :: l =>
    have := instDecidableChrono s.to l
    inferInstanceAs (Decidable (lo ≤ s.from_ ∧ s.from_ ≤ s.to ∧ Chrono s.to l))

/-- The time of a kind. -/
def of (k : Bytes) (t : Totals) : Nat := ((t.filter fun p => p.1 = k).map (·.2)).sum

/-- The time of all kinds. -/
def all (t : Totals) : Nat := (t.map (·.2)).sum

/-- The time measured of a kind. -/
def measured (k : Bytes) (l : List Span) : Nat := ((l.filter fun s => s.kind = k).map fun s => s.to - s.from_).sum

theorem of_cons (k k' : Bytes) (v : Nat) (t : Totals) : of k ((k', v) :: t) = (if k' = k then v else 0) + of k t := by
  unfold of
  rw [List.filter_cons]
  by_cases h : k' = k
  · simp [h]
  · simp [h]

theorem of_record (k k' : Bytes) (d : Nat) (t : Totals) : of k (record k' d t) = of k t + if k' = k then d else 0 := by
  induction t with
  | nil => unfold record; rw [of_cons]; simp [of]
  | cons p t ih =>
    obtain ⟨k'', v⟩ := p
    unfold record
    by_cases h : k'' = k'
    · subst h
      rw [if_pos rfl, of_cons, of_cons]
      split <;> omega
    · rw [if_neg h, of_cons, of_cons, ih]
      omega

theorem all_cons (p : Bytes × Nat) (t : Totals) : all (p :: t) = p.2 + all t := by
  unfold all
  rw [List.map_cons, List.sum_cons]

theorem all_record_nil (k : Bytes) (d : Nat)  : all (record k d []) = all [] + d := by
  show d + 0 = 0 + d
  omega

theorem all_record (k : Bytes) (d : Nat) : ∀ (t : Totals), all (record k d t) = all t + d
  | [] => all_record_nil k d
  | p :: t => by
    have ih := all_record k d t
    have e : record k d (p :: t) = if p.1 = k then (p.1, p.2 + d) :: t else p :: record k d t := rfl
    rw [e, all_cons]
    split
    · rw [all_cons]; dsimp only; omega
    · rw [all_cons, ih]; omega

theorem run_defaults (l : List Span) (t : Timer) : (run t l).1.defaults = t.defaults := by
  induction l generalizing t with
  | nil => rfl
  | cons s l ih =>
    unfold run
    dsimp only
    rw [ih]
    unfold measure stop
    dsimp only
    split <;> rfl

/-- **C137** No measured time is lost and none counted twice: for every kind, what the lines tell and what is still to be told are
what was measured, and the defaults once for each line and once for the line to come. -/
theorem c137_conserved (l : List Span) (t : Timer) (k : Bytes) :
    ((run t l).2.map fun x => of k x.totals).sum + of k (run t l).1.totals =
      of k t.totals + measured k l + (run t l).2.length * of k t.defaults := by
  induction l generalizing t with
  | nil => simp [run, measured]
  | cons s l ih =>
    have hm : measured k (s :: l) = (if s.kind = k then s.to - s.from_ else 0) + measured k l := by
      unfold measured
      rw [List.filter_cons]
      by_cases h : s.kind = k <;> simp [h]
    have h := ih (measure t s).1
    unfold run
    dsimp only
    rw [hm]
    unfold measure stop start at h ⊢
    dsimp only at h ⊢
    split at h
    · rename_i hp
      rw [if_pos hp]
      simp only [Option.toList_some, List.map_append, List.map_cons, List.map_nil, List.sum_append, List.sum_cons, List.sum_nil,
        List.length_append, List.length_cons, List.length_nil, Nat.add_mul, of_record]
      dsimp only at h
      omega
    · rename_i hp
      rw [if_neg hp]
      simp only [Option.toList_none, List.nil_append]
      rw [of_record] at h
      dsimp only at h
      omega

/-- **C137** The kinds of a line together have no more time than the period and the defaults: with defaults of zero, as the server makes
the timer, the percentages of a line add up to a hundred at most. -/
theorem c137_line {lo : Nat} {l : List Span} {t : Timer} (hl : t.lastLogStart ≤ lo) (h : Chrono lo l)
    (ht : all t.totals ≤ all t.defaults + (lo - t.lastLogStart)) :
    ∀ x ∈ (run t l).2, all x.totals ≤ all t.defaults + x.elapsed ∧ period < x.elapsed := by
  induction l generalizing t lo with
  | nil => intro x hx; cases hx
  | cons s l ih =>
    obtain ⟨h1, h2, h3⟩ := h
    intro x hx
    have hd := run_defaults [s] t
    unfold run at hx
    dsimp only at hx
    unfold measure stop start at hx
    dsimp only at hx
    split at hx
    · rename_i hp
      rcases List.mem_append.mp hx with hx | hx
      · rw [Option.toList_some, List.mem_singleton] at hx
        subst hx
        dsimp only
        rw [all_record]
        omega
      · exact ih (t := { t with lastType := s.kind, lastStart := s.from_, lastLogStart := s.to, totals := t.defaults })
          (Nat.le_refl _) h3 (by dsimp only; omega) x hx
    · rcases List.mem_append.mp hx with hx | hx
      · cases hx
      · exact ih (t := { t with lastType := s.kind, lastStart := s.from_, totals := record s.kind (s.to - s.from_) t.totals })
          (lo := s.to) (by dsimp only; omega) h3 (by dsimp only; rw [all_record]; omega) x hx

/-- **C137** The periods of the lines follow each other without a gap: they add up to the time from the making of the timer to the
start of the period that is still open. -/
theorem c137_periods {lo : Nat} {l : List Span} {t : Timer} (hl : t.lastLogStart ≤ lo) (h : Chrono lo l) :
    t.lastLogStart + ((run t l).2.map (·.elapsed)).sum = (run t l).1.lastLogStart := by
  induction l generalizing t lo with
  | nil => simp [run]
  | cons s l ih =>
    obtain ⟨h1, h2, h3⟩ := h
    unfold run
    dsimp only
    unfold measure stop start
    dsimp only
    split
    · have := ih (t := { t with lastType := s.kind, lastStart := s.from_, lastLogStart := s.to, totals := t.defaults })
        (Nat.le_refl _) h3
      dsimp only at this
      simp only [Option.toList_some, List.map_append, List.map_cons, List.map_nil, List.sum_append, List.sum_cons, List.sum_nil]
      omega
    · exact ih (t := { t with lastType := s.kind, lastStart := s.from_, totals := record s.kind (s.to - s.from_) t.totals })
        (lo := s.to) (by dsimp only; omega) h3

/-- **C137** A line comes with the first measurement that ends more than ten seconds after the line before, and not before; the
caller gets the microseconds of its own measurement either way. -/
theorem c137_when (t : Timer) (s : Span) : ((measure t s).2.1.isSome = true ↔ period < s.to - t.lastLogStart) ∧
    (measure t s).2.2 = (s.to - s.from_) / 1000 := by
  unfold measure stop start
  dsimp only
  split
  · rename_i h; exact ⟨⟨fun _ => h, fun _ => rfl⟩, rfl⟩
  · rename_i h; exact ⟨⟨fun h' => (by cases h'), fun h' => absurd h' h⟩, rfl⟩

/-- **C137** fails for a `stop` that no `start` comes before: the time since the last start is counted again, so that a line may tell
of more time than has passed. -/
theorem c137_stop_again_partial : ∃ (t : Timer) (now : Nat), (stop t now).2.1.any (fun x => decide (x.elapsed < all x.totals)) = true :=
  ⟨(stop (start (make [] 0) [65] 0) 9000000000).1, 11000000000, by decide +kernel⟩

/-! `AutoTimer` -/

def AutoChrono : Nat → List (Nat × Nat) → Prop
  | _, [] => True
  | lo, p :: l => lo ≤ p.1 ∧ p.1 ≤ p.2 ∧ AutoChrono p.2 l

instance : (lo : Nat) → (l : List (Nat × Nat)) → Decidable (AutoChrono lo l)
  | _, [] => isTrue trivial
  | lo, p :: l =>
    have := instDecidableAutoChrono p.2 l
    inferInstanceAs (Decidable (lo ≤ p.1 ∧ p.1 ≤ p.2 ∧ AutoChrono p.2 l))

/-- **C137** The time of an `AutoTimer` is never more than the time passed, in any line, and a line comes no more often than every
ten seconds. -/
theorem c137_auto {lo : Nat} {l : List (Nat × Nat)} {t : Auto} (h : AutoChrono lo l) (hl : t.intervalStart ≤ lo)
    (ht : t.countedTime ≤ lo - t.intervalStart) :
    ∀ x ∈ (autoRun t l).2, x.1 ≤ x.2 ∧ 10000 ≤ x.2 := by
  induction l generalizing t lo with
  | nil => intro x hx; cases hx
  | cons p l ih =>
    obtain ⟨a, b⟩ := p
    obtain ⟨h1, h2, h3⟩ := h
    intro x hx
    unfold autoRun at hx
    dsimp only at hx h1 h2 h3
    unfold autoSpan at hx
    dsimp only at hx
    split at hx
    · rename_i hp
      rcases List.mem_append.mp hx with hx | hx
      · rw [Option.toList_some, List.mem_singleton] at hx
        subst hx
        dsimp only
        refine ⟨Nat.div_le_div_right (by omega), ?_⟩
        unfold period at hp
        omega
      · exact ih (t := { intervalStart := b, countedTime := 0 }) h3 (Nat.le_refl _) (Nat.zero_le _) x hx
    · rcases List.mem_append.mp hx with hx | hx
      · cases hx
      · exact ih (t := { t with countedTime := t.countedTime + (b - a) }) h3 (by dsimp only; omega) (by dsimp only; omega) x hx

theorem auto_sums {m q u v w z c d : Nat} (m1 : q * m ≤ c + d) (m2 : c + d < q * m + m) (h1 : u * m + w ≤ 0 + z)
    (h2 : 0 + z ≤ (u + v) * m + w) : (q + u) * m + w ≤ c + (d + z) ∧ c + (d + z) ≤ (q + u + (v + 1)) * m + w := by
  simp only [Nat.add_mul, Nat.one_mul] at *
  generalize q * m = q' at *
  generalize u * m = u' at *
  generalize v * m = v' at *
  omega

/-- **C137** and the lines with what is still counted tell, to a millisecond for each line, all the time measured. -/
theorem c137_auto_total (l : List (Nat × Nat)) (t : Auto) :
    ((autoRun t l).2.map (·.1)).sum * 1000000 + (autoRun t l).1.countedTime ≤ t.countedTime + (l.map fun p => p.2 - p.1).sum ∧
    t.countedTime + (l.map fun p => p.2 - p.1).sum ≤
      (((autoRun t l).2.map (·.1)).sum + (autoRun t l).2.length) * 1000000 + (autoRun t l).1.countedTime := by
  induction l generalizing t with
  | nil => exact ⟨by simp [autoRun], by simp [autoRun]⟩
  | cons p l ih =>
    obtain ⟨a, b⟩ := p
    have e : autoRun t ((a, b) :: l) =
        ((autoRun (autoSpan t a b).1 l).1, (autoSpan t a b).2.toList ++ (autoRun (autoSpan t a b).1 l).2) := rfl
    have hs : (((a, b) :: l).map fun p => p.2 - p.1).sum = (b - a) + (l.map fun p => p.2 - p.1).sum := by
      rw [List.map_cons, List.sum_cons]
    have h := ih (autoSpan t a b).1
    rw [e, hs]
    dsimp only
    by_cases hp : t.intervalStart + period < b
    · have e1 : autoSpan t a b = ({ intervalStart := b, countedTime := 0 },
          some ((t.countedTime + (b - a)) / 1000000, (b - t.intervalStart) / 1000000)) := if_pos hp
      rw [e1] at h ⊢
      have m1 := Nat.div_mul_le_self (t.countedTime + (b - a)) 1000000
      have m2 := Nat.lt_div_mul_add (a := t.countedTime + (b - a)) (b := 1000000) (Nat.succ_pos _)
      have e2 : ∀ (x : Nat × Nat) (r : List (Nat × Nat)), (((some x).toList ++ r).map (·.1)).sum = x.1 + (r.map (·.1)).sum ∧
          ((some x).toList ++ r).length = r.length + 1 := fun x r => ⟨by simp, by simp⟩
      rw [(e2 _ _).1, (e2 _ _).2]
      dsimp only at h ⊢
      exact auto_sums m1 m2 h.1 h.2
    · have e1 : autoSpan t a b = ({ t with countedTime := t.countedTime + (b - a) }, none) := if_neg hp
      rw [e1] at h ⊢
      dsimp only at h ⊢
      rw [Option.toList_none, List.nil_append]
      rw [Nat.add_assoc] at h
      exact h

example : (run (make [] 0) [⟨[65], 0, 4000000000⟩, ⟨[66], 5000000000, 6000000000⟩, ⟨[65], 7000000000, 11000000000⟩, ⟨[66], 12000000000, 13000000000⟩]) =
    ({ lastType := [66], lastStart := 12000000000, lastLogStart := 11000000000, defaults := [], totals := [([66], 1000000000)] },
      [{ elapsed := 11000000000, totals := [([65], 8000000000), ([66], 1000000000)] }]) := by decide +kernel
example : Chrono 0 [⟨[65], 0, 4000000000⟩, ⟨[66], 5000000000, 6000000000⟩, ⟨[65], 7000000000, 11000000000⟩] := by decide +kernel
example : autoRun { intervalStart := 0, countedTime := 0 } [(0, 3000000000), (4000000000, 10500000000)] =
    ({ intervalStart := 10500000000, countedTime := 0 }, [(9500, 10500)]) := by decide +kernel
example : AutoChrono 0 [(0, 3000000000), (4000000000, 10500000000)] := by decide +kernel

/-- **C137** From the making of a timer on, each kind's time in the lines and still to be told is what was measured, and the default
once for each line and once more; and no line tells of more than its period and the defaults. -/
theorem c137_from_start {now : Nat} {l : List Span} (h : Chrono now l) (defaults : Totals) :
    (∀ k, ((run (make defaults now) l).2.map fun x => of k x.totals).sum + of k (run (make defaults now) l).1.totals =
      measured k l + ((run (make defaults now) l).2.length + 1) * of k defaults) ∧
    (∀ x ∈ (run (make defaults now) l).2, all x.totals ≤ all defaults + x.elapsed) ∧
    now + ((run (make defaults now) l).2.map (·.elapsed)).sum = (run (make defaults now) l).1.lastLogStart := by
  refine ⟨fun k => ?_, fun x hx => (c137_line (t := make defaults now) (Nat.le_refl _) h (by show all defaults ≤ all defaults + _; omega) x hx).1,
    c137_periods (t := make defaults now) (Nat.le_refl _) h⟩
  have := c137_conserved l (make defaults now) k
  have e1 : (make defaults now).totals = defaults := rfl
  have e2 : (make defaults now).defaults = defaults := rfl
  rw [e1, e2] at this
  rw [this, Nat.add_mul, Nat.one_mul]
  omega

end Bedrock.PerfTimer.Props
