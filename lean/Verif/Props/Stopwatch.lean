import Verif.Model.Stopwatch

/-! # C135: plugin timers -/

namespace Bedrock.Stopwatch.Props
open Bedrock

/-- The readings of a clock that is never set back, from a time on. -/
def Chrono : Nat → List Ev → Prop
  | _, [] => True
  | lo, .ding a b :: es => lo ≤ a.toNat ∧ a.toNat ≤ b.toNat ∧ Chrono b.toNat es
  | lo, .start t :: es => lo ≤ t.toNat ∧ Chrono t.toNat es

instance : (lo : Nat) → (es : List Ev) → Decidable (Chrono lo es)
  | _, [] => isTrue trivial
  | lo, .ding a b :: es =>
    have := instDecidableChrono b.toNat es
    inferInstanceAs (Decidable (lo ≤ a.toNat ∧ a.toNat ≤ b.toNat ∧ Chrono b.toNat es))
  | lo, .start t :: es =>
    have := instDecidableChrono t.toNat es
    inferInstanceAs (Decidable (lo ≤ t.toNat ∧ Chrono t.toNat es))

theorem ringing_iff {w : Timer} {a : UInt64} (h : w.startTime.toNat ≤ a.toNat) :
    ringing w a = true ↔ w.alarmDuration ≠ 0 ∧ w.startTime.toNat + w.alarmDuration.toNat < a.toNat := by
  unfold ringing elapsed
  have hs : (a - w.startTime).toNat = a.toNat - w.startTime.toNat := UInt64.toNat_sub_of_le _ _ h
  rw [Bool.and_eq_true, bne_iff_ne, decide_eq_true_iff, UInt64.lt_iff_toNat_lt, hs]
  constructor
  · rintro ⟨h1, h2⟩; exact ⟨h1, by omega⟩
  · rintro ⟨h1, h2⟩; exact ⟨h1, by omega⟩

theorem step_alarm (w : Timer) (e : Ev) : (step w e).1.alarmDuration = w.alarmDuration := by
  cases e with
  | ding a b => unfold step ding; dsimp only; split <;> (try split) <;> rfl
  | start t => rfl

theorem fired_after {lo : Nat} {w : Timer} {es : List Ev} (h : Chrono lo es) (hw : w.startTime.toNat ≤ lo) :
    ∀ x ∈ fired w es, w.startTime.toNat + w.alarmDuration.toNat < x.1.toNat ∧ x.1.toNat ≤ x.2.toNat := by
  induction es generalizing lo w with
  | nil => intro x hx; cases hx
  | cons e es ih =>
    intro x hx
    cases e with
    | start t =>
      have := ih h.2 (w := start w t) (Nat.le_refl _) x hx
      have e1 : (start w t).startTime = t := rfl
      have e2 : (start w t).alarmDuration = w.alarmDuration := rfl
      rw [e1, e2] at this
      exact ⟨by have := h.1; omega, this.2⟩
    | ding a b =>
      have hwa : w.startTime.toNat ≤ a.toNat := Nat.le_trans hw h.1
      unfold fired step ding at hx
      by_cases hr : ringing w a = true
      · simp only [hr, if_true] at hx
        rcases List.mem_append.mp hx with hx | hx
        · rw [List.mem_singleton] at hx
          subst hx
          exact ⟨((ringing_iff hwa).mp hr).2, h.2.1⟩
        · have := ih h.2.2 (w := start w b) (Nat.le_refl _) x hx
          have e1 : (start w b).startTime = b := rfl
          have e2 : (start w b).alarmDuration = w.alarmDuration := rfl
          rw [e1, e2] at this
          have h1 := h.2.1
          exact ⟨by omega, this.2⟩
      · simp only [Bool.not_eq_true] at hr
        simp only [hr] at hx
        have := ih h.2.2 (w := w) (Nat.le_trans hwa h.2.1) x hx
        exact this

/-- **C135** A plugin is never told twice within the time of its timer, however often the timer is asked and whenever it is started
anew: each call is later than the one before by more than that time. -/
theorem c135_not_twice {lo : Nat} {w : Timer} {es : List Ev} (h : Chrono lo es) (hw : w.startTime.toNat ≤ lo) :
    (fired w es).Pairwise fun x y => x.2.toNat + w.alarmDuration.toNat < y.1.toNat := by
  induction es generalizing lo w with
  | nil => exact List.Pairwise.nil
  | cons e es ih =>
    cases e with
    | start t => exact ih h.2 (w := start w t) (Nat.le_refl _)
    | ding a b =>
      have hwa : w.startTime.toNat ≤ a.toNat := Nat.le_trans hw h.1
      unfold fired step ding
      by_cases hr : ringing w a = true
      · simp only [hr, if_true]
        refine List.Pairwise.cons ?_ (ih h.2.2 (w := start w b) (Nat.le_refl _))
        intro y hy
        exact (fired_after h.2.2 (w := start w b) (Nat.le_refl _) y hy).1
      · simp only [Bool.not_eq_true] at hr
        simp only [hr]
        exact ih h.2.2 (w := w) (Nat.le_trans hwa h.2.1)

theorem fired_within {lo hi : Nat} {w : Timer} {es : List Ev} (h : Chrono lo es)
    (hhi : ∀ a b, Ev.ding a b ∈ es → a.toNat ≤ hi) : ∀ x ∈ fired w es, x.1.toNat ≤ hi := by
  induction es generalizing lo w with
  | nil => intro x hx; cases hx
  | cons e es ih =>
    intro x hx
    cases e with
    | start t => exact ih h.2 (fun a b hm => hhi a b (List.mem_cons_of_mem _ hm)) x hx
    | ding a b =>
      unfold fired at hx
      rcases List.mem_append.mp hx with hx | hx
      · unfold step at hx
        dsimp only at hx
        split at hx
        · rw [List.mem_singleton] at hx; subst hx; exact hhi a b List.mem_cons_self
        · cases hx
      · exact ih h.2.2 (fun a b hm => hhi a b (List.mem_cons_of_mem _ hm)) x hx

theorem count_of_pairwise {T hi : Nat} : ∀ {l : List (UInt64 × UInt64)} {s : Nat},
    l.Pairwise (fun x y => x.2.toNat + T < y.1.toNat) → (∀ x ∈ l, s + T < x.1.toNat ∧ x.1.toNat ≤ x.2.toNat) → (∀ x ∈ l, x.1.toNat ≤ hi) →
    s ≤ hi → s + l.length * (T + 1) ≤ hi
  | [], s, _, _, _, h => by simpa using h
  | x :: l, s, hp, ha, hh, _ => by
    rw [List.pairwise_cons] at hp
    have h1 := ha x List.mem_cons_self
    have h2 := hh x List.mem_cons_self
    have := count_of_pairwise (T := T) (hi := hi) (l := l) (s := x.1.toNat) hp.2
      (fun y hy => ⟨by have := hp.1 y hy; omega, (ha y (List.mem_cons_of_mem _ hy)).2⟩)
      (fun y hy => hh y (List.mem_cons_of_mem _ hy)) h2
    rw [List.length_cons, Nat.add_mul, Nat.one_mul]
    omega

/-- **C135** Up to a time the plugin is told at most as often as the timer's duration goes into the time since its start. -/
theorem c135_rate {lo hi : Nat} {w : Timer} {es : List Ev} (h : Chrono lo es) (hw : w.startTime.toNat ≤ lo) (hlo : lo ≤ hi)
    (hhi : ∀ a b, Ev.ding a b ∈ es → a.toNat ≤ hi) :
    (fired w es).length * (w.alarmDuration.toNat + 1) ≤ hi - w.startTime.toNat := by
  have := count_of_pairwise (s := w.startTime.toNat) (c135_not_twice h hw) (fired_after h hw) (fired_within h hhi) (by omega)
  omega

/-- **C135** It is told as soon as it is asked for after its time: the timer that was started last at some time fires at the first
reading later than that by more than the duration, and not before. -/
theorem c135_due {w : Timer} {a b : UInt64} (h : w.startTime.toNat ≤ a.toNat) (h0 : w.alarmDuration ≠ 0) :
    (ding w a b).2 = true ↔ w.startTime.toNat + w.alarmDuration.toNat < a.toNat := by
  unfold ding
  by_cases hr : ringing w a = true
  · rw [if_pos hr]; exact ⟨fun _ => ((ringing_iff h).mp hr).2, fun _ => rfl⟩
  · rw [if_neg hr]
    exact ⟨(by intro h'; cases h'), fun h' => absurd ((ringing_iff h).mpr ⟨h0, h'⟩) hr⟩

/-- The timer is asked at least every `g` microseconds. -/
def Often (g : Nat) : Nat → List Ev → Prop
  | _, [] => True
  | t, .ding a b :: es => a.toNat ≤ t + g ∧ Often g b.toNat es
  | _, .start _ :: _ => False

/-- **C135** While the main loop turns every `g` microseconds, the next call comes no later than that after the time is up.
The second reading of a `ding` that does not fire is never taken; it is written as the first. -/
theorem c135_in_time {g lo : Nat} {w : Timer} (pre : List Ev) (a b : UInt64) (h : Chrono lo (pre ++ [.ding a b]))
    (ho : Often g lo (pre ++ [.ding a b])) (hw : w.startTime.toNat ≤ lo) (h0 : w.alarmDuration ≠ 0) (hnone : fired w pre = [])
    (hlate : ∀ c d, Ev.ding c d ∈ pre → d = c) :
    a.toNat ≤ max lo (w.startTime.toNat + w.alarmDuration.toNat) + g := by
  induction pre generalizing lo with
  | nil => have := ho.1; omega
  | cons e pre ih =>
    cases e with
    | start t => exact ho.elim
    | ding c d =>
      have hwc : w.startTime.toNat ≤ c.toNat := Nat.le_trans hw h.1
      have hr : ringing w c = false := by
        cases hr : ringing w c with
        | false => rfl
        | true => unfold fired step ding at hnone; simp [hr] at hnone
      have hc : ¬ w.startTime.toNat + w.alarmDuration.toNat < c.toNat := by
        intro hlt
        rw [(ringing_iff hwc).mpr ⟨h0, hlt⟩] at hr
        cases hr
      have hd : d = c := hlate c d List.mem_cons_self
      subst hd
      have hn : fired w pre = [] := by
        unfold fired step ding at hnone
        simpa [hr] using hnone
      have := ih h.2.2 ho.2 hwc hn (fun c d hm => hlate c d (List.mem_cons_of_mem _ hm))
      omega

/-- **C135** A timer made with a duration fires when it is first asked, as long as the clock shows more than the duration. -/
theorem c135_first (alarm a b : UInt64) (h0 : alarm ≠ 0) (h : alarm < a) : (ding (withAlarm alarm) a b).2 = true :=
  (c135_due (w := withAlarm alarm) (Nat.zero_le _) h0).mpr (by
    show 0 + alarm.toNat < a.toNat
    have := UInt64.lt_iff_toNat_lt.mp h
    omega)

/-- **C135** A timer made without a duration never fires. -/
theorem c135_plain (now : UInt64) (es : List Ev) : fired (plain now) es = [] := by
  have : ∀ w : Timer, w.alarmDuration = 0 → fired w es = [] := by
    induction es with
    | nil => intro w _; rfl
    | cons e es ih =>
      intro w h
      unfold fired
      rw [ih _ (by rw [step_alarm]; exact h), List.append_nil]
      cases e with
      | start t => rfl
      | ding a b => unfold step ding ringing; simp [h]
  exact this _ rfl

/-- Timers of their own. -/
def Apart (l : List ((Nat × Nat) × (UInt64 × UInt64))) : Prop := (l.map fun x => x.1.2).Nodup

theorem turn_congr {ts ts' : Nat → Timer} : ∀ {l : List ((Nat × Nat) × (UInt64 × UInt64))},
    (∀ x ∈ l, ts x.1.2 = ts' x.1.2) → Apart l → (turn ts l).2 = (turn ts' l).2
  | [], _, _ => rfl
  | ((p, t), (a, b)) :: l, h, hn => by
    have ht : ts t = ts' t := h ((p, t), (a, b)) List.mem_cons_self
    have hn' := List.nodup_cons.mp hn
    unfold turn
    dsimp only
    have hrest : (turn (fun i => if i = t then (ding (ts t) a b).1 else ts i) l).2 =
        (turn (fun i => if i = t then (ding (ts' t) a b).1 else ts' i) l).2 := by
      refine turn_congr (fun x hx => ?_) hn'.2
      have : x.1.2 ≠ t := fun h' => hn'.1 (h' ▸ List.mem_map.mpr ⟨x, hx, rfl⟩)
      rw [if_neg this, if_neg this]
      exact h x (List.mem_cons_of_mem _ hx)
    rw [hrest, ht]

/-- **C135** In one turn of the main loop exactly the plugins whose timers ring are told, each of its own timers, once. -/
theorem c135_told (ts : Nat → Timer) (l : List ((Nat × Nat) × (UInt64 × UInt64))) (h : Apart l) :
    (turn ts l).2 = (l.filter fun x => ringing (ts x.1.2) x.2.1).map (·.1) := by
  induction l generalizing ts with
  | nil => rfl
  | cons x l ih =>
    obtain ⟨⟨p, t⟩, a, b⟩ := x
    have hn := List.nodup_cons.mp h
    have hrest : (turn (fun i => if i = t then (ding (ts t) a b).1 else ts i) l).2 = (turn ts l).2 := by
      refine turn_congr (fun x hx => ?_) hn.2
      have : x.1.2 ≠ t := fun h' => hn.1 (h' ▸ List.mem_map.mpr ⟨x, hx, rfl⟩)
      rw [if_neg this]
    unfold turn
    dsimp only
    rw [hrest, ih ts hn.2]
    unfold ding
    cases hr : ringing (ts t) a <;> simp [hr]

/-- **C135** and every timer is left as `ding` leaves it, the others as they were. -/
theorem c135_timers (ts : Nat → Timer) (l : List ((Nat × Nat) × (UInt64 × UInt64))) (h : Apart l) :
    (∀ x ∈ l, (turn ts l).1 x.1.2 = (ding (ts x.1.2) x.2.1 x.2.2).1) ∧
      ∀ t, (∀ x ∈ l, x.1.2 ≠ t) → (turn ts l).1 t = ts t := by
  induction l generalizing ts with
  | nil => exact ⟨fun x hx => (by cases hx), fun _ _ => rfl⟩
  | cons y l ih =>
    obtain ⟨⟨p, t⟩, a, b⟩ := y
    have hn := List.nodup_cons.mp h
    have := ih (fun i => if i = t then (ding (ts t) a b).1 else ts i) hn.2
    have hne : ∀ x ∈ l, x.1.2 ≠ t := fun x hx h' => hn.1 (h' ▸ List.mem_map.mpr ⟨x, hx, rfl⟩)
    unfold turn
    dsimp only
    refine ⟨fun x hx => ?_, fun i hi => ?_⟩
    · rcases List.mem_cons.mp hx with rfl | hx
      · dsimp only
        rw [this.2 t hne, if_pos rfl]
      · rw [this.1 x hx, if_neg (hne x hx)]
    · rw [this.2 i fun x hx => hi x (List.mem_cons_of_mem _ hx), if_neg]
      exact fun h' => hi _ List.mem_cons_self h'.symm

/-- **C135** fails when the clock is set back: a timer with any duration of less than the time that is left to the end of the
clock's range fires at once, however short a time ago it fired. -/
theorem c135_clock_back_partial (w : Timer) (a b : UInt64) (h0 : w.alarmDuration ≠ 0) (h : a < w.startTime)
    (hd : w.alarmDuration.toNat + w.startTime.toNat < 2 ^ 64 + a.toNat) : (ding w a b).2 = true := by
  have hlt := UInt64.lt_iff_toNat_lt.mp h
  have hs : (a - w.startTime).toNat = 2 ^ 64 + a.toNat - w.startTime.toNat := by
    rw [UInt64.toNat_sub]
    have := w.startTime.toNat_lt
    have := a.toNat_lt
    rw [Nat.mod_eq_of_lt (by omega)]
    omega
  have hr : ringing w a = true := by
    unfold ringing elapsed
    rw [Bool.and_eq_true, bne_iff_ne, decide_eq_true_iff, UInt64.lt_iff_toNat_lt, hs]
    exact ⟨h0, by omega⟩
  unfold ding
  rw [if_pos hr]

/-- **C135** fails for a timer that two plugins have registered: only the first of them is told. -/
theorem c135_shared_partial (ts : Nat → Timer) (p q t : Nat) (a b c d : UInt64) (hr : ringing (ts t) a = true)
    (hb : b.toNat ≤ c.toNat) (hc : c.toNat ≤ b.toNat + (ts t).alarmDuration.toNat) :
    (turn ts [((p, t), (a, b)), ((q, t), (c, d))]).2 = [(p, t)] := by
  have h2 : ringing (start (ts t) b) c = false := by
    cases h : ringing (start (ts t) b) c with
    | false => rfl
    | true =>
      have := ((ringing_iff (w := start (ts t) b) hb).mp h).2
      have e1 : (start (ts t) b).startTime = b := rfl
      have e2 : (start (ts t) b).alarmDuration = (ts t).alarmDuration := rfl
      rw [e1, e2] at this
      omega
  unfold turn turn turn ding
  simp [hr, h2]

/-- Asked every second for a minute, a timer of ten seconds. -/
def minute : List Ev := (List.range 60).map fun i => .ding (UInt64.ofNat (1000000000 + i * 1000000)) (UInt64.ofNat (1000000000 + i * 1000000))

example : Chrono 0 minute ∧ (fired (withAlarm 10000000) minute).map (fun x => (x.1.toNat - 1000000000) / 1000000) = [0, 11, 22, 33, 44, 55] := by
  decide +kernel
example : fired (withAlarm 10000000) [.ding 1000000000 1000000001, .ding 999999000 999999001] =
    [(1000000000, 1000000001), (999999000, 999999001)] := by decide +kernel
example : (turn (fun i => withAlarm (UInt64.ofNat (i * 100))) [((1, 0), (500, 500)), ((1, 3), (500, 501)), ((2, 7), (502, 502))]).2 = [(1, 3)] := by
  decide +kernel

/-- **C135** A stopwatch tells the time since it was made or last started, whether or not it has a duration, and asking it does not
change that unless it rings. -/
theorem c135_elapsed {t now : UInt64} (h : t.toNat ≤ now.toNat) (w : Timer) :
    (elapsed (plain t) now).toNat = now.toNat - t.toNat ∧ (elapsed (start w t) now).toNat = now.toNat - t.toNat ∧
      (start w t).alarmDuration = w.alarmDuration ∧ ∀ a b, (ding w a b).2 = false → (ding w a b).1 = w := by
  refine ⟨UInt64.toNat_sub_of_le _ _ h, UInt64.toNat_sub_of_le _ _ h, rfl, fun a b hd => ?_⟩
  unfold ding at hd ⊢
  split at hd
  · cases hd
  · rename_i hr; rw [if_neg hr]

example : elapsed (plain 5) 12 = 7 ∧ elapsed (start (withAlarm 3) 10) 12 = 2 := by decide +kernel

end Bedrock.Stopwatch.Props
