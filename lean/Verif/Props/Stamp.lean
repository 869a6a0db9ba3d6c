import Verif.Lemmas.Stamp

/-! # C124: times as texts

Jobs keeps times as texts and has the database compare them (`… >= nextRun`), which it does byte by byte. -/

namespace Bedrock.Stamp.Props
open Bedrock.Stamp Bedrock.Text

/-- C124.  The fields written are a date that exists and a time of the day, and they are those of the time given: days since
1970 by the rule of the Gregorian calendar. -/
theorem c124_date (t : Nat) :
    (1 ≤ (gmtime t).month ∧ (gmtime t).month ≤ 12) ∧
    (1 ≤ (gmtime t).day ∧ (gmtime t).day ≤ Lookup.daysInMonth (gmtime t).year (gmtime t).month) ∧
    (0 ≤ (gmtime t).hour ∧ (gmtime t).hour < 24) ∧ (0 ≤ (gmtime t).min ∧ (gmtime t).min < 60) ∧
    (0 ≤ (gmtime t).sec ∧ (gmtime t).sec < 60) ∧ timegm (gmtime t) = t := by
  obtain ⟨v, _, e⟩ := gmtime_spec t
  exact ⟨v.month, v.day, v.hour, v.min, v.sec, e⟩

/-- C124.  Up to the year 9999 the texts are in the order of the times. -/
theorem c124_order (a b : Nat) (ha : a < 253402300800000000) (hb : b < 253402300800000000) :
    (unquoted a < unquoted b ↔ a / 1000000 < b / 1000000) ∧ (unquoted a = unquoted b ↔ a / 1000000 = b / 1000000) := by
  have irr : ∀ x : Bytes, ¬ x < x := fun x => List.lt_irrefl x
  refine ⟨⟨fun h => ?_, unquoted_lt hb⟩, ⟨fun h => ?_, unquoted_congr⟩⟩
  · rcases Nat.lt_trichotomy (a / 1000000) (b / 1000000) with l | l | l
    · exact l
    · rw [unquoted_congr l] at h; exact absurd h (irr _)
    · exact absurd (unquoted_lt ha l) (List.lt_asymm h)
  · rcases Nat.lt_trichotomy (a / 1000000) (b / 1000000) with l | l | l
    · have := unquoted_lt hb l; rw [h] at this; exact absurd this (irr _)
    · exact l
    · have := unquoted_lt ha l; rw [h] at this; exact absurd this (irr _)

theorem millis_lt {a b : Nat} (ha : a < 253402300800000000) (hb : b < 253402300800000000) (h : a / 1000 < b / 1000) :
    millis a < millis b := by
  unfold millis
  simp only [List.append_assoc]
  by_cases hs : a / 1000000 < b / 1000000
  · exact lt_append (by rw [unquoted_length ha, unquoted_length hb]) (unquoted_lt hb hs) _ _
  · rw [unquoted_congr (show a / 1000000 = b / 1000000 by omega)]
    exact append_lt _ (append_lt _ (padded_lt 3 (by omega) (by omega)))

/-- C124.  With milliseconds too. -/
theorem c124_order_ms (a b : Nat) (ha : a < 253402300800000000) (hb : b < 253402300800000000) :
    (millis a < millis b ↔ a / 1000 < b / 1000) ∧ (millis a = millis b ↔ a / 1000 = b / 1000) := by
  have irr : ∀ x : Bytes, ¬ x < x := fun x => List.lt_irrefl x
  have congr : a / 1000 = b / 1000 → millis a = millis b := by
    intro h
    unfold millis
    rw [unquoted_congr (show a / 1000000 = b / 1000000 by omega),
      show a % 1000000 / 1000 = b % 1000000 / 1000 by omega]
  refine ⟨⟨fun h => ?_, millis_lt ha hb⟩, ⟨fun h => ?_, congr⟩⟩
  · rcases Nat.lt_trichotomy (a / 1000) (b / 1000) with l | l | l
    · exact l
    · rw [congr l] at h; exact absurd h (irr _)
    · exact absurd (millis_lt hb ha l) (List.lt_asymm h)
  · rcases Nat.lt_trichotomy (a / 1000) (b / 1000) with l | l | l
    · have := millis_lt ha hb l; rw [h] at this; exact absurd this (irr _)
    · exact l
    · have := millis_lt hb ha l; rw [h] at this; exact absurd this (irr _)

theorem lt_self_append : ∀ (a : Bytes) (c : UInt8) (x : Bytes), a < a ++ c :: x
  | [], _, _ => List.nil_lt_cons _ _
  | _ :: a, c, x => List.cons_lt_cons_iff.mpr (.inr ⟨rfl, lt_self_append a c x⟩)

/-- C124.  `now >= nextRun`, with the current time in milliseconds (Jobs.cpp:751) and a time of either kind: with milliseconds
(a job without `firstRun`) or without (a repeated or retried one, `DATETIME` of the database).  A job is due exactly when its
time has come. -/
theorem c124_due (now t : Nat) (hn : now < 253402300800000000) (ht : t < 253402300800000000) :
    (¬ millis now < unquoted t ↔ t / 1000000 ≤ now / 1000000) ∧ (¬ millis now < millis t ↔ t / 1000 ≤ now / 1000) := by
  refine ⟨?_, ?_⟩
  · constructor
    · intro h
      refine Nat.le_of_not_lt fun l => h ?_
      have := lt_append (a := unquoted now) (b := unquoted t) (by rw [unquoted_length hn, unquoted_length ht])
        (unquoted_lt ht l) (b!"." ++ padded 3 (now % 1000000 / 1000)) []
      rw [List.append_nil] at this
      unfold millis
      rw [List.append_assoc]; exact this
    · intro h l
      by_cases e : t / 1000000 = now / 1000000
      · rw [unquoted_congr e] at l
        have : unquoted now < millis now := by
          unfold millis
          rw [List.append_assoc]
          exact lt_self_append _ _ _
        exact absurd this (List.lt_asymm l)
      · have := lt_append (a := unquoted t) (b := unquoted now) (by rw [unquoted_length hn, unquoted_length ht])
          (unquoted_lt hn (by omega)) [] (b!"." ++ padded 3 (now % 1000000 / 1000))
        rw [List.append_nil] at this
        have : unquoted t < millis now := by unfold millis; rw [List.append_assoc]; exact this
        exact absurd this (List.lt_asymm l)
  · rw [(c124_order_ms now t hn ht).1]; omega

/-- C124.  The text has a fixed length and no byte that needs quoting: digits, `-`, `:`, a space and, with milliseconds, a dot. -/
theorem c124_length (a : Nat) (ha : a < 253402300800000000) : (unquoted a).length = 19 ∧ (millis a).length = 23 := by
  refine ⟨unquoted_length ha, ?_⟩
  unfold millis
  simp [unquoted_length ha]

theorem padded_digit : ∀ (w n : Nat), ∀ c ∈ padded w n, 48 ≤ c ∧ c ≤ 57
  | 0, _, c, h => by simp [padded] at h
  | w + 1, n, c, h => by
    rcases List.mem_append.mp h with h | h
    · exact padded_digit w _ c h
    · rw [List.mem_singleton] at h
      subst h
      have := (digit_of n).1
      simpa [digit] using this

theorem natDec_digit (n : Nat) : ∀ c ∈ natDec n, 48 ≤ c ∧ c ≤ 57 := by
  induction n using natDec.induct with
  | case1 n h =>
    rw [natDec_lt h]
    intro c hc
    rw [List.mem_singleton] at hc
    have := (digit_of n).1
    rw [Nat.mod_eq_of_lt h] at this
    subst hc
    simpa [digit] using this
  | case2 n h ih =>
    rw [natDec_ge h]
    intro c hc
    rcases List.mem_append.mp hc with hc | hc
    · exact ih c hc
    · rw [List.mem_singleton] at hc
      subst hc
      simpa [digit] using (digit_of n).1

/-- C124.  No byte of it is a quote (`STIMESTAMP` quotes it with `SQ`), for any time. -/
theorem c124_no_quote (a : Nat) : ∀ c ∈ millis a, c = 32 ∨ (45 ≤ c ∧ c ≤ 58 ∧ c ≠ 47) := by
  have d : ∀ c : UInt8, 48 ≤ c ∧ c ≤ 57 → c = 32 ∨ (45 ≤ c ∧ c ≤ 58 ∧ c ≠ 47) := by
    intro c h
    refine .inr ⟨UInt8.le_trans (by decide) h.1, UInt8.le_trans h.2 (by decide), ?_⟩
    intro e; subst e; exact absurd h.1 (by decide)
  have p : ∀ w n, ∀ c ∈ padded w n, c = 32 ∨ (45 ≤ c ∧ c ≤ 58 ∧ c ≠ 47) := fun w n c h => d c (padded_digit w n c h)
  have one : ∀ k : UInt8, (k = 32 ∨ (45 ≤ k ∧ k ≤ 58 ∧ k ≠ 47)) → ∀ c ∈ [k], c = 32 ∨ (45 ≤ c ∧ c ≤ 58 ∧ c ≠ 47) := by
    intro k hk c hc; rw [List.mem_singleton] at hc; rw [hc]; exact hk
  intro c hc
  unfold millis unquoted at hc
  simp only [List.mem_append] at hc
  rcases hc with ((((((((((((h | h) | h) | h) | h) | h) | h) | h) | h) | h) | h) | h) | h)
  · exact d c (natDec_digit _ c h)
  · exact one _ (by decide) c h
  · exact p _ _ c h
  · exact one _ (by decide) c h
  · exact p _ _ c h
  · exact one _ (by decide) c h
  · exact p _ _ c h
  · exact one _ (by decide) c h
  · exact p _ _ c h
  · exact one _ (by decide) c h
  · exact p _ _ c h
  · exact one _ (by decide) c h
  · exact p _ _ c h

/-! ## Reading -/

/-- C124.  Where local time is UTC, the time in seconds is read back from either text; elsewhere it is off by the offset. -/
theorem c124_round_trip_partial (zone : Int) (a : Nat) (ha : a < 253402300800000000) :
    (toEpoch zone (unquoted a) : Int) = ((a / 1000000 : Nat) - zone) % 2 ^ 64 ∧ toEpoch zone (millis a) = toEpoch zone (unquoted a) := by
  obtain ⟨v, y, e⟩ := gmtime_spec (a / 1000000)
  have h : ∀ rest, strptime format zeroTm (unquoted a ++ rest) = gmtime (a / 1000000) :=
    fun rest => strptime_textOf v y (year_lt (by omega)) zeroTm rest
  have h0 := h []
  rw [List.append_nil] at h0
  refine ⟨?_, ?_⟩
  · unfold toEpoch
    rw [h0, e]
    exact Int.toNat_of_nonneg (Int.emod_nonneg _ (by decide))
  · unfold toEpoch millis
    rw [List.append_assoc, h, h0]

theorem c124_round_trip_utc (a : Nat) (ha : a < 253402300800000000) : toEpoch 0 (unquoted a) = a / 1000000 := by
  have := (c124_round_trip_partial 0 a ha).1
  rw [Int.sub_zero, Int.emod_eq_of_lt (by omega) (by omega)] at this
  omega

/-- C124, where the code falls short.  A text that is no time is not refused: it is read as a time in the year 1899, which as an
unsigned number lies in the far future. -/
theorem c124_any_text : toEpoch 0 (b!"soon") = 18446744071500476416 ∧ toEpoch 0 [] = 18446744071500476416 := by decide +kernel

/-- C124, likewise: February 30th is read as March 1st. -/
theorem c124_february : toEpoch 0 (b!"2024-02-30 00:00:00") = toEpoch 0 (b!"2024-03-01 00:00:00") := by decide +kernel

/-- C124, where the order ends: the first second of the year 10000 sorts before all of the year 1970. -/
theorem c124_year_10000 : unquoted 253402300800000000 < unquoted 0 ∧ (0 : Nat) < 253402300800000000 := by
  refine ⟨?_, by decide⟩
  have e : unquoted 253402300800000000 = b!"10000-01-01 00:00:00" := by decide +kernel
  have z : unquoted 0 = b!"1970-01-01 00:00:00" := by decide +kernel
  rw [e, z]
  decide

/-! ## This morning -/

/-- C124.  `STimeThisMorning` is midnight only on the full second: it keeps the part of a second that the two clocks differ by.
`hi` is read after `now`. -/
theorem c124_this_morning (now hi : Nat) (h : now * 1000000 ≤ hi) :
    thisMorning now hi = ((now - now % 86400) * 1000000 : Nat) + (hi - now * 1000000 : Nat) := by
  obtain ⟨v, y, e⟩ := gmtime_spec now
  unfold thisMorning
  have z : timegm { gmtime now with hour := 0, min := 0, sec := 0 } = (now - now % 86400 : Nat) := by
    rw [timegm_eq] at e ⊢
    dsimp only at e ⊢
    have e1 : (gmtime now).hour = (now % 86400 / 3600 : Nat) := rfl
    have e2 : (gmtime now).min = (now % 3600 / 60 : Nat) := rfl
    have e3 : (gmtime now).sec = (now % 60 : Nat) := rfl
    rw [e1, e2, e3] at e
    omega
  rw [z]; omega

/-- C124, where the code falls short of its description ("midnight GMT"). -/
theorem c124_not_midnight : ∃ now hi, hi / 1000000 = now ∧ thisMorning now hi % 86400000000 ≠ 0 := by
  refine ⟨1763317618, 1763317618000001, by decide, ?_⟩
  rw [c124_this_morning _ _ (by decide)]
  decide

theorem c124_timeval (a b : Nat) : (toTimeval a).2 < 1000000 ∧ (toTimeval a).1 * 1000000 + (toTimeval a).2 = a ∧
    (toTimeval a = toTimeval b → a = b) := by
  unfold toTimeval
  refine ⟨Nat.mod_lt _ (by decide), by dsimp only; omega, fun h => ?_⟩
  injection h with h1 h2
  omega

/-! ## Cases -/

example : millis 1763317618123456 = b!"2025-11-16 18:26:58.123" := by decide +kernel
example : unquoted 951782400123456 = b!"2000-02-29 00:00:00" := by decide +kernel
example : toEpoch 0 (b!"2000-02-29 00:00:00") = 951782400 := by decide +kernel
example : toEpoch 3600 (b!"2000-02-29 00:00:00") = 951782400 - 3600 := by decide +kernel
example : ¬ millis 1763317618123456 < unquoted 1763317618999999 :=
  (c124_due _ _ (by decide) (by decide)).1.mpr (by decide)

end Bedrock.Stamp.Props
