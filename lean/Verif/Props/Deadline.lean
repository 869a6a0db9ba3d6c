import Verif.Model.Command
import Verif.Lemmas.Http

/-!
# C43: command timeouts are honoured and never extended
-/

namespace Bedrock.Deadline.Props
open Bedrock Bedrock.Text Bedrock.Deadline

/-- A clock reading: microseconds since the epoch, before the year 140000. -/
def Clock (t : Int) : Prop := 0 ≤ t ∧ t < 2 ^ 62

theorem toInt32_id {x : Int} (h1 : -2 ^ 31 ≤ x) (h2 : x < 2 ^ 31) : toInt32 x = x := by
  unfold toInt32; omega

theorem toI64_id {x : Int} (h1 : -2 ^ 63 ≤ x) (h2 : x < 2 ^ 63) : toI64 x = x := by
  unfold toI64; omega

theorem toU64_id {x : Int} (h1 : 0 ≤ x) (h2 : x < 2 ^ 64) : toU64 x = x := by
  unfold toU64; omega

theorem toU64_add (a b : Int) : toU64 (toU64 a + b) = toU64 (a + b) := by
  unfold toU64; omega

theorem toU64_toI64 (a : Int) : toU64 (toI64 (toU64 a)) = toU64 a := by
  unfold toU64 toI64; omega

theorem deadline_eq (r : Req) (now : Int) :
    deadline r now = toU64 (timeoutMs r * 1000 + scheduled r now) := by
  unfold deadline
  rw [toU64_add, toU64_toI64]

theorem strtoll_range (v : Bytes) : -2 ^ 63 ≤ strtoll v ∧ strtoll v < 2 ^ 63 := by
  unfold strtoll
  split
  · omega
  · split
    · omega
    · split <;> omega

/-- **C43** (partial: see `c43_huge_negative_timeout`.)  A request with a `timeout` header not below
the range of `int` gets exactly that many milliseconds, at most `0x7fffffff`, counted from its
creation. -/
theorem c43_requested_timeout_partial (r : Req) (now : Int) (hn : Clock now) (v : Bytes)
    (hv : r.timeout = some v) (he : r.executeTime = none) (hlow : -2 ^ 31 ≤ strtoll v)
    (hpos : 0 ≤ now + min (strtoll v) 2147483647 * 1000) :
    deadline r now = now + min (strtoll v) 2147483647 * 1000 := by
  rw [deadline_eq]
  simp only [timeoutMs, scheduled, hv, he, calcInt]
  obtain ⟨h1, h2⟩ := hn
  rw [toInt32_id (by omega) (by omega), toU64_id (by omega) (by omega)]
  omega

/-- **C43** Without a `timeout` header a command has 110 seconds, or an hour for
`connection: forget`. -/
theorem c43_default_timeout (r : Req) (now : Int) (hn : Clock now) (hv : r.timeout = none)
    (he : r.executeTime = none) :
    deadline r now = now + (if r.forget then 3600000000 else 110000000) := by
  rw [deadline_eq]
  simp only [timeoutMs, scheduled, hv, he]
  obtain ⟨h1, h2⟩ := hn
  cases r.forget <;> simp only [Bool.false_eq_true, if_true, if_false] <;>
    rw [toU64_id (by omega) (by omega)] <;> omega

/-- **C43** A command scheduled for later has its time counted from the scheduled moment. -/
theorem c43_scheduled_timeout (r : Req) (now : Int) (hv : r.timeout = none) (w : Bytes)
    (he : r.executeTime = some w) (hw : Clock (strtoll w)) :
    deadline r now = strtoll w + (if r.forget then 3600000000 else 110000000) := by
  rw [deadline_eq]
  simp only [timeoutMs, scheduled, hv, he]
  obtain ⟨h1, h2⟩ := hw
  rw [toU64_id (x := strtoll w) (by omega) (by omega)]
  cases r.forget <;> simp only [Bool.false_eq_true, if_true, if_false] <;>
    rw [toU64_id (by omega) (by omega)] <;> omega

/-- **C43** What is left is what the clock says: a command has time left exactly if its deadline is
in the future (and, when processing, its processing allowance is positive), and then the amount is
the smaller of the two. -/
theorem c43_remaining (r : Req) (d now : Int) (hd : 0 ≤ d ∧ d < 2 ^ 63) (hn : Clock now)
    (p : Bool) :
    (remaining r d now p = none ↔ d ≤ now ∨ (p = true ∧ processUs r ≤ 0)) ∧
    (∀ x, remaining r d now p = some x →
      0 < x ∧ x ≤ d - now ∧ (p = true → x ≤ processUs r) ∧ (p = false → x = d - now)) := by
  obtain ⟨d1, d2⟩ := hd
  obtain ⟨n1, n2⟩ := hn
  unfold remaining
  rw [toI64_id (x := d) (by omega) (by omega), toI64_id (x := now) (by omega) (by omega),
    toI64_id (x := d - now) (by omega) (by omega)]
  dsimp only
  constructor
  · by_cases hc : d - now ≤ 0 ∨ p = true ∧ processUs r ≤ 0
    · rw [if_pos hc]
      refine ⟨fun _ => ?_, fun _ => rfl⟩
      rcases hc with hc | hc
      · left; omega
      · right; exact hc
    · rw [if_neg hc]
      refine ⟨fun h => by simp at h, fun h => ?_⟩
      exact absurd (by rcases h with h | h; · left; omega
                       · right; exact h) hc
  · intro x hx
    by_cases hc : d - now ≤ 0 ∨ p = true ∧ processUs r ≤ 0
    · rw [if_pos hc] at hx; simp at hx
    · rw [if_neg hc] at hx
      simp only [Option.some.injEq] at hx
      cases p with
      | false =>
        simp at hx hc
        subst hx
        exact ⟨by omega, by omega, fun h => by simp at h, fun _ => rfl⟩
      | true =>
        simp at hx hc
        subst hx
        exact ⟨by omega, by omega, fun _ => by omega, fun h => by simp at h⟩

/-! ## Expired commands do not run -/

open Bedrock.Command in
/-- **C43** An expired command never reaches the plugin again: prePeek, peek and process answer 555
and finish the command without calling the plugin. -/
theorem c43_expired_does_not_run (e : Env) (rw p : Callback) (h : Hd) (c : Cmd)
    (hd : 0 ≤ c.deadline ∧ c.deadline < 2 ^ 63) (ht : Clock e.t₀) (ha : e.abort₀ = false)
    (hexp : c.deadline ≤ e.t₀) :
    (∀ c' ∈ [(prePeek e p h c).2, (peek e p h c).2.1, (process e rw p h c).2.1],
      c'.ran = c.ran ∧ c'.response = "555 Timeout" ∧ c'.complete = true) ∧
    (peek e p h c).2.2 = .complete ∧ (process e rw p h c).2.2 = .noCommitRequired ∧
    (isTimedOut c e.t₀).2 = true ∧ (isTimedOut c e.t₀).1.response = "555 Timeout" := by
  have h1 : remaining c.req c.deadline e.t₀ false = none :=
    (c43_remaining c.req c.deadline e.t₀ hd ht false).1.mpr (Or.inl hexp)
  have h2 : remaining c.req c.deadline e.t₀ true = none :=
    (c43_remaining c.req c.deadline e.t₀ hd ht true).1.mpr (Or.inl hexp)
  simp [prePeek, peek, process, readBody, peekBody, processBody, ha, h1, h2, isTimedOut, readCatch,
    processCatch, handleException]

open Bedrock.Command in
/-- **C43** While the callback runs the database enforces a time limit no larger than the time the
command has left; processing is also limited by the processing allowance. -/
theorem c43_limit_in_force (e : Env) (p : Callback) (c : Cmd) (h : Hd)
    (hd : 0 ≤ c.deadline ∧ c.deadline < 2 ^ 63) (ht : Clock e.t₀) (ha : e.abort₀ = false)
    (hlive : e.t₀ < c.deadline) :
    ∃ lim, 0 < lim ∧ lim = c.deadline - e.t₀ ∧
      ∀ st what, (readBody e p st what h c).1 =
        p.calls.foldl Call.run { h with limit := some lim, abortRef := true, queryOnly := true } := by
  obtain ⟨k1, k2⟩ := c43_remaining c.req c.deadline e.t₀ hd ht false
  cases hr : remaining c.req c.deadline e.t₀ false with
  | none =>
    have := k1.mp hr
    rcases this with h | h
    · omega
    · simp at h
  | some x =>
    obtain ⟨a, _, _, b⟩ := k2 x hr
    refine ⟨x, a, b rfl, ?_⟩
    intro st what
    simp only [readBody, ha, hr, Callback.exec]
    repeat' split
    all_goals first | rfl | contradiction

/-! ## Shortening the deadline on the blocking thread -/

/-- **C43** (partial: see `c43_decrease_extends`.)  Moving a command to the blocking thread only ever
brings its deadline forward, up to the time that passes between the two clock readings; and the
result is at most the thread's allowance after the second reading or the old deadline. -/
theorem c43_decrease_partial (r : Req) (d ms t1 t2 d' : Int) (hd : 0 ≤ d ∧ d < 2 ^ 63)
    (h1 : Clock t1) (h2 : Clock t2) (hms : 0 ≤ ms ∧ ms < 2 ^ 31) (ht : t1 ≤ t2)
    (hdec : decrease r d ms t1 t2 = some d') :
    d' ≤ d + (t2 - t1) ∧ (d' = d ∨ d' = t2 + ms * 1000) ∧ d' ≤ max d (t2 + ms * 1000) ∧
    (t2 = t1 → d' ≤ d ∧ d' ≤ t1 + ms * 1000) := by
  obtain ⟨k1, k2⟩ := c43_remaining r d t1 hd h1 false
  unfold decrease at hdec
  cases hr : remaining r d t1 false with
  | none => rw [hr] at hdec; simp at hdec
  | some x =>
    obtain ⟨a, b, _, c⟩ := k2 x hr
    have c := c rfl
    rw [hr] at hdec
    simp only [Option.some.injEq] at hdec
    obtain ⟨u1, u2⟩ := h2
    by_cases hc : ms * 1000 < x
    · rw [if_pos hc] at hdec
      have hs : setTimeout ms t2 = t2 + ms * 1000 := by
        unfold setTimeout
        rw [toU64_id (x := ms * 1000) (by omega) (by omega), toU64_id (by omega) (by omega)]
        omega
      rw [hs] at hdec
      subst hdec
      refine ⟨by omega, Or.inr rfl, by omega, fun h => ⟨by omega, by omega⟩⟩
    · rw [if_neg hc] at hdec
      subst hdec
      refine ⟨by omega, Or.inl rfl, by omega, fun h => ⟨by omega, by omega⟩⟩

/-! ## Sending a command to another node -/

theorem strtoll_natDec (n : Nat) (h : (n : Int) < 2 ^ 63) : strtoll (natDec n) = n := by
  unfold strtoll
  rw [scanDec_natDec]
  simp only
  rw [if_neg (by omega), if_neg (by omega)]

/-- **C43** (partial: needs a command that has not expired and was not scheduled with
`commandExecuteTime`; see the two witnesses below.)  A command with deadline `d` sent at time `s`
and received at time `t` gets, on the receiving node, the time that was left when it was sent,
rounded down to milliseconds: time spent on the first node is not given back. -/
theorem c43_forward_partial (r : Req) (d s t : Int) (hd : 0 ≤ d) (hs : Clock s) (ht : Clock t)
    (hsd : s ≤ d) (hlong : d - s < 2147483648000) (he : r.executeTime = none) :
    deadline (forwarded r d s) t = t + (d - s) / 1000 * 1000 ∧
    deadline (forwarded r d s) t ≤ d + (t - s) ∧ d + (t - s) < deadline (forwarded r d s) t + 1000 := by
  obtain ⟨s1, s2⟩ := hs
  obtain ⟨t1, t2⟩ := ht
  have hu : toU64 (d - s) = d - s := toU64_id (by omega) (by omega)
  have hn : ((((d - s) / 1000).toNat : Nat) : Int) = (d - s) / 1000 := Int.toNat_of_nonneg (by omega)
  have hv : strtoll (natDec ((d - s) / 1000).toNat) = (d - s) / 1000 := by
    rw [strtoll_natDec _ (by omega), hn]
  have key : deadline (forwarded r d s) t = t + (d - s) / 1000 * 1000 := by
    have := c43_requested_timeout_partial (forwarded r d s) t ⟨t1, t2⟩
      (natDec ((d - s) / 1000).toNat) (by simp [forwarded, hu]) he (by rw [hv]; omega)
      (by rw [hv]; omega)
    rw [this, hv]
    omega
  rw [key]
  omega

/-- A journey over several nodes: `(s, t)` for each hop, sent at `s` and received at `t`; the result
is the deadline at the end. -/
def hops (r : Req) (d : Int) : List (Int × Int) → Int
  | [] => d
  | (s, t) :: rest => hops (forwarded r d s) (deadline (forwarded r d s) t) rest

/-- Each hop happens before the command expires there. -/
def Live (r : Req) (d : Int) : List (Int × Int) → Prop
  | [] => True
  | (s, t) :: rest => Clock s ∧ Clock t ∧ s ≤ d ∧ d - s < 2147483648000 ∧
      Live (forwarded r d s) (deadline (forwarded r d s) t) rest

/-- **C43** (partial, same hypotheses.)  However many nodes a command passes through, its deadline
moves by at most the total time it spent between nodes. -/
theorem c43_hops_partial (l : List (Int × Int)) : ∀ (r : Req) (d : Int), 0 ≤ d →
    r.executeTime = none → Live r d l →
    hops r d l ≤ d + (l.map (fun e => e.2 - e.1)).sum := by
  induction l with
  | nil => intro r d _ _ _; simp [hops]
  | cons e l ih =>
    intro r d hd he hl
    obtain ⟨s, t⟩ := e
    obtain ⟨h1, h2, h3, h4, h5⟩ := hl
    obtain ⟨k1, k2, k3⟩ := c43_forward_partial r d s t hd h1 h2 h3 h4 he
    have h2' := h2.1
    have := ih (forwarded r d s) (deadline (forwarded r d s) t) (by omega) he h5
    simp only [hops, List.map_cons, List.sum_cons]
    omega

/-- The hypotheses are met: 110 s command, sent on after 2 s and again after 1 more. -/
example : hops {} 110000000 [(2000000, 2000100), (3000000, 3000100)] = 110000100 := by
  have h1 : Live {} 110000000 [(2000000, 2000100), (3000000, 3000100)] := by
    have := (c43_forward_partial {} 110000000 2000000 2000100 (by omega) ⟨by omega, by omega⟩
      ⟨by omega, by omega⟩ (by omega) (by omega) rfl).1
    refine ⟨⟨by omega, by omega⟩, ⟨by omega, by omega⟩, by omega, by omega, ⟨by omega, by omega⟩,
      ⟨by omega, by omega⟩, ?_, ?_, trivial⟩ <;> rw [this] <;> omega
  obtain ⟨-, -, -, -, h2, h3, h4, h5, -⟩ := h1
  have e1 := (c43_forward_partial {} 110000000 2000000 2000100 (by omega) ⟨by omega, by omega⟩
      ⟨by omega, by omega⟩ (by omega) (by omega) rfl).1
  have e2 := (c43_forward_partial (forwarded {} 110000000 2000000)
    (deadline (forwarded {} 110000000 2000000) 2000100) 3000000 3000100 (by rw [e1]; omega) h2 h3 h4 h5
    rfl).1
  simp only [hops]
  rw [e2, e1]; omega

/-! ## Violations -/

/-- **C43, violation**: a `timeout` below the range of `int` wraps round: asking for -2147483649 ms
gives the command the longest possible timeout, almost 25 days. -/
theorem c43_huge_negative_timeout :
    deadline { timeout := some "-2147483649".toUTF8.toList } 0 = 2147483647000 := by decide +kernel

/-- **C43, violation**: a delay between the two clock readings of `decreaseCommandTimeout` gives time
back.  The command has 5.000001 s left, the thread is suspended for 3 s between the readings, and the
new deadline is 2.999999 s later than the old one. -/
theorem c43_decrease_extends :
    decrease {} 105000001 5000 100000000 103000000 = some 108000000 := by decide +kernel

/-- **C43, violation**: a command that has just expired when it is sent to another node (waiting for a
leader takes up to 5 s) arrives with almost 25 days: the subtraction is unsigned. -/
theorem c43_expired_forward (t : Int) (ht : Clock t) :
    deadline (forwarded {} 110000000 110000001) t = t + 2147483647000 := by
  have hu : toU64 (110000000 - 110000001) / 1000 = 18446744073709551 := by decide
  have hv : strtoll (natDec 18446744073709551) = 18446744073709551 := by
    rw [strtoll_natDec _ (by omega)]; rfl
  have := c43_requested_timeout_partial (forwarded {} 110000000 110000001) t ht
    (natDec 18446744073709551) (by simp only [forwarded, hu]; rfl) rfl (by rw [hv]; omega)
    (by rw [hv]; have := ht.1; omega)
  rw [this, hv]; omega

/-- **C43, violation**: a command scheduled with `commandExecuteTime` loses time when it is sent on:
the receiving node counts the time left from the scheduled moment again.  Scheduled at 1000 s with
the default timeout, sent on after 60 s, it should have 50 s left but is already expired on arrival. -/
theorem c43_scheduled_forward_expires :
    let r : Req := { executeTime := some "1000000000".toUTF8.toList }
    deadline r 0 = 1110000000 ∧
    deadline (forwarded r 1110000000 1060000000) 1060000000 = 1050000000 ∧
    remaining (forwarded r 1110000000 1060000000) 1050000000 1060000000 false = none := by
  have hu : toU64 (1110000000 - 1060000000) / 1000 = 50000 := by decide
  have hv : strtoll (natDec (50000 : Int).toNat) = 50000 := by
    rw [strtoll_natDec _ (by omega)]; rfl
  have h0 : strtoll "1000000000".toUTF8.toList = 1000000000 := by decide +kernel
  refine ⟨by decide +kernel, ?_, by decide +kernel⟩
  rw [deadline_eq]
  simp only [forwarded, timeoutMs, scheduled, hu, calcInt, hv, h0]
  decide

end Bedrock.Deadline.Props
