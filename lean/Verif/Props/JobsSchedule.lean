import Verif.Model.JobsSchedule
import Verif.Props.JobsStates

/-!
# C48: repeating jobs are rescheduled on their grid
-/

namespace Bedrock.Jobs.Props
open Bedrock Bedrock.Jobs

/-- C48: if the next run of a SCHEDULED repeat was missed and its interval (`n - last`) is short, the new time is in
the future, at most one interval away, and a whole number of intervals after the last scheduled time.  "Partial"
because for a job that was retried automatically the code does not pass the original schedule as `last`
(`c48_retry_moves_grid`). -/
theorem c48_reanchored_partial {m : Mod} {ms : List Mod} {last n now : Int} (lastRun : Option Int)
    (hsigned : ∀ x ∈ m :: ms, x.signed = true) (hn : applyMods (m :: ms) (some last) = some (some n))
    (hmissed : n ≤ now) (hpos : last < n) (hshort : n - last < 14400) :
    ∃ t, constructNext (.parts .scheduled (m :: ms)) (some last) lastRun now = .time t ∧
      now < t ∧ t ≤ now + (n - last) ∧ ∃ k : Nat, 1 ≤ k ∧ t = last + k * (n - last) := by
  have hall : (m :: ms).all Mod.signed = true := List.all_eq_true.mpr hsigned
  have hpos' : 0 < n - last := by omega
  refine ⟨last + ((now - last).tdiv (n - last) + 1) * (n - last), ?_, ?_⟩
  · simp only [constructNext, hn, if_true, reanchor, hmissed, hpos', hall, true_and, and_true]
    rw [if_pos (by omega)]
  · rw [Int.tdiv_eq_ediv_of_nonneg (by omega)]
    generalize hi : n - last = i at *
    have h1 := Int.mul_ediv_add_emod (now - last) i
    have h2 := Int.emod_nonneg (now - last) (by omega : i ≠ 0)
    have h3 := Int.emod_lt_of_pos (now - last) hpos'
    have h4 : 0 ≤ (now - last) / i := Int.ediv_nonneg (by omega) (by omega)
    have h5 : ((now - last) / i + 1) * i = i * ((now - last) / i) + i := by rw [Int.add_mul, Int.mul_comm]; omega
    refine ⟨by omega, by omega, ((now - last) / i + 1).toNat, by omega, ?_⟩
    rw [Int.toNat_of_nonneg (by omega)]

/-- A job every 30 seconds that was down for 1000. -/
example : constructNext (.parts .scheduled [.offset 30]) (some 100) none 1100 = .time 1120 := by decide +kernel

/-- C48: a run time that was not missed, or belongs to a long interval, is the scheduled one. -/
theorem c48_not_skipped {m : Mod} {ms : List Mod} {last n now : Int} (lastRun : Option Int)
    (hn : applyMods (m :: ms) (some last) = some (some n)) (h : now < n ∨ 14400 ≤ n - last) :
    constructNext (.parts .scheduled (m :: ms)) (some last) lastRun now = .time n := by
  simp only [constructNext, hn, if_true, reanchor]
  rw [if_neg (by omega)]

/-- C48: a run time of a schedule with START OF … or WEEKDAY, or one whose repeat does not lead forward, is the scheduled one,
also when it was missed. -/
theorem c48_snapped {m : Mod} {ms : List Mod} {last n now : Int} (lastRun : Option Int)
    (hn : applyMods (m :: ms) (some last) = some (some n)) (h : (∃ f, .snap f ∈ m :: ms) ∨ n ≤ last) :
    constructNext (.parts .scheduled (m :: ms)) (some last) lastRun now = .time n := by
  simp only [constructNext, hn, if_true, reanchor]
  rw [if_neg]
  rintro ⟨_, h2, _, h4⟩
  rcases h with ⟨f, hf⟩ | h
  · exact Bool.false_ne_true (List.all_eq_true.mp h4 _ hf)
  · omega

example : constructNext (.parts .scheduled [.offset 3600, .snap (fun t => some (t / 3600 * 3600))]) (some 7300) none 20000 = .time 10800 := by
  decide +kernel

/-- The sum of fixed offsets. -/
def total (offs : List Int) : Int := offs.sum

theorem applyMods_offsets (offs : List Int) (t : Int) :
    applyMods (offs.map Mod.offset) (some t) = some (some (t + total offs)) := by
  induction offs generalizing t with
  | nil => simp [applyMods, total]
  | cons o offs ih =>
    simp only [List.map_cons, applyMods, Mod.valid, if_true, Mod.apply, Option.bind_some, ih]
    simp only [total, List.sum_cons]
    congr 2; omega

/-- C48: with fixed offsets that add up to `s > 0` every new time is on the grid of the last one, at least one step
on, and in the future if the interval is short. -/
theorem c48_fixed_grid {o : Int} {offs : List Int} (hs : 0 < total (o :: offs)) (last : Int) (lastRun : Option Int)
    (now : Int) :
    ∃ t, constructNext (.parts .scheduled ((o :: offs).map Mod.offset)) (some last) lastRun now = .time t ∧
      (∃ k : Nat, 1 ≤ k ∧ t = last + k * total (o :: offs)) ∧ (total (o :: offs) < 14400 → now < t) := by
  have happ := applyMods_offsets (o :: offs) last
  by_cases hm : last + total (o :: offs) ≤ now ∧ total (o :: offs) < 14400
  · obtain ⟨t, h1, h2, _, k, h4, h5⟩ := c48_reanchored_partial (m := .offset o) (ms := offs.map Mod.offset) lastRun
      (by
        intro x hx
        rw [← List.map_cons (f := Mod.offset)] at hx
        obtain ⟨y, _, rfl⟩ := List.mem_map.mp hx
        rfl) (by rw [List.map_cons] at happ; exact happ) hm.1 (by omega) (by omega)
    refine ⟨t, h1, ⟨k, h4, ?_⟩, fun _ => h2⟩
    rw [h5]
    congr 2; omega
  · refine ⟨_, c48_not_skipped (m := .offset o) (ms := offs.map Mod.offset) lastRun happ (by omega), ⟨1, by omega, by omega⟩, ?_⟩
    intro h; omega

/-- The run times of a job that is finished at the times `nows`, one after the other. -/
def chain (offs : List Int) : Int → List Int → List NR
  | _, [] => []
  | last, now :: nows =>
    let r := constructNext (.parts .scheduled (offs.map Mod.offset)) (some last) none now
    r :: match r with
      | .time t => chain offs t nows
      | _ => []

/-- C48: however late the job is finished each time, for ever, all its run times are on the first grid. -/
theorem c48_for_ever {o : Int} {offs : List Int} (hs : 0 < total (o :: offs)) (nows : List Int) :
    ∀ first : Int, (chain (o :: offs) first nows).length = nows.length ∧
      ∀ r ∈ chain (o :: offs) first nows, ∃ k : Nat, 1 ≤ k ∧ r = .time (first + k * total (o :: offs)) := by
  induction nows with
  | nil => intro first; simp [chain]
  | cons now nows ih =>
    intro first
    obtain ⟨t, ht, ⟨k, hk, hkt⟩, _⟩ := c48_fixed_grid hs first none now
    have hc : chain (o :: offs) first (now :: nows) = .time t :: chain (o :: offs) t nows := by
      simp only [chain, ht]
    rw [hc]
    obtain ⟨h1, h2⟩ := ih t
    refine ⟨by simp [h1], ?_⟩
    intro r hr
    rcases List.mem_cons.mp hr with rfl | hr
    · exact ⟨k, hk, by rw [hkt]⟩
    · obtain ⟨k', hk', rfl⟩ := h2 r hr
      refine ⟨k + k', by omega, ?_⟩
      rw [hkt]
      congr 1
      rw [Int.natCast_add, Int.add_mul]; omega

example : chain [60, -30] 100 [90, 131, 1000] = [.time 130, .time 160, .time 1030] := by decide +kernel

/-- C48: the canned repeats are in the future and on the hour, day or week. -/
theorem c48_canned (now : Int) (a b : Option Int) :
    (∃ t, constructNext .hourly a b now = .time t ∧ now < t ∧ t ≤ now + 3600 ∧ t % 3600 = 0) ∧
    (∃ t, constructNext .daily a b now = .time t ∧ now < t ∧ t ≤ now + 86400 ∧ t % 86400 = 0) ∧
    (∃ t, constructNext .weekly a b now = .time t ∧ now < t ∧ t ≤ now + 7 * 86400 ∧ t % 86400 = 0 ∧
      (t / 86400 + 4) % 7 = 0) := by
  refine ⟨⟨_, rfl, ?_, ?_, ?_⟩, ⟨_, rfl, ?_, ?_, ?_⟩, ⟨_, rfl, ?_, ?_, ?_, ?_⟩⟩ <;> omega

/-- C48: FinishJob of a job without `retryAfter` and children, on a fixed schedule of `s` seconds, moves its next run by
a whole number of intervals, into the future if the interval is short. -/
theorem c48_finish_on_grid {reps : Nat → Repeat} {retries : Nat → Mod} {now id : Int} {db : Table} (hu : Uniq db)
    (hid : 1 ≤ id) {j : Job} (hj : j ∈ db) (hjid : j.id = id) (hst : j.state = .running)
    (hp : j.parent = 0) (hch : hasPending db id = false) (hra : j.retryAfter = none)
    {r : Nat} (hr : j.rep = some r) {o : Int} {offs : List Int}
    (hrep : reps r = .parts .scheduled ((o :: offs).map Mod.offset)) (hs : 0 < total (o :: offs))
    (hnext : j.nextRun ≠ 0 ∧ j.nextRun % 1000 = 0) :
    ∃ db' t, finish (envOf reps retries) now id none false none db = .ok db' ∧
      (∀ k ∈ db', k.id = id → k.state = .queued ∧ k.nextRun = t) ∧
      (∃ k : Nat, 1 ≤ k ∧ t = j.nextRun + k * (1000 * total (o :: offs))) ∧
      (total (o :: offs) < 14400 → now < t) := by
  have hl : lookup db id = some j := by rw [← hjid]; exact lookup_eq hu hj
  obtain ⟨t, ht, ⟨k, hk, hkt⟩, hfut⟩ := c48_fixed_grid hs (j.nextRun / 1000)
    (if j.lastRun = 0 then none else some (j.lastRun / 1000)) (now / 1000)
  have hnr : rescheduled (envOf reps retries) now j (some r) false none = .ok (.time (t * 1000)) := by
    simp only [rescheduled, hra, Option.isSome_none, Bool.false_eq_true, false_and, if_false, envOf, hrep, hnext.1, ht]
  refine ⟨set id (fun j => { j with nextRun := t * 1000, state := .queued })
    (relabel id none (storeData id none (dropDone id db))), t * 1000, ?_, ?_, ⟨k, hk, ?_⟩, ?_⟩
  · unfold finish
    rw [if_neg (by omega), hl]
    dsimp only
    rw [if_neg (by simp [hst]), if_neg (by simp [hp]), if_neg (by simp),
      if_neg (by rw [hasPending_store]; simp [hch]), if_neg (by simp)]
    simp only [Option.any_none, Bool.false_eq_true, if_false, hr, hnr, conclude]
  · intro x hx hxid
    obtain ⟨y, hy, rfl⟩ := mem_set.mp hx
    by_cases hyid : y.id = id
    · rw [if_pos hyid]; exact ⟨rfl, rfl⟩
    · rw [if_neg hyid] at hxid; exact absurd hxid hyid
  · rw [hkt, Int.add_mul, Int.mul_assoc, Int.mul_comm (total _) 1000]
    omega
  · intro h
    have := hfut h
    omega

/-- C48 fails for jobs that were retried: GetJob notes the time it overwrites, but on the second hand-out that is the
retry time and no longer the schedule.  A job every 60 s from 100 s on, retried after 5 s: after one hand-out it is
finished for 160 s, after two for 165 s, after three for 170 s. -/
theorem c48_retry_moves_grid :
    let all : Bytes → Bool := fun _ => true
    let no : Bytes → Bool := fun _ => false
    let env := envOf (fun _ => .parts .scheduled [.offset 60]) (fun _ => .offset 5)
    let newJob : NewJob := { name := [97], firstRun := some 100000, rep := some 0, retryAfter := some 0 }
    let get : Int → Int × Op := fun t => (t, .get all no false none 1)
    let fin : Int × Op := (120000, .finish 7 none false)
    let ops := fun l : List (Int × Op) => (100000, Op.create true false [(newJob, 7)]) :: (l ++ [fin])
    ((run env [] (ops [get 100000])).1.map (·.nextRun)) = [160000] ∧
    ((run env [] (ops [get 100000, get 105000])).1.map (·.nextRun)) = [165000] ∧
    ((run env [] (ops [get 100000, get 105000, get 110000])).1.map (·.nextRun)) = [170000] := by
  decide +kernel

/-- **C48** A retry that only gives a delay is for that many seconds after the current second. -/
theorem c48_delay (reps : Nat → Repeat) (retries : Nat → Mod) (d now : Int) :
    (envOf reps retries).delayed d now = .time ((now / 1000 + d) * 1000) := rfl

end Bedrock.Jobs.Props
