import Verif.Model.Lookup
import Verif.Lemmas.Http
import Verif.Lemmas.Text

/-!
# C55, C57 and C58: peers by name, random IDs, months
-/

namespace Bedrock.Lookup.Props
open Bedrock Bedrock.Text Bedrock.Http Bedrock.Lookup

/-! ## C55 -/

/-- The order `std::sort` leaves the peers in, SQLiteNode.cpp:105-109. -/
def Sorted (l : List Peer) : Prop := l.Pairwise fun p q => lexLt q.name p.name = false

theorem lexLt_of_le_of_lt {a b c : Bytes} (h1 : lexLt b a = false) (h2 : lexLt b c = true) : lexLt a c = true := by
  cases h : lexLt a b with
  | true => exact lexLt_trans h h2
  | false => rw [lexLt_total h h1]; exact h2

theorem sorted_get {l : List Peer} (h : Sorted l) {i j : Nat} {p q : Peer} (hij : i ≤ j) (hi : l[i]? = some p)
    (hj : l[j]? = some q) : lexLt q.name p.name = false := by
  rcases Nat.lt_or_eq_of_le hij with hlt | rfl
  · obtain ⟨hi', ei⟩ := List.getElem?_eq_some_iff.mp hi
    obtain ⟨hj', ej⟩ := List.getElem?_eq_some_iff.mp hj
    have := List.pairwise_iff_getElem.mp h i j hi' hj' hlt
    rw [ei, ej] at this
    exact this
  · rw [hi] at hj
    injection hj with hj
    subst hj
    exact lexLt_irrefl _

/-- Everything before the place found is less than the name, everything from there on is not. -/
theorem lowerBound_spec (l : List Peer) (h : Sorted l) (name : Bytes) (n first len : Nat) (hn : len ≤ n)
    (hlen : first + len ≤ l.length)
    (h1 : ∀ i p, i < first → l[i]? = some p → lexLt p.name name = true)
    (h2 : ∀ i p, first + len ≤ i → l[i]? = some p → lexLt p.name name = false) :
    (∀ i p, i < lowerBound l name first len → l[i]? = some p → lexLt p.name name = true) ∧
    (∀ i p, lowerBound l name first len ≤ i → l[i]? = some p → lexLt p.name name = false) := by
  induction n generalizing first len with
  | zero =>
    have : len = 0 := by omega
    subst this
    rw [lowerBound, if_pos rfl]
    exact ⟨h1, h2⟩
  | succ n ih =>
    rw [lowerBound]
    split
    · rename_i h0
      subst h0
      exact ⟨h1, h2⟩
    · rename_i h0
      cases hm : l[first + len / 2]? with
      | none =>
        exfalso
        rw [List.getElem?_eq_none_iff] at hm
        omega
      | some p =>
        simp only
        split
        · rename_i hlt
          apply ih _ _ (by omega) (by omega)
          · intro i q hi hq
            exact lexLt_of_le_of_lt (sorted_get h (show i ≤ first + len / 2 by omega) hq hm) hlt
          · intro i q hi hq
            exact h2 i q (by omega) hq
        · rename_i hlt
          apply ih _ _ (by omega) (by omega) h1
          intro i q hi hq
          have hge := sorted_get h (show first + len / 2 ≤ i by omega) hm hq
          cases hc : lexLt q.name name with
          | false => rfl
          | true => exact absurd (lexLt_of_le_of_lt hge hc) hlt

/-- C55.  However the sort arranges the configured peers: a name finds a configured peer of that name, and finds none
only if no configured peer has it. -/
theorem c55_found_iff (configured l : List Peer) (hp : l.Perm configured) (hs : Sorted l) (name : Bytes) :
    (∀ p, getPeerByName l name = some p → p ∈ configured ∧ p.name = name) ∧
    (getPeerByName l name = none ↔ ∀ p ∈ configured, p.name ≠ name) := by
  obtain ⟨h1, h2⟩ := lowerBound_spec l hs name l.length 0 l.length (Nat.le_refl _) (by omega)
    (fun i p hi _ => absurd hi (Nat.not_lt_zero i))
    (fun i p hi hp => by
      obtain ⟨hlt, _⟩ := List.getElem?_eq_some_iff.mp hp
      omega)
  generalize hk : lowerBound l name 0 l.length = k at h1 h2
  have hdef : getPeerByName l name = match l[k]? with
      | some p => if p.name = name then some p else none
      | none => none := by rw [getPeerByName, hk]; rfl
  constructor
  · intro p hg
    rw [hdef] at hg
    split at hg
    · rename_i q hq
      split at hg
      · rename_i hn
        injection hg with hg
        subst hg
        exact ⟨hp.mem_iff.mp (List.mem_of_getElem? hq), hn⟩
      · cases hg
    · cases hg
  · constructor
    · intro hg p hpc hn
      obtain ⟨i, hi⟩ := List.getElem?_of_mem (hp.mem_iff.mpr hpc)
      have hki : k ≤ i := by
        apply Classical.byContradiction
        intro hlt
        have := h1 i p (by omega) hi
        rw [hn, lexLt_irrefl] at this
        cases this
      cases hq : l[k]? with
      | none =>
        rw [List.getElem?_eq_none_iff] at hq
        obtain ⟨hlt, _⟩ := List.getElem?_eq_some_iff.mp hi
        omega
      | some q =>
        have a := h2 k q (Nat.le_refl _) hq
        have b := sorted_get hs hki hq hi
        rw [hn] at b
        have : q.name = name := lexLt_total a b
        rw [hdef, hq] at hg
        simp [this] at hg
    · intro hall
      cases hg : getPeerByName l name with
      | none => rfl
      | some p =>
        exfalso
        rw [hdef] at hg
        split at hg
        · rename_i q hq
          split at hg
          · rename_i hn
            exact hall q (hp.mem_iff.mp (List.mem_of_getElem? hq)) hn
          · cases hg
        · cases hg

/-- C55.  If names are not used twice, looking up the name of a configured peer gives that peer. -/
theorem c55_found_by_name (configured l : List Peer) (hp : l.Perm configured) (hs : Sorted l)
    (hu : ∀ p ∈ configured, ∀ q ∈ configured, p.name = q.name → p = q) (p : Peer) (h : p ∈ configured) :
    getPeerByName l p.name = some p := by
  obtain ⟨h1, h2⟩ := c55_found_iff configured l hp hs p.name
  cases hg : getPeerByName l p.name with
  | none => exact absurd rfl (h2.mp hg p h)
  | some q =>
    obtain ⟨hq, hn⟩ := h1 q hg
    rw [hu q hq p h hn]

example : getPeerByName [⟨str "a", 2⟩, ⟨str "b", 1⟩, ⟨str "bb", 3⟩] (str "bb") = some ⟨str "bb", 3⟩ ∧
    getPeerByName [⟨str "a", 2⟩, ⟨str "b", 1⟩, ⟨str "bb", 3⟩] (str "B") = none := by
  constructor
  · exact c55_found_by_name [⟨str "b", 1⟩, ⟨str "a", 2⟩, ⟨str "bb", 3⟩] _ (by decide +kernel)
      (by unfold Sorted; decide +kernel) (by decide +kernel) ⟨str "bb", 3⟩ (by decide +kernel)
  · refine (c55_found_iff [⟨str "b", 1⟩, ⟨str "a", 2⟩, ⟨str "bb", 3⟩] _ (by decide +kernel)
      (by unfold Sorted; decide +kernel) (str "B")).2.mpr (by decide +kernel)

/-- C55.  Two peers of one name, as two ports of one host without `nodeName` have: the second is never found. -/
theorem c55_same_name_hidden (p q : Peer) (h : p.name = q.name) (hne : p ≠ q) (name : Bytes) :
    getPeerByName [p, q] name ≠ some q := by
  by_cases hn : q.name = name
  · intro hg
    have hs : Sorted [p, q] := by
      unfold Sorted
      simp [h, lexLt_irrefl]
    have hk : lowerBound [p, q] name 0 2 = 0 := by
      rw [lowerBound, if_neg (by decide)]
      simp only [show 0 + 2 / 2 = 1 from rfl, List.getElem?_cons_succ, List.getElem?_cons_zero, hn, lexLt_irrefl]
      rw [if_neg (by decide), lowerBound, if_neg (by decide)]
      simp only [show 0 + 2 / 2 / 2 = 0 from rfl, List.getElem?_cons_zero, h, hn, lexLt_irrefl]
      rw [if_neg (by decide), lowerBound, if_pos (by decide)]
    unfold getPeerByName at hg
    rw [show ([p, q] : List Peer).length = 2 from rfl, hk] at hg
    simp [h, hn] at hg
    exact hne hg
  · intro hg
    have hs : Sorted [p, q] := by
      unfold Sorted
      simp [h, lexLt_irrefl]
    exact hn ((c55_found_iff [p, q] [p, q] (List.Perm.refl _) hs name).1 q hg).2

/-! ## C57 -/

/-- C57.  Whatever the random numbers: an ID that is returned is positive, fits a signed 64-bit integer, and the query of
the round that chose it found no row. -/
theorem c57_positive_unused (rnd : Nat → UInt64) (found : Nat → Int → Bool) (fuel k : Nat) (id : Int)
    (h : randomID rnd found fuel k = some id) :
    0 < id ∧ id < 2 ^ 63 ∧ ∃ r, k ≤ r ∧ r < k + fuel ∧ found r id = false := by
  induction fuel generalizing k with
  | zero => cases h
  | succ fuel ih =>
    have hr := (rnd k).toNat_lt
    have hb : 0 ≤ candidate (rnd k) ∧ candidate (rnd k) < 2 ^ 63 := by
      unfold candidate
      simp only
      split <;> split <;> omega
    have rest : randomID rnd found fuel (k + 1) = some id →
        0 < id ∧ id < 2 ^ 63 ∧ ∃ r, k ≤ r ∧ r < k + (fuel + 1) ∧ found r id = false := fun h => by
      obtain ⟨h1, h2, r, h3, h4, h5⟩ := ih _ h
      exact ⟨h1, h2, r, by omega, by omega, h5⟩
    rw [randomID] at h
    cases hf : found k (candidate (rnd k)) with
    | true =>
      rw [hf] at h
      exact rest h
    | false =>
      rw [hf] at h
      simp only [Bool.false_eq_true, if_false] at h
      by_cases hz : candidate (rnd k) = 0
      · rw [if_neg (by simpa using hz)] at h
        exact rest h
      · rw [if_pos hz] at h
        injection h with h
        subst h
        exact ⟨by omega, hb.2, k, Nat.le_refl _, by omega, hf⟩

/-- C57.  If the queries answer from one table of used IDs, the ID is not in it. -/
theorem c57_not_in_table (rnd : Nat → UInt64) (used : List Int) (fuel : Nat) (id : Int)
    (h : randomID rnd (fun _ i => used.contains i) fuel 0 = some id) : 0 < id ∧ id < 2 ^ 63 ∧ id ∉ used := by
  obtain ⟨h1, h2, r, _, _, h5⟩ := c57_positive_unused _ _ _ _ _ h
  refine ⟨h1, h2, fun hm => ?_⟩
  have : used.contains id = true := by simpa using hm
  rw [this] at h5
  cases h5

/-- C57.  The search ends as soon as a number is drawn that is neither 0 nor used. -/
theorem c57_ends (rnd : Nat → UInt64) (found : Nat → Int → Bool) (fuel k r : Nat) (h1 : k ≤ r) (h2 : r < k + fuel)
    (h0 : rnd r ≠ 0) (hf : found r (candidate (rnd r)) = false) : ∃ id, randomID rnd found fuel k = some id := by
  induction fuel generalizing k with
  | zero => omega
  | succ fuel ih =>
    rw [randomID]
    generalize hid : (if found k (candidate (rnd k)) = true then 0 else candidate (rnd k)) = id
    by_cases hz : id = 0
    · by_cases hk : k = r
      · subst hk
        exfalso
        rw [hf] at hid
        simp only [Bool.false_eq_true, if_false] at hid
        rw [hz] at hid
        have hr := (rnd k).toNat_lt
        have hr0 : (rnd k).toNat ≠ 0 := fun e => h0 (by rw [← UInt64.toNat_inj]; exact e)
        unfold candidate at hid
        simp only at hid
        split at hid <;> split at hid <;> omega
      · simp only [hz, ne_eq, not_true_eq_false, if_false]
        exact ih _ (by omega) (by omega)
    · exact ⟨id, if_pos hz⟩

/-- Every number of 63 bits but 0 can be chosen. -/
example (i : Nat) (h0 : i ≠ 0) (hi : i < 2 ^ 63) : randomID (fun _ => UInt64.ofNat i) (fun _ _ => false) 1 0 = some i := by
  have e : (UInt64.ofNat i).toNat = i := by rw [UInt64.toNat_ofNat']; omega
  have : candidate (UInt64.ofNat i) = i := by
    unfold candidate
    simp only [e]
    split <;> split <;> omega
  simp [randomID, this, h0]

example : candidate (2 ^ 63) = 2 ^ 63 - 1 ∧ candidate (2 ^ 64 - 5) = 5 := by decide +kernel

/-- C57.  A query that fails looks like one that finds nothing: the ID may be used. -/
theorem c57_failed_query (id : UInt64) (used : List Int) (hid : candidate id ≠ 0) (_hm : candidate id ∈ used) :
    randomID (fun _ => id) (fun k i => if k = 0 then false else used.contains i) 1 0 = some (candidate id) := by
  simp [randomID, hid]

/-! ## C58 -/

/-- The number of a day in the Gregorian calendar, counted from a day in March of the year 0: whole years with their
leap days, then months from March on. -/
def dayNumber (y m d : Int) : Int :=
  let y' := if m ≤ 2 then y - 1 else y
  let m' := if m ≤ 2 then m + 9 else m - 3
  365 * y' + y' / 4 - y' / 100 + y' / 400 + (153 * m' + 2) / 5 + d

theorem tmod_zero (a b : Int) : a.tmod b = 0 ↔ a % b = 0 := by
  rw [← Int.dvd_iff_tmod_eq_zero, ← Int.dvd_iff_emod_eq_zero]

theorem daysInMonth_eq (y m : Int) : daysInMonth y m =
    if m = 4 ∨ m = 6 ∨ m = 9 ∨ m = 11 then 30
    else if m = 2 then if (y % 4 = 0 ∧ y % 100 ≠ 0) ∨ y % 400 = 0 then 29 else 28 else 31 := by
  unfold daysInMonth
  simp only [tmod_zero, ne_eq]

/-- C58.  For every year and month the number of days is the distance from the first of the month to the first of the
next. -/
theorem c58_days_in_month (y m : Int) (h1 : 1 ≤ m) (h2 : m ≤ 12) :
    daysInMonth y m = dayNumber (if m = 12 then y + 1 else y) (if m = 12 then 1 else m + 1) 1 - dayNumber y m 1 := by
  rw [daysInMonth_eq]
  have : m = 1 ∨ m = 2 ∨ m = 3 ∨ m = 4 ∨ m = 5 ∨ m = 6 ∨ m = 7 ∨ m = 8 ∨ m = 9 ∨ m = 10 ∨ m = 11 ∨ m = 12 := by omega
  unfold dayNumber
  rcases this with rfl | rfl | rfl | rfl | rfl | rfl | rfl | rfl | rfl | rfl | rfl | rfl
  all_goals simp
  all_goals try split
  all_goals omega

example : daysInMonth 2000 2 = 29 ∧ daysInMonth 1900 2 = 28 ∧ daysInMonth 2024 2 = 29 ∧ daysInMonth (-4) 2 = 29 := by
  decide

/-- C58.  The months of a year add up to 365 days, or 366 exactly in leap years. -/
theorem c58_year (y : Int) :
    daysInMonth y 1 + daysInMonth y 2 + daysInMonth y 3 + daysInMonth y 4 + daysInMonth y 5 + daysInMonth y 6 +
      daysInMonth y 7 + daysInMonth y 8 + daysInMonth y 9 + daysInMonth y 10 + daysInMonth y 11 + daysInMonth y 12 =
      if (y % 4 = 0 ∧ y % 100 ≠ 0) ∨ y % 400 = 0 then 366 else 365 := by
  simp only [daysInMonth_eq]
  simp
  by_cases h : y % 4 = 0 ∧ ¬y % 100 = 0 ∨ y % 400 = 0
  · rw [if_pos h, if_pos h]; rfl
  · rw [if_neg h, if_neg h]; rfl

/-- C58.  A month that is none has 31 days. -/
theorem c58_no_such_month (y m : Int) (h : m < 1 ∨ 12 < m) : daysInMonth y m = 31 := by
  unfold daysInMonth
  rw [if_neg (by omega), if_neg (by omega)]

/-- Further input only adds to the elements found. -/
theorem foldl_step_done (sep : UInt8) (s : Bytes) (p : ListParse) :
    ∃ l, (s.foldl (ListParse.step sep) p).done = p.done ++ l := by
  induction s generalizing p with
  | nil => exact ⟨[], by simp⟩
  | cons c s ih =>
    obtain ⟨l, hl⟩ := ih (ListParse.step sep p c)
    rw [List.foldl_cons, hl]
    unfold ListParse.step
    split
    · exact ⟨l, rfl⟩
    · split
      · by_cases hc : p.component = []
        · exact ⟨l, by simp [hc]⟩
        · exact ⟨p.component :: l, by simp [hc]⟩
      · exact ⟨l, rfl⟩

theorem parseList_two (a b rest : Bytes) (ha : a ≠ []) (hb : b ≠ []) (ha0 : ∀ c ∈ a, c ≠ 0 ∧ c ≠ 32 ∧ c ≠ 45)
    (hb0 : ∀ c ∈ b, c ≠ 0 ∧ c ≠ 32 ∧ c ≠ 45) (hr : rest = [] ∨ ∃ r, rest = 45 :: r) :
    ∃ l, (parseList (a ++ [45] ++ b ++ rest) 45).1 = a :: b :: l := by
  have hc : ∃ rest', cstr (a ++ [45] ++ b ++ rest) = a ++ [45] ++ b ++ rest' ∧ (rest' = [] ∨ ∃ r, rest' = 45 :: r) := by
    have h : ∀ (x y : Bytes), (∀ c ∈ x, c ≠ 0) → cstr (x ++ y) = x ++ cstr y := by
      intro x y hx
      unfold cstr
      induction x with
      | nil => rfl
      | cons c x ih =>
        rw [List.cons_append, List.takeWhile_cons, if_pos (by simpa using hx c (by simp)),
          ih (fun d hd => hx d (by simp [hd])), List.cons_append]
    refine ⟨cstr rest, h _ _ ?_, ?_⟩
    · intro c hc
      rw [List.mem_append, List.mem_append] at hc
      rcases hc with (hc | hc) | hc
      · exact (ha0 c hc).1
      · rw [List.mem_singleton] at hc
        subst hc
        decide
      · exact (hb0 c hc).1
    · rcases hr with rfl | ⟨r, rfl⟩
      · exact .inl rfl
      · exact .inr ⟨cstr r, rfl⟩
  obtain ⟨rest', hc, hr'⟩ := hc
  unfold parseList
  simp only [hc]
  rw [List.foldl_append, List.foldl_append, List.foldl_append,
    foldl_step_element 45 [] a ha (fun h => (ha0 32 (List.mem_of_mem_head? h)).2.1 rfl) (fun h => (ha0 45 h).2.2 rfl),
    show [45] = (45 : UInt8) :: List.replicate 0 32 from rfl, foldl_step_separator 45 0 [] a ha,
    foldl_step_element 45 ([] ++ [a]) b hb (fun h => (hb0 32 (List.mem_of_mem_head? h)).2.1 rfl)
      (fun h => (hb0 45 h).2.2 rfl)]
  rcases hr' with rfl | ⟨r, rfl⟩
  · exact ⟨[], by simp [hb]⟩
  · rw [List.foldl_cons]
    have : ListParse.step 45 ⟨[] ++ [a], b⟩ 45 = ⟨[a, b], []⟩ := by simp [ListParse.step, hb]
    rw [this]
    obtain ⟨l, hl⟩ := foldl_step_done 45 r ⟨[a, b], []⟩
    rw [hl]
    split
    · exact ⟨l, rfl⟩
    · exact ⟨l ++ [_], by rw [List.append_assoc]; rfl⟩

theorem two_scan (m : Nat) : scanDec (two m) = some (m : Int) ∧ two m ≠ [] ∧ ∀ c ∈ two m, c ≠ 0 ∧ c ≠ 32 ∧ c ≠ 45 := by
  have hp : ∀ c ∈ natDec m, c ≠ 0 ∧ c ≠ 32 ∧ c ≠ 45 := fun c hc =>
    have := natDec_plain m c hc
    ⟨this.1, this.2.2.2.2.2.2.2.2, this.2.2.1⟩
  unfold two
  split
  · rename_i h
    refine ⟨?_, by simp, ?_⟩
    · rw [natDec_lt h]
      have : m = 0 ∨ m = 1 ∨ m = 2 ∨ m = 3 ∨ m = 4 ∨ m = 5 ∨ m = 6 ∨ m = 7 ∨ m = 8 ∨ m = 9 := by omega
      rcases this with rfl | rfl | rfl | rfl | rfl | rfl | rfl | rfl | rfl | rfl <;> decide +kernel
    · intro c hc
      rcases List.mem_cons.mp hc with rfl | hc
      · decide
      · exact hp c hc
  · exact ⟨scanDec_natDec m, natDec_ne_nil m, hp⟩

/-- What the code computes for a date of year `y` and month `m`. -/
theorem firstOfMonth_date (y m : Nat) (rest : Bytes) (offset : Int) (hy : y < 2 ^ 31) (hm1 : 1 ≤ m) (hm2 : m ≤ 12)
    (hr : rest = [] ∨ ∃ r, rest = 45 :: r) (ho : -2 ^ 36 < offset ∧ offset < 2 ^ 36) :
    firstOfMonth (natDec y ++ [45] ++ two m ++ rest) offset =
      if (((y : Int) - 1900) * 12 + (m - 1) + offset).tmod 12 < 0 then .unspecified
      else .ok (intDec (toInt32 ((((y : Int) - 1900) * 12 + (m - 1) + offset).tdiv 12) + 1900) ++ [45] ++
        two ((((y : Int) - 1900) * 12 + (m - 1) + offset).tmod 12 + 1).toNat ++ [45] ++ two 1) := by
  obtain ⟨hs, hn, hd⟩ := two_scan m
  obtain ⟨l, hl⟩ := parseList_two (natDec y) (two m) rest (natDec_ne_nil y) hn
    (fun c hc => have := natDec_plain y c hc; ⟨this.1, this.2.2.2.2.2.2.2.2, this.2.2.1⟩) hd hr
  unfold firstOfMonth
  rw [hl]
  have e1 : stoull (natDec y) = some y := by
    unfold stoull
    rw [scanDec_natDec]
    simp only
    rw [if_neg (by omega)]
    congr 1
    omega
  have e2 : stoull (two m) = some m := by
    unfold stoull
    rw [hs]
    simp only
    rw [if_neg (by omega)]
    congr 1
    omega
  have e3 : toInt64 ((y : Int) - 1900) = (y : Int) - 1900 := by unfold toInt64; omega
  have e4 : toInt64 ((m : Int) - 1) = (m : Int) - 1 := by unfold toInt64; omega
  simp only [e1, e2, e3, e4]
  rw [if_neg (by omega)]

/-- C58.  Adding any number of months to a date with `YYYY-MM` in front gives the first of the right month, if that is
not before 1900. -/
theorem c58_first_of_month_partial (y m : Nat) (rest : Bytes) (offset : Int) (y' m' : Nat) (hy : y < 2 ^ 31)
    (hm1 : 1 ≤ m) (hm2 : m ≤ 12) (hr : rest = [] ∨ ∃ r, rest = 45 :: r) (h1 : 1900 ≤ y') (hy' : y' < 2 ^ 31)
    (hm1' : 1 ≤ m') (hm2' : m' ≤ 12) (h : (y' : Int) * 12 + m' = y * 12 + m + offset) :
    firstOfMonth (natDec y ++ [45] ++ two m ++ rest) offset = .ok (natDec y' ++ [45] ++ two m' ++ str "-01") := by
  rw [firstOfMonth_date y m rest offset hy hm1 hm2 hr (by omega)]
  have e : ((y : Int) - 1900) * 12 + (m - 1) + offset = ((y' - 1900 : Nat) : Int) * 12 + ((m' - 1 : Nat) : Int) := by omega
  have a : (((y' - 1900 : Nat) : Int) * 12 + ((m' - 1 : Nat) : Int)).tmod 12 = ((m' - 1 : Nat) : Int) := by
    rw [Int.tmod_eq_emod_of_nonneg (by omega)]
    omega
  have b : (((y' - 1900 : Nat) : Int) * 12 + ((m' - 1 : Nat) : Int)).tdiv 12 = ((y' - 1900 : Nat) : Int) := by
    rw [Int.tdiv_eq_ediv_of_nonneg (by omega)]
    omega
  rw [e, a, b, if_neg (by omega)]
  have c : toInt32 ((y' - 1900 : Nat) : Int) + 1900 = (y' : Int) := by unfold toInt32; omega
  have d : (((m' - 1 : Nat) : Int) + 1).toNat = m' := by omega
  rw [c, d]
  have f : intDec (y' : Int) = natDec y' := by
    unfold intDec
    rw [if_neg (by omega)]
    rfl
  have g : two 1 = [48, 49] := by
    unfold two
    rw [if_pos (by decide), natDec_lt (by decide)]
    rfl
  rw [f, g, show str "-01" = [45] ++ [48, 49] by decide]
  simp

/-- Thirteen months after November 2023: December 2024; and two months before January 2000. -/
example : firstOfMonth (natDec 2023 ++ [45] ++ two 11 ++ str "-30 10:00:00") 13 =
      .ok (natDec 2024 ++ [45] ++ two 12 ++ str "-01") ∧
    firstOfMonth (natDec 2000 ++ [45] ++ two 1 ++ []) (-2) = .ok (natDec 1999 ++ [45] ++ two 11 ++ str "-01") :=
  ⟨c58_first_of_month_partial 2023 11 _ 13 2024 12 (by omega) (by omega) (by omega) (.inr ⟨_, rfl⟩) (by omega) (by omega)
    (by omega) (by omega) (by omega),
  c58_first_of_month_partial 2000 1 _ (-2) 1999 11 (by omega) (by omega) (by omega) (.inl rfl) (by omega) (by omega)
    (by omega) (by omega) (by omega)⟩

/-- C58.  A month before 1900 other than January is never written: the month given to `strftime` is negative. -/
theorem c58_before_1900 (y m : Nat) (rest : Bytes) (offset : Int) (y' m' : Nat) (hy : y < 2 ^ 31) (hm1 : 1 ≤ m)
    (hm2 : m ≤ 12) (hr : rest = [] ∨ ∃ r, rest = 45 :: r) (h1 : y' < 1900) (hm1' : 2 ≤ m') (hm2' : m' ≤ 12)
    (h : (y' : Int) * 12 + m' = y * 12 + m + offset) :
    firstOfMonth (natDec y ++ [45] ++ two m ++ rest) offset = .unspecified := by
  rw [firstOfMonth_date y m rest offset hy hm1 hm2 hr (by omega)]
  refine if_pos ?_
  have e : ((y : Int) - 1900) * 12 + (m - 1) + offset = -(((1900 - y') * 12 - (m' - 1) : Nat) : Int) := by omega
  rw [e, Int.neg_tmod, Int.tmod_eq_emod_of_nonneg (by omega)]
  omega

example : firstOfMonth (natDec 1900 ++ [45] ++ two 1 ++ str "-15") (-1) = .unspecified :=
  c58_before_1900 1900 1 _ (-1) 1899 12 (by omega) (by omega) (by omega) (.inr ⟨_, rfl⟩) (by omega) (by omega) (by omega)
    (by omega)

/-- **C58** The product of the year is checked on its own: where it leaves the 64-bit range and the month, itself wrapped
to a negative or large number, would bring the sum back, the result is undefined all the same. -/
theorem c58_year_overflow :
    firstOfMonth (natDec ((2 ^ 63 + 4) / 12 + 1900) ++ [45] ++ natDec (2 ^ 64 - 4)) 0 = .undefined ∧
    firstOfMonth (natDec (2 ^ 64 - (2 ^ 63 + 4) / 12 + 1900) ++ [45] ++ natDec 5) 0 = .undefined ∧
    firstOfMonth (natDec (2 ^ 63 / 12 + 1900) ++ [45] ++ natDec 1) 0 ≠ .undefined := by
  refine ⟨?_, ?_, ?_⟩ <;> decide +kernel

/-- C58.  A year without a month, or nothing at all, reads the front of an empty list. -/
theorem c58_month_missing (y : Nat) (hy : y < 2 ^ 64) (offset : Int) :
    firstOfMonth (natDec y) offset = .undefined ∧ firstOfMonth [] offset = .undefined := by
  constructor
  · have hp : ∀ c ∈ natDec y, c ≠ 0 ∧ c ≠ 32 ∧ c ≠ 45 := fun c hc =>
      have := natDec_plain y c hc
      ⟨this.1, this.2.2.2.2.2.2.2.2, this.2.2.1⟩
    have hl : (parseList (natDec y) 45).1 = [natDec y] := by
      unfold parseList
      rw [cstr_eq (fun h => (hp 0 h).1 rfl)]
      simp only
      rw [foldl_step_element 45 [] (natDec y) (natDec_ne_nil y)
        (fun h => (hp 32 (List.mem_of_mem_head? h)).2.1 rfl) (fun h => (hp 45 h).2.2 rfl)]
      simp [natDec_ne_nil y]
    have e1 : stoull (natDec y) = some y := by
      unfold stoull
      rw [scanDec_natDec]
      simp only
      rw [if_neg (by omega)]
      congr 1
      omega
    unfold firstOfMonth
    rw [hl]
    simp only [e1]
  · rfl

/-- **C58** So is the sum of the year's months and the month: an offset that brings it back does not help. -/
theorem c58_sum_overflow :
    firstOfMonth (natDec ((2 ^ 63 - 8) / 12 + 1900) ++ [45] ++ natDec 9) (-100) = .undefined ∧
    firstOfMonth (natDec ((2 ^ 63 - 8) / 12 + 1900) ++ [45] ++ natDec 8) (-100) ≠ .undefined := by
  refine ⟨?_, ?_⟩ <;> decide +kernel

end Bedrock.Lookup.Props
