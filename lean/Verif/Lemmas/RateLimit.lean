import Verif.Spec.RateLimit

namespace Bedrock.RateLimit
open Spec

theorem snoc_induction {A : Type} {P : List A → Prop} (h0 : P []) (h1 : ∀ l a, P l → P (l ++ [a]))
    (l : List A) : P l := by
  have : ∀ r : List A, P r.reverse := by
    intro r
    induction r with
    | nil => exact h0
    | cons a r ih => rw [List.reverse_cons]; exact h1 _ _ ih
  have := this l.reverse
  rwa [List.reverse_reverse] at this

theorem get_set_same (m : StateMap) (k : Bytes) (s : KState) : (m.set k s).get k = some s := by
  induction m with
  | nil => simp [StateMap.set, StateMap.get]
  | cons p m ih =>
    obtain ⟨k', s'⟩ := p
    unfold StateMap.set
    split
    · simp [StateMap.get, *]
    · simp [StateMap.get, *]

theorem get_set_ne (m : StateMap) (k k' : Bytes) (s : KState) (h : k' ≠ k) :
    (m.set k s).get k' = m.get k' := by
  induction m with
  | nil => simp [StateMap.set, StateMap.get, Ne.symm h]
  | cons p m ih =>
    obtain ⟨k1, s1⟩ := p
    unfold StateMap.set
    split
    · rename_i e; subst e; simp [StateMap.get, Ne.symm h]
    · simp only [StateMap.get]; split <;> simp_all

/-- The state of a key, absent being the initial state. -/
def st (m : StateMap) (k : Bytes) : KState := (m.get k).getD {}

theorem isBlocked_eq (m : StateMap) (k : Bytes) (now : Nat) (hk : k ≠ []) :
    m.isBlocked k now = decide (now < (st m k).blockedUntil) := by
  unfold StateMap.isBlocked st
  have : k.isEmpty = false := by cases k <;> simp_all
  rw [this]
  cases m.get k with
  | none => simp
  | some s => simp

theorem st_record (m : StateMap) (e : Ev) (k : Bytes) (hk : k ≠ []) :
    st (m.record e) k = if e.key = k ∧ e.threshold ≠ 0 then (st m k).record e else st m k := by
  unfold StateMap.record
  split
  · rename_i h
    rw [if_neg]
    rintro ⟨h1, h2⟩
    subst h1
    cases hk' : e.key with
    | nil => exact hk hk'
    | cons => rw [hk'] at h; simp at h; exact h2 h
  · rename_i h
    by_cases he : e.key = k
    · subst he
      rw [if_pos ⟨rfl, by intro h0; simp [h0] at h⟩]
      unfold st; rw [get_set_same]; rfl
    · rw [if_neg (by simp [he])]
      unfold st; rw [get_set_ne _ _ _ _ (Ne.symm he)]

theorem filterMap_congr' {A B : Type} {f g : A → Option B} {l : List A} (h : ∀ x ∈ l, f x = g x) :
    l.filterMap f = l.filterMap g := by
  induction l with
  | nil => rfl
  | cons a l ih =>
    rw [List.filterMap_cons, List.filterMap_cons, h a (by simp), ih (fun x hx => h x (by simp [hx]))]

theorem after_snoc (h : List Ev) (e : Ev) : after (h ++ [e]) = (after h).record e := by
  simp [after, List.foldl_append]

theorem counted_snoc (k : Bytes) (h : List Ev) (e : Ev) :
    counted k (h ++ [e]) = counted k h ++
      (if e.key = k ∧ e.threshold ≠ 0 ∧ (after h).isBlocked k e.now = false
        then [⟨e.now, e.elapsed⟩] else []) := by
  unfold counted
  rw [List.length_append, List.length_singleton, List.range_succ, List.filterMap_append]
  congr 1
  · apply filterMap_congr'
    intro i hi
    have hi := List.mem_range.mp hi
    rw [List.getElem?_append_left hi, List.take_append_of_le_length (Nat.le_of_lt hi)]
  · simp only [List.filterMap_cons, List.filterMap_nil]
    rw [List.getElem?_append_right (Nat.le_refl _)]
    simp only [Nat.sub_self, List.getElem?_cons_zero, List.take_left']
    split <;> simp_all

theorem usage_append (w now : Nat) (a b : List Sample) : usage w now (a ++ b) = usage w now a + usage w now b := by
  induction a with
  | nil => simp [usage]
  | cons s a ih => simp only [List.cons_append, usage, ih]; omega

/-- What the loop computes, when no sample is from the future. -/
theorem sweep_total (w now : Nat) (l : List Sample) (h : ∀ s ∈ l, s.finish ≤ now) :
    ((sweep w now l).2 : Int) = usage w now l := by
  induction l with
  | nil => rfl
  | cons s l ih =>
    have hs := h s (by simp)
    have ih := ih (fun x hx => h x (by simp [hx]))
    have hsince : since now s.finish = now - s.finish := by unfold since; split <;> omega
    unfold sweep usage overlap
    simp only [hsince]
    split <;> (try simp only) <;> omega

/-- The loop only drops samples, and those it drops will never count again. -/
theorem sweep_usage (w now w' now' : Nat) (hw : w' ≤ w) (hn : now ≤ now') (l : List Sample) :
    usage w' now' (sweep w now l).1 = usage w' now' l := by
  induction l with
  | nil => rfl
  | cons s l ih =>
    unfold sweep
    simp only
    split
    · rename_i h
      rw [ih]
      simp only [usage]
      have : overlap w' now' s = 0 := by
        unfold overlap
        unfold since at h
        split at h <;> omega
      omega
    · simp only [usage, ih]

theorem sweep_mem (w now : Nat) (l : List Sample) : ∀ s ∈ (sweep w now l).1, s ∈ l := by
  induction l with
  | nil => simp [sweep]
  | cons s l ih =>
    intro x hx
    unfold sweep at hx
    simp only at hx
    split at hx
    · exact List.mem_cons_of_mem _ (ih x hx)
    · rcases List.mem_cons.mp hx with e | hx
      · subst e; simp
      · exact List.mem_cons_of_mem _ (ih x hx)

/-- The invariant linking the pruned samples of a key with the whole history. -/
structure Inv (k : Bytes) (h : List Ev) : Prop where
  past : ∀ s ∈ (st (after h) k).commands, ∃ r ∈ h, s.finish ≤ r.now
  use : ∀ now w, (∀ r ∈ h, r.now ≤ now ∧ w ≤ r.window) →
    usage w now (st (after h) k).commands = usage w now (counted k h)

theorem steady_snoc {h : List Ev} {e : Ev} (hs : Steady (h ++ [e])) :
    Steady h ∧ ∀ r ∈ h, r.now ≤ e.now ∧ e.window ≤ r.window := by
  unfold Steady at hs
  rw [List.pairwise_append] at hs
  exact ⟨hs.1, fun r hr => hs.2.2 r hr e (by simp)⟩

theorem inv (k : Bytes) (hk : k ≠ []) (h : List Ev) : Steady h → Inv k h := by
  refine snoc_induction (P := fun h => Steady h → Inv k h) ?_ ?_ h
  · intro _
    refine ⟨?_, ?_⟩
    · intro s hs; simp [after, st, StateMap.get] at hs
    · intro now w _; rfl
  · intro h e ih hs
    obtain ⟨hs, hlast⟩ := steady_snoc hs
    have ih := ih hs
    have hrec := st_record (after h) e k hk
    rw [← after_snoc] at hrec
    have hcnt := counted_snoc k h e
    have hb := isBlocked_eq (after h) k e.now hk
    by_cases hc : e.key = k ∧ e.threshold ≠ 0
    · rw [if_pos hc] at hrec
      by_cases hbl : e.now < (st (after h) k).blockedUntil
      · have : (st (after h) k).record e = st (after h) k := by
          unfold KState.record; rw [if_pos hbl]
        rw [this] at hrec
        rw [if_neg (by rw [hb]; simp [hbl])] at hcnt
        refine ⟨?_, ?_⟩
        · rw [hrec]; intro s hs
          obtain ⟨r, hr, hf⟩ := ih.past s hs
          exact ⟨r, by simp [hr], hf⟩
        · intro now w hall
          rw [hrec, hcnt, List.append_nil]
          exact ih.use now w (fun r hr => hall r (by simp [hr]))
      · rw [if_pos ⟨hc.1, hc.2, by rw [hb]; simp [hbl]⟩] at hcnt
        have hcmd : ((st (after h) k).record e).commands =
            (sweep e.window e.now ((st (after h) k).commands ++ [⟨e.now, e.elapsed⟩])).1 := by
          unfold KState.record; rw [if_neg hbl]; simp only; split <;> rfl
        refine ⟨?_, ?_⟩
        · rw [hrec, hcmd]
          intro s hs
          rcases List.mem_append.mp (sweep_mem _ _ _ s hs) with hs | hs
          · obtain ⟨r, hr, hf⟩ := ih.past s hs
            exact ⟨r, by simp [hr], hf⟩
          · simp only [List.mem_singleton] at hs
            exact ⟨e, by simp, by rw [hs]; exact Nat.le_refl _⟩
        · intro now w hall
          have he := hall e (by simp)
          rw [hrec, hcmd, sweep_usage _ _ _ _ he.2 he.1, hcnt, usage_append, usage_append,
            ih.use now w (fun r hr => hall r (by simp [hr]))]
    · rw [if_neg hc] at hrec
      rw [if_neg (fun h => hc ⟨h.1, h.2.1⟩)] at hcnt
      refine ⟨?_, ?_⟩
      · rw [hrec]; intro s hs
        obtain ⟨r, hr, hf⟩ := ih.past s hs
        exact ⟨r, by simp [hr], hf⟩
      · intro now w hall
        rw [hrec, hcnt, List.append_nil]
        exact ih.use now w (fun r hr => hall r (by simp [hr]))

/-- How one record moves the end of the block. -/
theorem blockedUntil_snoc (k : Bytes) (hk : k ≠ []) (h : List Ev) (e : Ev) (hs : Steady (h ++ [e])) :
    (Trips k h e → (st (after (h ++ [e])) k).blockedUntil = e.now + e.duration) ∧
    (¬ Trips k h e → (st (after (h ++ [e])) k).blockedUntil = (st (after h) k).blockedUntil) := by
  obtain ⟨hs, hlast⟩ := steady_snoc hs
  have hi := inv k hk h hs
  have hrec := st_record (after h) e k hk
  rw [← after_snoc] at hrec
  have hb := isBlocked_eq (after h) k e.now hk
  have htot : ((sweep e.window e.now ((st (after h) k).commands ++ [⟨e.now, e.elapsed⟩])).2 : Int) =
      usage e.window e.now (counted k h ++ [⟨e.now, e.elapsed⟩]) := by
    rw [sweep_total, usage_append, usage_append, hi.use e.now e.window hlast]
    intro s hs
    rcases List.mem_append.mp hs with hs | hs
    · obtain ⟨r, hr, hf⟩ := hi.past s hs
      exact Nat.le_trans hf (hlast r hr).1
    · simp only [List.mem_singleton] at hs
      rw [hs]; exact Nat.le_refl _
  refine ⟨?_, ?_⟩
  · rintro ⟨h1, h2, h3, h4⟩
    rw [hrec, if_pos ⟨h1, h2⟩]
    rw [hb] at h3
    unfold KState.record
    rw [if_neg (by simpa using h3)]
    simp only
    rw [if_pos (by omega)]
  · intro hn
    rw [hrec]
    split
    · rename_i hc
      unfold KState.record
      split
      · rfl
      · rename_i hbl
        simp only
        rw [if_neg]
        intro hgt
        exact hn ⟨hc.1, hc.2, by rw [hb]; simpa using hbl, by omega⟩
    · rfl

end Bedrock.RateLimit
