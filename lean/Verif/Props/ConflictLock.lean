import Verif.Lemmas.ConflictLock

/-!
# Properties of the page locks: C39
-/

namespace Bedrock.ConflictLock.Props
open Bedrock.ConflictLock

/-- C39.  No history of guards reaches undefined behaviour: the mutex a guard waits for or holds is
always the one it got from the table. -/
theorem c39_never_discarded_in_use (ops : List Op) : ∃ t, T.init.run ops = some t ∧
    ∀ g ∈ t.guards, g.page ≠ 0 → ∃ holder, t.mutexes g.page = some (g.gen, holder) := by
  obtain ⟨t, e, h⟩ := run_some ops T.init inv_init
  exact ⟨t, e, h.point⟩

/-- C39.  At most one guard holds the lock of a page. -/
theorem c39_exclusive (ops : List Op) (t : T) (ht : T.init.run ops = some t) (a b : Guard)
    (ha : a ∈ t.guards) (hb : b ∈ t.guards) (hah : a.held = true) (hbh : b.held = true)
    (hp : a.page = b.page) (h0 : a.page ≠ 0) : a = b := by
  obtain ⟨t', e, h⟩ := run_some ops T.init inv_init
  rw [ht] at e
  injection e with e
  subst e
  have h1 := h.holds a ha h0 hah
  have h2 := h.holds b hb (hp ▸ h0) hbh
  rw [hp, h2] at h1
  simp only [Option.some.injEq, Prod.mk.injEq] at h1
  exact id_inj h ha hb h1.2.symm

/-- C39.  A waiting guard gets the lock as soon as nobody holds it: if no guard holds the page, the
step that takes the lock makes this guard the holder. -/
theorem c39_free_lock_is_taken (ops : List Op) (t : T) (ht : T.init.run ops = some t) (g : Guard)
    (hg : g ∈ t.guards) (hw : g.held = false) (hfree : ∀ x ∈ t.guards, x.page = g.page → x.held = false) :
    ∃ t', t.step (.lock g.id) = some t' ∧ { g with held := true } ∈ t'.guards := by
  obtain ⟨t', e, h⟩ := run_some ops T.init inv_init
  rw [ht] at e
  injection e with e
  subst e
  have hne : g.page ≠ 0 := by
    intro e; have := h.wait0 g hg e; rw [hw] at this; cases this
  have hm : t.mutexes g.page = some (g.gen, none) := by
    obtain ⟨o, ho⟩ := h.point g hg hne
    cases o with
    | none => exact ho
    | some o =>
      obtain ⟨x, hx, _, hp, hh⟩ := h.holder _ _ _ ho
      rw [hfree x hx hp] at hh
      cases hh
  obtain ⟨t', e', _, _, _, _, hgs⟩ := lock_some t h g hg hw
  have hf : t.guards.find? (fun x => x.id == g.id) = some g := by
    cases hf : t.guards.find? (fun x => x.id == g.id) with
    | none =>
      rw [List.find?_eq_none] at hf
      exact absurd (by simp) (hf g hg)
    | some x =>
      obtain ⟨a, b⟩ := find_some hf
      rw [id_inj h a hg b]
  refine ⟨t', ?_, ?_⟩
  · unfold T.step
    simp only [hf, hw]
    exact e'
  · rw [hgs hm]
    exact List.mem_map.mpr ⟨g, hg, by rw [if_pos rfl]⟩

/-- C39.  The end of a guard frees its page. -/
theorem c39_destroy_frees (ops : List Op) (t : T) (ht : T.init.run ops = some t) (g : Guard)
    (hg : g ∈ t.guards) (hh : g.held = true) :
    ∃ t', t.step (.destroy g.id) = some t' ∧ t'.guards = t.guards.filter (fun x => x.id != g.id) ∧
      ∀ x ∈ t'.guards, x.page = g.page → g.page ≠ 0 → x.held = false := by
  obtain ⟨t0, e, h⟩ := run_some ops T.init inv_init
  rw [ht] at e
  injection e with e
  subst e
  have hf : t.guards.find? (fun x => x.id == g.id) = some g := by
    cases hf : t.guards.find? (fun x => x.id == g.id) with
    | none =>
      rw [List.find?_eq_none] at hf
      exact absurd (by simp) (hf g hg)
    | some x =>
      obtain ⟨a, b⟩ := find_some hf
      rw [id_inj h a hg b]
  obtain ⟨t', e', h', _, hgs, hm⟩ := destroy_some t h g hg hh
  refine ⟨t', ?_, hgs, ?_⟩
  · unfold T.step
    simp only [hf, hh, if_true]
    exact e'
  · intro x hx hp h0
    cases hxh : x.held with
    | false => rfl
    | true =>
      have := h'.holds x hx (hp ▸ h0) hxh
      rw [hp, hm h0] at this
      simp at this

/-- C39.  A guard for page 0 locks nothing: creating it changes neither table nor lock, and it is
usable at once. -/
theorem c39_page_zero (t : T) (id : Nat) (hid : id ∉ t.guards.map Guard.id) :
    ∃ t', t.step (.create id 0) = some t' ∧ t'.mutexes = t.mutexes ∧ t'.counts = t.counts ∧
      t'.order = t.order ∧ ∃ g ∈ t'.guards, g.id = id ∧ g.held = true := by
  refine ⟨{ t with guards := ⟨id, 0, 0, true⟩ :: t.guards }, ?_, rfl, rfl, rfl, _, List.mem_cons_self .., rfl, rfl⟩
  unfold T.step
  simp only
  rw [if_neg]
  · rfl
  · intro h
    obtain ⟨g, hg, e⟩ := List.any_eq_true.mp h
    exact hid (List.mem_map.mpr ⟨g, hg, by simpa using e⟩)

/-- C39.  The table of unused locks stays bounded: whenever a guard has been created, at most 500
pages without a guard are in the table. -/
theorem c39_unused_bounded (ops : List Op) (t : T) (ht : T.init.run ops = some t) (id p : Nat)
    (hid : id ∉ t.guards.map Guard.id) (hp : p ≠ 0) :
    ∃ t', t.step (.create id p) = some t' ∧
      (t'.order.filter (fun q => !(t'.guards.any (fun g => g.page == q)))).length ≤ 500 ∧
      t'.size = t'.order.length ∧ t'.order.Nodup ∧ ∀ q, q ∈ t'.order ↔ (t'.mutexes q).isSome = true := by
  obtain ⟨t0, e, h⟩ := run_some ops T.init inv_init
  rw [ht] at e
  injection e with e
  subst e
  obtain ⟨t', e', h', _, _, _, hb⟩ := create_some t h id p hid
  refine ⟨t', ?_, ?_, h'.maps.size, h'.maps.nodup, ?_⟩
  · unfold T.step
    simp only
    rw [if_neg]
    · exact e'
    · intro h
      obtain ⟨g, hg, e⟩ := List.any_eq_true.mp h
      exact hid (List.mem_map.mpr ⟨g, hg, by simpa using e⟩)
  · have : (fun q => !(t'.guards.any (fun g => g.page == q))) = (fun q => live t' q == 0) := by
      funext q
      unfold live
      rw [Bool.eq_iff_iff]
      simp [List.filter_eq_nil_iff]
    rw [this]
    exact hb hp
  · intro q
    constructor
    · intro hq; exact (h'.maps.here q hq).1
    · intro hs
      by_cases hq : q ∈ t'.order
      · exact hq
      · rw [(h'.maps.gone q hq).1] at hs; cases hs

/-- C39.  Creating a guard, with the pruning it does, leaves the lock of every page that has a guard
exactly as it was. -/
theorem c39_pruning_keeps_used (ops : List Op) (t t' : T) (ht : T.init.run ops = some t) (id p : Nat)
    (hs : t.step (.create id p) = some t') (g : Guard) (hg : g ∈ t.guards) (h0 : g.page ≠ 0) :
    t'.mutexes g.page = t.mutexes g.page := by
  obtain ⟨t0, e, h⟩ := run_some ops T.init inv_init
  rw [ht] at e
  injection e with e
  subst e
  unfold T.step at hs
  simp only at hs
  split at hs
  · injection hs with hs; rw [hs]
  · rename_i hn
    obtain ⟨t1, e1, _, _, _, hk, _⟩ := create_some t h id p (by
      intro hm
      obtain ⟨g, hg, e⟩ := List.mem_map.mp hm
      exact hn (List.any_eq_true.mpr ⟨g, hg, by simp [e]⟩))
    rw [hs] at e1
    injection e1 with e1
    subst e1
    obtain ⟨x, hx⟩ := h.point g hg h0
    refine hk _ ?_ ?_
    · by_cases hin : g.page ∈ t.order
      · exact hin
      · rw [(h.maps.gone _ hin).1] at hx; cases hx
    · unfold live
      have : g ∈ t.guards.filter (fun x => x.page == g.page) := by
        rw [List.mem_filter]; exact ⟨hg, by simp⟩
      have := List.length_pos_of_mem this
      omega

-- one guard holds page 5, a second waits for it; when the first ends, the second gets the lock
example : (T.init.run [.create 1 5, .lock 1, .create 2 5, .lock 2, .create 3 0]).map T.guards =
      some [⟨3, 0, 0, true⟩, ⟨2, 5, 0, false⟩, ⟨1, 5, 0, true⟩] ∧
    (T.init.run [.create 1 5, .lock 1, .create 2 5, .lock 2, .destroy 1, .lock 2]).map T.guards =
      some [⟨2, 5, 0, true⟩] := by decide +kernel

end Bedrock.ConflictLock.Props
