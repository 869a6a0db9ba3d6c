import Verif.Model.ConflictLock
import Mathlib.Data.List.Perm.Subperm

namespace Bedrock.ConflictLock

/-- How many guards a page has. -/
def live (t : T) (p : Nat) : Nat := (t.guards.filter (fun g => g.page == p)).length

/-- Everything that does not depend on the guards. -/
structure Maps (t : T) : Prop where
  nodup : t.order.Nodup
  size : t.size = t.order.length
  here : ∀ p, p ∈ t.order → (t.mutexes p).isSome = true ∧ (t.counts p).isSome = true ∧ t.fast p = true
  gone : ∀ p, p ∉ t.order → t.mutexes p = none ∧ t.counts p = none ∧ t.fast p = false
  zero : 0 ∉ t.order

/-- The invariant. -/
structure Inv (t : T) : Prop where
  maps : Maps t
  ids : (t.guards.map Guard.id).Nodup
  counted : ∀ p ∈ t.order, t.counts p = some (live t p : Int)
  point : ∀ g ∈ t.guards, g.page ≠ 0 → ∃ h, t.mutexes g.page = some (g.gen, h)
  holder : ∀ p gen h, t.mutexes p = some (gen, some h) → ∃ g ∈ t.guards, g.id = h ∧ g.page = p ∧ g.held = true
  holds : ∀ g ∈ t.guards, g.page ≠ 0 → g.held = true → t.mutexes g.page = some (g.gen, some g.id)
  wait0 : ∀ g ∈ t.guards, g.page = 0 → g.held = true

theorem inv_init : Inv T.init := by
  constructor
  · constructor
    · exact List.nodup_nil
    · rfl
    · intro p hp; simp [T.init] at hp
    · intro p _; exact ⟨rfl, rfl, rfl⟩
    · simp [T.init]
  all_goals simp [T.init]

/-- What the pruning loop leaves, given the pages it examines. -/
theorem pruneLoop (l : List Nat) : ∀ t : T, Maps t → l.Nodup → (∀ p ∈ l, p ∈ t.order) →
    Maps (l.foldl T.pruneOne t) ∧ (l.foldl T.pruneOne t).guards = t.guards ∧
    (l.foldl T.pruneOne t).nextGen = t.nextGen ∧
    (∀ p, p ∈ (l.foldl T.pruneOne t).order ↔ p ∈ t.order ∧ ¬ (p ∈ l ∧ t.counts p = some 0)) ∧
    (∀ p ∈ (l.foldl T.pruneOne t).order, (l.foldl T.pruneOne t).mutexes p = t.mutexes p ∧
      (l.foldl T.pruneOne t).counts p = t.counts p) := by
  induction l with
  | nil =>
    intro t ht _ _
    exact ⟨ht, rfl, rfl, by simp, fun p _ => ⟨rfl, rfl⟩⟩
  | cons p l ih =>
    intro t ht hnd hmem
    rw [List.nodup_cons] at hnd
    have hp := hmem p (by simp)
    rw [List.foldl_cons]
    by_cases hz : t.counts p = some 0
    · -- erased
      have hone : t.pruneOne p = { t with
          mutexes := upd t.mutexes p none, size := t.size - 1
          counts := upd t.counts p none, order := t.order.erase p, fast := upd t.fast p false } := by
        unfold T.pruneOne; rw [if_pos (by rw [hz]; rfl)]
      have hin : ∀ q, q ∈ t.order.erase p ↔ q ≠ p ∧ q ∈ t.order := fun q => ht.nodup.mem_erase_iff
      have hm1 : Maps (t.pruneOne p) := by
        rw [hone]
        constructor
        · exact ht.nodup.erase _
        · show t.size - 1 = (t.order.erase p).length
          rw [List.length_erase_of_mem hp, ht.size]
        · intro q hq
          obtain ⟨hne, hq⟩ := (hin q).mp hq
          simp only [upd_ne _ _ hne]
          exact ht.here q hq
        · intro q hq
          by_cases hne : q = p
          · subst hne; simp
          · simp only [upd_ne _ _ hne]
            exact ht.gone q (fun h => hq ((hin q).mpr ⟨hne, h⟩))
        · intro h; exact ht.zero ((hin 0).mp h).2
      have hcnt : ∀ q, q ≠ p → (t.pruneOne p).counts q = t.counts q := by
        intro q hq; rw [hone]; exact upd_ne _ _ hq
      have hmut : ∀ q, q ≠ p → (t.pruneOne p).mutexes q = t.mutexes q := by
        intro q hq; rw [hone]; exact upd_ne _ _ hq
      have hord : (t.pruneOne p).order = t.order.erase p := by rw [hone]
      have hne : ∀ q ∈ l, q ≠ p := fun q hq e => hnd.1 (e ▸ hq)
      obtain ⟨h1, h2, h3, h4, h5⟩ := ih (t.pruneOne p) hm1 hnd.2 (by
        intro q hq; rw [hord, hin]; exact ⟨hne q hq, hmem q (by simp [hq])⟩)
      refine ⟨h1, h2.trans (by rw [hone]), h3.trans (by rw [hone]), ?_, ?_⟩
      · intro q
        rw [h4, hord, hin]
        constructor
        · rintro ⟨⟨hqp, hq⟩, hn⟩
          refine ⟨hq, ?_⟩
          rintro ⟨hql, hqz⟩
          rcases List.mem_cons.mp hql with e | hql
          · exact hqp e
          · exact hn ⟨hql, by rw [hcnt q hqp]; exact hqz⟩
        · rintro ⟨hq, hn⟩
          have hqp : q ≠ p := fun e => hn ⟨by simp [e], by rw [e]; exact hz⟩
          refine ⟨⟨hqp, hq⟩, ?_⟩
          rintro ⟨hql, hqz⟩
          rw [hcnt q hqp] at hqz
          exact hn ⟨by simp [hql], hqz⟩
      · intro q hq
        have hqp : q ≠ p := by
          have := (h4 q).mp hq
          rw [hord, hin] at this
          exact this.1.1
        obtain ⟨a, b⟩ := h5 q hq
        exact ⟨a.trans (hmut q hqp), b.trans (hcnt q hqp)⟩
    · have hone : t.pruneOne p = t := by
        unfold T.pruneOne
        rw [if_neg]
        intro h
        obtain ⟨n, hn⟩ := Option.isSome_iff_exists.mp (ht.here p hp).2.1
        rw [hn] at h hz
        simp at h; exact hz (by rw [h])
      rw [hone]
      obtain ⟨h1, h2, h3, h4, h5⟩ := ih t ht hnd.2 (fun q hq => hmem q (by simp [hq]))
      refine ⟨h1, h2, h3, ?_, h5⟩
      intro q
      rw [h4]
      constructor
      · rintro ⟨hq, hn⟩
        refine ⟨hq, ?_⟩
        rintro ⟨hql, hqz⟩
        rcases List.mem_cons.mp hql with e | hql
        · subst e; exact hz hqz
        · exact hn ⟨hql, hqz⟩
      · rintro ⟨hq, hn⟩
        exact ⟨hq, fun ⟨hql, hqz⟩ => hn ⟨by simp [hql], hqz⟩⟩

/-- `prune` never fails on a consistent table. -/
theorem prune_some (t : T) (ht : Maps t) : ∃ t', t.prune = some t' ∧ Maps t' ∧ t'.guards = t.guards ∧
    t'.nextGen = t.nextGen ∧
    (∀ p, p ∈ t'.order ↔ p ∈ t.order ∧ ¬ (p ∈ t.order.drop 500 ∧ t.counts p = some 0)) ∧
    (∀ p ∈ t'.order, t'.mutexes p = t.mutexes p ∧ t'.counts p = t.counts p) := by
  unfold T.prune
  by_cases hs : t.size > 500
  · rw [if_pos hs, if_neg (by rw [ht.size]; omega)]
    have hsub : (t.order.reverse.take (t.size - 500)).Sublist t.order.reverse := List.take_sublist _ _
    have hrev : t.order.reverse.Nodup := (List.reverse_perm t.order).nodup_iff.mpr ht.nodup
    have hmem : ∀ p, p ∈ t.order.reverse.take (t.size - 500) ↔ p ∈ t.order.drop 500 := by
      intro p
      rw [List.take_reverse, List.mem_reverse]
      have : t.order.length - (t.size - 500) = 500 := by rw [ht.size]; rw [ht.size] at hs; omega
      rw [this]
    obtain ⟨h1, h2, h3, h4, h5⟩ := pruneLoop _ t ht (hrev.sublist hsub)
      (fun p hp => List.mem_reverse.mp (hsub.subset hp))
    refine ⟨_, rfl, h1, h2, h3, ?_, h5⟩
    intro p; rw [h4, hmem]
  · rw [if_neg hs]
    refine ⟨t, rfl, ht, rfl, rfl, ?_, fun p _ => ⟨rfl, rfl⟩⟩
    intro p
    have : t.order.drop 500 = [] := by
      apply List.drop_eq_nil_of_le; rw [← ht.size]; omega
    rw [this]; simp

/-- `touch` on a consistent table. -/
theorem touch_some (t : T) (ht : Maps t) (p : Nat) (hp : p ≠ 0) :
    ∃ t', t.touch p = some t' ∧ Maps t' ∧ t'.guards = t.guards ∧ p ∈ t'.order ∧
      t'.counts p = some ((t.counts p).getD 0 + 1) ∧
      (∀ q, q ≠ p → t'.counts q = t.counts q ∧ t'.mutexes q = t.mutexes q ∧ (q ∈ t'.order ↔ q ∈ t.order)) ∧
      ((t.mutexes p = none ∧ t'.mutexes p = some (t.nextGen, none)) ∨ (p ∈ t.order ∧ t'.mutexes p = t.mutexes p)) := by
  unfold T.touch
  by_cases hin : p ∈ t.order
  · obtain ⟨h1, h2, h3⟩ := ht.here p hin
    obtain ⟨m, hm⟩ := Option.isSome_iff_exists.mp h1
    rw [hm]
    simp only
    have hcs : ∀ o : List Nat, (∀ q, q ∈ o ↔ q ∈ t.order) → o.Nodup → o.length = t.order.length →
        Maps { t with counts := upd t.counts p (some ((t.counts p).getD 0 + 1)), order := o } := by
      intro o ho hnd hlen
      constructor
      · exact hnd
      · show t.size = o.length; rw [hlen, ht.size]
      · intro q hq
        obtain ⟨a, b, c⟩ := ht.here q ((ho q).mp hq)
        refine ⟨a, ?_, c⟩
        show (upd t.counts p _ q).isSome = true
        by_cases hqp : q = p
        · subst hqp; simp
        · rw [upd_ne _ _ hqp]; exact b
      · intro q hq
        have hq' : q ∉ t.order := fun h => hq ((ho q).mpr h)
        obtain ⟨a, b, c⟩ := ht.gone q hq'
        refine ⟨a, ?_, c⟩
        show upd t.counts p _ q = none
        have hqp : q ≠ p := fun e => hq' (e ▸ hin)
        rw [upd_ne _ _ hqp]; exact b
      · intro h; exact ht.zero ((ho 0).mp h)
    rw [h3]
    simp only [if_true]
    split
    · refine ⟨_, rfl, hcs t.order (fun _ => Iff.rfl) ht.nodup rfl, rfl, hin, by simp, ?_, .inr ⟨hin, hm ▸ rfl⟩⟩
      intro q hq
      exact ⟨upd_ne _ _ hq, rfl, Iff.rfl⟩
    · have ho : ∀ q, q ∈ p :: t.order.erase p ↔ q ∈ t.order := by
        intro q
        rw [List.mem_cons, ht.nodup.mem_erase_iff]
        by_cases hqp : q = p
        · subst hqp; simp [hin]
        · simp [hqp]
      have hnd : (p :: t.order.erase p).Nodup := by
        rw [List.nodup_cons, ht.nodup.mem_erase_iff]
        exact ⟨fun h => h.1 rfl, ht.nodup.erase _⟩
      have hlen : (p :: t.order.erase p).length = t.order.length := by
        rw [List.length_cons, List.length_erase_of_mem hin]
        have := List.length_pos_of_mem hin
        omega
      refine ⟨_, rfl, hcs _ ho hnd hlen, rfl, by simp, by simp, ?_, .inr ⟨hin, hm ▸ rfl⟩⟩
      intro q hq
      exact ⟨upd_ne _ _ hq, rfl, ho q⟩
  · obtain ⟨h1, h2, h3⟩ := ht.gone p hin
    rw [h1]
    refine ⟨_, rfl, ?_, rfl, by simp, by simp [h2], ?_, .inl ⟨rfl, by simp⟩⟩
    · constructor
      · exact List.nodup_cons.mpr ⟨hin, ht.nodup⟩
      · show t.size + 1 = _; rw [List.length_cons, ht.size]
      · intro q hq
        by_cases hqp : q = p
        · subst hqp; simp
        · have hq' : q ∈ t.order := by
            rcases List.mem_cons.mp hq with e | h
            · exact absurd e hqp
            · exact h
          simp only [upd_ne _ _ hqp]
          exact ht.here q hq'
      · intro q hq
        have hqp : q ≠ p := fun e => hq (by simp [e])
        simp only [upd_ne _ _ hqp]
        exact ht.gone q (fun h => hq (by simp [h]))
      · intro h
        rcases List.mem_cons.mp h with e | h
        · exact hp e.symm
        · exact ht.zero h
    · intro q hq
      refine ⟨upd_ne _ _ hq, upd_ne _ _ hq, ?_⟩
      show q ∈ p :: t.order ↔ _
      simp [hq]

/-- The table after a guard was created. -/
theorem create_some (t : T) (h : Inv t) (id p : Nat) (hid : id ∉ t.guards.map Guard.id) :
    ∃ t', t.create id p = some t' ∧ Inv t' ∧
      (p ≠ 0 → ∃ gen, t'.guards = ⟨id, p, gen, false⟩ :: t.guards) ∧
      (p = 0 → t' = { t with guards := ⟨id, 0, 0, true⟩ :: t.guards }) ∧
      (∀ q ∈ t.order, live t q ≠ 0 → t'.mutexes q = t.mutexes q) ∧
      (p ≠ 0 → (t'.order.filter (fun q => live t' q == 0)).length ≤ 500) := by
  unfold T.create
  by_cases hp : p = 0
  · subst hp
    rw [if_pos rfl]
    have hlive : ∀ q, q ≠ 0 → live { t with guards := ⟨id, 0, 0, true⟩ :: t.guards } q = live t q := by
      intro q hq
      unfold live
      rw [List.filter_cons, if_neg (by simpa using Ne.symm hq)]
    refine ⟨_, rfl, ?_, fun h => absurd rfl h, fun _ => rfl, fun _ _ _ => rfl, fun h => absurd rfl h⟩
    refine ⟨⟨h.maps.nodup, h.maps.size, h.maps.here, h.maps.gone, h.maps.zero⟩, ?_, ?_, ?_, ?_, ?_, ?_⟩
    · rw [List.map_cons, List.nodup_cons]; exact ⟨hid, h.ids⟩
    · intro q hq
      rw [hlive q (fun e => h.maps.zero (e ▸ hq))]
      exact h.counted q hq
    · intro g hg hne
      rcases List.mem_cons.mp hg with e | hg
      · subst e; exact absurd rfl hne
      · exact h.point g hg hne
    · intro q gen o hq
      obtain ⟨g, hg, a⟩ := h.holder q gen o hq
      exact ⟨g, List.mem_cons_of_mem _ hg, a⟩
    · intro g hg hne hh
      rcases List.mem_cons.mp hg with e | hg
      · subst e; exact absurd rfl hne
      · exact h.holds g hg hne hh
    · intro g hg hz
      rcases List.mem_cons.mp hg with e | hg
      · subst e; rfl
      · exact h.wait0 g hg hz
  · rw [if_neg hp]
    obtain ⟨t1, e1, hm1, hg1, hp1, hc1, ho1, hmp1⟩ := touch_some t h.maps p hp
    obtain ⟨t2, e2, hm2, hg2, hn2, hin2, hsame2⟩ := prune_some t1 hm1
    have hcntp : t.counts p = if p ∈ t.order then some (live t p : Int) else none := by
      split
      · exact h.counted p (by assumption)
      · exact (h.maps.gone p (by assumption)).2.1
    have hc0 : 0 ≤ (t.counts p).getD 0 := by
      rw [hcntp]; split <;> simp
    have hp2 : p ∈ t2.order := by
      rw [hin2]
      refine ⟨hp1, ?_⟩
      rintro ⟨_, hz⟩
      rw [hc1] at hz
      simp only [Option.some.injEq] at hz
      omega
    obtain ⟨m, hm⟩ := Option.isSome_iff_exists.mp (hm2.here p hp2).1
    obtain ⟨gen, hold⟩ := m
    have hstep : (t.touch p).bind (fun t => t.prune.bind (fun t =>
        match t.mutexes p with
        | none => none
        | some (gen, _) => some { t with guards := ⟨id, p, gen, false⟩ :: t.guards })) =
        some { t2 with guards := ⟨id, p, gen, false⟩ :: t2.guards } := by
      rw [e1, Option.bind_some, e2, Option.bind_some, hm]
    have hguards : t2.guards = t.guards := hg2.trans hg1
    -- pages other than p keep their mutexes as long as they have a guard
    have hkeep : ∀ q ∈ t.order, live t q ≠ 0 → q ≠ p → q ∈ t2.order ∧ t2.mutexes q = t.mutexes q := by
      intro q hq hl hqp
      obtain ⟨a, b, c⟩ := ho1 q hqp
      have hq2 : q ∈ t2.order := by
        rw [hin2]
        refine ⟨c.mpr hq, ?_⟩
        rintro ⟨_, hz⟩
        rw [a, h.counted q hq] at hz
        simp only [Option.some.injEq] at hz
        omega
      exact ⟨hq2, (hsame2 q hq2).1.trans b⟩
    have hkeepp : p ∈ t.order → t2.mutexes p = t.mutexes p := by
      intro hpin
      rcases hmp1 with ⟨hno, _⟩ | ⟨_, he⟩
      · obtain ⟨x, hx⟩ := Option.isSome_iff_exists.mp (h.maps.here p hpin).1
        rw [hx] at hno; cases hno
      · exact (hsame2 p hp2).1.trans he
    have hliveq : ∀ (tt : T) (q : Nat), tt.guards = ⟨id, p, gen, false⟩ :: t.guards →
        live tt q = live t q + (if q = p then 1 else 0) := by
      intro tt q htt
      unfold live
      rw [htt, List.filter_cons]
      by_cases hqp : q = p
      · subst hqp; simp
      · rw [if_neg (by simpa using Ne.symm hqp), if_neg hqp]; rfl
    have hord : ∀ g ∈ t.guards, g.page ≠ 0 → g.page ∈ t.order ∧ live t g.page ≠ 0 := by
      intro g hg hne
      obtain ⟨x, hx⟩ := h.point g hg hne
      refine ⟨?_, ?_⟩
      · by_cases hin : g.page ∈ t.order
        · exact hin
        · rw [(h.maps.gone _ hin).1] at hx; cases hx
      · unfold live
        have : g ∈ t.guards.filter (fun x => x.page == g.page) := by
          rw [List.mem_filter]; exact ⟨hg, by simp⟩
        have := List.length_pos_of_mem this
        omega
    have hkeepg : ∀ g ∈ t.guards, g.page ≠ 0 → t2.mutexes g.page = t.mutexes g.page := by
      intro g hg hne
      obtain ⟨ha, hb⟩ := hord g hg hne
      by_cases hgp : g.page = p
      · rw [hgp] at ha ⊢; exact hkeepp ha
      · exact (hkeep _ ha hb hgp).2
    refine ⟨_, hstep, ?_, fun _ => ⟨gen, by show _ :: t2.guards = _; rw [hguards]⟩, fun e => absurd e hp, ?_, ?_⟩
    · refine ⟨⟨hm2.nodup, hm2.size, hm2.here, hm2.gone, hm2.zero⟩, ?_, ?_, ?_, ?_, ?_, ?_⟩
      · show ((⟨id, p, gen, false⟩ :: t2.guards).map Guard.id).Nodup
        rw [hguards, List.map_cons, List.nodup_cons]; exact ⟨hid, h.ids⟩
      · intro q hq
        have hq2 : q ∈ t2.order := hq
        show t2.counts q = _
        rw [hliveq _ q (by show _ :: t2.guards = _; rw [hguards]), (hsame2 q hq2).2]
        by_cases hqp : q = p
        · subst hqp
          rw [hc1, hcntp]
          split
          · simp
          · rename_i hnin
            have : live t q = 0 := by
              unfold live
              rw [List.length_eq_zero_iff, List.filter_eq_nil_iff]
              intro g hg he
              simp only [beq_iff_eq] at he
              have := (hord g hg (by rw [he]; exact hp)).1
              rw [he] at this
              exact hnin this
            simp [this]
        · obtain ⟨a, _, c⟩ := ho1 q hqp
          rw [a, if_neg hqp]
          have hqt : q ∈ t.order := c.mp ((hin2 q).mp hq2).1
          rw [h.counted q hqt]; rfl
      · intro g hg hne
        have hg : g ∈ (⟨id, p, gen, false⟩ : Guard) :: t2.guards := hg
        rcases List.mem_cons.mp hg with e | hg
        · subst e; exact ⟨hold, hm⟩
        · rw [hguards] at hg
          show ∃ o, t2.mutexes g.page = _
          rw [hkeepg g hg hne]
          exact h.point g hg hne
      · intro q gen' o hq
        have hq : t2.mutexes q = some (gen', some o) := hq
        clear hstep
        have hq2 : q ∈ t2.order := by
          by_cases hin : q ∈ t2.order
          · exact hin
          · rw [(hm2.gone q hin).1] at hq; cases hq
        have hqo : t.mutexes q = some (gen', some o) := by
          rw [(hsame2 q hq2).1] at hq
          by_cases hqp : q = p
          · rw [hqp] at hq ⊢
            rcases hmp1 with ⟨_, he⟩ | ⟨_, he⟩
            · rw [he] at hq; cases hq
            · rw [← he]; exact hq
          · rw [← (ho1 q hqp).2.1]; exact hq
        obtain ⟨g, hg, a⟩ := h.holder q gen' o hqo
        exact ⟨g, List.mem_cons_of_mem _ (hguards ▸ hg), a⟩
      · intro g hg hne hh
        have hg : g ∈ (⟨id, p, gen, false⟩ : Guard) :: t2.guards := hg
        rcases List.mem_cons.mp hg with e | hg
        · subst e; cases hh
        · rw [hguards] at hg
          show t2.mutexes g.page = _
          rw [hkeepg g hg hne]
          exact h.holds g hg hne hh
      · intro g hg hz
        have hg : g ∈ (⟨id, p, gen, false⟩ : Guard) :: t2.guards := hg
        rcases List.mem_cons.mp hg with e | hg
        · subst e; exact absurd hz hp
        · exact h.wait0 g (hguards ▸ hg) hz
    · intro q hq hl
      by_cases hqp : q = p
      · subst hqp; exact hkeepp hq
      · exact (hkeep q hq hl hqp).2
    · intro _
      -- unused pages that are left are among the first 500
      have hsub : ∀ q ∈ t2.order.filter (fun q =>
          live { t2 with guards := ⟨id, p, gen, false⟩ :: t2.guards } q == 0), q ∈ t1.order.take 500 := by
        intro q hq
        rw [List.mem_filter] at hq
        obtain ⟨hq2, hl⟩ := hq
        rw [hliveq _ q (by show _ :: t2.guards = _; rw [hguards])] at hl
        simp only [beq_iff_eq] at hl
        have hqp : q ≠ p := by
          intro e; rw [if_pos e] at hl; omega
        rw [if_neg hqp] at hl
        have hq1 := (hin2 q).mp hq2
        have hqt : q ∈ t.order := (ho1 q hqp).2.2.mp hq1.1
        have hz : t1.counts q = some 0 := by
          rw [(ho1 q hqp).1, h.counted q hqt]
          simp; omega
        have hnd : q ∉ t1.order.drop 500 := fun hd => hq1.2 ⟨hd, hz⟩
        have : q ∈ t1.order.take 500 ++ t1.order.drop 500 := by
          rw [List.take_append_drop]; exact hq1.1
        rcases List.mem_append.mp this with h' | h'
        · exact h'
        · exact absurd h' hnd
      have hnd : (t2.order.filter (fun q =>
          live { t2 with guards := ⟨id, p, gen, false⟩ :: t2.guards } q == 0)).Nodup :=
        List.Nodup.sublist List.filter_sublist hm2.nodup
      have := (List.subperm_of_subset hnd (fun q hq => hsub q hq)).length_le
      refine Nat.le_trans this ?_
      rw [List.length_take]; omega

theorem find_some {t : T} {id : Nat} {g : Guard} (h : t.guards.find? (fun g => g.id == id) = some g) :
    g ∈ t.guards ∧ g.id = id :=
  ⟨List.mem_of_find?_eq_some h, by have := List.find?_some h; simpa using this⟩

theorem id_inj {t : T} (h : Inv t) {a b : Guard} (ha : a ∈ t.guards) (hb : b ∈ t.guards) (e : a.id = b.id) :
    a = b := by
  have := h.ids
  revert ha hb this
  generalize t.guards = l
  induction l with
  | nil => intro ha; simp at ha
  | cons x l ih =>
    intro ha hb hn
    rw [List.map_cons, List.nodup_cons] at hn
    rcases List.mem_cons.mp ha with ea | ha <;> rcases List.mem_cons.mp hb with eb | hb
    · rw [ea, eb]
    · exact absurd (List.mem_map.mpr ⟨b, hb, by rw [← e, ea]⟩) hn.1
    · exact absurd (List.mem_map.mpr ⟨a, ha, by rw [e, eb]⟩) hn.1
    · exact ih ha hb hn.2

/-- Taking a mutex. -/
theorem lock_some (t : T) (h : Inv t) (g : Guard) (hg : g ∈ t.guards) (hw : g.held = false) :
    ∃ t', t.lock g = some t' ∧ Inv t' ∧ t'.order = t.order ∧ (∀ q, live t' q = live t q) ∧
      ((∃ o, t.mutexes g.page = some (g.gen, some o)) → t' = t) ∧
      (t.mutexes g.page = some (g.gen, none) →
        t'.guards = t.guards.map (fun x => if x.id = g.id then { x with held := true } else x)) := by
  have hne : g.page ≠ 0 := by
    intro e; have := h.wait0 g hg e; rw [hw] at this; cases this
  obtain ⟨o, ho⟩ := h.point g hg hne
  unfold T.lock
  rw [ho]
  simp only [if_true]
  cases o with
  | some o =>
    exact ⟨t, rfl, h, rfl, fun _ => rfl, fun _ => rfl, by intro e; cases e⟩
  | none =>
    have hlive : ∀ q, (((t.guards.map (fun x => if x.id = g.id then { x with held := true } else x)).filter
        (fun g => g.page == q))).length = live t q := by
      intro q
      unfold live
      rw [List.filter_map, List.length_map]
      congr 2
      funext x
      simp only [Function.comp_apply]
      split <;> rfl
    have hmemm : ∀ x, x ∈ t.guards.map (fun x => if x.id = g.id then { x with held := true } else x) ↔
        (x ∈ t.guards ∧ x.id ≠ g.id) ∨ x = { g with held := true } := by
      intro x
      rw [List.mem_map]
      constructor
      · rintro ⟨y, hy, e⟩
        by_cases hyg : y.id = g.id
        · rw [if_pos hyg, id_inj h hy hg hyg] at e
          exact .inr e.symm
        · rw [if_neg hyg] at e; subst e; exact .inl ⟨hy, hyg⟩
      · rintro (⟨hx, hne⟩ | e)
        · exact ⟨x, hx, if_neg hne⟩
        · exact ⟨g, hg, by rw [if_pos rfl]; exact e.symm⟩
    have hm : ∀ q, q ≠ g.page → upd t.mutexes g.page (some (g.gen, some g.id)) q = t.mutexes q :=
      fun q hq => upd_ne _ _ hq
    have hnobody : ∀ x ∈ t.guards, x.page = g.page → x.held = false := by
      intro x hx hp
      cases hh : x.held with
      | false => rfl
      | true =>
        have := h.holds x hx (by rw [hp]; exact hne) hh
        rw [hp, ho] at this; simp at this
    refine ⟨_, rfl, ?_, rfl, hlive, (by rintro ⟨o, e⟩; cases e), fun _ => rfl⟩
    refine ⟨⟨h.maps.nodup, h.maps.size, ?_, ?_, h.maps.zero⟩, ?_, ?_, ?_, ?_, ?_, ?_⟩
    · intro q hq
      obtain ⟨a, b, c⟩ := h.maps.here q hq
      refine ⟨?_, b, c⟩
      show (upd t.mutexes _ _ q).isSome = true
      by_cases hqp : q = g.page
      · subst hqp; simp
      · rw [hm q hqp]; exact a
    · intro q hq
      obtain ⟨a, b, c⟩ := h.maps.gone q hq
      refine ⟨?_, b, c⟩
      show upd t.mutexes _ _ q = none
      have hqp : q ≠ g.page := by
        intro e; subst e; rw [a] at ho; cases ho
      rw [hm q hqp]; exact a
    · show ((t.guards.map _).map Guard.id).Nodup
      rw [List.map_map]
      have : (Guard.id ∘ fun x => if x.id = g.id then { x with held := true } else x) = Guard.id := by
        funext x; simp only [Function.comp_apply]; split <;> rfl
      rw [this]; exact h.ids
    · intro q hq
      show t.counts q = some ((_ : Nat) : Int)
      unfold live
      rw [hlive q]
      exact h.counted q hq
    · intro x hx hnx
      show ∃ o, upd t.mutexes _ _ _ = _
      rcases (hmemm x).mp hx with ⟨hx, _⟩ | e
      · by_cases hp : x.page = g.page
        · obtain ⟨o', ho'⟩ := h.point x hx hnx
          rw [hp, ho] at ho'
          injection ho' with e1
          injection e1 with e1 e2
          rw [hp, upd_same, e1]
          exact ⟨_, rfl⟩
        · rw [hm _ hp]; exact h.point x hx hnx
      · subst e; exact ⟨some g.id, by simp⟩
    · intro q gen o hq
      have hq : upd t.mutexes g.page (some (g.gen, some g.id)) q = some (gen, some o) := hq
      by_cases hqp : q = g.page
      · subst hqp
        rw [upd_same] at hq
        injection hq with e1
        injection e1 with e1 e2
        injection e2 with e2
        exact ⟨{ g with held := true }, (hmemm _).mpr (.inr rfl), e2, rfl, rfl⟩
      · rw [hm q hqp] at hq
        obtain ⟨x, hx, a, b, c⟩ := h.holder q gen o hq
        refine ⟨x, (hmemm x).mpr (.inl ⟨hx, ?_⟩), a, b, c⟩
        intro e
        have := id_inj h hx hg e
        subst this
        exact hqp b.symm
    · intro x hx hnx hh
      show upd t.mutexes _ _ _ = _
      rcases (hmemm x).mp hx with ⟨hx, _⟩ | e
      · have hp : x.page ≠ g.page := by
          intro hp; rw [hnobody x hx hp] at hh; cases hh
        rw [hm _ hp]; exact h.holds x hx hnx hh
      · subst e; simp
    · intro x hx hz
      rcases (hmemm x).mp hx with ⟨hx, _⟩ | e
      · exact h.wait0 x hx hz
      · subst e; rfl

/-- A guard goes away. -/
theorem destroy_some (t : T) (h : Inv t) (g : Guard) (hg : g ∈ t.guards) (hh : g.held = true) :
    ∃ t', t.destroy g = some t' ∧ Inv t' ∧ t'.order = t.order ∧
      t'.guards = t.guards.filter (fun x => x.id != g.id) ∧
      (g.page ≠ 0 → t'.mutexes g.page = some (g.gen, none)) := by
  have hmemf : ∀ x, x ∈ t.guards.filter (fun x => x.id != g.id) ↔ x ∈ t.guards ∧ x.id ≠ g.id := by
    intro x; rw [List.mem_filter]; simp
  have hidsf : ((t.guards.filter (fun x => x.id != g.id)).map Guard.id).Nodup :=
    List.Nodup.sublist (List.filter_sublist.map _) h.ids
  -- removing the guard takes one from its page's count
  have hcount : ∀ q, ((t.guards.filter (fun x => x.id != g.id)).filter (fun x => x.page == q)).length +
      (if q = g.page then 1 else 0) = live t q := by
    intro q
    unfold live
    have hids := h.ids
    revert hg hids
    generalize t.guards = l
    clear hmemf hidsf h
    intro hg hids
    induction l with
    | nil => simp at hg
    | cons x l ih =>
      rw [List.map_cons, List.nodup_cons] at hids
      rcases List.mem_cons.mp hg with e | hgl
      · subst e
        have hl : l.filter (fun x => x.id != g.id) = l := by
          rw [List.filter_eq_self]
          intro y hy
          simp only [bne_iff_ne]
          intro e
          exact hids.1 (List.mem_map.mpr ⟨y, hy, e⟩)
        rw [List.filter_cons, if_neg (by simp), hl, List.filter_cons]
        by_cases hq : q = g.page
        · rw [if_pos hq, if_pos (by simp [hq])]; rfl
        · rw [if_neg hq, if_neg (by simpa using Ne.symm hq)]; rfl
      · have hxg : x.id ≠ g.id := by
          intro e
          exact hids.1 (List.mem_map.mpr ⟨g, hgl, e.symm⟩)
        have := ih hgl hids.2
        rw [List.filter_cons, if_pos (by simpa using hxg), List.filter_cons]
        rw [List.filter_cons]
        split
        · simp only [List.length_cons]; omega
        · exact this
  unfold T.destroy
  by_cases hz : g.page = 0
  · rw [if_pos hz]
    refine ⟨_, rfl, ?_, rfl, rfl, fun hne => absurd hz hne⟩
    refine ⟨⟨h.maps.nodup, h.maps.size, h.maps.here, h.maps.gone, h.maps.zero⟩, hidsf, ?_, ?_, ?_, ?_, ?_⟩
    · intro q hq
      have hq0 : q ≠ g.page := by rw [hz]; exact fun e => h.maps.zero (e ▸ hq)
      have := hcount q
      rw [if_neg hq0] at this
      show t.counts q = some ((_ : Nat) : Int)
      unfold live
      rw [h.counted q hq]
      simp only [Option.some.injEq, Int.natCast_inj]
      exact this.symm
    · intro x hx hne; exact h.point x ((hmemf x).mp hx).1 hne
    · intro q gen o hq
      obtain ⟨x, hx, a, b, c⟩ := h.holder q gen o hq
      refine ⟨x, (hmemf x).mpr ⟨hx, ?_⟩, a, b, c⟩
      intro e
      have := id_inj h hx hg e
      subst this
      have hq : t.mutexes q = some (gen, some o) := hq
      rw [← b, hz, (h.maps.gone 0 h.maps.zero).1] at hq
      cases hq
    · intro x hx hne hxh; exact h.holds x ((hmemf x).mp hx).1 hne hxh
    · intro x hx hxz; exact h.wait0 x ((hmemf x).mp hx).1 hxz
  · rw [if_neg hz]
    have hmg := h.holds g hg hz hh
    have hin : g.page ∈ t.order := by
      by_cases hin : g.page ∈ t.order
      · exact hin
      · rw [(h.maps.gone _ hin).1] at hmg; cases hmg
    rw [hmg, h.counted _ hin]
    simp only
    have hm : ∀ q, q ≠ g.page → upd t.mutexes g.page (some (g.gen, none)) q = t.mutexes q :=
      fun q hq => upd_ne _ _ hq
    refine ⟨_, rfl, ?_, rfl, rfl, fun _ => by simp⟩
    refine ⟨⟨h.maps.nodup, h.maps.size, ?_, ?_, h.maps.zero⟩, hidsf, ?_, ?_, ?_, ?_, ?_⟩
    · intro q hq
      obtain ⟨a, b, c⟩ := h.maps.here q hq
      show (upd t.mutexes _ _ q).isSome = true ∧ (upd t.counts _ _ q).isSome = true ∧ _
      by_cases hqp : q = g.page
      · subst hqp; exact ⟨by simp, by simp, c⟩
      · rw [hm q hqp, upd_ne _ _ hqp]; exact ⟨a, b, c⟩
    · intro q hq
      obtain ⟨a, b, c⟩ := h.maps.gone q hq
      have hqp : q ≠ g.page := fun e => hq (by rw [e]; exact hin)
      show upd t.mutexes _ _ q = none ∧ upd t.counts _ _ q = none ∧ _
      rw [hm q hqp, upd_ne _ _ hqp]; exact ⟨a, b, c⟩
    · intro q hq
      have hcq := hcount q
      show upd t.counts _ _ q = some ((_ : Nat) : Int)
      unfold live
      by_cases hqp : q = g.page
      · subst hqp
        rw [if_pos rfl] at hcq
        rw [upd_same]
        simp only [Option.some.injEq]
        show ((live t g.page : Nat) : Int) - 1 = _
        rw [← hcq]
        simp
      · rw [if_neg hqp] at hcq
        rw [upd_ne _ _ hqp, h.counted q hq]
        simp only [Option.some.injEq, Int.natCast_inj]
        exact hcq.symm
    · intro x hx hne
      show ∃ o, upd t.mutexes _ _ _ = _
      obtain ⟨o, ho⟩ := h.point x ((hmemf x).mp hx).1 hne
      by_cases hp : x.page = g.page
      · rw [hp] at ho ⊢
        rw [hmg] at ho
        injection ho with e1
        injection e1 with e1 e2
        exact ⟨none, by rw [upd_same, e1]⟩
      · rw [hm _ hp]; exact ⟨o, ho⟩
    · intro q gen o hq
      have hq : upd t.mutexes g.page (some (g.gen, none)) q = some (gen, some o) := hq
      have hqp : q ≠ g.page := by
        intro e; subst e; rw [upd_same] at hq; cases hq
      rw [hm q hqp] at hq
      obtain ⟨x, hx, a, b, c⟩ := h.holder q gen o hq
      refine ⟨x, (hmemf x).mpr ⟨hx, ?_⟩, a, b, c⟩
      intro e
      have := id_inj h hx hg e
      subst this
      exact hqp b.symm
    · intro x hx hne hxh
      show upd t.mutexes _ _ _ = _
      have hx' := (hmemf x).mp hx
      have hp : x.page ≠ g.page := by
        intro hp
        have := h.holds x hx'.1 hne hxh
        rw [hp, hmg] at this
        injection this with e1
        injection e1 with e1 e2
        injection e2 with e2
        exact hx'.2 e2.symm
      rw [hm _ hp]; exact h.holds x hx'.1 hne hxh
    · intro x hx hxz; exact h.wait0 x ((hmemf x).mp hx).1 hxz

theorem step_some (t : T) (h : Inv t) (op : Op) : ∃ t', t.step op = some t' ∧ Inv t' := by
  cases op with
  | create id p =>
    unfold T.step
    simp only
    split
    · exact ⟨t, rfl, h⟩
    · rename_i hn
      obtain ⟨t', a, b, _⟩ := create_some t h id p (by
        intro hm
        obtain ⟨g, hg, e⟩ := List.mem_map.mp hm
        exact hn (List.any_eq_true.mpr ⟨g, hg, by simp [e]⟩))
      exact ⟨t', a, b⟩
  | lock id =>
    unfold T.step
    simp only
    cases hf : t.guards.find? (fun g => g.id == id) with
    | none => exact ⟨t, rfl, h⟩
    | some g =>
      simp only
      split
      · exact ⟨t, rfl, h⟩
      · rename_i hw
        obtain ⟨t', a, b, _⟩ := lock_some t h g (find_some hf).1 (by simpa using hw)
        exact ⟨t', a, b⟩
  | destroy id =>
    unfold T.step
    simp only
    cases hf : t.guards.find? (fun g => g.id == id) with
    | none => exact ⟨t, rfl, h⟩
    | some g =>
      simp only
      split
      · rename_i hw
        obtain ⟨t', a, b, _⟩ := destroy_some t h g (find_some hf).1 hw
        exact ⟨t', a, b⟩
      · exact ⟨t, rfl, h⟩

theorem run_some (ops : List Op) : ∀ t : T, Inv t → ∃ t', t.run ops = some t' ∧ Inv t' := by
  induction ops with
  | nil => intro t h; exact ⟨t, rfl, h⟩
  | cons op ops ih =>
    intro t h
    obtain ⟨t1, e1, h1⟩ := step_some t h op
    obtain ⟨t2, e2, h2⟩ := ih t1 h1
    exact ⟨t2, by unfold T.run; rw [e1]; exact e2, h2⟩

end Bedrock.ConflictLock
