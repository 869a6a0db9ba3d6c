import Verif.Model.SyncLoop

/-! Proofs about the loop of the sync thread (C97). -/

namespace Bedrock.SyncLoop.Props
open Bedrock.SyncLoop
open Bedrock.Node (NState)
open Bedrock.Ports (Shut)

theorem run_append (s : S) (a b : List Ev) : s.run (a ++ b) = (s.run a).run b := List.foldl_append ..

theorem run_ind {P : S → Prop} {s : S} (h0 : P s) (hs : ∀ s e, P s → P (s.step e)) (es : List Ev) : P (s.run es) := by
  induction es generalizing s with
  | nil => exact h0
  | cons e es ih => exact ih (hs s e h0)

/-- The commands whose destructor has not got past the callback. -/
def pending (s : S) : List Cmd := s.main ++ s.blocking ++ s.aside ++ s.hand ++ s.recorded

/-- The commands that exist. -/
def live (s : S) : List Cmd := pending s ++ s.cleared

/-- Every command there ever was, by the place it is in. -/
def everything (s : S) : List Cmd := live s ++ s.finished ++ s.abandoned ++ s.discarded

theorem find_mem {id : Nat} {l : List Cmd} {c : Cmd} (h : find id l = some c) : c ∈ l ∧ c.id = id := by
  have h1 := List.mem_of_find?_eq_some h
  have h2 := List.find?_some h
  exact ⟨h1, by simpa using h2⟩

theorem remove_perm {id : Nat} {l : List Cmd} {c : Cmd} (hn : (l.map (·.id)).Nodup) (h : find id l = some c) :
    l.Perm (c :: remove id l) := by
  induction l with
  | nil => simp [find] at h
  | cons d l ih =>
    simp only [List.map_cons, List.nodup_cons] at hn
    by_cases hd : d.id = id
    · have : c = d := by simp [find, hd] at h; exact h.symm
      subst this
      have : remove id l = l := by
        unfold remove
        rw [List.filter_eq_self]
        intro x hx
        have : x.id ≠ id := fun hxi => hn.1 (by rw [hd, ← hxi]; exact List.mem_map_of_mem hx)
        simpa using this
      have h2 : remove id (c :: l) = l := by
        show List.filter _ (c :: l) = l
        rw [List.filter_cons_of_neg (by simpa using hd)]
        exact this
      rw [h2]
    · have h' : find id l = some c := by simpa [find, hd] using h
      have h2 : remove id (d :: l) = d :: remove id l := by
        show List.filter _ (d :: l) = _
        rw [List.filter_cons_of_pos (by simpa using hd)]
        rfl
      rw [h2]
      exact ((ih hn.2 h').cons d).trans (List.Perm.swap ..)

theorem filter_count (p : Cmd → Bool) (a : Cmd) (l : List Cmd) :
    (l.filter p).count a + (l.filter (fun c => !p c)).count a = l.count a := by
  induction l with
  | nil => rfl
  | cons d l ih =>
    cases hp : p d <;> simp [hp, List.count_cons] <;> omega

/-- Everything that holds in every reachable state. -/
structure Inv (s : S) : Prop where
  /-- every command is in exactly one place -/
  once : ((everything s).map (·.id)).Perm (List.range s.next)
  up : (pending s).countP (·.upgrade) = if s.running then 1 else 0
  rec' : ∀ c ∈ s.recorded, c.upgrade = true
  clr : ∀ c ∈ s.cleared, c.upgrade = true
  fin : s.shut = .commandsFinished → ∀ c ∈ live s, c.upgrade = true
  over : s.pc = .ended ∨ s.pc = .closed ↔ s.shut = .done
  none_left : s.shut = .done → live s = []
  disc : s.discarded = []
  succ : s.completed = true ↔ s.success ≠ []
  pas : ∀ p ∈ s.passed, (p.2 = .following ∨ p.2 = .leading ∨ p.2 = .standingDown) ∧
    (p.2 ≠ .following → s.completed = true) ∧ ∃ c ∈ s.hand, c.id = p.1
  wr : ∀ w ∈ s.writes, w.before = .following ∨ w.completed = true
  st : ∀ x ∈ s.starts, x.node = .leading ∧ x.majority = true

theorem inv_start : Inv {} where
  once := by decide
  up := rfl
  rec' := by simp
  clr := by simp
  fin := by simp
  over := by simp
  none_left := by simp
  disc := rfl
  succ := by simp
  pas := by simp
  wr := by simp
  st := by simp

theorem count_zero {s : S} : s.count = 0 ↔ live s = [] := by
  unfold S.count live pending
  simp only [List.append_eq_nil_iff]
  constructor
  · intro h
    refine ⟨⟨⟨⟨⟨?_, ?_⟩, ?_⟩, ?_⟩, ?_⟩, ?_⟩ <;> apply List.eq_nil_of_length_eq_zero <;> omega
  · rintro ⟨⟨⟨⟨⟨h1, h2⟩, h3⟩, h4⟩, h5⟩, h6⟩
    simp [h1, h2, h3, h4, h5, h6]

/-- A step that moves commands about. -/
theorem once_of_perm {s t : S} (h : Inv s) (hn : t.next = s.next) (hp : (everything t).Perm (everything s)) :
    ((everything t).map (·.id)).Perm (List.range t.next) := by
  rw [hn]
  exact (hp.map _).trans h.once

/-- A step that makes a command. -/
theorem once_of_new {s t : S} (h : Inv s) (c : Cmd) (hc : c.id = s.next) (hn : t.next = s.next + 1)
    (hp : (everything t).Perm (everything s ++ [c])) :
    ((everything t).map (·.id)).Perm (List.range t.next) := by
  rw [hn, List.range_succ]
  refine (hp.map _).trans ?_
  rw [List.map_append]
  simp only [List.map_cons, List.map_nil, hc]
  exact h.once.append_right _

theorem nodup {s : S} (h : Inv s) : ((everything s).map (·.id)).Nodup :=
  h.once.nodup_iff.2 List.nodup_range

theorem nodup_sub {s : S} (h : Inv s) {l : List Cmd} (hl : l.Sublist (everything s)) : (l.map (·.id)).Nodup :=
  (nodup h).sublist (hl.map _)

theorem sub_main (s : S) : s.main.Sublist (everything s) := by
  unfold everything live pending; simp [List.append_assoc]
theorem sub_blocking (s : S) : s.blocking.Sublist (everything s) := by
  unfold everything live pending
  simp only [List.append_assoc]
  exact (List.sublist_append_left ..).trans (List.sublist_append_right ..)
theorem sub_aside (s : S) : s.aside.Sublist (everything s) := by
  unfold everything live pending
  simp only [List.append_assoc]
  exact (List.sublist_append_left ..).trans ((List.sublist_append_right ..).trans (List.sublist_append_right ..))
theorem sub_hand (s : S) : s.hand.Sublist (everything s) := by
  unfold everything live pending
  simp only [List.append_assoc]
  exact (List.sublist_append_left ..).trans ((List.sublist_append_right ..).trans ((List.sublist_append_right ..).trans
    (List.sublist_append_right ..)))
theorem sub_recorded (s : S) : s.recorded.Sublist (everything s) := by
  unfold everything live pending
  simp only [List.append_assoc]
  exact (List.sublist_append_left ..).trans ((List.sublist_append_right ..).trans ((List.sublist_append_right ..).trans
    ((List.sublist_append_right ..).trans (List.sublist_append_right ..))))
theorem sub_cleared (s : S) : s.cleared.Sublist (everything s) := by
  unfold everything live pending
  simp only [List.append_assoc]
  exact (List.sublist_append_left ..).trans ((List.sublist_append_right ..).trans ((List.sublist_append_right ..).trans
    ((List.sublist_append_right ..).trans ((List.sublist_append_right ..).trans (List.sublist_append_right ..)))))

/-- A step that only moves commands between the queues and the hands of threads, and the sync thread along its loop. -/
theorem inv_move {s t : S} (h : Inv s) (hp : (pending t).Perm (pending s)) (h1 : t.cleared = s.cleared)
    (h2 : t.finished = s.finished) (h3 : t.abandoned = s.abandoned) (h4 : t.discarded = s.discarded)
    (h5 : t.next = s.next) (h6 : t.running = s.running) (h7 : t.recorded = s.recorded) (h8 : t.shut = s.shut)
    (h9 : (t.pc = .ended ∨ t.pc = .closed) ↔ (s.pc = .ended ∨ s.pc = .closed))
    (h10 : t.success = s.success) (h11 : t.completed = s.completed) (h12 : t.writes = s.writes) (h13 : t.starts = s.starts)
    (h14 : ∀ p ∈ t.passed, p ∈ s.passed ∧ ∃ c ∈ t.hand, c.id = p.1) : Inv t := by
  have hl : (live t).Perm (live s) := by unfold live; rw [h1]; exact hp.append_right _
  have he : (everything t).Perm (everything s) := by
    unfold everything; rw [h2, h3, h4]; exact ((hl.append_right _).append_right _).append_right _
  exact {
    once := once_of_perm h h5 he
    up := by rw [hp.countP_eq, h6]; exact h.up
    rec' := by rw [h7]; exact h.rec'
    clr := by rw [h1]; exact h.clr
    fin := fun hs c hc => h.fin (h8 ▸ hs) c (hl.mem_iff.1 hc)
    over := by rw [h9, h8]; exact h.over
    none_left := fun hs => by
      have := h.none_left (h8 ▸ hs)
      rw [this] at hl
      exact hl.eq_nil
    disc := by rw [h4]; exact h.disc
    succ := by rw [h10, h11]; exact h.succ
    pas := fun p hp' => by
      obtain ⟨ha, hb⟩ := h14 p hp'
      obtain ⟨hc, hd, _⟩ := h.pas p ha
      exact ⟨hc, by rw [h11]; exact hd, hb⟩
    wr := by rw [h12]; exact h.wr
    st := by rw [h13]; exact h.st }

theorem passed_same {s t : S} (h : Inv s) (h1 : t.passed = s.passed) (h2 : t.hand = s.hand) :
    ∀ p ∈ t.passed, p ∈ s.passed ∧ ∃ c ∈ t.hand, c.id = p.1 := fun p hp => by
  rw [h1] at hp
  rw [h2]
  exact ⟨hp, (h.pas p hp).2.2⟩

theorem hand_remove {id : Nat} {l : List Cmd} {p : Nat × NState} (hp : p.1 ≠ id) (h : ∃ c ∈ l, c.id = p.1) :
    ∃ c ∈ remove id l, c.id = p.1 := by
  obtain ⟨c, hc, he⟩ := h
  refine ⟨c, ?_, he⟩
  unfold remove
  rw [List.mem_filter]
  exact ⟨hc, by simpa [he] using hp⟩

theorem mem_forget {id : Nat} {l : List (Nat × NState)} {p : Nat × NState} (h : p ∈ forget id l) : p ∈ l ∧ p.1 ≠ id := by
  unfold forget at h
  rw [List.mem_filter] at h
  exact ⟨h.1, by simpa using h.2⟩

theorem inv_top (s : S) (h : Inv s) (due : List Nat) (hpc : s.pc = .top) : Inv (s.doTop due) := by
  refine inv_move h ?_ rfl rfl rfl rfl rfl rfl rfl rfl ?_ rfl rfl rfl rfl (passed_same h rfl rfl)
  · rw [List.perm_iff_count]
    intro a
    have := filter_count (fun c => due.contains c.id || s.shut ≠ .running) a s.aside
    simp only [pending, S.doTop, List.count_append] at this ⊢
    omega
  · simp [S.doTop, hpc]

theorem inv_update (s : S) (h : Inv s) (pre to : NState) (hpc : s.pc = .iter pre) : Inv (s.doUpdate pre to) := by
  have h9 : ((s.doUpdate pre to).pc = .ended ∨ (s.doUpdate pre to).pc = .closed) ↔ (s.pc = .ended ∨ s.pc = .closed) := by
    rw [hpc]
    unfold S.doUpdate
    dsimp only
    split <;> simp
  by_cases hc : to ≠ .leading ∧ to ≠ pre
  · have e : s.doUpdate pre to = { s with main := s.main ++ s.blocking, blocking := [], node := to, pc := if to = .leading ∨ to = .following ∨ to = .standingDown then .look else .test } := by
      unfold S.doUpdate; rw [if_pos hc]
    refine inv_move h ?_ ?_ ?_ ?_ ?_ ?_ ?_ ?_ ?_ h9 ?_ ?_ ?_ ?_ (passed_same h ?_ ?_) <;> rw [e]
    simp [pending]
  · have e : s.doUpdate pre to = { s with node := to, pc := if to = .leading ∨ to = .following ∨ to = .standingDown then .look else .test } := by
      unfold S.doUpdate; rw [if_neg hc]
    refine inv_move h ?_ ?_ ?_ ?_ ?_ ?_ ?_ ?_ ?_ h9 ?_ ?_ ?_ ?_ (passed_same h ?_ ?_) <;> rw [e]
    exact List.Perm.refl _

theorem not_over {s : S} (h : Inv s) (hpc : ¬ (s.pc = .ended ∨ s.pc = .closed)) : s.shut ≠ .done :=
  fun hs => hpc (h.over.2 hs)

theorem inv_doStart (s : S) (h : Inv s) (m : Bool) (hpc : s.pc = .look2) : Inv (s.doStart m) := by
  unfold S.doStart
  split
  · exact inv_move h (List.Perm.refl _) rfl rfl rfl rfl rfl rfl rfl rfl (by simp [hpc]) rfl rfl rfl rfl
      (passed_same h rfl rfl)
  · next hc =>
    simp only [not_or, Bool.not_eq_true, Bool.not_eq_false, Decidable.not_not] at hc
    obtain ⟨hr, hn, hm⟩ := hc
    have hnd : s.shut ≠ .done := not_over h (by simp [hpc])
    exact {
      once := once_of_new h { id := s.next, upgrade := true } rfl rfl (by
        rw [List.perm_iff_count]
        intro a
        simp only [everything, live, pending, List.count_append]
        omega)
      up := by
        have := h.up
        rw [hr, if_neg (by simp)] at this
        rw [if_pos rfl]
        simp only [pending, List.countP_append, List.countP_cons, List.countP_nil, if_true] at this ⊢
        omega
      rec' := h.rec'
      clr := h.clr
      fin := fun hs c hc => by
        have := h.fin hs c
        simp only [live, pending, List.mem_append, List.mem_singleton] at hc this
        by_cases hcc : c = { id := s.next, upgrade := true }
        · rw [hcc]
        · apply this
          simp only [hcc] at hc
          simpa using hc
      over := by simp [hnd]
      none_left := fun hs => absurd hs hnd
      disc := h.disc
      succ := h.succ
      pas := fun p hp => by
        obtain ⟨a, b, c, hc, d⟩ := h.pas p hp
        exact ⟨a, b, c, List.mem_append_left _ hc, d⟩
      wr := h.wr
      st := fun x hx => by
        rcases List.mem_append.1 hx with hx | hx
        · exact h.st x hx
        · rw [List.mem_singleton] at hx
          subst hx
          exact ⟨hn, hm⟩ }

theorem inv_test (s : S) (h : Inv s) (q : Bool) (hpc : s.pc = .test) : Inv (s.doTest q) := by
  unfold S.doTest
  split
  · next hc =>
    have hz := count_zero.1 hc.2.2.2
    exact {
      once := h.once, up := h.up, rec' := h.rec', clr := h.clr
      fin := by simp
      over := by simp
      none_left := fun _ => hz
      disc := h.disc, succ := h.succ, pas := h.pas, wr := h.wr, st := h.st }
  · exact inv_move h (List.Perm.refl _) rfl rfl rfl rfl rfl rfl rfl rfl (by simp [hpc]) rfl rfl rfl rfl
      (passed_same h rfl rfl)

theorem release_ite (s : S) (id : Nat) : S.release s id = { s with pc := if s.pc = .inline id then .test else s.pc } := by
  unfold S.release
  split <;> rfl

theorem release_over (p : Pc) (id : Nat) : ((if p = .inline id then Pc.test else p) = .ended ∨
    (if p = .inline id then Pc.test else p) = .closed) ↔ (p = .ended ∨ p = .closed) := by
  split
  · next h => simp [h]
  · exact Iff.rfl

theorem inv_put (s : S) (h : Inv s) (id : Nat) (q : Q) (c : Cmd) (hf : find id s.hand = some c) :
    Inv (S.release { s.setQueue q (s.queue q ++ [c]) with hand := remove id s.hand, passed := forget id s.passed } id) := by
  have hr := remove_perm (nodup_sub h (sub_hand s)) hf
  rw [release_ite]
  have hpas : ∀ p ∈ forget id s.passed, p ∈ s.passed ∧ ∃ c ∈ remove id s.hand, c.id = p.1 := fun p hp => by
    obtain ⟨hp, hne⟩ := mem_forget hp
    exact ⟨hp, hand_remove hne (h.pas p hp).2.2⟩
  cases q <;>
    refine inv_move h ?_ rfl rfl rfl rfl rfl rfl rfl rfl (release_over _ _) rfl rfl rfl rfl hpas <;>
  · rw [List.perm_iff_count]
    intro a
    have := hr.count_eq a
    simp only [pending, S.setQueue, S.queue, List.count_append, List.count_cons, List.count_nil] at this ⊢
    omega

theorem inv_take (s : S) (h : Inv s) (id : Nat) (q : Q) (hq : q ≠ .aside) (c : Cmd) (hf : find id (s.queue q) = some c) :
    Inv { s.setQueue q (remove id (s.queue q)) with hand := s.hand ++ [c] } := by
  have hpas : ∀ p ∈ s.passed, p ∈ s.passed ∧ ∃ d ∈ s.hand ++ [c], d.id = p.1 := fun p hp => by
    obtain ⟨_, _, d, hd, e⟩ := h.pas p hp
    exact ⟨hp, d, List.mem_append_left _ hd, e⟩
  cases q with
  | aside => exact absurd rfl hq
  | main =>
    have hr := remove_perm (nodup_sub h (sub_main s)) hf
    refine inv_move h ?_ rfl rfl rfl rfl rfl rfl rfl rfl Iff.rfl rfl rfl rfl rfl hpas
    rw [List.perm_iff_count]
    intro a
    have := hr.count_eq a
    simp only [pending, S.setQueue, S.queue, List.count_append, List.count_cons, List.count_nil] at this ⊢
    omega
  | blocking =>
    have hr := remove_perm (nodup_sub h (sub_blocking s)) hf
    refine inv_move h ?_ rfl rfl rfl rfl rfl rfl rfl rfl Iff.rfl rfl rfl rfl rfl hpas
    rw [List.perm_iff_count]
    intro a
    have := hr.count_eq a
    simp only [pending, S.setQueue, S.queue, List.count_append, List.count_cons, List.count_nil] at this ⊢
    omega

theorem mem_pending_of_hand {s : S} {c : Cmd} (h : c ∈ s.hand) : c ∈ pending s := by
  simp only [pending, List.mem_append]
  exact Or.inl (Or.inr h)

theorem mem_live_of_pending {s : S} {c : Cmd} (h : c ∈ pending s) : c ∈ live s := List.mem_append_left _ h

theorem not_done_of_mem {s : S} (h : Inv s) {c : Cmd} (hc : c ∈ live s) : s.shut ≠ .done := fun hs => by
  rw [h.none_left hs] at hc
  cases hc

theorem inv_finish (s : S) (h : Inv s) (id : Nat) (ok : Bool) (c : Cmd) (hf : find id s.hand = some c) :
    Inv (s.doFinish c ok) := by
  have hid := (find_mem hf).2
  have hcl : c ∈ live s := mem_live_of_pending (mem_pending_of_hand (find_mem hf).1)
  have hnd := not_done_of_mem h hcl
  have hr := remove_perm (nodup_sub h (sub_hand s)) hf
  rw [← hid] at hr
  have hpas : ∀ p ∈ forget c.id s.passed, (p.2 = .following ∨ p.2 = .leading ∨ p.2 = .standingDown) ∧
      (p.2 ≠ .following → s.completed = true) ∧ ∃ d ∈ remove c.id s.hand, d.id = p.1 := fun p hp => by
    obtain ⟨hp, hne⟩ := mem_forget hp
    obtain ⟨a, b, d⟩ := h.pas p hp
    exact ⟨a, b, hand_remove hne d⟩
  have hcp := hr.countP_eq (·.upgrade)
  have hsub : ∀ d ∈ remove c.id s.hand, d ∈ s.hand := fun d hd => (List.mem_filter.1 hd).1
  unfold S.doFinish
  dsimp only
  split
  · next hu =>
    exact {
      once := once_of_perm h rfl (by
        rw [List.perm_iff_count]
        intro a
        have := hr.count_eq a
        simp only [everything, live, pending, List.count_append, List.count_cons, List.count_nil] at this ⊢
        omega)
      up := by
        have := h.up
        simp only [pending, List.countP_append, List.countP_cons, List.countP_nil, hu, if_true] at this hcp ⊢
        omega
      rec' := fun d hd => by
        rcases List.mem_append.1 hd with hd | hd
        · exact h.rec' d hd
        · rw [List.mem_singleton.1 hd]; exact hu
      clr := h.clr
      fin := fun hs d hd => by
        have := h.fin hs d
        simp only [live, pending, List.mem_append, List.mem_singleton] at hd this
        by_cases hdc : d = c
        · rw [hdc]; exact hu
        · apply this
          have := hsub d
          simp only [hdc, or_false] at hd
          rcases hd with ((((hd | hd) | hd) | hd) | hd) | hd
          · simp [hd]
          · simp [hd]
          · simp [hd]
          · simp [this hd]
          · simp [hd]
          · simp [hd]
      over := h.over
      none_left := fun hs => absurd hs hnd
      disc := h.disc
      succ := by
        cases ok <;> simp [h.succ]
      pas := fun p hp => by
        obtain ⟨a, b, d⟩ := hpas p hp
        exact ⟨a, fun hne => by simp [b hne], d⟩
      wr := h.wr
      st := h.st }
  · next hu =>
    exact {
      once := once_of_perm h rfl (by
        rw [List.perm_iff_count]
        intro a
        have := hr.count_eq a
        simp only [everything, live, pending, List.count_append, List.count_cons, List.count_nil] at this ⊢
        omega)
      up := by
        have := h.up
        simp only [pending, List.countP_append, List.countP_cons, if_neg hu] at this hcp ⊢
        omega
      rec' := h.rec'
      clr := h.clr
      fin := fun hs => absurd (h.fin hs c hcl) hu
      over := h.over
      none_left := fun hs => absurd hs hnd
      disc := h.disc
      succ := h.succ
      pas := hpas
      wr := h.wr
      st := h.st }

theorem inv_clear (s : S) (h : Inv s) (id : Nat) (c : Cmd) (hf : find id s.recorded = some c) :
    Inv { s with recorded := remove id s.recorded, cleared := s.cleared ++ [c], running := false } := by
  have hm := (find_mem hf).1
  have hu := h.rec' c hm
  have hcl : c ∈ live s := by simp [live, pending, hm]
  have hnd := not_done_of_mem h hcl
  have hr := remove_perm (nodup_sub h (sub_recorded s)) hf
  have hcp := hr.countP_eq (·.upgrade)
  have hsub : ∀ d ∈ remove id s.recorded, d ∈ s.recorded := fun d hd => (List.mem_filter.1 hd).1
  exact {
    once := once_of_perm h rfl (by
      rw [List.perm_iff_count]
      intro a
      have := hr.count_eq a
      simp only [everything, live, pending, List.count_append, List.count_cons, List.count_nil] at this ⊢
      omega)
    up := by
      have := h.up
      have h1 : (pending s).countP (·.upgrade) ≤ 1 := by rw [this]; split <;> omega
      simp only [pending, List.countP_append, List.countP_cons, hu, if_true] at hcp h1 ⊢
      simp only [Bool.false_eq_true, if_false]
      omega
    rec' := fun d hd => h.rec' d (hsub d hd)
    clr := fun d hd => by
      rcases List.mem_append.1 hd with hd | hd
      · exact h.clr d hd
      · rw [List.mem_singleton.1 hd]; exact hu
    fin := fun hs d hd => by
      have := h.fin hs d
      have h2 := hsub d
      simp only [live, pending, List.mem_append, List.mem_singleton] at hd this
      by_cases hdc : d = c
      · rw [hdc]; exact hu
      · apply this
        simp only [hdc, or_false] at hd
        rcases hd with ((((hd | hd) | hd) | hd) | hd) | hd
        · simp [hd]
        · simp [hd]
        · simp [hd]
        · simp [hd]
        · simp [h2 hd]
        · simp [hd]
    over := h.over
    none_left := fun hs => absurd hs hnd
    disc := h.disc
    succ := h.succ
    pas := h.pas
    wr := h.wr
    st := h.st }

theorem inv_gone (s : S) (h : Inv s) (id : Nat) (c : Cmd) (hf : find id s.cleared = some c) :
    Inv (S.release { s with cleared := remove id s.cleared, finished := s.finished ++ [c] } id) := by
  have hm := (find_mem hf).1
  have hcl : c ∈ live s := by simp [live, hm]
  have hnd := not_done_of_mem h hcl
  have hr := remove_perm (nodup_sub h (sub_cleared s)) hf
  have hsub : ∀ d ∈ remove id s.cleared, d ∈ s.cleared := fun d hd => (List.mem_filter.1 hd).1
  rw [release_ite]
  exact {
    once := once_of_perm h rfl (by
      rw [List.perm_iff_count]
      intro a
      have := hr.count_eq a
      simp only [everything, live, pending, List.count_append, List.count_cons, List.count_nil] at this ⊢
      omega)
    up := h.up
    rec' := h.rec'
    clr := fun d hd => h.clr d (hsub d hd)
    fin := fun hs d hd => by
      have := h.fin hs d
      apply this
      rcases List.mem_append.1 hd with hd | hd
      · exact List.mem_append_left _ hd
      · exact List.mem_append_right _ (hsub d hd)
    over := (release_over _ _).trans h.over
    none_left := fun hs => absurd hs hnd
    disc := h.disc
    succ := h.succ
    pas := h.pas
    wr := h.wr
    st := h.st }

theorem inv_create (s : S) (h : Inv s) (hs : s.shut = .running ∨ s.shut = .startShutdown) :
    Inv { s with hand := s.hand ++ [{ id := s.next }], next := s.next + 1 } where
  once := once_of_new h { id := s.next } rfl rfl (by
    rw [List.perm_iff_count]
    intro a
    simp only [everything, live, pending, List.count_append]
    omega)
  up := by
    have := h.up
    simp only [pending, List.countP_append, List.countP_cons, List.countP_nil, Bool.false_eq_true, if_false] at this ⊢
    omega
  rec' := h.rec'
  clr := h.clr
  fin := fun hf => by rcases hs with hs | hs <;> rw [hs] at hf <;> cases hf
  over := h.over
  none_left := fun hf => by rcases hs with hs | hs <;> rw [hs] at hf <;> cases hf
  disc := h.disc
  succ := h.succ
  pas := fun p hp => by
    obtain ⟨a, b, c, hc, d⟩ := h.pas p hp
    exact ⟨a, b, c, List.mem_append_left _ hc, d⟩
  wr := h.wr
  st := h.st

theorem inv_ready (s : S) (h : Inv s) (id : Nat) (c : Cmd) (hf : find id s.hand = some c) (hr : s.dbReady = true) :
    Inv { s with passed := forget id s.passed ++ [(id, s.node)] } :=
  { h with
    pas := fun p hp => by
      rcases List.mem_append.1 hp with hp | hp
      · exact h.pas p (mem_forget hp).1
      · rw [List.mem_singleton] at hp
        subst hp
        obtain ⟨hm, hid⟩ := find_mem hf
        unfold S.dbReady at hr
        refine ⟨?_, ?_, c, hm, hid⟩
        · show s.node = _ ∨ s.node = _ ∨ s.node = _
          cases hn : s.node <;> rw [hn] at hr <;> simp at hr ⊢
        · show s.node ≠ _ → s.completed = true
          cases hn : s.node <;> rw [hn] at hr <;> simp at hr ⊢
          · exact hr
          · exact hr }

theorem inv_write (s : S) (h : Inv s) (id : Nat) (p : Nat × NState) (hf : s.passed.find? (fun p => p.1 = id) = some p) :
    Inv { s with writes := s.writes ++ [{ before := p.2, completed := s.completed }], passed := forget id s.passed } :=
  { h with
    pas := fun q hq => h.pas q (mem_forget hq).1
    wr := fun w hw => by
      rcases List.mem_append.1 hw with hw | hw
      · exact h.wr w hw
      · rw [List.mem_singleton] at hw
        subst hw
        obtain ⟨_, hb, _⟩ := h.pas p (List.mem_of_find?_eq_some hf)
        by_cases hn : p.2 = .following
        · exact Or.inl hn
        · exact Or.inr (hb hn) }

theorem inv_shutdown (s : S) (h : Inv s) (later : List Nat) (hs : s.shut = .running) :
    Inv { s with shut := .startShutdown
                 main := s.main.filter (fun c => !(later.contains c.id && !c.upgrade))
                 abandoned := s.abandoned ++ s.main.filter (fun c => later.contains c.id && !c.upgrade) } where
  once := once_of_perm h rfl (by
    rw [List.perm_iff_count]
    intro a
    have := filter_count (fun c => later.contains c.id && !c.upgrade) a s.main
    simp only [everything, live, pending, List.count_append] at this ⊢
    omega)
  up := by
    have h0 := h.up
    have : (s.main.filter (fun c => !(later.contains c.id && !c.upgrade))).countP (·.upgrade) = s.main.countP (·.upgrade) := by
      rw [List.countP_filter]
      apply List.countP_congr
      intro c _
      cases c.upgrade <;> simp
    simp only [pending, List.countP_append, this] at h0 ⊢
    exact h0
  rec' := h.rec'
  clr := h.clr
  fin := by simp
  over := by
    have := h.over
    rw [hs] at this
    simpa using this
  none_left := by simp
  disc := h.disc
  succ := h.succ
  pas := h.pas
  wr := h.wr
  st := h.st

theorem inv_idle (s : S) (h : Inv s) (hs : s.shut = .startShutdown) (hc : s.count = 0) :
    Inv { s with shut := .commandsFinished } :=
  { h with
    fin := fun _ c hc' => by
      have := count_zero.1 hc
      have hc' : c ∈ live s := hc'
      rw [this] at hc'
      cases hc'
    over := by
      have := h.over
      rw [hs] at this
      simpa using this
    none_left := by simp }

theorem live_nil {s : S} (h : live s = []) : s.main = [] ∧ s.blocking = [] ∧ s.aside = [] ∧ s.hand = [] ∧ s.recorded = [] ∧
    s.cleared = [] := by
  simpa [live, pending, and_assoc] using h

theorem inv_close (s : S) (h : Inv s) (hp : s.pc = .ended) :
    Inv { s with pc := .closed, discarded := s.discarded ++ s.main ++ s.blocking, main := [], blocking := [] } := by
  have hd := h.over.1 (Or.inl hp)
  have hl := h.none_left hd
  obtain ⟨h1, h2, h3, h4, h5, h6⟩ := live_nil hl
  exact { h with
    once := once_of_perm h rfl (by simp [everything, live, pending, h1, h2])
    up := by have := h.up; simpa [pending, h1, h2] using this
    fin := fun hs => by rw [hd] at hs; cases hs
    over := by simp [hd]
    none_left := fun _ => by simp [live, pending, h3, h4, h5, h6]
    disc := by simp [h.disc, h1, h2] }

theorem inv_reset (s : S) (h : Inv s) (hp : s.pc = .closed) :
    Inv { s with pc := .top, node := .searching, shut := .running, nodeStops := false, completed := false, running := false
                 success := [] } := by
  have hd := h.over.1 (Or.inr hp)
  have hl := h.none_left hd
  obtain ⟨h1, h2, h3, h4, h5, h6⟩ := live_nil hl
  exact { h with
    up := by simp [pending, h1, h2, h3, h4, h5]
    fin := by simp
    over := by simp
    none_left := by simp
    succ := by simp
    pas := fun p hp' => by
      obtain ⟨_, _, c, hc, _⟩ := h.pas p hp'
      rw [h4] at hc
      cases hc }

theorem inv_step (s : S) (e : Ev) (h : Inv s) : Inv (s.step e) := by
  cases e with
  | top due => unfold S.step; dsimp only; split
               · next hp => exact inv_top s h due hp
               · exact h
  | update to => unfold S.step; dsimp only; split
                 · next pre hp => exact inv_update s h pre to hp
                 · exact h
  | look =>
    unfold S.step; dsimp only; split
    · next hp =>
      exact inv_move h (List.Perm.refl _) rfl rfl rfl rfl rfl rfl rfl rfl (by dsimp only; split <;> simp [hp]) rfl rfl rfl rfl
        (passed_same h rfl rfl)
    · exact h
  | start m => unfold S.step; dsimp only; split
               · next hp => exact inv_doStart s h m hp
               · exact h
  | test q => unfold S.step; dsimp only; split
              · next hp => exact inv_test s h q hp
              · exact h
  | close => unfold S.step; dsimp only; split
             · next hp => exact inv_close s h hp
             · exact h
  | reset => unfold S.step; dsimp only; split
             · next hp => exact inv_reset s h hp
             · exact h
  | create => unfold S.step; dsimp only; split
              · next hp => exact inv_create s h hp
              · exact h
  | put id q => unfold S.step; dsimp only; split
                · next c hf => exact inv_put s h id q c hf
                · exact h
  | take id q =>
    unfold S.step; dsimp only; split
    · exact h
    · next hq =>
      split
      · next c hf => exact inv_take s h id q hq c hf
      · exact h
  | ready id =>
    unfold S.step; dsimp only; split
    · next c hf =>
      split
      · next hc => exact inv_ready s h id c hf hc.2
      · exact h
    · exact h
  | write id =>
    unfold S.step; dsimp only; split
    · next p hf =>
      split
      · exact inv_write s h id p hf
      · exact h
    · exact h
  | finish id ok => unfold S.step; dsimp only; split
                    · next c hf => exact inv_finish s h id ok c hf
                    · exact h
  | clear id => unfold S.step; dsimp only; split
                · next c hf => exact inv_clear s h id c hf
                · exact h
  | gone id => unfold S.step; dsimp only; split
               · next c hf => exact inv_gone s h id c hf
               · exact h
  | shutdown later => unfold S.step; dsimp only; split
                      · next hs => exact inv_shutdown s h later hs
                      · exact h
  | idle => unfold S.step; dsimp only; split
            · next hs => exact inv_idle s h hs.1 hs.2
            · exact h

theorem inv (es : List Ev) : Inv (S.run {} es) := run_ind inv_start inv_step es

end Bedrock.SyncLoop.Props
