import Verif.Model.SocketPool

/-!
# C86: connections that are kept for reuse
-/

namespace Bedrock.SocketPool.Props

/-- The sockets that are in the pool, in use or closed. -/
def Pool.placed (p : Pool) : List Nat := p.sockets.map Prod.snd ++ (p.held ++ p.closed)

structure Inv (p : Pool) : Prop where
  nodup : (Pool.placed p).Nodup
  apart : ∀ i s, p.threads i = .checking s → s ∉ Pool.placed p
  one : ∀ i j s, p.threads i = .checking s → p.threads j = .checking s → i = j
  opened : ∀ s, s < p.fresh ↔ s ∈ Pool.placed p ∨ ∃ i, p.threads i = .checking s
  sorted : p.sockets.Pairwise (fun a b => a.1 ≤ b.1)
  past : ∀ e ∈ p.sockets, e.1 ≤ p.now
  sleeping : p.timer = .waitForever → p.sockets = [] ∨ 0 < p.pending
  alarm : ∀ t, p.timer = .waitUntil t → t ≤ p.now + p.timeout ∧ ∀ e ∈ p.sockets, t ≤ e.1 + p.timeout
  leaving : p.exiting = true → p.timer = .running ∨ p.timer = .ended ∨ 0 < p.pending

theorem inv_start (timeout : Nat) : Inv { timeout := timeout } where
  nodup := by simp [Pool.placed]
  apart := by intro i s h; cases h
  one := by intro i j s h; cases h
  opened := by intro s; simp [Pool.placed]
  sorted := List.Pairwise.nil
  past := by intro e h; cases h
  sleeping := fun _ => .inl rfl
  alarm := by intro t h; cases h
  leaving := by intro h; cases h

theorem upd_same {A : Type} (f : Nat → A) (i : Nat) (a : A) : upd f i a i = a := by simp [upd]
theorem upd_other {A : Type} (f : Nat → A) {i j : Nat} (a : A) (h : j ≠ i) : upd f i a j = f j := by simp [upd, h]

/-- A thread goes to a point where it checks nothing, from one where it checked nothing. -/
theorem threads_free {p : Pool} (h : Inv p) {i : Nat} {g g' : Get} (hi : p.threads i = g) (hg : ∀ s, g ≠ .checking s)
    (hg' : ∀ s, g' ≠ .checking s) : ∀ j s, upd p.threads i g' j = .checking s ↔ p.threads j = .checking s := by
  intro j s
  by_cases hj : j = i
  · rw [hj, upd_same, hi]; simp [hg, hg']
  · rw [upd_other _ _ hj]

theorem inv_threads {p : Pool} (h : Inv p) (ts : Nat → Get)
    (ht : ∀ j s, ts j = .checking s ↔ p.threads j = .checking s) : Inv { p with threads := ts } where
  nodup := h.nodup
  apart := fun i s hi => h.apart i s ((ht i s).mp hi)
  one := fun i j s hi hj => h.one i j s ((ht i s).mp hi) ((ht j s).mp hj)
  opened := by
    intro s
    have := h.opened s
    rw [this]
    constructor
    · rintro (h | ⟨i, h⟩)
      · exact .inl h
      · exact .inr ⟨i, (ht i s).mpr h⟩
    · rintro (h | ⟨i, h⟩)
      · exact .inl h
      · exact .inr ⟨i, (ht i s).mp h⟩
  sorted := h.sorted
  past := h.past
  sleeping := h.sleeping
  alarm := h.alarm
  leaving := h.leaving

/-- Sockets move between the pool, the users and the closed ones. -/
theorem inv_move {p q : Pool} (h : Inv p) (hp : (Pool.placed q).Perm (Pool.placed p)) (ht : q.threads = p.threads)
    (hf : q.fresh = p.fresh) (h1 : q.sockets.Pairwise (fun a b => a.1 ≤ b.1)) (h2 : ∀ e ∈ q.sockets, e.1 ≤ q.now)
    (h3 : q.timer = .waitForever → q.sockets = [] ∨ 0 < q.pending)
    (h4 : ∀ t, q.timer = .waitUntil t → t ≤ q.now + q.timeout ∧ ∀ e ∈ q.sockets, t ≤ e.1 + q.timeout)
    (h5 : q.exiting = true → q.timer = .running ∨ q.timer = .ended ∨ 0 < q.pending) : Inv q where
  nodup := hp.nodup_iff.mpr h.nodup
  apart := fun i s hi hm => h.apart i s (by rw [← ht]; exact hi) (hp.mem_iff.mp hm)
  one := by rw [ht]; exact h.one
  opened := by intro s; rw [hf, h.opened s, ht, hp.mem_iff]
  sorted := h1
  past := h2
  sleeping := h3
  alarm := h4
  leaving := h5

theorem inv_step {p : Pool} (h : Inv p) (e : Ev) : Inv (p.step e) := by
  cases e with
  | call i =>
    unfold Pool.step
    cases hi : p.threads i with
    | idle => simp only [hi]; exact inv_threads h _ (threads_free h hi (by simp) (by simp : ∀ s, Get.looping ≠ .checking s))
    | _ => simp only [hi]; exact h
  | take i =>
    unfold Pool.step
    cases hi : p.threads i with
    | looping =>
      cases hs : p.sockets with
      | nil =>
        simp only [hi, hs]
        have k := inv_threads h _ (threads_free h hi (by simp) (by simp : ∀ s, Get.opening ≠ .checking s))
        rw [hs] at k
        exact k
      | cons x rest =>
        obtain ⟨t, s⟩ := x
        simp only [hi, hs]
        have hpl : Pool.placed p = s :: (rest.map Prod.snd ++ (p.held ++ p.closed)) := by
          simp [Pool.placed, hs]
        have hn := h.nodup
        rw [hpl, List.nodup_cons] at hn
        have hne : ∀ j, p.threads j ≠ .checking s := fun j hj => h.apart j s hj (by rw [hpl]; simp)
        refine ⟨hn.2, ?_, ?_, ?_, ?_, ?_, ?_, ?_, h.leaving⟩
        · intro j s' hj
          dsimp only at hj
          show s' ∉ rest.map Prod.snd ++ (p.held ++ p.closed)
          by_cases hji : j = i
          · subst hji
            rw [upd_same] at hj
            injection hj with hj
            rw [← hj]; exact hn.1
          · rw [upd_other _ _ hji] at hj
            intro hm
            exact h.apart j s' hj (by rw [hpl]; exact List.mem_cons_of_mem _ hm)
        · intro j k s' hj hk
          dsimp only at hj hk
          by_cases hji : j = i
          · by_cases hki : k = i
            · rw [hji, hki]
            · subst hji
              rw [upd_same] at hj
              rw [upd_other _ _ hki] at hk
              injection hj with hj
              rw [← hj] at hk
              exact absurd hk (hne k)
          · by_cases hki : k = i
            · subst hki
              rw [upd_same] at hk
              rw [upd_other _ _ hji] at hj
              injection hk with hk
              rw [← hk] at hj
              exact absurd hj (hne j)
            · rw [upd_other _ _ hji] at hj
              rw [upd_other _ _ hki] at hk
              exact h.one j k s' hj hk
        · intro s'
          show s' < p.fresh ↔ s' ∈ rest.map Prod.snd ++ (p.held ++ p.closed) ∨ _
          rw [h.opened s', hpl, List.mem_cons]
          constructor
          · rintro ((rfl | hm) | ⟨j, hj⟩)
            · exact .inr ⟨i, upd_same _ _ _⟩
            · exact .inl hm
            · have hji : j ≠ i := by rintro rfl; rw [hi] at hj; cases hj
              exact .inr ⟨j, by rw [← hj]; exact upd_other _ _ hji⟩
          · rintro (hm | ⟨j, hj⟩)
            · exact .inl (.inr hm)
            · by_cases hji : j = i
              · subst hji
                have hj : upd p.threads j (.checking s) j = .checking s' := hj
                rw [upd_same] at hj
                injection hj with hj
                exact .inl (.inl hj.symm)
              · have hj : upd p.threads i (.checking s) j = .checking s' := hj
                rw [upd_other _ _ hji] at hj
                exact .inr ⟨j, hj⟩
        · have := h.sorted; rw [hs] at this; exact (List.pairwise_cons.mp this).2
        · intro e he; exact h.past e (by rw [hs]; exact List.mem_cons_of_mem _ he)
        · intro ht
          rcases h.sleeping ht with hx | hx
          · rw [hs] at hx; cases hx
          · exact .inr hx
        · intro t' ht
          obtain ⟨k1, k2⟩ := h.alarm t' ht
          exact ⟨k1, fun e he => k2 e (by rw [hs]; exact List.mem_cons_of_mem _ he)⟩
    | _ => simp only [hi]; exact h
  | check i hh =>
    unfold Pool.step
    cases hi : p.threads i with
    | checking s =>
      simp only [hi]
      have hap := h.apart i s hi
      have key : ∀ (q : Pool), (Pool.placed q).Perm (s :: Pool.placed p) → (∃ g, (∀ s, g ≠ Get.checking s) ∧ q.threads = upd p.threads i g) →
          q.fresh = p.fresh → q.sockets = p.sockets → q.now = p.now → q.timer = p.timer → q.pending = p.pending →
          q.timeout = p.timeout → q.exiting = p.exiting → Inv q := by
        rintro q hp ⟨g, hg, ht⟩ hf e1 e2 e3 e4 e5 e6
        have hth : ∀ j s', q.threads j = .checking s' → j ≠ i ∧ p.threads j = .checking s' := by
          intro j s' hj
          rw [ht] at hj
          by_cases hji : j = i
          · subst hji; rw [upd_same] at hj; exact absurd hj (hg s')
          · rw [upd_other _ _ hji] at hj; exact ⟨hji, hj⟩
        refine ⟨?_, ?_, ?_, ?_, ?_, ?_, ?_, ?_, ?_⟩
        · exact hp.nodup_iff.mpr (List.nodup_cons.mpr ⟨hap, h.nodup⟩)
        · intro j s' hj hm
          obtain ⟨hji, hj⟩ := hth j s' hj
          rcases List.mem_cons.mp (hp.mem_iff.mp hm) with rfl | hm
          · exact hji (h.one j i s' hj hi)
          · exact h.apart j s' hj hm
        · intro j k s' hj hk
          exact h.one j k s' (hth j s' hj).2 (hth k s' hk).2
        · intro s'
          rw [hf, h.opened s', hp.mem_iff, List.mem_cons]
          constructor
          · rintro (hm | ⟨j, hj⟩)
            · exact .inl (.inr hm)
            · by_cases hji : j = i
              · subst hji; rw [hi] at hj; injection hj with hj; exact .inl (.inl hj.symm)
              · exact .inr ⟨j, by rw [ht, upd_other _ _ hji]; exact hj⟩
          · rintro ((rfl | hm) | ⟨j, hj⟩)
            · exact .inr ⟨i, hi⟩
            · exact .inl hm
            · exact .inr ⟨j, (hth j s' hj).2⟩
        · rw [e1]; exact h.sorted
        · rw [e1, e2]; exact h.past
        · rw [e1, e3, e4]; exact h.sleeping
        · rw [e1, e2, e3, e5]; exact h.alarm
        · rw [e3, e4, e6]; exact h.leaving
      split
      · refine key _ ?_ ⟨.idle, by simp, rfl⟩ rfl rfl rfl rfl rfl rfl rfl
        show (p.sockets.map Prod.snd ++ (s :: p.held ++ p.closed)).Perm _
        exact List.perm_middle
      · refine key _ ?_ ⟨.looping, by simp, rfl⟩ rfl rfl rfl rfl rfl rfl rfl
        show (p.sockets.map Prod.snd ++ (p.held ++ s :: p.closed)).Perm _
        rw [← List.append_assoc]
        refine List.perm_middle.trans ?_
        rw [List.append_assoc]; exact List.Perm.refl _
    | _ => simp only [hi]; exact h
  | open_ i ok =>
    unfold Pool.step
    cases hi : p.threads i with
    | opening =>
      simp only [hi]
      have hth := fun j s => threads_free h hi (by simp) (by simp : ∀ s, Get.idle ≠ .checking s) j s
      split
      · have hfr : p.fresh ∉ Pool.placed p := fun hm => absurd ((h.opened p.fresh).mpr (.inl hm)) (Nat.lt_irrefl _)
        have hpl : (p.sockets.map Prod.snd ++ (p.fresh :: p.held ++ p.closed)).Perm (p.fresh :: Pool.placed p) :=
          List.perm_middle
        refine ⟨?_, ?_, ?_, ?_, h.sorted, h.past, h.sleeping, h.alarm, h.leaving⟩
        · exact hpl.nodup_iff.mpr (List.nodup_cons.mpr ⟨hfr, h.nodup⟩)
        · intro j s hj hm
          have hj := (hth j s).mp hj
          rcases List.mem_cons.mp (hpl.mem_iff.mp hm) with rfl | hm
          · exact absurd ((h.opened p.fresh).mpr (.inr ⟨j, hj⟩)) (Nat.lt_irrefl _)
          · exact h.apart j s hj hm
        · intro j k s hj hk
          exact h.one j k s ((hth j s).mp hj) ((hth k s).mp hk)
        · intro s
          show s < p.fresh + 1 ↔ s ∈ p.sockets.map Prod.snd ++ (p.fresh :: p.held ++ p.closed) ∨
            ∃ j, upd p.threads i .idle j = .checking s
          rw [hpl.mem_iff, List.mem_cons]
          have := h.opened s
          constructor
          · intro hs
            by_cases he : s = p.fresh
            · exact .inl (.inl he)
            · rcases this.mp (by omega) with hm | ⟨j, hj⟩
              · exact .inl (.inr hm)
              · exact .inr ⟨j, (hth j s).mpr hj⟩
          · rintro ((rfl | hm) | ⟨j, hj⟩)
            · omega
            · have := this.mpr (.inl hm); omega
            · have := this.mpr (.inr ⟨j, (hth j s).mp hj⟩); omega
      · exact inv_threads h _ hth
    | _ => simp only [hi]; exact h
  | giveBack s now =>
    unfold Pool.step
    dsimp only
    split
    · rename_i hc
      have hlen : p.sockets = [] ∨ ¬ (p.sockets ++ [(now, s)]).length = 1 := by
        cases p.sockets with
        | nil => exact .inl rfl
        | cons => exact .inr (by simp)
      refine inv_move h ?_ rfl rfl ?_ ?_ ?_ ?_ ?_
      · show ((p.sockets ++ [(now, s)]).map Prod.snd ++ (p.held.erase s ++ p.closed)).Perm _
        rw [List.map_append, List.append_assoc]
        refine List.Perm.append_left _ ?_
        show (s :: p.held.erase s ++ p.closed).Perm _
        exact (List.perm_cons_erase hc.1).symm.append_right _
      · rw [List.pairwise_append]
        refine ⟨h.sorted, List.pairwise_singleton _ _, ?_⟩
        intro a ha b hb
        have := h.past a ha
        simp only [List.mem_singleton] at hb
        rw [hb]
        show a.1 ≤ now
        omega
      · intro e he
        show e.1 ≤ now
        rcases List.mem_append.mp he with he | he
        · have := h.past e he; omega
        · simp only [List.mem_singleton] at he; rw [he]; exact Nat.le_refl _
      · intro ht
        right
        show 0 < ite _ _ _
        rcases hlen with hl | hl
        · rw [hl]; simp
        · rw [if_neg hl]
          rcases h.sleeping ht with h' | h'
          · rw [h'] at hl; simp at hl
          · exact h'
      · intro t ht
        obtain ⟨k1, k2⟩ := h.alarm t ht
        refine ⟨by show t ≤ now + p.timeout; omega, ?_⟩
        intro e he
        rcases List.mem_append.mp he with he | he
        · exact k2 e he
        · simp only [List.mem_singleton] at he
          rw [he]
          show t ≤ now + p.timeout
          omega
      · intro he
        rcases h.leaving he with h' | h' | h'
        · exact .inl h'
        · exact .inr (.inl h')
        · refine .inr (.inr ?_)
          show 0 < ite _ _ _
          split
          · omega
          · exact h'
    · exact h
  | drop s =>
    unfold Pool.step
    dsimp only
    split
    · rename_i hc
      refine inv_move h ?_ rfl rfl h.sorted h.past h.sleeping h.alarm h.leaving
      refine List.Perm.append_left _ ?_
      refine List.perm_middle.trans ?_
      exact (List.perm_cons_erase hc).symm.append_right _
    · exact h
  | notify =>
    unfold Pool.step
    dsimp only
    split
    · exact h
    · rename_i hp
      refine inv_move h (List.Perm.refl _) rfl rfl h.sorted h.past ?_ ?_ ?_
      · intro ht
        dsimp only at ht
        cases hx : p.timer <;> rw [hx] at ht <;> cases ht
      · intro t ht
        dsimp only at ht
        cases hx : p.timer <;> rw [hx] at ht <;> cases ht
      · intro _
        dsimp only
        cases hx : p.timer <;> simp
  | destroy =>
    unfold Pool.step
    dsimp only
    split
    · exact h
    · refine inv_move h (List.Perm.refl _) rfl rfl h.sorted h.past ?_ h.alarm ?_
      · intro _; exact .inr (Nat.succ_pos _)
      · intro _; exact .inr (.inr (Nat.succ_pos _))
  | sweep now =>
    unfold Pool.step
    dsimp only
    split
    · rename_i hc
      split
      · refine inv_move h (List.Perm.refl _) rfl rfl h.sorted h.past ?_ ?_ ?_
        · intro ht; cases ht
        · intro t ht; cases ht
        · intro _; exact .inr (.inl rfl)
      · rename_i he
        have hsub : ∀ e ∈ p.kept now, e ∈ p.sockets := fun e he => (List.dropWhile_suffix _).subset he
        have hsor : (p.kept now).Pairwise (fun a b => a.1 ≤ b.1) :=
          h.sorted.sublist (List.dropWhile_sublist _)
        have hperm : ((p.kept now).map Prod.snd ++ (p.held ++ ((p.expired now).map Prod.snd ++ p.closed))).Perm
            (Pool.placed p) := by
          have e : p.sockets = p.expired now ++ p.kept now := (List.takeWhile_append_dropWhile ..).symm
          unfold Pool.placed
          rw [e, List.map_append]
          have a : ((p.kept now).map Prod.snd ++ (p.held ++ ((p.expired now).map Prod.snd ++ p.closed))).Perm
            ((p.expired now).map Prod.snd ++ ((p.kept now).map Prod.snd ++ (p.held ++ p.closed))) := by
            rw [← List.append_assoc p.held]
            refine (List.Perm.append_left _ (List.perm_append_comm.append_right _)).trans ?_
            rw [List.append_assoc, ← List.append_assoc]
            refine (List.perm_append_comm.append_right _).trans ?_
            rw [List.append_assoc]
          rw [List.append_assoc]
          exact a
        have hne : p.exiting = false := by cases hx : p.exiting <;> simp_all
        refine inv_move h hperm rfl rfl hsor ?_ ?_ ?_ ?_
        · intro e he
          have := h.past e (hsub e he)
          show e.1 ≤ now
          omega
        · intro ht
          dsimp only at ht
          cases hk : p.kept now with
          | nil => exact .inl rfl
          | cons x _ => rw [hk] at ht; cases ht
        · intro t ht
          dsimp only at ht
          cases hk : p.kept now with
          | nil => rw [hk] at ht; cases ht
          | cons x rest =>
            rw [hk] at ht
            injection ht with ht
            have hx := h.past x (hsub x (by rw [hk]; simp))
            refine ⟨by show t ≤ now + p.timeout; omega, ?_⟩
            intro e he
            show t ≤ e.1 + p.timeout
            rw [hk] at hsor
            rcases List.mem_cons.mp he with rfl | he
            · omega
            · have := (List.pairwise_cons.mp hsor).1 e he; omega
        · intro hx; rw [hne] at hx; cases hx
    · exact h
  | wake =>
    unfold Pool.step
    cases ht : p.timer with
    | waitUntil t =>
      simp only [ht]
      refine inv_move h (List.Perm.refl _) rfl rfl h.sorted h.past ?_ ?_ ?_
      · intro k; cases k
      · intro t k; cases k
      · intro _; exact .inl rfl
    | waitForever =>
      simp only [ht]
      refine inv_move h (List.Perm.refl _) rfl rfl h.sorted h.past ?_ ?_ ?_
      · intro k; cases k
      · intro t k; cases k
      · intro _; exact .inl rfl
    | _ => simp only [ht]; exact h

theorem inv_run {p : Pool} (h : Inv p) (es : List Ev) : Inv (p.run es) := by
  induction es generalizing p with
  | nil => exact h
  | cons e es ih => exact ih (inv_step h e)

theorem timeout_step (p : Pool) (e : Ev) : (p.step e).timeout = p.timeout := by
  cases e <;> unfold Pool.step <;> dsimp only <;> (repeat' split) <;> rfl

theorem timeout_run (p : Pool) (es : List Ev) : (p.run es).timeout = p.timeout := by
  induction es generalizing p with
  | nil => rfl
  | cons e es ih => exact (ih (p.step e)).trans (timeout_step p e)

/-- A pool at its start. -/
def start (timeout : Nat) : Pool := { timeout := timeout }

/-! ## The properties -/

/-- C86.  A connection has one user: at any point of any history, a connection that was handed out is handed out once,
is not in the pool, is not being checked by another thread and is not closed. -/
theorem c86_one_user (timeout : Nat) (es : List Ev) (s : Nat) (h : s ∈ ((start timeout).run es).held) :
    ((start timeout).run es).held.count s = 1 ∧ s ∉ ((start timeout).run es).sockets.map Prod.snd ∧
      s ∉ ((start timeout).run es).closed ∧ ∀ i, ((start timeout).run es).threads i ≠ .checking s := by
  have hi := inv_run (inv_start timeout) es
  have e : (start timeout).run es = Pool.run { timeout := timeout } es := rfl
  rw [e] at h ⊢
  generalize Pool.run { timeout := timeout } es = p at hi h
  have hn := hi.nodup
  unfold Pool.placed at hn
  rw [List.nodup_append, List.nodup_append] at hn
  obtain ⟨-, ⟨n1, -, n2⟩, n3⟩ := hn
  refine ⟨?_, ?_, ?_, ?_⟩
  · rw [n1.count, if_pos h]
  · intro hm; exact n3 s hm s (List.mem_append_left _ h) rfl
  · intro hm; exact n2 s h s hm rfl
  · intro i hi'
    exact hi.apart i s hi' (List.mem_append_right _ (List.mem_append_left _ h))

/-- C86.  No connection is lost: every one that was ever opened is in the pool, handed out, being checked, or closed. -/
theorem c86_none_leaked (timeout : Nat) (es : List Ev) (s : Nat) (h : s < ((start timeout).run es).fresh) :
    s ∈ ((start timeout).run es).sockets.map Prod.snd ∨ s ∈ ((start timeout).run es).held ∨
      s ∈ ((start timeout).run es).closed ∨ ∃ i, ((start timeout).run es).threads i = .checking s := by
  have hi := inv_run (inv_start timeout) es
  rcases (hi.opened s).mp h with h | h
  · rcases List.mem_append.mp h with h | h
    · exact .inl h
    · rcases List.mem_append.mp h with h | h
      · exact .inr (.inl h)
      · exact .inr (.inr (.inl h))
  · exact .inr (.inr (.inr h))

/-- C86.  What is handed out is a connection just opened, or one from the pool that is connected, without error, and
with nothing to read: not one the other end has closed. -/
theorem c86_handed_out_alive (p : Pool) (e : Ev) (s : Nat) (h : s ∈ (p.step e).held) (h' : s ∉ p.held) :
    (∃ i, e = .open_ i true ∧ s = p.fresh) ∨
    ∃ i b, e = .check i b ∧ p.threads i = .checking s ∧ b.closedState = false ∧ b.pollError = false ∧ b.broken = false ∧
      b.readable = false := by
  cases e with
  | open_ i ok =>
    unfold Pool.step at h
    dsimp only at h
    split at h
    · split at h
      · rename_i hok
        rcases List.mem_cons.mp h with h | h
        · exact .inl ⟨i, by rw [hok], h⟩
        · exact absurd h h'
      · exact absurd h h'
    · exact absurd h h'
  | check i b =>
    unfold Pool.step at h
    dsimp only at h
    split at h
    · rename_i s' hi
      split at h
      · rename_i hok
        rcases List.mem_cons.mp h with h | h
        · refine .inr ⟨i, b, rfl, by rw [h]; exact hi, ?_⟩
          simpa [Health.ok, and_assoc] using hok
        · exact absurd h h'
      · exact absurd h h'
    · exact absurd h h'
  | call i => unfold Pool.step at h; dsimp only at h; split at h <;> exact absurd h h'
  | take i =>
    unfold Pool.step at h
    dsimp only at h
    split at h
    · split at h <;> exact absurd h h'
    · exact absurd h h'
  | giveBack t now =>
    unfold Pool.step at h
    dsimp only at h
    split at h
    · exact absurd (List.mem_of_mem_erase h) h'
    · exact absurd h h'
  | drop t =>
    unfold Pool.step at h
    dsimp only at h
    split at h
    · exact absurd (List.mem_of_mem_erase h) h'
    · exact absurd h h'
  | notify => unfold Pool.step at h; dsimp only at h; split at h <;> exact absurd h h'
  | destroy => unfold Pool.step at h; dsimp only at h; split at h <;> exact absurd h h'
  | sweep now =>
    unfold Pool.step at h
    dsimp only at h
    split at h
    · split at h <;> exact absurd h h'
    · exact absurd h h'
  | wake => unfold Pool.step at h; dsimp only at h; split at h <;> exact absurd h h'

theorem mem_takeWhile' {α : Type} {q : α → Bool} {l : List α} {a : α} (h : a ∈ l.takeWhile q) : q a = true := by
  induction l with
  | nil => cases h
  | cons x l ih =>
    rw [List.takeWhile_cons] at h
    split at h
    · rcases List.mem_cons.mp h with rfl | h
      · assumption
      · exact ih h
    · cases h

theorem kept_all (timeout now : Nat) (l : List (Nat × Nat)) (hs : l.Pairwise (fun a b => a.1 ≤ b.1)) :
    ∀ e ∈ l.dropWhile (fun e => decide (e.1 + timeout < now)), now ≤ e.1 + timeout := by
  induction l with
  | nil => intro e he; cases he
  | cons x l ih =>
    obtain ⟨h1, h2⟩ := List.pairwise_cons.mp hs
    rw [List.dropWhile_cons]
    split
    · exact ih h2
    · rename_i hx
      simp only [decide_eq_true_eq, Nat.not_lt] at hx
      intro e he
      rcases List.mem_cons.mp he with rfl | he
      · exact hx
      · have := h1 e he; omega

/-- C86.  When the timer thread has looked at the pool at some time, exactly the connections that had been unused for
longer than the timeout have been closed; the others are still there, in order. -/
theorem c86_expired_are_closed (timeout : Nat) (es : List Ev) (now : Nat)
    (ht : ((start timeout).run es).timer = .running) (hn : ((start timeout).run es).now ≤ now)
    (hx : ((start timeout).run es).exiting = false) :
    (((start timeout).run es).step (.sweep now)).sockets =
      ((start timeout).run es).sockets.filter (fun e => decide (now ≤ e.1 + timeout)) ∧
    ∀ s, s ∈ (((start timeout).run es).step (.sweep now)).closed ↔ s ∈ ((start timeout).run es).closed ∨
      ∃ t, (t, s) ∈ ((start timeout).run es).sockets ∧ t + timeout < now := by
  have hi := inv_run (inv_start timeout) es
  have e : (start timeout).run es = Pool.run { timeout := timeout } es := rfl
  have htm : (Pool.run { timeout := timeout } es).timeout = timeout := timeout_run _ es
  rw [e] at ht hn hx ⊢
  generalize Pool.run { timeout := timeout } es = p at hi ht hn hx htm
  rw [← htm]
  have hk := kept_all p.timeout now p.sockets hi.sorted
  have hsplit : p.sockets = p.expired now ++ p.kept now := (List.takeWhile_append_dropWhile ..).symm
  have hexp : ∀ e ∈ p.expired now, e.1 + p.timeout < now := by
    intro e he
    have := mem_takeWhile' he
    simpa using this
  simp only [Pool.step, ht, hn, hx, and_self, if_true, Bool.false_eq_true, if_false]
  refine ⟨?_, ?_⟩
  · rw [hsplit, List.filter_append]
    have e1 : (p.expired now).filter (fun e => decide (now ≤ e.1 + p.timeout)) = [] := by
      rw [List.filter_eq_nil_iff]
      intro e he
      have := hexp e he
      simp only [decide_eq_true_eq]; omega
    have e2 : (p.kept now).filter (fun e => decide (now ≤ e.1 + p.timeout)) = p.kept now := by
      rw [List.filter_eq_self]
      intro e he
      simp only [decide_eq_true_eq]
      exact hk e he
    rw [e1, e2, List.nil_append]
  · intro s
    rw [List.mem_append]
    constructor
    · rintro (h | h)
      · obtain ⟨x, hx, rfl⟩ := List.mem_map.mp h
        exact .inr ⟨x.1, by rw [hsplit]; exact List.mem_append_left _ hx, hexp x hx⟩
      · exact .inl h
    · rintro (h | ⟨t, h, hlt⟩)
      · exact .inr h
      · rw [hsplit] at h
        rcases List.mem_append.mp h with h | h
        · exact .inl (List.mem_map.mpr ⟨_, h, rfl⟩)
        · have := hk _ h
          simp only at this
          omega

/-- C86.  The timer thread does not sleep too long: while it sleeps without an alarm, the pool is empty or somebody is
about to wake it; and its alarm is set no later than the moment any connection in the pool expires. -/
theorem c86_no_missed_wakeup (timeout : Nat) (es : List Ev) :
    (((start timeout).run es).timer = .waitForever →
      ((start timeout).run es).sockets = [] ∨ 0 < ((start timeout).run es).pending) ∧
    ∀ t, ((start timeout).run es).timer = .waitUntil t →
      ∀ e ∈ ((start timeout).run es).sockets, t ≤ e.1 + timeout := by
  have hi := inv_run (inv_start timeout) es
  have htm : (Pool.run { timeout := timeout } es).timeout = timeout := timeout_run _ es
  refine ⟨hi.sleeping, fun t ht e he => ?_⟩
  have := (hi.alarm t ht).2 e he
  rw [htm] at this
  exact this

theorem exiting_step (p : Pool) (e : Ev) (h : p.exiting = true ∨ e = .destroy) : (p.step e).exiting = true := by
  rcases h with h | rfl
  · cases e <;> unfold Pool.step <;> dsimp only <;> (repeat' split) <;> simp_all
  · unfold Pool.step
    dsimp only
    split <;> simp_all

theorem exiting_run (p : Pool) (es : List Ev) (h : p.exiting = true ∨ Ev.destroy ∈ es) : (p.run es).exiting = true := by
  induction es generalizing p with
  | nil => simpa [Pool.run] using h
  | cons e es ih =>
    refine ih (p.step e) ?_
    by_cases hp : p.exiting = true ∨ e = .destroy
    · exact .inl (exiting_step p e hp)
    · right
      rcases h with h | h
      · exact absurd (.inl h) hp
      · rcases List.mem_cons.1 h with h | h
        · exact absurd (.inr h.symm) hp
        · exact h

/-- C86.  The pool can always be destroyed: once the destructor has asked, the timer thread ends as soon as it is
woken — which is what the destructor does next — so the wait for it ends. -/
theorem c86_destructor_ends (timeout : Nat) (es : List Ev) (hd : Ev.destroy ∈ es) :
    (((start timeout).run es).run [.notify, .sweep ((start timeout).run es).now]).timer = .ended := by
  have h : ((start timeout).run es).exiting = true := exiting_run _ es (.inr hd)
  have hi := inv_run (inv_start timeout) es
  have e : (start timeout).run es = Pool.run { timeout := timeout } es := rfl
  rw [e] at h ⊢
  generalize Pool.run { timeout := timeout } es = p at hi h
  have hl := hi.leaving h
  simp only [Pool.run, List.foldl_cons, List.foldl_nil]
  have h1 : (p.step .notify).exiting = true ∧ (p.step .notify).now = p.now ∧
      ((p.step .notify).timer = .running ∨ (p.step .notify).timer = .ended) := by
    unfold Pool.step
    dsimp only
    split
    · rename_i h0
      refine ⟨h, rfl, ?_⟩
      rcases hl with hl | hl | hl
      · exact .inl hl
      · exact .inr hl
      · omega
    · refine ⟨h, rfl, ?_⟩
      dsimp only
      cases p.timer <;> simp
  generalize p.step .notify = q at h1
  obtain ⟨a, b, c⟩ := h1
  rcases c with c | c
  · simp [Pool.step, c, b, a]
  · simp [Pool.step, c]

/-- C86.  Once the timer thread has ended it stays so: the pool is not looked at any more. -/
theorem c86_ended_stays (p : Pool) (e : Ev) (h : p.timer = .ended) : (p.step e).timer = .ended := by
  cases e <;> unfold Pool.step <;> dsimp only <;> (repeat' split) <;> simp_all

/-- C86, where the code does otherwise: the timeout is not checked when a connection is handed out, so one that has been
unused for any length of time may be, if the timer thread has not run. -/
theorem c86_old_connection_handed_out (age : Nat) :
    ∃ es, (0, 0) ∈ ((start 10).run es).sockets ∧ ((start 10).run es).now = age ∧
      0 ∈ ((start 10).run (es ++ [.call 0, .take 0, .check 0 {}])).held := by
  refine ⟨[.call 0, .take 0, .open_ 0 true, .call 1, .take 1, .open_ 1 true, .giveBack 0 0, .giveBack 1 age], ?_, ?_, ?_⟩
  all_goals simp [start, Pool.run, Pool.step, upd, Health.ok]

/-- Two connections are opened, given back at times 3 and 8; the timer thread closes the first at time 14 and sleeps until
18; the second is handed out again. -/
example : let p := (start 10).run [.call 0, .take 0, .open_ 0 true, .call 1, .take 1, .open_ 1 true, .giveBack 0 3,
      .notify, .sweep 4, .giveBack 1 8, .wake, .sweep 14, .call 5, .take 5, .check 5 {}]
    p.held = [1] ∧ p.closed = [0] ∧ p.sockets = [] ∧ p.timer = .waitUntil 18 ∧ p.fresh = 2 := by
  refine ⟨?_, ?_, ?_, ?_, ?_⟩ <;> decide +kernel

/-- A connection the other end has closed is not handed out: the thread goes on, and opens a new one. -/
example : let p := (start 10).run [.call 0, .take 0, .open_ 0 true, .giveBack 0 3, .call 1, .take 1,
      .check 1 { readable := true }, .take 1, .open_ 1 true]
    p.held = [1] ∧ p.closed = [0] := by
  refine ⟨?_, ?_⟩ <;> decide +kernel

/-- The destructor, while the timer thread sleeps without an alarm. -/
example : let p := (start 10).run [.sweep 1, .destroy]
    p.exiting = true ∧ p.timer = .waitForever ∧ p.pending = 1 ∧ (p.run [.notify, .sweep 1]).timer = .ended := by
  refine ⟨?_, ?_, ?_, ?_⟩ <;> decide +kernel

end Bedrock.SocketPool.Props
