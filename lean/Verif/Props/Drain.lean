import Verif.Model.Drain

/-! # C146: the last answers of a node that stops -/

namespace Bedrock.Drain.Props
open Bedrock.Drain

/-- What was sent to a peer and not lost with a connection. -/
def all (c : Conn) : List Nat := c.buf ++ c.kernel ++ c.got

/-- Nothing is on its way. -/
def Idle (c : Conn) : Prop := c.buf = [] ∧ c.kernel = []

structure Inv (s : St) : Prop where
  count : s.pending = s.working.length + s.sent.length
  down : ∀ i, (s.conns i).up = false → Idle (s.conns i)
  kept : ∀ e ∈ s.asked, e ∈ s.lost ∨ e.2 ∈ all (s.conns e.1) ∨ e ∈ s.working
  gone : ∀ e ∈ s.asked, (s.conns e.1).up = false → e ∈ s.lost
  range : ∀ e ∈ s.asked, e.1 < s.n
  sub : ∀ e ∈ s.working, e ∈ s.asked
  peer : ∀ j, s.pc = .peer j → s.pending = 0 ∧ ∀ i, i < j → Idle (s.conns i)
  stopped : s.pc = .stopped → s.pending = 0 ∧ ∀ i, i < s.n → Idle (s.conns i)
  shut : s.pc ≠ .loop → s.shutting = true

theorem mem_eraseIdx_or {α : Type} (l : List α) (k : Nat) (t : α) (h : l[k]? = some t) (x : α) (hx : x ∈ l) :
    x = t ∨ x ∈ l.eraseIdx k := by
  induction l generalizing k with
  | nil => cases hx
  | cons y l ih =>
    cases k with
    | zero =>
      have hy : y = t := by simpa using h
      rcases List.mem_cons.mp hx with rfl | hx
      · exact .inl hy
      · exact .inr (by simpa using hx)
    | succ k =>
      have hy : l[k]? = some t := by simpa using h
      rcases List.mem_cons.mp hx with rfl | hx
      · exact .inr (by simp)
      · rcases ih k hy hx with h | h
        · exact .inl h
        · exact .inr (by simp [h])

theorem len_eraseIdx {α : Type} (l : List α) (k : Nat) (t : α) (h : l[k]? = some t) : l.length = (l.eraseIdx k).length + 1 := by
  have := (List.getElem?_eq_some_iff.mp h).1
  rw [List.length_eraseIdx]
  split <;> omega

theorem all_flush (c : Conn) (x : Nat) (h : x ∈ all c) : x ∈ all c.flush := by
  unfold Conn.flush
  split
  · exact h
  · rename_i r rest hb
    simp only [all, hb, List.mem_append, List.mem_cons] at h ⊢
    grind

theorem all_ack (c : Conn) (x : Nat) (h : x ∈ all c) : x ∈ all c.ack := by
  unfold Conn.ack
  split
  · exact h
  · rename_i r rest hb
    simp only [all, hb, List.mem_append, List.mem_cons] at h ⊢
    grind

theorem idle_flush (c : Conn) (h : Idle c) : Idle c.flush := by
  unfold Conn.flush
  rw [h.1]; exact h

theorem idle_ack (c : Conn) (h : Idle c) : Idle c.ack := by
  unfold Conn.ack
  rw [h.2]; exact h

theorem up_flush (c : Conn) : c.flush.up = c.up := by unfold Conn.flush; split <;> rfl
theorem up_ack (c : Conn) : c.ack.up = c.up := by unfold Conn.ack; split <;> rfl

/-- An update of one connection that keeps what was sent and does not put anything new on its way. -/
theorem inv_on {s : St} (h : Inv s) (i : Nat) (f : Conn → Conn) (ha : ∀ c x, x ∈ all c → x ∈ all (f c))
    (hi : ∀ c, Idle c → Idle (f c)) (hu : ∀ c, (f c).up = false → c.up = false) : Inv (s.on i f) where
  count := h.count
  down := by
    intro j hj
    unfold St.on at hj ⊢
    dsimp only at hj ⊢
    split at hj
    · rename_i e; rw [if_pos e]; exact hi _ (h.down j (hu _ hj))
    · rename_i e; rw [if_neg e]; exact h.down j hj
  kept := by
    intro e he
    rcases h.kept e he with h1 | h1 | h1
    · exact .inl h1
    · refine .inr (.inl ?_)
      unfold St.on
      dsimp only
      split
      · exact ha _ _ h1
      · exact h1
    · exact .inr (.inr h1)
  gone := by
    intro e he hu'
    refine h.gone e he ?_
    unfold St.on at hu'
    dsimp only at hu'
    split at hu'
    · exact hu _ hu'
    · exact hu'
  range := h.range
  sub := h.sub
  peer := by
    intro j hj
    refine ⟨(h.peer j hj).1, fun k hk => ?_⟩
    unfold St.on
    dsimp only
    split
    · exact hi _ ((h.peer j hj).2 k hk)
    · exact (h.peer j hj).2 k hk
  stopped := by
    intro hj
    refine ⟨(h.stopped hj).1, fun k hk => ?_⟩
    unfold St.on
    dsimp only
    split
    · exact hi _ ((h.stopped hj).2 k hk)
    · exact (h.stopped hj).2 k hk
  shut := h.shut

/-- A check of the peers in which `ioctl` does not fail. -/
def Sound (e : Ev) : Prop := e ≠ .look false

theorem inv_ask {s : St} (h : Inv s) (i r : Nat) : Inv (askStep s i r) := by
  unfold askStep
  split
  · rename_i hg
    obtain ⟨hpc, hin, hup⟩ := hg
    split
    · have hsend : ∀ j, (s.on i (·.send r)).conns j = if j = i then (s.conns j).send r else s.conns j := fun _ => rfl
      refine ⟨h.count, ?_, ?_, ?_, ?_, ?_, ?_, ?_, fun hh => absurd hpc hh⟩
      · intro j hj
        change ((s.on i (·.send r)).conns j).up = false at hj
        show Idle ((s.on i (·.send r)).conns j)
        rw [hsend] at hj ⊢
        split at hj
        · rename_i e
          subst e
          unfold Conn.send at hj
          rw [if_pos hup] at hj
          change (s.conns j).up = false at hj
          rw [hup] at hj; cases hj
        · rename_i e; rw [if_neg e]; exact h.down j hj
      · intro e he
        show e ∈ s.lost ∨ e.2 ∈ all ((s.on i (·.send r)).conns e.1) ∨ e ∈ s.working
        rw [hsend]
        rcases List.mem_cons.mp he with rfl | he
        · refine .inr (.inl ?_)
          rw [if_pos rfl]
          unfold Conn.send
          rw [if_pos hup]
          simp [all]
        · rcases h.kept e he with h1 | h1 | h1
          · exact .inl h1
          · refine .inr (.inl ?_)
            split
            · unfold Conn.send
              split
              · simp only [all, List.mem_append] at h1 ⊢; grind
              · exact h1
            · exact h1
          · exact .inr (.inr h1)
      · intro e he hu
        change ((s.on i (·.send r)).conns e.1).up = false at hu
        rw [hsend] at hu
        have hu' : (s.conns e.1).up = false := by
          split at hu
          · unfold Conn.send at hu; split at hu <;> exact hu
          · exact hu
        rcases List.mem_cons.mp he with rfl | he
        · rw [hup] at hu'; cases hu'
        · exact h.gone e he hu'
      · intro e he
        rcases List.mem_cons.mp he with rfl | he
        · exact hin
        · exact h.range e he
      · intro e he; exact List.mem_cons_of_mem _ (h.sub e he)
      · intro j hj; change s.pc = .peer j at hj; rw [hpc] at hj; cases hj
      · intro hj; change s.pc = .stopped at hj; rw [hpc] at hj; cases hj
    · refine ⟨?_, h.down, ?_, ?_, ?_, ?_, ?_, ?_, fun hh => absurd hpc hh⟩
      · show s.pending + 1 = (s.working.length + 1) + s.sent.length
        have := h.count
        omega
      · intro e he
        rcases List.mem_cons.mp he with rfl | he
        · exact .inr (.inr (List.mem_cons_self ..))
        · rcases h.kept e he with h1 | h1 | h1
          · exact .inl h1
          · exact .inr (.inl h1)
          · exact .inr (.inr (List.mem_cons_of_mem _ h1))
      · intro e he hu
        rcases List.mem_cons.mp he with rfl | he
        · change (s.conns i).up = false at hu; rw [hup] at hu; cases hu
        · exact h.gone e he hu
      · intro e he
        rcases List.mem_cons.mp he with rfl | he
        · exact hin
        · exact h.range e he
      · intro e he
        rcases List.mem_cons.mp he with rfl | he
        · exact List.mem_cons_self ..
        · exact List.mem_cons_of_mem _ (h.sub e he)
      · intro j hj; change s.pc = .peer j at hj; rw [hpc] at hj; cases hj
      · intro hj; change s.pc = .stopped at hj; rw [hpc] at hj; cases hj
  · exact h

theorem inv_check {s : St} (h : Inv s) (b : Bool) : Inv (checkStep s b) := by
  unfold checkStep
  split
  · rename_i hg
    refine ⟨h.count, h.down, h.kept, h.gone, h.range, h.sub, ?_, ?_, fun _ => hg.2.1⟩
    · intro j hj
      change Pc.peer 0 = Pc.peer j at hj
      injection hj with hj
      exact ⟨hg.2.2.2, fun i hi => by omega⟩
    · intro hj; change Pc.peer 0 = Pc.stopped at hj; cases hj
  · exact h

theorem idle_of_remaining {c : Conn} (hd : c.up = false → Idle c) (h : c.remaining true = false) : Idle c := by
  unfold Conn.remaining at h
  cases hu : c.up with
  | false => exact hd hu
  | true =>
    rw [hu] at h
    simp only [Bool.not_true, Bool.false_eq_true, if_false, if_true] at h
    split at h
    · cases h
    · rename_i hb
      exact ⟨by simpa using hb, by simpa using h⟩

theorem inv_look {s : St} (h : Inv s) : Inv (lookStep s true) := by
  unfold lookStep
  split
  · rename_i j hpc
    have hs := h.shut (by rw [hpc]; intro hh; cases hh)
    split
    · rename_i hj
      split
      · exact ⟨h.count, h.down, h.kept, h.gone, h.range, h.sub, fun k hk => (by cases hk), fun hk => (by cases hk), fun hh => absurd rfl hh⟩
      · rename_i hr
        refine ⟨h.count, h.down, h.kept, h.gone, h.range, h.sub, fun k hk => ?_, fun hk => (by cases hk), fun _ => hs⟩
        change Pc.peer (j + 1) = Pc.peer k at hk
        injection hk with hk
        refine ⟨(h.peer j hpc).1, fun i hi => ?_⟩
        by_cases hij : i = j
        · subst hij; exact idle_of_remaining (h.down i) (by simpa using hr)
        · exact (h.peer j hpc).2 i (by omega)
    · rename_i hj
      refine ⟨h.count, h.down, h.kept, h.gone, h.range, h.sub, fun k hk => (by cases hk), fun _ => ⟨(h.peer j hpc).1, fun i hi => ?_⟩, fun _ => hs⟩
      change i < s.n at hi
      exact (h.peer j hpc).2 i (by omega)
  · exact h

theorem inv_answer {s : St} (h : Inv s) (k : Nat) : Inv (step s (.answer k)) := by
  simp only [step]
  split
  · rename_i t ht
    have hlen := len_eraseIdx s.working k t ht
    have hne : s.pending ≠ 0 := by have := h.count; omega
    have hsend : ∀ j, (s.on t.1 (·.send t.2)).conns j = if j = t.1 then (s.conns j).send t.2 else s.conns j := fun _ => rfl
    refine ⟨?_, ?_, ?_, ?_, h.range, ?_, ?_, ?_, h.shut⟩
    · show s.pending = (s.working.eraseIdx k).length + (s.sent.length + 1)
      have := h.count
      omega
    · intro j hj
      change ((s.on t.1 (·.send t.2)).conns j).up = false at hj
      show Idle ((s.on t.1 (·.send t.2)).conns j)
      rw [hsend] at hj ⊢
      by_cases e : j = t.1
      · rw [if_pos e] at hj ⊢
        unfold Conn.send at hj ⊢
        cases hu : (s.conns j).up with
        | true => rw [if_pos hu] at hj; change (s.conns j).up = false at hj; rw [hu] at hj; cases hj
        | false => rw [if_neg (by simp)]; exact h.down j hu
      · rw [if_neg e] at hj ⊢; exact h.down j hj
    · intro e he
      show e ∈ s.lost ∨ e.2 ∈ all ((s.on t.1 (·.send t.2)).conns e.1) ∨ e ∈ s.working.eraseIdx k
      rw [hsend]
      rcases h.kept e he with h1 | h1 | h1
      · exact .inl h1
      · refine .inr (.inl ?_)
        split
        · unfold Conn.send
          split
          · simp only [all, List.mem_append] at h1 ⊢; grind
          · exact h1
        · exact h1
      · rcases mem_eraseIdx_or _ _ _ ht e h1 with h2 | h2
        · subst h2
          rw [if_pos rfl]
          unfold Conn.send
          cases hu : (s.conns e.1).up with
          | true => rw [if_pos rfl]; exact .inr (.inl (by simp [all]))
          | false => exact .inl (h.gone e he hu)
        · exact .inr (.inr h2)
    · intro e he hu
      change ((s.on t.1 (·.send t.2)).conns e.1).up = false at hu
      rw [hsend] at hu
      refine h.gone e he ?_
      split at hu
      · unfold Conn.send at hu; split at hu <;> exact hu
      · exact hu
    · intro e he
      exact h.sub e (List.mem_of_mem_eraseIdx he)
    · intro j hj; exact absurd (h.peer j hj).1 hne
    · intro hj; exact absurd (h.stopped hj).1 hne
  · exact h

theorem inv_count {s : St} (h : Inv s) (k : Nat) : Inv (step s (.count k)) := by
  simp only [step]
  split
  · rename_i t ht
    have hlen := len_eraseIdx s.sent k t ht
    have hc := h.count
    have hne : s.pending ≠ 0 := by omega
    refine ⟨?_, h.down, h.kept, h.gone, h.range, h.sub, ?_, ?_, h.shut⟩
    · show s.pending - 1 = s.working.length + (s.sent.eraseIdx k).length
      omega
    · intro j hj; exact absurd (h.peer j hj).1 hne
    · intro hj; exact absurd (h.stopped hj).1 hne
  · exact h

theorem inv_drop {s : St} (h : Inv s) (i : Nat) : Inv (step s (.drop i)) := by
  have hdrop : ∀ j, (step s (.drop i)).conns j =
      if j = i then { s.conns j with up := false, buf := [], kernel := [] } else s.conns j := fun _ => rfl
  have hidle : ∀ j, Idle (s.conns j) → Idle ((step s (.drop i)).conns j) := by
    intro j hj
    rw [hdrop]
    split
    · exact ⟨rfl, rfl⟩
    · exact hj
  have hlost : ∀ e ∈ s.asked, e.1 = i → e ∈ (step s (.drop i)).lost := by
    intro e he hi
    refine List.mem_append_right _ (List.mem_filter.mpr ⟨he, ?_⟩)
    simp [hi]
  refine ⟨h.count, ?_, ?_, ?_, h.range, h.sub, ?_, ?_, h.shut⟩
  · intro j hj
    rw [hdrop] at hj ⊢
    split at hj
    · rename_i e; rw [if_pos e]; exact ⟨rfl, rfl⟩
    · rename_i e; rw [if_neg e]; exact h.down j hj
  · intro e he
    by_cases hi : e.1 = i
    · exact .inl (hlost e he hi)
    · rcases h.kept e he with h1 | h1 | h1
      · exact .inl (List.mem_append_left _ h1)
      · refine .inr (.inl ?_)
        rw [hdrop, if_neg hi]; exact h1
      · exact .inr (.inr h1)
  · intro e he hu
    by_cases hi : e.1 = i
    · exact hlost e he hi
    · rw [hdrop, if_neg hi] at hu
      exact List.mem_append_left _ (h.gone e he hu)
  · intro j hj
    exact ⟨(h.peer j hj).1, fun k hk => hidle k ((h.peer j hj).2 k hk)⟩
  · intro hj
    exact ⟨(h.stopped hj).1, fun k hk => hidle k ((h.stopped hj).2 k hk)⟩

theorem inv_step {s : St} (h : Inv s) (e : Ev) (he : Sound e) : Inv (step s e) := by
  cases e with
  | ask i r => exact inv_ask h i r
  | begin' =>
    simp only [step]
    split
    · exact ⟨h.count, h.down, h.kept, h.gone, h.range, h.sub, h.peer, h.stopped, fun _ => rfl⟩
    · exact h
  | check b => exact inv_check h b
  | look ok =>
    cases ok with
    | true => exact inv_look h
    | false => exact absurd rfl he
  | answer k => exact inv_answer h k
  | count k => exact inv_count h k
  | finish k => exact ⟨h.count, h.down, h.kept, h.gone, h.range, h.sub, h.peer, h.stopped, h.shut⟩
  | flush i => exact inv_on h i _ all_flush idle_flush (fun c hc => (up_flush c).symm.trans hc)
  | ack i => exact inv_on h i _ all_ack idle_ack (fun c hc => (up_ack c).symm.trans hc)
  | drop i => exact inv_drop h i
  | connect i =>
    refine inv_on h i (fun c => if c.up then c else { c with up := true }) (fun c x hx => ?_) (fun c hc => ?_) (fun c hc => ?_)
    · split <;> exact hx
    · split <;> exact hc
    · split at hc
      · exact hc
      · cases hc

theorem inv_run {s : St} (h : Inv s) (evs : List Ev) (he : ∀ e ∈ evs, Sound e) : Inv (run s evs) := by
  induction evs generalizing s with
  | nil => exact h
  | cons e evs ih => exact ih (inv_step h e (he e (List.mem_cons_self ..))) (fun x hx => he x (List.mem_cons_of_mem _ hx))

theorem inv_init (n : Nat) : Inv { n := n } :=
  ⟨rfl, fun _ _ => ⟨rfl, rfl⟩, fun _ he => (by cases he), fun _ he => (by cases he), fun _ he => (by cases he),
    fun _ he => (by cases he), fun _ he => (by cases he), fun he => (by cases he), fun hh => absurd rfl hh⟩

/-- **C146** When a node has stopped, every request of a peer to help it synchronise has been answered, and the answer has arrived at
the peer; or the connection ended after the request.  Nothing is left in a buffer. -/
theorem c146_answered (n : Nat) (evs : List Ev) (he : ∀ e ∈ evs, Sound e) (hs : (run { n := n } evs).pc = .stopped) :
    (∀ e ∈ (run { n := n } evs).asked, e.2 ∈ ((run { n := n } evs).conns e.1).got ∨ e ∈ (run { n := n } evs).lost) ∧
    ∀ i, i < (run { n := n } evs).n → ((run { n := n } evs).conns i).buf = [] ∧ ((run { n := n } evs).conns i).kernel = [] := by
  have h := inv_run (inv_init n) evs he
  generalize run { n := n } evs = s at h hs
  obtain ⟨h0, hi⟩ := h.stopped hs
  refine ⟨fun e hm => ?_, hi⟩
  rcases h.kept e hm with h1 | h1 | h1
  · exact .inr h1
  · have hid := hi e.1 (h.range e hm)
    simp only [all, hid.1, hid.2, List.nil_append] at h1
    exact .inl h1
  · have hc := h.count
    have : 0 < s.working.length := List.length_pos_of_mem h1
    omega

/-- **C146** A request that arrives after the node was told to stop starts no thread: it is refused at once, and the node has only the
threads it had. -/
theorem c146_no_new_thread (s : St) (hs : s.shutting = true) (evs : List Ev) :
    (run s evs).working.length + (run s evs).sent.length ≤ s.working.length + s.sent.length ∧ (run s evs).shutting = true := by
  induction evs generalizing s with
  | nil => exact ⟨Nat.le_refl _, hs⟩
  | cons e evs ih =>
    have hstep : (step s e).working.length + (step s e).sent.length ≤ s.working.length + s.sent.length ∧ (step s e).shutting = true := by
      cases e with
      | ask i r =>
        simp only [step, askStep]
        split
        · first
            | exact ⟨Nat.le_refl _, hs⟩
            | (split <;> first | exact ⟨Nat.le_refl _, hs⟩ | (rename_i hn; exact absurd hs hn))
        · exact ⟨Nat.le_refl _, hs⟩
      | begin' => simp only [step]; split <;> exact ⟨Nat.le_refl _, by first | rfl | exact hs⟩
      | check b => simp only [step, checkStep]; split <;> exact ⟨Nat.le_refl _, hs⟩
      | look b =>
        simp only [step, lookStep]
        split
        · split
          · split <;> exact ⟨Nat.le_refl _, hs⟩
          · exact ⟨Nat.le_refl _, hs⟩
        · exact ⟨Nat.le_refl _, hs⟩
      | answer k =>
        simp only [step]
        split
        · rename_i t ht
          have := len_eraseIdx s.working k t ht
          refine ⟨?_, hs⟩
          show (s.working.eraseIdx k).length + (s.sent.length + 1) ≤ _
          omega
        · exact ⟨Nat.le_refl _, hs⟩
      | count k =>
        simp only [step]
        split
        · rename_i t ht
          have := len_eraseIdx s.sent k t ht
          refine ⟨?_, hs⟩
          show s.working.length + (s.sent.eraseIdx k).length ≤ _
          omega
        · exact ⟨Nat.le_refl _, hs⟩
      | finish k => exact ⟨Nat.le_refl _, hs⟩
      | flush i => exact ⟨Nat.le_refl _, hs⟩
      | ack i => exact ⟨Nat.le_refl _, hs⟩
      | drop i => exact ⟨Nat.le_refl _, hs⟩
      | connect i => exact ⟨Nat.le_refl _, hs⟩
    have := ih (step s e) hstep.2
    exact ⟨Nat.le_trans this.1 hstep.1, this.2⟩

theorem looks (s : St) (m : Nat) (j : Nat) (hpc : s.pc = .peer j) (hm : j + m = s.n) (hi : ∀ i, i < s.n → Idle (s.conns i)) :
    (run s (List.replicate (m + 1) (.look true))).pc = .stopped := by
  induction m generalizing s j with
  | zero =>
    show (lookStep s true).pc = .stopped
    unfold lookStep
    rw [hpc]
    dsimp only
    rw [if_neg (by omega)]
  | succ m ih =>
    have hr : (s.conns j).remaining true = false := by
      have := hi j (by omega)
      unfold Conn.remaining
      rw [this.1, this.2]
      cases (s.conns j).up <;> rfl
    have hl : lookStep s true = { s with pc := .peer (j + 1) } := by
      unfold lookStep
      rw [hpc]
      dsimp only
      rw [if_pos (by omega), hr]
      rfl
    show (run (lookStep s true) (List.replicate (m + 1) (.look true))).pc = .stopped
    rw [hl]
    exact ih { s with pc := .peer (j + 1) } (j + 1) rfl (by show j + 1 + m = s.n; omega) hi

/-- **C146** And it does stop: once it was told to, the threads have answered, and the messages have left, the next check ends it. -/
theorem c146_stops (s : St) (hpc : s.pc = .loop) (hs : s.shutting = true) (hp : s.pending = 0) (hi : ∀ i, i < s.n → Idle (s.conns i)) :
    (run s (.check true :: List.replicate (s.n + 1) (.look true))).pc = .stopped := by
  have hc : checkStep s true = { s with pc := .peer 0 } := by
    unfold checkStep
    rw [if_pos ⟨hpc, hs, rfl, hp⟩]
  show (run (checkStep s true) (List.replicate (s.n + 1) (.look true))).pc = .stopped
  rw [hc]
  exact looks { s with pc := .peer 0 } s.n 0 rfl (by show 0 + s.n = s.n; omega) hi

/-- What the threads, the sockets and the check do by themselves. -/
def Own : Ev → Prop
  | .answer _ | .count _ | .flush _ | .ack _ | .check true | .look true => True
  | _ => False

/-- From a state that waits to stop, one is reached by such events in which `P` holds. -/
def Reach (s : St) (P : St → Prop) : Prop :=
  ∃ evs, (∀ e ∈ evs, Own e) ∧ Inv (run s evs) ∧ (run s evs).pc = .loop ∧ (run s evs).shutting = true ∧ P (run s evs)

theorem own_sound {e : Ev} (h : Own e) : Sound e := by
  intro hh; subst hh; exact h

theorem reach_cons {s : St} {P : St → Prop} (e : Ev) (he : Own e) (h : Reach (step s e) P) : Reach s P := by
  obtain ⟨evs, h1, h2⟩ := h
  refine ⟨e :: evs, ?_, h2⟩
  intro x hx
  rcases List.mem_cons.mp hx with rfl | hx
  · exact he
  · exact h1 x hx

theorem reach_trans {s : St} {P Q : St → Prop} (h : Reach s P)
    (hq : ∀ t, Inv t → t.pc = .loop → t.shutting = true → P t → Reach t Q) : Reach s Q := by
  obtain ⟨evs, h1, h2, h3, h4, h5⟩ := h
  obtain ⟨evs', g1, g2⟩ := hq _ h2 h3 h4 h5
  refine ⟨evs ++ evs', ?_, ?_⟩
  · intro x hx
    rcases List.mem_append.mp hx with hx | hx
    · exact h1 x hx
    · exact g1 x hx
  · have : run s (evs ++ evs') = run (run s evs) evs' := by unfold run; rw [List.foldl_append]
    rw [this]; exact g2

theorem reach_answers (m : Nat) (s : St) (hm : s.working.length = m) (h : Inv s) (hpc : s.pc = .loop) (hs : s.shutting = true) :
    Reach s (fun t => t.working = [] ∧ t.n = s.n) := by
  induction m generalizing s with
  | zero => exact ⟨[], fun _ hx => (by cases hx), h, hpc, hs, List.length_eq_zero_iff.mp hm, rfl⟩
  | succ m ih =>
    refine reach_cons (.answer 0) trivial ?_
    have hst := inv_answer h 0
    cases hw : s.working with
    | nil => rw [hw] at hm; cases hm
    | cons t l =>
      have he : step s (.answer 0) = { s.on t.1 (·.send t.2) with working := l, sent := t :: s.sent } := by
        simp [step, hw]
      have hl : l.length = m := by rw [hw] at hm; simpa using hm
      rw [he] at hst ⊢
      exact ih _ hl hst hpc hs

theorem reach_counts (m : Nat) (s : St) (hm : s.sent.length = m) (hw : s.working = []) (h : Inv s) (hpc : s.pc = .loop)
    (hs : s.shutting = true) : Reach s (fun t => t.pending = 0 ∧ t.n = s.n) := by
  induction m generalizing s with
  | zero =>
    refine ⟨[], fun _ hx => (by cases hx), h, hpc, hs, ?_, rfl⟩
    have := h.count
    rw [hw] at this
    show s.pending = 0
    simp only [List.length_nil] at this
    omega
  | succ m ih =>
    refine reach_cons (.count 0) trivial ?_
    have hst := inv_count h 0
    cases hw' : s.sent with
    | nil => rw [hw'] at hm; cases hm
    | cons t l =>
      have he : step s (.count 0) = { s with sent := l, counted := t :: s.counted, pending := s.pending - 1 } := by
        simp [step, hw']
      have hl : l.length = m := by rw [hw'] at hm; simpa using hm
      rw [he] at hst ⊢
      exact ih _ hl hw hst hpc hs

theorem reach_idle (i : Nat) (m : Nat) (s : St) (hm : 2 * (s.conns i).buf.length + (s.conns i).kernel.length = m) (hp : s.pending = 0)
    (h : Inv s) (hpc : s.pc = .loop) (hs : s.shutting = true) (hi : ∀ j, j < i → Idle (s.conns j)) :
    Reach s (fun t => t.pending = 0 ∧ t.n = s.n ∧ ∀ j, j < i + 1 → Idle (t.conns j)) := by
  induction m using Nat.strongRecOn generalizing s with
  | ind m ih =>
    cases hb : (s.conns i).buf with
    | cons r rest =>
      refine reach_cons (.flush i) trivial ?_
      have hc : (step s (.flush i)).conns i = { s.conns i with buf := rest, kernel := (s.conns i).kernel ++ [r] } := by
        show (if i = i then (s.conns i).flush else s.conns i) = _
        rw [if_pos rfl]
        unfold Conn.flush
        rw [hb]
      refine ih (2 * ((step s (.flush i)).conns i).buf.length + ((step s (.flush i)).conns i).kernel.length) ?_ (step s (.flush i)) rfl hp
        (inv_step h _ (fun hh => by cases hh)) hpc hs ?_
      · rw [hc]
        rw [hb] at hm
        simp only [List.length_cons, List.length_append, List.length_nil] at hm ⊢
        omega
      · intro j hj
        show Idle (if j = i then (s.conns j).flush else s.conns j)
        rw [if_neg (by omega)]
        exact hi j hj
    | nil =>
      cases hk : (s.conns i).kernel with
      | cons r rest =>
        refine reach_cons (.ack i) trivial ?_
        have hc : (step s (.ack i)).conns i = { s.conns i with kernel := rest, got := (s.conns i).got ++ [r] } := by
          show (if i = i then (s.conns i).ack else s.conns i) = _
          rw [if_pos rfl]
          unfold Conn.ack
          rw [hk]
        refine ih (2 * ((step s (.ack i)).conns i).buf.length + ((step s (.ack i)).conns i).kernel.length) ?_ (step s (.ack i)) rfl hp
          (inv_step h _ (fun hh => by cases hh)) hpc hs ?_
        · rw [hc]
          rw [hk] at hm
          simp only [List.length_cons] at hm ⊢
          omega
        · intro j hj
          show Idle (if j = i then (s.conns j).ack else s.conns j)
          rw [if_neg (by omega)]
          exact hi j hj
      | nil =>
        refine ⟨[], fun _ hx => (by cases hx), h, hpc, hs, hp, rfl, fun j hj => ?_⟩
        by_cases hji : j = i
        · subst hji; exact ⟨hb, hk⟩
        · exact hi j (by omega)

theorem reach_all_idle (m : Nat) (s : St) (hp : s.pending = 0) (h : Inv s) (hpc : s.pc = .loop) (hs : s.shutting = true) :
    Reach s (fun t => t.pending = 0 ∧ t.n = s.n ∧ ∀ j, j < m → Idle (t.conns j)) := by
  induction m with
  | zero => exact ⟨[], fun _ hx => (by cases hx), h, hpc, hs, hp, rfl, fun j hj => (by omega)⟩
  | succ m ih =>
    refine reach_trans ih fun t ht hpc' hs' ⟨hp', hn, hi⟩ => ?_
    have := reach_idle m _ t rfl hp' ht hpc' hs' hi
    rw [← hn]
    exact this

/-- **C146** A node that was told to stop can always stop: whatever happened, its threads, its sockets and its checks, left alone, bring
it to the end, without a connection being cut. -/
theorem c146_can_stop (n : Nat) (evs : List Ev) (he : ∀ e ∈ evs, Sound e) (hpc : (run { n := n } evs).pc = .loop)
    (hs : (run { n := n } evs).shutting = true) :
    ∃ more, (∀ e ∈ more, Own e) ∧ (run { n := n } (evs ++ more)).pc = .stopped := by
  have h := inv_run (inv_init n) evs he
  have hr : ∀ more, run { n := n } (evs ++ more) = run (run { n := n } evs) more := by
    intro more; unfold run; rw [List.foldl_append]
  simp only [hr]
  generalize run { n := n } evs = s at h hs hpc
  have hreach : Reach s (fun t => t.pending = 0 ∧ ∀ j, j < t.n → Idle (t.conns j)) := by
    refine reach_trans (reach_answers _ s rfl h hpc hs) fun t1 i1 p1 s1 ⟨w1, _⟩ => ?_
    refine reach_trans (reach_counts _ t1 rfl w1 i1 p1 s1) fun t2 i2 p2 s2 ⟨c2, _⟩ => ?_
    refine reach_trans (reach_all_idle t2.n t2 c2 i2 p2 s2) fun t3 i3 p3 s3 ⟨c3, n3, d3⟩ => ?_
    exact ⟨[], fun _ hx => (by cases hx), i3, p3, s3, c3, fun j hj => d3 j (n3 ▸ hj)⟩
  obtain ⟨more, h1, _, h3, h4, h5, h6⟩ := hreach
  refine ⟨more ++ (.check true :: List.replicate ((run s more).n + 1) (.look true)), ?_, ?_⟩
  · intro e hx
    rcases List.mem_append.mp hx with hx | hx
    · exact h1 e hx
    · rcases List.mem_cons.mp hx with rfl | hx
      · trivial
      · rw [(List.mem_replicate.mp hx).2]; trivial
  · have : ∀ l, run s (more ++ l) = run (run s more) l := by intro l; unfold run; rw [List.foldl_append]
    rw [this]
    exact c146_stops _ h3 h4 h5 h6

/-- **C146** A node that was not told to does not stop. -/
theorem c146_told (n : Nat) (evs : List Ev) (he : ∀ e ∈ evs, Sound e) (hs : (run { n := n } evs).pc = .stopped) : Ev.begin' ∈ evs := by
  have key : ∀ (evs : List Ev) (s : St), s.shutting = false → Ev.begin' ∉ evs → (run s evs).shutting = false := by
    intro evs
    induction evs with
    | nil => intro s h _; exact h
    | cons e evs ih =>
      intro s h hn
      refine ih (step s e) ?_ (fun hh => hn (List.mem_cons_of_mem _ hh))
      cases e with
      | begin' => exact absurd (List.mem_cons_self ..) hn
      | ask i r =>
        show (askStep s i r).shutting = false
        unfold askStep
        split
        · split <;> exact h
        · exact h
      | check b => show (checkStep s b).shutting = false; unfold checkStep; split <;> exact h
      | look b =>
        show (lookStep s b).shutting = false
        unfold lookStep
        split
        · split
          · split <;> exact h
          · exact h
        · exact h
      | answer k => simp only [step]; split <;> exact h
      | count k => simp only [step]; split <;> exact h
      | finish k => exact h
      | flush i => exact h
      | ack i => exact h
      | drop i => exact h
      | connect i => exact h
  apply Classical.byContradiction
  intro hn
  have h1 := key evs { n := n } rfl hn
  have h2 := (inv_run (inv_init n) evs he).shut (by rw [hs]; intro hh; cases hh)
  rw [h1] at h2
  cases h2

/-- **C146, what does not hold** If the kernel cannot be asked, its buffer is taken to be empty: an answer that has not arrived is
forgotten. -/
theorem c146_unasked_partial : ∃ evs, (run { n := 1 } evs).pc = .stopped ∧ (0, 7) ∈ (run { n := 1 } evs).asked ∧
    (run { n := 1 } evs).lost = [] ∧ ((run { n := 1 } evs).conns 0).got = [] :=
  ⟨[.ask 0 7, .begin', .answer 0, .count 0, .flush 0, .check true, .look false, .look true], by decide +kernel⟩

/-- **C146, what does not hold** The node does not wait for the threads to return their database handles: it stops, and its pool is
given up, while one still has to. -/
theorem c146_handle_partial : ∃ evs, (∀ e ∈ evs, Sound e) ∧ (run { n := 1 } evs).pc = .stopped ∧ (run { n := 1 } evs).counted = [(0, 7)] :=
  ⟨[.ask 0 7, .begin', .answer 0, .count 0, .flush 0, .ack 0, .check true, .look true, .look true],
    (by intro e he hh; subst hh; simp at he), by decide +kernel⟩

/-- Two peers ask, a third asks too late; one connection ends. -/
def sample : List Ev := [.ask 0 1, .ask 1 2, .begin', .ask 2 3, .check true, .answer 1, .drop 1, .answer 0, .count 0, .check true, .count 0,
  .check true, .look true, .flush 0, .ack 0, .flush 2, .check true, .look true, .look true, .look true, .ack 2, .finish 0,
  .check true, .look true, .look true, .look true, .look true]

example : (run { n := 3 } sample).pc = .stopped ∧ (run { n := 3 } sample).asked = [(2, 3), (1, 2), (0, 1)] ∧
    (run { n := 3 } sample).lost = [(1, 2)] ∧ ((run { n := 3 } sample).conns 0).got = [1] ∧
    ((run { n := 3 } sample).conns 2).got = [3] := by decide +kernel

example : ∀ e ∈ sample, Sound e := by
  intro e he hh
  subst hh
  simp [sample] at he

example : (run { n := 3 } (sample.take 9)).pc = .loop ∧ (run { n := 3 } (sample.take 9)).shutting = true ∧
    (run { n := 3 } (sample.take 9)).pending = 1 ∧ ((run { n := 3 } (sample.take 9)).conns 2).buf = [3] := by decide +kernel

end Bedrock.Drain.Props
