import Verif.Lemmas.RateLimit

/-!
# Properties of the rate limits of the blocking queue: C38
-/

namespace Bedrock.RateLimit.Props
open Bedrock.RateLimit Bedrock.RateLimit.Spec

/-- One dimension: a key is blocked exactly when some earlier record took it over its limit, less than
the block duration ago. -/
theorem blocked_iff (k : Bytes) (hk : k ≠ []) (h : List Ev) : Steady h → ∀ now,
    ((after h).isBlocked k now = true ↔
      ∃ a e b, h = a ++ e :: b ∧ Trips k a e ∧ now < e.now + e.duration) := by
  refine snoc_induction (P := fun h => Steady h → ∀ now, ((after h).isBlocked k now = true ↔
      ∃ a e b, h = a ++ e :: b ∧ Trips k a e ∧ now < e.now + e.duration)) ?_ ?_ h
  · intro _ now
    refine ⟨?_, ?_⟩
    · intro h; rw [isBlocked_eq _ _ _ hk] at h; simp [after, st, StateMap.get] at h
    · rintro ⟨a, e, b, h, _⟩; cases a <;> cases h
  · intro h e ih hs now
    have ih := ih (steady_snoc hs).1
    have hstep := blockedUntil_snoc k hk h e hs
    rw [isBlocked_eq _ _ _ hk, decide_eq_true_iff]
    have old : ∀ a r b, h ++ [e] = a ++ r :: b → (b = [] ∧ a = h ∧ r = e) ∨ ∃ b', h = a ++ r :: b' := by
      intro a r b heq
      rcases List.eq_nil_or_concat b with e' | ⟨b', x, e'⟩
      · subst e'
        have h' : h ++ [e] = a ++ [r] := heq
        have := List.append_inj' h' rfl
        simp only [List.cons.injEq, and_true] at this
        exact .inl ⟨rfl, this.1.symm, this.2.symm⟩
      · subst e'
        right
        refine ⟨b', ?_⟩
        have h' : h ++ [e] = (a ++ r :: b') ++ [x] := by rw [heq]; simp
        exact (List.append_inj' h' rfl).1
    by_cases ht : Trips k h e
    · rw [hstep.1 ht]
      refine ⟨fun hlt => ⟨h, e, [], rfl, ht, hlt⟩, ?_⟩
      rintro ⟨a, r, b, heq, htr, hlt⟩
      rcases old a r b heq with ⟨_, rfl, rfl⟩ | ⟨b', hb⟩
      · exact hlt
      · have hno := ht.2.2.1
        have : ¬ e.now < r.now + r.duration := by
          intro hc
          rw [(ih e.now).mpr ⟨a, r, b', hb, htr, hc⟩] at hno
          cases hno
        omega
    · rw [hstep.2 ht]
      have ihn := ih now
      rw [isBlocked_eq _ _ _ hk, decide_eq_true_iff] at ihn
      rw [ihn]
      refine ⟨?_, ?_⟩
      · rintro ⟨a, r, b, hb, htr, hlt⟩
        exact ⟨a, r, b ++ [e], by rw [hb]; simp, htr, hlt⟩
      · rintro ⟨a, r, b, heq, htr, hlt⟩
        rcases old a r b heq with ⟨_, rfl, rfl⟩ | ⟨b', hb⟩
        · exact absurd htr ht
        · exact ⟨a, r, b', hb, htr, hlt⟩

/-- The limits after a history of executions. -/
def limits (h : List Rec) : Limits := h.foldl Limits.record {}

theorem limits_eq (h : List Rec) :
    limits h = ⟨after (h.map Rec.ofIdentifier), after (h.map Rec.ofCommand)⟩ := by
  have : ∀ (h : List Rec) (l : Limits), h.foldl Limits.record l =
      ⟨(h.map Rec.ofIdentifier).foldl StateMap.record l.identifiers,
       (h.map Rec.ofCommand).foldl StateMap.record l.commands⟩ := by
    intro h
    induction h with
    | nil => intro l; rfl
    | cons r h ih => intro l; exact ih _
  exact this h {}

/-- The clock does not go back and the window does not grow. -/
def Steady (h : List Rec) : Prop := h.Pairwise (fun a b => a.now ≤ b.now ∧ b.window ≤ a.window)

theorem empty_not_blocked (m : StateMap) (now : Nat) : m.isBlocked [] now = false := rfl

/-- C38.  A command is refused at time `now` exactly when its identifier, or its command name, was
taken over its limit by some execution that finished less than the block duration ago.  "Over its
limit": not blocked at that time, and the time that executions counted so far spent within the window
exceeds the threshold. -/
theorem c38_blocked_iff_over_limit (h : List Rec) (hs : Steady h) (ident cmd : Bytes) (now : Nat) :
    (limits h).isBlocked ident cmd now = true ↔
      (ident ≠ [] ∧ ∃ a r b, h = a ++ r :: b ∧ Trips ident (a.map Rec.ofIdentifier) r.ofIdentifier ∧
        now < r.now + r.duration) ∨
      (cmd ≠ [] ∧ ∃ a r b, h = a ++ r :: b ∧ Trips cmd (a.map Rec.ofCommand) r.ofCommand ∧
        now < r.now + r.duration) := by
  have dim : ∀ (f : Rec → Ev), (∀ r, (f r).now = r.now) → (∀ r, (f r).window = r.window) →
      (∀ r, (f r).duration = r.duration) → ∀ k : Bytes,
      ((after (h.map f)).isBlocked k now = true ↔
        k ≠ [] ∧ ∃ a r b, h = a ++ r :: b ∧ Trips k (a.map f) (f r) ∧ now < r.now + r.duration) := by
    intro f h1 h2 h3 k
    by_cases hk : k = []
    · subst hk
      simp [empty_not_blocked]
    have hs' : Spec.Steady (h.map f) := by
      unfold Spec.Steady
      rw [List.pairwise_map]
      exact List.Pairwise.imp (fun {a b} hab => by rw [h1, h1, h2, h2]; exact hab) hs
    rw [blocked_iff k hk _ hs' now]
    refine ⟨?_, ?_⟩
    · rintro ⟨a, e, b, heq, ht, hlt⟩
      rw [List.map_eq_append_iff] at heq
      obtain ⟨a', eb, rfl, rfl, heb⟩ := heq
      rw [List.map_eq_cons_iff] at heb
      obtain ⟨r, b', rfl, rfl, rfl⟩ := heb
      rw [h1, h3] at hlt
      exact ⟨hk, a', r, b', rfl, ht, hlt⟩
    · rintro ⟨_, a, r, b, rfl, ht, hlt⟩
      refine ⟨a.map f, f r, b.map f, by simp, ht, ?_⟩
      rw [h1, h3]; exact hlt
  unfold Limits.isBlocked
  rw [limits_eq, Bool.or_eq_true, dim _ (fun _ => rfl) (fun _ => rfl) (fun _ => rfl),
    dim _ (fun _ => rfl) (fun _ => rfl) (fun _ => rfl)]

/-- C38.  A block lasts for exactly its duration: once an execution at time `r.now` has taken an
identifier over its limit, the identifier is refused at every time before `r.now + r.duration`,
whatever is executed meanwhile, and when that time has passed it is only refused again if a later
execution takes it over its limit again. -/
theorem c38_block_lasts_exactly (a b : List Rec) (r : Rec) (hs : Steady (a ++ r :: b)) (ident : Bytes)
    (hi : ident ≠ []) (ht : Trips ident (a.map Rec.ofIdentifier) r.ofIdentifier) (now : Nat) :
    (now < r.now + r.duration → ∀ cmd, (limits (a ++ r :: b)).isBlocked ident cmd now = true) ∧
    (r.now + r.duration ≤ now → (limits (a ++ r :: b)).isBlocked ident [] now = true →
      ∃ x r' y, b = x ++ r' :: y ∧ Trips ident ((a ++ r :: x).map Rec.ofIdentifier) r'.ofIdentifier ∧
        r.now + r.duration ≤ r'.now ∧ now < r'.now + r'.duration) := by
  refine ⟨?_, ?_⟩
  · intro hlt cmd
    rw [c38_blocked_iff_over_limit _ hs]
    exact .inl ⟨hi, a, r, b, rfl, ht, hlt⟩
  · intro hge hbl
    rw [c38_blocked_iff_over_limit _ hs] at hbl
    rcases hbl with ⟨_, x, r', y, heq, ht', hlt⟩ | ⟨hno, _⟩
    · -- where is r'?
      rcases List.append_eq_append_iff.mp heq with ⟨c, rfl, hc⟩ | ⟨c, rfl, hc⟩
      · cases c with
        | nil =>
          simp only [List.nil_append, List.cons.injEq] at hc
          obtain ⟨rfl, rfl⟩ := hc
          omega
        | cons r0 c =>
          simp only [List.cons_append, List.cons.injEq] at hc
          obtain ⟨rfl, rfl⟩ := hc
          refine ⟨c, r', y, rfl, ht', ?_, hlt⟩
          have hno := ht'.2.2.1
          have hs2 : Steady (a ++ r :: c) := by
            unfold Steady at hs ⊢
            refine List.Pairwise.sublist ?_ hs
            exact List.Sublist.append (List.Sublist.refl _)
              (List.Sublist.cons_cons _ (List.sublist_append_left _ _))
          have hb := (c38_blocked_iff_over_limit _ hs2 ident [] r'.now).mpr
          rcases Nat.lt_or_ge r'.now (r.now + r.duration) with hl | hg
          · have := hb (.inl ⟨hi, a, r, c, rfl, ht, hl⟩)
            unfold Limits.isBlocked at this
            rw [limits_eq] at this
            simp only [empty_not_blocked, Bool.or_false] at this
            have hno' : (after ((a ++ r :: c).map Rec.ofIdentifier)).isBlocked ident r'.now = false := hno
            rw [this] at hno'
            cases hno'
          · exact hg
      · cases c with
        | nil =>
          simp only [List.nil_append, List.cons.injEq] at hc
          obtain ⟨rfl, rfl⟩ := hc
          omega
        | cons r0 c =>
          -- an earlier trip ended before r
          simp only [List.cons_append, List.cons.injEq] at hc
          obtain ⟨rfl, rfl⟩ := hc
          exfalso
          have hno := ht.2.2.1
          have hs2 : Steady (x ++ r' :: c) := by
            unfold Steady at hs ⊢
            exact List.Pairwise.sublist (List.sublist_append_left _ _) hs
          have hb := (c38_blocked_iff_over_limit _ hs2 ident [] r.now).mpr
          have hnl : ¬ r.now < r'.now + r'.duration := by
            intro hl
            have := hb (.inl ⟨hi, x, r', c, rfl, ht', hl⟩)
            unfold Limits.isBlocked at this
            rw [limits_eq] at this
            simp only [empty_not_blocked, Bool.or_false] at this
            have hno' : (after ((x ++ r' :: c).map Rec.ofIdentifier)).isBlocked ident r.now = false := hno
            rw [this] at hno'
            cases hno'
          omega
    · exact absurd rfl hno

-- three executions of 8 s each take "a" over 20 s; "b" goes on
example : let h : List Rec := [⟨[97], [], 10000000, 8000000, 180000000, 20000000, 40000000, 60000000⟩,
      ⟨[98], [], 20000000, 19000000, 180000000, 20000000, 40000000, 60000000⟩,
      ⟨[97], [], 30000000, 8000000, 180000000, 20000000, 40000000, 60000000⟩,
      ⟨[97], [], 40000000, 8000000, 180000000, 20000000, 40000000, 60000000⟩]
    (limits h).isBlocked [97] [] 99999999 = true ∧ (limits h).isBlocked [97] [] 100000000 = false ∧
    (limits h).isBlocked [98] [] 50000000 = false ∧
    (limits (h.take 3)).isBlocked [97] [] 30000000 = false := by decide +kernel

/-- C38.  What others do never matters: the answer for an identifier and a command name is unchanged
if all executions that carry neither are left out of the history (no assumption on clock or
configuration). -/
theorem c38_others_do_not_matter (h : List Rec) (ident cmd : Bytes) (now : Nat) :
    (limits h).isBlocked ident cmd now =
      (limits (h.filter (fun r => r.identifier == ident || r.command == cmd))).isBlocked ident cmd now := by
  have dim : ∀ (f : Rec → Ev) (p : Rec → Bool) (k : Bytes), (∀ r, (f r).key = k → p r = true) →
      k ≠ [] → ∀ h : List Rec, st (after (h.map f)) k = st (after ((h.filter p).map f)) k := by
    intro f p k hp hk h
    refine snoc_induction (P := fun h => st (after (h.map f)) k = st (after ((h.filter p).map f)) k) rfl ?_ h
    intro h r ih
    rw [List.map_append, List.map_singleton, after_snoc, st_record _ _ _ hk, List.filter_append]
    by_cases hpr : p r = true
    · rw [show [r].filter p = [r] by simp [hpr], List.map_append, List.map_singleton, after_snoc,
        st_record _ _ _ hk, ih]
    · rw [show [r].filter p = [] by simp [hpr], List.append_nil, ← ih, if_neg]
      intro hc
      exact hpr (hp r hc.1)
  have blk : ∀ (f : Rec → Ev) (p : Rec → Bool) (k : Bytes), (∀ r, (f r).key = k → p r = true) →
      (after (h.map f)).isBlocked k now = (after ((h.filter p).map f)).isBlocked k now := by
    intro f p k hp
    by_cases hk : k = []
    · subst hk; rfl
    · rw [isBlocked_eq _ _ _ hk, isBlocked_eq _ _ _ hk, dim f p k hp hk]
  unfold Limits.isBlocked
  rw [limits_eq, limits_eq]
  simp only
  rw [blk Rec.ofIdentifier (fun r => r.identifier == ident || r.command == cmd) ident
      (by intro r hr; simp [← hr, Rec.ofIdentifier]),
    blk Rec.ofCommand (fun r => r.identifier == ident || r.command == cmd) cmd
      (by intro r hr; simp [← hr, Rec.ofCommand])]

/-- C38.  A limit that is switched off (threshold 0) never blocks, and a command without identifier
is never refused because of its identifier. -/
theorem c38_switched_off (h : List Rec) (ident cmd : Bytes) (now : Nat)
    (hi : ident = [] ∨ ∀ r ∈ h, r.identifierThreshold = 0) (hc : cmd = [] ∨ ∀ r ∈ h, r.commandThreshold = 0) :
    (limits h).isBlocked ident cmd now = false := by
  have dim : ∀ (l : List Ev) (k : Bytes), (k = [] ∨ ∀ e ∈ l, e.threshold = 0) →
      (after l).isBlocked k now = false := by
    intro l k hk
    rcases hk with rfl | hz
    · rfl
    · have : ∀ l : List Ev, (∀ e ∈ l, e.threshold = 0) → ∀ m : StateMap, l.foldl StateMap.record m = m := by
        intro l
        induction l with
        | nil => intro _ m; rfl
        | cons e l ih =>
          intro hz m
          rw [List.foldl_cons]
          have : m.record e = m := by
            unfold StateMap.record; rw [hz e (by simp)]; simp
          rw [this]
          exact ih (fun x hx => hz x (by simp [hx])) m
      unfold after
      rw [this l hz]
      unfold StateMap.isBlocked
      split <;> rfl
  unfold Limits.isBlocked
  rw [limits_eq]
  simp only
  rw [dim _ ident ?_, dim _ cmd ?_]
  · rfl
  · rcases hc with h' | h'
    · exact .inl h'
    · right; intro e he; obtain ⟨r, hr, rfl⟩ := List.mem_map.mp he; exact h' r hr
  · rcases hi with h' | h'
    · exact .inl h'
    · right; intro e he; obtain ⟨r, hr, rfl⟩ := List.mem_map.mp he; exact h' r hr

/-- C38.  A refused push leaves the queue as it was and happens exactly for blocked commands; an
accepted push is the push of the plain queue.  A command handed out is marked as refused exactly if
it is blocked at that time, and marking changes neither which command is handed out nor what stays. -/
theorem c38_refuses_exactly_blocked (q : BQ) (lb : Labels) (c : CmdQueue.Cmd) (now : Nat) :
    (q.push lb c now = none ↔ q.limits.isBlocked (lb.identifier c.id) (lb.command c.id) now = true) ∧
    (∀ q', q.push lb c now = some q' → q'.queue = q.queue.push c ∧ q'.limits = q.limits) ∧
    ((q.dequeue lb now).1.map Prod.fst = (q.queue.dequeue now).1 ∧
      (q.dequeue lb now).2.queue = (q.queue.dequeue now).2 ∧ (q.dequeue lb now).2.limits = q.limits) ∧
    (∀ d refused, (q.dequeue lb now).1 = some (d, refused) →
      refused = q.limits.isBlocked (lb.identifier d.id) (lb.command d.id) now) := by
  refine ⟨?_, ?_, ?_, ?_⟩
  · unfold BQ.push; split <;> simp_all
  · intro q' h; unfold BQ.push at h; split at h <;> simp_all
    rw [← h]; exact ⟨rfl, rfl⟩
  · unfold BQ.dequeue; split <;> simp_all
  · intro d refused h
    unfold BQ.dequeue at h
    split at h
    · cases h
    · simp only [Option.some.injEq, Prod.mk.injEq] at h
      obtain ⟨rfl, rfl⟩ := h
      rfl

/-- C38, limit: when clock readings reach the entry out of order (the clock is read before the lock is
taken), a sample that another thread has already dropped is missing from the sum, and an
execution that should block does not; the same executions in the order of their times do. -/
theorem c38_out_of_order_readings :
    let r (now elapsed : Nat) : Rec := ⟨[97], [], now, elapsed, 10, 5, 0, 60⟩
    (limits [r 5 4, r 15 0, r 14 5]).isBlocked [97] [] 16 = false ∧
    (limits [r 5 4, r 14 5, r 15 0]).isBlocked [97] [] 16 = true := by decide +kernel

end Bedrock.RateLimit.Props
