import Verif.Model.Poll

/-!
# C126: waiting for the network
-/

namespace Bedrock.Poll.Props
open Bedrock.Poll
open Bedrock.Sockets (Sock Flags Shake State)

/-! ## What is asked for -/

/-- Everything that was asked of a descriptor. -/
def wanted (rs : List (Int × UInt16)) (s : Int) : UInt16 := ((rs.filter (·.1 = s)).map (·.2)).foldr (· ||| ·) 0

def sets (rs : List (Int × UInt16)) : FdMap := rs.foldl (fun m r => fdSet m r.1 r.2) []

/-- Distinct descriptors in their order, and nothing reported yet. -/
def Fresh (m : FdMap) : Prop := m.Pairwise (fun p q => p.fd < q.fd) ∧ ∀ p ∈ m, p.revents = 0

theorem fdSet_mem {m : FdMap} {s : Int} {e : UInt16} {p : Fd} (h : p ∈ fdSet m s e) : p.fd = s ∨ p ∈ m := by
  induction m with
  | nil => simp [fdSet] at h; simp [h]
  | cons q m ih =>
    simp only [fdSet] at h
    by_cases h1 : s < q.fd
    · simp only [h1, if_true] at h
      rcases List.mem_cons.1 h with h | h
      · left; simp [h]
      · exact .inr h
    · by_cases h2 : s = q.fd
      · simp only [h2, if_true, if_false, Int.lt_irrefl] at h
        rcases List.mem_cons.1 h with h | h
        · left; simp [h, h2]
        · exact .inr (List.mem_cons_of_mem _ h)
      · simp only [h1, h2, if_false] at h
        rcases List.mem_cons.1 h with h | h
        · right; simp [h]
        · rcases ih h with h | h
          · exact .inl h
          · exact .inr (List.mem_cons_of_mem _ h)

theorem fdSet_fresh {m : FdMap} (s : Int) (e : UInt16) (h : Fresh m) : Fresh (fdSet m s e) := by
  induction m with
  | nil => simp [fdSet, Fresh]
  | cons q m ih =>
    obtain ⟨h1, h2⟩ := h
    have hp := List.pairwise_cons.1 h1
    have ih := ih ⟨hp.2, fun p hp => h2 p (List.mem_cons_of_mem _ hp)⟩
    simp only [fdSet]
    by_cases c1 : s < q.fd
    · rw [if_pos c1]
      refine ⟨List.pairwise_cons.2 ⟨?_, h1⟩, ?_⟩
      · intro p hm
        rcases List.mem_cons.1 hm with rfl | hm
        · exact c1
        · exact Int.lt_trans c1 (hp.1 p hm)
      · intro p hm
        rcases List.mem_cons.1 hm with rfl | hm
        · rfl
        · exact h2 p hm
    · rw [if_neg c1]
      by_cases c2 : s = q.fd
      · rw [if_pos c2]
        refine ⟨List.pairwise_cons.2 ⟨hp.1, hp.2⟩, ?_⟩
        intro p hm
        rcases List.mem_cons.1 hm with rfl | hm
        · exact h2 q (List.mem_cons_self ..)
        · exact h2 p (List.mem_cons_of_mem _ hm)
      · rw [if_neg c2]
        refine ⟨List.pairwise_cons.2 ⟨?_, ih.1⟩, ?_⟩
        · intro p hm
          rcases fdSet_mem hm with rfl | hm
          · omega
          · exact hp.1 p hm
        · intro p hm
          rcases List.mem_cons.1 hm with rfl | hm
          · exact h2 p (List.mem_cons_self ..)
          · exact ih.2 p hm

theorem lookup_fdSet (m : FdMap) (s : Int) (e : UInt16) (h : Fresh m) (t : Int) :
    (lookup (fdSet m s e) t).map (·.events) =
      if t = s then some (e ||| ((lookup m t).map (·.events)).getD 0) else (lookup m t).map (·.events) := by
  induction m with
  | nil =>
    by_cases c : t = s
    · simp [fdSet, lookup, c]
    · have : ¬ s = t := fun h => c h.symm
      simp [fdSet, lookup, c, this]
  | cons q m ih =>
    obtain ⟨h1, h2⟩ := h
    have hp := List.pairwise_cons.1 h1
    have ih := ih ⟨hp.2, fun p hp => h2 p (List.mem_cons_of_mem _ hp)⟩
    simp only [fdSet]
    by_cases c1 : s < q.fd
    · rw [if_pos c1]
      by_cases c : t = s
      · subst c
        have e1 : lookup (q :: m) t = none := by
          rw [lookup, List.find?_eq_none]
          intro p hm
          rcases List.mem_cons.1 hm with rfl | hm
          · simp; omega
          · have := hp.1 p hm
            simp; omega
        rw [e1]; simp [lookup]
      · have : ¬ s = t := fun h => c h.symm
        simp [lookup, c, this]
    · rw [if_neg c1]
      by_cases c2 : s = q.fd
      · rw [if_pos c2]
        by_cases c : t = s
        · have h3 : q.fd = t := by omega
          rw [if_pos c]
          simp only [lookup, List.find?_cons, h3, decide_true, Option.map_some, Option.getD_some]
        · have : ¬ q.fd = t := by omega
          simp [lookup, c, this]
      · rw [if_neg c2]
        by_cases c3 : q.fd = t
        · have : ¬ t = s := by omega
          simp [lookup, c3, this]
        · have e1 : ∀ l : FdMap, lookup (q :: l) t = lookup l t := by intro l; simp [lookup, c3]
          rw [e1, e1, ih]

theorem wanted_snoc (rs : List (Int × UInt16)) (r : Int × UInt16) (s : Int) :
    wanted (rs ++ [r]) s = if s = r.1 then r.2 ||| wanted rs s else wanted rs s := by
  have key : ∀ (l : List UInt16) (x : UInt16), (l ++ [x]).foldr (· ||| ·) 0 = x ||| l.foldr (· ||| ·) 0 := by
    intro l x
    induction l with
    | nil => simp
    | cons a l ih =>
      simp only [List.cons_append, List.foldr_cons, ih]
      rw [← UInt16.or_assoc, UInt16.or_comm a x, UInt16.or_assoc]
  by_cases h : s = r.1
  · subst h
    simp only [wanted, List.filter_append, List.map_append, if_true]
    have : [r].filter (fun x => decide (x.1 = r.1)) = [r] := by simp
    rw [this]; exact key _ _
  · have h' : ¬ r.1 = s := fun x => h x.symm
    simp [wanted, h, h']

theorem sets_spec (rs : List (Int × UInt16)) : Fresh (sets rs) ∧ ∀ s, (lookup (sets rs) s).map (·.events) =
    if s ∈ rs.map (·.1) then some (wanted rs s) else none := by
  suffices h : ∀ l₂ l₁ : List (Int × UInt16), (Fresh (sets l₁) ∧ ∀ s, (lookup (sets l₁) s).map (·.events) =
      if s ∈ l₁.map (·.1) then some (wanted l₁ s) else none) → (Fresh (sets (l₁ ++ l₂)) ∧ ∀ s,
      (lookup (sets (l₁ ++ l₂)) s).map (·.events) = if s ∈ (l₁ ++ l₂).map (·.1) then some (wanted (l₁ ++ l₂) s) else none) by
    have := h rs [] ⟨by simp [sets, Fresh], by simp [sets, lookup]⟩
    simpa using this
  intro l₂
  induction l₂ with
  | nil => intro l₁ h; rw [List.append_nil]; exact h
  | cons r l₂ ih =>
    intro l₁ h
    have e : l₁ ++ r :: l₂ = (l₁ ++ [r]) ++ l₂ := by simp
    rw [e]
    refine ih (l₁ ++ [r]) ?_
    have hs : sets (l₁ ++ [r]) = fdSet (sets l₁) r.1 r.2 := by simp [sets]
    refine ⟨hs ▸ fdSet_fresh _ _ h.1, ?_⟩
    intro s
    rw [hs, lookup_fdSet _ _ _ h.1, h.2, wanted_snoc]
    by_cases c : s = r.1
    · subst c
      by_cases d : r.1 ∈ l₁.map (·.1)
      · simp [d]
      · have w0 : wanted l₁ r.1 = 0 := by
          have : l₁.filter (fun x => decide (x.1 = r.1)) = [] := by
            rw [List.filter_eq_nil_iff]
            intro x hx hc
            exact d (List.mem_map.2 ⟨x, hx, by simpa using hc⟩)
          simp [wanted, this]
        simp [d, w0]
    · rw [if_neg c, if_neg c, List.map_append]
      have d : (s ∈ l₁.map (·.1) ++ [r].map (·.1)) ↔ s ∈ l₁.map (·.1) := by simp only [List.mem_append, List.map_cons, List.map_nil, List.mem_singleton, c, or_false]
      by_cases g : s ∈ l₁.map (·.1)
      · rw [if_pos g, if_pos (d.2 g)]
      · rw [if_neg g, if_neg (fun x => g (d.1 x))]

/-- **C126, asking.** Whatever descriptors are registered, for whatever events, in whatever order and however often: each is in
the map once, and is watched for everything that was asked of it by anybody; what nobody registered is not watched. -/
theorem c126_asked_for (rs : List (Int × UInt16)) :
    ((sets rs).map (·.fd)).Nodup ∧ (∀ s, (lookup (sets rs) s).isSome = true ↔ s ∈ rs.map (·.1)) ∧
    ∀ s p, lookup (sets rs) s = some p → p.events = wanted rs s ∧ ∀ e, (s, e) ∈ rs → e &&& p.events = e := by
  obtain ⟨hf, h⟩ := sets_spec rs
  refine ⟨?_, ?_, ?_⟩
  · refine List.Pairwise.map _ ?_ hf.1
    intro a b hab
    omega
  · intro s
    have := h s
    by_cases c : s ∈ rs.map (·.1)
    · rw [if_pos c] at this
      cases hl : lookup (sets rs) s with
      | none => simp [hl] at this
      | some p => simp only [Option.isSome_some, c]
    · rw [if_neg c] at this
      cases hl : lookup (sets rs) s with
      | none => simp [c]
      | some p => simp [hl] at this
  · intro s p hp
    have he := h s
    rw [hp] at he
    have hw : p.events = wanted rs s := by
      by_cases c : s ∈ rs.map (·.1)
      · simpa [c] using he
      · simp [c] at he
    refine ⟨hw, ?_⟩
    intro e hm
    rw [hw]
    clear he hw hp h hf
    induction rs with
    | nil => simp at hm
    | cons r rs ih =>
      by_cases c : r.1 = s
      · have e1 : wanted (r :: rs) s = r.2 ||| wanted rs s := by simp [wanted, c]
        rw [e1]
        rcases List.mem_cons.1 hm with rfl | hm
        · apply UInt16.toNat_inj.1; simp only [UInt16.toNat_and, UInt16.toNat_or]
          apply Nat.eq_of_testBit_eq; intro i
          simp only [Nat.testBit_and, Nat.testBit_or]
          cases Nat.testBit e.toNat i <;> simp
        · have := ih hm
          rw [← this]
          apply UInt16.toNat_inj.1; simp only [UInt16.toNat_and, UInt16.toNat_or]
          apply Nat.eq_of_testBit_eq; intro i
          simp only [Nat.testBit_and, Nat.testBit_or]
          cases Nat.testBit e.toNat i <;> cases Nat.testBit (wanted rs s).toNat i <;> simp
      · have e1 : wanted (r :: rs) s = wanted rs s := by simp [wanted, c]
        rw [e1]
        rcases List.mem_cons.1 hm with rfl | hm
        · exact absurd rfl c
        · exact ih hm

example : sets [(7, readEvts), (4, readEvts), (7, writeEvts), (7, readEvts)] =
    [{ fd := 4, events := 19 }, { fd := 7, events := 23 }] := by decide

/-! ## What is reported -/

theorem lookup_map (m : FdMap) (f : Fd → UInt16) (s : Int) :
    lookup (m.map fun p => { p with revents := f p }) s = (lookup m s).map fun p => { p with revents := f p } := by
  induction m with
  | nil => rfl
  | cons q m ih =>
    by_cases c : q.fd = s
    · simp [lookup, c]
    · simpa [lookup, c] using ih

/-- **C126, reporting.** After a poll that succeeded a descriptor shows exactly those events that hold of it and that somebody
asked for, and errors in any case; one that was not registered shows none. -/
theorem c126_reported (rs : List (Int × UInt16)) (timeout : Nat) (w : World) (wait : Wait) (ret : Int) (m : FdMap)
    (hw : w.failed = false) (h : sPoll (sets rs) timeout w = .done wait ret m) (s : Int) (e : UInt16) :
    anySet m s e = (decide (s ∈ rs.map (·.1)) && decide (0 ≤ s) &&
      (w.ready s &&& (wanted rs s ||| (pollErr ||| pollHup ||| pollNval)) &&& e != 0)) := by
  obtain ⟨-, hs⟩ := sets_spec rs
  have hs := hs s
  unfold sPoll at h
  split at h
  · exact absurd h (by simp)
  · simp only [Out.done.injEq] at h
    obtain ⟨-, -, rfl⟩ := h
    unfold anySet
    by_cases e0 : e = 0
    · simp [e0]
    · rw [if_neg e0, lookup_map]
      by_cases c : s ∈ rs.map (·.1)
      · rw [if_pos c] at hs
        cases hl : lookup (sets rs) s with
        | none => simp [hl] at hs
        | some p =>
          rw [hl] at hs
          have he : p.events = wanted rs s := by simpa using hs
          have hp : p.fd = s := by
            have := List.find?_some hl
            simpa using this
          simp only [Option.map_some, World.answer, hw, hp, he]
          by_cases g : s < 0
          · have g' : ¬ 0 ≤ s := by omega
            simp [g, g']
          · have g' : 0 ≤ s := by omega
            simp [g, g', c]
      · rw [if_neg c] at hs
        cases hl : lookup (sets rs) s with
        | none => simp [c]
        | some p => simp [hl] at hs

/-- **C126, a poll that fails** reports nothing about anything: the thread goes round as if the time was over. -/
theorem c126_failed (rs : List (Int × UInt16)) (timeout : Nat) (w : World) (wait : Wait) (ret : Int) (m : FdMap)
    (hw : w.failed = true) (h : sPoll (sets rs) timeout w = .done wait ret m) :
    ret = -1 ∧ ∀ s e, anySet m s e = false := by
  obtain ⟨hf, -⟩ := sets_spec rs
  unfold sPoll at h
  split at h
  · exact absurd h (by simp)
  · simp only [Out.done.injEq] at h
    obtain ⟨-, hr, rfl⟩ := h
    refine ⟨hr.symm, ?_⟩
    intro s e
    unfold anySet
    by_cases e0 : e = 0
    · simp [e0]
    · rw [if_neg e0, lookup_map]
      cases hl : lookup (sets rs) s with
      | none => rfl
      | some p =>
        have hm : p ∈ sets rs := List.mem_of_find?_eq_some hl
        simp [World.answer, hw, hf.2 p hm]

/-- The registrations made by a socket. -/
def ofSock (s : Sock) (fd : Int) (over : Bool) (h : Shake) : List (Int × UInt16) :=
  match s.prePoll over h with
  | none => []
  | some (r, w) => (if r then [(fd, readEvts)] else []) ++ (if w then [(fd, writeEvts)] else [])

theorem register_eq (rs : List (Int × UInt16)) (s : Sock) (fd : Int) (over : Bool) (h : Shake) :
    register (sets rs) s fd over h = sets (rs ++ ofSock s fd over h) := by
  unfold register ofSock
  cases s.prePoll over h with
  | none => simp
  | some rw =>
    obtain ⟨r, w⟩ := rw
    cases r <;> cases w <;> simp [sets]

/-- **C126, nothing is left unsent.** A connected socket with bytes to send, registered among whatever else is polled: if it can
be written to when the poll returns, `postPoll` is told, and told of readable data likewise. -/
theorem c126_told (rs : List (Int × UInt16)) (s : Sock) (fd : Nat) (over : Bool) (h : Shake) (timeout : Nat) (w : World)
    (wait : Wait) (ret : Int) (m : FdMap) (hc : s.state ≠ .closed) (hw : w.failed = false)
    (hp : sPoll (register (sets rs) s fd over h) timeout w = .done wait ret m) :
    (w.ready fd &&& pollIn ≠ 0 → (flags m fd).inp = true) ∧
    (w.ready fd &&& pollHup ≠ 0 → (flags m fd).hup = true) ∧
    (w.ready fd &&& pollOut ≠ 0 → s.sendBuf ≠ [] → s.tls.isNone ∨ over → (flags m fd).out = true) := by
  have hp0 := hp
  rw [register_eq] at hp
  have hr := c126_reported _ timeout w wait ret m hw hp fd
  have hin : ((fd : Int), readEvts) ∈ rs ++ ofSock s fd over h := by
    refine List.mem_append_right _ ?_
    have : ∃ b, s.prePoll over h = some (true, b) := by
      simp only [Sock.prePoll, hc, if_false]
      by_cases h1 : s.state = .connecting
      · exact ⟨true, by simp [h1]⟩
      · simp only [h1, if_false]
        by_cases h2 : s.tls.isNone
        · exact ⟨s.sendBuf != [], by simp only [h2, if_true]⟩
        · cases over
          · exact ⟨h == .wantWrite, by simp [h2]⟩
          · exact ⟨s.sendBuf != [], by simp [h2]⟩
    obtain ⟨b, hb⟩ := this
    simp [ofSock, hb]
  have hmem : ((fd : Int)) ∈ (rs ++ ofSock s fd over h).map (·.1) := List.mem_map.2 ⟨_, hin, rfl⟩
  have h0 : (0 : Int) ≤ fd := Int.natCast_nonneg fd
  obtain ⟨-, hl, hev⟩ := c126_asked_for (rs ++ ofSock s fd over h)
  have hsome := (hl fd).2 hmem
  obtain ⟨p, hp'⟩ := Option.isSome_iff_exists.1 hsome
  obtain ⟨hpe, hpa⟩ := hev fd p hp'
  -- an event that was asked for and holds is shown
  have show1 : ∀ e x y : UInt16, ((fd : Int), e) ∈ rs ++ ofSock s fd over h → x &&& e = x → x &&& y = x →
      w.ready fd &&& x ≠ 0 → anySet m fd y = true := by
    intro e x y he hx hy hne
    rw [hr y]
    have he' := hpa e he
    rw [hpe] at he'
    simp only [hmem, h0, decide_true, Bool.true_and, bne_iff_ne, ne_eq]
    intro hz
    apply hne
    have : w.ready fd &&& x = (w.ready fd &&& (wanted (rs ++ ofSock s fd over h) fd |||
        (pollErr ||| pollHup ||| pollNval)) &&& y) &&& x := by
      apply UInt16.toNat_inj.1
      have e1 := congrArg UInt16.toNat he'
      have e2 := congrArg UInt16.toNat hx
      have e3 := congrArg UInt16.toNat hy
      simp only [UInt16.toNat_and, UInt16.toNat_or] at e1 e2 e3 ⊢
      apply Nat.eq_of_testBit_eq; intro i
      have b1 := congrArg (Nat.testBit · i) e1
      have b2 := congrArg (Nat.testBit · i) e2
      have b3 := congrArg (Nat.testBit · i) e3
      simp only [Nat.testBit_and, Nat.testBit_or] at b1 b2 b3 ⊢
      revert b1 b2 b3
      generalize Nat.testBit (w.ready fd).toNat i = c1
      generalize Nat.testBit x.toNat i = c2
      generalize Nat.testBit (wanted (rs ++ ofSock s fd over h) fd).toNat i = c3
      generalize Nat.testBit y.toNat i = c4
      generalize Nat.testBit e.toNat i = c5
      cases c1 <;> cases c2 <;> cases c3 <;> cases c4 <;> cases c5 <;> simp
    rw [this, hz]; simp
  refine ⟨fun hx => show1 readEvts pollIn (pollIn ||| pollPri) hin (by decide) (by decide) hx,
    fun hx => show1 readEvts pollHup pollHup hin (by decide) (by decide) hx, ?_⟩
  intro hx hb ho
  have hout : ((fd : Int), writeEvts) ∈ rs ++ ofSock s fd over h := by
    refine List.mem_append_right _ ?_
    have hb' : (s.sendBuf != []) = true := by simpa using hb
    have : s.prePoll over h = some (true, true) := by
      simp only [Sock.prePoll, hc, if_false]
      by_cases h1 : s.state = .connecting
      · simp [h1]
      · simp only [h1, if_false, hb']
        rcases ho with h2 | h2
        · simp only [h2, if_true]
        · by_cases h3 : s.tls.isNone <;> simp [h2, h3]
    simp [ofSock, this]
  exact show1 writeEvts pollOut writeEvts hout (by decide) (by decide) hx

/-- **C126, and nobody is woken for nothing.** If nobody asked to write to a descriptor (a connected socket without bytes to send
does not), its being writable neither ends the poll nor is shown. -/
theorem c126_not_woken (rs : List (Int × UInt16)) (timeout : Nat) (w : World) (wait : Wait) (ret : Int) (m : FdMap)
    (hw : w.failed = false) (h : sPoll (sets rs) timeout w = .done wait ret m)
    (hn : ∀ s ∈ rs.map (·.1), 0 ≤ s → w.ready s &&& (wanted rs s ||| (pollErr ||| pollHup ||| pollNval)) = 0) : ret = 0 := by
  obtain ⟨hf, hs⟩ := sets_spec rs
  have hall : ∀ p ∈ sets rs, w.answer p = 0 := by
    intro p hp
    have hl : lookup (sets rs) p.fd = some p := by
      have : ∀ l : FdMap, l.Pairwise (fun p q => p.fd < q.fd) → p ∈ l → lookup l p.fd = some p := by
        intro l
        induction l with
        | nil => intro _ h; simp at h
        | cons q l ih =>
          intro hl hm
          have hq := List.pairwise_cons.1 hl
          rcases List.mem_cons.1 hm with rfl | hm
          · simp [lookup]
          · have := hq.1 p hm
            have c : ¬ q.fd = p.fd := by omega
            have := ih hq.2 hm
            simpa [lookup, c] using this
      exact this _ hf.1 hp
    have he := hs p.fd
    rw [hl] at he
    by_cases c : p.fd ∈ rs.map (·.1)
    · have hw' : p.events = wanted rs p.fd := by simpa [c] using he
      by_cases g : p.fd < 0
      · simp [World.answer, hw, g]
      · have := hn p.fd c (by omega)
        simp [World.answer, hw, g, hw', this]
    · simp [c] at he
  unfold sPoll at h
  split at h
  · exact absurd h (by simp)
  · simp only [Out.done.injEq] at h
    obtain ⟨-, hr, -⟩ := h
    rw [← hr, hw]
    have : (sets rs).countP ((fun p => p.revents != 0) ∘ fun p => { p with revents := w.answer p }) = 0 := by
      rw [List.countP_eq_zero]
      intro p hp
      simp [hall p hp]
    simp [List.countP_map, this]

/-- Two sockets that can be written to; one has something to say. -/
example : sPoll (register (register (sets [(3, readEvts)]) (Sockets.plain false .connected) 5 true .finished)
      { Sockets.plain false .connected with sendBuf := [65] } 6 true .finished) 1000000 { ready := fun _ => pollOut } =
    .done (.ms 1000) 1 [{ fd := 3, events := 19 }, { fd := 5, events := 19 }, { fd := 6, events := 23, revents := 4 }] := by
  decide +kernel

example : sPoll (register (sets [(3, readEvts)]) (Sockets.plain false .connected) 5 true .finished) 1000000
      { ready := fun _ => pollOut } =
    .done (.ms 1000) 0 [{ fd := 3, events := 19 }, { fd := 5, events := 19 }] := by decide +kernel

/-! ## How long -/

/-- **C126, time.** A wait of less than 24 days ends when it should, at most a millisecond early; a longer one may be cut short or
last for ever. -/
theorem c126_time (timeout : Nat) :
    (timeout < 2 ^ 31 * 1000 → ∃ n, toWait timeout = .ms n ∧ n * 1000 ≤ timeout ∧ timeout < n * 1000 + 1000) ∧
    (∀ n, toWait timeout = .ms n → n * 1000 ≤ timeout) ∧
    (toWait timeout = .forever ↔ 2 ^ 31 ≤ timeout / 1000 % 2 ^ 32) := by
  refine ⟨?_, ?_, ?_⟩
  · intro h
    have h1 : timeout / 1000 < 2 ^ 31 := by omega
    have h2 : timeout / 1000 % 2 ^ 32 = timeout / 1000 := Nat.mod_eq_of_lt (by omega)
    exact ⟨timeout / 1000, by simp only [toWait, h2, h1, if_true], by omega, by omega⟩
  · intro n h
    simp only [toWait] at h
    split at h
    · simp only [Wait.ms.injEq] at h
      have := Nat.mod_le (timeout / 1000) (2 ^ 32)
      omega
    · simp at h
  · simp only [toWait]
    split
    · simp; omega
    · simp; omega

example : toWait 999 = .ms 0 ∧ toWait (2 ^ 31 * 1000) = .forever ∧ toWait (2 ^ 32 * 1000) = .ms 0 := by decide +kernel

theorem foldl_ask_le (b : Nat) (as : List Ask) : ∀ n, n ≤ b → (∀ t, Ask.again t ∈ as → t ≤ b) → as.foldl ask n ≤ b := by
  induction as with
  | nil => intro n h _; exact h
  | cons a as ih =>
    intro n h g
    simp only [List.foldl_cons]
    refine ih _ ?_ (fun t ht => g t (List.mem_cons_of_mem _ ht))
    cases a with
    | atMost t => simp only [ask]; omega
    | again t => exact g t (List.mem_cons_self ..)

theorem again_reading {t : Turn} {n : Nat} (h : Ask.again n ∈ t.asks) : n ∈ t.readings := by
  simp only [Turn.readings, List.mem_cons, List.mem_filterMap]
  exact .inr (.inr ⟨_, h, rfl⟩)

/-- **C126, the loops come round.** While the clock does not go back, the main loop and the loop of the sync thread never ask to
sleep for more than a second, whatever happens in them. -/
theorem c126_second (start : Nat) (ts : List Turn) (h : (readings start ts).Pairwise (· ≤ ·)) :
    ∀ x ∈ timeouts start ts, x ≤ 1000000 := by
  show ∀ x ∈ timeouts start ts, x ≤ second
  suffices g : ∀ (ts : List Turn) (next : Nat), (ts.flatMap Turn.readings).Pairwise (· ≤ ·) →
      (∀ t ∈ ts.head?, next ≤ t.before + second) → ∀ x ∈ timeouts next ts, x ≤ second by
    have hp := List.pairwise_cons.1 h
    refine g ts start hp.2 ?_
    intro t ht
    cases ts with
    | nil => simp at ht
    | cons u ts =>
      simp only [List.head?_cons, Option.mem_some_iff] at ht
      subst ht
      have := hp.1 u.before (by simp [Turn.readings])
      omega
  intro ts
  induction ts with
  | nil => intro next _ _ x hx; simp [timeouts] at hx
  | cons t ts ih =>
    intro next hm hn x hx
    simp only [timeouts] at hx
    rcases List.mem_cons.1 hx with rfl | hx
    · have := hn t (by simp)
      simp only [Turn.timeout]; omega
    · refine ih t.next ?_ ?_ x hx
      · simp only [List.flatMap_cons] at hm
        exact (List.pairwise_append.1 hm).2.1
      · intro u hu
        cases ts with
        | nil => simp at hu
        | cons v ts =>
          simp only [List.head?_cons, Option.mem_some_iff] at hu
          subst hu
          simp only [List.flatMap_cons] at hm
          have hb := (List.pairwise_append.1 hm).2.2
          have hle : ∀ r ∈ t.readings, r ≤ v.before := fun r hr => hb r hr v.before (by simp [Turn.readings])
          have ha := hle t.after (by simp [Turn.readings])
          have := foldl_ask_le (v.before + second) t.asks (t.after + second) (by omega)
            (fun n hn => by have := hle n (again_reading hn); omega)
          exact this

example : timeouts 50 [{ before := 60, after := 70, asks := [.atMost 500000] }, { before := 80, after := 500000 },
    { before := 500010, after := 600000, asks := [.again 600001] }, { before := 600002, after := 600003 }] =
    [0, 499920, 999990, 0] := by decide

theorem foldl_ask_asked (b r : Nat) (as : List Ask) (h : Ask.atMost r ∈ as) (g : ∀ t, Ask.again t ∈ as → t ≤ b) :
    ∀ n, as.foldl ask n ≤ max r b := by
  induction as with
  | nil => simp at h
  | cons a as ih =>
    intro n
    simp only [List.foldl_cons]
    rcases List.mem_cons.1 h with rfl | h
    · refine foldl_ask_le (max r b) as _ (by simp only [ask]; omega) ?_
      intro t ht
      have := g t (List.mem_cons_of_mem _ ht)
      omega
    · exact ih h (fun t ht => g t (List.mem_cons_of_mem _ ht)) _

/-- **C126, and in time.** A time asked for in one turn is not slept through in the next, as long as the clock does not go back;
and when messages were left over, the next turn does not sleep. -/
theorem c126_in_time (t u : Turn) (h : ∀ x ∈ t.readings, x ≤ u.before) :
    (∀ r, Ask.atMost r ∈ t.asks → u.before + u.timeout t.next ≤ max r u.before) ∧
    (∀ as n, t.asks = as ++ [.again n] → u.timeout t.next = 0) := by
  refine ⟨?_, ?_⟩
  · intro r hr
    have := foldl_ask_asked u.before r t.asks hr (fun n hn => h n (again_reading hn)) (t.after + second)
    simp only [Turn.timeout, Turn.next]; omega
  · intro as n hn
    have hr : n ≤ u.before := h n (again_reading (by simp [hn]))
    simp only [Turn.timeout, Turn.next, hn, List.foldl_append, List.foldl_cons, List.foldl_nil, ask]
    omega

/-- In each turn that is not over by `r` somebody asks for `r`; a turn begins at most `busy` after the poll of the last one, and a
poll that is not woken returns within `late` of its time. -/
def Timely (r busy late : Nat) : List Turn → Prop
  | [] => True
  | [_] => True
  | t :: u :: ts =>
    (t.after ≤ r → Ask.atMost r ∈ t.asks) ∧ (∀ x ∈ t.readings, x ≤ u.before) ∧ u.before ≤ t.after + busy ∧
    u.after ≤ u.before + u.timeout t.next + late ∧ Timely r busy late (u :: ts)

/-- **C126, a peer is tried again in time.** A peer that is to be connected again at `r` is looked at by `r + busy + late`: the first
turn of the loop past `r` comes no later. -/
theorem c126_retry (r busy late : Nat) : ∀ (ts : List Turn) (pre : List Turn) (t : Turn), Timely r busy late (pre ++ t :: ts) →
    pre ≠ [] → (∀ u ∈ pre, u.after ≤ r) → t.after ≤ r + busy + late := by
  intro ts pre
  induction pre with
  | nil => intro t _ h _; exact absurd rfl h
  | cons u pre ih =>
    intro t ht _ hp
    cases pre with
    | nil =>
      simp only [List.cons_append, List.nil_append, Timely] at ht
      obtain ⟨h1, h2, h3, h4, -⟩ := ht
      have hu := hp u (by simp)
      have := (c126_in_time u t h2).1 r (h1 hu)
      omega
    | cons v pre =>
      simp only [List.cons_append, Timely] at ht
      exact ih t ht.2.2.2.2 (by simp) (fun w hw => hp w (List.mem_cons_of_mem _ hw))

example : Timely 500000 100 50 [{ before := 60, after := 70, asks := [.atMost 500000] },
    { before := 80, after := 500000, asks := [.atMost 500000] }, { before := 500010, after := 500020 }] := by
  simp [Timely, Turn.readings, Turn.timeout, Turn.next, ask, second]

/-- **C126, the clock.** When the clock is set back by an hour the loop asks to sleep for an hour and a second; by a month, and it
sleeps until something arrives. -/
theorem c126_clock_back : ∃ a b : List Turn,
    timeouts 0 a = [0, 3600 * second + second] ∧
    (timeouts 0 b).map toWait = [.ms 0, .forever] :=
  ⟨[{ before := 5000 * second, after := 5000 * second }, { before := 1400 * second, after := 1400 * second }],
   [{ before := 3000000 * second, after := 3000000 * second }, { before := 408000 * second, after := 408000 * second }],
   by decide, by decide +kernel⟩

/-! ## A command that waits for its requests -/

/-- **C126, requests.** A command that waits never sleeps for more than a second, nor past its own end, nor past the time at which
one of its requests is to be started. -/
theorem c126_https (now timeout : Nat) (starts : List Nat) (h : now < timeout) :
    httpsWait now timeout starts ≤ 1000000 ∧ now + httpsWait now timeout starts ≤ timeout ∧
    ∀ s ∈ starts, now < s → now + httpsWait now timeout starts ≤ s := by
  have hsec : second = 1000000 := rfl
  have mono : ∀ (l : List Nat) (w : Nat), l.foldl (fun w s => if s = 0 ∨ s ≤ now then w else min w (s - now)) w ≤ w := by
    intro l
    induction l with
    | nil => intro w; exact Nat.le_refl _
    | cons a l ih =>
      intro w
      simp only [List.foldl_cons]
      refine Nat.le_trans (ih _) ?_
      split <;> omega
  have low : ∀ (l : List Nat) (w : Nat), ∀ s ∈ l, now < s →
      l.foldl (fun w s => if s = 0 ∨ s ≤ now then w else min w (s - now)) w ≤ s - now := by
    intro l
    induction l with
    | nil => intro w s hs; simp at hs
    | cons a l ih =>
      intro w s hs hn
      simp only [List.foldl_cons]
      rcases List.mem_cons.1 hs with rfl | hs
      · refine Nat.le_trans (mono _ _) ?_
        have : ¬ (s = 0 ∨ s ≤ now) := by omega
        simp only [this, if_false]; omega
      · exact ih _ s hs hn
  have m := mono starts (timeout - now)
  refine ⟨by simp only [httpsWait]; omega, by simp only [httpsWait]; omega, ?_⟩
  intro s hs hn
  have := low starts (timeout - now) s hs hn
  simp only [httpsWait]; omega

example : httpsWait 1000 (1000 + 300 * second) [0, 900, 51000, 2000000] = 50000 := by decide

/-- A command whose requests have no socket yet polls nothing, and then `S_poll` takes the address of the first element of an empty
vector.  The two loops always have the pipe of a queue to poll. -/
theorem c126_nothing_to_poll (timeout : Nat) (w : World) :
    (∀ rs : List (Int × UInt16), sPoll (sets rs) timeout w = .ub ↔ rs = []) := by
  intro rs
  obtain ⟨-, h, -⟩ := c126_asked_for rs
  unfold sPoll
  constructor
  · intro hu
    split at hu
    · rename_i he
      cases rs with
      | nil => rfl
      | cons r rs =>
        have := (h r.1).2 (by simp)
        rw [he] at this
        simp [lookup] at this
    · simp at hu
  · rintro rfl; rfl

end Bedrock.Poll.Props
