import Verif.Model.Signal

/-! # C110: a signal is noted once, one stops the server in good order, a second at once, and nothing else ends the process -/

namespace Bedrock.Signal.Props
open Bedrock.Signal

/-! ## Bits -/

theorem getLsbD_bit32 (n k : Nat) : (1#32 <<< n).getLsbD k = (decide (n = k) && decide (k < 32)) := by
  rw [BitVec.getLsbD_shiftLeft, BitVec.getLsbD_one]
  by_cases hk : k < 32 <;> by_cases h : n = k <;> simp_all <;> omega

theorem bit_get (n k : Nat) (hn : n < 31) : ((1#32 <<< n).signExtend 64).getLsbD k = decide (n = k) := by
  rw [BitVec.getLsbD_signExtend, BitVec.msb_eq_getLsbD_last, getLsbD_bit32, getLsbD_bit32]
  by_cases hk : k < 32 <;> by_cases h : n = k <;> simp_all <;> omega

/-- For all numbers under 32, the bits under 31. -/
theorem bit_low (n k : Nat) (hn : n < 32) (hk : k < 31) : ((1#32 <<< n).signExtend 64).getLsbD k = decide (n = k) := by
  rw [BitVec.getLsbD_signExtend, BitVec.msb_eq_getLsbD_last, getLsbD_bit32, getLsbD_bit32]
  by_cases hk : k < 32 <;> by_cases h : n = k <;> simp_all <;> omega

theorem unbit_get (n k : Nat) (hn : n < 31) (hk : k < 64) : (unbit n).getLsbD k = !decide (n = k) := by
  unfold unbit
  rw [BitVec.getLsbD_signExtend, BitVec.msb_eq_getLsbD_last, BitVec.getLsbD_not, BitVec.getLsbD_not, getLsbD_bit32, getLsbD_bit32]
  by_cases hk : k < 32 <;> by_cases h : n = k <;> simp_all <;> omega

theorem check_eq (m : BitVec 64) (n : Nat) : check m n = m.getLsbD n := by
  unfold check; rw [BitVec.getLsbD_ushiftRight]; simp

theorem get_snd (m : BitVec 64) (n : Nat) : (get m n).2 = m.getLsbD n := check_eq m n

theorem get_fst (m : BitVec 64) (n k : Nat) (hn : n < 31) : (get m n).1.getLsbD k = (m.getLsbD k && !decide (n = k)) := by
  show (m &&& unbit n).getLsbD k = _
  rw [BitVec.getLsbD_and]
  by_cases hk : k < 64
  · rw [unbit_get n k hn hk]
  · rw [BitVec.getLsbD_of_ge m k (by omega)]; rfl

/-! ## Each signal is seen once -/

/-- The numbers of signals in an operation are under 31. -/
def Op.low : Op → Prop
  | .arrive n => n < 31
  | .get n => n < 31
  | .clear => True

theorem mask_append (m : BitVec 64) (a b : List Op) : mask m (a ++ b) = mask (mask m a) b := by
  induction a generalizing m with
  | nil => rfl
  | cons op a ih => cases op <;> exact ih _

/-- **C110**: whatever signals arrive and whatever threads ask for or clear them, in any order: a signal is pending exactly if it has
arrived and since then nobody took it or cleared all.  `SGetSignal` and `SCheckSignal` tell so. -/
theorem c110_once (ops : List Op) (hl : ∀ op ∈ ops, Op.low op) (n : Nat) (hn : n < 31) :
    (check (mask 0 ops) n = true ↔
      ∃ a b, ops = a ++ .arrive n :: b ∧ Op.get n ∉ b ∧ Op.clear ∉ b) ∧
    (get (mask 0 ops) n).2 = check (mask 0 ops) n := by
  refine ⟨?_, rfl⟩
  rw [check_eq]
  have hrev : ∀ l : List Op, (∀ op ∈ l, Op.low op) → ((mask 0 l.reverse).getLsbD n = true ↔
      ∃ a b, l.reverse = a ++ .arrive n :: b ∧ Op.get n ∉ b ∧ Op.clear ∉ b) := by
    intro l hl
    induction l with
    | nil => simp [mask]
    | cons op l ih =>
      have ih := ih fun o ho => hl o (List.mem_cons_of_mem _ ho)
      have hlo := hl op (List.mem_cons_self ..)
      rw [List.reverse_cons, mask_append]
      -- what comes last is `op`
      have key : (∃ a b, l.reverse ++ [op] = a ++ .arrive n :: b ∧ Op.get n ∉ b ∧ Op.clear ∉ b) ↔
          op = .arrive n ∨ (op ≠ .get n ∧ op ≠ .clear ∧
            ∃ a b, l.reverse = a ++ .arrive n :: b ∧ Op.get n ∉ b ∧ Op.clear ∉ b) := by
        constructor
        · rintro ⟨a, b, he, h1, h2⟩
          rcases List.eq_nil_or_concat b with rfl | ⟨b', x, rfl⟩
          · left
            have := (List.append_inj' he rfl).2
            exact (List.cons.inj this).1
          · right
            have he' : l.reverse ++ [op] = (a ++ .arrive n :: b') ++ [x] := by
              rw [he]; simp
            have hx := (List.cons.inj (List.append_inj' he' rfl).2).1
            have ha := (List.append_inj' he' rfl).1
            subst hx
            refine ⟨?_, ?_, a, b', ha, ?_, ?_⟩
            · intro hc; subst hc; exact h1 (by simp)
            · intro hc; subst hc; exact h2 (by simp)
            · intro hc; exact h1 (by simp [hc])
            · intro hc; exact h2 (by simp [hc])
        · rintro (rfl | ⟨h1, h2, a, b, he, h3, h4⟩)
          · exact ⟨l.reverse, [], rfl, (by simp), (by simp)⟩
          · refine ⟨a, b ++ [op], by rw [he]; simp, ?_, ?_⟩
            · simp only [List.mem_append, List.mem_singleton, not_or]; exact ⟨h3, fun h => h1 h.symm⟩
            · simp only [List.mem_append, List.mem_singleton, not_or]; exact ⟨h4, fun h => h2 h.symm⟩
      rw [key, ← ih]
      cases op with
      | arrive k =>
        have hk : k < 31 := hlo
        have hb : bit k = some ((1#32 <<< k).signExtend 64) := by unfold bit; rw [if_pos (by omega)]
        simp only [mask, hb, Option.getD_some, BitVec.getLsbD_or, bit_get k n hk]
        by_cases h : k = n <;> simp [h]
      | get k =>
        have hk : k < 31 := hlo
        simp only [mask, get_fst _ k n hk]
        by_cases h : k = n <;> simp [h]
      | clear => simp [mask]
  have := hrev ops.reverse fun o ho => hl o (List.mem_reverse.mp ho)
  rwa [List.reverse_reverse] at this

/-- SIGHUP and SIGTERM have come, SIGTERM was taken: SIGHUP is still there, SIGTERM is not. -/
example : check (mask 0 [.arrive 1, .arrive 15, .arrive 15, .get 15]) 1 = true ∧
    check (mask 0 [.arrive 1, .arrive 15, .arrive 15, .get 15]) 15 = false := by decide +kernel

/-- **C110** (disagreement): SIGSYS (31) looks like every signal from 31 to 63. -/
theorem c110_sigsys (n : Nat) (h : 31 ≤ n) (h' : n < 64) : check (mask 0 [.arrive 31]) n = true := by
  rw [check_eq]
  simp only [mask, bit, if_pos (show 31 < 32 by decide), Option.getD_some, BitVec.getLsbD_or]
  rw [BitVec.getLsbD_signExtend, BitVec.msb_eq_getLsbD_last, getLsbD_bit32, getLsbD_bit32]
  by_cases hk : n < 32 <;> simp_all
  omega

/-! ## The process -/

/-- SIGTERM or SIGINT. -/
def isTerm : Ev → Bool
  | .signal n => n == 15 || n == 2
  | _ => false

/-- A signal that is neither a crash nor a real-time signal, or another event. -/
def plain : Ev → Bool
  | .signal n => decide (n < 32) && !isCrash n
  | _ => true

theorem run_concat (s : S) (es : List Ev) (e : Ev) : s.run (es ++ [e]) = (s.run es).step e := by
  show List.foldl _ _ _ = _; rw [List.foldl_append]; rfl

theorem run_ind {P : List Ev → S → Prop} {s : S} (h0 : P [] s) (hs : ∀ es s e, P es s → P (es ++ [e]) (s.step e)) (es : List Ev) :
    P es (s.run es) := by
  have : ∀ l : List Ev, P l.reverse (s.run l.reverse) := by
    intro l
    induction l with
    | nil => exact h0
    | cons e l ih => rw [List.reverse_cons, run_concat]; exact hs _ _ _ ih
  have h := this es.reverse
  rwa [List.reverse_reverse] at h

theorem signal_cases (s : S) (n : Nat) :
    (s.signal n = s) ∨ (s.signal n).pc = .crashed ∧ (s.signal n).asked = s.asked ∧ (s.signal n).done = s.done ∧
        (s.signal n).count = s.count ∧ (s.signal n).toCount = s.toCount ∧ (s.signal n).mask = s.mask ∨
      (s.signal n).pc = .ub ∧ (s.signal n).asked = s.asked ∧ (s.signal n).done = s.done ∧ (s.signal n).count = s.count ∧
        (s.signal n).toCount = s.toCount ∧ (s.signal n).mask = s.mask ∨
      n < 32 ∧ s.toCount = false ∧
        s.signal n = { s with mask := s.mask ||| (1#32 <<< n).signExtend 64, toCount := n == sigTerm || n == sigInt } := by
  unfold S.signal
  by_cases h1 : s.toCount
  · left; rw [if_pos h1]
  · rw [if_neg h1]
    by_cases h2 : isCrash n
    · right; left; rw [if_pos h2]; exact ⟨rfl, rfl, rfl, rfl, rfl, rfl⟩
    · rw [if_neg h2]
      unfold bit
      by_cases h3 : n < 32
      · right; right; right; rw [if_pos h3]; exact ⟨h3, by simpa using h1, rfl⟩
      · right; right; left; rw [if_neg h3]; exact ⟨rfl, rfl, rfl, rfl, rfl, rfl⟩

/-- How many SIGTERM and SIGINT. -/
def terms (es : List Ev) : Nat := es.countP isTerm

/-- What is so at any time. -/
def Inv (es : List Ev) (s : S) : Prop :=
  s.count + (if s.toCount then 1 else 0) ≤ terms es ∧
  ((s.mask.getLsbD 15 = true ∨ s.mask.getLsbD 2 = true ∨ s.pc = .out ∨ s.pc = .exited ∨ s.pc = .aborted) → 1 ≤ terms es) ∧
  (s.pc = .aborted → 2 ≤ s.count) ∧ (s.pc = .exited → s.asked = true → s.done = true) ∧
  (s.asked = true → s.pc = .term ∨ s.pc = .int ∨ s.pc = .pending ∨ s.pc = .clear ∨ s.pc = .out → s.done = true ∨ 2 ≤ s.count) ∧
  (s.done = true → s.asked = true) ∧
  ((s.mask ≠ 0 ∨ s.asked = true) → ∃ n, Ev.signal n ∈ es)

theorem terms_snoc (es : List Ev) (e : Ev) : terms (es ++ [e]) = terms es + if isTerm e then 1 else 0 := by
  unfold terms; rw [List.countP_append]; simp [List.countP_cons]

theorem get_le (m : BitVec 64) (n k : Nat) (hn : n < 31) (h : (get m n).1.getLsbD k = true) : m.getLsbD k = true := by
  rw [get_fst m n k hn] at h; simp_all

theorem get_ne (m : BitVec 64) (n : Nat) (h : (get m n).1 ≠ 0) : m ≠ 0 := by
  intro hm; apply h; rw [hm]; show (0 &&& unbit n) = 0; exact BitVec.zero_and

theorem inv_step (es : List Ev) (s : S) (e : Ev) (h : Inv es s) : Inv (es ++ [e]) (s.step e) := by
  have hmono : (∃ n, Ev.signal n ∈ es) → ∃ n, Ev.signal n ∈ es ++ [e] := fun ⟨n, hn⟩ => ⟨n, List.mem_append_left _ hn⟩
  have ht : terms es ≤ terms (es ++ [e]) := by rw [terms_snoc]; omega
  obtain ⟨h1, h2, h3, h4, h5, h6, h7⟩ := h
  unfold S.step
  by_cases hp : s.pc.ended
  · rw [if_pos hp]
    exact ⟨by omega, fun h => by have := h2 h; omega, h3, h4, h5, h6, fun h => hmono (h7 h)⟩
  rw [if_neg hp]
  cases e with
  | signal n =>
    show Inv _ (s.signal n)
    rcases signal_cases s n with h | ⟨a, b, c, d, e, f⟩ | ⟨a, b, c, d, e, f⟩ | ⟨hn, htc, h⟩
    · rw [h]
      exact ⟨by omega, fun h => by have := h2 h; omega, h3, h4, h5, h6, fun h => hmono (h7 h)⟩
    · refine ⟨by rw [d, e]; omega, ?_, ?_, ?_, ?_, ?_, ?_⟩
      · rw [a, f]; intro h; have := h2 (by simpa using h.imp_right fun h => h.imp_right (by simp)); omega
      · rw [a]; simp
      · rw [a]; simp
      · rw [a]; simp
      · rw [b, c]; exact h6
      · rw [b, f]; exact fun h => hmono (h7 h)
    · refine ⟨by rw [d, e]; omega, ?_, ?_, ?_, ?_, ?_, ?_⟩
      · rw [a, f]; intro h; have := h2 (by simpa using h.imp_right fun h => h.imp_right (by simp)); omega
      · rw [a]; simp
      · rw [a]; simp
      · rw [a]; simp
      · rw [b, c]; exact h6
      · rw [b, f]; exact fun h => hmono (h7 h)
    · rw [h]
      refine ⟨?_, ?_, h3, h4, h5, h6, fun _ => ⟨n, by simp⟩⟩
      · show s.count + (if (n == sigTerm || n == sigInt) = true then 1 else 0) ≤ _
        rw [htc] at h1
        rw [terms_snoc]
        show _ ≤ terms es + if (n == 15 || n == 2) = true then 1 else 0
        simp only [sigTerm, sigInt]
        simp only [Bool.false_eq_true, if_false] at h1
        exact Nat.add_le_add_right h1 _
      · intro h
        rw [terms_snoc]
        show 1 ≤ terms es + if (n == 15 || n == 2) = true then 1 else 0
        by_cases hb : (n == 15 || n == 2) = true
        · rw [if_pos hb]; omega
        · have : 1 ≤ terms es := by
            apply h2
            dsimp only at h
            rw [BitVec.getLsbD_or, BitVec.getLsbD_or, bit_low n 15 hn (by decide), bit_low n 2 hn (by decide)] at h
            have hn15 : n ≠ 15 := by intro hc; subst hc; exact hb rfl
            have hn2 : n ≠ 2 := by intro hc; subst hc; exact hb rfl
            simpa [hn15, hn2] using h
          omega
  | count =>
    show Inv _ (if s.toCount then { s with count := s.count + 1, toCount := false } else s)
    by_cases hc : s.toCount
    · rw [if_pos hc]
      rw [if_pos hc] at h1
      refine ⟨?_, fun h => by have := h2 h; omega, ?_, h4, ?_, h6, fun h => hmono (h7 h)⟩
      · show s.count + 1 + 0 ≤ _; omega
      · intro h; have := h3 h; show 2 ≤ s.count + 1; omega
      · intro ha hpc
        rcases h5 ha hpc with h | h
        · exact .inl h
        · right; show 2 ≤ s.count + 1; omega
    · rw [if_neg hc]
      exact ⟨by omega, fun h => by have := h2 h; omega, h3, h4, h5, h6, fun h => hmono (h7 h)⟩
  | finish =>
    show Inv _ (if s.asked then { s with done := true } else s)
    by_cases hc : s.asked
    · rw [if_pos hc]
      exact ⟨Nat.le_trans h1 ht, fun h => Nat.le_trans (h2 h) ht, h3, fun _ _ => rfl, fun _ _ => .inl rfl, fun _ => hc,
        fun h => hmono (h7 h)⟩
    · rw [if_neg hc]
      exact ⟨by omega, fun h => by have := h2 h; omega, h3, h4, h5, h6, fun h => hmono (h7 h)⟩
  | main =>
    show Inv _ s.main
    unfold S.main
    cases hpc : s.pc with
    | term =>
      dsimp only
      have hg : (get s.mask sigTerm).2 = s.mask.getLsbD 15 := get_snd ..
      refine ⟨Nat.le_trans h1 ht, ?_, ?_, ?_, ?_, h6, ?_⟩
      · dsimp only
        intro h
        have : 1 ≤ terms es := by
          apply h2
          rcases h with h | h | h
          · exact .inl (get_le _ _ _ (by decide) h)
          · exact .inr (.inl (get_le _ _ _ (by decide) h))
          · rw [hg] at h
            by_cases hb : s.mask.getLsbD 15 = true
            · exact .inl hb
            · rw [if_neg hb] at h; simp at h
        omega
      · dsimp only; split <;> simp
      · dsimp only; split <;> simp
      · intro ha _; exact h5 ha (.inl hpc)
      · dsimp only; intro h; exact hmono (h7 (h.imp_left (get_ne _ _)))
    | int =>
      dsimp only
      have hg : (get s.mask sigInt).2 = s.mask.getLsbD 2 := get_snd ..
      refine ⟨Nat.le_trans h1 ht, ?_, ?_, ?_, ?_, h6, ?_⟩
      · dsimp only
        intro h
        have : 1 ≤ terms es := by
          apply h2
          rcases h with h | h | h
          · exact .inl (get_le _ _ _ (by decide) h)
          · exact .inr (.inl (get_le _ _ _ (by decide) h))
          · rw [hg] at h
            by_cases hb : s.mask.getLsbD 2 = true
            · exact .inr (.inl hb)
            · rw [if_neg hb] at h; simp at h
        omega
      · dsimp only; split <;> simp
      · dsimp only; split <;> simp
      · intro ha _; exact h5 ha (.inr (.inl hpc))
      · dsimp only; intro h; exact hmono (h7 (h.imp_left (get_ne _ _)))
    | pending =>
      dsimp only
      refine ⟨Nat.le_trans h1 ht, ?_, ?_, ?_, ?_, h6, fun h => hmono (h7 h)⟩
      · dsimp only
        intro h
        have : 1 ≤ terms es := by
          apply h2
          rcases h with h | h | h
          · exact .inl h
          · exact .inr (.inl h)
          · split at h <;> simp at h
        omega
      · dsimp only; split <;> simp
      · dsimp only; split <;> simp
      · intro ha _; exact h5 ha (.inr (.inr (.inl hpc)))
    | clear =>
      dsimp only
      refine ⟨Nat.le_trans h1 ht, by simp, by simp, by simp, by simp, h6, ?_⟩
      intro h; exact hmono (h7 (.inr (h.resolve_left (by simp))))
    | inner =>
      dsimp only
      refine ⟨Nat.le_trans h1 ht, ?_, ?_, ?_, ?_, h6, fun h => hmono (h7 h)⟩
      · dsimp only
        intro h
        have : 1 ≤ terms es := by
          apply h2
          rcases h with h | h | h
          · exact .inl h
          · exact .inr (.inl h)
          · split at h <;> simp at h
        omega
      · dsimp only; split <;> simp
      · dsimp only; split <;> simp
      · dsimp only
        intro ha h
        by_cases hd : (s.done || decide (2 ≤ s.count)) = true
        · simpa using hd
        · rw [if_neg hd] at h; simp at h
    | poll =>
      dsimp only
      refine ⟨Nat.le_trans h1 ht, ?_, by simp, by simp, by simp, ?_, ?_⟩
      · dsimp only
        intro h
        have : 1 ≤ terms es := h2 (h.imp_right fun h => .inl (h.resolve_right (by simp)))
        omega
      · intro h; show (s.asked || _) = true; rw [h6 h]; rfl
      · dsimp only
        intro h
        apply hmono; apply h7
        rcases h with h | h
        · exact .inl h
        · simp only [Bool.or_eq_true, decide_eq_true_eq] at h; exact h.symm
    | out =>
      dsimp only
      refine ⟨Nat.le_trans h1 ht, ?_, ?_, ?_, ?_, h6, fun h => hmono (h7 h)⟩
      · intro _; have := h2 (.inr (.inr (.inl hpc))); omega
      · dsimp only
        intro h
        by_cases hc : 2 ≤ s.count
        · exact hc
        · rw [if_neg hc] at h; simp at h
      · dsimp only
        intro h ha
        by_cases hc : 2 ≤ s.count
        · rw [if_pos hc] at h; simp at h
        · exact (h5 ha (by simp [hpc])).resolve_right hc
      · dsimp only
        intro _ h
        split at h <;> simp at h
    | exited => simp [Pc.ended, hpc] at hp
    | aborted => simp [Pc.ended, hpc] at hp
    | crashed => simp [Pc.ended, hpc] at hp
    | ub => simp [Pc.ended, hpc] at hp

theorem inv (es : List Ev) : Inv es (S.run {} es) :=
  run_ind (P := Inv) ⟨by simp, by decide, by simp, by simp, by simp, by simp, by simp⟩ inv_step es

/-- **C110**: whatever signals arrive and however the threads are scheduled, the process ends by itself only after a SIGTERM or
SIGINT, and then a server that was asked to stop has stopped; it aborts only after two of them; and the server is asked to
stop only after a signal. -/
theorem c110_only_when_told (es : List Ev) :
    ((S.run {} es).pc = .exited →
      ((Ev.signal 15 ∈ es ∨ Ev.signal 2 ∈ es) ∧ ((S.run {} es).asked = true → (S.run {} es).done = true))) ∧
    ((S.run {} es).pc = .aborted → 2 ≤ es.countP isTerm) ∧
    ((S.run {} es).asked = true → ∃ n, Ev.signal n ∈ es) := by
  obtain ⟨h1, h2, h3, h4, _, _, h7⟩ := inv es
  refine ⟨fun h => ⟨?_, h4 h⟩, fun h => ?_, fun h => h7 (.inr h)⟩
  · have := h2 (.inr (.inr (.inr (.inl h))))
    obtain ⟨e, he, ht⟩ := List.countP_pos_iff.mp this
    cases e with
    | signal n =>
      simp only [isTerm, Bool.or_eq_true, beq_iff_eq] at ht
      rcases ht with rfl | rfl
      · exact .inl he
      · exact .inr he
    | _ => simp [isTerm] at ht
  · have := h3 h; unfold terms at h1; omega

/-- Started, polled, stopped by SIGTERM. -/
example : (S.run {} [.main, .main, .main, .main, .signal 15, .count, .main, .finish, .main, .main, .main]).pc = .exited := by
  decide +kernel
/-- Two of them while it polls. -/
example : (S.run {} [.main, .main, .main, .main, .signal 15, .count, .main, .signal 2, .count, .main, .main, .main]).pc = .aborted := by
  decide +kernel

/-! ## It ends -/

/-- The steps to go. -/
def rank : Pc → Nat
  | .poll => 5
  | .inner => 4
  | .term => 3
  | .int => 2
  | .out => 1
  | _ => 0

def Going (c : Nat) (s : S) : Prop :=
  (s.done = true ∨ 2 ≤ s.count) ∧ c ≤ s.count ∧
  match s.pc with
  | .poll | .inner | .term => s.mask.getLsbD 15 = true ∨ s.mask.getLsbD 2 = true
  | .int => s.mask.getLsbD 2 = true
  | .out => True
  | .aborted => True
  | .exited => c < 2
  | _ => False

theorem going_other (c : Nat) (s : S) (e : Ev) (hp : plain e = true) (he : e ≠ .main) (h : Going c s) :
    Going c (s.step e) ∧ (s.step e).pc = s.pc := by
  unfold S.step
  by_cases hend : s.pc.ended
  · rw [if_pos hend]; exact ⟨h, rfl⟩
  rw [if_neg hend]
  cases e with
  | signal n =>
    simp only [plain, Bool.and_eq_true, decide_eq_true_eq, Bool.not_eq_true'] at hp
    show Going c (s.signal n) ∧ (s.signal n).pc = s.pc
    unfold S.signal
    by_cases h1 : s.toCount
    · rw [if_pos h1]; exact ⟨h, rfl⟩
    · rw [if_neg h1, if_neg (by simp [hp.2]), bit, if_pos hp.1]
      refine ⟨⟨h.1, h.2.1, ?_⟩, rfl⟩
      have h3 := h.2.2
      dsimp only
      cases hpc : s.pc <;> rw [hpc] at h3 <;> simp only [BitVec.getLsbD_or] <;> simp only at h3 <;>
        first | exact h3 | trivial | (rcases h3 with h3 | h3 <;> simp [h3]) | simp [h3]
  | count =>
    dsimp only
    by_cases hc : s.toCount
    · rw [if_pos hc]
      refine ⟨⟨h.1.imp_right fun h => ?_, ?_, h.2.2⟩, rfl⟩
      · show 2 ≤ s.count + 1; omega
      · have := h.2.1; show c ≤ s.count + 1; omega
    · rw [if_neg hc]; exact ⟨h, rfl⟩
  | main => exact absurd rfl he
  | finish =>
    dsimp only
    by_cases hc : s.asked
    · rw [if_pos hc]; exact ⟨⟨.inl rfl, h.2.1, h.2.2⟩, rfl⟩
    · rw [if_neg hc]; exact ⟨h, rfl⟩

theorem going_main (c : Nat) (s : S) (h : Going c s) : Going c (s.step .main) ∧ rank (s.step .main).pc ≤ rank s.pc - 1 := by
  unfold S.step
  by_cases hend : s.pc.ended
  · rw [if_pos hend]
    refine ⟨h, ?_⟩
    cases hpc : s.pc <;> simp [hpc, Pc.ended, rank] at hend ⊢
  rw [if_neg hend]
  show Going c s.main ∧ rank s.main.pc ≤ rank s.pc - 1
  obtain ⟨h1, h2, h3⟩ := h
  unfold S.main
  cases hpc : s.pc with
  | term =>
    rw [hpc] at h3
    dsimp only at h3 ⊢
    rw [get_snd]
    by_cases hb : s.mask.getLsbD sigTerm = true
    · rw [if_pos hb]; exact ⟨⟨h1, h2, trivial⟩, by decide⟩
    · rw [if_neg hb]
      refine ⟨⟨h1, h2, ?_⟩, by decide⟩
      dsimp only
      rw [get_fst _ _ _ (by decide)]
      have : s.mask.getLsbD 2 = true := h3.resolve_left hb
      rw [this]; decide
  | int =>
    rw [hpc] at h3
    dsimp only at h3 ⊢
    rw [get_snd, if_pos (show s.mask.getLsbD sigInt = true from h3)]
    exact ⟨⟨h1, h2, trivial⟩, by decide⟩
  | inner =>
    rw [hpc] at h3
    dsimp only at h3 ⊢
    rw [if_pos (by simpa using h1)]
    exact ⟨⟨h1, h2, h3⟩, by decide⟩
  | poll =>
    rw [hpc] at h3
    dsimp only at h3 ⊢
    exact ⟨⟨h1, h2, h3⟩, (by show 4 ≤ 5 - 1; decide)⟩
  | out =>
    dsimp only
    by_cases hc : 2 ≤ s.count
    · rw [if_pos hc]; exact ⟨⟨h1, h2, trivial⟩, by decide⟩
    · rw [if_neg hc]; exact ⟨⟨h1, h2, (by show c < 2; omega)⟩, by decide⟩
  | pending => rw [hpc] at h3; exact h3.elim
  | clear => rw [hpc] at h3; exact h3.elim
  | exited => simp [Pc.ended, hpc] at hend
  | aborted => simp [Pc.ended, hpc] at hend
  | crashed => simp [Pc.ended, hpc] at hend
  | ub => simp [Pc.ended, hpc] at hend

theorem going_run (c : Nat) (es : List Ev) (s : S) (hp : ∀ e ∈ es, plain e = true) (h : Going c s) :
    Going c (s.run es) ∧ rank (s.run es).pc ≤ rank s.pc - es.count .main := by
  induction es generalizing s with
  | nil => exact ⟨h, Nat.le_refl _⟩
  | cons e es ih =>
    have hp' : ∀ e ∈ es, plain e = true := fun x hx => hp x (List.mem_cons_of_mem _ hx)
    show Going c ((s.step e).run es) ∧ _
    by_cases he : e = .main
    · subst he
      have hm := going_main c s h
      have hr := ih _ hp' hm.1
      refine ⟨hr.1, ?_⟩
      rw [List.count_cons_self]
      have := hr.2; have := hm.2
      show rank ((s.step .main).run es).pc ≤ _
      omega
    · have hm := going_other c s e (hp e (List.mem_cons_self ..)) he h
      have hr := ih _ hp' hm.1
      refine ⟨hr.1, ?_⟩
      rw [List.count_cons_of_ne (by exact he)]
      rw [← hm.2]; exact hr.2

/-- **C110**: when the main thread polls, a SIGTERM or SIGINT is pending and the server has stopped or two of them were counted, the
process is over after five steps of the main thread, whatever other signals arrive meanwhile; and it aborts if there were
two.  So a second signal does not wait for the server. -/
theorem c110_ends (s : S) (es : List Ev) (hp : ∀ e ∈ es, plain e = true) (hpc : s.pc = .poll ∨ s.pc = .inner ∨ s.pc = .term)
    (hm : check s.mask 15 = true ∨ check s.mask 2 = true) (hd : s.done = true ∨ 2 ≤ s.count) (hn : 5 ≤ es.count .main) :
    (s.run es).pc = .aborted ∨ (s.run es).pc = .exited ∧ s.count < 2 := by
  rw [check_eq, check_eq] at hm
  have hg : Going s.count s := by
    refine ⟨hd, Nat.le_refl _, ?_⟩
    rcases hpc with h | h | h <;> rw [h] <;> exact hm
  obtain ⟨⟨_, _, h⟩, hr⟩ := going_run s.count es s hp hg
  have : rank s.pc ≤ 5 := by cases s.pc <;> decide
  have hz : rank (s.run es).pc = 0 := by omega
  cases hpc : (s.run es).pc <;> rw [hpc] at h hz <;> simp_all [rank]

/-- A server that polls and gets both signals, and others in between. -/
example : (S.run { pc := .poll, mask := 0x8004#64, count := 2 } [.main, .signal 1, .main, .main, .signal 15, .main, .main]).pc = .aborted := by
  decide +kernel

theorem asked_step (s : S) (e : Ev) (h : s.asked = true) : (s.step e).asked = true := by
  unfold S.step
  split
  · exact h
  · cases e with
    | signal n =>
      show (s.signal n).asked = true
      rcases signal_cases s n with h' | h' | h' | h'
      · rw [h']; exact h
      · rw [h'.2.1]; exact h
      · rw [h'.2.1]; exact h
      · rw [h'.2.2]; exact h
    | count => dsimp only; split <;> exact h
    | finish => dsimp only; first | exact h | (split <;> exact h)
    | main => show s.main.asked = true; unfold S.main; split <;> simp [h]

theorem asked_run (es : List Ev) (s : S) (h : s.asked = true) : (s.run es).asked = true := by
  induction es generalizing s with
  | nil => exact h
  | cons e es ih => exact ih _ (asked_step s e h)

theorem count_step (s : S) (e : Ev) : s.count ≤ (s.step e).count := by
  unfold S.step
  split
  · exact Nat.le_refl _
  · cases e with
    | signal n =>
      show s.count ≤ (s.signal n).count
      rcases signal_cases s n with h' | h' | h' | h'
      · rw [h']; exact Nat.le_refl _
      · rw [h'.2.2.2.1]; exact Nat.le_refl _
      · rw [h'.2.2.2.1]; exact Nat.le_refl _
      · rw [h'.2.2]; exact Nat.le_refl _
    | count => dsimp only; split <;> simp
    | finish => dsimp only; split <;> simp
    | main => show s.count ≤ s.main.count; unfold S.main; split <;> simp

theorem count_run (es : List Ev) (s : S) : s.count ≤ (s.run es).count := by
  induction es generalizing s with
  | nil => exact Nat.le_refl _
  | cons e es ih => exact Nat.le_trans (count_step s e) (ih _)

theorem or_ne {a b : BitVec 64} (h : a ≠ 0) : a ||| b ≠ 0 := by
  intro hc; apply h
  apply BitVec.eq_of_getLsbD_eq
  intro i _
  have : (a ||| b).getLsbD i = (0 : BitVec 64).getLsbD i := by rw [hc]
  simp at this ⊢
  exact this.1

/-- A step that is not of the main thread. -/
theorem other_keeps (s : S) (e : Ev) (hp : plain e = true) (he : e ≠ .main) (hm : s.mask ≠ 0) (hpc : s.pc = .inner ∨ s.pc = .poll) :
    (s.step e).mask ≠ 0 ∧ (s.step e).pc = s.pc ∧ ((s.step e).done = true → s.done = true ∨ s.asked = true) := by
  have hend : s.pc.ended = false := by rcases hpc with h | h <;> rw [h] <;> rfl
  unfold S.step
  rw [if_neg (by simp [hend])]
  cases e with
  | signal n =>
    simp only [plain, Bool.and_eq_true, decide_eq_true_eq, Bool.not_eq_true'] at hp
    show (s.signal n).mask ≠ 0 ∧ (s.signal n).pc = s.pc ∧ ((s.signal n).done = true → _)
    unfold S.signal
    by_cases h1 : s.toCount
    · rw [if_pos h1]; exact ⟨hm, rfl, .inl⟩
    · rw [if_neg h1, if_neg (by simp [hp.2]), bit, if_pos hp.1]
      exact ⟨or_ne hm, rfl, .inl⟩
  | count => dsimp only; split <;> exact ⟨hm, rfl, .inl⟩
  | main => exact absurd rfl he
  | finish =>
    dsimp only
    split
    · rename_i h; exact ⟨hm, rfl, fun _ => .inr h⟩
    · exact ⟨hm, rfl, .inl⟩

/-- **C110**: when the main thread polls and a signal is pending, the server is asked to stop within two steps of it, whatever arrives
meanwhile, unless two terminations were counted before. -/
theorem c110_asked (s : S) (es : List Ev) (hp : ∀ e ∈ es, plain e = true) (hpc : s.pc = .inner ∨ s.pc = .poll) (hm : s.mask ≠ 0)
    (hd : s.done = true → s.asked = true) (hc : (s.run es).count < 2) (hn : 2 ≤ es.count .main) : (s.run es).asked = true := by
  have one : ∀ (es : List Ev) (s : S), (∀ e ∈ es, plain e = true) → s.pc = .poll → s.mask ≠ 0 → 1 ≤ es.count .main →
      (s.run es).asked = true := by
    intro es
    induction es with
    | nil => intro s _ _ _ hn; exact absurd hn (by decide)
    | cons e es ih =>
      intro s hp hpc hm hn
      show ((s.step e).run es).asked = true
      by_cases he : e = .main
      · subst he
        apply asked_run
        unfold S.step S.main
        rw [hpc]
        simp only [Pc.ended, Bool.false_eq_true, if_false, Bool.or_eq_true, decide_eq_true_eq]
        exact .inr hm
      · obtain ⟨h1, h2, _⟩ := other_keeps s e (hp e (List.mem_cons_self ..)) he hm (.inr hpc)
        exact ih _ (fun x hx => hp x (List.mem_cons_of_mem _ hx)) (h2.trans hpc) h1 (by rwa [List.count_cons_of_ne (by exact he)] at hn)
  rcases hpc with hpc | hpc
  · induction es generalizing s with
    | nil => exact absurd hn (by decide)
    | cons e es ih =>
      have hp' : ∀ e ∈ es, plain e = true := fun x hx => hp x (List.mem_cons_of_mem _ hx)
      show ((s.step e).run es).asked = true
      by_cases ha : s.asked = true
      · exact asked_run _ _ (asked_step s e ha)
      by_cases he : e = .main
      · subst he
        have hd' : s.done = false := by
          cases h : s.done
          · rfl
          · exact absurd (hd h) ha
        have hcount : s.count < 2 := Nat.lt_of_le_of_lt (count_run (.main :: es) s) hc
        rw [List.count_cons_self] at hn
        have hst : s.step .main = { s with pc := .poll } := by
          unfold S.step S.main
          rw [hpc]
          have : ¬ 2 ≤ s.count := by omega
          simp [Pc.ended, hd', this]
        rw [hst]
        exact one es _ hp' rfl hm (by omega)
      · obtain ⟨h1, h2, h3⟩ := other_keeps s e (hp e (List.mem_cons_self ..)) he hm (.inl hpc)
        refine ih (s.step e) hp' h1 ?_ hc ?_ (h2.trans hpc)
        · intro h
          rcases h3 h with h | h
          · exact absurd (hd h) ha
          · exact absurd h ha
        · rwa [List.count_cons_of_ne (by exact he)] at hn
  · exact one es s hp hpc hm (by omega)

/-! ## Where it goes wrong -/

/-- A step that is not a signal. -/
def quiet : Ev → Bool
  | .signal _ => false
  | _ => true

/-- **C110** (disagreement): a SIGTERM that arrives between the test for it and the test for other signals is cleared as one of the
others.  The server starts to poll and is never asked to stop, as long as no other signal arrives. -/
theorem c110_lost (es : List Ev) (h : ∀ e ∈ es, quiet e = true) :
    (S.run {} ([.main, .signal 15, .count, .main, .main, .main] ++ es)).asked = false ∧
    (S.run {} ([.main, .signal 15, .count, .main, .main, .main] ++ es)).pc.ended = false := by
  have hs : ∀ (es : List Ev) (s : S), (∀ e ∈ es, quiet e = true) → s.mask = 0 → s.count = 1 → s.toCount = false → s.asked = false →
      s.done = false → (s.pc = .inner ∨ s.pc = .poll) → (s.run es).asked = false ∧ (s.run es).pc.ended = false := by
    intro es
    induction es with
    | nil => intro s _ _ _ _ h5 _ h7; exact ⟨h5, by rcases h7 with h | h <;> (show s.pc.ended = false) <;> rw [h] <;> rfl⟩
    | cons e es ih =>
      intro s hq h2 h3 h4 h5 h6 h7
      have hend : s.pc.ended = false := by rcases h7 with h | h <;> rw [h] <;> rfl
      show ((s.step e).run es).asked = false ∧ ((s.step e).run es).pc.ended = false
      have hq' : ∀ e ∈ es, quiet e = true := fun x hx => hq x (List.mem_cons_of_mem _ hx)
      have hqe := hq e (List.mem_cons_self ..)
      apply ih _ hq' <;> unfold S.step <;> rw [if_neg (by simp [hend])] <;> cases e <;>
        simp only [quiet, Bool.false_eq_true] at hqe <;> (try unfold S.main) <;> rcases h7 with h | h <;>
        simp [h, h2, h3, h4, h5, h6]
  rw [S.run, List.foldl_append]
  exact hs es _ h (by decide +kernel) (by decide +kernel) (by decide +kernel) (by decide +kernel) (by decide +kernel)
    (.inl (by decide +kernel))

/-- **C110** (disagreement): if two arrive there, the main thread neither polls nor ends: it goes round its outer loop. -/
theorem c110_lost_twice (es : List Ev) (h : ∀ e ∈ es, quiet e = true) :
    (S.run {} ([.main, .signal 15, .count, .signal 15, .count, .main, .main, .main] ++ es)).pc.ended = false ∧
    (S.run {} ([.main, .signal 15, .count, .signal 15, .count, .main, .main, .main] ++ es)).pc ≠ .poll := by
  have hs : ∀ (es : List Ev) (s : S), (∀ e ∈ es, quiet e = true) → s.mask = 0 → s.count = 2 → s.toCount = false →
      (s.pc = .term ∨ s.pc = .int ∨ s.pc = .pending ∨ s.pc = .inner) → (s.run es).pc.ended = false ∧ (s.run es).pc ≠ .poll := by
    intro es
    induction es with
    | nil =>
      intro s _ _ _ _ h7
      show s.pc.ended = false ∧ s.pc ≠ .poll
      rcases h7 with h | h | h | h <;> rw [h] <;> decide
    | cons e es ih =>
      intro s hq h2 h3 h4 h7
      have hend : s.pc.ended = false := by rcases h7 with h | h | h | h <;> rw [h] <;> rfl
      show ((s.step e).run es).pc.ended = false ∧ ((s.step e).run es).pc ≠ .poll
      have hq' : ∀ e ∈ es, quiet e = true := fun x hx => hq x (List.mem_cons_of_mem _ hx)
      have hqe := hq e (List.mem_cons_self ..)
      have hfin : ∀ x : S, (if s.asked then { s with done := true } else s) = x → x.mask = 0 ∧ x.count = 2 ∧ x.toCount = false ∧
          x.pc = s.pc := by
        intro x hx; subst hx; split <;> exact ⟨h2, h3, h4, rfl⟩
      have hg : ∀ n, get 0#64 n = (0#64, false) := by
        intro n; show ((0 : BitVec 64) &&& unbit n, ((0 : BitVec 64) >>> n).getLsbD 0) = _
        simp
      cases e with
      | signal n => simp [quiet] at hqe
      | finish =>
        have hst : s.step .finish = if s.asked then { s with done := true } else s := by
          unfold S.step; rw [if_neg (by simp [hend])]
        rw [hst]
        obtain ⟨a, b, c, d⟩ := hfin _ rfl
        exact ih _ hq' a b c (by rw [d]; exact h7)
      | count =>
        have hst : s.step .count = s := by
          unfold S.step; rw [if_neg (by simp [hend])]; simp [h4]
        rw [hst]; exact ih _ hq' h2 h3 h4 h7
      | main =>
        apply ih _ hq' <;> unfold S.step <;> rw [if_neg (by simp [hend])] <;> unfold S.main <;> rcases h7 with h | h | h | h <;>
          simp [h, h2, h3, h4, hg]
  rw [S.run, List.foldl_append]
  exact hs es _ h (by decide +kernel) (by decide +kernel) (by decide +kernel) (.inr (.inr (.inr (by decide +kernel))))

/-- An event that is neither SIGTERM, SIGINT nor the end of the process. -/
def harmless (e : Ev) : Bool := plain e && !isTerm e

/-- **C110** (disagreement): any other signal, SIGHUP or SIGUSR1 for example, stops the server too; but then the process does not end
and the main thread does not poll again, until a SIGTERM or SIGINT arrives. -/
theorem c110_other_signal (n : Nat) (hn : harmless (.signal n) = true) (es : List Ev) (h : ∀ e ∈ es, harmless e = true) :
    let pre : List Ev := [.main, .main, .main, .main, .signal n, .main, .finish]
    (S.run {} pre).asked = true ∧ (S.run {} (pre ++ es)).pc.ended = false ∧ (S.run {} (pre ++ es)).pc ≠ .poll := by
  intro pre
  have hs : ∀ (es : List Ev) (s : S), (∀ e ∈ es, harmless e = true) → s.mask.getLsbD 15 = false → s.mask.getLsbD 2 = false →
      s.done = true → (s.pc = .term ∨ s.pc = .int ∨ s.pc = .pending ∨ s.pc = .clear ∨ s.pc = .inner) →
      (s.run es).pc.ended = false ∧ (s.run es).pc ≠ .poll := by
    intro es
    induction es with
    | nil =>
      intro s _ _ _ _ h7
      show s.pc.ended = false ∧ s.pc ≠ .poll
      rcases h7 with h | h | h | h | h <;> rw [h] <;> decide
    | cons e es ih =>
      intro s hq h2 h3 h4 h7
      have hend : s.pc.ended = false := by rcases h7 with h | h | h | h | h <;> rw [h] <;> rfl
      show ((s.step e).run es).pc.ended = false ∧ ((s.step e).run es).pc ≠ .poll
      have hq' : ∀ e ∈ es, harmless e = true := fun x hx => hq x (List.mem_cons_of_mem _ hx)
      have hqe := hq e (List.mem_cons_self ..)
      cases e with
      | signal k =>
        simp only [harmless, plain, isTerm, Bool.and_eq_true, decide_eq_true_eq, Bool.not_eq_true', Bool.or_eq_false_iff,
          beq_eq_false_iff_ne] at hqe
        obtain ⟨⟨hk, hcr⟩, h15, h22⟩ := hqe
        have hst : (s.step (.signal k)).pc = s.pc ∧ (s.step (.signal k)).done = s.done ∧
            (s.step (.signal k)).mask.getLsbD 15 = false ∧ (s.step (.signal k)).mask.getLsbD 2 = false := by
          unfold S.step; rw [if_neg (by simp [hend])]
          show (s.signal k).pc = _ ∧ (s.signal k).done = _ ∧ (s.signal k).mask.getLsbD 15 = false ∧ (s.signal k).mask.getLsbD 2 = false
          unfold S.signal
          by_cases h1 : s.toCount
          · rw [if_pos h1]; exact ⟨rfl, rfl, h2, h3⟩
          · rw [if_neg h1, if_neg (by simp [hcr]), bit, if_pos hk]
            refine ⟨rfl, rfl, ?_, ?_⟩
            · dsimp only; rw [BitVec.getLsbD_or, bit_low k 15 hk (by decide), h2]; simp [h15]
            · dsimp only; rw [BitVec.getLsbD_or, bit_low k 2 hk (by decide), h3]; simp [h22]
        exact ih _ hq' hst.2.2.1 hst.2.2.2 (hst.2.1.trans h4) (by rw [hst.1]; exact h7)
      | finish =>
        have hst : s.step .finish = s ∨ s.step .finish = { s with done := true } := by
          unfold S.step; rw [if_neg (by simp [hend])]; dsimp only; split
          · exact .inr rfl
          · exact .inl rfl
        rcases hst with hst | hst <;> rw [hst]
        · exact ih _ hq' h2 h3 h4 h7
        · exact ih _ hq' h2 h3 rfl h7
      | count =>
        have hst : s.step .count = s ∨ s.step .count = { s with count := s.count + 1, toCount := false } := by
          unfold S.step; rw [if_neg (by simp [hend])]; dsimp only; split
          · exact .inr rfl
          · exact .inl rfl
        rcases hst with hst | hst <;> rw [hst]
        · exact ih _ hq' h2 h3 h4 h7
        · exact ih _ hq' h2 h3 h4 h7
      | main =>
        have hm : ∀ (x : S), x.mask.getLsbD 15 = false → x.mask.getLsbD 2 = false → x.done = true →
            (x.pc = .term ∨ x.pc = .int ∨ x.pc = .pending ∨ x.pc = .clear ∨ x.pc = .inner) →
            (x.run es).pc.ended = false ∧ (x.run es).pc ≠ .poll := fun x => ih x hq'
        have e1 : (get s.mask sigTerm).2 = false := by rw [get_snd]; exact h2
        have e2 : (get s.mask sigInt).2 = false := by rw [get_snd]; exact h3
        have e3 : ∀ n k, n < 31 → s.mask.getLsbD k = false → (get s.mask n).1.getLsbD k = false := by
          intro n k hn hk; rw [get_fst _ _ _ hn, hk]; rfl
        have hst : s.step .main = s.main := by unfold S.step; rw [if_neg (by simp [hend])]
        rw [hst]
        unfold S.main
        rcases h7 with h | h | h | h | h <;> rw [h] <;> dsimp only
        · apply hm
          · exact e3 _ _ (by decide) h2
          · exact e3 _ _ (by decide) h3
          · exact h4
          · dsimp only; rw [e1]; exact .inr (.inl rfl)
        · apply hm
          · exact e3 _ _ (by decide) h2
          · exact e3 _ _ (by decide) h3
          · exact h4
          · dsimp only; rw [e2]; exact .inr (.inr (.inl rfl))
        · refine hm { s with pc := _ } h2 h3 h4 ?_
          dsimp only
          split
          · exact .inr (.inr (.inr (.inl rfl)))
          · exact .inr (.inr (.inr (.inr rfl)))
        · exact hm _ (by simp) (by simp) h4 (.inr (.inr (.inr (.inr rfl))))
        · refine hm { s with pc := _ } h2 h3 h4 (.inl ?_)
          simp [h4]
  -- the state after the beginning
  have hpre : S.run {} pre = { S.run {} [.main, .main, .main, .main] with
      mask := (1#32 <<< n).signExtend 64, asked := true, done := true, pc := .inner } ∧
      ((1#32 <<< n).signExtend 64).getLsbD 15 = false ∧ ((1#32 <<< n).signExtend 64).getLsbD 2 = false := by
    simp only [harmless, plain, isTerm, Bool.and_eq_true, decide_eq_true_eq, Bool.not_eq_true', Bool.or_eq_false_iff,
      beq_eq_false_iff_ne] at hn
    obtain ⟨⟨hk, hcr⟩, h15, h22⟩ := hn
    refine ⟨?_, ?_, ?_⟩
    · have h4 : S.run {} [.main, .main, .main, .main] = { pc := .poll } := by decide +kernel
      have hcat : S.run {} pre = S.run (S.run {} [.main, .main, .main, .main]) [.signal n, .main, .finish] := rfl
      rw [hcat, h4]
      have hne : (1#32 <<< n).signExtend 64 ≠ 0 := by
        intro hc
        have h1 : ((1#32 <<< n).signExtend 64).getLsbD n = false := by rw [hc]; simp
        rw [BitVec.getLsbD_signExtend, getLsbD_bit32] at h1
        have h64 : n < 64 := by omega
        simp [hk, h64] at h1
      have hst : ({ pc := .poll } : S).step (.signal n) = { pc := .poll, mask := (1#32 <<< n).signExtend 64 } := by
        unfold S.step S.signal bit
        have hb : (n == sigTerm || n == sigInt) = false := by simp [sigTerm, sigInt, h15, h22]
        rw [if_neg (by decide)]
        dsimp only
        rw [if_neg (by decide), if_neg (by simp [hcr]), if_pos hk, hb]
        dsimp only
        congr 1
        exact BitVec.zero_or
      show ((({ pc := .poll } : S).step (.signal n)).step .main).step .finish = _
      rw [hst]
      have hne' : ¬ BitVec.signExtend 64 (1#32 <<< n) = 0#64 := hne
      simp [S.step, S.main, Pc.ended, hne']
    · rw [bit_low n 15 hk (by decide)]; simp [h15]
    · rw [bit_low n 2 hk (by decide)]; simp [h22]
  refine ⟨by rw [hpre.1], ?_⟩
  have := hs es (S.run {} pre) h (by rw [hpre.1]; exact hpre.2.1) (by rw [hpre.1]; exact hpre.2.2) (by rw [hpre.1])
    (by rw [hpre.1]; simp)
  rw [show S.run {} (pre ++ es) = S.run (S.run {} pre) es from List.foldl_append ..]
  exact this

/-- SIGHUP. -/
example : harmless (.signal 1) = true ∧ harmless (.signal 15) = false ∧ harmless (.signal 11) = false := by decide +kernel

/-- **C110** (disagreement): a real-time signal is undefined behaviour. -/
theorem c110_realtime (s : S) (n : Nat) (h : 32 ≤ n) (hs : s.pc.ended = false) (ht : s.toCount = false) :
    (s.step (.signal n)).pc = .ub := by
  have hc : isCrash n = false := by simp [isCrash]; omega
  simp [S.step, hs, S.signal, ht, hc, bit, show ¬ n < 32 by omega]

/-- **C110** The signals of a crash are SIGILL, SIGABRT, SIGBUS, SIGFPE and SIGSEGV; the process ends with any of them, and with
no other below 32, when the thread for signals takes it. -/
theorem c110_crash_signals (s : S) (n : Nat) (hn : n < 32) (he : s.pc.ended = false) (ht : s.toCount = false) :
    (s.step (.signal n)).pc = .crashed ↔ n ∈ [4, 6, 7, 8, 11] := by
  have hb : bit n = some ((1#32 <<< n).signExtend 64) := by unfold bit; rw [if_pos hn]
  simp only [S.step, S.signal, he, ht, hb, Bool.false_eq_true, if_false]
  by_cases hc : isCrash n = true
  · rw [if_pos hc]
    simp only [true_iff]
    simpa [isCrash, or_assoc] using hc
  · rw [if_neg hc]
    have : n ∉ [4, 6, 7, 8, 11] := fun hm => hc (by simpa [isCrash, or_assoc] using hm)
    constructor
    · intro h
      have h : s.pc = .crashed := h
      rw [h] at he; cases he
    · intro h; exact absurd h this

end Bedrock.Signal.Props
