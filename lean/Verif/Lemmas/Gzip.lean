import Verif.Spec.Gzip

/-! # The storing library keeps the promises of the format -/

namespace Bedrock.Gzip.Spec
open Bedrock.Text

theorem readTail_tail (x r : Bytes) : readTail x (tail x ++ r) = ⟨x, .done, r⟩ := by
  have h8 : (tail x).length = 8 := rfl
  unfold readTail
  rw [if_neg (by rw [List.length_append]; omega),
    show (tail x ++ r).take 8 = tail x from List.take_left' h8, if_pos rfl,
    show (tail x ++ r).drop 8 = r from List.drop_left' h8]

theorem len_split (n : Nat) (h : n ≤ 65535) :
    (UInt8.ofNat (n % 256)).toNat + 256 * (UInt8.ofNat (n / 256)).toNat = n := by
  rw [UInt8.toNat_ofNat', UInt8.toNat_ofNat']
  have : (2 : Nat) ^ 8 = 256 := rfl
  rw [this]
  omega

theorem readBlocks_head (fuel : Nat) (acc : Bytes) (last : Bool) (n : Nat) (h : n ≤ 65535) (s : Bytes)
    (hs : n ≤ s.length) :
    readBlocks (fuel + 1) acc (blockHead last n ++ s) =
      if last then readTail (acc ++ s.take n) (s.drop n)
      else readBlocks fuel (acc ++ s.take n) (s.drop n) := by
  unfold blockHead
  simp only [List.cons_append, List.nil_append, readBlocks]
  rw [len_split n h, if_neg (by cases last <;> simp), if_neg (by omega)]
  cases last <;> simp

theorem readBlocks_blocks (fuel : Nat) : ∀ (fuel' : Nat) (acc x r : Bytes), x.length < fuel →
    x.length < fuel' → readBlocks fuel' acc (blocks fuel x ++ r) = readTail (acc ++ x) r := by
  induction fuel with
  | zero => intro _ _ _ _ h; omega
  | succ fuel ih =>
    intro fuel' acc x r h h'
    obtain ⟨fuel', rfl⟩ : ∃ k, fuel' = k + 1 := ⟨fuel' - 1, by omega⟩
    unfold blocks
    by_cases hx : x.length ≤ 65535
    · rw [if_pos hx, List.append_assoc, readBlocks_head _ _ _ _ hx _ (by simp)]
      simp
    · rw [if_neg hx, List.append_assoc, List.append_assoc,
        readBlocks_head _ _ _ _ (Nat.le_refl _) _ (by
          rw [List.length_append, List.length_take]; omega)]
      have hl : (x.take 65535).length = 65535 := by rw [List.length_take]; omega
      rw [List.take_left' hl, List.drop_left' hl]
      simp only [Bool.false_eq_true, if_false]
      rw [ih _ _ _ _ (by rw [List.length_drop]; omega) (by rw [List.length_drop]; omega),
        List.append_assoc, List.take_append_drop]

theorem blocks_length (fuel : Nat) : ∀ x : Bytes, x.length < fuel → x.length < (blocks fuel x).length := by
  induction fuel with
  | zero => intro x h; omega
  | succ fuel ih =>
    intro x h
    unfold blocks
    by_cases hx : x.length ≤ 65535
    · rw [if_pos hx, List.length_append]
      have : (blockHead true x.length).length = 5 := rfl
      omega
    · rw [if_neg hx]
      have := ih (x.drop 65535) (by rw [List.length_drop]; omega)
      simp only [List.length_append, List.length_take, List.length_drop] at this ⊢
      omega

theorem stored_reads (x r : Bytes) : readMember (member x ++ r) = ⟨x, .done, r⟩ := by
  have hh : head.length = 10 := rfl
  unfold readMember member
  simp only [List.append_assoc]
  rw [if_neg (by rw [List.length_append]; omega), List.take_left' hh, if_pos rfl, List.drop_left' hh,
    readBlocks_blocks _ _ _ _ _ (Nat.lt_succ_self _) (by
      have := blocks_length (x.length + 1) x (Nat.lt_succ_self _)
      simp only [List.length_append]; omega), List.nil_append, readTail_tail]

/-! ## More input -/

/-- What reading `q` more bytes can change. -/
structure Ext (a b : Inflated) (q : Bytes) : Prop where
  bad : a.verdict = .bad → b.verdict = .bad
  done : a.verdict = .done → b = ⟨a.out, .done, a.rest ++ q⟩
  more : a.verdict = .more → a.out <+: b.out

theorem readTail_out (x s : Bytes) : (readTail x s).out = x := by
  unfold readTail; split
  · rfl
  · split <;> rfl

theorem readTail_ext (x s q : Bytes) : Ext (readTail x s) (readTail x (s ++ q)) q := by
  by_cases h : s.length < 8
  · have e : readTail x s = ⟨x, .more, []⟩ := by unfold readTail; rw [if_pos h]
    rw [e]
    exact ⟨by simp, by simp, fun _ => by rw [readTail_out]; exact List.prefix_refl _⟩
  · have h' : ¬ (s ++ q).length < 8 := by rw [List.length_append]; omega
    have ht : (s ++ q).take 8 = s.take 8 := List.take_append_of_le_length (by omega)
    have hd : (s ++ q).drop 8 = s.drop 8 ++ q := List.drop_append_of_le_length (by omega)
    unfold readTail
    rw [if_neg h, if_neg h', ht, hd]
    by_cases e : s.take 8 = tail x
    · rw [if_pos e, if_pos e]
      exact ⟨by simp, by simp, by simp⟩
    · rw [if_neg e, if_neg e]
      exact ⟨by simp, by simp, by simp⟩

theorem readBlocks_acc (fuel : Nat) : ∀ (acc s : Bytes), acc <+: (readBlocks fuel acc s).out := by
  induction fuel with
  | zero => intro acc s; exact List.prefix_refl _
  | succ fuel ih =>
    intro acc s
    unfold readBlocks
    split
    · dsimp only
      split
      · exact List.prefix_refl _
      · split
        · exact List.prefix_append _ _
        · split
          · rw [readTail_out]; exact List.prefix_append _ _
          · exact (List.prefix_append _ _).trans (ih _ _)
    · exact List.prefix_refl _

theorem readBlocks_ext (fuel : Nat) : ∀ (fuel' : Nat) (acc s q : Bytes), s.length < fuel →
    (s ++ q).length < fuel' → Ext (readBlocks fuel acc s) (readBlocks fuel' acc (s ++ q)) q := by
  induction fuel with
  | zero => intro _ _ _ _ h; omega
  | succ fuel ih =>
    intro fuel' acc s q h h'
    obtain ⟨fuel', rfl⟩ : ∃ k, fuel' = k + 1 := ⟨fuel' - 1, by omega⟩
    have short : (∀ b lo hi lo' hi' s', s ≠ b :: lo :: hi :: lo' :: hi' :: s') →
        readBlocks (fuel + 1) acc s = ⟨acc, .more, []⟩ := by
      intro hn
      unfold readBlocks
      split
      · exact absurd rfl (hn _ _ _ _ _ _)
      · rfl
    by_cases hs : ∃ b lo hi lo' hi' s', s = b :: lo :: hi :: lo' :: hi' :: s'
    · obtain ⟨b, lo, hi, lo', hi', s', rfl⟩ := hs
      simp only [List.length_cons, List.cons_append] at h h'
      simp only [List.cons_append, readBlocks]
      split
      · exact ⟨by simp, by simp, by simp⟩
      · generalize lo.toNat + 256 * hi.toNat = n
        by_cases hn : s'.length < n
        · rw [if_pos hn]
          refine ⟨by simp, by simp, fun _ => ?_⟩
          dsimp only
          split
          · rw [← List.append_assoc]; exact List.prefix_append _ _
          · have hp : acc ++ s' <+: acc ++ (s' ++ q).take n := by
              rw [List.prefix_append_right_inj, List.take_append, List.take_of_length_le (by omega)]
              exact List.prefix_append _ _
            split
            · rw [readTail_out]; exact hp
            · exact hp.trans (readBlocks_acc _ _ _)
        · have hq : ¬ (s' ++ q).length < n := by rw [List.length_append]; omega
          rw [if_neg hn, if_neg hq, List.take_append_of_le_length (by omega),
            List.drop_append_of_le_length (by omega)]
          split
          · exact readTail_ext _ _ _
          · refine ih _ _ _ _ (by rw [List.length_drop]; omega) ?_
            simp only [List.length_append, List.length_drop] at h' ⊢; omega
    · rw [short (fun b lo hi lo' hi' s' e => hs ⟨b, lo, hi, lo', hi', s', e⟩)]
      exact ⟨by simp, by simp, fun _ => readBlocks_acc _ _ _⟩

theorem readMember_ext (s q : Bytes) : Ext (readMember s) (readMember (s ++ q)) q := by
  unfold readMember
  by_cases h : s.length < 10
  · rw [if_pos h]
    refine ⟨fun hb => ?_, fun hb => ?_, fun _ => List.nil_prefix⟩
    · have hp : ¬ s <+: head := by
        intro hp; rw [if_pos hp] at hb; cases hb
      by_cases hq : (s ++ q).length < 10
      · rw [if_pos hq, if_neg (fun x => hp ((List.prefix_append s q).trans x))]
      · rw [if_neg hq, if_neg (fun x => hp ?_)]
        rw [← x, List.take_append, List.take_of_length_le (by omega)]
        exact List.prefix_append _ _
    · dsimp only at hb; split at hb <;> cases hb
  · have hq : ¬ (s ++ q).length < 10 := by rw [List.length_append]; omega
    rw [if_neg h, if_neg hq, List.take_append_of_le_length (by omega),
      List.drop_append_of_le_length (by omega)]
    split
    · refine readBlocks_ext _ _ _ _ _ (by rw [List.length_drop]; omega) ?_
      simp only [List.length_append, List.length_drop]; omega
    · exact ⟨by simp, by simp, by simp⟩

/-- The storing library keeps the promises. -/
theorem stored_lawful : Lawful stored where
  reads := stored_reads
  cut := by
    intro x p q h hq
    have e := readMember_ext p q
    have r := stored_reads x []
    have hm : p ++ q = member x := h
    rw [List.append_nil] at r
    rw [hm, r] at e
    refine ⟨(readMember p).out, (readMember p).rest, ?_, ?_⟩
    · show readMember p = _
      cases hv : (readMember p).verdict with
      | more =>
        cases hp : readMember p with
        | mk o v s => rw [hp] at hv; dsimp only at hv; rw [hv]
      | bad => exact absurd (e.bad hv) (by simp)
      | done =>
        have := congrArg Inflated.rest (e.done hv)
        dsimp only at this
        exact absurd (List.append_eq_nil_iff.mp this.symm).2 hq
    · cases hv : (readMember p).verdict with
      | more => exact e.more hv
      | bad => exact absurd (e.bad hv) (by simp)
      | done =>
        have := congrArg Inflated.out (e.done hv)
        dsimp only at this
        rw [this]; exact List.prefix_refl _

theorem stored_length (x : Bytes) (h : x.length ≤ 65535) :
    (stored.stream x).length = x.length + 23 := by
  show (member x).length = _
  unfold member blocks
  rw [if_pos h]
  simp only [List.length_append]
  have h1 : head.length = 10 := rfl
  have h2 : (blockHead true x.length).length = 5 := rfl
  have h3 : (tail x).length = 8 := rfl
  omega

end Bedrock.Gzip.Spec
