import Verif.Model.Redact
import Verif.Lemmas.Text

/-!
# C102: what of a query is written to the log
-/

namespace Bedrock.Redact.Props
open Bedrock Bedrock.Text Bedrock.Redact

/-! ## Replacing -/

theorem subst_skip (len : Bytes → Option Nat) (rep : Bytes) (k : Nat) (s : Bytes) :
    subst len rep k s = subst len rep 0 (s.drop k) := by
  induction k generalizing s with
  | zero => rw [List.drop_zero]
  | succ k ih =>
    cases s with
    | nil => rw [List.drop_nil, subst, subst]
    | cons c s => rw [subst, ih, List.drop_succ_cons]

theorem subst_none {len : Bytes → Option Nat} {rep : Bytes} {c : UInt8} {s : Bytes} (h : len (c :: s) = none) :
    subst len rep 0 (c :: s) = c :: subst len rep 0 s := by
  rw [subst, h]

theorem subst_some {len : Bytes → Option Nat} {rep : Bytes} {s : Bytes} {n : Nat} (h : len s = some n) (hs : s ≠ []) (hn : 1 ≤ n) :
    subst len rep 0 s = rep ++ subst len rep 0 (s.drop n) := by
  cases s with
  | nil => exact absurd rfl hs
  | cons c s =>
    rw [subst, h]
    obtain ⟨n, rfl⟩ : ∃ m, n = m + 1 := ⟨n - 1, by omega⟩
    simp only [Nat.add_sub_cancel, List.drop_succ_cons]
    rw [subst_skip]

/-- What the four patterns have in common: a match has at least one byte and starts as its replacement does, up to a
byte `d`. -/
structure Fits (len : Bytes → Option Nat) (rep u : Bytes) (d : UInt8) (v : Bytes) : Prop where
  rep_eq : rep = u ++ d :: v
  pos : ∀ {s n}, len s = some n → 1 ≤ n
  nonempty : ∀ {s n}, len s = some n → s ≠ []
  start : ∀ {s n}, len s = some n → u <+: s

/-- What the result starts with, up to `d`, the text starts with. -/
theorem reflect {len : Bytes → Option Nat} {rep u : Bytes} {d : UInt8} {v : Bytes} (f : Fits len rep u d v)
    (q : Bytes) (hd : d ∉ q) (s : Bytes) (h : q <+: subst len rep 0 s) : q <+: s := by
  induction s generalizing q with
  | nil => rwa [subst] at h
  | cons c s ih =>
    cases hl : len (c :: s) with
    | some n =>
      rw [subst_some hl (f.nonempty hl) (f.pos hl), f.rep_eq, List.append_assoc] at h
      rcases List.prefix_or_prefix_of_prefix h (List.prefix_append u _) with h' | h'
      · exact h'.trans (f.start hl)
      · obtain ⟨r, rfl⟩ := h'
        rw [List.prefix_append_right_inj] at h
        cases r with
        | nil => rw [List.append_nil]; exact f.start hl
        | cons e r =>
          rw [List.cons_append, List.cons_prefix_cons] at h
          exact absurd (List.mem_append_right u (by rw [h.1]; exact List.mem_cons_self)) hd
    | none =>
      rw [subst_none hl] at h
      cases q with
      | nil => exact List.nil_prefix
      | cons e q =>
        rw [List.cons_prefix_cons] at h ⊢
        exact ⟨h.1, ih q (fun hq => hd (List.mem_cons_of_mem _ hq)) h.2⟩

/-- Where something stands in the result: from a byte that was kept, or inside a replacement. -/
theorem occurs {len : Bytes → Option Nat} {rep u : Bytes} {d : UInt8} {v : Bytes} (f : Fits len rep u d v)
    {p : Bytes} (hd : d ∉ p) (hp : p ≠ [])
    (inside : ∀ t n j, len t = some n → j < rep.length → ¬ p <+: rep.drop j ++ subst len rep 0 (t.drop n)) :
    ∀ (k : Nat) (s : Bytes), s.length ≤ k → p <:+: subst len rep 0 s → ∃ t, t <:+ s ∧ len t = none ∧ p <+: t := by
  intro k
  induction k with
  | zero =>
    intro s hk h
    obtain rfl : s = [] := List.eq_nil_of_length_eq_zero (Nat.le_zero.mp hk)
    rw [subst] at h
    exact absurd (List.infix_nil.mp h) hp
  | succ k ih =>
    intro s hk h
    cases s with
    | nil =>
      rw [subst] at h
      exact absurd (List.infix_nil.mp h) hp
    | cons c s =>
      have hk' : s.length ≤ k := by rw [List.length_cons] at hk; omega
      cases hl : len (c :: s) with
      | none =>
        rw [subst_none hl] at h
        rcases List.infix_cons_iff.mp h with h | h
        · rw [← subst_none hl] at h
          exact ⟨c :: s, List.suffix_refl _, hl, reflect f p hd _ h⟩
        · obtain ⟨t, h1, h2, h3⟩ := ih s hk' h
          exact ⟨t, h1.trans (List.suffix_cons c s), h2, h3⟩
      | some n =>
        rw [subst_some hl (f.nonempty hl) (f.pos hl)] at h
        obtain ⟨x, y, h⟩ := h
        by_cases hx : x.length < rep.length
        · exfalso
          refine inside (c :: s) n x.length hl hx ⟨y, ?_⟩
          have := congrArg (List.drop x.length) h
          rw [List.append_assoc, List.drop_left, List.drop_append, show x.length - rep.length = 0 by omega, List.drop_zero] at this
          exact this
        · have hx : rep.length ≤ x.length := Nat.le_of_not_lt hx
          have := congrArg (List.drop rep.length) h
          rw [List.drop_left, List.append_assoc, List.drop_append, show rep.length - x.length = 0 by omega, List.drop_zero] at this
          obtain ⟨t, h1, h2, h3⟩ := ih ((c :: s).drop n) (by
            have := f.pos hl
            rw [List.length_drop, List.length_cons]; omega) ⟨x.drop rep.length, y, by rw [List.append_assoc]; exact this⟩
          exact ⟨t, h1.trans (List.drop_suffix n _), h2, h3⟩

/-- A replacement that ends with a byte not in `p`. -/
theorem inside_end {rep p : Bytes} {e : UInt8} (he : e ∉ p) (hr : rep.getLast? = some e) (hp : ¬ p <:+: rep) (r : Bytes) (j : Nat)
    (hj : j < rep.length) : ¬ p <+: rep.drop j ++ r := by
  intro h
  rcases List.prefix_or_prefix_of_prefix h (List.prefix_append (rep.drop j) r) with h' | h'
  · exact hp (h'.isInfix.trans (List.drop_suffix j rep).isInfix)
  · apply he
    apply h'.subset
    have : (rep.drop j).getLast? = some e := by rw [List.getLast?_drop, if_neg (by omega), hr]
    exact List.mem_of_getLast? this

/-- Nothing new appears. -/
theorem no_new {len : Bytes → Option Nat} {rep u : Bytes} {d : UInt8} {v : Bytes} (f : Fits len rep u d v)
    {p : Bytes} (hd : d ∉ p) (hp : p ≠ [])
    (inside : ∀ t n j, len t = some n → j < rep.length → ¬ p <+: rep.drop j ++ subst len rep 0 (t.drop n))
    {s : Bytes} (h : ¬ p <:+: s) : ¬ p <:+: subst len rep 0 s := by
  intro h'
  obtain ⟨t, h1, _, h3⟩ := occurs f hd hp inside _ s (Nat.le_refl _) h'
  exact h (h3.isInfix.trans h1.isInfix)

/-- Nothing to replace. -/
theorem subst_id {len : Bytes → Option Nat} (rep : Bytes) {s : Bytes} (h : ∀ t, t <:+ s → t ≠ [] → len t = none) :
    subst len rep 0 s = s := by
  induction s with
  | nil => rw [subst]
  | cons c s ih =>
    rw [subst_none (h _ (List.suffix_refl _) (by simp)), ih fun t ht => h t (ht.trans (List.suffix_cons c s))]

theorem cstr_prefix (s : Bytes) : cstr s <+: s := List.takeWhile_prefix _

theorem not_infix_cstr {p s : Bytes} (h : ¬ p <:+: s) : ¬ p <:+: cstr s :=
  fun h' => h (h'.trans (cstr_prefix s).isInfix)

theorem subst_subset (len : Bytes → Option Nat) (rep : Bytes) {c : UInt8} (k : Nat) (s : Bytes) (h : c ∈ subst len rep k s) :
    c ∈ s ∨ c ∈ rep := by
  induction s generalizing k with
  | nil => rw [subst] at h; exact .inl h
  | cons d s ih =>
    cases k with
    | succ k => rw [subst] at h; exact (ih k h).imp_left (List.mem_cons_of_mem _)
    | zero =>
      cases hl : len (d :: s) with
      | none =>
        rw [subst, hl] at h
        rcases List.mem_cons.mp h with rfl | h
        · exact .inl List.mem_cons_self
        · exact (ih 0 h).imp_left (List.mem_cons_of_mem _)
      | some n =>
        rw [subst, hl] at h
        rcases List.mem_append.mp h with h | h
        · exact .inr h
        · exact (ih _ h).imp_left (List.mem_cons_of_mem _)

/-! ## The patterns -/

theorem line_append {a : Bytes} (b : Bytes) (h : 10 ∉ a) : line (a ++ b) = a ++ line b := by
  unfold line
  rw [List.takeWhile_append_of_pos]
  intro c hc
  rw [bne_iff_ne]
  exact fun e => h (e ▸ hc)

theorem drop_line (s : Bytes) : s.drop (line s).length = s.dropWhile (· != 10) := by
  have := List.takeWhile_append_dropWhile (p := (· != (10 : UInt8))) (l := s)
  unfold line
  conv => lhs; arg 2; rw [← this]
  rw [List.drop_left]

theorem tokenLen_some {s : Bytes} {n : Nat} (h : tokenLen s = some n) :
    tokenOpen <+: s ∧ n = (line s).length ∧ s.drop n = s.dropWhile (· != 10) := by
  unfold tokenLen at h
  split at h
  · rename_i hp
    rw [List.isPrefixOf_iff_prefix] at hp
    injection h with h
    obtain ⟨r, rfl⟩ := hp
    have : n = (line (tokenOpen ++ r)).length := by
      rw [line_append r (by decide +kernel), ← h, List.length_append]
      rfl
    exact ⟨List.prefix_append _ _, this, by rw [this, drop_line]⟩
  · cases h

theorem tokenLen_none {s : Bytes} (h : ¬ tokenOpen <+: s) : tokenLen s = none := by
  unfold tokenLen
  rw [if_neg (by rw [List.isPrefixOf_iff_prefix]; exact h)]

theorem tokenLen_isSome {s : Bytes} (h : tokenOpen <+: s) : tokenLen s = some (line s).length := by
  cases hl : tokenLen s with
  | some n => rw [(tokenLen_some hl).2.1]
  | none =>
    unfold tokenLen at hl
    rw [if_pos (List.isPrefixOf_iff_prefix.mpr h)] at hl
    cases hl

theorem ne_nil_of_prefix {p s : Bytes} (hp : p ≠ []) (h : p <+: s) : s ≠ [] := by
  rintro rfl
  exact hp (List.prefix_nil.mp h)

theorem token_fits : Fits tokenLen tokenRep (b!"\"authToken\":") 60 (b!"REDACTED>") where
  rep_eq := rfl
  pos h := by
    obtain ⟨⟨r, rfl⟩, h2, _⟩ := tokenLen_some h
    rw [h2, line_append r (by decide +kernel), List.length_append]
    exact Nat.le_add_right_of_le (by decide)
  nonempty h := ne_nil_of_prefix (by decide) (tokenLen_some h).1
  start h := (List.prefix_append (b!"\"authToken\":") [34]).trans (tokenLen_some h).1

theorem cipherLen_some {s : Bytes} {n : Nat} (h : cipherLen s = some n) : ∃ ds hs r, s = 118 :: (ds ++ 58 :: (hs ++ r)) ∧
    n = 2 + ds.length + hs.length ∧ s.drop n = r ∧ (∀ c ∈ ds, isDigit c = true) ∧ (∀ c ∈ hs, isHex c = true) := by
  unfold cipherLen at h
  split at h
  · rename_i s
    split at h
    · rename_i r hr
      split at h
      · injection h with h
        have e := List.takeWhile_append_dropWhile (p := isDigit) (l := s)
        rw [hr] at e
        have e' := List.takeWhile_append_dropWhile (p := isHex) (l := r)
        have e2 : (118 : UInt8) :: s = 118 :: (s.takeWhile isDigit ++ 58 :: (r.takeWhile isHex ++ r.dropWhile isHex)) := by
          rw [e', e]
        refine ⟨_, _, _, e2, h.symm, ?_, fun c hc => List.all_eq_true.mp List.all_takeWhile c hc,
          fun c hc => List.all_eq_true.mp List.all_takeWhile c hc⟩
        rw [e2, ← h]
        have : (118 : UInt8) :: (s.takeWhile isDigit ++ 58 :: (r.takeWhile isHex ++ r.dropWhile isHex)) =
            (118 :: (s.takeWhile isDigit ++ 58 :: r.takeWhile isHex)) ++ r.dropWhile isHex := by simp
        rw [this, List.drop_left' (by simp; omega)]
      · cases h
    · cases h
  · cases h

theorem cipher_fits : Fits cipherLen cipherRep [] 60 (b!"REDACTED>") where
  rep_eq := rfl
  pos h := by obtain ⟨_, _, _, _, h2, _⟩ := cipherLen_some h; omega
  nonempty h := by obtain ⟨_, _, _, h1, _⟩ := cipherLen_some h; rw [h1]; simp
  start _ := List.nil_prefix

/-- What is matched as encrypted. -/
theorem cipherLen_isSome {ds hs r : Bytes} (h1 : ∀ c ∈ ds, isDigit c = true) (h2 : ds ≠ []) (h3 : ∀ c ∈ hs, isHex c = true)
    (h4 : 10 ≤ hs.length) : (cipherLen (118 :: (ds ++ 58 :: (hs ++ r)))).isSome := by
  unfold cipherLen
  have e1 : (ds ++ 58 :: (hs ++ r)).dropWhile isDigit = 58 :: (hs ++ r) := by
    rw [List.dropWhile_append_of_pos h1, List.dropWhile_cons_of_neg (by decide)]
  have e2 : (ds ++ 58 :: (hs ++ r)).takeWhile isDigit = ds := by
    rw [List.takeWhile_append_of_pos h1, List.takeWhile_cons_of_neg (by decide), List.append_nil]
  have e3 : 10 ≤ ((hs ++ r).takeWhile isHex).length := by
    rw [List.takeWhile_append_of_pos h3, List.length_append]; omega
  simp only [e1, e2]
  rw [if_pos ⟨h2, e3⟩]
  rfl

/-- The part of the line after its last quote, and the lines after it. -/
def afterQuote (s : Bytes) : Bytes := ((line s).reverse.takeWhile (· != 34)).reverse ++ s.dropWhile (· != 10)

theorem uptoLast_split (d : UInt8) (s : Bytes) : uptoLast d s ++ (s.reverse.takeWhile (· != d)).reverse = s := by
  unfold uptoLast
  rw [← List.reverse_append, List.takeWhile_append_dropWhile, List.reverse_reverse]

theorem dropWhile_nil {d : UInt8} {s : Bytes} : s.dropWhile (· != d) = [] ↔ d ∉ s := by
  induction s with
  | nil => simp
  | cons c s ih =>
    by_cases hc : c = d
    · rw [List.dropWhile_cons_of_neg (by simp [hc])]; simp [hc]
    · rw [List.dropWhile_cons_of_pos (by simp [hc]), ih]
      simp [Ne.symm hc]

theorem uptoLast_nil {d : UInt8} {s : Bytes} : uptoLast d s = [] ↔ d ∉ s := by
  unfold uptoLast
  rw [List.reverse_eq_nil_iff, dropWhile_nil, List.mem_reverse]

theorem takeWhile_append_mem {d : UInt8} {l : Bytes} (a : Bytes) (h : d ∈ l) :
    (l ++ a).takeWhile (· != d) = l.takeWhile (· != d) := by
  induction l with
  | nil => cases h
  | cons c l ih =>
    rw [List.cons_append]
    by_cases hc : c = d
    · rw [List.takeWhile_cons_of_neg (by simp [hc]), List.takeWhile_cons_of_neg (by simp [hc])]
    · rw [List.takeWhile_cons_of_pos (by simp [hc]), List.takeWhile_cons_of_pos (by simp [hc]),
        ih ((List.mem_cons.mp h).resolve_left (Ne.symm hc))]

theorem takeWhile_reverse_append {d : UInt8} {a b : Bytes} (h : d ∈ b) :
    ((a ++ b).reverse.takeWhile (· != d)) = b.reverse.takeWhile (· != d) := by
  rw [List.reverse_append, takeWhile_append_mem _ (List.mem_reverse.mpr h)]

theorem htmlLen_some {s : Bytes} {n : Nat} (h : htmlLen s = some n) :
    htmlOpen <+: s ∧ 1 ≤ n ∧ s.drop n = afterQuote s ∧ 34 ∈ line (s.drop 8) := by
  unfold htmlLen at h
  split at h
  · rename_i hp
    rw [List.isPrefixOf_iff_prefix] at hp
    obtain ⟨r, rfl⟩ := hp
    have e : (htmlOpen ++ r).drop 8 = r := rfl
    simp only [e] at h ⊢
    split at h
    · cases h
    · rename_i hm
      injection h with h
      have hq : 34 ∈ line r := Decidable.not_not.mp fun hq => hm (uptoLast_nil.mpr hq)
      refine ⟨List.prefix_append _ _, by omega, ?_, hq⟩
      unfold afterQuote
      rw [line_append r (by decide +kernel), takeWhile_reverse_append hq, List.dropWhile_append_of_pos (by decide +kernel), ← h,
        show htmlOpen ++ r = htmlOpen ++ (uptoLast 34 (line r) ++ (((line r).reverse.takeWhile (· != 34)).reverse ++
          r.dropWhile (· != 10))) by
            rw [← List.append_assoc (uptoLast 34 (line r)), uptoLast_split]
            unfold line
            rw [List.takeWhile_append_dropWhile],
        ← List.append_assoc, List.drop_left' (by rw [List.length_append]; rfl)]
  · cases h

theorem htmlLen_isSome {s : Bytes} (h : htmlOpen <+: s) (hq : 34 ∈ line (s.drop 8)) : ∃ n, htmlLen s = some n := by
  unfold htmlLen
  rw [if_pos (List.isPrefixOf_iff_prefix.mpr h)]
  simp only
  rw [if_neg (fun e => absurd hq (uptoLast_nil.mp e))]
  exact ⟨_, rfl⟩

theorem html_fits : Fits htmlLen htmlRep htmlOpen 60 (b!"REDACTED>\"") where
  rep_eq := rfl
  pos h := (htmlLen_some h).2.1
  nonempty h := ne_nil_of_prefix (by decide) (htmlLen_some h).1
  start h := (htmlLen_some h).1

theorem editsLen_some {s : Bytes} {n : Nat} (h : editsLen s = some n) :
    editsOpen <+: s ∧ 1 ≤ n ∧ s.drop n = (s.dropWhile (· != 93)).drop 1 ∧ 93 ∈ line s := by
  unfold editsLen at h
  split at h
  · rename_i hp
    rw [List.isPrefixOf_iff_prefix] at hp
    obtain ⟨r, rfl⟩ := hp
    have e : (editsOpen ++ r).drop 9 = r := rfl
    simp only [e] at h
    split at h
    · rename_i hm
      injection h with h
      refine ⟨List.prefix_append _ _, by omega, ?_, ?_⟩
      · rw [List.dropWhile_append_of_pos (by decide +kernel), ← h]
        have e1 : (line r).takeWhile (· != 93) = r.takeWhile (· != 93) := by
          have : r = line r ++ r.dropWhile (· != 10) := by unfold line; rw [List.takeWhile_append_dropWhile]
          conv => rhs; rw [this]
          rw [takeWhile_append_mem _ hm]
        rw [e1]
        have e2 : editsOpen ++ r = (editsOpen ++ r.takeWhile (· != 93)) ++ r.dropWhile (· != 93) := by
          rw [List.append_assoc, List.takeWhile_append_dropWhile]
        conv => lhs; arg 2; rw [e2]
        rw [← List.drop_drop, List.drop_left' (by rw [List.length_append]; rfl)]
      · rw [line_append r (by decide +kernel)]
        exact List.mem_append_right _ hm
    · cases h
  · cases h

theorem editsLen_isSome {s : Bytes} (h : editsOpen <+: s) (hb : 93 ∈ line s) : ∃ n, editsLen s = some n := by
  unfold editsLen
  rw [if_pos (List.isPrefixOf_iff_prefix.mpr h)]
  obtain ⟨r, rfl⟩ := h
  rw [line_append r (by decide +kernel)] at hb
  have e : (editsOpen ++ r).drop 9 = r := rfl
  simp only [e]
  rcases List.mem_append.mp hb with hb | hb
  · exact absurd hb (by decide +kernel)
  · rw [if_pos hb]; exact ⟨_, rfl⟩

theorem edits_fits : Fits editsLen editsRep (b!"\"edits\":") 91 (b!"\"REDACTED\"]") where
  rep_eq := rfl
  pos h := (editsLen_some h).2.1
  nonempty h := ne_nil_of_prefix (by decide) (editsLen_some h).1
  start h := (List.prefix_append (b!"\"edits\":") [91]).trans (editsLen_some h).1

/-! ## Tokens -/

theorem token_step1 (s : Bytes) : ¬ tokenOpen <:+: subst tokenLen tokenRep 0 s := by
  intro h
  obtain ⟨t, _, h2, h3⟩ := occurs token_fits (p := tokenOpen) (by decide +kernel) (by decide)
    (fun _ _ j _ hj => inside_end (e := 62) (by decide +kernel) (by decide +kernel)
      (fun h => absurd (sContains_iff.mpr h) (by decide +kernel)) _ j hj) _ s (Nat.le_refl _) h
  rw [tokenLen_isSome h3] at h2
  cases h2

/-- After the last quote of a line there is no quote before the newline. -/
theorem afterQuote_no_quote {p : Bytes} (hq : 34 ∈ p) (hn : 10 ∉ p) (s : Bytes) : ¬ p <+: afterQuote s := by
  intro h
  unfold afterQuote at h
  have hno : 34 ∉ ((line s).reverse.takeWhile (· != 34)).reverse := by
    rw [List.mem_reverse]
    intro hm
    exact absurd (List.all_eq_true.mp List.all_takeWhile _ hm) (by decide)
  rcases List.prefix_or_prefix_of_prefix h (List.prefix_append _ _) with h' | ⟨r, h'⟩
  · exact hno (h'.subset hq)
  · rw [← h', List.prefix_append_right_inj] at h
    have hr : r ≠ [] := by
      rintro rfl
      rw [List.append_nil] at h'
      exact hno (h' ▸ hq)
    cases hd : s.dropWhile (· != 10) with
    | nil => rw [hd] at h; exact hr (List.prefix_nil.mp h)
    | cons c l =>
      have hc : c = 10 := by
        have := List.head?_dropWhile_not (· != (10 : UInt8)) s
        rw [hd] at this
        simpa using this
      cases r with
      | nil => exact hr rfl
      | cons e r =>
        rw [hd, List.cons_prefix_cons] at h
        apply hn
        rw [← h', ← hc, ← h.1]
        exact List.mem_append_right _ List.mem_cons_self

/-- Something with a quote after its first byte and without a bracket is not made by hiding chats. -/
theorem html_step {p : Bytes} (hd : 60 ∉ p) (h62 : 62 ∉ p) (hq : 34 ∈ p.drop 1) (hn : 10 ∉ p) (hr : ¬ p <:+: htmlRep) {s : Bytes} (h : ¬ p <:+: s) :
    ¬ p <:+: subst htmlLen htmlRep 0 s := by
  have hne : p ≠ [] := by rintro rfl; cases hq
  refine no_new html_fits hd hne ?_ h
  intro t n j hl hj hp
  by_cases hj' : j = 18
  · subst hj'
    have e : htmlRep.drop 18 = [34] := by decide +kernel
    rw [e] at hp
    obtain ⟨c, p, rfl⟩ := List.exists_cons_of_ne_nil hne
    rw [List.singleton_append, List.cons_prefix_cons] at hp
    have := reflect html_fits p (fun h => hd (List.mem_cons_of_mem _ h)) _ hp.2
    rw [(htmlLen_some hl).2.2.1] at this
    exact afterQuote_no_quote hq (fun h => hn (List.mem_cons_of_mem _ h)) t this
  · have hj2 : j < 18 := by
      have : htmlRep.length = 19 := by decide +kernel
      omega
    rcases List.prefix_or_prefix_of_prefix hp (List.prefix_append (htmlRep.drop j) _) with h' | h'
    · exact hr (h'.isInfix.trans (List.drop_suffix j htmlRep).isInfix)
    · exact h62 (h'.subset ((by decide +kernel : ∀ j < 18, (62 : UInt8) ∈ htmlRep.drop j) j hj2))

/-- C102.  However a query is written, what is logged of it has nothing that opens a token. -/
theorem c102_token_gone (s : Bytes) : ¬ b!"\"authToken\":\"" <:+: redact s := by
  unfold redact sreReplace
  refine not_infix_cstr (no_new edits_fits (by decide +kernel) (by decide) (fun _ _ j _ hj => inside_end (e := 93)
    (by decide +kernel) (by decide +kernel) (fun h => absurd (sContains_iff.mpr h) (by decide +kernel)) _ j hj) ?_)
  refine not_infix_cstr (html_step (by decide +kernel) (by decide +kernel) (by decide +kernel) (by decide +kernel)
    (fun h => absurd (sContains_iff.mpr h) (by decide +kernel)) ?_)
  refine not_infix_cstr (no_new cipher_fits (by decide +kernel) (by decide) (fun _ _ j _ hj => inside_end (e := 62)
    (by decide +kernel) (by decide +kernel) (fun h => absurd (sContains_iff.mpr h) (by decide +kernel)) _ j hj) ?_)
  exact not_infix_cstr (token_step1 s)

theorem dropWhile_append_mem {d : UInt8} {l : Bytes} (a : Bytes) (h : d ∈ l) :
    (l ++ a).dropWhile (· != d) = l.dropWhile (· != d) ++ a := by
  induction l with
  | nil => cases h
  | cons c l ih =>
    rw [List.cons_append]
    by_cases hc : c = d
    · rw [List.dropWhile_cons_of_neg (by simp [hc]), List.dropWhile_cons_of_neg (by simp [hc]), List.cons_append]
    · rw [List.dropWhile_cons_of_pos (by simp [hc]), List.dropWhile_cons_of_pos (by simp [hc]),
        ih ((List.mem_cons.mp h).resolve_left (Ne.symm hc))]

theorem dropWhile_append_not {d : UInt8} {l : Bytes} (a : Bytes) (h : d ∉ l) :
    (l ++ a).dropWhile (· != d) = a.dropWhile (· != d) := by
  rw [List.dropWhile_append_of_pos]
  intro c hc
  rw [bne_iff_ne]
  exact fun e => h (e ▸ hc)

theorem prefix_same {p : Bytes} (a m x y : Bytes) (h : p.length ≤ a.length + m.length) :
    p <+: a ++ (m ++ x) ↔ p <+: a ++ (m ++ y) := by
  have hl : p.length ≤ (a ++ m).length := by rw [List.length_append]; exact h
  rw [← List.append_assoc, ← List.append_assoc, List.prefix_iff_eq_take, List.prefix_iff_eq_take,
    List.take_append_of_le_length hl, List.take_append_of_le_length hl]

theorem token_same (k : Nat) (a t t' b : Bytes) (hk : a.length ≤ k) (h1 : 10 ∉ t) (h2 : 10 ∉ t') :
    subst tokenLen tokenRep 0 (a ++ (tokenOpen ++ (t ++ b))) = subst tokenLen tokenRep 0 (a ++ (tokenOpen ++ (t' ++ b))) := by
  induction k generalizing a with
  | zero =>
    obtain rfl : a = [] := List.eq_nil_of_length_eq_zero (Nat.le_zero.mp hk)
    have key : ∀ t : Bytes, 10 ∉ t → subst tokenLen tokenRep 0 ([] ++ (tokenOpen ++ (t ++ b))) =
        tokenRep ++ subst tokenLen tokenRep 0 (b.dropWhile (· != 10)) := by
      intro t ht
      have hl := tokenLen_isSome (List.prefix_append tokenOpen (t ++ b))
      rw [List.nil_append, subst_some hl (token_fits.nonempty hl) (token_fits.pos hl), (tokenLen_some hl).2.2,
        dropWhile_append_not _ (by decide +kernel), dropWhile_append_not _ ht]
    rw [key t h1, key t' h2]
  | succ k ih =>
    cases a with
    | nil => exact ih [] (Nat.zero_le k)
    | cons c a =>
      have hk' : a.length ≤ k := by rw [List.length_cons] at hk; omega
      have same := prefix_same (p := tokenOpen) (c :: a) tokenOpen (t ++ b) (t' ++ b) (by omega)
      by_cases hp : tokenOpen <+: (c :: a) ++ (tokenOpen ++ (t ++ b))
      · have hl := tokenLen_isSome hp
        have hl' := tokenLen_isSome (same.mp hp)
        rw [subst_some hl (token_fits.nonempty hl) (token_fits.pos hl), (tokenLen_some hl).2.2,
          subst_some hl' (token_fits.nonempty hl') (token_fits.pos hl'), (tokenLen_some hl').2.2]
        by_cases hn : 10 ∈ c :: a
        · rw [dropWhile_append_mem _ hn, dropWhile_append_mem _ hn]
          have : ((c :: a).dropWhile (· != 10)).length ≤ k := by
            by_cases hc : c = 10
            · subst hc
              -- a token does not start with a newline
              exfalso
              rw [List.cons_append] at hp
              exact absurd (List.cons_prefix_cons.mp hp).1 (by decide)
            · rw [List.dropWhile_cons_of_pos (by simp [hc])]
              exact Nat.le_trans (List.dropWhile_suffix _).length_le hk'
          rw [ih _ this]
        · have ho : (10 : UInt8) ∉ tokenOpen := by decide +kernel
          rw [dropWhile_append_not _ hn, dropWhile_append_not _ hn, dropWhile_append_not _ ho,
            dropWhile_append_not _ ho, dropWhile_append_not _ h1, dropWhile_append_not _ h2]
      · have hp' : ¬ tokenOpen <+: (c :: a) ++ (tokenOpen ++ (t' ++ b)) := fun h => hp (same.mpr h)
        rw [List.cons_append] at hp hp'
        rw [List.cons_append, List.cons_append, subst_none (tokenLen_none hp), subst_none (tokenLen_none hp'), ih a hk']

/-- C102.  What is logged does not depend on the token: two queries that differ only in what stands behind
`"authToken":"` on its line are logged alike, wherever and however often it stands. -/
theorem c102_token_hidden (a t t' b : Bytes) (h1 : 10 ∉ t) (h2 : 10 ∉ t') :
    redact (a ++ (b!"\"authToken\":\"" ++ (t ++ b))) = redact (a ++ (b!"\"authToken\":\"" ++ (t' ++ b))) := by
  unfold redact
  have : sreReplace tokenLen tokenRep (a ++ (tokenOpen ++ (t ++ b))) = sreReplace tokenLen tokenRep (a ++ (tokenOpen ++ (t' ++ b))) := by
    unfold sreReplace
    rw [token_same _ a t t' b (Nat.le_refl _) h1 h2]
  rw [show b!"\"authToken\":\"" = tokenOpen from rfl, this]

example : redact (b!"INSERT INTO x VALUES('{\"a\":1,\"authToken\":\"c0ffee\",\"b\":2}');") =
    b!"INSERT INTO x VALUES('{\"a\":1,\"authToken\":<REDACTED>" := by decide +kernel

/-! ## Encrypted values -/

theorem cipher_chars {ds hs : Bytes} (h1 : ∀ c ∈ ds, isDigit c = true) (h3 : ∀ c ∈ hs, isHex c = true) :
    ∀ c ∈ 118 :: (ds ++ 58 :: hs), c ≠ 60 ∧ c ≠ 62 ∧ c ≠ 34 ∧ c ≠ 91 ∧ c ≠ 93 := by
  have key : ∀ c : UInt8, (c = 118 ∨ c = 58 ∨ isDigit c = true ∨ isHex c = true) → c ≠ 60 ∧ c ≠ 62 ∧ c ≠ 34 ∧ c ≠ 91 ∧ c ≠ 93 :=
    forall_u8 (by decide +kernel)
  intro c hc
  apply key
  rcases List.mem_cons.mp hc with rfl | hc
  · exact .inl rfl
  · rcases List.mem_append.mp hc with hc | hc
    · exact .inr (.inr (.inl (h1 c hc)))
    · rcases List.mem_cons.mp hc with rfl | hc
      · exact .inr (.inl rfl)
      · exact .inr (.inr (.inr (h3 c hc)))

theorem digit_iff : ∀ c : UInt8, isDigit c = true ↔ c ∈ b!"0123456789" := by
  have : ∀ n : Fin 256, isDigit (UInt8.ofNat n) = true ↔ UInt8.ofNat n ∈ b!"0123456789" := by decide +kernel
  intro c
  have h := this ⟨c.toNat, c.toNat_lt⟩
  rwa [UInt8.ofNat_toNat] at h

theorem hex_iff : ∀ c : UInt8, isHex c = true ↔ c ∈ b!"0123456789ABCDEF" := by
  have : ∀ n : Fin 256, isHex (UInt8.ofNat n) = true ↔ UInt8.ofNat n ∈ b!"0123456789ABCDEF" := by decide +kernel
  intro c
  have h := this ⟨c.toNat, c.toNat_lt⟩
  rwa [UInt8.ofNat_toNat] at h

/-- C102.  No encrypted value, a version and at least ten hexadecimal digits, is logged. -/
theorem c102_cipher_gone (s ds hs : Bytes) (h1 : ∀ c ∈ ds, c ∈ b!"0123456789") (h2 : ds ≠ []) (h3 : ∀ c ∈ hs, c ∈ b!"0123456789ABCDEF")
    (h4 : 10 ≤ hs.length) : ¬ (b!"v" ++ ds ++ b!":" ++ hs) <:+: redact s := by
  replace h1 : ∀ c ∈ ds, isDigit c = true := fun c hc => (digit_iff c).mpr (h1 c hc)
  replace h3 : ∀ c ∈ hs, isHex c = true := fun c hc => (hex_iff c).mpr (h3 c hc)
  have e : b!"v" ++ ds ++ b!":" ++ hs = 118 :: (ds ++ 58 :: hs) := by simp
  have hc := cipher_chars h1 h3
  rw [e]
  have hv : ∀ rep : Bytes, 118 ∉ rep → ¬ (118 :: (ds ++ 58 :: hs)) <:+: rep :=
    fun rep hr h => hr (h.subset List.mem_cons_self)
  unfold redact sreReplace
  refine not_infix_cstr (no_new edits_fits (fun h => (hc _ h).2.2.2.1 rfl) (by simp) (fun _ _ j _ hj => inside_end (e := 93)
    (fun h => (hc _ h).2.2.2.2 rfl) (by decide +kernel) (hv _ (by decide +kernel)) _ j hj) ?_)
  refine not_infix_cstr (no_new html_fits (fun h => (hc _ h).1 rfl) (by simp) (fun _ _ j _ hj => inside_end (e := 34)
    (fun h => (hc _ h).2.2.1 rfl) (by decide +kernel) (hv _ (by decide +kernel)) _ j hj) ?_)
  refine not_infix_cstr ?_
  intro h
  obtain ⟨t, _, h6, r, h7⟩ := occurs cipher_fits (fun h => (hc _ h).1 rfl) (by simp) (fun _ _ j _ hj => inside_end (e := 62)
    (fun h => (hc _ h).2.1 rfl) (by decide +kernel) (hv _ (by decide +kernel)) _ j hj) _ _ (Nat.le_refl _) h
  have := cipherLen_isSome (r := r) h1 h2 h3 h4
  rw [← h7, List.cons_append, List.append_assoc, List.cons_append] at h6
  rw [h6] at this
  cases this

example : redact (b!"UPDATE cards SET number='v2:0123456789ABCDEF' WHERE id=7;") = b!"UPDATE cards SET number='<REDACTED>' WHERE id=7;" := by
  decide +kernel

/-- A byte that is in no match. -/
theorem cipher_split (d : UInt8) (hd : d ≠ 118 ∧ d ≠ 58 ∧ isDigit d = false ∧ isHex d = false) (y : Bytes) (k : Nat) (x : Bytes)
    (hk : x.length ≤ k) :
    subst cipherLen cipherRep 0 (x ++ d :: y) = subst cipherLen cipherRep 0 x ++ d :: subst cipherLen cipherRep 0 y := by
  induction k generalizing x with
  | zero =>
    obtain rfl : x = [] := List.eq_nil_of_length_eq_zero (Nat.le_zero.mp hk)
    rw [List.nil_append, subst_none, subst, List.nil_append]
    cases hl : cipherLen (d :: y) with
    | none => rfl
    | some n =>
      obtain ⟨_, _, _, h, _⟩ := cipherLen_some hl
      exact absurd (List.cons.inj h).1 hd.1
  | succ k ih =>
    cases x with
    | nil => exact ih [] (Nat.zero_le k)
    | cons c x =>
      have hk' : x.length ≤ k := by rw [List.length_cons] at hk; omega
      -- a match does not reach the byte
      have key : ∀ n, cipherLen (c :: x) = some n ↔ cipherLen (c :: x ++ d :: y) = some n := by
        intro n
        have hdig : ∀ l : Bytes, (l ++ d :: y).takeWhile isDigit = l.takeWhile isDigit := by
          intro l
          induction l with
          | nil => rw [List.nil_append, List.takeWhile_cons_of_neg (by rw [hd.2.2.1]; simp)]; rfl
          | cons e l ih => rw [List.cons_append, List.takeWhile_cons, List.takeWhile_cons, ih]
        have hhex : ∀ l : Bytes, (l ++ d :: y).takeWhile isHex = l.takeWhile isHex := by
          intro l
          induction l with
          | nil => rw [List.nil_append, List.takeWhile_cons_of_neg (by rw [hd.2.2.2]; simp)]; rfl
          | cons e l ih => rw [List.cons_append, List.takeWhile_cons, List.takeWhile_cons, ih]
        have hdrop : ∀ l : Bytes, (l ++ d :: y).dropWhile isDigit = l.dropWhile isDigit ++ d :: y := by
          intro l
          induction l with
          | nil => rw [List.nil_append, List.dropWhile_cons_of_neg (by rw [hd.2.2.1]; simp)]; rfl
          | cons e l ih => rw [List.cons_append, List.dropWhile_cons, List.dropWhile_cons, ih]; split <;> rfl
        by_cases hc : c = 118
        · subst hc
          rw [List.cons_append]
          unfold cipherLen
          simp only [hdrop, hdig]
          cases hx : x.dropWhile isDigit with
          | nil =>
            simp only [List.nil_append]
            have : ¬ d = 58 := hd.2.1
            split
            · rename_i h; exact absurd (List.cons.inj h).1 this
            · exact Iff.rfl
          | cons e r =>
            by_cases he : e = 58
            · subst he
              simp only [List.cons_append, hhex]
            · rw [List.cons_append]
              split
              · rename_i h; exact absurd (List.cons.inj h).1 he
              · split
                · rename_i h; exact absurd (List.cons.inj h).1 he
                · exact Iff.rfl
        · constructor
          · intro h
            obtain ⟨_, _, _, h, _⟩ := cipherLen_some h
            exact absurd (List.cons.inj h).1 hc
          · intro h
            obtain ⟨_, _, _, h, _⟩ := cipherLen_some h
            exact absurd (List.cons.inj h).1 hc
      cases hl : cipherLen (c :: x) with
      | none =>
        have hl' : cipherLen (c :: (x ++ d :: y)) = none := by
          cases h : cipherLen (c :: (x ++ d :: y)) with
          | none => rfl
          | some n => rw [(key n).mpr h] at hl; cases hl
        rw [List.cons_append, subst_none hl', subst_none hl, ih x hk', List.cons_append]
      | some n =>
        have hl' := (key n).mp hl
        obtain ⟨ds, hs, r, h1, h2, h3, _⟩ := cipherLen_some hl
        have hn : n ≤ (c :: x).length := by rw [h1, h2]; simp; omega
        have hpos := cipher_fits.pos hl
        rw [subst_some hl' (by simp) hpos, subst_some hl (by simp) hpos, List.drop_append, show n - (c :: x).length = 0 by omega,
          List.drop_zero, ih _ (by rw [List.length_drop, List.length_cons]; omega), List.append_assoc]

theorem cipher_id {s : Bytes} (h : 118 ∉ s) : subst cipherLen cipherRep 0 s = s := by
  refine subst_id _ fun t ht _ => ?_
  cases hl : cipherLen t with
  | none => rfl
  | some n =>
    obtain ⟨_, _, _, e, _⟩ := cipherLen_some hl
    exact absurd (ht.subset (by rw [e]; exact List.mem_cons_self)) h

theorem token_id {s : Bytes} (h : ¬ tokenOpen <:+: s) : subst tokenLen tokenRep 0 s = s :=
  subst_id _ fun _ ht _ => tokenLen_none fun h' => h (h'.isInfix.trans ht.isInfix)

theorem html_id {s : Bytes} (h : ¬ htmlOpen <:+: s) : subst htmlLen htmlRep 0 s = s := by
  refine subst_id _ fun t ht _ => ?_
  cases hl : htmlLen t with
  | none => rfl
  | some n => exact absurd ((htmlLen_some hl).1.isInfix.trans ht.isInfix) h

theorem edits_id {s : Bytes} (h : ¬ editsOpen <:+: s) : subst editsLen editsRep 0 s = s := by
  refine subst_id _ fun t ht _ => ?_
  cases hl : editsLen t with
  | none => rfl
  | some n => exact absurd ((editsLen_some hl).1.isInfix.trans ht.isInfix) h

/-- C102.  A query with nothing to hide is logged as it is. -/
theorem c102_untouched (s : Bytes) (h0 : 0 ∉ s) (h1 : ¬ b!"\"authToken\":\"" <:+: s)
    (h2 : ∀ ds hs, (∀ c ∈ ds, c ∈ b!"0123456789") → ds ≠ [] → (∀ c ∈ hs, c ∈ b!"0123456789ABCDEF") → 10 ≤ hs.length →
      ¬ (b!"v" ++ ds ++ b!":" ++ hs) <:+: s)
    (h3 : ¬ b!"\"html\":\"" <:+: s) (h4 : ¬ b!"\"edits\":[" <:+: s) : redact s = s := by
  have e2 : subst cipherLen cipherRep 0 s = s := by
    refine subst_id _ fun t ht hne => ?_
    clear hne
    unfold cipherLen
    split
    · rename_i s'
      split
      · rename_i r hr
        rw [if_neg]
        rintro ⟨ha, hb⟩
        have e := List.takeWhile_append_dropWhile (p := isDigit) (l := s')
        rw [hr] at e
        refine h2 _ _ (fun c hc => (digit_iff c).mp (List.all_eq_true.mp List.all_takeWhile c hc)) ha
          (fun c hc => (hex_iff c).mp (List.all_eq_true.mp List.all_takeWhile c hc)) hb (List.IsInfix.trans ?_ ht.isInfix)
        refine ⟨[], r.dropWhile isHex, ?_⟩
        rw [List.nil_append, List.append_assoc, List.append_assoc, List.append_assoc, List.takeWhile_append_dropWhile]
        exact congrArg (List.cons 118) e
      · rfl
    · rfl
  unfold redact sreReplace
  rw [token_id h1, cstr_eq h0, e2, cstr_eq h0, html_id h3, cstr_eq h0, edits_id h4, cstr_eq h0]

example : ¬ b!"\"html\":\"" <:+: b!"SELECT \"html\" FROM t WHERE v=1;" := fun h => absurd (sContains_iff.mpr h) (by decide +kernel)

/-! ## Chats -/

theorem html_same (k : Nat) (a t t' b : Bytes) (hk : a.length ≤ k) (h1 : 10 ∉ t) (h2 : 10 ∉ t') :
    subst htmlLen htmlRep 0 (a ++ (htmlOpen ++ (t ++ 34 :: b))) = subst htmlLen htmlRep 0 (a ++ (htmlOpen ++ (t' ++ 34 :: b))) := by
  -- what is left after a match on the line of the chat
  have rest : ∀ (a t : Bytes), 10 ∉ a → 10 ∉ t → afterQuote (a ++ (htmlOpen ++ (t ++ 34 :: b))) = afterQuote (34 :: b) := by
    intro a t ha ht
    have ho : (10 : UInt8) ∉ htmlOpen := by decide +kernel
    unfold afterQuote
    rw [line_append _ ha, line_append _ ho, line_append _ ht, dropWhile_append_not _ ha, dropWhile_append_not _ ho,
      dropWhile_append_not _ ht, ← List.append_assoc, ← List.append_assoc, takeWhile_reverse_append]
    unfold line
    rw [List.takeWhile_cons_of_pos (by decide)]
    exact List.mem_cons_self
  have quote : ∀ (a t : Bytes), 10 ∉ a → 10 ∉ t → 34 ∈ line ((a ++ (htmlOpen ++ (t ++ 34 :: b))).drop 8) := by
    intro a t ha ht
    have : (a ++ (htmlOpen ++ (t ++ 34 :: b))).drop 8 = (a ++ htmlOpen).drop 8 ++ (t ++ 34 :: b) := by
      rw [← List.append_assoc, List.drop_append_of_le_length]
      rw [List.length_append]
      exact Nat.le_add_left 8 _
    rw [this, line_append, line_append _ ht]
    · refine List.mem_append_right _ (List.mem_append_right _ ?_)
      unfold line
      rw [List.takeWhile_cons_of_pos (by decide)]
      exact List.mem_cons_self
    · intro h
      rcases List.mem_append.mp (List.mem_of_mem_drop h) with h | h
      · exact ha h
      · exact absurd h (by decide +kernel)
  have first : ∀ (a t : Bytes), 10 ∉ a → 10 ∉ t → htmlOpen <+: a ++ (htmlOpen ++ (t ++ 34 :: b)) →
      subst htmlLen htmlRep 0 (a ++ (htmlOpen ++ (t ++ 34 :: b))) = htmlRep ++ subst htmlLen htmlRep 0 (afterQuote (34 :: b)) := by
    intro a t ha ht hp
    obtain ⟨n, hl⟩ := htmlLen_isSome hp (quote a t ha ht)
    rw [subst_some hl (html_fits.nonempty hl) (html_fits.pos hl), (htmlLen_some hl).2.2.1, rest a t ha ht]
  induction k generalizing a with
  | zero =>
    obtain rfl : a = [] := List.eq_nil_of_length_eq_zero (Nat.le_zero.mp hk)
    rw [first [] t (by simp) h1 (List.prefix_append _ _), first [] t' (by simp) h2 (List.prefix_append _ _)]
  | succ k ih =>
    cases a with
    | nil => exact ih [] (Nat.zero_le k)
    | cons c a =>
      have hk' : a.length ≤ k := by rw [List.length_cons] at hk; omega
      have same := prefix_same (p := htmlOpen) (c :: a) htmlOpen (t ++ 34 :: b) (t' ++ 34 :: b) (by omega)
      by_cases hp : htmlOpen <+: (c :: a) ++ (htmlOpen ++ (t ++ 34 :: b))
      · by_cases hn : 10 ∈ c :: a
        · -- the line ends before the chat
          have hsplit : ∀ t, line ((c :: a) ++ (htmlOpen ++ (t ++ 34 :: b))) = line (c :: a) := fun t => takeWhile_append_mem _ hn
          have hlen : ∀ t : Bytes, htmlOpen <+: (c :: a) ++ (htmlOpen ++ (t ++ 34 :: b)) →
              line (((c :: a) ++ (htmlOpen ++ (t ++ 34 :: b))).drop 8) = (line (c :: a)).drop 8 := by
            intro t hp
            rw [← hsplit t]
            obtain ⟨r, hr⟩ := hp
            rw [← hr, line_append _ (by decide +kernel)]
            rfl
          cases hl : htmlLen ((c :: a) ++ (htmlOpen ++ (t ++ 34 :: b))) with
          | some n =>
            have hq := (htmlLen_some hl).2.2.2
            rw [hlen t hp, ← hlen t' (same.mp hp)] at hq
            obtain ⟨n', hl'⟩ := htmlLen_isSome (same.mp hp) hq
            rw [subst_some hl (html_fits.nonempty hl) (html_fits.pos hl), (htmlLen_some hl).2.2.1,
              subst_some hl' (html_fits.nonempty hl') (html_fits.pos hl'), (htmlLen_some hl').2.2.1]
            have e : ∀ t, afterQuote ((c :: a) ++ (htmlOpen ++ (t ++ 34 :: b))) = afterQuote (c :: a) ++ (htmlOpen ++ (t ++ 34 :: b)) := by
              intro t
              unfold afterQuote
              rw [hsplit t, dropWhile_append_mem _ hn, List.append_assoc]
            rw [e t, e t']
            have : (afterQuote (c :: a)).length ≤ k := by
              have h1 := (htmlLen_some hl).2.2.1
              rw [e t] at h1
              have h2 := congrArg List.length h1
              have h3 := html_fits.pos hl
              simp only [List.length_drop, List.length_append, List.length_cons] at h2 hk
              omega
            rw [ih _ this]
          | none =>
            have hl' : htmlLen ((c :: a) ++ (htmlOpen ++ (t' ++ 34 :: b))) = none := by
              cases h : htmlLen ((c :: a) ++ (htmlOpen ++ (t' ++ 34 :: b))) with
              | none => rfl
              | some n =>
                have hq := (htmlLen_some h).2.2.2
                rw [hlen t' (same.mp hp), ← hlen t hp] at hq
                obtain ⟨n', h'⟩ := htmlLen_isSome hp hq
                rw [h'] at hl; cases hl
            rw [List.cons_append] at hl hl'
            rw [List.cons_append, List.cons_append, subst_none hl, subst_none hl', ih a hk']
        · rw [first _ t hn h1 hp, first _ t' hn h2 (same.mp hp)]
      · have hl : htmlLen ((c :: a) ++ (htmlOpen ++ (t ++ 34 :: b))) = none := by
          cases h : htmlLen ((c :: a) ++ (htmlOpen ++ (t ++ 34 :: b))) with
          | none => rfl
          | some n => exact absurd (htmlLen_some h).1 hp
        have hl' : htmlLen ((c :: a) ++ (htmlOpen ++ (t' ++ 34 :: b))) = none := by
          cases h : htmlLen ((c :: a) ++ (htmlOpen ++ (t' ++ 34 :: b))) with
          | none => rfl
          | some n => exact absurd (same.mpr (htmlLen_some h).1) hp
        rw [List.cons_append] at hl hl'
        rw [List.cons_append, List.cons_append, subst_none hl, subst_none hl', ih a hk']

theorem cipher_step_zero {s : Bytes} (h : 0 ∉ s) : 0 ∉ subst cipherLen cipherRep 0 s :=
  fun h' => (subst_subset _ _ 0 s h').elim h (by decide +kernel)

theorem cipher_step_ten {s : Bytes} (h : 10 ∉ s) : 10 ∉ subst cipherLen cipherRep 0 s :=
  fun h' => (subst_subset _ _ 0 s h').elim h (by decide +kernel)

theorem cipher_html (a t b : Bytes) : subst cipherLen cipherRep 0 (a ++ (htmlOpen ++ (t ++ 34 :: b))) =
    subst cipherLen cipherRep 0 a ++ (htmlOpen ++ (subst cipherLen cipherRep 0 t ++ 34 :: subst cipherLen cipherRep 0 b)) := by
  have hd : (34 : UInt8) ≠ 118 ∧ (34 : UInt8) ≠ 58 ∧ isDigit 34 = false ∧ isHex 34 = false := by decide
  rw [show htmlOpen ++ (t ++ 34 :: b) = 34 :: (b!"html" ++ 34 :: (b!":" ++ 34 :: (t ++ 34 :: b))) from rfl,
    cipher_split 34 hd _ _ a (Nat.le_refl _), cipher_split 34 hd _ _ (b!"html") (Nat.le_refl _),
    cipher_split 34 hd _ _ (b!":") (Nat.le_refl _), cipher_split 34 hd _ _ t (Nat.le_refl _), cipher_id (s := b!"html") (by decide),
    cipher_id (s := b!":") (by decide)]
  rfl

/-- C102.  Nor on a chat: two queries that differ only in the text behind `"html":"`, up to a closing quote, are logged
alike.  The text may have anything but a newline, and quotes in it do not matter. -/
theorem c102_html_hidden (a t t' b : Bytes) (h1 : 10 ∉ t) (h2 : 10 ∉ t')
    (hs : ∀ x ∈ [t, t'], 0 ∉ a ++ (b!"\"html\":\"" ++ (x ++ 34 :: b)) ∧ ¬ b!"\"authToken\":\"" <:+: a ++ (b!"\"html\":\"" ++ (x ++ 34 :: b))) :
    redact (a ++ (b!"\"html\":\"" ++ (t ++ 34 :: b))) = redact (a ++ (b!"\"html\":\"" ++ (t' ++ 34 :: b))) := by
  obtain ⟨z1, k1⟩ := hs t (by simp)
  obtain ⟨z2, k2⟩ := hs t' (by simp)
  unfold redact sreReplace
  rw [token_id k1, cstr_eq z1, token_id k2, cstr_eq z2, cstr_eq (cipher_step_zero z1), cstr_eq (cipher_step_zero z2)]
  have e := html_same _ (subst cipherLen cipherRep 0 a) (subst cipherLen cipherRep 0 t) (subst cipherLen cipherRep 0 t')
    (subst cipherLen cipherRep 0 b) (Nat.le_refl _) (cipher_step_ten h1) (cipher_step_ten h2)
  rw [← cipher_html, ← cipher_html] at e
  rw [show b!"\"html\":\"" = htmlOpen from rfl, e]

example : redact (b!"{\"html\":\"I said \\\"no\\\"\",\"id\":5}") = b!"{\"html\":\"<REDACTED>\":5}" := by decide +kernel

theorem line_of_not {s : Bytes} (h : 10 ∉ s) : line s = s := by
  have := line_append (a := s) [] h
  rwa [List.append_nil, show line [] = [] from rfl, List.append_nil] at this

theorem edits_same (k : Nat) (a t t' b : Bytes) (hk : a.length ≤ k) (h1 : 10 ∉ t ∧ 93 ∉ t) (h2 : 10 ∉ t' ∧ 93 ∉ t') :
    subst editsLen editsRep 0 (a ++ (editsOpen ++ (t ++ 93 :: b))) = subst editsLen editsRep 0 (a ++ (editsOpen ++ (t' ++ 93 :: b))) := by
  have ho : (10 : UInt8) ∉ editsOpen := by decide +kernel
  have ho' : (93 : UInt8) ∉ editsOpen := by decide +kernel
  have first : ∀ (a t : Bytes), 10 ∉ a → 93 ∉ a → (10 ∉ t ∧ 93 ∉ t) → editsOpen <+: a ++ (editsOpen ++ (t ++ 93 :: b)) →
      subst editsLen editsRep 0 (a ++ (editsOpen ++ (t ++ 93 :: b))) = editsRep ++ subst editsLen editsRep 0 b := by
    intro a t ha ha' ht hp
    obtain ⟨n, hl⟩ := editsLen_isSome hp (by
      rw [line_append _ ha, line_append _ ho, line_append _ ht.1]
      refine List.mem_append_right _ (List.mem_append_right _ (List.mem_append_right _ ?_))
      unfold line
      rw [List.takeWhile_cons_of_pos (by decide)]
      exact List.mem_cons_self)
    rw [subst_some hl (edits_fits.nonempty hl) (edits_fits.pos hl), (editsLen_some hl).2.2.1, dropWhile_append_not _ ha',
      dropWhile_append_not _ ho', dropWhile_append_not _ ht.2, List.dropWhile_cons_of_neg (by decide), List.drop_one, List.tail_cons]
  induction k generalizing a with
  | zero =>
    obtain rfl : a = [] := List.eq_nil_of_length_eq_zero (Nat.le_zero.mp hk)
    rw [first [] t (by simp) (by simp) h1 (List.prefix_append _ _), first [] t' (by simp) (by simp) h2 (List.prefix_append _ _)]
  | succ k ih =>
    cases a with
    | nil => exact ih [] (Nat.zero_le k)
    | cons c a =>
      have hk' : a.length ≤ k := by rw [List.length_cons] at hk; omega
      have same := prefix_same (p := editsOpen) (c :: a) editsOpen (t ++ 93 :: b) (t' ++ 93 :: b) (by omega)
      -- nothing is replaced at the first byte
      have kept : (∀ x ∈ [t, t'], ∀ n, editsLen ((c :: a) ++ (editsOpen ++ (x ++ 93 :: b))) ≠ some n) →
          subst editsLen editsRep 0 ((c :: a) ++ (editsOpen ++ (t ++ 93 :: b))) =
            subst editsLen editsRep 0 ((c :: a) ++ (editsOpen ++ (t' ++ 93 :: b))) := by
        intro h
        have g : ∀ x ∈ [t, t'], editsLen (c :: (a ++ (editsOpen ++ (x ++ 93 :: b)))) = none := by
          intro x hx
          cases hl : editsLen (c :: (a ++ (editsOpen ++ (x ++ 93 :: b)))) with
          | none => rfl
          | some n => exact absurd hl (h x hx n)
        rw [List.cons_append, List.cons_append, subst_none (g t (by simp)), subst_none (g t' (by simp)), ih a hk']
      by_cases hp : editsOpen <+: (c :: a) ++ (editsOpen ++ (t ++ 93 :: b))
      · by_cases hb : 93 ∈ line (c :: a)
        · have hm : 93 ∈ c :: a := (List.takeWhile_prefix _).subset hb
          have hx : ∀ x, editsOpen <+: (c :: a) ++ (editsOpen ++ (x ++ 93 :: b)) →
              subst editsLen editsRep 0 ((c :: a) ++ (editsOpen ++ (x ++ 93 :: b))) =
                editsRep ++ subst editsLen editsRep 0 (((c :: a).dropWhile (· != 93)).drop 1 ++ (editsOpen ++ (x ++ 93 :: b))) := by
            intro x hp
            obtain ⟨n, hl⟩ := editsLen_isSome hp (by
              by_cases hn : 10 ∈ c :: a
              · unfold line at hb ⊢
                rwa [takeWhile_append_mem _ hn]
              · rw [line_append _ hn]
                exact List.mem_append_left _ hm)
            rw [subst_some hl (edits_fits.nonempty hl) (edits_fits.pos hl), (editsLen_some hl).2.2.1, dropWhile_append_mem _ hm,
              List.drop_append_of_le_length]
            exact Nat.one_le_iff_ne_zero.mpr fun e => absurd (dropWhile_nil.mp (List.eq_nil_of_length_eq_zero e)) (fun h => h hm)
          rw [hx t hp, hx t' (same.mp hp), ih]
          have := (List.dropWhile_suffix (· != (93 : UInt8)) (l := c :: a)).length_le
          rw [List.length_drop]
          omega
        · by_cases hn : 10 ∈ c :: a
          · refine kept fun x _ n hl => hb ?_
            have := (editsLen_some hl).2.2.2
            unfold line at this ⊢
            rwa [takeWhile_append_mem _ hn] at this
          · have hb' : 93 ∉ c :: a := by rwa [line_of_not hn] at hb
            rw [first _ t hn hb' h1 hp, first _ t' hn hb' h2 (same.mp hp)]
      · refine kept fun x hx n hl => hp ?_
        rcases List.mem_cons.mp hx with rfl | hx
        · exact (editsLen_some hl).1
        · rw [List.mem_singleton.mp hx] at hl
          exact same.mpr (editsLen_some hl).1

theorem cipher_edits (a t b : Bytes) : subst cipherLen cipherRep 0 (a ++ (editsOpen ++ (t ++ 93 :: b))) =
    subst cipherLen cipherRep 0 a ++ (editsOpen ++ (subst cipherLen cipherRep 0 t ++ 93 :: subst cipherLen cipherRep 0 b)) := by
  have hd : (34 : UInt8) ≠ 118 ∧ (34 : UInt8) ≠ 58 ∧ isDigit 34 = false ∧ isHex 34 = false := by decide
  have hd2 : (91 : UInt8) ≠ 118 ∧ (91 : UInt8) ≠ 58 ∧ isDigit 91 = false ∧ isHex 91 = false := by decide
  have hd3 : (93 : UInt8) ≠ 118 ∧ (93 : UInt8) ≠ 58 ∧ isDigit 93 = false ∧ isHex 93 = false := by decide
  rw [show editsOpen ++ (t ++ 93 :: b) = 34 :: (b!"edits" ++ 34 :: (b!":" ++ 91 :: (t ++ 93 :: b))) from rfl,
    cipher_split 34 hd _ _ a (Nat.le_refl _), cipher_split 34 hd _ _ (b!"edits") (Nat.le_refl _),
    cipher_split 91 hd2 _ _ (b!":") (Nat.le_refl _), cipher_split 93 hd3 _ _ t (Nat.le_refl _), cipher_id (s := b!"edits") (by decide),
    cipher_id (s := b!":") (by decide)]
  rfl

theorem cipher_keeps {p : Bytes} (hne : p ≠ []) (h60 : 60 ∉ p) (h62 : 62 ∉ p) (hr : ¬ p <:+: cipherRep) {s : Bytes} (h : ¬ p <:+: s) :
    ¬ p <:+: subst cipherLen cipherRep 0 s :=
  no_new cipher_fits h60 hne (fun _ _ j _ hj => inside_end (e := 62) h62 (by decide +kernel) hr _ j hj) h

/-- C102.  The edits of a chat are hidden if none has a closing bracket. -/
theorem c102_edits_hidden (a t t' b : Bytes) (h1 : 10 ∉ t ∧ 93 ∉ t) (h2 : 10 ∉ t' ∧ 93 ∉ t')
    (hs : ∀ x ∈ [t, t'], 0 ∉ a ++ (b!"\"edits\":[" ++ (x ++ 93 :: b)) ∧ ¬ b!"\"authToken\":\"" <:+: a ++ (b!"\"edits\":[" ++ (x ++ 93 :: b)) ∧
      ¬ b!"\"html\":\"" <:+: a ++ (b!"\"edits\":[" ++ (x ++ 93 :: b))) :
    redact (a ++ (b!"\"edits\":[" ++ (t ++ 93 :: b))) = redact (a ++ (b!"\"edits\":[" ++ (t' ++ 93 :: b))) := by
  obtain ⟨z1, k1, l1⟩ := hs t (by simp)
  obtain ⟨z2, k2, l2⟩ := hs t' (by simp)
  have l1' := cipher_keeps (by decide) (by decide +kernel) (by decide +kernel) (fun h => absurd (sContains_iff.mpr h) (by decide +kernel)) l1
  have l2' := cipher_keeps (by decide) (by decide +kernel) (by decide +kernel) (fun h => absurd (sContains_iff.mpr h) (by decide +kernel)) l2
  have step : ∀ t : Bytes, 10 ∉ t ∧ 93 ∉ t → 10 ∉ subst cipherLen cipherRep 0 t ∧ 93 ∉ subst cipherLen cipherRep 0 t := fun t h =>
    ⟨cipher_step_ten h.1, fun h' => (subst_subset _ _ 0 t h').elim h.2 (by decide +kernel)⟩
  unfold redact sreReplace
  rw [token_id k1, cstr_eq z1, token_id k2, cstr_eq z2, cstr_eq (cipher_step_zero z1), cstr_eq (cipher_step_zero z2),
    html_id l1', html_id l2', cstr_eq (cipher_step_zero z1), cstr_eq (cipher_step_zero z2)]
  have e := edits_same _ (subst cipherLen cipherRep 0 a) (subst cipherLen cipherRep 0 t) (subst cipherLen cipherRep 0 t')
    (subst cipherLen cipherRep 0 b) (Nat.le_refl _) (step t h1) (step t' h2)
  rw [← cipher_edits, ← cipher_edits] at e
  rw [show b!"\"edits\":[" = editsOpen from rfl, e]

example : redact (b!"{\"edits\":[\"one\",\"two\"],\"id\":5}") = b!"{\"edits\":[\"REDACTED\"],\"id\":5}" := by decide +kernel

/-! ## What is missing -/

theorem suffix_quote {a l r : Bytes} (ha : 34 ∉ a) (h : 34 :: r <:+ a ++ l) : 34 :: r <:+ l := by
  induction a with
  | nil => exact h
  | cons c a ih =>
    rcases List.suffix_cons_iff.mp h with h | h
    · exact absurd (List.cons.inj h).1 (fun e => ha (e ▸ List.mem_cons_self))
    · exact ih (fun h => ha (List.mem_cons_of_mem _ h)) h

/-- The quotes of a text that opens a chat and does not close it. -/
theorem open_quotes {a t r : Bytes} (ha : 34 ∉ a) (ht : 34 ∉ t) (h : 34 :: r <:+ a ++ (htmlOpen ++ t)) :
    r = b!"html\":\"" ++ t ∨ r = b!":\"" ++ t ∨ r = t := by
  have h := suffix_quote ha h
  rw [show htmlOpen ++ t = 34 :: (b!"html" ++ 34 :: (b!":" ++ 34 :: t)) from rfl] at h
  rcases List.suffix_cons_iff.mp h with h | h
  · exact .inl (List.cons.inj h).2
  · rcases List.suffix_cons_iff.mp (suffix_quote (by decide +kernel) h) with h | h
    · exact .inr (.inl (List.cons.inj h).2)
    · rcases List.suffix_cons_iff.mp (suffix_quote (by decide +kernel) h) with h | h
      · exact .inr (.inr (List.cons.inj h).2)
      · exact absurd (h.subset List.mem_cons_self) ht

theorem open_not {p a t : Bytes} {c : UInt8} (hc : c ≠ 104 ∧ c ≠ 58) (hq : 34 ∈ c :: p) (ha : 34 ∉ a) (ht : 34 ∉ t) :
    ¬ 34 :: c :: p <:+: a ++ (htmlOpen ++ t) := by
  rintro ⟨x, y, h⟩
  have hs : 34 :: (c :: p ++ y) <:+ a ++ (htmlOpen ++ t) := ⟨x, by rw [← h, List.append_assoc]; rfl⟩
  rcases open_quotes ha ht hs with h | h | h
  · exact hc.1 (List.cons.inj h).1
  · exact hc.2 (List.cons.inj h).1
  · exact ht (h ▸ List.mem_append_left _ hq)

/-- C102.  What is missing: a query is cut before it is searched, and a chat whose closing quote is cut off is logged. -/
theorem c102_long_chat_logged (a t b : Bytes) (ha : a.length + 8 ≤ 200000) (hl : 200000 ≤ a.length + 8 + t.length)
    (h0 : 0 ∉ a ++ t) (hq : 34 ∉ a ++ t) (hv : 118 ∉ a ++ t) :
    sqlToLog (a ++ (b!"\"html\":\"" ++ (t ++ b))) = a ++ (b!"\"html\":\"" ++ t.take (200000 - 8 - a.length)) := by
  have cut : (a ++ (htmlOpen ++ (t ++ b))).take maxLogQuerySize = a ++ (htmlOpen ++ t.take (200000 - 8 - a.length)) := by
    have e : htmlOpen.length = 8 := by decide
    rw [show maxLogQuerySize = 200000 from rfl, List.take_append, List.take_of_length_le (by omega : a.length ≤ 200000), List.take_append,
      List.take_of_length_le (by omega : htmlOpen.length ≤ 200000 - a.length), e, List.take_append_of_le_length (by omega)]
    congr 3
    omega
  have hsub : ∀ d, d ∉ a ++ t → d ∉ a ++ t.take (200000 - 8 - a.length) := fun d h h' =>
    h ((List.mem_append.mp h').elim (List.mem_append_left _) (fun h => List.mem_append_right _ (List.mem_of_mem_take h)))
  replace h0 := hsub 0 h0
  replace hq := hsub 34 hq
  replace hv := hsub 118 hv
  unfold sqlToLog
  rw [show b!"\"html\":\"" = htmlOpen from rfl, cut]
  generalize t.take (200000 - 8 - a.length) = t at h0 hq hv
  have ha : 34 ∉ a := fun h => hq (List.mem_append_left _ h)
  have ht : 34 ∉ t := fun h => hq (List.mem_append_right _ h)
  have hz : 0 ∉ a ++ (htmlOpen ++ t) := fun h => by
    rcases List.mem_append.mp h with h | h
    · exact h0 (List.mem_append_left _ h)
    · rcases List.mem_append.mp h with h | h
      · exact absurd h (by decide +kernel)
      · exact h0 (List.mem_append_right _ h)
  have hv' : 118 ∉ a ++ (htmlOpen ++ t) := fun h => by
    rcases List.mem_append.mp h with h | h
    · exact hv (List.mem_append_left _ h)
    · rcases List.mem_append.mp h with h | h
      · exact absurd h (by decide +kernel)
      · exact hv (List.mem_append_right _ h)
  have k1 : ¬ tokenOpen <:+: a ++ (htmlOpen ++ t) := open_not (c := 97) (p := b!"uthToken\":\"") (by decide) (by decide +kernel) ha ht
  have k2 : ¬ editsOpen <:+: a ++ (htmlOpen ++ t) := open_not (c := 101) (p := b!"dits\":[") (by decide) (by decide +kernel) ha ht
  have k3 : subst htmlLen htmlRep 0 (a ++ (htmlOpen ++ t)) = a ++ (htmlOpen ++ t) := by
    refine subst_id _ fun x hx _ => ?_
    by_cases hp : htmlOpen <+: x
    · obtain ⟨y, rfl⟩ := hp
      rw [show htmlOpen ++ y = 34 :: (b!"html\":\"" ++ y) from rfl] at hx
      rcases open_quotes ha ht hx with h | h | h
      · have := List.append_cancel_left h
        subst this
        unfold htmlLen
        rw [if_pos (List.isPrefixOf_iff_prefix.mpr (List.prefix_append _ _)), show htmlOpen ++ y = b!"\"html\":\"" ++ y from rfl]
        refine if_pos (uptoLast_nil.mpr fun h => ht ?_)
        exact (List.takeWhile_prefix _).subset h
      · exact absurd (List.cons.inj h).1 (by decide)
      · exact absurd (h ▸ List.mem_append_left _ (by decide +kernel : (34 : UInt8) ∈ b!"html\":\"")) ht
    · unfold htmlLen
      rw [if_neg (fun h => hp (List.isPrefixOf_iff_prefix.mp h))]
  unfold redact sreReplace
  rw [token_id k1, cstr_eq hz, cipher_id hv', cstr_eq hz, k3, cstr_eq hz, edits_id k2, cstr_eq hz]

example : sqlToLog (b!"{" ++ (b!"\"html\":\"" ++ (List.replicate 200000 115 ++ b!"\"}"))) =
    b!"{" ++ (b!"\"html\":\"" ++ List.replicate 199991 115) := by
  have no : ∀ d : UInt8, d ∉ b!"{" → d ≠ 115 → d ∉ b!"{" ++ List.replicate 200000 115 := fun d h1 h2 h =>
    (List.mem_append.mp h).elim h1 (fun h => h2 (List.eq_of_mem_replicate h))
  rw [c102_long_chat_logged _ _ _ (by decide) (by rw [List.length_replicate]; decide) (no 0 (by decide) (by decide))
    (no 34 (by decide) (by decide)) (no 118 (by decide) (by decide)), List.take_replicate]
  rfl

/-- C102.  What is missing: an edit with a closing bracket is logged from there on, and so the log depends on it. -/
theorem c102_edits_not_hidden : ¬ ∀ t t' : Bytes, 34 ∉ t → 34 ∉ t' → 10 ∉ t → 10 ∉ t' →
    redact (b!"{\"edits\":[\"" ++ (t ++ b!"\"]}")) = redact (b!"{\"edits\":[\"" ++ (t' ++ b!"\"]}")) := by
  intro h
  have := h (b!"at [1] my secret") (b!"at [1]") (by decide) (by decide) (by decide) (by decide)
  exact absurd this (by decide +kernel)

example : redact (b!"{\"edits\":[\"at [1] my secret\"]}") = b!"{\"edits\":[\"REDACTED\"] my secret\"]}" := by decide +kernel

/-- C102.  What is missing: a chat with a newline is logged. -/
theorem c102_html_not_hidden : ¬ ∀ t t' : Bytes, 34 ∉ t → 34 ∉ t' →
    redact (b!"{\"html\":\"" ++ (t ++ b!"\"}")) = redact (b!"{\"html\":\"" ++ (t' ++ b!"\"}")) := by
  intro h
  have := h (b!"my\nsecret") (b!"my") (by decide) (by decide)
  exact absurd this (by decide +kernel)

example : redact (b!"{\"html\":\"my\nsecret\"}") = b!"{\"html\":\"my\nsecret\"}" := by decide +kernel

end Bedrock.Redact.Props
