import Verif.Lemmas.Text
import Verif.Spec.Http

/-! # Lemmas about the message format -/

namespace Bedrock.Text

/-! ## Decimal numbers -/

theorem decVal_digit (d : Nat) (h : d < 10) : decVal (UInt8.ofNat (48 + d)) = some d := by
  have : ∀ i : Fin 10, decVal (UInt8.ofNat (48 + i.val)) = some i.val := by decide +kernel
  exact this ⟨d, h⟩

theorem natDec_lt {n : Nat} (h : n < 10) : natDec n = [UInt8.ofNat (48 + n)] := by
  rw [natDec, if_pos h]

theorem natDec_ge {n : Nat} (h : ¬ n < 10) :
    natDec n = natDec (n / 10) ++ [UInt8.ofNat (48 + n % 10)] := by
  rw [natDec, if_neg h]

/-- Every character of a decimal number is a digit. -/
theorem natDec_digits (n : Nat) : ∀ c ∈ natDec n, ∃ d < 10, c = UInt8.ofNat (48 + d) := by
  induction n using Nat.strongRecOn with
  | ind n ih =>
    by_cases h : n < 10
    · rw [natDec_lt h]; intro c hc; simp only [List.mem_singleton] at hc; exact ⟨n, h, hc⟩
    · rw [natDec_ge h]
      intro c hc
      simp only [List.mem_append, List.mem_singleton] at hc
      cases hc with
      | inl hc => exact ih (n / 10) (by omega) c hc
      | inr hc => exact ⟨n % 10, by omega, hc⟩

theorem natDec_ne_nil (n : Nat) : natDec n ≠ [] := by
  by_cases h : n < 10
  · rw [natDec_lt h]; simp
  · rw [natDec_ge h]; simp

theorem digit_plain (d : Nat) (h : d < 10) :
    let c := UInt8.ofNat (48 + d)
    c ≠ 0 ∧ isSpace c = false ∧ c ≠ 45 ∧ c ≠ 43 ∧ c ≠ 92 ∧ c ≠ 13 ∧ c ≠ 10 ∧ c ≠ 9 ∧ c ≠ 32 := by
  have : ∀ i : Fin 10, let c := UInt8.ofNat (48 + i.val)
      c ≠ 0 ∧ isSpace c = false ∧ c ≠ 45 ∧ c ≠ 43 ∧ c ≠ 92 ∧ c ≠ 13 ∧ c ≠ 10 ∧ c ≠ 9 ∧ c ≠ 32 := by
    decide +kernel
  exact this ⟨d, h⟩

theorem natDec_plain (n : Nat) (c : UInt8) (hc : c ∈ natDec n) :
    c ≠ 0 ∧ isSpace c = false ∧ c ≠ 45 ∧ c ≠ 43 ∧ c ≠ 92 ∧ c ≠ 13 ∧ c ≠ 10 ∧ c ≠ 9 ∧ c ≠ 32 := by
  obtain ⟨d, hd, rfl⟩ := natDec_digits n c hc
  exact digit_plain d hd

theorem decPrefix_snoc (l : Bytes) (d acc : Nat) (hd : d < 10)
    (hl : ∀ c ∈ l, (decVal c).isSome) :
    decPrefix acc (l ++ [UInt8.ofNat (48 + d)]) = decPrefix acc l * 10 + d := by
  induction l generalizing acc with
  | nil => simp only [List.nil_append, decPrefix, decVal_digit d hd]
  | cons c l ih =>
    have := hl c (by simp)
    cases e : decVal c with
    | none => simp [e] at this
    | some v =>
      simp only [List.cons_append, decPrefix, e]
      exact ih _ (fun c hc => hl c (by simp [hc]))

theorem decPrefix_natDec (n : Nat) : decPrefix 0 (natDec n) = n := by
  induction n using Nat.strongRecOn with
  | ind n ih =>
    by_cases h : n < 10
    · rw [natDec_lt h]; simp only [decPrefix, decVal_digit n h]; omega
    · rw [natDec_ge h, decPrefix_snoc _ _ _ (by omega), ih (n / 10) (by omega)]
      · omega
      · intro c hc
        obtain ⟨d, hd, rfl⟩ := natDec_digits _ c hc
        rw [decVal_digit d hd]; rfl

theorem scanDec_natDec (n : Nat) : scanDec (natDec n) = some (n : Int) := by
  have h0 : 0 ∉ natDec n := fun h => (natDec_plain n 0 h).1 rfl
  unfold scanDec
  rw [cstr_eq h0]
  cases e : natDec n with
  | nil => exact absurd e (natDec_ne_nil n)
  | cons c l =>
    have hp := natDec_plain n c (by rw [e]; simp)
    rw [List.dropWhile_cons]
    simp only [hp.2.1, Bool.false_eq_true, if_false]
    obtain ⟨d, hd, hc⟩ := natDec_digits n c (by rw [e]; simp)
    have hs : startsDec (c :: l) = true := by simp only [startsDec, hc, decVal_digit d hd]; rfl
    have hv : decPrefix 0 (c :: l) = n := by rw [← e]; exact decPrefix_natDec n
    split
    · rename_i h; simp at h; exact absurd h.1 hp.2.2.1
    · rename_i h; simp at h; exact absurd h.1 hp.2.2.2.1
    · rw [if_pos hs, hv]

theorem stoll_natDec (n : Nat) (h : n < 2 ^ 63) : stoll (natDec n) = some (n : Int) := by
  unfold stoll
  rw [scanDec_natDec]
  simp only
  rw [if_neg (by omega)]

theorem toInt32_small (n : Nat) (h : n < 2 ^ 31) : toInt32 (n : Int) = n := by
  unfold toInt32; omega

end Bedrock.Text

namespace Bedrock.Http
open Bedrock.Text

/-! ## The order of the table -/

theorem lexLt_irrefl (a : Bytes) : lexLt a a = false := by
  induction a with
  | nil => rfl
  | cons c a ih =>
    simp only [lexLt]
    rw [if_neg (by exact UInt8.lt_irrefl c), if_neg (by exact UInt8.lt_irrefl c), ih]

theorem lexLt_trans {a b c : Bytes} (h1 : lexLt a b = true) (h2 : lexLt b c = true) :
    lexLt a c = true := by
  induction a generalizing b c with
  | nil =>
    cases c with
    | nil => cases b <;> simp [lexLt] at h2
    | cons => rfl
  | cons x a ih =>
    cases b with
    | nil => simp [lexLt] at h1
    | cons y b =>
      cases c with
      | nil => simp [lexLt] at h2
      | cons z c =>
        simp only [lexLt] at h1 h2 ⊢
        by_cases hxy : x < y
        · by_cases hyz : y < z
          · rw [if_pos (UInt8.lt_trans hxy hyz)]
          · rw [if_neg hyz] at h2
            by_cases hzy : z < y
            · rw [if_pos hzy] at h2; simp at h2
            · have : y = z := UInt8.le_antisymm (UInt8.not_lt.mp hzy) (UInt8.not_lt.mp hyz)
              subst this; rw [if_pos hxy]
        · rw [if_neg hxy] at h1
          by_cases hyx : y < x
          · rw [if_pos hyx] at h1; simp at h1
          · have : x = y := UInt8.le_antisymm (UInt8.not_lt.mp hyx) (UInt8.not_lt.mp hxy)
            subst this
            rw [if_neg hyx] at h1
            by_cases hxz : x < z
            · rw [if_pos hxz]
            · rw [if_neg hxz] at h2 ⊢
              by_cases hzx : z < x
              · rw [if_pos hzx] at h2; simp at h2
              · rw [if_neg hzx] at h2 ⊢; exact ih h1 h2

theorem lexLt_total {a b : Bytes} (h1 : lexLt a b = false) (h2 : lexLt b a = false) : a = b := by
  induction a generalizing b with
  | nil => cases b with
    | nil => rfl
    | cons => simp [lexLt] at h1
  | cons x a ih =>
    cases b with
    | nil => simp [lexLt] at h2
    | cons y b =>
      simp only [lexLt] at h1 h2
      by_cases hxy : x < y
      · rw [if_pos hxy] at h1; simp at h1
      · by_cases hyx : y < x
        · rw [if_pos hyx] at h2; simp at h2
        · have : x = y := UInt8.le_antisymm (UInt8.not_lt.mp hyx) (UInt8.not_lt.mp hxy)
          subst this
          rw [if_neg hxy, if_neg hxy] at h1 h2
          rw [ih h1 h2]

theorem lexLt_asymm {a b : Bytes} (h : lexLt a b = true) : lexLt b a = false := by
  cases e : lexLt b a with
  | false => rfl
  | true => have := lexLt_trans h e; rw [lexLt_irrefl] at this; exact absurd this (by decide)

theorem keyLt_irrefl (a : Bytes) : keyLt a a = false := lexLt_irrefl _
theorem keyLt_trans {a b c : Bytes} (h1 : keyLt a b = true) (h2 : keyLt b c = true) :
    keyLt a c = true := lexLt_trans h1 h2
theorem keyLt_asymm {a b : Bytes} (h : keyLt a b = true) : keyLt b a = false := lexLt_asymm h

theorem key_eq_iff (a b : Bytes) :
    (keyLt a b || keyLt b a) = false ↔ sToLower a = sToLower b := by
  unfold keyLt
  constructor
  · intro h
    simp only [Bool.or_eq_false_iff] at h
    exact lexLt_total h.1 h.2
  · intro h; rw [h, lexLt_irrefl]; rfl

/-- The order of a `std::map`. -/
def Table.Sorted (t : Table) : Prop := t.Pairwise (fun a b => keyLt a.1 b.1 = true)

theorem Table.set_append (t : Table) (n v : Bytes) (h : ∀ e ∈ t, keyLt e.1 n = true) :
    t.set n v = t ++ [(n, v)] := by
  induction t with
  | nil => rfl
  | cons e t ih =>
    have he := h e (by simp)
    simp only [Table.set]
    rw [if_neg (by rw [keyLt_asymm he]; decide), if_pos he, ih (fun x hx => h x (by simp [hx]))]
    rfl

theorem Table.mem_set {t : Table} {n v : Bytes} {e : Bytes × Bytes} (h : e ∈ t.set n v) :
    e ∈ t ∨ (sToLower e.1 = sToLower n ∧ e.2 = v) := by
  induction t with
  | nil => simp only [Table.set, List.mem_singleton] at h; subst h; exact .inr ⟨rfl, rfl⟩
  | cons x t ih =>
    simp only [Table.set] at h
    split at h
    · simp only [List.mem_cons] at h
      rcases h with h | h | h
      · subst h; exact .inr ⟨rfl, rfl⟩
      · subst h; exact .inl (by simp)
      · exact .inl (by simp [h])
    · split at h
      · simp only [List.mem_cons] at h
        rcases h with h | h
        · subst h; exact .inl (by simp)
        · cases ih h with
          | inl h => exact .inl (by simp [h])
          | inr h => exact .inr h
      · rename_i h1 h2
        simp only [List.mem_cons] at h
        rcases h with h | h
        · subst h
          refine .inr ⟨?_, rfl⟩
          have := (key_eq_iff x.1 n).mp (by simp [h1, h2])
          exact this
        · exact .inl (by simp [h])

theorem Table.set_sorted {t : Table} (n v : Bytes) (h : t.Sorted) : (t.set n v).Sorted := by
  unfold Table.Sorted at h ⊢
  induction t with
  | nil => simp [Table.set]
  | cons x t ih =>
    have hx := List.pairwise_cons.mp h
    simp only [Table.set]
    split
    · rename_i hlt
      refine List.pairwise_cons.mpr ⟨?_, h⟩
      intro e he
      simp only [List.mem_cons] at he
      cases he with
      | inl he => subst he; exact hlt
      | inr he => exact keyLt_trans hlt (hx.1 e he)
    · split
      · rename_i hlt
        refine List.pairwise_cons.mpr ⟨?_, ih hx.2⟩
        intro e he
        cases Table.mem_set he with
        | inl he => exact hx.1 e he
        | inr he =>
          have : keyLt x.1 e.1 = keyLt x.1 n := by unfold keyLt; rw [he.1]
          rw [this]; exact hlt
      · exact List.pairwise_cons.mpr ⟨hx.1, hx.2⟩

theorem Table.find_set (t : Table) (n v m : Bytes) (hs : t.Sorted) :
    (t.set n v).find m = if sToLower m = sToLower n then some v else t.find m := by
  unfold Table.Sorted at hs
  induction t with
  | nil =>
    simp only [Table.set, Table.find]
    by_cases h : sToLower m = sToLower n
    · rw [if_neg (by rw [(key_eq_iff m n).mpr h]; decide), if_pos h]
    · rw [if_neg h, if_pos]
      cases e : keyLt m n || keyLt n m with
      | true => rfl
      | false => exact absurd ((key_eq_iff m n).mp e) h
  | cons x t ih =>
    have hx := List.pairwise_cons.mp hs
    simp only [Table.set]
    split
    · rename_i hlt
      simp only [Table.find]
      by_cases h : sToLower m = sToLower n
      · rw [if_neg (by rw [(key_eq_iff m n).mpr h]; decide), if_pos h]
      · rw [if_neg h, if_pos]
        cases e : keyLt m n || keyLt n m with
        | true => rfl
        | false => exact absurd ((key_eq_iff m n).mp e) h
    · split
      · rename_i h1 h2
        simp only [Table.find]
        by_cases h : sToLower m = sToLower n
        · have : (keyLt m x.1 || keyLt x.1 m) = true := by
            have e : keyLt x.1 m = keyLt x.1 n := by unfold keyLt; rw [h]
            rw [e, h2]; simp
          rw [if_pos this, ih hx.2, if_pos h, if_pos h]
        · rw [ih hx.2, if_neg h, if_neg h]
      · rename_i h1 h2
        have hk : sToLower x.1 = sToLower n := (key_eq_iff x.1 n).mp (by simp [h1, h2])
        simp only [Table.find]
        by_cases h : sToLower m = sToLower n
        · rw [if_neg (by rw [(key_eq_iff m x.1).mpr (h.trans hk.symm)]; decide), if_pos h]
        · have : (keyLt m x.1 || keyLt x.1 m) = true := by
            cases e : keyLt m x.1 || keyLt x.1 m with
            | true => rfl
            | false => exact absurd (((key_eq_iff m x.1).mp e).trans hk) h
          rw [if_pos this, if_neg h, if_pos this]

theorem Table.find_some_mem {t : Table} {n v : Bytes} (h : t.find n = some v) :
    ∃ m, (m, v) ∈ t ∧ sToLower m = sToLower n := by
  induction t with
  | nil => simp [Table.find] at h
  | cons x t ih =>
    simp only [Table.find] at h
    split at h
    · obtain ⟨m, h1, h2⟩ := ih h; exact ⟨m, by simp [h1], h2⟩
    · rename_i hk
      injection h with h
      refine ⟨x.1, by rw [← h]; simp, ?_⟩
      exact ((key_eq_iff n x.1).mp (by simpa using hk)).symm

/-! ## Trimming and escaping -/

theorem dropWhile_flatMap {α β : Type} (p : α → Bool) (q : β → Bool) (f : α → List β) (t : List α)
    (h1 : ∀ c ∈ t, p c = true → ∀ x ∈ f c, q x = true)
    (h2 : ∀ c ∈ t, p c = false → ∃ a r, f c = a :: r ∧ q a = false) :
    (t.flatMap f).dropWhile q = (t.dropWhile p).flatMap f := by
  induction t with
  | nil => rfl
  | cons c t ih =>
    have ih := ih (fun c hc => h1 c (by simp [hc])) (fun c hc => h2 c (by simp [hc]))
    rw [List.flatMap_cons, List.dropWhile_cons]
    cases hp : p c with
    | true =>
      simp only [if_true]
      rw [List.dropWhile_append_of_pos (h1 c (by simp) hp), ih]
    | false =>
      obtain ⟨a, r, e, ha⟩ := h2 c (by simp) hp
      rw [e]
      simp only [List.cons_append, List.dropWhile_cons, ha, Bool.false_eq_true, if_false]
      rw [List.flatMap_cons, e]; rfl

abbrev valueSpecial : Bytes := str "\r\n\t"

theorem escB_blank : escapeByte valueSpecial 92 32 = [32] := by decide +kernel

theorem escB_first (c : UInt8) (h : c ≠ 32) :
    ∃ a r, escapeByte valueSpecial 92 c = a :: r ∧ (a == 32) = false := by
  unfold escapeByte
  split
  · exact ⟨92, _, rfl, by decide⟩
  · exact ⟨c, [], rfl, by simpa using h⟩

theorem escB_last (c : UInt8) (h : c ≠ 32) :
    ∃ a r, (escapeByte valueSpecial 92 c).reverse = a :: r ∧ (a == 32) = false := by
  have : ∀ c : UInt8, c ≠ 32 →
      ((escapeByte valueSpecial 92 c).reverse.headD 32 == 32) = false :=
    forall_u8 (by decide +kernel)
  have hc := this c h
  cases e : (escapeByte valueSpecial 92 c).reverse with
  | nil => rw [e] at hc; exact absurd hc (by decide)
  | cons a r => rw [e] at hc; exact ⟨a, r, rfl, hc⟩

theorem trimSp_escape (t : Bytes) :
    trimSp (t.flatMap (escapeByte valueSpecial 92)) = (trimSp t).flatMap (escapeByte valueSpecial 92) := by
  unfold trimSp
  rw [dropWhile_flatMap (· == 32) (· == 32) (escapeByte valueSpecial 92) t]
  · unfold trimEndSp
    rw [List.reverse_flatMap, dropWhile_flatMap (· == 32) (· == 32)]
    · rw [List.reverse_flatMap]
      congr 1
      funext x; simp
    · intro c _ hc x hx
      have : c = 32 := by simpa using hc
      subst this
      simp only [Function.comp, escB_blank] at hx
      simpa using hx
    · intro c _ hc
      exact escB_last c (by simpa using hc)
  · intro c _ hc x hx
    have : c = 32 := by simpa using hc
    subst this
    rw [escB_blank] at hx; simpa using hx
  · intro c _ hc
    exact escB_first c (by simpa using hc)

theorem mem_trimSp {c : UInt8} {s : Bytes} (h : c ∈ trimSp s) : c ∈ s := by
  unfold trimSp trimEndSp at h
  rw [List.mem_reverse] at h
  have h1 := (List.dropWhile_sublist _).mem h
  rw [List.mem_reverse] at h1
  exact (List.dropWhile_sublist _).mem h1

theorem unescape_trim_escape (v : Bytes) :
    unescape (trimSp (escape v valueSpecial 92)) 92 = Spec.carried v := by
  have h0 : 0 ∉ escape v valueSpecial 92 := zero_not_mem_escape v _ 92 (by decide)
  unfold unescape
  rw [cstr_eq (fun h => h0 (mem_trimSp h))]
  unfold escape
  rw [trimSp_escape, unescapeGo_flatMap]
  · rfl
  · exact fun h => zero_not_mem_cstr v (mem_trimSp h)
  · decide +kernel

theorem trimSp_id {s : Bytes} (h1 : s.head? ≠ some 32) (h2 : s.getLast? ≠ some 32) :
    trimSp s = s := by
  have e1 : s.dropWhile (· == 32) = s := by
    cases s with
    | nil => rfl
    | cons c s =>
      rw [List.dropWhile_cons]
      have : (c == 32) = false := by simpa using h1
      rw [this]; simp
  unfold trimSp
  rw [e1]
  unfold trimEndSp
  cases e : s.reverse with
  | nil => simp at e; subst e; rfl
  | cons c r =>
    have : (c == 32) = false := by
      have hl : s.getLast? = some c := by rw [List.getLast?_eq_head?_reverse, e]; rfl
      rw [hl] at h2; simpa using h2
    rw [List.dropWhile_cons, this]
    simp only [Bool.false_eq_true, if_false]
    rw [← e]; simp

theorem carried_good {v : Bytes} (h : Spec.GoodValue v) : Spec.carried v = v := by
  have : Spec.carried v = trimSp (cstr v) := rfl
  rw [this, cstr_eq h.noNul, trimSp_id h.start h.stop]

theorem escape_natDec (n : Nat) : escape (natDec n) valueSpecial 92 = natDec n := by
  unfold escape
  rw [cstr_eq (fun h => (natDec_plain n 0 h).1 rfl)]
  have : ∀ l : Bytes, (∀ c ∈ l, c ≠ 92 ∧ c ≠ 13 ∧ c ≠ 10 ∧ c ≠ 9) →
      l.flatMap (escapeByte valueSpecial 92) = l := by
    intro l
    induction l with
    | nil => intro _; rfl
    | cons c l ih =>
      intro h
      have hc := h c (by simp)
      have e : escapeByte valueSpecial 92 c = [c] := by
        have hs : valueSpecial = [13, 10, 9] := by decide +kernel
        unfold escapeByte
        rw [hs, if_neg]
        simp [hc]
      rw [List.flatMap_cons, e, ih (fun c hc => h c (by simp [hc]))]; rfl
  apply this
  intro c hc
  have := natDec_plain n c hc
  exact ⟨this.2.2.2.2.1, this.2.2.2.2.2.1, this.2.2.2.2.2.2.1, this.2.2.2.2.2.2.2.1⟩

theorem carried_natDec (n : Nat) : Spec.carried (natDec n) = natDec n := by
  apply carried_good
  refine ⟨fun h => (natDec_plain n 0 h).1 rfl, ?_, ?_⟩
  · intro h
    exact (natDec_plain n 32 (List.mem_of_mem_head? h)).2.2.2.2.2.2.2.2 rfl
  · intro h
    exact (natDec_plain n 32 (List.mem_of_getLast? h)).2.2.2.2.2.2.2.2 rfl

/-! ## Lines -/

/-- A line: not empty, no end-of-line character inside. -/
def Line (l : Bytes) : Prop := l ≠ [] ∧ ∀ c ∈ l, isEol c = false

theorem takeWhile_line {l : Bytes} (h : ∀ c ∈ l, isEol c = false) (c : UInt8) (r : Bytes)
    (hc : isEol c = true) :
    (l ++ c :: r).takeWhile (fun c => !isEol c) = l ∧
    (l ++ c :: r).dropWhile (fun c => !isEol c) = c :: r := by
  constructor
  · rw [List.takeWhile_append_of_pos (by intro x hx; simp [h x hx]), List.takeWhile_cons]
    simp [hc]
  · rw [List.dropWhile_append_of_pos (by intro x hx; simp [h x hx]), List.dropWhile_cons]
    simp [hc]

theorem run_nil (total : Nat) (st : St) : run total st [] = .incomplete := by
  rw [run]; simp

theorem run_go {total : Nat} {st st' : St} {input rest : Bytes} (hne : input ≠ [])
    (h : onInput total st input = .go st' rest) : run total st input = run total st' rest := by
  rw [run, if_neg hne]
  split
  · rename_i h'; rw [h] at h'; cases h'
  · rename_i h'; rw [h] at h'; injection h' with h1 h2; rw [h1, h2]

theorem run_stop {total : Nat} {st : St} {input : Bytes} {r : Parsed} (hne : input ≠ [])
    (h : onInput total st input = .stop r) : run total st input = r := by
  rw [run, if_neg hne]
  split
  · rename_i h'; rw [h] at h'; injection h' with h'; exact h'.symm
  · rename_i h'; rw [h] at h'; cases h'

/-- `run` with a step counter, which the kernel can evaluate. -/
def runF (total : Nat) : Nat → St → Bytes → Parsed
  | 0, _, _ => .incomplete
  | n + 1, st, input =>
    if input = [] then .incomplete
    else
      match onInput total st input with
      | .stop r => r
      | .go st' rest => runF total n st' rest

theorem run_eq_runF (total n : Nat) (st : St) (input : Bytes) (h : input.length < n) :
    run total st input = runF total n st input := by
  induction n generalizing st input with
  | zero => omega
  | succ n ih =>
    unfold runF
    by_cases hne : input = []
    · rw [if_pos hne, hne]; exact run_nil _ _
    · rw [if_neg hne]
      cases ho : onInput total st input with
      | stop r => simp only; exact run_stop hne ho
      | go st' rest =>
        simp only
        rw [run_go hne ho]
        have := onInput_lt ho
        exact ih st' rest (by omega)

def parseF (b : Bytes) : Parsed := runF b.length (b.length + 1) {} b

theorem parse_eq_parseF : parse = parseF := by
  funext b
  exact run_eq_runF _ _ _ _ (by omega)

def drainF : Nat → Bytes → List Msg × Bytes
  | 0, buf => ([], buf)
  | n + 1, buf =>
    match parseF buf with
    | .ok (k + 1) m => let r := drainF n (buf.drop (k + 1)); (m :: r.1, r.2)
    | _ => ([], buf)

theorem drain_eq_drainF : drain = drainF := by
  funext n b
  induction n generalizing b with
  | zero => rfl
  | succ n ih =>
    rw [drain, drainF, parse_eq_parseF]
    split
    · rename_i h
      simp only [ih]
      simp only [h]
    · rename_i h
      split
      · rename_i k m hk; exact absurd hk (h k m)
      · rfl

def receiveF (c : Conn) (bytes : Bytes) : Conn :=
  let r := drainF (c.buffer ++ bytes).length (c.buffer ++ bytes)
  { delivered := c.delivered ++ r.1, buffer := r.2 }

theorem receive_eq_receiveF : Conn.receive = receiveF := by
  funext c b
  unfold Conn.receive receiveF
  rw [drain_eq_drainF]


/-- Input without an end of line is incomplete. -/
theorem run_noEol (total : Nat) (st : St) (l : Bytes) (h : ∀ c ∈ l, isEol c = false) :
    run total st l = .incomplete := by
  by_cases hl : l = []
  · subst hl; exact run_nil _ _
  · apply run_stop hl
    unfold onInput
    have : l.dropWhile (fun c => !isEol c) = [] := by
      have := List.dropWhile_append_of_pos (p := fun c => !isEol c) (l₁ := l) (l₂ := [])
        (by intro x hx; simp [h x hx])
      simpa using this
    simp only [this, if_true]

/-- What a line does to the state of a message that is not chunked. -/
def advance (st : St) (line : Bytes) : St :=
  if st.methodLine = [] then { st with methodLine := trimSp line } else headerLine st line

theorem onLine_advance (st : St) (line eol : Bytes) (first : Bool) (hc : st.chunked = false)
    (hb : st.methodLine ≠ [] ∨ line.all (· == 32) = false) :
    onLine st line eol first = .go (advance st line) (eatEol eol) := by
  unfold onLine advance
  by_cases hm : st.methodLine = []
  · rw [if_pos hm, if_pos hm]
    have : line.all (· == 32) = false := by
      cases hb with
      | inl h => exact absurd hm h
      | inr h => exact h
    rw [if_neg (by simp [this])]
  · rw [if_neg hm, if_neg hm, if_neg (by simp [hc])]

theorem run_line (total : Nat) (st : St) (line rest : Bytes) (hl : Line line)
    (hc : st.chunked = false) (hb : st.methodLine ≠ [] ∨ line.all (· == 32) = false) :
    run total st (line ++ crlf ++ rest) = run total (advance st line) rest := by
  have e := takeWhile_line hl.2 13 (10 :: rest) (by decide)
  have e' : line ++ crlf ++ rest = line ++ 13 :: 10 :: rest := by simp [crlf]
  rw [e']
  apply run_go (by simp)
  unfold onInput
  simp only [e.1, e.2]
  rw [if_neg (by simp), if_neg hl.1, onLine_advance _ _ _ _ hc hb]
  rfl

/-- A line whose end has not fully arrived. -/
theorem run_line_short (total : Nat) (st : St) (line p a : Bytes) (hl : Line line)
    (hc : st.chunked = false) (hb : st.methodLine ≠ [] ∨ line.all (· == 32) = false)
    (hp : p ++ a = line ++ crlf) (ha : a ≠ []) : run total st p = .incomplete := by
  rcases List.append_eq_append_iff.mp hp with ⟨x, h1, h2⟩ | ⟨x, h1, h2⟩
  · apply run_noEol
    intro c hcm
    exact hl.2 c (by rw [h1]; simp [hcm])
  · -- p = line ++ x, crlf = x ++ a
    cases x with
    | nil => rw [h1, List.append_nil]; exact run_noEol _ _ _ hl.2
    | cons y x =>
      cases x with
      | nil =>
        have hy : y = 13 := by simp [crlf] at h2; exact h2.1.symm
        subst hy
        rw [h1]
        have e := takeWhile_line hl.2 13 [] (by decide)
        have : run total st (line ++ [13]) = run total (advance st line) [] := by
          apply run_go (by simp)
          unfold onInput
          simp only [e.1, e.2]
          rw [if_neg (by simp), if_neg hl.1, onLine_advance _ _ _ _ hc hb]
          rfl
        rw [this, run_nil]
      | cons z x =>
        have : a = [] := by
          have := congrArg List.length h2
          simp only [crlf, List.length_cons, List.length_append, List.length_nil] at this
          exact List.length_eq_zero_iff.mp (by omega)
        exact absurd this ha

theorem headerLine_keeps (st : St) (line : Bytes) (hm : st.methodLine ≠ []) :
    (headerLine st line).methodLine ≠ [] ∧ (headerLine st line).chunked = st.chunked := by
  unfold headerLine
  split
  · split
    · exact ⟨hm, rfl⟩
    · exact ⟨by simp [hm], rfl⟩
  · simp only
    split <;> split <;> exact ⟨hm, rfl⟩

theorem run_lines (total : Nat) (st : St) (ls : List Bytes) (rest : Bytes)
    (hl : ∀ l ∈ ls, Line l) (hc : st.chunked = false) (hm : st.methodLine ≠ []) :
    run total st (ls.flatMap (fun l => l ++ crlf) ++ rest) = run total (ls.foldl headerLine st) rest := by
  induction ls generalizing st with
  | nil => rfl
  | cons l ls ih =>
    rw [List.flatMap_cons, List.append_assoc, run_line total st l _ (hl l (by simp)) hc (.inl hm)]
    have e : advance st l = headerLine st l := by unfold advance; rw [if_neg hm]
    have k := headerLine_keeps st l hm
    rw [e, ih _ (fun x hx => hl x (by simp [hx])) (k.2.trans hc) k.1]
    rfl

theorem run_lines_short (total : Nat) (st : St) (ls : List Bytes) (p a : Bytes)
    (hl : ∀ l ∈ ls, Line l) (hc : st.chunked = false) (hm : st.methodLine ≠ [])
    (hp : p ++ a = ls.flatMap (fun l => l ++ crlf)) : run total st p = .incomplete := by
  induction ls generalizing st p with
  | nil =>
    simp at hp; rw [hp.1]; exact run_nil _ _
  | cons l ls ih =>
    rw [List.flatMap_cons] at hp
    have k := headerLine_keeps st l hm
    rcases List.append_eq_append_iff.mp hp with ⟨x, h1, h2⟩ | ⟨x, h1, h2⟩
    · by_cases hx : x = []
      · subst hx
        rw [List.append_nil] at h1
        rw [← h1, ← List.append_nil (l ++ crlf), run_line total st l [] (hl l (by simp)) hc (.inl hm),
          run_nil]
      · exact run_line_short total st l p x (hl l (by simp)) hc (.inl hm) h1.symm hx
    · rw [h1, run_line total st l _ (hl l (by simp)) hc (.inl hm)]
      have e : advance st l = headerLine st l := by unfold advance; rw [if_neg hm]
      rw [e]
      exact ih _ _ (fun x hx => hl x (by simp [hx])) (k.2.trans hc) k.1 h2.symm

/-! ## A header written by the composer -/

def entryLine (n v : Bytes) : Bytes := n ++ sColon ++ escape v valueSpecial 92

theorem entryLine_line (n v : Bytes) (hn : Spec.GoodName n) : Line (entryLine n v) := by
  refine ⟨by simp [entryLine, hn.nonempty], ?_⟩
  intro c hc
  unfold entryLine at hc
  simp only [List.mem_append] at hc
  rcases hc with (h | h) | h
  · have := hn.noEol c h; simp [isEol, this]
  · revert h; revert c
    have : ∀ c ∈ sColon, isEol c = false := by decide +kernel
    exact this
  · have h13 : (13 : UInt8) ∉ escape v valueSpecial 92 ∧ (10 : UInt8) ∉ escape v valueSpecial 92 := by
      have key : ∀ a : UInt8, (13 : UInt8) ∉ escapeByte valueSpecial 92 a ∧
          (10 : UInt8) ∉ escapeByte valueSpecial 92 a := forall_u8 (by decide +kernel)
      unfold escape
      simp only [List.mem_flatMap, not_exists, not_and]
      exact ⟨fun a _ => (key a).1, fun a _ => (key a).2⟩
    simp only [isEol, Bool.or_eq_false_iff, beq_eq_false_iff_ne]
    exact ⟨fun e => h13.1 (e ▸ h), fun e => h13.2 (e ▸ h)⟩

theorem trimEndSp_id {s : Bytes} (h2 : s.getLast? ≠ some 32) : trimEndSp s = s := by
  unfold trimEndSp
  cases e : s.reverse with
  | nil => simp at e; subst e; rfl
  | cons c r =>
    have : (c == 32) = false := by
      have hl : s.getLast? = some c := by rw [List.getLast?_eq_head?_reverse, e]; rfl
      rw [hl] at h2; simpa using h2
    rw [List.dropWhile_cons, this]
    simp only [Bool.false_eq_true, if_false]
    rw [← e]; simp

theorem sIEquals_good {a : Bytes} (ha : 0 ∉ a) (s : Bytes) (hs : 0 ∉ s) :
    sIEquals a s = true ↔ sToLower a = sToLower s := by
  unfold sIEquals
  rw [cstr_eq ha, cstr_eq hs, beq_iff_eq]

theorem headerLine_entry (st : St) (n v : Bytes) (hn : Spec.GoodName n)
    (hk : ¬ Spec.sameName n sSetCookie) :
    headerLine st (entryLine n v) = { st with name := n, table := st.table.set n (Spec.carried v) } := by
  have hsp : isSpace ((entryLine n v).headD 0) = false := by
    cases e : n with
    | nil => exact absurd e hn.nonempty
    | cons c n' =>
      have h1 := hn.start c (by rw [e]; rfl)
      have h2 := hn.noEol c (by rw [e]; simp)
      have : (entryLine (c :: n') v).headD 0 = c := rfl
      rw [this]
      have key : ∀ c : UInt8, c ∉ ([9, 11, 12, 32] : Bytes) → c ≠ 13 ∧ c ≠ 10 → isSpace c = false :=
        forall_u8 (by decide +kernel)
      exact key c h1 h2
  have hcol : sColon = [58, 32] := by decide +kernel
  have htk : (entryLine n v).takeWhile (· ≠ 58) = n ∧
      (entryLine n v).dropWhile (· ≠ 58) = 58 :: 32 :: escape v valueSpecial 92 := by
    unfold entryLine
    rw [hcol, List.append_assoc]
    have hp : ∀ x ∈ n, decide (x ≠ 58) = true := by
      intro x hx; simp only [ne_eq, decide_eq_true_eq]; intro e; subst e; exact hn.noColon hx
    constructor
    · rw [List.takeWhile_append_of_pos hp]; simp
    · rw [List.dropWhile_append_of_pos hp]; simp
  unfold headerLine
  rw [hsp]
  simp only [Bool.false_eq_true, if_false]
  rw [htk.1, htk.2, trimEndSp_id hn.stop]
  simp only [if_pos hn.nonempty]
  have htr : trimSp ((58 :: 32 :: escape v valueSpecial 92).drop 1) = trimSp (escape v valueSpecial 92) := by
    simp [trimSp]
  have hcook : sIEquals n sSetCookie = false := by
    cases e : sIEquals n sSetCookie with
    | false => rfl
    | true =>
      exact absurd ((sIEquals_good hn.noNul sSetCookie (by decide +kernel)).mp e) hk
  rw [htr, unescape_trim_escape]
  cases st.table.find n with
  | none => rfl
  | some old => simp [hcook]

/-! ## The message as lines -/

/-- The entries of the table that are written. -/
def sent (t : Table) : Table := t.filter (fun e => !sIEquals sContentLength e.1)

theorem sIEquals_comm (a b : Bytes) : sIEquals a b = sIEquals b a := by
  unfold sIEquals
  cases h : (sToLower (cstr b) == sToLower (cstr a)) with
  | true => rw [beq_iff_eq] at h ⊢; exact h.symm
  | false => rw [beq_eq_false_iff_ne] at h ⊢; exact Ne.symm h

theorem composeEntry_ordinary {e : Bytes × Bytes} (h : Spec.Ordinary e) :
    composeEntry e = if sIEquals sContentLength e.1 then [] else entryLine e.1 e.2 ++ crlf := by
  unfold composeEntry
  have h1 : sIEquals sSetCookie e.1 = false := by
    rw [sIEquals_comm]
    cases x : sIEquals e.1 sSetCookie with
    | false => rfl
    | true => exact absurd ((sIEquals_good h.name.noNul sSetCookie (by decide +kernel)).mp x) h.notCookie
  have h2 : ¬ (sIEquals sContentEncoding e.1 = true ∧ sIEquals sGzip e.2 = true) := by
    rintro ⟨x, y⟩
    rw [sIEquals_comm] at x y
    refine h.notGzip ⟨(sIEquals_good h.name.noNul sContentEncoding (by decide +kernel)).mp x, ?_⟩
    unfold sIEquals at y
    rw [beq_iff_eq, cstr_eq (s := sGzip) (by decide +kernel)] at y
    exact y
  rw [h1, if_neg h2]
  rfl

theorem flatMap_composeEntry (t : Table) (h : ∀ e ∈ t, Spec.Ordinary e) :
    t.flatMap composeEntry = ((sent t).map (fun e => entryLine e.1 e.2)).flatMap (fun l => l ++ crlf) := by
  induction t with
  | nil => rfl
  | cons e t ih =>
    rw [List.flatMap_cons, composeEntry_ordinary (h e (by simp)), ih (fun x hx => h x (by simp [hx]))]
    unfold sent
    rw [List.filter_cons]
    cases hcl : sIEquals sContentLength e.1 with
    | true => simp
    | false => simp

theorem not_wantsGzip {e : Bytes × Bytes} (h : Spec.Ordinary e) : wantsGzip e = false := by
  unfold wantsGzip
  cases x : (sIEquals sContentEncoding e.1 && sIEquals sGzip e.2) with
  | false =>
    rw [Bool.and_assoc, Bool.and_assoc] at *
    simp [x]
  | true =>
    simp only [Bool.and_eq_true] at x
    rw [sIEquals_comm] at x
    have y := x.2
    rw [sIEquals_comm] at y
    refine absurd ?_ h.notGzip
    refine ⟨(sIEquals_good h.name.noNul sContentEncoding (by decide +kernel)).mp x.1, ?_⟩
    unfold sIEquals at y
    rw [beq_iff_eq, cstr_eq (s := sGzip) (by decide +kernel)] at y
    exact y

/-- The header lines of a composed message. -/
def headerLines (m : Msg) : List Bytes :=
  (sent m.table).map (fun e => entryLine e.1 e.2) ++ [entryLine sContentLength (natDec m.content.length)]

theorem compose_eq (gz : Bytes → Bytes) (m : Msg) (h : Spec.GoodMsg m) :
    compose gz m = some (m.methodLine ++ crlf ++ ((headerLines m).flatMap (fun l => l ++ crlf) ++
      (crlf ++ m.content))) := by
  unfold compose
  have h1 : m.methodLine.any badMethodChar = false := by
    rw [List.any_eq_false]
    intro c hc
    have := h.method.noControl c hc
    have key : ∀ c : UInt8, (c = 9 ∨ (32 ≤ c ∧ c ≠ 127)) → ¬ badMethodChar c = true :=
      forall_u8 (by decide +kernel)
    exact key c this
  have h2 : m.table.any wantsGzip = false := by
    rw [List.any_eq_false]
    intro e he
    rw [not_wantsGzip (h.ordinary e he)]; decide
  rw [h1, h2]
  simp only [Bool.false_eq_true, if_false, Bool.false_and, ne_eq, not_true_eq_false]
  rw [flatMap_composeEntry m.table h.ordinary]
  unfold headerLines
  rw [List.flatMap_append]
  simp only [List.flatMap_cons, List.flatMap_nil, entryLine, escape_natDec, List.append_assoc,
    List.nil_append, List.append_nil]

/-! ## The table that arrives -/

/-- The table a parsed message has. -/
def arrived (m : Msg) : Table :=
  Table.set sContentLength (natDec m.content.length)
    ((sent m.table).map (fun e => (e.1, Spec.carried e.2)))

theorem foldl_headerLine (st : St) (es : Table)
    (hg : ∀ e ∈ es, Spec.GoodName e.1 ∧ ¬ Spec.sameName e.1 sSetCookie) :
    ∃ nm, (es.map (fun e => entryLine e.1 e.2)).foldl headerLine st =
      { st with name := nm
                table := es.foldl (fun t e => t.set e.1 (Spec.carried e.2)) st.table } := by
  induction es generalizing st with
  | nil => exact ⟨st.name, rfl⟩
  | cons e es ih =>
    have he := hg e (by simp)
    simp only [List.map_cons, List.foldl_cons, headerLine_entry st e.1 e.2 he.1 he.2]
    obtain ⟨nm, h⟩ := ih { st with name := e.1, table := st.table.set e.1 (Spec.carried e.2) }
      (fun x hx => hg x (by simp [hx]))
    exact ⟨nm, h⟩

theorem foldl_set_sorted (acc es : Table) (h : (acc ++ es).Sorted) :
    es.foldl (fun t e => t.set e.1 (Spec.carried e.2)) acc
      = acc ++ es.map (fun e => (e.1, Spec.carried e.2)) := by
  induction es generalizing acc with
  | nil => simp
  | cons e es ih =>
    rw [List.foldl_cons, Table.set_append]
    · rw [ih]
      · simp
      · unfold Table.Sorted at h ⊢
        rw [List.append_assoc, List.pairwise_append] at *
        refine ⟨h.1, ?_, ?_⟩
        · have := List.pairwise_cons.mp h.2.1
          exact List.pairwise_cons.mpr ⟨this.1, this.2⟩
        · intro a ha b hb
          simp only [List.singleton_append, List.mem_cons] at hb
          cases hb with
          | inl hb => subst hb; exact h.2.2 a ha e (by simp)
          | inr hb => exact h.2.2 a ha b (by simp [hb])
    · intro a ha
      unfold Table.Sorted at h
      rw [List.pairwise_append] at h
      exact h.2.2 a ha e (by simp)

theorem sent_sorted {t : Table} (h : t.Sorted) : (sent t).Sorted := List.Pairwise.filter _ h

theorem goodName_contentLength : Spec.GoodName sContentLength := by
  refine ⟨by decide +kernel, by decide +kernel, by decide +kernel, by decide +kernel, ?_, by decide +kernel⟩
  intro c hc
  have : c = 67 := by
    have h : sContentLength.head? = some 67 := by decide +kernel
    rw [h] at hc; injection hc with hc; exact hc.symm
  subst this; decide

/-- The state after all header lines. -/
theorem foldl_headerLines (m : Msg) (h : Spec.GoodMsg m) :
    ∃ nm, (headerLines m).foldl headerLine { methodLine := m.methodLine } =
      { methodLine := m.methodLine, table := arrived m, name := nm } := by
  unfold headerLines
  rw [List.foldl_append]
  obtain ⟨nm, e⟩ := foldl_headerLine { methodLine := m.methodLine } (sent m.table) (by
    intro e he
    have := h.ordinary e (List.mem_filter.mp he).1
    exact ⟨this.name, this.notCookie⟩)
  rw [e]
  simp only [List.foldl_cons, List.foldl_nil]
  rw [headerLine_entry _ _ _ goodName_contentLength (by unfold Spec.sameName; decide +kernel)]
  refine ⟨sContentLength, ?_⟩
  simp only
  rw [foldl_set_sorted [] (sent m.table) (sent_sorted h.sorted), carried_natDec]
  rfl

theorem arrived_base_sorted (m : Msg) (h : Spec.GoodMsg m) :
    Table.Sorted ((sent m.table).map (fun e => (e.1, Spec.carried e.2))) := by
  have := sent_sorted h.sorted
  unfold Table.Sorted at this ⊢
  rw [List.pairwise_map]
  exact this

theorem find_arrived_contentLength (m : Msg) (h : Spec.GoodMsg m) :
    (arrived m).find sContentLength = some (natDec m.content.length) := by
  unfold arrived
  rw [Table.find_set _ _ _ _ (arrived_base_sorted m h), if_pos rfl]

theorem find_arrived_chunked (m : Msg) (h : Spec.GoodMsg m) (v : Bytes)
    (hv : (arrived m).find sTransferEncoding = some v) : sIEquals v sChunked = false := by
  unfold arrived at hv
  rw [Table.find_set _ _ _ _ (arrived_base_sorted m h), if_neg (by decide +kernel)] at hv
  obtain ⟨n, hmem, hn⟩ := Table.find_some_mem hv
  rw [List.mem_map] at hmem
  obtain ⟨e, he, heq⟩ := hmem
  have ho := h.ordinary e (List.mem_filter.mp he).1
  injection heq with h1 h2
  cases x : sIEquals v sChunked with
  | false => rfl
  | true =>
    refine absurd ⟨?_, ?_⟩ ho.notChunked
    · show e.1.map toLower = _
      rw [h1]; exact hn
    · rw [h2]
      have h0 : 0 ∉ v := by
        rw [← h2]
        exact fun hm => zero_not_mem_cstr e.2 (mem_trimSp (s := cstr e.2) hm)
      exact (sIEquals_good h0 sChunked (by decide +kernel)).mp x

/-- The message a receiver gets. -/
def received (m : Msg) : Msg := { m with table := arrived m }

theorem run_blank (total : Nat) (m : Msg) (nm : Bytes) (h : Spec.GoodMsg m) (input : Bytes)
    (hin : ∃ r, input = 13 :: r) :
    run total { methodLine := m.methodLine, table := arrived m, name := nm } input =
      finish total { methodLine := m.methodLine, table := arrived m, name := nm } input := by
  obtain ⟨r, rfl⟩ := hin
  apply run_stop (by simp)
  unfold onInput
  have e := takeWhile_line (l := []) (by simp) 13 r (by decide)
  simp only [List.nil_append] at e
  simp only [e.1, e.2]
  rw [if_neg (by simp)]
  simp only [if_true]
  unfold onBlank
  simp only
  rw [if_neg h.method.nonempty]
  simp only [Bool.false_eq_true, if_false]
  cases hf : (arrived m).find sTransferEncoding with
  | none => rfl
  | some v => simp [find_arrived_chunked m h v hf]

theorem finish_eq (total : Nat) (m : Msg) (nm : Bytes) (h : Spec.GoodMsg m) (input : Bytes) :
    finish total { methodLine := m.methodLine, table := arrived m, name := nm } input =
      if (eatTwo input).length < m.content.length then .incomplete
      else .ok (total - (eatTwo input).length + m.content.length)
        { methodLine := m.methodLine, table := arrived m
          content := (eatTwo input).take m.content.length } := by
  unfold finish
  simp only [find_arrived_contentLength m h]
  rw [stoll_natDec _ (by have := h.small; omega)]
  simp only
  rw [toInt32_small _ h.small]
  by_cases hlt : (eatTwo input).length < m.content.length
  · rw [if_pos (by omega), if_pos hlt]
  · rw [if_neg (by omega), if_neg hlt, if_neg (by omega)]
    simp

theorem method_line (m : Msg) (h : Spec.GoodMsg m) :
    Line m.methodLine ∧ m.methodLine.all (· == 32) = false ∧ trimSp m.methodLine = m.methodLine := by
  refine ⟨⟨h.method.nonempty, ?_⟩, ?_, trimSp_id h.method.start h.method.stop⟩
  · intro c hc
    have := h.method.noControl c hc
    have key : ∀ c : UInt8, (c = 9 ∨ (32 ≤ c ∧ c ≠ 127)) → isEol c = false :=
      forall_u8 (by decide +kernel)
    exact key c this
  · have hs := h.method.start
    cases e : m.methodLine with
    | nil => exact absurd e h.method.nonempty
    | cons c r =>
      rw [e] at hs
      have : (c == 32) = false := by simpa using hs
      simp [this]

theorem headerLines_lines (m : Msg) (h : Spec.GoodMsg m) : ∀ l ∈ headerLines m, Line l := by
  intro l hl
  unfold headerLines at hl
  simp only [List.mem_append, List.mem_map, List.mem_singleton] at hl
  rcases hl with ⟨e, he, rfl⟩ | rfl
  · exact entryLine_line _ _ (h.ordinary e (List.mem_filter.mp he).1).name
  · exact entryLine_line _ _ goodName_contentLength

/-- A line feed left over from the message before is skipped. -/
def Gap (q : Bytes) : Prop := q = [] ∨ q = [10]

theorem run_gap (total : Nat) (q x : Bytes) (hq : Gap q) (hx : x.head? ≠ some 13) :
    run total {} (q ++ x) = run total {} x := by
  cases hq with
  | inl h => subst h; rfl
  | inr h =>
    subst h
    apply run_go (by simp)
    unfold onInput
    have e := takeWhile_line (l := []) (by simp) 10 x (by decide)
    simp only [List.nil_append] at e
    simp only [List.cons_append, List.nil_append, e.1, e.2]
    rw [if_neg (by simp)]
    simp only [if_true]
    unfold onBlank
    rw [if_pos rfl]
    congr 1
    cases x with
    | nil => rfl
    | cons c x =>
      have hc : c ≠ 13 := by simpa using hx
      unfold eatEol
      split <;> simp_all

/-- The bytes of a message. -/
def bytes (m : Msg) : Bytes :=
  m.methodLine ++ crlf ++ ((headerLines m).flatMap (fun l => l ++ crlf) ++ (crlf ++ m.content))

theorem head_bytes (m : Msg) (h : Spec.GoodMsg m) (r : Bytes) :
    (m.methodLine ++ r).head? ≠ some 13 := by
  cases e : m.methodLine with
  | nil => exact absurd e h.method.nonempty
  | cons c x =>
    have := h.method.noControl c (by rw [e]; simp)
    simp only [List.cons_append, List.head?_cons, ne_eq, Option.some.injEq]
    intro hc; subst hc; revert this; decide

/-- A complete message at the front of the buffer is parsed and exactly its bytes are consumed. -/
theorem parse_msg (m : Msg) (h : Spec.GoodMsg m) (q rest : Bytes) (hq : Gap q) :
    parse (q ++ (bytes m ++ rest)) = .ok (q.length + (bytes m).length) (received m) := by
  unfold parse
  rw [run_gap _ q _ hq (by
    unfold bytes; simp only [List.append_assoc]; exact head_bytes m h _)]
  generalize ht : (q ++ (bytes m ++ rest)).length = total
  obtain ⟨hl, hb, htrim⟩ := method_line m h
  have e0 : bytes m ++ rest = m.methodLine ++ crlf ++ ((headerLines m).flatMap (fun l => l ++ crlf) ++
      (crlf ++ (m.content ++ rest))) := by
    unfold bytes; simp only [List.append_assoc]
  rw [e0, run_line total {} m.methodLine _ hl rfl (.inr hb)]
  have ea : advance {} m.methodLine = { methodLine := m.methodLine } := by
    unfold advance; rw [if_pos rfl, htrim]
  rw [ea, run_lines total _ _ _ (headerLines_lines m h) rfl h.method.nonempty]
  obtain ⟨nm, en⟩ := foldl_headerLines m h
  rw [en, run_blank total m nm h (crlf ++ (m.content ++ rest)) ⟨10 :: (m.content ++ rest), rfl⟩,
    finish_eq total m nm h]
  have et : eatTwo (crlf ++ (m.content ++ rest)) = m.content ++ rest := by
    simp [crlf, eatTwo, isEol]
  rw [et, if_neg (by simp)]
  have hlen : total - (m.content ++ rest).length + m.content.length = q.length + (bytes m).length := by
    subst ht
    simp only [List.length_append]; 
    have : (bytes m).length ≥ m.content.length := by
      unfold bytes; simp only [List.length_append]; omega
    omega
  rw [hlen]
  simp [received]

/-- A message that has not fully arrived is not parsed; the one exception is a message without
content that lacks nothing but its very last byte. -/
theorem parse_short (m : Msg) (h : Spec.GoodMsg m) (q p a : Bytes) (hq : Gap q)
    (hp : p ++ a = q ++ bytes m) (ha : a ≠ []) :
    parse p = .incomplete ∨ (a = [10] ∧ m.content = [] ∧ parse p = .ok p.length (received m)) := by
  obtain ⟨hl, hb, htrim⟩ := method_line m h
  -- the part of p after the gap
  have hsplit : p = [] ∨ ∃ p', p = q ++ p' ∧ p' ++ a = bytes m := by
    rcases List.append_eq_append_iff.mp hp with ⟨x, h1, h2⟩ | ⟨x, h1, h2⟩
    · cases hq with
      | inl e => subst e; exact .inr ⟨p, rfl, by simpa using hp⟩
      | inr e =>
        subst e
        cases p with
        | nil => exact .inl rfl
        | cons c p =>
          right
          have hlen := congrArg List.length h1
          simp only [List.length_cons, List.length_nil, List.length_append] at hlen
          have hpn : p = [] := List.length_eq_zero_iff.mp (by omega)
          have hxn : x = [] := List.length_eq_zero_iff.mp (by omega)
          subst hpn; subst hxn
          refine ⟨[], ?_, by simpa using h2⟩
          rw [h1]; simp
    · exact .inr ⟨x, h1, h2.symm⟩
  rcases hsplit with rfl | ⟨p', rfl, hp'⟩
  · left; unfold parse; exact run_nil _ _
  · have hhead : p'.head? ≠ some 13 := by
      cases p' with
      | nil => simp
      | cons c x =>
        have := head_bytes m h (crlf ++ ((headerLines m).flatMap (fun l => l ++ crlf) ++ (crlf ++ m.content)))
        have e : bytes m = m.methodLine ++ (crlf ++ ((headerLines m).flatMap (fun l => l ++ crlf) ++ (crlf ++ m.content))) := by
          unfold bytes; simp only [List.append_assoc]
        rw [← e, ← hp'] at this
        simpa using this
    unfold parse
    rw [run_gap _ q _ hq hhead]
    generalize ht : (q ++ p').length = total
    unfold bytes at hp'
    rcases List.append_eq_append_iff.mp hp' with ⟨x, h1, h2⟩ | ⟨x, h1, h2⟩
    · by_cases hx : x = []
      · subst hx
        rw [List.append_nil] at h1
        left
        rw [← h1, ← List.append_nil (m.methodLine ++ crlf),
          run_line total {} m.methodLine [] hl rfl (.inr hb), run_nil]
      · left
        exact run_line_short total {} _ p' x hl rfl (.inr hb) h1.symm hx
    · rw [h1, run_line total {} m.methodLine _ hl rfl (.inr hb)]
      have ea : advance {} m.methodLine = { methodLine := m.methodLine } := by
        unfold advance; rw [if_pos rfl, htrim]
      rw [ea]
      rcases List.append_eq_append_iff.mp h2.symm with ⟨y, h3, h4⟩ | ⟨y, h3, h4⟩
      · left
        exact run_lines_short total _ _ x y (headerLines_lines m h) rfl h.method.nonempty h3.symm
      · rw [h3, run_lines total _ _ _ (headerLines_lines m h) rfl h.method.nonempty]
        obtain ⟨nm, en⟩ := foldl_headerLines m h
        rw [en]
        cases y with
        | nil => left; exact run_nil _ _
        | cons c y =>
          simp only [crlf, List.cons_append, List.nil_append] at h4
          injection h4 with h5 h6
          subst h5
          rw [run_blank total m nm h _ ⟨y, rfl⟩, finish_eq total m nm h]
          cases y with
          | nil =>
            have et : eatTwo [13] = [] := by decide
            rw [et]
            by_cases hc : m.content = []
            · right
              rw [hc] at h6 ⊢
              refine ⟨h6.symm, rfl, ?_⟩
              rw [if_neg (by simp)]
              have : total - ([] : Bytes).length + ([] : Bytes).length = (q ++ p').length := by
                simp [ht]
              rw [this]
              simp only [List.length_nil, Nat.sub_zero, Nat.add_zero, List.take_nil, received, hc,
                ← ht, h1, h3]
            · left
              rw [if_pos]
              simp only [List.length_nil]
              exact List.length_pos_iff.mpr hc
          | cons d y =>
            injection h6 with h7 h8
            subst h7
            left
            have et : eatTwo (13 :: 10 :: y) = y := by simp [eatTwo, isEol]
            rw [et, if_pos]
            have hl8 := congrArg List.length h8
            have : m.content.length = y.length + a.length := hl8.trans List.length_append
            have := List.length_pos_iff.mpr ha
            omega

end Bedrock.Http
