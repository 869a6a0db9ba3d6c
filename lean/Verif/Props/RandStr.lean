import Verif.Model.RandStr

/-! # C138: random texts -/

namespace Bedrock.RandStr.Props
open Bedrock Text

theorem substr1_some (n : Nat) (h : n < 61) : substr1 n = some [alphabet.getD n 0] := by
  have : ∀ i : Fin 61, substr1 i.val = some [alphabet.getD i.val 0] := by decide +kernel
  exact this ⟨n, h⟩

theorem alphabet_length : alphabet.length = 62 := by decide +kernel

theorem loop_eq (rand : Nat → UInt64) (n : Nat) : ∀ (k fuel i : Nat) (s : Bytes), s.length + k = n → k ≤ fuel →
    loop rand n fuel i s = some (s ++ (List.range' i k).map fun j => alphabet.getD ((rand j).toNat % 61) 0)
  | 0, fuel, i, s, h, _ => by
    have hs : s.length = n := by omega
    cases fuel with
    | zero => simp only [loop]; rw [if_pos hs]; simp
    | succ f => simp only [loop]; rw [if_pos hs]; simp
  | k + 1, fuel, i, s, h, hf => by
    cases fuel with
    | zero => omega
    | succ f =>
      have hs : ¬ s.length = n := by omega
      have e := substr1_some ((rand i).toNat % 61) (Nat.mod_lt _ (by decide))
      simp only [loop]
      rw [if_neg hs, alphabet_length, e]
      dsimp only
      rw [loop_eq rand n k f (i + 1) _ (by rw [List.length_append, List.length_singleton]; omega) (by omega), List.range'_succ]
      simp

/-- **C138** `randStr` ends after as many turns as letters are asked for, never throws, and the text has exactly that length. -/
theorem c138_length (rand : Nat → UInt64) (n fuel : Nat) (h : n ≤ fuel) : ∃ s, randStr rand n fuel = some s ∧ s.length = n := by
  refine ⟨_, loop_eq rand n n fuel 0 [] (by simp) h, ?_⟩
  simp

/-- **C138** Each letter is picked by its own random value: the letter at a place depends on that value alone. -/
theorem c138_letters (rand : Nat → UInt64) (n fuel : Nat) (h : n ≤ fuel) {s : Bytes} (hs : randStr rand n fuel = some s) :
    ∀ i, i < n → s[i]? = alphabet[(rand i).toNat % 61]? := by
  intro i hi
  have e := loop_eq rand n n fuel 0 [] (by simp) h
  unfold randStr at hs
  rw [e] at hs
  have hs := Option.some.inj hs
  subst hs
  have hlt : (rand i).toNat % 61 < alphabet.length := by rw [alphabet_length]; exact Nat.lt_trans (Nat.mod_lt _ (by decide)) (by decide)
  simp [List.getElem?_range' hi, List.getElem?_eq_getElem hlt]

/-- **C138** Every text of letters and digits other than z comes out for some values. -/
theorem c138_every (s : Bytes) (h : ∀ c ∈ s, c ∈ alphabet ∧ c ≠ 122) : ∃ rand, randStr rand s.length s.length = some s := by
  have key : ∀ c ∈ alphabet, c ≠ 122 → ∃ n : Nat, n < 61 ∧ alphabet.getD n 0 = c := by
    have : ∀ c ∈ alphabet, c ≠ 122 → ∃ n : Fin 61, alphabet.getD n.val 0 = c := by decide +kernel
    intro c hc hz
    obtain ⟨n, hn⟩ := this c hc hz
    exact ⟨n.val, n.isLt, hn⟩
  have hp : ∀ i : Nat, ∃ r : UInt64, ∀ hi : i < s.length, alphabet.getD (r.toNat % 61) 0 = s[i] := by
    intro i
    by_cases hi : i < s.length
    · obtain ⟨h1, h2⟩ := h s[i] (List.getElem_mem hi)
      obtain ⟨n, hn, e⟩ := key _ h1 h2
      refine ⟨UInt64.ofNat n, fun _ => ?_⟩
      have : (UInt64.ofNat n).toNat = n := by
        rw [UInt64.toNat_ofNat']
        exact Nat.mod_eq_of_lt (by omega)
      rw [this, Nat.mod_eq_of_lt hn, e]
    · exact ⟨0, fun h' => absurd h' hi⟩
  refine ⟨fun i => (hp i).choose, ?_⟩
  unfold randStr
  rw [loop_eq _ _ s.length s.length 0 [] (by simp) (Nat.le_refl _)]
  rw [List.nil_append]
  congr 1
  apply List.ext_getElem
  · simp
  · intro i h1 h2
    have := (hp i).choose_spec h2
    simpa using this

/-- **C138** fails for one letter: z is in the alphabet and never in a text. -/
theorem c138_z_partial : (122 : UInt8) ∈ alphabet ∧ ∀ (rand : Nat → UInt64) (n fuel : Nat) (s : Bytes),
    n ≤ fuel → randStr rand n fuel = some s → (∀ c ∈ s, c ∈ alphabet) ∧ 122 ∉ s := by
  refine ⟨by decide +kernel, fun rand n fuel s h hs => ?_⟩
  unfold randStr at hs
  rw [loop_eq rand n n fuel 0 [] (by simp) h] at hs
  have hs := Option.some.inj hs
  have hk : ∀ i : Fin 61, alphabet.getD i.val 0 ∈ alphabet ∧ alphabet.getD i.val 0 ≠ 122 := by decide +kernel
  have hall : ∀ c ∈ s, c ∈ alphabet ∧ c ≠ 122 := by
    intro c hc
    rw [← hs, List.nil_append, List.mem_map] at hc
    obtain ⟨j, _, rfl⟩ := hc
    exact hk ⟨(rand j).toNat % 61, Nat.mod_lt _ (by decide)⟩
  exact ⟨fun c hc => (hall c hc).1, fun hc => (hall 122 hc).2 rfl⟩

example : randStr (fun i => UInt64.ofNat (i * 11 + 60)) 4 4 = some (str "yALW") := by decide +kernel

/-- **C138** The text consists of letters and digits. -/
theorem c138_alphanumeric (rand : Nat → UInt64) (n fuel : Nat) (s : Bytes) (h : n ≤ fuel) (hs : randStr rand n fuel = some s) :
    ∀ c ∈ s, (48 ≤ c ∧ c ≤ 57) ∨ (65 ≤ c ∧ c ≤ 90) ∨ (97 ≤ c ∧ c ≤ 122) := by
  have : ∀ c ∈ alphabet, (48 ≤ c ∧ c ≤ 57) ∨ (65 ≤ c ∧ c ≤ 90) ∨ (97 ≤ c ∧ c ≤ 122) := by decide +kernel
  exact fun c hc => this c ((c138_z_partial.2 rand n fuel s h hs).1 c hc)

end Bedrock.RandStr.Props
