import Verif.Props.Http

/-!
# The parser on a stream of messages, one message at a time
-/

namespace Bedrock.Http
open Bedrock Bedrock.Text

theorem eatTwo_length (s : Bytes) : (eatTwo s).length ≤ s.length := by
  unfold eatTwo
  split
  · split
    · split <;> simp only [List.length_cons] <;> omega
    · exact Nat.le_refl _
  · split <;> simp
  · simp

theorem finish_le {total : Nat} {st : St} {rest : Bytes} {k : Nat} {m : Msg} (hl : rest.length ≤ total)
    (h : finish total st rest = .ok k m) : k ≤ total := by
  have he := eatTwo_length rest
  unfold finish at h
  dsimp only at h
  split at h
  · injection h with h1; omega
  · split at h
    · cases h
    · split at h
      · cases h
      · split at h
        · cases h
        · injection h with h1; omega

theorem onInput_stop_le {total : Nat} {st : St} {input : Bytes} {k : Nat} {m : Msg} (hl : input.length ≤ total)
    (h : onInput total st input = .stop (.ok k m)) : k ≤ total := by
  have hsum : (input.takeWhile (fun c => !isEol c)).length +
      (input.dropWhile (fun c => !isEol c)).length = input.length := by
    rw [← List.length_append, List.takeWhile_append_dropWhile]
  unfold onInput at h
  dsimp only at h
  split at h
  · injection h with h1; cases h1
  · split at h
    · unfold onBlank at h
      split at h
      · cases h
      · split at h
        · injection h with h1
          unfold finishChunked at h1
          injection h1 with h2
          omega
        · split at h
          · split at h
            · cases h
            · injection h with h1
              exact finish_le (by omega) h1
          · injection h with h1
            exact finish_le (by omega) h1
    · unfold onLine at h
      split at h
      · split at h
        · injection h with h1; cases h1
        · cases h
      · split at h
        · dsimp only at h
          split at h
          · cases h
          · unfold takeChunk at h
            split at h
            · split at h <;> (injection h with h1; cases h1)
            · split at h
              · injection h with h1; cases h1
              · cases h
        · cases h

theorem run_le (total : Nat) : ∀ (n : Nat) (st : St) (input : Bytes) (k : Nat) (m : Msg), input.length ≤ n →
    input.length ≤ total → run total st input = .ok k m → k ≤ total
  | 0, st, input, k, m, hn, _, h => by
    have : input = [] := List.length_eq_zero_iff.mp (by omega)
    subst this
    rw [run_nil] at h
    cases h
  | n + 1, st, input, k, m, hn, hl, h => by
    rw [run] at h
    split at h
    · cases h
    · split at h
      · rename_i r hr
        subst h
        exact onInput_stop_le hl hr
      · rename_i st' rest hr
        have := onInput_lt hr
        exact run_le total n st' rest k m (by omega) (by omega) h

/-- The parser never claims more bytes than there are. -/
theorem parse_le {b : Bytes} {k : Nat} {m : Msg} (h : parse b = .ok k m) : k ≤ b.length :=
  run_le _ _ _ _ _ _ (Nat.le_refl _) (Nat.le_refl _) h

/-- The parser on a buffer that holds some of a stream of messages: it reads the next message once it is there. -/
theorem parse_stream (ms : List Msg) (hm : ∀ m ∈ ms, Spec.GoodMsg m) (buf future q : Bytes)
    (hq : Gap q) (hb : buf ++ future = q ++ (ms.map bytes).flatten) :
    (parse buf = .incomplete ∧ ∀ m, ms.head? = some m → buf.length < (q ++ bytes m).length) ∨
    ∃ m ms' k q', ms = m :: ms' ∧ parse buf = .ok (k + 1) (received m) ∧ Gap q' ∧
      buf.drop (k + 1) ++ future = q' ++ (ms'.map bytes).flatten := by
  cases ms with
  | nil =>
    refine .inl ⟨?_, by simp⟩
    simp only [List.map_nil, List.flatten_nil, List.append_nil] at hb
    cases hq with
    | inl e =>
      subst e
      have : buf = [] := by simp at hb; exact hb.1
      subst this; unfold parse; exact run_nil _ _
    | inr e =>
      subst e
      cases buf with
      | nil => unfold parse; exact run_nil _ _
      | cons c buf =>
        simp at hb
        rw [hb.1, hb.2.1, parse_eq_parseF]
        decide +kernel
  | cons m ms =>
    have hgm := hm m (by simp)
    have hblen : 0 < (bytes m).length := by
      simp only [bytes, List.length_append, crlf, List.length_cons]; omega
    have hb' : buf ++ future = (q ++ bytes m) ++ (ms.map bytes).flatten := by
      rw [hb]; simp
    rcases List.append_eq_append_iff.mp hb' with ⟨x, h1, h2⟩ | ⟨x, h1, h2⟩
    · by_cases hx : x = []
      · subst hx
        rw [List.append_nil] at h1
        rw [List.nil_append] at h2
        have hp := parse_msg m hgm q [] hq
        rw [List.append_nil, h1] at hp
        have hl := congrArg List.length h1
        rw [List.length_append] at hl
        obtain ⟨k, hk⟩ : ∃ k, q.length + (bytes m).length = k + 1 := ⟨_, (Nat.succ_pred (by omega)).symm⟩
        rw [hk] at hp hl
        refine .inr ⟨m, ms, k, [], rfl, hp, .inl rfl, ?_⟩
        rw [List.drop_of_length_le (by omega)]
        simpa using h2
      · rcases parse_short m hgm q buf x hq h1.symm hx with hp | ⟨hx10, _, hp⟩
        · refine .inl ⟨hp, ?_⟩
          intro m' hm'
          simp only [List.head?_cons, Option.some.injEq] at hm'
          subst hm'
          have := List.length_pos_iff.mpr hx
          rw [h1, List.length_append]
          omega
        · have hl := congrArg List.length h1
          rw [hx10] at hl
          simp only [List.length_append, List.length_cons, List.length_nil] at hl
          by_cases hbl : buf.length = 0
          · have : buf = [] := List.length_eq_zero_iff.mp hbl
            rw [this] at hp
            have : parse [] = .incomplete := by unfold parse; exact run_nil _ _
            rw [this] at hp; cases hp
          · obtain ⟨k, hk⟩ : ∃ k, buf.length = k + 1 := ⟨_, (Nat.succ_pred hbl).symm⟩
            rw [hk] at hp
            refine .inr ⟨m, ms, k, [10], rfl, hp, .inr rfl, ?_⟩
            rw [List.drop_of_length_le (by omega), h2, hx10]
            rfl
    · have hp := parse_msg m hgm q x hq
      rw [← List.append_assoc, ← h1] at hp
      obtain ⟨k, hk⟩ : ∃ k, q.length + (bytes m).length = k + 1 := ⟨_, (Nat.succ_pred (by omega)).symm⟩
      rw [hk] at hp
      refine .inr ⟨m, ms, k, [], rfl, hp, .inl rfl, ?_⟩
      rw [h1, ← hk, ← List.length_append, List.drop_left]
      simpa using h2.symm

end Bedrock.Http
