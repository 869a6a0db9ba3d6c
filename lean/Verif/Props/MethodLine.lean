import Verif.Lemmas.MethodLine
import Verif.Lemmas.Http
import Verif.Model.Literal
import Verif.Props.Https

/-! # C134: the parts of a method line -/

namespace Bedrock.MethodLine.Props
open Bedrock Text Http Spec

theorem word_not_blank {p w q : Bytes} (hw : Word w) : ¬ Blank (p ++ (w ++ q)) := by
  intro h
  cases w with
  | nil => exact hw.1 rfl
  | cons c w => exact hw.2 (by rw [h c (by simp)]; simp)

/-- **C134** A request line with a method and something after it: the two words, whatever blanks are before and between them and
whatever follows the second. -/
theorem c134_request (a m b u rest : Bytes) (ha : Blank a) (hm : Word m) (hb : Blank b) (hu : Word u)
    (hr : rest = [] ∨ rest.head? = some 32) : requestLine (a ++ (m ++ 32 :: (b ++ (u ++ rest)))) = some (true, m, u) := by
  have n1 := next_word [] a m (32 :: (b ++ (u ++ rest))) [] ha hm (Or.inr rfl)
  have n2 := next_word (a ++ (m ++ [32])) b u rest [] hb hu hr
  have e : (a ++ (m ++ [32])) ++ (b ++ (u ++ rest)) = a ++ (m ++ 32 :: (b ++ (u ++ rest))) := by simp
  have l : (a ++ (m ++ [32])).length = ([] ++ a ++ m).length + 1 := by simp; omega
  rw [e, l] at n2
  unfold requestLine
  rw [show upToNext (a ++ (m ++ 32 :: (b ++ (u ++ rest)))) 0 32 [] = _ from n1]
  simp only [Option.bind_eq_bind, Option.bind_some]
  rw [n2]
  cases m with
  | nil => exact absurd rfl hm.1
  | cons _ _ => cases u with
    | nil => exact absurd rfl hu.1
    | cons _ _ => rfl

/-- **C134** A method with blanks behind it and nothing else is refused. -/
theorem c134_no_uri (a m b : Bytes) (ha : Blank a) (hm : Word m) (hb : Blank b) :
    requestLine (a ++ (m ++ 32 :: b)) = some (false, m, []) := by
  have n1 := next_word [] a m (32 :: b) [] ha hm (Or.inr rfl)
  have n2 := next_end (a ++ (m ++ [32])) b [] hb
  have e : (a ++ (m ++ [32])) ++ b = a ++ (m ++ 32 :: b) := by simp
  have l : (a ++ (m ++ [32])).length = ([] ++ a ++ m).length + 1 := by simp; omega
  rw [e, l, if_neg (word_not_blank hm)] at n2
  unfold requestLine
  rw [show upToNext (a ++ (m ++ 32 :: b)) 0 32 [] = _ from n1]
  simp only [Option.bind_eq_bind, Option.bind_some]
  rw [n2]
  cases m with
  | nil => exact absurd rfl hm.1
  | cons _ _ => rfl

/-- The three shapes of a line. -/
theorem shapes (s : Bytes) : Blank s ∨ (∃ a m, s = a ++ m ∧ Blank a ∧ Word m) ∨
    ∃ a m r, s = a ++ (m ++ 32 :: r) ∧ Blank a ∧ Word m := by
  obtain ⟨a, x, rfl, ha, hx⟩ := start_split s
  obtain ⟨m, t, rfl, hm, ht⟩ := word_split x
  cases m with
  | nil =>
    cases t with
    | nil => exact Or.inl (by simpa using ha)
    | cons c t =>
      rcases ht with h | h
      · cases h
      · exact absurd h hx
  | cons c m =>
    refine Or.inr ?_
    cases t with
    | nil => exact Or.inl ⟨a, c :: m, by simp, ha, by simp, hm⟩
    | cons d t =>
      rcases ht with h | h
      · cases h
      · simp only [List.head?_cons, Option.some.injEq] at h
        subst h
        exact Or.inr ⟨a, c :: m, t, rfl, ha, by simp, hm⟩

/-- **C134** fails for lines without a blank behind the first word, as `Ping`, and for empty ones: for exactly these the function
reads outside of the text. -/
theorem c134_request_undefined_partial (s : Bytes) :
    requestLine s = none ↔ Blank s ∨ ∃ a m, s = a ++ m ∧ Blank a ∧ Word m := by
  constructor
  · intro h
    rcases shapes s with h' | h' | ⟨a, m, r, rfl, ha, hm⟩
    · exact Or.inl h'
    · exact Or.inr h'
    · obtain ⟨b, x, rfl, hb, hx⟩ := start_split r
      obtain ⟨u, t, rfl, hu, ht⟩ := word_split x
      cases u with
      | nil =>
        cases t with
        | nil =>
          rw [List.append_nil, List.append_nil, c134_no_uri a m b ha hm hb] at h
          cases h
        | cons c t =>
          rcases ht with h' | h'
          · cases h'
          · exact absurd h' hx
      | cons c u =>
        rw [c134_request a m b (c :: u) t ha hm hb ⟨by simp, hu⟩ ht] at h
        cases h
  · rintro (h | ⟨a, m, rfl, ha, hm⟩)
    · have n := next_end [] s [] h
      rw [if_pos (by intro c hc; cases hc), List.nil_append] at n
      unfold requestLine
      rw [show upToNext s 0 32 [] = none from n]
      rfl
    · have n := next_word [] a m [] [] ha hm (Or.inl rfl)
      rw [List.append_nil] at n
      have b := next_behind (a ++ m) []
      unfold requestLine
      rw [show upToNext (a ++ m) 0 32 [] = _ from n]
      simp only [Option.bind_eq_bind, Option.bind_some]
      rw [show upToNext (a ++ m) ((([] : Bytes) ++ a ++ m).length + 1) 32 [] = none from b]
      rfl

/-- **C134** A status line with all three parts: the first word, the number the second begins with, and the rest without the
blanks at its ends, whatever was in the variables before.  It is taken exactly if the number is not 0 and there is a reason. -/
theorem c134_response (a p b c r t old : Bytes) (ha : Blank a) (hp : Word p) (hb : Blank b) (hc : Word c) (hs : Stripped r t) :
    responseLine (a ++ (p ++ 32 :: (b ++ (c ++ 32 :: r)))) old =
      some (decide (Https.toInt c ≠ 0 ∧ t ≠ []), p, Https.toInt c, t) := by
  have n1 := next_word [] a p (32 :: (b ++ (c ++ 32 :: r))) old ha hp (Or.inr rfl)
  have n2 := next_word (a ++ (p ++ [32])) b c (32 :: r) [] hb hc (Or.inr rfl)
  have e : (a ++ (p ++ [32])) ++ (b ++ (c ++ 32 :: r)) = a ++ (p ++ 32 :: (b ++ (c ++ 32 :: r))) := by simp
  have l : (a ++ (p ++ [32])).length = ([] ++ a ++ p).length + 1 := by simp; omega
  rw [e, l] at n2
  have n3 := rest_eq (a ++ (p ++ [32]) ++ b ++ (c ++ [32])) r t (word_not_blank hc) hs
  have e3 : (a ++ (p ++ [32]) ++ b ++ (c ++ [32])) ++ r = a ++ (p ++ 32 :: (b ++ (c ++ 32 :: r))) := by simp
  have l3 : (a ++ (p ++ [32]) ++ b ++ (c ++ [32])).length = (a ++ (p ++ [32]) ++ b ++ c).length + 1 := by simp; omega
  rw [e3, l3] at n3
  unfold responseLine
  rw [show upToNext (a ++ (p ++ 32 :: (b ++ (c ++ 32 :: r)))) 0 32 old = _ from n1]
  simp only [Option.bind_eq_bind, Option.bind_some]
  rw [n2]
  simp only [Option.bind_some]
  rw [n3]
  simp only [Option.bind_some]
  congr 2
  cases t <;> by_cases h : Https.toInt c = 0 <;> simp [h]

/-- **C134** A status line that was written with a number and a reason is read with them. -/
theorem c134_written (p r : Bytes) (n : Nat) (old : Bytes) (hp : Word p) (h0 : n ≠ 0) (hn : n < 2 ^ 31) (hr : r ≠ [])
    (h1 : r.head? ≠ some 32) (h2 : r.getLast? ≠ some 32) :
    responseLine (p ++ 32 :: (natDec n ++ 32 :: r)) old = some (true, p, (n : Int), r) := by
  have hw : Word (natDec n) := ⟨natDec_ne_nil n, fun h => by
    obtain ⟨d, hd, e⟩ := natDec_digits n 32 h
    have : ∀ d < 10, (32 : UInt8) ≠ UInt8.ofNat (48 + d) := by decide
    exact this d hd e⟩
  have hi : Https.toInt (natDec n) = (n : Int) := by
    have := Https.Props.toInt_intDec (i := (n : Int)) ⟨by omega, by omega⟩
    exact this
  have := c134_response [] p [] (natDec n) r r old (by intro c hc; cases hc) hp (by intro c hc; cases hc) hw
    ⟨⟨[], [], (by intro c hc; cases hc), (by intro c hc; cases hc), (by simp)⟩, h1, h2⟩
  rw [hi] at this
  rw [show p ++ 32 :: (natDec n ++ 32 :: r) = [] ++ (p ++ 32 :: ([] ++ (natDec n ++ 32 :: r))) from rfl, this]
  congr 2
  simp [h0, hr]

/-- **C134** fails for status lines without a reason, as `HTTP/1.1 200`: for exactly the lines without a blank behind the second
word the function reads outside of the text. -/
theorem c134_response_undefined_partial (s old : Bytes) :
    responseLine s old = none ↔ ¬ ∃ a p b c r, s = a ++ (p ++ 32 :: (b ++ (c ++ 32 :: r))) ∧ Blank a ∧ Word p ∧ Blank b ∧ Word c := by
  constructor
  · rintro h ⟨a, p, b, c, r, rfl, ha, hp, hb, hc⟩
    obtain ⟨t, ht⟩ := stripped_exists r
    rw [c134_response a p b c r t old ha hp hb hc ht] at h
    cases h
  · intro hno
    rcases shapes s with h | ⟨a, p, rfl, ha, hp⟩ | ⟨a, p, r, rfl, ha, hp⟩
    · have n := next_end [] s old h
      rw [if_pos (by intro c hc; cases hc), List.nil_append] at n
      unfold responseLine
      rw [show upToNext s 0 32 old = none from n]
      rfl
    · have n := next_word [] a p [] old ha hp (Or.inl rfl)
      rw [List.append_nil] at n
      have b := next_behind (a ++ p) []
      unfold responseLine
      rw [show upToNext (a ++ p) 0 32 old = _ from n]
      simp only [Option.bind_eq_bind, Option.bind_some]
      rw [show upToNext (a ++ p) ((([] : Bytes) ++ a ++ p).length + 1) 32 [] = none from b]
      rfl
    · have n1 := next_word [] a p (32 :: r) old ha hp (Or.inr rfl)
      have l : (a ++ (p ++ [32])).length = ([] ++ a ++ p).length + 1 := by simp; omega
      have e : (a ++ (p ++ [32])) ++ r = a ++ (p ++ 32 :: r) := by simp
      unfold responseLine
      rw [show upToNext (a ++ (p ++ 32 :: r)) 0 32 old = _ from n1]
      simp only [Option.bind_eq_bind, Option.bind_some]
      rcases shapes r with h | ⟨b, c, rfl, hb, hc⟩ | ⟨b, c, q, rfl, hb, hc⟩
      · have n2 := next_end (a ++ (p ++ [32])) r [] h
        rw [e, l, if_neg (word_not_blank hp)] at n2
        rw [n2]
        simp only [Option.bind_some]
        rw [end_behind]
        rfl
      · have n2 := next_word (a ++ (p ++ [32])) b c [] [] hb hc (Or.inl rfl)
        rw [List.append_nil, e, l] at n2
        rw [n2]
        simp only [Option.bind_some]
        have l4 : (a ++ (p ++ [32]) ++ b ++ c).length = (a ++ (p ++ 32 :: (b ++ c))).length := by simp
        rw [l4, end_behind]
        rfl
      · exact absurd ⟨a, p, b, c, q, rfl, ha, hp, hb, hc⟩ hno

example : requestLine (b!"GET /status?x=1 HTTP/1.1") = some (true, b!"GET", b!"/status?x=1") := by decide +kernel
example : requestLine (b!"  Query") = none ∧ requestLine (b!"Query ") = some (false, b!"Query", []) := by decide +kernel
example : responseLine (b!"HTTP/1.1 404 Not  Found ") (b!"old") = some (true, b!"HTTP/1.1", 404, b!"Not  Found") := by
  decide +kernel
example : responseLine (b!"HTTP/1.1 200") [] = none ∧ responseLine (b!"HTTP/1.1 200 ") [] = some (false, b!"HTTP/1.1", 200, []) := by
  decide +kernel
example : responseLine (b!"200 OK") [] = none := by decide +kernel

end Bedrock.MethodLine.Props
