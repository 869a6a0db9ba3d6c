import Verif.Model.Json
import Verif.Spec.Json
import Verif.Lemmas.Http
import Verif.Props.Text

/-! # Lemmas about the JSON model -/

namespace Bedrock.Json
open Bedrock Bedrock.Text Bedrock.Http

theorem ws_cons {c : UInt8} {s : Bytes} (h : isSpace c = false) : ws (c :: s) = c :: s := by
  unfold ws; rw [List.dropWhile_cons, h]; rfl

theorem ws_length (s : Bytes) : (ws s).length ≤ s.length := by
  unfold ws
  exact (List.dropWhile_sublist _).length_le

theorem ws_mem {s : Bytes} {c : UInt8} (h : c ∈ ws s) : c ∈ s := (List.dropWhile_sublist _).subset h

theorem ws_ws (s : Bytes) : ws (ws s) = ws s := by
  induction s with
  | nil => rfl
  | cons c s ih =>
    cases hc : isSpace c with
    | true =>
      have : ws (c :: s) = ws s := by unfold ws; rw [List.dropWhile_cons, hc]; rfl
      rw [this]; exact ih
    | false => rw [ws_cons hc, ws_cons hc]

/-! ## Lengths, fuel, absence of NUL -/

theorem scan_length : ∀ {s b r : Bytes}, scan s = some (b, r) → r.length < s.length
  | [], _, _, h => by simp [scan] at h
  | 34 :: t, b, r, h => by
    simp only [scan, Option.some.injEq, Prod.mk.injEq] at h
    rw [← h.2]; simp
  | c :: t, b, r, h => by
    unfold scan at h
    split at h
    · cases h
    · rename_i heq
      injection heq with h1 h2
      injection h with h
      injection h with _ h
      subst h2; subst h
      simp
    · rename_i c' t' heq
      injection heq with h1 h2
      subst h2
      cases hs : scan t' with
      | none => rw [hs] at h; cases h
      | some p =>
        rw [hs] at h
        have := scan_length (s := t') (b := p.1) (r := p.2) hs
        simp only [Option.map_some, Option.some.injEq, Prod.mk.injEq] at h
        rw [← h.2]
        simp only [List.length_cons]
        omega
    · cases h
    · rename_i heq
      injection heq with h1 h2
      subst h2
      split at h
      · cases h
      · cases hs : scan t with
        | none => rw [hs] at h; cases h
        | some p =>
          rw [hs] at h
          have := scan_length (s := t) (b := p.1) (r := p.2) hs
          simp only [Option.map_some, Option.some.injEq, Prod.mk.injEq] at h
          rw [← h.2]
          simp only [List.length_cons]
          omega
  termination_by s => s.length

theorem parseString_length {s r x : Bytes} (h : parseString s = .ok r x) : r.length ≤ s.length := by
  unfold parseString at h
  split at h
  · cases h
  · have hl := ws_length s
    split at h
    · injection h with h _; rw [← h]; simp
    · rename_i t heq
      rw [heq] at hl
      split at h
      · rename_i hs
        injection h with h _
        subst h
        have := scan_length hs
        simp only [List.length_cons] at hl
        omega
      · cases h
    · cases h

theorem parseString_not_stuck (s : Bytes) : parseString s ≠ .stuck := by
  unfold parseString
  split
  · simp
  · split
    · simp
    · split <;> simp
    · simp

theorem dropWhile_length {p : UInt8 → Bool} (s : Bytes) : (s.dropWhile p).length ≤ s.length :=
  (List.dropWhile_sublist _).length_le

theorem skipNumber_length (s : Bytes) : (skipNumber s).length ≤ s.length := by
  have h1 : ∀ s, (skipSign s).length ≤ s.length := by
    intro s; unfold skipSign; split <;> simp
  have h2 : ∀ s, (skipFraction s).length ≤ s.length := by
    intro s; unfold skipFraction; split
    · rename_i t
      have := dropWhile_length (p := isDigit) t
      simp only [List.length_cons]; omega
    · exact Nat.le_refl _
  have h3 : ∀ s, (skipExponentSign s).length ≤ s.length := by
    intro s; unfold skipExponentSign; split
    · simp
    · split <;> simp
  have h4 : ∀ s, (skipExponent s).length ≤ s.length := by
    intro s; unfold skipExponent; split
    · simp
    · rename_i c t
      split
      · have := dropWhile_length (p := isDigit) (skipExponentSign t)
        have := h3 t
        simp only [List.length_cons]; omega
      · simp
  unfold skipNumber
  have := h1 s
  have := dropWhile_length (p := isDigit) (skipSign s)
  have := h2 ((skipSign s).dropWhile isDigit)
  have := h4 (skipFraction ((skipSign s).dropWhile isDigit))
  omega

/-- The facts about the five mutually recursive functions at one amount of fuel. -/
structure Enough (nv : Bytes) (n : Nat) : Prop where
  value : ∀ s, 3 * s.length + 1 ≤ n → value nv n s ≠ .stuck ∧
    ∀ r x, value nv n s = .ok r x → r.length ≤ s.length
  array : ∀ s, 3 * s.length + 3 ≤ n → array nv n s ≠ .stuck ∧
    ∀ r x, array nv n s = .ok r x → r.length ≤ s.length
  elements : ∀ s, 3 * s.length + 2 ≤ n → elements nv n s ≠ .stuck ∧
    ∀ r x, elements nv n s = .ok r x → r.length ≤ s.length
  object : ∀ s, 3 * s.length + 3 ≤ n → object nv n s ≠ .stuck ∧
    ∀ r x, object nv n s = .ok r x → r.length ≤ s.length
  members : ∀ s, 3 * s.length + 2 ≤ n → members nv n s ≠ .stuck ∧
    ∀ r x, members nv n s = .ok r x → r.length ≤ s.length

theorem bind_ok {α β : Type} {p : P α} {f : Bytes → α → P β} {r : Bytes} {b : β} (h : p.bind f = .ok r b) :
    ∃ r' a, p = .ok r' a ∧ f r' a = .ok r b := by
  cases p with
  | ok r' a => exact ⟨r', a, rfl, h⟩
  | fail => cases h
  | abort => cases h
  | stuck => cases h

theorem bind_not_stuck {α β : Type} {p : P α} {f : Bytes → α → P β} (hp : p ≠ .stuck)
    (hf : ∀ r a, p = .ok r a → f r a ≠ .stuck) : p.bind f ≠ .stuck := by
  cases p with
  | ok r' a => exact hf r' a rfl
  | fail => exact nofun
  | abort => exact nofun
  | stuck => exact absurd rfl hp

theorem enough (nv : Bytes) : ∀ n, Enough nv n
  | 0 => ⟨fun s h => by omega, fun s h => by omega, fun s h => by omega, fun s h => by omega, fun s h => by omega⟩
  | n + 1 => by
    have ih := enough nv n
    refine ⟨?_, ?_, ?_, ?_, ?_⟩
    · -- value
      intro s hn
      have hl := ws_length s
      unfold Json.value
      split
      · exact ⟨nofun, fun r x h => by injection h with h; rw [← h]; simp⟩
      · generalize ws s = s' at *
        have num : (if startsNumber s' then P.ok (skipNumber s') (between s' (skipNumber s'))
            else if s'.take 4 = str "true" then .ok (s'.drop 4) (str "true")
            else if s'.take 5 = str "false" then .ok (s'.drop 5) (str "false")
            else if s'.take 4 = str "null" then .ok (s'.drop 4) nv
            else .ok s' []) ≠ .stuck ∧ ∀ r x, (if startsNumber s' then P.ok (skipNumber s') (between s' (skipNumber s'))
            else if s'.take 4 = str "true" then .ok (s'.drop 4) (str "true")
            else if s'.take 5 = str "false" then .ok (s'.drop 5) (str "false")
            else if s'.take 4 = str "null" then .ok (s'.drop 4) nv
            else .ok s' []) = .ok r x → r.length ≤ s.length := by
          have := skipNumber_length s'
          repeat' split
          all_goals
            refine ⟨nofun, fun r x h => ?_⟩
            injection h with h
            rw [← h]
            try simp only [List.length_drop]
            omega
        split
        · rename_i t _
          exact ⟨parseString_not_stuck _, fun r x h => Nat.le_trans (parseString_length h) hl⟩
        · rename_i t _
          simp only [List.length_cons] at hl
          have ho := ih.object t (by omega)
          refine ⟨bind_not_stuck ho.1 (fun r a _ => nofun), fun r x h => ?_⟩
          obtain ⟨r', a, h1, h2⟩ := bind_ok h
          injection h2 with h2
          have := ho.2 _ _ h1
          rw [← h2]; omega
        · rename_i t _
          simp only [List.length_cons] at hl
          have ho := ih.array t (by omega)
          refine ⟨bind_not_stuck ho.1 (fun r a _ => nofun), fun r x h => ?_⟩
          obtain ⟨r', a, h1, h2⟩ := bind_ok h
          injection h2 with h2
          have := ho.2 _ _ h1
          rw [← h2]; omega
        · exact num
    · -- array
      intro s hn
      have hl := ws_length s
      unfold Json.array
      split
      · exact ⟨nofun, fun r x h => by injection h with h; rw [← h]; simp⟩
      · rename_i t heq
        rw [heq] at hl
        simp only [List.length_cons] at hl
        exact ⟨nofun, fun r x h => by injection h with h; rw [← h]; omega⟩
      · have he := ih.elements (ws s) (by omega)
        exact ⟨he.1, fun r x h => Nat.le_trans (he.2 r x h) hl⟩
    · -- elements
      intro s hn
      have hl := ws_length s
      unfold Json.elements
      split
      · exact ⟨nofun, fun r x h => by injection h with h; rw [← h]; simp⟩
      · have hv := ih.value (ws s) (by omega)
        constructor
        · refine bind_not_stuck hv.1 (fun r a ha => ?_)
          have h1 := hv.2 _ _ ha
          have h2 := ws_length r
          split
          · exact nofun
          · exact nofun
          · rename_i t heq
            rw [heq] at h2
            simp only [List.length_cons] at h2
            exact bind_not_stuck (ih.elements t (by omega)).1 (fun r a _ => nofun)
          · exact nofun
        · intro r x h
          obtain ⟨r', a, ha, h⟩ := bind_ok h
          have h1 := hv.2 _ _ ha
          have h2 := ws_length r'
          split at h
          · injection h with h; rw [← h]; simp
          · rename_i t heq
            rw [heq] at h2
            simp only [List.length_cons] at h2
            injection h with h; rw [← h]; omega
          · rename_i t heq
            rw [heq] at h2
            simp only [List.length_cons] at h2
            obtain ⟨r'', a', ha', h⟩ := bind_ok h
            injection h with h
            have := (ih.elements t (by omega)).2 _ _ ha'
            rw [← h]; omega
          · cases h
    · -- object
      intro s hn
      have hl := ws_length s
      unfold Json.object
      split
      · exact ⟨nofun, fun r x h => by injection h with h; rw [← h]; simp⟩
      · rename_i t heq
        rw [heq] at hl
        simp only [List.length_cons] at hl
        exact ⟨nofun, fun r x h => by injection h with h; rw [← h]; omega⟩
      · have he := ih.members (ws s) (by omega)
        exact ⟨he.1, fun r x h => Nat.le_trans (he.2 r x h) hl⟩
    · -- members
      intro s hn
      have hl := ws_length s
      unfold Json.members
      split
      · exact ⟨nofun, fun r x h => by injection h with h; rw [← h]; simp⟩
      · constructor
        · refine bind_not_stuck (parseString_not_stuck _) (fun r a ha => ?_)
          have h1 := parseString_length ha
          have h2 := ws_length r
          split
          · exact nofun
          · rename_i t heq
            rw [heq] at h2
            simp only [List.length_cons] at h2
            have h3 := ws_length t
            split
            · exact nofun
            · have hv := ih.value (ws t) (by omega)
              refine bind_not_stuck hv.1 (fun r2 a2 ha2 => ?_)
              have h4 := hv.2 _ _ ha2
              have h5 := ws_length r2
              split
              · exact nofun
              · exact nofun
              · rename_i t' heq'
                rw [heq'] at h5
                simp only [List.length_cons] at h5
                exact bind_not_stuck (ih.members t' (by omega)).1 (fun r a _ => nofun)
              · exact nofun
          · exact nofun
        · intro r x h
          obtain ⟨r', a, ha, h⟩ := bind_ok h
          have h1 := parseString_length ha
          have h2 := ws_length r'
          split at h
          · injection h with h; rw [← h]; simp
          · rename_i t heq
            rw [heq] at h2
            simp only [List.length_cons] at h2
            have h3 := ws_length t
            split at h
            · injection h with h; rw [← h]; simp
            · have hv := ih.value (ws t) (by omega)
              obtain ⟨r2, a2, ha2, h⟩ := bind_ok h
              have h4 := hv.2 _ _ ha2
              have h5 := ws_length r2
              split at h
              · injection h with h; rw [← h]; simp
              · rename_i t' heq'
                rw [heq'] at h5
                simp only [List.length_cons] at h5
                injection h with h; rw [← h]; omega
              · rename_i t' heq'
                rw [heq'] at h5
                simp only [List.length_cons] at h5
                obtain ⟨r3, a3, ha3, h⟩ := bind_ok h
                injection h with h
                have := (ih.members t' (by omega)).2 _ _ ha3
                rw [← h]; omega
              · cases h
          · cases h

/-! ## No NUL, no assertion -/

theorem scan_mem : ∀ {s b r : Bytes}, scan s = some (b, r) → ∀ c ∈ r, c ∈ s
  | [], _, _, h => by simp [scan] at h
  | x :: t, b, r, h => by
    unfold scan at h
    split at h
    · cases h
    · rename_i heq
      injection heq with h1 h2
      injection h with h
      injection h with _ h
      subst h2; subst h
      intro c hc; simp [hc]
    · rename_i c' t' heq
      injection heq with h1 h2
      subst h2
      cases hs : scan t' with
      | none => rw [hs] at h; cases h
      | some p =>
        rw [hs] at h
        have := scan_mem (s := t') (b := p.1) (r := p.2) hs
        simp only [Option.map_some, Option.some.injEq, Prod.mk.injEq] at h
        rw [← h.2]
        intro c hc; simp [this c hc]
    · cases h
    · rename_i heq
      injection heq with h1 h2
      subst h2
      split at h
      · cases h
      · cases hs : scan t with
        | none => rw [hs] at h; cases h
        | some p =>
          rw [hs] at h
          have := scan_mem (s := t) (b := p.1) (r := p.2) hs
          simp only [Option.map_some, Option.some.injEq, Prod.mk.injEq] at h
          rw [← h.2]
          intro c hc; simp [this c hc]
  termination_by s => s.length

theorem parseString_clean {s : Bytes} (hs : s ≠ []) (h0 : 0 ∉ s) : parseString s ≠ .abort ∧
    ∀ r x, parseString s = .ok r x → 0 ∉ r := by
  have hh : ¬ s.headD 0 = 0 := by
    cases s with
    | nil => exact absurd rfl hs
    | cons c t => intro h; exact h0 (by rw [List.headD_cons] at h; simp [h])
  unfold parseString
  rw [if_neg hh]
  split
  · exact ⟨nofun, fun r x h => by injection h with h; rw [← h]; simp⟩
  · rename_i t heq
    split
    · rename_i b r' hs'
      refine ⟨nofun, fun r x h => ?_⟩
      injection h with h
      rw [← h]
      intro hm
      refine h0 (ws_mem ?_)
      rw [heq]
      exact List.mem_cons_of_mem _ (scan_mem hs' 0 hm)
    · exact ⟨nofun, nofun⟩
  · exact ⟨nofun, nofun⟩

theorem dropWhile_mem {p : UInt8 → Bool} {s : Bytes} {c : UInt8} (h : c ∈ s.dropWhile p) : c ∈ s :=
  (List.dropWhile_sublist _).subset h

theorem skipNumber_mem {s : Bytes} {c : UInt8} (h : c ∈ skipNumber s) : c ∈ s := by
  have h1 : ∀ s, c ∈ skipSign s → c ∈ s := by
    intro s h; unfold skipSign at h; split at h
    · exact List.mem_cons_of_mem _ h
    · exact h
  have h2 : ∀ s, c ∈ skipFraction s → c ∈ s := by
    intro s h; unfold skipFraction at h; split at h
    · exact List.mem_cons_of_mem _ (dropWhile_mem h)
    · exact h
  have h3 : ∀ s, c ∈ skipExponentSign s → c ∈ s := by
    intro s h; unfold skipExponentSign at h; split at h
    · exact h
    · split at h
      · exact List.mem_cons_of_mem _ h
      · exact h
  have h4 : ∀ s, c ∈ skipExponent s → c ∈ s := by
    intro s h; unfold skipExponent at h; split at h
    · exact h
    · split at h
      · exact List.mem_cons_of_mem _ (h3 _ (dropWhile_mem h))
      · exact h
  exact h1 _ (dropWhile_mem (h2 _ (h4 _ h)))

/-- On an input without NUL nothing aborts, and what is left has none either. -/
structure Clean (nv : Bytes) (n : Nat) : Prop where
  value : ∀ s, 0 ∉ s → value nv n s ≠ .abort ∧ ∀ r x, value nv n s = .ok r x → 0 ∉ r
  array : ∀ s, 0 ∉ s → array nv n s ≠ .abort ∧ ∀ r x, array nv n s = .ok r x → 0 ∉ r
  elements : ∀ s, 0 ∉ s → elements nv n s ≠ .abort ∧ ∀ r x, elements nv n s = .ok r x → 0 ∉ r
  object : ∀ s, 0 ∉ s → object nv n s ≠ .abort ∧ ∀ r x, object nv n s = .ok r x → 0 ∉ r
  members : ∀ s, 0 ∉ s → members nv n s ≠ .abort ∧ ∀ r x, members nv n s = .ok r x → 0 ∉ r

theorem bind_clean {α β : Type} {p : P α} {f : Bytes → α → P β}
    (hp : p ≠ .abort ∧ ∀ r x, p = .ok r x → 0 ∉ r)
    (hf : ∀ r a, 0 ∉ r → f r a ≠ .abort ∧ ∀ r' x, f r a = .ok r' x → 0 ∉ r') :
    p.bind f ≠ .abort ∧ ∀ r x, p.bind f = .ok r x → 0 ∉ r := by
  cases p with
  | ok r' a => exact hf r' a (hp.2 _ _ rfl)
  | fail => exact ⟨nofun, nofun⟩
  | abort => exact absurd rfl hp.1
  | stuck => exact ⟨nofun, nofun⟩

theorem ok_clean {α : Type} {r : Bytes} {a : α} (h : 0 ∉ r) :
    P.ok r a ≠ .abort ∧ ∀ r' x, P.ok r a = .ok r' x → 0 ∉ r' :=
  ⟨nofun, fun r' x e => by injection e with e; rw [← e]; exact h⟩

theorem fail_clean {α : Type} : (P.fail : P α) ≠ .abort ∧ ∀ r' x, (P.fail : P α) = .ok r' x → 0 ∉ r' :=
  ⟨nofun, nofun⟩

theorem ws_clean {s : Bytes} (h : 0 ∉ s) : 0 ∉ ws s := fun h' => h (ws_mem h')

theorem clean (nv : Bytes) : ∀ n, Clean nv n
  | 0 => by
    refine ⟨?_, ?_, ?_, ?_, ?_⟩ <;> intro s _ <;> refine ⟨?_, ?_⟩ <;>
      simp [Json.value, Json.array, Json.elements, Json.object, Json.members]
  | n + 1 => by
    have ih := clean nv n
    refine ⟨?_, ?_, ?_, ?_, ?_⟩
    · intro s h0
      have hw := ws_clean h0
      unfold Json.value
      split
      · exact ok_clean (by simp)
      · generalize ws s = s' at *
        have hd : ∀ k, 0 ∉ s'.drop k := fun k h => hw (List.mem_of_mem_drop h)
        split
        · exact parseString_clean (by simp) hw
        · exact bind_clean (ih.object _ (fun h => hw (List.mem_cons_of_mem _ h))) fun r a h => ok_clean h
        · exact bind_clean (ih.array _ (fun h => hw (List.mem_cons_of_mem _ h))) fun r a h => ok_clean h
        · split
          · exact ok_clean (fun h => hw (skipNumber_mem h))
          split
          · exact ok_clean (hd _)
          split
          · exact ok_clean (hd _)
          split
          · exact ok_clean (hd _)
          · exact ok_clean hw
    · intro s h0
      have hw := ws_clean h0
      unfold Json.array
      split
      · exact ok_clean (by simp)
      · rename_i t heq
        rw [heq] at hw
        exact ok_clean (fun h => hw (List.mem_cons_of_mem _ h))
      · exact ih.elements _ hw
    · intro s h0
      have hw := ws_clean h0
      unfold Json.elements
      split
      · exact ok_clean (by simp)
      · refine bind_clean (ih.value _ hw) fun r a h => ?_
        have hr := ws_clean h
        split
        · exact ok_clean (by simp)
        · rename_i t heq
          rw [heq] at hr
          exact ok_clean (fun h => hr (List.mem_cons_of_mem _ h))
        · rename_i t heq
          rw [heq] at hr
          exact bind_clean (ih.elements _ (fun h => hr (List.mem_cons_of_mem _ h))) fun r a h => ok_clean h
        · exact fail_clean
    · intro s h0
      have hw := ws_clean h0
      unfold Json.object
      split
      · exact ok_clean (by simp)
      · rename_i t heq
        rw [heq] at hw
        exact ok_clean (fun h => hw (List.mem_cons_of_mem _ h))
      · exact ih.members _ hw
    · intro s h0
      have hw := ws_clean h0
      unfold Json.members
      split
      · exact ok_clean (by simp)
      · rename_i hne
        refine bind_clean (parseString_clean hne hw) fun r a h => ?_
        have hr := ws_clean h
        split
        · exact ok_clean (by simp)
        · rename_i t heq
          rw [heq] at hr
          have ht := ws_clean (s := t) (fun h => hr (List.mem_cons_of_mem _ h))
          split
          · exact ok_clean (by simp)
          · refine bind_clean (ih.value _ ht) fun r a h => ?_
            have hr := ws_clean h
            split
            · exact ok_clean (by simp)
            · rename_i t heq
              rw [heq] at hr
              exact ok_clean (fun h => hr (List.mem_cons_of_mem _ h))
            · rename_i t heq
              rw [heq] at hr
              exact bind_clean (ih.members _ (fun h => hr (List.mem_cons_of_mem _ h))) fun r a h => ok_clean h
            · exact fail_clean
        · exact fail_clean

/-! ## The parser accepts the grammar -/

open Spec

theorem ws_blank {w : Bytes} (hw : Blank w) (s : Bytes) : ws (w ++ s) = ws s := by
  induction w with
  | nil => rfl
  | cons c w ih =>
    have hc : isSpace c = true := hw c (by simp)
    have : ws (c :: (w ++ s)) = ws (w ++ s) := by unfold ws; rw [List.dropWhile_cons, hc]; rfl
    rw [List.cons_append, this]
    exact ih (fun d hd => hw d (by simp [hd]))

theorem dropDigits {d : Bytes} (hd : ∀ c ∈ d, 48 ≤ c ∧ c ≤ 57) {s : Bytes}
    (hs : ∀ c, s.head? = some c → isDigit c = false) : (d ++ s).dropWhile isDigit = s := by
  induction d with
  | nil =>
    cases s with
    | nil => rfl
    | cons c s => rw [List.nil_append, List.dropWhile_cons, hs c rfl]; rfl
  | cons c d ih =>
    have : isDigit c = true := by have := hd c (by simp); unfold isDigit; simp [this]
    rw [List.cons_append, List.dropWhile_cons, this]
    exact ih (fun e he => hd e (by simp [he]))

/-- What follows does not continue a number. -/
def Stops (rest : Bytes) : Prop := ∀ c, rest.head? = some c → isDigit c = false ∧ c ≠ 46 ∧ c ≠ 101 ∧ c ≠ 69

theorem stops_blank {w : Bytes} (hw : Blank w) {c : UInt8} (rest : Bytes)
    (hc : isDigit c = false ∧ c ≠ 46 ∧ c ≠ 101 ∧ c ≠ 69) : Stops (w ++ c :: rest) := by
  intro d hd
  cases w with
  | nil =>
    simp only [List.nil_append, List.head?_cons, Option.some.injEq] at hd
    rw [← hd]; exact hc
  | cons e w =>
    simp only [List.cons_append, List.head?_cons, Option.some.injEq] at hd
    have := hw e (by simp)
    rw [hd] at this
    revert this
    exact forall_u8 (P := fun d => isSpace d = true → isDigit d = false ∧ d ≠ 46 ∧ d ≠ 101 ∧ d ≠ 69)
      (by decide +kernel) d

theorem skipExponent_exp {e rest : Bytes} (he : Exponent e) (hr : Stops rest) : skipExponent (e ++ rest) = rest := by
  rcases he with rfl | ⟨m, s, d, hm, hs, hd, rfl⟩
  · unfold skipExponent
    split
    · rename_i h; rw [List.nil_append] at h; rw [h]
    · rename_i c t h
      rw [List.nil_append] at h
      have := hr c (by rw [h]; rfl)
      rw [if_neg (by rintro (h | h) <;> simp_all), h]
  · have h1 : skipExponent (m :: (s ++ d) ++ rest) = (skipExponentSign (s ++ d ++ rest)).dropWhile isDigit := by
      rw [List.cons_append]
      conv => lhs; unfold skipExponent
      simp only [if_pos hm]
    have h2 : skipExponentSign (s ++ d ++ rest) = d ++ rest := by
      rcases hs with rfl | rfl | rfl
      · obtain ⟨hne, hd⟩ := hd
        cases d with
        | nil => exact absurd rfl hne
        | cons c d =>
          have := hd c (by simp)
          simp only [List.nil_append, List.cons_append, skipExponentSign]
          rw [if_neg]
          rintro (h | h) <;> subst h <;> revert this <;> decide
      · simp [skipExponentSign]
      · simp [skipExponentSign]
    rw [h1, h2]
    exact dropDigits hd.2 fun c hc => (hr c hc).1

theorem head_exp {e rest : Bytes} (he : Exponent e) (hr : Stops rest) :
    ∀ c, (e ++ rest).head? = some c → isDigit c = false ∧ c ≠ 46 := by
  intro c hc
  rcases he with rfl | ⟨m, s, d, hm, hs, hd, rfl⟩
  · exact ⟨(hr c hc).1, (hr c hc).2.1⟩
  · simp only [List.cons_append, List.head?_cons, Option.some.injEq] at hc
    subst hc
    rcases hm with rfl | rfl <;> decide

theorem skipFraction_frac {f e : Bytes} (hf : Fraction f)
    (he : ∀ c, e.head? = some c → isDigit c = false ∧ c ≠ 46) : skipFraction (f ++ e) = e := by
  rcases hf with rfl | ⟨d, hd, rfl⟩
  · unfold skipFraction
    split
    · rename_i t h
      exact absurd rfl (he 46 (by rw [List.nil_append] at h; rw [h]; rfl)).2
    · rfl
  · show (d ++ e).dropWhile isDigit = e
    exact dropDigits hd.2 fun c hc => (he c hc).1

theorem head_frac {f e : Bytes} (hf : Fraction f)
    (he : ∀ c, e.head? = some c → isDigit c = false ∧ c ≠ 46) : ∀ c, (f ++ e).head? = some c → isDigit c = false := by
  intro c hc
  rcases hf with rfl | ⟨d, hd, rfl⟩
  · exact (he c hc).1
  · simp only [List.cons_append, List.head?_cons, Option.some.injEq] at hc
    subst hc
    decide

theorem skipNumber_num {x rest : Bytes} (hx : Number x) (hr : Stops rest) : skipNumber (x ++ rest) = rest := by
  obtain ⟨sign, int, frac, exp, hs, hi, hf, he, rfl⟩ := hx
  have h1 : skipSign (sign ++ (int ++ (frac ++ exp)) ++ rest) = int ++ (frac ++ (exp ++ rest)) := by
    rcases hs with rfl | rfl
    · obtain ⟨hne, hd⟩ := hi
      cases int with
      | nil => exact absurd rfl hne
      | cons c d =>
        have := hd c (by simp)
        simp only [List.nil_append, List.cons_append, List.append_assoc]
        unfold skipSign
        split
        · rename_i h
          injection h with h _
          rw [h] at this
          exact absurd this.1 (by decide)
        · rfl
    · simp [skipSign]
  unfold skipNumber
  rw [h1, dropDigits hi.2 (head_frac hf (head_exp he hr)), skipFraction_frac hf (head_exp he hr),
    skipExponent_exp he hr]

theorem between_append (x rest : Bytes) : between (x ++ rest) rest = x := by
  unfold between
  rw [List.length_append, Nat.add_sub_cancel, List.take_left]

theorem number_head {x : Bytes} (hx : Number x) : ∃ c t, x = c :: t ∧ (isDigit c = true ∨ c = 45) ∧
    ∀ rest, startsNumber (x ++ rest) = true := by
  obtain ⟨sign, int, frac, exp, hs, ⟨hne, hd⟩, _, _, rfl⟩ := hx
  cases int with
  | nil => exact absurd rfl hne
  | cons c d =>
    have hc : isDigit c = true := by have := hd c (by simp); unfold isDigit; simp [this]
    rcases hs with rfl | rfl
    · refine ⟨c, d ++ (frac ++ exp), rfl, Or.inl hc, fun rest => ?_⟩
      have h45 : c ≠ 45 := by rintro rfl; exact absurd hc (by decide)
      simp only [List.nil_append, List.cons_append]
      unfold startsNumber
      split
      · rename_i h; injection h with h _; exact absurd h h45
      · rename_i h; injection h with h _; rw [← h]; exact hc
      · rename_i h; cases h
    · refine ⟨45, c :: (d ++ (frac ++ exp)), rfl, Or.inr rfl, fun rest => ?_⟩
      show isDigit c = true
      exact hc

theorem value_other (nv : Bytes) (n : Nat) {c : UInt8} (t : Bytes) (hs : isSpace c = false)
    (h1 : c ≠ 34) (h2 : c ≠ 123) (h3 : c ≠ 91) : value nv (n + 1) (c :: t) =
      if startsNumber (c :: t) then .ok (skipNumber (c :: t)) (between (c :: t) (skipNumber (c :: t)))
      else if (c :: t).take 4 = str "true" then .ok ((c :: t).drop 4) (str "true")
      else if (c :: t).take 5 = str "false" then .ok ((c :: t).drop 5) (str "false")
      else if (c :: t).take 4 = str "null" then .ok ((c :: t).drop 4) nv
      else .ok (c :: t) [] := by
  rw [Json.value, ws_cons hs]
  simp only
  split
  · rename_i h; injection h with h _; exact absurd h h1
  · rename_i h; injection h with h _; exact absurd h h2
  · rename_i h; injection h with h _; exact absurd h h3
  · rfl

theorem scan_body {b : Bytes} (hb : Body b) (rest : Bytes) : scan (b ++ 34 :: rest) = some (b, rest) := by
  induction hb with
  | nil => rfl
  | @plain c b h0 h34 h92 _ ih =>
    rw [List.cons_append]
    unfold scan
    split
    · rename_i h; cases h
    · rename_i h; injection h with h _; exact absurd h h34
    · rename_i h; injection h with h _; exact absurd h h92
    · rename_i h; injection h with h _; exact absurd h h92
    · rename_i h
      injection h with h' h
      subst h; subst h'
      rw [if_neg h0, ih]; rfl
  | @escaped c b _ ih =>
    rw [List.cons_append, List.cons_append, scan, ih]; rfl

theorem parseString_body {b : Bytes} (hb : Body b) (rest : Bytes) :
    parseString (34 :: (b ++ 34 :: rest)) = .ok rest (unescape b 92) := by
  unfold parseString
  rw [if_neg (by simp), ws_cons (by decide)]
  simp only [scan_body hb]

/-- The first character of a value. -/
theorem val_head {nv x v : Bytes} (h : Val nv x v) : ∃ c t, x = c :: t ∧ isSpace c = false ∧ c ≠ 93 := by
  cases h with
  | tru => exact ⟨_, _, rfl, by decide, by decide⟩
  | fls => exact ⟨_, _, rfl, by decide, by decide⟩
  | nul => exact ⟨_, _, rfl, by decide, by decide⟩
  | num h =>
    obtain ⟨c, t, h1, h2, _⟩ := number_head h
    refine ⟨c, t, h1, ?_⟩
    rcases h2 with h2 | rfl
    · revert h2
      exact forall_u8 (P := fun c => isDigit c = true → isSpace c = false ∧ c ≠ 93) (by decide +kernel) c
    · decide
  | lit _ => exact ⟨_, _, rfl, by decide, by decide⟩
  | arr h => cases h <;> exact ⟨_, _, rfl, by decide, by decide⟩
  | obj h => cases h <;> exact ⟨_, _, rfl, by decide, by decide⟩

/-- The five functions accept the grammar, given enough fuel. -/
structure Accepts (nv : Bytes) (n : Nat) : Prop where
  value : ∀ x v rest, Val nv x v → Stops rest → 3 * (x ++ rest).length + 1 ≤ n →
    value nv n (x ++ rest) = .ok rest v
  array : ∀ x vs rest, Arr nv (91 :: x) vs → 3 * (x ++ rest).length + 3 ≤ n →
    array nv n (x ++ rest) = .ok rest vs
  elements : ∀ x vs rest, Elems nv x vs → 3 * (x ++ 93 :: rest).length + 2 ≤ n →
    elements nv n (x ++ 93 :: rest) = .ok rest vs
  object : ∀ x ms rest, Obj nv (123 :: x) ms → 3 * (x ++ rest).length + 3 ≤ n →
    object nv n (x ++ rest) = .ok rest ms
  members : ∀ x ms rest, Mems nv x ms → 3 * (x ++ 125 :: rest).length + 2 ≤ n →
    members nv n (x ++ 125 :: rest) = .ok rest ms

theorem blank_nil : Blank [] := fun _ h => nomatch h

theorem stops_char {c : UInt8} (rest : Bytes) (hc : isDigit c = false ∧ c ≠ 46 ∧ c ≠ 101 ∧ c ≠ 69) :
    Stops (c :: rest) := stops_blank blank_nil rest hc

theorem accepts (nv : Bytes) : ∀ n, Accepts nv n
  | 0 => ⟨fun x v r _ _ h => by omega, fun x v r _ h => by omega, fun x v r _ h => by omega,
      fun x v r _ h => by omega, fun x v r _ h => by omega⟩
  | n + 1 => by
    have ih := accepts nv n
    refine ⟨?_, ?_, ?_, ?_, ?_⟩
    · -- value
      intro x v rest hx hr hn
      cases hx with
      | tru =>
        refine (value_other nv n (c := 116) (str "rue" ++ rest) (by decide) (by decide) (by decide) (by decide)).trans ?_
        rfl
      | fls =>
        refine (value_other nv n (c := 102) (str "alse" ++ rest) (by decide) (by decide) (by decide) (by decide)).trans ?_
        rfl
      | nul =>
        refine (value_other nv n (c := 110) (str "ull" ++ rest) (by decide) (by decide) (by decide) (by decide)).trans ?_
        rfl
      | num h =>
        obtain ⟨c, t, hc, hd, hsn⟩ := number_head h
        have hq : isSpace c = false ∧ c ≠ 34 ∧ c ≠ 123 ∧ c ≠ 91 := by
          rcases hd with h2 | rfl
          · revert h2
            exact forall_u8 (P := fun c => isDigit c = true → isSpace c = false ∧ c ≠ 34 ∧ c ≠ 123 ∧ c ≠ 91)
              (by decide +kernel) c
          · decide
        have hk := skipNumber_num h hr
        have hs' := hsn rest
        have hb := between_append x rest
        subst hc
        rw [List.cons_append] at *
        rw [value_other nv n _ hq.1 hq.2.1 hq.2.2.1 hq.2.2.2, if_pos hs', hk, hb]
      | @lit b hb =>
        have e : 34 :: (b ++ [34]) ++ rest = 34 :: (b ++ 34 :: rest) := by simp
        rw [e, Json.value, ws_cons (by decide)]
        exact parseString_body hb rest
      | arr h =>
        have : ∃ y, x = 91 :: y := by cases h <;> exact ⟨_, rfl⟩
        obtain ⟨y, rfl⟩ := this
        simp only [List.cons_append, List.length_cons] at hn
        have ha := ih.array y _ rest h (by omega)
        have hb := between_append (91 :: y) rest
        rw [List.cons_append] at *
        rw [Json.value, ws_cons (by decide)]
        simp only [ha, P.bind, hb]
      | obj h =>
        have : ∃ y, x = 123 :: y := by cases h <;> exact ⟨_, rfl⟩
        obtain ⟨y, rfl⟩ := this
        simp only [List.cons_append, List.length_cons] at hn
        have ha := ih.object y _ rest h (by omega)
        have hb := between_append (123 :: y) rest
        rw [List.cons_append] at *
        rw [Json.value, ws_cons (by decide)]
        simp only [ha, P.bind, hb]
    · -- array
      intro x vs rest hx hn
      cases hx with
      | @empty w hw =>
        have e : w ++ [93] ++ rest = w ++ 93 :: rest := by simp
        rw [e, Json.array, ws_blank hw, ws_cons (by decide)]
        rfl
      | @some y _ hy =>
        have e : y ++ [93] ++ rest = y ++ 93 :: rest := by simp
        rw [e] at hn ⊢
        -- drop the blanks in front of the first element
        have key : ∃ c t, ws (y ++ 93 :: rest) = c :: (t ++ 93 :: rest) ∧ c ≠ 93 ∧ Elems nv (c :: t) vs ∧
            (c :: t).length ≤ y.length := by
          cases hy with
          | @one w x w' v hw hx hw' =>
            obtain ⟨c, t, rfl, hc, h93⟩ := val_head hx
            refine ⟨c, t ++ w', ?_, h93, .one (w := []) blank_nil hx hw', by simp⟩
            rw [List.append_assoc, ws_blank hw]
            simp only [List.cons_append, List.append_assoc]
            exact ws_cons hc
          | @more w x w' v z vs hw hx hw' hz =>
            obtain ⟨c, t, rfl, hc, h93⟩ := val_head hx
            refine ⟨c, t ++ (w' ++ 44 :: z), ?_, h93, .more (w := []) blank_nil hx hw' hz, by simp⟩
            rw [List.append_assoc, ws_blank hw]
            simp only [List.cons_append, List.append_assoc]
            exact ws_cons hc
        obtain ⟨c, t, h1, h2, h3, h4⟩ := key
        have hl := ih.elements (c :: t) vs rest h3 (by
          simp only [List.length_append, List.length_cons] at *; omega)
        rw [Json.array, h1]
        split
        · rename_i h; cases h
        · rename_i h; injection h with h _; exact absurd h h2
        · exact hl
    · -- elements
      intro x vs rest hx hn
      cases hx with
      | @one w x w' v hw hx hw' =>
        obtain ⟨c, t, rfl, hc, h93⟩ := val_head hx
        have e : ws (w ++ (c :: t ++ w') ++ 93 :: rest) = c :: (t ++ (w' ++ 93 :: rest)) := by
          rw [List.append_assoc, ws_blank hw]
          simp only [List.cons_append, List.append_assoc]
          exact ws_cons hc
        have hv := ih.value (c :: t) v (w' ++ 93 :: rest) hx (stops_blank hw' rest (by decide)) (by
          simp only [List.length_append, List.length_cons] at *; omega)
        rw [List.cons_append] at hv
        rw [Json.elements, e]
        simp only [hv, P.bind, ws_blank hw', ws_cons (show isSpace 93 = false by decide)]
      | @more w x w' v z vs hw hx hw' hz =>
        obtain ⟨c, t, rfl, hc, h93⟩ := val_head hx
        have e : ws (w ++ (c :: t ++ (w' ++ 44 :: z)) ++ 93 :: rest) = c :: (t ++ (w' ++ 44 :: (z ++ 93 :: rest))) := by
          rw [List.append_assoc, ws_blank hw]
          simp only [List.cons_append, List.append_assoc]
          exact ws_cons hc
        have hv := ih.value (c :: t) v (w' ++ 44 :: (z ++ 93 :: rest)) hx (stops_blank hw' _ (by decide)) (by
          simp only [List.length_append, List.length_cons] at *; omega)
        have hz' := ih.elements z vs rest hz (by
          simp only [List.length_append, List.length_cons] at *; omega)
        rw [List.cons_append] at hv
        rw [Json.elements, e]
        simp only [hv, P.bind, ws_blank hw', ws_cons (show isSpace 44 = false by decide), hz']
    · -- object
      intro x ms rest hx hn
      cases hx with
      | @empty w hw =>
        have e : w ++ [125] ++ rest = w ++ 125 :: rest := by simp
        rw [e, Json.object, ws_blank hw, ws_cons (by decide)]
        rfl
      | @some y _ hy =>
        have e : y ++ [125] ++ rest = y ++ 125 :: rest := by simp
        rw [e] at hn ⊢
        have key : ∃ t, ws (y ++ 125 :: rest) = 34 :: (t ++ 125 :: rest) ∧ Mems nv (34 :: t) ms ∧
            (34 :: t).length ≤ y.length := by
          cases hy with
          | @one w b w1 w2 x w3 v hw hb hw1 hw2 hx hw3 =>
            refine ⟨b ++ 34 :: (w1 ++ 58 :: (w2 ++ (x ++ w3))), ?_, .one (w := []) blank_nil hb hw1 hw2 hx hw3, by simp⟩
            rw [List.append_assoc, ws_blank hw, List.cons_append, ws_cons (by decide)]
          | @more w b w1 w2 x w3 v z ms hw hb hw1 hw2 hx hw3 hz =>
            refine ⟨b ++ 34 :: (w1 ++ 58 :: (w2 ++ (x ++ (w3 ++ 44 :: z)))), ?_,
              .more (w := []) blank_nil hb hw1 hw2 hx hw3 hz, by simp⟩
            rw [List.append_assoc, ws_blank hw, List.cons_append, ws_cons (by decide)]
        obtain ⟨t, h1, h3, h4⟩ := key
        have hl := ih.members (34 :: t) ms rest h3 (by
          simp only [List.length_append, List.length_cons] at *; omega)
        rw [Json.object, h1]
        exact hl
    · -- members
      intro x ms rest hx hn
      cases hx with
      | @one w b w1 w2 x w3 v hw hb hw1 hw2 hx hw3 =>
        obtain ⟨c, t, rfl, hc, _⟩ := val_head hx
        have e : ws (w ++ 34 :: (b ++ 34 :: (w1 ++ 58 :: (w2 ++ (c :: t ++ w3)))) ++ 125 :: rest) =
            34 :: (b ++ 34 :: (w1 ++ 58 :: (w2 ++ c :: (t ++ (w3 ++ 125 :: rest))))) := by
          rw [List.append_assoc, ws_blank hw]
          simp only [List.cons_append, List.append_assoc]
          exact ws_cons (by decide)
        have hv := ih.value (c :: t) v (w3 ++ 125 :: rest) hx (stops_blank hw3 rest (by decide)) (by
          simp only [List.length_append, List.length_cons] at *; omega)
        rw [List.cons_append] at hv
        rw [Json.members, e]
        simp only [parseString_body hb, P.bind, ws_blank hw1, ws_blank hw2, ws_cons (show isSpace 58 = false by decide),
          ws_cons hc, hv, ws_blank hw3, ws_cons (show isSpace 125 = false by decide)]
      | @more w b w1 w2 x w3 v z ms hw hb hw1 hw2 hx hw3 hz =>
        obtain ⟨c, t, rfl, hc, _⟩ := val_head hx
        have e : ws (w ++ 34 :: (b ++ 34 :: (w1 ++ 58 :: (w2 ++ (c :: t ++ (w3 ++ 44 :: z))))) ++ 125 :: rest) =
            34 :: (b ++ 34 :: (w1 ++ 58 :: (w2 ++ c :: (t ++ (w3 ++ 44 :: (z ++ 125 :: rest)))))) := by
          rw [List.append_assoc, ws_blank hw]
          simp only [List.cons_append, List.append_assoc]
          exact ws_cons (by decide)
        have hv := ih.value (c :: t) v (w3 ++ 44 :: (z ++ 125 :: rest)) hx (stops_blank hw3 _ (by decide)) (by
          simp only [List.length_append, List.length_cons] at *; omega)
        have hz' := ih.members z ms rest hz (by
          simp only [List.length_append, List.length_cons] at *; omega)
        rw [List.cons_append] at hv
        rw [Json.members, e]
        simp only [parseString_body hb, P.bind, ws_blank hw1, ws_blank hw2, ws_cons (show isSpace 58 = false by decide),
          ws_cons hc, hv, ws_blank hw3, ws_cons (show isSpace 44 = false by decide), hz']

end Bedrock.Json
