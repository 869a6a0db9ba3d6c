import Verif.Model.Https
import Verif.Props.Json
import Verif.Props.Param
import Verif.Props.Http

/-!
# C67 and C68: HTTPS requests of a command

What "the same message" means is `Spec.GoodMsg` and the lookup of headers, as in C22.
-/

namespace Bedrock.Https.Props
open Bedrock Bedrock.Text Bedrock.Http Bedrock.Json Bedrock.Json.Spec Bedrock.Json.Props Bedrock.Https Bedrock.Param.Props Bedrock.Http.Props

/-! ## C67: escalation -/

/-- The message with the length of its content as `Content-Length`. -/
def SameMsg (m m' : Msg) : Prop :=
  m'.methodLine = m.methodLine ∧ m'.content = m.content ∧
  ∀ name, Table.find name m'.table =
    if sToLower name = sToLower (str "Content-Length") then some (natDec m.content.length) else Table.find name m.table

/-- The request as it was. -/
def Same (t t' : Transaction) : Prop :=
  t'.created = t.created ∧ t'.finished = t.finished ∧ t'.timeoutAt = t.timeoutAt ∧ t'.response = t.response ∧
  SameMsg t.fullRequest t'.fullRequest ∧ SameMsg t.fullResponse t'.fullResponse

/-- Every element corresponds to the element at its place. -/
inductive Pointwise {α β : Type} (R : α → β → Prop) : List α → List β → Prop where
  | nil : Pointwise R [] []
  | cons {a b l l'} : R a b → Pointwise R l l' → Pointwise R (a :: l) (b :: l')

/-- A message that C22 transports. -/
def Good (m : Msg) : Prop := Spec.GoodMsg m ∧ ∀ e ∈ m.table, Spec.GoodValue e.2

/-- What set adds to a table. -/
theorem mem_set_name {t : Table} {n v : Bytes} {e : Bytes × Bytes} (h : e ∈ t.set n v) :
    e ∈ t ∨ (e.2 = v ∧ (e.1 = n ∨ ∃ w, (e.1, w) ∈ t ∧ sToLower e.1 = sToLower n)) := by
  induction t with
  | nil => simp only [Table.set, List.mem_singleton] at h; subst h; exact .inr ⟨rfl, .inl rfl⟩
  | cons x t ih =>
    simp only [Table.set] at h
    split at h
    · simp only [List.mem_cons] at h
      rcases h with h | h | h
      · subst h; exact .inr ⟨rfl, .inl rfl⟩
      · subst h; exact .inl (by simp)
      · exact .inl (by simp [h])
    · split at h
      · simp only [List.mem_cons] at h
        rcases h with h | h
        · subst h; exact .inl (by simp)
        · rcases ih h with h | ⟨h1, h | ⟨w, h, h2⟩⟩
          · exact .inl (by simp [h])
          · exact .inr ⟨h1, .inl h⟩
          · exact .inr ⟨h1, .inr ⟨w, by simp [h], h2⟩⟩
      · rename_i h1 h2
        simp only [List.mem_cons] at h
        rcases h with h | h
        · subst h
          exact .inr ⟨rfl, .inr ⟨x.2, by simp, (key_eq_iff x.1 n).mp (by simp [h1, h2])⟩⟩
        · exact .inl (by simp [h])

/-- Names without a meaning of their own in the format. -/
def Free (n : Bytes) : Prop :=
  ¬ Spec.sameName n (str "Set-Cookie") ∧ ¬ Spec.sameName n (str "Content-Encoding") ∧
    ¬ Spec.sameName n (str "Transfer-Encoding")

theorem Good.set {m : Msg} (h : Good m) {n v : Bytes} (hn : Spec.GoodName n) (hf : Free n) (hv : Spec.GoodValue v) :
    Good { m with table := m.table.set n v } := by
  refine ⟨⟨h.1.method, ?_, Table.set_sorted n v h.1.sorted, h.1.small⟩, ?_⟩
  · intro e he
    have key : Spec.GoodName e.1 → sToLower e.1 = sToLower n → Spec.Ordinary e := by
      intro h1 h2
      refine ⟨h1, fun h => hf.1 (h2.symm.trans h), fun h => hf.2.1 (h2.symm.trans h.1), fun h => hf.2.2 (h2.symm.trans h.1)⟩
    rcases mem_set_name he with he | ⟨_, he | ⟨w, he, h2⟩⟩
    · exact h.1.ordinary e he
    · exact key (he ▸ hn) (by rw [he])
    · exact key (h.1.ordinary _ he).name h2
  · intro e he
    rcases mem_set_name he with he | ⟨he, _⟩
    · exact h.2 e he
    · rw [he]; exact hv

theorem natDec_no_blank (n : Nat) : (32 : UInt8) ∉ natDec n := by
  intro h
  obtain ⟨d, h1, hd⟩ := natDec_digits n 32 h
  have : d = 0 ∨ d = 1 ∨ d = 2 ∨ d = 3 ∨ d = 4 ∨ d = 5 ∨ d = 6 ∨ d = 7 ∨ d = 8 ∨ d = 9 := by omega
  rcases this with rfl | rfl | rfl | rfl | rfl | rfl | rfl | rfl | rfl | rfl <;> exact absurd hd (by decide)

theorem good_natDec (n : Nat) : Spec.GoodValue (natDec n) :=
  ⟨fun h => (natDec_plain _ 0 h).1 rfl, fun h => natDec_no_blank n (List.mem_of_mem_head? h),
    fun h => natDec_no_blank n (List.mem_of_getLast? h)⟩

theorem good_received {m : Msg} (h : Good m) : Good (Http.received m) := by
  have hg : Good { m with table := (sent m.table).map (fun e => (e.1, Spec.carried e.2)) } := by
    have hm : ∀ e ∈ (sent m.table).map (fun e => (e.1, Spec.carried e.2)), e ∈ m.table := by
      intro e he
      obtain ⟨x, hx, rfl⟩ := List.mem_map.mp he
      have hx := (List.mem_filter.mp hx).1
      rw [carried_good (h.2 x hx)]
      exact hx
    exact ⟨⟨h.1.method, fun e he => h.1.ordinary e (hm e he), arrived_base_sorted m h.1, h.1.small⟩,
      fun e he => h.2 e (hm e he)⟩
  exact hg.set goodName_contentLength (by unfold Free Spec.sameName; decide +kernel) (good_natDec _)

theorem good_message {gz : Bytes → Bytes} {m : Msg} (h : Good m) :
    ∃ b m', compose gz m = some b ∧ 20 ≤ b.length ∧ message b = some m' ∧ SameMsg m m' ∧ Good m' := by
  obtain ⟨b, hb⟩ := c22_composes gz m h.1
  obtain ⟨m', h1, h2, h3, h4⟩ := c22_round_trip gz m b [] h.1 h.2 hb
  have hg : Good m' := by
    have hc : bytes m = b := by
      have := hb
      rw [compose_eq gz m h.1] at this
      injection this
    have := parse_msg m h.1 [] [] (.inl rfl)
    rw [hc] at this
    rw [show [] ++ (b ++ []) = b ++ [] from rfl, h1] at this
    injection this with _ this
    rw [this]
    exact good_received h
  refine ⟨b, m', hb, ?_, ?_, ⟨h2, h3, h4⟩, hg⟩
  · unfold compose at hb
    split at hb
    · cases hb
    · injection hb with hb
      have e1 : sContentLength.length = 14 := by decide
      have e2 : sColon.length = 2 := by decide
      have e3 : crlf.length = 2 := rfl
      rw [← hb]
      simp only [List.length_append, e1, e2, e3]
      omega
  · unfold message
    rw [List.append_nil] at h1
    rw [h1]

theorem tab_eq (a b c d e f : Bytes) :
    Table.set (str "fullResponse") f (Table.set (str "fullRequest") e (Table.set (str "response") d
      (Table.set (str "timeoutAt") c (Table.set (str "finished") b (Table.set (str "created") a []))))) =
    [(str "created", a), (str "finished", b), (str "fullRequest", e), (str "fullResponse", f), (str "response", d),
      (str "timeoutAt", c)] := rfl

theorem tab_get (a b c d e f : Bytes) :
    get (str "created") [(str "created", a), (str "finished", b), (str "fullRequest", e), (str "fullResponse", f),
      (str "response", d), (str "timeoutAt", c)] = a ∧
    get (str "finished") [(str "created", a), (str "finished", b), (str "fullRequest", e), (str "fullResponse", f),
      (str "response", d), (str "timeoutAt", c)] = b ∧
    get (str "fullRequest") [(str "created", a), (str "finished", b), (str "fullRequest", e), (str "fullResponse", f),
      (str "response", d), (str "timeoutAt", c)] = e ∧
    get (str "fullResponse") [(str "created", a), (str "finished", b), (str "fullRequest", e), (str "fullResponse", f),
      (str "response", d), (str "timeoutAt", c)] = f ∧
    get (str "response") [(str "created", a), (str "finished", b), (str "fullRequest", e), (str "fullResponse", f),
      (str "response", d), (str "timeoutAt", c)] = d ∧
    get (str "timeoutAt") [(str "created", a), (str "finished", b), (str "fullRequest", e), (str "fullResponse", f),
      (str "response", d), (str "timeoutAt", c)] = c := ⟨rfl, rfl, rfl, rfl, rfl, rfl⟩

/-- Texts of digits and signs are kept by JSON. -/
theorem kept_number {v : Bytes} (hne : v ≠ []) (h : ∀ c ∈ v, c = 45 ∨ (48 ≤ c ∧ c ≤ 57)) : Kept false v := by
  have h0 : 0 ∉ v := fun h' => by
    rcases h 0 h' with h | h
    · exact absurd h (by decide)
    · exact absurd h.1 (by decide)
  refine kept_plain h0 ?_ (.inr ?_)
  · intro w hw he
    exfalso
    cases v with
    | nil => exact hne rfl
    | cons c v =>
      have hc := h c (by simp)
      have : (toLower c) = c := by
        exact (forall_u8 (P := fun c => (c = 45 ∨ (48 ≤ c ∧ c ≤ 57)) → toLower c = c) (by decide +kernel)) c hc
      have hd : w.head? = some c := by rw [← he]; show some (toLower c) = some c; rw [this]
      simp only [List.mem_cons, List.not_mem_nil, or_false] at hw
      have key : ∀ d : UInt8, d = 116 ∨ d = 102 ∨ d = 110 → ¬ (d = 45 ∨ (48 ≤ d ∧ d ≤ 57)) := by
        rintro d (rfl | rfl | rfl) <;> decide
      rcases hw with rfl | rfl | rfl
      · exact key c (.inl (Option.some.inj hd).symm) hc
      · exact key c (.inr (.inl (Option.some.inj hd).symm)) hc
      · exact key c (.inr (.inr (Option.some.inj hd).symm)) hc
  · rintro ⟨_, ⟨hb, _⟩ | ⟨hb, _⟩⟩
    · have := h 91 (List.mem_of_mem_head? hb); revert this; decide
    · have := h 123 (List.mem_of_mem_head? hb); revert this; decide

theorem kept_base64 {s : Bytes} (h : 20 ≤ s.length) : Kept false (Base64.chars s) := by
  have hp := Base64.chars_plain s
  have hl := Base64.chars_length s
  have hne : ∀ d : UInt8, (d = 0 ∨ d = 91 ∨ d = 123) → ¬ Base64.Plain d := by
    unfold Base64.Plain
    rintro d (rfl | rfl | rfl) <;> decide
  refine kept_plain (fun h0 => hne 0 (.inl rfl) (hp 0 h0)) ?_ (.inr ?_)
  · intro w hw he
    exfalso
    have e : (Base64.chars s).length = w.length := by rw [← he]; simp [sToLower]
    simp only [List.mem_cons, List.not_mem_nil, or_false] at hw
    rcases hw with rfl | rfl | rfl
    · have : (str "true").length = 4 := rfl
      omega
    · have : (str "false").length = 5 := rfl
      omega
    · have : (str "null").length = 4 := rfl
      omega
  · rintro ⟨_, ⟨hb, _⟩ | ⟨hb, _⟩⟩
    · exact hne 91 (.inr (.inl rfl)) (hp 91 (List.mem_of_mem_head? hb))
    · exact hne 123 (.inr (.inr rfl)) (hp 123 (List.mem_of_mem_head? hb))

theorem natDec_signs (n : Nat) : ∀ c ∈ natDec n, c = 45 ∨ (48 ≤ c ∧ c ≤ 57) := by
  intro c hc
  obtain ⟨d, hd, rfl⟩ := natDec_digits n c hc
  right
  have : d = 0 ∨ d = 1 ∨ d = 2 ∨ d = 3 ∨ d = 4 ∨ d = 5 ∨ d = 6 ∨ d = 7 ∨ d = 8 ∨ d = 9 := by omega
  rcases this with rfl | rfl | rfl | rfl | rfl | rfl | rfl | rfl | rfl | rfl <;> decide

theorem kept_natDec (n : Nat) : Kept false (natDec n) := kept_number (natDec_ne_nil n) (natDec_signs n)

theorem kept_intDec (i : Int) : Kept false (intDec i) := by
  unfold intDec
  split
  · refine kept_number (by simp) fun c hc => ?_
    rcases List.mem_cons.mp hc with rfl | hc
    · exact .inl rfl
    · exact natDec_signs _ c hc
  · exact kept_natDec _

theorem toUInt64_natDec (u : UInt64) : toUInt64 (natDec u.toNat) = u := by
  unfold toUInt64
  rw [cstr_eq (fun h => (natDec_plain _ 0 h).1 rfl), scanDec_natDec]
  have := u.toNat_lt
  simp only [Int.natAbs_natCast]
  rw [if_neg (by omega)]
  apply UInt64.toNat_inj.mp
  simp [UInt64.ofInt]
  omega

/-- C67.  A time or a count is read as it is written; one that does not fit is read as the greatest that does, never as a small
one. -/
theorem c67_numbers (n : Nat) : (toUInt64 (natDec n)).toNat = min n (2 ^ 64 - 1) := by
  unfold toUInt64
  rw [cstr_eq (fun h => (natDec_plain _ 0 h).1 rfl), scanDec_natDec]
  simp only [Int.natAbs_natCast]
  split
  · rw [UInt64.toNat_ofNat']; omega
  · simp [UInt64.ofInt]; omega

example : toUInt64 (natDec (2 ^ 64)) = 18446744073709551615 := by decide +kernel

theorem toInt_intDec {i : Int} (h : -2 ^ 31 ≤ i ∧ i < 2 ^ 31) : toInt (intDec i) = i := by
  unfold toInt
  have h0 : (0 : UInt8) ∉ intDec i := (kept_intDec i).nul
  rw [cstr_eq h0, strtoll_intDec (by omega) (by omega)]
  unfold toInt32
  omega

/-- One request is written as an object and read back. -/
theorem one (gz : Bytes → Bytes) (isFloat : Bytes → Bool) (hF : ∀ v, isFloat v = true → Number v) (t : Transaction)
    (hr : -2 ^ 31 ≤ t.response ∧ t.response < 2 ^ 31) (h1 : Good t.fullRequest) (h2 : Good t.fullResponse) :
    ∃ tab x t', fields gz t = some tab ∧ composeObject isFloat false tab = some x ∧ Kept false x ∧
      object? x = some tab ∧ transaction tab = some t' ∧ Same t t' ∧ Good t'.fullRequest ∧ Good t'.fullResponse := by
  obtain ⟨b1, m1, c1, l1, p1, s1, k1⟩ := good_message (gz := gz) h1
  obtain ⟨b2, m2, c2, l2, p2, s2, k2⟩ := good_message (gz := gz) h2
  have e1 : Base64.encode b1 = some (Base64.chars b1) := by
    unfold Base64.encode
    rw [if_neg (by intro h; rw [h] at l1; simp at l1)]
  have e2 : Base64.encode b2 = some (Base64.chars b2) := by
    unfold Base64.encode
    rw [if_neg (by intro h; rw [h] at l2; simp at l2)]
  have hf : fields gz t = some [(str "created", natDec t.created.toNat), (str "finished", natDec t.finished.toNat),
      (str "fullRequest", Base64.chars b1), (str "fullResponse", Base64.chars b2), (str "response", intDec t.response),
      (str "timeoutAt", natDec t.timeoutAt.toNat)] := by
    unfold fields
    rw [c1, c2]
    show (Base64.encode b1).bind _ = _
    rw [e1]
    show (Base64.encode b2).bind _ = _
    rw [e2]
    exact congrArg some (tab_eq _ _ _ _ _ _)
  obtain ⟨g1, g2, g3, g4, g5, g6⟩ := tab_get (natDec t.created.toNat) (natDec t.finished.toNat)
    (natDec t.timeoutAt.toNat) (intDec t.response) (Base64.chars b1) (Base64.chars b2)
  generalize htab : [(str "created", natDec t.created.toNat), (str "finished", natDec t.finished.toNat),
      (str "fullRequest", Base64.chars b1), (str "fullResponse", Base64.chars b2), (str "response", intDec t.response),
      (str "timeoutAt", natDec t.timeoutAt.toNat)] = tab at hf g1 g2 g3 g4 g5 g6
  have hs : Table.Sorted tab := by
    rw [← htab]
    unfold Table.Sorted
    simp only [List.pairwise_cons, List.mem_cons, List.not_mem_nil, or_false, List.Pairwise.nil, and_true,
      forall_eq_or_imp, forall_eq, false_implies, implies_true]
    decide
  have hk : ∀ e ∈ tab, PlainName e.1 ∧ Kept false e.2 := by
    rw [← htab]
    simp only [List.mem_cons, List.not_mem_nil, or_false, forall_eq_or_imp, forall_eq]
    unfold PlainName
    exact ⟨⟨by decide, kept_natDec _⟩, ⟨by decide, kept_natDec _⟩, ⟨by decide, kept_base64 l1⟩,
      ⟨by decide, kept_base64 l2⟩, ⟨by decide, kept_intDec _⟩, ⟨by decide, kept_natDec _⟩⟩
  obtain ⟨x, hx, ho, hp, h0⟩ := c30_object_partial isFloat hF false tab hs hk
  refine ⟨tab, x, ⟨t.created, t.finished, t.timeoutAt, t.response, m1, m2⟩, hf, hx, c30_nested x h0 (.inr ⟨_, ho⟩), ?_, ?_,
    ⟨rfl, rfl, rfl, rfl, s1, s2⟩, k1, k2⟩
  · unfold object?
    rw [hp]
  · unfold transaction
    rw [g1, g2, g3, g4, g5, g6, Base64.decode_chars, Base64.decode_chars, p1, p2, toUInt64_natDec, toUInt64_natDec,
      toUInt64_natDec, toInt_intDec hr]
    rfl

theorem all (gz : Bytes → Bytes) (isFloat : Bytes → Bool) (hF : ∀ v, isFloat v = true → Number v)
    (l : List Transaction) (h : ∀ t ∈ l, (-2 ^ 31 ≤ t.response ∧ t.response < 2 ^ 31) ∧ Good t.fullRequest ∧
      Good t.fullResponse) :
    ∃ ts xs l', l.mapM (fields gz) = some ts ∧ ts.mapM (composeObject isFloat false) = some xs ∧
      (∀ x ∈ xs, Kept false x) ∧ xs.mapM (fun x => (object? x).bind transaction) = some l' ∧ Pointwise Same l l' ∧
      ∀ t ∈ l', Good t.fullRequest ∧ Good t.fullResponse := by
  induction l with
  | nil => exact ⟨[], [], [], rfl, rfl, by simp, rfl, .nil, by simp⟩
  | cons t l ih =>
    obtain ⟨ts, xs, l', i1, i2, i3, i4, i5, i6⟩ := ih fun t ht => h t (by simp [ht])
    obtain ⟨tab, x, t', h1, h2, h3, h4, h5, h6, h7⟩ := one gz isFloat hF t (h t (by simp)).1 (h t (by simp)).2.1
      (h t (by simp)).2.2
    refine ⟨tab :: ts, x :: xs, t' :: l', ?_, ?_, ?_, ?_, .cons h6 i5, fun t ht => by
      rcases List.mem_cons.mp ht with rfl | ht
      · exact h7
      · exact i6 t ht⟩
    · rw [List.mapM_cons, h1, i1]; rfl
    · rw [List.mapM_cons, h2, i2]; rfl
    · intro y hy
      rcases List.mem_cons.mp hy with rfl | hy
      · exact h3
      · exact i3 y hy
    · rw [List.mapM_cons, h4, i4]
      show (transaction tab).bind _ = _
      rw [h5]
      rfl

/-- Writing and reading, with what is needed to do it again. -/
theorem round_trip (gz : Bytes → Bytes) (isFloat : Bytes → Bool)
    (hF : ∀ v, isFloat v = true → Number v) (l : List Transaction)
    (h : ∀ t ∈ l, (-2 ^ 31 ≤ t.response ∧ t.response < 2 ^ 31) ∧ Good t.fullRequest ∧ Good t.fullResponse) :
    ∃ s l', serialize gz isFloat l = some s ∧ Spec.GoodValue s ∧ deserialize s = some l' ∧ Pointwise Same l l' ∧
      ∀ t ∈ l', Good t.fullRequest ∧ Good t.fullResponse := by
  by_cases hl : l = []
  · subst hl
    exact ⟨[], [], rfl, ⟨by simp, by simp, by simp⟩, rfl, .nil, by simp⟩
  obtain ⟨ts, xs, l', i1, i2, i3, i4, i5, i6⟩ := all gz isFloat hF l h
  obtain ⟨s, h1, h2, h3, h4⟩ := c30_array_partial isFloat hF xs i3
  have hs : ∃ y, s = 91 :: (y ++ [93]) := by
    cases xs with
    | nil => exact ⟨[], by injection h1 with h1; exact h1.symm⟩
    | cons x xs =>
      unfold composeArray at h1
      cases hm : (x :: xs).mapM (toJSON isFloat false) with
      | none => rw [hm] at h1; cases h1
      | some zs =>
        rw [hm] at h1
        refine ⟨joined zs, ?_⟩
        injection h1 with h1
        rw [← h1]
        rfl
  obtain ⟨y, hy⟩ := hs
  refine ⟨s, l', ?_, ⟨h4, ?_, ?_⟩, ?_, i5, i6⟩
  · unfold serialize
    rw [if_neg hl, i1]
    show (ts.mapM (composeObject isFloat false)).bind _ = _
    rw [i2]
    exact h1
  · rw [hy]; simp
  · rw [hy, ← List.cons_append, List.getLast?_concat]; simp
  · unfold deserialize
    rw [if_neg (by rw [hy]; simp), h3]
    exact i4

/-- C67.  The requests of a command are written as one header value that C22 transports, and read back from it: the same
requests in the same order, with the same times, response codes, request and response messages. -/
theorem c67_round_trip_partial (gz : Bytes → Bytes) (isFloat : Bytes → Bool)
    (hF : ∀ v, isFloat v = true → Number v) (l : List Transaction)
    (h : ∀ t ∈ l, (-2 ^ 31 ≤ t.response ∧ t.response < 2 ^ 31) ∧ Good t.fullRequest ∧ Good t.fullResponse) :
    ∃ s l', serialize gz isFloat l = some s ∧ Spec.GoodValue s ∧ deserialize s = some l' ∧ Pointwise Same l l' := by
  obtain ⟨s, l', h1, h2, h3, h4, _⟩ := round_trip gz isFloat hF l h
  exact ⟨s, l', h1, h2, h3, h4⟩

/-- Two requests, one of which failed. -/
example : ∃ s l', serialize id (fun _ => false) [⟨1, 2, 3, 200, exMsg, exMsg⟩, ⟨5, 6, 2 ^ 64 - 1, -1, exMsg, exMsg⟩] = some s ∧
    deserialize s = some l' ∧
    Pointwise Same [⟨1, 2, 3, 200, exMsg, exMsg⟩, ⟨5, 6, 2 ^ 64 - 1, -1, exMsg, exMsg⟩] l' := by
  have hg : Good exMsg := ⟨exMsg_good, by
    intro e he
    simp only [exMsg, List.mem_cons, List.not_mem_nil, or_false] at he
    rcases he with rfl | rfl <;> exact ⟨by decide +kernel, by decide +kernel, by decide +kernel⟩⟩
  obtain ⟨s, l', h1, _, h2, h3⟩ := c67_round_trip_partial id (fun _ => false) (fun _ h => nomatch h)
    [⟨1, 2, 3, 200, exMsg, exMsg⟩, ⟨5, 6, 2 ^ 64 - 1, -1, exMsg, exMsg⟩] (by
      intro t ht
      simp only [List.mem_cons, List.not_mem_nil, or_false] at ht
      rcases ht with rfl | rfl <;> exact ⟨by decide, hg, hg⟩)
  exact ⟨s, l', h1, h2, h3⟩

/-- C67.  An empty message, as a request that could not be sent has for both, arrives with `Content-Length: 0` as its
method line. -/
theorem c67_empty_message (t : Transaction) (h1 : t.fullRequest = {}) (h2 : t.fullResponse = {}) :
    ∃ t', (fields id t).bind transaction = some t' ∧ t'.fullRequest.methodLine = str "Content-Length: 0" ∧
      t'.fullResponse.methodLine = str "Content-Length: 0" := by
  have hc : compose id {} = some (str "\r\nContent-Length: 0\r\n\r\n") := by decide +kernel
  have hm : message (str "\r\nContent-Length: 0\r\n\r\n") = some { methodLine := str "Content-Length: 0" } := by
    unfold message
    rw [parse_eq_parseF]
    decide +kernel
  have he : Base64.encode (str "\r\nContent-Length: 0\r\n\r\n") =
      some (Base64.chars (str "\r\nContent-Length: 0\r\n\r\n")) := by decide +kernel
  unfold fields
  rw [h1, h2, hc]
  simp only [Option.bind_eq_bind, Option.bind_some, he, tab_eq]
  unfold transaction
  obtain ⟨-, -, g3, g4, -, -⟩ := tab_get (natDec t.created.toNat) (natDec t.finished.toNat)
    (natDec t.timeoutAt.toNat) (intDec t.response) (Base64.chars (str "\r\nContent-Length: 0\r\n\r\n"))
    (Base64.chars (str "\r\nContent-Length: 0\r\n\r\n"))
  rw [g3, g4, Base64.decode_chars, hm]
  exact ⟨_, rfl, rfl, rfl⟩

/-- C67.  A compressed answer is compressed once more on the way, and is not decompressed on arrival. -/
theorem c67_gzip_twice :
    ((compose (fun c => 31 :: 139 :: c)
        { methodLine := str "HTTP/1.1 200 OK", table := [(str "Content-Encoding", str "gzip")], content := [31, 139, 7] }).bind
      message).map (·.content) = some [31, 139, 31, 139, 7] := by
  unfold message
  simp only [parse_eq_parseF]
  decide +kernel

/-! ## C68: waiting for answers -/

theorem takeChunk_goes (st : St) (n : Int) (eol : Bytes) (k : Nat) (m : Msg) :
    takeChunk st n eol ≠ .stop (.ok k m) := by
  unfold takeChunk
  split
  · split <;> exact nofun
  · split <;> exact nofun

/-- A message that is parsed has a method line. -/
theorem run_method (total : Nat) (n : Nat) (st : St) (input : Bytes) (hn : input.length ≤ n) (k : Nat) (m : Msg)
    (h : run total st input = .ok k m) : m.methodLine ≠ [] := by
  induction n generalizing st input with
  | zero =>
    have : input = [] := List.length_eq_zero_iff.mp (by omega)
    rw [run, if_pos this] at h
    cases h
  | succ n ih =>
    rw [run] at h
    split at h
    · cases h
    · split at h
      · rename_i r hr
        rw [h] at hr
        unfold onInput at hr
        simp only at hr
        split at hr
        · cases hr
        · split at hr
          · unfold onBlank at hr
            split at hr
            · cases hr
            · rename_i hm
              have fin : ∀ rest, finish total st rest = .ok k m → m.methodLine ≠ [] := by
                intro rest hf
                unfold finish at hf
                simp only at hf
                split at hf
                · injection hf with _ hf
                  rw [← hf]
                  exact hm
                · split at hf
                  · cases hf
                  · split at hf
                    · cases hf
                    · split at hf
                      · cases hf
                      · injection hf with _ hf
                        rw [← hf]
                        exact hm
              split at hr
              · injection hr with hr
                unfold finishChunked at hr
                injection hr with _ hr
                rw [← hr]
                exact hm
              · split at hr
                · split at hr
                  · cases hr
                  · injection hr with hr
                    exact fin _ hr
                · injection hr with hr
                  exact fin _ hr
          · unfold onLine at hr
            split at hr
            · split at hr
              · injection hr with hr
                cases hr
              · cases hr
            · split at hr
              · simp only at hr
                split at hr
                · cases hr
                · exact absurd hr (takeChunk_goes _ _ _ _ _)
              · cases hr
      · rename_i st' rest hgo
        have := onInput_lt hgo
        exact ih st' rest (by omega) h

theorem parse_method {b : Bytes} {k : Nat} {m : Msg} (h : parse b = .ok k m) : m.methodLine ≠ [] :=
  run_method _ b.length _ b (Nat.le_refl _) k m h

theorem decPrefix_stop (n : Nat) (rest : Bytes) (hr : startsDec rest = false) :
    decPrefix 0 (natDec n ++ rest) = n := by
  have key : ∀ (acc : Nat), decPrefix acc rest = acc := by
    intro acc
    cases rest with
    | nil => rfl
    | cons c r =>
      simp only [startsDec] at hr
      rw [decPrefix]
      cases h : decVal c with
      | none => rfl
      | some d => rw [h] at hr; cases hr
  have app : ∀ (s : Bytes) (acc : Nat), (∀ c ∈ s, ∃ d < 10, c = UInt8.ofNat (48 + d)) →
      decPrefix acc (s ++ rest) = decPrefix acc s := by
    intro s
    induction s with
    | nil => intro acc _; rw [List.nil_append, key]; rfl
    | cons c s ih =>
      intro acc h
      obtain ⟨d, hd, rfl⟩ := h c (by simp)
      rw [List.cons_append, decPrefix, decPrefix, decVal_digit d hd]
      exact ih _ fun c hc => h c (by simp [hc])
  rw [app _ _ (natDec_digits n), decPrefix_natDec]

/-- C68.  The code taken from a first line is never 0. -/
theorem c68_code_nonzero (line : Bytes) (dflt : Int) (h : dflt ≠ 0) : responseCode line dflt ≠ 0 := by
  unfold responseCode
  split
  · exact h
  · split
    · assumption
    · exact h

/-- C68.  Of a line `HTTP/1.1 404 Not Found` it is the number after the blanks. -/
theorem c68_code_read (proto rest : Bytes) (k code : Nat) (dflt : Int) (hp : 32 ∉ proto) (hc : 0 < code)
    (hc' : code < 2 ^ 31) (hr : startsDec rest = false) :
    responseCode (proto ++ List.replicate (k + 1) 32 ++ natDec code ++ rest) dflt = code := by
  have h1 : (proto ++ List.replicate (k + 1) 32 ++ natDec code ++ rest).dropWhile (· != 32) =
      List.replicate (k + 1) 32 ++ (natDec code ++ rest) := by
    induction proto with
    | nil => simp [List.replicate_succ]
    | cons c p ih =>
      have hc : c ≠ 32 := fun e => hp (by simp [e])
      rw [List.cons_append, List.cons_append, List.cons_append, List.dropWhile_cons, if_pos (by simpa using hc)]
      exact ih fun h => hp (by simp [h])
  obtain ⟨d, ds, hd⟩ : ∃ d ds, natDec code = d :: ds := by
    cases h : natDec code with
    | nil => exact absurd h (natDec_ne_nil code)
    | cons d ds => exact ⟨d, ds, rfl⟩
  have hd32 := natDec_plain code d (by rw [hd]; simp)
  have h2 : (List.replicate (k + 1) (32 : UInt8) ++ (natDec code ++ rest)).dropWhile (· == 32) = natDec code ++ rest := by
    have : ∀ j, (List.replicate j (32 : UInt8) ++ (natDec code ++ rest)).dropWhile (· == 32) = natDec code ++ rest := by
      intro j
      induction j with
      | zero =>
        rw [List.replicate_zero, List.nil_append, hd, List.cons_append, List.dropWhile_cons,
          if_neg (by simpa using hd32.2.2.2.2.2.2.2.2)]
      | succ j ih =>
        rw [List.replicate_succ, List.cons_append, List.dropWhile_cons, if_pos (by decide)]
        exact ih
    exact this _
  have hz : ∃ rest', cstr (natDec code ++ rest) = natDec code ++ rest' ∧ startsDec rest' = false := by
    refine ⟨cstr rest, ?_, ?_⟩
    · have : ∀ x : Bytes, (∀ c ∈ x, c ≠ 0) → cstr (x ++ rest) = x ++ cstr rest := by
        intro x hx
        unfold cstr
        induction x with
        | nil => rfl
        | cons c x ih =>
          rw [List.cons_append, List.takeWhile_cons, if_pos (by simpa using hx c (by simp)),
            ih (fun d hd => hx d (by simp [hd])), List.cons_append]
      exact this _ fun c hc => (natDec_plain code c hc).1
    · unfold cstr
      cases rest with
      | nil => rfl
      | cons c r =>
        rw [List.takeWhile_cons]
        split
        · exact hr
        · rfl
  have h3 : toInt (natDec code ++ rest) = code := by
    obtain ⟨rest', e, hr'⟩ := hz
    have hscan : scanDec (natDec code ++ rest') = some (code : Int) := by
      have h0 : ∀ x, cstr (cstr x) = cstr x := by
        intro x
        unfold cstr
        induction x with
        | nil => rfl
        | cons c x ih =>
          rw [List.takeWhile_cons]
          split
          · rename_i hc
            rw [List.takeWhile_cons, if_pos hc, ih]
          · rfl
      unfold scanDec
      rw [← e, h0, e, hd, List.cons_append, List.dropWhile_cons, if_neg (by rw [hd32.2.1]; decide)]
      have hs : startsDec (d :: (ds ++ rest')) = true := by
        obtain ⟨x, hx, rfl⟩ := natDec_digits code d (by rw [hd]; simp)
        show (decVal _).isSome = true
        rw [decVal_digit x hx]
        rfl
      have hv : decPrefix 0 (d :: (ds ++ rest')) = code := by
        rw [← List.cons_append, ← hd]
        exact decPrefix_stop code rest' hr'
      split
      · rename_i h; injection h with h _; exact absurd h hd32.2.2.1
      · rename_i h; injection h with h _; exact absurd h hd32.2.2.2.1
      · rw [if_pos hs, hv]
    unfold toInt strtoll
    rw [e, hscan]
    simp only
    rw [if_neg (by omega), if_neg (by omega)]
    unfold toInt32
    omega
  unfold responseCode
  rw [h1, h2]
  split
  · rename_i h
    rw [hd] at h
    cases h
  · rw [h3, if_pos (by omega)]

example : responseCode (str "HTTP/1.1" ++ List.replicate 1 32 ++ natDec 404 ++ str " Not Found") 400 = 404 :=
  c68_code_read _ _ 0 404 _ (by decide) (by omega) (by omega) (by decide)

theorem received_method {recv : Bytes} {r : Nat × Msg} (h : received recv = some r) (hs : 0 < r.1) :
    parse recv = .ok r.1 r.2 ∧ r.2.methodLine ≠ [] := by
  unfold received at h
  split at h
  · rename_i k m' hp
    injection h with h
    subst h
    exact ⟨hp, parse_method hp⟩
  · injection h with h
    subst h
    exact absurd hs (Nat.lt_irrefl 0)
  · cases h

theorem fallback_ne (m : Msg) : fallback m ≠ 0 := by
  unfold fallback
  split <;> decide

/-- C68.  Polling a request that is not finished, without an error in the parser: either nothing is decided, or the
request gets a code other than 0. -/
theorem c68_decided (t t' : Live) (p : Poll) (ho : t.open_ = true) (hf : t.finished = 0) (h : postPoll t p = some t') :
    (t'.response = t.response ∧ t'.finished = 0 ∧ t'.open_ = true) ∨ t'.response ≠ 0 := by
  unfold postPoll at h
  rw [if_neg (by simp [ho, hf]), Option.map_eq_some_iff] at h
  obtain ⟨r, hres, ht⟩ := h
  subst ht
  split
  · exact .inr (c68_code_nonzero _ _ (fallback_ne _))
  · split
    · split
      · rename_i hmm
        have hm' : r.2.methodLine ≠ [] := by
          rcases hmm with h | h
          · exact h
          · exact (received_method hres h).2
        right
        show (if r.2.methodLine ≠ [] then _ else _) ≠ _
        rw [if_pos hm']
        exact c68_code_nonzero _ _ (by decide)
      · right
        show (if p.sendBufferEmpty = true then (501 : Int) else 500) ≠ 0
        split <;> decide
    · exact .inl ⟨rfl, hf, ho⟩

/-- C68.  After every poll of an open request, its answer is what was received so far. -/
theorem c68_received (t t' : Live) (p : Poll) (k : Nat) (m : Msg) (ho : t.open_ = true) (hf : t.finished = 0)
    (hr : parse p.recv = .ok k m) (h : postPoll t p = some t') : t'.full = m := by
  unfold postPoll at h
  rw [if_neg (by simp [ho, hf])] at h
  simp only [received, hr, Option.map_some, Option.some.injEq] at h
  subst h
  repeat' split
  all_goals rfl

/-- C68.  Once the connection is down, idle too long, or past the request's deadline, polling decides. -/
theorem c68_gives_up (t t' : Live) (p : Poll) (ho : t.open_ = true) (hf : t.finished = 0)
    (hd : p.dead = true ∨ p.lastSend + p.idle * 1000 < p.now ∨ t.timeoutAt < p.now) (h : postPoll t p = some t') :
    t'.response ≠ 0 := by
  unfold postPoll at h
  rw [if_neg (by simp [ho, hf]), Option.map_eq_some_iff] at h
  obtain ⟨r, hres, ht⟩ := h
  subst ht
  split
  · exact c68_code_nonzero _ _ (fallback_ne _)
  · split
    · rename_i hmm
      have hm' : r.2.methodLine ≠ [] := by
        rcases hmm with h | h
        · exact h
        · exact (received_method hres h).2
      show (if r.2.methodLine ≠ [] then _ else _) ≠ _
      rw [if_pos hm']
      exact c68_code_nonzero _ _ (by decide)
    · show (if p.sendBufferEmpty = true then (501 : Int) else 500) ≠ 0
      split <;> decide

/-- C68.  As long as the connection is up and no time has run out, only a whole answer is taken: one that the parser
accepts and that states its length, is a 204, or has been ended by the server.  Its code is then the one of the first
line. -/
theorem c68_no_early_answer (t t' : Live) (p : Poll) (ho : t.open_ = true) (hf : t.finished = 0)
    (hd : p.dead = false) (hi : p.now ≤ p.lastSend + p.idle * 1000) (ht : p.now ≤ t.timeoutAt)
    (h : postPoll t p = some t') (hdone : t'.finished ≠ 0 ∨ t'.response ≠ t.response) :
    ∃ k dflt, parse p.recv = .ok k t'.full ∧ (dflt = 400 ∨ dflt = 500) ∧
      t'.response = responseCode t'.full.methodLine dflt ∧
      ((Table.find sContentLength t'.full.table).isSome = true ∨ statusCode t'.full.methodLine = 204 ∨ p.closed = true) := by
  unfold postPoll at h
  rw [if_neg (by simp [ho, hf]), Option.map_eq_some_iff] at h
  obtain ⟨r, hres, ht'⟩ := h
  by_cases hw : whole p r.1 r.2 = true
  · rw [if_pos hw] at ht'
    subst ht'
    simp only [whole, Bool.and_eq_true, bne_iff_ne, ne_eq, Bool.or_eq_true, beq_iff_eq] at hw
    refine ⟨r.1, fallback r.2, (received_method hres (by omega)).1, ?_, rfl, ?_⟩
    · unfold fallback
      split
      · exact .inl rfl
      · exact .inr rfl
    · rcases hw.2 with (h | h) | h
      · exact .inr (.inl h)
      · exact .inl h
      · exact .inr (.inr h)
  · rw [if_neg hw, if_neg (by rw [hd]; simp; omega)] at ht'
    subst ht'
    rcases hdone with h | h
    · exact absurd hf h
    · exact absurd rfl h

/-- An answer without length: taken only when the server has closed the connection. -/
example : (postPoll ⟨true, 0, 99, 0, {}⟩ ⟨5, str "HTTP/1.1 200 OK\r\n\r\nab", false, false, 0, true, 9⟩).map
      (fun t => (t.response, t.finished)) = some (0, 0) ∧
    (postPoll ⟨true, 0, 99, 0, {}⟩ ⟨5, str "HTTP/1.1 200 OK\r\n\r\nab", true, true, 0, true, 9⟩).map
      (fun t => (t.response, t.finished)) = some (200, 5) := by
  unfold postPoll received
  simp only [parse_eq_parseF]
  decide +kernel

/-! ### All requests of a command -/

/-- Everything up to the cursor has a response. -/
def Inv (w : Waiting) : Prop := ∀ i, w.cursor = some i → i < w.responses.length ∧ ∀ r ∈ w.responses.take (i + 1), r ≠ 0

/-- Polling changes responses, but takes none away and drops no request. -/
def Keeps (f : List Int → List Int) : Prop :=
  ∀ l : List Int, l.length ≤ (f l).length ∧ ∀ (i : Nat) (r : Int), l[i]? = some r → r ≠ 0 → ∃ r', (f l)[i]? = some r' ∧ r' ≠ 0

theorem walk_spec (rs : List Int) (i : Nat) (c : Option Nat) :
    ((walk rs i c).1 = true ↔ ∀ r ∈ rs, r ≠ 0) ∧
    ((walk rs i c).2 = c ∨ ∃ k, k < rs.length ∧ (walk rs i c).2 = some (i + k) ∧ ∀ r ∈ rs.take (k + 1), r ≠ 0) := by
  induction rs generalizing i c with
  | nil => exact ⟨by simp [walk], .inl rfl⟩
  | cons r rs ih =>
    unfold walk
    by_cases hr : r = 0
    · rw [if_pos hr]
      exact ⟨⟨(fun h => by cases h), fun h => absurd hr (h r (by simp))⟩, .inl rfl⟩
    · rw [if_neg hr]
      obtain ⟨h1, h2⟩ := ih (i + 1) (some i)
      refine ⟨h1.trans ⟨fun h x hx => ?_, fun h x hx => h x (by simp [hx])⟩, .inr ?_⟩
      · rcases List.mem_cons.mp hx with rfl | hx
        · exact hr
        · exact h x hx
      · rcases h2 with h2 | ⟨k, hk, h2, h3⟩
        · exact ⟨0, by simp, by rw [h2, Nat.add_zero], by simpa using hr⟩
        · refine ⟨k + 1, by simp; omega, by rw [h2]; congr 1; omega, ?_⟩
          intro x hx
          rw [List.take_succ_cons] at hx
          rcases List.mem_cons.mp hx with rfl | hx
          · exact hr
          · exact h3 x hx

theorem inv_mem {w : Waiting} (h : Inv w) : ∀ r ∈ w.responses.take (w.cursor.getD 0), r ≠ 0 := by
  intro r hr
  cases hc : w.cursor with
  | none => rw [hc] at hr; simp at hr
  | some i =>
    rw [hc, Option.getD_some] at hr
    refine (h i hc).2 r ?_
    exact (List.take_subset_take_left _ (Nat.le_succ i)) hr

theorem areComplete_spec {w : Waiting} (h : Inv w) :
    ((areComplete w).1 = true ↔ ∀ r ∈ w.responses, r ≠ 0) ∧ Inv (areComplete w).2 ∧
      (areComplete w).2.responses = w.responses := by
  obtain ⟨h1, h2⟩ := walk_spec (w.responses.drop (w.cursor.getD 0)) (w.cursor.getD 0) w.cursor
  have hpre := inv_mem h
  refine ⟨?_, ?_, rfl⟩
  · refine h1.trans ⟨fun hd r hr => ?_, fun ha r hr => ha r (List.mem_of_mem_drop hr)⟩
    rw [← List.take_append_drop (w.cursor.getD 0) w.responses] at hr
    rcases List.mem_append.mp hr with hr | hr
    · exact hpre r hr
    · exact hd r hr
  · intro i hi
    have hi' : (walk (w.responses.drop (w.cursor.getD 0)) (w.cursor.getD 0) w.cursor).2 = some i := hi
    rcases h2 with h2 | ⟨k, hk, h2, h3⟩
    · exact h i (h2.symm.trans hi')
    · rw [h2] at hi'
      injection hi' with hi'
      subst hi'
      rw [List.length_drop] at hk
      refine ⟨by show _ < w.responses.length; omega, ?_⟩
      intro r hr
      have hr' : r ∈ w.responses.take (w.cursor.getD 0 + (k + 1)) := hr
      rw [List.take_add] at hr'
      rcases List.mem_append.mp hr' with hr' | hr'
      · exact hpre r hr'
      · exact h3 r hr'

theorem inv_polled {w : Waiting} (h : Inv w) {f : List Int → List Int} (hk : Keeps f) :
    Inv { w with responses := f w.responses } := by
  intro i hi
  obtain ⟨h1, h2⟩ := h i hi
  obtain ⟨k1, k2⟩ := hk w.responses
  refine ⟨by show i < (f w.responses).length; omega, ?_⟩
  intro r hr
  have hr' : r ∈ (f w.responses).take (i + 1) := hr
  obtain ⟨j, hj⟩ := List.getElem?_of_mem hr'
  rw [List.getElem?_take] at hj
  split at hj
  · rename_i hji
    obtain ⟨x, hx⟩ : ∃ x, w.responses[j]? = some x := ⟨w.responses[j]'(by omega), List.getElem?_eq_getElem (by omega)⟩
    have hx0 : x ≠ 0 := h2 x (List.mem_of_getElem? (by rw [List.getElem?_take, if_pos hji]; exact hx))
    obtain ⟨r', e, hr0⟩ := k2 j x hx hx0
    rw [e] at hj
    injection hj with hj
    rw [← hj]
    exact hr0
  · cases hj

/-- What can happen to the requests of a command: one is added, some are answered, someone asks. -/
inductive Op where
  | add (r : Int)
  | polled (f : List Int → List Int)
  | ask

def step (w : Waiting) : Op → Waiting
  | .add r => { w with responses := w.responses ++ [r] }
  | .polled f => { w with responses := f w.responses }
  | .ask => (areComplete w).2

/-- C68.  Whatever has happened, and whenever it was asked before: "all answered" is the answer if and only if every
request has a response code. -/
theorem c68_complete_iff (ops : List Op) (hk : ∀ f, Op.polled f ∈ ops → Keeps f) :
    (areComplete (ops.foldl step {})).1 = true ↔ ∀ r ∈ (ops.foldl step {}).responses, r ≠ 0 := by
  have key : ∀ (ops : List Op) (w : Waiting), (∀ f, Op.polled f ∈ ops → Keeps f) → Inv w → Inv (ops.foldl step w) := by
    intro ops
    induction ops with
    | nil => intro w _ h; exact h
    | cons o ops ih =>
      intro w hk h
      refine ih _ (fun f hf => hk f (by simp [hf])) ?_
      cases o with
      | add r =>
        have e : Keeps (fun l => l ++ [r]) := fun l =>
          ⟨by simp, fun i x hx h0 => ⟨x, by
            obtain ⟨hlt, _⟩ := List.getElem?_eq_some_iff.mp hx
            rw [List.getElem?_append_left hlt]
            exact hx, h0⟩⟩
        exact inv_polled h e
      | polled f => exact inv_polled h (hk f (by simp))
      | ask => exact (areComplete_spec h).2.1
  exact (areComplete_spec (key ops {} hk (fun i hi => by cases hi))).1

example : (areComplete ([Op.add 200, .add 0, .ask, .polled (fun l => l.map fun r => if r = 0 then 404 else r), .add 0,
    .ask, .polled (fun l => l.map fun r => if r = 0 then 500 else r)].foldl step {})).1 = true := by decide

theorem failRest_spec (w : Waiting) (h : Inv w) : ∀ r ∈ failRest (w.cursor.getD 0) w.responses, r ≠ 0 := by
  intro r hr
  rcases List.mem_append.mp hr with hr | hr
  · exact inv_mem h r hr
  · obtain ⟨x, _, rfl⟩ := List.mem_map.mp hr
    split
    · decide
    · assumption

/-- C68.  When the waiting is over, every request has a response code. -/
theorem c68_waited (timeout : Nat) (turns : List Turn) (w w' : Waiting) (hi : Inv w)
    (hk : ∀ t ∈ turns, Keeps t.polled) (h : wait timeout turns w = some w') : ∀ r ∈ w'.responses, r ≠ 0 := by
  induction turns generalizing w with
  | nil =>
    obtain ⟨h1, h2, h3⟩ := areComplete_spec hi
    unfold wait at h
    split at h
    · rename_i w1 heq
      injection h with h
      rw [heq] at h1 h3
      rw [← h]
      have := h1.mp rfl
      rw [← h3] at this
      exact this
    · cases h
  | cons t turns ih =>
    obtain ⟨h1, h2, h3⟩ := areComplete_spec hi
    unfold wait at h
    split at h
    · rename_i w1 heq
      injection h with h
      rw [heq] at h1 h3
      rw [← h]
      have := h1.mp rfl
      rw [← h3] at this
      exact this
    · rename_i w1 heq
      rw [heq] at h2
      simp only at h
      split at h
      · exact ih _ (inv_polled h2 (hk t (by simp))) (fun t ht => hk t (by simp [ht])) h
      · injection h with h
        rw [← h]
        exact failRest_spec _ h2

/-- C68.  The waiting ends at the latest at the first turn past the timeout or after the client has gone. -/
theorem c68_wait_ends (timeout : Nat) (turns : List Turn) (w : Waiting)
    (h : ∃ t ∈ turns, timeout ≤ t.now ∨ t.aborted = true) : ∃ w', wait timeout turns w = some w' := by
  induction turns generalizing w with
  | nil => simp at h
  | cons t turns ih =>
    unfold wait
    split
    · exact ⟨_, rfl⟩
    · simp only
      split
      · rename_i hc
        obtain ⟨t', ht', h'⟩ := h
        rcases List.mem_cons.mp ht' with rfl | ht'
        · rcases h' with h' | h'
          · omega
          · rw [hc.2] at h'; cases h'
        · exact ih _ ⟨t', ht', h'⟩
      · exact ⟨_, rfl⟩

/-- C68.  Giving up changes only what has no answer. -/
theorem c68_answers_kept (w : Waiting) (i : Nat) (r : Int) (h : w.responses[i]? = some r) (h0 : r ≠ 0) :
    (failRest (w.cursor.getD 0) w.responses)[i]? = some r := by
  have e : failRest (w.cursor.getD 0) w.responses = (w.responses.take (w.cursor.getD 0)) ++
      (w.responses.drop (w.cursor.getD 0)).map fun r => if r = 0 then 500 else r := rfl
  rw [e]
  generalize w.cursor.getD 0 = k
  by_cases hk : i < k
  · have hi : i < (w.responses.take k).length := by
      obtain ⟨hlt, _⟩ := List.getElem?_eq_some_iff.mp h
      rw [List.length_take]
      omega
    rw [List.getElem?_append_left hi, List.getElem?_take, if_pos hk, h]
  · obtain ⟨hlt, _⟩ := List.getElem?_eq_some_iff.mp h
    have hl : (w.responses.take k).length = k := by rw [List.length_take]; omega
    rw [List.getElem?_append_right (by omega), hl, List.getElem?_map, List.getElem?_drop, show k + (i - k) = i by omega, h]
    simp [h0]

/-- One request is answered in the second turn, the other never. -/
example : wait 10 [⟨1, false, fun l => l⟩, ⟨2, false, fun l => l.map fun r => if r = 0 then 404 else r⟩]
      { responses := [200, 0] } = some { responses := [200, 404], cursor := some 1 } ∧
    wait 10 [⟨1, false, fun l => l⟩, ⟨11, false, fun l => l⟩] { responses := [200, 0] } =
      some { responses := [200, 500], cursor := some 0 } := by decide

/-- **C68** The code of an answer whose first line has none: 400 if the line has 202, 204 or, after a blank, 200 in it or if
there is a content; else 500. -/
theorem c68_no_code (m : Msg) :
    (((∃ w ∈ [str " 200", str "202", str "204"], sContains m.methodLine w = true) ∨ m.content ≠ []) → fallback m = 400) ∧
    ((∀ w ∈ [str " 200", str "202", str "204"], sContains m.methodLine w = false) → m.content = [] → fallback m = 500) := by
  unfold fallback
  constructor
  · rintro (⟨w, hw, h⟩ | h)
    · simp only [List.mem_cons, List.not_mem_nil, or_false] at hw
      rcases hw with rfl | rfl | rfl <;> rw [h] <;> simp
    · simp [h]
  · intro h hc
    rw [h _ (by simp), h (str "204") (by simp), h (str "202") (by simp), hc]
    rfl

end Bedrock.Https.Props
