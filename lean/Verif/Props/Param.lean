import Verif.Model.Param
import Verif.Lemmas.Base64
import Verif.Props.Http

/-!
# Properties of bound parameters: C32
-/

namespace Bedrock.Param.Props
open Bedrock Bedrock.Text Bedrock.Http Bedrock.Param

/-! ## One parameter -/

theorem scanDec_neg (n : Nat) : scanDec (45 :: natDec n) = some (-(n : Int)) := by
  have h0 : 0 ∉ 45 :: natDec n := by
    intro h
    rcases List.mem_cons.mp h with h | h
    · exact absurd h (by decide)
    · exact (natDec_plain n 0 h).1 rfl
  unfold scanDec
  rw [cstr_eq h0, List.dropWhile_cons]
  have hs : startsDec (natDec n) = true := by
    cases e : natDec n with
    | nil => exact absurd e (natDec_ne_nil n)
    | cons c l =>
      obtain ⟨d, hd, hc⟩ := natDec_digits n c (by rw [e]; simp)
      simp only [startsDec, hc, decVal_digit d hd]; rfl
  simp only [show isSpace 45 = false by decide, Bool.false_eq_true, if_false, hs, if_true, decPrefix_natDec]

theorem strtoll_intDec {v : Int} (h1 : -2 ^ 63 ≤ v) (h2 : v < 2 ^ 63) : strtoll (intDec v) = v := by
  unfold strtoll intDec
  split
  · rename_i heq
    split at heq
    · rw [scanDec_neg] at heq; cases heq
    · rw [scanDec_natDec] at heq; cases heq
  · rename_i w heq
    have : w = v := by
      split at heq
      · rw [scanDec_neg] at heq; injection heq with heq; omega
      · rw [scanDec_natDec] at heq; injection heq with heq; omega
    rw [this, if_neg (by omega), if_neg (by omega)]

/-- A parameter that a `int64_t` or `string` of the code can hold; an empty string cannot be written. -/
def Writable {D : Type} : Param D → Prop
  | .null => True
  | .int v => -2 ^ 63 ≤ v ∧ v < 2 ^ 63
  | .double _ => True
  | .text s => s ≠ []
  | .blob s => s ≠ []

/-- C32.  A parameter is read back as the same parameter: null, every 64-bit integer, every text and blob that is not
empty, and every double that its 17 digits identify. -/
theorem c32_value_partial {D : Type} (fmt : D → Bytes) (rd : Bytes → D) (hD : ∀ d, rd (fmt d) = d) (p : Param D)
    (hp : Writable p) : ∃ x, serialize fmt p = some x ∧ deserialize rd x = p := by
  cases p with
  | null => exact ⟨_, rfl, by simp [deserialize]⟩
  | int v => exact ⟨_, rfl, by simp [deserialize, strtoll_intDec hp.1 hp.2]⟩
  | double d => exact ⟨_, rfl, by simp [deserialize, hD]⟩
  | text s => exact ⟨84 :: Base64.chars s, by simp [serialize, Base64.encode, show s ≠ [] from hp],
      by simp [deserialize, Base64.decode_chars]⟩
  | blob s => exact ⟨66 :: Base64.chars s, by simp [serialize, Base64.encode, show s ≠ [] from hp],
      by simp [deserialize, Base64.decode_chars]⟩

example : ∃ x, serialize (fun _ : Unit => str "0.5") (.int (-2 ^ 63)) = some x ∧
    deserialize (fun _ => ()) x = .int (-2 ^ 63) :=
  c32_value_partial _ _ (fun _ => rfl) _ ⟨by decide, by decide⟩

/-- C32.  An empty text or blob cannot be written at all: Base64 encoding of nothing throws. -/
theorem c32_empty_text_throws {D : Type} (fmt : D → Bytes) :
    serialize fmt (.text []) = none ∧ serialize fmt (.blob []) = none := ⟨rfl, rfl⟩

/-! ## Names -/

theorem decodeName_ne {c : UInt8} (t : Bytes) (h : c ≠ 35) : decodeName (c :: t) = c :: decodeName t := by
  rw [decodeName.eq_def]
  split
  · rename_i heq; injection heq with h1 _; exact absurd h1 h
  · rename_i heq; injection heq with h1 h2; rw [h1, h2]
  · rename_i heq; cases heq

theorem encodeNameByte_cases (c : UInt8) : (encodeNameByte c = [c] ∧ c ≠ 35 ∧ c ≠ 58) ∨
    ∃ x y, encodeNameByte c = [35, hexDigit (c.toNat / 16), hexDigit (c.toNat % 16)] ∧
      hexVal (hexDigit (c.toNat / 16)) = some x ∧ hexVal (hexDigit (c.toNat % 16)) = some y ∧
      UInt8.ofNat (16 * x + y) = c := by
  unfold encodeNameByte
  split
  · refine .inr ⟨c.toNat / 16, c.toNat % 16, rfl, ?_, ?_, ?_⟩
    · have := c.toNat_lt
      exact hexVal_hexDigit _ (by omega)
    · exact hexVal_hexDigit _ (by omega)
    · exact Base64.ofNat_eq (by omega)
  · rename_i h
    exact .inl ⟨rfl, fun h' => h (by simp [h']), fun h' => h (by simp [h'])⟩

theorem decodeName_byte (c : UInt8) (t : Bytes) : decodeName (encodeNameByte c ++ t) = c :: decodeName t := by
  rcases encodeNameByte_cases c with ⟨h, h35, _⟩ | ⟨x, y, h, hx, hy, hc⟩
  · rw [h]; exact decodeName_ne t h35
  · rw [h]
    show decodeName (35 :: hexDigit (c.toNat / 16) :: hexDigit (c.toNat % 16) :: t) = _
    rw [decodeName]
    simp only [hx, hy, hc]

/-- C32.  Decoding an encoded parameter name gives the name back, whatever bytes it has. -/
theorem c32_name_round_trip (n : Bytes) : decodeName (encodeName n) = n := by
  induction n with
  | nil => rfl
  | cons c n ih =>
    unfold encodeName at *
    rw [List.flatMap_cons, decodeName_byte, ih]

/-- C32.  The encoded name has no colon, which would end the header name, nor `@` or `$`. -/
theorem c32_name_no_colon (n : Bytes) : ∀ c ∈ encodeName n, c ≠ 58 ∧ c ≠ 64 ∧ c ≠ 36 := by
  intro c hc
  unfold encodeName at hc
  rw [List.mem_flatMap] at hc
  obtain ⟨d, _, hd⟩ := hc
  have key : ∀ d : UInt8, ∀ c ∈ encodeNameByte d, c ≠ 58 ∧ c ≠ 64 ∧ c ≠ 36 :=
    forall_u8 (P := fun d => ∀ c ∈ encodeNameByte d, c ≠ 58 ∧ c ≠ 64 ∧ c ≠ 36) (by decide +kernel)
  exact key d c hd

example : encodeName (str ":a#@x$") = str "#3Aa#23#40x#24" ∧ decodeName (str "#3Aa#23#40x#24") = str ":a#@x$" := by
  refine ⟨by decide +kernel, ?_⟩
  have := c32_name_round_trip (str ":a#@x$")
  rwa [show encodeName (str ":a#@x$") = str "#3Aa#23#40x#24" by decide +kernel] at this

/-! ## All parameters of a request -/

/-- A name that a header can carry: no end of line and no NUL, and not ending with a blank. -/
structure Carriable (n : Bytes) : Prop where
  noEol : ∀ c ∈ n, c ≠ 13 ∧ c ≠ 10 ∧ c ≠ 0
  stop : n.getLast? ≠ some 32

theorem encodeName_mem {n : Bytes} {c : UInt8} (h : c ∈ encodeName n) : c ∈ n ∨ c = 35 ∨ (hexVal c).isSome := by
  unfold encodeName at h
  rw [List.mem_flatMap] at h
  obtain ⟨d, hd, h⟩ := h
  rcases encodeNameByte_cases d with ⟨e, _, _⟩ | ⟨x, y, e, hx, hy, _⟩
  · rw [e, List.mem_singleton] at h; exact .inl (h ▸ hd)
  · rw [e] at h
    simp only [List.mem_cons, List.not_mem_nil, or_false] at h
    rcases h with rfl | rfl | rfl
    · exact .inr (.inl rfl)
    · exact .inr (.inr (by rw [hx]; rfl))
    · exact .inr (.inr (by rw [hy]; rfl))

theorem header_last {n : Bytes} (h : n.getLast? ≠ some 32) : (header n).getLast? ≠ some 32 := by
  unfold header
  cases hn : n.reverse with
  | nil =>
    have : n = [] := by simpa using hn
    rw [this]; decide
  | cons c l =>
    have e : n = l.reverse ++ [c] := by
      have := congrArg List.reverse hn
      rw [List.reverse_reverse, List.reverse_cons] at this
      exact this
    have hc : c ≠ 32 := by
      intro h32
      apply h
      rw [e, h32]; simp
    rw [e]
    unfold encodeName
    rw [List.flatMap_append, ← List.append_assoc]
    simp only [List.flatMap_cons, List.flatMap_nil, List.append_nil]
    rcases encodeNameByte_cases c with ⟨e', _, _⟩ | ⟨x, y, e', _, hy, _⟩
    · rw [e', List.getLast?_append]
      simpa using hc
    · rw [e', List.getLast?_append]
      simp only [List.getLast?_cons_cons, List.getLast?_singleton, Option.or_some, Option.getD_some, ne_eq,
        Option.some.injEq]
      intro h32
      have h32 : hexDigit (c.toNat % 16) = 32 := by simpa using h32
      rw [h32, show hexVal 32 = none by decide] at hy
      cases hy

theorem header_good {n : Bytes} (h : Carriable n) : Spec.GoodName (header n) := by
  have hmem : ∀ c ∈ header n, c ∈ prefix' ∨ c ∈ n ∨ c = 35 ∨ (hexVal c).isSome := by
    intro c hc
    unfold header at hc
    rw [List.mem_append] at hc
    rcases hc with hc | hc
    · exact .inl hc
    · exact .inr (encodeName_mem hc)
  have hno : ∀ c ∈ header n, c ≠ 13 ∧ c ≠ 10 ∧ c ≠ 0 := by
    intro c hc
    rcases hmem c hc with h' | h' | h' | h'
    · exact (show ∀ c ∈ prefix', c ≠ 13 ∧ c ≠ 10 ∧ c ≠ 0 by decide +kernel) c h'
    · exact h.noEol c h'
    · subst h'; decide
    · revert h'
      exact forall_u8 (P := fun c => (hexVal c).isSome → c ≠ 13 ∧ c ≠ 10 ∧ c ≠ 0) (by decide +kernel) c
  refine ⟨?_, fun c hc => ⟨(hno c hc).1, (hno c hc).2.1⟩, ?_, fun h0 => (hno 0 h0).2.2 rfl, ?_, header_last h.stop⟩
  · unfold header; intro e; have := congrArg List.length e; simp [prefix', str] at this
  · unfold header
    rw [List.mem_append]
    rintro (h' | h')
    · revert h'; decide +kernel
    · exact (c32_name_no_colon n 58 h').1 rfl
  · intro c hc
    have : (header n).head? = some 115 := by
      unfold header
      rw [List.head?_append]
      rfl
    rw [this] at hc
    injection hc with hc
    subst hc
    decide

/-- A header with another second letter is not that of a parameter. -/
theorem header_other (n w : Bytes) (hw : (w.map toLower)[1]? ≠ some 113) : ¬ Spec.sameName (header n) w := by
  intro h
  unfold Spec.sameName header at h
  rw [List.map_append] at h
  rw [← h, List.getElem?_append_left (by decide +kernel)] at hw
  exact hw (by decide +kernel)

theorem header_ordinary {n : Bytes} (v : Bytes) (h : Carriable n) : Spec.Ordinary (header n, v) :=
  ⟨header_good h, header_other n _ (by decide +kernel),
   fun h' => header_other n (str "Content-Encoding") (by decide +kernel) h'.1,
   fun h' => header_other n (str "Transfer-Encoding") (by decide +kernel) h'.1⟩

theorem goodValue_of {v : Bytes} (h : v ≠ []) (h0 : ∀ c ∈ v, c ≠ 0 ∧ c ≠ 32) : Spec.GoodValue v := by
  refine ⟨fun h' => (h0 0 h').1 rfl, fun h' => ?_, fun h' => ?_⟩
  · exact (h0 32 (List.mem_of_head? h')).2 rfl
  · exact (h0 32 (List.mem_of_getLast? h')).2 rfl

theorem chars_goodValue (s : Bytes) (c : UInt8) (h : c ∈ Base64.chars s) : c ≠ 0 ∧ c ≠ 32 := by
  have := Base64.chars_plain s c h
  revert this
  unfold Base64.Plain
  exact forall_u8 (P := fun c => ((65 ≤ c ∧ c ≤ 90) ∨ (97 ≤ c ∧ c ≤ 122) ∨ (48 ≤ c ∧ c ≤ 57) ∨ c = 43 ∨ c = 47 ∨ c = 61)
    → c ≠ 0 ∧ c ≠ 32) (by decide +kernel) c

theorem serialize_good {D : Type} {fmt : D → Bytes} (hf : ∀ d, ∀ c ∈ fmt d, c ≠ 0 ∧ c ≠ 32) {p : Param D} {x : Bytes}
    (h : serialize fmt p = some x) : Spec.GoodValue x := by
  cases p with
  | null => injection h with h; subst h; exact goodValue_of (by simp) (by decide)
  | int v =>
    injection h with h; subst h
    refine goodValue_of (by simp) fun c hc => ?_
    rcases List.mem_cons.mp hc with rfl | hc
    · decide
    · unfold intDec at hc
      split at hc
      · rcases List.mem_cons.mp hc with rfl | hc
        · decide
        · have := natDec_plain _ c hc; exact ⟨this.1, this.2.2.2.2.2.2.2.2⟩
      · have := natDec_plain _ c hc; exact ⟨this.1, this.2.2.2.2.2.2.2.2⟩
  | double d =>
    injection h with h; subst h
    refine goodValue_of (by simp) fun c hc => ?_
    rcases List.mem_cons.mp hc with rfl | hc
    · decide
    · exact hf d c hc
  | text s =>
    simp only [serialize, Option.map_eq_some_iff] at h
    obtain ⟨y, hy, rfl⟩ := h
    rw [(Base64.encode_some hy).1]
    refine goodValue_of (by simp) fun c hc => ?_
    rcases List.mem_cons.mp hc with rfl | hc
    · decide
    · exact chars_goodValue s c hc
  | blob s =>
    simp only [serialize, Option.map_eq_some_iff] at h
    obtain ⟨y, hy, rfl⟩ := h
    rw [(Base64.encode_some hy).1]
    refine goodValue_of (by simp) fun c hc => ?_
    rcases List.mem_cons.mp hc with rfl | hc
    · decide
    · exact chars_goodValue s c hc

theorem keyLt_congr_ne {a b : Bytes} (h : ¬ Spec.sameName a b) : keyLt a b = true ∨ keyLt b a = true := by
  cases h1 : keyLt a b with
  | true => exact .inl rfl
  | false =>
    cases h2 : keyLt b a with
    | true => exact .inr rfl
    | false => exact absurd ((key_eq_iff a b).mp (by simp [h1, h2])) h

/-- Storing under another name keeps an entry. -/
theorem mem_set_of_ne {t : Table} {n v : Bytes} {e : Bytes × Bytes} (he : e ∈ t) (hn : ¬ Spec.sameName e.1 n) :
    e ∈ t.set n v := by
  induction t with
  | nil => cases he
  | cons f t ih =>
    obtain ⟨m, w⟩ := f
    rw [Table.set]
    split
    · exact List.mem_cons_of_mem _ he
    · split
      · rcases List.mem_cons.mp he with rfl | he
        · exact List.mem_cons_self
        · exact List.mem_cons_of_mem _ (ih he)
      · rename_i h1 h2
        rcases List.mem_cons.mp he with rfl | he
        · rcases keyLt_congr_ne hn with h | h
          · exact absurd h h2
          · exact absurd h h1
        · exact List.mem_cons_of_mem _ he

/-- Storing under a new name keeps its spelling. -/
theorem mem_set_self {t : Table} {n v : Bytes} (hn : ∀ e ∈ t, ¬ Spec.sameName e.1 n) : (n, v) ∈ t.set n v := by
  induction t with
  | nil => simp [Table.set]
  | cons f t ih =>
    obtain ⟨m, w⟩ := f
    rw [Table.set]
    split
    · exact List.mem_cons_self
    · split
      · exact List.mem_cons_of_mem _ (ih fun e he => hn e (List.mem_cons_of_mem _ he))
      · rename_i h1 h2
        rcases keyLt_congr_ne (hn (m, w) List.mem_cons_self) with h | h
        · exact absurd h h2
        · exact absurd h h1

theorem mem_set_back {t : Table} {n v : Bytes} {e : Bytes × Bytes} (hn : ∀ e ∈ t, ¬ Spec.sameName e.1 n)
    (he : e ∈ t.set n v) : e ∈ t ∨ e = (n, v) := by
  induction t with
  | nil => exact .inr (by simpa [Table.set] using he)
  | cons f t ih =>
    obtain ⟨m, w⟩ := f
    rw [Table.set] at he
    split at he
    · rcases List.mem_cons.mp he with rfl | he
      · exact .inr rfl
      · exact .inl he
    · split at he
      · rcases List.mem_cons.mp he with rfl | he
        · exact .inl List.mem_cons_self
        · rcases ih (fun e he => hn e (List.mem_cons_of_mem _ he)) he with h | h
          · exact .inl (List.mem_cons_of_mem _ h)
          · exact .inr h
      · rename_i h1 h2
        rcases keyLt_congr_ne (hn (m, w) List.mem_cons_self) with h | h
        · exact absurd h h2
        · exact absurd h h1

/-- What the client's loop leaves in the table. -/
structure Attached {D : Type} (fmt : D → Bytes) (ps : List (Bytes × Param D)) (t t' : Table) : Prop where
  sorted : t'.Sorted
  kept : ∀ e ∈ t, e ∈ t'
  added : ∀ q ∈ ps, ∃ v, serialize fmt q.2 = some v ∧ (header q.1, v) ∈ t'
  only : ∀ e ∈ t', e ∈ t ∨ ∃ q ∈ ps, ∃ v, serialize fmt q.2 = some v ∧ e = (header q.1, v)

theorem attach_ok {D : Type} (fmt : D → Bytes) (ps : List (Bytes × Param D)) (t : Table) (ht : t.Sorted)
    (hw : ∀ q ∈ ps, Writable q.2)
    (hd : ps.Pairwise fun a b => ¬ Spec.sameName (header a.1) (header b.1))
    (hn : ∀ e ∈ t, ∀ q ∈ ps, ¬ Spec.sameName e.1 (header q.1)) :
    ∃ t', attach fmt ps t = some t' ∧ Attached fmt ps t t' := by
  induction ps generalizing t with
  | nil => exact ⟨t, rfl, ht, fun e he => he, fun q hq => (nomatch hq), fun e he => .inl he⟩
  | cons q ps ih =>
    obtain ⟨n, p⟩ := q
    rw [List.pairwise_cons] at hd
    obtain ⟨v, hv⟩ : ∃ v, serialize fmt p = some v := by
      have := hw (n, p) List.mem_cons_self
      cases p with
      | null => exact ⟨_, rfl⟩
      | int v => exact ⟨_, rfl⟩
      | double d => exact ⟨_, rfl⟩
      | text s => exact ⟨84 :: Base64.chars s, by simp [serialize, Base64.encode, show s ≠ [] from this]⟩
      | blob s => exact ⟨66 :: Base64.chars s, by simp [serialize, Base64.encode, show s ≠ [] from this]⟩
    have hself : (header n, v) ∈ t.set (header n) v := mem_set_self fun e he => hn e he (n, p) List.mem_cons_self
    have hback : ∀ e ∈ t.set (header n) v, e ∈ t ∨ e = (header n, v) := by
      intro e he
      exact mem_set_back (fun e' he' => hn e' he' (n, p) List.mem_cons_self) he
    obtain ⟨t', h1, h2⟩ := ih (t.set (header n) v) (Table.set_sorted _ _ ht)
      (fun q hq => hw q (List.mem_cons_of_mem _ hq)) hd.2 (by
        intro e he q hq
        rcases hback e he with h | h
        · exact hn e h q (List.mem_cons_of_mem _ hq)
        · rw [h]; exact hd.1 q hq)
    refine ⟨t', by simp [attach, hv, h1], h2.sorted, ?_, ?_, ?_⟩
    · intro e he
      exact h2.kept e (mem_set_of_ne he (hn e he (n, p) List.mem_cons_self))
    · intro q hq
      rcases List.mem_cons.mp hq with rfl | hq
      · exact ⟨v, hv, h2.kept _ hself⟩
      · exact h2.added q hq
    · intro e he
      rcases h2.only e he with h | ⟨q, hq, w, hw', h⟩
      · rcases hback e h with h | h
        · exact .inl h
        · exact .inr ⟨(n, p), List.mem_cons_self, v, hv, h⟩
      · exact .inr ⟨q, List.mem_cons_of_mem _ hq, w, hw', h⟩

theorem isPrefixOf_append (a b : Bytes) : a.isPrefixOf (a ++ b) = true := by
  induction a with
  | nil => rfl
  | cons c a ih => simp [List.isPrefixOf, ih]

theorem collectEntry_header {D : Type} (fmt : D → Bytes) (rd : Bytes → D) (hD : ∀ d, rd (fmt d) = d) {n : Bytes}
    {p : Param D} (hp : Writable p) {v : Bytes} (hv : serialize fmt p = some v) :
    collectEntry rd (header n, v) = some (n, p) := by
  obtain ⟨x, h1, h2⟩ := c32_value_partial fmt rd hD p hp
  rw [hv] at h1
  injection h1 with h1
  subst h1
  unfold collectEntry header
  rw [if_pos (isPrefixOf_append _ _), List.drop_left, c32_name_round_trip, h2]

/-- C32.  The parameters of a request arrive: the receiver of the composed message collects exactly the parameters that
were attached, under their names.  For writable parameters under names that a header can carry and that differ in more
than letter case, on any good message without parameter headers of its own. -/
theorem c32_transport_partial {D : Type} (fmt : D → Bytes) (rd : Bytes → D) (hD : ∀ d, rd (fmt d) = d)
    (hf : ∀ d, ∀ c ∈ fmt d, c ≠ 0 ∧ c ≠ 32) (gz : Bytes → Bytes) (m : Msg) (hm : Spec.GoodMsg m)
    (hv : ∀ e ∈ m.table, Spec.GoodValue e.2) (hnone : ∀ e ∈ m.table, prefix'.isPrefixOf (sToLower e.1) = false)
    (ps : List (Bytes × Param D)) (hw : ∀ q ∈ ps, Writable q.2 ∧ Carriable q.1)
    (hd : ps.Pairwise fun a b => ¬ Spec.sameName (header a.1) (header b.1)) :
    ∃ t b, attach fmt ps m.table = some t ∧ compose gz { m with table := t } = some b ∧
      ∀ rest, ∃ m', parse (b ++ rest) = .ok b.length m' ∧ m'.methodLine = m.methodLine ∧ m'.content = m.content ∧
        ∀ q, q ∈ collect rd m'.table ↔ q ∈ ps := by
  obtain ⟨t, ht, ha⟩ := attach_ok fmt ps m.table hm.sorted (fun q hq => (hw q hq).1) hd (by
    intro e he q _ h
    have := hnone e he
    have e1 : sToLower e.1 = sToLower (header q.1) := h
    rw [e1] at this
    unfold header sToLower at this
    rw [List.map_append, show List.map toLower prefix' = prefix' by decide +kernel, isPrefixOf_append] at this
    cases this)
  have hgood : Spec.GoodMsg { m with table := t } := by
    refine ⟨hm.method, ?_, ha.sorted, hm.small⟩
    intro e he
    rcases ha.only e he with h | ⟨q, hq, v, _, rfl⟩
    · exact hm.ordinary e h
    · exact header_ordinary v (hw q hq).2
  have hgv : ∀ e ∈ t, Spec.GoodValue e.2 := by
    intro e he
    rcases ha.only e he with h | ⟨q, hq, v, hs, rfl⟩
    · exact hv e h
    · exact serialize_good hf hs
  obtain ⟨b, hb⟩ := Http.Props.c22_composes gz _ hgood
  refine ⟨t, b, ht, hb, fun rest => ?_⟩
  rw [compose_eq gz _ hgood] at hb
  injection hb with hb
  have hb : bytes { m with table := t } = b := hb
  have hparse := parse_msg _ hgood [] rest (.inl rfl)
  rw [hb] at hparse
  refine ⟨received { m with table := t }, by simpa using hparse, rfl, rfl, fun q => ?_⟩
  -- the entries that arrive
  have hent : ∀ e, collectEntry rd e ≠ none → (e ∈ arrived { m with table := t } ↔ e ∈ t) := by
    intro e hc
    have hpre : prefix'.isPrefixOf e.1 = true := by
      unfold collectEntry at hc
      split at hc
      · assumption
      · exact absurd rfl hc
    have hnl : ¬ Spec.sameName e.1 sContentLength := by
      intro h
      obtain ⟨r, hr⟩ := List.isPrefixOf_iff_prefix.mp hpre
      have h2 := congrArg (fun l : Bytes => l[1]?) h
      simp only [← hr, List.map_append] at h2
      rw [List.getElem?_append_left (by decide +kernel)] at h2
      exact absurd h2 (by decide +kernel)
    have hmap : (sent t).map (fun e => (e.1, Spec.carried e.2)) = sent t := by
      conv => rhs; rw [← List.map_id (sent t)]
      apply List.map_congr_left
      intro f hf
      unfold sent at hf
      rw [carried_good (hgv f (List.mem_filter.mp hf).1)]
      rfl
    unfold arrived
    simp only
    rw [hmap]
    have hsent : e ∈ sent t ↔ e ∈ t := by
      unfold sent
      rw [List.mem_filter]
      constructor
      · exact fun h => h.1
      · intro h
        refine ⟨h, ?_⟩
        cases hs : sIEquals sContentLength e.1 with
        | false => rfl
        | true =>
          exfalso
          apply hnl
          have h0 : 0 ∉ e.1 := (hgood.ordinary e h).name.noNul
          unfold sIEquals at hs
          rw [cstr_eq h0, beq_iff_eq, show cstr sContentLength = sContentLength by decide +kernel] at hs
          exact hs.symm
    rw [← hsent]
    constructor
    · intro h
      rcases Table.mem_set h with h | ⟨h, _⟩
      · exact h
      · exact absurd h hnl
    · intro h
      exact mem_set_of_ne h hnl
  show q ∈ (arrived { m with table := t }).filterMap (collectEntry rd) ↔ q ∈ ps
  rw [List.mem_filterMap]
  constructor
  · rintro ⟨e, he, hc⟩
    have he := (hent e (by rw [hc]; exact nofun)).mp he
    rcases ha.only e he with h | ⟨q', hq', v, hs, rfl⟩
    · exfalso
      have := hnone e h
      unfold collectEntry at hc
      split at hc
      · rename_i hp
        obtain ⟨r, hr⟩ := List.isPrefixOf_iff_prefix.mp hp
        rw [← hr] at this
        unfold sToLower at this
        rw [List.map_append, show List.map toLower prefix' = prefix' by decide +kernel, isPrefixOf_append] at this
        cases this
      · cases hc
    · rw [collectEntry_header fmt rd hD (hw q' hq').1 hs] at hc
      injection hc with hc
      rw [← hc]
      exact hq'
  · intro hq
    obtain ⟨v, hs, hmem⟩ := ha.added q hq
    have hc := collectEntry_header fmt rd hD (n := q.1) (hw q hq).1 hs
    exact ⟨_, (hent _ (by rw [hc]; exact nofun)).mpr hmem, hc⟩

example : ∃ t b, attach (fun _ : Unit => str "0.5") [(str ":a", .blob [0, 13, 10]), (str "@A", .int (-7))]
      Http.Props.exMsg.table = some t ∧ compose id { Http.Props.exMsg with table := t } = some b ∧
    ∀ rest, ∃ m', parse (b ++ rest) = .ok b.length m' ∧ m'.methodLine = Http.Props.exMsg.methodLine ∧
      m'.content = Http.Props.exMsg.content ∧ ∀ q, q ∈ collect (fun _ => ()) m'.table ↔
        q ∈ [(str ":a", Param.blob [0, 13, 10]), (str "@A", .int (-7))] := by
  refine c32_transport_partial (D := Unit) _ _ (fun _ => rfl) (fun _ => by decide +kernel) id _ Http.Props.exMsg_good
    ?_ (by decide +kernel) _ ?_ ?_
  · intro e he
    simp only [Http.Props.exMsg, List.mem_cons, List.not_mem_nil, or_false] at he
    rcases he with rfl | rfl
    all_goals exact ⟨by decide +kernel, by decide +kernel, by decide +kernel⟩
  · intro q hq
    simp only [List.mem_cons, List.not_mem_nil, or_false] at hq
    rcases hq with rfl | rfl
    · exact ⟨by unfold Writable; decide, by decide +kernel, by decide +kernel⟩
    · exact ⟨⟨by decide, by decide⟩, by decide +kernel, by decide +kernel⟩
  · simp only [List.pairwise_cons, List.mem_cons, List.not_mem_nil, or_false, forall_eq, List.Pairwise.nil, and_true,
      false_imp_iff, implies_true]
    unfold Spec.sameName
    decide +kernel

/-- C32.  Header names ignore letter case, parameter names do not: of two parameters that differ only in case one is
lost, and its value takes the place of the other's. -/
theorem c32_case_collides :
    (attach (fun _ : Unit => []) [(str ":a", .text [1]), (str ":A", .text [2])] []).map (collect fun _ => ()) =
      some [(str ":a", .text [2])] := by
  decide +kernel

end Bedrock.Param.Props
