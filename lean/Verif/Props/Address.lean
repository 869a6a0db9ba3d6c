import Verif.Model.Address
import Verif.Props.Text
import Verif.Lemmas.Http

/-!
# C87: addresses, URLs and forms; C88: peer lists and start options
-/

namespace Bedrock.Address.Props
open Bedrock.Text Bedrock.Http

/-! ## Decoding -/

/-- A character a decoder may stop at that no encoded text has. -/
def Stop (c : UInt8) : Prop := c = 63 ∨ c = 61 ∨ c = 38

theorem decodeUntil_cons (stop : UInt8) (c : UInt8) (rest : Bytes) (h : c ≠ stop) :
    decodeUntil stop (c :: rest) =
      ((uriDecodeChar (c :: rest)).1 ++ (decodeUntil stop ((c :: rest).drop (uriDecodeChar (c :: rest)).2)).1,
       (decodeUntil stop ((c :: rest).drop (uriDecodeChar (c :: rest)).2)).2) := by
  rw [decodeUntil, if_neg h]

theorem decodeUntil_stop (stop : UInt8) (rest : Bytes) (h : rest = [] ∨ rest.head? = some stop) :
    decodeUntil stop rest = ([], rest) := by
  cases rest with
  | nil => rw [decodeUntil]
  | cons c rest =>
    simp only [List.head?_cons, Option.some.injEq, reduceCtorEq, false_or] at h
    rw [decodeUntil, if_pos h]

theorem decodeUntil_plain (stop : UInt8) (c : UInt8) (rest : Bytes) (h : c ≠ stop) (h1 : c ≠ 37) (h2 : c ≠ 43) :
    decodeUntil stop (c :: rest) = (c :: (decodeUntil stop rest).1, (decodeUntil stop rest).2) := by
  rw [decodeUntil_cons _ _ _ h, uriDecodeChar_plain c rest h1 h2]
  rfl

theorem decodeUntil_encodeByte (stop : UInt8) (hs : Stop stop) (c : UInt8) (t : Bytes) :
    decodeUntil stop (uriEncodeByte c ++ t) = (c :: (decodeUntil stop t).1, (decodeUntil stop t).2) := by
  unfold uriEncodeByte
  split
  · rename_i h
    have h1 : c ≠ 37 := by intro e; subst e; revert h; decide
    have h2 : c ≠ 43 := by intro e; subst e; revert h; decide
    have h3 : c ≠ stop := by
      intro e; subst e
      rcases hs with rfl | rfl | rfl <;> revert h <;> decide
    exact decodeUntil_plain stop c t h3 h1 h2
  split
  · rename_i h; subst h
    have h3 : (43 : UInt8) ≠ stop := by rcases hs with rfl | rfl | rfl <;> decide
    rw [List.singleton_append, decodeUntil_cons _ _ _ h3]
    rfl
  · obtain ⟨x, y, hx, hy, e⟩ := hexVal_pair c
    have h3 : (37 : UInt8) ≠ stop := by rcases hs with rfl | rfl | rfl <;> decide
    have : uriDecodeChar (37 :: hexDigit (c >>> 4).toNat :: hexDigit (c &&& 15).toNat :: t) = ([c], 3) := by
      simp only [uriDecodeChar, uriDecodeTriple, hx, hy, e]
    simp only [List.cons_append, List.nil_append]
    rw [decodeUntil_cons _ _ _ h3, this]
    rfl

theorem decodeUntil_encode (stop : UInt8) (hs : Stop stop) (s rest : Bytes) (h : rest = [] ∨ rest.head? = some stop) :
    decodeUntil stop (uriEncode s ++ rest) = (s, rest) := by
  induction s with
  | nil => exact decodeUntil_stop stop rest h
  | cons c s ih =>
    have : uriEncode (c :: s) ++ rest = uriEncodeByte c ++ (uriEncode s ++ rest) := by
      simp [uriEncode]
    rw [this, decodeUntil_encodeByte stop hs, ih]

theorem decodeUntil_text (stop : UInt8) (s rest : Bytes) (h : rest = [] ∨ rest.head? = some stop)
    (hp : ∀ c ∈ s, c ≠ 37 ∧ c ≠ 43 ∧ c ≠ stop) : decodeUntil stop (s ++ rest) = (s, rest) := by
  induction s with
  | nil => exact decodeUntil_stop stop rest h
  | cons c s ih =>
    have hc := hp c (by simp)
    rw [List.cons_append, decodeUntil_plain stop c _ hc.2.2 hc.1 hc.2.1, ih (fun x hx => hp x (by simp [hx]))]

/-! ## Forms -/

/-- A form, written down: names and values encoded, `=` between them, `&` between the pairs. -/
def form : List (Bytes × Bytes) → Bytes
  | [] => []
  | [e] => uriEncode e.1 ++ 61 :: uriEncode e.2
  | e :: e' :: es => uriEncode e.1 ++ 61 :: (uriEncode e.2 ++ 38 :: form (e' :: es))

theorem parsePairs_ne (t : Table) (s : Bytes) (h : s ≠ []) : parsePairs t s =
    parsePairs (t.set (decodeUntil 61 s).1 (decodeUntil 38 ((decodeUntil 61 s).2.drop 1)).1)
      ((decodeUntil 38 ((decodeUntil 61 s).2.drop 1)).2.drop 1) := by
  cases s with
  | nil => exact absurd rfl h
  | cons c s => rw [parsePairs]

theorem parsePairs_pair (t : Table) (n v rest : Bytes) (h : rest = [] ∨ rest.head? = some 38) :
    parsePairs t (uriEncode n ++ 61 :: (uriEncode v ++ rest)) = parsePairs (t.set n v) (rest.drop 1) := by
  rw [parsePairs_ne _ _ (by simp)]
  rw [decodeUntil_encode 61 (.inr (.inl rfl)) n _ (.inr rfl)]
  simp only [List.drop_succ_cons, List.drop_zero]
  rw [decodeUntil_encode 38 (.inr (.inr rfl)) v _ h]

theorem parsePairs_form (es : List (Bytes × Bytes)) : ∀ t, parsePairs t (form es) = es.foldl (fun t e => t.set e.1 e.2) t := by
  induction es with
  | nil => intro t; rw [form, parsePairs]; rfl
  | cons e es ih =>
    intro t
    cases es with
    | nil =>
      rw [form]
      have := parsePairs_pair t e.1 e.2 [] (.inl rfl)
      rw [List.append_nil] at this
      rw [this, List.drop_nil, parsePairs]; rfl
    | cons e' es =>
      rw [form, parsePairs_pair t e.1 e.2 _ (.inr rfl), List.drop_succ_cons, List.drop_zero, ih]
      rfl

theorem foldl_set (acc es : Table) (h : (acc ++ es).Sorted) :
    es.foldl (fun t e => t.set e.1 e.2) acc = acc ++ es := by
  induction es generalizing acc with
  | nil => simp
  | cons e es ih =>
    rw [List.foldl_cons, Table.set_append]
    · rw [ih]
      · simp
      · simpa using h
    · intro a ha
      unfold Table.Sorted at h
      rw [List.pairwise_append] at h
      exact h.2.2 a ha e (by simp)

/-- A value that a form carries: it is not split, cut or trimmed. -/
def Plain (v : Bytes) : Prop := 0 ∉ v ∧ cookieSep ∉ v ∧ v.head? ≠ some 32

theorem parseList_plain {v : Bytes} (h : Plain v) (hv : v ≠ []) : (parseList v cookieSep).1 = [v] := by
  unfold parseList
  rw [cstr_eq h.1]
  have : v.foldl (ListParse.step cookieSep) {} = ⟨[], v⟩ := foldl_step_element cookieSep [] v hv h.2.2 h.2.1
  rw [this]
  simp [hv]

theorem form_amp (es : List (Bytes × Bytes)) (hne : es ≠ []) :
    es.flatMap (fun e => uriEncode e.1 ++ 61 :: (uriEncode e.2 ++ [38])) = form es ++ [38] := by
  induction es with
  | nil => exact absurd rfl hne
  | cons e es ih =>
    cases es with
    | nil => simp [form]
    | cons e' es =>
      rw [List.flatMap_cons, ih (by simp), form]
      simp

theorem composePost_form (t : Table) (hne : t ≠ []) (hp : ∀ e ∈ t, Plain e.2) : composePost t = some (form t) := by
  have key : (t.flatMap fun e =>
    if e.2 = [] then uriEncode e.1 ++ [61, 38]
    else (parseList e.2 cookieSep).1.flatMap fun v => uriEncode e.1 ++ [61] ++ uriEncode v ++ [38]) = form t ++ [38] := by
    rw [← form_amp t hne]
    clear hne
    induction t with
    | nil => rfl
    | cons e t ih =>
      rw [List.flatMap_cons, List.flatMap_cons, ih (fun x hx => hp x (by simp [hx]))]
      congr 1
      split
      · rename_i h; rw [h]; simp [uriEncode]
      · rename_i h; rw [parseList_plain (hp e (by simp)) h]; simp
  unfold composePost
  simp only [key]
  rw [if_neg (by simp), List.dropLast_concat]

/-- C87.  A form comes back: the table written after a path and a question mark is read back whole, whatever bytes are in
the path, the names and the values (but see `Plain`). -/
theorem c87_form_partial (t : Table) (hne : t ≠ []) (hs : t.Sorted) (hp : ∀ e ∈ t, Plain e.2) (path : Bytes)
    (hpath : path ≠ []) :
    ∃ text, composePost t = some text ∧ parseUriPath (uriEncode path ++ 63 :: text) = some (path, t) := by
  refine ⟨form t, composePost_form t hne hp, ?_⟩
  unfold parseUriPath
  rw [decodeUntil_encode 63 (.inl rfl) path _ (.inr rfl), if_neg hpath]
  simp only [List.drop_succ_cons, List.drop_zero]
  rw [parsePairs_form, foldl_set [] t (by simpa using hs), List.nil_append]

example : composePost [(str "a b", str "1&2"), (str "c=", [])] = some (str "a+b=1%262&c%3D=") := by decide +kernel

/-- C87, where the code does otherwise: composing an empty form throws, as does one whose only value is blank. -/
theorem c87_form_empty_throws : composePost [] = none ∧ composePost [(str "a", str " ")] = none := by decide +kernel

/-- C87, where the code does otherwise: a value loses its leading blanks, all from a NUL byte on, and is written as
several at each byte 255. -/
theorem c87_form_value_changed : composePost [(str "a", str "  x")] = some (str "a=x") ∧
    composePost [(str "a", [120, 0, 121])] = some (str "a=x") ∧
    composePost [(str "a", [120, 255, 121])] = some (str "a=x&a=y") := by decide +kernel

/-- C87.  Of a name that stands in a form several times — in any spelling — the last value is kept. -/
theorem c87_form_last_wins (es : List (Bytes × Bytes)) (n v path : Bytes) (hpath : path ≠ []) :
    ∃ t, parseUriPath (uriEncode path ++ 63 :: form (es ++ [(n, v)])) = some (path, t) ∧ t.find n = some v := by
  have hsort : ∀ (es : List (Bytes × Bytes)) (t : Table), t.Sorted → (es.foldl (fun t e => t.set e.1 e.2) t).Sorted := by
    intro es
    induction es with
    | nil => intro t h; exact h
    | cons e es ih => intro t h; exact ih _ (Table.set_sorted _ _ h)
  refine ⟨(es ++ [(n, v)]).foldl (fun t e => t.set e.1 e.2) [], ?_, ?_⟩
  · unfold parseUriPath
    rw [decodeUntil_encode 63 (.inl rfl) path _ (.inr rfl), if_neg hpath]
    simp only [List.drop_succ_cons, List.drop_zero]
    rw [parsePairs_form]
  · rw [List.foldl_append, List.foldl_cons, List.foldl_nil, Table.find_set _ _ _ _ (hsort es [] List.Pairwise.nil)]
    simp

/-! ## URLs -/

theorem takeWhile_slash (h p : Bytes) (hh : 47 ∉ h) (hp : p = [] ∨ p.head? = some 47) :
    (h ++ p).takeWhile (· ≠ 47) = h ∧ (h ++ p).dropWhile (· ≠ 47) = p := by
  induction h with
  | nil =>
    cases p with
    | nil => exact ⟨rfl, rfl⟩
    | cons c p =>
      simp only [List.head?_cons, Option.some.injEq, reduceCtorEq, false_or] at hp
      subst hp
      exact ⟨rfl, rfl⟩
  | cons c h ih =>
    simp only [List.mem_cons, not_or] at hh
    have := ih hh.2
    have hc : c ≠ 47 := fun e => hh.1 e.symm
    simp [List.takeWhile_cons, List.dropWhile_cons, hc] at this ⊢
    exact this

/-- C87.  A URL is taken apart as it was put together: the scheme, a host without a slash, and a path that is empty or
begins with one; an empty path is `/`. -/
theorem c87_url (host path : Bytes) (hh : 47 ∉ host) (hp : path = [] ∨ path.head? = some 47) :
    parseUri (str "http://" ++ host ++ path) = some (host, if path = [] then str "/" else path) ∧
    parseUri (str "https://" ++ host ++ path) = some (host, if path = [] then str "/" else path) := by
  obtain ⟨h1, h2⟩ := takeWhile_slash host path hh hp
  have e1 : str "http://" = [104, 116, 116, 112, 58, 47, 47] := by decide +kernel
  have e2 : str "https://" = [104, 116, 116, 112, 115, 58, 47, 47] := by decide +kernel
  have e3 : str "/" = [47] := by decide +kernel
  have go : parseUri.go (host ++ path) = some (host, if path = [] then [47] else path) := by
    unfold parseUri.go
    rw [h1, h2]
  rw [e1, e2, e3]
  constructor
  · unfold parseUri sHttp
    rw [e1, if_pos (by simp [List.isPrefixOf])]
    simp only [List.cons_append, List.nil_append, List.append_assoc, List.drop_succ_cons, List.drop_zero]
    exact go
  · unfold parseUri sHttp sHttps
    rw [e1, e2, if_neg (by simp [List.isPrefixOf]), if_pos (by simp [List.isPrefixOf])]
    simp only [List.cons_append, List.nil_append, List.append_assoc, List.drop_succ_cons, List.drop_zero]
    exact go

/-- C87.  And only such texts are URLs. -/
theorem c87_url_only (s host path : Bytes) (h : parseUri s = some (host, path)) :
    47 ∉ host ∧ ∃ scheme p, (scheme = str "http://" ∨ scheme = str "https://") ∧ s = scheme ++ host ++ p ∧
      (p = [] ∧ path = str "/" ∨ p = path ∧ path.head? = some 47) := by
  have key : ∀ r, parseUri.go r = some (host, path) → 47 ∉ host ∧ ∃ p, r = host ++ p ∧
      (p = [] ∧ path = str "/" ∨ p = path ∧ path.head? = some 47) := by
    intro r hr
    unfold parseUri.go at hr
    simp only [Option.some.injEq, Prod.mk.injEq] at hr
    obtain ⟨h1, h2⟩ := hr
    have hsplit : r.takeWhile (· ≠ 47) ++ r.dropWhile (· ≠ 47) = r := List.takeWhile_append_dropWhile
    refine ⟨?_, r.dropWhile (· ≠ 47), by rw [← h1]; exact hsplit.symm, ?_⟩
    · rw [← h1]
      intro hm
      have : ∀ (l : Bytes) x, x ∈ l.takeWhile (· ≠ 47) → x ≠ 47 := by
        intro l
        induction l with
        | nil => intro x hx; cases hx
        | cons c l ih =>
          intro x hx
          rw [List.takeWhile_cons] at hx
          split at hx
          · rename_i hc
            rcases List.mem_cons.mp hx with rfl | hx
            · simpa using hc
            · exact ih x hx
          · cases hx
      exact this r 47 hm rfl
    · by_cases he : r.dropWhile (· ≠ 47) = []
      · rw [if_pos he] at h2
        exact .inl ⟨he, h2.symm⟩
      · rw [if_neg he] at h2
        refine .inr ⟨h2, ?_⟩
        rw [← h2]
        have : ∀ (l : Bytes), l.dropWhile (· ≠ 47) ≠ [] → (l.dropWhile (· ≠ 47)).head? = some 47 := by
          intro l
          induction l with
          | nil => intro k; exact absurd rfl k
          | cons c l ih =>
            intro k
            rw [List.dropWhile_cons] at k ⊢
            by_cases hc : c = 47
            · subst hc; rfl
            · have hd : decide (c ≠ 47) = true := by simp [hc]
              rw [if_pos hd] at k ⊢
              exact ih k
        exact this r he
  have pre : ∀ (a b : Bytes), a.isPrefixOf b = true → b = a ++ b.drop a.length := by
    intro a b hab
    rw [List.isPrefixOf_iff_prefix] at hab
    obtain ⟨c, rfl⟩ := hab
    simp
  unfold parseUri at h
  split at h
  · rename_i hpre
    obtain ⟨k1, p, k2, k3⟩ := key _ h
    refine ⟨k1, str "http://", p, .inl rfl, ?_, k3⟩
    have := pre _ _ hpre
    rw [List.append_assoc, ← k2]
    exact this
  · split at h
    · rename_i hpre
      obtain ⟨k1, p, k2, k3⟩ := key _ h
      refine ⟨k1, str "https://", p, .inr rfl, ?_, k3⟩
      have := pre _ _ hpre
      rw [List.append_assoc, ← k2]
      exact this
    · cases h

example : parseUri (str "https://example.com:8443") = some (str "example.com:8443", str "/") ∧
    parseUri (str "ftp://example.com/") = none ∧
    parseUri (str "http://a/b?c//d") = some (str "a", str "/b?c//d") := by decide +kernel

/-! ## Hosts -/

theorem findSub_colon (d r : Bytes) (hd : 58 ∉ d) : findSub [58] (d ++ 58 :: r) = some d.length := by
  induction d with
  | nil => simp [findSub, List.isPrefixOf]
  | cons c d ih =>
    simp only [List.mem_cons, not_or] at hd
    rw [List.cons_append, findSub, if_neg (by simp [List.isPrefixOf, hd.1]), ih hd.2]
    rfl

theorem findSub_colon_some {s : Bytes} {i : Nat} (h : findSub [58] s = some i) :
    ∃ d r, s = d ++ 58 :: r ∧ 58 ∉ d ∧ d.length = i := by
  induction s generalizing i with
  | nil => simp [findSub] at h
  | cons c s ih =>
    unfold findSub at h
    split at h
    · rename_i hc
      simp only [List.isPrefixOf, Bool.and_true, beq_iff_eq] at hc
      injection h with h
      exact ⟨[], s, by rw [← hc]; rfl, by simp, by rw [← h]; rfl⟩
    · rename_i hc
      simp only [List.isPrefixOf, Bool.and_true, beq_iff_eq] at hc
      cases hs : findSub [58] s with
      | none => rw [hs] at h; cases h
      | some j =>
        rw [hs] at h
        injection h with h
        obtain ⟨d, r, e1, e2, e3⟩ := ih hs
        exact ⟨c :: d, r, by rw [e1]; rfl, by simp [e2, hc], by simp [e3, ← h]⟩

theorem before_colon (d r : Bytes) (hd : 58 ∉ d) : sBefore (d ++ 58 :: r) [58] = d ∧ sAfter (d ++ 58 :: r) [58] = r := by
  unfold sBefore sAfter
  rw [findSub_colon d r hd]
  constructor
  · simp
  · have e : d ++ 58 :: r = (d ++ [58]) ++ r := by simp
    have l : d.length + 1 = (d ++ [(58 : UInt8)]).length := by simp
    show (d ++ 58 :: r).drop (d.length + 1) = r
    rw [e, l, List.drop_left]

/-- C87.  A host and port come back, for every port. -/
theorem c87_host (domain : Bytes) (port : Nat) (hd : domain ≠ []) (hc : 58 ∉ domain) (hp : port < 65536) :
    parseHost (composeHost domain port) = some (domain, port) := by
  have e : composeHost domain port = domain ++ 58 :: natDec port := by simp [composeHost]
  obtain ⟨h1, h2⟩ := before_colon domain (natDec port) hc
  unfold parseHost
  rw [e, h1, h2, if_neg (by simp [hd, natDec_ne_nil])]
  have hs : strtoll (natDec port) = (port : Int) := by
    unfold strtoll
    rw [scanDec_natDec]
    dsimp only
    rw [if_neg (by omega), if_neg (by omega)]
  dsimp only
  rw [hs, toInt32_small port (by omega), if_neg (by omega)]
  simp

/-- C87.  What is taken for a host and port: a domain that is not empty and has no colon, a colon, and a text that is
not empty and whose number is in range.  Without a colon, or with nothing on one side, it is refused. -/
theorem c87_host_only (s domain : Bytes) (port : Nat) :
    parseHost s = some (domain, port) ↔ domain ≠ [] ∧ 58 ∉ domain ∧ port < 65536 ∧
      ∃ r, s = domain ++ 58 :: r ∧ r ≠ [] ∧ toInt32 (strtoll r) = port := by
  constructor
  · intro h
    unfold parseHost at h
    split at h
    · cases h
    · rename_i hne
      dsimp only at h
      split at h
      · cases h
      · rename_i hr
        injection h with h
        injection h with h1 h2
        simp only [not_or] at hne
        cases hf : findSub [58] s with
        | none => exact absurd (by unfold sBefore; rw [hf]) hne.1
        | some i =>
          obtain ⟨d, r, e1, e2, -⟩ := findSub_colon_some hf
          obtain ⟨b1, b2⟩ := before_colon d r e2
          rw [← e1] at b1 b2
          rw [b1] at h1 hne
          rw [b2] at h2 hr hne
          subst h1
          exact ⟨hne.1, e2, by omega, r, e1, hne.2, by omega⟩
  · rintro ⟨h1, h2, h3, r, rfl, h5, h6⟩
    obtain ⟨b1, b2⟩ := before_colon domain r h2
    unfold parseHost
    rw [b1, b2, if_neg (by simp [h1, h5])]
    dsimp only
    rw [h6, if_neg (by omega)]
    simp

/-- C87, where the code does otherwise: a port that is no number is port 0, one with something behind is cut, and one
that does not fit in 32 bits is another. -/
theorem c87_port_not_checked : parseHost (str "a:b") = some (str "a", 0) ∧ parseHost (str "a:80x") = some (str "a", 80) ∧
    parseHost (str "a:4294967376") = some (str "a", 80) ∧ parseHost (str "::1:80") = none ∧
    parseHost (str "a:65536") = none := by decide +kernel

/-! ## C88: start options -/

/-- What may follow an option's name: nothing, or a value and further texts (that are ignored). -/
structure Opt where
  name : Bytes
  value : Option (Bytes × List Bytes)

/-- The arguments that make up an option. -/
def Opt.args (o : Opt) : List Bytes := match o.value with
  | none => [o.name]
  | some (v, more) => o.name :: v :: more

def IsName (a : Bytes) : Prop := a.head? = some 45

def Opt.Good (o : Opt) : Prop := IsName o.name ∧ ∀ v more, o.value = some (v, more) → ¬ IsName v ∧ ∀ m ∈ more, ¬ IsName m

theorem isName_iff (a : Bytes) : [45].isPrefixOf a = true ↔ IsName a := by
  cases a with
  | nil => simp [List.isPrefixOf, IsName]
  | cons c a =>
    simp only [List.isPrefixOf, Bool.and_true, beq_iff_eq, IsName, List.head?_cons, Option.some.injEq]
    exact eq_comm

theorem foldl_stray (a : Args) (h : a.name = []) (more : List Bytes) (hm : ∀ m ∈ more, ¬ IsName m) :
    more.foldl Args.step a = a := by
  induction more with
  | nil => rfl
  | cons m more ih =>
    have hn := hm m (by simp)
    rw [← isName_iff] at hn
    rw [List.foldl_cons]
    have : a.step m = a := by unfold Args.step; simp only [h, if_true, hn]; rfl
    rw [this]
    exact ih (fun x hx => hm x (by simp [hx]))

/-- The options so far, when the next argument is looked at. -/
def settle (a : Args) : Table := if a.name = [] then a.results else a.results.set a.name []

theorem step_name (a : Args) (n : Bytes) (h : IsName n) : a.step n = ⟨settle a, n⟩ := by
  have h' := (isName_iff n).mpr h
  unfold Args.step settle
  simp only [h', if_true]
  split
  · rfl
  · rfl

theorem isName_ne {n : Bytes} (h : IsName n) : n ≠ [] := by rintro rfl; simp [IsName] at h

theorem settle_opt (a : Args) (o : Opt) (h : o.Good) :
    settle (o.args.foldl Args.step a) = (settle a).set o.name ((o.value.map Prod.fst).getD []) := by
  unfold Opt.args
  cases hv : o.value with
  | none =>
    simp only [List.foldl_cons, List.foldl_nil, step_name a _ h.1]
    show settle ⟨settle a, o.name⟩ = _
    unfold settle
    simp [isName_ne h.1]
  | some p =>
    obtain ⟨v, more⟩ := p
    obtain ⟨hv1, hv2⟩ := h.2 v more hv
    rw [← isName_iff] at hv1
    simp only [List.foldl_cons, step_name a _ h.1]
    have : Args.step ⟨settle a, o.name⟩ v = ⟨(settle a).set o.name v, []⟩ := by
      unfold Args.step
      simp [isName_ne h.1, hv1]
    rw [this, foldl_stray _ rfl more hv2]
    rfl

/-- C88.  Options are read as written: each name with its value, or with none, in order, the last of a name counting;
texts before the first option and after a value are ignored. -/
theorem c88_options (stray : List Bytes) (opts : List Opt) (hs : ∀ m ∈ stray, ¬ IsName m) (ho : ∀ o ∈ opts, o.Good) :
    parseCommandLine (stray ++ opts.flatMap Opt.args) =
      opts.foldl (fun (t : Table) o => t.set o.name ((o.value.map Prod.fst).getD [])) [] := by
  have key : ∀ (opts : List Opt) (a : Args), (∀ o ∈ opts, o.Good) →
      settle ((opts.flatMap Opt.args).foldl Args.step a) =
        opts.foldl (fun (t : Table) o => t.set o.name ((o.value.map Prod.fst).getD [])) (settle a) := by
    intro opts
    induction opts with
    | nil => intro a _; rfl
    | cons o opts ih =>
      intro a h
      rw [List.flatMap_cons, List.foldl_append, ih _ (fun x hx => h x (by simp [hx])), settle_opt a o (h o (by simp))]
      rfl
  have := key opts {} ho
  unfold parseCommandLine
  rw [List.foldl_append, foldl_stray {} rfl stray hs]
  exact this

/-- C88.  Every command line is of that form. -/
theorem c88_every_line (args : List Bytes) : ∃ (stray : List Bytes) (opts : List Opt), args = stray ++ opts.flatMap Opt.args ∧
    (∀ m ∈ stray, ¬ IsName m) ∧ ∀ o ∈ opts, o.Good := by
  induction args with
  | nil => exact ⟨[], [], rfl, (by simp), by simp⟩
  | cons a args ih =>
    obtain ⟨stray, opts, rfl, h1, h2⟩ := ih
    by_cases ha : IsName a
    · cases stray with
      | nil =>
        refine ⟨[], ⟨a, none⟩ :: opts, rfl, (by simp), ?_⟩
        intro o ho
        rcases List.mem_cons.mp ho with rfl | ho
        · exact ⟨ha, by simp⟩
        · exact h2 o ho
      | cons v more =>
        refine ⟨[], ⟨a, some (v, more)⟩ :: opts, by simp [Opt.args], (by simp), ?_⟩
        intro o ho
        rcases List.mem_cons.mp ho with rfl | ho
        · refine ⟨ha, ?_⟩
          intro v' more' e
          injection e with e
          injection e with e1 e2
          subst e1 e2
          exact ⟨h1 _ (by simp), fun m hm => h1 m (by simp [hm])⟩
        · exact h2 o ho
    · refine ⟨a :: stray, opts, rfl, ?_, h2⟩
      intro m hm
      rcases List.mem_cons.mp hm with rfl | hm
      · exact ha
      · exact h1 m hm

theorem settle_sorted (a : Args) (h : a.results.Sorted) : (settle a).Sorted := by
  unfold settle
  split
  · exact h
  · exact Table.set_sorted _ _ h

theorem parse_sorted (args : List Bytes) : (parseCommandLine args).Sorted := by
  have key : ∀ (args : List Bytes) (a : Args), a.results.Sorted → (args.foldl Args.step a).results.Sorted := by
    intro args
    induction args with
    | nil => intro a h; exact h
    | cons x args ih =>
      intro a h
      refine ih _ ?_
      unfold Args.step
      dsimp only
      split
      · split <;> exact h
      · split <;> exact Table.set_sorted _ _ h
  exact settle_sorted _ (key args {} List.Pairwise.nil)

/-- C88.  An option that is given keeps what was given, and one that is not gets its default. -/
theorem c88_defaults (hostName : Bytes) (args : List Bytes) :
    (∀ n v, (parseCommandLine args).find n = some v → (options hostName args).find n = some v) ∧
    (∀ n d, (n, d) ∈ defaults hostName → (parseCommandLine args).find n = none →
      (options hostName args).find n = some d) ∧
    (∀ n, (∀ d ∈ defaults hostName, sToLower n ≠ sToLower d.1) →
      (options hostName args).find n = (parseCommandLine args).find n) := by
  have key : ∀ (ds : List (Bytes × Bytes)) (t : Table), t.Sorted →
      (∀ n v, t.find n = some v → (ds.foldl (fun t d => setDefault t d.1 d.2) t).find n = some v) ∧
      ((ds.map (fun d => sToLower d.1)).Nodup → ∀ n d, (n, d) ∈ ds → t.find n = none →
        (ds.foldl (fun t d => setDefault t d.1 d.2) t).find n = some d) ∧
      (∀ n, (∀ d ∈ ds, sToLower n ≠ sToLower d.1) → (ds.foldl (fun t d => setDefault t d.1 d.2) t).find n = t.find n) := by
    intro ds
    induction ds with
    | nil => intro t _; exact ⟨fun n v h => h, fun _ n d h => (by cases h), fun n _ => rfl⟩
    | cons e ds ih =>
      intro t ht
      have hsd : (setDefault t e.1 e.2).Sorted := by
        unfold setDefault; split
        · exact ht
        · exact Table.set_sorted _ _ ht
      have hfind : ∀ m, (setDefault t e.1 e.2).find m =
          if (t.find e.1).isSome then t.find m else if sToLower m = sToLower e.1 then some e.2 else t.find m := by
        intro m
        unfold setDefault
        split
        · rfl
        · exact Table.find_set t e.1 e.2 m ht
      have hsame : ∀ m, sToLower m = sToLower e.1 → t.find m = t.find e.1 := by
        intro m hm
        have : ∀ (t : Table), t.find m = t.find e.1 := by
          intro t
          induction t with
          | nil => rfl
          | cons x t ih =>
            unfold Table.find
            have k1 : keyLt m x.1 = keyLt e.1 x.1 := by unfold keyLt; rw [hm]
            have k2 : keyLt x.1 m = keyLt x.1 e.1 := by unfold keyLt; rw [hm]
            rw [k1, k2, ih]
        exact this t
      obtain ⟨i1, i2, i3⟩ := ih (setDefault t e.1 e.2) hsd
      refine ⟨?_, ?_, ?_⟩
      · intro n v h
        refine i1 n v ?_
        rw [hfind]
        split
        · exact h
        · rename_i hn
          by_cases hm : sToLower n = sToLower e.1
          · rw [hsame n hm] at h; rw [h] at hn; simp at hn
          · rw [if_neg hm]; exact h
      · intro hnd n d hm hno
        simp only [List.map_cons, List.nodup_cons] at hnd
        rcases List.mem_cons.mp hm with rfl | hm
        · refine i1 n d ?_
          rw [hfind]
          simp only at hno ⊢
          rw [hno]
          simp
        · refine i2 hnd.2 n d hm ?_
          have hne : sToLower n ≠ sToLower e.1 := by
            intro he
            exact hnd.1 (by rw [← he]; exact List.mem_map.mpr ⟨(n, d), hm, rfl⟩)
          rw [hfind, if_neg hne]
          simp [hno]
      · intro n hn
        rw [List.foldl_cons, i3 n (fun d hd => hn d (by simp [hd])), hfind, if_neg (hn e (by simp))]
        simp
  have hnd : ((defaults hostName).map (fun d => sToLower d.1)).Nodup := by
    have : (defaults hostName).map (fun d => sToLower d.1) = (defaults []).map (fun d => sToLower d.1) := rfl
    rw [this]
    decide +kernel
  obtain ⟨k1, k2, k3⟩ := key (defaults hostName) (parseCommandLine args) (parse_sorted args)
  exact ⟨k1, k2 hnd, k3⟩

example : let t := options (str "h") [str "x", str "-db", str "a.db", str "ignored", str "-clean", str "-DB", str "b.db"]
    t.find (str "-db") = some (str "b.db") ∧ t.find (str "-clean") = some [] ∧ t.find (str "-priority") = some (str "100") ∧
    t.find (str "-peerList") = none := by decide +kernel

/-- C88, where the code does otherwise: a value cannot begin with a minus sign; `-priority -1` is an empty priority. -/
theorem c88_negative_value : parseCommandLine [str "-priority", str "-1"] = [(str "-1", []), (str "-priority", [])] ∧
    strtoll [] = 0 := by decide +kernel

/-! ## C88: the peer list -/

/-- A peer as one would write it. -/
structure Written where
  domain : Bytes
  port : Nat
  params : Table

def Written.text (w : Written) : Bytes :=
  composeHost w.domain w.port ++ if w.params = [] then [] else 63 :: form w.params

structure Written.Good (w : Written) : Prop where
  notEmpty : w.domain ≠ []
  chars : ∀ c ∈ w.domain, c ≠ 0 ∧ c ≠ 32 ∧ c ≠ 37 ∧ c ≠ 43 ∧ c ≠ 44 ∧ c ≠ 58 ∧ c ≠ 63
  port : w.port < 65536
  params : w.params.Sorted

theorem natDec_digit (n : Nat) : ∀ c ∈ natDec n, c ≠ 0 ∧ c ≠ 32 ∧ c ≠ 37 ∧ c ≠ 43 ∧ c ≠ 44 ∧ c ≠ 63 := by
  intro c hc
  obtain ⟨d, hd, rfl⟩ := natDec_digits n c hc
  have : ∀ i : Fin 10, UInt8.ofNat (48 + i.val) ≠ 0 ∧ UInt8.ofNat (48 + i.val) ≠ 32 ∧ UInt8.ofNat (48 + i.val) ≠ 37 ∧
    UInt8.ofNat (48 + i.val) ≠ 43 ∧ UInt8.ofNat (48 + i.val) ≠ 44 ∧ UInt8.ofNat (48 + i.val) ≠ 63 := by decide +kernel
  exact this ⟨d, hd⟩

theorem host_chars {w : Written} (h : w.Good) : ∀ c ∈ composeHost w.domain w.port,
    c ≠ 0 ∧ c ≠ 32 ∧ c ≠ 37 ∧ c ≠ 43 ∧ c ≠ 44 ∧ c ≠ 63 := by
  intro c hc
  unfold composeHost at hc
  rcases List.mem_append.mp hc with hc | hc
  · rcases List.mem_append.mp hc with hc | hc
    · obtain ⟨a1, a2, a3, a4, a5, -, a7⟩ := h.chars c hc
      exact ⟨a1, a2, a3, a4, a5, a7⟩
    · simp only [List.mem_singleton] at hc
      subst hc; decide
  · exact natDec_digit _ c hc

theorem encoded_chars (s : Bytes) : ∀ c ∈ uriEncode s, c ≠ 0 ∧ c ≠ 44 := by
  have key : ∀ b : UInt8, ∀ c ∈ uriEncodeByte b, c ≠ 0 ∧ c ≠ 44 := forall_u8 (by decide +kernel)
  intro c hc
  obtain ⟨b, -, hb⟩ := List.mem_flatMap.mp hc
  exact key b c hb

theorem form_chars (es : List (Bytes × Bytes)) : ∀ c ∈ form es, c ≠ 0 ∧ c ≠ 44 := by
  induction es with
  | nil => intro c hc; cases hc
  | cons e es ih =>
    intro c hc
    cases es with
    | nil =>
      rw [form] at hc
      rcases List.mem_append.mp hc with hc | hc
      · exact encoded_chars _ c hc
      · rcases List.mem_cons.mp hc with rfl | hc
        · decide
        · exact encoded_chars _ c hc
    | cons e' es =>
      rw [form] at hc
      rcases List.mem_append.mp hc with hc | hc
      · exact encoded_chars _ c hc
      · rcases List.mem_cons.mp hc with rfl | hc
        · decide
        · rcases List.mem_append.mp hc with hc | hc
          · exact encoded_chars _ c hc
          · rcases List.mem_cons.mp hc with rfl | hc
            · decide
            · exact ih c hc

theorem host_ne (w : Written) : composeHost w.domain w.port ≠ [] := by
  unfold composeHost; simp

theorem text_good {w : Written} (h : w.Good) :
    w.text ≠ [] ∧ w.text.head? ≠ some 32 ∧ 44 ∉ w.text ∧ 0 ∉ w.text := by
  have hc := host_chars h
  have hmem : ∀ c ∈ w.text, c ≠ 0 ∧ c ≠ 44 := by
    intro c hm
    unfold Written.text at hm
    rcases List.mem_append.mp hm with hm | hm
    · exact ⟨(hc c hm).1, (hc c hm).2.2.2.2.1⟩
    · split at hm
      · cases hm
      · rcases List.mem_cons.mp hm with rfl | hm
        · decide
        · exact form_chars _ c hm
  refine ⟨?_, ?_, fun hm => (hmem 44 hm).2 rfl, fun hm => (hmem 0 hm).1 rfl⟩
  · unfold Written.text; simp [host_ne w]
  · unfold Written.text
    rw [List.head?_append]
    intro he
    cases hx : (composeHost w.domain w.port).head? with
    | none => exact host_ne w (List.head?_eq_none_iff.mp hx)
    | some x =>
    rw [hx] at he
    simp only [Option.some_or, Option.some.injEq] at he
    subst he
    have he := hx
    exact (hc 32 (List.mem_of_head? he)).2.1 rfl

/-- The peer that a text stands for. -/
def Written.peer (w : Written) (id : Nat) : Peer where
  name := (w.params.find (str "nodeName")).getD w.domain
  host := composeHost w.domain w.port
  params := w.params
  id := id

theorem parse_text {w : Written} (h : w.Good) : parseUriPath w.text = some (composeHost w.domain w.port, w.params) := by
  have hc := host_chars h
  have hc' : ∀ c ∈ composeHost w.domain w.port, c ≠ 37 ∧ c ≠ 43 ∧ c ≠ 63 :=
    fun c hm => ⟨(hc c hm).2.2.1, (hc c hm).2.2.2.1, (hc c hm).2.2.2.2.2⟩
  unfold parseUriPath Written.text
  by_cases hp : w.params = []
  · rw [if_pos hp, decodeUntil_text 63 _ _ (.inl rfl) hc', if_neg (host_ne w), hp, List.drop_nil, parsePairs]
  · rw [if_neg hp, decodeUntil_text 63 _ _ (.inr rfl) hc', if_neg (host_ne w)]
    simp only [List.drop_succ_cons, List.drop_zero]
    rw [parsePairs_form, foldl_set [] w.params (by simpa using h.params), List.nil_append]

theorem initPeer_text {w : Written} (h : w.Good) (id : Nat) : initPeer w.text id = some (w.peer id) := by
  have hh : parseHost (composeHost w.domain w.port) = some (w.domain, w.port) :=
    c87_host w.domain w.port h.notEmpty (fun hm => (h.chars 58 hm).2.2.2.2.2.1 rfl) h.port
  unfold initPeer
  rw [parse_text h]
  simp only [hostIsValid, hh, Option.isSome_some, if_true, Written.peer, getDomain, sNodeName]
  congr 2
  cases w.params.find (str "nodeName") <;> rfl

/-- C88.  A peer list is read as written: the peers in order, numbered from 1, each with its host, its parameters, and its
name — the `nodeName` parameter, whatever bytes it has, or else the domain. -/
theorem c88_peers (ws : List Written) (h : ∀ w ∈ ws, w.Good) :
    initPeers (composeList (ws.map Written.text) (str ",")) =
      some (ws.zipIdx.map (fun p => p.1.peer (p.2 + 1))) := by
  unfold initPeers
  have e : str "," = 44 :: List.replicate 0 32 := by decide +kernel
  rw [e, Bedrock.Text.Props.c29_round_trip (ws.map Written.text) 44 0 (by decide) (by
    intro t ht
    obtain ⟨w, hw, rfl⟩ := List.mem_map.mp ht
    exact text_good (h w hw))]
  have key : ∀ (ws : List Written) (k : Nat), (∀ w ∈ ws, w.Good) →
      initPeersFrom (k + 1) (ws.map Written.text) = some ((ws.zipIdx k).map (fun p => p.1.peer (p.2 + 1))) := by
    intro ws
    induction ws with
    | nil => intro k _; rfl
    | cons w ws ih =>
      intro k hw
      rw [List.map_cons, initPeersFrom, initPeer_text (hw w (by simp)), ih (k + 1) (fun x hx => hw x (by simp [hx]))]
      rfl
  exact key ws 0 h

/-- C88.  The server does not start with a peer list that has a peer without a valid address; and the peers are those of
the list, one for each text, numbered in order. -/
theorem c88_peers_checked (s : Bytes) (ps : List Peer) (h : initPeers s = some ps) :
    ps.length = (parseList s 44).1.length ∧ (∀ p ∈ ps, ∃ d port, parseHost p.host = some (d, port)) ∧
      ∀ (i : Nat) p, ps[i]? = some p → p.id = i + 1 := by
  have key : ∀ (l : List Bytes) (k : Nat) ps, initPeersFrom (k + 1) l = some ps →
      ps.length = l.length ∧ (∀ p ∈ ps, ∃ d port, parseHost p.host = some (d, port)) ∧
      ∀ (i : Nat) p, ps[i]? = some p → p.id = k + i + 1 := by
    intro l
    induction l with
    | nil =>
      intro k ps h
      simp only [initPeersFrom, Option.some.injEq] at h
      subst h
      exact ⟨rfl, (by simp), by simp⟩
    | cons t l ih =>
      intro k ps h
      rw [initPeersFrom] at h
      split at h
      · rename_i p qs hp hq
        injection h with h
        subst h
        obtain ⟨i1, i2, i3⟩ := ih (k + 1) qs hq
        have hp' : p.id = k + 1 ∧ ∃ d port, parseHost p.host = some (d, port) := by
          unfold initPeer at hp
          split at hp
          · cases hp
          · split at hp
            · rename_i hv
              injection hp with hp
              subst hp
              refine ⟨rfl, ?_⟩
              unfold hostIsValid at hv
              obtain ⟨⟨d, port⟩, hd⟩ := Option.isSome_iff_exists.mp hv
              exact ⟨d, port, hd⟩
            · cases hp
        refine ⟨by simp [i1], ?_, ?_⟩
        · intro q hq
          rcases List.mem_cons.mp hq with rfl | hq
          · exact hp'.2
          · exact i2 q hq
        · intro i q hi
          cases i with
          | zero => simp only [List.getElem?_cons_zero, Option.some.injEq] at hi; subst hi; exact hp'.1
          | succ i =>
            rw [List.getElem?_cons_succ] at hi
            have := i3 i q hi
            omega
      · cases h
  obtain ⟨a, b, c⟩ := key _ 0 ps h
  exact ⟨a, b, fun i p hi => by have := c i p hi; omega⟩

example : (initPeers (str "db1.example.com:4444?nodeName=db1&Permafollower=true,  db2.example.com:4445")).map
    (fun ps => ps.map (fun p => (p.name, p.id, isPermafollower p.params))) =
    some [(str "db1", 1, true), (str "db2.example.com", 2, false)] := by decide +kernel

example : initPeers (str "db1.example.com:4444,db2") = none := by decide +kernel

example : (⟨str "db1", 4444, [(str "nodeName", str "a,b")]⟩ : Written).Good := by
  refine ⟨by decide +kernel, by decide +kernel, by decide, ?_⟩
  exact List.pairwise_singleton _ _

end Bedrock.Address.Props
