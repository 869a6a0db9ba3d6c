import Verif.Model.Edit
import Verif.Props.Text
import Verif.Props.Attr

/-!
# C95: text editing does what its names say
-/

namespace Bedrock.Edit.Props
open Bedrock Bedrock.Text Bedrock.Edit

/-! ## Collapsing white space -/

/-- Every run of white space has become one blank, everything else has stayed. -/
inductive Collapsed : Bytes → Bytes → Prop
  | nil : Collapsed [] []
  | text (c s t) : isSpace c = false → Collapsed s t → Collapsed (c :: s) (c :: t)
  | run (w s t) : w ≠ [] → (∀ c ∈ w, isSpace c = true) → (∀ c ∈ s.head?, isSpace c = false) → Collapsed s t →
      Collapsed (w ++ s) (32 :: t)

theorem collapse_white : ∀ (w : Bytes) (out : Bytes), (∀ c ∈ w, isSpace c = true) → w.foldl collapseStep (out, true) = (out, true)
  | [], _, _ => rfl
  | c :: w, out, h => by
    rw [List.foldl_cons]
    have : collapseStep (out, true) c = (out, true) := by unfold collapseStep; rw [if_pos (h c (by simp))]; rfl
    rw [this]
    exact collapse_white w out (fun x hx => h x (by simp [hx]))

theorem collapse_spec {s t : Bytes} (h : Collapsed s t) : ∀ (out : Bytes) (b : Bool),
    (b = true → ∀ c ∈ s.head?, isSpace c = false) → (s.foldl collapseStep (out, b)).1 = out ++ t := by
  induction h with
  | nil => intro out b _; simp
  | text c s t hc h ih =>
    intro out b _
    rw [List.foldl_cons]
    have : collapseStep (out, b) c = (out ++ [c], false) := by unfold collapseStep; rw [if_neg (by simp [hc])]
    rw [this, ih _ _ (fun h => by cases h)]
    simp
  | run w s t hw hs hh h ih =>
    intro out b hb
    cases w with
    | nil => exact absurd rfl hw
    | cons c w =>
      have hc := hs c (by simp)
      have hbf : b = false := by
        cases b with
        | false => rfl
        | true => have := hb rfl c (by simp); rw [hc] at this; cases this
      subst hbf
      rw [List.foldl_append, List.foldl_cons]
      have : collapseStep (out, false) c = (out ++ [32], true) := by unfold collapseStep; rw [if_pos hc]; rfl
      rw [this, collapse_white w _ (fun x hx => hs x (by simp [hx])), ih _ _ (fun _ => hh)]
      simp

theorem collapsed_exists : ∀ (n : Nat) (s : Bytes), s.length ≤ n → ∃ t, Collapsed s t
  | 0, s, h => by
    have : s = [] := List.length_eq_zero_iff.mp (by omega)
    subst this
    exact ⟨[], .nil⟩
  | n + 1, [], _ => ⟨[], .nil⟩
  | n + 1, c :: s, h => by
    by_cases hc : isSpace c = true
    · have hl : (s.dropWhile isSpace).length ≤ n := by
        have := (List.dropWhile_sublist (p := isSpace) (l := s)).length_le
        simp only [List.length_cons] at h
        omega
      obtain ⟨t, ht⟩ := collapsed_exists n _ hl
      refine ⟨32 :: t, ?_⟩
      have e : c :: s = (c :: s.takeWhile isSpace) ++ s.dropWhile isSpace := by simp
      rw [e]
      refine .run _ _ _ (by simp) ?_ ?_ ht
      · intro x hx
        rcases List.mem_cons.mp hx with rfl | hx
        · exact hc
        · have := List.all_eq_true.mp (List.all_takeWhile (p := isSpace) (l := s)) x hx
          exact this
      · intro x hx
        have := List.head?_dropWhile_not isSpace s
        cases hd : (s.dropWhile isSpace).head? with
        | none => rw [hd] at hx; cases hx
        | some y =>
          rw [hd] at this hx
          cases hx
          simpa using this
    · obtain ⟨t, ht⟩ := collapsed_exists n s (by simp only [List.length_cons] at h; omega)
      exact ⟨c :: t, .text _ _ _ (by simpa using hc) ht⟩

/-- C95.  Collapsing turns every run of white space into one blank and keeps the rest, for every text without NUL. -/
theorem c95_collapse (s t : Bytes) (h0 : 0 ∉ s) : collapse s = t ↔ Collapsed s t := by
  have key : ∀ t, Collapsed s t → collapse s = t := by
    intro t h
    unfold collapse
    rw [cstr_eq h0]
    have := collapse_spec h [] false (fun h => by cases h)
    simpa using this
  constructor
  · intro h
    obtain ⟨t', ht⟩ := collapsed_exists s.length s (Nat.le_refl _)
    rw [key t' ht] at h
    exact h ▸ ht
  · exact key t

example : Collapsed (str " a \n\tb") (str " a b") :=
  .run [32] _ _ (by decide) (by decide) (by decide +kernel) (.text 97 _ _ (by decide) (.run [32, 10, 9] _ _ (by decide) (by decide) (by decide +kernel)
    (.text 98 _ _ (by decide) .nil)))

/-- C95, limits: everything behind a NUL is lost, here and in `SStrip`. -/
theorem c95_nul_cuts (s r : Bytes) (chars : Bytes) (b : Bool) :
    collapse (s ++ 0 :: r) = collapse s ∧ strip (s ++ 0 :: r) chars b = strip s chars b ∧
    stripUnprintable (s ++ 0 :: r) = stripUnprintable s := by
  have : cstr (s ++ 0 :: r) = cstr s := by
    unfold cstr
    rw [List.takeWhile_append]
    split
    · rename_i h
      have := (List.takeWhile_prefix (fun x : UInt8 => decide (x ≠ 0)) (l := s)).eq_of_length h
      rw [this]
      simp
    · rfl
  unfold collapse strip stripUnprintable
  rw [this]
  exact ⟨rfl, rfl, rfl⟩

/-! ## Stripping -/

/-- C95.  `SStrip` keeps the bytes of the set, or those outside of it, as often as they stand there and in their order. -/
theorem c95_strip (s chars : Bytes) (safe : Bool) (h0 : 0 ∉ s) :
    (strip s chars safe).Sublist s ∧
    ∀ c, (strip s chars safe).count c = if (c ∈ chars ↔ safe = true) then s.count c else 0 := by
  unfold strip
  rw [cstr_eq h0]
  refine ⟨List.filter_sublist, fun c => ?_⟩
  have hm : (chars.contains c == safe) = true ↔ (c ∈ chars ↔ safe = true) := by
    rw [beq_iff_eq, Bool.eq_iff_iff]
    simp
  split
  · rename_i h
    exact List.count_filter (hm.mpr h)
  · rename_i h
    rw [List.count_eq_zero]
    intro hx
    exact h (hm.mp (List.mem_filter.mp hx).2)

/-- C95.  `SStrip` of one argument keeps what can be printed. -/
theorem c95_strip_unprintable (s : Bytes) (h0 : 0 ∉ s) :
    (stripUnprintable s).Sublist s ∧
    ∀ c, (stripUnprintable s).count c = if 32 ≤ c.toNat ∧ c.toNat ≤ 126 then s.count c else 0 := by
  unfold stripUnprintable
  rw [cstr_eq h0]
  refine ⟨List.filter_sublist, fun c => ?_⟩
  have hm : isPrint c = true ↔ 32 ≤ c.toNat ∧ c.toNat ≤ 126 := by
    unfold isPrint
    simp [UInt8.le_iff_toNat_le]
  split
  · rename_i h
    exact List.count_filter (hm.mpr h)
  · rename_i h
    rw [List.count_eq_zero]
    intro hx
    exact h (hm.mp (List.mem_filter.mp hx).2)

example : strip (str "a1b2") (str "12") true = str "12" ∧ strip (str "a1b2") (str "12") false = str "ab" ∧
    stripNonNum (str "+1 (415) 5") = str "14155" ∧ stripTrim (str "\t a\nb ") = str "ab" := by decide +kernel

/-! ## Replacing -/

/-- `t` is `s` with each occurrence of `find`, from the left and without overlaps, replaced by `rep`. -/
inductive Replaced (find rep : Bytes) : Bytes → Bytes → Prop
  | rest (s) : ¬ find <:+: s → Replaced find rep s s
  | hit (p s t) : (∀ q, (q ++ find) <+: (p ++ find ++ s) → p.length ≤ q.length) → Replaced find rep s t →
      Replaced find rep (p ++ find ++ s) (p ++ rep ++ t)

theorem findSub_first {find s : Bytes} {i : Nat} (h : findSub find s = some i) :
    s = s.take i ++ find ++ s.drop (i + find.length) ∧ (∀ q, (q ++ find) <+: s → i ≤ q.length) ∧ (s.take i).length = i := by
  obtain ⟨h1, h2, h3⟩ := findSub_some h
  refine ⟨?_, ?_, by rw [List.length_take]; omega⟩
  · have : (s.drop i).drop find.length = s.drop (i + find.length) := by rw [List.drop_drop]
    rw [← this]
    conv => lhs; rw [← List.take_append_drop i s]
    rw [List.append_assoc]
    congr 1
    conv => lhs; rw [← List.take_append_drop find.length (s.drop i), h2]
  · intro q ⟨r, hq⟩
    apply Nat.le_of_not_lt
    intro hlt
    refine h3 q.length hlt ?_
    rw [← hq, List.append_assoc, List.drop_left]
    exact List.isPrefixOf_iff_prefix.mpr (List.prefix_append _ _)

theorem findSub_at {find p s : Bytes} (h : ∀ q, (q ++ find) <+: (p ++ find ++ s) → p.length ≤ q.length) :
    findSub find (p ++ find ++ s) = some p.length := by
  cases hf : findSub find (p ++ find ++ s) with
  | none => exact absurd ⟨p, s, rfl⟩ (findSub_none.mp hf)
  | some i =>
    obtain ⟨e, h2, h3⟩ := findSub_first hf
    have h4 := h2 p (List.prefix_append _ _)
    have h5 := h ((p ++ find ++ s).take i) ⟨(p ++ find ++ s).drop (i + find.length), e.symm⟩
    rw [h3] at h5
    congr 1
    omega

theorem replaceGo_spec {find rep : Bytes} (hf : find ≠ []) {s t : Bytes} (h : Replaced find rep s t) : replaceGo find rep s = t := by
  induction h with
  | rest s hn =>
    rw [replaceGo, dif_neg hf]
    split
    · rfl
    · rename_i i hi
      rw [findSub_none.mpr hn] at hi
      cases hi
  | hit p s t hp h ih =>
    rw [replaceGo, dif_neg hf]
    have e := findSub_at hp
    split
    · rename_i hi
      rw [e] at hi
      cases hi
    · rename_i i hi
      rw [e] at hi
      cases hi
      have : (p ++ find ++ s).drop (p.length + find.length) = s := by
        rw [← List.length_append]
        exact List.drop_left
      rw [this, ih]
      congr 2
      rw [List.append_assoc, List.take_left]

theorem replaced_exists {find : Bytes} (rep : Bytes) (hf : find ≠ []) : ∀ (n : Nat) (s : Bytes), s.length ≤ n → ∃ t, Replaced find rep s t
  | 0, s, h => by
    have : s = [] := List.length_eq_zero_iff.mp (by omega)
    subst this
    exact ⟨[], .rest _ (by simpa using hf)⟩
  | n + 1, s, h => by
    cases hi : findSub find s with
    | none => exact ⟨s, .rest _ (findSub_none.mp hi)⟩
    | some i =>
      obtain ⟨e, h2, h3⟩ := findSub_first hi
      have hl := (findSub_some hi).1
      have : 0 < find.length := List.length_pos_iff.mpr hf
      obtain ⟨t, ht⟩ := replaced_exists rep hf n (s.drop (i + find.length)) (by rw [List.length_drop]; omega)
      refine ⟨s.take i ++ rep ++ t, ?_⟩
      have := Replaced.hit (find := find) (rep := rep) (s.take i) (s.drop (i + find.length)) t
        (by rw [← e, h3]; exact h2) ht
      rw [← e] at this
      exact this

/-- C95.  `SReplace` replaces each occurrence, from the left and without overlaps, and nothing else. -/
theorem c95_replace (s find rep t : Bytes) (hf : find ≠ []) : replace s find rep = t ↔ Replaced find rep s t := by
  have key : ∀ t, Replaced find rep s t → replace s find rep = t := by
    intro t h
    unfold replace
    rw [if_neg hf]
    have := replaceGo_spec hf h
    cases hs : findSub find s with
    | none =>
      rw [replaceGo, dif_neg hf] at this
      split at this
      · exact this
      · rename_i hi
        rw [hs] at hi
        cases hi
    | some i => exact this
  constructor
  · intro h
    obtain ⟨t', ht⟩ := replaced_exists rep hf s.length s (Nat.le_refl _)
    rw [key t' ht] at h
    exact h ▸ ht
  · exact key t

/-- C95.  Nothing is done for an empty text to find. -/
theorem c95_replace_nothing (s rep : Bytes) : replace s [] rep = s := by
  unfold replace
  rw [if_pos rfl]

example : replace (str "a aaa b") (str "aa") (str "xyz") = str "a xyza b" := by
  rw [c95_replace _ _ _ _ (by decide +kernel)]
  refine Replaced.hit (str "a ") (str "a b") (str "a b") ?_ (.rest _ (by decide +kernel))
  intro q hq
  have h := (findSub_first (find := str "aa") (s := str "a aaa b") (i := 2) (by decide +kernel)).2.1 q hq
  exact h

/-- C95.  Replacing a text by itself changes nothing. -/
theorem c95_replace_same (s find : Bytes) : replace s find find = s := by
  by_cases hf : find = []
  · subst hf; exact c95_replace_nothing s []
  · rw [c95_replace s find find s hf]
    obtain ⟨t, ht⟩ := replaced_exists find hf s.length s (Nat.le_refl _)
    have : t = s := by
      clear hf
      induction ht with
      | rest s _ => rfl
      | hit p s t _ _ ih => rw [ih]
    exact this ▸ ht

/-- C95.  Removing one byte removes all of them. -/
theorem c95_remove_byte (s : Bytes) (b : UInt8) : replace s [b] [] = s.filter (· ≠ b) := by
  rw [c95_replace s [b] [] _ (by simp)]
  obtain ⟨t, ht⟩ := replaced_exists [] (by simp : [b] ≠ []) s.length s (Nat.le_refl _)
  have : t = s.filter (· ≠ b) := by
    induction ht with
    | rest s h =>
      symm
      apply List.filter_eq_self.mpr
      intro x hx
      simp only [ne_eq, decide_eq_true_eq]
      rintro rfl
      obtain ⟨l, r, e⟩ := List.append_of_mem hx
      exact h ⟨l, r, by rw [e]; simp⟩
    | hit p s t hp h ih =>
      rw [ih]
      simp only [List.append_nil, List.filter_append]
      have e1 : p.filter (· ≠ b) = p := by
        apply List.filter_eq_self.mpr
        intro x hx
        simp only [ne_eq, decide_eq_true_eq]
        rintro rfl
        obtain ⟨l, r, e⟩ := List.append_of_mem hx
        have := hp l ⟨r ++ [x] ++ s, by rw [e]; simp⟩
        rw [e, List.length_append] at this
        simp only [List.length_cons] at this
        omega
      rw [e1]
      simp
  exact this ▸ ht

/-- C95, limits: the text replaced may stand in the result, so removing it once does not make a text safe. -/
theorem c95_replace_leaves : replace (str "<scr<script>ipt>") (str "<script>") [] = str "<script>" := by
  rw [c95_replace _ _ _ _ (by decide +kernel)]
  refine Replaced.hit (str "<scr") (str "ipt>") (str "ipt>") ?_ (.rest _ (by decide +kernel))
  intro q hq
  exact (findSub_first (find := str "<script>") (s := str "<scr<script>ipt>") (i := 4) (by decide +kernel)).2.1 q hq

/-- C95.  `SReplaceAllBut` and `SReplaceAll` keep the length; each byte stays or becomes the given one. -/
theorem c95_replace_all (s chars : Bytes) (r : UInt8) :
    (replaceAllBut s chars r).length = s.length ∧ (replaceAll s chars r).length = s.length ∧
    ∀ (i : Nat) (c : UInt8), s[i]? = some c → (c ∈ chars → (replaceAllBut s chars r)[i]? = some c ∧ (replaceAll s chars r)[i]? = some r) ∧
      (c ∉ chars → (replaceAllBut s chars r)[i]? = some r ∧ (replaceAll s chars r)[i]? = some c) := by
  unfold replaceAllBut replaceAll
  refine ⟨by simp, by simp, fun i c h => ?_⟩
  simp only [List.getElem?_map, h, Option.map_some]
  refine ⟨fun hm => ?_, fun hm => ?_⟩ <;> simp [hm]

/-! ## Cutting -/

/-- C95.  `SBefore` and `SAfter` cut a text at the first occurrence. -/
theorem c95_cut (p needle r : Bytes) (h : ∀ q, (q ++ needle) <+: (p ++ needle ++ r) → p.length ≤ q.length) :
    before (p ++ needle ++ r) needle = p ∧ after (p ++ needle ++ r) needle = r := by
  unfold before after
  rw [findSub_at h]
  refine ⟨?_, ?_⟩
  · show (p ++ needle ++ r).take p.length = p
    rw [List.append_assoc, List.take_left]
  · show (p ++ needle ++ r).drop (p.length + needle.length) = r
    rw [← List.length_append]
    exact List.drop_left

/-- C95.  Without an occurrence both are empty. -/
theorem c95_no_cut (s needle : Bytes) (h : ¬ needle <:+: s) : before s needle = [] ∧ after s needle = [] := by
  unfold before after
  rw [findSub_none.mpr h]
  exact ⟨rfl, rfl⟩

/-- C95.  `SAfterUpTo`: what stands between the first `a` and the `b` after it. -/
theorem c95_between (p a m b r : Bytes) (ha : ∀ q, (q ++ a) <+: (p ++ a ++ (m ++ b ++ r)) → p.length ≤ q.length)
    (hb : ∀ q, (q ++ b) <+: (m ++ b ++ r) → m.length ≤ q.length) : afterUpTo (p ++ a ++ (m ++ b ++ r)) a b = m := by
  unfold afterUpTo
  rw [(c95_cut p a _ ha).2, (c95_cut m b r hb).1]

example : afterUpTo (str "x=<a>;<b>") (str "<") (str ">") = str "a" := by decide +kernel

/-- C95.  `SAfterLastOf` cuts at the last byte that is one of those given. -/
theorem c95_after_last (p : Bytes) (c : UInt8) (r chars : Bytes) (hc : c ∈ chars) (hr : ∀ x ∈ r, x ∉ chars) :
    afterLastOf (p ++ c :: r) chars = r := by
  unfold afterLastOf
  rw [if_pos (by simp [hc])]
  have e : (p ++ c :: r).reverse = r.reverse ++ c :: p.reverse := by simp
  rw [e, List.takeWhile_append_of_pos (by intro x hx; simpa using hr x (by simpa using hx))]
  simp [hc]

theorem c95_after_none (s chars : Bytes) (h : ∀ x ∈ s, x ∉ chars) : afterLastOf s chars = [] := by
  unfold afterLastOf
  rw [if_neg]
  simpa using h

/-- C95, limits: with a needle of several bytes it is not the last occurrence that counts. -/
theorem c95_after_last_set : afterLastOf (str "a::b:c") (str "::") = str "c" := by decide +kernel

/-- C95.  `SEndsWith`. -/
theorem c95_ends (s needle : Bytes) : endsWith s needle = true ↔ needle <:+ s := by
  unfold endsWith
  split
  · rename_i h
    constructor
    · intro h; cases h
    · intro hs
      have := hs.length_le
      omega
  · rw [beq_iff_eq]
    constructor
    · intro h
      rw [← h]
      exact List.drop_suffix _ _
    · rintro ⟨p, rfl⟩
      rw [List.length_append, Nat.add_sub_cancel]
      exact List.drop_left

/-! ## Names and numbers -/

/-- C95.  `SStateNameToInt` gives the first state of that name, whatever the case, and -1 if there is none. -/
theorem c95_state (states : List Bytes) (name : Bytes) :
    (∀ i : Nat, stateNameToInt states name = i ↔
      (∃ s, states[i]? = some s ∧ sIEquals s name = true) ∧ ∀ j < i, ∀ s, states[j]? = some s → sIEquals s name = false) ∧
    (stateNameToInt states name = -1 ↔ ∀ s ∈ states, sIEquals s name = false) := by
  unfold stateNameToInt
  cases h : states.findIdx? (fun s => sIEquals s name) with
  | none =>
    rw [List.findIdx?_eq_none_iff] at h
    refine ⟨fun i => ⟨fun h => ?_, ?_⟩, ?_⟩
    · simp only at h
      omega
    · rintro ⟨⟨s, h1, h2⟩, -⟩
      rw [h s (List.mem_of_getElem? h1)] at h2
      cases h2
    · simpa using h
  | some k =>
    obtain ⟨hk, h1, h2⟩ := List.findIdx?_eq_some_iff_getElem.mp h
    refine ⟨fun i => ?_, ?_⟩
    · constructor
      · intro hi
        have : k = i := by simp only at hi; omega
        subst this
        refine ⟨⟨states[k], List.getElem?_eq_getElem hk, h1⟩, fun j hj s hs => ?_⟩
        have := h2 j hj
        have hj' : j < states.length := by omega
        rw [List.getElem?_eq_getElem hj'] at hs
        cases hs
        simpa using this
      · rintro ⟨⟨s, hs, he⟩, hb⟩
        have hi : i < states.length := by
          apply Classical.byContradiction
          intro hn
          rw [List.getElem?_eq_none (by omega)] at hs
          cases hs
        rcases Nat.lt_trichotomy k i with hlt | rfl | hgt
        · have := hb k hlt _ (List.getElem?_eq_getElem hk)
          rw [h1] at this
          cases this
        · rfl
        · rw [List.getElem?_eq_getElem hi] at hs
          cases hs
          exact absurd he (h2 i hgt)
    · constructor
      · intro h
        simp only at h
        omega
      · intro hn
        have := hn _ (List.getElem_mem hk)
        rw [h1] at this
        cases this

example : stateNameToInt [str "UNKNOWN", str "SEARCHING", str "Leading"] (str "leading") = 2 := by decide +kernel

theorem natDec_bytes (n : Nat) : ∀ c ∈ natDec n, 48 ≤ c ∧ c ≤ 57 := by
  induction n using natDec.induct with
  | case1 n h =>
    rw [natDec, if_pos h]
    have : ∀ k, k < 10 → (48 : UInt8) ≤ UInt8.ofNat (48 + k) ∧ UInt8.ofNat (48 + k) ≤ 57 := by decide +kernel
    simpa using this n h
  | case2 n h ih =>
    rw [natDec, if_neg h]
    have : ∀ k, k < 10 → (48 : UInt8) ≤ UInt8.ofNat (48 + k) ∧ UInt8.ofNat (48 + k) ≤ 57 := by decide +kernel
    intro c hc
    rcases List.mem_append.mp hc with hc | hc
    · exact ih c hc
    · rw [List.mem_singleton] at hc
      subst hc
      exact this _ (by omega)

theorem natDec_ne (n : Nat) : natDec n ≠ [] := by
  rw [natDec]
  split <;> simp

theorem intDec_bytes (i : Int) : intDec i ≠ [] ∧ ∀ c ∈ intDec i, c = 45 ∨ (48 ≤ c ∧ c ≤ 57) := by
  unfold intDec
  split
  · refine ⟨by simp, fun c hc => ?_⟩
    rcases List.mem_cons.mp hc with rfl | hc
    · exact .inl rfl
    · exact .inr (natDec_bytes _ c hc)
  · exact ⟨natDec_ne _, fun c hc => .inr (natDec_bytes _ c hc)⟩

/-- C95.  A list of numbers written as a list is read back, with any separator that is no digit, sign, blank or NUL, and any
number of blanks after it. -/
theorem c95_ints (l : List Int) (sep : UInt8) (k : Nat) (hl : ∀ i ∈ l, -2 ^ 63 ≤ i ∧ i < 2 ^ 63)
    (hs : sep ≠ 0 ∧ sep ≠ 45 ∧ ¬ (48 ≤ sep ∧ sep ≤ 57)) :
    parseInts (composeList (l.map intDec) (sep :: List.replicate k 32)) sep = l := by
  unfold parseInts
  rw [Text.Props.c29_round_trip (l.map intDec) sep k hs.1]
  · rw [List.map_map]
    conv => rhs; rw [← List.map_id l]
    apply List.map_congr_left
    intro i hi
    exact Param.Props.strtoll_intDec (hl i hi).1 (hl i hi).2
  · intro e he
    obtain ⟨i, -, rfl⟩ := List.mem_map.mp he
    obtain ⟨h1, h2⟩ := intDec_bytes i
    refine ⟨h1, ?_, ?_, ?_⟩
    · intro h
      have := h2 32 (List.mem_of_mem_head? h)
      revert this
      decide
    · intro h
      rcases h2 sep h with h | h
      · exact hs.2.1 h
      · exact hs.2.2 h
    · intro h
      have := h2 0 h
      revert this
      decide

theorem setInsert_mem (v x : Int) : ∀ (l : List Int), x ∈ setInsert v l ↔ x = v ∨ x ∈ l
  | [] => by simp [setInsert]
  | y :: l => by
    unfold setInsert
    split
    · simp
    · split
      · rw [List.mem_cons, setInsert_mem v x l, List.mem_cons]
        constructor
        · rintro (h | h | h)
          · exact .inr (.inl h)
          · exact .inl h
          · exact .inr (.inr h)
        · rintro (h | h | h)
          · exact .inr (.inl h)
          · exact .inl h
          · exact .inr (.inr h)
      · have : v = y := by omega
        subst this
        simp

theorem setInsert_sorted (v : Int) : ∀ (l : List Int), l.Pairwise (· < ·) → (setInsert v l).Pairwise (· < ·)
  | [], _ => by simp [setInsert]
  | y :: l, h => by
    have h' := List.pairwise_cons.mp h
    unfold setInsert
    split
    · rename_i hv
      refine List.pairwise_cons.mpr ⟨fun x hx => ?_, h⟩
      rcases List.mem_cons.mp hx with rfl | hx
      · exact hv
      · exact Int.lt_trans hv (h'.1 x hx)
    · split
      · rename_i hy
        refine List.pairwise_cons.mpr ⟨fun x hx => ?_, setInsert_sorted v l h'.2⟩
        rcases (setInsert_mem v x l).mp hx with rfl | hx
        · exact hy
        · exact h'.1 x hx
      · exact h

/-- C95.  `SParseIntegerSet` has the numbers of the list, each once, in order. -/
theorem c95_int_set (s : Bytes) (sep : UInt8) :
    (parseIntSet s sep).Pairwise (· < ·) ∧ ∀ v, v ∈ parseIntSet s sep ↔ v ∈ parseInts s sep := by
  unfold parseIntSet
  have key : ∀ (l acc : List Int), acc.Pairwise (· < ·) →
      (l.foldl (fun l v => setInsert v l) acc).Pairwise (· < ·) ∧
      ∀ v, v ∈ l.foldl (fun l v => setInsert v l) acc ↔ v ∈ l ∨ v ∈ acc := by
    intro l
    induction l with
    | nil => intro acc h; exact ⟨h, by simp⟩
    | cons x l ih =>
      intro acc h
      obtain ⟨h1, h2⟩ := ih _ (setInsert_sorted x acc h)
      refine ⟨h1, fun v => ?_⟩
      rw [List.foldl_cons, h2, setInsert_mem, List.mem_cons]
      constructor
      · rintro (h | h | h)
        · exact .inl (.inr h)
        · exact .inl (.inl h)
        · exact .inr h
      · rintro ((h | h) | h)
        · exact .inr (.inl h)
        · exact .inl h
        · exact .inr (.inr h)
  have := key (parseInts s sep) [] List.Pairwise.nil
  exact ⟨this.1, fun v => by rw [this.2 v]; simp⟩

example : parseInts (str "7, -12,,7,x") 44 = [7, -12, 7, 0] ∧ parseIntSet (str "7, -12,,7") 44 = [-12, 7] := by decide +kernel

/-! ## Base 32 -/

/-- The letters and digits of RFC 4648, section 6, in the order of their values. -/
def alphabet : Bytes := str "ABCDEFGHIJKLMNOPQRSTUVWXYZ234567"

/-- The same for "base 32 hex", section 7. -/
def alphabetHex : Bytes := str "0123456789ABCDEFGHIJKLMNOPQRSTUV"

/-- Letter by letter. -/
theorem base32_letter : ∀ i, i < 32 → base32HexByte (alphabet.getD i 0) = .ok [alphabetHex.getD i 0] := by decide +kernel

/-- C95.  Base 32 becomes base 32 hex with the same values. -/
theorem c95_base32_hex (v : List Nat) (h : ∀ i ∈ v, i < 32) :
    base32Hex (v.map (fun i => alphabet.getD i 0)) = .ok (v.map (fun i => alphabetHex.getD i 0)) := by
  induction v with
  | nil => rfl
  | cons i v ih =>
    rw [List.map_cons, base32Hex, base32_letter i (h i (by simp)), ih (fun x hx => h x (by simp [hx]))]
    rfl

/-- C95, limits: which bytes are refused, and for which the table is read outside: everything below `2`, the backslash, and
every byte of 128 and more. -/
theorem c95_base32_bytes (c : UInt8) : (base32HexByte c = .undefined ↔ c < 50 ∨ c = 92 ∨ 128 ≤ c) ∧
    ((∃ x, base32HexByte c = .ok [x]) ↔ c ∈ alphabet) := by
  have k1 : ∀ c : UInt8, base32HexByte c = .undefined ↔ c < 50 ∨ c = 92 ∨ 128 ≤ c := forall_u8 (by decide +kernel)
  have k2 : ∀ c : UInt8, (match base32HexByte c with | .ok _ => true | _ => false) = alphabet.contains c := forall_u8 (by decide +kernel)
  have k3 : ∀ c : UInt8, (match base32HexByte c with | .ok l => l.length == 1 | _ => true) = true := forall_u8 (by decide +kernel)
  refine ⟨k1 c, ?_⟩
  have h2 := k2 c
  have h3 := k3 c
  cases hb : base32HexByte c with
  | ok l =>
    rw [hb] at h2 h3
    simp only at h2 h3
    have : c ∈ alphabet := by simpa using h2.symm
    match l, h3 with
    | [x], _ => exact ⟨fun _ => this, fun _ => ⟨x, rfl⟩⟩
  | thrown =>
    rw [hb] at h2
    refine ⟨fun ⟨x, hx⟩ => (by cases hx), fun hc => ?_⟩
    rw [List.contains_iff_mem.mpr hc] at h2
    cases h2
  | undefined =>
    rw [hb] at h2
    refine ⟨fun ⟨x, hx⟩ => (by cases hx), fun hc => ?_⟩
    rw [List.contains_iff_mem.mpr hc] at h2
    cases h2

/-- The number that digits stand for. -/
def number (base : Nat) (v : List Nat) : Nat := v.foldl (fun a d => a * base + d) 0

theorem number_append (base : Nat) (u v : List Nat) : number base (u ++ v) = number base u * base ^ v.length + number base v := by
  unfold number
  rw [List.foldl_append]
  generalize u.foldl (fun a d => a * base + d) 0 = a
  have key : ∀ (v : List Nat) (a : Nat), v.foldl (fun a d => a * base + d) a = a * base ^ v.length + v.foldl (fun a d => a * base + d) 0 := by
    intro v
    induction v with
    | nil => intro a; simp
    | cons d v ih =>
      intro a
      rw [List.foldl_cons, List.foldl_cons, ih (a * base + d), ih (0 * base + d), List.length_cons, Nat.pow_succ]
      rw [Nat.add_mul, Nat.zero_mul, Nat.zero_add, Nat.mul_assoc, Nat.mul_comm base, Nat.add_assoc]
  exact key v a

theorem number_lt (base : Nat) (v : List Nat) (h : ∀ d ∈ v, d < base) : number base v < base ^ v.length := by
  induction v with
  | nil => simp [number]
  | cons d v ih =>
    have e : d :: v = [d] ++ v := rfl
    have h1 := ih (fun x hx => h x (by simp [hx]))
    have h2 := h d (by simp)
    rw [e, number_append, List.length_append, Nat.pow_add]
    have : number base [d] = d := by simp [number]
    rw [this]
    have h3 : (d + 1) * base ^ v.length ≤ base * base ^ v.length := Nat.mul_le_mul_right _ h2
    rw [Nat.add_mul, Nat.one_mul] at h3
    simp only [List.length_singleton, Nat.pow_one]
    omega

/-- The values of hexadecimal digits. -/
def hexValues (s : Bytes) : List Nat := s.map (fun c => (hexVal c).getD 0)

theorem toHexNum_number : ∀ (n : Nat) (v : UInt64),
    (toHexNum v n).length = n ∧ number 16 (hexValues (toHexNum v n)) = v.toNat % 16 ^ n ∧ ∀ c ∈ toHexNum v n, (hexVal c).isSome
  | 0, v => by simp [toHexNum, hexValues, number, Nat.mod_one]
  | n + 1, v => by
    obtain ⟨h1, h2, h3⟩ := toHexNum_number n (v / 16)
    have hd : ∀ k, k < 16 → hexVal (hexDigit k) = some k := by decide +kernel
    have hm : (v % 16).toNat = v.toNat % 16 := by simp
    have hm' : (v / 16).toNat = v.toNat / 16 := by simp
    have hk := hd ((v % 16).toNat) (by omega)
    unfold toHexNum
    refine ⟨by simp [h1], ?_, ?_⟩
    · have : hexValues (toHexNum (v / 16) n ++ [hexDigit (v % 16).toNat]) = hexValues (toHexNum (v / 16) n) ++ [(v % 16).toNat] := by
        unfold hexValues
        rw [List.map_append, List.map_singleton, hk]
        rfl
      rw [this, number_append, h2, hm']
      have : number 16 [(v % 16).toNat] = v.toNat % 16 := by simp [number]
      rw [this, List.length_singleton, Nat.pow_one, Nat.pow_succ, Nat.mul_comm (16 ^ n) 16, Nat.mod_mul, Nat.mul_comm, Nat.add_comm]
    · intro c hc
      rcases List.mem_append.mp hc with hc | hc
      · exact h3 c hc
      · rw [List.mem_singleton] at hc
        subst hc
        rw [hk]
        rfl

theorem digit_letter : ∀ i, i < 32 → digit32 (alphabetHex.getD i 0) = some i ∧ alphabetHex.getD i 0 ≠ 0 ∧
    isSpace (alphabetHex.getD i 0) = false ∧ alphabetHex.getD i 0 ≠ 45 ∧ alphabetHex.getD i 0 ≠ 43 := by decide +kernel

/-- One block. -/
theorem stoull_block (v : List Nat) (h : ∀ i ∈ v, i < 32) (hl : v.length = 8) :
    stoull32 (v.map (fun i => alphabetHex.getD i 0)) = some (UInt64.ofNat (number 32 v)) := by
  generalize hs : v.map (fun i => alphabetHex.getD i 0) = s
  have hin : ∀ c ∈ s, (digit32 c).isSome ∧ c ≠ 0 ∧ isSpace c = false ∧ c ≠ 45 ∧ c ≠ 43 := by
    intro c hc
    rw [← hs] at hc
    obtain ⟨i, hi, rfl⟩ := List.mem_map.mp hc
    have := digit_letter i (h i hi)
    exact ⟨by rw [this.1]; rfl, this.2⟩
  have hval : value32 s = number 32 v := by
    unfold value32 number
    rw [← hs, List.foldl_map]
    have key : ∀ (v : List Nat) (a : Nat), (∀ i ∈ v, i < 32) →
        v.foldl (fun x y => x * 32 + (digit32 (alphabetHex.getD y 0)).getD 0) a = v.foldl (fun a d => a * 32 + d) a := by
      intro v
      induction v with
      | nil => intro a _; rfl
      | cons i v ih =>
        intro a h
        rw [List.foldl_cons, List.foldl_cons, (digit_letter i (h i (by simp))).1]
        exact ih _ (fun x hx => h x (by simp [hx]))
    exact key v 0 h
  have hne : s ≠ [] := by
    intro he
    rw [he] at hs
    have := congrArg List.length hs
    simp [hl] at this
  have hc : cstr s = s := cstr_eq (fun h0 => (hin 0 h0).2.1 rfl)
  have hd : s.dropWhile isSpace = s := by
    cases s with
    | nil => rfl
    | cons c s => rw [List.dropWhile_cons, if_neg (by rw [(hin c (by simp)).2.2.1]; simp)]
  have ht : digits32 s = s := by
    unfold digits32
    have : s.takeWhile (fun c => (digit32 c).isSome) = s := by
      have := List.takeWhile_append_of_pos (p := fun c : UInt8 => (digit32 c).isSome) (l₁ := s) (l₂ := []) (fun c hc => (hin c hc).1)
      simpa using this
    exact this
  unfold stoull32
  rw [hc, hd]
  split
  · rename_i r he
    exact absurd rfl (hin 45 (by simp)).2.2.2.1
  · rename_i r he
    exact absurd rfl (hin 43 (by simp)).2.2.2.2
  · rw [ht, if_neg hne, hval]

theorem blocks8_cons (a b : Bytes) (h : a.length = 8) : blocks8 (a ++ b) = a :: blocks8 b := by
  match a, h with
  | [x1, x2, x3, x4, x5, x6, x7, x8], _ => rfl

/-- C95.  `SHexStringFromBase32` gives ten hexadecimal digits for eight letters of base 32 hex; they stand for the same
number. -/
theorem c95_hex_from_32 : ∀ (k : Nat) (v : List Nat), (∀ i ∈ v, i < 32) → v.length = 8 * k →
    ∃ hex, hexFrom32 (v.map (fun i => alphabetHex.getD i 0)) = some hex ∧ hex.length = 10 * k ∧
      (∀ c ∈ hex, (hexVal c).isSome) ∧ number 16 (hexValues hex) = number 32 v
  | 0, v, _, hl => by
    have : v = [] := List.length_eq_zero_iff.mp (by omega)
    subst this
    exact ⟨[], by decide, rfl, by simp, rfl⟩
  | k + 1, v, h, hl => by
    have e : v = v.take 8 ++ v.drop 8 := (List.take_append_drop 8 v).symm
    have h1 : ∀ i ∈ v.take 8, i < 32 := fun i hi => h i (List.mem_of_mem_take hi)
    have h2 : ∀ i ∈ v.drop 8, i < 32 := fun i hi => h i (List.mem_of_mem_drop hi)
    have l1 : (v.take 8).length = 8 := by rw [List.length_take]; omega
    have l2 : (v.drop 8).length = 8 * k := by rw [List.length_drop]; omega
    generalize v.take 8 = a at *
    generalize v.drop 8 = b at *
    subst e
    obtain ⟨hex, g1, g2, g3, g4⟩ := c95_hex_from_32 k b h2 l2
    have hlt : number 32 a < 2 ^ 40 := by
      have := number_lt 32 a h1
      rw [l1] at this
      exact this
    have hnat : (UInt64.ofNat (number 32 a)).toNat = number 32 a := by
      rw [UInt64.toNat_ofNat']
      exact Nat.mod_eq_of_lt (by omega)
    obtain ⟨t1, t2, t3⟩ := toHexNum_number 10 (UInt64.ofNat (number 32 a))
    refine ⟨toHexNum (UInt64.ofNat (number 32 a)) 10 ++ hex, ?_, ?_, ?_, ?_⟩
    · unfold hexFrom32 at g1 ⊢
      rw [if_neg (by rw [List.length_map]; omega)] at g1 ⊢
      rw [List.map_append, blocks8_cons _ _ (by rw [List.length_map]; exact l1), hexFrom32Go, g1, stoull_block a h1 l1]
    · rw [List.length_append, t1, g2]; omega
    · intro c hc
      rcases List.mem_append.mp hc with hc | hc
      · exact t3 c hc
      · exact g3 c hc
    · have : hexValues (toHexNum (UInt64.ofNat (number 32 a)) 10 ++ hex) =
          hexValues (toHexNum (UInt64.ofNat (number 32 a)) 10) ++ hexValues hex := by unfold hexValues; exact List.map_append
      rw [this, number_append, number_append, t2, g4, hnat, Nat.mod_eq_of_lt (by omega)]
      have : (hexValues hex).length = 10 * k := by unfold hexValues; rw [List.length_map]; exact g2
      rw [this, l2, Nat.pow_mul, Nat.pow_mul]

example : base32Hex (str "3BEKXV") = .ok (str "R14ANL") ∧ hexFrom32 (str "RQMRTRON") = some (str "DEADBEEF17") := by decide +kernel

/-- C95, limits: characters that are no digits are accepted: blanks and a sign in front of a block, anything behind its
first digit. -/
theorem c95_hex_from_32_lenient : hexFrom32 (str "      11") = some (str "0000000021") ∧ hexFrom32 (str "1???????") = some (str "0000000001") ∧
    hexFrom32 (str "-1??????") = some (str "FFFFFFFFFF") ∧ hexFrom32 (str "????????") = none := by decide +kernel

/-- **C95** A digit in base 32 is one of `0`-`9`, `a`-`v` in either case; letters of either case have the same value. -/
theorem c95_digit (c : UInt8) : (digit32 c = none ↔ ¬ (48 ≤ c ∧ c ≤ 57) ∧ ¬ (65 ≤ c ∧ c ≤ 86) ∧ ¬ (97 ≤ c ∧ c ≤ 118)) ∧
    (97 ≤ c → c ≤ 118 → digit32 c = digit32 (c - 32) ∧ digit32 c = some (c.toNat - 97 + 10)) :=
  forall_u8 (P := fun c => (digit32 c = none ↔ ¬ (48 ≤ c ∧ c ≤ 57) ∧ ¬ (65 ≤ c ∧ c ≤ 86) ∧ ¬ (97 ≤ c ∧ c ≤ 118)) ∧
    (97 ≤ c → c ≤ 118 → digit32 c = digit32 (c - 32) ∧ digit32 c = some (c.toNat - 97 + 10))) (by decide +kernel) c

end Bedrock.Edit.Props
