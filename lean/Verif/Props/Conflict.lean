import Verif.Model.Conflict
import Verif.Lemmas.Http

/-!
# C108: a commit that conflicted is retried under the lock of the page or row it conflicted on
-/

namespace Bedrock.Conflict.Props
open Bedrock Bedrock.Text Bedrock.Conflict

/-! ## Patterns -/

theorem findLast_append {p : Bytes → Option Bytes} {s r : Bytes} (a : Bytes) (h : findLast p s = some r) : findLast p (a ++ s) = some r := by
  induction a with
  | nil => exact h
  | cons c a ih =>
    rw [List.cons_append]
    unfold findLast
    rw [ih]

theorem findLast_none {p : Bytes → Option Bytes} {s : Bytes} (h : ∀ t, t <:+ s → p t = none) : findLast p s = none := by
  induction s with
  | nil => exact h [] (List.suffix_refl _)
  | cons c s ih =>
    unfold findLast
    rw [ih fun t ht => h t (ht.trans (List.suffix_cons c s))]
    exact h _ (List.suffix_refl _)

/-- The last place is found if nothing is found after it. -/
theorem findLast_at {p : Bytes → Option Bytes} {c : UInt8} {s r : Bytes} (a : Bytes) (h : p (c :: s) = some r)
    (hn : ∀ t, t <:+ s → p t = none) : findLast p (a ++ c :: s) = some r := by
  refine findLast_append a ?_
  unfold findLast
  rw [findLast_none hn]
  exact h

theorem takeWhile_stop {p : UInt8 → Bool} {a b : Bytes} (ha : ∀ c ∈ a, p c = true) (hb : ∀ c, b.head? = some c → p c = false) :
    (a ++ b).takeWhile p = a := by
  induction a with
  | nil =>
    cases b with
    | nil => rfl
    | cons c b => rw [List.nil_append, List.takeWhile_cons, hb c rfl]; rfl
  | cons c a ih =>
    rw [List.cons_append, List.takeWhile_cons, ha c List.mem_cons_self, if_pos rfl, ih fun c hc => ha c (List.mem_cons_of_mem _ hc)]

theorem afterEither_infix {a b s r : Bytes} (h : afterEither a b s = some r) : a <+: s ∨ b <+: s := by
  unfold afterEither at h
  split at h
  · exact .inl (List.isPrefixOf_iff_prefix.mp (by assumption))
  · split at h
    · exact .inr (List.isPrefixOf_iff_prefix.mp (by assumption))
    · cases h

/-- No pattern that begins with `w` is found in a text that does not have it. -/
theorem no_part {w s : Bytes} {p : Bytes → Option Bytes} (hp : ∀ t r, p t = some r → w <+: t) (hs : ¬ w <:+: s) :
    ∀ t, t <:+ s → p t = none := by
  intro t ht
  cases h : p t with
  | none => rfl
  | some r => exact absurd ((hp t r h).isInfix.trans ht.isInfix) hs

theorem prefix_of_prefix {w a t : Bytes} (h1 : w <+: a) (h2 : a <+: t) : w <+: t := h1.trans h2

theorem pagePart_begins (t r : Bytes) (h : pagePart t = some r) : (b!"part of db ") <+: t := by
  unfold pagePart at h
  obtain ⟨x, h1, _⟩ := Option.bind_eq_some_iff.mp h
  rcases afterEither_infix h1 with h | h
  · exact prefix_of_prefix ⟨(b!"table "), rfl⟩ h
  · exact prefix_of_prefix ⟨(b!"index "), rfl⟩ h

theorem rowPart_begins (t r : Bytes) (h : rowPart t = some r) : (b!"conflict on ") <+: t := by
  unfold rowPart at h
  obtain ⟨x, h1, _⟩ := Option.bind_eq_some_iff.mp h
  rcases afterEither_infix h1 with h | h
  · exact prefix_of_prefix ⟨(b!"index "), rfl⟩ h
  · exact prefix_of_prefix ⟨(b!"table "), rfl⟩ h

theorem keyPart_begins (t r : Bytes) (h : keyPart t = some r) : (b!"key=") <+: t := by
  unfold keyPart at h
  split at h
  · exact List.isPrefixOf_iff_prefix.mp (by assumption)
  · cases h

theorem replaceAll_found {p : Bytes → Option Bytes} {s r : Bytes} (hn : (10 : UInt8) ∉ s) (h : findLast p s = some r) : replaceAll p s = r := by
  unfold replaceAll
  rw [if_pos hn, h]
  rfl

theorem mid_prefix (w a b : Bytes) : w.isPrefixOf (w ++ a ++ b) = true :=
  List.isPrefixOf_iff_prefix.mpr ⟨a ++ b, (List.append_assoc _ _ _).symm⟩

/-- A word that begins with a byte that is not in `a` is found after `a`. -/
theorem suffix_after {c : UInt8} {w a s t : Bytes} (ha : c ∉ a) (hw : c :: w <+: t) (ht : t <:+ a ++ s) : t <:+ s := by
  induction a with
  | nil => exact ht
  | cons d a ih =>
    rw [List.cons_append] at ht
    rcases List.suffix_cons_iff.mp ht with rfl | h
    · exact absurd (List.cons_prefix_cons.mp hw).1 fun e => ha (e ▸ List.mem_cons_self)
    · exact ih (fun h => ha (List.mem_cons_of_mem _ h)) h

theorem infix_after {c : UInt8} {w a s t : Bytes} (ha : c ∉ a) (hw : c :: w <+: t) (ht : t <:+ a ++ s) : c :: w <:+: s :=
  hw.isInfix.trans (suffix_after ha hw ht).isInfix

/-! ## Numbers followed by text -/

theorem decPrefix_stop {b : Bytes} (hb : startsDec b = false) : ∀ (a : Bytes) (acc : Nat), (∀ c ∈ a, (decVal c).isSome = true) →
    decPrefix acc (a ++ b) = decPrefix acc a
  | [], acc, _ => by
    cases b with
    | nil => rfl
    | cons c b =>
      show (match decVal c with | some d => _ | none => acc) = acc
      cases h : decVal c with
      | none => rfl
      | some d =>
        rw [show startsDec (c :: b) = (decVal c).isSome from rfl, h] at hb
        exact Bool.noConfusion hb
  | c :: a, acc, h => by
    show (match decVal c with | some d => decPrefix (acc * 10 + d) (a ++ b) | none => acc)
      = (match decVal c with | some d => decPrefix (acc * 10 + d) a | none => acc)
    cases decVal c with
    | none => rfl
    | some d => exact decPrefix_stop hb a _ fun c hc => h c (List.mem_cons_of_mem _ hc)

theorem natDec_decVal (n : Nat) : ∀ c ∈ natDec n, (decVal c).isSome = true := by
  intro c hc
  obtain ⟨d, hd, rfl⟩ := natDec_digits n c hc
  rw [decVal_digit d hd]
  rfl

theorem strtoll_natDec_stop {n : Nat} (hn : n < 2 ^ 63) {b : Bytes} (hb : startsDec b = false) : strtoll (natDec n ++ b) = n := by
  have h0 : 0 ∉ natDec n := fun h => (natDec_plain n 0 h).1 rfl
  have hc : cstr (natDec n ++ b) = natDec n ++ cstr b := by
    unfold cstr
    rw [List.takeWhile_append_of_pos]
    intro c hc
    have : c ≠ 0 := fun e => h0 (e ▸ hc)
    simpa using this
  have hb' : startsDec (cstr b) = false := by
    cases b with
    | nil => rfl
    | cons c b =>
      unfold cstr
      rw [List.takeWhile_cons]
      split
      · exact hb
      · rfl
  have key : scanDec (natDec n ++ b) = some (n : Int) := by
    have h := scanDec_natDec n
    unfold scanDec at h ⊢
    rw [hc]
    rw [cstr_eq h0] at h
    cases e : natDec n with
    | nil => exact absurd e (natDec_ne_nil n)
    | cons c l =>
      have hd := natDec_decVal n c (by rw [e]; exact List.mem_cons_self)
      have hsp : isSpace c = false := by
        obtain ⟨d, hd', rfl⟩ := natDec_digits n c (by rw [e]; exact List.mem_cons_self)
        have : ∀ d < 10, isSpace (UInt8.ofNat (48 + d)) = false := by decide
        exact this d hd'
      have hne : c ≠ 45 ∧ c ≠ 43 := by
        constructor <;> (intro h; subst h; exact Bool.noConfusion hd)
      rw [List.cons_append, List.dropWhile_cons, hsp, if_neg (by decide)]
      split
      · rename_i heq
        exact absurd (List.cons.inj heq).1 hne.1
      · rename_i heq
        exact absurd (List.cons.inj heq).1 hne.2
      · have : startsDec (c :: (l ++ cstr b)) = true := hd
        rw [if_pos this, ← List.cons_append, ← e, decPrefix_stop hb' _ _ (natDec_decVal n), decPrefix_natDec]
  unfold strtoll
  rw [key]
  dsimp only
  rw [if_neg (by omega), if_neg (by omega)]

/-! ## Messages -/

/-- The message of a conflict on a page, as in SQLite.cpp:420-421. -/
def pageMsg (page : Nat) (mid kind name rest : Bytes) : Bytes :=
  (b!"cannot commit CONCURRENT transaction - conflict at page ") ++ natDec page ++ mid ++ (b!"part of db ") ++ kind ++ [32] ++ name ++ [59] ++ rest

/-- The message of a conflict on a row, as in SQLite.cpp:427-428. -/
def rowMsg (how kind name mid key rest : Bytes) : Bytes :=
  how ++ (b!"/write conflict on ") ++ kind ++ [32] ++ name ++ mid ++ (b!"key=") ++ key ++ rest

theorem findSub_head (needle s : Bytes) (h : needle.isPrefixOf s = true) : findSub needle s = some 0 := by
  cases s with
  | nil =>
    cases needle with
    | nil => rfl
    | cons a b => exact Bool.noConfusion h
  | cons c s =>
    unfold findSub
    rw [if_pos h]

theorem contains_page (n : Nat) (s : Bytes) :
    findSub (b!"conflict at page ") ((b!"cannot commit CONCURRENT transaction - conflict at page ") ++ natDec n ++ s) = some 39 := by
  rw [List.append_assoc]
  generalize natDec n ++ s = r
  rfl

/-- C108.  The place of a conflict on a page is the number of the page and the name of the table or index it is part of. -/
theorem c108_page (hash : Bytes → Int) (t : Place) (page : Nat) (hp : page < 2 ^ 63) (mid kind name rest : Bytes)
    (hk : kind = (b!"table") ∨ kind = (b!"index")) (hm : startsDec mid = false) (hname : (59 : UInt8) ∉ name)
    (hrest : ¬ (b!"part of db ") <:+: name ++ [59] ++ rest) (hn : (10 : UInt8) ∉ pageMsg page mid kind name rest)
    (hauto : ¬ (b!"automatic index on") <:+: pageMsg page mid kind name rest) :
    logged hash (pageMsg page mid kind name rest) t = { ident := page, loc := name } := by
  have e1 : pageMsg page mid kind name rest = (b!"cannot commit CONCURRENT transaction - conflict at page ") ++ natDec page
      ++ (mid ++ (b!"part of db ") ++ kind ++ [32] ++ name ++ [59] ++ rest) := by
    unfold pageMsg
    simp only [List.append_assoc]
  have hloc : replaceAll pagePart (pageMsg page mid kind name rest) = name := by
    refine replaceAll_found hn ?_
    have e2 : pageMsg page mid kind name rest = ((b!"cannot commit CONCURRENT transaction - conflict at page ") ++ natDec page ++ mid)
        ++ 112 :: ((b!"art of db ") ++ kind ++ [32] ++ (name ++ [59] ++ rest)) := by
      unfold pageMsg
      simp only [List.append_assoc, List.cons_append, List.nil_append]
    rw [e2]
    have hafter : ∀ kind, (kind = (b!"table") ∨ kind = (b!"index")) → ∀ s,
        afterEither (b!"part of db table ") (b!"part of db index ") (112 :: ((b!"art of db ") ++ kind ++ [32] ++ s)) = some s := by
      intro kind hk s
      rcases hk with rfl | rfl <;> rfl
    refine findLast_at _ ?_ ?_
    · unfold pagePart
      rw [hafter kind hk, Option.bind_some, if_pos (by simp), List.append_assoc, takeWhile_stop]
      · intro c hc
        simp only [bne_iff_ne, ne_eq]
        exact fun e => hname (e ▸ hc)
      · intro c hc
        rw [List.cons_append, List.head?_cons] at hc
        rw [← Option.some.inj hc]
        rfl
    · have key : ∀ kind, (kind = (b!"table") ∨ kind = (b!"index")) → ∀ s, ¬ (b!"part of db ") <:+: s →
          ∀ t, t <:+ (b!"art of db ") ++ kind ++ [32] ++ s → pagePart t = none := by
        intro kind hk s hs t ht
        cases h : pagePart t with
        | none => rfl
        | some r =>
          exfalso
          have hpre := pagePart_begins t r h
          refine hs (infix_after (c := 112) ?_ hpre ht)
          rcases hk with rfl | rfl <;> decide
      exact key kind hk _ hrest
  unfold logged
  rw [if_neg (by rw [sContains_iff]; exact hauto), hloc]
  rw [if_pos (by rw [e1]; rfl)]
  rw [e1, contains_page]
  dsimp only
  have hd : ((b!"cannot commit CONCURRENT transaction - conflict at page ") ++ natDec page
      ++ (mid ++ (b!"part of db ") ++ kind ++ [32] ++ name ++ [59] ++ rest)).drop (39 + 17)
      = natDec page ++ (mid ++ ((b!"part of db ") ++ kind ++ [32] ++ name ++ [59] ++ rest)) := by
    rw [List.append_assoc, List.drop_append_of_le_length (by decide)]
    simp only [List.append_assoc]
    rfl
  rw [hd, strtoll_natDec_stop hp]
  cases mid with
  | nil => rfl
  | cons c mid => exact hm

theorem word_stop {w rest : Bytes} (hw : ∀ c ∈ w, isSpace c = false) (hne : w ≠ []) (hr : ∀ c, rest.head? = some c → isSpace c = true) :
    word (w ++ rest) = some w := by
  unfold word
  dsimp only
  rw [takeWhile_stop (fun c hc => by rw [hw c hc]; rfl) (fun c hc => by rw [hr c hc]; rfl), if_neg hne]

/-- What a message of a conflict on a row has to be for its table and key to be found: the table and the key have no white space and
are followed by some, and nothing after them looks like the beginning of another. -/
structure RowOk (how kind name mid key rest : Bytes) : Prop where
  howOk : how = (b!"read") ∨ how = (b!"write")
  kindOk : kind = (b!"table") ∨ kind = (b!"index")
  nameOk : name ≠ [] ∧ ∀ c ∈ name, isSpace c = false
  midOk : ∃ c m, mid = c :: m ∧ isSpace c = true
  keyOk : key ≠ [] ∧ ∀ c ∈ key, isSpace c = false
  restOk : ∀ c, rest.head? = some c → isSpace c = true
  once : ¬ (b!"conflict on ") <:+: name ++ mid ++ (b!"key=") ++ key ++ rest
  keyOnce : ¬ (b!"key=") <:+: key ++ rest
  line : (10 : UInt8) ∉ rowMsg how kind name mid key rest
  auto : ¬ (b!"automatic index on") <:+: rowMsg how kind name mid key rest

theorem row_loc {how kind name mid key rest : Bytes} (h : RowOk how kind name mid key rest) :
    replaceAll rowPart (rowMsg how kind name mid key rest) = name := by
  refine replaceAll_found h.line ?_
  have e : rowMsg how kind name mid key rest = (how ++ (b!"/write ")) ++ 99 :: ((b!"onfli") ++ 99 :: ((b!"t on ") ++ kind ++ [32]
      ++ (name ++ mid ++ (b!"key=") ++ key ++ rest))) := by
    unfold rowMsg
    simp only [List.append_assoc, List.cons_append, List.nil_append]
  rw [e]
  have hafter : ∀ kind, (kind = (b!"table") ∨ kind = (b!"index")) → ∀ s,
      afterEither (b!"conflict on index ") (b!"conflict on table ") (99 :: ((b!"onfli") ++ 99 :: ((b!"t on ") ++ kind ++ [32] ++ s))) = some s := by
    intro kind hk s
    rcases hk with rfl | rfl <;> rfl
  refine findLast_at _ ?_ ?_
  · unfold rowPart
    rw [hafter kind h.kindOk, Option.bind_some]
    have : name ++ mid ++ (b!"key=") ++ key ++ rest = name ++ (mid ++ ((b!"key=") ++ key ++ rest)) := by
      simp only [List.append_assoc]
    rw [this]
    refine word_stop h.nameOk.2 h.nameOk.1 ?_
    obtain ⟨c, m, rfl, hc⟩ := h.midOk
    intro d hd
    rw [List.cons_append, List.head?_cons] at hd
    rw [← Option.some.inj hd]
    exact hc
  · intro t ht
    cases hr : rowPart t with
    | none => rfl
    | some r =>
      exfalso
      have hpre := rowPart_begins t r hr
      have h1 := suffix_after (by decide) hpre ht
      rcases List.suffix_cons_iff.mp h1 with rfl | h2
      · have := (List.cons_prefix_cons.mp hpre).2
        exact absurd (List.cons_prefix_cons.mp this).1 (by decide)
      · refine h.once (infix_after ?_ hpre h2)
        rcases h.kindOk with e | e <;> rw [e] <;> decide

theorem row_key {how kind name mid key rest : Bytes} (h : RowOk how kind name mid key rest) :
    replaceAll keyPart (rowMsg how kind name mid key rest) = key := by
  refine replaceAll_found h.line ?_
  have e : rowMsg how kind name mid key rest = (how ++ (b!"/write conflict on ") ++ kind ++ [32] ++ name ++ mid) ++ 107 :: ((b!"ey=") ++ (key ++ rest)) := by
    unfold rowMsg
    simp only [List.append_assoc, List.cons_append, List.nil_append]
  rw [e]
  refine findLast_at _ ?_ ?_
  · unfold keyPart
    rw [if_pos (show List.isPrefixOf (b!"key=") (107 :: ((b!"ey=") ++ (key ++ rest))) = true from List.isPrefixOf_iff_prefix.mpr ⟨key ++ rest, rfl⟩)]
    exact word_stop h.keyOk.2 h.keyOk.1 h.restOk
  · intro t ht
    cases hr : keyPart t with
    | none => rfl
    | some r =>
      exact absurd (infix_after (by decide) (keyPart_begins t r hr) ht) h.keyOnce

/-- C108.  The place of a conflict on a row is the table or index and a number that is the same for all conflicts on that row. -/
theorem c108_row (hash : Bytes → Int) (t : Place) {how kind name mid key rest : Bytes} (h : RowOk how kind name mid key rest) :
    logged hash (rowMsg how kind name mid key rest) t = { ident := hash (name ++ key), loc := name } := by
  unfold logged
  rw [if_neg (by rw [sContains_iff]; exact h.auto)]
  rw [if_neg (by
    unfold rowMsg
    simp only [List.append_assoc]
    rcases h.howOk with e | e <;> rw [e] <;> exact Bool.noConfusion)]
  rw [if_pos (by
    unfold rowMsg
    simp only [List.append_assoc]
    rcases h.howOk with e | e <;> rw [e] <;> rfl)]
  dsimp only
  rw [row_loc h, row_key h, if_pos]
  rw [sContains_iff]
  exact ⟨how ++ (b!"/write conflict on ") ++ kind ++ [32] ++ name ++ mid, key ++ rest, by
    unfold rowMsg
    simp only [List.append_assoc]⟩

/-- C108.  Anything else that SQLite logs leaves the place as it is. -/
theorem c108_other (hash : Bytes → Int) (t : Place) (msg : Bytes)
    (h1 : ¬ (b!"cannot commit") <+: msg ∨ ¬ (b!"conflict at page ") <:+: msg)
    (h2 : ¬ (b!"write/write conflict on") <+: msg) (h3 : ¬ (b!"read/write conflict on") <+: msg) : logged hash msg t = t := by
  unfold logged
  split
  · rfl
  · split
    · rename_i hc
      rw [List.isPrefixOf_iff_prefix] at hc
      rw [findSub_none.mpr (h1.resolve_left fun h => h hc)]
    · rw [if_neg]
      rw [Bool.or_eq_true, List.isPrefixOf_iff_prefix, List.isPrefixOf_iff_prefix]
      exact fun h => h.elim h2 h3

/-! ## Commits and attempts -/

theorem run_own (hash : Bytes → Int) (t : Nat) : ∀ (evs : List (Nat × Bytes)) (vars : Nat → Place),
    run hash vars evs t = ((evs.filter fun e => e.1 = t).map Prod.snd).foldl (fun p m => logged hash m p) (vars t)
  | [], _ => rfl
  | (i, msg) :: evs, vars => by
    rw [run, run_own hash t evs]
    by_cases h : t = i
    · subst h
      rw [if_pos rfl, List.filter_cons, if_pos (decide_eq_true rfl), List.map_cons, List.foldl_cons]
    · rw [if_neg h, List.filter_cons, if_neg fun e => h (of_decide_eq_true e).symm]

/-- C108.  What a handle says of a commit that failed comes from what this commit logged, whatever other threads logged at the
same time and whatever conflicts there were before. -/
theorem c108_own (hash : Bytes → Int) (vars vars' : Nat → Place) (t : Nat) (evs : List (Nat × Bytes)) :
    commit hash vars t evs false = commit hash vars' t (evs.filter fun e => e.1 = t) false := by
  unfold commit
  dsimp only
  rw [run_own, run_own]
  simp

/-- C108.  After a commit that conflicted on a page, whatever other threads logged, that page is what the handle has. -/
theorem c108_commit (hash : Bytes → Int) (vars : Nat → Place) (t : Nat) (evs : List (Nat × Bytes)) (msg : Bytes) (p : Place)
    (hmsg : evs.filter (fun e => e.1 = t) = [(t, msg)]) (hp : ∀ q, logged hash msg q = p) :
    commit hash vars t evs false = p ∧ commit hash vars t evs true = {} := by
  refine ⟨?_, rfl⟩
  unfold commit
  dsimp only
  rw [run_own, hmsg]
  exact hp _

/-- Whether a failed attempt changes the lock of the next. -/
def Counts (lockable : Bytes → Bool) (p : Place) : Bool := !(b!"journal").isPrefixOf p.loc && lockable p.loc

theorem next_eq (lockable : Bytes → Bool) (cur : Int) (p : Place) :
    next true lockable cur p = if Counts lockable p then p.ident else cur := by
  unfold next Counts
  rw [if_pos rfl]
  cases (b!"journal").isPrefixOf p.loc <;> cases lockable p.loc <;> rfl

theorem locks_get (lockable : Bytes → Bool) : ∀ (ps : List Place) (cur : Int) (k : Nat), k ≤ ps.length →
    (locks true lockable cur ps)[k]? = some ((((ps.take k).filter (Counts lockable)).getLast?.map Place.ident).getD cur)
  | ps, cur, 0, _ => by cases ps <;> rfl
  | p :: ps, cur, k + 1, h => by
    show (locks true lockable (next true lockable cur p) ps)[k]? = _
    rw [locks_get lockable ps _ k (by simpa using h), next_eq, List.take_succ_cons, List.filter_cons]
    split
    · rw [List.getLast?_cons]
      cases ((ps.take k).filter (Counts lockable)).getLast? <;> rfl
    · rfl

/-- C108.  Every attempt waits for the lock of the place where the last attempt failed that was not on a journal nor on a table the
plugin excludes, and for none if there is no such attempt. -/
theorem c108_lock (lockable : Bytes → Bool) (ps : List Place) (k : Nat) (h : k ≤ ps.length) :
    (locks true lockable 0 ps)[k]? = some ((((ps.take k).filter (Counts lockable)).getLast?.map Place.ident).getD 0) :=
  locks_get lockable ps 0 k h

/-- C108.  Without `-enableConflictPageLocks` no attempt waits. -/
theorem c108_off (lockable : Bytes → Bool) (ps : List Place) : ∀ l ∈ locks false lockable 0 ps, l = 0 := by
  induction ps with
  | nil => intro l hl; exact List.mem_singleton.mp hl
  | cons p ps ih =>
    intro l hl
    rcases List.mem_cons.mp hl with h | h
    · exact h
    · exact ih l h

/-! ## Where the code differs -/

/-- Disagreement.  A command that conflicted on a table and then on a journal still waits for the table, though its last conflict
had nothing to do with it. -/
theorem c108_stale : ∃ (a j : Place), (b!"journal").isPrefixOf j.loc = true ∧ a.ident ≠ 0 ∧
    locks true (fun _ => true) 0 [a, j] = [0, a.ident, a.ident] :=
  ⟨⟨7, (b!"reports")⟩, ⟨9, (b!"journal0003")⟩, by decide, by decide, by decide⟩

/-- Disagreement.  Conflicts on any table whose name begins with `journal` are not waited for. -/
theorem c108_journal_name (lockable : Bytes → Bool) (tail : Bytes) (page : Int) :
    locks true lockable 0 [⟨page, (b!"journal") ++ tail⟩] = [0, 0] := by
  show [0, next true lockable 0 ⟨page, (b!"journal") ++ tail⟩] = [0, 0]
  rw [next_eq]
  rw [show Counts lockable ⟨page, (b!"journal") ++ tail⟩ = false from rfl]
  rfl

/-- Disagreement.  Rows whose keys are the same up to a white space have one lock. -/
theorem c108_key_cut (hash : Bytes → Int) : logged hash (b!"read/write conflict on table t (root=6), key=(a b), conflicting=(2)") {}
    = logged hash (b!"read/write conflict on table t (root=6), key=(a c), conflicting=(2)") {} := by
  have h : ∀ m : Bytes, m = (b!"read/write conflict on table t (root=6), key=(a b), conflicting=(2)") ∨
      m = (b!"read/write conflict on table t (root=6), key=(a c), conflicting=(2)") →
      logged hash m {} = { ident := hash ((b!"t") ++ (b!"(a")), loc := (b!"t") } := by
    rintro m (rfl | rfl) <;> rfl
  rw [h _ (.inl rfl), h _ (.inr rfl)]

/-- Disagreement.  A key with a newline makes the whole message the place, transaction numbers and all: two conflicts on one row have
different places. -/
theorem c108_newline (hash : Bytes → Int) : (logged hash (b!"read/write conflict on table t (root=6), key=(a
b), conflicting=(2)") {}).loc
    ≠ (logged hash (b!"read/write conflict on table t (root=6), key=(a
b), conflicting=(3)") {}).loc := by
  have h1 : (logged hash (b!"read/write conflict on table t (root=6), key=(a
b), conflicting=(2)") {}).loc
    = (b!"read/write conflict on table t (root=6), key=(a
b), conflicting=(2)") := rfl
  have h2 : (logged hash (b!"read/write conflict on table t (root=6), key=(a
b), conflicting=(3)") {}).loc
    = (b!"read/write conflict on table t (root=6), key=(a
b), conflicting=(3)") := rfl
  rw [h1, h2]
  decide +kernel

/-- The whole of the disagreement: any message about a row that has a newline before its last byte, and any about a page, becomes
the place itself. -/
theorem c108_lines (hash : Bytes → Int) (t : Place) (msg : Bytes) (hn : (10 : UInt8) ∈ msg.dropLast)
    (hauto : ¬ (b!"automatic index on") <:+: msg) :
    ((b!"read/write conflict on") <+: msg ∨ (b!"write/write conflict on") <+: msg → (logged hash msg t).loc = msg) ∧
    (∀ i, (b!"cannot commit") <+: msg → findSub (b!"conflict at page ") msg = some i → (logged hash msg t).loc = msg) := by
  have hm : (10 : UInt8) ∈ msg := List.dropLast_subset _ hn
  have hr : ∀ p, replaceAll p msg = msg := by
    intro p
    unfold replaceAll
    rw [if_neg (fun h => h hm), if_neg (fun h => h.2 hn)]
  have ha : sContains msg (b!"automatic index on") = false := by
    cases h : sContains msg (b!"automatic index on") with
    | false => rfl
    | true => exact absurd (sContains_iff.mp h) hauto
  refine ⟨fun h => ?_, fun i h hi => ?_⟩
  · have hc : (b!"cannot commit").isPrefixOf msg = false := by
      rcases h with ⟨r, rfl⟩ | ⟨r, rfl⟩ <;> rfl
    have hw : ((b!"write/write conflict on").isPrefixOf msg || (b!"read/write conflict on").isPrefixOf msg) = true := by
      rw [Bool.or_eq_true, List.isPrefixOf_iff_prefix, List.isPrefixOf_iff_prefix]
      exact h.symm
    unfold logged
    simp only [ha, hc, hw, Bool.false_eq_true, if_false, if_true, hr]
  · have hc : (b!"cannot commit").isPrefixOf msg = true := List.isPrefixOf_iff_prefix.mpr h
    unfold logged
    simp only [ha, hc, Bool.false_eq_true, if_false, if_true, hi, hr]

/-! ## Cases -/

-- the messages of SQLite.cpp:420-421, 427-428
set_option maxRecDepth 4000 in
example (hash : Bytes → Int) : logged hash (b!"cannot commit CONCURRENT transaction - conflict at page 1854553 (read/write page; part of db table reports; content=0D00000009007100...)") {}
    = { ident := 1854553, loc := (b!"reports") } := rfl
set_option maxRecDepth 4000 in
example (hash : Bytes → Int) : logged hash (b!"write/write conflict on index nameValuePairs.n (root=30440763), key=(20539758,lastIP), conflicting=(116607308) (mytid=116607309)") {}
    = { ident := hash (b!"nameValuePairs.n(20539758,lastIP),"), loc := (b!"nameValuePairs.n") } := rfl
example : RowOk (b!"read") (b!"table") (b!"test") (b!" (root=60), ") (b!"[574],") (b!" conflicting=(2881) (mytid=0)") where
  howOk := .inl rfl
  kindOk := .inl rfl
  nameOk := by decide
  midOk := ⟨32, _, rfl, rfl⟩
  keyOk := by decide
  restOk := by rintro c h; rw [← Option.some.inj h]; rfl
  once := by rw [← sContains_iff]; decide +kernel
  keyOnce := by rw [← sContains_iff]; decide +kernel
  line := by decide +kernel
  auto := by rw [← sContains_iff]; decide +kernel
example (hash : Bytes → Int) (t : Place) :
    logged hash (pageMsg 7 (b!" (read page; ") (b!"index") (b!"a.b") (b!" content=0A)")) t = { ident := 7, loc := (b!"a.b") } :=
  c108_page hash t 7 (by decide) _ _ _ _ (.inr rfl) rfl (by decide) (by rw [← sContains_iff]; decide +kernel)
    (by rw [pageMsg, natDec_lt (by decide)]; decide +kernel)
    (by rw [← sContains_iff, pageMsg, natDec_lt (by decide)]; decide +kernel)
example : locks true (fun l => l != [120]) 0 [⟨5, [97]⟩, ⟨6, [120]⟩, ⟨7, (b!"journal")⟩, ⟨8, [98]⟩] = [0, 5, 5, 5, 8] := by decide +kernel

/-- **C108** A newline at the end of a message stays at the end of what is found in it. -/
theorem c108_newline_kept (p : Bytes → Option Bytes) (s r : Bytes) (hn : (10 : UInt8) ∉ s) (h : findLast p s = some r) :
    replaceAll p (s ++ [10]) = r ++ [10] := by
  unfold replaceAll
  rw [if_neg (by simp), if_pos ⟨by simp, by simpa using hn⟩, List.dropLast_concat, h]
  rfl

end Bedrock.Conflict.Props
