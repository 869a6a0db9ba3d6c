import Verif.Model.RepeatText
import Verif.Props.JobsSchedule
import Verif.Props.Text
import Verif.Lemmas.Http

/-!
# C77: schedule texts are understood or refused
-/

namespace Bedrock.Jobs.Props
open Bedrock Bedrock.Text Bedrock.Jobs

/-! ## The documented modifiers -/

/-- A decimal digit. -/
def Digit (c : UInt8) : Prop := 48 ≤ c ∧ c ≤ 57

/-- The documented date modifiers, in upper case. -/
inductive Known : Bytes → Prop where
  | seconds (sign : UInt8) (d : Bytes) (s : Bytes) : sign = 43 ∨ sign = 45 → (∀ c ∈ d, Digit c) → 1 ≤ d.length →
      d.length ≤ 8 → s = [] ∨ s = str "S" → Known ([sign] ++ d ++ str " SECOND" ++ s)
  | unit (sign : UInt8) (d : Bytes) (u s : Bytes) : sign = 43 ∨ sign = 45 → (∀ c ∈ d, Digit c) → 1 ≤ d.length →
      d.length ≤ 3 → u ∈ [str "YEAR", str "MONTH", str "DAY", str "HOUR", str "MINUTE"] → s = [] ∨ s = str "S" →
      Known ([sign] ++ d ++ str " " ++ u ++ s)
  | start (u : Bytes) : u ∈ [str "DAY", str "MONTH", str "YEAR"] → Known (str "START OF " ++ u)
  | weekday (c : UInt8) : 48 ≤ c → c ≤ 54 → Known (str "WEEKDAY " ++ [c])

theorem isDigit_iff {c : UInt8} : Json.isDigit c = true ↔ Digit c := by
  simp [Json.isDigit, Digit]

theorem takeWhile_digits {d r : Bytes} (hd : ∀ c ∈ d, Digit c) : 
    (d ++ 32 :: r).takeWhile Json.isDigit = d ∧ (d ++ 32 :: r).dropWhile Json.isDigit = 32 :: r := by
  have h : ∀ c ∈ d, Json.isDigit c = true := fun c hc => isDigit_iff.mpr (hd c hc)
  constructor
  · rw [List.takeWhile_append_of_pos h]
    simp [show Json.isDigit 32 = false from rfl]
  · rw [List.dropWhile_append_of_pos h]
    simp [show Json.isDigit 32 = false from rfl]

/-- The units of a modifier with so many digits. -/
def unitsFor (n : Nat) : List (Bytes × (Calendar → Int → Mod)) :=
  (if 1 ≤ n ∧ n ≤ 8 then longUnits else []) ++ (if 1 ≤ n ∧ n ≤ 3 then shortUnits else [])

theorem signedMod_eq {sign : UInt8} {d r : Bytes} (hs : sign = 43 ∨ sign = 45) (hd : ∀ c ∈ d, Digit c) :
    signedMod ([sign] ++ d ++ 32 :: r) =
      ((unitsFor d.length).find? fun x => isUnit x.1 (32 :: r)).map fun x => fun cal =>
        x.2 cal (if sign = 45 then -digitsVal d else digitsVal d) := by
  simp only [List.cons_append, List.nil_append, signedMod, if_pos hs, (takeWhile_digits hd).1,
    (takeWhile_digits hd).2, unitsFor]

theorem mem_takeWhile_digit {s : Bytes} : ∀ c ∈ s.takeWhile Json.isDigit, Digit c := by
  intro c hc
  rw [← isDigit_iff]
  induction s with
  | nil => simp at hc
  | cons a s ih =>
    rw [List.takeWhile_cons] at hc
    split at hc
    · rcases List.mem_cons.mp hc with rfl | hc
      · assumption
      · exact ih hc
    · simp at hc

theorem signedMod_known {s : Bytes} (h : (signedMod s).isSome) : Known s := by
  cases s with
  | nil => simp [signedMod] at h
  | cons c r =>
    simp only [signedMod] at h
    split at h
    · rename_i hc
      rw [Option.isSome_map] at h
      obtain ⟨x, hx⟩ := Option.isSome_iff_exists.mp h
      have hu := List.find?_some hx
      have hm := List.mem_of_find?_eq_some hx
      have hr : r = r.takeWhile Json.isDigit ++ r.dropWhile Json.isDigit := List.takeWhile_append_dropWhile.symm
      have hsplit : r.dropWhile Json.isDigit = x.1 ∨ r.dropWhile Json.isDigit = x.1 ++ [83] := by
        simpa [isUnit] using hu
      have hd := mem_takeWhile_digit (s := r)
      rcases List.mem_append.mp hm with hm | hm
      · split at hm
        · rename_i hl
          simp only [longUnits, List.mem_singleton] at hm
          rw [hm] at hsplit
          rw [hr]
          rcases hsplit with h | h <;> rw [h]
          · have := Known.seconds c (r.takeWhile Json.isDigit) [] hc hd hl.1 hl.2 (Or.inl rfl)
            simpa using this
          · have := Known.seconds c (r.takeWhile Json.isDigit) (str "S") hc hd hl.1 hl.2 (Or.inr rfl)
            simpa [show str "S" = [83] from rfl] using this
        · simp at hm
      · split at hm
        · rename_i hl
          have key : ∀ u : Bytes, u ∈ [str "YEAR", str "MONTH", str "DAY", str "HOUR", str "MINUTE"] →
              x.1 = str " " ++ u → Known (c :: r) := by
            intro u hu hx1
            rw [hx1] at hsplit
            rw [hr]
            rcases hsplit with h | h <;> rw [h]
            · have := Known.unit c (r.takeWhile Json.isDigit) u [] hc hd hl.1 hl.2 hu (Or.inl rfl)
              simpa using this
            · have := Known.unit c (r.takeWhile Json.isDigit) u (str "S") hc hd hl.1 hl.2 hu (Or.inr rfl)
              simpa [show str "S" = [83] from rfl] using this
          simp only [shortUnits, List.mem_cons, List.not_mem_nil, or_false] at hm
          rcases hm with rfl | rfl | rfl | rfl | rfl
          · exact key (str "YEAR") (by decide) (by decide)
          · exact key (str "MONTH") (by decide) (by decide)
          · exact key (str "DAY") (by decide) (by decide)
          · exact key (str "HOUR") (by decide) (by decide)
          · exact key (str "MINUTE") (by decide) (by decide)
        · simp at hm
    · simp at h

theorem snapTexts_iff {s : Bytes} : s ∈ snapTexts ↔
    (∃ u ∈ [str "DAY", str "MONTH", str "YEAR"], s = str "START OF " ++ u) ∨
      (∃ c : UInt8, 48 ≤ c ∧ c ≤ 54 ∧ s = str "WEEKDAY " ++ [c]) := by
  constructor
  · intro h
    simp only [snapTexts, List.mem_cons, List.not_mem_nil, or_false] at h
    rcases h with rfl | rfl | rfl | rfl | rfl | rfl | rfl | rfl | rfl | rfl
    · exact Or.inl ⟨str "DAY", by decide, by decide⟩
    · exact Or.inl ⟨str "MONTH", by decide, by decide⟩
    · exact Or.inl ⟨str "YEAR", by decide, by decide⟩
    · exact Or.inr ⟨48, by decide, by decide, by decide⟩
    · exact Or.inr ⟨49, by decide, by decide, by decide⟩
    · exact Or.inr ⟨50, by decide, by decide, by decide⟩
    · exact Or.inr ⟨51, by decide, by decide, by decide⟩
    · exact Or.inr ⟨52, by decide, by decide, by decide⟩
    · exact Or.inr ⟨53, by decide, by decide, by decide⟩
    · exact Or.inr ⟨54, by decide, by decide, by decide⟩
  · rintro (⟨u, hu, rfl⟩ | ⟨c, h1, h2, rfl⟩)
    · simp only [List.mem_cons, List.not_mem_nil, or_false] at hu
      rcases hu with rfl | rfl | rfl <;> decide
    · revert h1 h2
      exact forall_u8 (P := fun c => 48 ≤ c → c ≤ 54 → str "WEEKDAY " ++ [c] ∈ snapTexts) (by decide +kernel) c

theorem oneMod_iff {s : Bytes} : (oneMod s).isSome = true ↔ Known s := by
  constructor
  · intro h
    unfold oneMod at h
    split at h
    · rename_i f hf
      exact signedMod_known (by rw [hf]; rfl)
    · split at h
      · rename_i hs
        rcases snapTexts_iff.mp hs with ⟨u, hu, rfl⟩ | ⟨c, h1, h2, rfl⟩
        · exact .start u hu
        · exact .weekday c h1 h2
      · simp at h
  · intro h
    unfold oneMod
    split
    · rfl
    · rename_i hn
      cases h with
      | seconds sign d s hs hd h1 h2 hsuf =>
        exfalso
        have hk : unitsFor d.length = longUnits ++ (if 1 ≤ d.length ∧ d.length ≤ 3 then shortUnits else []) := by
          unfold unitsFor; rw [if_pos ⟨h1, h2⟩]
        rcases hsuf with rfl | rfl
        · rw [show [sign] ++ d ++ str " SECOND" ++ [] = [sign] ++ d ++ 32 :: str "SECOND" by
            rw [List.append_nil]; rfl, signedMod_eq hs hd, hk] at hn
          simp [longUnits, isUnit, show str " SECOND" = 32 :: str "SECOND" from rfl] at hn
        · rw [show [sign] ++ d ++ str " SECOND" ++ str "S" = [sign] ++ d ++ 32 :: str "SECONDS" by
            rw [List.append_assoc ([sign] ++ d)]; rfl, signedMod_eq hs hd, hk] at hn
          simp [longUnits, isUnit, show str " SECOND" ++ [83] = 32 :: str "SECONDS" from rfl] at hn
      | unit sign d u s hs hd h1 h2 hu hsuf =>
        exfalso
        have hk : unitsFor d.length = longUnits ++ shortUnits := by
          unfold unitsFor; rw [if_pos ⟨h1, by omega⟩, if_pos ⟨h1, h2⟩]
        rw [show [sign] ++ d ++ str " " ++ u ++ s = [sign] ++ d ++ 32 :: (u ++ s) by
          simp [show str " " = [32] from rfl], signedMod_eq hs hd, hk, Option.map_eq_none_iff] at hn
        revert hn
        simp only [List.mem_cons, List.not_mem_nil, or_false] at hu
        rcases hu with rfl | rfl | rfl | rfl | rfl <;> rcases hsuf with rfl | rfl <;>
          (rw [List.find?_eq_none]; intro hn; revert hn; decide +kernel)
      | start u hu => rw [if_pos (snapTexts_iff.mpr (Or.inl ⟨u, hu, rfl⟩))]; rfl
      | weekday c h1 h2 => rw [if_pos (snapTexts_iff.mpr (Or.inr ⟨c, h1, h2, rfl⟩))]; rfl

/-! ## The parts of a text -/

theorem foldl_infix (sep : UInt8) (s : Bytes) : ∀ (p : ListParse) (done : Bytes),
    (∀ e ∈ p.done, e <:+: done) → p.component <:+ done →
    (∀ e ∈ (s.foldl (ListParse.step sep) p).done, e <:+: done ++ s) ∧
      (s.foldl (ListParse.step sep) p).component <:+ done ++ s := by
  induction s with
  | nil => intro p done h1 h2; simpa using ⟨h1, h2⟩
  | cons c s ih =>
    intro p done h1 h2
    rw [List.foldl_cons, show done ++ c :: s = (done ++ [c]) ++ s by simp]
    have h1' : ∀ e ∈ p.done, e <:+: done ++ [c] := fun e he =>
      (h1 e he).trans (List.prefix_append done [c]).isInfix
    apply ih
    · unfold ListParse.step
      split
      · exact h1'
      · split
        · intro e he
          dsimp only at he
          split at he
          · exact h1' e he
          · rcases List.mem_append.mp he with he | he
            · exact h1' e he
            · rw [List.mem_singleton.mp he]
              exact h2.isInfix.trans (List.prefix_append done [c]).isInfix
        · exact h1'
    · unfold ListParse.step
      split
      · rename_i h
        rw [h.1]; exact List.nil_suffix
      · split
        · exact List.nil_suffix
        · obtain ⟨t, ht⟩ := h2
          exact ⟨t, by rw [← ht]; simp⟩

theorem part_infix {s e : Bytes} {sep : UInt8} (h : e ∈ (parseList s sep).1) : e <:+: cstr s := by
  have := foldl_infix sep (cstr s) {} [] (by simp) (by simp)
  simp only [List.nil_append] at this
  unfold parseList at h
  dsimp only at h
  split at h
  · exact this.1 e h
  · rcases List.mem_append.mp h with h | h
    · exact this.1 e h
    · rw [List.mem_singleton.mp h]; exact this.2.isInfix

theorem part_zero {s e : Bytes} {sep : UInt8} (h : e ∈ (parseList s sep).1) : 0 ∉ e := fun h0 =>
  zero_not_mem_cstr s ((part_infix h).subset h0)

theorem toUpper_idem (c : UInt8) : toUpper (toUpper c) = toUpper c :=
  forall_u8 (P := fun c => toUpper (toUpper c) = toUpper c) (by decide +kernel) c

theorem sToUpper_idem (s : Bytes) : sToUpper (sToUpper s) = sToUpper s := by
  simp [sToUpper, toUpper_idem]

theorem part_upper {s e : Bytes} {sep : UInt8} (h : e ∈ (parseList (sToUpper s) sep).1) : sToUpper e = e := by
  unfold sToUpper
  conv => rhs; rw [← List.map_id e]
  apply List.map_congr_left
  intro c hc
  have : c ∈ sToUpper s := (List.takeWhile_prefix _).subset ((part_infix h).subset hc)
  obtain ⟨x, _, rfl⟩ := List.mem_map.mp this
  exact toUpper_idem x

theorem part_alone {s e : Bytes} (h : e ∈ (parseList s 44).1) : (parseList e 44).1 = [e] := by
  obtain ⟨h1, h2, h3⟩ := Bedrock.Text.Props.c29_elements_partial s 44 e h
  have := Bedrock.Text.Props.c29_round_trip [e] 44 0 (by decide) (by
    intro x hx
    rw [List.mem_singleton.mp hx]
    exact ⟨h1, h2, h3, part_zero h⟩)
  simpa [composeList] using this

theorem part_valid {s e : Bytes} (h : e ∈ (parseList (sToUpper s) 44).1) : validModifier e = true ↔ Known e := by
  unfold validModifier
  rw [part_upper h, part_alone h]
  simp only [List.all_cons, List.all_nil, Bool.and_true]
  exact oneMod_iff

theorem oneMod_valid {s : Bytes} {f : Calendar → Mod} (h : oneMod s = some f) (cal : Calendar) : (f cal).valid = true := by
  unfold oneMod at h
  split at h
  · rename_i g hg
    injection h with h
    subst h
    cases s with
    | nil => simp [signedMod] at hg
    | cons c r =>
      simp only [signedMod] at hg
      split at hg
      · rw [Option.map_eq_some_iff] at hg
        obtain ⟨x, hx, rfl⟩ := hg
        have hm := List.mem_of_find?_eq_some hx
        have : x ∈ longUnits ++ shortUnits := by
          rcases List.mem_append.mp hm with hm | hm <;> split at hm
          · exact List.mem_append_left _ hm
          · simp at hm
          · exact List.mem_append_right _ hm
          · simp at hm
        simp only [longUnits, shortUnits, List.cons_append, List.nil_append, List.mem_cons, List.not_mem_nil, or_false] at this
        rcases this with rfl | rfl | rfl | rfl | rfl | rfl <;> rfl
      · simp at hg
  · split at h
    · injection h with h
      subst h
      rfl
    · simp at h

theorem partMod_valid {s e : Bytes} (cal : Calendar) (h : e ∈ (parseList (sToUpper s) 44).1) :
    (partMod cal e).valid = true ↔ Known e ∨ e = str "START OF HOUR" := by
  unfold partMod
  rw [part_upper h]
  by_cases he : e = str "START OF HOUR"
  · rw [if_pos he]; simp [he, Mod.valid]
  · rw [if_neg he]
    by_cases hv : validModifier e = true
    · rw [if_pos hv]
      have hk := (part_valid h).mp hv
      refine ⟨fun _ => Or.inl hk, fun _ => ?_⟩
      obtain ⟨f, hf⟩ := Option.isSome_iff_exists.mp (oneMod_iff.mpr hk)
      unfold sqliteMod
      rw [part_upper h, hf]
      exact oneMod_valid hf cal
    · rw [if_neg hv]
      constructor
      · intro h'; simp [Mod.valid] at h'
      · rintro (h' | h')
        · exact absurd ((part_valid h).mpr h') hv
        · exact absurd h' he

theorem applyMods_none : ∀ {ms : List Mod} {t : Option Int}, applyMods ms t = none ↔ ∃ m ∈ ms, m.valid = false
  | [], t => by simp [applyMods]
  | m :: ms, t => by
    unfold applyMods
    by_cases hv : m.valid = true
    · rw [if_pos hv, applyMods_none]
      simp [hv]
    · rw [if_neg hv]
      simp only [true_iff]
      exact ⟨m, List.mem_cons_self, by simpa using hv⟩

theorem constructNext_invalid {r : Repeat} {a b : Option Int} {now : Int} :
    constructNext r a b now = .invalid ↔ r = .malformed ∨ ∃ b ms, r = .parts b ms ∧ (ms = [] ∨ ∃ m ∈ ms, m.valid = false) := by
  cases r with
  | hourly => simp [constructNext, canned]
  | daily => simp [constructNext, canned]
  | weekly => simp [constructNext, canned]
  | malformed => simp [constructNext]
  | parts base ms =>
    cases ms with
    | nil => simp only [constructNext, true_iff]; exact Or.inr ⟨base, [], rfl, Or.inl rfl⟩
    | cons m ms =>
      simp only [constructNext]
      split
      · rename_i h
        simp only [true_iff]
        exact Or.inr ⟨base, m :: ms, rfl, Or.inr (applyMods_none.mp h)⟩
      · rename_i n h
        constructor
        · intro h'
          split at h' <;> simp at h'
        · rintro (h' | ⟨_, _, h', h'' | h''⟩)
          · simp at h'
          · injection h' with _ h'
            rw [← h'] at h''; simp at h''
          · injection h' with _ h'
            rw [← h'] at h''
            rw [applyMods_none.mpr h''] at h
            simp at h

/-- The three named repeats, in any case. -/
def Canned (s : Bytes) : Prop :=
  sIEquals s (str "HOURLY") = true ∨ sIEquals s (str "DAILY") = true ∨ sIEquals s (str "WEEKLY") = true

/-- The documented repeats: a name, or a base and at least one modifier, separated by commas, in any case. -/
def Documented' (s : Bytes) : Prop :=
  Canned s ∨ ∃ base p ps, (parseList (sToUpper s) 44).1 = base :: p :: ps ∧
    base ∈ [str "SCHEDULED", str "STARTED", str "FINISHED"] ∧ ∀ q ∈ p :: ps, Known q ∨ q = str "START OF HOUR"

theorem baseOf_some {s : Bytes} : (baseOf s).isSome = true ↔ s ∈ [str "SCHEDULED", str "STARTED", str "FINISHED"] := by
  unfold baseOf
  simp only [List.mem_cons, List.not_mem_nil, or_false]
  split
  · simp [*]
  · split
    · simp [*]
    · split
      · simp [*]
      · simp [*]

/-- C77: exactly the documented repeats are understood, whatever the times are. -/
theorem c77_understood_iff (cal : Calendar) (s : Bytes) (a b : Option Int) (now : Int) :
    constructNext (parseRepeat cal s) a b now ≠ .invalid ↔ Documented' s := by
  unfold Documented' Canned
  unfold parseRepeat
  by_cases h1 : sIEquals s (str "HOURLY") = true
  · rw [if_pos h1]; simp [h1, constructNext, canned]
  by_cases h2 : sIEquals s (str "DAILY") = true
  · rw [if_neg h1, if_pos h2]; simp [h2, constructNext, canned]
  by_cases h3 : sIEquals s (str "WEEKLY") = true
  · rw [if_neg h1, if_neg h2, if_pos h3]; simp [h3, constructNext, canned]
  rw [if_neg h1, if_neg h2, if_neg h3]
  simp only [h1, h2, h3, false_or, Bool.false_eq_true]
  rw [Ne, constructNext_invalid]
  split
  · rename_i base p ps hl
    constructor
    · intro h
      refine ⟨base, p, ps, hl, ?_, ?_⟩
      · cases hb : baseOf base with
        | none => rw [hb] at h; simp at h
        | some b => exact baseOf_some.mp (by rw [hb]; rfl)
      · intro q hq
        cases hb : baseOf base with
        | none => rw [hb] at h; simp at h
        | some b =>
          have hq' : q ∈ (parseList (sToUpper s) 44).1 := by rw [hl]; exact List.mem_cons_of_mem _ hq
          rw [← partMod_valid cal hq']
          cases hv : (partMod cal q).valid with
          | true => rfl
          | false =>
            exfalso
            apply h
            rw [hb]
            exact Or.inr ⟨b, _, rfl, Or.inr ⟨_, List.mem_map.mpr ⟨q, hq, rfl⟩, hv⟩⟩
    · rintro ⟨base', p', ps', hl', hb, hk⟩
      rw [hl] at hl'
      injection hl' with e1 hl'
      injection hl' with e2 e3
      subst e1 e2 e3
      obtain ⟨b, hb⟩ := Option.isSome_iff_exists.mp (baseOf_some.mpr hb)
      rw [hb]
      rintro (h | ⟨b', ms, h, hm⟩)
      · simp at h
      · injection h with _ h
        subst h
        rcases hm with hm | ⟨m, hm, hv⟩
        · simp at hm
        · obtain ⟨q, hq, rfl⟩ := List.mem_map.mp hm
          have hq' : q ∈ (parseList (sToUpper s) 44).1 := by rw [hl]; exact List.mem_cons_of_mem _ hq
          rw [(partMod_valid cal hq').mpr (hk q hq)] at hv
          simp at hv
  · rename_i hno
    constructor
    · intro h; exact absurd (Or.inl rfl) h
    · rintro ⟨base, p, ps, hl, _⟩
      exact absurd hl (hno base p ps)

/-- C77: CreateJob and UpdateJob accept a repeat if and only if it is a documented one. -/
theorem c77_accepted_iff (cal : Calendar) (now : Int) (s : Bytes) : validRepeat cal now s = true ↔ Documented' s := by
  rw [← c77_understood_iff cal s none none now]
  unfold validRepeat
  split
  · rename_i h; simp [h]
  · rename_i h
    constructor
    · intro _ h'; exact h h'
    · intro _; rfl

/-- C77: the named repeats mean what they say, whatever the times of the job are: the next full hour, the next midnight,
the next midnight between Saturday and Sunday (1970-01-04 was a Sunday), all in UTC. -/
theorem c77_named (cal : Calendar) (s : Bytes) (a b : Option Int) (now : Int) :
    (sIEquals s (str "HOURLY") = true →
      ∃ t, constructNext (parseRepeat cal s) a b now = .time t ∧ now < t ∧ t ≤ now + 3600 ∧ t % 3600 = 0) ∧
    (sIEquals s (str "DAILY") = true →
      ∃ t, constructNext (parseRepeat cal s) a b now = .time t ∧ now < t ∧ t ≤ now + 86400 ∧ t % 86400 = 0) ∧
    (sIEquals s (str "WEEKLY") = true →
      ∃ t, constructNext (parseRepeat cal s) a b now = .time t ∧ now < t ∧ t ≤ now + 604800 ∧
        t % 604800 = 3 * 86400) := by
  have rw' : ∀ {x : Bytes}, sIEquals s x = true → ∀ y, sIEquals s y = sIEquals x y := by
    intro x h y
    unfold sIEquals at h ⊢
    rw [beq_iff_eq] at h
    rw [h]
  refine ⟨fun h => ?_, fun h => ?_, fun h => ?_⟩
  · refine ⟨(now + 3600) / 3600 * 3600, ?_, by omega, by omega, by omega⟩
    unfold parseRepeat
    rw [if_pos h]; rfl
  · refine ⟨(now + 86400) / 86400 * 86400, ?_, by omega, by omega, by omega⟩
    unfold parseRepeat
    rw [rw' h, rw' h, if_neg (by decide +kernel), if_pos (by decide +kernel)]; rfl
  · refine ⟨((now / 86400 + 1) + (7 - ((now / 86400 + 1) + 4) % 7) % 7) * 86400, ?_, by omega, by omega, by omega⟩
    unfold parseRepeat
    rw [rw' h, rw' h, rw' h, if_neg (by decide +kernel), if_neg (by decide +kernel), if_pos (by decide +kernel)]; rfl

/-- Monday 2024-01-01 10:30:00 UTC. -/
example (cal : Calendar) : constructNext (parseRepeat cal (str "weekly")) none none 1704105000 = .time 1704585600 ∧
    constructNext (parseRepeat cal (str "Daily")) none none 1704105000 = .time 1704153600 ∧
    constructNext (parseRepeat cal (str "hourly")) none none 1704105000 = .time 1704106800 := by
  unfold parseRepeat
  refine ⟨?_, ?_, ?_⟩
  · rw [if_neg (by decide +kernel), if_neg (by decide +kernel), if_pos (by decide +kernel)]; decide +kernel
  · rw [if_neg (by decide +kernel), if_pos (by decide +kernel)]; decide +kernel
  · rw [if_pos (by decide +kernel)]; decide +kernel

/-- C77: a repeat that was accepted is understood for ever: no time makes it invalid later. -/
theorem c77_for_ever {cal : Calendar} {now : Int} {s : Bytes} (h : validRepeat cal now s = true) (a b : Option Int)
    (later : Int) : constructNext (parseRepeat cal s) a b later ≠ .invalid :=
  (c77_understood_iff cal s a b later).mpr ((c77_accepted_iff cal now s).mp h)

example : Documented' (str "scheduled, +5 minutes, START OF HOUR") ∧ validRepeat ⟨fun _ _ => none, fun _ _ => none,
    fun _ _ => none⟩ 0 (str "started, +5 fortnights") = false := by
  refine ⟨Or.inr ⟨str "SCHEDULED", str "+5 MINUTES", [str "START OF HOUR"], by decide +kernel, by decide, ?_⟩, by decide +kernel⟩
  intro q hq
  simp only [List.mem_cons, List.not_mem_nil, or_false] at hq
  rcases hq with rfl | rfl
  · exact Or.inl (oneMod_iff.mp (by decide +kernel))
  · exact Or.inr rfl

/-! ## The meaning of fixed offsets -/

/-- A fixed offset as people write it. -/
structure Off where
  minus : Bool := false
  n : Nat
  /-- SECOND, MINUTE, HOUR or DAY with its length in seconds and the largest number -/
  unit : Bytes × Int × Nat
  plural : Bool := true

def offUnits : List (Bytes × Int × Nat) :=
  [(str "SECOND", 1, 99999999), (str "MINUTE", 60, 999), (str "HOUR", 3600, 999), (str "DAY", 86400, 999)]

def Off.text (o : Off) : Bytes :=
  (if o.minus then str "-" else str "+") ++ natDec o.n ++ str " " ++ o.unit.1 ++ (if o.plural then str "S" else [])

def Off.value (o : Off) : Int := (if o.minus then -(o.n : Int) else o.n) * o.unit.2.1

structure Off.Ok (o : Off) : Prop where
  unit : o.unit ∈ offUnits
  small : o.n ≤ o.unit.2.2

theorem natDec_Digit (n : Nat) : ∀ c ∈ natDec n, Digit c := by
  intro c hc
  obtain ⟨d, hd, rfl⟩ := natDec_digits n c hc
  have : ∀ d : Fin 10, Digit (UInt8.ofNat (48 + d.val)) := by unfold Digit; decide +kernel
  exact this ⟨d, hd⟩

theorem digitsVal_append (d : Bytes) (c : UInt8) : digitsVal (d ++ [c]) = digitsVal d * 10 + ((c.toNat : Int) - 48) := by
  simp [digitsVal, List.foldl_append]

theorem digitsVal_natDec (n : Nat) : digitsVal (natDec n) = n := by
  induction n using Nat.strongRecOn with
  | _ n ih =>
    by_cases h : n < 10
    · rw [natDec_lt h]
      have : ∀ d : Fin 10, digitsVal [UInt8.ofNat (48 + d.val)] = d.val := by decide +kernel
      exact this ⟨n, h⟩
    · rw [natDec_ge h, digitsVal_append, ih (n / 10) (by omega)]
      have : ∀ d : Fin 10, ((UInt8.ofNat (48 + d.val)).toNat : Int) - 48 = d.val := by decide +kernel
      have := this ⟨n % 10, by omega⟩
      simp only at this
      omega

theorem natDec_length (k : Nat) : ∀ n, n < 10 ^ (k + 1) → (natDec n).length ≤ k + 1 := by
  induction k with
  | zero => intro n h; rw [natDec_lt (by simpa using h)]; simp
  | succ k ih =>
    intro n h
    by_cases h10 : n < 10
    · rw [natDec_lt h10]; simp
    · rw [natDec_ge h10, List.length_append]
      have := ih (n / 10) (by rw [Nat.pow_succ] at h; omega)
      simp; omega

theorem off_pos (o : Off) : 1 ≤ (natDec o.n).length := by
  have := natDec_ne_nil o.n
  cases h : natDec o.n with
  | nil => exact absurd h this
  | cons a l => simp

theorem off_mod (o : Off) (h : o.Ok) (cal : Calendar) : ∃ f, oneMod o.text = some f ∧ f cal = .offset o.value := by
  obtain ⟨minus, n, ⟨word, factor, lim⟩, plural⟩ := o
  have hu := h.unit
  have hn := h.small
  have hpos := off_pos ⟨minus, n, ⟨word, factor, lim⟩, plural⟩
  simp only at hu hn hpos
  have hd := natDec_Digit n
  have htext : ∃ sign, (sign = 43 ∨ sign = 45) ∧ (if minus = true then str "-" else str "+") = [sign] ∧
      (if sign = 45 then -digitsVal (natDec n) else digitsVal (natDec n)) = if minus then -(n : Int) else n := by
    cases minus with
    | true => exact ⟨45, Or.inr rfl, rfl, by simp [digitsVal_natDec]⟩
    | false => exact ⟨43, Or.inl rfl, rfl, by simp [digitsVal_natDec]⟩
  obtain ⟨sign, hs, hsig, hval⟩ := htext
  have hsm : signedMod (Off.text ⟨minus, n, ⟨word, factor, lim⟩, plural⟩) =
      ((unitsFor (natDec n).length).find? fun x => isUnit x.1 (32 :: (word ++ if plural then str "S" else []))).map
        fun x => fun cal => x.2 cal (if minus then -(n : Int) else n) := by
    unfold Off.text
    dsimp only
    rw [hsig, show [sign] ++ natDec n ++ str " " ++ word ++ (if plural = true then str "S" else []) =
      [sign] ++ natDec n ++ 32 :: (word ++ if plural = true then str "S" else []) by simp [show str " " = [32] from rfl],
      signedMod_eq hs hd, hval]
  have key : ∀ (us : List (Bytes × (Calendar → Int → Mod))), unitsFor (natDec n).length = us →
      (∃ x, us.find? (fun x => isUnit x.1 (32 :: (word ++ if plural then str "S" else []))) = some x ∧
        ∀ k, x.2 cal k = .offset (k * factor)) →
      ∃ f, oneMod (Off.text ⟨minus, n, ⟨word, factor, lim⟩, plural⟩) = some f ∧
        f cal = .offset (Off.value ⟨minus, n, ⟨word, factor, lim⟩, plural⟩) := by
    intro us hus ⟨x, hx, hxv⟩
    refine ⟨fun cal => x.2 cal (if minus then -(n : Int) else n), ?_, hxv _⟩
    unfold oneMod
    rw [hsm, hus, hx]
    rfl
  have h8 : ∀ h : n < 10 ^ 8, ∃ t, unitsFor (natDec n).length = longUnits ++ t := by
    intro h
    have := natDec_length 7 n h
    unfold unitsFor
    rw [if_pos ⟨hpos, by omega⟩]
    exact ⟨_, rfl⟩
  have h3 : ∀ h : n < 10 ^ 3, unitsFor (natDec n).length = longUnits ++ shortUnits := by
    intro h
    have := natDec_length 2 n h
    unfold unitsFor
    rw [if_pos ⟨hpos, by omega⟩, if_pos ⟨hpos, by omega⟩]
  simp only [offUnits, List.mem_cons, List.not_mem_nil, or_false, Prod.mk.injEq] at hu
  rcases hu with ⟨rfl, rfl, rfl⟩ | ⟨rfl, rfl, rfl⟩ | ⟨rfl, rfl, rfl⟩ | ⟨rfl, rfl, rfl⟩
  · obtain ⟨t, ht⟩ := h8 (by omega)
    refine key _ ht ⟨(str " SECOND", fun _ n => .offset n), ?_, ?_⟩
    · rw [List.find?_append]
      have : longUnits.find? (fun x => isUnit x.1 (32 :: (str "SECOND" ++ if plural then str "S" else []))) =
          some (str " SECOND", fun _ n => .offset n) := by
        cases plural <;> rfl
      rw [this]; rfl
    · intro k; simp
  · exact key _ (h3 (by omega)) ⟨(str " MINUTE", fun _ n => .offset (n * 60)), by cases plural <;> rfl, fun _ => rfl⟩
  · exact key _ (h3 (by omega)) ⟨(str " HOUR", fun _ n => .offset (n * 3600)), by cases plural <;> rfl, fun _ => rfl⟩
  · exact key _ (h3 (by omega)) ⟨(str " DAY", fun _ n => .offset (n * 86400)), by cases plural <;> rfl, fun _ => rfl⟩

def baseText : Base → Bytes
  | .scheduled => str "SCHEDULED"
  | .started => str "STARTED"
  | .finished => str "FINISHED"

theorem off_chars (o : Off) (h : o.Ok) : ∀ c ∈ o.text, c ≠ 0 ∧ c ≠ 44 ∧ toUpper c = c := by
  obtain ⟨minus, n, ⟨word, factor, lim⟩, plural⟩ := o
  have hu := h.unit
  simp only [offUnits, List.mem_cons, List.not_mem_nil, or_false, Prod.mk.injEq] at hu
  intro c hc
  unfold Off.text at hc
  simp only [List.mem_append] at hc
  have hdig : Digit c → c ≠ 0 ∧ c ≠ 44 ∧ toUpper c = c := fun h =>
    forall_u8 (P := fun c => 48 ≤ c → c ≤ 57 → c ≠ 0 ∧ c ≠ 44 ∧ toUpper c = c) (by decide +kernel) c h.1 h.2
  have hword : ∀ w : Bytes, (∀ c ∈ w, c ≠ 0 ∧ c ≠ 44 ∧ toUpper c = c) → c ∈ w → c ≠ 0 ∧ c ≠ 44 ∧ toUpper c = c :=
    fun w h hc => h c hc
  rcases hc with (((hc | hc) | hc) | hc) | hc
  · cases minus
    · exact hword (str "+") (by decide +kernel) hc
    · exact hword (str "-") (by decide +kernel) hc
  · exact hdig (natDec_Digit n c hc)
  · exact hword (str " ") (by decide +kernel) hc
  · rcases hu with ⟨rfl, _⟩ | ⟨rfl, _⟩ | ⟨rfl, _⟩ | ⟨rfl, _⟩
    · exact hword (str "SECOND") (by decide +kernel) hc
    · exact hword (str "MINUTE") (by decide +kernel) hc
    · exact hword (str "HOUR") (by decide +kernel) hc
    · exact hword (str "DAY") (by decide +kernel) hc
  · cases plural
    · simp at hc
    · exact hword (str "S") (by decide +kernel) hc

theorem off_head (o : Off) : o.text ≠ [] ∧ o.text.head? ≠ some 32 := by
  unfold Off.text
  cases o.minus
  · rw [show str "+" = [43] from rfl]; simp
  · rw [show str "-" = [45] from rfl]; simp

theorem sToUpper_fixed {s : Bytes} (h : ∀ c ∈ s, toUpper c = c) : sToUpper s = s := by
  unfold sToUpper
  conv => rhs; rw [← List.map_id s]
  exact List.map_congr_left h

theorem off_part (o : Off) (h : o.Ok) (cal : Calendar) : partMod cal o.text = .offset o.value := by
  have hup := sToUpper_fixed fun c hc => (off_chars o h c hc).2.2
  have hne : o.text ≠ str "START OF HOUR" := by
    intro he
    have h83 : o.text.head? = some 83 := by rw [he]; decide
    revert h83
    unfold Off.text
    cases o.minus
    · rw [show (if false = true then str "-" else str "+") = [43] from rfl]; simp
    · rw [show (if true = true then str "-" else str "+") = [45] from rfl]; simp
  obtain ⟨f, hf, hv⟩ := off_mod o h cal
  have hl : (parseList o.text 44).1 = [o.text] := by
    have := Bedrock.Text.Props.c29_round_trip [o.text] 44 0 (by decide) (by
      intro x hx
      rw [List.mem_singleton.mp hx]
      exact ⟨(off_head o).1, (off_head o).2, fun hc => (off_chars o h 44 hc).2.1 rfl, fun hc => (off_chars o h 0 hc).1 rfl⟩)
    simpa [composeList] using this
  unfold partMod
  rw [hup, if_neg hne]
  have hval : validModifier o.text = true := by
    unfold validModifier
    rw [hup, hl]
    simp [hf]
  rw [if_pos hval]
  unfold sqliteMod
  rw [hup, hf]
  exact hv

theorem cstr_upper (s : Bytes) : cstr (sToUpper s) = sToUpper (cstr s) := by
  unfold sToUpper
  induction s with
  | nil => rfl
  | cons a s ih =>
    unfold cstr at *
    rw [List.map_cons, List.takeWhile_cons, List.takeWhile_cons]
    have hz : decide (toUpper a ≠ 0) = decide (a ≠ 0) :=
      forall_u8 (P := fun a => decide (toUpper a ≠ 0) = decide (a ≠ 0)) (by decide +kernel) a
    rw [hz]
    split
    · rw [List.map_cons, ih]
    · rfl

/-- C77: a repeat made of a base and fixed offsets, written in any case, means what it says. -/
theorem c77_offsets {cal : Calendar} {b : Base} {o : Off} {os : List Off} (h : ∀ x ∈ o :: os, x.Ok) {s : Bytes}
    (hs : sToUpper s = composeList (baseText b :: (o :: os).map Off.text) (str ", ")) :
    parseRepeat cal s = .parts b ((o :: os).map fun o => Mod.offset o.value) := by
  have hl : (parseList (sToUpper s) 44).1 = baseText b :: (o :: os).map Off.text := by
    rw [hs]
    refine Bedrock.Text.Props.c29_round_trip _ 44 1 (by decide) ?_
    intro x hx
    rcases List.mem_cons.mp hx with rfl | hx
    · cases b <;> decide
    · obtain ⟨y, hy, rfl⟩ := List.mem_map.mp hx
      have hc := off_chars y (h y hy)
      exact ⟨(off_head y).1, (off_head y).2, fun h => (hc 44 h).2.1 rfl, fun h => (hc 0 h).1 rfl⟩
  have hcan : ∀ w : Bytes, 0 ∉ w → 44 ∉ sToLower w → sIEquals s w = false := by
    intro w h0 hw
    cases he : sIEquals s w with
    | false => rfl
    | true =>
      exfalso
      unfold sIEquals at he
      have he : sToLower (cstr s) = sToLower (cstr w) := by simpa using he
      rw [cstr_eq h0] at he
      have hup : 44 ∈ cstr s := by
        have h2 : (parseList (sToUpper s) 44).1 ≠ [] ∧ ∀ e, (parseList (sToUpper s) 44).1 ≠ [e] := by
          rw [hl]; exact ⟨by simp, by simp⟩
        have h44 : 44 ∈ cstr (sToUpper s) := by
          have hnz : 0 ∉ sToUpper s := by
            rw [hs]
            intro hz
            have hcl := composeList_cons (baseText b) ((o :: os).map Off.text) (str ", ")
            rw [hcl] at hz
            rcases List.mem_append.mp hz with hz | hz
            · cases b <;> revert hz <;> decide
            · obtain ⟨e, he, hz⟩ := List.mem_flatMap.mp hz
              obtain ⟨y, hy, rfl⟩ := List.mem_map.mp he
              rcases List.mem_append.mp hz with hz | hz
              · revert hz; decide
              · exact (off_chars y (h y hy) 0 hz).1 rfl
          rw [cstr_eq hnz, hs]
          have hcl := composeList_cons (baseText b) ((o :: os).map Off.text) (str ", ")
          rw [hcl]
          refine List.mem_append_right _ ?_
          rw [List.map_cons, List.flatMap_cons]
          exact List.mem_append_left _ (List.mem_append_left _ (by decide))
        have hcs := cstr_upper s
        rw [hcs] at h44
        obtain ⟨x, hx, hx44⟩ := List.mem_map.mp h44
        have := forall_u8 (P := fun a => toUpper a = 44 → a = 44) (by decide +kernel) x hx44
        rwa [this] at hx
      apply hw
      rw [← he]
      exact List.mem_map.mpr ⟨44, hup, by decide⟩
  unfold parseRepeat
  rw [hcan _ (by decide) (by decide), hcan _ (by decide) (by decide), hcan _ (by decide) (by decide)]
  simp only [Bool.false_eq_true, if_false, hl, List.map_cons]
  have hb : baseOf (baseText b) = some b := by cases b <;> decide
  rw [hb]
  dsimp only
  rw [off_part o (h o List.mem_cons_self)]
  congr 2
  rw [List.map_map]
  apply List.map_congr_left
  intro x hx
  exact off_part x (h x (List.mem_cons_of_mem _ hx)) cal

/-- A minute and a half. -/
def ninety : List Off := [{ n := 1, unit := (str "MINUTE", 60, 999), plural := false }, { n := 30, unit := (str "SECOND", 1, 99999999) }]

theorem ninety_ok : ∀ x ∈ ninety, x.Ok := by
  intro x hx
  simp only [ninety, List.mem_cons, List.not_mem_nil, or_false] at hx
  rcases hx with rfl | rfl
  · exact ⟨by decide, by decide⟩
  · exact ⟨by decide, by decide⟩

example (cal : Calendar) : parseRepeat cal (str "scheduled, +1 minute, +30 Seconds") =
    .parts .scheduled [.offset 60, .offset 30] :=
  c77_offsets (b := .scheduled) (o := ninety[0]) (os := [ninety[1]]) ninety_ok (by decide +kernel)

/-- C77, C48: a job with a scheduled repeat of fixed offsets that add up to `t > 0` seconds, as written in the request,
runs on that grid for ever, and in the future if `t` is less than four hours. -/
theorem c77_text_on_grid {cal : Calendar} {o : Off} {os : List Off} (h : ∀ x ∈ o :: os, x.Ok) {s : Bytes}
    (hs : sToUpper s = composeList (str "SCHEDULED" :: (o :: os).map Off.text) (str ", "))
    (hpos : 0 < ((o :: os).map Off.value).sum) (last : Int) (lastRun : Option Int) (now : Int) :
    ∃ t, constructNext (parseRepeat cal s) (some last) lastRun now = .time t ∧
      (∃ k : Nat, 1 ≤ k ∧ t = last + k * ((o :: os).map Off.value).sum) ∧
      (((o :: os).map Off.value).sum < 14400 → now < t) := by
  have := c77_offsets (cal := cal) (b := .scheduled) h hs
  rw [this, show ((o :: os).map fun o => Mod.offset o.value) = ((o :: os).map Off.value).map Mod.offset by
    rw [List.map_map]; rfl]
  exact c48_fixed_grid (o := o.value) (offs := os.map Off.value) hpos last lastRun now

/-! ## Whose schedule is kept -/

theorem known_no_L {s : Bytes} (h : Known s) : 76 ∉ s := by
  have hdig : ∀ d : Bytes, (∀ c ∈ d, Digit c) → 76 ∉ d := fun d hd hc => by
    have := (hd 76 hc).2
    exact absurd this (by decide)
  have hsign : ∀ c : UInt8, c = 43 ∨ c = 45 → (76 : UInt8) ∉ [c] := by
    rintro c (rfl | rfl) <;> decide
  cases h with
  | seconds sign d s hs hd h1 h2 hsuf =>
    simp only [List.mem_append, not_or]
    refine ⟨⟨⟨hsign sign hs, hdig d hd⟩, by decide⟩, ?_⟩
    rcases hsuf with rfl | rfl <;> decide
  | unit sign d u s hs hd h1 h2 hu hsuf =>
    simp only [List.mem_append, not_or]
    refine ⟨⟨⟨⟨hsign sign hs, hdig d hd⟩, by decide⟩, ?_⟩, ?_⟩
    · simp only [List.mem_cons, List.not_mem_nil, or_false] at hu
      rcases hu with rfl | rfl | rfl | rfl | rfl <;> decide
    · rcases hsuf with rfl | rfl <;> decide
  | start u hu =>
    simp only [List.mem_cons, List.not_mem_nil, or_false] at hu
    rcases hu with rfl | rfl | rfl <;> decide
  | weekday c h1 h2 =>
    revert h1 h2
    exact forall_u8 (P := fun c => 48 ≤ c → c ≤ 54 → 76 ∉ str "WEEKDAY " ++ [c]) (by decide +kernel) c

theorem findSub_of_infix {needle hay : Bytes} (h : needle <:+: hay) : sContains hay needle = true := by
  obtain ⟨a, b, rfl⟩ := h
  unfold sContains
  induction a with
  | nil =>
    cases needle with
    | nil => simp [findSub]; cases b <;> simp [findSub]
    | cons x n =>
      simp only [List.nil_append, List.cons_append]
      unfold findSub
      rw [if_pos (by
        rw [← List.cons_append]
        exact List.isPrefixOf_iff_prefix.mpr (List.prefix_append _ _))]
      rfl
  | cons x a ih =>
    simp only [List.cons_append]
    unfold findSub
    split
    · rfl
    · rw [Option.isSome_map]
      exact ih

/-- C77: for every repeat the server accepts, the test it uses to decide whether the original schedule must be kept (does
the text contain `SCHEDULED`?) agrees with the base of the repeat. -/
theorem c77_scheduled_flag {cal : Calendar} {s : Bytes} {now : Int} (h0 : 0 ∉ s) (h : validRepeat cal now s = true) :
    saysScheduled s = true ↔ ∃ ms, parseRepeat cal s = .parts .scheduled ms := by
  have hd := (c77_accepted_iff cal now s).mp h
  have hu0 : 0 ∉ sToUpper s := by
    intro hz
    obtain ⟨x, hx, hx0⟩ := List.mem_map.mp hz
    have := forall_u8 (P := fun a => toUpper a = 0 → a = 0) (by decide +kernel) x hx0
    rw [this] at hx
    exact h0 hx
  by_cases hcan : Canned s
  · have hno : ∀ w : Bytes, 0 ∉ w → 99 ∉ sToLower w → sIEquals s w = true → saysScheduled s = false := by
      intro w hw0 hw he
      unfold sIEquals at he
      have he : sToLower (cstr s) = sToLower (cstr w) := by simpa using he
      rw [cstr_eq h0, cstr_eq hw0] at he
      cases hs : saysScheduled s with
      | false => rfl
      | true =>
        exfalso
        unfold saysScheduled sContains at hs
        obtain ⟨i, hi⟩ := Option.isSome_iff_exists.mp hs
        obtain ⟨_, h2, _⟩ := findSub_some hi
        have h67 : (67 : UInt8) ∈ sToUpper s := by
          have : (67 : UInt8) ∈ ((sToUpper s).drop i).take (str "SCHEDULED").length := by rw [h2]; decide
          exact List.mem_of_mem_drop (List.mem_of_mem_take this)
        obtain ⟨x, hx, hx67⟩ := List.mem_map.mp h67
        apply hw
        rw [← he]
        refine List.mem_map.mpr ⟨x, hx, ?_⟩
        exact forall_u8 (P := fun a => toUpper a = 67 → toLower a = 99) (by decide +kernel) x hx67
    have hf : saysScheduled s = false := by
      rcases hcan with h | h | h
      · exact hno _ (by decide) (by decide) h
      · exact hno _ (by decide) (by decide) h
      · exact hno _ (by decide) (by decide) h
    rw [hf]
    simp only [Bool.false_eq_true, false_iff]
    rintro ⟨ms, hm⟩
    unfold parseRepeat at hm
    rcases hcan with h | h | h
    · rw [if_pos h] at hm; simp at hm
    · rw [h] at hm; simp only [if_true] at hm; split at hm <;> simp at hm
    · rw [h] at hm; simp only [if_true] at hm
      split at hm
      · simp at hm
      · split at hm <;> simp at hm
  · rcases hd with hd | ⟨base, p, ps, hl, hb, hk⟩
    · exact absurd hd hcan
    have hparse : ∃ b, baseOf base = some b ∧ parseRepeat cal s = .parts b ((p :: ps).map (partMod cal)) := by
      obtain ⟨b, hb⟩ := Option.isSome_iff_exists.mp (baseOf_some.mpr hb)
      refine ⟨b, hb, ?_⟩
      unfold parseRepeat
      rw [if_neg fun h => hcan (Or.inl h), if_neg fun h => hcan (Or.inr (Or.inl h)),
        if_neg fun h => hcan (Or.inr (Or.inr h)), hl]
      dsimp only
      rw [hb]
    obtain ⟨b, hb', hp⟩ := hparse
    have hbs : b = .scheduled ↔ base = str "SCHEDULED" := by
      simp only [List.mem_cons, List.not_mem_nil, or_false] at hb
      rcases hb with rfl | rfl | rfl
      · rw [show baseOf (str "SCHEDULED") = some .scheduled by decide] at hb'
        injection hb' with hb'; simp [← hb']
      · rw [show baseOf (str "STARTED") = some .started by decide] at hb'
        injection hb' with hb'; subst hb'; decide
      · rw [show baseOf (str "FINISHED") = some .finished by decide] at hb'
        injection hb' with hb'; subst hb'; decide
    have hrhs : (∃ ms, parseRepeat cal s = .parts .scheduled ms) ↔ base = str "SCHEDULED" := by
      rw [hp, ← hbs]
      constructor
      · rintro ⟨ms, hm⟩; injection hm
      · rintro rfl; exact ⟨_, rfl⟩
    rw [hrhs]
    constructor
    · intro hs
      unfold saysScheduled sContains at hs
      obtain ⟨i, hi⟩ := Option.isSome_iff_exists.mp hs
      obtain ⟨_, h2, _⟩ := findSub_some hi
      have h76 : (76 : UInt8) ∈ sToUpper s := by
        have : (76 : UInt8) ∈ ((sToUpper s).drop i).take (str "SCHEDULED").length := by rw [h2]; decide
        exact List.mem_of_mem_drop (List.mem_of_mem_take this)
      have htext := ListParse.foldl_text 44 (cstr (sToUpper s)) {}
      have hin : ∃ e ∈ (parseList (sToUpper s) 44).1, (76 : UInt8) ∈ e := by
        have hm : (76 : UInt8) ∈ ((cstr (sToUpper s)).foldl (ListParse.step 44) {}).text := by
          rw [htext]
          refine List.mem_append_right _ (List.mem_filter.mpr ⟨?_, by decide⟩)
          rw [cstr_eq hu0]; exact h76
        unfold ListParse.text at hm
        have hm := (List.mem_filter.mp hm).1
        unfold parseList
        dsimp only
        rcases List.mem_append.mp hm with hm | hm
        · obtain ⟨e, he, hc⟩ := List.mem_flatten.mp hm
          refine ⟨e, ?_, hc⟩
          split
          · exact he
          · exact List.mem_append_left _ he
        · refine ⟨_, ?_, hm⟩
          rw [if_neg (by intro h; rw [h] at hm; simp at hm)]
          exact List.mem_append_right _ (List.mem_singleton.mpr rfl)
      obtain ⟨e, he, hc⟩ := hin
      rw [hl] at he
      rcases List.mem_cons.mp he with rfl | he
      · simp only [List.mem_cons, List.not_mem_nil, or_false] at hb
        rcases hb with rfl | rfl | rfl
        · rfl
        · revert hc; decide
        · revert hc; decide
      · exfalso
        rcases hk e he with h | h
        · exact known_no_L h hc
        · rw [h] at hc; revert hc; decide
    · rintro rfl
      have hin : str "SCHEDULED" <:+: cstr (sToUpper s) := part_infix (sep := 44) (by rw [hl]; exact List.mem_cons_self)
      rw [cstr_eq hu0] at hin
      exact findSub_of_infix hin

example : saysScheduled (str "Scheduled, +1 day") = true ∧ saysScheduled (str "finished, +1 day") = false := by
  decide +kernel

/-! ## retryAfter -/

/-- C77: a `retryAfter` that is one documented modifier, in any case, is accepted, and SQLite can compute with it. -/
theorem c77_retry_accepted (cal : Calendar) {s : Bytes} (h : Known (sToUpper s)) :
    validModifier s = true ∧ (sqliteMod cal s).valid = true := by
  have hne : sToUpper s ≠ [] ∧ (sToUpper s).head? ≠ some 32 ∧ 44 ∉ sToUpper s ∧ 0 ∉ sToUpper s := by
    generalize sToUpper s = u at h
    have hdig : ∀ d : Bytes, (∀ c ∈ d, Digit c) → 44 ∉ d ∧ 0 ∉ d := fun d hd =>
      ⟨fun hc => absurd (hd 44 hc).1 (by decide), fun hc => absurd (hd 0 hc).1 (by decide)⟩
    have hsign : ∀ c : UInt8, c = 43 ∨ c = 45 → ((44 : UInt8) ∉ [c] ∧ (0 : UInt8) ∉ [c] ∧ c ≠ 32) := by
      rintro c (rfl | rfl) <;> decide
    cases h with
    | seconds sign d s hs hd h1 h2 hsuf =>
      refine ⟨by simp, by simpa using (hsign sign hs).2.2, ?_, ?_⟩
      · simp only [List.mem_append, not_or]
        refine ⟨⟨⟨(hsign sign hs).1, (hdig d hd).1⟩, by decide⟩, ?_⟩
        rcases hsuf with rfl | rfl <;> decide
      · simp only [List.mem_append, not_or]
        refine ⟨⟨⟨(hsign sign hs).2.1, (hdig d hd).2⟩, by decide⟩, ?_⟩
        rcases hsuf with rfl | rfl <;> decide
    | unit sign d u s hs hd h1 h2 hu hsuf =>
      simp only [List.mem_cons, List.not_mem_nil, or_false] at hu
      refine ⟨by simp, by simpa using (hsign sign hs).2.2, ?_, ?_⟩
      · simp only [List.mem_append, not_or]
        refine ⟨⟨⟨⟨(hsign sign hs).1, (hdig d hd).1⟩, by decide⟩, ?_⟩, ?_⟩
        · rcases hu with rfl | rfl | rfl | rfl | rfl <;> decide
        · rcases hsuf with rfl | rfl <;> decide
      · simp only [List.mem_append, not_or]
        refine ⟨⟨⟨⟨(hsign sign hs).2.1, (hdig d hd).2⟩, by decide⟩, ?_⟩, ?_⟩
        · rcases hu with rfl | rfl | rfl | rfl | rfl <;> decide
        · rcases hsuf with rfl | rfl <;> decide
    | start u hu =>
      simp only [List.mem_cons, List.not_mem_nil, or_false] at hu
      rcases hu with rfl | rfl | rfl <;> decide
    | weekday c h1 h2 =>
      revert h1 h2
      exact forall_u8 (P := fun c => 48 ≤ c → c ≤ 54 → str "WEEKDAY " ++ [c] ≠ [] ∧
        (str "WEEKDAY " ++ [c]).head? ≠ some 32 ∧ 44 ∉ str "WEEKDAY " ++ [c] ∧ 0 ∉ str "WEEKDAY " ++ [c]) (by decide +kernel) c
  have hl : (parseList (sToUpper s) 44).1 = [sToUpper s] := by
    have := Bedrock.Text.Props.c29_round_trip [sToUpper s] 44 0 (by decide) (by
      intro x hx
      rw [List.mem_singleton.mp hx]
      exact hne)
    simpa [composeList] using this
  obtain ⟨f, hf⟩ := Option.isSome_iff_exists.mp (oneMod_iff.mpr h)
  constructor
  · unfold validModifier
    rw [hl]
    simp [hf]
  · unfold sqliteMod
    rw [hf]
    exact oneMod_valid hf cal

/-- C77 fails for `retryAfter`: a list of modifiers, which is right for `repeat`, or just a comma is accepted too, but
SQLite cannot compute with it, and the first GetJob hands the job out and marks it failed. -/
theorem c77_retry_list (cal : Calendar) :
    (∀ s ∈ [str "+5 SECONDS, +1 MINUTE", str ",", str " +5 SECONDS"],
      validModifier s = true ∧ sqliteMod cal s = .bad) ∧
    ∀ (retries : Nat → Bytes), retries 3 = str "+5 SECONDS, +1 MINUTE" →
      ∃ db l, get (envOf (fun _ => .malformed) fun m => sqliteMod cal (retries m)) 100000 (fun _ => true)
        (fun _ => false) false none 1 [{ id := 7, state := .queued, retryAfter := some 3 }] = .ok (db, l) ∧
        db.map (·.state) = [.failed] ∧ l.map (·.id) = [7] := by
  have hb : ∀ s ∈ [str "+5 SECONDS, +1 MINUTE", str ",", str " +5 SECONDS"],
      validModifier s = true ∧ oneMod (sToUpper s) = none := by
    intro s hs
    simp only [List.mem_cons, List.not_mem_nil, or_false] at hs
    rcases hs with rfl | rfl | rfl
    · exact ⟨by decide +kernel, Option.isNone_iff_eq_none.mp (by decide +kernel)⟩
    · exact ⟨by decide +kernel, Option.isNone_iff_eq_none.mp (by decide +kernel)⟩
    · exact ⟨by decide +kernel, Option.isNone_iff_eq_none.mp (by decide +kernel)⟩
  have hbad : ∀ s ∈ [str "+5 SECONDS, +1 MINUTE", str ",", str " +5 SECONDS"], sqliteMod cal s = .bad := by
    intro s hs
    unfold sqliteMod
    rw [(hb s hs).2]
  refine ⟨fun s hs => ⟨(hb s hs).1, hbad s hs⟩, ?_⟩
  intro retries hr
  have h3 := hbad (retries 3) (by rw [hr]; exact List.mem_cons_self)
  refine ⟨[{ id := 7, state := .failed, retryAfter := some 3 }], [{ id := 7, state := .queued, retryAfter := some 3 }],
    ?_, rfl, rfl⟩
  have hs : select 100000 (fun _ => true) false none 1 [{ id := 7, state := .queued, retryAfter := some 3 }] =
      [{ id := 7, state := .queued, retryAfter := some 3 }] := by decide +kernel
  unfold get
  simp only [Option.all_none, Bool.true_eq_false, if_false]
  rw [show (max (1 : Int) 1).toNat = 1 from rfl, hs]
  simp [taken, count, retryTime, envOf, h3, Mod.apply]

end Bedrock.Jobs.Props
