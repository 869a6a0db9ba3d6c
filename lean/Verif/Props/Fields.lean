import Verif.Model.Fields
import Verif.Lemmas.Origin
import Verif.Props.Param

/-! # C145: the fields of a message -/

namespace Bedrock.Fields.Props
open Bedrock Text Http

/-- What a message is: for each name, without regard to case, a value or none. -/
abbrev Spec := Bytes → Option Bytes

/-- The first entry of a list under a name. -/
def first (k : Bytes) : Table → Option Bytes
  | [] => none
  | e :: t => if sToLower e.1 = k then some e.2 else first k t

/-- What the operations mean. -/
def spec (f : Spec) : Op → Spec
  | .touch n => fun k => if k = sToLower n then some ((f k).getD []) else f k
  | .put n v => fun k => if k = sToLower n then some v else f k
  | .setInt n i => fun k => if k = sToLower n then some (intDec i) else f k
  | .setBool n b => fun k => if k = sToLower n then some (if b then str "true" else str "false") else f k
  | .assignInt n i => fun k => if k = sToLower n then some [UInt8.ofInt i] else f k
  | .erase n => fun k => if k = sToLower n then none else f k
  | .clear => fun _ => none
  | .merge t => fun k => (f k).or (first k t)
  | .emplace n v => fun k => if k = sToLower n then (f k).or (some v) else f k

theorem keep_sorted {t : Table} (e : Bytes × Bytes) (h : t.Sorted) : (keep t e).Sorted := by
  unfold keep; split
  · exact h
  · exact Table.set_sorted _ _ h

theorem find_keep {t : Table} (e : Bytes × Bytes) (h : t.Sorted) (n : Bytes) :
    (keep t e).find n = if sToLower n = sToLower e.1 then (t.find n).or (some e.2) else t.find n := by
  unfold keep
  by_cases hn : sToLower n = sToLower e.1
  · rw [if_pos hn, ← Origin.find_congr t hn]
    cases hf : t.find n with
    | some v => rw [if_pos (by rfl), hf]; rfl
    | none =>
      rw [if_neg (by simp), Table.find_set _ _ _ _ h, if_pos hn]; rfl
  · rw [if_neg hn]
    split
    · rfl
    · rw [Table.find_set _ _ _ _ h, if_neg hn]

theorem fold_keep (u : Table) {t : Table} (h : t.Sorted) : (u.foldl keep t).Sorted ∧
    ∀ n, (u.foldl keep t).find n = (t.find n).or (first (sToLower n) u) := by
  induction u generalizing t with
  | nil => exact ⟨h, fun n => by simp [first]⟩
  | cons e u ih =>
    obtain ⟨h1, h2⟩ := ih (keep_sorted e h)
    refine ⟨h1, fun n => ?_⟩
    rw [List.foldl_cons, h2, find_keep e h, show first (sToLower n) (e :: u) = if sToLower e.1 = sToLower n then some e.2 else first (sToLower n) u from rfl]
    by_cases hn : sToLower n = sToLower e.1
    · rw [if_pos hn, if_pos hn.symm]
      cases t.find n <;> rfl
    · rw [if_neg hn, if_neg (fun hh => hn hh.symm)]

theorem erase_sorted {t : Table} (n : Bytes) (h : t.Sorted) : (t.erase n).Sorted :=
  List.Pairwise.sublist (Origin.erase_sub t n) h

theorem step_sorted (m : Msg) (h : m.table.Sorted) (op : Op) : (step m op).table.Sorted := by
  cases op with
  | touch n => exact keep_sorted _ h
  | put n v => exact Table.set_sorted _ _ h
  | setInt n i => exact Table.set_sorted _ _ h
  | setBool n b => exact Table.set_sorted _ _ h
  | assignInt n i => exact Table.set_sorted _ _ h
  | erase n => exact erase_sorted n h
  | clear => exact List.Pairwise.nil
  | merge t => exact (fold_keep t h).1
  | emplace n v => exact keep_sorted _ h

theorem step_find (m : Msg) (h : m.table.Sorted) (op : Op) (f : Spec) (hf : ∀ n, m.table.find n = f (sToLower n)) (n : Bytes) :
    (step m op).table.find n = spec f op (sToLower n) := by
  cases op with
  | touch k =>
    show (keep m.table (k, [])).find n = _
    rw [find_keep _ h, hf]
    dsimp only [spec]
    cases f (sToLower n) <;> rfl
  | put k v => show (m.table.set k v).find n = _; rw [Table.find_set _ _ _ _ h, hf]; rfl
  | setInt k v => show (m.table.set k _).find n = _; rw [Table.find_set _ _ _ _ h, hf]; rfl
  | setBool k v => show (m.table.set k _).find n = _; rw [Table.find_set _ _ _ _ h, hf]; rfl
  | assignInt k v => show (m.table.set k _).find n = _; rw [Table.find_set _ _ _ _ h, hf]; rfl
  | erase k =>
    show (m.table.erase k).find n = _
    dsimp only [spec]
    split
    · rename_i hk; exact Origin.find_erase_same k n h hk
    · rename_i hk; rw [Control.Props.find_erase_other _ _ _ hk, hf]
  | clear => rfl
  | merge t => show (t.foldl keep m.table).find n = _; rw [(fold_keep t h).2, hf]; rfl
  | emplace k v => show (keep m.table (k, v)).find n = _; rw [find_keep _ h, hf]; rfl

theorem run_sorted (m : Msg) (h : m.table.Sorted) (ops : List Op) : (run m ops).table.Sorted := by
  induction ops generalizing m with
  | nil => exact h
  | cons op ops ih => exact ih _ (step_sorted m h op)

/-- **C145** Whatever is done to a message, it is a map from names, without regard to case, to values: each operation does what it
means, to the name it is given and to no other. -/
theorem c145_map (ops : List Op) (n : Bytes) : (run {} ops).table.find n = ops.foldl spec (fun _ => none) (sToLower n) := by
  have key : ∀ (ops : List Op) (m : Msg) (f : Spec), m.table.Sorted → (∀ n, m.table.find n = f (sToLower n)) →
      ∀ n, (run m ops).table.find n = ops.foldl spec f (sToLower n) := by
    intro ops
    induction ops with
    | nil => intro m f _ hf; exact hf
    | cons op ops ih =>
      intro m f h hf n
      exact ih _ _ (step_sorted m h op) (fun k => step_find m h op f hf k) n
  exact key ops {} (fun _ => none) List.Pairwise.nil (fun _ => rfl) n

/-- **C145** No name is there twice, in whatever case. -/
theorem c145_names_once (ops : List Op) : (run {} ops).table.Pairwise (fun a b => sToLower a.1 ≠ sToLower b.1) := by
  have h : (run {} ops).table.Sorted := run_sorted {} List.Pairwise.nil ops
  refine List.Pairwise.imp (fun {a b} hab heq => ?_) h
  have := (key_eq_iff a.1 b.1).mpr heq
  rw [hab] at this
  simp at this

/-- The name an operation may change the value of; all for `clear`. -/
def Changes (op : Op) (n : Bytes) : Prop :=
  match op with
  | .put k _ | .setInt k _ | .setBool k _ | .assignInt k _ | .erase k => sToLower k = sToLower n
  | .clear => True
  | .touch _ | .merge _ | .emplace _ _ => False

/-- **C145** The value that was written last is read, under the name in any case, whatever is done to other names, read, or merged
into the message after it. -/
theorem c145_last (a b : List Op) (k v n : Bytes) (hn : sToLower n = sToLower k) (hb : ∀ op ∈ b, ¬ Changes op k) :
    value (run {} (a ++ .put k v :: b)) n = v ∧ isSet (run {} (a ++ .put k v :: b)) n = true := by
  have key : ∀ (b : List Op) (f : Spec), (∀ op ∈ b, ¬ Changes op k) → f (sToLower k) = some v →
      b.foldl spec f (sToLower k) = some v := by
    intro b
    induction b with
    | nil => intro f _ hf; exact hf
    | cons op b ih =>
      intro f hb hf
      refine ih _ (fun o ho => hb o (List.mem_cons_of_mem _ ho)) ?_
      have h := hb op (List.mem_cons_self ..)
      cases op with
      | touch m => dsimp only [spec]; split <;> simp [hf]
      | put m w => exact (if_neg (fun e => h e.symm)).trans hf
      | setInt m w => exact (if_neg (fun e => h e.symm)).trans hf
      | setBool m w => exact (if_neg (fun e => h e.symm)).trans hf
      | assignInt m w => exact (if_neg (fun e => h e.symm)).trans hf
      | erase m => exact (if_neg (fun e => h e.symm)).trans hf
      | clear => exact absurd trivial h
      | merge t => dsimp only [spec]; rw [hf]; rfl
      | emplace m w => dsimp only [spec]; split <;> simp [hf]
  have hf : (run {} (a ++ .put k v :: b)).table.find n = some v := by
    rw [c145_map, hn, List.foldl_append, List.foldl_cons]
    exact key b _ hb (if_pos rfl)
  unfold value isSet
  rw [hf]
  exact ⟨rfl, rfl⟩

/-- **C145** A name that was erased is not there. -/
theorem c145_erased (a : List Op) (k n : Bytes) (hn : sToLower n = sToLower k) :
    value (run {} (a ++ [.erase k])) n = [] ∧ isSet (run {} (a ++ [.erase k])) n = false ∧
    isEmpty (run {} (a ++ [.clear])) = true := by
  have hf : (run {} (a ++ [.erase k])).table.find n = none := by
    rw [c145_map, hn, List.foldl_append, List.foldl_cons]
    exact if_pos rfl
  refine ⟨?_, ?_, ?_⟩
  · unfold value; rw [hf]
  · unfold isSet; rw [hf]; rfl
  · unfold run; rw [List.foldl_append]; rfl

/-- **C145** What is merged into a message is read where the message had nothing, and nowhere else. -/
theorem c145_merge (a : List Op) (u : List Op) (n : Bytes) :
    value (run {} (a ++ [.merge (run {} u).table])) n =
      if isSet (run {} a) n then value (run {} a) n else value (run {} u) n := by
  have hs : (run {} u).table.Sorted := run_sorted {} List.Pairwise.nil u
  have hfirst : ∀ t : Table, first (sToLower n) t = t.find n := by
    intro t
    induction t with
    | nil => rfl
    | cons e t ih =>
      unfold first
      obtain ⟨m, w⟩ := e
      rw [Table.find]
      by_cases hm : sToLower m = sToLower n
      · rw [if_pos hm, if_neg (by rw [(key_eq_iff n m).mpr hm.symm]; simp)]
      · rw [if_neg hm, if_pos, ih]
        cases hx : (keyLt n m || keyLt m n) with
        | true => rfl
        | false => exact absurd ((key_eq_iff n m).mp hx).symm hm
  have hf : (run {} (a ++ [.merge (run {} u).table])).table.find n =
      ((run {} a).table.find n).or ((run {} u).table.find n) := by
    rw [c145_map, List.foldl_append, List.foldl_cons, c145_map a, ← hfirst]
    rfl
  unfold value isSet
  rw [hf]
  cases (run {} a).table.find n <;> simp

/-- **C145** Reading a name changes no value that is read. -/
theorem c145_read (a : List Op) (k n : Bytes) : value (run {} (a ++ [.touch k])) n = value (run {} a) n ∧
    (sToLower n ≠ sToLower k → isSet (run {} (a ++ [.touch k])) n = isSet (run {} a) n) := by
  have hf : (run {} (a ++ [.touch k])).table.find n =
      if sToLower n = sToLower k then some (((run {} a).table.find n).getD []) else (run {} a).table.find n := by
    rw [c145_map, List.foldl_append, List.foldl_cons, c145_map a]
    rfl
  constructor
  · unfold value
    rw [hf]
    by_cases hk : sToLower n = sToLower k
    · rw [if_pos hk]; cases (run {} a).table.find n <;> rfl
    · rw [if_neg hk]
  · intro hn
    unfold isSet
    rw [hf, if_neg hn]

/-- **C145, what does not hold** Reading a name of a message that may be changed puts the name into it: from then on it is set, and it
is sent. -/
theorem c145_read_sets_partial (a : List Op) (k : Bytes) : isSet (run {} (a ++ [.touch k])) k = true := by
  have hf : (run {} (a ++ [.touch k])).table.find k = some (((run {} a).table.find k).getD []) := by
    rw [c145_map, List.foldl_append, List.foldl_cons, c145_map a]
    exact if_pos rfl
  unfold isSet
  rw [hf]; rfl

theorem find_put (m : Msg) (n v : Bytes) : (m.table.set n v).find n = some v := Control.Props.find_set_same _ _ _

/-- **C145** A 64-bit number is read as it was set; a bool too. -/
theorem c145_numbers (m : Msg) (n : Bytes) :
    (∀ i : Int, -2 ^ 63 ≤ i → i < 2 ^ 63 → calc64 (step m (.setInt n i)) n = i) ∧
    (∀ u : UInt64, calcU64 (step m (.setInt n u.toNat)) n = u) ∧
    (∀ b : Bool, test (step m (.setBool n b)) n = b) := by
  refine ⟨fun i h1 h2 => ?_, fun u => ?_, fun b => ?_⟩
  · unfold calc64 step
    rw [find_put]
    exact Param.Props.strtoll_intDec h1 h2
  · unfold calcU64 step
    rw [find_put]
    exact (show Https.toUInt64 (intDec u.toNat) = u by
      unfold intDec
      rw [if_neg (by omega), Int.natAbs_natCast]
      exact Https.Props.toUInt64_natDec u)
  · unfold test calcInt calc64 value step
    rw [find_put]
    cases b <;> decide +kernel

/-- **C145** As an `int`, a number from `-2^31` on is the number, or the greatest `int` if it is greater than that. -/
theorem c145_int (m : Msg) (n : Bytes) (i : Int) (h1 : -2 ^ 31 ≤ i) (h2 : i < 2 ^ 63) :
    calcInt (step m (.setInt n i)) n = min i (2 ^ 31 - 1) ∧ test (step m (.setInt n i)) n = decide (i ≠ 0) := by
  have hc : calcInt (step m (.setInt n i)) n = min i (2 ^ 31 - 1) := by
    unfold calcInt
    rw [(c145_numbers m n).1 i (by omega) h2]
    unfold toInt32
    omega
  refine ⟨hc, ?_⟩
  unfold test
  rw [hc]
  by_cases h0 : i = 0
  · subst h0
    unfold value step
    rw [find_put]
    decide +kernel
  · have : min i (2 ^ 31 - 1) ≠ 0 := by omega
    have hb : (min i (2 ^ 31 - 1) != 0) = true := bne_iff_ne.mpr this
    rw [hb, Bool.or_true, decide_eq_true h0]

/-- **C145, what does not hold** Below `-2^31` the number is cut to 32 bits: `-2^32` is 0, and is not taken for true. -/
theorem c145_below_partial (m : Msg) (n : Bytes) :
    (∀ i : Int, -2 ^ 63 ≤ i → i < -2 ^ 31 → calcInt (step m (.setInt n i)) n ≠ i) ∧
    calcInt (step m (.setInt n (-2 ^ 32))) n = 0 ∧ test (step m (.setInt n (-2 ^ 32))) n = false := by
  have hc : ∀ i : Int, -2 ^ 63 ≤ i → i < 2 ^ 31 → calcInt (step m (.setInt n i)) n = toInt32 i := by
    intro i h1 h2
    unfold calcInt
    rw [(c145_numbers m n).1 i h1 (by omega), Int.min_eq_left (by omega)]
  refine ⟨fun i h1 h2 => ?_, ?_, ?_⟩
  · rw [hc i h1 (by omega)]
    unfold toInt32
    omega
  · rw [hc _ (by decide) (by decide)]; decide
  · unfold test
    rw [hc _ (by decide) (by decide)]
    unfold value step
    rw [find_put]
    decide +kernel

/-- **C145, what does not hold** A number that is assigned, not set, is a single character: none from 0 to 47 is read back. -/
theorem c145_assigned_partial (m : Msg) (n : Bytes) :
    (∀ i : Int, value (step m (.assignInt n i)) n = [UInt8.ofInt i]) ∧
    (∀ i : Nat, i < 48 → calc64 (step m (.assignInt n i)) n = 0) ∧
    calc64 (step m (.assignInt n 53)) n = 5 := by
  refine ⟨fun i => ?_, fun i hi => ?_, ?_⟩
  · unfold value step
    rw [find_put]
  · unfold calc64 step
    rw [find_put]
    revert i
    decide +kernel
  · unfold calc64 step
    rw [find_put]
    decide +kernel

/-- **C145** A name that is written again keeps the case it was first written in. -/
theorem c145_spelling (a : List Op) (k l v w : Bytes) (h : isSet (run {} a) k = false) (hl : sToLower l = sToLower k) :
    (k, w) ∈ (run {} (a ++ [.put k v, .put l w])).table := by
  have h0 : (run {} a).table.find k = none := by
    unfold isSet at h
    cases hf : (run {} a).table.find k with
    | none => rfl
    | some x => rw [hf] at h; cases h
  have : (run {} (a ++ [.put k v, .put l w])).table = (((run {} a).table.set k v).set l w) := by
    unfold run; rw [List.foldl_append]; rfl
  rw [this]
  generalize (run {} a).table = t at h0
  have hkl : keyLt l k = false ∧ keyLt k l = false := by
    have := (key_eq_iff l k).mpr hl
    rw [Bool.or_eq_false_iff] at this
    exact this
  induction t with
  | nil => simp [Table.set, hkl]
  | cons e t ih =>
    obtain ⟨m, x⟩ := e
    rw [Table.find] at h0
    split at h0
    · rename_i hne
      have e1 : keyLt l m = keyLt k m := by unfold keyLt; rw [hl]
      have e2 : keyLt m l = keyLt m k := by unfold keyLt; rw [hl]
      rw [Table.set]
      split
      · simp [Table.set, hkl]
      · rename_i h1
        split
        · rename_i h2
          rw [Table.set, e1, if_neg h1, e2, if_pos h2]
          exact List.mem_cons_of_mem _ (ih h0)
        · rename_i h2
          simp [h1, h2] at hne
    · cases h0

/-- **C145** `true` in any case is taken for true; a message is empty exactly if nothing is in it. -/
theorem c145_true (m : Msg) (n v : Bytes) (hv : sToLower v = str "true") : test (step m (.put n v)) n = true ∧
    (isEmpty m = true ↔ m = {}) := by
  constructor
  · unfold test value step
    rw [find_put]
    have h0 : ∀ c ∈ v, c ≠ 0 := by
      intro c hc h0
      have : Text.toLower c ∈ sToLower v := List.mem_map_of_mem hc
      rw [hv, h0] at this
      revert this
      decide +kernel
    have hc : cstr v = v := cstr_eq (fun h => h0 0 h rfl)
    have : sIEquals v (str "true") = true := by
      unfold sIEquals
      rw [hc, hv]
      decide +kernel
    dsimp only
    rw [this]; rfl
  · obtain ⟨a, t, c⟩ := m
    unfold isEmpty
    simp [List.isEmpty_iff, and_assoc]

example : sToLower (str "TrUe") = str "true" := by decide +kernel

/-- A request that is filled, read and merged. -/
def sample : List Op := [.put (str "Name") (str "a"), .setInt (str "count") (-7), .touch (str "mockRequest"), .put (str "NAME") (str "b"),
  .merge [(str "Count", str "1"), (str "extra", str "2")], .setBool (str "x") true, .erase (str "X"), .emplace (str "name") (str "c")]

example : (run {} sample).table = [(str "count", str "-7"), (str "extra", str "2"), (str "mockRequest", []), (str "Name", str "b")] ∧
    calcInt (run {} sample) (str "COUNT") = -7 ∧ isSet (run {} sample) (str "mockrequest") = true ∧
    value (run {} sample) (str "nAME") = str "b" := by decide +kernel

example : sToLower (str "nAME") = sToLower (str "Name") ∧ isSet (run {} []) (str "Name") = false ∧
    isSet (run {} [.put (str "a") []]) (str "b") = false := by decide +kernel

end Bedrock.Fields.Props
