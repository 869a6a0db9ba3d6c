import Verif.Model.DictLoad
import Verif.Props.Compression
import Verif.Lemmas.Http

/-! # C144: dictionaries after a start -/

namespace Bedrock.DictLoad.Props
open Bedrock Text Compression Compression.Props

variable {Dict : Type}

theorem cstr_plain (s : Bytes) (h : ∀ c ∈ s, c ≠ 0) : cstr s = s := by
  induction s with
  | nil => rfl
  | cons c s ih =>
    unfold cstr at ih ⊢
    rw [List.takeWhile_cons_of_pos (by simpa using h c (by simp)), ih (fun d hd => h d (by simp [hd]))]

/-- **C144** A row is found by its ID. -/
theorem c144_key (id : Nat) (h : id < 2 ^ 63) : rowKey id = id := by
  unfold rowKey Https.toUInt64 intDec
  rw [if_neg (by omega)]
  have hc : cstr (natDec (id : Int).natAbs) = natDec id := by
    rw [Int.natAbs_natCast]
    apply cstr_plain
    intro c hc
    obtain ⟨d, hd, rfl⟩ := _root_.Bedrock.Text.natDec_digits id c hc
    intro h0
    have := congrArg UInt8.toNat h0
    simp only [UInt8.toNat_ofNat'] at this
    have h1 : (48 + d) % 2 ^ 8 = 48 + d := Nat.mod_eq_of_lt (by omega)
    rw [h1] at this
    change 48 + d = 0 at this
    omega
  rw [hc, _root_.Bedrock.Text.scanDec_natDec]
  dsimp only
  rw [if_neg (by rw [Int.natAbs_natCast]; omega)]
  show (UInt64.ofInt (id : Int)).toNat = id
  unfold UInt64.ofInt
  rw [UInt64.toNat_ofNat']
  omega

/-- A row that can be loaded. -/
def Good (compile : Bytes → Option Dict) (r : Row) : Prop := r.2 ≠ [] ∧ (compile r.2).isSome

/-- **C144** Loading ends without an exception exactly if every row has a dictionary that is not empty and can be compiled. -/
theorem c144_all_good (compile : Bytes → Option Dict) (dicts : Dicts Dict) (rows : List Row) :
    (loadRows compile dicts rows).2 = none ↔ ∀ r ∈ rows, Good compile r := by
  induction rows generalizing dicts with
  | nil => simp [loadRows]
  | cons r rows ih =>
    obtain ⟨id, data⟩ := r
    unfold loadRows
    by_cases h : data = []
    · rw [if_pos h]
      constructor
      · intro h; cases h
      · intro hg; exact absurd h (hg (id, data) (by simp)).1
    · rw [if_neg h]
      cases hc : compile data with
      | none =>
        constructor
        · intro h; cases h
        · intro hg
          have := (hg (id, data) (by simp)).2
          rw [hc] at this; cases this
      | some d =>
        dsimp only
        rw [ih]
        constructor
        · intro hr r hm
          rcases List.mem_cons.mp hm with rfl | hm
          · exact ⟨h, by rw [hc]; rfl⟩
          · exact hr r hm
        · intro hg r hm
          exact hg r (by simp [hm])

theorem loadRows_other (compile : Bytes → Option Dict) (dicts : Dicts Dict) (rows : List Row) (k : Nat)
    (hk : ∀ r ∈ rows, rowKey r.1 ≠ k) : (loadRows compile dicts rows).1 k = dicts k := by
  induction rows generalizing dicts with
  | nil => rfl
  | cons r rows ih =>
    obtain ⟨id, data⟩ := r
    unfold loadRows
    split
    · rfl
    · split
      · rfl
      · rw [ih _ (fun r hm => hk r (by simp [hm])), if_neg (fun h => hk (id, data) (by simp) h.symm)]

/-- **C144** After a load without an exception each row is there, found by its key, if no two have the same; what has no row is as it was
before. -/
theorem c144_loaded (compile : Bytes → Option Dict) (dicts : Dicts Dict) (rows : List Row)
    (hn : (rows.map (fun r => rowKey r.1)).Nodup) (h : (loadRows compile dicts rows).2 = none) :
    (∀ r ∈ rows, (loadRows compile dicts rows).1 (rowKey r.1) = compile r.2) ∧
    ∀ k, (∀ r ∈ rows, rowKey r.1 ≠ k) → (loadRows compile dicts rows).1 k = dicts k := by
  refine ⟨?_, fun k hk => loadRows_other compile dicts rows k hk⟩
  induction rows generalizing dicts with
  | nil => intro r hr; cases hr
  | cons r rows ih =>
    obtain ⟨id, data⟩ := r
    have hg := (c144_all_good compile dicts _).mp h (id, data) (by simp)
    obtain ⟨d, hd⟩ := Option.isSome_iff_exists.mp hg.2
    rw [List.map_cons, List.nodup_cons] at hn
    have hu : loadRows compile dicts ((id, data) :: rows) =
        loadRows compile (fun k => if k = rowKey id then some d else dicts k) rows := by
      conv => lhs; unfold loadRows
      rw [if_neg hg.1, hd]
    rw [hu] at h ⊢
    intro r hm
    rcases List.mem_cons.mp hm with rfl | hm
    · rw [loadRows_other _ _ _ _ (fun r hr hk => hn.1 (List.mem_map.mpr ⟨r, hr, hk⟩)), if_pos rfl, hd]
    · exact ih _ hn.2 h r hm

/-- **C144** A start ends the process exactly if the table can be read and a row of it is empty or cannot be compiled. -/
theorem c144_start (compile : Bytes → Option Dict) (rows : Option (List Row)) :
    (start compile rows).isNone ↔ ∃ l, rows = some l ∧ ∃ r ∈ l, ¬ Good compile r := by
  unfold start load
  cases rows with
  | none => simp
  | some l =>
    have h := c144_all_good compile (fun _ => none) l
    constructor
    · intro hn
      refine ⟨l, rfl, ?_⟩
      apply Classical.byContradiction
      intro hno
      have hall : ∀ r ∈ l, Good compile r := fun r hr => Classical.byContradiction (fun hg => hno ⟨r, hr, hg⟩)
      have h2 := h.mpr hall
      cases hl : loadRows compile (fun _ => none) l with
      | mk d e =>
        rw [hl] at h2
        dsimp only at h2
        subst h2
        dsimp only at hn
        rw [hl] at hn
        cases hn
    · intro ⟨l', hl', r, hr, hg⟩
      cases hl'
      dsimp only
      cases hl : loadRows compile (fun _ => none) l with
      | mk d e =>
        cases e with
        | none =>
          rw [hl] at h
          exact absurd (h.mp rfl r hr) hg
        | some x => rfl

/-- **C144** After a start that does not end the process each ID finds the dictionary of its row and no other ID finds any. -/
theorem c144_started (compile : Bytes → Option Dict) (l : List Row) (hn : (l.map (fun r => rowKey r.1)).Nodup) (d : Dicts Dict)
    (h : start compile (some l) = some d) (k : Nat) (x : Dict) :
    d k = some x ↔ ∃ r ∈ l, rowKey r.1 = k ∧ compile r.2 = some x := by
  unfold start load at h
  dsimp only at h
  split at h
  · rename_i d' hl
    cases h
    have hload := c144_loaded compile (fun _ => none) l hn (by rw [hl])
    rw [hl] at hload
    dsimp only at hload
    constructor
    · intro hk
      by_cases hex : ∃ r ∈ l, rowKey r.1 = k
      · obtain ⟨r, hr, hrk⟩ := hex
        refine ⟨r, hr, hrk, ?_⟩
        rw [← hload.1 r hr, hrk, hk]
      · have := hload.2 k (fun r hr hrk => hex ⟨r, hr, hrk⟩)
        rw [hk] at this; cases this
    · intro ⟨r, hr, hrk, hx⟩
      rw [← hrk, hload.1 r hr, hx]
  · cases h

/-- **C144** What was compressed before a restart is read back after it, if the rows there were are still there, whatever rows were
added. -/
theorem c144_restart (z : Zstd Dict) (hz : z.Sound) (compile : Bytes → Option Dict) (l l' : List Row)
    (hn : (l.map (fun r => rowKey r.1)).Nodup) (hn' : (l'.map (fun r => rowKey r.1)).Nodup) (hsub : ∀ r ∈ l, r ∈ l')
    (d d' : Dicts Dict) (h : start compile (some l) = some d) (h' : start compile (some l') = some d') (hl : Labelled z d)
    (s : Bytes) (id : Nat) (h0 : id ≠ 0) (hs : s ≠ []) (y : Bytes) (hy : compress z d s id = .ok y) : decompress z d' y = s := by
  unfold compress at hy
  rw [if_neg (fun h => h.elim h0 hs)] at hy
  cases hd : d id with
  | none => rw [hd] at hy; cases hy
  | some x =>
    rw [hd] at hy
    dsimp only at hy
    cases hc : z.comp x s with
    | none => rw [hc] at hy; cases hy
    | some w =>
      rw [hc] at hy
      cases hy
      obtain ⟨r, hr, hrk, hx⟩ := (c144_started compile l hn d h id x).mp hd
      have hd' : d' id = some x := (c144_started compile l' hn' d' h' id x).mpr ⟨r, hsub r hr, hrk, hx⟩
      have hf := hz.frame x s y hc
      have hown : z.frameId y = id := by rw [hf.2.1]; exact (hl id x hd)
      unfold decompress
      rw [if_neg hf.2.2.2, if_neg (by rw [hf.1]; decide), hown, hd', if_neg (by simp), hf.2.2.1]
      dsimp only
      rw [if_pos h0, hz.back x s y hc]

/-- **C144** (as the code is) A row with an empty dictionary is not skipped, as the message says: the rows after it are not loaded and the
process ends. -/
theorem c144_empty_partial (compile : Bytes → Option Dict) (dicts : Dicts Dict) (id : Int) (rest : List Row) :
    loadRows compile dicts ((id, []) :: rest) = (dicts, some "Empty dictionary data") ∧
    start compile (some ((id, []) :: rest)) = none := by
  have h : ∀ dicts : Dicts Dict, loadRows compile dicts ((id, []) :: rest) = (dicts, some "Empty dictionary data") := by
    intro dicts; unfold loadRows; rw [if_pos rfl]
  refine ⟨h dicts, ?_⟩
  unfold start load
  dsimp only
  rw [h]

/-- **C144** (as the code is) If the table cannot be read, the node starts without dictionaries, and what was compressed is returned as
it is stored. -/
theorem c144_unreadable_partial (z : Zstd Dict) (compile : Bytes → Option Dict) (y : Bytes) (h0 : z.frameId y ≠ 0) :
    ∃ d, start compile none = some d ∧ decompress z d y = y :=
  ⟨fun _ => none, rfl, c60_cpp_unknown_returned z _ y h0 rfl⟩

/-- Two rows; a dictionary is compiled unless it begins with 0. -/
def compileToy (b : Bytes) : Option Nat := if b.head? = some 0 then none else some b.length

example : (start compileToy (some [(1, [5, 6]), (7, [8])])).map (fun d => (d 1, d 7, d 2)) = some (some 2, some 1, none) := by
  decide +kernel
example : (start compileToy (some [(1, [5, 6]), (7, [0])])).isNone = true ∧ (start compileToy (some [(1, [])])).isNone = true := by
  decide +kernel
example : (([(1, [5, 6]), (7, [8])] : List Row).map (fun r => rowKey r.1)).Nodup := by decide +kernel
/-- The dictionaries of the codec that the examples of C60 use. -/
def compilePair : Bytes → Option (UInt8 × UInt8)
  | [a, b] => some (a, b)
  | _ => none

example : ((start compilePair (some [(7, [7, 3])])).map (fun d => compress toy d [1, 2] 7)) = some (.ok [40, 122, 7, 4, 5]) ∧
    ((start compilePair (some [(2, [2, 1]), (7, [7, 3])])).map (fun d => decompress toy d [40, 122, 7, 4, 5])) = some [1, 2] := by
  decide +kernel
example (d : Dicts (UInt8 × UInt8)) (h : start compilePair (some [(7, [7, 3])]) = some d) : Labelled toy d := by
  intro i x hx
  obtain ⟨r, hr, hk, hc⟩ := (c144_started compilePair _ (by decide +kernel) d h i x).mp hx
  rw [List.mem_singleton] at hr
  subst hr
  cases hc
  rw [← hk]
  decide +kernel
/-- A negative ID is found by its value as an unsigned number. -/
example : rowKey (-5) = 2 ^ 64 - 5 := by decide +kernel

end Bedrock.DictLoad.Props
