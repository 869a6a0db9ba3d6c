import Verif.Model.VMTouch

/-! # C141: loading a database into memory -/

namespace Bedrock.VMTouch.Props

/-- **C141** The number of pages is the least that holds the file. -/
theorem c141_pages (ps bytes n : Nat) (h : 0 < ps) : bytes2pages ps bytes ≤ n ↔ bytes ≤ n * ps := by
  unfold bytes2pages
  have h1 := Nat.div_add_mod bytes ps
  have h2 := Nat.mod_lt bytes h
  have h3 : bytes / ps ≤ n → ps * (bytes / ps) ≤ n * ps := fun x => by
    rw [Nat.mul_comm]; exact Nat.mul_le_mul_right _ x
  have h4 : bytes / ps + 1 ≤ n → ps * (bytes / ps) + ps ≤ n * ps := fun x => by
    have := Nat.mul_le_mul_right ps x
    rw [Nat.add_mul, Nat.one_mul, Nat.mul_comm] at this; exact this
  have h5 : n < bytes / ps → n * ps + ps ≤ ps * (bytes / ps) := fun x => by
    have := Nat.mul_le_mul_right ps (Nat.succ_le_of_lt x)
    rw [Nat.succ_mul, Nat.mul_comm (bytes / ps)] at this; exact this
  have h6 : n = bytes / ps → n * ps = ps * (bytes / ps) := fun x => by rw [x, Nat.mul_comm]
  dsimp only
  split <;> omega

theorem slice_eq (per limit k : Nat) :
    (List.range k).flatMap (slice per limit) = List.range (min (per * k) limit) := by
  induction k with
  | zero => simp
  | succ k ih =>
    rw [List.range_succ, List.flatMap_append, ih, List.flatMap_cons, List.flatMap_nil, List.append_nil]
    unfold slice
    dsimp only
    rw [Nat.mul_succ]
    by_cases h : per * k ≤ limit
    · rw [Nat.min_eq_left h, List.range_eq_range', List.range_eq_range']
      have := List.range'_append_1 (s := 0) (m := per * k) (n := min (per * k + per) limit - per * k)
      rw [Nat.zero_add] at this
      rw [this]
      congr 1
      omega
    · rw [show min (per * k + per) limit - per * k = 0 by omega, show min (per * k) limit = min (per * k + per) limit by omega]
      simp

theorem per_covers {pages threads per : Nat} (h : pagesPerThread pages threads = some per) : pages ≤ per * threads := by
  unfold pagesPerThread at h
  split at h
  · cases h
  · rename_i h0
    cases h
    have h1 := Nat.div_add_mod pages threads
    have h2 := Nat.mod_lt pages (Nat.pos_of_ne_zero h0)
    rw [Nat.add_mul, Nat.one_mul, Nat.mul_comm]
    omega

/-- **C141** (as the code is) The pages read are, each once, exactly those that were not in memory, but for the last one, whatever the
number of threads and their order.  Missing: the last page. -/
theorem c141_touched_partial (pages threads per : Nat) (h : pagesPerThread pages threads = some per) (resident : Nat → Bool)
    (order : List Nat) (ho : order.Perm (List.range threads)) :
    (touched per pages resident order).Nodup ∧
    ∀ j, j ∈ touched per pages resident order ↔ j + 1 < pages ∧ resident j = false := by
  have hp : (touched per pages resident order).Perm ((List.range (pages - 1)).filter (fun j => !resident j)) := by
    unfold touched
    have h1 := ho.flatMap_right (fun i => (slice per (pages - 1) i).filter (fun j => !resident j))
    have h2 : (List.range threads).flatMap (fun i => (slice per (pages - 1) i).filter (fun j => !resident j)) =
        ((List.range threads).flatMap (slice per (pages - 1))).filter (fun j => !resident j) := by
      rw [List.filter_flatMap]
    rw [h2, slice_eq, Nat.min_eq_right (by have := per_covers h; omega)] at h1
    exact h1
  refine ⟨hp.nodup_iff.mpr (List.nodup_range.filter _), ?_⟩
  intro j
  rw [hp.mem_iff, List.mem_filter, List.mem_range]
  constructor
  · intro ⟨a, b⟩
    exact ⟨by omega, by simpa using b⟩
  · intro ⟨a, b⟩
    exact ⟨by omega, by simpa using b⟩

/-- **C141** (as the code is) The last page of the file is never read. -/
theorem c141_last_partial (pages threads per : Nat) (h : pagesPerThread pages threads = some per) (resident : Nat → Bool)
    (order : List Nat) (ho : order.Perm (List.range threads)) : pages - 1 ∉ touched per pages resident order := by
  intro hm
  have := ((c141_touched_partial pages threads per h resident order ho).2 _).mp hm
  omega

/-- **C141** Each byte read is in the file. -/
theorem c141_inside (ps bytes threads per : Nat) (hps : 0 < ps) (h : pagesPerThread (bytes2pages ps bytes) threads = some per)
    (resident : Nat → Bool) (order : List Nat) (ho : order.Perm (List.range threads)) :
    ∀ j ∈ touched per (bytes2pages ps bytes) resident order, j * ps < bytes := by
  intro j hj
  have := ((c141_touched_partial _ threads per h resident order ho).2 j).mp hj
  have hn : ¬ bytes2pages ps bytes ≤ j := by omega
  rw [c141_pages ps bytes j hps] at hn
  omega

theorem foldl_add (f : Nat → Nat) (l : List Nat) (a : Nat) :
    l.foldl (fun total i => total + f i) a = a + (l.map f).sum := by
  induction l generalizing a with
  | nil => simp
  | cons x l ih => rw [List.foldl_cons, ih, List.map_cons, List.sum_cons]; omega

/-- **C141** The number printed is that of the pages of the file in memory, whatever the number of threads and their order. -/
theorem c141_counted (pages threads per : Nat) (h : pagesPerThread pages threads = some per) (resident : Nat → Bool)
    (order : List Nat) (ho : order.Perm (List.range threads)) :
    counted per pages resident order = ((List.range pages).filter resident).length := by
  unfold counted
  rw [foldl_add, Nat.zero_add, (ho.map _).sum_nat]
  have key : ∀ k, ((List.range k).map (fun i => ((slice per pages i).filter resident).length)).sum =
      (((List.range k).flatMap (slice per pages)).filter resident).length := by
    intro k
    rw [List.filter_flatMap, List.length_flatMap]
  rw [key, slice_eq, Nat.min_eq_right (per_covers h)]

/-- **C141** A run that ends without an error reads nothing unless it was asked to, and prints the size of the file in pages, which is
not 0, and the number of its pages in memory, which is not greater. -/
theorem c141_done (w : World) (touch : Bool) (hc : w.orderCount.Perm (List.range w.threads)) (hps : 0 < w.pagesize)
    {read : List Nat} {res pages : Nat} (h : check w touch = .done read res pages) :
    pages = bytes2pages w.pagesize w.size ∧ 0 < pages ∧ (touch = false → read = []) ∧
    res = ((List.range pages).filter (if touch then w.reload read else w.resident)).length ∧ res ≤ pages := by
  unfold check at h
  dsimp only at h
  split at h
  · cases h
  split at h
  · cases h
  split at h
  · cases h
  split at h
  · cases h
  rename_i hsz
  split at h
  · cases h
  split at h
  · cases h
  rename_i per hper
  have hpos : 0 < bytes2pages w.pagesize w.size := by
    apply Nat.pos_of_ne_zero
    intro h0
    have := (c141_pages w.pagesize w.size 0 hps).mp (by omega)
    omega
  have hle : ∀ f : Nat → Bool, ((List.range (bytes2pages w.pagesize w.size)).filter f).length ≤ bytes2pages w.pagesize w.size := by
    intro f
    have := List.length_filter_le f (List.range (bytes2pages w.pagesize w.size))
    rwa [List.length_range] at this
  split at h
  · rename_i ht
    cases h
    rw [c141_counted _ _ _ hper _ _ hc, ht]
    exact ⟨rfl, hpos, by simp, rfl, hle _⟩
  · rename_i ht
    cases h
    rw [c141_counted _ _ _ hper _ _ hc, Bool.eq_false_iff.mpr ht]
    exact ⟨rfl, hpos, fun _ => rfl, rfl, hle _⟩

/-- **C141** (as the code is) If a page that was read stays in memory, as one that was there before does, and no other comes, then after
the pages were read all are in memory exactly if the last was there before. -/
theorem c141_loaded_partial (w : World) (ht : w.orderTouch.Perm (List.range w.threads)) (hc : w.orderCount.Perm (List.range w.threads))
    (hps : 0 < w.pagesize) (hr : ∀ l j, w.reload l j = (w.resident j || l.contains j))
    {read : List Nat} {res pages : Nat} (h : check w true = .done read res pages) :
    pages - 1 ≤ res ∧ (res = pages ↔ w.resident (pages - 1) = true) := by
  have hd := c141_done w true hc hps h
  have hread : ∃ per, pagesPerThread pages w.threads = some per ∧ read = touched per pages w.resident w.orderTouch := by
    unfold check at h
    dsimp only at h
    split at h
    · cases h
    split at h
    · cases h
    split at h
    · cases h
    split at h
    · cases h
    split at h
    · cases h
    split at h
    · cases h
    rename_i per hper
    rw [if_pos rfl] at h
    cases h
    exact ⟨per, hper, rfl⟩
  obtain ⟨per, hper, hread⟩ := hread
  have hm := (c141_touched_partial pages w.threads per hper w.resident w.orderTouch ht).2
  rw [← hread] at hm
  obtain ⟨n, rfl⟩ : ∃ n, pages = n + 1 := ⟨pages - 1, by omega⟩
  have hres := hd.2.2.2.1
  rw [if_pos rfl, List.range_succ, List.filter_append, List.length_append] at hres
  have hall : (List.range n).filter (w.reload read) = List.range n := by
    rw [List.filter_eq_self]
    intro j hj
    rw [hr]
    cases hj' : w.resident j with
    | true => rfl
    | false =>
      rw [Bool.false_or, List.contains_iff_mem]
      exact (hm j).mpr ⟨by have := List.mem_range.mp hj; omega, hj'⟩
  have hlast : w.reload read n = w.resident n := by
    rw [hr]
    have : read.contains n = false := by
      rw [Bool.eq_false_iff]
      intro hcn
      have := (hm n).mp (List.contains_iff_mem.mp hcn)
      omega
    rw [this, Bool.or_false]
  rw [hall, List.length_range] at hres
  simp only [Nat.add_sub_cancel]
  cases hb : w.resident n with
  | true =>
    rw [List.filter_cons_of_pos (by rw [hlast, hb])] at hres
    simp only [List.filter_nil, List.length_cons, List.length_nil] at hres
    exact ⟨by omega, by simp; omega⟩
  | false =>
    rw [List.filter_cons_of_neg (by rw [hlast, hb]; decide)] at hres
    simp only [List.filter_nil, List.length_nil] at hres
    exact ⟨by omega, by simp; omega⟩

/-- **C141** An error is told in all these cases and in no other. -/
theorem c141_failed (w : World) (touch : Bool) : (∃ what u c, check w touch = .failed what u c) ↔
    (w.openNoAtime = some false ∨ (w.openNoAtime = some true ∧ w.openPlain = false)) ∨
    w.fstat = false ∨ w.block = some false ∨ w.size = 0 ∨ w.mmap = false := by
  have ho : opened w = false ↔ (w.openNoAtime = some false ∨ (w.openNoAtime = some true ∧ w.openPlain = false)) := by
    unfold opened
    rcases w.openNoAtime with _ | _ | _ <;> simp
  rw [← ho]
  unfold check
  dsimp only
  cases h1 : opened w <;> cases h3 : w.fstat <;> cases h5 : w.mmap <;>
    by_cases h4 : w.block = some false <;> by_cases h6 : w.size = 0 <;> simp [h4, h6]
  split
  · simp
  · split <;> simp

/-- **C141** After an error the descriptor is closed, if there was one. -/
theorem c141_closed (w : World) (touch : Bool) {what : String} {u c : Bool} (h : check w touch = .failed what u c) :
    c = true ↔ what ≠ "Unable to open" := by
  unfold check at h
  dsimp only at h
  repeat' split at h
  all_goals first
    | (cases h; done)
    | (cases h; decide)

/-- **C141** (as the code is) A machine that does not tell the number of its processors: a division by zero. -/
theorem c141_no_threads_partial (pages : Nat) : pagesPerThread pages 0 = none := rfl

/-- A file of three pages on two processors. -/
def three (last : Bool) : World :=
  { openNoAtime := some true, openPlain := true, fstat := true, block := none, size := 8193, mmap := true, pagesize := 4096,
    threads := 2, resident := fun j => last && j == 2, orderTouch := [1, 0], orderCount := [0, 1],
    reload := fun l j => (last && j == 2) || l.contains j }

example : check (three false) true = .done [0, 1] 2 3 ∧ check (three true) true = .done [0, 1] 3 3 ∧
    check (three true) false = .done [] 1 3 := by decide +kernel
example : (three true).orderTouch.Perm (List.range 2) := by decide +kernel
example : ∀ l j, (three true).reload l j = ((three true).resident j || l.contains j) := fun _ _ => rfl
example : check { three true with threads := 0 } true = .crash := by decide +kernel
example : check { three true with mmap := false } true = .failed "unable to mmap" true true := by decide +kernel

end Bedrock.VMTouch.Props
