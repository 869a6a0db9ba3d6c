import Verif.Model.Files

/-!
# C105: files are loaded, saved, copied and backed up whole, or the failure is reported
-/

namespace Bedrock.Files.Props
open Bedrock Bedrock.Files

theorem set_same (fs : FS) (p : Path) (c : Option Bytes) : fs.set p c p = c := if_pos rfl
theorem set_other (fs : FS) {p q : Path} (c : Option Bytes) (h : q ≠ p) : fs.set p c q = fs q := if_neg h

theorem take_nil {chunk : Nat} {s : Bytes} (h : s.take (chunk + 1) = []) : s = [] := by
  cases s with
  | nil => rfl
  | cons c s => cases h

theorem loadLoop_eq (chunk : Nat) (s buffer : Bytes) : loadLoop chunk s buffer = buffer ++ s := by
  induction hn : s.length using Nat.strongRecOn generalizing s buffer with
  | _ n ih =>
    rw [loadLoop]
    split
    · rename_i h
      rw [take_nil h, List.append_nil]
    · rename_i h
      have : (s.drop (chunk + 1)).length < n := by
        rw [← hn]
        cases s with
        | nil => exact absurd rfl h
        | cons c s => simp only [List.drop_succ_cons, List.length_drop, List.length_cons]; omega
      rw [ih _ this _ _ rfl, List.append_assoc, List.take_append_drop]

theorem copyLoop_none (chunk : Nat) (s out : Bytes) : copyLoop chunk none s out = (out ++ s, true) := by
  induction hn : s.length using Nat.strongRecOn generalizing s out with
  | _ n ih =>
    rw [copyLoop]
    split
    · rename_i h
      rw [take_nil h, List.append_nil]
    · rename_i h
      have : (s.drop (chunk + 1)).length < n := by
        rw [← hn]
        cases s with
        | nil => exact absurd rfl h
        | cons c s => simp only [List.drop_succ_cons, List.length_drop, List.length_cons]; omega
      dsimp only
      rw [ih _ this _ _ rfl, List.append_assoc, List.take_append_drop]

theorem copyLoop_some (chunk : Nat) (r : Nat) (s out : Bytes) : copyLoop chunk (some r) s out = (out ++ s.take r, decide (s.length ≤ r)) := by
  induction hn : s.length using Nat.strongRecOn generalizing s out r with
  | _ n ih =>
    rw [copyLoop]
    split
    · rename_i h
      have hs := take_nil h
      rw [hs] at hn ⊢
      subst hn
      rw [List.take_nil, List.append_nil]
      rfl
    · rename_i h
      have hlt : (s.drop (chunk + 1)).length < n := by
        rw [← hn]
        cases s with
        | nil => exact absurd rfl h
        | cons c s => simp only [List.drop_succ_cons, List.length_drop, List.length_cons]; omega
      dsimp only
      split
      · rename_i hr
        rw [List.length_take] at hr
        rw [List.take_take, Nat.min_eq_left (by omega), decide_eq_false (by omega)]
      · rename_i hr
        rw [List.length_take] at hr ⊢
        rw [ih _ hlt _ _ _ rfl, List.append_assoc, List.length_drop]
        congr 1
        · congr 1
          have e : s.take (chunk + 1) ++ (s.drop (chunk + 1)).take (r - min (chunk + 1) s.length) = s.take r := by
            by_cases hc : chunk + 1 ≤ s.length
            · rw [Nat.min_eq_left hc]
              conv => rhs; rw [← List.take_append_drop (chunk + 1) s]
              rw [List.take_append, List.take_of_length_le (l := s.take (chunk + 1)) (by rw [List.length_take]; omega), List.length_take, Nat.min_eq_left hc]
            · rw [List.drop_of_length_le (by omega), List.take_nil, List.append_nil, List.take_of_length_le (by omega), List.take_of_length_le (by omega)]
          exact e
        · exact decide_eq_decide.mpr (by omega)

/-- C105.  What is saved is loaded, if the system takes and gives it all; other files are left alone. -/
theorem c105_save_load (fs : FS) (p : Path) (s : Bytes) (e e' : Env) (hs : (save fs p s e).2 = true) (hf : e.flushErr = none)
    (hr : e'.canRead = true ∧ e'.readErr = none) :
    load (save fs p s e).1 p e' = some s ∧ ∀ q, q ≠ p → (save fs p s e).1 q = fs q := by
  unfold save at hs ⊢
  split at hs
  · rename_i hc
    rw [if_pos hc]
    dsimp only at hs ⊢
    split at hs
    · rename_i hl
      rw [if_pos hl]
      refine ⟨?_, fun q hq => set_other _ _ hq⟩
      unfold load
      dsimp only
      rw [set_same, hf]
      dsimp only [cut]
      rw [if_pos hr.1, hr.2]
      dsimp only
      rw [loadLoop_eq, List.nil_append]
      cases hw : e.writeErr with
      | none => rfl
      | some n =>
        rw [hw] at hl
        dsimp only [cut] at hl ⊢
        rw [List.length_take] at hl
        rw [List.take_of_length_le (by omega)]
    · exact Bool.noConfusion hs
  · exact Bool.noConfusion hs

/-- C105.  A save that fails leaves no half of a file: the old one is untouched or there is none. -/
theorem c105_save_failed (fs : FS) (p : Path) (s : Bytes) (e : Env) (hs : (save fs p s e).2 = false) :
    ((save fs p s e).1 p = fs p ∨ (save fs p s e).1 p = none) ∧ ∀ q, q ≠ p → (save fs p s e).1 q = fs q := by
  unfold save at hs ⊢
  split at hs
  · rename_i hc
    rw [if_pos hc]
    dsimp only at hs ⊢
    split at hs
    · exact Bool.noConfusion hs
    · rename_i hl
      rw [if_neg hl]
      exact ⟨.inr (set_same _ _ _), fun q hq => set_other _ _ hq⟩
  · rename_i hc
    rw [if_neg hc]
    exact ⟨.inl rfl, fun _ _ => rfl⟩

/-- C105.  A copy that is reported done, from one path to another, is the whole file, unless reading or closing failed.
The source and all other files are as they were, in any case. -/
theorem c105_copy (fs : FS) (src dst : Path) (e : Env) (hne : src ≠ dst) :
    ((copy fs src dst e).2 = true → e.readErr = none → e.flushErr = none → (fs src).isSome ∧ (copy fs src dst e).1 dst = fs src) ∧
      ∀ q, q ≠ dst → (copy fs src dst e).1 q = fs q := by
  unfold copy
  cases hsrc : fs src with
  | none => exact ⟨fun h => Bool.noConfusion h, fun _ _ => rfl⟩
  | some c =>
    cases hr : e.canRead with
    | false => exact ⟨fun h => Bool.noConfusion h, fun _ _ => rfl⟩
    | true =>
      cases hw : e.canWrite with
      | false => exact ⟨fun h => Bool.noConfusion h, fun _ _ => rfl⟩
      | true =>
        simp only [Bool.not_true, Bool.false_eq_true, if_false]
        rw [set_other _ _ hne, hsrc, Option.getD_some]
        refine ⟨fun hok h1 h2 => ⟨rfl, ?_⟩, fun q hq => ?_⟩
        · rw [set_same, h2, h1]
          rw [h1] at hok
          dsimp only [cut] at hok ⊢
          cases hx : e.writeErr with
          | none => rw [copyLoop_none, List.nil_append]
          | some n =>
            rw [hx, copyLoop_some] at hok
            rw [copyLoop_some, List.nil_append, List.take_of_length_le (of_decide_eq_true hok)]
        · rw [set_other _ _ hq, set_other _ _ hq]

/-- C105.  A write that fails is reported. -/
theorem c105_copy_failed (fs : FS) (src dst : Path) (e : Env) (hne : src ≠ dst) (c : Bytes) (hc : fs src = some c) (n : Nat)
    (hn : n < c.length) (h1 : e.writeErr = some n) (h2 : e.readErr = none) : (copy fs src dst e).2 = false := by
  unfold copy
  rw [hc]
  dsimp only
  split
  · rfl
  · split
    · rfl
    · rw [set_other _ _ hne, hc, Option.getD_some, h1, h2, copyLoop_some]
      exact decide_eq_false (by dsimp only [cut]; omega)

/-- C105.  A deleted file is gone, and only that. -/
theorem c105_delete (fs : FS) (p : Path) (can : Bool) :
    ((delete fs p can).2 = true → (delete fs p can).1 p = none) ∧ ((delete fs p can).2 = false → (delete fs p can).1 = fs) ∧
      ∀ q, q ≠ p → (delete fs p can).1 q = fs q := by
  unfold delete
  cases fs p with
  | none => exact ⟨fun h => Bool.noConfusion h, fun _ => rfl, fun _ _ => rfl⟩
  | some c =>
    cases can with
    | true => exact ⟨fun _ => set_same _ _ _, fun h => Bool.noConfusion h, fun q hq => set_other _ _ hq⟩
    | false => exact ⟨fun h => Bool.noConfusion h, fun _ => rfl, fun _ _ => rfl⟩

/-- C105.  After `-clean` neither the database nor any of the files SQLite keeps beside it exists; no other is touched. -/
theorem c105_clean (fs : FS) (db q : Path) :
    clean fs db q = if q ∈ [db, db ++ b!"-pagemap", db ++ b!"-wal2", db ++ b!"-wal", db ++ b!"-shm"] then none else fs q := by
  unfold clean
  by_cases h : q ∈ [db, db ++ b!"-pagemap", db ++ b!"-wal2", db ++ b!"-wal", db ++ b!"-shm"]
  · rw [if_pos h]
    unfold FS.set
    simp only [List.mem_cons, List.not_mem_nil, or_false] at h
    rcases h with h | h | h | h | h <;> simp [h]
  · rw [if_neg h]
    simp only [List.mem_cons, List.not_mem_nil, or_false, not_or] at h
    obtain ⟨h1, h2, h3, h4, h5⟩ := h
    rw [set_other _ _ h5, set_other _ _ h4, set_other _ _ h3, set_other _ _ h2, set_other _ _ h1]

/-! ## The backup -/

theorem baseName_append (p s : Bytes) (h : 47 ∉ s) : baseName (p ++ s) = baseName p ++ s := by
  unfold baseName
  have : ∀ (a b : Bytes), 47 ∉ a → (a ++ b).takeWhile (· != 47) = a ++ b.takeWhile (· != 47) := by
    intro a b ha
    induction a with
    | nil => rfl
    | cons c a ih =>
      have hc : c ≠ 47 := fun h => ha (h ▸ List.mem_cons_self)
      rw [List.cons_append, List.takeWhile_cons_of_pos (by simpa using hc), ih (fun h => ha (List.mem_cons_of_mem _ h))]
      rfl
  rw [List.reverse_append, this _ _ (by rwa [List.mem_reverse]), List.reverse_append, List.reverse_reverse]

theorem backupOne_some {fs fs' : FS} {p : Path} {e : Env} (h : backupOne fs p e = some fs') (hne : p ≠ backupDir ++ baseName p)
    (h1 : e.readErr = none) (h2 : e.flushErr = none) :
    (fs p).isSome ∧ fs' (backupDir ++ baseName p) = fs p ∧ ∀ q, q ≠ backupDir ++ baseName p → fs' q = fs q := by
  unfold backupOne at h
  have hc := c105_copy fs p (backupDir ++ baseName p) e hne
  generalize copy fs p (backupDir ++ baseName p) e = x at h hc
  obtain ⟨f, b⟩ := x
  cases b with
  | false => cases h
  | true =>
    obtain rfl := Option.some.inj h
    obtain ⟨a, b⟩ := hc.1 rfl h1 h2
    exact ⟨a, b, hc.2⟩

theorem baseName_no_slash (p : Bytes) : (47 : UInt8) ∉ baseName p := by
  unfold baseName
  rw [List.mem_reverse]
  intro h
  have := List.all_takeWhile (p := (· != (47 : UInt8))) (l := p.reverse)
  rw [List.all_eq_true] at this
  exact absurd (this _ h) (by decide)

/-- No file beside the database is a target of the backup. -/
theorem source_not_target {db x y : Bytes} (hdir : db ≠ backupDir ++ baseName db) (hx : (47 : UInt8) ∉ x) (hy : (47 : UInt8) ∉ y) :
    db ++ x ≠ backupDir ++ baseName db ++ y := by
  intro h
  have h' := congrArg baseName h
  rw [baseName_append db x hx, baseName_append _ y hy, baseName_append _ _ (baseName_no_slash db)] at h'
  have hb : baseName backupDir = [] := by decide
  rw [hb, List.nil_append] at h'
  obtain rfl := List.append_cancel_left h'
  exact hdir (List.append_cancel_right h)

/-- One of the copies that is made if there is such a file. -/
theorem backupIf_some {fs fs' : FS} {p : Path} {e : Env}
    (h : backupIf fs p e = some fs') (hne : p ≠ backupDir ++ baseName p)
    (h1 : e.readErr = none) (h2 : e.flushErr = none) :
    ((fs p).isSome → fs' (backupDir ++ baseName p) = fs p) ∧ ∀ q, q ≠ backupDir ++ baseName p → fs' q = fs q := by
  unfold backupIf at h
  split at h
  · obtain ⟨_, b, c⟩ := backupOne_some h hne h1 h2
    exact ⟨fun _ => b, c⟩
  · rename_i hn
    obtain rfl := Option.some.inj h
    exact ⟨fun h => absurd h hn, fun _ _ => rfl⟩

/-- C105.  A database that is not itself in `/var/tmp/`: if the backup does not end the process, and neither reading nor
closing failed, then the copies of the database, its `-wal` and its `-shm` there are what the files are; and no file
but those three copies has changed. -/
theorem c105_backup (fs fs' : FS) (db : Path) (e1 e2 e3 : Env) (h : backup fs db e1 e2 e3 = some fs')
    (hdir : db ≠ b!"/var/tmp/" ++ baseName db) (he : ∀ e ∈ [e1, e2, e3], e.readErr = none ∧ e.flushErr = none) :
    (fs db).isSome ∧
      (∀ x ∈ [b!"", b!"-wal", b!"-shm"], (fs (db ++ x)).isSome → fs' (b!"/var/tmp/" ++ baseName db ++ x) = fs (db ++ x)) ∧
      (∀ q, (∀ x ∈ [b!"", b!"-wal", b!"-shm"], q ≠ b!"/var/tmp/" ++ baseName db ++ x) → fs' q = fs q) := by
  have r1 := he e1 (by simp)
  have r2 := he e2 (by simp)
  have r3 := he e3 (by simp)
  have nw : (47 : UInt8) ∉ b!"-wal" := by decide
  have ns : (47 : UInt8) ∉ b!"-shm" := by decide
  have n0 : (47 : UInt8) ∉ b!"" := by decide
  have hdir' : db ≠ backupDir ++ baseName db := hdir
  have bw : backupDir ++ baseName (db ++ b!"-wal") = backupDir ++ baseName db ++ b!"-wal" := by
    rw [baseName_append db (b!"-wal") nw, List.append_assoc]
  have bs : backupDir ++ baseName (db ++ b!"-shm") = backupDir ++ baseName db ++ b!"-shm" := by
    rw [baseName_append db (b!"-shm") ns, List.append_assoc]
  have b0 : backupDir ++ baseName db = backupDir ++ baseName db ++ b!"" := (List.append_nil _).symm
  have ne : ∀ {x y : Bytes}, x ≠ y → backupDir ++ baseName db ++ x ≠ backupDir ++ baseName db ++ y :=
    fun hxy h => hxy (List.append_cancel_left h)
  unfold backup at h
  obtain ⟨f1, h1, h⟩ := Option.bind_eq_some_iff.mp h
  obtain ⟨f2, h2, h3⟩ := Option.bind_eq_some_iff.mp h
  obtain ⟨a1, a2, a3⟩ := backupOne_some h1 hdir' r1.1 r1.2
  obtain ⟨c2, c3⟩ := backupIf_some h2 (by rw [bw]; exact source_not_target hdir' nw nw) r2.1 r2.2
  obtain ⟨d2, d3⟩ := backupIf_some h3 (by rw [bs]; exact source_not_target hdir' ns ns) r3.1 r3.2
  rw [bw] at c2 c3
  rw [bs] at d2 d3
  rw [b0] at a2 a3
  have w1 : f1 (db ++ b!"-wal") = fs (db ++ b!"-wal") := a3 _ (source_not_target hdir' nw n0)
  have s2 : f2 (db ++ b!"-shm") = fs (db ++ b!"-shm") := by
    rw [c3 _ (source_not_target hdir' ns nw), a3 _ (source_not_target hdir' ns n0)]
  rw [w1] at c2
  rw [s2] at d2
  refine ⟨a1, ?_, ?_⟩
  · intro x hx hs
    show fs' (backupDir ++ baseName db ++ x) = _
    simp only [List.mem_cons, List.not_mem_nil, or_false] at hx
    rcases hx with rfl | rfl | rfl
    · rw [d3 _ (ne (by decide)), c3 _ (ne (by decide)), a2]
      rw [show db ++ b!"" = db from List.append_nil _]
    · rw [d3 _ (ne (by decide)), c2 hs]
    · exact d2 hs
  · intro q hq
    rw [d3 _ (hq _ (by simp)), c3 _ (hq _ (by simp)), a3 _ (hq _ (by simp))]

/-- C105.  A backup whose target cannot be written, or is full, ends the process instead of going on. -/
theorem c105_backup_failed (fs : FS) (db : Path) (e1 e2 e3 : Env) (hdir : db ≠ b!"/var/tmp/" ++ baseName db) (c : Bytes)
    (hc : fs db = some c) (hr : e1.readErr = none)
    (hf : e1.canRead = false ∨ e1.canWrite = false ∨ ∃ n, n < c.length ∧ e1.writeErr = some n) : backup fs db e1 e2 e3 = none := by
  have hcopy : (copy fs db (backupDir ++ baseName db) e1).2 = false := by
    rcases hf with hf | hf | ⟨n, hn, hf⟩
    · unfold copy
      rw [hc]
      dsimp only
      rw [hf]
      rfl
    · unfold copy
      rw [hc]
      dsimp only
      rw [hf]
      split <;> rfl
    · exact c105_copy_failed fs db _ e1 hdir c hc n hn hf hr
  have h1 : backupOne fs db e1 = none := by
    unfold backupOne
    generalize copy fs db (backupDir ++ baseName db) e1 = x at hcopy ⊢
    obtain ⟨f, b⟩ := x
    dsimp only at hcopy
    rw [hcopy]
  unfold backup
  rw [h1]
  rfl

/-! ## Where the code differs -/

/-- Disagreement.  A read that fails half way is only logged: the copy is reported done though it is not the file. -/
theorem c105_read_error (fs : FS) (src dst : Path) (hne : src ≠ dst) (c : Bytes) (hc : fs src = some c) (n : Nat) (hn : n < c.length) :
    let r := copy fs src dst { readErr := some n }
    r.2 = true ∧ r.1 dst = some (c.take n) ∧ r.1 dst ≠ fs src := by
  have key : copy fs src dst { readErr := some n } = ((fs.set dst (some [])).set dst (some (c.take n)), true) := by
    unfold copy
    rw [hc]
    dsimp only [cut]
    simp only [Bool.not_true, Bool.false_eq_true, if_false]
    rw [set_other _ _ hne, hc, Option.getD_some, copyLoop_none, List.nil_append]
  dsimp only
  rw [key, hc]
  refine ⟨rfl, set_same _ _ _, ?_⟩
  show (FS.set _ dst _) dst ≠ _
  rw [set_same]
  intro h
  have := congrArg List.length (Option.some.inj h)
  rw [List.length_take] at this
  omega

/-- Disagreement.  So is a load: half of the file is given as if it were all. -/
theorem c105_load_partial (fs : FS) (p : Path) (c : Bytes) (hc : fs p = some c) (n : Nat) :
    load fs p { readErr := some n } = some (c.take n) := by
  unfold load
  rw [hc]
  dsimp only [cut]
  rw [if_pos rfl, loadLoop_eq, List.nil_append]

/-- Disagreement.  What `fclose` cannot write is lost, and the copy is reported done. -/
theorem c105_close_error (fs : FS) (src dst : Path) (hne : src ≠ dst) (c : Bytes) (hc : fs src = some c) (n : Nat) :
    let r := copy fs src dst { flushErr := some n }
    r.2 = true ∧ r.1 dst = some (c.take n) := by
  have key : copy fs src dst { flushErr := some n } = ((fs.set dst (some [])).set dst (some (c.take n)), true) := by
    unfold copy
    rw [hc]
    dsimp only [cut]
    simp only [Bool.not_true, Bool.false_eq_true, if_false]
    rw [set_other _ _ hne, hc, Option.getD_some, copyLoop_none, List.nil_append]
  dsimp only
  rw [key]
  exact ⟨rfl, set_same _ _ _⟩

/-- Disagreement.  A file copied to itself is emptied, and the copy is reported done. -/
theorem c105_same_file (fs : FS) (p : Path) (c : Bytes) (hc : fs p = some c) : (copy fs p p {}).1 p = some [] ∧ (copy fs p p {}).2 = true := by
  have key : copy fs p p {} = ((fs.set p (some [])).set p (some []), true) := by
    unfold copy
    rw [hc]
    dsimp only [cut]
    simp only [Bool.not_true, Bool.false_eq_true, if_false]
    rw [set_same, Option.getD_some, copyLoop_none, List.nil_append]
  rw [key]
  exact ⟨set_same _ _ _, rfl⟩

/-- Disagreement.  So a backup of a database that is kept in `/var/tmp/` destroys the database. -/
theorem c105_backup_in_place (fs : FS) (name c : Bytes) (hn : (47 : UInt8) ∉ name) (hc : fs (b!"/var/tmp/" ++ name) = some c)
    (hw : fs (b!"/var/tmp/" ++ name ++ b!"-wal") = none) (hs : fs (b!"/var/tmp/" ++ name ++ b!"-shm") = none) :
    ∃ fs', backup fs (b!"/var/tmp/" ++ name) {} {} {} = some fs' ∧ fs' (b!"/var/tmp/" ++ name) = some [] := by
  have hb : backupDir ++ baseName (b!"/var/tmp/" ++ name) = b!"/var/tmp/" ++ name := by
    rw [baseName_append _ _ hn]
    rfl
  obtain ⟨h1, h2⟩ := c105_same_file fs _ c hc
  have ho : ∀ q, q ≠ b!"/var/tmp/" ++ name → (copy fs (b!"/var/tmp/" ++ name) (b!"/var/tmp/" ++ name) {}).1 q = fs q := by
    intro q hq
    unfold copy
    rw [hc]
    dsimp only
    simp only [Bool.not_true, Bool.false_eq_true, if_false]
    rw [set_other _ _ hq, set_other _ _ hq]
  have ne : ∀ x : Bytes, x ≠ [] → b!"/var/tmp/" ++ name ++ x ≠ b!"/var/tmp/" ++ name := by
    intro x hx h
    exact hx (List.append_right_eq_self.mp h)
  unfold backup backupOne
  rw [hb]
  generalize copy fs (b!"/var/tmp/" ++ name) (b!"/var/tmp/" ++ name) {} = r at h1 h2 ho
  obtain ⟨f, b⟩ := r
  dsimp only at h1 h2 ho
  subst h2
  have w := ho _ (ne (b!"-wal") (by decide))
  have s := ho _ (ne (b!"-shm") (by decide))
  rw [hw] at w
  rw [hs] at s
  refine ⟨f, ?_, h1⟩
  show ((backupIf f _ {}).bind fun fs => backupIf fs _ {}) = _
  have e1 : backupIf f (b!"/var/tmp/" ++ name ++ b!"-wal") {} = some f := by
    unfold backupIf
    rw [w]
    rfl
  have e2 : backupIf f (b!"/var/tmp/" ++ name ++ b!"-shm") {} = some f := by
    unfold backupIf
    rw [s]
    rfl
  rw [e1]
  exact e2

/-- Disagreement.  The second write-ahead log (`-wal2`), which `-clean` removes, is not in the backup. -/
theorem c105_wal2 (fs fs' : FS) (db : Path) (e1 e2 e3 : Env) (h : backup fs db e1 e2 e3 = some fs')
    (hdir : db ≠ b!"/var/tmp/" ++ baseName db) (he : ∀ e ∈ [e1, e2, e3], e.readErr = none ∧ e.flushErr = none) :
    fs' (b!"/var/tmp/" ++ baseName db ++ b!"-wal2") = fs (b!"/var/tmp/" ++ baseName db ++ b!"-wal2") := by
  refine (c105_backup fs fs' db e1 e2 e3 h hdir he).2.2 _ ?_
  intro x hx h
  have := List.append_cancel_left h
  simp only [List.mem_cons, List.not_mem_nil, or_false] at hx
  rcases hx with rfl | rfl | rfl <;> exact absurd this (by decide)

/-- Disagreement.  A write-ahead log left by an earlier backup stays beside the new copy of a database that has none. -/
theorem c105_stale_wal (fs fs' : FS) (db : Path) (e1 e2 e3 : Env) (h : backup fs db e1 e2 e3 = some fs')
    (hdir : db ≠ b!"/var/tmp/" ++ baseName db) (he : ∀ e ∈ [e1, e2, e3], e.readErr = none ∧ e.flushErr = none)
    (hw : fs (db ++ b!"-wal") = none) :
    fs' (b!"/var/tmp/" ++ baseName db ++ b!"-wal") = fs (b!"/var/tmp/" ++ baseName db ++ b!"-wal") := by
  have nw : (47 : UInt8) ∉ b!"-wal" := by decide
  have n0 : (47 : UInt8) ∉ b!"" := by decide
  have ns : (47 : UInt8) ∉ b!"-shm" := by decide
  have r1 := he e1 (by simp)
  have r3 := he e3 (by simp)
  have bs : backupDir ++ baseName (db ++ b!"-shm") = backupDir ++ baseName db ++ b!"-shm" := by
    rw [baseName_append db (b!"-shm") ns, List.append_assoc]
  unfold backup at h
  obtain ⟨f1, h1, h⟩ := Option.bind_eq_some_iff.mp h
  obtain ⟨f2, h2, h3⟩ := Option.bind_eq_some_iff.mp h
  obtain ⟨_, _, a3⟩ := backupOne_some h1 hdir r1.1 r1.2
  have w1 : f1 (db ++ b!"-wal") = none := by
    rw [a3 _ (by rw [show backupDir ++ baseName db = backupDir ++ baseName db ++ b!"" from (List.append_nil _).symm]; exact source_not_target hdir nw n0), hw]
  unfold backupIf at h2
  rw [w1] at h2
  obtain rfl := Option.some.inj h2
  obtain ⟨_, d3⟩ := backupIf_some h3 (by rw [bs]; exact source_not_target hdir ns ns) r3.1 r3.2
  rw [bs] at d3
  show fs' (backupDir ++ baseName db ++ _) = fs (backupDir ++ baseName db ++ _)
  rw [d3 _ (fun h => absurd (List.append_cancel_left h) (by decide)),
    a3 _ (fun h => absurd (List.append_right_eq_self.mp h) (by decide))]

/-! ## Cases -/

/-- A small disk: a database with a log, and an old backup. -/
def disk : FS := fun p =>
  if p = b!"/srv/b.db" then some (b!"pages")
  else if p = b!"/srv/b.db-wal" then some (b!"frames")
  else if p = b!"/var/tmp/b.db" then some (b!"old")
  else none

example : ∃ fs', backup disk (b!"/srv/b.db") {} {} {} = some fs' ∧ fs' (b!"/var/tmp/b.db") = some (b!"pages") ∧
    fs' (b!"/var/tmp/b.db-wal") = some (b!"frames") ∧ fs' (b!"/srv/b.db") = some (b!"pages") := by
  have hb : baseName (b!"/srv/b.db") = b!"b.db" := by decide
  have hs : (backup disk (b!"/srv/b.db") {} {} {}).isSome = true := by
    simp [backup, backupIf, backupOne, copy, disk, cut, copyLoop_none, FS.set, hb, backupDir]
  obtain ⟨fs', h⟩ := Option.isSome_iff_exists.mp hs
  have hdir : (b!"/srv/b.db" : Bytes) ≠ b!"/var/tmp/" ++ baseName (b!"/srv/b.db") := by decide
  have k := c105_backup disk fs' (b!"/srv/b.db") {} {} {} h hdir (by simp)
  refine ⟨fs', h, ?_, ?_, ?_⟩
  · exact k.2.1 (b!"") (by simp) rfl
  · exact k.2.1 (b!"-wal") (by simp) rfl
  · exact (k.2.2 _ (by decide)).trans rfl

-- no room for the third byte: the process ends
example : backup disk (b!"/srv/b.db") { writeErr := some 2 } {} {} = none :=
  c105_backup_failed disk _ _ _ _ (by decide) (b!"pages") rfl rfl (.inr (.inr ⟨2, by decide, rfl⟩))

example : (save disk (b!"/srv/x") (b!"abc") { writeErr := some 3 }).2 = true := rfl
example : (save disk (b!"/srv/x") (b!"abc") { writeErr := some 2 }).2 = false := rfl
example : load (save disk (b!"/srv/x") (b!"abc") {}).1 (b!"/srv/x") {} = some (b!"abc") :=
  (c105_save_load disk (b!"/srv/x") (b!"abc") {} {} rfl rfl ⟨rfl, rfl⟩).1

end Bedrock.Files.Props
