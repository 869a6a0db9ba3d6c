import Verif.Model.QueryLog
import Verif.Spec.QueryLog
import Verif.Lemmas.Http
import Verif.Props.QueryRun

/-! # C148: the query log -/

namespace Bedrock.QueryLog.Props
open Bedrock Bedrock.Text Bedrock.QueryLog.Spec

/-- The record of a query: its database, its text without the white space around it, its time. -/
def Logged (q : Query) (r : Bytes × Bytes × Nat) : Prop :=
  r.1 = q.db ∧ r.2.2 = q.elapsed ∧ ∃ a b, q.sql = a ++ r.2.1 ++ b ∧ (∀ c ∈ a ++ b, isSpace c = true) ∧
    (∀ c, r.2.1.head? = some c → isSpace c = false) ∧ (∀ c, r.2.1.getLast? = some c → isSpace c = false)

/-- One record for each query, in order. -/
def AllLogged : List Query → List (Bytes × Bytes × Nat) → Prop
  | [], [] => True
  | q :: qs, r :: rs => Logged q r ∧ AllLogged qs rs
  | _, _ => False

/-- A query whose record can be told: no quote in the name of its file, no NUL in its text, and not too long. -/
def Plain (q : Query) : Prop := 34 ∉ q.db ∧ 0 ∉ q.sql ∧ q.sql.length ≤ 200000

/-- The queries of a history. -/
def queries : List Op → List Query
  | [] => []
  | .ran q :: ops => q :: queries ops
  | _ :: ops => queries ops

theorem quoted_end (c : UInt8) (r : Bytes) (hc : c ≠ 34) : quoted (34 :: c :: r) = some ([], c :: r) := by
  unfold quoted
  rw [if_pos rfl, if_neg hc]

theorem quoted_plain (x : Bytes) (c : UInt8) (r : Bytes) (hx : 34 ∉ x) (hc : c ≠ 34) :
    quoted (x ++ 34 :: c :: r) = some (x, c :: r) := by
  induction x with
  | nil => exact quoted_end c r hc
  | cons a x ih =>
    have ha : a ≠ 34 := fun h => hx (by simp [h])
    have := ih (fun h => hx (List.mem_cons_of_mem _ h))
    cases hs : x ++ 34 :: c :: r with
    | nil => cases x <;> cases hs
    | cons d t =>
      rw [hs] at this
      rw [List.cons_append, hs, quoted, if_neg ha, this]
      rfl

theorem quoted_escape (x : Bytes) (c : UInt8) (r : Bytes) (hc : c ≠ 34) :
    quoted (x.flatMap (escapeByte [34] 34) ++ 34 :: c :: r) = some (x, c :: r) := by
  induction x with
  | nil => exact quoted_end c r hc
  | cons a x ih =>
    rw [List.flatMap_cons, List.append_assoc]
    by_cases ha : a = 34
    · subst ha
      have : escapeByte [34] 34 34 = [34, 34] := by decide +kernel
      rw [this, List.cons_append, List.cons_append, List.nil_append, quoted, if_pos rfl, if_pos rfl, ih]
      rfl
    · have : escapeByte [34] 34 a = [a] := by
        unfold escapeByte
        rw [if_neg]
        simp [ha]
      rw [this, List.cons_append, List.nil_append]
      cases hs : x.flatMap (escapeByte [34] 34) ++ 34 :: c :: r with
      | nil => simp at hs
      | cons d t =>
        rw [hs] at ih
        rw [quoted, if_neg ha, ih]
        rfl

theorem number_digits (l : Bytes) (acc : Nat) (t : Bytes) (h : ∀ c ∈ l, ∃ d < 10, c = UInt8.ofNat (48 + d)) :
    number acc (l ++ 10 :: t) = some (decPrefix acc l, t) := by
  induction l generalizing acc with
  | nil => simp [number, decPrefix]
  | cons c l ih =>
    obtain ⟨d, hd, rfl⟩ := h c (by simp)
    have key : ∀ i : Fin 10, UInt8.ofNat (48 + i.val) ≠ 10 ∧ 48 ≤ UInt8.ofNat (48 + i.val) ∧ UInt8.ofNat (48 + i.val) ≤ 57 ∧
        (UInt8.ofNat (48 + i.val)).toNat - 48 = i.val ∧ decVal (UInt8.ofNat (48 + i.val)) = some i.val := by decide +kernel
    obtain ⟨k1, k2, k3, k4, k5⟩ := key ⟨d, hd⟩
    dsimp only at k1 k2 k3 k4 k5
    rw [List.cons_append, number, if_neg k1, if_pos ⟨k2, k3⟩, k4, ih _ (fun c hc => h c (List.mem_cons_of_mem _ hc)), decPrefix, k5]

theorem mem_trim {s : Bytes} {c : UInt8} (h : c ∈ trim s) : c ∈ s := by
  obtain ⟨a, b, h1, _⟩ := Query.Props.trim_spec s
  rw [h1]
  simp [h]

/-- A row reads back, whatever is after it. -/
theorem row_back (q : Query) (h : Plain q) (t : Bytes) : row (csvRow q ++ t) = some ((q.db, trim q.sql, q.elapsed), t) := by
  obtain ⟨h1, h2, h3⟩ := h
  have ht : q.sql.take Redact.maxLogQuerySize = q.sql := List.take_of_length_le h3
  have hz : 0 ∉ trim q.sql := fun h => h2 (mem_trim h)
  have e : csvRow q ++ t = 34 :: (q.db ++ 34 :: 44 :: (32 :: 34 ::
      ((trim q.sql).flatMap (escapeByte [34] 34) ++ 34 :: 44 :: (32 :: (natDec q.elapsed ++ 10 :: t))))) := by
    unfold csvRow escape
    rw [ht, cstr_eq hz]
    simp
  rw [e]
  unfold row
  simp only [expect, if_true, Option.bind_some]
  rw [quoted_plain _ _ _ h1 (by decide)]
  simp only [expect, if_true, Option.bind_some]
  rw [quoted_escape _ _ _ (by decide)]
  simp only [expect, if_true, Option.bind_some]
  rw [number_digits _ _ _ (natDec_digits q.elapsed), decPrefix_natDec]
  rfl

theorem logged (q : Query) : Logged q (q.db, trim q.sql, q.elapsed) := by
  obtain ⟨a, b, h⟩ := Query.Props.trim_spec q.sql
  exact ⟨rfl, rfl, a, b, h⟩

theorem rows_back (qs : List Query) (h : ∀ q ∈ qs, Plain q) (fuel : Nat) (hf : qs.length < fuel) :
    ∃ rs, rows fuel (qs.flatMap csvRow) = some rs ∧ AllLogged qs rs := by
  induction qs generalizing fuel with
  | nil =>
    cases fuel with
    | zero => cases hf
    | succ n => exact ⟨[], by simp [rows], trivial⟩
  | cons q qs ih =>
    cases fuel with
    | zero => cases hf
    | succ n =>
      obtain ⟨rs, h1, h2⟩ := ih (fun q hq => h q (List.mem_cons_of_mem _ hq)) n (Nat.lt_of_succ_lt_succ hf)
      refine ⟨(q.db, trim q.sql, q.elapsed) :: rs, ?_, logged q, h2⟩
      rw [List.flatMap_cons, rows, if_neg (by simp [csvRow]), row_back q (h q (by simp))]
      simp only [Option.bind_some, h1, Option.map_some]

theorem rows_len (qs : List Query) : qs.length ≤ (qs.flatMap csvRow).length := by
  induction qs with
  | nil => exact Nat.le_refl _
  | cons q qs ih =>
    have : 1 ≤ (csvRow q).length := by simp [csvRow]
    rw [List.flatMap_cons, List.length_append, List.length_cons]
    omega

theorem expect_append (p s : Bytes) : expect p (p ++ s) = some s := by
  induction p with
  | nil => rfl
  | cons c p ih => rw [List.cons_append, expect, if_pos rfl, ih]

theorem schema_eq : str "filename, query, elapsed\n" = schema := by decide +kernel

theorem read_back (qs : List Query) (h : ∀ q ∈ qs, Plain q) :
    ∃ rs, Spec.read (schema ++ qs.flatMap csvRow) = some rs ∧ AllLogged qs rs := by
  unfold Spec.read
  rw [schema_eq, expect_append]
  exact rows_back qs h _ (Nat.lt_succ_of_le (rows_len qs))

/-- No `closed` in a history. -/
def Open (ops : List Op) : Prop := ∀ o ∈ ops, o ≠ .closed

theorem run_open (ops : List Op) (h : Open ops) (s : St) (n : Bytes) (hs : s.fp = some n) :
    (run s ops).fp = some n ∧ (run s ops).files n = s.files n ++ (queries ops).flatMap csvRow ∧
      ∀ f, f ≠ n → (run s ops).files f = s.files f := by
  induction ops generalizing s with
  | nil => exact ⟨hs, by simp [run, queries], fun _ _ => rfl⟩
  | cons o ops ih =>
    have ho : Open ops := fun o h' => h o (List.mem_cons_of_mem _ h')
    cases o with
    | closed => exact absurd rfl (h _ (by simp))
    | opened m =>
      have : step s (.opened m) = s := by simp [step, hs]
      have e : run s (.opened m :: ops) = run s ops := by simp [run, this]
      rw [e]
      exact ih ho s hs
    | ran q =>
      have e : step s (.ran q) = { s with files := fun f => if f = n then s.files f ++ csvRow q else s.files f } := by
        simp [step, hs]
      obtain ⟨h1, h2, h3⟩ := ih ho (step s (.ran q)) (by rw [e]; exact hs)
      have er : run s (.ran q :: ops) = run (step s (.ran q)) ops := rfl
      rw [er]
      refine ⟨h1, ?_, fun f hf => ?_⟩
      · rw [h2, e]
        simp [queries]
      · rw [h3 f hf, e]
        simp [hf]

/-- **C148.** Once a log is opened, and until it is closed, its file reads as one record for each query that was run, in order: the
file of the database, the text of the query as it was but for white space around it, and the time it took.  It does not matter
what was in the file before, that queries contain quotes, commas or newlines, or that another log is asked for in the meantime. -/
theorem c148_log (s : St) (hs : s.fp = none) (n : Bytes) (ops : List Op) (h : Open ops) (hp : ∀ q ∈ queries ops, Plain q) :
    ∃ rs, Spec.read ((run s (.opened n :: ops)).files n) = some rs ∧ AllLogged (queries ops) rs := by
  obtain ⟨_, h2, _⟩ := run_open ops h (step s (.opened n)) n (by simp [step, hs])
  have e : run s (.opened n :: ops) = run (step s (.opened n)) ops := rfl
  have e0 : (step s (.opened n)).files n = schema := by simp [step, hs]
  rw [e, h2, e0]
  exact read_back _ hp

/-- **C148.** No other file is touched. -/
theorem c148_other (s : St) (hs : s.fp = none) (n : Bytes) (ops : List Op) (h : Open ops) (f : Bytes) (hf : f ≠ n) :
    (run s (.opened n :: ops)).files f = s.files f := by
  obtain ⟨_, _, h3⟩ := run_open ops h (step s (.opened n)) n (by simp [step, hs])
  have e : run s (.opened n :: ops) = run (step s (.opened n)) ops := rfl
  rw [e, h3 f hf]
  simp [step, hs, hf]

/-- **C148.** After a log is closed its file stays as it is, whatever is run, until a log is opened again. -/
theorem c148_closed (s : St) (ops : List Op) (h : ∀ o ∈ ops, ∀ n, o ≠ .opened n) :
    (run s (.closed :: ops)).files = s.files ∧ (run s (.closed :: ops)).fp = none := by
  have key : ∀ (s : St), s.fp = none → (run s ops).files = s.files ∧ (run s ops).fp = none := by
    induction ops with
    | nil => exact fun s hs => ⟨rfl, hs⟩
    | cons o ops ih =>
      intro s hs
      have e : run s (o :: ops) = run (step s o) ops := rfl
      rw [e]
      have ih := ih (fun o h' => h o (List.mem_cons_of_mem _ h'))
      cases o with
      | opened n => exact absurd rfl (h _ (by simp) n)
      | closed => exact ih (step s .closed) rfl
      | ran q =>
        have : step s (.ran q) = s := by simp [step, hs]
        rw [this]
        exact ih s hs
  exact key { s with fp := none } rfl

def nofiles : St := { fp := none, files := fun _ => [] }
def q1 : Query := ⟨b!"/var/a.db", b!"  SELECT \"x\", 1\nFROM t; ", 1204⟩
def q2 : Query := ⟨b!"/var/a.db", b!"COMMIT;", 0⟩

example : Open [.ran q1, .opened (b!"b.csv"), .ran q2] := by intro o h; simp at h; rcases h with rfl | rfl | rfl <;> exact Op.noConfusion
example : Plain q1 ∧ Plain q2 := by unfold Plain; decide +kernel
example : Spec.read ((run nofiles [.opened (b!"a.csv"), .ran q1, .opened (b!"b.csv"), .ran q2]).files (b!"a.csv")) =
    some [(b!"/var/a.db", b!"SELECT \"x\", 1\nFROM t;", 1204), (b!"/var/a.db", b!"COMMIT;", 0)] := by decide +kernel
example : (run nofiles [.opened (b!"a.csv"), .ran q1, .opened (b!"b.csv"), .ran q2]).files (b!"b.csv") = [] := by decide +kernel
example : (run nofiles [.opened (b!"a.csv"), .closed, .ran q1]).files (b!"a.csv") = schema := by decide +kernel

/-- **C148, not in full.** The name of the file of the database is not escaped: with a quote in it the log does not read back. -/
theorem c148_name_partial : ∃ q : Query, 0 ∉ q.sql ∧ q.sql.length ≤ 200000 ∧
    Spec.read ((run nofiles [.opened (b!"a.csv"), .ran q]).files (b!"a.csv")) = none :=
  ⟨⟨b!"a\"b", b!"COMMIT;", 0⟩, by decide +kernel⟩

/-- **C148, not in full.** What is after a NUL in a query is not in the log: other queries have the same record. -/
theorem c148_nul_partial (db x y z : Bytes) (n : Nat) (hx : 0 ∉ x) (h1 : x.head?.any isSpace = false) (hne : x ≠ [])
    (hl : x.length < 200000) :
    csvRow ⟨db, x ++ 0 :: y, n⟩ = csvRow ⟨db, x ++ 0 :: z, n⟩ := by
  have key : ∀ y : Bytes, cstr (trim ((x ++ 0 :: y).take 200000)) = x := by
    intro y
    have e : (x ++ 0 :: y).take 200000 = x ++ 0 :: y.take (200000 - x.length - 1) := by
      rw [List.take_append, List.take_of_length_le (Nat.le_of_lt hl)]
      obtain ⟨k, hk⟩ : ∃ k, 200000 - x.length = k + 1 := ⟨200000 - x.length - 1, by omega⟩
      rw [hk, List.take_succ_cons, Nat.add_sub_cancel]
    rw [e]
    generalize y.take (200000 - x.length - 1) = w
    have hd : ∀ w : Bytes, (x ++ 0 :: w).dropWhile isSpace = x ++ 0 :: w := by
      intro w
      cases x with
      | nil => exact absurd rfl hne
      | cons a x =>
        rw [List.cons_append, List.dropWhile_cons]
        simp at h1
        simp [h1]
    have ht : ∀ w : Bytes, ∃ v, trim (x ++ 0 :: w) = x ++ 0 :: v := by
      intro w
      unfold trim
      rw [hd]
      have hr : (x ++ 0 :: w).reverse = w.reverse ++ 0 :: x.reverse := by simp
      rw [hr]
      have : ∀ u : Bytes, ∃ v, (u ++ 0 :: x.reverse).dropWhile isSpace = v ++ 0 :: x.reverse := by
        intro u
        induction u with
        | nil => exact ⟨[], by simp [isSpace]⟩
        | cons a u ih =>
          rw [List.cons_append, List.dropWhile_cons]
          by_cases ha : isSpace a = true
          · rw [if_pos ha]; exact ih
          · rw [if_neg ha]; exact ⟨a :: u, rfl⟩
      obtain ⟨v, hv⟩ := this w.reverse
      rw [hv]
      exact ⟨v.reverse, by simp⟩
    obtain ⟨v, hv⟩ := ht w
    rw [hv]
    unfold cstr
    rw [List.takeWhile_append_of_pos]
    · simp
    · intro c hc
      have : c ≠ 0 := fun h0 => hx (h0 ▸ hc)
      simpa using this
  unfold csvRow escape
  have := key y
  have h2 := key z
  unfold Redact.maxLogQuerySize
  dsimp only
  rw [this, h2]

example : (0 : UInt8) ∉ b!"SELECT '" ∧ (b!"SELECT '").head?.any isSpace = false ∧ (b!"SELECT '").length < 200000 := by decide +kernel

end Bedrock.QueryLog.Props
