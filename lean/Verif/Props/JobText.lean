import Verif.Model.JobText
import Verif.Model.Jobs
import Verif.Props.Status
import Verif.Props.Param
import Verif.Props.Control

/-!
# C121: a worker is given the job that was created, and an answer that is lost puts it back
-/

namespace Bedrock.JobText.Props
open Bedrock Bedrock.Text Bedrock.Http Bedrock.Json Bedrock.Json.Spec Bedrock.Json.Props Bedrock.Status.Props
open Bedrock.JobText

/-! ## What is accepted and stored -/

theorem obj_len {nv x : Bytes} {ms : List (Bytes × Bytes)} (h : Obj nv x ms) : 2 ≤ x.length := by
  cases h <;> simp

theorem foldl_set_ne : ∀ (ms : List (Bytes × Bytes)) (t : Table), (ms ≠ [] ∨ t ≠ []) →
    ms.foldl (fun t e => t.set e.1 e.2) t ≠ []
  | [], t, h => by
    rcases h with h | h
    · exact absurd rfl h
    · exact h
  | e :: ms, t, _ => by
    refine foldl_set_ne ms _ (.inr ?_)
    cases t with
    | nil => simp [Table.set]
    | cons a t =>
      dsimp only
      unfold Table.set
      split
      · simp
      · split <;> simp

/-- **C121** A JSON object with a member, and `{}`, are accepted as the data of a job. -/
theorem c121_accepted (job : Table) (x : Bytes) (ms : List (Bytes × Bytes)) (hj : job.find (b!"data") = some x)
    (h : Obj (str "null") x ms) (hn : ms ≠ [] ∨ x = b!"{}") : dataOk job = .ok true := by
  unfold dataOk
  rw [hj]
  dsimp only
  have hr := c30_object_read (str "null") x [] [] ms h blank_nil blank_nil
  simp only [List.nil_append, List.append_nil] at hr
  rw [hr]
  rcases hn with hn | hn
  · have := foldl_set_ne ms [] (.inl hn)
    dsimp only
    rw [show (ms.foldl (fun t e => Table.set e.1 e.2 t) []).isEmpty = false by
      rw [Bool.eq_false_iff]; simpa using this]
    rfl
  · rw [hn]
    dsimp only
    simp


theorem parse_refused (x : Bytes) (h0 : x.head? ≠ some 0) (h : (ws x).head? ≠ some 123) :
    parseObject (str "null") x = .ok [] := by
  unfold parseObject
  split
  · rfl
  rename_i hl
  rw [if_neg (by cases x with
    | nil => simp at hl
    | cons c x => simpa using h0)]
  cases hw : ws x with
  | nil => rfl
  | cons c t =>
    rw [hw] at h
    have hc : c ≠ 123 := fun e => h (by rw [e]; rfl)
    split
    · rename_i heq
      split at heq
      · rename_i he; cases he
      · rename_i he; injection he with he _; exact absurd he hc
      · cases heq
    · rfl
    · rename_i heq
      split at heq
      · cases heq
      · rename_i he; injection he with he _; exact absurd he hc
      · cases heq
    · rename_i heq
      split at heq
      · cases heq
      · rename_i he; injection he with he _; exact absurd he hc
      · cases heq

/-- **C121** Data that does not begin like an object is refused. -/
theorem c121_refused (job : Table) (x : Bytes) (hj : job.find (b!"data") = some x) (h0 : x.head? ≠ some 0)
    (h : (ws x).head? ≠ some 123) : dataOk job = .ok false := by
  have hne : x ≠ b!"{}" := by rintro rfl; exact h (by decide +kernel)
  have hp := parse_refused x h0 h
  unfold dataOk
  rw [hj]
  dsimp only
  rw [hp]
  simp [hne]

example : peekOne [(b!"data", b!"[1]"), (b!"name", b!"n")] = .throws 402 := by decide +kernel

/-- **C121** Unless it is mocked, a job is stored with the data it came with, byte for byte; without data, with `{}`. -/
theorem c121_stored (isFloat : Bytes → Bool) (job : Table) :
    storedData isFloat false job = some (if job.get (b!"data") = [] then b!"{}" else job.get (b!"data")) := by
  unfold storedData
  dsimp only
  rw [if_neg (by decide)]
  cases h : job.get (b!"data") <;> simp

/-- **C121** A mocked job is stored with the members it came with, and marked. -/
theorem c121_mocked (isFloat : Bytes → Bool) (hF : ∀ v, isFloat v = true → Number v) (job : Table) (x : Bytes)
    (ms : List (Bytes × Bytes)) (hj : job.find (b!"data") = some x) (h : Obj (str "null") x ms)
    (hk : ∀ e ∈ ms, PlainName e.1 ∧ Kept false e.2) :
    ∃ (y : Bytes) (t : Table), storedData isFloat true job = some y ∧ Obj (str "null") y t ∧ parseObject (str "null") y = .ok t ∧
      t.find (b!"mockRequest") = some (b!"true") ∧
      ∀ n, sToLower n ≠ sToLower (b!"mockRequest") →
        t.find n = (ms.foldl (fun (t : Table) e => t.set e.1 e.2) []).find n := by
  have hr := c30_object_read (str "null") x [] [] ms h blank_nil blank_nil
  simp only [List.nil_append, List.append_nil] at hr
  have g0 : GoodTable [] := ⟨by unfold Table.Sorted; simp, by simp⟩
  have g1 := fold_good ms [] g0 hk
  have g2 := fold_good [(b!"mockRequest", b!"true")] _ g1 (by
    intro e he
    rw [List.mem_singleton.mp he]
    exact ⟨by unfold PlainName; dsimp only; decide, kept_flag false true⟩)
  obtain ⟨y, y1, y2, y3, _⟩ := c30_object_partial isFloat hF false _ g2.1 g2.2
  refine ⟨y, _, ?_, y2, y3, ?_, ?_⟩
  · unfold storedData
    have hg : job.get (b!"data") = x := by unfold Table.get; rw [hj]; rfl
    dsimp only
    rw [hg, if_pos rfl, if_neg (by have := obj_len h; cases x <;> simp at this ⊢), hr]
    exact y1
  · show Table.find _ (Table.set _ _ _) = _
    rw [Table.find_set _ _ _ _ g1.1, if_pos rfl]
  · intro n hn
    show Table.find _ (Table.set _ _ _) = _
    rw [Table.find_set _ _ _ _ g1.1, if_neg hn]

/-- **C121** `CreateJobs` takes an array of objects that have the word `name` in them, and works on their members. -/
theorem c121_many (request : Table) (x : Bytes) (xs : List Bytes) (hj : request.find (b!"jobs") = some x)
    (h : Arr (str "null") x xs) (hne : xs ≠ [])
    (hx : ∀ y ∈ xs, sContains y (b!"name") = true ∧ ∃ ms, ms ≠ [] ∧ Obj (str "null") y ms)
    (hd : ∀ y ∈ xs, ∀ t, parseObject (str "null") y = .ok t → dataOk t = .ok true) :
    ∃ ts, peekMany request = .accept ts ∧ xs.map (parseObject (str "null")) = ts.map .ok := by
  have hr := c30_array_read (str "null") x [] [] xs h blank_nil blank_nil
  simp only [List.nil_append, List.append_nil] at hr
  have key : ∀ ys : List Bytes, (∀ y ∈ ys, y ∈ xs) → ∃ ts, jobsOf ys = .accept ts ∧
      ys.map (parseObject (str "null")) = ts.map .ok ∧ ∀ t ∈ ts, dataOk t = .ok true := by
    intro ys
    induction ys with
    | nil => intro _; exact ⟨[], rfl, rfl, by simp⟩
    | cons y ys ih =>
      intro hy
      obtain ⟨ts, i1, i2, i3⟩ := ih fun z hz => hy z (by simp [hz])
      obtain ⟨hn, ms, hm, ho⟩ := hx y (hy y (by simp))
      have hp := c30_object_read (str "null") y [] [] ms ho blank_nil blank_nil
      simp only [List.nil_append, List.append_nil] at hp
      refine ⟨ms.foldl (fun t e => t.set e.1 e.2) [] :: ts, ?_, by rw [List.map_cons, List.map_cons, hp, i2], ?_⟩
      · unfold jobsOf
        rw [hp]
        dsimp only
        rw [if_neg (by simpa using foldl_set_ne ms [] (.inl hm)), if_neg (by rw [hn]; decide), i1]
      · intro t ht
        rcases List.mem_cons.mp ht with rfl | ht
        · exact hd y (hy y (by simp)) _ hp
        · exact i3 t ht
  obtain ⟨ts, h1, h2, h3⟩ := key xs fun _ h => h
  have hc : ∀ js rest, (∀ t ∈ rest, dataOk t = .ok true) → checkAll js rest = .accept js := by
    intro js rest
    induction rest with
    | nil => intro _; rfl
    | cons t rest ih =>
      intro h
      unfold checkAll
      rw [h t (by simp)]
      exact ih fun t ht => h t (by simp [ht])
  refine ⟨ts, ?_, h2⟩
  unfold peekMany
  have hg : request.get (b!"jobs") = x := by unfold Table.get; rw [hj]; rfl
  rw [hg, hr]
  dsimp only
  rw [if_neg (by simpa using hne), h1]
  exact hc ts ts h3

/-- **C121** `CreateJob` is refused unless its name has 1 to 255 bytes. -/
theorem c121_name_length (request : Table) (h : (request.get (b!"name")).length = 0 ∨ 255 < (request.get (b!"name")).length) :
    peekOne request = .throws 402 := by
  unfold peekOne
  dsimp only
  split
  · rfl
  · rw [if_pos (by omega)]

/-- **C121** With such a name, and with no data or with an object, it is taken as it came. -/
theorem c121_one (request : Table) (h1 : 1 ≤ (request.get (b!"name")).length) (h2 : (request.get (b!"name")).length ≤ 255)
    (hd : request.find (b!"data") = none ∨ ∃ x ms, request.find (b!"data") = some x ∧ Obj (str "null") x ms ∧
      (ms ≠ [] ∨ x = b!"{}")) : peekOne request = .accept [request] := by
  have : dataOk request = .ok true := by
    rcases hd with hd | ⟨x, ms, hx, ho, hn⟩
    · unfold dataOk; rw [hd]
    · exact c121_accepted request x ms hx ho hn
  unfold peekOne
  dsimp only
  rw [if_neg (by omega), if_neg (by omega)]
  simp [checkAll, this]

/-- **C121** Data that does not begin like an object is refused with the job. -/
theorem c121_one_refused (request : Table) (x : Bytes) (hj : request.find (b!"data") = some x) (h0 : x.head? ≠ some 0)
    (h : (ws x).head? ≠ some 123) : peekOne request = .throws 402 := by
  have := c121_refused request x hj h0 h
  unfold peekOne
  dsimp only
  split
  · rfl
  split
  · rfl
  · simp [checkAll, this]

/-- **C121** A list of jobs one of which is no object, or an empty one, is refused as a whole; so is an empty list. -/
theorem c121_many_refused (request : Table) (x : Bytes) (xs : List Bytes) (hj : request.find (b!"jobs") = some x)
    (h : Arr (str "null") x xs)
    (hx : xs = [] ∨ ∃ y ∈ xs, y.head? ≠ some 0 ∧ ((ws y).head? ≠ some 123 ∨ Obj (str "null") y [])) :
    ∀ ts, peekMany request ≠ .accept ts := by
  have hr := c30_array_read (str "null") x [] [] xs h blank_nil blank_nil
  simp only [List.nil_append, List.append_nil] at hr
  have hg : request.get (b!"jobs") = x := by unfold Table.get; rw [hj]; rfl
  intro ts ht
  unfold peekMany at ht
  rw [hg, hr] at ht
  dsimp only at ht
  rcases hx with rfl | ⟨y, hy, h0, hn⟩
  · simp at ht
  · have hp : parseObject (str "null") y = .ok [] := by
      rcases hn with hn | hn
      · exact parse_refused y h0 hn
      · have := c30_object_read (str "null") y [] [] [] hn blank_nil blank_nil
        simpa using this
    have key : ∀ ys : List Bytes, y ∈ ys → ∀ ts, jobsOf ys ≠ .accept ts := by
      intro ys
      induction ys with
      | nil => intro h; cases h
      | cons z ys ih =>
        intro hm ts hj
        unfold jobsOf at hj
        rcases List.mem_cons.mp hm with rfl | hm
        · rw [hp] at hj; simp at hj
        · split at hj
          · cases hj
          · split at hj
            · cases hj
            · split at hj
              · cases hj
              · split at hj
                · rename_i hh; exact ih hm _ hh
                · rename_i hne; exact hne _ hj
    split at ht
    · cases ht
    · split at ht
      · rename_i hh; exact key xs hy _ hh
      · rename_i hne; exact hne _ ht

/-- **C121** Which code the refusal carries is decided by the first job that is not acceptable: 401 if it is no object or an
empty one, 402 if it is an object in whose text "name" does not occur; an empty list gives 401. -/
theorem c121_many_code (request : Table) (x : Bytes) (pre post : List Bytes) (y : Bytes)
    (hpre : ∀ z ∈ pre, b!"name" <:+: z ∧ ∃ ms, ms ≠ [] ∧ Obj (str "null") z ms) :
    (request.find (b!"jobs") = some x → Arr (str "null") x [] → peekMany request = .throws 401) ∧
    (request.find (b!"jobs") = some x → Arr (str "null") x (pre ++ y :: post) → y.head? ≠ some 0 →
      ((ws y).head? ≠ some 123 ∨ Obj (str "null") y []) → peekMany request = .throws 401) ∧
    (request.find (b!"jobs") = some x → Arr (str "null") x (pre ++ y :: post) →
      (∃ ms, ms ≠ [] ∧ Obj (str "null") y ms) → ¬ b!"name" <:+: y → peekMany request = .throws 402) := by
  have hr : ∀ xs, Arr (str "null") x xs → parseArray (str "null") x = .ok xs := by
    intro xs h
    simpa using c30_array_read (str "null") x [] [] xs h blank_nil blank_nil
  have hg : request.find (b!"jobs") = some x → request.get (b!"jobs") = x := by
    intro hj; unfold Table.get; rw [hj]; rfl
  have hob : ∀ z ms, ms ≠ [] → Obj (str "null") z ms → ∃ t, parseObject (str "null") z = .ok t ∧ t.isEmpty = false := by
    intro z ms hm ho
    have hp := c30_object_read (str "null") z [] [] ms ho blank_nil blank_nil
    simp only [List.nil_append, List.append_nil] at hp
    exact ⟨_, hp, by simpa using foldl_set_ne ms [] (.inl hm)⟩
  have key : ∀ (c : Nat) (pre : List Bytes), (∀ z ∈ pre, b!"name" <:+: z ∧ ∃ ms, ms ≠ [] ∧ Obj (str "null") z ms) →
      jobsOf (y :: post) = .throws c → jobsOf (pre ++ y :: post) = .throws c := by
    intro c pre
    induction pre with
    | nil => intro _ h; exact h
    | cons z pre ih =>
      intro hz h
      obtain ⟨hn, ms, hm, ho⟩ := hz z List.mem_cons_self
      obtain ⟨t, hp, ht⟩ := hob z ms hm ho
      have := ih (fun z h => hz z (List.mem_cons_of_mem _ h)) h
      rw [List.cons_append]
      unfold jobsOf
      rw [hp]
      dsimp only
      rw [ht, sContains_iff.mpr hn, this]
      simp
  have fin : ∀ c, request.find (b!"jobs") = some x → Arr (str "null") x (pre ++ y :: post) →
      jobsOf (y :: post) = .throws c → peekMany request = .throws c := by
    intro c hj ha h
    unfold peekMany
    rw [hg hj, hr _ ha]
    dsimp only
    rw [if_neg (by simp), key c pre hpre h]
  refine ⟨fun hj ha => ?_, fun hj ha h0 hn => fin 401 hj ha ?_, fun hj ha ⟨ms, hm, ho⟩ hn => fin 402 hj ha ?_⟩
  · unfold peekMany
    rw [hg hj, hr _ ha]
    rfl
  · have hp : parseObject (str "null") y = .ok [] := by
      rcases hn with hn | hn
      · exact parse_refused y h0 hn
      · have := c30_object_read (str "null") y [] [] [] hn blank_nil blank_nil
        simpa using this
    unfold jobsOf
    rw [hp]
    rfl
  · obtain ⟨t, hp, ht⟩ := hob y ms hm ho
    unfold jobsOf
    rw [hp]
    dsimp only
    have : sContains y (b!"name") = false := by
      cases h : sContains y (b!"name")
      · rfl
      · exact absurd (sContains_iff.mp h) hn
    rw [ht, this]
    rfl

/-- A second job that is a number gives 401 and one without a name gives 402. -/
example : peekMany [(b!"jobs", b!"[{\"name\":\"n\"},7]")] = .throws 401 ∧
    peekMany [(b!"jobs", b!"[{\"name\":\"n\"},{\"data\":{}}]")] = .throws 402 := by
  decide +kernel

/-! ## What a worker is given -/

/-- A child is shown with its number and its data. -/
def childTable (c : Child) : Table := [(b!"data", c.data), (b!"jobID", natDec c.jobID)]

/-- What comes from outside and is written into the answer survives being written, and the data is a JSON object. -/
structure Good (i : Item) : Prop where
  name : Kept false i.row.name
  nul : 0 ∉ i.row.data
  data : ∃ ms, Obj (str "null") i.row.data ms
  retryAfter : Kept false i.row.retryAfter
  created : Kept false i.row.created
  rep : Kept false i.row.rep
  lastRun : Kept false i.row.lastRun
  nextRun : Kept false i.row.nextRun
  parentData : Kept false i.parentData
  children : ∀ c ∈ i.children, Kept false c.data

/-- The text `x` is an object that says the job `i`, and nothing else. -/
structure Says (x : Bytes) (i : Item) : Prop where
  reads : ∃ t : Table, Obj (str "null") x t ∧ parseObject (str "null") x = .ok t ∧
    t.find (b!"jobID") = some (natDec i.row.jobID) ∧
    t.find (b!"name") = some i.row.name ∧
    t.find (b!"data") = some i.row.data ∧
    t.find (b!"retryAfter") = some i.row.retryAfter ∧
    t.find (b!"created") = some i.row.created ∧
    t.find (b!"repeat") = some i.row.rep ∧
    t.find (b!"lastRun") = some i.row.lastRun ∧
    t.find (b!"nextRun") = some i.row.nextRun ∧
    t.find (b!"priority") = some (intDec i.row.priority) ∧
    (i.row.parentJobID ≠ 0 → t.find (b!"parentJobID") = some (natDec i.row.parentJobID) ∧
      t.find (b!"parentData") = some i.parentData) ∧
    (i.children ≠ [] → ∃ q xs q' xs',
      t.find (b!"finishedChildJobs") = some q ∧ parseArray (str "null") q = .ok xs ∧
      xs.map (parseObject (str "null")) = (i.children.filter (·.finished)).map (fun c => .ok (childTable c)) ∧
      t.find (b!"cancelledChildJobs") = some q' ∧ parseArray (str "null") q' = .ok xs' ∧
      xs'.map (parseObject (str "null")) = (i.children.filter (fun c => !c.finished)).map (fun c => .ok (childTable c)))

theorem childText_eq (isFloat : Bytes → Bool) (c : Child) : childText isFloat c = composeObject isFloat false (childTable c) := by
  unfold childText childTable
  rfl

theorem child_good (c : Child) (h : Kept false c.data) : GoodTable (childTable c) := by
  refine ⟨?_, ?_⟩
  · unfold childTable Table.Sorted
    simp only [List.pairwise_cons, List.mem_singleton, forall_eq, List.not_mem_nil, false_imp_iff, implies_true,
      List.Pairwise.nil, and_true]
    decide +kernel
  · intro e he
    unfold childTable at he
    simp only [List.mem_cons, List.not_mem_nil, or_false] at he
    rcases he with rfl | rfl
    · exact ⟨by unfold PlainName; dsimp only; decide, h⟩
    · exact ⟨by unfold PlainName; dsimp only; decide, kept_natDec _ _⟩

theorem children_ok (isFloat : Bytes → Bool) (hF : ∀ v, isFloat v = true → Number v) (cs : List Child)
    (h : ∀ c ∈ cs, Kept false c.data) : ∃ ys x, cs.mapM (childText isFloat) = some ys ∧ composeArray isFloat ys = some x ∧
      Kept false x ∧ parseArray (str "null") x = .ok ys ∧
      ys.map (parseObject (str "null")) = cs.map (fun c => .ok (childTable c)) := by
  obtain ⟨ys, h1, h2, h3⟩ := objs_ok isFloat hF (cs.map childTable) (by
    intro t ht
    obtain ⟨c, hc, rfl⟩ := List.mem_map.mp ht
    exact child_good c (h c hc))
  obtain ⟨x, x1, x2, x3⟩ := array_ok isFloat hF ys h2
  refine ⟨ys, x, ?_, x1, x2, x3, by rw [h3, List.map_map]; rfl⟩
  rw [← h1]
  clear h h1 h2 h3 x1 x2 x3
  induction cs with
  | nil => rfl
  | cons c cs ih => rw [List.mapM_cons, List.map_cons, List.mapM_cons, childText_eq, ih]

theorem row_good (i : Item) (h : Good i) : ∀ e ∈ rowFields i.row ++ parentFields i.row i.parentData,
    PlainName e.1 ∧ Kept false e.2 := by
  intro e he
  rcases List.mem_append.mp he with he | he
  · unfold rowFields at he
    simp only [List.mem_cons, List.not_mem_nil, or_false] at he
    rcases he with rfl | rfl | rfl | rfl | rfl | rfl | rfl | rfl | rfl
    all_goals refine ⟨by unfold PlainName; dsimp only; decide, ?_⟩
    · exact kept_natDec _ _
    · exact h.name
    · exact c30_nested _ h.nul (.inr h.data)
    · exact h.retryAfter
    · exact h.created
    · exact h.rep
    · exact h.lastRun
    · exact h.nextRun
    · exact kept_intDec _ _
  · unfold parentFields at he
    split at he
    · simp only [List.mem_cons, List.not_mem_nil, or_false] at he
      rcases he with rfl | rfl
      all_goals refine ⟨by unfold PlainName; dsimp only; decide, ?_⟩
      · exact kept_natDec _ _
      · exact h.parentData
    · cases he

theorem fields_nodup (r : Row) (p : Bytes) (js : List (Bytes × Bytes))
    (hj : js = [] ∨ ∃ a b, js = [(b!"finishedChildJobs", a), (b!"cancelledChildJobs", b)]) :
    ((rowFields r ++ parentFields r p ++ js).map (fun e => sToLower e.1)).Nodup := by
  unfold rowFields parentFields
  rcases hj with rfl | ⟨a, b, rfl⟩ <;> split <;>
    simp only [List.map_append, List.map_cons, List.map_nil] <;> decide +kernel

/-- **C121** (partial: see `c121_swallowed`.)  The text of a job says all its columns, its parent and its children. -/
theorem c121_says_partial (isFloat : Bytes → Bool) (hF : ∀ v, isFloat v = true → Number v) (i : Item) (h : Good i) :
    ∃ x, jobText isFloat i = some x ∧ 0 ∉ x ∧ Says x i := by
  obtain ⟨js, hc, hsh, hjk, hch⟩ : ∃ js, childFields isFloat i.children = some js ∧
      (js = [] ∨ ∃ a b, js = [(b!"finishedChildJobs", a), (b!"cancelledChildJobs", b)]) ∧
      (∀ e ∈ js, PlainName e.1 ∧ Kept false e.2) ∧
      (i.children ≠ [] → ∃ q xs q' xs', (b!"finishedChildJobs", q) ∈ js ∧ parseArray (str "null") q = .ok xs ∧
        xs.map (parseObject (str "null")) = (i.children.filter (·.finished)).map (fun c => .ok (childTable c)) ∧
        (b!"cancelledChildJobs", q') ∈ js ∧ parseArray (str "null") q' = .ok xs' ∧
        xs'.map (parseObject (str "null")) = (i.children.filter (fun c => !c.finished)).map (fun c => .ok (childTable c))) := by
    unfold childFields
    by_cases he : i.children = []
    · exact ⟨[], by rw [if_pos he], .inl rfl, by simp, fun hn => absurd he hn⟩
    · obtain ⟨ys, y, y1, y2, y3, y4, y5⟩ := children_ok isFloat hF (i.children.filter (·.finished))
        (fun c hc => h.children c (List.mem_filter.mp hc).1)
      obtain ⟨zs, z, z1, z2, z3, z4, z5⟩ := children_ok isFloat hF (i.children.filter (fun c => !c.finished))
        (fun c hc => h.children c (List.mem_filter.mp hc).1)
      refine ⟨[(b!"finishedChildJobs", y), (b!"cancelledChildJobs", z)], ?_, .inr ⟨_, _, rfl⟩, ?_,
        fun _ => ⟨y, ys, z, zs, by simp, y4, y5, by simp, z4, z5⟩⟩
      · rw [if_neg he, y1, z1]
        show (composeArray isFloat ys).bind _ = _
        rw [y2]
        show (composeArray isFloat zs).bind _ = _
        rw [z2]
        rfl
      · intro e he
        simp only [List.mem_cons, List.not_mem_nil, or_false] at he
        rcases he with rfl | rfl
        · exact ⟨by unfold PlainName; dsimp only; decide, y3⟩
        · exact ⟨by unfold PlainName; dsimp only; decide, z3⟩
  have hg : GoodTable ((rowFields i.row ++ parentFields i.row i.parentData ++ js).foldl
      (fun (t : Table) e => t.set e.1 e.2) []) := by
    refine fold_good _ _ ⟨by unfold Table.Sorted; simp, by simp⟩ ?_
    intro e he
    rcases List.mem_append.mp he with he | he
    · exact row_good i h e he
    · exact hjk e he
  obtain ⟨x, x1, x2, x3, x4⟩ := c30_object_partial isFloat hF false _ hg.1 hg.2
  have hfind := fold_find (rowFields i.row ++ parentFields i.row i.parentData ++ js) [] (by unfold Table.Sorted; simp)
    (fields_nodup i.row i.parentData js hsh)
  have hrow : ∀ n w, (n, w) ∈ rowFields i.row → _ := fun n w hm =>
    hfind n w (List.mem_append.mpr (.inl (List.mem_append.mpr (.inl hm))))
  have hpar : ∀ n w, (n, w) ∈ parentFields i.row i.parentData → _ := fun n w hm =>
    hfind n w (List.mem_append.mpr (.inl (List.mem_append.mpr (.inr hm))))
  have hjs : ∀ n w, (n, w) ∈ js → _ := fun n w hm => hfind n w (List.mem_append.mpr (.inr hm))
  refine ⟨x, ?_, x4, ⟨_, x2, x3, hrow _ _ (by simp [rowFields]), hrow _ _ (by simp [rowFields]), hrow _ _ (by simp [rowFields]),
    hrow _ _ (by simp [rowFields]), hrow _ _ (by simp [rowFields]), hrow _ _ (by simp [rowFields]), hrow _ _ (by simp [rowFields]),
    hrow _ _ (by simp [rowFields]), hrow _ _ (by simp [rowFields]), ?_, ?_⟩⟩
  · unfold jobText
    rw [hc]
    exact x1
  · intro hp
    exact ⟨hpar _ _ (by simp [parentFields, hp]), hpar _ _ (by simp [parentFields, hp])⟩
  · intro hn
    obtain ⟨q, xs, q', xs', c1, c2, c3, c4, c5, c6⟩ := hch hn
    exact ⟨q, xs, q', xs', hjs _ _ c1, c2, c3, hjs _ _ c4, c5, c6⟩

/-- The lists say the same jobs in the same order. -/
inductive AllSay : List Bytes → List Item → Prop
  | nil : AllSay [] []
  | cons {x i xs is} : Says x i → AllSay xs is → AllSay (x :: xs) (i :: is)

/-- The number under which a job counts how often it was taken, `0` if it does not. -/
def tries (i : Item) : Int :=
  match parseObject (str "null") i.row.data with
  | .ok t => toInt32 (strtoll (cstr ((t.find (b!"retryAfterCount")).getD [])))
  | .abort => 0

theorem worn_eq (i : Item) (h : Good i) : worn i = some (decide (10 ≤ tries i)) := by
  obtain ⟨ms, hm⟩ := h.data
  have hr := c30_object_read (str "null") _ [] [] ms hm blank_nil blank_nil
  simp only [List.nil_append, List.append_nil] at hr
  unfold worn tries
  rw [hr]
  rfl

theorem jobList_ok (isFloat : Bytes → Bool) (hF : ∀ v, isFloat v = true → Number v) : ∀ is : List Item,
    (∀ i ∈ is, Good i) → ∃ xs, jobList isFloat is = some xs ∧ (∀ x ∈ xs, 0 ∉ x ∧ Kept false x) ∧
      AllSay xs (is.filter fun i => decide (tries i < 10))
  | [], _ => ⟨[], rfl, by simp, .nil⟩
  | i :: is, h => by
    obtain ⟨x, h1, h2, h3⟩ := c121_says_partial isFloat hF i (h i (by simp))
    obtain ⟨xs, i1, i2, i3⟩ := jobList_ok isFloat hF is (fun i hi => h i (by simp [hi]))
    have hw := worn_eq i (h i (by simp))
    refine ⟨if 10 ≤ tries i then xs else x :: xs, ?_, ?_, ?_⟩
    · unfold jobList
      rw [h1, hw, i1]
      show some (if decide (10 ≤ tries i) = true then xs else x :: xs) = _
      simp only [decide_eq_true_eq]
    · intro y hy
      split at hy
      · exact i2 y hy
      · rcases List.mem_cons.mp hy with rfl | hy
        · obtain ⟨t, ht, _⟩ := h3.reads
          exact ⟨h2, c30_nested _ h2 (.inr ⟨_, ht⟩)⟩
        · exact i2 y hy
    · rw [List.filter_cons]
      split
      · rw [if_neg (by rw [decide_eq_true_eq]; omega)]; exact i3
      · rw [if_pos (by rw [decide_eq_true_eq]; omega)]; exact .cons h3 i3

/-- **C121** `GetJob`: the worker reads the job it is given, unless that was taken ten times: then it reads an empty
object. -/
theorem c121_get (isFloat : Bytes → Bool) (hF : ∀ v, isFloat v = true → Number v) (i : Item) (h : Good i) :
    ∃ x, getJob isFloat [i] = some (some x) ∧
      if tries i < 10 then Says x i else parseObject (str "null") x = .ok [] := by
  obtain ⟨xs, h1, _, h3⟩ := jobList_ok isFloat hF [i] (by simpa using h)
  unfold getJob
  rw [h1]
  by_cases ht : tries i < 10
  · rw [List.filter_cons, if_pos (by simpa using ht)] at h3
    cases h3 with
    | cons hs hn =>
      cases hn
      exact ⟨_, rfl, by rw [if_pos ht]; exact hs⟩
  · rw [List.filter_cons, if_neg (by simpa using ht)] at h3
    cases h3
    exact ⟨_, rfl, by rw [if_neg ht]; decide +kernel⟩

/-- **C121** `GetJobs`: the worker reads the jobs it is given, in their order. -/
theorem c121_get_many (isFloat : Bytes → Bool) (hF : ∀ v, isFloat v = true → Number v) (is : List Item)
    (h : ∀ i ∈ is, Good i) : ∃ x a xs, getJobs isFloat is = some x ∧ parseObject (str "null") x = .ok [(b!"jobs", a)] ∧
      parseArray (str "null") a = .ok xs ∧ AllSay xs (is.filter fun i => decide (tries i < 10)) := by
  obtain ⟨xs, h1, h2, h3⟩ := jobList_ok isFloat hF is h
  obtain ⟨a, a1, a2, a3⟩ := array_ok isFloat hF xs (fun x hx => (h2 x hx).2)
  obtain ⟨x, x1, _, x3, _⟩ := c30_object_partial isFloat hF false [(b!"jobs", a)] (by unfold Table.Sorted; simp) (by
    intro e he
    rw [List.mem_singleton.mp he]
    exact ⟨by unfold PlainName; dsimp only; decide, a2⟩)
  refine ⟨x, a, xs, ?_, x3, a3, h3⟩
  unfold getJobs
  rw [h1]
  show (composeArray isFloat xs).bind _ = _
  rw [a1]
  exact x1

/-- **C121** `QueryJob` says all the columns of the job. -/
theorem c121_query (isFloat : Bytes → Bool) (hF : ∀ v, isFloat v = true → Number v) (i : Item) (h : Good i) (state : Bytes)
    (hs : Kept false state) : ∃ x t, queryJob isFloat i.row state = some x ∧ parseObject (str "null") x = .ok t ∧
      t.find (b!"state") = some state ∧ t.find (b!"jobID") = some (natDec i.row.jobID) ∧
      t.find (b!"name") = some i.row.name ∧ t.find (b!"data") = some i.row.data ∧
      t.find (b!"retryAfter") = some i.row.retryAfter ∧ t.find (b!"created") = some i.row.created ∧
      t.find (b!"repeat") = some i.row.rep ∧ t.find (b!"lastRun") = some i.row.lastRun ∧
      t.find (b!"nextRun") = some i.row.nextRun ∧ t.find (b!"priority") = some (intDec i.row.priority) := by
  let fs : List (Bytes × Bytes) := [ (b!"created", i.row.created), (b!"jobID", natDec i.row.jobID), (b!"state", state),
    (b!"name", i.row.name), (b!"nextRun", i.row.nextRun), (b!"lastRun", i.row.lastRun), (b!"repeat", i.row.rep),
    (b!"data", i.row.data), (b!"retryAfter", i.row.retryAfter), (b!"priority", intDec i.row.priority) ]
  have hg : GoodTable (fs.foldl (fun (t : Table) e => t.set e.1 e.2) []) := by
    refine fold_good _ _ ⟨by unfold Table.Sorted; simp, by simp⟩ ?_
    intro e he
    simp only [fs, List.mem_cons, List.not_mem_nil, or_false] at he
    rcases he with rfl | rfl | rfl | rfl | rfl | rfl | rfl | rfl | rfl | rfl
    all_goals refine ⟨by unfold PlainName; dsimp only; decide, ?_⟩
    · exact h.created
    · exact kept_natDec _ _
    · exact hs
    · exact h.name
    · exact h.nextRun
    · exact h.lastRun
    · exact h.rep
    · exact c30_nested _ h.nul (.inr h.data)
    · exact h.retryAfter
    · exact kept_intDec _ _
  obtain ⟨x, x1, _, x3, _⟩ := c30_object_partial isFloat hF false _ hg.1 hg.2
  have hf := fold_find fs [] (by unfold Table.Sorted; simp) (by
    simp only [fs, List.map_cons, List.map_nil]; decide +kernel)
  exact ⟨x, _, x1, x3, hf _ _ (by simp [fs]), hf _ _ (by simp [fs]), hf _ _ (by simp [fs]), hf _ _ (by simp [fs]),
    hf _ _ (by simp [fs]), hf _ _ (by simp [fs]), hf _ _ (by simp [fs]), hf _ _ (by simp [fs]), hf _ _ (by simp [fs]),
    hf _ _ (by simp [fs])⟩

/-! ## An answer that was lost -/

theorem ids_ok {xs : List Bytes} {is : List Item} (h : AllSay xs is) :
    idsOf xs = .ok (is.map fun i => natDec i.row.jobID) := by
  induction h with
  | nil => rfl
  | cons hs _ ih =>
    obtain ⟨t, _, h2, h3, _⟩ := hs.reads
    unfold idsOf idOf
    rw [h2, ih]
    dsimp only
    rw [h3]
    rfl

theorem requeued_ok (ns : List Nat) (h : ∀ n ∈ ns, n < 2 ^ 63) :
    requeued (composeList (ns.map natDec) [44, 32]) = ns.map Int.ofNat := by
  unfold requeued Edit.parseInts
  have hd : ∀ n, ∀ c ∈ natDec n, 48 ≤ c ∧ c ≤ 57 := fun n => (natDec_number n).2
  have := Text.Props.c29_round_trip (ns.map natDec) 44 1 (by decide) (by
    intro e he
    obtain ⟨n, _, rfl⟩ := List.mem_map.mp he
    refine ⟨natDec_ne_nil n, ?_, ?_, ?_⟩
    · intro hh
      have := hd n 32 (List.mem_of_mem_head? hh)
      exact absurd this (by decide)
    · intro hm; exact absurd (hd n 44 hm) (by decide)
    · intro hm; exact absurd (hd n 0 hm) (by decide))
  rw [show ([44, 32] : Bytes) = 44 :: List.replicate 1 32 from rfl, this, List.map_map]
  refine List.map_congr_left fun n hn => ?_
  exact Deadline.Props.strtoll_natDec n (by have := h n hn; omega)

/-- **C121** If the answer of a `GetJob` cannot be delivered, the job in it is asked to be put back. -/
theorem c121_lost (isFloat : Bytes → Bool) (hF : ∀ v, isFloat v = true → Number v) (i : Item) (h : Good i)
    (hid : i.row.jobID < 2 ^ 63) (line : Bytes) (hl : sToLower line = b!"getjob") :
    ∃ x ids, getJob isFloat [i] = some (some x) ∧ failedReply line x = .ok (some ids) ∧
      requeued ids = if tries i < 10 then [(i.row.jobID : Int)] else [] := by
  have h0 : 0 ∉ line := by
    intro h0
    have : toLower 0 ∈ sToLower line := List.mem_map.mpr ⟨0, h0, rfl⟩
    rw [hl] at this
    exact absurd this (by decide)
  have hq : sIEquals line (b!"GetJob") = true := by
    unfold sIEquals
    rw [cstr_eq h0, hl]
    decide +kernel
  obtain ⟨x, h1, h2⟩ := c121_get isFloat hF i h
  by_cases ht : tries i < 10
  · rw [if_pos ht] at h2
    obtain ⟨t, _, t1, t2, _⟩ := h2.reads
    refine ⟨x, composeList ([i.row.jobID].map natDec) [44, 32], h1, ?_, ?_⟩
    · unfold failedReply idOf
      rw [hq, t1]
      dsimp only
      rw [t2]
      rfl
    · rw [requeued_ok _ (by simpa using hid), if_pos ht]; rfl
  · rw [if_neg ht] at h2
    refine ⟨x, composeList [] [44, 32], h1, ?_, ?_⟩
    · unfold failedReply idOf
      rw [hq, h2]
      rfl
    · rw [if_neg ht]; decide +kernel

/-- **C121** If the answer of a `GetJobs` cannot be delivered, the jobs in it, and no others, are asked to be put back. -/
theorem c121_lost_many (isFloat : Bytes → Bool) (hF : ∀ v, isFloat v = true → Number v) (is : List Item)
    (h : ∀ i ∈ is, Good i) (hid : ∀ i ∈ is, i.row.jobID < 2 ^ 63) (line : Bytes) (hl : sToLower line = b!"getjobs") :
    ∃ x ids, getJobs isFloat is = some x ∧ failedReply line x = .ok (some ids) ∧
      requeued ids = (is.filter fun i => decide (tries i < 10)).map (fun i => (i.row.jobID : Int)) := by
  have h0 : 0 ∉ line := by
    intro h0
    have : toLower 0 ∈ sToLower line := List.mem_map.mpr ⟨0, h0, rfl⟩
    rw [hl] at this
    exact absurd this (by decide)
  have hq1 : sIEquals line (b!"GetJob") = false := by
    unfold sIEquals
    rw [cstr_eq h0, hl]
    decide +kernel
  have hq2 : sIEquals line (b!"GetJobs") = true := by
    unfold sIEquals
    rw [cstr_eq h0, hl]
    decide +kernel
  obtain ⟨x, a, xs, h1, h2, h3, h4⟩ := c121_get_many isFloat hF is h
  refine ⟨x, composeList (((is.filter fun i => decide (tries i < 10)).map (·.row.jobID)).map natDec) [44, 32], h1, ?_, ?_⟩
  · unfold failedReply
    rw [hq1, hq2, if_neg (by decide), if_pos rfl, h2]
    dsimp only
    have hg : Table.get (b!"jobs") [(b!"jobs", a)] = a := by unfold Table.get Table.find; rw [if_neg (by decide +kernel)]; rfl
    rw [hg, h3]
    dsimp only
    rw [ids_ok h4, List.map_map]
    rfl
  · rw [requeued_ok]
    · rw [List.map_map]; rfl
    · intro n hn
      obtain ⟨i, hi, rfl⟩ := List.mem_map.mp hn
      exact hid i (List.mem_filter.mp hi).1


/-- **C121** After that every job of the lost answer that is still there can be handed out again, and no other job is
touched. -/
theorem c121_back (isFloat : Bytes → Bool) (hF : ∀ v, isFloat v = true → Number v) (is : List Item)
    (h : ∀ i ∈ is, Good i) (hid : ∀ i ∈ is, i.row.jobID < 2 ^ 63) (line : Bytes) (hl : sToLower line = b!"getjobs")
    (db : Jobs.Table) : ∃ x ids, getJobs isFloat is = some x ∧ failedReply line x = .ok (some ids) ∧
      (∀ j ∈ Jobs.requeue (requeued ids) none true db, ∀ i ∈ is, tries i < 10 → j.id = i.row.jobID → j.state = .queued) ∧
      (∀ j ∈ db, (∀ i ∈ is, tries i < 10 → j.id ≠ i.row.jobID) → j ∈ Jobs.requeue (requeued ids) none true db) ∧
      (Jobs.requeue (requeued ids) none true db).map (·.id) = db.map (·.id) := by
  obtain ⟨x, ids, h1, h2, h3⟩ := c121_lost_many isFloat hF is h hid line hl
  refine ⟨x, ids, h1, h2, ?_, ?_, ?_⟩
  · intro j hj i hi ht he
    unfold Jobs.requeue at hj
    obtain ⟨k, hk, rfl⟩ := List.mem_map.mp hj
    split
    · rfl
    · rename_i hn
      rw [if_neg hn] at he
      refine absurd ?_ hn
      rw [h3]
      exact List.mem_map.mpr ⟨i, List.mem_filter.mpr ⟨hi, by simpa using ht⟩, he.symm⟩
  · intro j hj hn
    unfold Jobs.requeue
    refine List.mem_map.mpr ⟨j, hj, if_neg ?_⟩
    rw [h3]
    intro hm
    obtain ⟨i, hi, he⟩ := List.mem_map.mp hm
    have := List.mem_filter.mp hi
    exact hn i this.1 (by simpa using this.2) he.symm
  · unfold Jobs.requeue
    rw [List.map_map]
    refine List.map_congr_left fun j _ => ?_
    dsimp only [Function.comp]
    split <;> rfl

/-- **C121** Another command does not put jobs back. -/
theorem c121_only_get (line content : Bytes) (h0 : 0 ∉ line) (h1 : sToLower line ≠ b!"getjob")
    (h2 : sToLower line ≠ b!"getjobs") : failedReply line content = .ok none := by
  have q1 : sIEquals line (b!"GetJob") = false := by
    unfold sIEquals
    rw [cstr_eq h0]
    exact beq_eq_false_iff_ne.mpr fun h => h1 (by rw [h]; decide +kernel)
  have q2 : sIEquals line (b!"GetJobs") = false := by
    unfold sIEquals
    rw [cstr_eq h0]
    exact beq_eq_false_iff_ne.mpr fun h => h2 (by rw [h]; decide +kernel)
  unfold failedReply
  rw [q1, q2]
  rfl

/-- **C121** `CancelJob`, in any case and with nothing after it, is what cancels. -/
theorem c121_cancels (line : Bytes) (h0 : 0 ∉ line) : cancels line = true ↔ sToLower line = b!"canceljob" := by
  unfold cancels sIEquals
  rw [cstr_eq h0, beq_iff_eq, show cstr (b!"CancelJob") = b!"CancelJob" by decide +kernel,
    show sToLower (b!"CancelJob") = b!"canceljob" by decide +kernel]

/-! ## What a worker asks for -/

/-- **C121** Several names, written as a list, ask for the jobs with exactly these names. -/
theorem c121_names (glob : Bytes → Bytes → Bool) (names : List Bytes) (hl : 2 ≤ names.length)
    (h : ∀ e ∈ names, e ≠ [] ∧ e.head? ≠ some 32 ∧ 44 ∉ e ∧ 0 ∉ e) (name : Bytes) :
    wanted glob (composeList names [44, 32]) name = true ↔ name ∈ names := by
  have := Text.Props.c29_round_trip names 44 1 (by decide) h
  unfold wanted
  rw [show ([44, 32] : Bytes) = 44 :: List.replicate 1 32 from rfl, this]
  dsimp only
  rw [if_pos (by omega), List.contains_iff_mem]

/-- **C121** One name without a comma is a pattern. -/
theorem c121_pattern (glob : Bytes → Bytes → Bool) (pat name : Bytes) (h : 44 ∉ pat) :
    wanted glob pat name = glob pat name := by
  have : ∀ (s : Bytes) (p : ListParse), 44 ∉ s → p.done = [] → (s.foldl (ListParse.step 44) p).done = [] := by
    intro s
    induction s with
    | nil => intro p _ hp; exact hp
    | cons c s ih =>
      intro p hc hp
      refine ih _ (fun h => hc (by simp [h])) ?_
      unfold ListParse.step
      split
      · exact hp
      · rw [if_neg (fun h => hc (by simp [h]))]
        exact hp
  have hd := this (cstr pat) {} (fun hm => h ((List.takeWhile_sublist _).subset hm)) rfl
  unfold wanted parseList
  dsimp only
  rw [hd, if_neg]
  split <;> simp

/-- C121, violation: a job whose name is a list (`CreateJob` takes it) is never given to a worker that asks for its
name. -/
theorem c121_comma (glob : Bytes → Bytes → Bool) (name : Bytes) (h : 2 ≤ (parseList name 44).1.length) (hc : 44 ∈ name) :
    wanted glob name name = false := by
  unfold wanted
  dsimp only
  rw [if_pos (by omega)]
  rw [Bool.eq_false_iff]
  intro hm
  exact (Text.Props.c29_elements_partial name 44 name (List.contains_iff_mem.mp hm)).2.2 hc

example : peekOne [(b!"name", b!"send mail, now")] = .accept [[(b!"name", b!"send mail, now")]] ∧
    (parseList (b!"send mail, now") 44).1.length = 2 := by decide +kernel

/-! ## What is accepted though it is not JSON -/

/-- The text of an object ends with its bracket. -/
theorem obj_last {nv x : Bytes} {ms : List (Bytes × Bytes)} (h : Obj nv x ms) : x.getLast? = some 125 := by
  cases h <;> simp [List.getLast?_cons]

theorem not_json {x : Bytes} (h1 : x.head? = some 123) (h2 : 125 ∉ x) (nv v : Bytes) : ¬ Val nv x v := by
  intro h
  cases h with
  | tru => exact absurd h1 (by decide +kernel)
  | fls => exact absurd h1 (by decide +kernel)
  | nul => exact absurd h1 (by decide +kernel)
  | num hn =>
    obtain ⟨c, t, rfl, hc, _⟩ := number_head hn
    simp only [List.head?_cons, Option.some.injEq] at h1
    rw [h1] at hc
    exact absurd hc (by decide)
  | lit hb => simp at h1
  | arr ha => cases ha <;> simp at h1
  | obj ho => exact h2 (List.mem_of_mem_getLast? (obj_last ho))

/-- C121, violation: an object that is not closed is accepted as the data of a job, and stored as it is, though it is not
JSON. -/
theorem c121_unclosed : peekOne [(b!"data", b!"{\"a\":1"), (b!"name", b!"n")] =
      .accept [[(b!"data", b!"{\"a\":1"), (b!"name", b!"n")]] ∧
    storedData (fun _ => false) false [(b!"data", b!"{\"a\":1"), (b!"name", b!"n")] = some (b!"{\"a\":1") ∧
    ∀ nv v, ¬ Val nv (b!"{\"a\":1") v := by
  refine ⟨by decide +kernel, by decide +kernel, not_json (by decide) (by decide)⟩

/-- C121, violation: SQLite refuses to look into such a text.  So while such a job is among those that meet the other
conditions, every request for jobs fails that would be given any of them. -/
theorem c121_poisoned (extract : Bytes → Option Bool)
    (hx : ∀ d : Bytes, d.head? = some 123 → 125 ∉ d → extract d = none) (rows : List Row)
    (h : ∃ r ∈ rows, r.data = b!"{\"a\":1") : unmocked extract false rows = none := by
  obtain ⟨r, hr, hd⟩ := h
  have hm : ∀ rows : List Row, r ∈ rows → rows.mapM (fun r => (extract r.data).map fun b => (r, b)) = none := by
    intro rows
    induction rows with
    | nil => intro h; cases h
    | cons a rows ih =>
      intro h
      rw [List.mapM_cons]
      rcases List.mem_cons.mp h with rfl | h
      · rw [hd, hx _ (by decide) (by decide)]; rfl
      · rw [ih h]
        cases extract a.data <;> rfl
  unfold unmocked
  rw [if_neg (by decide), hm rows hr]
  rfl

/-- Without such a job exactly those that are not mocked are given. -/
theorem c121_unmocked (extract : Bytes → Option Bool) (mocked : Bytes → Bool) (rows : List Row)
    (h : ∀ r ∈ rows, extract r.data = some (mocked r.data)) :
    unmocked extract false rows = some (rows.filter fun r => !mocked r.data) := by
  have hm : ∀ rows : List Row, (∀ r ∈ rows, extract r.data = some (mocked r.data)) →
      rows.mapM (fun r => (extract r.data).map fun b => (r, b)) = some (rows.map fun r => (r, mocked r.data)) := by
    intro rows
    induction rows with
    | nil => intro _; rfl
    | cons a rows ih =>
      intro h
      rw [List.mapM_cons, h a (by simp), ih fun r hr => h r (by simp [hr])]
      rfl
  unfold unmocked
  rw [if_neg (by decide), hm rows h]
  show some _ = some _
  dsimp only
  rw [List.filter_map, List.map_map]
  congr 1
  simp [Function.comp_def]

/-- A job with the data `d`. -/
def sample (d : Bytes) : Item := { row := { jobID := 0, name := b!"n", data := d, priority := 0 } }

/-- `jobText` of a sample without numbers. -/
def sampleTable (d : Bytes) : Table :=
  [ (b!"created", []), (b!"data", d), (b!"jobID", b!"0"), (b!"lastRun", []), (b!"name", b!"n"), (b!"nextRun", []),
    (b!"priority", b!"0"), (b!"repeat", []), (b!"retryAfter", []) ]

theorem sample_text (d : Bytes) (hd : strtoll (cstr d) = 0) : jobText (fun _ => false) (sample d) =
    ((sampleTable d).mapM fun e => (toJSON0 e.2).map fun x => [34] ++ e.1 ++ [34, 58] ++ x).map
      fun xs => [123] ++ joined xs ++ [125] := by
  have : rowFields (sample d).row = [ (b!"jobID", b!"0"), (b!"name", b!"n"), (b!"data", d), (b!"retryAfter", []),
      (b!"created", []), (b!"repeat", []), (b!"lastRun", []), (b!"nextRun", []), (b!"priority", b!"0") ] := by
    unfold rowFields sample intDec
    dsimp only
    rw [if_neg (by decide), Int.natAbs_zero, natDec_zero]
  unfold jobText
  rw [this]
  show composeObject _ _ (sampleTable d) = _
  refine object0_eq _ ?_
  intro e he
  unfold sampleTable at he
  simp only [List.mem_cons, List.not_mem_nil, or_false] at he
  rcases he with rfl | rfl | rfl | rfl | rfl | rfl | rfl | rfl | rfl <;> first | exact hd | decide +kernel

/-- C121, violation: the data `{"a":{"b":1}` is accepted, and swallows the rest of the answer: the worker finds the number
of the job nowhere, and if the answer is lost the job is not put back. -/
theorem c121_swallowed :
    peekOne [(b!"data", b!"{\"a\":{\"b\":1}"), (b!"name", b!"n")] =
      .accept [[(b!"data", b!"{\"a\":{\"b\":1}"), (b!"name", b!"n")]] ∧
    ∃ x t, getJob (fun _ => false) [sample (b!"{\"a\":{\"b\":1}")] = some (some x) ∧ parseObject (str "null") x = .ok t ∧
      t.find (b!"jobID") = none ∧ failedReply (b!"GetJob") x = .ok (some []) := by
  refine ⟨by decide +kernel, ?_⟩
  have h := sample_text (b!"{\"a\":{\"b\":1}") (by decide +kernel)
  have hw : worn (sample (b!"{\"a\":{\"b\":1}")) = some false := by decide +kernel
  rw [show _ = some (b!"{\"created\":\"\",\"data\":{\"a\":{\"b\":1},\"jobID\":0,\"lastRun\":\"\",\"name\":\"n\",\"nextRun\":\"\",\"priority\":0,\"repeat\":\"\",\"retryAfter\":\"\"}") from
    (by decide +kernel : ((sampleTable (b!"{\"a\":{\"b\":1}")).mapM fun e => (toJSON0 e.2).map fun x =>
      [34] ++ e.1 ++ [34, 58] ++ x).map (fun xs => [123] ++ joined xs ++ [125]) = _)] at h
  refine ⟨b!"{\"created\":\"\",\"data\":{\"a\":{\"b\":1},\"jobID\":0,\"lastRun\":\"\",\"name\":\"n\",\"nextRun\":\"\",\"priority\":0,\"repeat\":\"\",\"retryAfter\":\"\"}",
    [(b!"created", []), (b!"data", b!"{\"a\":{\"b\":1},\"jobID\":0,\"lastRun\":\"\",\"name\":\"n\",\"nextRun\":\"\",\"priority\":0,\"repeat\":\"\",\"retryAfter\":\"\"}")], ?_, by decide +kernel, by decide +kernel, by decide +kernel⟩
  unfold getJob jobList
  rw [h, hw]
  rfl

/-- C121, violation: `{ }` is an object, but is refused. -/
theorem c121_blank : Obj (str "null") (b!"{ }") [] ∧ peekOne [(b!"data", b!"{ }"), (b!"name", b!"n")] = .throws 402 :=
  ⟨.empty (w := [32]) (by unfold Blank; decide), by decide +kernel⟩

/-- C121, violation: `CreateJobs` finds the name of a job anywhere in its text, so a job without a name is accepted; and
one with the name under `NAME` is not, though names of members are compared without case. -/
theorem c121_nameless :
    peekMany [(b!"jobs", b!"[{\"data\":{\"name\":1}}]")] = .accept [[(b!"data", b!"{\"name\":1}")]] ∧
    Table.get (b!"name") [(b!"data", b!"{\"name\":1}")] = [] ∧
    peekMany [(b!"jobs", b!"[{\"NAME\":\"n\"}]")] = .throws 402 ∧
    Table.get (b!"name") [(b!"NAME", b!"n")] = b!"n" := by
  decide +kernel

/-- C121, violation: a request is run for the first word of its line, but jobs are put back only if this is the whole
line.  And a `CancelJob` with more in its line is taken and does nothing. -/
theorem c121_line (content : Bytes) : runs (b!"GetJob HTTP/1.1") (b!"GetJob") = true ∧
    failedReply (b!"GetJob HTTP/1.1") content = .ok none ∧
    runs (b!"CancelJob HTTP/1.1") (b!"CancelJob") = true ∧ cancels (b!"CancelJob HTTP/1.1") = false :=
  ⟨by decide +kernel, c121_only_get _ _ (by decide +kernel) (by decide +kernel) (by decide +kernel), by decide +kernel, by decide +kernel⟩

/-- C121, violation: a name that is another way to write a literal is changed. -/
theorem c121_name_case : ∃ x t, jobText (fun _ => false) { (sample (b!"{}")) with
      row := { (sample (b!"{}")).row with name := b!"TRUE" } } = some x ∧
    parseObject (str "null") x = .ok t ∧ t.find (b!"name") = some (b!"true") := by
  have : jobText (fun _ => false) { (sample (b!"{}")) with row := { (sample (b!"{}")).row with name := b!"TRUE" } } =
    composeObject (fun _ => false) false ((sampleTable (b!"{}")).set (b!"name") (b!"TRUE")) := by
    have : rowFields { (sample (b!"{}")).row with name := b!"TRUE" } = [ (b!"jobID", b!"0"), (b!"name", b!"TRUE"),
        (b!"data", b!"{}"), (b!"retryAfter", []), (b!"created", []), (b!"repeat", []), (b!"lastRun", []),
        (b!"nextRun", []), (b!"priority", b!"0") ] := by
      unfold rowFields sample intDec
      dsimp only
      rw [if_neg (by decide), Int.natAbs_zero, natDec_zero]
    unfold jobText
    dsimp only
    rw [this]
    rfl
  rw [this, object0_eq _ (by decide +kernel)]
  exact ⟨_, _, rfl, rfl, by decide +kernel⟩

/-! ## The theorems apply -/

theorem kept_some : ∀ v ∈ [b!"www-prod/Mail", b!"+5 MINUTES", b!"2026-11-16 00:00:00", [], b!"HOURLY", b!"n"], Kept false v := by
  intro v hv
  have : 0 ∉ v ∧ (∀ w ∈ [str "true", str "false", str "null"], sToLower v = w → v = w) ∧ ¬ Bracketed v := by
    unfold Bracketed
    revert v
    decide +kernel
  exact kept_plain this.1 this.2.1 (.inr this.2.2)

/-- A nested object. -/
theorem obj_nested : Obj (str "null") (b!"{\"to\":{\"id\":7}}") [(b!"to", b!"{\"id\":7}")] := by
  have e : ∀ b : Bytes, b = b!"to" ∨ b = b!"id" → Body b ∧ unescape b 92 = b := by
    intro b hb
    exact plainName_read (by rcases hb with rfl | rfl <;> (unfold PlainName; decide))
  have inner : Obj (str "null") (b!"{\"id\":7}") [(b!"id", b!"7")] := by
    have := Mems.one (nv := str "null") (w := []) (b := b!"id") (w1 := []) (w2 := []) (x := b!"7") (w3 := []) blank_nil
      (e _ (.inr rfl)).1 blank_nil blank_nil (.num ⟨[], b!"7", [], [], .inl rfl, ⟨by decide, by decide⟩, .inl rfl, .inl rfl, rfl⟩)
      blank_nil
    rw [(e _ (.inr rfl)).2] at this
    exact .some this
  have := Mems.one (nv := str "null") (w := []) (b := b!"to") (w1 := []) (w2 := []) (x := b!"{\"id\":7}") (w3 := []) blank_nil
    (e _ (.inl rfl)).1 blank_nil blank_nil (.obj inner) blank_nil
  rw [(e _ (.inl rfl)).2] at this
  exact .some this

/-- A job with a parent, a finished and a cancelled child. -/
def family : Item :=
  { row := { jobID := 8123456789, name := b!"www-prod/Mail", data := b!"{\"to\":{\"id\":7}}", retryAfter := b!"+5 MINUTES",
             created := b!"2026-11-16 00:00:00", rep := b!"HOURLY", nextRun := b!"2026-11-16 00:00:00", parentJobID := 4 },
    parentData := b!"{\"to\":{\"id\":7}}"
    children := [⟨5, b!"{\"to\":{\"id\":7}}", true⟩, ⟨6, b!"{\"to\":{\"id\":7}}", false⟩] }

theorem family_good : Good family := by
  have hk : Kept false (b!"{\"to\":{\"id\":7}}") := c30_nested _ (by decide) (.inr ⟨_, obj_nested⟩)
  refine ⟨kept_some _ (by simp [family]), by decide, ⟨_, obj_nested⟩, kept_some _ (by simp [family]),
    kept_some _ (by simp [family]), kept_some _ (by simp [family]), kept_some _ (by simp [family]),
    kept_some _ (by simp [family]), hk, ?_⟩
  intro c hc
  simp only [family, List.mem_cons, List.not_mem_nil, or_false] at hc
  rcases hc with rfl | rfl <;> exact hk

example : tries family < 10 := by decide +kernel

example : ∃ x ids, getJobs (fun _ => false) [family] = some x ∧ failedReply (b!"getJobs") x = .ok (some ids) ∧
    requeued ids = [8123456789] := by
  obtain ⟨x, ids, h1, h2, h3⟩ := c121_lost_many (fun _ => false) (fun v h => nomatch h) [family]
    (by intro i hi; rw [List.mem_singleton.mp hi]; exact family_good)
    (by intro i hi; rw [List.mem_singleton.mp hi]; decide) (b!"getJobs") (by decide +kernel)
  refine ⟨x, ids, h1, h2, ?_⟩
  rw [h3, List.filter_cons, if_pos (by decide +kernel)]
  rfl

example : dataOk [(b!"data", b!"{\"to\":{\"id\":7}}")] = .ok true :=
  c121_accepted _ _ _ (by decide +kernel) obj_nested (.inl (by simp))

example : ∃ y t, storedData (fun _ => false) true [(b!"data", b!"{\"to\":{\"id\":7}}")] = some y ∧
    parseObject (str "null") y = .ok t ∧ t.find (b!"mockRequest") = some (b!"true") ∧
    t.find (b!"to") = some (b!"{\"id\":7}") := by
  obtain ⟨y, t, h1, _, h3, h4, h5⟩ := c121_mocked (fun _ => false) (fun v h => nomatch h)
    [(b!"data", b!"{\"to\":{\"id\":7}}")] _ _ (by decide +kernel) obj_nested (by
      intro e he
      rw [List.mem_singleton.mp he]
      refine ⟨by unfold PlainName; dsimp only; decide, ?_⟩
      have : 0 ∉ b!"{\"id\":7}" := by decide
      refine c30_nested _ this (.inr ⟨[(b!"id", b!"7")], ?_⟩)
      have e := plainName_read (show PlainName (b!"id") by unfold PlainName; decide)
      have := Mems.one (nv := str "null") (w := []) (b := b!"id") (w1 := []) (w2 := []) (x := b!"7") (w3 := []) blank_nil
        e.1 blank_nil blank_nil (.num ⟨[], b!"7", [], [], .inl rfl, ⟨by decide, by decide⟩, .inl rfl, .inl rfl, rfl⟩)
        blank_nil
      rw [e.2] at this
      exact .some this)
  exact ⟨y, t, h1, h3, h4, by rw [h5 _ (by decide +kernel)]; decide +kernel⟩

example : wanted (fun _ _ => false) (b!"a, b*") (b!"b*") = true ∧ wanted (fun _ _ => false) (b!"a, b*") (b!"bc") = false := by
  decide +kernel

/-- **C121** A name must have 1 to 255 bytes: with any other the request is refused as `402 Missing` or malformed, before its
`data` is looked at. -/
theorem c121_name_size (request : Table) (h : (request.get (b!"name")).length = 0 ∨ 256 ≤ (request.get (b!"name")).length) :
    peekOne request = .throws 402 := by
  unfold peekOne
  dsimp only
  split
  · rfl
  · rename_i h1; rw [if_pos (by omega)]

example : peekOne [(b!"name", List.replicate 256 97)] = .throws 402 ∧
    peekOne [(b!"name", List.replicate 255 97)] = .accept [[(b!"name", List.replicate 255 97)]] := by decide +kernel

/-- **C121** Who asks for mocked jobs as well is given every row, whatever its data. -/
theorem c121_with_mocked (extract : Bytes → Option Bool) (rows : List Row) : unmocked extract true rows = some rows := by
  unfold unmocked
  rw [if_pos rfl]

end Bedrock.JobText.Props
