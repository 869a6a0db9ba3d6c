import Verif.Model.Literal
import Verif.Model.Timing
import Verif.Props.Control
import Verif.Props.Crash

/-! C99: the times in an answer, and the id of a request. -/

namespace Bedrock.Timing.Props
open Bedrock.Timing Bedrock.Text Bedrock.Http
open Bedrock.Control.Props (find_set_same find_set_other find_erase_other)
open Bedrock.Crash.Props (find_congr)

/-! ## Headers -/

theorem erase_subset (t : Table) (n : Bytes) : ∀ e ∈ t.erase n, e ∈ t := by
  induction t with
  | nil => simp [Table.erase]
  | cons x t ih =>
    obtain ⟨m, w⟩ := x
    intro e he
    rw [Table.erase] at he
    split at he
    · rcases List.mem_cons.1 he with h | h
      · simp [h]
      · exact List.mem_cons_of_mem _ (ih e h)
    · exact List.mem_cons_of_mem _ he

theorem erase_sorted {t : Table} (n : Bytes) (h : t.Sorted) : (t.erase n).Sorted := by
  unfold Table.Sorted at h ⊢
  induction t with
  | nil => simp [Table.erase]
  | cons x t ih =>
    obtain ⟨m, w⟩ := x
    have hx := List.pairwise_cons.1 h
    rw [Table.erase]
    split
    · exact List.pairwise_cons.2 ⟨fun e he => hx.1 e (erase_subset t n e he), ih hx.2⟩
    · exact hx.2

theorem find_erase_same {t : Table} (n : Bytes) (h : t.Sorted) : (t.erase n).find n = none := by
  unfold Table.Sorted at h
  induction t with
  | nil => rfl
  | cons x t ih =>
    obtain ⟨m, w⟩ := x
    have hx := List.pairwise_cons.1 h
    rw [Table.erase]
    split
    · next hk => rw [Table.find, hk]; exact ih hx.2
    · next hk =>
      rw [Bool.not_eq_true, key_eq_iff] at hk
      cases hf : Table.find n t with
      | none => rfl
      | some v =>
        obtain ⟨k, hm, hl⟩ := Table.find_some_mem hf
        have := hx.1 _ hm
        unfold keyLt at this
        simp only [hl, hk] at this
        have h2 := keyLt_irrefl m
        unfold keyLt at h2
        rw [h2] at this
        cases this

theorem promote_sorted {t : Table} (n : Bytes) (h : t.Sorted) : (promote t n).Sorted := by
  unfold promote
  split
  · exact Table.set_sorted _ _ (erase_sorted _ h)
  · exact h

theorem find_promote {t : Table} (n m : Bytes) (h : t.Sorted) (hn : sToLower n ≠ sToLower (upstream n)) :
    (promote t n).find m =
      if sToLower m = sToLower n then none
      else if sToLower m = sToLower (upstream n) then (t.find n).or (t.find m) else t.find m := by
  unfold promote
  split
  · next v hv =>
    rw [Table.find_set _ _ _ _ (erase_sorted _ h), hv]
    by_cases h1 : sToLower m = sToLower n
    · rw [if_pos h1, if_neg (fun h2 => hn (h1.symm.trans h2)), find_congr _ h1, find_erase_same _ h]
    · rw [if_neg h1, find_erase_other _ _ _ h1]
      rfl
  · next hv =>
    rw [hv]
    by_cases h1 : sToLower m = sToLower n
    · rw [if_pos h1, find_congr _ h1, hv]
    · rw [if_neg h1]
      split <;> rfl

/-- No two of the names and of their upstream forms agree. -/
def Apart (ns : List Bytes) : Prop :=
  (ns.map sToLower ++ ns.map (fun n => sToLower (upstream n))).Nodup

theorem promoteAll {ns : List Bytes} (ha : Apart ns) {t : Table} (h : t.Sorted) :
    (ns.foldl promote t).Sorted ∧
    (∀ n ∈ ns, (ns.foldl promote t).find n = none) ∧
    (∀ n ∈ ns, (ns.foldl promote t).find (upstream n) = (t.find n).or (t.find (upstream n))) ∧
    (∀ m, (∀ n ∈ ns, sToLower m ≠ sToLower n ∧ sToLower m ≠ sToLower (upstream n)) → (ns.foldl promote t).find m = t.find m) := by
  induction ns generalizing t with
  | nil => exact ⟨h, by simp, by simp, by simp⟩
  | cons n ns ih =>
    unfold Apart at ha
    simp only [List.map_cons, List.cons_append, List.nodup_cons, List.mem_append, List.mem_cons, List.mem_map, not_or,
      List.nodup_append] at ha
    obtain ⟨⟨hn1, hn2, hn3⟩, hnd, ⟨hu1, hu2⟩, hdis⟩ := ha
    have hap : Apart ns := by
      unfold Apart
      rw [List.nodup_append]
      refine ⟨hnd, hu2, fun a ha b hb => hdis a (by simpa using ha) b (Or.inr (by simpa using hb))⟩
    have hs := promote_sorted n h
    obtain ⟨i1, i2, i3, i4⟩ := ih hap hs
    have hf := fun m => find_promote (t := t) n m h hn2
    refine ⟨i1, ?_, ?_, ?_⟩
    · intro k hk
      rcases List.mem_cons.1 hk with rfl | hk
      · show (ns.foldl promote (promote t k)).find k = none
        rw [i4 k, hf k, if_pos rfl]
        intro j hj
        exact ⟨fun h' => hn1 ⟨j, hj, h'.symm⟩, fun h' => hn3 ⟨j, hj, h'.symm⟩⟩
      · exact i2 k hk
    · intro k hk
      rcases List.mem_cons.1 hk with rfl | hk
      · show (ns.foldl promote (promote t k)).find (upstream k) = _
        rw [i4 (upstream k), hf (upstream k), if_neg (fun h' => hn2 h'.symm), if_pos rfl]
        intro j hj
        exact ⟨fun h' => hdis (sToLower j) ⟨j, hj, rfl⟩ (sToLower (upstream k)) (Or.inl rfl) h'.symm,
          fun h' => hu1 ⟨j, hj, h'.symm⟩⟩
      · show (ns.foldl promote (promote t n)).find (upstream k) = _
        rw [i3 k hk, hf k, hf (upstream k)]
        have a1 : sToLower k ≠ sToLower n := fun h' => hn1 ⟨k, hk, h'⟩
        have a2 : sToLower k ≠ sToLower (upstream n) := hdis (sToLower k) ⟨k, hk, rfl⟩ _ (Or.inl rfl)
        have a3 : sToLower (upstream k) ≠ sToLower n := fun h' => hn3 ⟨k, hk, h'⟩
        have a4 : sToLower (upstream k) ≠ sToLower (upstream n) := fun h' => hu1 ⟨k, hk, h'⟩
        rw [if_neg a1, if_neg a2, if_neg a3, if_neg a4]
    · intro m hm
      show (ns.foldl promote (promote t n)).find m = _
      have h1 := hm n (List.mem_cons_self ..)
      rw [i4 m (fun k hk => hm k (List.mem_cons_of_mem _ hk)), hf m, if_neg h1.1, if_neg h1.2]

theorem ownAll {vs : List (Bytes × UInt64)} (hd : (vs.map (fun p => sToLower p.1)).Nodup) {t : Table} (h : t.Sorted) :
    (vs.foldl own t).Sorted ∧
    (∀ p ∈ vs, p.2 ≠ 0 → (vs.foldl own t).find p.1 = some (natDec p.2.toNat)) ∧
    (∀ m, (∀ p ∈ vs, sToLower m = sToLower p.1 → p.2 = 0) → (vs.foldl own t).find m = t.find m) := by
  induction vs generalizing t with
  | nil => exact ⟨h, by simp, by simp⟩
  | cons p vs ih =>
    simp only [List.map_cons, List.nodup_cons, List.mem_map, not_exists, not_and] at hd
    have hs : (own t p).Sorted := by
      unfold own
      split
      · exact Table.set_sorted _ _ h
      · exact h
    obtain ⟨i1, i2, i3⟩ := ih hd.2 hs
    refine ⟨i1, ?_, ?_⟩
    · intro q hq hz
      rcases List.mem_cons.1 hq with rfl | hq
      · show (vs.foldl own (own t q)).find q.1 = _
        rw [i3 q.1 (fun r hr h' => absurd h'.symm (hd.1 r hr))]
        unfold own
        rw [if_pos hz, find_set_same]
      · exact i2 q hq hz
    · intro m hm
      show (vs.foldl own (own t p)).find m = _
      rw [i3 m (fun r hr => hm r (List.mem_cons_of_mem _ hr))]
      unfold own
      split
      · next hz =>
        have : sToLower m ≠ sToLower p.1 := fun h' => hz (hm p (List.mem_cons_self ..) h')
        rw [find_set_other _ _ _ _ this]
      · rfl

/-- The six names of times, as they are documented. -/
def names : List Bytes :=
  [str "peekTime", str "postProcessTime", str "prePeekTime", str "processTime", str "totalTime", str "unaccountedTime"]

theorem names_apart : Apart names := by unfold Apart; decide +kernel

theorem values_names (c : Cmd) (now : UInt64) : (values c now).map (·.1) = names := rfl

theorem values_nodup (c : Cmd) (now : UInt64) : ((values c now).map (fun p => sToLower p.1)).Nodup := by
  show ([sToLower (str "peekTime"), sToLower (str "postProcessTime"), sToLower (str "prePeekTime"), sToLower (str "processTime"),
    sToLower (str "totalTime"), sToLower (str "unaccountedTime")] : List Bytes).Nodup
  decide +kernel

theorem promoted_eq (c : Cmd) (now : UInt64) (t : Table) :
    (values c now).foldl (fun t p => promote t p.1) t = names.foldl promote t := rfl

theorem names_not_esc : ∀ n ∈ names, sToLower n ≠ sToLower (str "escalationTime") ∧
    sToLower (upstream n) ≠ sToLower (str "escalationTime") := by decide +kernel

/-- The last step. -/
def addEsc (esc : UInt64) (b : Table) : Table :=
  if esc ≠ 0 ∧ b.find (str "escalationTime") = none then b.set (str "escalationTime") (natDec esc.toNat) else b

theorem finalize_eq (c : Cmd) (now : UInt64) (t : Table) :
    finalize c now t = addEsc c.escalation ((values c now).foldl own (names.foldl promote t)) := rfl

theorem find_addEsc (esc : UInt64) (b : Table) (m : Bytes) :
    (addEsc esc b).find m = if sToLower m = sToLower (str "escalationTime") then
      (b.find m).or (if esc = 0 then none else some (natDec esc.toNat)) else b.find m := by
  unfold addEsc
  by_cases he : sToLower m = sToLower (str "escalationTime")
  · rw [if_pos he, find_congr _ he, find_congr b he]
    by_cases h : esc ≠ 0 ∧ b.find (str "escalationTime") = none
    · rw [if_pos h, find_set_same, if_neg h.1, h.2]
      rfl
    · rw [if_neg h]
      cases hb : Table.find (str "escalationTime") b with
      | some v => rfl
      | none =>
        have : esc = 0 := by
          by_cases h0 : esc = 0
          · exact h0
          · exact absurd ⟨h0, hb⟩ h
        rw [if_pos this]
        rfl
  · rw [if_neg he]
    by_cases h : esc ≠ 0 ∧ b.find (str "escalationTime") = none
    · rw [if_pos h, find_set_other _ _ _ _ he]
    · rw [if_neg h]

theorem finalize_other {c : Cmd} {now : UInt64} {t : Table} {m : Bytes} (hm : sToLower m ≠ sToLower (str "escalationTime")) :
    (finalize c now t).find m = ((values c now).foldl own (names.foldl promote t)).find m := by
  rw [finalize_eq, find_addEsc, if_neg hm]

theorem nodup_map_inj {α β : Type} {f : α → β} {l : List α} (h : (l.map f).Nodup) {a b : α} (ha : a ∈ l) (hb : b ∈ l)
    (hf : f a = f b) : a = b := by
  induction l with
  | nil => cases ha
  | cons x l ih =>
    simp only [List.map_cons, List.nodup_cons, List.mem_map, not_exists, not_and] at h
    rcases List.mem_cons.1 ha with ha | ha
    · rcases List.mem_cons.1 hb with hb | hb
      · rw [ha, hb]
      · exact absurd (by rw [← ha, hf]) (h.1 b hb)
    · rcases List.mem_cons.1 hb with hb | hb
      · exact absurd (by rw [← hb, hf]) (h.1 a ha)
      · exact ih h.2 ha hb

/-- C99 (own times).  In an answer each of the six times is that of the node which answers, in decimal — whatever was under this
name, in whatever case, before; a time of zero is left out. -/
theorem c99_own (c : Cmd) (now : UInt64) (t : Table) (ht : t.Sorted) (n : Bytes) (v : UInt64) (hv : (n, v) ∈ values c now) :
    (finalize c now t).find n = if v = 0 then none else some (natDec v.toNat) := by
  have hn : n ∈ names := by rw [← values_names c now]; exact List.mem_map.2 ⟨_, hv, rfl⟩
  rw [finalize_other (names_not_esc n hn).1]
  obtain ⟨p1, p2, p3, p4⟩ := promoteAll names_apart ht
  obtain ⟨o1, o2, o3⟩ := ownAll (values_nodup c now) p1
  by_cases hz : v = 0
  · rw [if_pos hz, o3 n, p2 n hn]
    intro p hp hl
    have : p = (n, v) := nodup_map_inj (values_nodup c now) hp hv hl.symm
    rw [this]; exact hz
  · rw [if_neg hz]
    exact o2 (n, v) hv hz

/-- C99 (upstream times).  What the answer of another node had under one of the six names is found under that name with
"upstream" in front; if it had none, what it had under the latter stays. -/
theorem c99_upstream (c : Cmd) (now : UInt64) (t : Table) (ht : t.Sorted) (n : Bytes) (hn : n ∈ names) :
    (finalize c now t).find (upstream n) = (t.find n).or (t.find (upstream n)) := by
  rw [finalize_other (names_not_esc n hn).2]
  obtain ⟨p1, p2, p3, p4⟩ := promoteAll names_apart ht
  obtain ⟨o1, o2, o3⟩ := ownAll (values_nodup c now) p1
  rw [o3 (upstream n), p3 n hn]
  intro p hp hl
  have hp' : p.1 ∈ names := by rw [← values_names c now]; exact List.mem_map.2 ⟨_, hp, rfl⟩
  have key : ∀ a ∈ names, ∀ b ∈ names, sToLower (upstream a) ≠ sToLower b := by decide +kernel
  exact absurd hl (key n hn p.1 hp')

example : names.map upstream = [str "upstreamPeekTime", str "upstreamPostProcessTime", str "upstreamPrePeekTime",
    str "upstreamProcessTime", str "upstreamTotalTime", str "upstreamUnaccountedTime"] := by decide +kernel

/-- C99 (other headers).  Nothing else in the answer changes, except that the time of the escalation is added. -/
theorem c99_others (c : Cmd) (now : UInt64) (t : Table) (ht : t.Sorted) (m : Bytes)
    (hm : ∀ n ∈ names, sToLower m ≠ sToLower n ∧ sToLower m ≠ sToLower (upstream n)) :
    (finalize c now t).find m =
      if sToLower m = sToLower (str "escalationTime") then
        (t.find m).or (if c.escalation = 0 then none else some (natDec c.escalation.toNat)) else t.find m := by
  obtain ⟨p1, p2, p3, p4⟩ := promoteAll names_apart ht
  obtain ⟨o1, o2, o3⟩ := ownAll (values_nodup c now) p1
  have hbase : ((values c now).foldl own (names.foldl promote t)).find m = t.find m := by
    rw [o3 m, p4 m hm]
    intro p hp hl
    have hp' : p.1 ∈ names := by rw [← values_names c now]; exact List.mem_map.2 ⟨_, hp, rfl⟩
    exact absurd hl (hm p.1 hp').1
  rw [finalize_eq, find_addEsc, hbase]

/-! ## Sums -/

/-- A stretch of the life of a command: a stage, or an escalation (`none`). -/
structure Piece where
  kind : Option Kind
  start : UInt64
  stop : UInt64
deriving DecidableEq, Repr

def Piece.len (p : Piece) : Nat := p.stop.toNat - p.start.toNat

/-- The length of the pieces of some kinds. -/
def lengthOf (p : Kind → Bool) (ws : List Piece) : Nat :=
  ((ws.filter (fun w => match w.kind with | some k => p k | none => false)).map Piece.len).sum

def escalated (ws : List Piece) : Nat := ((ws.filter (fun w => w.kind.isNone)).map Piece.len).sum

/-- The pieces follow each other between two times. -/
def Chrono (lo : Nat) : List Piece → Nat → Prop
  | [], hi => lo ≤ hi
  | w :: ws, hi => lo ≤ w.start.toNat ∧ w.start.toNat ≤ w.stop.toNat ∧ Chrono w.stop.toNat ws hi

/-- What is recorded of them. -/
def recorded (ws : List Piece) : List Entry := ws.filterMap (fun w => w.kind.map (fun k => ⟨k, w.start, w.stop⟩))

theorem chrono_sum {lo hi : Nat} {ws : List Piece} (h : Chrono lo ws hi) : lo + (ws.map Piece.len).sum ≤ hi := by
  induction ws generalizing lo with
  | nil => simpa [Chrono] using h
  | cons w ws ih =>
    have := ih h.2.2
    have h1 := h.1
    have h2 := h.2.1
    simp only [List.map_cons, List.sum_cons, Piece.len] at this ⊢
    omega

theorem chrono_len {lo hi : Nat} {ws : List Piece} (h : Chrono lo ws hi) : ∀ w ∈ ws, w.start.toNat ≤ w.stop.toNat := by
  induction ws generalizing lo with
  | nil => simp
  | cons w ws ih =>
    intro x hx
    rcases List.mem_cons.1 hx with rfl | hx
    · exact h.2.1
    · exact ih h.2.2 x hx

theorem getD_getElem {l : Bytes} {i : Nat} (h : i < l.length) : l.getD i 0 = l[i] := by
  simp [List.getD, h]

theorem total_from (p : Kind → Bool) (ws : List Piece) (acc : UInt64) (hl : ∀ w ∈ ws, w.start.toNat ≤ w.stop.toNat)
    (hb : acc.toNat + (ws.map Piece.len).sum < 2 ^ 64) :
    ((recorded ws).foldl (fun acc e => if p e.kind then acc + (e.stop - e.start) else acc) acc).toNat
      = acc.toNat + lengthOf p ws := by
  induction ws generalizing acc with
  | nil => simp [recorded, lengthOf]
  | cons w ws ih =>
    have hw := hl w (List.mem_cons_self ..)
    have hl' := fun x hx => hl x (List.mem_cons_of_mem _ hx)
    simp only [List.map_cons, List.sum_cons] at hb
    obtain ⟨k, a, b⟩ := w
    cases k with
    | none =>
      have h1 : recorded (⟨none, a, b⟩ :: ws) = recorded ws := rfl
      have h2 : lengthOf p (⟨none, a, b⟩ :: ws) = lengthOf p ws := rfl
      rw [h1, h2]
      exact ih acc hl' (by omega)
    | some k =>
      have h1 : recorded (⟨some k, a, b⟩ :: ws) = ⟨k, a, b⟩ :: recorded ws := rfl
      rw [h1, List.foldl_cons]
      simp only [Piece.len] at hb hw
      have hsub : (b - a).toNat = b.toNat - a.toNat := UInt64.toNat_sub_of_le _ _ hw
      by_cases hp : p k = true
      · have h2 : lengthOf p (⟨some k, a, b⟩ :: ws) = (b.toNat - a.toNat) + lengthOf p ws := by
          simp [lengthOf, List.filter_cons, hp, Piece.len]
        have hadd : (acc + (b - a)).toNat = acc.toNat + (b.toNat - a.toNat) := by
          rw [UInt64.toNat_add, hsub]
          exact Nat.mod_eq_of_lt (by omega)
        simp only [hp, if_true]
        rw [ih _ hl' (by rw [hadd]; omega), h2, hadd]
        omega
      · have h2 : lengthOf p (⟨some k, a, b⟩ :: ws) = lengthOf p ws := by
          simp [lengthOf, List.filter_cons, hp]
        simp only [hp]
        rw [h2]
        exact ih acc hl' (by omega)

/-- C99 (a stage).  The time reported of a stage is the sum of the times spent in it. -/
theorem c99_total (ws : List Piece) (lo now : UInt64) (h : Chrono lo.toNat ws now.toNat) (p : Kind → Bool) :
    (total (recorded ws) p).toNat = lengthOf p ws := by
  have hs := chrono_sum h
  have := now.toNat_lt
  have h2 := total_from p ws 0 (chrono_len h) (by simp; omega)
  simpa [total] using h2

theorem parts (ws : List Piece) :
    lengthOf isPrePeek ws + lengthOf isPeek ws + lengthOf isProcess ws + lengthOf isPostProcess ws + lengthOf isCommit ws +
      lengthOf isWorker ws + lengthOf isBlocking ws + lengthOf isPageLock ws + escalated ws = (ws.map Piece.len).sum := by
  induction ws with
  | nil => simp [lengthOf, escalated]
  | cons w ws ih =>
    obtain ⟨k, a, b⟩ := w
    have hc : ∀ p : Kind → Bool, lengthOf p (⟨k, a, b⟩ :: ws) =
        (match k with | some k => if p k then b.toNat - a.toNat else 0 | none => 0) + lengthOf p ws := by
      intro p
      unfold lengthOf
      cases k with
      | none => simp
      | some k => by_cases hp : p k = true <;> simp [hp, Piece.len]
    have he : escalated (⟨k, a, b⟩ :: ws) = (match k with | some _ => 0 | none => b.toNat - a.toNat) + escalated ws := by
      unfold escalated
      cases k <;> simp [Piece.len]
    simp only [hc, he, List.map_cons, List.sum_cons, Piece.len]
    cases k with
    | none => simp; omega
    | some k => cases k <;> simp [isPrePeek, isPeek, isProcess, isPostProcess, isCommit, isWorker, isBlocking, isPageLock] <;> omega

/-- C99 (everything accounted for).  If the clock does not go back, the times of an answer add up: the time not accounted for, and
what was spent in the stages, in queues, committing and escalated, make up the life of the command; nothing wraps. -/
theorem c99_accounted (c : Cmd) (now : UInt64) (ws : List Piece) (h : Chrono c.created.toNat ws now.toNat)
    (he : c.entries = recorded ws) (hx : c.escalation.toNat ≤ escalated ws) :
    (unaccounted c now).toNat + (lengthOf isPrePeek ws + lengthOf isPeek ws + lengthOf isProcess ws + lengthOf isPostProcess ws +
      lengthOf isCommit ws + lengthOf isWorker ws + lengthOf isBlocking ws + lengthOf isPageLock ws + c.escalation.toNat)
      = now.toNat - c.created.toNat ∧
    (now - c.created).toNat = now.toNat - c.created.toNat := by
  have hs := chrono_sum h
  have hp := parts ws
  have hlt := now.toNat_lt
  have hle : c.created.toNat ≤ now.toNat := by omega
  have htot : (now - c.created).toNat = now.toNat - c.created.toNat := UInt64.toNat_sub_of_le _ _ hle
  refine ⟨?_, htot⟩
  have ht := fun p => c99_total ws c.created now h p
  rw [← he] at ht
  unfold unaccounted
  have hsum : (total c.entries isPrePeek + total c.entries isPeek + total c.entries isProcess +
      total c.entries isPostProcess + total c.entries isCommit + c.escalation + total c.entries isWorker +
      total c.entries isBlocking + total c.entries isPageLock).toNat =
      lengthOf isPrePeek ws + lengthOf isPeek ws + lengthOf isProcess ws + lengthOf isPostProcess ws + lengthOf isCommit ws +
      c.escalation.toNat + lengthOf isWorker ws + lengthOf isBlocking ws + lengthOf isPageLock ws := by
    simp only [UInt64.toNat_add, ht]
    omega
  rw [UInt64.toNat_sub_of_le _ _ (by rw [UInt64.le_iff_toNat_le, hsum, htot]; omega), hsum, htot]
  omega

/-- C99 (names).  The six times and the names under which those of the leader are kept. -/
theorem c99_names : names.map (fun n => (n, upstream n)) =
    [(b!"peekTime", b!"upstreamPeekTime"), (b!"postProcessTime", b!"upstreamPostProcessTime"),
     (b!"prePeekTime", b!"upstreamPrePeekTime"), (b!"processTime", b!"upstreamProcessTime"),
     (b!"totalTime", b!"upstreamTotalTime"), (b!"unaccountedTime", b!"upstreamUnaccountedTime")] := by decide +kernel

/-- C99 (what is reported).  If the clock does not go back, the answer has under each name the time spent in that stage, and
under `totalTime` the life of the command; a time of zero is left out. -/
theorem c99_reported (c : Cmd) (now : UInt64) (t : Table) (ht : t.Sorted) (ws : List Piece)
    (h : Chrono c.created.toNat ws now.toNat) (he : c.entries = recorded ws) :
    ∀ x ∈ [(b!"prePeekTime", lengthOf isPrePeek ws), (b!"peekTime", lengthOf isPeek ws), (b!"processTime", lengthOf isProcess ws),
      (b!"postProcessTime", lengthOf isPostProcess ws), (b!"totalTime", now.toNat - c.created.toNat)],
      (finalize c now t).find x.1 = if x.2 = 0 then none else some (natDec x.2) := by
  have key : ∀ (n : Bytes) (v : UInt64) (k : Nat), (n, v) ∈ values c now → v.toNat = k →
      (finalize c now t).find n = if k = 0 then none else some (natDec k) := by
    intro n v k hv hk
    rw [c99_own c now t ht n v hv, ← hk]
    by_cases hz : v = 0
    · subst hz; rfl
    · rw [if_neg hz, if_neg (show ¬ v.toNat = 0 from fun h => hz (UInt64.toNat_inj.1 h))]
  have ht := fun p => c99_total ws c.created now h p
  rw [← he] at ht
  have hs := chrono_sum h
  intro x hx
  simp only [List.mem_cons, List.not_mem_nil, or_false] at hx
  rcases hx with rfl | rfl | rfl | rfl | rfl
  · exact key _ _ _ (List.mem_of_getElem? (i := 2) (by rfl)) (ht _)
  · exact key _ _ _ (List.mem_of_getElem? (i := 0) (by rfl)) (ht _)
  · exact key _ _ _ (List.mem_of_getElem? (i := 3) (by rfl)) (ht _)
  · exact key _ _ _ (List.mem_of_getElem? (i := 1) (by rfl)) (ht _)
  · exact key _ _ _ (List.mem_of_getElem? (i := 4) (by rfl)) (UInt64.toNat_sub_of_le _ _ (by rw [UInt64.le_iff_toNat_le]; omega))

/-- A command that waited in the queue, was peeked, escalated and then peeked again. -/
def pieces : List Piece :=
  [⟨some .queueWorker, 100, 150⟩, ⟨some (.peek false), 160, 200⟩, ⟨none, 200, 900⟩, ⟨some (.peek true), 910, 950⟩]

example : Chrono 90 pieces 1000 ∧ escalated pieces = 700 ∧
    unaccounted { entries := recorded pieces, created := 90, escalation := 700 } 1000 = 80 ∧
    (finalize { entries := recorded pieces, created := 90, escalation := 700 } 1000 [(str "PEEKTIME", str "5")]) =
      [(str "escalationTime", str "700"), (str "peekTime", str "80"), (str "totalTime", str "910"),
       (str "unaccountedTime", str "80"), (str "upstreamPeekTime", str "5")] := by
  refine ⟨by simp [Chrono, pieces], by decide +kernel, by decide +kernel, by decide +kernel⟩

/-- C99 (clock set back).  The times come from the wall clock.  If that is set back while a command runs, the answer carries times
of half a million years. -/
theorem c99_clock_back : ∃ (c : Cmd) (now : UInt64), c.created ≤ now ∧
    (finalize c now []).find (str "peekTime") = some (str "18446744073709551606") :=
  ⟨{ entries := [⟨.peek false, 100, 90⟩], created := 80 }, 200, by decide +kernel, by decide +kernel⟩

/-- What happens to a command: put into a queue, taken out of it, timed by an `AutoTimer`, escalated. -/
inductive E where
  | push (k : Kind) (t : UInt64)
  | pop (t : UInt64)
  | stage (k : Kind) (a b : UInt64)
  | escalate (a b : UInt64)

def tick (c : Clock) : E → Clock
  | .push k t => c.startTiming k t
  | .pop t => c.stopTiming t
  | .stage k a b => c.auto k a b
  | .escalate _ _ => c

/-- One thing after the other: nothing happens to a command in a queue but that it is taken out. -/
def Fit (lo : Nat) (waiting : Bool) : List E → Nat → Prop
  | [], hi => lo ≤ hi
  | .push _ t :: es, hi => waiting = false ∧ lo ≤ t.toNat ∧ Fit t.toNat true es hi
  | .pop t :: es, hi => waiting = true ∧ lo ≤ t.toNat ∧ Fit t.toNat false es hi
  | .stage _ a b :: es, hi => waiting = false ∧ lo ≤ a.toNat ∧ a.toNat ≤ b.toNat ∧ Fit b.toNat false es hi
  | .escalate a b :: es, hi => waiting = false ∧ lo ≤ a.toNat ∧ a.toNat ≤ b.toNat ∧ Fit b.toNat false es hi

def escalations : List E → Nat
  | [] => 0
  | .escalate a b :: es => (b.toNat - a.toNat) + escalations es
  | _ :: es => escalations es

theorem chrono_mono {lo lo' hi : Nat} {ws : List Piece} (h : Chrono lo ws hi) (hl : lo' ≤ lo) : Chrono lo' ws hi := by
  cases ws with
  | nil => exact Nat.le_trans hl h
  | cons w ws => exact ⟨Nat.le_trans hl h.1, h.2⟩

theorem fit_pieces {es : List E} {lo hi : Nat} (c : Clock) :
    (Fit lo false es hi → c.inProgress = none →
      ∃ ws, Chrono lo ws hi ∧ (es.foldl tick c).entries = c.entries ++ recorded ws ∧ escalated ws = escalations es) ∧
    (∀ k a, Fit lo true es hi → c.inProgress = some (k, a) → a.toNat ≤ lo →
      ∃ ws, Chrono a.toNat ws hi ∧ (es.foldl tick c).entries = c.entries ++ recorded ws ∧ escalated ws = escalations es) := by
  induction es generalizing lo c with
  | nil =>
    refine ⟨fun h _ => ⟨[], h, by simp [recorded], rfl⟩, fun k a h _ ha => ⟨[], Nat.le_trans ha h, by simp [recorded], rfl⟩⟩
  | cons e es ih =>
    refine ⟨fun h hc => ?_, fun k a h hc ha => ?_⟩
    · cases e with
      | push k t =>
        obtain ⟨_, h1, h2⟩ := h
        obtain ⟨ws, w1, w2, w3⟩ := (ih (c.startTiming k t)).2 k t h2 rfl (Nat.le_refl _)
        exact ⟨ws, chrono_mono w1 h1, w2, w3⟩
      | pop t => exact absurd h.1 (by simp)
      | stage k a b =>
        obtain ⟨_, h1, h2, h3⟩ := h
        obtain ⟨ws, w1, w2, w3⟩ := (ih (c.auto k a b)).1 h3 hc
        refine ⟨⟨some k, a, b⟩ :: ws, ⟨h1, h2, w1⟩, ?_, w3⟩
        show (es.foldl tick (c.auto k a b)).entries = _
        rw [w2]
        simp [Clock.auto, recorded]
      | escalate a b =>
        obtain ⟨_, h1, h2, h3⟩ := h
        obtain ⟨ws, w1, w2, w3⟩ := (ih c).1 h3 hc
        refine ⟨⟨none, a, b⟩ :: ws, ⟨h1, h2, w1⟩, ?_, ?_⟩
        · show (es.foldl tick c).entries = _
          rw [w2]
          simp [recorded]
        · simp only [escalations, ← w3]
          simp [escalated, Piece.len]
    · cases e with
      | pop t =>
        obtain ⟨_, h1, h2⟩ := h
        have hs : c.stopTiming t = { inProgress := none, entries := c.entries ++ [⟨k, a, t⟩] } := by
          unfold Clock.stopTiming; rw [hc]
        obtain ⟨ws, w1, w2, w3⟩ := (ih (c.stopTiming t)).1 h2 (by rw [hs])
        refine ⟨⟨some k, a, t⟩ :: ws, ⟨Nat.le_refl _, Nat.le_trans ha h1, w1⟩, ?_, w3⟩
        show (es.foldl tick (c.stopTiming t)).entries = _
        rw [w2, hs]
        simp [recorded]
      | push k t => exact absurd h.1 (by simp)
      | stage k a b => exact absurd h.1 (by simp)
      | escalate a b => exact absurd h.1 (by simp)

/-- C99 (a whole life).  Whatever happens to a command, one thing after the other, the recorded times are those of the stretches
it was in a queue or in a stage, so that `c99_accounted` applies. -/
theorem c99_life (es : List E) (c : Cmd) (now : UInt64) (h : Fit c.created.toNat false es now.toNat)
    (he : c.entries = (es.foldl tick {}).entries) (hx : c.escalation.toNat ≤ escalations es) :
    ∃ ws, Chrono c.created.toNat ws now.toNat ∧ c.entries = recorded ws ∧ c.escalation.toNat ≤ escalated ws := by
  obtain ⟨ws, w1, w2, w3⟩ := (fit_pieces {}).1 h rfl
  exact ⟨ws, w1, by rw [he, w2]; simp, by rw [w3]; exact hx⟩

/-- … in particular the time not accounted for is never more than its whole life. -/
theorem c99_bounded (es : List E) (c : Cmd) (now : UInt64) (h : Fit c.created.toNat false es now.toNat)
    (he : c.entries = (es.foldl tick {}).entries) (hx : c.escalation.toNat ≤ escalations es) :
    (unaccounted c now).toNat ≤ now.toNat - c.created.toNat := by
  obtain ⟨ws, w1, w2, w3⟩ := c99_life es c now h he hx
  have := (c99_accounted c now ws w1 w2 w3).1
  omega

example : Fit 90 false [.push .queueWorker 100, .pop 150, .stage (.peek false) 160 200, .escalate 200 900] 1000 := by
  simp [Fit]

theorem finalize_sorted (c : Cmd) (now : UInt64) {t : Table} (ht : t.Sorted) : (finalize c now t).Sorted := by
  rw [finalize_eq]
  have := (ownAll (values_nodup c now) (promoteAll names_apart ht).1).1
  unfold addEsc
  split
  · exact Table.set_sorted _ _ this
  · exact this

/-- C99 (two hops).  Only one node upstream is remembered: of a value that was already upstream when it came with a newer one, the
newer is kept. -/
theorem c99_two_hops (c d : Cmd) (now later : UInt64) (t : Table) (ht : t.Sorted) (n : Bytes)
    (v : UInt64) (hv : (n, v) ∈ values c now) (hz : v ≠ 0) :
    (finalize d later (finalize c now t)).find (upstream n) = some (natDec v.toNat) := by
  have hn : n ∈ names := by rw [← values_names c now]; exact List.mem_map.2 ⟨_, hv, rfl⟩
  rw [c99_upstream d later _ (finalize_sorted c now ht) n hn, c99_own c now t ht n v hv, if_neg hz]
  rfl

/-! ## Request ids -/

theorem idChars_alnum : ∀ c ∈ idChars, (97 ≤ c ∧ c ≤ 122) ∨ (65 ≤ c ∧ c ≤ 90) ∨ (48 ≤ c ∧ c ≤ 57) := by decide +kernel

/-- C99 (request id).  Every command has a request id: the one of the request, or six letters and digits. -/
theorem c99_request_id (rand : Fin 6 → UInt64) (t : Table) :
    ∃ v, (preprocess rand t).find (str "requestID") = some v ∧
      (t.find (str "requestID") = some v ∨
       (t.find (str "requestID") = none ∧ v.length = 6 ∧
         ∀ c ∈ v, (97 ≤ c ∧ c ≤ 122) ∨ (65 ≤ c ∧ c ≤ 90) ∨ (48 ≤ c ∧ c ≤ 57))) := by
  unfold preprocess
  split
  · next v hv => exact ⟨v, hv, Or.inl hv⟩
  · next hv =>
    refine ⟨_, find_set_same _ _ _, Or.inr ⟨hv, by simp, ?_⟩⟩
    intro c hc
    obtain ⟨i, _, rfl⟩ := List.mem_map.1 hc
    have hl : (rand i).toNat % idChars.length < idChars.length := Nat.mod_lt _ (by decide +kernel)
    rw [getD_getElem hl]
    exact idChars_alnum _ (List.getElem_mem hl)

/-- C99 (request).  Nothing else in the request changes. -/
theorem c99_request_rest (rand : Fin 6 → UInt64) (t : Table) (n : Bytes) (h : sToLower n ≠ sToLower (str "requestID")) :
    (preprocess rand t).find n = t.find n := by
  unfold preprocess
  split
  · rfl
  · exact find_set_other _ _ _ _ h

/-- C99 (any id).  Any six letters and digits can come out. -/
theorem c99_request_any (v : Fin 6 → UInt8) (hv : ∀ i, v i ∈ idChars) :
    ∃ rand, (preprocess rand []).find (str "requestID") = some ((List.finRange 6).map v) := by
  have : ∀ i, ∃ r : UInt64, idChars.getD (r.toNat % idChars.length) 0 = v i := by
    intro i
    obtain ⟨j, hj, e⟩ := List.getElem_of_mem (hv i)
    have hl : idChars.length = 62 := by decide +kernel
    refine ⟨UInt64.ofNat j, ?_⟩
    have h1 : (UInt64.ofNat j).toNat = j := by
      rw [UInt64.toNat_ofNat']
      exact Nat.mod_eq_of_lt (by omega)
    rw [h1, Nat.mod_eq_of_lt hj, getD_getElem hj, e]
  refine ⟨fun i => (this i).choose, ?_⟩
  show (Table.set _ _ []).find _ = _
  rw [find_set_same]
  congr 1
  exact List.map_congr_left (fun i _ => (this i).choose_spec)

example : (preprocess (fun _ => 64) [(str "x", str "y")]) = [(str "requestID", str "cccccc"), (str "x", str "y")] := by decide +kernel
example : (preprocess (fun _ => 64) [(str "REQUESTid", str "y")]) = [(str "REQUESTid", str "y")] := by decide +kernel

end Bedrock.Timing.Props
