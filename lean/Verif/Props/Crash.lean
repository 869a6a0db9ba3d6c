import Verif.Model.Crash
import Verif.Props.Http

/-!
# C69: a command that crashed a node is refused by the others
-/

namespace Bedrock.Crash.Props
open Bedrock.Text Bedrock.Http Bedrock.Http.Props

/-! ## The headers of a report -/

/-- The step of `subTable`. -/
def subStep (req : Msg) (t : Table) (k : Bytes) : Table :=
  match req.table.find k with
  | none => t
  | some v => if (t.find k).isSome then t else t.set k v

theorem subTable_eq (req : Msg) (keys : List Bytes) : subTable req keys = keys.foldl (subStep req) [] := rfl

theorem find_congr (t : Table) {a b : Bytes} (h : sToLower a = sToLower b) : t.find a = t.find b := by
  induction t with
  | nil => rfl
  | cons e t ih =>
    have hk : ∀ x, keyLt a x = keyLt b x ∧ keyLt x a = keyLt x b := by
      intro x; unfold keyLt; rw [h]; exact ⟨rfl, rfl⟩
    simp only [Table.find, (hk e.1).1, (hk e.1).2, ih]

theorem find_mem {t : Table} (h : t.Sorted) {e : Bytes × Bytes} (he : e ∈ t) : t.find e.1 = some e.2 := by
  unfold Table.Sorted at h
  induction t with
  | nil => cases he
  | cons x t ih =>
    rw [List.pairwise_cons] at h
    rcases List.mem_cons.mp he with rfl | he
    · simp only [Table.find]
      rw [keyLt_irrefl]
      rfl
    · simp only [Table.find]
      rw [h.1 e he]
      simp only [Bool.or_true, if_true]
      exact ih h.2 he

theorem mem_set_new {t : Table} {n v : Bytes} (hn : t.find n = none) {e : Bytes × Bytes} :
    e ∈ t.set n v ↔ e ∈ t ∨ e = (n, v) := by
  induction t with
  | nil => simp [Table.set]
  | cons x t ih =>
    simp only [Table.find] at hn
    split at hn
    · rename_i hk
      simp only [Table.set]
      split
      · simp only [List.mem_cons]
        constructor
        · rintro (h | h | h)
          · exact .inr h
          · exact .inl (.inl h)
          · exact .inl (.inr h)
        · rintro ((h | h) | h)
          · exact .inr (.inl h)
          · exact .inr (.inr h)
          · exact .inl h
      · split
        · simp only [List.mem_cons, ih hn, or_assoc]
        · rename_i h1 h2
          simp only [Bool.not_eq_true] at h1 h2
          rw [h1, h2] at hk; cases hk
    · cases hn

/-- A sorted table is determined by its entries. -/
theorem sorted_ext {s t : Table} (hs : s.Sorted) (ht : t.Sorted) (h : ∀ e, e ∈ s ↔ e ∈ t) : s = t := by
  unfold Table.Sorted at hs ht
  induction s generalizing t with
  | nil =>
    cases t with
    | nil => rfl
    | cons y t => exact absurd ((h y).mpr List.mem_cons_self) (List.not_mem_nil)
  | cons x s ih =>
    cases t with
    | nil => exact absurd ((h x).mp List.mem_cons_self) (List.not_mem_nil)
    | cons y t =>
      rw [List.pairwise_cons] at hs ht
      have hxy : x = y := by
        rcases List.mem_cons.mp ((h x).mp List.mem_cons_self) with e | hx
        · exact e
        · rcases List.mem_cons.mp ((h y).mpr List.mem_cons_self) with e | hy
          · exact e.symm
          · have h1 := hs.1 y hy
            have h2 := ht.1 x hx
            rw [keyLt_asymm h1] at h2; cases h2
      subst hxy
      congr 1
      refine ih hs.2 ht.2 ?_
      intro e
      constructor
      · intro he
        rcases List.mem_cons.mp ((h e).mp (List.mem_cons_of_mem _ he)) with e' | h'
        · have := hs.1 e he; rw [e', keyLt_irrefl] at this; cases this
        · exact h'
      · intro he
        rcases List.mem_cons.mp ((h e).mpr (List.mem_cons_of_mem _ he)) with e' | h'
        · have := ht.1 e he; rw [e', keyLt_irrefl] at this; cases this
        · exact h'

/-- What holds of the table while it is filled. -/
structure SubInv (req : Msg) (keys : List Bytes) (t : Table) : Prop where
  sorted : t.Sorted
  from' : ∀ e ∈ t, e.1 ∈ keys ∧ req.table.find e.1 = some e.2
  has : ∀ k ∈ keys, ∀ v, req.table.find k = some v → t.find k = some v

theorem subInv_step {req : Msg} {ks : List Bytes} {t : Table} (h : SubInv req ks t) (k : Bytes) :
    SubInv req (ks ++ [k]) (subStep req t k) := by
  unfold subStep
  cases hf : req.table.find k with
  | none =>
    refine ⟨h.sorted, fun e he => ⟨List.mem_append_left _ (h.from' e he).1, (h.from' e he).2⟩, ?_⟩
    intro k' hk' v hv
    rcases List.mem_append.mp hk' with hk' | hk'
    · exact h.has k' hk' v hv
    · rw [List.mem_singleton] at hk'
      rw [hk', hf] at hv; cases hv
  | some v =>
    by_cases ht : (t.find k).isSome = true
    · simp only [ht, if_true]
      refine ⟨h.sorted, fun e he => ⟨List.mem_append_left _ (h.from' e he).1, (h.from' e he).2⟩, ?_⟩
      intro k' hk' v' hv
      rcases List.mem_append.mp hk' with hk' | hk'
      · exact h.has k' hk' v' hv
      · rw [List.mem_singleton] at hk'
        rw [hk'] at hv ⊢
        obtain ⟨w, hw⟩ := Option.isSome_iff_exists.mp ht
        obtain ⟨n, hn, hnk⟩ := Table.find_some_mem hw
        have := (h.from' _ hn).2
        simp only at this
        rw [find_congr _ hnk, hv] at this
        rw [hw]; exact this.symm
    · have htn : t.find k = none := by
        cases hx : t.find k with
        | none => rfl
        | some _ => rw [hx] at ht; exact absurd rfl ht
      rw [htn]
      simp only [Option.isSome_none, Bool.false_eq_true, if_false]
      refine ⟨Table.set_sorted _ _ h.sorted, ?_, ?_⟩
      · intro e he
        rcases (mem_set_new htn).mp he with he | rfl
        · exact ⟨List.mem_append_left _ (h.from' e he).1, (h.from' e he).2⟩
        · exact ⟨by simp, hf⟩
      · intro k' hk' v' hv
        rw [Table.find_set _ _ _ _ h.sorted]
        by_cases hl : sToLower k' = sToLower k
        · rw [if_pos hl, ← hf, ← find_congr _ hl, hv]
        · rw [if_neg hl]
          rcases List.mem_append.mp hk' with hk' | hk'
          · exact h.has k' hk' v' hv
          · rw [List.mem_singleton] at hk'
            exact absurd (by rw [hk']) hl

theorem subInv_foldl {req : Msg} {ks : List Bytes} {t : Table} (h : SubInv req ks t) (ls : List Bytes) :
    SubInv req (ks ++ ls) (ls.foldl (subStep req) t) := by
  induction ls generalizing ks t with
  | nil => simpa using h
  | cons k ls ih =>
    have := ih (subInv_step h k)
    simpa using this

theorem subInv (req : Msg) (keys : List Bytes) : SubInv req keys (subTable req keys) := by
  have h0 : SubInv req [] [] := ⟨List.Pairwise.nil, by simp, by simp⟩
  simpa [subTable_eq] using subInv_foldl h0 keys

/-- All headers of a table are identifying: the report has the same table. -/
theorem subTable_all {m : Bytes} {t : Table} (ht : t.Sorted) {keys : List Bytes}
    (hk : keys.Perm (t.map (·.1))) : subTable { methodLine := m, table := t } keys = t := by
  have hi := subInv { methodLine := m, table := t } keys
  refine sorted_ext hi.sorted ht ?_
  have hsub : ∀ e ∈ subTable { methodLine := m, table := t } keys, e ∈ t := by
    intro e he
    obtain ⟨h1, h2⟩ := hi.from' e he
    obtain ⟨x, hx, hxe⟩ := List.mem_map.mp (hk.mem_iff.mp h1)
    have := find_mem ht hx
    simp only at h2 hxe
    rw [hxe, h2] at this
    injection this with this
    have : e = x := Prod.ext hxe.symm this
    rw [this]; exact hx
  intro e
  refine ⟨hsub e, ?_⟩
  intro he
  have hfe := find_mem ht he
  have h1 := hi.has e.1 (hk.mem_iff.mpr (List.mem_map_of_mem he)) e.2 hfe
  obtain ⟨n, hn, hne⟩ := Table.find_some_mem h1
  have hnt := hsub _ hn
  -- one table, one spelling
  have : (n, e.2) = e := by
    have hp := ht
    unfold Table.Sorted at hp
    have hirr : ∀ a b : Bytes × Bytes, a ∈ t → b ∈ t → sToLower a.1 = sToLower b.1 → a = b := by
      clear hi hsub he hfe h1 hn hnt hk
      induction t with
      | nil => intro a b ha; cases ha
      | cons x t ih =>
        rw [List.pairwise_cons] at hp
        have hne' : ∀ y ∈ t, sToLower x.1 ≠ sToLower y.1 := by
          intro y hy hl
          have := hp.1 y hy
          have h2 := (key_eq_iff x.1 y.1).mpr hl
          rw [this] at h2; cases h2
        intro a b ha hb hl
        rcases List.mem_cons.mp ha with ha1 | ha1 <;> rcases List.mem_cons.mp hb with hb1 | hb1
        · rw [ha1, hb1]
        · rw [ha1] at hl; exact absurd hl (hne' b hb1)
        · rw [hb1] at hl; exact absurd hl.symm (hne' a ha1)
        · exact ih hp.2 hp.2 a b ha1 hb1 hl
    exact hirr _ _ hnt he hne
  rw [← this]; exact hn

/-! ## A report on its way -/

/-- A report that can be transported: the method line and the identifying values survive the format
(see C22). -/
structure GoodReport (req : Msg) (keys : List Bytes) : Prop where
  method : Spec.GoodMethod req.methodLine
  ordinary : ∀ k ∈ keys, ∀ v, req.table.find k = some v → Spec.Ordinary (k, v)
  value : ∀ k ∈ keys, ∀ v, req.table.find k = some v → Spec.GoodValue v

/-- The message inside a report. -/
def inner (req : Msg) (keys : List Bytes) : Msg := { methodLine := req.methodLine, table := subTable req keys }

theorem inner_good {req : Msg} {keys : List Bytes} (h : GoodReport req keys) : Spec.GoodMsg (inner req keys) := by
  refine ⟨h.method, ?_, (subInv req keys).sorted, by simp [inner]⟩
  intro e he
  obtain ⟨h1, h2⟩ := (subInv req keys).from' e he
  exact h.ordinary e.1 h1 e.2 h2

theorem crashMessage_eq (gz : Bytes → Bytes) {req : Msg} {keys : List Bytes} (h : GoodReport req keys) :
    crashMessage gz req keys = some { methodLine := sCrash, table := [(str "timeout", str "5000")]
                                      content := bytes (inner req keys) } := by
  unfold crashMessage
  have := compose_eq gz (inner req keys) (inner_good h)
  unfold inner at this
  rw [this]
  rfl

theorem arrived_sorted (m : Msg) (h : Spec.GoodMsg m) : (arrived m).Sorted :=
  Table.set_sorted _ _ (arrived_base_sorted m h)

/-- The effect of a report. -/
theorem onReport_eq (bl : Bl) {req : Msg} {keys : List Bytes} (h : GoodReport req keys) :
    bl.onReport (bytes (inner req keys)) = bl.add (req.methodLine, arrived (inner req keys)) := by
  have := parse_msg (inner req keys) (inner_good h) [] [] (.inl rfl)
  unfold Bl.onReport
  simp only [List.append_nil, List.nil_append] at this
  rw [this]
  refine if_neg ?_
  rintro ⟨h1, _⟩
  exact h.method.nonempty h1

/-- Does a request match the report?  Without the model's tables. -/
def Same (req : Msg) (keys : List Bytes) (r : Msg) : Prop :=
  ∀ k ∈ keys, ¬ Spec.sameName k (str "Content-Length") →
    ∀ v, req.table.find k = some v → r.table.find k = some v

theorem matches_iff {req : Msg} {keys : List Bytes} (h : GoodReport req keys) (r : Msg) :
    matches_ (arrived (inner req keys)) r = true ↔ Same req keys r := by
  have hg := inner_good h
  have hi := subInv req keys
  have hfind : ∀ n, ¬ Spec.sameName n (str "Content-Length") →
      (arrived (inner req keys)).find n = (subTable req keys).find n := by
    intro n hn
    rw [find_arrived _ hg, if_neg (by exact hn)]
    cases hf : Table.find n (inner req keys).table with
    | none =>
      have : Table.find n (subTable req keys) = none := hf
      rw [this]; rfl
    | some v =>
      have hf' : Table.find n (subTable req keys) = some v := hf
      obtain ⟨k, hk, _⟩ := Table.find_some_mem hf'
      obtain ⟨h1, h2⟩ := hi.from' _ hk
      rw [hf', Option.map_some, carried_good (h.value k h1 v h2)]
  unfold matches_
  rw [List.all_eq_true]
  constructor
  · intro hm k hk hcl v hv
    have h1 := hi.has k hk v hv
    rw [← hfind k hcl] at h1
    obtain ⟨n, hn, hnk⟩ := Table.find_some_mem h1
    have h2 := hm _ hn
    rw [Bool.or_eq_true] at h2
    have hncl : ¬ Spec.sameName n (str "Content-Length") := by
      intro hs
      apply hcl
      unfold Spec.sameName at hs ⊢
      exact hnk.symm.trans hs
    rcases h2 with h2 | h2
    · exfalso
      -- the only entry that can be spelled with a NUL would be one of the report's names
      have hn0 : 0 ∉ n := by
        have := find_mem (arrived_sorted _ hg) hn
        simp only at this
        rw [hfind n hncl] at this
        obtain ⟨k', hk', hkn⟩ := Table.find_some_mem this
        have hk0 := (h.ordinary k' (hi.from' _ hk').1 _ (hi.from' _ hk').2).name.noNul
        intro h0
        apply hk0
        have hm0 : (0 : UInt8) ∈ sToLower n := by
          unfold sToLower
          exact List.mem_map.mpr ⟨0, h0, by decide⟩
        rw [← hkn] at hm0
        unfold sToLower at hm0
        obtain ⟨c, hc, hc0⟩ := List.mem_map.mp hm0
        have : c = 0 := by
          have := forall_u8 (P := fun c => toLower c = 0 → c = 0) (by decide +kernel) c
          exact this hc0
        rw [← this]; exact hc
      exact hncl ((sIEquals_good hn0 sContentLength (by decide +kernel)).mp h2)
    · rw [beq_iff_eq] at h2
      simp only at h2
      rw [find_congr _ hnk] at h2
      exact h2
  · intro hs e he
    rw [Bool.or_eq_true]
    by_cases hcl : Spec.sameName e.1 (str "Content-Length")
    · left
      have hn0 : 0 ∉ e.1 := by
        intro h0
        have hm0 : (0 : UInt8) ∈ e.1.map toLower := List.mem_map.mpr ⟨0, h0, by decide⟩
        unfold Spec.sameName at hcl
        rw [hcl] at hm0
        revert hm0
        decide +kernel
      exact (sIEquals_good hn0 sContentLength (by decide +kernel)).mpr hcl
    · right
      rw [beq_iff_eq]
      have := find_mem (arrived_sorted _ hg) he
      rw [hfind _ hcl] at this
      obtain ⟨k, hk, hke⟩ := Table.find_some_mem this
      obtain ⟨h1, h2⟩ := hi.from' _ hk
      have := hs k h1 (by intro hx; apply hcl; unfold Spec.sameName at hx ⊢; exact hke.symm.trans hx) _ h2
      simp only at this
      rw [← find_congr _ hke]
      exact this

/-! ## The list -/

theorem wouldCrash_iff {bl : Bl} (hn : bl.Nodup) (r : Msg) :
    wouldCrash bl r = true ↔
      (∃ s t, (r.methodLine, s) ∈ bl ∧ (r.methodLine, t) ∈ bl ∧ s ≠ t) ∨
      (∃ t, (r.methodLine, t) ∈ bl ∧ matches_ t r = true) := by
  have hmem : ∀ t, t ∈ (bl.filter (fun e => e.1 == r.methodLine)).map (·.2) ↔ (r.methodLine, t) ∈ bl := by
    intro t
    simp only [List.mem_map, List.mem_filter, beq_iff_eq]
    constructor
    · rintro ⟨e, ⟨he, h1⟩, h2⟩
      rw [← h1, ← h2]; exact he
    · intro h; exact ⟨_, ⟨h, rfl⟩, rfl⟩
  have hnd : ((bl.filter (fun e => e.1 == r.methodLine)).map (·.2)).Nodup := by
    have h1 := List.Pairwise.filter (fun e => e.1 == r.methodLine) hn
    unfold List.Nodup
    rw [List.pairwise_map]
    refine List.Pairwise.imp_of_mem ?_ h1
    intro a b ha hb hab heq
    have h1 := (List.mem_filter.mp ha).2
    have h2 := (List.mem_filter.mp hb).2
    rw [beq_iff_eq] at h1 h2
    exact hab (Prod.ext (h1.trans h2.symm) heq)
  unfold wouldCrash
  generalize (bl.filter (fun e => e.1 == r.methodLine)).map (·.2) = ts at hmem hnd ⊢
  simp only [← hmem]
  match ts, hnd with
  | [], _ => simp
  | [t], _ =>
    simp only [List.length_singleton, List.any_cons, List.any_nil, Bool.or_false, List.mem_singleton]
    rw [if_neg (by decide), if_neg (by decide)]
    constructor
    · intro h; exact .inr ⟨t, rfl, h⟩
    · rintro (⟨s, t', rfl, rfl, hst⟩ | ⟨t', rfl, h⟩)
      · exact absurd rfl hst
      · exact h
  | s :: t :: ts, hnd =>
    rw [if_neg (by simp), if_pos (by simp)]
    simp only [true_iff]
    left
    refine ⟨s, t, by simp, by simp, ?_⟩
    unfold List.Nodup at hnd
    rw [List.pairwise_cons] at hnd
    exact hnd.1 t (by simp)

theorem add_nodup {bl : Bl} (h : bl.Nodup) (e : Bytes × Table) : (bl.add e).Nodup := by
  unfold Bl.add
  split
  · exact h
  · rename_i hn
    unfold List.Nodup at h ⊢
    rw [List.pairwise_append]
    refine ⟨h, List.pairwise_singleton _ _, ?_⟩
    intro a ha b hb hab
    rw [List.mem_singleton] at hb
    subst hb; subst hab; exact hn ha

theorem mem_add {bl : Bl} {e x : Bytes × Table} : x ∈ bl.add e ↔ x ∈ bl ∨ x = e := by
  unfold Bl.add
  split
  · rename_i h
    constructor
    · exact .inl
    · rintro (h' | rfl)
      · exact h'
      · exact h
  · simp

theorem onReport_nodup {bl : Bl} (h : bl.Nodup) (c : Bytes) : (bl.onReport c).Nodup := by
  unfold Bl.onReport
  split
  · split
    · exact h
    · exact add_nodup h _
  · exact h

theorem onReport_keeps {bl : Bl} (c : Bytes) {x : Bytes × Table} (h : x ∈ bl) : x ∈ bl.onReport c := by
  unfold Bl.onReport
  split
  · split
    · exact h
    · exact mem_add.mpr (.inl h)
  · exact h

theorem run_nodup {bl : Bl} (h : bl.Nodup) (es : List Ev) : (bl.run es).Nodup := by
  induction es generalizing bl with
  | nil => exact h
  | cons e es ih =>
    refine ih (bl := bl.step e) ?_
    cases e with
    | report c => exact onReport_nodup h c
    | clear => exact List.Pairwise.nil

theorem run_keeps {bl : Bl} (es : List Ev) (hc : Ev.clear ∉ es) {x : Bytes × Table} (h : x ∈ bl) :
    x ∈ bl.run es := by
  induction es generalizing bl with
  | nil => exact h
  | cons e es ih =>
    refine ih (bl := bl.step e) (fun h => hc (List.mem_cons_of_mem _ h)) ?_
    cases e with
    | report c => exact onReport_keeps c h
    | clear => exact absurd List.mem_cons_self hc

/-! ## The properties -/

/-- A report as it arrives at another node. -/
def Reported (gz : Bytes → Bytes) (req : Msg) (keys : List Bytes) (arrived : Msg) : Prop :=
  ∃ msg, crashMessage gz req keys = some msg ∧ msg.content.length < 2 ^ 31 ∧
    transport gz msg = some arrived

theorem outer_good (b : Bytes) (h : b.length < 2 ^ 31) : Spec.GoodMsg
    { methodLine := sCrash, table := [(str "timeout", str "5000")], content := b } := by
  have hm : Spec.GoodMethod sCrash :=
    ⟨by decide +kernel, by decide +kernel, by decide +kernel, by decide +kernel⟩
  refine ⟨hm, ?_, List.pairwise_singleton _ _, h⟩
  intro e he
  rw [List.mem_singleton] at he
  subst he
  refine ⟨goodName_of _ (by decide +kernel), ?_, ?_, ?_⟩ <;> unfold Spec.sameName <;> decide +kernel

theorem transport_good (gz : Bytes → Bytes) {m : Msg} (h : Spec.GoodMsg m) :
    transport gz m = some (received m) := by
  have h1 : compose gz m = some (bytes m) := compose_eq gz m h
  have h2 := parse_msg m h [] [] (.inl rfl)
  simp only [List.append_nil, List.nil_append] at h2
  unfold transport
  rw [h1]
  simp only [h2]

theorem reported_eq {gz : Bytes → Bytes} {req : Msg} {keys : List Bytes} {a : Msg}
    (h : Reported gz req keys a) (hg : GoodReport req keys) :
    a.methodLine = str "CRASH_COMMAND" ∧ a.content = bytes (inner req keys) := by
  obtain ⟨msg, h1, h2, h3⟩ := h
  rw [crashMessage_eq gz hg] at h1
  injection h1 with h1
  subst h1
  rw [transport_good gz (outer_good _ h2)] at h3
  injection h3 with h3
  subst h3
  exact ⟨rfl, rfl⟩

/-- C69.  Reports of this kind do arrive. -/
theorem c69_report_arrives (gz : Bytes → Bytes) (req : Msg) (keys : List Bytes) (hg : GoodReport req keys)
    (msg : Msg) (hm : crashMessage gz req keys = some msg) (hs : msg.content.length < 2 ^ 31) :
    ∃ a, Reported gz req keys a ∧ a.methodLine = str "CRASH_COMMAND" := by
  have hm' := hm
  rw [crashMessage_eq gz hg] at hm
  injection hm with hm
  subst hm
  exact ⟨_, ⟨_, hm', hs, transport_good gz (outer_good _ hs)⟩, rfl⟩

/-- C69.  Once a node has received the report of a crash, it refuses every request with the same
method line and the same identifying values, whatever it heard before and whatever else it hears
later, until the list is cleared. -/
theorem c69_refused_partial (gz : Bytes → Bytes) (req : Msg) (keys : List Bytes) (a : Msg)
    (hg : GoodReport req keys) (hr : Reported gz req keys a) (before after : List Ev)
    (hc : Ev.clear ∉ after) (r : Msg) (hm : r.methodLine = req.methodLine) (hs : Same req keys r) :
    wouldCrash (Bl.run [] (before ++ Ev.report a.content :: after)) r = true := by
  rw [(reported_eq hr hg).2]
  rw [wouldCrash_iff (run_nodup List.Pairwise.nil _)]
  right
  refine ⟨arrived (inner req keys), ?_, (matches_iff hg r).mpr hs⟩
  rw [hm]
  unfold Bl.run
  rw [List.foldl_append, List.foldl_cons]
  refine run_keeps after hc ?_
  show _ ∈ Bl.onReport _ _
  rw [onReport_eq _ hg]
  exact mem_add.mpr (.inr rfl)

/-- The method lines named by the reports of a history. -/
def named : List Ev → List Bytes
  | [] => []
  | .report c :: es => (match parse c with | .ok _ m => [m.methodLine] | _ => []) ++ named es
  | .clear :: es => named es

theorem run_named (es : List Ev) (bl : Bl) (m : Bytes) (h : m ∉ named es) (t : Table) :
    (m, t) ∈ bl.run es → (m, t) ∈ bl := by
  induction es generalizing bl with
  | nil => exact id
  | cons e es ih =>
    intro hx
    cases e with
    | clear =>
      have := ih (bl := bl.step .clear) (by simpa [named] using h) hx
      exact absurd this (List.not_mem_nil)
    | report c =>
      simp only [named, List.mem_append, not_or] at h
      have := ih (bl := bl.step (.report c)) h.2 hx
      change (m, t) ∈ bl.onReport c at this
      unfold Bl.onReport at this
      cases hp : parse c with
      | ok n x =>
        rw [hp] at this h
        simp only at this
        split at this
        · exact this
        · rcases mem_add.mp this with h' | h'
          · exact h'
          · injection h' with h1 h2
            exact absurd (by rw [h1]; simp) h.1
      | incomplete => rw [hp] at this; exact this
      | throws => rw [hp] at this; exact this
      | ub => rw [hp] at this; exact this

/-- C69.  A method line no report names is never refused. -/
theorem c69_others_not_refused (es : List Ev) (r : Msg) (h : r.methodLine ∉ named es) :
    wouldCrash (Bl.run [] es) r = false := by
  rw [Bool.eq_false_iff]
  intro hw
  rw [wouldCrash_iff (run_nodup List.Pairwise.nil _)] at hw
  rcases hw with ⟨s, _, hx, _⟩ | ⟨t, hx, _⟩
  · exact absurd (run_named es [] _ h s hx) (List.not_mem_nil)
  · exact absurd (run_named es [] _ h t hx) (List.not_mem_nil)

/-- C69.  After one report of a method line, the requests refused are exactly those with all of its
identifying values; a request that differs in one of them, or lacks one, is processed. -/
theorem c69_one_report_is_specific_partial (gz : Bytes → Bytes) (req : Msg) (keys : List Bytes) (a : Msg)
    (hg : GoodReport req keys) (hr : Reported gz req keys a) (before after : List Ev)
    (hb : req.methodLine ∉ named before) (ha : req.methodLine ∉ named after) (hc : Ev.clear ∉ after)
    (r : Msg) (hm : r.methodLine = req.methodLine) :
    wouldCrash (Bl.run [] (before ++ Ev.report a.content :: after)) r = true ↔ Same req keys r := by
  refine ⟨?_, c69_refused_partial gz req keys a hg hr before after hc r hm⟩
  rw [(reported_eq hr hg).2, wouldCrash_iff (run_nodup List.Pairwise.nil _), hm]
  have hone : ∀ t, (req.methodLine, t) ∈
      Bl.run [] (before ++ Ev.report (bytes (inner req keys)) :: after) → t = arrived (inner req keys) := by
    intro t ht
    unfold Bl.run at ht
    rw [List.foldl_append, List.foldl_cons] at ht
    have h1 := run_named after _ _ ha t ht
    change _ ∈ Bl.onReport _ _ at h1
    rw [onReport_eq _ hg] at h1
    rcases mem_add.mp h1 with h1 | h1
    · exact absurd (run_named before [] _ hb t h1) (List.not_mem_nil)
    · injection h1
  rintro (⟨s, t, hs, ht, hst⟩ | ⟨t, ht, hmt⟩)
  · exact absurd ((hone s hs).trans (hone t ht).symm) hst
  · rw [hone t ht] at hmt
    exact (matches_iff hg r).mp hmt

/-- C69.  Two reports of one method line with different identifying values: every request with this
method line is refused. -/
theorem c69_two_reports_block_all_partial (gz : Bytes → Bytes) (req req' : Msg) (keys keys' : List Bytes)
    (a a' : Msg) (hg : GoodReport req keys) (hg' : GoodReport req' keys')
    (hr : Reported gz req keys a) (hr' : Reported gz req' keys' a')
    (hm : req'.methodLine = req.methodLine)
    (k : Bytes) (hk : k ∈ keys) (hncl : ¬ Spec.sameName k (str "Content-Length")) (v : Bytes)
    (hv : req.table.find k = some v) (hd : ∀ k' ∈ keys', Spec.sameName k' k → req'.table.find k' ≠ some v)
    (before mid after : List Ev) (hc : Ev.clear ∉ mid ++ after)
    (r : Msg) (hrm : r.methodLine = req.methodLine) :
    wouldCrash (Bl.run [] (before ++ Ev.report a.content :: (mid ++ Ev.report a'.content :: after))) r = true := by
  rw [(reported_eq hr hg).2, (reported_eq hr' hg').2]
  rw [wouldCrash_iff (run_nodup List.Pairwise.nil _), hrm]
  left
  refine ⟨arrived (inner req keys), arrived (inner req' keys'), ?_, ?_, ?_⟩
  · unfold Bl.run
    rw [List.foldl_append, List.foldl_cons, List.foldl_append, List.foldl_cons]
    refine run_keeps after (fun h => hc (List.mem_append_right _ h)) ?_
    refine onReport_keeps _ ?_
    refine run_keeps mid (fun h => hc (List.mem_append_left _ h)) ?_
    show _ ∈ Bl.onReport _ _
    rw [onReport_eq _ hg]
    exact mem_add.mpr (.inr rfl)
  · unfold Bl.run
    rw [List.foldl_append, List.foldl_cons, List.foldl_append, List.foldl_cons]
    refine run_keeps after (fun h => hc (List.mem_append_right _ h)) ?_
    show _ ∈ Bl.onReport _ _
    rw [onReport_eq _ hg', hm]
    exact mem_add.mpr (.inr rfl)
  · intro heq
    have h1 := (matches_iff hg { methodLine := [], table := arrived (inner req keys) }).mp (by
      unfold matches_
      rw [List.all_eq_true]
      intro e he
      rw [find_mem (arrived_sorted _ (inner_good hg)) he]
      simp)
    have h2 := h1 k hk hncl v hv
    simp only at h2
    rw [heq, find_arrived _ (inner_good hg'), if_neg (by exact hncl)] at h2
    cases hf : Table.find k (inner req' keys').table with
    | none => rw [hf] at h2; cases h2
    | some w =>
      rw [hf] at h2
      obtain ⟨n, hn, hnk⟩ := Table.find_some_mem hf
      obtain ⟨h3, h4⟩ := (subInv req' keys').from' _ hn
      simp only at h3 h4
      rw [Option.map_some, carried_good (hg'.value n h3 w h4)] at h2
      injection h2 with h2
      subst h2
      exact hd n h3 hnk h4

/-- C69.  Clearing the list makes the node accept everything again, until the next report. -/
theorem c69_cleared (es : List Ev) (r : Msg) : wouldCrash (Bl.run [] (es ++ [.clear])) r = false := by
  unfold Bl.run
  rw [List.foldl_append]
  rfl

/-! ## A node that logs in -/

/-- The entries that good reports leave in the list. -/
def GoodEntry (e : Bytes × Table) : Prop :=
  ∃ req keys, GoodReport req keys ∧ e = (req.methodLine, arrived (inner req keys))

/-- The headers of a good report but `Content-Length`, as they arrive. -/
def baseOf (m : Msg) : Table := (sent m.table).map (fun e => (e.1, Spec.carried e.2))

theorem base_notCL {m : Msg} (hg : Spec.GoodMsg m) {x : Bytes × Bytes} (hx : x ∈ baseOf m) :
    sIEquals sContentLength x.1 = false ∧ ¬ sToLower x.1 = sToLower sContentLength := by
  obtain ⟨y, hy, rfl⟩ := List.mem_map.mp hx
  obtain ⟨h1, h2⟩ := List.mem_filter.mp hy
  simp only [Bool.not_eq_true'] at h2
  refine ⟨h2, ?_⟩
  intro h3
  rw [sIEquals_comm, (sIEquals_good (hg.ordinary y h1).name.noNul sContentLength (by decide +kernel)).mpr h3] at h2
  cases h2

theorem base_find_none {m : Msg} (hg : Spec.GoodMsg m) : (baseOf m).find sContentLength = none := by
  cases hf : (baseOf m).find sContentLength with
  | none => rfl
  | some v =>
    obtain ⟨n, hn, hl⟩ := Table.find_some_mem hf
    exact absurd hl (base_notCL hg hn).2

theorem mem_arrived {m : Msg} (hg : Spec.GoodMsg m) (x : Bytes × Bytes) :
    x ∈ arrived m ↔ x ∈ baseOf m ∨ x = (sContentLength, natDec m.content.length) :=
  mem_set_new (base_find_none hg)

theorem natDec_zero : natDec 0 = [48] := by decide +kernel

theorem good_cl : Spec.Ordinary (sContentLength, [48]) ∧ Spec.GoodValue [48] := by
  refine ⟨⟨goodName_of _ (by decide +kernel), ?_, ?_, ?_⟩, by decide, by decide, by decide⟩
  all_goals unfold Spec.sameName; decide +kernel

theorem cl_not_sent : (!sIEquals sContentLength sContentLength) = false := by decide +kernel

/-- An entry of the list is itself a good report with all headers identifying. -/
theorem goodReport_entry {req : Msg} {keys : List Bytes} (h : GoodReport req keys) (order : List Bytes → List Bytes)
    (ho : ∀ l, (order l).Perm l) :
    GoodReport { methodLine := req.methodLine, table := arrived (inner req keys) }
      (order ((arrived (inner req keys)).map (·.1))) := by
  have hg := inner_good h
  have hk : ∀ k ∈ order ((arrived (inner req keys)).map (·.1)), ∀ v,
      (arrived (inner req keys)).find k = some v → Spec.Ordinary (k, v) ∧ Spec.GoodValue v := by
    intro k hk v hv
    obtain ⟨x, hx, rfl⟩ := List.mem_map.mp ((ho _).mem_iff.mp hk)
    have := find_mem (arrived_sorted _ hg) hx
    rw [this] at hv
    injection hv with hv
    subst hv
    rcases (mem_arrived hg x).mp hx with hx | rfl
    · obtain ⟨y, hy, rfl⟩ := List.mem_map.mp hx
      obtain ⟨h1, h2⟩ := (subInv req keys).from' y (List.mem_filter.mp hy).1
      have hv := h.value _ h1 _ h2
      simp only
      rw [carried_good hv]
      exact ⟨h.ordinary _ h1 _ h2, hv⟩
    · have : natDec (inner req keys).content.length = [48] := natDec_zero
      rw [this]
      exact good_cl
  exact ⟨h.method, fun k h1 v h2 => (hk k h1 v h2).1, fun k h1 v h2 => (hk k h1 v h2).2⟩

/-- Sending an entry on leaves it as it is. -/
theorem arrived_again {req : Msg} {keys : List Bytes} (h : GoodReport req keys) (order : List Bytes → List Bytes)
    (ho : ∀ l, (order l).Perm l) :
    arrived (inner { methodLine := req.methodLine, table := arrived (inner req keys) }
      (order ((arrived (inner req keys)).map (·.1)))) = arrived (inner req keys) := by
  have hg := inner_good h
  have hg2 := inner_good (goodReport_entry h order ho)
  have hst := subTable_all (m := req.methodLine) (arrived_sorted _ hg) (ho ((arrived (inner req keys)).map (·.1)))
  refine sorted_ext (arrived_sorted _ hg2) (arrived_sorted _ hg) ?_
  intro x
  rw [mem_arrived hg2, mem_arrived hg]
  have hcl : natDec (inner { methodLine := req.methodLine, table := arrived (inner req keys) }
      (order ((arrived (inner req keys)).map (·.1)))).content.length =
        natDec (inner req keys).content.length := rfl
  rw [hcl]
  refine or_congr ?_ Iff.rfl
  have hb : baseOf (inner { methodLine := req.methodLine, table := arrived (inner req keys) }
      (order ((arrived (inner req keys)).map (·.1)))) =
      (sent (arrived (inner req keys))).map (fun e => (e.1, Spec.carried e.2)) := by
    unfold baseOf
    show (sent (subTable _ _)).map _ = _
    rw [hst]
  rw [hb]
  have hval : ∀ y ∈ baseOf (inner req keys), Spec.carried y.2 = y.2 := by
    intro y hy
    obtain ⟨z, hz, rfl⟩ := List.mem_map.mp hy
    obtain ⟨h1, h2⟩ := (subInv req keys).from' z (List.mem_filter.mp hz).1
    have hv := h.value _ h1 _ h2
    simp only
    rw [carried_good hv, carried_good hv]
  constructor
  · intro hx
    obtain ⟨y, hy, rfl⟩ := List.mem_map.mp hx
    obtain ⟨h1, h2⟩ := List.mem_filter.mp hy
    rcases (mem_arrived hg y).mp h1 with h1 | rfl
    · rw [hval y h1]
      exact h1
    · rw [show (!sIEquals sContentLength (sContentLength, natDec (inner req keys).content.length).1) = false
        from cl_not_sent] at h2
      cases h2
  · intro hx
    refine List.mem_map.mpr ⟨x, List.mem_filter.mpr ⟨(mem_arrived hg x).mpr (.inl hx), ?_⟩, ?_⟩
    · rw [(base_notCL hg hx).1]; rfl
    · rw [hval x hx]

/-- A history in which every report is a good one. -/
def GoodHistory (gz : Bytes → Bytes) (es : List Ev) : Prop :=
  ∀ ev ∈ es, ev = .clear ∨ ∃ req keys a, GoodReport req keys ∧ Reported gz req keys a ∧ ev = .report a.content

theorem run_goodEntry {gz : Bytes → Bytes} {es : List Ev} (h : GoodHistory gz es) (bl : Bl)
    (hb : ∀ e ∈ bl, GoodEntry e) : ∀ e ∈ bl.run es, GoodEntry e := by
  induction es generalizing bl with
  | nil => exact hb
  | cons ev es ih =>
    refine ih (fun x hx => h x (List.mem_cons_of_mem _ hx)) (bl.step ev) ?_
    rcases h ev List.mem_cons_self with rfl | ⟨req, keys, a, hg, hr, rfl⟩
    · intro e he; exact absurd he (List.not_mem_nil)
    · intro e he
      change e ∈ Bl.onReport _ _ at he
      rw [(reported_eq hr hg).2, onReport_eq _ hg] at he
      rcases mem_add.mp he with he | rfl
      · exact hb e he
      · exact ⟨req, keys, hg, rfl⟩

theorem mapM_some {A B : Type} (f : A → Option B) (l : List A) (h : ∀ x ∈ l, ∃ y, f x = some y) :
    ∃ ys, l.mapM f = some ys ∧ ∀ x ∈ l, ∃ y ∈ ys, f x = some y := by
  induction l with
  | nil => exact ⟨[], rfl, by simp⟩
  | cons x l ih =>
    obtain ⟨y, hy⟩ := h x List.mem_cons_self
    obtain ⟨ys, h1, h2⟩ := ih (fun z hz => h z (List.mem_cons_of_mem _ hz))
    refine ⟨y :: ys, by rw [List.mapM_cons, hy, h1]; rfl, ?_⟩
    intro z hz
    rcases List.mem_cons.mp hz with rfl | hz
    · exact ⟨y, by simp, hy⟩
    · obtain ⟨w, hw, hz'⟩ := h2 z hz
      exact ⟨w, by simp [hw], hz'⟩

theorem mapM_none {A B : Type} (f : A → Option B) (l : List A) (x : A) (hx : x ∈ l) (h : f x = none) :
    l.mapM f = none := by
  induction l with
  | nil => cases hx
  | cons y l ih =>
    rw [List.mapM_cons]
    rcases List.mem_cons.mp hx with rfl | hx
    · rw [h]; rfl
    · rw [ih hx]
      cases f y <;> rfl

/-- C69.  A node that logs in is told what to refuse: the messages can be made, and when they have
arrived, in any order and among any other reports, the new node refuses every request its peer
refuses. -/
theorem c69_new_node_learns_partial (gz : Bytes → Bytes) (order : List Bytes → List Bytes)
    (ho : ∀ l, (order l).Perm l) (es : List Ev) (h : GoodHistory gz es) :
    ∃ ms, loginMessages gz order (Bl.run [] es) = some ms ∧
      ((∀ m ∈ ms, m.content.length < 2 ^ 31) →
        (∀ m ∈ ms, ∃ a, transport gz m = some a) ∧
        ∀ (start evs : List Ev), Ev.clear ∉ evs →
          (∀ m ∈ ms, ∀ a, transport gz m = some a → Ev.report a.content ∈ evs) →
          ∀ r, wouldCrash (Bl.run [] es) r = true → wouldCrash (Bl.run [] (start ++ evs)) r = true) := by
  have hge := run_goodEntry h [] (by simp)
  obtain ⟨ms, h1, h2⟩ := mapM_some
    (fun e : Bytes × Table => crashMessage gz { methodLine := e.1, table := e.2 } (order (e.2.map (·.1))))
    (Bl.run [] es) (by
      intro e he
      obtain ⟨req, keys, hg, rfl⟩ := hge e he
      exact ⟨_, crashMessage_eq gz (goodReport_entry hg order ho)⟩)
  refine ⟨ms, h1, ?_⟩
  intro hsmall
  -- every message comes from an entry
  have hms : ∀ m ∈ ms, ∃ e ∈ Bl.run [] es,
      crashMessage gz { methodLine := e.1, table := e.2 } (order (e.2.map (·.1))) = some m := by
    clear h2 hsmall hge
    unfold loginMessages at h1
    generalize Bl.run [] es = bl at h1
    induction bl generalizing ms with
    | nil => injection h1 with h1; subst h1; simp
    | cons e bl ih =>
      rw [List.mapM_cons] at h1
      cases hx : crashMessage gz { methodLine := e.1, table := e.2 } (order (e.2.map (·.1))) with
      | none => rw [hx] at h1; cases h1
      | some y =>
        rw [hx] at h1
        cases hy : bl.mapM (fun e : Bytes × Table =>
            crashMessage gz { methodLine := e.1, table := e.2 } (order (e.2.map (·.1)))) with
        | none => rw [hy] at h1; cases h1
        | some ys =>
          rw [hy] at h1
          injection h1 with h1
          subst h1
          intro m hm
          rcases List.mem_cons.mp hm with rfl | hm
          · exact ⟨e, by simp, hx⟩
          · obtain ⟨e', he', hm'⟩ := ih ys hy m hm
            exact ⟨e', by simp [he'], hm'⟩
  have htr : ∀ m ∈ ms, transport gz m = some (received m) := by
    intro m hm
    obtain ⟨e, he, hme⟩ := hms m hm
    obtain ⟨req, keys, hg, rfl⟩ := hge e he
    rw [crashMessage_eq gz (goodReport_entry hg order ho)] at hme
    injection hme with hme
    have hs := hsmall m hm
    subst hme
    exact transport_good gz (outer_good _ hs)
  refine ⟨fun m hm => ⟨_, htr m hm⟩, ?_⟩
  intro start evs hc harr r hw
  have hall : ∀ e ∈ Bl.run [] es, e ∈ Bl.run [] (start ++ evs) := by
    intro e he
    obtain ⟨req, keys, hg, rfl⟩ := hge e he
    obtain ⟨m, hm, hme⟩ := h2 _ he
    have hg2 := goodReport_entry hg order ho
    simp only at hme
    rw [crashMessage_eq gz hg2] at hme
    injection hme with hme
    have hin := harr m hm _ (htr m hm)
    obtain ⟨s, t, hst⟩ := List.append_of_mem hin
    unfold Bl.run
    rw [hst, ← List.append_assoc, List.foldl_append, List.foldl_cons]
    refine run_keeps t (by intro h; apply hc; rw [hst]; simp [h]) ?_
    show _ ∈ Bl.onReport _ _
    subst hme
    show _ ∈ Bl.onReport _ (bytes _)
    rw [onReport_eq _ hg2, arrived_again hg order ho]
    exact mem_add.mpr (.inr rfl)
  rw [wouldCrash_iff (run_nodup List.Pairwise.nil _)] at hw ⊢
  rcases hw with ⟨s, t, hs, ht, hst⟩ | ⟨t, ht, hmt⟩
  · exact .inl ⟨s, t, hall _ hs, hall _ ht, hst⟩
  · exact .inr ⟨t, hall _ ht, hmt⟩

/-! ## What goes wrong -/

/-- C69, fails: a report whose method line holds a control character is accepted from anybody, and from
then on, until the list is cleared, every login throws while the messages for the new node are made
(and the connection is closed, SQLiteNode.cpp:1084, 1399-1409): no node can log in any more. -/
theorem c69_bad_report_blocks_logins (gz : Bytes → Bytes) (order : List Bytes → List Bytes)
    (content : Bytes) (n : Nat) (m : Msg) (hp : parse content = .ok n m)
    (hbad : ∃ c ∈ m.methodLine, c < 32 ∧ c ≠ 9) (before after : List Ev) (hc : Ev.clear ∉ after) :
    loginMessages gz order (Bl.run [] (before ++ Ev.report content :: after)) = none := by
  obtain ⟨c, hcm, hc1, hc2⟩ := hbad
  have hne : m.methodLine ≠ [] := by intro h; rw [h] at hcm; cases hcm
  refine mapM_none _ _ (m.methodLine, m.table) ?_ ?_
  · unfold Bl.run
    rw [List.foldl_append, List.foldl_cons]
    refine run_keeps after hc ?_
    show _ ∈ Bl.onReport _ _
    unfold Bl.onReport
    rw [hp]
    simp only [hne, false_and, if_false]
    exact mem_add.mpr (.inr rfl)
  · unfold crashMessage compose
    have : m.methodLine.any badMethodChar = true := by
      rw [List.any_eq_true]
      refine ⟨c, hcm, ?_⟩
      unfold badMethodChar
      simp [hc1, hc2]
    simp only [this, if_true]
    rfl

example : ∃ n m, parse (str "Foo\x01\r\n\r\n") = .ok n m ∧ ∃ c ∈ m.methodLine, c < 32 ∧ c ≠ 9 :=
  ⟨8, { methodLine := str "Foo\x01" }, by rw [parse_eq_parseF]; decide +kernel, by decide +kernel⟩

/-- A request that crashes a node; the user ID identifies it. -/
def exReq : Msg := { methodLine := str "Crashy", table := [(str "note", str "x"), (str "userID", str "5")] }

/-- The report of a request, as it arrives. -/
def exArrived (req : Msg) (keys : List Bytes) : Option Msg := (crashMessage id req keys).bind (transport id)

theorem exReq_good : GoodReport exReq [str "userID"] := by
  refine ⟨⟨by decide +kernel, by decide +kernel, by decide +kernel, by decide +kernel⟩, ?_, ?_⟩
  · intro k hk v hv
    rw [List.mem_singleton] at hk
    subst hk
    have : v = str "5" := by
      have h : exReq.table.find (str "userID") = some (str "5") := by decide +kernel
      rw [h] at hv; injection hv with hv; exact hv.symm
    subst this
    refine ⟨goodName_of _ (by decide +kernel), ?_, ?_, ?_⟩ <;> unfold Spec.sameName <;> decide +kernel
  · intro k hk v hv
    rw [List.mem_singleton] at hk
    subst hk
    have : v = str "5" := by
      have h : exReq.table.find (str "userID") = some (str "5") := by decide +kernel
      rw [h] at hv; injection hv with hv; exact hv.symm
    subst this
    exact ⟨by decide +kernel, by decide +kernel, by decide +kernel⟩

/-- The same request from the same user is refused, from another user it is not. -/
example : (exArrived exReq [str "userID"]).map (fun a =>
    [exReq, { exReq with table := [(str "note", str "y"), (str "USERID", str "5")] },
     { exReq with table := [(str "userID", str "6")] }, { exReq with table := [] },
     { exReq with methodLine := str "Other" }].map (wouldCrash (Bl.run [] [.report a.content]))) =
    some [true, true, false, false, false] := by
  simp only [exArrived, Bl.run, Bl.step, Bl.onReport, List.foldl_cons, List.foldl_nil,
    parse_eq_parseF]
  decide +kernel

/-- C69, fails: blanks at the ends of an identifying value are lost in the report, so the very request
that crashed the node is not refused by the others. -/
theorem c69_blank_value_not_refused :
    let req : Msg := { methodLine := str "Crashy", table := [(str "query", str " a")] }
    (exArrived req [str "query"]).map (fun a => wouldCrash (Bl.run [] [.report a.content]) req) =
      some false := by
  simp only [exArrived, Bl.run, Bl.step, Bl.onReport, List.foldl_cons, List.foldl_nil,
    parse_eq_parseF]
  decide +kernel

/-- C69, limit: method lines are compared byte by byte here, while commands are recognised without
regard to case, so another spelling of the command is not refused. -/
theorem c69_other_spelling_not_refused :
    (exArrived exReq [str "userID"]).map (fun a =>
      wouldCrash (Bl.run [] [.report a.content]) { exReq with methodLine := str "crashy" }) = some false := by
  simp only [exArrived, Bl.run, Bl.step, Bl.onReport, List.foldl_cons, List.foldl_nil,
    parse_eq_parseF]
  decide +kernel

end Bedrock.Crash.Props
