import Verif.Model.Cache

/-! # Lemmas about the cache model -/

namespace Bedrock.Cache
open Bedrock

theorem charsFrom_le : ∀ (b : Bool) (v : Bytes), charsFrom b v ≤ v.length
  | _, [] => by simp [charsFrom]
  | b, x :: xs => by
    have h1 := charsFrom_le true xs
    have h2 := charsFrom_le (0xC0 ≤ x) xs
    unfold charsFrom
    split
    · simp only [List.length_cons]; omega
    · simp only [List.length_cons]; omega

theorem cstr_length_le : ∀ v : Bytes, (cstr v).length ≤ v.length
  | [] => by simp [cstr]
  | x :: xs => by
    have := cstr_length_le xs
    unfold cstr
    split
    · simp
    · simp only [List.length_cons]; omega

theorem cstr_of_no_nul : ∀ {v : Bytes}, (∀ b ∈ v, b ≠ 0) → cstr v = v
  | [], _ => rfl
  | x :: xs, h => by
    have hx : x ≠ 0 := h x (by simp)
    have := cstr_of_no_nul (v := xs) (fun b hb => h b (by simp [hb]))
    simp [cstr, hx, this]

theorem chars_cstr_le (v : Bytes) : chars (cstr v) ≤ v.length :=
  Nat.le_trans (charsFrom_le _ _) (cstr_length_le v)

theorem charsFrom_ascii : ∀ {v : Bytes}, (∀ b ∈ v, b < 0x80) → charsFrom false v = v.length
  | [], _ => rfl
  | x :: xs, h => by
    have hx : x < 0x80 := h x (by simp)
    have ih := charsFrom_ascii (v := xs) (fun b hb => h b (by simp [hb]))
    have hc : decide (0xC0 ≤ x) = false := by
      simp only [decide_eq_false_iff_not]
      intro h2
      have h1 : x.toNat < 128 := hx
      have h3 : 192 ≤ x.toNat := h2
      omega
    simp only [charsFrom, Bool.false_and, Bool.false_eq_true, if_false, hc, ih, List.length_cons]
    omega

theorem total_split (p : Row → Bool) : ∀ rows : List Row,
    total (rows.filter p) + total (rows.filter fun r => !p r) = total rows
  | [] => rfl
  | r :: rs => by
    have ih := total_split p rs
    unfold total at ih ⊢
    cases h : p r <;> simp [h] <;> omega

theorem total_append (a b : List Row) : total (a ++ b) = total a + total b := by
  simp [total]

/-- The counter agrees with the table. -/
def Exact (t : Tables) : Prop := t.size = total t.rows

theorem exact_delete {t : Tables} (h : Exact t) (p : Bytes → Bool) : Exact (deleteWhere p t) := by
  have := total_split (fun r => p r.name) t.rows
  unfold Exact at h ⊢
  simp only [deleteWhere]
  omega

theorem exact_insert {t : Tables} (h : Exact t) (n v : Bytes) : Exact (insertOrReplace true n v t) := by
  have := total_split (fun r => decide (r.name = n)) t.rows
  have h2 : (t.rows.filter fun r => !decide (r.name = n)) = t.rows.filter fun r => r.name ≠ n := by
    congr 1; funext r; simp
  rw [h2] at this
  unfold Exact at h ⊢
  simp only [insertOrReplace, total_append, if_true]
  have h3 : total [(⟨n, v⟩ : Row)] = chars v := by simp [total]
  rw [h3]
  omega

/-- What `LIMIT 1` guarantees. -/
structure Env.Ok (e : Env) : Prop where
  mem : ∀ rows r, e.first rows = some r → r ∈ rows
  some : ∀ rows, rows ≠ [] → e.first rows ≠ none

theorem evictRows_spec {e : Env} {need : Int} : ∀ {fuel : Nat} {t t' : Tables},
    evictRows e need fuel t = some t' →
    t'.size + need ≤ e.max ∧ (∀ r ∈ t'.rows, r ∈ t.rows) ∧ (Exact t → Exact t')
  | fuel, t, t', h => by
    unfold evictRows at h
    split at h
    · rename_i hf
      simp only [Option.some.injEq] at h; subst h
      exact ⟨hf, fun _ h => h, fun h => h⟩
    · split at h
      · cases h
      · cases h
      · split at h
        · cases h
        · obtain ⟨h1, h2, h3⟩ := evictRows_spec h
          refine ⟨h1, fun r hr => ?_, fun hx => h3 (exact_delete hx _)⟩
          have := h2 r hr
          simp only [deleteWhere, List.mem_filter] at this
          exact this.1

theorem evict_spec {e : Env} {need : Int} : ∀ {lru : List Bytes} {t : Tables} {lru' : List Bytes} {t' : Tables},
    evict e need lru t = some (lru', t') →
    t'.size + need ≤ e.max ∧ (Exact t → Exact t') ∧
    ∃ popped, lru = popped ++ lru' ∧
      (∀ r ∈ t'.rows, r ∈ t.rows ∧ r.name ∉ popped.map cstr) ∧
      (∀ r ∈ t.rows, r ∉ t'.rows → r.name ∈ popped.map cstr ∨ lru' = [])
  | lru, t, lru', t', h => by
    unfold evict at h
    split at h
    · rename_i hf
      simp only [Option.some.injEq, Prod.mk.injEq] at h
      obtain ⟨rfl, rfl⟩ := h
      exact ⟨hf, fun h => h, [], rfl, fun r hr => ⟨hr, by simp⟩, fun r hr hn => absurd hr hn⟩
    · split at h
      · rename_i heq
        cases hr : evictRows e need t.rows.length t with
        | none => rw [hr] at h; cases h
        | some t'' =>
          rw [hr] at h
          simp only [Option.map_some, Option.some.injEq, Prod.mk.injEq] at h
          obtain ⟨rfl, rfl⟩ := h
          obtain ⟨h1, h2, h3⟩ := evictRows_spec hr
          exact ⟨h1, h3, [], rfl, fun r hr => ⟨h2 r hr, by simp⟩, fun _ _ _ => Or.inr rfl⟩
      · rename_i n rest
        split at h
        · cases h
        · obtain ⟨h1, h2, popped, h3, h4, h5⟩ := evict_spec h
          refine ⟨h1, fun hx => h2 (exact_delete hx _), n :: popped, by simp [h3], ?_, ?_⟩
          · intro r hr
            obtain ⟨h6, h7⟩ := h4 r hr
            simp only [deleteWhere, List.mem_filter, Bool.not_eq_true', decide_eq_false_iff_not] at h6
            exact ⟨h6.1, by simp only [List.map_cons, List.mem_cons, not_or]; exact ⟨h6.2, h7⟩⟩
          · intro r hr hn
            by_cases he : r.name = cstr n
            · exact Or.inl (by simp [he])
            · rcases h5 r (by simp [deleteWhere, hr, he]) hn with h | h
              · exact Or.inl (by simp only [List.map_cons, List.mem_cons]; exact Or.inr h)
              · exact Or.inr h

theorem total_pos_rows {rows : List Row} (h : total rows ≠ 0) : rows ≠ [] := by
  intro h2; subst h2; exact h rfl

theorem length_delete_lt {t : Tables} {r : Row} (h : r ∈ t.rows) :
    (deleteWhere (· = r.name) t).rows.length < t.rows.length := by
  simp only [deleteWhere]
  refine List.length_filter_lt_length_iff_exists.2 ⟨r, h, by simp⟩

/-- With an exact counter the loop over rows never meets the assertion. -/
theorem evictRows_some {e : Env} (ho : e.Ok) {need : Int} (hn : need ≤ e.max) : ∀ {fuel : Nat} {t : Tables},
    Exact t → (∀ r ∈ t.rows, r.name ≠ []) → t.rows.length ≤ fuel → evictRows e need fuel t ≠ none
  | fuel, t, hx, hne, hl => by
    unfold evictRows
    split
    · simp
    · rename_i hf
      have hz : t.rows ≠ [] := by
        apply total_pos_rows
        intro hz
        rw [hx, hz] at hf
        omega
      split
      · rename_i h; exact absurd h (ho.some _ hz)
      · exact absurd (List.length_eq_zero_iff.1 (Nat.le_zero.1 hl)) hz
      · rename_i fuel r h
        have hm := ho.mem _ _ h
        rw [if_neg (hne r hm)]
        apply evictRows_some ho hn (exact_delete hx _)
        · intro r' hr'
          simp only [deleteWhere, List.mem_filter] at hr'
          exact hne r' hr'.1
        · have := length_delete_lt hm
          omega

theorem evict_some {e : Env} (ho : e.Ok) {need : Int} (hn : need ≤ e.max) : ∀ {lru : List Bytes} {t : Tables},
    Exact t → (∀ r ∈ t.rows, r.name ≠ []) → (∀ n ∈ lru, n ≠ []) → evict e need lru t ≠ none
  | lru, t, hx, hne, hl => by
    unfold evict
    split
    · simp
    · split
      · have := evictRows_some ho hn hx hne (Nat.le_refl _)
        cases h : evictRows e need t.rows.length t with
        | none => exact absurd h this
        | some t' => simp
      · rename_i n rest
        rw [if_neg (hl n (by simp))]
        apply evict_some ho hn (exact_delete hx _)
        · intro r' hr'
          simp only [deleteWhere, List.mem_filter] at hr'
          exact hne r' hr'.1
        · intro m hm; exact hl m (by simp [hm])

theorem mem_pushMRU {lru : List Bytes} {n m : Bytes} : m ∈ pushMRU lru n ↔ m ∈ lru ∧ m ≠ n ∨ m = n := by
  simp [pushMRU]

/-- The table after invalidation. -/
def invalidated (e : Env) (r : WriteReq) (t : Tables) : Tables :=
  if r.invalidate = [] then t else deleteWhere (e.glob (cstr r.invalidate)) t

theorem exact_invalidated {e : Env} {r : WriteReq} {t : Tables} (h : Exact t) : Exact (invalidated e r t) := by
  unfold invalidated; split
  · exact h
  · exact exact_delete h _

theorem mem_invalidated {e : Env} {r : WriteReq} {t : Tables} {x : Row} (h : x ∈ (invalidated e r t).rows) :
    x ∈ t.rows := by
  unfold invalidated at h; split at h
  · exact h
  · simp only [deleteWhere, List.mem_filter] at h; exact h.1

theorem write_cases (e : Env) (rc : Bool) (r : WriteReq) (s : Node) :
    (refused e r = true ∧ write e rc r s = (s, .err 402)) ∨
    (refused e r = false ∧ evict e r.data.length s.lru (invalidated e r s.db) = none ∧ write e rc r s = (s, .crash)) ∨
    (∃ lru t, refused e r = false ∧ evict e r.data.length s.lru (invalidated e r s.db) = some (lru, t) ∧
      write e rc r s =
        ({ db := insertOrReplace rc (cstr r.name) (cstr r.data) t, lru := pushMRU lru r.name }, .ok)) := by
  cases hr : refused e r
  · right
    have hw : write e rc r s = match evict e r.data.length s.lru (invalidated e r s.db) with
      | none => (s, .crash)
      | some (lru, t) =>
        ({ db := insertOrReplace rc (cstr r.name) (cstr r.data) t, lru := pushMRU lru r.name }, .ok) := by
      unfold write invalidated; rw [hr]; rfl
    cases he : evict e r.data.length s.lru (invalidated e r s.db) with
    | none => left; rw [hw, he]; exact ⟨rfl, rfl, rfl⟩
    | some p =>
      obtain ⟨lru, t⟩ := p
      right; exact ⟨lru, t, rfl, rfl, by rw [hw, he]⟩
  · left; exact ⟨rfl, by unfold write; rw [hr]; rfl⟩

theorem refused_false {e : Env} {r : WriteReq} (h : refused e r = false) :
    r.name ≠ [] ∧ (r.data.length : Int) ≤ e.max ∧ r.data ≠ [] := by
  unfold refused at h
  simp only [Bool.or_eq_false_iff, decide_eq_false_iff_not, Nat.not_lt] at h
  obtain ⟨⟨⟨h1, _⟩, h3⟩, h4⟩ := h
  refine ⟨?_, by omega, ?_⟩
  · intro hn; rw [hn] at h1; simp at h1
  · unfold WriteReq.data
    by_cases hv : r.value = []
    · rw [if_pos hv]
      intro hc
      simp [hv, hc] at h3
    · rw [if_neg hv]; exact hv

theorem mem_insert {rc : Bool} {n v : Bytes} {t : Tables} {x : Row} :
    x ∈ (insertOrReplace rc n v t).rows ↔ x ∈ t.rows ∧ x.name ≠ n ∨ x = ⟨n, v⟩ := by
  simp [insertOrReplace]

/-- Names are not empty and identify rows. -/
structure Wf (t : Tables) : Prop where
  uniq : ∀ r ∈ t.rows, ∀ r' ∈ t.rows, r.name = r'.name → r = r'
  named : ∀ r ∈ t.rows, r.name ≠ []

theorem Wf.sub {t t' : Tables} (h : Wf t) (hs : ∀ r ∈ t'.rows, r ∈ t.rows) : Wf t' :=
  ⟨fun r hr r' hr' => h.uniq r (hs r hr) r' (hs r' hr'), fun r hr => h.named r (hs r hr)⟩

theorem Wf.insert {t : Tables} (h : Wf t) (rc : Bool) {n : Bytes} (v : Bytes) (hn : n ≠ []) :
    Wf (insertOrReplace rc n v t) := by
  constructor
  · intro r hr r' hr' he
    rcases mem_insert.1 hr with ⟨h1, h2⟩ | rfl <;> rcases mem_insert.1 hr' with ⟨h3, h4⟩ | rfl
    · exact h.uniq r h1 r' h3 he
    · exact absurd he h2
    · exact absurd he.symm h4
    · rfl
  · intro r hr
    rcases mem_insert.1 hr with ⟨h1, _⟩ | rfl
    · exact h.named r h1
    · exact hn

theorem write_db_of_ok {e : Env} {rc : Bool} {r : WriteReq} {s : Node} (h : (write e rc r s).2 = .ok) :
    ∃ lru t, refused e r = false ∧ evict e r.data.length s.lru (invalidated e r s.db) = some (lru, t) ∧
      write e rc r s =
        ({ db := insertOrReplace rc (cstr r.name) (cstr r.data) t, lru := pushMRU lru r.name }, .ok) := by
  rcases write_cases e rc r s with ⟨_, h1⟩ | ⟨_, _, h1⟩ | h1
  · rw [h1] at h; cases h
  · rw [h1] at h; cases h
  · exact h1

theorem write_inert {e : Env} {rc : Bool} {r : WriteReq} {s : Node} (h : (write e rc r s).2 ≠ .ok) :
    (write e rc r s).1 = s := by
  rcases write_cases e rc r s with ⟨_, h1⟩ | ⟨_, _, h1⟩ | ⟨lru, t, _, _, h1⟩
  · rw [h1]
  · rw [h1]
  · rw [h1] at h; exact absurd rfl h

end Bedrock.Cache
