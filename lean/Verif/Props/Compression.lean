import Verif.Model.Compression

/-!
# C60: compressed values
-/

namespace Bedrock.Compression.Props
open Bedrock Bedrock.Text Bedrock.Compression

variable {Dict : Type}

/-- Every row holds a dictionary whose own ID is the ID of the row. -/
def Labelled (z : Zstd Dict) (dicts : Dicts Dict) : Prop := ∀ i d, dicts i = some d → z.ownId d = i

/-- The SQL result holds these bytes. -/
def holds (r : SqlResult) (s : Bytes) : Prop := ∃ v, r = .value v ∧ v ≠ .null ∧ v.bytes = s

/-- C60.  What `compress` made, `decompress` gives back, as text: for every text, every dictionary ID (also none or 0),
and every set of dictionaries whose rows carry the IDs of their dictionaries.  A text stored without a dictionary must
not look like a zstd frame. -/
theorem c60_sql_round_trip_partial (z : Zstd Dict) (hz : z.Sound) (dicts : Dicts Dict) (hl : Labelled z dicts)
    (s : Bytes) (id : Val) (hf : id.int64 % 2 ^ 64 = 0 → z.isFrame s = false) (v : Val)
    (h : sqlCompress z dicts (.text s) id = .value v) : sqlDecompress z dicts v = .value (.text s) := by
  have plain : (z.isFrame s = false ∨ s = []) → sqlDecompress z dicts (.text s) = .value (.text s) := by
    intro h
    unfold sqlDecompress
    rw [if_neg (by simp), if_pos (h.elim (fun h => .inr h) (fun h => .inl h))]
  unfold sqlCompress at h
  rw [if_neg (by simp)] at h
  split at h
  · rename_i hn
    injection h with h
    subst h
    exact plain (.inl (hf (by rw [hn]; rfl)))
  · split at h
    · rename_i h0
      injection h with h
      subst h
      exact plain (.inl (hf h0))
    · rename_i h0
      cases hd : dicts (id.int64 % 2 ^ 64).toNat with
      | none => rw [hd] at h; cases h
      | some d =>
        rw [hd] at h
        simp only at h
        split at h
        · rename_i he
          injection h with h
          subst h
          exact plain (.inr he)
        · cases hc : z.comp d (Val.text s).bytes with
          | none => rw [hc] at h; cases h
          | some y =>
            rw [hc] at h
            injection h with h
            subst h
            obtain ⟨h1, h2, h3, h4⟩ := hz.frame _ _ _ hc
            have hid : z.frameId y = (id.int64 % 2 ^ 64).toNat := by rw [h2, hl _ _ hd]
            have hne : z.frameId y ≠ 0 := by
              rw [hid]
              have : 0 ≤ id.int64 % 2 ^ 64 := Int.emod_nonneg _ (by decide)
              omega
            have hb : (Val.blob y).bytes = y := rfl
            unfold sqlDecompress
            rw [if_neg (by simp), if_neg (by rw [hb]; simp [h1, h4]), if_neg (fun h => by rw [hb, hid, hd] at h; cases h.2), hb, h3]
            simp only
            rw [if_pos hne, hid, hd, hz.back _ _ _ hc]
            rfl

/-- C60.  The C++ functions agree with each other, under the same conditions. -/
theorem c60_cpp_round_trip_partial (z : Zstd Dict) (hz : z.Sound) (dicts : Dicts Dict) (hl : Labelled z dicts)
    (s : Bytes) (id : Nat) (hf : id = 0 → z.isFrame s = false) (y : Bytes)
    (h : compress z dicts s id = .ok y) : decompress z dicts y = s := by
  unfold compress at h
  split at h
  · rename_i h0
    injection h with h
    subst h
    unfold decompress
    rcases h0 with h0 | h0
    · rw [hf h0]; simp
    · rw [if_pos h0]
  · rename_i h0
    cases hd : dicts id with
    | none => rw [hd] at h; cases h
    | some d =>
      rw [hd] at h
      simp only at h
      cases hc : z.comp d s with
      | none => rw [hc] at h; cases h
      | some y' =>
        rw [hc] at h
        injection h with h
        subst h
        obtain ⟨h1, h2, h3, h4⟩ := hz.frame _ _ _ hc
        have hid : z.frameId y' = id := by rw [h2, hl _ _ hd]
        unfold decompress
        rw [if_neg h4, h1, if_neg (by simp), hid, if_neg (by simp [hd]), h3]
        simp only
        rw [if_pos (fun e => h0 (.inl e)), hd, hz.back _ _ _ hc]

/-- C60.  SQL and C++ write the same bytes, so one reads what the other wrote. -/
theorem c60_interchangeable (z : Zstd Dict) (dicts : Dicts Dict) (s y : Bytes) (id : Nat) (h64 : id < 2 ^ 63)
    (hs : s ≠ []) (h : compress z dicts s id = .ok y) :
    ∃ v, sqlCompress z dicts (.text s) (.int id) = .value v ∧ v.bytes = y := by
  have hm : ((Val.int id).int64 % 2 ^ 64) = id := by simp only [Val.int64]; omega
  have hb : (Val.text s).bytes ≠ [] := hs
  unfold compress at h
  unfold sqlCompress
  rw [if_neg (by simp), if_neg (by simp), hm]
  split at h
  · rename_i h0
    injection h with h
    subst h
    rw [if_pos (by have := h0.resolve_right hs; omega)]
    exact ⟨_, rfl, rfl⟩
  · rename_i h0
    rw [if_neg (by omega)]
    simp only [Int.toNat_natCast]
    cases hd : dicts id with
    | none => rw [hd] at h; cases h
    | some d =>
      rw [hd] at h
      simp only at h ⊢
      rw [if_neg hb]
      cases hc : z.comp d s with
      | none => rw [hc] at h; cases h
      | some y' =>
        rw [hc] at h
        injection h with h
        subst h
        rw [show z.comp d (Val.text s).bytes = some y' from hc]
        exact ⟨_, rfl, rfl⟩

/-- C60.  Data that is not a frame passes through both functions unchanged. -/
theorem c60_plain_unchanged (z : Zstd Dict) (dicts : Dicts Dict) (v : Val) (h : z.isFrame v.bytes = false) :
    sqlDecompress z dicts v = .value v ∧ decompress z dicts v.bytes = v.bytes := by
  constructor
  · unfold sqlDecompress
    split
    · rename_i hn; rw [hn]
    · rw [if_pos (.inr h)]
  · unfold decompress
    rw [h]
    simp

/-- C60.  NULL stays NULL. -/
theorem c60_null (z : Zstd Dict) (dicts : Dicts Dict) (id : Val) :
    sqlCompress z dicts .null id = .value .null ∧ sqlDecompress z dicts .null = .value .null := ⟨rfl, rfl⟩

/-- C60.  In SQL a dictionary that is not there is an error on both ways, never other data. -/
theorem c60_sql_unknown_is_error (z : Zstd Dict) (dicts : Dicts Dict) (v id : Val) (hv : v ≠ .null) (hi : id ≠ .null) :
    (id.int64 % 2 ^ 64 ≠ 0 → dicts (id.int64 % 2 ^ 64).toNat = none → sqlCompress z dicts v id = .error) ∧
    (v.bytes ≠ [] → z.isFrame v.bytes = true → z.frameId v.bytes ≠ 0 → dicts (z.frameId v.bytes) = none →
      sqlDecompress z dicts v = .error) := by
  constructor
  · intro h0 hd
    unfold sqlCompress
    rw [if_neg hv, if_neg hi, if_neg h0, hd]
  · intro he hf h0 hd
    unfold sqlDecompress
    rw [if_neg hv, if_neg (by simp [he, hf]), if_pos ⟨h0, hd⟩]

/-- C60.  In C++ it is not: whatever cannot be decompressed is returned as it is, as if it were the value. -/
theorem c60_cpp_unknown_returned (z : Zstd Dict) (dicts : Dicts Dict) (s : Bytes) (h0 : z.frameId s ≠ 0)
    (hd : dicts (z.frameId s) = none) : decompress z dicts s = s := by
  unfold decompress
  split
  · rfl
  · split
    · rfl
    · rw [if_pos ⟨h0, hd⟩]

/-! ## A small codec that meets the assumptions -/

/-- Dictionaries are an ID and a key; a frame is `0x28 0xB5`, the ID, and the data shifted by the key. -/
def toy : Zstd (UInt8 × UInt8) where
  ownId d := d.1.toNat
  isFrame s := (str "(z").isPrefixOf s && decide (3 ≤ s.length)
  frameId s := (s.getD 2 0).toNat
  contentSize s := some (s.length - 3)
  comp d x := some ([40, 122, d.1] ++ x.map (· + d.2))
  decomp d y := some ((y.drop 3).map (· - (d.map Prod.snd).getD 0))

theorem toy_sound : toy.Sound where
  frame := by
    rintro d x y h
    injection h with h
    subst h
    refine ⟨?_, rfl, ?_, by simp⟩
    · simp only [toy, List.cons_append, List.nil_append]
      rw [show str "(z" = [40, 122] by decide +kernel]
      simp
    · simp [toy]
  back := by
    rintro d x y h
    injection h with h
    subst h
    simp only [toy, List.cons_append, List.nil_append, List.drop_succ_cons, List.drop_zero, Option.map_some,
      Option.getD_some, List.map_map, Option.some.injEq]
    conv => rhs; rw [← List.map_id x]
    apply List.map_congr_left
    intro c _
    exact UInt8.add_sub_cancel c d.2

/-- One dictionary, in the row of its ID. -/
def good : Dicts (UInt8 × UInt8) := fun i => if i = 7 then some (7, 3) else none

theorem good_labelled : Labelled toy good := by
  intro i d h
  unfold good at h
  split at h
  · rename_i hi
    injection h with h
    subst h
    exact hi.symm
  · cases h

example : sqlCompress toy good (.text [1, 2]) (.int 7) = .value (.blob [40, 122, 7, 4, 5]) ∧
    sqlDecompress toy good (.blob [40, 122, 7, 4, 5]) = .value (.text [1, 2]) :=
  ⟨by decide +kernel, c60_sql_round_trip_partial toy toy_sound good good_labelled [1, 2] (.int 7)
    (by decide +kernel) _ (by decide +kernel)⟩

example : decompress toy good [40, 122, 7, 4, 5] = [1, 2] :=
  c60_cpp_round_trip_partial toy toy_sound good good_labelled [1, 2] 7 (by decide) _ (by decide +kernel)

/-- C60.  The frame names the dictionary's own ID, not that of its row.  If they differ the value cannot be read back,
or is read with another row's dictionary: with a codec that meets the assumptions, wrong data and no error. -/
theorem c60_row_and_own_id :
    sqlCompress toy (fun i => if i = 1 then some (7, 3) else none) (.text [1, 2]) (.int 1) =
      .value (.blob [40, 122, 7, 4, 5]) ∧
    sqlDecompress toy (fun i => if i = 1 then some (7, 3) else none) (.blob [40, 122, 7, 4, 5]) = .error ∧
    sqlDecompress toy (fun i => if i = 1 then some (7, 3) else if i = 7 then some (1, 9) else none)
      (.blob [40, 122, 7, 4, 5]) = .value (.text [251, 252]) := by
  decide +kernel

/-- C60.  A dictionary of raw content has no ID of its own, and the frame then names none: it is read without any. -/
theorem c60_raw_dictionary :
    sqlCompress toy (fun i => if i = 1 then some (0, 3) else none) (.text [1, 2]) (.int 1) =
      .value (.blob [40, 122, 0, 4, 5]) ∧
    sqlDecompress toy (fun i => if i = 1 then some (0, 3) else none) (.blob [40, 122, 0, 4, 5]) =
      .value (.text [4, 5]) := by
  decide +kernel

/-- C60.  Blobs and numbers come back as text. -/
theorem c60_type_lost :
    sqlCompress toy good (.blob [1, 2]) (.int 7) = .value (.blob [40, 122, 7, 4, 5]) ∧
    sqlDecompress toy good (.blob [40, 122, 7, 4, 5]) = .value (.text [1, 2]) := by
  decide +kernel

/-- C60.  A text stored without a dictionary that looks like a frame does not pass unchanged. -/
theorem c60_frame_lookalike :
    sqlCompress toy good (.text [40, 122, 0, 65]) (.int 0) = .value (.text [40, 122, 0, 65]) ∧
    sqlDecompress toy good (.text [40, 122, 0, 65]) = .value (.text [65]) := by
  decide +kernel

end Bedrock.Compression.Props
