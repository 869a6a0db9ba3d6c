import Verif.Model.Plugins
import Verif.Model.Reply
import Verif.Props.Text
import Verif.Props.RepeatText
import Verif.Lemmas.Http

/-!
# C101: plugins, and the names of commands
-/

namespace Bedrock.Plugins.Props
open Bedrock.Text Bedrock.Http Bedrock.Plugins

/-! ## Sorted maps -/

abbrev Ordered {α : Type} (l : List (Bytes × α)) : Prop := l.Pairwise fun a b => lexLt a.1 b.1 = true

theorem mem_emplace {α : Type} {k : Bytes} {v : α} {e : Bytes × α} :
    ∀ {l : List (Bytes × α)}, e ∈ emplace k v l → e = (k, v) ∨ e ∈ l
  | [], h => by simpa [emplace] using h
  | (m, w) :: t, h => by
    unfold emplace at h
    split at h
    · rcases List.mem_cons.mp h with h | h
      · exact .inl h
      · exact .inr h
    · split at h
      · rcases List.mem_cons.mp h with h | h
        · exact .inr (by simp [h])
        · rcases mem_emplace h with h | h
          · exact .inl h
          · exact .inr (List.mem_cons_of_mem _ h)
      · exact .inr h

theorem emplace_keeps {α : Type} {k : Bytes} {v : α} {e : Bytes × α} :
    ∀ {l : List (Bytes × α)}, e ∈ l → e ∈ emplace k v l
  | (m, w) :: t, h => by
    unfold emplace
    split
    · exact List.mem_cons_of_mem _ h
    · split
      · rcases List.mem_cons.mp h with h | h
        · simp [h]
        · exact List.mem_cons_of_mem _ (emplace_keeps h)
      · exact h

theorem emplace_has {α : Type} (k : Bytes) (v : α) : ∀ l : List (Bytes × α), ∃ w, (k, w) ∈ emplace k v l
  | [] => ⟨v, by simp [emplace]⟩
  | (m, w) :: t => by
    unfold emplace
    split
    · exact ⟨v, List.mem_cons_self⟩
    · rename_i h1
      split
      · obtain ⟨w', h⟩ := emplace_has k v t
        exact ⟨w', List.mem_cons_of_mem _ h⟩
      · rename_i h2
        have : k = m := lexLt_total (by simpa using h1) (by simpa using h2)
        exact ⟨w, by rw [this]; exact List.mem_cons_self⟩

theorem emplace_ordered {α : Type} (k : Bytes) (v : α) : ∀ l : List (Bytes × α), Ordered l → Ordered (emplace k v l)
  | [], _ => by simp [emplace]
  | (m, w) :: t, h => by
    unfold emplace
    obtain ⟨h1, h2⟩ := List.pairwise_cons.mp h
    split
    · rename_i hk
      refine List.pairwise_cons.mpr ⟨fun e he => ?_, h⟩
      rcases List.mem_cons.mp he with rfl | he
      · exact hk
      · exact lexLt_trans hk (h1 e he)
    · split
      · rename_i hk
        refine List.pairwise_cons.mpr ⟨fun e he => ?_, emplace_ordered k v t h2⟩
        rcases mem_emplace he with rfl | he
        · exact hk
        · exact h1 e he
      · exact h

theorem lookup_mem {α : Type} {k : Bytes} {v : α} : ∀ {l : List (Bytes × α)}, lookup k l = some v → (k, v) ∈ l
  | (m, w) :: t, h => by
    unfold lookup at h
    split at h
    · rename_i he; cases h; rw [he]; exact List.mem_cons_self
    · exact List.mem_cons_of_mem _ (lookup_mem h)

theorem lookup_none {α : Type} {k : Bytes} : ∀ {l : List (Bytes × α)}, lookup k l = none ↔ ∀ v, (k, v) ∉ l
  | [] => by simp [lookup]
  | (m, w) :: t => by
    unfold lookup
    split
    · rename_i he
      simp only [reduceCtorEq, false_iff]
      exact fun h => h w (by rw [he]; exact List.mem_cons_self)
    · rename_i he
      rw [lookup_none]
      constructor
      · intro h v hv
        rcases List.mem_cons.mp hv with hv | hv
        · exact he (by cases hv; rfl)
        · exact h v hv
      · exact fun h v hv => h v (List.mem_cons_of_mem _ hv)

theorem ordered_ext {l l' : List (Bytes × Unit)} (h : Ordered l) (h' : Ordered l') (he : ∀ e, e ∈ l ↔ e ∈ l') : l = l' := by
  induction l generalizing l' with
  | nil =>
    cases l' with
    | nil => rfl
    | cons e l' => exact absurd ((he e).mpr List.mem_cons_self) (by simp)
  | cons a l ih =>
    cases l' with
    | nil => exact absurd ((he a).mp List.mem_cons_self) (by simp)
    | cons b l' =>
      obtain ⟨h1, h2⟩ := List.pairwise_cons.mp h
      obtain ⟨h1', h2'⟩ := List.pairwise_cons.mp h'
      have hab : a = b := by
        rcases List.mem_cons.mp ((he a).mp List.mem_cons_self) with e | e
        · exact e
        · rcases List.mem_cons.mp ((he b).mpr List.mem_cons_self) with e' | e'
          · exact e'.symm
          · have := lexLt_asymm (h1' a e)
            rw [h1 b e'] at this
            cases this
      subst hab
      congr 1
      refine ih h2 h2' fun e => ?_
      have := he e
      constructor
      · intro hm
        rcases List.mem_cons.mp (this.mp (List.mem_cons_of_mem _ hm)) with rfl | hm'
        · have := h1 _ hm
          rw [lexLt_irrefl] at this
          cases this
        · exact hm'
      · intro hm
        rcases List.mem_cons.mp (this.mpr (List.mem_cons_of_mem _ hm)) with rfl | hm'
        · have := h1' _ hm
          rw [lexLt_irrefl] at this
          cases this
        · exact hm'

/-! ## Loading -/

/-- What was registered before anything was loaded. -/
def initial (bundled : List Plugin) : List (Bytes × Plugin) := bundled.foldl (fun r p => emplace (sToUpper p.name) p r) []

theorem load_bundled (libs : Libraries) (reg : List (Bytes × Plugin)) (ns : List Bytes)
    (h : ∀ n ∈ ns, (lookup (sToUpper n) reg).isSome = true) (names : List (Bytes × Unit)) (ho : Ordered names) :
    ∃ names', ns.foldl (load libs) { registered := reg, names } = { registered := reg, names := names' } ∧ Ordered names' ∧
      ∀ e, e ∈ names' ↔ e ∈ names ∨ ∃ n ∈ ns, e = (sToUpper n, ()) := by
  induction ns generalizing names with
  | nil => exact ⟨names, rfl, ho, by simp⟩
  | cons n ns ih =>
    obtain ⟨names', h1, h2, h3⟩ := ih (fun x hx => h x (List.mem_cons_of_mem _ hx)) (emplace (sToUpper n) () names)
      (emplace_ordered _ _ _ ho)
    refine ⟨names', ?_, h2, ?_⟩
    · rw [List.foldl_cons, show load libs { registered := reg, names } n =
        { registered := reg, names := emplace (sToUpper n) () names } from by
          unfold load
          simp only
          rw [if_pos (h n List.mem_cons_self)]]
      exact h1
    · intro e
      rw [h3 e]
      constructor
      · rintro (h | ⟨x, hx, rfl⟩)
        · rcases mem_emplace h with rfl | h
          · exact .inr ⟨n, List.mem_cons_self, rfl⟩
          · exact .inl h
        · exact .inr ⟨x, List.mem_cons_of_mem _ hx, rfl⟩
      · rintro (h | ⟨x, hx, rfl⟩)
        · exact .inl (emplace_keeps h)
        · rcases List.mem_cons.mp hx with rfl | hx
          · obtain ⟨_, hw⟩ := emplace_has (sToUpper x) () names
            exact .inl hw
          · exact .inr ⟨x, hx, rfl⟩

/-- C101.  Two nodes with the same plugins, listed in any order, in any case, once or more often, have the same plugins and
the same version. -/
theorem c101_order (plugins : List Plugin) (libs : Libraries) (own a b : Bytes) (o : Option Bytes)
    (hb : ∀ n ∈ (parseList a 44).1 ++ (parseList b 44).1, ∃ p ∈ plugins, sToUpper p.name = sToUpper n)
    (he : ∀ x, (∃ n ∈ (parseList a 44).1, sToUpper n = x) ↔ (∃ n ∈ (parseList b 44).1, sToUpper n = x)) :
    boot plugins libs own a o = boot plugins libs own b o := by
  have all : ∀ (ps : List Plugin) (r : List (Bytes × Plugin)),
      (∀ e ∈ r, e ∈ ps.foldl (fun r p => emplace (sToUpper p.name) p r) r) ∧
      ∀ p ∈ ps, ∃ w, (sToUpper p.name, w) ∈ ps.foldl (fun r p => emplace (sToUpper p.name) p r) r := by
    intro ps
    induction ps with
    | nil => intro r; exact ⟨fun e h => h, fun p h => absurd h (by simp)⟩
    | cons q ps ih =>
      intro r
      obtain ⟨i1, i2⟩ := ih (emplace (sToUpper q.name) q r)
      refine ⟨fun e h => i1 e (emplace_keeps h), fun p hp => ?_⟩
      rcases List.mem_cons.mp hp with rfl | hp
      · obtain ⟨w, hw⟩ := emplace_has (sToUpper p.name) p r
        exact ⟨w, i1 _ hw⟩
      · exact i2 p hp
  have reg : ∀ n ∈ (parseList a 44).1 ++ (parseList b 44).1, (lookup (sToUpper n) (initial plugins)).isSome = true := by
    intro n hn
    obtain ⟨p, hp, h⟩ := hb n hn
    obtain ⟨w, hw⟩ := (all plugins []).2 p hp
    cases hl : lookup (sToUpper n) (initial plugins) with
    | some _ => rfl
    | none => rw [h] at hw; exact absurd hw (lookup_none.mp hl w)
  obtain ⟨na, ha1, ha2, ha3⟩ := load_bundled libs (initial plugins) (parseList a 44).1
    (fun n hn => reg n (List.mem_append_left _ hn)) [] List.Pairwise.nil
  obtain ⟨nb, hb1, hb2, hb3⟩ := load_bundled libs (initial plugins) (parseList b 44).1
    (fun n hn => reg n (List.mem_append_right _ hn)) [] List.Pairwise.nil
  have e : na = nb := ordered_ext ha2 hb2 fun e => by
    rw [ha3, hb3]
    simp only [List.not_mem_nil, false_or]
    constructor
    · rintro ⟨n, hn, rfl⟩
      obtain ⟨m, hm, hx⟩ := (he (sToUpper n)).mp ⟨n, hn, rfl⟩
      exact ⟨m, hm, by rw [hx]⟩
    · rintro ⟨n, hn, rfl⟩
      obtain ⟨m, hm, hx⟩ := (he (sToUpper n)).mpr ⟨n, hn, rfl⟩
      exact ⟨m, hm, by rw [hx]⟩
  have l : loadAll plugins libs a = loadAll plugins libs b := by
    show (parseList a 44).1.foldl (load libs) { registered := initial plugins, names := [] } =
      (parseList b 44).1.foldl (load libs) { registered := initial plugins, names := [] }
    rw [ha1, hb1, e]
  unfold boot
  rw [l]

-- the default list, and a list in another order with another case and a name twice
example (libs : Libraries) (own : Bytes) (o : Option Bytes) :
    boot bundled libs own (str "db,jobs,cache,mysql,compression") o =
    boot bundled libs own (str "Compression, JOBS, Cache, jobs, MySQL, DB") o := by
  refine c101_order bundled libs own _ _ o ?_ ?_
  · intro n hn
    have : n ∈ (parseList (str "db,jobs,cache,mysql,compression") 44).1 ++
      (parseList (str "Compression, JOBS, Cache, jobs, MySQL, DB") 44).1 →
        sToUpper n ∈ bundled.map (fun p => sToUpper p.name) := by revert n; decide +kernel
    obtain ⟨p, hp, h⟩ := List.mem_map.mp (this hn)
    exact ⟨p, hp, h⟩
  · have h1 : ∀ n ∈ (parseList (str "db,jobs,cache,mysql,compression") 44).1,
        sToUpper n ∈ (parseList (str "Compression, JOBS, Cache, jobs, MySQL, DB") 44).1.map sToUpper := by decide +kernel
    have h2 : ∀ n ∈ (parseList (str "Compression, JOBS, Cache, jobs, MySQL, DB") 44).1,
        sToUpper n ∈ (parseList (str "db,jobs,cache,mysql,compression") 44).1.map sToUpper := by decide +kernel
    intro x
    constructor
    · rintro ⟨n, hn, rfl⟩
      obtain ⟨m, hm, h⟩ := List.mem_map.mp (h1 n hn)
      exact ⟨m, hm, h⟩
    · rintro ⟨n, hn, rfl⟩
      obtain ⟨m, hm, h⟩ := List.mem_map.mp (h2 n hn)
      exact ⟨m, hm, h⟩

/-! ## All or nothing -/

theorem parse_no_nul (s : Bytes) : ∀ e ∈ (parseList s 44).1, 0 ∉ e := by
  have go : ∀ (t : Bytes) (p : ListParse), 0 ∉ t → 0 ∉ p.component → (∀ e ∈ p.done, 0 ∉ e) →
      0 ∉ (t.foldl (ListParse.step 44) p).component ∧ ∀ e ∈ (t.foldl (ListParse.step 44) p).done, 0 ∉ e := by
    intro t
    induction t with
    | nil => intro p _ h1 h2; exact ⟨h1, h2⟩
    | cons c t ih =>
      intro p h0 h1 h2
      rw [List.foldl_cons]
      have hc : (0 : UInt8) ≠ c := fun h => h0 (by simp [h])
      refine ih _ (fun h => h0 (List.mem_cons_of_mem _ h)) ?_ ?_
      · unfold ListParse.step
        split
        · exact h1
        · split
          · simp
          · simp only [List.mem_append, List.mem_singleton, not_or]
            exact ⟨h1, hc⟩
      · unfold ListParse.step
        split
        · exact h2
        · split
          · simp only
            split
            · exact h2
            · intro e he
              rcases List.mem_append.mp he with he | he
              · exact h2 e he
              · rw [List.mem_singleton.mp he]; exact h1
          · exact h2
  obtain ⟨h1, h2⟩ := go (cstr s) {} (zero_not_mem_cstr s) (by simp) (by simp)
  intro e he
  unfold parseList at he
  simp only at he
  split at he
  · exact h2 e he
  · rcases List.mem_append.mp he with he | he
    · exact h2 e he
    · rw [List.mem_singleton.mp he]; exact h1

theorem load_names (libs : Libraries) (ns : List Bytes) (l : Loaded) :
    (∀ e ∈ l.names, e ∈ (ns.foldl (load libs) l).names) ∧
    ∀ n ∈ ns, (sToUpper n, ()) ∈ (ns.foldl (load libs) l).names ∨ (sToUpper (baseName n), ()) ∈ (ns.foldl (load libs) l).names := by
  have one : ∀ (l : Loaded) (n : Bytes), (∀ e ∈ l.names, e ∈ (load libs l n).names) ∧
      ((sToUpper n, ()) ∈ (load libs l n).names ∨ (sToUpper (baseName n), ()) ∈ (load libs l n).names) := by
    intro l n
    unfold load
    split
    · refine ⟨fun e h => emplace_keeps h, .inl ?_⟩
      obtain ⟨_, h⟩ := emplace_has (sToUpper n) () l.names
      exact h
    · simp only
      split
      · rename_i h
        refine ⟨fun e h => h, .inr ?_⟩
        obtain ⟨w, hw⟩ := Option.isSome_iff_exists.mp h
        exact lookup_mem hw
      · have hk : ∀ e ∈ l.names, e ∈ emplace (sToUpper (baseName n)) () l.names := fun e h => emplace_keeps h
        have hh : (sToUpper (baseName n), ()) ∈ emplace (sToUpper (baseName n)) () l.names := by
          obtain ⟨_, h⟩ := emplace_has (sToUpper (baseName n)) () l.names
          exact h
        split
        · exact ⟨hk, .inr hh⟩
        · exact ⟨hk, .inr hh⟩
  induction ns generalizing l with
  | nil => exact ⟨fun e h => h, fun n h => absurd h (by simp)⟩
  | cons n ns ih =>
    obtain ⟨i1, i2⟩ := ih (load libs l n)
    obtain ⟨o1, o2⟩ := one l n
    refine ⟨fun e h => i1 e (o1 e h), fun m hm => ?_⟩
    rcases List.mem_cons.mp hm with rfl | hm
    · rcases o2 with h | h
      · exact .inl (i1 _ h)
      · exact .inr (i1 _ h)
    · exact i2 m hm

theorem enableAll_some (reg : List (Bytes × Plugin)) (ns : List Bytes) (e e' : Enabled)
    (h : ns.foldlM (enable reg) e = some e') :
    (∀ k w, (k, w) ∈ e.plugins → ∃ w', (k, w') ∈ e'.plugins) ∧
    ∀ n ∈ ns, ∃ p w, lookup (sToUpper n) reg = some p ∧ (p.name, w) ∈ e'.plugins := by
  induction ns generalizing e with
  | nil =>
    rw [List.foldlM_nil] at h
    cases h
    exact ⟨fun k w h => ⟨w, h⟩, fun n h => absurd h (by simp)⟩
  | cons n ns ih =>
    rw [List.foldlM_cons] at h
    cases hn : enable reg e n with
    | none => rw [hn] at h; cases h
    | some e1 =>
      rw [hn] at h
      obtain ⟨i1, i2⟩ := ih e1 h
      have h1 : ∃ p, lookup (sToUpper n) reg = some p ∧ e1.plugins = emplace p.name p e.plugins := by
        unfold enable at hn
        cases hl : lookup (sToUpper n) reg with
        | none => rw [hl] at hn; cases hn
        | some p => rw [hl] at hn; cases hn; exact ⟨p, rfl, rfl⟩
      obtain ⟨p, hp, he⟩ := h1
      refine ⟨fun k w hk => ?_, fun m hm => ?_⟩
      · exact i1 k w (by rw [he]; exact emplace_keeps hk)
      · rcases List.mem_cons.mp hm with rfl | hm
        · obtain ⟨w, hw⟩ := emplace_has p.name p e.plugins
          obtain ⟨w', hw'⟩ := i1 p.name w (by rw [he]; exact hw)
          exact ⟨p, w', hp, hw'⟩
        · exact i2 m hm

/-- What stands in the set of names can be written as a list and read again. -/
def Writable (n : Bytes) : Prop := n ≠ [] ∧ n.head? ≠ some 32 ∧ 44 ∉ n ∧ 0 ∉ n

/-- C101.  A node that starts has every plugin of its list. -/
theorem c101_all_or_nothing (plugins : List Plugin) (libs : Libraries) (own a : Bytes) (o : Option Bytes)
    (ps : List (Bytes × Plugin)) (v : Bytes) (h : boot plugins libs own a o = some (ps, v))
    (hw : ∀ e ∈ (loadAll plugins libs a).names, Writable e.1) :
    ∀ n ∈ (parseList a 44).1, ∃ p, (lookup (sToUpper n) (loadAll plugins libs a).registered = some p ∨
      lookup (sToUpper (baseName n)) (loadAll plugins libs a).registered = some p) ∧ ∃ w, (p.name, w) ∈ ps := by
  have rt : (parseList (composeList ((loadAll plugins libs a).names.map Prod.fst) [44, 32]) 44).1 =
      (loadAll plugins libs a).names.map Prod.fst := by
    refine Text.Props.c29_round_trip _ 44 1 (by decide) fun e he => ?_
    obtain ⟨x, hx, rfl⟩ := List.mem_map.mp he
    exact hw x hx
  unfold boot at h
  simp only [rt] at h
  obtain ⟨e, he, h⟩ := Option.map_eq_some_iff.mp h
  have hps : e.plugins = ps := by cases h; rfl
  obtain ⟨_, h2⟩ := enableAll_some _ _ _ _ he
  intro n hn
  have up : ∀ x : Bytes, sToUpper (sToUpper x) = sToUpper x := fun x => by
    unfold sToUpper
    rw [List.map_map]
    apply List.map_congr_left
    intro c _
    exact (show ∀ c : UInt8, toUpper (toUpper c) = toUpper c from forall_u8 (by decide +kernel)) c
  rcases (load_names libs (parseList a 44).1 { registered := initial plugins }).2 n hn with hx | hx
  · obtain ⟨p, w, h3, h4⟩ := h2 (sToUpper n) (List.mem_map.mpr ⟨_, hx, rfl⟩)
    rw [up] at h3
    exact ⟨p, .inl h3, w, hps ▸ h4⟩
  · obtain ⟨p, w, h3, h4⟩ := h2 (sToUpper (baseName n)) (List.mem_map.mpr ⟨_, hx, rfl⟩)
    rw [up] at h3
    exact ⟨p, .inr h3, w, hps ▸ h4⟩

example : (boot bundled (fun _ _ => none) (str "1") (str "db, jobs") none).map (fun r => (r.1.map Prod.fst, r.2)) =
    some ([str "DB", str "Jobs"], str "1") := by decide +kernel
example : (boot bundled (fun _ _ => none) (str "1") (str "db, auth") none).isNone = true := by decide +kernel

/-! ## Files -/

theorem takeWhile_stop (p : UInt8 → Bool) (n s : Bytes) (hn : ∀ c ∈ n, p c = true) (c : UInt8) (hc : p c = false) :
    (n ++ c :: s).takeWhile p = n := by
  rw [List.takeWhile_append_of_pos hn, List.takeWhile_cons_of_neg (by simp [hc]), List.append_nil]

/-- C101.  A plugin given as a path is known by the name of the file up to its first dot. -/
theorem c101_path (dir base ext : Bytes) (hb : 47 ∉ base ∧ 46 ∉ base) (he : 47 ∉ ext) :
    baseName (dir ++ str "/" ++ base ++ (str "." ++ ext)) = base := by
  unfold baseName
  have e : dir ++ str "/" ++ base ++ (str "." ++ ext) = dir ++ 47 :: (base ++ 46 :: ext) := by
    simp only [List.append_assoc]; rfl
  rw [e, if_pos (by simp)]
  have r : (dir ++ 47 :: (base ++ 46 :: ext)).reverse = (base ++ 46 :: ext).reverse ++ 47 :: dir.reverse := by simp
  rw [r, takeWhile_stop _ _ _ (fun c hc => by
    have : c ≠ 47 := by
      rintro rfl
      rw [List.mem_reverse, List.mem_append, List.mem_cons] at hc
      rcases hc with h | h | h
      · exact hb.1 h
      · cases h
      · exact he h
    simp [this]) 47 (by decide), List.reverse_reverse, takeWhile_stop _ _ _ (fun c hc => by
      have : c ≠ 46 := fun h => hb.2 (h ▸ hc)
      simp [this]) 46 (by decide)]

example : baseName (str "/usr/lib.d/Auth.so.2") = str "Auth" :=
  c101_path (str "/usr/lib.d") (str "Auth") (str "so.2") (by decide +kernel) (by decide +kernel)

theorem upper_mem_dot {s : Bytes} : (46 : UInt8) ∈ sToUpper s ↔ (46 : UInt8) ∈ s := by
  unfold sToUpper
  rw [List.mem_map]
  have h1 : ∀ c : UInt8, toUpper c = 46 → c = 46 := forall_u8 (by decide +kernel)
  constructor
  · rintro ⟨c, hc, h⟩
    rw [h1 c h] at hc
    exact hc
  · exact fun h => ⟨46, h, by decide⟩

/-- C101 fails here: a file without a path, which is to be looked for where libraries are, is never loaded if its name is
given with `.so`: the whole name is taken for the name of the plugin, no symbol has a dot in it, and the process ends. -/
theorem c101_so_file (plugins : List Plugin) (libs : Libraries) (own a : Bytes) (o : Option Bytes)
    (hp : ∀ p ∈ plugins, 46 ∉ p.name) (hl : ∀ f s, 46 ∈ s → libs f s = none)
    (hw : ∀ e ∈ (loadAll plugins libs a).names, Writable e.1)
    (n : Bytes) (hn : n ∈ (parseList a 44).1) (h1 : 47 ∉ n) (h2 : 46 ∈ n) : boot plugins libs own a o = none := by
  cases h : boot plugins libs own a o with
  | none => rfl
  | some r =>
    exfalso
    obtain ⟨p, hr, _⟩ := c101_all_or_nothing plugins libs own a o r.1 r.2 h hw n hn
    have hb : baseName n = n := by unfold baseName; rw [if_neg h1]
    rw [hb, or_self] at hr
    have nodot : ∀ (ns : List Bytes) (l : Loaded), (∀ e ∈ l.registered, 46 ∉ e.1) →
        ∀ e ∈ (ns.foldl (load libs) l).registered, 46 ∉ e.1 := by
      intro ns
      induction ns with
      | nil => exact fun l h => h
      | cons m ns ih =>
        intro l h
        refine ih _ ?_
        unfold load
        split
        · exact h
        · simp only
          split
          · exact h
          · split
            · exact h
            · rename_i q hq
              intro e he
              rcases mem_emplace he with rfl | he
              · intro hd
                rw [hl _ _ (List.mem_append_right _ hd)] at hq
                cases hq
              · exact h e he
    have init : ∀ (ps : List Plugin) (r : List (Bytes × Plugin)), (∀ p ∈ ps, 46 ∉ p.name) → (∀ e ∈ r, 46 ∉ e.1) →
        ∀ e ∈ ps.foldl (fun r p => emplace (sToUpper p.name) p r) r, 46 ∉ e.1 := by
      intro ps
      induction ps with
      | nil => exact fun r _ h => h
      | cons q ps ih =>
        intro r hq h
        refine ih _ (fun p hp => hq p (List.mem_cons_of_mem _ hp)) ?_
        intro e he
        rcases mem_emplace he with rfl | he
        · exact fun hd => hq q List.mem_cons_self (upper_mem_dot.mp hd)
        · exact h e he
    exact nodot _ { registered := initial plugins } (init plugins [] hp (by simp)) _ (lookup_mem hr) (upper_mem_dot.mpr h2)

example (libs : Libraries) (hl : ∀ f s, 46 ∈ s → libs f s = none) (own : Bytes) :
    boot bundled libs own (str "db,libauth.so") none = none := by
  have e : loadAll bundled libs (str "db,libauth.so") = { registered := initial bundled, names := [(str "DB", ()), (str "LIBAUTH.SO", ())] } := by
    have h1 : (parseList (str "db,libauth.so") 44).1 = [str "db", str "libauth.so"] := by decide +kernel
    have h2 : (lookup (sToUpper (str "db")) (initial bundled)).isSome = true := by decide +kernel
    have h3 : (lookup (sToUpper (str "libauth.so")) (initial bundled)).isSome = false := by decide +kernel
    show (parseList (str "db,libauth.so") 44).1.foldl (load libs) { registered := initial bundled, names := [] } = _
    rw [h1]
    simp only [List.foldl_cons, List.foldl_nil]
    have s1 : load libs { registered := initial bundled, names := [] } (str "db") =
        { registered := initial bundled, names := [(str "DB", ())] } := by
      unfold load
      simp only
      rw [if_pos h2]
      rfl
    rw [s1]
    unfold load
    simp only
    rw [if_neg (by rw [h3]; decide), if_neg (by decide +kernel), hl _ _ (by decide +kernel)]
    rfl
  refine c101_so_file bundled libs own _ none (by decide +kernel) hl ?_ (str "libauth.so") (by decide +kernel) (by decide +kernel)
    (by decide +kernel)
  rw [e]
  unfold Writable
  decide +kernel

/-! ## Which plugin -/

theorem among_iff {names : List Bytes} {v : Bytes} : among names v = true ↔ ∃ n ∈ names, sToLower n = sToLower v := by
  unfold among
  rw [List.any_eq_true]
  constructor
  · rintro ⟨n, hn, h⟩
    refine ⟨n, hn, ?_⟩
    have h' : keyLt n v = false ∧ keyLt v n = false := by simpa using h
    exact lexLt_total h'.1 h'.2
  · rintro ⟨n, hn, h⟩
    refine ⟨n, hn, ?_⟩
    unfold keyLt
    rw [h, lexLt_irrefl]
    rfl

theorem lower_verb (m : Msg) : sToLower (verb m) = (sToLower m.methodLine).takeWhile (· != 32) := by
  unfold verb sToLower
  induction m.methodLine with
  | nil => rfl
  | cons c s ih =>
    have h : ∀ c : UInt8, (toLower c != 32) = (c != 32) := forall_u8 (by decide +kernel)
    rw [List.map_cons, List.takeWhile_cons, List.takeWhile_cons, h c]
    split
    · rw [List.map_cons, ih]
    · rfl

theorem db_verb {m : Msg} (h : db.claim m = .yes) : ∃ r, sToLower (verb m) = str "query" ++ r ∧ (r = [] ∨ r.head? = some 58 ∨ r.head? = some 0) := by
  have h' : ((str "query:").isPrefixOf (sToLower m.methodLine) || sIEquals (verb m) (str "Query")) = true := by
    unfold db claimIf at h
    simp only at h
    split at h
    · assumption
    · cases h
  rcases Bool.or_eq_true _ _ ▸ h' with h' | h'
  · obtain ⟨t, ht⟩ := List.isPrefixOf_iff_prefix.mp h'
    rw [lower_verb, ← ht]
    refine ⟨(str ":" ++ t).takeWhile (· != 32), ?_, .inr (.inl ?_)⟩
    · rfl
    · rfl
  · unfold sIEquals at h'
    have e : sToLower (cstr (verb m)) = str "query" := by
      rw [beq_iff_eq] at h'
      rw [h']
      decide +kernel
    have split : ∀ s : Bytes, ∃ r, s = cstr s ++ r ∧ (r = [] ∨ r.head? = some 0) := by
      intro s
      induction s with
      | nil => exact ⟨[], rfl, .inl rfl⟩
      | cons c s ih =>
        rw [cstr_cons]
        by_cases hc : c = 0
        · rw [if_pos hc]; exact ⟨c :: s, rfl, .inr (by rw [hc]; rfl)⟩
        · rw [if_neg hc]
          obtain ⟨r, h1, h2⟩ := ih
          exact ⟨r, by rw [List.cons_append, ← h1], h2⟩
    obtain ⟨r, h1, h2⟩ := split (verb m)
    refine ⟨sToLower r, ?_, ?_⟩
    · conv => lhs; rw [h1]
      unfold sToLower at e ⊢
      rw [List.map_append, e]
    · rcases h2 with rfl | h2
      · exact .inl rfl
      · right; right
        cases r with
        | nil => cases h2
        | cons c r => cases h2; rfl

/-- C101.  No request is for two of the bundled plugins. -/
theorem c101_one_plugin (m : Msg) (p q : Plugin) (hp : p ∈ bundled) (hq : q ∈ bundled) (h1 : p.claim m = .yes) (h2 : q.claim m = .yes) :
    p = q := by
  have jobsC : jobs.claim m = .yes → ∃ n ∈ jobsVerbs, sToLower n = sToLower (verb m) := by
    intro h
    unfold jobs claimIf at h
    simp only at h
    split at h
    · exact among_iff.mp (by assumption)
    · cases h
  have cacheC : cache.claim m = .yes → ∃ n ∈ cacheVerbs, sToLower n = sToLower (verb m) := by
    intro h
    unfold cache claimIf at h
    simp only at h
    split at h
    · exact among_iff.mp (by assumption)
    · cases h
  have jc : ¬ (jobs.claim m = .yes ∧ cache.claim m = .yes) := by
    rintro ⟨a, b⟩
    obtain ⟨n, hn, e⟩ := jobsC a
    obtain ⟨n', hn', e'⟩ := cacheC b
    exact (show ∀ n ∈ jobsVerbs, ∀ n' ∈ cacheVerbs, sToLower n ≠ sToLower n' by decide +kernel) n hn n' hn' (e.trans e'.symm)
  have nodb : ∀ n ∈ jobsVerbs ++ cacheVerbs, sToLower n = sToLower (verb m) → db.claim m ≠ .yes := by
    intro n hn e h
    obtain ⟨r, h1, h2⟩ := db_verb h
    rw [h1] at e
    have hp : (str "query").isPrefixOf (sToLower n) = true := List.isPrefixOf_iff_prefix.mpr ⟨r, e.symm⟩
    have hr : (sToLower n).drop 5 = r := by rw [e]; rfl
    have : ∀ n ∈ jobsVerbs ++ cacheVerbs, (str "query").isPrefixOf (sToLower n) = true →
        (sToLower n).drop 5 ≠ [] ∧ ((sToLower n).drop 5).head? ≠ some 58 ∧ ((sToLower n).drop 5).head? ≠ some 0 := by decide +kernel
    obtain ⟨a, b, c⟩ := this n hn hp
    rw [hr] at a b c
    rcases h2 with h | h | h
    · exact a h
    · exact b h
    · exact c h
  have dj : ¬ (db.claim m = .yes ∧ jobs.claim m = .yes) := by
    rintro ⟨a, b⟩
    obtain ⟨n, hn, e⟩ := jobsC b
    exact nodb n (List.mem_append_left _ hn) e a
  have dc : ¬ (db.claim m = .yes ∧ cache.claim m = .yes) := by
    rintro ⟨a, b⟩
    obtain ⟨n, hn, e⟩ := cacheC b
    exact nodb n (List.mem_append_right _ hn) e a
  unfold bundled at hp hq
  simp only [List.mem_cons, List.not_mem_nil, or_false] at hp hq
  have nm : mysql.claim m ≠ .yes := by unfold mysql; simp
  have nc : compression.claim m ≠ .yes := by unfold compression; simp
  rcases hp with rfl | rfl | rfl | rfl | rfl <;> rcases hq with rfl | rfl | rfl | rfl | rfl <;>
    first
    | rfl
    | exact absurd h1 nm
    | exact absurd h1 nc
    | exact absurd h2 nm
    | exact absurd h2 nc
    | exact absurd (And.intro h1 h2) dj
    | exact absurd (And.intro h2 h1) dj
    | exact absurd (And.intro h1 h2) dc
    | exact absurd (And.intro h2 h1) dc
    | exact absurd (And.intro h1 h2) jc
    | exact absurd (And.intro h2 h1) jc

theorem bundled_claims (p : Plugin) (hp : p ∈ bundled) (m : Msg) : p.claim m = .yes ∨ p.claim m = .no := by
  have h : ∀ b, claimIf b = .yes ∨ claimIf b = .no := by decide
  unfold bundled at hp
  simp only [List.mem_cons, List.not_mem_nil, or_false] at hp
  rcases hp with rfl | rfl | rfl | rfl | rfl
  · exact h _
  · exact h _
  · exact h _
  · exact .inr rfl
  · exact .inr rfl

/-- C101.  Whatever bundled plugins are enabled, and in whatever order, a request goes, unchanged, to the one it is for. -/
theorem c101_dispatch (ps : List (Bytes × Plugin)) (hps : ∀ e ∈ ps, e.2 ∈ bundled) (m : Msg) (p : Plugin) (hp : ∃ k, (k, p) ∈ ps)
    (hc : p.claim m = .yes) : fromPlugins ps m = .command (some p.name) m := by
  induction ps with
  | nil => obtain ⟨k, hk⟩ := hp; cases hk
  | cons e ps ih =>
    obtain ⟨k, hk⟩ := hp
    have hpb : p ∈ bundled := hps _ hk
    have heb := hps e List.mem_cons_self
    rcases bundled_claims e.2 heb m with h | h
    · have := c101_one_plugin m e.2 p heb hpb h hc
      unfold fromPlugins
      rw [h, ← this]
    · unfold fromPlugins
      rw [h]
      refine ih (fun x hx => hps x (List.mem_cons_of_mem _ hx)) ?_
      rcases List.mem_cons.mp hk with hk | hk
      · have : e.2 = p := by rw [← hk]
        rw [this, hc] at h
        cases h
      · exact ⟨k, hk⟩

/-- C101.  A request that none is for becomes a command without a plugin. -/
theorem c101_nobody (ps : List (Bytes × Plugin)) (m : Msg) (h : ∀ e ∈ ps, e.2.claim m = .no) : fromPlugins ps m = .command none m := by
  induction ps with
  | nil => rfl
  | cons e ps ih =>
    unfold fromPlugins
    rw [h e List.mem_cons_self]
    exact ih fun x hx => h x (List.mem_cons_of_mem _ hx)

/-- C101.  A request whose plugin throws is answered with what was thrown, and with 500 if that says nothing; no other plugin gets it. -/
theorem c101_throws (before after : List (Bytes × Plugin)) (k : Bytes) (p : Plugin) (m : Msg) (h : ∀ e ∈ before, e.2.claim m = .no) :
    (∀ what headers body, p.claim m = .throws what headers body →
      fromPlugins (before ++ (k, p) :: after) m = .error { methodLine := what, table := headers, content := body }) ∧
    (p.claim m = .fails → fromPlugins (before ++ (k, p) :: after) m = .error { methodLine := str "500 Internal server error" }) := by
  have hb : fromPlugins (before ++ (k, p) :: after) m = fromPlugins ((k, p) :: after) m := by
    induction before with
    | nil => rfl
    | cons e ps ih =>
      rw [List.cons_append]
      conv => lhs; unfold fromPlugins
      rw [h e List.mem_cons_self]
      exact ih fun x hx => h x (List.mem_cons_of_mem _ hx)
  rw [hb]
  constructor
  · intro what headers body hc
    unfold fromPlugins
    rw [hc]
    rfl
  · intro hc
    unfold fromPlugins
    rw [hc]
    rfl

/-- C101.  What the requests of a plugin look like: the method line up to its first blank is one of the names, in any case. -/
theorem c101_verbs (v r : Bytes) (m : Msg) (hm : m.methodLine = v ++ r) (hr : r = [] ∨ r.head? = some 32) (hv : 32 ∉ v) :
    ((∃ n ∈ [str "GetJob", str "GetJobs", str "QueryJob", str "CreateJob", str "CreateJobs", str "CancelJob", str "UpdateJob", str "RetryJob",
      str "FinishJob", str "FailJob", str "DeleteJob", str "RequeueJobs", str "CrashBedrockJob", str "ClearCrashedBedrockJobs"],
      sToLower v = sToLower n) → jobs.claim m = .yes) ∧
    ((∃ n ∈ [str "ReadCache", str "WriteCache"], sToLower v = sToLower n) → cache.claim m = .yes) ∧
    (sToLower v = str "query" → db.claim m = .yes) := by
  have hverb : verb m = v := by
    unfold verb
    rw [hm]
    rcases hr with rfl | hr
    · have := List.takeWhile_append_of_pos (p := (· != 32)) (l₁ := v) (l₂ := []) (fun c hc => by
        have : c ≠ 32 := fun h => hv (h ▸ hc)
        simp [this])
      rw [this, List.takeWhile_nil, List.append_nil]
    · cases r with
      | nil => cases hr
      | cons c r =>
        cases hr
        exact takeWhile_stop _ _ _ (fun c hc => by
          have : c ≠ 32 := fun h => hv (h ▸ hc)
          simp [this]) 32 (by decide)
  refine ⟨?_, ?_, ?_⟩
  · rintro ⟨n, hn, h⟩
    have : among jobsVerbs v = true := among_iff.mpr ⟨n, hn, h.symm⟩
    unfold jobs claimIf
    simp only
    rw [hverb, if_pos this]
  · rintro ⟨n, hn, h⟩
    have : among cacheVerbs v = true := among_iff.mpr ⟨n, hn, h.symm⟩
    unfold cache claimIf
    simp only
    rw [hverb, if_pos this]
  · intro h
    unfold db claimIf
    simp only
    have h0 : 0 ∉ v := by
      intro h'
      have : (0 : UInt8) ∈ sToLower v := by
        unfold sToLower
        exact List.mem_map.mpr ⟨0, h', by decide⟩
      rw [h] at this
      revert this
      decide +kernel
    have e : sIEquals (verb m) (str "Query") = true := by
      rw [hverb, sIEquals_good h0 _ (by decide +kernel), h]
      decide +kernel
    rw [e, Bool.or_true, if_pos rfl]

/-- C101.  A statement in the method line goes to the database plugin, whatever it is. -/
theorem c101_query_line (m : Msg) (q r : Bytes) (hm : m.methodLine = q ++ r) (hq : sToLower q = str "query:") : db.claim m = .yes := by
  unfold db claimIf
  simp only
  have : (str "query:").isPrefixOf (sToLower m.methodLine) = true := by
    rw [hm]
    unfold sToLower at hq ⊢
    rw [List.map_append, hq]
    exact List.isPrefixOf_iff_prefix.mpr (List.prefix_append _ _)
  rw [this, Bool.true_or, if_pos rfl]

-- the plugins of a node with the default list
example : fromPlugins [(str "Cache", cache), (str "DB", db), (str "Jobs", jobs)] { methodLine := str "createJOB HTTP/1.1" } =
    .command (some (str "Jobs")) { methodLine := str "createJOB HTTP/1.1" } :=
  c101_dispatch _ (by intro e he; simp only [List.mem_cons, List.not_mem_nil, or_false] at he; rcases he with rfl | rfl | rfl <;> simp [bundled])
    _ jobs ⟨str "Jobs", by simp⟩
    ((c101_verbs (str "createJOB") (str " HTTP/1.1") _ rfl (.inr rfl) (by decide +kernel)).1 ⟨str "CreateJob", by decide +kernel, by decide +kernel⟩)

/-- C101 fails here: when the constructor of a command throws, the answer is the exception, but the request is forgotten, so
`Connection: close` is not obeyed. -/
theorem c101_request_forgotten (gz : Bytes → Bytes) (what : Bytes) (headers : Table) (sv : Reply.Server) (hr : sv.running = true) (m : Msg)
    (hm : m.table.get (str "Connection") = str "close") (b : Bytes)
    (hb : compose gz (Reply.finish sv { req := {}, resp := { methodLine := what, table := headers }, client := 1, socket := some true }) = some b) :
    fromPlugins [(str "A", { name := str "A", claim := fun _ => .throws what headers [] })] m =
      .error { methodLine := what, table := headers } ∧
    Reply.reply gz sv { req := {}, resp := { methodLine := what, table := headers }, client := 1, socket := some true } =
      { kind := .sent b, closed := false, told := false } ∧ sIEquals (m.table.get Reply.sConnection) Reply.sClose = true := by
  refine ⟨rfl, ?_, by rw [show Reply.sConnection = str "Connection" from rfl, hm]; decide +kernel⟩
  unfold Reply.reply
  simp only
  rw [if_neg (by decide), if_neg (by decide +kernel), hb]
  simp only [hr]
  rfl

/-! ## Names of commands -/

/-- C101.  A name that a request brings with it, as every escalated command does, is kept. -/
theorem c101_name_kept (node : Bytes) (count : Nat) (req : Msg) (timeout id : Bytes) (hs : req.table.Sorted) :
    (name node count (Reply.escalated req timeout id)).1 = id := by
  unfold name Reply.escalated
  simp only [Table.find_set _ _ _ _ (Table.set_sorted _ _ hs), if_true]

theorem mint_inj {a b : Bytes} {i j : Nat} (h : mint a i = mint b j) : a = b ∧ i % 2 ^ 64 = j % 2 ^ 64 := by
  unfold mint at h
  have hd : ∀ n, 35 ∉ natDec n := by
    intro n hn
    obtain ⟨d, hd, h⟩ := natDec_digits n 35 hn
    exact (show ∀ d < 10, (35 : UInt8) ≠ UInt8.ofNat (48 + d) by decide) d hd h
  have h' := congrArg List.reverse h
  simp only [List.reverse_append] at h'
  have key : ∀ (x y : Bytes) (s t : Bytes), 35 ∉ x → 35 ∉ y → x ++ ([35].reverse ++ s) = y ++ ([35].reverse ++ t) → x = y ∧ s = t := by
    intro x
    induction x with
    | nil =>
      intro y s t _ hy h
      cases y with
      | nil => cases h; exact ⟨rfl, rfl⟩
      | cons c y => cases h; exact absurd List.mem_cons_self hy
    | cons c x ih =>
      intro y s t hx hy h
      cases y with
      | nil => cases h; exact absurd List.mem_cons_self hx
      | cons d y =>
        rw [List.cons_append, List.cons_append] at h
        injection h with h1 h2
        obtain ⟨e1, e2⟩ := ih y s t (fun h => hx (List.mem_cons_of_mem _ h)) (fun h => hy (List.mem_cons_of_mem _ h)) h2
        exact ⟨by rw [h1, e1], e2⟩
  obtain ⟨e1, e2⟩ := key _ _ _ _ (by rw [List.mem_reverse]; exact hd _) (by rw [List.mem_reverse]; exact hd _) h'
  refine ⟨List.reverse_inj.mp e2, ?_⟩
  have e3 := List.reverse_inj.mp e1
  have := congrArg (decPrefix 0) e3
  rwa [decPrefix_natDec, decPrefix_natDec] at this

/-- C101.  Names made on nodes with different names are different, whatever the names of the nodes are. -/
theorem c101_nodes_differ (a b : Bytes) (i j : Nat) (h : a ≠ b) : mint a i ≠ mint b j := fun e => h (mint_inj e).1

example : mint (str "a") 12 ≠ mint (str "a#1") 2 := c101_nodes_differ _ _ _ _ (by decide +kernel)

theorem namesFrom_made (node : Bytes) (c : Nat) (ms : List Msg) (i : Nat) (m : Msg) (hm : ms[i]? = some m)
    (hn : m.table.find (str "ID") = none) :
    (namesFrom node c ms)[i]? = some (mint node (c + ((ms.take i).filter fun m => (m.table.find (str "ID")).isNone).length)) := by
  induction ms generalizing c i with
  | nil => cases hm
  | cons x ms ih =>
    cases i with
    | zero =>
      rw [List.getElem?_cons_zero] at hm
      cases hm
      unfold namesFrom name
      rw [hn]
      rfl
    | succ i =>
      rw [List.getElem?_cons_succ] at hm
      unfold namesFrom
      rw [List.getElem?_cons_succ, ih _ i hm, List.take_succ_cons, List.filter_cons]
      unfold name
      cases hx : x.table.find (str "ID") with
      | none =>
        simp only [Option.isNone_none, if_true, List.length_cons]
        congr 2
        omega
      | some _ => simp only [Option.isNone_some, Bool.false_eq_true, if_false]

/-- C101.  Of all the names a node makes until it ends, no two are equal, in whatever order its threads take them. -/
theorem c101_names_differ_partial (node : Bytes) (ms : List Msg) (hl : ms.length < 2 ^ 64) (i j : Nat) (m m' : Msg)
    (hi : ms[i]? = some m) (hj : ms[j]? = some m') (hm : m.table.find (str "ID") = none) (hm' : m'.table.find (str "ID") = none)
    (hij : i ≠ j) : (namesFrom node 0 ms)[i]? ≠ (namesFrom node 0 ms)[j]? := by
  have key : ∀ (i j : Nat) (m m' : Msg), ms[i]? = some m → ms[j]? = some m' → m.table.find (str "ID") = none →
      m'.table.find (str "ID") = none → i < j → (namesFrom node 0 ms)[i]? ≠ (namesFrom node 0 ms)[j]? := by
    intro i j m m' hi hj hm hm' hij
    rw [namesFrom_made node 0 ms i m hi hm, namesFrom_made node 0 ms j m' hj hm']
    intro h
    injection h with h
    have e := (mint_inj h).2
    have le : ∀ k, ((ms.take k).filter fun m => (m.table.find (str "ID")).isNone).length ≤ ms.length := fun k =>
      Nat.le_trans (List.length_filter_le _ _) (by rw [List.length_take]; omega)
    rw [Nat.zero_add, Nat.zero_add, Nat.mod_eq_of_lt (Nat.lt_of_le_of_lt (le i) hl), Nat.mod_eq_of_lt (Nat.lt_of_le_of_lt (le j) hl)] at e
    have split : ms.take j = ms.take i ++ (ms.drop i).take (j - i) := by
      have := List.take_add (l := ms) (i := i) (j := j - i)
      rwa [show i + (j - i) = j by omega] at this
    have hd : (ms.drop i).take (j - i) = m :: (ms.drop (i + 1)).take (j - i - 1) := by
      have hlt : i < ms.length := by
        rcases Nat.lt_or_ge i ms.length with h | h
        · exact h
        · rw [List.getElem?_eq_none h] at hi; cases hi
      rw [List.drop_eq_getElem_cons hlt, show j - i = (j - i - 1) + 1 by omega, List.take_succ_cons]
      congr 1
      rw [List.getElem?_eq_getElem hlt] at hi
      exact Option.some.inj hi
    rw [split, hd, List.filter_append, List.length_append, List.filter_cons, hm, Option.isNone_none, if_pos rfl, List.length_cons] at e
    omega
  rcases Nat.lt_or_gt_of_ne hij with h | h
  · exact key i j m m' hi hj hm hm' h
  · exact (key j i m' m hj hi hm' hm h).symm

example : namesFrom (str "n1") 0 [{}, { table := [(str "ID", str "n2#7")] }, {}] = [str "n1#0", str "n2#7", str "n1#1"] := by
  decide +kernel

/-- C101 fails here: after a restart a node makes the same names again, while commands of its earlier life may still be
running on the leader. -/
theorem c101_names_repeat (node : Bytes) (m m' : Msg) (ms ms' : List Msg) (h : m.table.find (str "ID") = none)
    (h' : m'.table.find (str "ID") = none) : (namesFrom node 0 (m :: ms)).head? = (namesFrom node 0 (m' :: ms')).head? := by
  unfold namesFrom name
  rw [h, h']
  rfl

/-- C101 fails here: a client may choose the name, and so one that the node makes for another request. -/
theorem c101_name_chosen (node : Bytes) : namesFrom node 0 [{ table := [(str "ID", mint node 0)] }, {}] = [mint node 0, mint node 0] := by
  unfold namesFrom name
  rw [show Table.find (str "ID") [(str "ID", mint node 0)] = some (mint node 0) by
    unfold Table.find
    rw [keyLt_irrefl]
    rfl]
  rfl

/-! ## The version -/

theorem mem_insertSorted (x : Bytes) (l : List Bytes) : (insertSorted x l).Perm (x :: l) := by
  induction l with
  | nil => exact List.Perm.refl _
  | cons y l ih =>
    unfold insertSorted
    split
    · exact (List.Perm.cons y ih).trans (List.Perm.swap x y l)
    · exact List.Perm.refl _

theorem sorted_perm (l : List Bytes) : (sorted l).Perm l := by
  induction l with
  | nil => exact List.Perm.refl _
  | cons x l ih => exact (mem_insertSorted x (sorted l)).trans (List.Perm.cons x ih)

theorem insertSorted_comm (x y : Bytes) (l : List Bytes) : insertSorted x (insertSorted y l) = insertSorted y (insertSorted x l) := by
  induction l with
  | nil =>
    unfold insertSorted
    simp only [insertSorted]
    by_cases h1 : lexLt y x = true
    · rw [if_pos h1, if_neg (by rw [lexLt_asymm h1]; decide)]
    · by_cases h2 : lexLt x y = true
      · rw [if_neg h1, if_pos h2]
      · have : x = y := lexLt_total (by simpa using h2) (by simpa using h1)
        rw [this]
  | cons z l ih =>
    simp only [insertSorted]
    by_cases hy : lexLt z y = true
    · by_cases hx : lexLt z x = true
      · rw [if_pos hy, if_pos hx]
        simp only [insertSorted]
        rw [if_pos hx, if_pos hy, ih]
      · have hxy : lexLt x y = true := by
          cases h : lexLt x z with
          | true => exact lexLt_trans h hy
          | false =>
            have : x = z := lexLt_total h (by simpa using hx)
            rw [this]; exact hy
        rw [if_pos hy, if_neg hx]
        simp only [insertSorted]
        rw [if_neg hx, if_pos hxy, if_pos hy]
    · by_cases hx : lexLt z x = true
      · have hyx : lexLt y x = true := by
          cases h : lexLt y z with
          | true => exact lexLt_trans h hx
          | false =>
            have : y = z := lexLt_total h (by simpa using hy)
            rw [this]; exact hx
        rw [if_neg hy, if_pos hx]
        simp only [insertSorted]
        rw [if_pos hyx, if_pos hx, if_neg hy]
      · rw [if_neg hy, if_neg hx]
        simp only [insertSorted]
        by_cases h1 : lexLt y x = true
        · rw [if_pos h1, if_neg hx, if_neg (by rw [lexLt_asymm h1]; decide)]
        · by_cases h2 : lexLt x y = true
          · rw [if_neg h1, if_pos h2, if_neg hy]
          · have : x = y := lexLt_total (by simpa using h2) (by simpa using h1)
            rw [this]

theorem sorted_of_perm (l l' : List Bytes) (h : l.Perm l') : sorted l = sorted l' := by
  induction h with
  | nil => rfl
  | cons x _ ih => show insertSorted x (sorted _) = insertSorted x (sorted _); rw [ih]
  | swap x y l => exact insertSorted_comm y x (sorted l)
  | trans _ _ h1 h2 => exact h1.trans h2


/-- C101.  The order in which the parts of the version are given does not matter. -/
theorem c101_version_order (e e' : Enabled) (a b : Bytes) (h : (parseList a 58).1.Perm (parseList b 58).1) :
    version e (some a) = version e' (some b) := by
  unfold version
  simp only [sorted_of_perm _ _ h]

example : version { versions := [] } (some (str "b:a:c")) = version { versions := [] } (some (str "c:b:a")) := by decide +kernel

/-- C101.  Nor does the order in which the plugins were enabled. -/
theorem c101_version_plugins (e e' : Enabled) (h : e.versions.Perm e'.versions) : version e none = version e' none := by
  unfold version
  simp only [sorted_of_perm _ _ h]

example : version { versions := [str "b", str "a"] } none = version { versions := [str "a", str "b"] } none :=
  c101_version_plugins _ _ (List.Perm.swap ..)

theorem enable_versions (registered : List (Bytes × Plugin)) (names : List Bytes) (e e' : Enabled)
    (h : names.foldlM (enable registered) e = some e') :
    e'.versions = e.versions ++ names.filterMap fun n =>
      (lookup (sToUpper n) registered).bind fun p => p.version.map fun v => p.name ++ str "_" ++ v := by
  induction names generalizing e with
  | nil =>
    simp only [List.foldlM_nil] at h
    cases h
    simp
  | cons n names ih =>
    rw [List.foldlM_cons, Option.bind_eq_bind, Option.bind_eq_some_iff] at h
    obtain ⟨m, h1, h2⟩ := h
    rw [ih m h2]
    unfold enable at h1
    split at h1
    · cases h1
    · next p hp =>
      cases h1
      cases hv : p.version with
      | none => simp [hp, hv]
      | some v =>
        simp only [List.filterMap_cons, hp, hv, Option.bind_some, Option.map_some, List.append_assoc, List.singleton_append]
        rfl

/-- C101.  The version names Bedrock's own and that of each plugin that has one, once for each time it was asked for. -/
theorem c101_version_names (registered : List (Bytes × Plugin)) (own : Bytes) (names : List Bytes) (e : Enabled)
    (h : enableAll registered own names = some e) :
    e.versions = own :: names.filterMap fun n =>
      (lookup (sToUpper n) registered).bind fun p => p.version.map fun v => p.name ++ str "_" ++ v :=
  enable_versions registered names _ e h

example : ∃ e, enableAll [(str "A", { name := str "A", version := some (str "1"), claim := fun _ => .no }),
      (str "B", { name := str "B", version := some (str "2"), claim := fun _ => .no })] (str "0") [str "a", str "b"] = some e ∧
    e.versions = [str "0", str "A_1", str "B_2"] :=
  ⟨_, rfl, by decide +kernel⟩

/-- C101.  The file opened for a plugin has the name given, with `.so` at the end unless it is there already. -/
theorem c101_file (n : Bytes) :
    (∀ t, n = t ++ str ".so" → fileName n = n) ∧ ((∀ t, n ≠ t ++ str ".so") → fileName n = n ++ str ".so") := by
  unfold fileName
  constructor
  · rintro t rfl
    rw [if_pos (List.isSuffixOf_iff_suffix.2 (List.suffix_append _ _))]
  · intro h
    rw [if_neg]
    intro hs
    obtain ⟨t, ht⟩ := List.isSuffixOf_iff_suffix.1 hs
    exact h t ht.symm

example : fileName (str "/x/a") = str "/x/a.so" ∧ fileName (str "/x/a.so") = str "/x/a.so" := by decide +kernel

end Bedrock.Plugins.Props
