import Verif.Model.Lru
import Verif.Lemmas.Http

/-!
# C128: the cache forgets what was used longest ago
-/

namespace Bedrock.Lru.Props
open Bedrock Bedrock.Text Bedrock.Lru

/-! ## Pointers and iterators are right -/

theorem find_key {α κ : Type} [DecidableEq κ] (f : α → κ) (l : List α) (x : α) (h : (l.map f).Nodup) (hx : x ∈ l) :
    l.find? (fun y => f y = f x) = some x := by
  induction l with
  | nil => simp at hx
  | cons y l ih =>
    simp only [List.map_cons, List.nodup_cons] at h
    rcases List.mem_cons.1 hx with rfl | hx
    · simp
    · have : ¬ f y = f x := fun e => h.1 (e ▸ List.mem_map_of_mem hx)
      rw [List.find?_cons]
      simp only [this, decide_false]
      exact ih h.2 hx

/-- The entries in the order of use, and how everything points to them. -/
structure Rep (s : Lru) (es : List (Nat × Entry)) : Prop where
  list : s.list = es.map fun x => (x.2.listIt, x.1)
  heap : s.heap.Perm es
  map : s.map.Perm (es.map fun x => (x.2.mapIt, x.2.name, x.1))
  names : (es.map fun x => x.2.name).Nodup
  ptrs : (es.map fun x => x.1).Nodup
  lists : (es.map fun x => x.2.listIt).Nodup
  maps : (es.map fun x => x.2.mapIt).Nodup
  below : ∀ x ∈ es, x.1 < s.fresh ∧ x.2.listIt < s.fresh ∧ x.2.mapIt < s.fresh

theorem deref_rep {s : Lru} {es : List (Nat × Entry)} (h : Rep s es) {x : Nat × Entry} (hx : x ∈ es) : s.deref x.1 = some x.2 := by
  have hn : (s.heap.map (·.1)).Nodup := (h.heap.map (·.1)).nodup_iff.2 h.ptrs
  have := find_key (·.1) s.heap x hn (h.heap.mem_iff.2 hx)
  simp [Lru.deref, this]

theorem filter_key {α κ : Type} [DecidableEq κ] (f : α → κ) (a b : List α) (x : α) (h : ((a ++ x :: b).map f).Nodup) :
    (a ++ x :: b).filter (fun y => f y ≠ f x) = a ++ b := by
  simp only [List.map_append, List.map_cons, List.nodup_append, List.nodup_cons] at h
  obtain ⟨-, ⟨h2, -⟩, h3⟩ := h
  rw [List.filter_append, List.filter_cons]
  simp only [ne_eq, not_true, decide_false, Bool.false_eq_true, if_false]
  congr 1
  · rw [List.filter_eq_self]
    intro y hy
    have := h3 (f y) (List.mem_map_of_mem hy) (f x) (by simp)
    simpa using this
  · rw [List.filter_eq_self]
    intro y hy
    have : f y ≠ f x := fun e => h2 (e ▸ List.mem_map_of_mem hy)
    simpa using this

theorem erase_list {s : Lru} {a b : List (Nat × Entry)} {x : Nat × Entry} (h : Rep s (a ++ x :: b)) :
    eraseNode s.list x.2.listIt = some ((a ++ b).map fun x => (x.2.listIt, x.1)) := by
  have e := filter_key (fun x : Nat × Entry => x.2.listIt) a b x h.lists
  unfold eraseNode
  rw [if_pos, h.list, List.filter_map]
  · congr 2
  · rw [List.any_eq_true]
    refine ⟨(x.2.listIt, x.1), ?_, by simp⟩
    rw [h.list]
    exact List.mem_map_of_mem (f := fun x : Nat × Entry => (x.2.listIt, x.1)) (by simp)

theorem push_rep {s : Lru} {es : List (Nat × Entry)} (h : Rep s es) (n : Bytes) : ∃ s' es', s.push n = some s' ∧ Rep s' es' ∧
    es'.map (·.2.name) = Cache.pushMRU (es.map (·.2.name)) n ∧ s.fresh ≤ s'.fresh := by
  by_cases hn : n ∈ es.map (·.2.name)
  · obtain ⟨x, hx, rfl⟩ := List.mem_map.1 hn
    obtain ⟨a, b, rfl⟩ := List.append_of_mem hx
    have hm : s.map.find? (fun y => y.2.1 = x.2.name) = some (x.2.mapIt, x.2.name, x.1) := by
      have hnd : (s.map.map (·.2.1)).Nodup := by
        refine (h.map.map (·.2.1)).nodup_iff.2 ?_
        rw [List.map_map]
        exact h.names
      exact find_key (·.2.1) s.map (x.2.mapIt, x.2.name, x.1) hnd (h.map.mem_iff.2
        (List.mem_map_of_mem (f := fun x : Nat × Entry => (x.2.mapIt, x.2.name, x.1)) hx))
    refine ⟨{ s with
        list := (a ++ b).map (fun x => (x.2.listIt, x.1)) ++ [(s.fresh, x.1)]
        heap := s.heap.map fun y => if y.1 = x.1 then (x.1, { y.2 with listIt := s.fresh }) else y
        fresh := s.fresh + 1 }, a ++ b ++ [(x.1, { x.2 with listIt := s.fresh })], ?_, ?_, ?_, Nat.le_succ _⟩
    · simp only [Lru.push, hm, deref_rep h hx, erase_list h, Option.bind_eq_bind, Option.bind_some, Option.pure_def]
    · have hsub : ∀ y, y ∈ a ++ b → y ∈ a ++ x :: b := by
        intro y hy
        rcases List.mem_append.1 hy with hy | hy
        · exact List.mem_append_left _ hy
        · exact List.mem_append_right _ (List.mem_cons_of_mem _ hy)
      have hperm : (a ++ x :: b).Perm (a ++ b ++ [x]) := by
        refine List.perm_middle.trans ?_
        exact (List.perm_append_singleton x (a ++ b)).symm
      have hne : ∀ y ∈ a ++ b, y.1 ≠ x.1 := by
        intro y hy e
        have hp : ((a ++ b ++ [x]).map (·.1)).Nodup := (hperm.map (·.1)).nodup_iff.1 h.ptrs
        rw [List.map_append, List.nodup_append] at hp
        exact hp.2.2 y.1 (List.mem_map_of_mem hy) x.1 (by simp) e
      refine ⟨?_, ?_, ?_, ?_, ?_, ?_, ?_, ?_⟩
      · simp
      · have h1 := (h.heap.trans hperm).map fun y => if y.1 = x.1 then (x.1, { y.2 with listIt := s.fresh }) else y
        refine h1.trans ?_
        rw [List.map_append]
        have e1 : (a ++ b).map (fun y => if y.1 = x.1 then (x.1, { y.2 with listIt := s.fresh }) else y) = a ++ b := by
          have : ∀ y ∈ a ++ b, (fun y : Nat × Entry => if y.1 = x.1 then (x.1, { y.2 with listIt := s.fresh }) else y) y = id y := by
            intro y hy
            simp [hne y hy]
          rw [List.map_congr_left this, List.map_id]
        rw [e1]
        simp
      · refine h.map.trans ?_
        refine (hperm.map _).trans ?_
        simp
      · have := (hperm.map (·.2.name)).nodup_iff.1 h.names
        simpa using this
      · have := (hperm.map (·.1)).nodup_iff.1 h.ptrs
        simpa using this
      · have hl := (hperm.map (·.2.listIt)).nodup_iff.1 h.lists
        rw [List.map_append, List.nodup_append] at hl ⊢
        refine ⟨hl.1, by simp, ?_⟩
        intro u hu v hv
        obtain ⟨y, hy, rfl⟩ := List.mem_map.1 hu
        have := (h.below y (hsub y hy)).2.1
        simp at hv
        omega
      · have := (hperm.map (·.2.mapIt)).nodup_iff.1 h.maps
        simpa using this
      · intro y hy
        have hb := fun y hy => h.below y hy
        rcases List.mem_append.1 hy with hy | hy
        · have := hb y (hsub y hy)
          exact ⟨by show y.1 < s.fresh + 1; omega, by show y.2.listIt < s.fresh + 1; omega, by show y.2.mapIt < s.fresh + 1; omega⟩
        · have := hb x hx
          simp only [List.mem_singleton] at hy
          subst hy
          exact ⟨by show x.1 < s.fresh + 1; omega, by show s.fresh < s.fresh + 1; omega, by show x.2.mapIt < s.fresh + 1; omega⟩
    · have e := filter_key (fun x : Nat × Entry => x.2.name) a b x h.names
      simp only [Cache.pushMRU]
      rw [List.filter_map]
      have : (a ++ x :: b).filter ((fun y => decide (y ≠ x.2.name)) ∘ fun x => x.2.name) = a ++ b := e
      rw [this]
      simp
  · have hm : s.map.find? (fun y => y.2.1 = n) = none := by
      rw [List.find?_eq_none]
      intro y hy
      obtain ⟨x, hx, rfl⟩ := List.mem_map.1 (h.map.mem_iff.1 hy)
      intro e
      exact hn (List.mem_map.2 ⟨x, hx, by simpa using e⟩)
    refine ⟨{ heap := s.heap ++ [(s.fresh, { name := n, listIt := s.fresh + 2, mapIt := s.fresh + 1 })]
              map := s.map ++ [(s.fresh + 1, n, s.fresh)], list := s.list ++ [(s.fresh + 2, s.fresh)], fresh := s.fresh + 3 },
      es ++ [(s.fresh, { name := n, listIt := s.fresh + 2, mapIt := s.fresh + 1 })], ?_, ?_, ?_, ?_⟩
    · simp only [Lru.push, hm]
    · refine ⟨?_, ?_, ?_, ?_, ?_, ?_, ?_, ?_⟩
      · simp [h.list]
      · exact h.heap.append_right _
      · rw [List.map_append]
        exact h.map.append_right _
      · rw [List.map_append, List.nodup_append]
        refine ⟨h.names, by simp, ?_⟩
        intro u hu v hv e
        simp only [List.map_cons, List.map_nil, List.mem_singleton] at hv
        exact hn (hv ▸ e ▸ hu)
      · rw [List.map_append, List.nodup_append]
        refine ⟨h.ptrs, by simp, ?_⟩
        intro u hu v hv
        obtain ⟨y, hy, rfl⟩ := List.mem_map.1 hu
        have := (h.below y hy).1
        simp at hv
        omega
      · rw [List.map_append, List.nodup_append]
        refine ⟨h.lists, by simp, ?_⟩
        intro u hu v hv
        obtain ⟨y, hy, rfl⟩ := List.mem_map.1 hu
        have := (h.below y hy).2.1
        simp at hv
        omega
      · rw [List.map_append, List.nodup_append]
        refine ⟨h.maps, by simp, ?_⟩
        intro u hu v hv
        obtain ⟨y, hy, rfl⟩ := List.mem_map.1 hu
        have := (h.below y hy).2.2
        simp at hv
        omega
      · intro y hy
        rcases List.mem_append.1 hy with hy | hy
        · have := h.below y hy
          exact ⟨by show y.1 < s.fresh + 3; omega, by show y.2.listIt < s.fresh + 3; omega, by show y.2.mapIt < s.fresh + 3; omega⟩
        · simp only [List.mem_singleton] at hy
          subst hy
          exact ⟨by show s.fresh < s.fresh + 3; omega, by show s.fresh + 2 < s.fresh + 3; omega,
            by show s.fresh + 1 < s.fresh + 3; omega⟩
    · have e : (es.map (·.2.name)).filter (· ≠ n) = es.map (·.2.name) := by
        rw [List.filter_eq_self]
        intro y hy
        have : y ≠ n := fun e => hn (e ▸ hy)
        simpa using this
      simp only [Cache.pushMRU]
      rw [e]
      simp
    · show s.fresh ≤ s.fresh + 3; omega

theorem pop_rep {s : Lru} {es : List (Nat × Entry)} (h : Rep s es) :
    (es = [] ∧ s.pop = some (s, [], false)) ∨
    ∃ x b s', es = x :: b ∧ s.pop = some (s', x.2.name, true) ∧ Rep s' b := by
  cases es with
  | nil => left; exact ⟨rfl, by simp [Lru.pop, h.list]⟩
  | cons x b =>
    right
    have hl : s.list = (x.2.listIt, x.1) :: b.map fun x => (x.2.listIt, x.1) := by simpa using h.list
    have he := erase_list (a := []) (x := x) (b := b) (by simpa using h)
    have hmaps : (s.map.map (·.1)).Nodup := by
      refine (h.map.map (·.1)).nodup_iff.2 ?_
      rw [List.map_map]
      exact h.maps
    have hm : eraseNode s.map x.2.mapIt = some (s.map.filter (·.1 ≠ x.2.mapIt)) := by
      unfold eraseNode
      rw [if_pos]
      rw [List.any_eq_true]
      exact ⟨(x.2.mapIt, x.2.name, x.1), h.map.mem_iff.2 (by simp), by simp⟩
    refine ⟨x, b, { s with
        list := b.map (fun x => (x.2.listIt, x.1))
        map := s.map.filter (·.1 ≠ x.2.mapIt)
        heap := s.heap.filter (·.1 ≠ x.1) }, rfl, ?_, ?_⟩
    · have hd := deref_rep h (x := x) (by simp)
      have hp : s.pop = (do
          let e ← s.deref x.1
          let l ← eraseNode s.list e.listIt
          let m ← eraseNode s.map e.mapIt
          return ({ s with list := l, map := m, heap := s.heap.filter (·.1 ≠ x.1) }, e.name, true)) := by
        unfold Lru.pop
        rw [hl]
      rw [hp]
      simp only [hd, he, hm, Option.bind_eq_bind, Option.bind_some, Option.pure_def, List.nil_append]
    · have n1 := List.nodup_cons.1 h.names
      have n2 := List.nodup_cons.1 h.ptrs
      have n3 := List.nodup_cons.1 h.lists
      have n4 := List.nodup_cons.1 h.maps
      refine ⟨rfl, ?_, ?_, n1.2, n2.2, n3.2, n4.2, fun y hy => h.below y (List.mem_cons_of_mem _ hy)⟩
      · have := h.heap.filter (fun y => decide (y.1 ≠ x.1))
        refine this.trans ?_
        have e := filter_key (fun x : Nat × Entry => x.1) [] b x h.ptrs
        simp only [List.nil_append] at e
        rw [e]
      · have := h.map.filter (fun y => decide (y.1 ≠ x.2.mapIt))
        refine this.trans ?_
        have e := filter_key (fun x : Nat × Bytes × Nat => x.1) [] (b.map fun x => (x.2.mapIt, x.2.name, x.1))
          (x.2.mapIt, x.2.name, x.1) (by
            simp only [List.nil_append, List.map_cons, List.map_map]
            exact h.maps)
        simp only [List.nil_append] at e
        rw [List.map_cons, e]

/-- The calls on a list of names, least recently used first. -/
def names : List Bytes → List Op → List Bytes × List (Bytes × Bool)
  | l, [] => (l, [])
  | l, .push n :: os => names (l.filter (· ≠ n) ++ [n]) os
  | [], .pop :: os => ((names [] os).1, ([], false) :: (names [] os).2)
  | n :: l, .pop :: os => ((names l os).1, (n, true) :: (names l os).2)

theorem run_rep (os : List Op) : ∀ (s : Lru) (es : List (Nat × Entry)), Rep s es →
    ∃ s' es', Rep s' es' ∧ s.run os = some (s', (names (es.map (·.2.name)) os).2) ∧
      es'.map (·.2.name) = (names (es.map (·.2.name)) os).1 := by
  induction os with
  | nil => intro s es h; exact ⟨s, es, h, rfl, rfl⟩
  | cons o os ih =>
    intro s es h
    cases o with
    | push n =>
      obtain ⟨s1, es1, h1, h2, h3, -⟩ := push_rep h n
      obtain ⟨s2, es2, g1, g2, g3⟩ := ih s1 es1 h2
      refine ⟨s2, es2, g1, ?_, ?_⟩
      · simp only [Lru.run, h1, Option.bind_eq_bind, Option.bind_some]
        rw [g2, h3]
        rfl
      · rw [g3, h3]; rfl
    | pop =>
      rcases pop_rep h with ⟨rfl, hp⟩ | ⟨x, b, s1, rfl, hp, h1⟩
      · obtain ⟨s2, es2, g1, g2, g3⟩ := ih s [] h
        refine ⟨s2, es2, g1, ?_, ?_⟩
        · simp only [Lru.run, hp, g2, Option.bind_eq_bind, Option.bind_some, Option.pure_def]
          rfl
        · rw [g3]; rfl
      · obtain ⟨s2, es2, g1, g2, g3⟩ := ih s1 b h1
        refine ⟨s2, es2, g1, ?_, ?_⟩
        · simp only [Lru.run, hp, g2, Option.bind_eq_bind, Option.bind_some, Option.pure_def]
          rfl
        · rw [g3]; rfl

theorem rep_start : Rep {} [] := ⟨rfl, .nil, .nil, .nil, .nil, .nil, .nil, fun _ h => by simp at h⟩

/-- **C128, memory.** Whatever names are used and forgotten, in whatever order: no pointer to a deleted entry is followed and no
iterator to an erased node used; the answers are those of a list of names; there is one entry for each name remembered; and the
destructor deletes them all. -/
theorem c128_memory (os : List Op) : ∃ s, ({} : Lru).run os = some (s, (names [] os).2) ∧
    s.heap.length = (names [] os).1.length ∧ ∃ s', s.destroy s.list.length = some s' ∧ s'.heap = [] ∧ s'.list = [] ∧ s'.map = [] := by
  obtain ⟨s, es, h, h1, h2⟩ := run_rep os {} [] rep_start
  refine ⟨s, h1, ?_, ?_⟩
  · have := congrArg List.length h2
    rw [List.length_map] at this
    rw [h.heap.length_eq, this]; rfl
  · have hlen : s.list.length = es.length := by rw [h.list, List.length_map]
    rw [hlen]
    clear h1 h2 hlen
    induction es generalizing s with
    | nil => exact ⟨s, rfl, List.perm_nil.1 h.heap, by simp [h.list], List.perm_nil.1 h.map⟩
    | cons x b ih =>
      rcases pop_rep h with ⟨hx, -⟩ | ⟨x', b', s1, hx, hp, h1⟩
      · cases hx
      · cases hx
        obtain ⟨s', g1, g2⟩ := ih s1 h1
        refine ⟨s', ?_, g2⟩
        have : s.list ≠ [] := by rw [h.list]; simp
        simp only [List.length_cons, Lru.destroy, this, if_false, hp, Option.bind_some, g1]

example : (({} : Lru).run [.push [97], .push [98], .push [97], .push [99], .pop, .pop, .push [98], .pop, .pop, .pop]).map (·.2) =
    some [([98], true), ([97], true), ([99], true), ([98], true), ([], false)] := by decide

/-! ## What is forgotten first -/

/-- What happened, newest first: a name was used, or was forgotten. -/
inductive Ev where
  | used (n : Bytes)
  | forgotten (n : Bytes)
  deriving DecidableEq, Repr

/-- The number of the last use of a name, unless it was forgotten since. -/
def lastUse (n : Bytes) : List Ev → Option Nat
  | [] => none
  | .used m :: h => if m = n then some h.length else lastUse n h
  | .forgotten m :: h => if m = n then none else lastUse n h

/-- The history of calls: only answers that forgot something count. -/
def history : List Op → List (Bytes × Bool) → List Ev → List Ev
  | .push n :: os, as, h => history os as (.used n :: h)
  | .pop :: os, (n, true) :: as, h => history os as (.forgotten n :: h)
  | .pop :: os, (_, false) :: as, h => history os as h
  | _, _, h => h

/-- The list of names is in the order of their last uses. -/
structure Order (l : List Bytes) (h : List Ev) : Prop where
  nodup : l.Nodup
  mem : ∀ n, n ∈ l ↔ (lastUse n h).isSome
  sorted : l.Pairwise fun a b => ∀ i j, lastUse a h = some i → lastUse b h = some j → i < j

theorem lastUse_lt (n : Bytes) : ∀ (h : List Ev) (i : Nat), lastUse n h = some i → i < h.length
  | .used m :: h, i, e => by
    simp only [lastUse] at e
    split at e
    · simp at e; simp only [List.length_cons]; omega
    · have := lastUse_lt n h i e; simp only [List.length_cons]; omega
  | .forgotten m :: h, i, e => by
    simp only [lastUse] at e
    split at e
    · cases e
    · have := lastUse_lt n h i e; simp only [List.length_cons]; omega

theorem order_push {l : List Bytes} {h : List Ev} (ho : Order l h) (n : Bytes) : Order (l.filter (· ≠ n) ++ [n]) (.used n :: h) := by
  have hother : ∀ m, m ≠ n → lastUse m (.used n :: h) = lastUse m h := by
    intro m hm
    have : ¬ n = m := fun e => hm e.symm
    simp [lastUse, this]
  have hf : ∀ m ∈ l.filter (· ≠ n), m ≠ n := by
    intro m hm
    have := (List.mem_filter.1 hm).2
    simpa using this
  refine ⟨?_, ?_, ?_⟩
  · rw [List.nodup_append]
    refine ⟨ho.nodup.filter _, by simp, ?_⟩
    intro u hu v hv e
    simp only [List.mem_singleton] at hv
    exact hf u hu (e.trans hv)
  · intro m
    by_cases hm : m = n
    · subst hm; simp [lastUse]
    · rw [hother m hm, ← ho.mem]
      simp [hm]
  · rw [List.pairwise_append]
    refine ⟨?_, by simp, ?_⟩
    · refine (ho.sorted.filter _).imp_of_mem ?_
      intro a b ha hb hab i j hi hj
      rw [hother a (hf a ha)] at hi
      rw [hother b (hf b hb)] at hj
      exact hab i j hi hj
    · intro a ha b hb i j hi hj
      simp only [List.mem_singleton] at hb
      subst hb
      rw [hother a (hf a ha)] at hi
      have := lastUse_lt _ _ _ hi
      simp [lastUse] at hj
      omega

theorem order_pop {n : Bytes} {l : List Bytes} {h : List Ev} (ho : Order (n :: l) h) : Order l (.forgotten n :: h) := by
  have hn := List.nodup_cons.1 ho.nodup
  have hother : ∀ m, m ≠ n → lastUse m (.forgotten n :: h) = lastUse m h := by
    intro m hm
    have : ¬ n = m := fun e => hm e.symm
    simp [lastUse, this]
  have hl : ∀ m ∈ l, m ≠ n := fun m hm e => hn.1 (e ▸ hm)
  refine ⟨hn.2, ?_, ?_⟩
  · intro m
    by_cases hm : m = n
    · subst hm; simp [lastUse, hn.1]
    · rw [hother m hm, ← ho.mem]
      simp [hm]
  · refine (List.pairwise_cons.1 ho.sorted).2.imp_of_mem ?_
    intro a b ha hb hab i j hi hj
    rw [hother a (hl a ha)] at hi
    rw [hother b (hl b hb)] at hj
    exact hab i j hi hj

theorem order_run (os : List Op) : ∀ (l : List Bytes) (h : List Ev), Order l h → Order (names l os).1 (history os (names l os).2 h) := by
  induction os with
  | nil => intro l h ho; simpa [names, history] using ho
  | cons o os ih =>
    intro l h ho
    cases o with
    | push n => exact ih _ _ (order_push ho n)
    | pop =>
      cases l with
      | nil => exact ih _ _ ho
      | cons n l => exact ih _ _ (order_pop ho)

/-- **C128, order.** After any history, the name that is forgotten next is one that was used and not forgotten since, and all others of
these were used after it was used last; there is one unless there is no such name at all. -/
theorem c128_oldest (os : List Op) (s : Lru) (as : List (Bytes × Bool)) (hr : ({} : Lru).run os = some (s, as)) :
    ∃ s' n ok, s.pop = some (s', n, ok) ∧
    (ok = false ↔ ∀ m, lastUse m (history os as []) = none) ∧
    (ok = true → ∃ i, lastUse n (history os as []) = some i ∧
      ∀ m j, lastUse m (history os as []) = some j → m ≠ n → i < j) := by
  obtain ⟨s₁, es, h, h1, h2⟩ := run_rep os {} [] rep_start
  rw [h1] at hr
  obtain ⟨rfl, rfl⟩ : s₁ = s ∧ (names [] os).2 = as := by simpa using hr
  have ho : Order (es.map (·.2.name)) (history os (names [] os).2 []) := by
    rw [h2]
    exact order_run os [] [] ⟨.nil, fun n => by simp [lastUse], .nil⟩
  rcases pop_rep h with ⟨rfl, hp⟩ | ⟨x, b, s', rfl, hp, h3⟩
  · refine ⟨s₁, [], false, hp, ?_, (fun hh => by cases hh)⟩
    refine ⟨fun _ m => ?_, fun _ => rfl⟩
    have := ho.mem m
    simpa using this
  · refine ⟨s', x.2.name, true, hp, ?_, ?_⟩
    · refine ⟨fun hh => (by cases hh), fun hh => ?_⟩
      have := (ho.mem x.2.name).1 (by simp)
      rw [hh] at this
      cases this
    · intro _
      have := (ho.mem x.2.name).1 (by simp)
      obtain ⟨i, hi⟩ := Option.isSome_iff_exists.1 this
      refine ⟨i, hi, ?_⟩
      intro m j hj hm
      have hmem := (ho.mem m).2 (by rw [hj]; rfl)
      simp only [List.map_cons, List.mem_cons, hm, false_or] at hmem
      exact (List.pairwise_cons.1 ho.sorted).1 m hmem i j hi hj

example : history [.push [97], .push [98], .push [97], .pop] [([98], true)] [] =
    [.forgotten [98], .used [97], .used [98], .used [97]] ∧
    lastUse [97] [.forgotten [98], .used [97], .used [98], .used [97]] = some 2 := by decide

/-! ## How much may be stored -/

theorem decPrefix_stop (ds r : Bytes) (c : UInt8) (hd : ∀ d ∈ ds, (decVal d).isSome) (hc : decVal c = none) :
    ∀ acc, decPrefix acc (ds ++ c :: r) = decPrefix acc ds := by
  induction ds with
  | nil => intro acc; simp [decPrefix, hc]
  | cons d ds ih =>
    intro acc
    obtain ⟨v, hv⟩ := Option.isSome_iff_exists.1 (hd d (by simp))
    simp only [List.cons_append, decPrefix, hv]
    exact ih (fun x hx => hd x (List.mem_cons_of_mem _ hx)) _

theorem upper_natDec (n : Nat) : sToUpper (natDec n) = natDec n := by
  unfold sToUpper
  have : ∀ c ∈ natDec n, toUpper c = id c := by
    intro c hc
    obtain ⟨d, hd, rfl⟩ := natDec_digits n c hc
    have : ∀ d : Fin 10, toUpper (UInt8.ofNat (48 + d.val)) = UInt8.ofNat (48 + d.val) := by decide +kernel
    exact this ⟨d, hd⟩
  rw [List.map_congr_left this, List.map_id]

/-- A number, followed by nothing or by something that is no digit. -/
theorem strtoll_unit (n : Nat) (u : Bytes) (hn : n < 2 ^ 63) (hu : ∀ c ∈ u.head?, decVal c = none ∧ c ≠ 0) (h0 : 0 ∉ u) :
    strtoll (natDec n ++ u) = n := by
  have key : scanDec (natDec n ++ u) = some (n : Int) := by
    cases u with
    | nil => rw [List.append_nil]; exact scanDec_natDec n
    | cons c r =>
      obtain ⟨hc, -⟩ := hu c (by simp)
      have hz : 0 ∉ natDec n := fun h => (natDec_plain n 0 h).1 rfl
      have hall : 0 ∉ natDec n ++ c :: r := by
        intro h
        rcases List.mem_append.1 h with h | h
        · exact hz h
        · exact h0 h
      unfold scanDec
      rw [cstr_eq hall]
      have hv : decPrefix 0 (natDec n ++ c :: r) = n := by
        rw [decPrefix_stop _ _ _ _ hc, decPrefix_natDec]
        intro d hd
        obtain ⟨k, hk, rfl⟩ := natDec_digits n d hd
        rw [decVal_digit k hk]; rfl
      cases e : natDec n with
      | nil => exact absurd e (natDec_ne_nil n)
      | cons d l =>
        have hp := natDec_plain n d (by rw [e]; simp)
        rw [e, List.cons_append] at hv
        rw [List.cons_append, List.dropWhile_cons]
        simp only [hp.2.1, Bool.false_eq_true, if_false]
        obtain ⟨k, hk, hd⟩ := natDec_digits n d (by rw [e]; simp)
        have hs : startsDec (d :: (l ++ c :: r)) = true := by simp only [startsDec, hd, decVal_digit k hk]; rfl
        split
        · rename_i h; simp at h; exact absurd h.1 hp.2.2.1
        · rename_i h; simp at h; exact absurd h.1 hp.2.2.2.1
        · rw [if_pos hs, hv]
  unfold strtoll
  rw [key]
  dsimp only
  rw [if_neg (by omega), if_neg (by omega)]

theorem endsWith_append (a u : Bytes) : Edit.endsWith (a ++ u) u = true := by
  unfold Edit.endsWith
  rw [if_neg (by simp)]
  simp

theorem endsWith_ne (a u v : Bytes) (h : u.length = v.length) (hne : u ≠ v) : Edit.endsWith (a ++ u) v = false := by
  unfold Edit.endsWith
  rw [if_neg (by simp; omega), ← h]
  simpa using hne

theorem plain_no_unit (n : Nat) (u : Bytes) (hu : u = kb ∨ u = mb ∨ u = gb) : Edit.endsWith (natDec n) u = false := by
  cases he : Edit.endsWith (natDec n) u with
  | false => rfl
  | true =>
    exfalso
    unfold Edit.endsWith at he
    split at he
    · cases he
    · have he : (natDec n).drop ((natDec n).length - u.length) = u := by simpa using he
      have h66 : (66 : UInt8) ∈ u := by rcases hu with rfl | rfl | rfl <;> decide +kernel
      rw [← he] at h66
      obtain ⟨d, hd, hc⟩ := natDec_digits n _ (List.mem_of_mem_drop h66)
      have : ∀ d : Fin 10, (66 : UInt8) ≠ UInt8.ofNat (48 + d.val) := by decide +kernel
      exact this ⟨d, hd⟩ hc

/-- A unit and what it stands for. -/
def units : List (Bytes × Nat) := [([], 1), (str "KB", 1024), (str "MB", 1024 ^ 2), (str "GB", 1024 ^ 3)]

/-- **C128, the size.** A positive number with one of the units, in upper or lower case, or without, is what may be stored, if it is
below 2^63; 0 stands for 16 GB. -/
theorem c128_size (n : Nat) (u v : Bytes) (f : Nat) (hu : (u, f) ∈ units) (hv : sToUpper v = u) (h : n * f < 2 ^ 63) :
    cacheSize (natDec n ++ v) = .size (if n = 0 then 16 * 1024 ^ 3 else (n * f : Nat)) := by
  have hf : 0 < f := by
    simp only [units, List.mem_cons, List.not_mem_nil, or_false, Prod.mk.injEq] at hu
    rcases hu with ⟨-, rfl⟩ | ⟨-, rfl⟩ | ⟨-, rfl⟩ | ⟨-, rfl⟩ <;> decide
  have hn : n < 2 ^ 63 := Nat.lt_of_le_of_lt (Nat.le_mul_of_pos_right n hf) h
  have hup : sToUpper (natDec n ++ v) = natDec n ++ u := by
    have : sToUpper (natDec n ++ v) = sToUpper (natDec n) ++ sToUpper v := List.map_append
    rw [this, upper_natDec, hv]
  have hval : strtoll (natDec n ++ u) = n := by
    refine strtoll_unit n u hn ?_ ?_
    · simp only [units, List.mem_cons, List.not_mem_nil, or_false, Prod.mk.injEq] at hu
      rcases hu with ⟨rfl, -⟩ | ⟨rfl, -⟩ | ⟨rfl, -⟩ | ⟨rfl, -⟩
      · intro c hc; simp at hc
      all_goals
        intro c hc
        first
          | (have : c = 75 := by
              have e : (str "KB").head? = some 75 := by decide +kernel
              rw [e] at hc; simpa using hc.symm
             subst this; decide)
          | (have : c = 77 := by
              have e : (str "MB").head? = some 77 := by decide +kernel
              rw [e] at hc; simpa using hc.symm
             subst this; decide)
          | (have : c = 71 := by
              have e : (str "GB").head? = some 71 := by decide +kernel
              rw [e] at hc; simpa using hc.symm
             subst this; decide)
    · simp only [units, List.mem_cons, List.not_mem_nil, or_false, Prod.mk.injEq] at hu
      rcases hu with ⟨rfl, -⟩ | ⟨rfl, -⟩ | ⟨rfl, -⟩ | ⟨rfl, -⟩ <;> decide +kernel
  have hfac : (if Edit.endsWith (natDec n ++ u) kb then (1024 : Int) else if Edit.endsWith (natDec n ++ u) mb then 1024 * 1024
      else if Edit.endsWith (natDec n ++ u) gb then 1024 * 1024 * 1024 else 1) = (f : Int) := by
    simp only [units, List.mem_cons, List.not_mem_nil, or_false, Prod.mk.injEq] at hu
    have k1 : kb.length = mb.length := by decide +kernel
    have k2 : kb.length = gb.length := by decide +kernel
    have k3 : mb.length = gb.length := by decide +kernel
    have d1 : kb ≠ mb := by decide +kernel
    have d2 : kb ≠ gb := by decide +kernel
    have d3 : mb ≠ gb := by decide +kernel
    rcases hu with ⟨rfl, rfl⟩ | ⟨rfl, rfl⟩ | ⟨rfl, rfl⟩ | ⟨rfl, rfl⟩
    · rw [List.append_nil, plain_no_unit n kb (.inl rfl), plain_no_unit n mb (.inr (.inl rfl)), plain_no_unit n gb (.inr (.inr rfl))]
      rfl
    · show (if Edit.endsWith (natDec n ++ kb) kb then (1024 : Int) else _) = _
      rw [endsWith_append]; rfl
    · show (if Edit.endsWith (natDec n ++ mb) kb then (1024 : Int) else if Edit.endsWith (natDec n ++ mb) mb then _ else _) = _
      rw [endsWith_append, endsWith_ne _ _ _ k1.symm d1.symm]; rfl
    · show (if Edit.endsWith (natDec n ++ gb) kb then (1024 : Int) else if Edit.endsWith (natDec n ++ gb) mb then _ else
        if Edit.endsWith (natDec n ++ gb) gb then _ else _) = _
      rw [endsWith_append, endsWith_ne _ _ _ k2.symm d2.symm, endsWith_ne _ _ _ k3.symm d3.symm]; rfl
  unfold cacheSize
  simp only [hup, hval, hfac]
  have hc : (n : Int) * (f : Int) = ((n * f : Nat) : Int) := by push_cast; rfl
  rw [hc]
  by_cases z : n = 0
  · subst z; simp
  · have : 0 < n * f := Nat.mul_pos (by omega) hf
    rw [if_neg (by omega), if_neg (by omega), if_neg (by omega), if_neg z]

example : cacheSize (str "64mb") = .size 67108864 ∧ cacheSize (str "1Gb") = .size 1073741824 ∧
    cacheSize [] = .size 17179869184 := by decide +kernel

/-- **C128, but** units that are written otherwise count as bytes, a fraction is dropped, and a number that is negative ends the process;
one that is too large for the unit is undefined behaviour. -/
theorem c128_size_misread : cacheSize (str "16G") = .size 16 ∧ cacheSize (str "1.9GB") = .size (1024 ^ 3) ∧
    cacheSize (str "1,000MB") = .size (1024 ^ 2) ∧ cacheSize (str "-1") = .aborts ∧ cacheSize (str "9999999999GB") = .ub := by
  decide +kernel

end Bedrock.Lru.Props
