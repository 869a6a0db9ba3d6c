import Verif.Model.Status
import Verif.Props.Json
import Verif.Props.Https

/-!
# C119: what a load balancer and a monitor are told is true
-/

namespace Bedrock.Status.Props
open Bedrock Bedrock.Text Bedrock.Http Bedrock.Json Bedrock.Json.Props Bedrock.Json.Spec Bedrock.Node Bedrock.Status

/-! ## Names of states -/

/-- **C119** The name of a state stands for that state alone, and a node that is told the name, in any
case, takes it for that state. -/
theorem c119_state_names (s : NState) :
    (∀ s', stateName s = stateName s' → s = s') ∧ (∀ n, sToUpper n = stateName s → stateFromName n = s) := by
  constructor
  · intro s'
    cases s <;> cases s' <;> decide +kernel
  · intro n hn
    unfold stateFromName
    dsimp only
    rw [hn]
    cases s <;> decide +kernel

/-- **C119** A text that is no name of a state is taken for `UNKNOWN`. -/
theorem c119_other_names (n : Bytes) (h : ∀ s, sToUpper n ≠ stateName s) : stateFromName n = .unknown := by
  unfold stateFromName
  dsimp only
  have h1 : sToUpper n ≠ b!"SEARCHING" := h .searching
  have h2 : sToUpper n ≠ b!"SYNCHRONIZING" := h .synchronizing
  have h3 : sToUpper n ≠ b!"WAITING" := h .waiting
  have h4 : sToUpper n ≠ b!"STANDINGUP" := h .standingUp
  have h5 : sToUpper n ≠ b!"LEADING" := h .leading
  have h6 : sToUpper n ≠ b!"STANDINGDOWN" := h .standingDown
  have h7 : sToUpper n ≠ b!"SUBSCRIBING" := h .subscribing
  have h8 : sToUpper n ≠ b!"FOLLOWING" := h .following
  rw [if_neg h1, if_neg h2, if_neg h3, if_neg h4, if_neg h5, if_neg h6, if_neg h7, if_neg h8]

/-! ## The load balancer -/

theorem not_200 (a b c : Bytes) (h : a.length ≤ b.length) (hne : b.take a.length ≠ a) : ¬ a <+: b ++ c := by
  rw [List.prefix_iff_eq_take]
  intro he
  rw [List.take_append_of_le_length h] at he
  exact hne he.symm

/-- **C119** `GET /status/isFollower` is answered 200 exactly if the node was following when it looked. -/
theorem c119_follower (read : Nat → NState) : (b!"HTTP/1.1 200") <+: isFollower read ↔ read 0 = .following := by
  unfold isFollower
  split
  · rename_i h
    exact ⟨fun _ => h, fun _ => by decide +kernel⟩
  · rename_i h
    refine ⟨fun hp => absurd hp (not_200 _ _ _ (by decide) (by decide)), fun h' => absurd h' h⟩

/-- The states in which commands are handled. -/
def Handles (s : NState) : Prop := s = .following ∨ s = .leading ∨ s = .standingDown

instance (s : NState) : Decidable (Handles s) := inferInstanceAs (Decidable (_ ∨ _ ∨ _))

/-- **C119** `GET /status/handlingCommands` is answered 200 only if no backup is wanted, the server is not
told to detach, the leader, if it is known, has the same version, and the node was in a state in which it
handles commands at a moment while the answer was made. -/
theorem c119_handling (backup detach : Bool) (version leaderVersion : Bytes) (read : Nat → NState)
    (h : (b!"HTTP/1.1 200") <+: handlingCommands backup detach version leaderVersion read) :
    backup = false ∧ detach = false ∧ (leaderVersion = [] ∨ leaderVersion = version) ∧ ∃ k < 3, Handles (read k) := by
  unfold handlingCommands at h
  split at h
  · exact absurd h (by decide +kernel)
  · rename_i hb
    split at h
    · exact absurd h (by decide +kernel)
    · rename_i hd
      split at h
      · exact absurd h (not_200 _ _ _ (by decide) (by decide))
      · rename_i hv
        refine ⟨by simpa using hb, by simpa using hd, ?_, ?_⟩
        · by_cases hl : leaderVersion = []
          · exact .inl hl
          · right
            apply Classical.byContradiction
            intro hne
            exact hv ⟨hl, fun e => hne e.symm⟩
        · unfold serving at h
          by_cases h0 : read 0 = .following
          · exact ⟨0, by omega, .inl h0⟩
          · by_cases h1 : read 1 = .leading
            · exact ⟨1, by omega, .inr (.inl h1)⟩
            · by_cases h2 : read 2 = .standingDown
              · exact ⟨2, by omega, .inr (.inr h2)⟩
              · rw [if_neg h0, if_neg h1, if_neg h2] at h
                dsimp only at h
                rw [if_neg (by decide), List.append_assoc] at h
                exact absurd h (not_200 _ _ _ (by decide) (by decide))

/-- **C119** If the node's state does not change meanwhile, both answers tell it truthfully, and 200 means
that commands are handled. -/
theorem c119_steady (backup detach : Bool) (version leaderVersion : Bytes) (s : NState) (read : Nat → NState)
    (hs : ∀ k, read k = s) :
    isFollower read = (if s = .following then b!"HTTP/1.1 200 Following"
      else b!"HTTP/1.1 500 Not Following. State=" ++ stateName s) ∧
    ((b!"HTTP/1.1 200") <+: handlingCommands backup detach version leaderVersion read ↔
      backup = false ∧ detach = false ∧ (leaderVersion = [] ∨ leaderVersion = version) ∧ Handles s) ∧
    (backup = false → detach = false → (leaderVersion = [] ∨ leaderVersion = version) →
      handlingCommands backup detach version leaderVersion read = b!"HTTP/1.1 200 " ++ stateName s ∨
      handlingCommands backup detach version leaderVersion read = b!"HTTP/1.1 500 " ++ stateName s) := by
  have hform : backup = false → detach = false → (leaderVersion = [] ∨ leaderVersion = version) →
      handlingCommands backup detach version leaderVersion read =
        (if Handles s then b!"HTTP/1.1 200 " else b!"HTTP/1.1 500 ") ++ stateName s := by
    intro hb hd hv
    have hv' : ¬ (leaderVersion ≠ [] ∧ version ≠ leaderVersion) := by
      rintro ⟨h1, h2⟩
      rcases hv with h | h
      · exact h1 h
      · exact h2 h.symm
    unfold handlingCommands serving
    rw [if_neg (by simp [hb]), if_neg (by simp [hd]), if_neg hv']
    simp only [hs]
    unfold Handles
    cases s <;> simp
  refine ⟨?_, ⟨?_, ?_⟩, ?_⟩
  · unfold isFollower; rw [hs, hs]
  · intro h
    obtain ⟨h1, h2, h3, k, _, h4⟩ := c119_handling _ _ _ _ _ h
    rw [hs] at h4
    exact ⟨h1, h2, h3, h4⟩
  · rintro ⟨h1, h2, h3, h4⟩
    rw [hform h1 h2 h3, if_pos h4]
    exact (List.prefix_append (b!"HTTP/1.1 200") (b!" ")).trans (List.prefix_append _ _)
  · intro h1 h2 h3
    rw [hform h1 h2 h3]
    by_cases h : Handles s
    · rw [if_pos h]; exact .inl rfl
    · rw [if_neg h]; exact .inr rfl

/-- C119, violation: the state is looked at several times.  A node that starts following in between is
"500 Not Following. State=FOLLOWING" or "500 FOLLOWING", one that stops is "200 SEARCHING". -/
theorem c119_changing :
    isFollower (fun k => if k = 0 then .subscribing else .following) = b!"HTTP/1.1 500 Not Following. State=FOLLOWING" ∧
    handlingCommands false false [] [] (fun k => if k = 0 then .following else .searching) = b!"HTTP/1.1 200 SEARCHING" ∧
    handlingCommands false false [] [] (fun k => if k = 0 then .subscribing else .following) = b!"HTTP/1.1 500 FOLLOWING" := by
  decide +kernel

/-- The requests as they are documented. -/
def line : Which → Bytes
  | .follower => b!"get /status/isfollower http/1.1"
  | .handling => b!"get /status/handlingcommands http/1.1"
  | .ping => b!"ping"
  | .status => b!"status"

/-- **C119** A request is one of the four, in any case, or none of them. -/
theorem c119_which (m : Bytes) (h0 : 0 ∉ m) (w : Which) : which m = some w ↔ sToLower m = line w := by
  have hl : ∀ l l' : Bytes, sToLower (cstr l) = l' → (sIEquals m l = true ↔ sToLower m = l') := by
    intro l l' h
    unfold sIEquals
    rw [cstr_eq h0, beq_iff_eq, h]
  have h1 := hl (b!"GET /status/isFollower HTTP/1.1") (line .follower) (by decide +kernel)
  have h2 := hl (b!"GET /status/handlingCommands HTTP/1.1") (line .handling) (by decide +kernel)
  have h3 := hl (b!"Ping") (line .ping) (by decide +kernel)
  have h4 := hl (b!"Status") (line .status) (by decide +kernel)
  have hne : ∀ a b : Which, line a = line b → a = b := by
    intro a b; cases a <;> cases b <;> decide +kernel
  unfold which
  split
  · rename_i h
    rw [h1] at h
    rw [h]
    exact ⟨fun e => by injection e with e; rw [e], fun e => by rw [hne _ _ e]⟩
  rename_i n1
  rw [h1] at n1
  split
  · rename_i h
    rw [h2] at h
    rw [h]
    exact ⟨fun e => by injection e with e; rw [e], fun e => by rw [hne _ _ e]⟩
  rename_i n2
  rw [h2] at n2
  split
  · rename_i h
    rw [h3] at h
    rw [h]
    exact ⟨fun e => by injection e with e; rw [e], fun e => by rw [hne _ _ e]⟩
  rename_i n3
  rw [h3] at n3
  split
  · rename_i h
    rw [h4] at h
    rw [h]
    exact ⟨fun e => by injection e with e; rw [e], fun e => by rw [hne _ _ e]⟩
  rename_i n4
  rw [h4] at n4
  refine ⟨(fun e => by cases e), fun e => ?_⟩
  cases w with
  | follower => exact absurd e n1
  | handling => exact absurd e n2
  | ping => exact absurd e n3
  | status => exact absurd e n4

/-- **C119** A server without a node does not take commands, and says so. -/
theorem c119_no_node (version : Bytes) (read : Nat → Option NState) (hn : ∀ k, read k = none) :
    isFollower (fun k => serverState (read k)) = b!"HTTP/1.1 500 Not Following. State=SEARCHING" ∧
    handlingCommands false false version [] (fun k => serverState (read k)) = b!"HTTP/1.1 500 SEARCHING" := by
  have : (fun k => serverState (read k)) = fun _ => .searching := by funext k; rw [hn k]; rfl
  rw [this]
  exact ⟨by decide +kernel, by unfold handlingCommands; rfl⟩

/-! ## The monitor -/

theorem kept_head {c : UInt8} {v : Bytes} {force : Bool} (h0 : 0 ∉ c :: v)
    (hc : toLower c ≠ 116 ∧ toLower c ≠ 102 ∧ toLower c ≠ 110) (hb : c ≠ 91 ∧ c ≠ 123) : Kept force (c :: v) := by
  refine kept_plain h0 ?_ (.inr ?_)
  · intro w hw he
    exfalso
    have hh : w.head? = some (toLower c) := by rw [← he]; rfl
    simp only [List.mem_cons, List.not_mem_nil, or_false] at hw
    rcases hw with rfl | rfl | rfl
    · exact hc.1 (by have : (str "true").head? = some 116 := by decide +kernel
                     rw [this] at hh; injection hh with hh; exact hh.symm)
    · exact hc.2.1 (by have : (str "false").head? = some 102 := by decide +kernel
                       rw [this] at hh; injection hh with hh; exact hh.symm)
    · exact hc.2.2 (by have : (str "null").head? = some 110 := by decide +kernel
                       rw [this] at hh; injection hh with hh; exact hh.symm)
  · rintro ⟨_, h | h⟩
    · exact hb.1 (by have := h.1; simpa using this)
    · exact hb.2 (by have := h.1; simpa using this)

theorem kept_natDec (force : Bool) (n : Nat) : Kept force (natDec n) := by
  have hd := natDec_digits n
  have hz : (0 : UInt8) ∉ natDec n := by
    intro h
    obtain ⟨d, hd, he⟩ := hd 0 h
    have : ∀ d : Fin 10, (0 : UInt8) ≠ UInt8.ofNat (48 + d.1) := by decide +kernel
    exact this ⟨d, hd⟩ he
  cases hn : natDec n with
  | nil => exact absurd hn (natDec_ne_nil n)
  | cons c v =>
    rw [hn] at hd hz
    obtain ⟨d, hd', rfl⟩ := hd c List.mem_cons_self
    have : ∀ d : Fin 10, (toLower (UInt8.ofNat (48 + d.1)) ≠ 116 ∧ toLower (UInt8.ofNat (48 + d.1)) ≠ 102 ∧
        toLower (UInt8.ofNat (48 + d.1)) ≠ 110) ∧ UInt8.ofNat (48 + d.1) ≠ 91 ∧ UInt8.ofNat (48 + d.1) ≠ 123 := by
      decide +kernel
    obtain ⟨a, b⟩ := this ⟨d, hd'⟩
    exact kept_head hz a b

theorem kept_intDec (force : Bool) (i : Int) : Kept force (intDec i) := by
  have h := (kept_natDec force i.natAbs).nul
  unfold intDec
  split
  · refine kept_head ?_ (by decide) (by decide)
    rintro (_ | ⟨_, h'⟩)
    exact h h'
  · exact kept_natDec force _

theorem kept_flag (force : Bool) (b : Bool) : Kept force (flag b) := by
  cases b
  · refine kept_plain (by decide) ?_ (.inr ?_)
    · unfold flag; decide +kernel
    · unfold Bracketed flag; decide +kernel
  · refine kept_plain (by decide) ?_ (.inr ?_)
    · unfold flag; decide +kernel
    · unfold Bracketed flag; decide +kernel

theorem kept_state (force : Bool) (s : NState) : Kept force (stateName s) := by
  have h : 0 ∉ stateName s ∧ (∀ w ∈ [str "true", str "false", str "null"], sToLower (stateName s) = w → stateName s = w) ∧
      ¬ Bracketed (stateName s) := by
    unfold Bracketed
    cases s <;> decide +kernel
  exact kept_plain h.1 h.2.1 (.inr h.2.2)

/-- A table whose entries survive. -/
def GoodTable (t : Table) : Prop := t.Sorted ∧ ∀ e ∈ t, PlainName e.1 ∧ Kept false e.2

theorem objs_ok (isFloat : Bytes → Bool) (hF : ∀ v, isFloat v = true → Number v) : ∀ ts : List Table,
    (∀ t ∈ ts, GoodTable t) → ∃ xs, ts.mapM (composeObject isFloat false) = some xs ∧ (∀ x ∈ xs, Kept false x) ∧
      xs.map (parseObject (str "null")) = ts.map .ok
  | [], _ => ⟨[], rfl, by simp, rfl⟩
  | t :: ts, h => by
    obtain ⟨x, h1, h2, h3, h4⟩ := c30_object_partial isFloat hF false t (h t (by simp)).1 (h t (by simp)).2
    obtain ⟨xs, i1, i2, i3⟩ := objs_ok isFloat hF ts (fun t ht => h t (by simp [ht]))
    refine ⟨x :: xs, by rw [List.mapM_cons, h1, i1]; rfl, ?_, ?_⟩
    · intro y hy
      rcases List.mem_cons.mp hy with rfl | hy
      · exact c30_nested _ h4 (.inr ⟨_, h2⟩)
      · exact i2 y hy
    · simp only [List.map_cons, h3, i3]

theorem objects_ok (isFloat : Bytes → Bool) (hF : ∀ v, isFloat v = true → Number v) (ts : List Table)
    (h : ∀ t ∈ ts, GoodTable t) : ∃ x xs, objects isFloat ts = some x ∧ Kept false x ∧
      parseArray (str "null") x = .ok xs ∧ xs.map (parseObject (str "null")) = ts.map .ok := by
  obtain ⟨xs, h1, h2, h3⟩ := objs_ok isFloat hF ts h
  obtain ⟨x, i1, i2, i3, i4⟩ := c30_array_partial isFloat hF xs h2
  exact ⟨x, xs, by unfold objects; rw [h1]; exact i1, c30_nested x i4 (.inl ⟨_, i2⟩), i3, h3⟩

theorem array_ok (isFloat : Bytes → Bool) (hF : ∀ v, isFloat v = true → Number v) (l : List Bytes)
    (h : ∀ v ∈ l, Kept false v) : ∃ x, composeArray isFloat l = some x ∧ Kept false x ∧
      parseArray (str "null") x = .ok l := by
  obtain ⟨x, i1, i2, i3, i4⟩ := c30_array_partial isFloat hF l h
  exact ⟨x, i1, c30_nested x i4 (.inl ⟨_, i2⟩), i3⟩

/-- The text of one reported crash is read as the command and the values it crashed with. -/
def CrashRead (x : Bytes) (e : Bytes × List Table) : Prop :=
  ∃ a ps, parseObject (str "null") x = .ok [(e.1, a)] ∧ parseArray (str "null") a = .ok ps ∧
    ps.map (parseObject (str "null")) = (e.2.filter (fun t => !t.isEmpty)).map .ok

theorem crash_ok (isFloat : Bytes → Bool) (hF : ∀ v, isFloat v = true → Number v) (e : Bytes × List Table)
    (hn : PlainName e.1) (h : ∀ t ∈ e.2, GoodTable t) :
    ∃ x, crashEntry isFloat e = some x ∧ Kept false x ∧ CrashRead x e := by
  obtain ⟨ps, h1, h2, h3⟩ := objs_ok isFloat hF (e.2.filter (fun t => !t.isEmpty))
    (fun t ht => h t (List.mem_filter.mp ht).1)
  obtain ⟨a, i1, i2, i3⟩ := array_ok isFloat hF ps h2
  obtain ⟨x, j1, j2, j3, j4⟩ := c30_object_partial isFloat hF false [(e.1, a)] (by unfold Table.Sorted; simp) (by
    intro y hy
    rw [List.mem_singleton] at hy
    rw [hy]
    exact ⟨hn, i2⟩)
  refine ⟨x, ?_, c30_nested x j4 (.inr ⟨_, j2⟩), a, ps, j3, i3, h3⟩
  unfold crashEntry
  rw [h1]
  show (composeArray isFloat ps).bind _ = _
  rw [i1]
  exact j1

/-- The lists are read alike, one by one. -/
inductive AllRead : List Bytes → List (Bytes × List Table) → Prop
  | nil : AllRead [] []
  | cons {x e xs es} : CrashRead x e → AllRead xs es → AllRead (x :: xs) (e :: es)

theorem crashes_ok (isFloat : Bytes → Bool) (hF : ∀ v, isFloat v = true → Number v) :
    ∀ es : List (Bytes × List Table), (∀ e ∈ es, PlainName e.1 ∧ ∀ t ∈ e.2, GoodTable t) →
      ∃ xs, es.mapM (crashEntry isFloat) = some xs ∧ (∀ x ∈ xs, Kept false x) ∧ AllRead xs es
  | [], _ => ⟨[], rfl, by simp, .nil⟩
  | e :: es, h => by
    obtain ⟨x, h1, h2, h3⟩ := crash_ok isFloat hF e (h e (by simp)).1 (h e (by simp)).2
    obtain ⟨xs, i1, i2, i3⟩ := crashes_ok isFloat hF es (fun e he => h e (by simp [he]))
    refine ⟨x :: xs, by rw [List.mapM_cons, h1, i1]; rfl, ?_, .cons h3 i3⟩
    intro y hy
    rcases List.mem_cons.mp hy with rfl | hy
    · exact h2
    · exact i2 y hy

theorem fold_good : ∀ (fs : List (Bytes × Bytes)) (t : Table), GoodTable t →
    (∀ e ∈ fs, PlainName e.1 ∧ Kept false e.2) → GoodTable (fs.foldl (fun t e => t.set e.1 e.2) t)
  | [], _, h, _ => h
  | e :: fs, t, h, hf => by
    refine fold_good fs _ ⟨Table.set_sorted _ _ h.1, ?_⟩ (fun x hx => hf x (by simp [hx]))
    intro x hx
    rcases Https.Props.mem_set_name hx with hx | ⟨hv, hn | ⟨w, hw, _⟩⟩
    · exact h.2 x hx
    · rw [hv, hn]; exact hf e (by simp)
    · exact ⟨(h.2 _ hw).1, by rw [hv]; exact (hf e (by simp)).2⟩

theorem fold_find : ∀ (fs : List (Bytes × Bytes)) (t : Table), t.Sorted →
    (fs.map (fun e => sToLower e.1)).Nodup → ∀ n w, (n, w) ∈ fs → (fs.foldl (fun t e => t.set e.1 e.2) t).find n = some w := by
  have keep : ∀ (fs : List (Bytes × Bytes)) (t : Table) n w, t.Sorted → (∀ e ∈ fs, sToLower n ≠ sToLower e.1) →
      t.find n = some w → (fs.foldl (fun t e => t.set e.1 e.2) t).find n = some w := by
    intro fs
    induction fs with
    | nil => intro t n w _ _ h; exact h
    | cons e fs ih =>
      intro t n w hs hne h
      refine ih _ n w (Table.set_sorted _ _ hs) (fun x hx => hne x (by simp [hx])) ?_
      rw [Table.find_set _ _ _ _ hs, if_neg (hne e (by simp))]
      exact h
  intro fs
  induction fs with
  | nil => intro t _ _ n w h; cases h
  | cons e fs ih =>
    intro t hs hnd n w hm
    rw [List.map_cons, List.nodup_cons] at hnd
    rcases List.mem_cons.mp hm with rfl | hm
    · refine keep fs _ n w (Table.set_sorted _ _ hs) ?_ ?_
      · intro x hx he
        exact hnd.1 (by rw [he]; exact List.mem_map.mpr ⟨x, hx, rfl⟩)
      · rw [Table.find_set _ _ _ _ hs, if_pos rfl]
    · exact ih _ (Table.set_sorted _ _ hs) hnd.2 n w hm

/-- What comes from outside and is written into the answer survives being written. -/
structure Clean (v : View) : Prop where
  version : Kept false v.version
  host : Kept false v.host
  identifiers : Kept false (composeList v.blockedIdentifiers (b!", "))
  commands : Kept false (composeList v.blockedCommands (b!", "))
  plugins : ∀ t ∈ v.plugins, GoodTable t
  crash : ∀ e ∈ v.crash, PlainName e.1 ∧ ∀ t ∈ e.2, GoodTable t
  reasons : ∀ r ∈ v.reasons, Kept false r
  peers : ∀ t ∈ v.peers, GoodTable t
  queued : ∀ m ∈ v.queued, Kept false m

theorem plain_good (v : View) (h : Clean v) : ∀ e ∈ plainFields v, PlainName e.1 ∧ Kept false e.2 := by
  intro e he
  unfold plainFields at he
  simp only [List.mem_append, List.mem_cons, List.not_mem_nil, or_false] at he
  rcases he with ((he | he) | he) | he
  · rcases he with rfl | rfl | rfl | rfl | rfl | rfl | rfl | rfl | rfl | rfl | rfl | rfl | rfl | rfl | rfl
    all_goals refine ⟨by unfold PlainName; dsimp only; decide, ?_⟩
    · exact kept_flag _ _
    · exact kept_state _ _
    · exact h.version
    · exact h.host
    · exact kept_natDec _ _
    · exact kept_flag _ _
    · exact kept_natDec _ _
    · exact kept_natDec _ _
    · exact kept_natDec _ _
    · exact kept_natDec _ _
    · exact kept_natDec _ _
    · exact kept_natDec _ _
    · exact h.identifiers
    · exact kept_natDec _ _
    · exact h.commands
  · cases hn : v.node with
    | none =>
      rw [hn] at he
      simp only [List.mem_singleton] at he
      subst he
      exact ⟨by unfold PlainName; dsimp only; decide, kept_flag false false⟩
    | some x =>
      obtain ⟨c, p, f⟩ := x
      rw [hn] at he
      simp only [List.mem_cons, List.not_mem_nil, or_false] at he
      rcases he with rfl | rfl | rfl | rfl
      all_goals refine ⟨by unfold PlainName; dsimp only; decide, ?_⟩
      · exact kept_flag false true
      · exact kept_natDec _ _
      · exact kept_intDec _ _
      · exact kept_natDec _ _
  · cases hn : v.freelist with
    | none => rw [hn] at he; cases he
    | some x =>
      rw [hn] at he
      simp only [List.mem_singleton] at he
      subst he
      exact ⟨by unfold PlainName; dsimp only; decide, kept_natDec _ _⟩
  · cases hn : v.pages with
    | none => rw [hn] at he; cases he
    | some x =>
      rw [hn] at he
      simp only [List.mem_singleton] at he
      subst he
      exact ⟨by unfold PlainName; dsimp only; decide, kept_natDec _ _⟩

theorem names_nodup (v : View) (a b c d e : Bytes) :
    ((plainFields v ++ [(b!"plugins", a), (b!"crashCommandList", b), (b!"commandPortBlockReasons", c),
      (b!"peerList", d), (b!"queuedCommandList", e)]).map (fun e => sToLower e.1)).Nodup := by
  unfold plainFields
  cases v.node with
  | none =>
    cases v.freelist <;> cases v.pages <;> simp only [List.map_append, List.map_cons, List.map_nil] <;> decide +kernel
  | some x =>
    cases v.freelist <;> cases v.pages <;> simp only [List.map_append, List.map_cons, List.map_nil] <;> decide +kernel

/-- **C119** (partial: see `c119_unreadable`.)  If what comes from outside is text that JSON keeps, the
answer to `Status` can be read back, and says what the server saw: every text and number under its name,
the queued commands, the reasons, the data of each peer and plugin, and what commands crashed. -/
theorem c119_status_partial (isFloat : Bytes → Bool) (hF : ∀ v, isFloat v = true → Number v) (v : View) (h : Clean v) :
    ∃ x t, status isFloat v = some x ∧ parseObject (str "null") x = .ok t ∧
      (∀ n w, (n, w) ∈ plainFields v → t.find n = some w) ∧
      (∃ q, t.find (b!"queuedCommandList") = some q ∧ parseArray (str "null") q = .ok v.queued) ∧
      (∃ q, t.find (b!"commandPortBlockReasons") = some q ∧ parseArray (str "null") q = .ok v.reasons) ∧
      (∃ q xs, t.find (b!"peerList") = some q ∧ parseArray (str "null") q = .ok xs ∧
        xs.map (parseObject (str "null")) = v.peers.map .ok) ∧
      (∃ q xs, t.find (b!"plugins") = some q ∧ parseArray (str "null") q = .ok xs ∧
        xs.map (parseObject (str "null")) = v.plugins.map .ok) ∧
      (∃ q xs, t.find (b!"crashCommandList") = some q ∧ parseArray (str "null") q = .ok xs ∧ AllRead xs v.crash) := by
  obtain ⟨pl, pls, p1, p2, p3, p4⟩ := objects_ok isFloat hF v.plugins h.plugins
  obtain ⟨cs, c1, c2, c3⟩ := crashes_ok isFloat hF v.crash h.crash
  obtain ⟨cl, l1, l2, l3⟩ := array_ok isFloat hF cs c2
  obtain ⟨rs, r1, r2, r3⟩ := array_ok isFloat hF v.reasons h.reasons
  obtain ⟨ps, pss, s1, s2, s3, s4⟩ := objects_ok isFloat hF v.peers h.peers
  obtain ⟨qs, q1, q2, q3⟩ := array_ok isFloat hF v.queued h.queued
  let js : List (Bytes × Bytes) := [(b!"plugins", pl), (b!"crashCommandList", cl), (b!"commandPortBlockReasons", rs),
    (b!"peerList", ps), (b!"queuedCommandList", qs)]
  have hj : jsonFields isFloat v = some js := by
    unfold jsonFields
    rw [p1, c1, r1, s1, q1]
    show (composeArray isFloat cs).bind _ = _
    rw [l1]
    rfl
  have hc : content isFloat v = some ((plainFields v ++ js).foldl (fun (t : Table) e => t.set e.1 e.2) []) := by
    unfold content
    rw [hj]
    rfl
  have hg : GoodTable ((plainFields v ++ js).foldl (fun (t : Table) e => t.set e.1 e.2) []) := by
    refine fold_good _ _ ⟨by unfold Table.Sorted; simp, by simp⟩ ?_
    intro e he
    rcases List.mem_append.mp he with he | he
    · exact plain_good v h e he
    · simp only [js, List.mem_cons, List.not_mem_nil, or_false] at he
      rcases he with rfl | rfl | rfl | rfl | rfl
      · exact ⟨by unfold PlainName; dsimp only; decide, p2⟩
      · exact ⟨by unfold PlainName; dsimp only; decide, l2⟩
      · exact ⟨by unfold PlainName; dsimp only; decide, r2⟩
      · exact ⟨by unfold PlainName; dsimp only; decide, s2⟩
      · exact ⟨by unfold PlainName; dsimp only; decide, q2⟩
  obtain ⟨x, x1, _, x3, _⟩ := c30_object_partial isFloat hF false _ hg.1 hg.2
  have hfind := fold_find (plainFields v ++ js) [] (by unfold Table.Sorted; simp) (names_nodup v pl cl rs ps qs)
  have hjf : ∀ n w, (n, w) ∈ js → _ := fun n w hm => hfind n w (List.mem_append.mpr (.inr hm))
  refine ⟨x, _, ?_, x3, fun n w hm => hfind n w (List.mem_append.mpr (.inl hm)), ⟨qs, hjf _ _ (by simp [js]), q3⟩,
    ⟨rs, hjf _ _ (by simp [js]), r3⟩, ⟨ps, pss, hjf _ _ (by simp [js]), s3, s4⟩,
    ⟨pl, pls, hjf _ _ (by simp [js]), p3, p4⟩, ⟨cl, cs, hjf _ _ (by simp [js]), l3, c3⟩⟩
  unfold status
  rw [hc]
  exact x1

/-! ### A command that hides the status -/

/-- `toJSON` without numbers. -/
def toJSON0 (v : Bytes) : Option Bytes :=
  if v = [48] then some v
  else if sIEquals v (str "true") then some (str "true")
  else if sIEquals v (str "false") then some (str "false")
  else if sIEquals v (str "null") then some (str "null")
  else if decide (2 ≤ v.length) &&
      ((v.head? == some 91 && v.getLast? == some 93) || (v.head? == some 123 && v.getLast? == some 125)) then
    match value (str "null") (fuel v) v with
    | .ok [] _ => some v
    | .abort => none
    | _ => some (quoted v)
  else some (quoted v)

theorem natDec_zero : natDec 0 = [48] := natDec_lt (by decide)

theorem toJSON0_eq (v : Bytes) (h : strtoll (cstr v) = 0) : toJSON (fun _ => false) false v = toJSON0 v := by
  unfold toJSON toJSON0
  by_cases hv : v = [48]
  · rw [if_pos hv, if_pos]
    rw [h, hv]
    unfold intDec
    rw [if_neg (by decide), Int.natAbs_zero, natDec_zero]
  · rw [if_neg (not_int h hv), if_neg hv, if_neg (show ¬ false = true by decide), Bool.not_false, Bool.true_and]
    rfl

theorem mapM_congr {α β : Type} {f g : α → Option β} : ∀ {l : List α}, (∀ a ∈ l, f a = g a) → l.mapM f = l.mapM g
  | [], _ => rfl
  | a :: l, h => by
    rw [List.mapM_cons, List.mapM_cons, h a (by simp), mapM_congr (fun b hb => h b (by simp [hb]))]

theorem object0_eq (t : Table) (h : ∀ e ∈ t, strtoll (cstr e.2) = 0) : composeObject (fun _ => false) false t =
    (t.mapM fun e => (toJSON0 e.2).map fun x => [34] ++ e.1 ++ [34, 58] ++ x).map fun xs => [123] ++ joined xs ++ [125] := by
  unfold composeObject
  rw [mapM_congr (g := fun e => (toJSON0 e.2).map fun x => [34] ++ e.1 ++ [34, 58] ++ x)]
  intro e he
  rw [toJSON0_eq e.2 (h e he)]

theorem array0_eq (l : List Bytes) (h : ∀ v ∈ l, strtoll (cstr v) = 0) : composeArray (fun _ => false) l =
    (l.mapM toJSON0).map fun xs => [91] ++ joined xs ++ [93] := by
  unfold composeArray
  rw [mapM_congr (g := toJSON0)]
  intro v hv
  rw [toJSON0_eq v (h v hv)]

/-- A leading node with one queued command. -/
def busy (m : Bytes) : View :=
  { leaderState := .leading, state := .leading, plugins := [], version := b!"v", host := b!"h", commandCount := 0,
    detached := false, crash := [], queued := [m] }

theorem busy_status (m : Bytes) (hm : strtoll (cstr m) = 0) (q : Bytes) (hq : toJSON0 m = some q)
    (t : Table)
    (ht : ([ (b!"isLeader", b!"true"), (b!"state", b!"LEADING"), (b!"version", b!"v"), (b!"host", b!"h"),
      (b!"commandCount", b!"0"), (b!"isDetached", b!"false"), (b!"crashCommands", b!"0"),
      (b!"blockingTimeWindowMS", b!"0"), (b!"blockingIdentifierThresholdMS", b!"0"),
      (b!"blockingCommandThresholdMS", b!"0"), (b!"blockingBlockDurationMS", b!"0"),
      (b!"blockingTrackedIdentifiers", b!"0"), (b!"blockingBlockedIdentifiers", []),
      (b!"blockingTrackedCommands", b!"0"), (b!"blockingBlockedCommands", []), (b!"syncNodeAvailable", b!"false"),
      (b!"plugins", b!"[]"), (b!"crashCommandList", b!"[]"), (b!"commandPortBlockReasons", b!"[]"),
      (b!"peerList", b!"[]"), (b!"queuedCommandList", [91] ++ q ++ [93]) ] : Table).foldl
      (fun (t : Table) e => t.set e.1 e.2) [] = t) (hz : ∀ e ∈ t, strtoll (cstr e.2) = 0) :
    status (fun _ => false) (busy m) =
      (t.mapM fun e => (toJSON0 e.2).map fun x => [34] ++ e.1 ++ [34, 58] ++ x).map fun xs => [123] ++ joined xs ++ [125] := by
  have hj : jsonFields (fun _ => false) (busy m) = some [(b!"plugins", b!"[]"), (b!"crashCommandList", b!"[]"),
      (b!"commandPortBlockReasons", b!"[]"), (b!"peerList", b!"[]"), (b!"queuedCommandList", [91] ++ q ++ [93])] := by
    have : composeArray (fun _ => false) [m] = some ([91] ++ q ++ [93]) := by
      rw [array0_eq [m] (by intro v hv; rw [List.mem_singleton.mp hv]; exact hm)]
      simp [hq, joined]
    unfold jsonFields busy
    dsimp only
    rw [this]
    rfl
  have hp : plainFields (busy m) = [ (b!"isLeader", b!"true"), (b!"state", b!"LEADING"), (b!"version", b!"v"),
      (b!"host", b!"h"), (b!"commandCount", b!"0"), (b!"isDetached", b!"false"), (b!"crashCommands", b!"0"),
      (b!"blockingTimeWindowMS", b!"0"), (b!"blockingIdentifierThresholdMS", b!"0"),
      (b!"blockingCommandThresholdMS", b!"0"), (b!"blockingBlockDurationMS", b!"0"),
      (b!"blockingTrackedIdentifiers", b!"0"), (b!"blockingBlockedIdentifiers", []),
      (b!"blockingTrackedCommands", b!"0"), (b!"blockingBlockedCommands", []),
      (b!"syncNodeAvailable", b!"false") ] := by
    unfold plainFields busy
    simp only [List.map_nil, List.sum_nil, natDec_zero]
    rfl
  have hc : content (fun _ => false) (busy m) = some t := by
    unfold content
    rw [hj, hp, ← ht]
    rfl
  unfold status
  rw [hc]
  show composeObject _ _ t = _
  exact object0_eq t hz

/-- C119, violation: a client that has sent a command with the method line `[[1]` makes the answer to
`Status` unreadable while the command waits: the line passes for JSON and is written without quotes. -/
theorem c119_unreadable : ∃ x, status (fun _ => false) (busy (b!"[[1]")) = some x ∧
    parseObject (str "null") x = .ok [] := by
  rw [busy_status (b!"[[1]") (by decide +kernel) (b!"[[1]") (by decide +kernel) _ rfl (by decide +kernel)]
  refine ⟨_, rfl, ?_⟩
  decide +kernel

/-- The same server with any other command can be read: non-vacuity of `c119_status_partial`. -/
example : ∃ x t, status (fun _ => false) (busy (b!"GetJob")) = some x ∧ parseObject (str "null") x = .ok t ∧
    t.find (b!"state") = some (b!"LEADING") ∧ t.find (b!"isLeader") = some (b!"true") := by
  have kept : ∀ v ∈ [b!"v", b!"h", b!"GetJob", []], Kept false v := by
    intro v hv
    have : 0 ∉ v ∧ (∀ w ∈ [str "true", str "false", str "null"], sToLower v = w → v = w) ∧ ¬ Bracketed v := by
      unfold Bracketed
      revert v
      decide +kernel
    exact kept_plain this.1 this.2.1 (.inr this.2.2)
  obtain ⟨x, t, h1, h2, h3, _⟩ := c119_status_partial (fun _ => false) (fun v h => nomatch h) (busy (b!"GetJob"))
    ⟨kept _ (by simp [busy]), kept _ (by simp [busy]), kept _ (by simp [busy, composeList]), kept _ (by simp [busy, composeList]),
      by simp [busy], by simp [busy], by simp [busy], by simp [busy],
      by intro m hm; exact kept m (by simp only [busy, List.mem_singleton] at hm; rw [hm]; simp)⟩
  exact ⟨x, t, h1, h2, h3 _ _ (by simp [plainFields, busy, stateName]), h3 _ _ (by simp [plainFields, busy, flag])⟩

/-- Non-vacuity: steady states. -/
example : isFollower (fun _ => .following) = b!"HTTP/1.1 200 Following" ∧
    handlingCommands false false (b!"1") (b!"1") (fun _ => .leading) = b!"HTTP/1.1 200 LEADING" ∧
    handlingCommands false false (b!"1") (b!"2") (fun _ => .leading) = b!"HTTP/1.1 500 Mismatched version. Version=1" ∧
    handlingCommands false true [] [] (fun _ => .leading) = b!"HTTP/1.1 503 Detached" ∧
    handlingCommands false false [] [] (fun _ => .subscribing) = b!"HTTP/1.1 500 SUBSCRIBING" ∧
    stateFromName (b!"Leading") = .leading ∧ stateFromName (b!"x") = .unknown ∧ serverState none = .searching := by
  decide +kernel

/-- C119, violation: two looks at the state make one answer that contradicts itself. -/
theorem c119_mixed (isFloat : Bytes → Bool) (hF : ∀ v, isFloat v = true → Number v) (v : View) (h : Clean v)
    (h1 : v.leaderState = .leading) (h2 : v.state = .standingDown) :
    ∃ x t, status isFloat v = some x ∧ parseObject (str "null") x = .ok t ∧
      t.find (b!"isLeader") = some (b!"true") ∧ t.find (b!"state") = some (b!"STANDINGDOWN") := by
  obtain ⟨x, t, e1, e2, e3, _⟩ := c119_status_partial isFloat hF v h
  exact ⟨x, t, e1, e2, e3 _ _ (by simp [plainFields, h1, flag]), e3 _ _ (by simp [plainFields, h2, stateName])⟩

end Bedrock.Status.Props
