import Verif.Model.Blacklist
import Verif.Props.Text
import Verif.Props.JobsHandout

/-!
# C107: a job that an operator has disabled is not handed out by any node
-/

namespace Bedrock.Blacklist.Props
open Bedrock Bedrock.Text Bedrock.Blacklist

theorem mem_insert {l : List Bytes} {x y : Bytes} : y ∈ insert l x ↔ y ∈ l ∨ y = x := by
  unfold insert
  split
  · rename_i h
    exact ⟨.inl, fun h' => h'.elim id fun e => e ▸ h⟩
  · rw [List.mem_append, List.mem_singleton]

theorem mem_inserts {xs l : List Bytes} {y : Bytes} : y ∈ xs.foldl insert l ↔ y ∈ l ∨ y ∈ xs := by
  induction xs generalizing l with
  | nil => exact ⟨.inl, fun h => h.elim id fun h => by cases h⟩
  | cons x xs ih =>
    rw [List.foldl_cons, ih, mem_insert, List.mem_cons, or_assoc]

theorem nodup_inserts {xs l : List Bytes} (h : l.Nodup) : (xs.foldl insert l).Nodup := by
  induction xs generalizing l with
  | nil => exact h
  | cons x xs ih =>
    refine ih ?_
    unfold insert
    split
    · exact h
    · rename_i hx
      exact List.nodup_append.mpr ⟨h, List.nodup_cons.mpr ⟨List.not_mem_nil, List.nodup_nil⟩,
        fun a ha b hb => by rw [List.mem_singleton] at hb; exact fun e => hx (hb ▸ e ▸ ha)⟩

theorem setAt_same (f : Nat → List Bytes) (i : Nat) (l : List Bytes) : setAt f i l i = l := if_pos rfl
theorem setAt_other (f : Nat → List Bytes) {i j : Nat} (l : List Bytes) (h : j ≠ i) : setAt f i l j = f j := if_neg h

/-- A text of names that survives being put in a list. -/
def Plain (e : Bytes) : Prop := e ≠ [] ∧ e.head? ≠ some 32 ∧ (44 : UInt8) ∉ e ∧ (0 : UInt8) ∉ e

theorem parsed_plain (s : Bytes) : ∀ e ∈ (parseList s 44).1, Plain e := by
  have ok := ListParse.foldl_ok 44 (cstr s) {} (zero_not_mem_cstr s) ⟨by simp, by simp, by simp, by simp⟩
  unfold parseList
  dsimp only
  intro e he
  split at he
  · exact ok.1 e he
  · rename_i hn
    rcases List.mem_append.mp he with he | he
    · exact ok.1 e he
    · rw [List.mem_singleton] at he
      subst he
      exact ⟨hn, ok.2⟩

/-- C107.  A client on the public port changes nothing, and is told so. -/
theorem c107_refused (n : Nat) (w : World) (i : Nat) (r : Req) (h : r.source ≠ []) :
    handle (w.at_ i) r = none ∧ receive n w i r = w := by
  have : handle (w.at_ i) r = none := if_pos h
  refine ⟨this, ?_⟩
  unfold receive
  rw [this]

/-- C107.  An operator's request disables the names at the node it is sent to, at once, and keeps those that were; and goes to every
other node, once. -/
theorem c107_request (n : Nat) (w : World) (i : Nat) (names : Bytes) :
    let w' := receive n w i { names }
    (∀ p, p ∈ w'.at_ i ↔ p ∈ w.at_ i ∨ p ∈ (parseList names 44).1) ∧ (∀ j, j ≠ i → w'.at_ j = w.at_ j) ∧
      ∃ sent, w'.net = w.net ++ sent ∧ sent.Nodup ∧ ∀ j m, (j, m) ∈ sent ↔ j < n ∧ j ≠ i ∧ m = { names, propagated := true } := by
  refine ⟨fun p => ?_, fun j hj => ?_, ((List.range n).filter (· ≠ i)).map fun p => (p, { names, propagated := true }), rfl, ?_, ?_⟩
  · show p ∈ setAt w.at_ i _ i ↔ _
    rw [setAt_same]
    exact mem_inserts
  · exact setAt_other _ _ hj
  · refine List.Pairwise.map _ ?_ (List.Pairwise.filter _ List.nodup_range)
    exact fun a b h e => h (Prod.mk.inj e).1
  · intro j m
    simp only [List.mem_map, List.mem_filter, List.mem_range, decide_eq_true_eq, Prod.mk.injEq]
    constructor
    · rintro ⟨p, ⟨h1, h2⟩, rfl, rfl⟩
      exact ⟨h1, h2, rfl⟩
    · rintro ⟨h1, h2, rfl⟩
      exact ⟨j, ⟨h1, h2⟩, rfl, rfl⟩

/-- C107.  What a node is told by another it does not pass on. -/
theorem c107_no_echo (n : Nat) (w : World) (i : Nat) (r : Req) (h : r.propagated = true) : (receive n w i r).net = w.net := by
  unfold receive handle
  rw [h]
  split
  · rfl
  · rfl
  · rename_i h'
    split at h'
    · cases h'
    · cases (Prod.mk.inj (Option.some.inj h')).2

/-- What is on its way was sent by a node. -/
theorem net_propagated (n : Nat) (w : World) (ops : List Op) (h : ∀ m ∈ w.net, m.2.propagated = true) :
    ∀ m ∈ (run n w ops).net, m.2.propagated = true := by
  induction ops generalizing w with
  | nil => exact h
  | cons o ops ih =>
    refine ih (step n w o) ?_
    have hr : ∀ (w : World) (i : Nat) (r : Req), (∀ m ∈ w.net, m.2.propagated = true) → ∀ m ∈ (receive n w i r).net, m.2.propagated = true := by
      intro w i r hw
      unfold receive handle
      split
      · exact hw
      · exact hw
      · rename_i h'
        split at h'
        · cases h'
        · intro m hm
          rcases List.mem_append.mp hm with hm | hm
          · exact hw m hm
          · obtain ⟨_, _, rfl⟩ := List.mem_map.mp hm
            have := (Prod.mk.inj (Option.some.inj h')).2
            split at this
            · cases this
            · rw [← Option.some.inj this]
    cases o with
    | request i r => exact hr w i r h
    | deliver m =>
      show ∀ m' ∈ (if m ∈ w.net then receive n { w with net := w.net.erase m } m.1 m.2 else w).net, _
      split
      · exact hr _ _ _ fun m' hm' => h m' (List.mem_of_mem_erase hm')
      · exact h
    | lose m => exact fun m' hm' => h m' (List.mem_of_mem_erase hm')
    | login i p =>
      show ∀ m' ∈ (match loginMsg (w.at_ i) with | none => w | some m => { w with net := w.net ++ [(p, m)] }).net, _
      split
      · exact h
      · rename_i m hm
        intro m' hm'
        rcases List.mem_append.mp hm' with hm' | hm'
        · exact h m' hm'
        · rw [List.mem_singleton] at hm'
          subst hm'
          unfold loginMsg at hm
          split at hm
          · cases hm
          · rw [← Option.some.inj hm]
    | restart i => exact h

/-- The new patterns of a node that handles a request. -/
theorem receive_at (n : Nat) (w : World) (i : Nat) (r : Req) (j : Nat) (p : Bytes) (hp : p ∈ (receive n w i r).at_ j) :
    p ∈ w.at_ j ∨ (j = i ∧ r.source = [] ∧ r.clear = false ∧ p ∈ (parseList r.names 44).1) := by
  unfold receive handle at hp
  by_cases hs : r.source ≠ []
  · rw [if_pos hs] at hp
    exact .inl hp
  · rw [if_neg hs] at hp
    have hs' : r.source = [] := Classical.not_not.mp hs
    have key : ∀ q, q ∈ setAt w.at_ i (if r.clear = true then [] else (parseList r.names 44).1.foldl insert (w.at_ i)) j →
        q ∈ w.at_ j ∨ (j = i ∧ r.source = [] ∧ r.clear = false ∧ q ∈ (parseList r.names 44).1) := by
      intro q hq
      by_cases hj : j = i
      · subst hj
        rw [setAt_same] at hq
        cases hc : r.clear with
        | true =>
          rw [hc, if_pos rfl] at hq
          cases hq
        | false =>
          rw [hc, if_neg (by decide)] at hq
          rcases mem_inserts.mp hq with h | h
          · exact .inl h
          · exact .inr ⟨rfl, hs', rfl, h⟩
      · rw [setAt_other _ _ hj] at hq
        exact .inl hq
    cases hpr : r.propagated with
    | true =>
      rw [hpr] at hp
      exact key p hp
    | false =>
      rw [hpr] at hp
      exact key p hp

/-- What a node that handles a request sends. -/
theorem receive_net (n : Nat) (w : World) (i : Nat) (r : Req) (m : Nat × Req) (hm : m ∈ (receive n w i r).net) :
    m ∈ w.net ∨ (m.1 < n ∧ m.1 ≠ i ∧ r.source = [] ∧ r.propagated = false ∧ m.2 = { r with propagated := true }) := by
  unfold receive handle at hm
  by_cases hs : r.source ≠ []
  · rw [if_pos hs] at hm
    exact .inl hm
  · rw [if_neg hs] at hm
    cases hpr : r.propagated with
    | true =>
      rw [hpr] at hm
      exact .inl hm
    | false =>
      rw [hpr] at hm
      rcases List.mem_append.mp hm with hm | hm
      · exact .inl hm
      · obtain ⟨q, hq, rfl⟩ := List.mem_map.mp hm
        rw [List.mem_filter, List.mem_range] at hq
        exact .inr ⟨hq.1, of_decide_eq_true hq.2, Classical.not_not.mp hs, rfl, rfl⟩

/-- A name an operator disabled: in a request from no client that arrived at some node. -/
def Named (ops : List Op) (p : Bytes) : Prop :=
  ∃ i r, Op.request i r ∈ ops ∧ r.source = [] ∧ r.clear = false ∧ p ∈ (parseList r.names 44).1

theorem Named.mono {ops ops' : List Op} (h : ∀ o ∈ ops, o ∈ ops') {p : Bytes} : Named ops p → Named ops' p
  | ⟨i, r, h1, h2⟩ => ⟨i, r, h _ h1, h2⟩

/-- What holds of nodes and messages after `ops`. -/
structure Inv (ops : List Op) (w : World) : Prop where
  node : ∀ i, ∀ p ∈ w.at_ i, Plain p ∧ Named ops p
  msg : ∀ m ∈ w.net, m.2.propagated = true ∧ m.2.source = [] ∧ (m.2.clear = false → ∀ p ∈ (parseList m.2.names 44).1, Named ops p)

theorem login_parse {l : List Bytes} (h : ∀ p ∈ l, Plain p) : (parseList (composeList l [44, 32]) 44).1 = l :=
  Bedrock.Text.Props.c29_round_trip l 44 1 (by decide) h

theorem receive_inv {n : Nat} {ops : List Op} {w : World} (h : Inv ops w) (i : Nat) (r : Req)
    (hr : r.source = [] → r.clear = false → ∀ p ∈ (parseList r.names 44).1, Named ops p) : Inv ops (receive n w i r) := by
  constructor
  · intro j p hp
    rcases receive_at n w i r j p hp with h1 | ⟨_, h2, h3, h4⟩
    · exact h.node j p h1
    · exact ⟨parsed_plain _ p h4, hr h2 h3 p h4⟩
  · intro m hm
    rcases receive_net n w i r m hm with h1 | ⟨_, _, h2, _, h4⟩
    · exact h.msg m h1
    · rw [h4]
      exact ⟨rfl, h2, hr h2⟩

theorem step_inv {n : Nat} {ops : List Op} {w : World} (h : Inv ops w) (o : Op) : Inv (ops ++ [o]) (step n w o) := by
  have h' : Inv (ops ++ [o]) w :=
    ⟨fun i p hp => ⟨(h.node i p hp).1, (h.node i p hp).2.mono fun x hx => List.mem_append_left _ hx⟩,
      fun m hm => ⟨(h.msg m hm).1, (h.msg m hm).2.1, fun hc p hp => ((h.msg m hm).2.2 hc p hp).mono fun x hx => List.mem_append_left _ hx⟩⟩
  cases o with
  | request i r =>
    exact receive_inv h' i r fun h1 h2 p hp => ⟨i, r, List.mem_append_right _ List.mem_cons_self, h1, h2, hp⟩
  | deliver m =>
    show Inv _ (if m ∈ w.net then receive n { w with net := w.net.erase m } m.1 m.2 else w)
    split
    · rename_i hm
      exact receive_inv (w := { w with net := w.net.erase m }) ⟨h'.node, fun m' hm' => h'.msg m' (List.mem_of_mem_erase hm')⟩ _ _ fun _ => (h'.msg m hm).2.2
    · exact h'
  | lose m => exact ⟨h'.node, fun m' hm' => h'.msg m' (List.mem_of_mem_erase hm')⟩
  | login i p =>
    show Inv _ (match loginMsg (w.at_ i) with | none => w | some m => { w with net := w.net ++ [(p, m)] })
    split
    · exact h'
    · rename_i m hm
      refine ⟨h'.node, fun m' hm' => ?_⟩
      rcases List.mem_append.mp hm' with hm' | hm'
      · exact h'.msg m' hm'
      · rw [List.mem_singleton] at hm'
        subst hm'
        unfold loginMsg at hm
        split at hm
        · cases hm
        · rw [← Option.some.inj hm]
          refine ⟨rfl, rfl, fun _ q hq => ?_⟩
          dsimp only at hq
          rw [login_parse fun p hp => (h'.node i p hp).1] at hq
          exact (h'.node i q hq).2
  | restart i =>
    refine ⟨fun j p hp => ?_, h'.msg⟩
    by_cases hj : j = i
    · subst hj
      rw [show (step n w (.restart j)).at_ j = [] from setAt_same _ _ _] at hp
      cases hp
    · rw [show (step n w (.restart i)).at_ j = w.at_ j from setAt_other _ _ hj] at hp
      exact h'.node j p hp

theorem run_inv (n : Nat) (ops : List Op) : Inv ops (run n {} ops) := by
  have : ∀ (rest done : List Op) (w : World), Inv done w → Inv (done ++ rest) (run n w rest) := by
    intro rest
    induction rest with
    | nil => intro done w h; rw [List.append_nil]; exact h
    | cons o rest ih =>
      intro done w h
      have := ih (done ++ [o]) (step n w o) (step_inv h o)
      rw [List.append_assoc] at this
      exact this
  have := this ops [] {} ⟨fun _ _ h => (by cases h), fun _ h => (by cases h)⟩
  exact this

/-- C107.  Only what an operator named in a request that did not come from a client is ever disabled, on any node: whatever
requests, messages, losses, logins and restarts there were. -/
theorem c107_only_named (n : Nat) (ops : List Op) (i : Nat) (p : Bytes) (hp : p ∈ (run n {} ops).at_ i) : Named ops p :=
  ((run_inv n ops).node i p hp).2

/-- C107.  Nodes do not answer messages with messages: only requests and logins send any, so every history of deliveries and losses
alone ends with no message left. -/
theorem c107_no_loop (n : Nat) (ops : List Op) (m : Nat × Req) (hm : m ∈ (run n {} ops).net) :
    (step n (run n {} ops) (.deliver m)).net = (run n {} ops).net.erase m ∧
      (step n (run n {} ops) (.deliver m)).net.length + 1 = (run n {} ops).net.length := by
  have e : (step n (run n {} ops) (.deliver m)).net = (run n {} ops).net.erase m := by
    show (if m ∈ (run n {} ops).net then _ else _ : World).net = _
    rw [if_pos hm]
    exact c107_no_echo n _ _ _ ((run_inv n ops).msg m hm).1
  refine ⟨e, ?_⟩
  rw [e, List.length_erase_of_mem hm]
  have := List.length_pos_of_mem hm
  omega

/-- An operation that does not enable jobs again at node `i`. -/
def Keeps (i : Nat) : Op → Prop
  | .request j r => j = i → r.clear = false ∨ r.source ≠ []
  | .deliver m => m.1 = i → m.2.clear = false
  | .restart j => j ≠ i
  | _ => True

theorem receive_keeps (n : Nat) (w : World) (j : Nat) (r : Req) (i : Nat) (h : j = i → r.clear = false ∨ r.source ≠ []) (p : Bytes)
    (hp : p ∈ w.at_ i) : p ∈ (receive n w j r).at_ i := by
  unfold receive handle
  by_cases hs : r.source ≠ []
  · rw [if_pos hs]
    exact hp
  · rw [if_neg hs]
    have key : p ∈ setAt w.at_ j (if r.clear = true then [] else (parseList r.names 44).1.foldl insert (w.at_ j)) i := by
      by_cases hj : i = j
      · subst hj
        rw [setAt_same]
        rw [(h rfl).resolve_right hs, if_neg (by decide)]
        exact mem_inserts.mpr (.inl hp)
      · rw [setAt_other _ _ hj]
        exact hp
    cases r.propagated <;> exact key

/-- C107.  A name stays disabled at a node as long as the node is neither restarted nor told to enable all again. -/
theorem c107_kept (n : Nat) (w : World) (ops : List Op) (i : Nat) (h : ∀ o ∈ ops, Keeps i o) (p : Bytes) (hp : p ∈ w.at_ i) :
    p ∈ (run n w ops).at_ i := by
  induction ops generalizing w with
  | nil => exact hp
  | cons o ops ih =>
    refine ih (step n w o) (fun o' ho' => h o' (List.mem_cons_of_mem _ ho')) ?_
    have ho := h o List.mem_cons_self
    cases o with
    | request j r => exact receive_keeps n w j r i ho p hp
    | deliver m =>
      show p ∈ (if m ∈ w.net then receive n { w with net := w.net.erase m } m.1 m.2 else w).at_ i
      split
      · exact receive_keeps n _ m.1 m.2 i (fun e => .inl (ho e)) p hp
      · exact hp
    | lose m => exact hp
    | login j q =>
      show p ∈ (match loginMsg (w.at_ j) with | none => w | some m => { w with net := w.net ++ [(q, m)] }).at_ i
      split <;> exact hp
    | restart j =>
      rw [show (step n w (.restart j)).at_ i = w.at_ i from setAt_other _ _ (Ne.symm ho)]
      exact hp

/-- C107.  Once the message of an operator's request arrives at a node, the names are disabled there. -/
theorem c107_arrives (n : Nat) (w : World) (j : Nat) (names : Bytes) (hm : (j, ({ names, propagated := true } : Req)) ∈ w.net) (p : Bytes)
    (hp : p ∈ (parseList names 44).1) : p ∈ (step n w (.deliver (j, { names, propagated := true }))).at_ j := by
  show p ∈ (if _ ∈ w.net then receive n _ j _ else w : World).at_ j
  rw [if_pos hm]
  show p ∈ setAt w.at_ j _ j
  rw [setAt_same]
  exact mem_inserts.mpr (.inr hp)

/-- C107.  A node that logs in is told everything that is disabled at the node it logs in to, whatever happened before: once that
message arrives, it is disabled there too, in addition to what was. -/
theorem c107_login (n : Nat) (ops : List Op) (i p : Nat) :
    let w := run n {} ops
    w.at_ i ≠ [] → ∃ m, step n w (.login i p) = { w with net := w.net ++ [(p, m)] } ∧
      ∀ (w' : World), (p, m) ∈ w'.net → ∀ q, q ∈ (step n w' (.deliver (p, m))).at_ p ↔ q ∈ w'.at_ p ∨ q ∈ w.at_ i := by
  dsimp only
  intro hne
  refine ⟨{ names := composeList ((run n {} ops).at_ i) [44, 32], propagated := true }, ?_, fun w' hm q => ?_⟩
  · show (match loginMsg _ with | none => _ | some m => _) = _
    unfold loginMsg
    rw [if_neg hne]
  · show q ∈ (if _ ∈ w'.net then receive n _ p _ else w' : World).at_ p ↔ _
    rw [if_pos hm]
    show q ∈ setAt w'.at_ p _ p ↔ _
    rw [setAt_same]
    dsimp only
    rw [if_neg (by decide), mem_inserts, login_parse fun x hx => ((run_inv n ops).node i x hx).1]

/-- C107.  Jobs whose name has a disabled pattern are not handed out; those that would have been are failed. -/
theorem c107_not_handed_out (glob : Bytes → Bytes → Bool) (l : List Bytes) {env : Jobs.Env} {now : Int} {pat : Bytes → Bool} {mock : Bool}
    {prio : Option Int} {num : Int} {db db' : Jobs.Table} {out : List Jobs.Job}
    (h : Jobs.get env now pat (disabled glob l) mock prio num db = .ok (db', out)) :
    (∀ j ∈ out, ∀ p ∈ l, glob p j.name = false) ∧
      ∀ j ∈ Jobs.select now pat mock prio (max num 1).toNat db, j ∈ db → (∃ p ∈ l, glob p j.name = true) → { j with state := .failed } ∈ db' := by
  constructor
  · intro j hj p hp
    have := ((Jobs.Props.c45_returned h).2.1 j hj).2.2
    unfold disabled at this
    rw [List.any_eq_false] at this
    exact Bool.eq_false_iff.mpr (this p hp)
  · intro j hj hdb ⟨p, hp, hg⟩
    unfold Jobs.get at h
    split at h
    · cases h
    · dsimp only at h
      split at h
      · cases h
      · have := (Prod.mk.inj (Except.ok.inj h)).1
        rw [← this, List.mem_map]
        refine ⟨j, hdb, ?_⟩
        rw [if_pos (List.any_eq_true.mpr ⟨j, hj, by simp⟩)]
        unfold Jobs.taken
        rw [if_pos (show disabled glob l j.name = true from List.any_eq_true.mpr ⟨p, hp, hg⟩)]

/-! ## Where the code differs -/

/-- Disagreement.  A node that was not reached when all jobs were enabled again brings the disabled ones back, to every
node it logs in to. -/
theorem c107_comes_back : ∃ ops : List Op,
    (∀ i r, Op.request i r ∈ ops.drop 2 → r.clear = true) ∧ (run 2 {} (ops.take 4)).at_ 0 = [] ∧ (run 2 {} ops).at_ 0 = [[120]] :=
  ⟨[.request 0 { names := [120] }, .deliver (1, { names := [120], propagated := true }), .request 0 { clear := true },
    .lose (1, { clear := true, propagated := true }), .login 1 0, .deliver (0, { names := [120], propagated := true })],
    by simp, by decide +kernel, by decide +kernel⟩

/-! ## Cases -/

-- three nodes; the message to the third is lost, then it logs in
example : (run 3 {} [.request 0 { names := [97, 44, 32, 98, 42] }, .deliver (1, { names := [97, 44, 32, 98, 42], propagated := true }),
    .lose (2, { names := [97, 44, 32, 98, 42], propagated := true }), .login 1 2,
    .deliver (2, { names := [97, 44, 32, 98, 42], propagated := true })]).at_ 2 = [[97], [98, 42]] := by decide +kernel
-- a client on the public port
example : handle [[97]] { clear := true, source := [49] } = none := rfl

end Bedrock.Blacklist.Props
