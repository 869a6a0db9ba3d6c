import Verif.Model.Locks

/-! # C117: writes can be blocked, and the locks of the database never end in a deadlock -/

namespace Bedrock.Locks.Props
open Bedrock.Locks

/-- The locks a thread has. -/
structure Held where
  s : Bool := false
  c : Bool := false
  w : Bool := false
  x : Bool := false
deriving DecidableEq, Repr

/-- The discipline: `_stateMutex` before `commitLock` before `writeLock`, and no change to the database without the lock for it. -/
def next (h : Held) : Act → Option Held
  | .lockState => if h.s || h.c || h.w || h.x then none else some { h with s := true }
  | .unlockState => if h.s && !(h.c || h.w || h.x) then some { h with s := false } else none
  | .lockCommit => if h.c || h.w || h.x then none else some { h with c := true }
  | .unlockCommit => if h.c && !(h.w || h.x) then some { h with c := false } else none
  | .lockShared => if h.w || h.x then none else some { h with w := true }
  | .unlockShared => if h.w then some { h with w := false } else none
  | .lockEx => if h.w || h.x || !h.c then none else some { h with x := true }
  | .unlockEx => if h.x then some { h with x := false } else none
  | .write => if h.w then some h else none
  | .journal => if h.c then some h else none
  | .commit => if h.c then some h else none
  | .checkpoint => some h
  | .join _ => if h.c || h.w || h.x then none else some h
  | .waitTold => if h.c && h.x then some h else none

def after (h : Held) : List Act → Option Held
  | [] => some h
  | a :: p => (next h a).bind fun h' => after h' p

theorem after_append (h : Held) (p q : List Act) : after h (p ++ q) = (after h p).bind fun h' => after h' q := by
  induction p generalizing h with
  | nil => rfl
  | cons a p ih =>
    show (next h a).bind _ = ((next h a).bind _).bind _
    cases next h a with
    | none => rfl
    | some h' => exact ih h'

theorem after_stmt {h : Held} (h1 : h.w = false) (h2 : h.x = false) : after h stmt = some h := by
  obtain ⟨s, c, w, x⟩ := h
  cases h1; cases h2
  rfl

theorem after_body {h : Held} (h1 : h.w = false) (h2 : h.x = false) (n : Nat) : after h (body n) = some h := by
  induction n with
  | zero => rfl
  | succ n ih =>
    show after h (stmt ++ body n) = _
    rw [after_append, after_stmt h1 h2]
    exact ih

theorem after_trimming {h : Held} (h1 : h.w = false) (h2 : h.x = false) (b : Bool) : after h (trimming b) = some h := by
  cases b with
  | false => rfl
  | true => exact after_stmt h1 h2

theorem after_finish (late : Nat) (e : End) : after { c := true } (finish late e) = some {} := by
  cases e with
  | rollback => rfl
  | gaveUp => rfl
  | failed =>
    show after _ (body late ++ _) = _
    rw [after_append, after_body rfl rfl]
    rfl
  | done ck =>
    show after _ (body late ++ _ ++ _) = _
    rw [List.append_assoc, after_append, after_body rfl rfl]
    cases ck <;> rfl

/-- Every job keeps to it, and leaves no lock behind. -/
theorem after_acts (j : Job) : after {} (acts j) = some {} := by
  cases j with
  | shared n trim late e =>
    show after _ (body n ++ _) = _
    rw [after_append, after_body rfl rfl]
    have key : after {} (trimming trim ++ .lockCommit :: finish late e) = some {} := by
      rw [after_append, after_trimming rfl rfl]
      exact after_finish late e
    cases e with
    | rollback => rfl
    | gaveUp => exact after_trimming rfl rfl trim
    | failed => exact key
    | done ck => exact key
  | exclusive n trim late e =>
    show after { c := true } (body n ++ _) = _
    rw [after_append, after_body rfl rfl]
    show after { c := true } (_ ++ _) = _
    rw [after_append]
    have : after { c := true } (if e = .rollback then [] else trimming trim) = some { c := true } := by
      split
      · rfl
      · exact after_trimming rfl rfl trim
    rw [this]
    exact after_finish late e
  | localWrite => rfl
  | look => rfl
  | change r en => cases r <;> cases en <;> rfl
  | quiesce => rfl

theorem after_jobs (l : List Job) : after {} (l.flatMap acts) = some {} := by
  induction l with
  | nil => rfl
  | cons j l ih =>
    rw [List.flatMap_cons, after_append, after_acts]
    exact ih

/-! ## What holds in every state -/

structure Inv (s : St) (H : Nat → Held) : Prop where
  disc : ∀ t, after (H t) (prog s t) = some {}
  hs : ∀ t, (H t).s = true ↔ s.state = some t
  hc : ∀ t, (H t).c = true ↔ s.commit = some t
  hx : ∀ t, (H t).x = true ↔ s.ex = some t
  hw : ∀ t, (H t).w = true ↔ t ∈ s.sh
  nd : s.sh.Nodup
  excl : s.ex ≠ none → s.sh = []
  joins : ∀ t r, Act.join r ∈ prog s t → ∀ a ∈ prog s r, a ≠ .lockState ∧ ∀ r', a ≠ .join r'

theorem prog_set {s s' : St} {t : Nat} {a : Act} {rest : List Act} (h : prog s t = a :: rest) (hp : s'.progs = s.progs.set t rest) (u : Nat) :
    prog s' u = if u = t then rest else prog s u := by
  have ht : t < s.progs.length := by
    apply Nat.lt_of_not_le
    intro hl
    have : prog s t = [] := by unfold prog; rw [List.getElem?_eq_none hl]; rfl
    rw [this] at h
    cases h
  unfold prog
  rw [hp]
  split
  · subst u; rw [List.getElem?_set_self ht]; rfl
  · rename_i hn; rw [List.getElem?_set_ne (fun e => hn e.symm)]

theorem prog_start (jobs : List (List Job)) (t : Nat) : prog (start jobs) t = ((jobs[t]?).getD []).flatMap acts := by
  unfold prog start
  rw [List.getElem?_map]
  cases jobs[t]? <;> rfl

theorem txn_acts {j : Job} (h : j.txn = true) : ∀ a ∈ acts j, a ≠ .lockState ∧ ∀ r', a ≠ .join r' := by
  cases j with
  | shared n trim late e =>
    have hstmt : ∀ a ∈ stmt, a ≠ .lockState ∧ ∀ r', a ≠ .join r' := by
      intro a ha
      simp only [stmt, List.mem_cons, List.not_mem_nil, or_false] at ha
      rcases ha with rfl | rfl | rfl <;> exact ⟨by decide, fun _ => by simp⟩
    have hbody : ∀ n, ∀ a ∈ body n, a ≠ .lockState ∧ ∀ r', a ≠ .join r' := by
      intro n a ha
      obtain ⟨l, hl, ha⟩ := List.mem_flatten.mp ha
      rw [(List.mem_replicate.mp hl).2] at ha
      exact hstmt a ha
    have htrim : ∀ a ∈ trimming trim, a ≠ .lockState ∧ ∀ r', a ≠ .join r' := by
      intro a ha
      cases trim with
      | false => cases ha
      | true => exact hstmt a ha
    have hfin : ∀ a ∈ finish late e, a ≠ .lockState ∧ ∀ r', a ≠ .join r' := by
      intro a ha
      cases e with
      | rollback => simp only [finish, List.mem_singleton] at ha; subst ha; exact ⟨by decide, fun _ => by simp⟩
      | gaveUp => simp only [finish, List.mem_singleton] at ha; subst ha; exact ⟨by decide, fun _ => by simp⟩
      | failed =>
        simp only [finish, List.mem_append, List.mem_cons, List.not_mem_nil, or_false] at ha
        rcases ha with ha | rfl | rfl
        · exact hbody _ a ha
        · exact ⟨by decide, fun _ => by simp⟩
        · exact ⟨by decide, fun _ => by simp⟩
      | done ck =>
        simp only [finish, List.mem_append, List.mem_cons, List.not_mem_nil, or_false] at ha
        rcases ha with (ha | rfl | rfl | rfl) | ha
        · exact hbody _ a ha
        · exact ⟨by decide, fun _ => by simp⟩
        · exact ⟨by decide, fun _ => by simp⟩
        · exact ⟨by decide, fun _ => by simp⟩
        · cases ck with
          | false => cases ha
          | true => simp only [if_true, List.mem_singleton] at ha; subst ha; exact ⟨by decide, fun _ => by simp⟩
    intro a ha
    have key : ∀ a ∈ trimming trim ++ Act.lockCommit :: finish late e, a ≠ .lockState ∧ ∀ r', a ≠ .join r' := by
      intro a ha
      rcases List.mem_append.mp ha with ha | ha
      · exact htrim a ha
      · rcases List.mem_cons.mp ha with rfl | ha
        · exact ⟨by decide, fun _ => by simp⟩
        · exact hfin a ha
    rcases List.mem_append.mp ha with ha | ha
    · exact hbody n a ha
    · cases e with
      | rollback => cases ha
      | gaveUp => exact htrim a ha
      | failed => exact key a ha
      | done ck => exact key a ha
  | exclusive => cases h
  | localWrite => cases h
  | look => cases h
  | change => cases h
  | quiesce => cases h

/-- A thread is only ended by a change of state. -/
theorem join_acts {j : Job} {r : Nat} (h : Act.join r ∈ acts j) : ∃ en, j = .change (some r) en := by
  cases j with
  | shared n trim late e => exact absurd rfl ((txn_acts rfl _ h).2 r)
  | exclusive n trim late e =>
    rcases List.mem_cons.mp h with h | h
    · cases h
    · have h' : Act.join r ∈ acts (.shared n trim late e) ∨ Act.join r ∈ acts (.shared n trim late (.done false)) ∨ Act.join r ∈ finish late e := by
        rcases List.mem_append.mp h with h | h
        · exact .inl (List.mem_append_left _ h)
        · rcases List.mem_append.mp h with h | h
          · split at h
            · cases h
            · exact .inr (.inl (List.mem_append_right _ (List.mem_append_left _ h)))
          · exact .inr (.inr h)
      rcases h' with h | h | h
      · exact absurd rfl ((txn_acts rfl _ h).2 r)
      · exact absurd rfl ((txn_acts rfl _ h).2 r)
      · cases e with
        | rollback => simp [finish] at h
        | gaveUp => simp [finish] at h
        | failed => exact absurd rfl ((txn_acts (j := .shared 0 false late .failed) rfl (.join r) (List.mem_append_right _ (List.mem_append_right _ (List.mem_cons_of_mem _ h)))).2 r)
        | done ck => exact absurd rfl ((txn_acts (j := .shared 0 false late (.done ck)) rfl (.join r) (List.mem_append_right _ (List.mem_append_right _ (List.mem_cons_of_mem _ h)))).2 r)
  | localWrite => simp [acts, stmt] at h
  | look => simp [acts] at h
  | change r' en =>
    cases r' with
    | none => cases en <;> simp [acts] at h
    | some r' =>
      have : r = r' := by cases en <;> simpa [acts] using h
      exact ⟨en, by rw [this]⟩
  | quiesce => simp [acts] at h

theorem inv_start {jobs : List (List Job)} (h : Sound jobs) : Inv (start jobs) fun _ => {} where
  disc t := by rw [prog_start]; exact after_jobs _
  hs _ := ⟨fun h => (by cases h), fun h => (by cases h)⟩
  hc _ := ⟨fun h => (by cases h), fun h => (by cases h)⟩
  hx _ := ⟨fun h => (by cases h), fun h => (by cases h)⟩
  hw _ := ⟨fun h => (by cases h), fun h => (by cases h)⟩
  nd := List.nodup_nil
  excl _ := rfl
  joins t r hj a ha := by
    rw [prog_start] at hj ha
    obtain ⟨j, hj1, hj2⟩ := List.mem_flatMap.mp hj
    obtain ⟨en, rfl⟩ := join_acts hj2
    obtain ⟨k, hk1, hk2⟩ := List.mem_flatMap.mp ha
    have hl : (jobs[t]?).getD [] ∈ jobs ∨ (jobs[t]?).getD [] = [] := by
      cases he : jobs[t]? with
      | none => exact .inr rfl
      | some l => exact .inl (List.mem_of_getElem? he)
    rcases hl with hl | hl
    · exact txn_acts (h _ hl r en hj1 k hk1) a hk2
    · rw [hl] at hj1; cases hj1

/-- The locks after a step. -/
def upd (H : Nat → Held) (t : Nat) (h : Held) (u : Nat) : Held := if u = t then h else H u

/-- The owner of a lock after a step. -/
theorem own {f : Nat → Bool} {o o' : Option Nat} {t : Nat} {b : Bool} (h : ∀ u, f u = true ↔ o = some u)
    (hc : (b = f t ∧ o' = o) ∨ (b = true ∧ o = none ∧ o' = some t) ∨ (b = false ∧ f t = true ∧ o' = none)) (u : Nat) :
    (if u = t then b else f u) = true ↔ o' = some u := by
  by_cases hu : u = t
  · subst hu
    rw [if_pos rfl]
    rcases hc with ⟨rfl, rfl⟩ | ⟨rfl, _, rfl⟩ | ⟨rfl, _, rfl⟩
    · exact h u
    · simp
    · simp
  · rw [if_neg hu]
    rcases hc with ⟨_, rfl⟩ | ⟨_, ho, rfl⟩ | ⟨_, hf, rfl⟩
    · exact h u
    · rw [h u, ho]
      simp only [reduceCtorEq, Option.some.injEq, false_iff]
      exact fun e => hu e.symm
    · rw [h u, (h t).mp hf]
      simp only [reduceCtorEq, Option.some.injEq, iff_false]
      exact fun e => hu e.symm

theorem inv_mk {s s' : St} {H : Nat → Held} (h : Inv s H) {t : Nat} {a : Act} {rest : List Act} (hp : prog s t = a :: rest)
    (hp' : s'.progs = s.progs.set t rest) {h' : Held} (ha : after h' rest = some {})
    (h1 : (h'.s = (H t).s ∧ s'.state = s.state) ∨ (h'.s = true ∧ s.state = none ∧ s'.state = some t) ∨ (h'.s = false ∧ (H t).s = true ∧ s'.state = none))
    (h2 : (h'.c = (H t).c ∧ s'.commit = s.commit) ∨ (h'.c = true ∧ s.commit = none ∧ s'.commit = some t) ∨ (h'.c = false ∧ (H t).c = true ∧ s'.commit = none))
    (h3 : (h'.x = (H t).x ∧ s'.ex = s.ex) ∨ (h'.x = true ∧ s.ex = none ∧ s'.ex = some t) ∨ (h'.x = false ∧ (H t).x = true ∧ s'.ex = none))
    (h4 : (h'.w = (H t).w ∧ s'.sh = s.sh) ∨ (h'.w = true ∧ (H t).w = false ∧ s'.sh = t :: s.sh) ∨ (h'.w = false ∧ (H t).w = true ∧ s'.sh = s.sh.erase t))
    (h5 : s'.ex ≠ none → s'.sh = []) : Inv s' (upd H t h') := by
  have hprog := prog_set hp hp'
  have hsub : ∀ u, ∀ a ∈ prog s' u, a ∈ prog s u := by
    intro u a ha
    rw [hprog] at ha
    split at ha
    · subst u; rw [hp]; exact List.mem_cons_of_mem _ ha
    · exact ha
  refine ⟨?_, ?_, ?_, ?_, ?_, ?_, h5, ?_⟩
  · intro u
    rw [hprog]
    unfold upd
    split
    · exact ha
    · exact h.disc u
  · intro u
    have := own h.hs h1 u
    unfold upd
    split <;> rename_i hu
    · rwa [if_pos hu] at this
    · rwa [if_neg hu] at this
  · intro u
    have := own h.hc h2 u
    unfold upd
    split <;> rename_i hu
    · rwa [if_pos hu] at this
    · rwa [if_neg hu] at this
  · intro u
    have := own h.hx h3 u
    unfold upd
    split <;> rename_i hu
    · rwa [if_pos hu] at this
    · rwa [if_neg hu] at this
  · intro u
    unfold upd
    split <;> rename_i hu
    · subst hu
      rcases h4 with ⟨e1, e2⟩ | ⟨e1, _, e2⟩ | ⟨e1, _, e2⟩
      · rw [e1, e2]; exact h.hw u
      · rw [e1, e2]; exact ⟨fun _ => List.mem_cons_self, fun _ => rfl⟩
      · rw [e1, e2]
        exact ⟨fun h => (by cases h), fun hm => absurd hm (fun hm => (List.Nodup.mem_erase_iff h.nd).mp hm |>.1 rfl)⟩
    · rcases h4 with ⟨_, e2⟩ | ⟨_, _, e2⟩ | ⟨_, _, e2⟩
      · rw [e2]; exact h.hw u
      · rw [e2, h.hw u, List.mem_cons]
        exact ⟨.inr, fun hm => hm.resolve_left hu⟩
      · rw [e2, h.hw u, List.Nodup.mem_erase_iff h.nd]
        exact ⟨fun hm => ⟨hu, hm⟩, And.right⟩
  · rcases h4 with ⟨_, e2⟩ | ⟨_, e1, e2⟩ | ⟨_, _, e2⟩
    · rw [e2]; exact h.nd
    · rw [e2]
      refine List.nodup_cons.mpr ⟨fun hm => ?_, h.nd⟩
      rw [(h.hw t).mpr hm] at e1
      cases e1
    · rw [e2]; exact h.nd.erase t
  · intro u r hj a ha
    exact h.joins u r (hsub u _ hj) a (hsub r a ha)

theorem inv_step {s s' : St} {H : Nat → Held} (h : Inv s H) {t : Nat} (hs : step s t = some s') : ∃ H', Inv s' H' := by
  unfold step at hs
  split at hs
  · cases hs
  · rename_i a rest hp
    split at hs
    · rename_i hcan
      cases hs
      have hd := h.disc t
      rw [hp] at hd
      obtain ⟨h', hn, ha⟩ := Option.bind_eq_some_iff.mp hd
      refine ⟨upd H t h', ?_⟩
      cases a with
      | lockState =>
        unfold next at hn
        dsimp only at hn
        split at hn
        · cases hn
        · cases hn
          exact inv_mk h hp rfl ha (.inr (.inl ⟨rfl, Option.isNone_iff_eq_none.mp hcan, rfl⟩)) (.inl ⟨rfl, rfl⟩) (.inl ⟨rfl, rfl⟩) (.inl ⟨rfl, rfl⟩) h.excl
      | unlockState =>
        unfold next at hn
        dsimp only at hn
        split at hn
        · rename_i hc
          cases hn
          rw [Bool.and_eq_true] at hc
          exact inv_mk h hp rfl ha (.inr (.inr ⟨rfl, hc.1, rfl⟩)) (.inl ⟨rfl, rfl⟩) (.inl ⟨rfl, rfl⟩) (.inl ⟨rfl, rfl⟩) h.excl
        · cases hn
      | lockCommit =>
        unfold next at hn
        dsimp only at hn
        split at hn
        · cases hn
        · cases hn
          exact inv_mk h hp rfl ha (.inl ⟨rfl, rfl⟩) (.inr (.inl ⟨rfl, Option.isNone_iff_eq_none.mp hcan, rfl⟩)) (.inl ⟨rfl, rfl⟩) (.inl ⟨rfl, rfl⟩) h.excl
      | unlockCommit =>
        unfold next at hn
        dsimp only at hn
        split at hn
        · rename_i hc
          cases hn
          rw [Bool.and_eq_true] at hc
          exact inv_mk h hp rfl ha (.inl ⟨rfl, rfl⟩) (.inr (.inr ⟨rfl, hc.1, rfl⟩)) (.inl ⟨rfl, rfl⟩) (.inl ⟨rfl, rfl⟩) h.excl
        · cases hn
      | lockShared =>
        unfold next at hn
        dsimp only at hn
        split at hn
        · cases hn
        · rename_i hc
          cases hn
          rw [Bool.or_eq_true, not_or, Bool.not_eq_true] at hc
          exact inv_mk h hp rfl ha (.inl ⟨rfl, rfl⟩) (.inl ⟨rfl, rfl⟩) (.inl ⟨rfl, rfl⟩) (.inr (.inl ⟨rfl, hc.1, rfl⟩))
            (fun hne => absurd (Option.isNone_iff_eq_none.mp hcan) hne)
      | unlockShared =>
        unfold next at hn
        dsimp only at hn
        split at hn
        · rename_i hc
          cases hn
          exact inv_mk h hp rfl ha (.inl ⟨rfl, rfl⟩) (.inl ⟨rfl, rfl⟩) (.inl ⟨rfl, rfl⟩) (.inr (.inr ⟨rfl, hc, rfl⟩))
            (fun hne => (by show s.sh.erase t = []; rw [h.excl hne]; rfl))
        · cases hn
      | lockEx =>
        unfold next at hn
        dsimp only at hn
        split at hn
        · cases hn
        · cases hn
          unfold can at hcan
          dsimp only at hcan
          rw [Bool.and_eq_true] at hcan
          exact inv_mk h hp rfl ha (.inl ⟨rfl, rfl⟩) (.inl ⟨rfl, rfl⟩) (.inr (.inl ⟨rfl, Option.isNone_iff_eq_none.mp hcan.1, rfl⟩)) (.inl ⟨rfl, rfl⟩)
            (fun _ => List.isEmpty_iff.mp hcan.2)
      | unlockEx =>
        unfold next at hn
        dsimp only at hn
        split at hn
        · rename_i hc
          cases hn
          exact inv_mk h hp rfl ha (.inl ⟨rfl, rfl⟩) (.inl ⟨rfl, rfl⟩) (.inr (.inr ⟨rfl, hc, rfl⟩)) (.inl ⟨rfl, rfl⟩) (fun hne => absurd rfl hne)
        · cases hn
      | write =>
        unfold next at hn
        dsimp only at hn
        split at hn
        · cases hn
          exact inv_mk h hp rfl ha (.inl ⟨rfl, rfl⟩) (.inl ⟨rfl, rfl⟩) (.inl ⟨rfl, rfl⟩) (.inl ⟨rfl, rfl⟩) h.excl
        · cases hn
      | journal =>
        unfold next at hn
        dsimp only at hn
        split at hn
        · cases hn
          exact inv_mk h hp rfl ha (.inl ⟨rfl, rfl⟩) (.inl ⟨rfl, rfl⟩) (.inl ⟨rfl, rfl⟩) (.inl ⟨rfl, rfl⟩) h.excl
        · cases hn
      | commit =>
        unfold next at hn
        dsimp only at hn
        split at hn
        · cases hn
          exact inv_mk h hp rfl ha (.inl ⟨rfl, rfl⟩) (.inl ⟨rfl, rfl⟩) (.inl ⟨rfl, rfl⟩) (.inl ⟨rfl, rfl⟩) h.excl
        · cases hn
      | checkpoint =>
        cases hn
        exact inv_mk h hp rfl ha (.inl ⟨rfl, rfl⟩) (.inl ⟨rfl, rfl⟩) (.inl ⟨rfl, rfl⟩) (.inl ⟨rfl, rfl⟩) h.excl
      | join r =>
        unfold next at hn
        dsimp only at hn
        split at hn
        · cases hn
        · cases hn
          exact inv_mk h hp rfl ha (.inl ⟨rfl, rfl⟩) (.inl ⟨rfl, rfl⟩) (.inl ⟨rfl, rfl⟩) (.inl ⟨rfl, rfl⟩) h.excl
      | waitTold =>
        unfold next at hn
        dsimp only at hn
        split at hn
        · cases hn
          exact inv_mk h hp rfl ha (.inl ⟨rfl, rfl⟩) (.inl ⟨rfl, rfl⟩) (.inl ⟨rfl, rfl⟩) (.inl ⟨rfl, rfl⟩) h.excl
        · cases hn
    · cases hs

theorem inv_apply {s : St} {H : Nat → Held} (h : Inv s H) (e : Ev) : ∃ H', Inv (apply s e) H' := by
  cases e with
  | go t =>
    unfold apply
    dsimp only
    cases hs : step s t with
    | none => exact ⟨H, h⟩
    | some s' => exact inv_step h hs
  | unblock =>
    unfold apply
    dsimp only
    split
    · exact ⟨H, h.disc, h.hs, h.hc, h.hx, h.hw, h.nd, h.excl, h.joins⟩
    · exact ⟨H, h⟩

theorem inv_run {s : St} {H : Nat → Held} (h : Inv s H) (evs : List Ev) : ∃ H', Inv (run s evs) H' := by
  induction evs generalizing s H with
  | nil => exact ⟨H, h⟩
  | cons e evs ih =>
    obtain ⟨H', h'⟩ := inv_apply h e
    exact ih h'

theorem reach {jobs : List (List Job)} (h : Sound jobs) (evs : List Ev) : ∃ H, Inv (run (start jobs) evs) H :=
  inv_run (inv_start h) evs

/-! ## No deadlock -/

/-- If no thread can go on, each has ended or waits to be told, or waits for one that does. -/
theorem stuck {s : St} {H : Nat → Held} (h : Inv s H) (hst : ∀ t, step s t = none) (hw : ∀ q, ¬ Blocked s q) : ∀ t, prog s t = [] := by
  -- a thread that has not ended waits for its first call
  have wait : ∀ t a rest, prog s t = a :: rest → can s a = false ∧ ∃ h', next (H t) a = some h' := by
    intro t a rest hp
    have := hst t
    unfold step at this
    rw [hp] at this
    dsimp only at this
    split at this
    · cases this
    · rename_i hc
      refine ⟨Bool.not_eq_true _ ▸ hc, ?_⟩
      have hd := h.disc t
      rw [hp] at hd
      obtain ⟨h', hn, _⟩ := Option.bind_eq_some_iff.mp hd
      exact ⟨h', hn⟩
  -- a thread with a lock has not ended
  have busy : ∀ t, H t ≠ {} → ∃ a rest, prog s t = a :: rest := by
    intro t ht
    cases hp : prog s t with
    | nil =>
      have := h.disc t
      rw [hp] at this
      exact absurd (Option.some.inj this) ht
    | cons a rest => exact ⟨a, rest, rfl⟩
  have untold : ∀ t rest, prog s t ≠ Act.waitTold :: rest := fun t rest hp => hw t (by unfold Blocked; rw [hp]; rfl)
  -- nobody has `writeLock`
  have noWX : ∀ t, (H t).w = false ∧ (H t).x = false := by
    intro t
    by_cases hwx : (H t).w = false ∧ (H t).x = false
    · exact hwx
    · exfalso
      obtain ⟨a, rest, hp⟩ := busy t (fun e => hwx (by rw [e]; exact ⟨rfl, rfl⟩))
      obtain ⟨hc, h', hn⟩ := wait t a rest hp
      have hor : ((H t).w || (H t).x) = true := by
        cases h1 : (H t).w
        · cases h2 : (H t).x
          · exact absurd ⟨h1, h2⟩ hwx
          · rfl
        · rfl
      cases a with
      | lockState => unfold next at hn; dsimp only at hn; rw [if_pos (by rw [Bool.or_assoc, hor, Bool.or_true])] at hn; cases hn
      | lockCommit => unfold next at hn; dsimp only at hn; rw [if_pos (by rw [Bool.or_assoc, hor, Bool.or_true])] at hn; cases hn
      | lockShared => unfold next at hn; dsimp only at hn; rw [if_pos hor] at hn; cases hn
      | lockEx => unfold next at hn; dsimp only at hn; rw [if_pos (by rw [hor]; rfl)] at hn; cases hn
      | join r => unfold next at hn; dsimp only at hn; rw [if_pos (by rw [Bool.or_assoc, hor, Bool.or_true])] at hn; cases hn
      | waitTold => exact untold t rest hp
      | unlockState => cases hc
      | unlockCommit => cases hc
      | unlockShared => cases hc
      | unlockEx => cases hc
      | write => cases hc
      | journal => cases hc
      | commit => cases hc
      | checkpoint => cases hc
  have ex0 : s.ex = none := by
    cases he : s.ex with
    | none => rfl
    | some t => have := (h.hx t).mpr he; rw [(noWX t).2] at this; cases this
  have sh0 : s.sh = [] := by
    cases he : s.sh with
    | nil => rfl
    | cons t l => have := (h.hw t).mpr (he ▸ List.mem_cons_self); rw [(noWX t).1] at this; cases this
  -- so nobody waits for it
  have noS : ∀ t rest, prog s t ≠ Act.lockShared :: rest := by
    intro t rest hp
    have := (wait t _ _ hp).1
    unfold can at this
    rw [ex0] at this
    cases this
  have noE : ∀ t rest, prog s t ≠ Act.lockEx :: rest := by
    intro t rest hp
    have := (wait t _ _ hp).1
    unfold can at this
    rw [ex0, sh0] at this
    cases this
  -- nobody has `commitLock`
  have noC : ∀ t, (H t).c = false := by
    intro t
    cases hc : (H t).c with
    | false => rfl
    | true =>
      exfalso
      obtain ⟨a, rest, hp⟩ := busy t (fun e => by rw [e] at hc; cases hc)
      obtain ⟨hcan, h', hn⟩ := wait t a rest hp
      cases a with
      | lockState => unfold next at hn; dsimp only at hn; rw [hc, Bool.or_true] at hn; cases hn
      | lockCommit => unfold next at hn; dsimp only at hn; rw [hc] at hn; cases hn
      | lockShared => exact noS t rest hp
      | lockEx => exact noE t rest hp
      | join r => unfold next at hn; dsimp only at hn; rw [hc] at hn; cases hn
      | waitTold => exact untold t rest hp
      | unlockState => cases hcan
      | unlockCommit => cases hcan
      | unlockShared => cases hcan
      | unlockEx => cases hcan
      | write => cases hcan
      | journal => cases hcan
      | commit => cases hcan
      | checkpoint => cases hcan
  have c0 : s.commit = none := by
    cases he : s.commit with
    | none => rfl
    | some t => have := (h.hc t).mpr he; rw [noC t] at this; cases this
  -- who has not ended waits for `_stateMutex` or for the end of a thread
  have left : ∀ t a rest, prog s t = a :: rest → a = .lockState ∨ ∃ r, a = .join r := by
    intro t a rest hp
    obtain ⟨hcan, _, _⟩ := wait t a rest hp
    cases a with
    | lockState => exact .inl rfl
    | join r => exact .inr ⟨r, rfl⟩
    | lockCommit => unfold can at hcan; rw [c0] at hcan; cases hcan
    | lockShared => exact absurd hp (noS t rest)
    | lockEx => exact absurd hp (noE t rest)
    | waitTold => exact absurd hp (untold t rest)
    | unlockState => cases hcan
    | unlockCommit => cases hcan
    | unlockShared => cases hcan
    | unlockEx => cases hcan
    | write => cases hcan
    | journal => cases hcan
    | commit => cases hcan
    | checkpoint => cases hcan
  have noJ : ∀ t r rest, prog s t ≠ Act.join r :: rest := by
    intro t r rest hp
    have hcan := (wait t _ _ hp).1
    unfold can at hcan
    dsimp only at hcan
    cases hr : prog s r with
    | nil => rw [hr] at hcan; cases hcan
    | cons b rest' =>
      have := h.joins t r (by rw [hp]; exact List.mem_cons_self) b (by rw [hr]; exact List.mem_cons_self)
      rcases left r b rest' hr with e | ⟨r', e⟩
      · exact this.1 e
      · exact this.2 r' e
  have noState : ∀ t, (H t).s = false := by
    intro t
    cases hc : (H t).s with
    | false => rfl
    | true =>
      exfalso
      obtain ⟨a, rest, hp⟩ := busy t (fun e => by rw [e] at hc; cases hc)
      obtain ⟨_, h', hn⟩ := wait t a rest hp
      rcases left t a rest hp with e | ⟨r, e⟩
      · subst e; unfold next at hn; dsimp only at hn; rw [hc] at hn; cases hn
      · subst e; exact noJ t r rest hp
  intro t
  cases hp : prog s t with
  | nil => rfl
  | cons a rest =>
    exfalso
    rcases left t a rest hp with e | ⟨r, e⟩
    · subst e
      have hcan := (wait t _ _ hp).1
      unfold can at hcan
      cases he : s.state with
      | none => rw [he] at hcan; cases hcan
      | some u => have := (h.hs u).mpr he; rw [noState u] at this; cases this
    · subst e; exact noJ t r rest hp

/-- The threads do not block each other: whatever they have done and will do, and in whatever order they ran, some thread can go on until all have
done their jobs, unless an operator has blocked writes and not unblocked them. -/
theorem c117_no_deadlock {jobs : List (List Job)} (hj : Sound jobs) (evs : List Ev) :
    (∃ t s', step (run (start jobs) evs) t = some s') ∨
      (∃ q, Blocked (run (start jobs) evs) q ∧ (run (start jobs) evs).told = false) ∨
      ∀ t, prog (run (start jobs) evs) t = [] := by
  obtain ⟨H, h⟩ := reach hj evs
  by_cases h1 : ∃ t s', step (run (start jobs) evs) t = some s'
  · exact .inl h1
  · have hst : ∀ t, step (run (start jobs) evs) t = none := by
      intro t
      cases hs : step (run (start jobs) evs) t with
      | none => rfl
      | some s' => exact absurd ⟨t, s', hs⟩ h1
    by_cases h2 : ∃ q, Blocked (run (start jobs) evs) q
    · obtain ⟨q, hq⟩ := h2
      refine .inr (.inl ⟨q, hq, ?_⟩)
      obtain ⟨rest, hp⟩ : ∃ rest, prog (run (start jobs) evs) q = .waitTold :: rest := by
        unfold Blocked at hq
        cases hp : prog (run (start jobs) evs) q with
        | nil => rw [hp] at hq; cases hq
        | cons a rest => rw [hp] at hq; cases hq; exact ⟨rest, rfl⟩
      have := hst q
      unfold step at this
      rw [hp] at this
      dsimp only at this
      split at this
      · cases this
      · rename_i hc; exact Bool.not_eq_true _ ▸ hc
    · exact .inr (.inr (stuck h hst (fun q hq => h2 ⟨q, hq⟩)))

/-- What is left to do. -/
def work (s : St) : Nat := (s.progs.map List.length).sum

theorem sum_set {l : List (List Act)} {t : Nat} {a : Act} {rest : List Act} (h : (l[t]?).getD [] = a :: rest) :
    ((l.set t rest).map List.length).sum + 1 = (l.map List.length).sum := by
  induction l generalizing t with
  | nil => cases h
  | cons p l ih =>
    cases t with
    | zero =>
      have : p = a :: rest := h
      subst this
      simp only [List.set_cons_zero, List.map_cons, List.sum_cons, List.length_cons]
      omega
    | succ t =>
      have := ih (t := t) (by simpa using h)
      simp only [List.set_cons_succ, List.map_cons, List.sum_cons]
      omega

theorem effect_progs (s : St) (t : Nat) (a : Act) : (effect s t a).progs = s.progs := by cases a <;> rfl

/-- Each step leaves less to do. -/
theorem work_step {s s' : St} {t : Nat} (h : step s t = some s') : work s' + 1 = work s := by
  unfold step at h
  split at h
  · cases h
  · rename_i a rest hp
    split at h
    · cases h
      exact sum_set hp
    · cases h

theorem run_append (s : St) (a b : List Ev) : run s (a ++ b) = run (run s a) b := List.foldl_append

/-- However it came to where it is, if writes are unblocked where they are blocked, all jobs can be done, in as many steps as there are calls left. -/
theorem c117_completes {jobs : List (List Job)} (hj : Sound jobs) (evs : List Ev) :
    ∃ more, (∀ t, prog (run (start jobs) (evs ++ more)) t = []) ∧
      (more.filter (· ≠ .unblock)).length = ((run (start jobs) evs).progs.map List.length).sum := by
  have key : ∀ n evs, work (run (start jobs) evs) = n → ∃ more, (∀ t, prog (run (start jobs) (evs ++ more)) t = []) ∧
      (more.filter (· ≠ .unblock)).length = n := by
    intro n
    induction n with
    | zero =>
      intro evs hw
      refine ⟨[], ?_, rfl⟩
      intro t
      rw [List.append_nil]
      cases hp : prog (run (start jobs) evs) t with
      | nil => rfl
      | cons a rest => have := sum_set hp; unfold work at hw; omega
    | succ n ih =>
      intro evs hw
      have go : ∀ evs t s', work (run (start jobs) evs) = n + 1 → step (run (start jobs) evs) t = some s' →
          ∃ more, (∀ t, prog (run (start jobs) (evs ++ more)) t = []) ∧ (more.filter (· ≠ .unblock)).length = n + 1 := by
        intro evs t s' hw hs
        have e : run (start jobs) (evs ++ [.go t]) = s' := by
          rw [run_append]
          show (step _ t).getD _ = _
          rw [hs]
          rfl
        obtain ⟨more, h1, h2⟩ := ih (evs ++ [.go t]) (by rw [e]; have := work_step hs; omega)
        refine ⟨.go t :: more, ?_, ?_⟩
        · intro u
          have := h1 u
          rwa [List.append_assoc] at this
        · rw [List.filter_cons_of_pos (by simp), List.length_cons, h2]
      rcases c117_no_deadlock hj evs with ⟨t, s', hs⟩ | ⟨q, hq, _⟩ | hall
      · exact go evs t s' hw hs
      · -- unblock
        have hany : ((run (start jobs) evs).progs.any fun p => p.head? = some .waitTold) = true := by
          unfold Blocked prog at hq
          cases hp : (run (start jobs) evs).progs[q]? with
          | none => rw [hp] at hq; cases hq
          | some p =>
            rw [hp] at hq
            exact List.any_eq_true.mpr ⟨p, List.mem_of_getElem? hp, decide_eq_true hq⟩
        have e : run (start jobs) (evs ++ [.unblock]) = { run (start jobs) evs with told := true } := by
          rw [run_append]
          show (if _ then _ else _) = _
          rw [if_pos hany]
        have hw' : work (run (start jobs) (evs ++ [.unblock])) = n + 1 := by rw [e]; exact hw
        rcases c117_no_deadlock hj (evs ++ [.unblock]) with ⟨t, s', hs⟩ | ⟨q', _, ht⟩ | hall
        · obtain ⟨more, h1, h2⟩ := go _ t s' hw' hs
          refine ⟨.unblock :: more, ?_, ?_⟩
          · intro u
            have := h1 u
            rwa [List.append_assoc] at this
          · rw [List.filter_cons_of_neg (by simp), h2]
        · rw [e] at ht; cases ht
        · have := hall q
          rw [e] at this
          unfold Blocked at hq
          rw [show prog (run (start jobs) evs) q = [] from this] at hq
          cases hq
      · exfalso
        have : ∀ p ∈ (run (start jobs) evs).progs, p = [] := by
          intro p hp
          obtain ⟨i, hi⟩ := List.getElem?_of_mem hp
          have := hall i
          unfold prog at this
          rw [hi] at this
          exact this
        have h0 : ∀ l : List (List Act), (∀ p ∈ l, p = []) → (l.map List.length).sum = 0 := by
          intro l
          induction l with
          | nil => intro _; rfl
          | cons p l ihl =>
            intro hl
            rw [List.map_cons, List.sum_cons, ihl (fun p hp => hl p (List.mem_cons_of_mem _ hp)), hl p List.mem_cons_self]
            rfl
        have := h0 _ this
        unfold work at hw
        omega
  exact key _ evs rfl

/-- Workers with transactions of both kinds, the thread that replicates, the sync thread that ends it, and an operator: writes are blocked while
the node loses its leader. -/
example : Sound [[.shared 2 true 0 (.done true), .exclusive 1 false 1 .failed], [.shared 1 false 0 (.done false)], [.change (some 1) false, .look], [.quiesce], [.look]] := by
  intro l hl r en hc j hj
  simp only [List.mem_cons, List.not_mem_nil, or_false] at hl
  rcases hl with rfl | rfl | rfl | rfl | rfl
  · simp at hc
  · simp at hc
  · simp at hc
    obtain ⟨rfl, rfl⟩ := hc
    simp at hj
    subst hj
    rfl
  · simp at hc
  · simp at hc

/-! ## Blocked writes -/

theorem blocked_prog {s : St} {q : Nat} (h : Blocked s q) : ∃ rest, prog s q = .waitTold :: rest := by
  unfold Blocked at h
  cases hp : prog s q with
  | nil => rw [hp] at h; cases h
  | cons a rest => rw [hp] at h; cases h; exact ⟨rest, rfl⟩

theorem blocked_held {s : St} {H : Nat → Held} (h : Inv s H) {q : Nat} (hq : Blocked s q) : s.ex = some q ∧ s.commit = some q ∧ s.sh = [] := by
  obtain ⟨rest, hp⟩ := blocked_prog hq
  have hd := h.disc q
  rw [hp] at hd
  obtain ⟨h', hn, _⟩ := Option.bind_eq_some_iff.mp hd
  unfold next at hn
  dsimp only at hn
  split at hn
  · rename_i hc
    rw [Bool.and_eq_true] at hc
    have he := (h.hx q).mp hc.2
    exact ⟨he, (h.hc q).mp hc.1, h.excl (by rw [he]; simp)⟩
  · cases hn

theorem blocked_unique {s : St} {H : Nat → Held} (h : Inv s H) {q q' : Nat} (hq : Blocked s q) (hq' : Blocked s q') : q = q' := by
  have := (blocked_held h hq).1.symm.trans (blocked_held h hq').1
  exact Option.some.inj this

/-- Someone is told only while it waits. -/
def Told (s : St) : Prop := s.told = true → ∃ q, Blocked s q

theorem step_other {s s' : St} {t u : Nat} (h : step s t = some s') (hu : u ≠ t) : prog s' u = prog s u := by
  unfold step at h
  split at h
  · cases h
  · rename_i a rest hp
    split at h
    · cases h
      rw [prog_set (s' := { effect s t a with progs := s.progs.set t rest }) hp rfl u, if_neg hu]
    · cases h

theorem told_step {s s' : St} {H : Nat → Held} (hi : Inv s H) (hT : Told s) {t : Nat} (h : step s t = some s') : Told s' := by
  intro ht
  have h0 := h
  unfold step at h
  split at h
  · cases h
  · rename_i a rest hp
    split at h
    · rename_i hcan
      cases h
      by_cases ha : a = .waitTold
      · subst ha; cases ht
      · have ht' : s.told = true := by
          have e : (effect s t a).told = s.told := by cases a <;> first | rfl | exact absurd rfl ha
          rw [← e]; exact ht
        obtain ⟨q, hq⟩ := hT ht'
        refine ⟨q, ?_⟩
        have hne : q ≠ t := by
          intro e
          subst e
          obtain ⟨r, hr⟩ := blocked_prog hq
          rw [hp] at hr
          exact ha (List.cons.inj hr).1
        unfold Blocked
        rw [step_other h0 hne]
        exact hq
    · cases h

theorem told_run {jobs : List (List Job)} (hj : Sound jobs) (evs : List Ev) : Told (run (start jobs) evs) := by
  have key : ∀ evs s H, Inv s H → Told s → Told (run s evs) := by
    intro evs
    induction evs with
    | nil => intro s H _ h; exact h
    | cons e evs ih =>
      intro s H hi hT
      obtain ⟨H', hi'⟩ := inv_apply hi e
      refine ih _ H' hi' ?_
      cases e with
      | go t =>
        show Told ((step s t).getD s)
        cases hs : step s t with
        | none => exact hT
        | some s' => exact told_step hi hT hs
      | unblock =>
        unfold apply
        dsimp only
        split
        · rename_i hany
          intro _
          obtain ⟨p, hp, hh⟩ := List.any_eq_true.mp hany
          obtain ⟨i, hi⟩ := List.getElem?_of_mem hp
          refine ⟨i, ?_⟩
          unfold Blocked prog
          rw [hi]
          exact of_decide_eq_true hh
        · exact hT
  exact key evs _ _ (inv_start hj) (fun h => by cases h)

/-- The changes: everything but checkpoints, which move pages that are committed. -/
def changes (s : St) : List (Nat × Act) := s.log.filter fun p => p.2 ≠ .checkpoint

theorem blocked_step {s : St} {H : Nat → Held} (h : Inv s H) {q : Nat} (hq : Blocked s q) (ht : s.told = false) (t : Nat) :
    Blocked (apply s (.go t)) q ∧ (apply s (.go t)).told = false ∧ changes (apply s (.go t)) = changes s := by
  show Blocked ((step s t).getD s) q ∧ _ ∧ _
  obtain ⟨he, hc, hsh⟩ := blocked_held h hq
  cases hs : step s t with
  | none => exact ⟨hq, by show ((step s t).getD s).told = _; rw [hs]; exact ht, by show changes ((step s t).getD s) = _; rw [hs]; rfl⟩
  | some s' =>
    show Blocked s' q ∧ ((step s t).getD s).told = false ∧ changes ((step s t).getD s) = _
    rw [hs]
    show Blocked s' q ∧ s'.told = false ∧ changes s' = _
    have h0 := hs
    unfold step at hs
    split at hs
    · cases hs
    · rename_i a rest hp
      split at hs
      · rename_i hcan
        have hne : q ≠ t := by
          intro e
          subst e
          obtain ⟨r, hr⟩ := blocked_prog hq
          rw [hp] at hr
          rw [(List.cons.inj hr).1] at hcan
          unfold can at hcan
          rw [ht] at hcan
          cases hcan
        have c1 : (H t).c = false := by
          cases e : (H t).c with
          | false => rfl
          | true => exact absurd (Option.some.inj (hc.symm.trans ((h.hc t).mp e))) hne
        have x1 : (H t).x = false := by
          cases e : (H t).x with
          | false => rfl
          | true => exact absurd (Option.some.inj (he.symm.trans ((h.hx t).mp e))) hne
        have w1 : (H t).w = false := by
          cases e : (H t).w with
          | false => rfl
          | true => have := (h.hw t).mp e; rw [hsh] at this; cases this
        have hd := h.disc t
        rw [hp] at hd
        obtain ⟨h', hn, _⟩ := Option.bind_eq_some_iff.mp hd
        refine ⟨?_, ?_, ?_⟩
        · unfold Blocked
          rw [step_other h0 hne]
          exact hq
        · cases hs
          cases a <;> first | exact ht | rfl
        · cases hs
          cases a with
          | write => unfold next at hn; dsimp only at hn; rw [w1] at hn; cases hn
          | journal => unfold next at hn; dsimp only at hn; rw [c1] at hn; cases hn
          | commit => unfold next at hn; dsimp only at hn; rw [c1] at hn; cases hn
          | checkpoint =>
            show (s.log ++ [(t, Act.checkpoint)]).filter _ = _
            rw [List.filter_append]
            exact List.append_nil _
          | _ => rfl
      · cases hs

theorem blocked_run {s : St} {H : Nat → Held} (h : Inv s H) {q : Nat} (hq : Blocked s q) (ht : s.told = false) :
    ∀ more : List Ev, Ev.unblock ∉ more → Blocked (run s more) q ∧ (run s more).told = false ∧ changes (run s more) = changes s := by
  intro more
  induction more generalizing s H with
  | nil => intro _; exact ⟨hq, ht, rfl⟩
  | cons e more ih =>
    intro hm
    cases e with
    | unblock => exact absurd List.mem_cons_self hm
    | go t =>
      obtain ⟨a, b, c⟩ := blocked_step h hq ht t
      obtain ⟨H', h'⟩ := inv_apply h (.go t)
      have := ih h' a b (fun h => hm (List.mem_cons_of_mem _ h))
      exact ⟨this.1, this.2.1, this.2.2.trans c⟩

/-- When `BlockWrites` is answered, no statement that writes and no commit is under way. From then on until `UnblockWrites` comes, however many
threads there are, whatever they want to do and in whatever order they run, nothing in the database is changed. -/
theorem c117_blocked {jobs : List (List Job)} (hj : Sound jobs) {evs : List Ev} {q : Nat} (h0 : ¬ Blocked (run (start jobs) evs) q)
    (h1 : Blocked (run (start jobs) (evs ++ [.go q])) q) :
    (run (start jobs) (evs ++ [.go q])).sh = [] ∧ (run (start jobs) (evs ++ [.go q])).commit = some q ∧
    ∀ more, Ev.unblock ∉ more → ∀ p ∈ (run (start jobs) (evs ++ [.go q] ++ more)).log.drop (run (start jobs) (evs ++ [.go q])).log.length,
      p.2 = .checkpoint := by
  obtain ⟨H, h⟩ := reach hj (evs ++ [.go q])
  obtain ⟨_, hc, hsh⟩ := blocked_held h h1
  refine ⟨hsh, hc, ?_⟩
  have ht : (run (start jobs) (evs ++ [.go q])).told = false := by
    cases e : (run (start jobs) (evs ++ [.go q])).told with
    | false => rfl
    | true =>
      exfalso
      -- somebody was told before
      obtain ⟨H0, hi0⟩ := reach hj evs
      have hstep : ∃ s', step (run (start jobs) evs) q = some s' ∧ run (start jobs) (evs ++ [.go q]) = s' := by
        rw [run_append] at h1 ⊢
        change Blocked ((step (run (start jobs) evs) q).getD _) q at h1
        cases hs : step (run (start jobs) evs) q with
        | none => rw [hs] at h1; exact absurd h1 h0
        | some s' => exact ⟨s', rfl, (by show (step _ q).getD _ = _; rw [hs]; rfl)⟩
      obtain ⟨s', hs, es⟩ := hstep
      rw [es] at e
      have ht0 : (run (start jobs) evs).told = true := by
        have h2 := hs
        unfold step at h2
        split at h2
        · cases h2
        · rename_i a rest hp
          split at h2
          · cases h2
            cases a <;> first | exact e | cases e
          · cases h2
      obtain ⟨q', hq'⟩ := told_run hj evs ht0
      have hne : q' ≠ q := fun e => h0 (e ▸ hq')
      have : Blocked (run (start jobs) (evs ++ [.go q])) q' := by
        rw [es]
        unfold Blocked
        rw [step_other hs hne]
        exact hq'
      exact hne (blocked_unique h this h1)
  intro more hm p hp
  have hch := (blocked_run h h1 ht more hm).2.2
  rw [run_append _ (evs ++ [Ev.go q]) more] at hp
  -- the log only grows
  have grow : ∀ (more : List Ev) (s : St), ∃ l, (run s more).log = s.log ++ l := by
    intro more
    induction more with
    | nil => intro s; exact ⟨[], (List.append_nil _).symm⟩
    | cons e more ih =>
      intro s
      obtain ⟨l, hl⟩ := ih (apply s e)
      have : ∃ l', (apply s e).log = s.log ++ l' := by
        cases e with
        | go t =>
          show ∃ l', ((step s t).getD s).log = _
          cases hs : step s t with
          | none => exact ⟨[], (List.append_nil _).symm⟩
          | some s' =>
            unfold step at hs
            split at hs
            · cases hs
            · rename_i a rest hp
              split at hs
              · cases hs
                cases a <;> first | exact ⟨[], (List.append_nil _).symm⟩ | exact ⟨_, rfl⟩
              · cases hs
        | unblock =>
          unfold apply
          dsimp only
          split <;> exact ⟨[], (List.append_nil _).symm⟩
      obtain ⟨l', hl'⟩ := this
      refine ⟨l' ++ l, ?_⟩
      show (run (apply s e) more).log = _
      rw [hl, hl', List.append_assoc]
  obtain ⟨l, hl⟩ := grow more (run (start jobs) (evs ++ [.go q]))
  unfold changes at hch
  rw [hl, List.filter_append] at hch
  have hnil : l.filter (fun p => decide (p.2 ≠ .checkpoint)) = [] := by
    have := congrArg List.length hch
    rw [List.length_append] at this
    exact List.eq_nil_of_length_eq_zero (by omega)
  rw [hl, List.drop_left] at hp
  have := List.filter_eq_nil_iff.mp hnil p hp
  exact Decidable.of_not_not (fun hn => this (decide_eq_true hn))

/-- `UnblockWrites` gives both locks back. -/
theorem c117_unblocked {s : St} {q : Nat} {rest : List Act} (hp : prog s q = [.waitTold, .unlockEx, .unlockCommit] ++ rest) :
    let s' := run s [.unblock, .go q, .go q, .go q]
    s'.ex = none ∧ s'.commit = none ∧ s'.told = false ∧ s'.log = s.log ∧ prog s' q = rest := by
  have hany : (s.progs.any fun p => p.head? = some .waitTold) = true := by
    unfold prog at hp
    cases hg : s.progs[q]? with
    | none => rw [hg] at hp; cases hp
    | some p =>
      rw [hg] at hp
      have hp : p = _ := hp
      exact List.any_eq_true.mpr ⟨p, List.mem_of_getElem? hg, by rw [hp]; rfl⟩
  have e1 : apply s .unblock = { s with told := true } := by
    unfold apply
    dsimp only
    rw [if_pos hany]
  have one : ∀ (s : St) a r, prog s q = a :: r → can s a = true →
      apply s (.go q) = { effect s q a with progs := s.progs.set q r } ∧ prog (apply s (.go q)) q = r := by
    intro s a r h1 h2
    have e : apply s (.go q) = { effect s q a with progs := s.progs.set q r } := by
      show (step s q).getD s = _
      unfold step
      rw [h1]
      dsimp only
      rw [if_pos h2]
      rfl
    refine ⟨e, ?_⟩
    rw [e]
    exact (prog_set h1 rfl q).trans (if_pos rfl)
  have a1 := one (apply s .unblock) .waitTold ([.unlockEx, .unlockCommit] ++ rest) (by rw [e1]; exact hp) (by rw [e1]; rfl)
  have a2 := one (apply (apply s .unblock) (.go q)) .unlockEx (.unlockCommit :: rest) a1.2 rfl
  have a3 := one (apply (apply (apply s .unblock) (.go q)) (.go q)) .unlockCommit rest a2.2 rfl
  show (apply (apply (apply (apply s .unblock) (.go q)) (.go q)) (.go q)).ex = none ∧ _
  refine ⟨?_, ?_, ?_, ?_, a3.2⟩
  · rw [a3.1]; show (apply (apply (apply s .unblock) (.go q)) (.go q)).ex = none; rw [a2.1]; rfl
  · show (apply (apply (apply (apply s .unblock) (.go q)) (.go q)) (.go q)).commit = none; rw [a3.1]; rfl
  · show (apply (apply (apply (apply s .unblock) (.go q)) (.go q)) (.go q)).told = false
    rw [a3.1]; show (apply (apply (apply s .unblock) (.go q)) (.go q)).told = false; rw [a2.1]
    show (apply (apply s .unblock) (.go q)).told = false; rw [a1.1]; rfl
  · show (apply (apply (apply (apply s .unblock) (.go q)) (.go q)) (.go q)).log = s.log
    rw [a3.1]; show (apply (apply (apply s .unblock) (.go q)) (.go q)).log = s.log; rw [a2.1]
    show (apply (apply s .unblock) (.go q)).log = s.log; rw [a1.1, e1]; rfl

/-- A worker is in the middle of a transaction, another has committed, when writes are blocked: the first cannot go on, until they are unblocked. -/
example : let jobs : List (List Job) := [[.shared 2 false 0 (.done false)], [.exclusive 1 false 0 (.done true)], [.quiesce]]
    let evs : List Ev := [.go 0, .go 0, .go 0, .go 1, .go 1, .go 1, .go 1, .go 1, .go 1, .go 1, .go 2]
    let s := run (start jobs) (evs ++ [.go 2])
    ¬ Blocked (run (start jobs) evs) 2 ∧ Blocked s 2 ∧ s.log = [(0, .write), (1, .write), (1, .journal), (1, .commit)] ∧ step s 0 = none ∧
      (run s [.go 0, .unblock, .go 0, .go 2, .go 2, .go 0, .go 0]).log = s.log ++ [(0, .write)] := by
  decide

/-- What is missing: a checkpoint takes none of the locks. The files of the database change while writes are blocked. -/
theorem c117_checkpoint_goes_on : let jobs : List (List Job) := [[.shared 1 false 0 (.done true)], [.quiesce]]
    let s := run (start jobs) [.go 0, .go 0, .go 0, .go 0, .go 0, .go 0, .go 0, .go 1, .go 1]
    Sound jobs ∧ Blocked s 1 ∧ (run s [.go 0]).log = s.log ++ [(0, .checkpoint)] := by
  refine ⟨?_, by decide, by decide⟩
  intro l hl r en hc
  simp only [List.mem_cons, List.not_mem_nil, or_false] at hl
  rcases hl with rfl | rfl <;> simp at hc

/-- What is missing: while writes are blocked, a node that changes state keeps `_stateMutex`, and whoever wants it waits until `UnblockWrites` comes.
The main thread wants it when it is told to stop, after it has closed the control port (BedrockServer.cpp:1970-1986): then neither can
`UnblockWrites` come on a new connection, nor does the main thread see a second SIGTERM (main.cpp:396). -/
theorem c117_shutdown_waits {jobs : List (List Job)} (hj : Sound jobs) {evs : List Ev} {q x y : Nat} {p r : List Act}
    (hq : Blocked (run (start jobs) evs) q) (ht : (run (start jobs) evs).told = false) (hx : (run (start jobs) evs).state = some x)
    (hpx : prog (run (start jobs) evs) x = .lockCommit :: p) (hpy : prog (run (start jobs) evs) y = .lockState :: r) (more : List Ev)
    (hm : Ev.unblock ∉ more) : prog (run (start jobs) (evs ++ more)) y = .lockState :: r := by
  rw [run_append]
  obtain ⟨H, h⟩ := reach hj evs
  generalize run (start jobs) evs = s at *
  have key : ∀ (more : List Ev) (s : St) (H : Nat → Held), Inv s H → Blocked s q → s.told = false → s.state = some x →
      prog s x = .lockCommit :: p → prog s y = .lockState :: r → Ev.unblock ∉ more → prog (run s more) y = .lockState :: r := by
    intro more
    induction more with
    | nil => intro s H _ _ _ _ _ h _; exact h
    | cons e more ih =>
      intro s H h hq ht hx hpx hpy hm
      cases e with
      | unblock => exact absurd List.mem_cons_self hm
      | go t =>
        obtain ⟨a, b, _⟩ := blocked_step h hq ht t
        obtain ⟨H', h'⟩ := inv_apply h (.go t)
        have hc := (blocked_held h hq).2.1
        have nx : step s x = none := by unfold step; rw [hpx]; dsimp only; rw [if_neg (by show ¬ s.commit.isNone = true; rw [hc]; simp)]
        have ny : step s y = none := by unfold step; rw [hpy]; dsimp only; rw [if_neg (by show ¬ s.state.isNone = true; rw [hx]; simp)]
        have keep : ∀ u, step s u = none → prog (apply s (.go t)) u = prog s u := by
          intro u hu
          show prog ((step s t).getD s) u = _
          cases hs : step s t with
          | none => rfl
          | some s' => exact step_other hs (fun e => by subst e; rw [hu] at hs; cases hs)
        have hx' : (apply s (.go t)).state = some x := by
          have hne : t ≠ x ∨ step s t = none := by
            by_cases e : t = x
            · exact .inr (e ▸ nx)
            · exact .inl e
          show ((step s t).getD s).state = _
          cases hs : step s t with
          | none => exact hx
          | some s' =>
            have hne := hne.resolve_right (by rw [hs]; simp)
            show s'.state = _
            unfold step at hs
            split at hs
            · cases hs
            · rename_i a rest hp
              split at hs
              · rename_i hcan
                cases hs
                have hd := h.disc t
                rw [hp] at hd
                obtain ⟨h', hn, _⟩ := Option.bind_eq_some_iff.mp hd
                cases a with
                | lockState => unfold can at hcan; rw [hx] at hcan; cases hcan
                | unlockState =>
                  unfold next at hn
                  dsimp only at hn
                  split at hn
                  · rename_i hc
                    rw [Bool.and_eq_true] at hc
                    exact absurd (Option.some.inj (((h.hs t).mp hc.1).symm.trans hx)) hne
                  · cases hn
                | _ => exact hx
              · cases hs
        exact ih _ H' h' a b hx' ((keep x nx).trans hpx) ((keep y ny).trans hpy) (fun h => hm (List.mem_cons_of_mem _ h))
  exact key more s H h hq ht hx hpx hpy hm

/-- The operator blocks writes; the node loses its leader and changes state; the main thread is told to stop. -/
example : let s := run (start [[.quiesce], [.change none false], [.look]]) [.go 0, .go 0, .go 1]
    Blocked s 0 ∧ s.told = false ∧ s.state = some 1 ∧ prog s 1 = [.lockCommit, .lockEx, .unlockEx, .unlockCommit, .unlockState] ∧
      prog s 2 = [.lockState, .unlockState] := by
  decide

end Bedrock.Locks.Props
