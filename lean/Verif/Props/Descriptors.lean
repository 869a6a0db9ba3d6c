import Verif.Model.Descriptors
import Verif.Model.Literal

/-! # C125: descriptors are owned and given back -/

namespace Bedrock.Descriptors.Props
open Bedrock Bedrock.Descriptors

/-! ## `S_socket` -/

/-- C125.  When `S_socket` fails, at whatever call, it leaves no descriptor behind. -/
theorem c125_failed (host : Bytes) (tcp port blocking : Bool) (e : Net) (fds : List Nat)
    (h : (socket host tcp port blocking e).2 = none) : effects fds (socket host tcp port blocking e).1 = fds := by
  unfold socket at *
  split <;> rename_i h1
  · rfl
  · rw [if_neg h1] at h
    split <;> rename_i h2
    · rfl
    · rw [if_neg h2] at h
      cases hf : e.fd with
      | none => rfl
      | some n =>
        rw [hf] at h
        cases blocking <;> cases hn : e.nonblock <;> cases port <;> cases hr : e.reuse <;> cases hb : e.bind <;> cases tcp <;>
          cases hl : e.listen <;> cases hc : e.connect <;>
          simp_all [effects, Call.effect] <;> (try (split <;> simp_all [Call.effect]))

/-- C125.  When it succeeds, one descriptor is open that was not, and it is the result. -/
theorem c125_opened (host : Bytes) (tcp port blocking : Bool) (e : Net) (fds : List Nat) (n : Nat)
    (h : (socket host tcp port blocking e).2 = some n) :
    effects fds (socket host tcp port blocking e).1 = n :: fds ∧ e.fd = some n := by
  unfold socket at *
  split <;> rename_i h1
  · rw [if_pos h1] at h; cases h
  · rw [if_neg h1] at h
    split <;> rename_i h2
    · rw [if_pos h2] at h; cases h
    · rw [if_neg h2] at h
      cases hf : e.fd with
      | none => rw [hf] at h; cases h
      | some m =>
        rw [hf] at h
        cases blocking <;> cases hn : e.nonblock <;> cases port <;> cases hr : e.reuse <;> cases hb : e.bind <;> cases tcp <;>
          cases hl : e.listen <;> cases hc : e.connect <;>
          simp_all [effects, Call.effect] <;> (try (split <;> simp_all [Call.effect]))

/-- C125.  The descriptor is ready for what was asked: closed on `exec`, non-blocking exactly if asked for; a port is bound, and
listens exactly if TCP, and is not connected; a socket is connected or connecting, and not bound.  It is not closed. -/
theorem c125_ready (host : Bytes) (tcp port blocking : Bool) (e : Net) (n : Nat)
    (h : (socket host tcp port blocking e).2 = some n) :
    let cs := (socket host tcp port blocking e).1
    (Address.parseHost host).isSome ∧ Call.cloexec n ∈ cs ∧ (Call.nonblock n ∈ cs ↔ blocking = false) ∧
      (Call.bound n ∈ cs ↔ port = true) ∧ (Call.listening n ∈ cs ↔ port = true ∧ tcp = true) ∧
      (Call.connecting n ∈ cs ↔ port = false) ∧ Call.closed n ∉ cs := by
  unfold socket at *
  by_cases h1 : (Address.parseHost host).isNone
  · rw [if_pos h1] at h; cases h
  · have h1' : (Address.parseHost host).isSome := by
      cases hp : Address.parseHost host with
      | none => rw [hp] at h1; exact absurd rfl h1
      | some _ => rfl
    rw [if_neg h1] at h ⊢
    split <;> rename_i h2
    · rw [if_pos h2] at h; cases h
    · rw [if_neg h2] at h
      cases hf : e.fd with
      | none => rw [hf] at h; cases h
      | some m =>
        rw [hf] at h
        cases blocking <;> cases hn : e.nonblock <;> cases port <;> cases hr : e.reuse <;> cases hb : e.bind <;> cases tcp <;>
          cases hl : e.listen <;> cases hc : e.connect <;>
          simp_all <;> (try (split <;> simp_all))

/-- C125.  It fails only if a call fails: a connection that is under way, or interrupted, is no failure. -/
theorem c125_succeeds (host : Bytes) (tcp port blocking : Bool) (e : Net) (n : Nat) (hh : (Address.parseHost host).isSome)
    (hr : e.literal = true ∨ e.resolves = true) (hf : e.fd = some n) (hb : blocking = true ∨ e.nonblock = true)
    (hp : port = true → e.reuse = true ∧ e.bind = true ∧ (tcp = true → e.listen = true))
    (hc : port = false → e.connect ≠ some .other) : (socket host tcp port blocking e).2 = some n := by
  unfold socket
  have h1 : (Address.parseHost host).isNone = false := by
    cases hq : Address.parseHost host with
    | none => rw [hq] at hh; exact absurd hh (by decide)
    | some _ => rfl
  rw [if_neg (by rw [h1]; decide), if_neg (by rcases hr with h | h <;> simp [h]), hf]
  simp only
  rw [if_neg (by rcases hb with h | h <;> simp [h])]
  cases port with
  | true =>
    obtain ⟨a, b, c⟩ := hp rfl
    rw [if_pos rfl, a, b, if_neg (by decide), if_neg (by decide), if_neg (by
      cases tcp with
      | false => simp
      | true => simp [c rfl])]
  | false =>
    have := hc rfl
    cases hx : e.connect with
    | none => rfl
    | some x => cases x <;> first | rfl | exact absurd hx this

/-! ## Histories -/

/-- What the objects own. -/
def owned (s : St) : List Nat := s.objs.filterMap id

/-- The kernel hands out descriptors that are not open. -/
def Fresh : St → List Op → Prop
  | _, [] => True
  | s, o :: os => (∀ n ∈ o.given, n ∉ s.fds) ∧ Fresh (s.step o) os

instance instDecidableFresh : ∀ (s : St) (os : List Op), Decidable (Fresh s os)
  | _, [] => isTrue trivial
  | s, o :: os => have := instDecidableFresh (s.step o) os; inferInstanceAs (Decidable (_ ∧ _))

/-- The operations after which a descriptor is open that nobody owns: a connection to an HTTPS host whose TLS object cannot be
made; one for which `S_socket` failed and TLS made its own; an accepted connection that cannot be made non-blocking; one that got
descriptor 0. -/
def leaks : Op → Bool
  | .connect host https e t =>
    https && match (socket host true false false e).2 with
      | some _ => !(t.hostname && t.setup)
      | none => t.hostname && t.connect.isSome
  | .accept b (some n) nb => (!b && !nb) || n == 0
  | _ => false

structure Inv (base : List Nat) (s : St) : Prop where
  perm : s.fds.Perm (base ++ owned s)
  nodup : s.fds.Nodup

theorem owned_set : ∀ (l : List Obj) (i : Nat) (o : Obj), l[i]? = some o →
    ((l.set i none ++ [o]).filterMap id).Perm (l.filterMap id)
  | [], i, o, h => by simp at h
  | a :: l, 0, o, h => by
    simp only [List.getElem?_cons_zero, Option.some.injEq] at h
    subst h
    cases a with
    | none => simp
    | some n => simp only [List.set_cons_zero, List.cons_append, List.filterMap_cons, id, List.filterMap_append]
                exact List.perm_append_comm
  | a :: l, i + 1, o, h => by
    rw [List.getElem?_cons_succ] at h
    have ih := owned_set l i o h
    cases a with
    | none => simpa using ih
    | some n =>
      simp only [List.set_cons_succ, List.cons_append, List.filterMap_cons, id]
      exact List.Perm.cons n ih

theorem owned_erase : ∀ (l : List Obj) (i n : Nat), l[i]? = some (some n) →
    (l.filterMap id).Perm (n :: (l.eraseIdx i).filterMap id)
  | [], i, n, h => by simp at h
  | a :: l, 0, n, h => by
    simp only [List.getElem?_cons_zero, Option.some.injEq] at h
    subst h
    simp
  | a :: l, i + 1, n, h => by
    rw [List.getElem?_cons_succ] at h
    have ih := owned_erase l i n h
    cases a with
    | none => simpa using ih
    | some m =>
      simp only [List.eraseIdx_cons_succ, List.filterMap_cons, id]
      exact (List.Perm.cons m ih).trans (List.Perm.swap n m _)

theorem owned_erase_none : ∀ (l : List Obj) (i : Nat), l[i]? = some none →
    (l.eraseIdx i).filterMap id = l.filterMap id
  | [], i, h => by simp at h
  | a :: l, 0, h => by
    simp only [List.getElem?_cons_zero, Option.some.injEq] at h
    subst h
    simp
  | a :: l, i + 1, h => by
    rw [List.getElem?_cons_succ] at h
    have ih := owned_erase_none l i h
    simp only [List.eraseIdx_cons_succ, List.filterMap_cons, ih]

/-- A descriptor more, with an object that owns it. -/
theorem inv_own {base : List Nat} {s : St} (h : Inv base s) {n : Nat} (hn : n ∉ s.fds) :
    Inv base { fds := n :: s.fds, objs := s.objs ++ [some n] } where
  perm := by
    have e : owned { fds := n :: s.fds, objs := s.objs ++ [some n] } = owned s ++ [n] := by simp [owned]
    rw [e, ← List.append_assoc]
    exact (List.Perm.cons n h.perm).trans (List.perm_append_comm (l₁ := [n]))
  nodup := List.nodup_cons.mpr ⟨hn, h.nodup⟩

/-- A descriptor more, without. -/
theorem inv_lose {base : List Nat} {s : St} (h : Inv base s) {n : Nat} (hn : n ∉ s.fds) :
    Inv ([n] ++ base) { s with fds := n :: s.fds } where
  perm := List.Perm.cons n h.perm
  nodup := List.nodup_cons.mpr ⟨hn, h.nodup⟩

theorem inv_make {base : List Nat} {s : St} (h : Inv base s) {host : Bytes} {port : Bool} {e : Net}
    (hg : ∀ n ∈ e.fd.toList, n ∉ s.fds) : Inv base (s.make (socket host true port false e)) := by
  unfold St.make
  cases hr : (socket host true port false e).2 with
  | none =>
    simp only
    rw [c125_failed _ _ _ _ _ _ hr]; exact h
  | some n =>
    simp only
    obtain ⟨h1, h2⟩ := c125_opened _ _ _ _ _ s.fds _ hr
    rw [h1]
    exact inv_own h (hg n (by rw [h2]; exact List.mem_singleton.mpr rfl))

theorem inv_step {base : List Nat} {s : St} (h : Inv base s) (o : Op) (hg : ∀ n ∈ o.given, n ∉ s.fds) :
    ∃ lost : List Nat, lost.length = (if leaks o then 1 else 0) ∧ Inv (lost ++ base) (s.step o) := by
  cases o with
  | proxy host e => exact ⟨[], rfl, inv_make h hg⟩
  | port host e => exact ⟨[], rfl, inv_make h hg⟩
  | connect host https e t =>
    have hgs : ∀ n ∈ e.fd.toList, n ∉ s.fds := fun n hn => hg n (List.mem_append_left _ hn)
    have hgt : ∀ n ∈ t.connect.toList, n ∉ s.fds := fun n hn => hg n (List.mem_append_right _ hn)
    simp only [St.step, St.connect, leaks]
    cases https with
    | false => exact ⟨[], rfl, inv_make h hgs⟩
    | true =>
      have F := c125_failed host true false false e s.fds
      have O := c125_opened host true false false e s.fds
      have cs : (socket host true false false e).2 = none ∨ ∃ n, (socket host true false false e).2 = some n := by
        cases (socket host true false false e).2 with
        | none => exact .inl rfl
        | some n => exact .inr ⟨n, rfl⟩
      rcases cs with hr | ⟨n, hr⟩
      · simp only [hr, F hr]
        unfold tls
        cases hh : t.hostname with
        | false => exact ⟨[], by simp, by simpa using h⟩
        | true =>
          cases hc : t.connect with
          | none => exact ⟨[], by simp, by simpa using h⟩
          | some n =>
            refine ⟨[n], by simp, ?_⟩
            have := inv_lose h (hgt n (by rw [hc]; exact List.mem_singleton.mpr rfl))
            cases t.nonblock <;> cases t.setup <;> simpa using this
      · obtain ⟨h1, h2⟩ := O n hr
        simp only [hr, h1]
        have hn := hgs n (by rw [h2]; exact List.mem_singleton.mpr rfl)
        unfold tls
        cases hh : t.hostname with
        | false => exact ⟨[n], by simp, by simpa using inv_lose h hn⟩
        | true =>
          cases hs : t.setup with
          | false => exact ⟨[n], by simp, by simpa using inv_lose h hn⟩
          | true => exact ⟨[], by simp, by simpa using inv_own h hn⟩
  | accept b fd nb =>
    simp only [St.step, St.accept]
    cases fd with
    | none => exact ⟨[], rfl, h⟩
    | some n =>
      have hn := hg n (List.mem_singleton.mpr rfl)
      simp only [leaks]
      by_cases hb : (!b && !nb) = true
      · rw [if_pos hb]
        exact ⟨[n], by simp [hb], inv_lose h hn⟩
      · rw [if_neg hb]
        by_cases h0 : n = 0
        · rw [if_pos h0]
          exact ⟨[n], by simp [h0], inv_lose h hn⟩
        · rw [if_neg h0]
          exact ⟨[], by simp [hb, h0], inv_own h hn⟩
  | negotiate i t =>
    refine ⟨[], rfl, ?_⟩
    simp only [St.step]
    split
    · rename_i n _
      have : (tls s.fds (some n) t).1 = s.fds := by unfold tls; cases t.hostname <;> cases t.setup <;> rfl
      rw [this]; exact h
    · exact h
  | move i =>
    refine ⟨[], rfl, ?_⟩
    simp only [St.step]
    split
    · rename_i o ho
      exact ⟨h.perm.trans (List.Perm.append_left _ (owned_set _ _ _ ho).symm), h.nodup⟩
    · exact h
  | destroy i =>
    refine ⟨[], rfl, ?_⟩
    simp only [St.step]
    split
    · rename_i n ho
      refine ⟨?_, h.nodup.erase n⟩
      have p := h.perm.trans (List.Perm.append_left base (owned_erase _ _ _ ho))
      have p2 : s.fds.Perm (n :: (base ++ (s.objs.eraseIdx i).filterMap id)) := p.trans List.perm_middle
      have := p2.erase n
      rw [List.erase_cons_head] at this
      exact this
    · rename_i ho
      exact ⟨by
        show s.fds.Perm (base ++ (s.objs.eraseIdx i).filterMap id)
        rw [owned_erase_none _ _ ho]; exact h.perm, h.nodup⟩
    · exact h

theorem inv_run : ∀ (os : List Op) {base : List Nat} {s : St}, Inv base s → Fresh s os →
    ∃ lost : List Nat, lost.length = (os.filter leaks).length ∧ Inv (lost ++ base) (s.run os)
  | [], base, s, h, _ => ⟨[], rfl, h⟩
  | o :: os, base, s, h, hf => by
    obtain ⟨l1, e1, i1⟩ := inv_step h o hf.1
    obtain ⟨l2, e2, i2⟩ := inv_run os i1 hf.2
    refine ⟨l2 ++ l1, ?_, ?_⟩
    · rw [List.length_append, e1, e2, List.filter_cons]
      split
      · rename_i hl; simp
      · simp
    · rw [List.append_assoc]; exact i2

/-- C125.  In every history: the open descriptors are those that were open before, one for each object that is alive and not
moved from, and one for each of the operations in `leaks`; none is owned twice. -/
theorem c125_accounted_partial (base : List Nat) (hb : base.Nodup) (os : List Op) (hf : Fresh { fds := base } os) :
    ∃ lost : List Nat, lost.length = (os.filter leaks).length ∧
      (St.run { fds := base } os).fds.Perm (lost ++ base ++ (St.run { fds := base } os).objs.filterMap id) ∧
      (lost ++ base ++ (St.run { fds := base } os).objs.filterMap id).Nodup := by
  obtain ⟨l, e, i⟩ := inv_run os (base := base) (s := { fds := base }) ⟨by simp [owned], hb⟩ hf
  exact ⟨l, e, i.perm, i.perm.nodup_iff.mp i.nodup⟩

/-- C125.  Without these, when all objects are gone the open descriptors are those from before. -/
theorem c125_given_back (base : List Nat) (hb : base.Nodup) (os : List Op) (hf : Fresh { fds := base } os)
    (hl : ∀ o ∈ os, leaks o = false) (hd : (St.run { fds := base } os).objs = []) : (St.run { fds := base } os).fds.Perm base := by
  obtain ⟨l, e, p, _⟩ := c125_accounted_partial base hb os hf
  have : os.filter leaks = [] := List.filter_eq_nil_iff.mpr fun o ho => by rw [hl o ho]; decide
  rw [this] at e
  have : l = [] := List.length_eq_zero_iff.mp e
  rw [this, hd] at p
  simpa using p

/-- C125.  Every descriptor is closed by the destructor of its object, however often the object was moved: destroying an object
closes exactly the descriptor it owns, and nobody owns it then. -/
theorem c125_closed_once (base : List Nat) (hb : base.Nodup) (os : List Op) (hf : Fresh { fds := base } os) (i n : Nat)
    (ho : (St.run { fds := base } os).objs[i]? = some (some n)) :
    n ∈ (St.run { fds := base } os).fds ∧ n ∉ ((St.run { fds := base } os).step (.destroy i)).fds ∧
      n ∉ ((St.run { fds := base } os).step (.destroy i)).objs.filterMap id := by
  obtain ⟨l, e, i1⟩ := inv_run os (base := base) (s := { fds := base }) ⟨by simp [owned], hb⟩ hf
  have po := owned_erase _ _ _ ho
  have hm : n ∈ owned (St.run { fds := base } os) := po.mem_iff.mpr List.mem_cons_self
  have hn := i1.perm.nodup_iff.mp i1.nodup
  have hno := (List.nodup_append.mp hn).2.1
  refine ⟨i1.perm.mem_iff.mpr (List.mem_append_right _ hm), ?_, ?_⟩
  · simp only [St.step, ho]
    exact fun h => (List.Nodup.mem_erase_iff i1.nodup).mp h |>.1 rfl
  · simp only [St.step, ho]
    exact (List.nodup_cons.mp (po.nodup_iff.mp hno)).1

/-! ## Where the code falls short -/

/-- C125.  `S_socket` fails (the resolver is out for a moment), TLS makes a connection of its own, and only then is `s` looked at:
the constructor throws and the connection stays. -/
theorem c125_lost_https : ∃ o : Op, leaks o = true ∧ (St.run { fds := [0, 1, 2] } [o]).fds = [3, 0, 1, 2] ∧
    (St.run { fds := [0, 1, 2] } [o]).objs = [] :=
  ⟨.connect (b!"a:1") true { resolves := false, fd := none } { connect := some 3 }, by decide +kernel⟩

/-- C125.  The connection is there but the TLS object cannot be made. -/
theorem c125_lost_setup : ∃ o : Op, leaks o = true ∧ (St.run { fds := [0, 1, 2] } [o]).fds = [3, 0, 1, 2] ∧
    (St.run { fds := [0, 1, 2] } [o]).objs = [] :=
  ⟨.connect (b!"a:1") true { fd := some 3, connect := some .inProgress } { setup := false }, by decide +kernel⟩

/-- C125.  An accepted connection that cannot be made non-blocking, and one with descriptor 0. -/
theorem c125_lost_accept : (St.run { fds := [0, 1, 2] } [.accept false (some 3) false]).fds = [3, 0, 1, 2] ∧
    (St.run { fds := [0, 1, 2] } [.accept false (some 3) false]).objs = [] ∧
    (St.run { fds := [1, 2] } [.accept true (some 0) true]).fds = [0, 1, 2] ∧
    (St.run { fds := [1, 2] } [.accept true (some 0) true]).objs = [] := ⟨rfl, rfl, rfl, rfl⟩

/-! ## Cases -/

/-- A port, a connection that is accepted and moved into its thread, an outgoing one that is refused, a proxy. -/
def day : List Op :=
  [.port (b!"localhost:8888") { fd := some 3 }, .accept true (some 4) true, .move 1, .destroy 1,
   .connect (b!"a:1") false { fd := some 5, connect := some .other } {},
   .proxy (b!"p:3128") { fd := some 5, connect := some .inProgress }, .negotiate 2 {}]

example : (St.run { fds := [0, 1, 2] } day).fds = [5, 4, 3, 0, 1, 2] ∧ (St.run { fds := [0, 1, 2] } day).objs = [some 3, some 4, some 5] := by
  decide +kernel

example : Fresh { fds := [0, 1, 2] } day := by
  decide +kernel

example : day.all (fun o => !leaks o) = true := by decide +kernel

/-- **C125** Nothing is done with a socket before it is opened, and it is marked to be closed on `exec` before anything else. -/
theorem c125_opened_first (host : Bytes) (tcp port blocking : Bool) (e : Net) :
    (socket host tcp port blocking e).1 = [] ∨
      ∃ n rest, e.fd = some n ∧ (socket host tcp port blocking e).1 = .opened n :: .cloexec n :: rest := by
  unfold socket
  split
  · exact Or.inl rfl
  split
  · exact Or.inl rfl
  split
  · exact Or.inl rfl
  · rename_i n hn
    refine Or.inr ?_
    cases blocking <;> dsimp only <;> repeat' split
    all_goals exact ⟨n, _, hn, rfl⟩

end Bedrock.Descriptors.Props
