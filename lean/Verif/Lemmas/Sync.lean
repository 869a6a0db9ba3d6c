import Verif.Model.Sync
import Verif.Lemmas.DB
import Verif.Spec.Sync

namespace Bedrock.Sync
open Bedrock Bedrock.DB Bedrock.DB.Spec

/-- The client's view after the calls recorded in `t`, starting from view `v`. -/
def Traced.view (v : View) (t : Traced) : View := t.tr.foldl View.step v

theorem call_view (env : DB.Env) (v : View) (t : Traced) (op : Op) :
    (t.call env op).1.view v = (t.view v).step (op, (t.call env op).2) := by
  simp [Traced.call, Traced.view]

theorem call_inv {env : DB.Env} (hnj : 0 < env.numJournals) (hne : ∀ x, env.sha1hex x ≠ [])
    {v : View} {t : Traced} (hi : Inv env t.s (t.view v)) (op : Op) (hok : okCall (t.view v) op) :
    Inv env (t.call env op).1.s ((t.call env op).1.view v) := by
  rw [call_view]
  exact inv_step hi op hok hnj hne

theorem step_log (v : View) (op : Op) (o : Out) (h : o ≠ .committed) :
    (v.step (op, o)).log = v.log := by
  cases op with
  | crashInCommit h' => cases o <;> first | exact absurd rfl h | rfl
  | write h' q k ok => cases k <;> cases o <;> first | exact absurd rfl h | rfl
  | _ => cases o <;> first | exact absurd rfl h | rfl

theorem crash_ok (env : DB.Env) (t : Traced) (op : Op) (h : op = .crash) :
    (t.call env op).2 = .done := by subst h; simp [Traced.call, step]

theorem die_facts {env : DB.Env} (hnj : 0 < env.numJournals) (hne : ∀ x, env.sha1hex x ≠ [])
    {v : View} {t : Traced} (hi : Inv env t.s (t.view v)) :
    (die env t).2 = .died ∧ Inv env (die env t).1.s ((die env t).1.view v) ∧
    ((die env t).1.view v).log = (t.view v).log := by
  refine ⟨rfl, call_inv hnj hne hi .crash trivial, ?_⟩
  show ((t.call env .crash).1.view v).log = _
  rw [call_view, step_log]
  rw [crash_ok _ _ _ rfl]; simp

theorem call_log {env : DB.Env} {v : View} {t : Traced} (op : Op)
    (h : (t.call env op).2 ≠ .committed) : ((t.call env op).1.view v).log = (t.view v).log := by
  rw [call_view, step_log _ _ _ h]

/-- Only `commit` reports `.committed` (and the ghost outcome of `crashInCommit`). -/
theorem begin_not_committed (env : DB.Env) (t : Traced) (h : Nat) (e sy ok : Bool) :
    (t.call env (.begin h e sy ok)).2 ≠ .committed := by
  have : (begin' t.s h e sy ok).2 ≠ .committed := by
    unfold begin'; split
    · cases sy <;> simp
    · dsimp only; repeat' split
      all_goals simp
  simp only [Traced.call, step]; split <;> simp_all

theorem write_not_committed (env : DB.Env) (t : Traced) (h : Nat) (q : Bytes) (k ok : Bool) :
    (t.call env (.write h q k ok)).2 ≠ .committed := by
  have : (write t.s h q k ok).2 ≠ .committed := by
    unfold write; dsimp only; split <;> simp
  simp only [Traced.call, step]; split <;> simp_all

theorem prepare_not_committed (env : DB.Env) (t : Traced) (h : Nat) (w : Bool) (p : List Nat) (ok : Bool) :
    (t.call env (.prepare h w p ok)).2 ≠ .committed := by
  have : (prepare env t.s h w p ok).2 ≠ .committed := by
    by_cases hin : (t.s.handles h).inside = true
    · rcases prepare_cases env t.s h w p ok hin with ⟨he, _⟩ | ⟨s2, _, he⟩
      · rw [he]; simp
      · rw [he]; cases ok <;> simp
    · have : prepare env t.s h w p ok = (t.s, .abort) := by simp [prepare, hin]
      rw [this]; simp
  simp only [Traced.call, step]; split <;> simp_all

theorem rollback_done (env : DB.Env) (t : Traced) (h : Nat) :
    (t.call env (.rollback h)).2 = .done := by simp [Traced.call, step]

theorem pop_out (env : DB.Env) (t : Traced) :
    (t.call env .pop).2 = .popped t.s.committed := by simp [Traced.call, step]

/-- Begin, write one text and prepare, all successful. -/
theorem prepared_facts {env : DB.Env} (hnj : 0 < env.numJournals) (hne : ∀ x, env.sha1hex x ≠ [])
    {v : View} {t : Traced} (hi : Inv env t.s (t.view v)) (h : Nat) (sy b1 w1 l1 i1 : Bool)
    (pk : List Nat) (q : Bytes)
    (t1 t2 t3 : Traced)
    (e1 : (t.call env (.begin h false sy b1)) = (t1, .done))
    (e2 : (t1.call env (.write h q true w1)) = (t2, .done))
    (e3 : (t2.call env (.prepare h l1 pk i1)) = (t3, .done)) :
    Inv env t3.s (t3.view v) ∧ (t3.view v).log = (t.view v).log ∧ (t3.view v).pend h = q ∧
    (t3.view v).prepped h = true ∧ (t3.s.handles h).inside = true ∧
    (t3.s.handles h).uhash = chain env.sha1hex ((t.view v).log ++ [q]) ∧
    (t3.s.handles h).uhash ≠ [] ∧
    t3.s.commitCount = (t.view v).log.length := by
  have v1 : t1.view v = (t.view v).step (.begin h false sy b1, .done) := by
    have := call_view env v t (.begin h false sy b1); rw [e1] at this; exact this
  have v2 : t2.view v = (t1.view v).step (.write h q true w1, .done) := by
    have := call_view env v t1 (.write h q true w1); rw [e2] at this; exact this
  have v3 : t3.view v = (t2.view v).step (.prepare h l1 pk i1, .done) := by
    have := call_view env v t2 (.prepare h l1 pk i1); rw [e3] at this; exact this
  have i1' : Inv env t1.s (t1.view v) := by
    have := call_inv hnj hne hi (.begin h false sy b1) trivial; rw [e1] at this; exact this
  have p1 : (t1.view v).prepped h = false := by rw [v1]; simp [View.step]
  have i2 : Inv env t2.s (t2.view v) := by
    have := call_inv hnj hne i1' (.write h q true w1) p1; rw [e2] at this; exact this
  have p2 : (t2.view v).prepped h = false := by rw [v2]; exact p1
  have i3 : Inv env t3.s (t3.view v) := by
    have := call_inv hnj hne i2 (.prepare h l1 pk i1) p2; rw [e3] at this; exact this
  have hlog : (t3.view v).log = (t.view v).log := by rw [v3, v2, v1]; rfl
  have hpend : (t3.view v).pend h = q := by rw [v3, v2, v1]; simp [View.step]
  have hprep : (t3.view v).prepped h = true := by rw [v3]; simp [View.step]
  have H := i3.handle h
  have hu : (t3.s.handles h).uhash ≠ [] := by
    intro hc; have := H.prepped; rw [hprep, hc] at this; simp at this
  obtain ⟨a, _, c, _⟩ := H.prepared hu
  refine ⟨i3, hlog, hpend, hprep, a, ?_, hu, ?_⟩
  · rw [c, i3.hash, hpend, chain_append, hlog]
  · rw [i3.count, hlog]

theorem call_eq (env : DB.Env) (t : Traced) (op : Op) (o : Out) (h : (t.call env op).2 = o) :
    t.call env op = ((t.call env op).1, o) := by rw [← h]

/-- A prepared handle's commit: either it happens, or nothing is changed. -/
theorem commit_facts {env : DB.Env} (hnj : 0 < env.numJournals) (hne : ∀ x, env.sha1hex x ≠ [])
    {v : View} {t : Traced} (hi : Inv env t.s (t.view v)) (h : Nat) (ok : Bool) :
    let c := t.call env (.commit h ok)
    Inv env c.1.s (c.1.view v) ∧
    (c.2 = .committed → (c.1.view v).log = (t.view v).log ++ [(t.view v).pend h]) ∧
    (c.2 ≠ .committed → (c.1.view v).log = (t.view v).log) := by
  intro c
  refine ⟨call_inv hnj hne hi _ trivial, ?_, ?_⟩
  · intro hc
    show ((t.call env (.commit h ok)).1.view v).log = _
    rw [call_view]
    have : (t.call env (.commit h ok)).2 = .committed := hc
    rw [this]; rfl
  · intro hc; exact call_log _ hc

/-- A commit of a prepared handle with commits enabled and no conflict succeeds. -/
theorem commit_succeeds {env : DB.Env} {t : Traced} (h : Nat)
    (hin : (t.s.handles h).inside = true) (hu : (t.s.handles h).uhash ≠ [])
    (hen : t.s.commitEnabled = true) : (t.call env (.commit h true)).2 = .committed := by
  simp [Traced.call, step, commit, hen, hin, hu]

theorem commit_result {env : DB.Env} {t : Traced} (h : Nat) (ok : Bool)
    (hc : (t.call env (.commit h ok)).2 = .committed) :
    ok = true ∧ t.s.commitEnabled = true := by
  simp only [Traced.call, step] at hc
  unfold commit at hc
  cases hen : t.s.commitEnabled <;> cases ok <;> simp [hen] at hc ⊢
  · split at hc <;> simp at hc

end Bedrock.Sync

namespace Bedrock.Sync
open Bedrock Bedrock.DB Bedrock.DB.Spec Bedrock.Sync.Spec

theorem begin_inside_fails {env : DB.Env} {t : Traced} (h : Nat) (sy ok : Bool)
    (hin : (t.s.handles h).inside = true) :
    (t.call env (.begin h false sy ok)).2 = .failed := by
  simp [Traced.call, step, begin', hin]

/-- With a transaction left open, the next item always makes the loop stop with an exception and
the history stays as it is. -/
theorem recvLoop_open (env : REnv) (h : Nat) (t : Traced) (rem : Int) (c : Item) (o : Outcomes)
    (rest : List (Item × Outcomes)) (v : View) (hin : (t.s.handles h).inside = true)
    (hnj : 0 < env.db.numJournals) (hne : ∀ x, env.db.sha1hex x ≠ [])
    (hi : Inv env.db t.s (t.view v)) :
    ∃ t', recvLoop env h t rem ((c, o) :: rest) = (t', none) ∧ Inv env.db t'.s (t'.view v) ∧
      (t'.view v).log = (t.view v).log := by
  have hf := begin_inside_fails (env := env.db) h true o.beginOk hin
  by_cases h1 : (!c.isCommit) = true
  · exact ⟨t, by unfold recvLoop; rw [if_pos h1], hi, rfl⟩
  cases hidx : c.index with
  | none => exact ⟨t, by unfold recvLoop; rw [if_neg h1, hidx], hi, rfl⟩
  | some i =>
    by_cases h2 : i < 0
    · exact ⟨t, by unfold recvLoop; rw [if_neg h1, hidx]; simp only [if_pos h2], hi, rfl⟩
    cases hhash : c.hash with
    | none =>
      exact ⟨t, by unfold recvLoop; rw [if_neg h1, hidx, hhash]; simp only [if_neg h2], hi, rfl⟩
    | some hash =>
      by_cases h3 : i ≠ t.s.commitCount + 1
      · exact ⟨t, by
          unfold recvLoop; rw [if_neg h1, hidx, hhash]; simp only [if_neg h2, if_pos h3], hi, rfl⟩
      · refine ⟨_, by
          unfold recvLoop; rw [if_neg h1, hidx, hhash]
          simp only [if_neg h2, if_neg h3]
          rw [if_pos (by rw [hf]; simp)], call_inv hnj hne hi (.begin h false true o.beginOk) trivial,
          call_log _ (begin_not_committed _ _ _ _ _ _)⟩

theorem recvLoop_facts (env : REnv) (hnj : 0 < env.db.numJournals)
    (hne : ∀ x, env.db.sha1hex x ≠ []) (h : Nat) (v : View) :
    ∀ (items : List (Item × Outcomes)) (t : Traced) (rem : Int), Inv env.db t.s (t.view v) →
    ∃ qs : List Bytes,
      let r := recvLoop env h t rem items
      Inv env.db r.1.s (r.1.view v) ∧
      (r.1.view v).log = (t.view v).log ++ qs ∧
      Justified env (t.view v).log (items.map Prod.fst) qs ∧
      (∀ n, r.2 = some n → rem = n + items.length ∧
        (qs.length = items.length ∨ (qs.length + 1 = items.length ∧ (r.1.view v).prepped h = true ∧
          (∃ q, Justified env (t.view v).log (items.map Prod.fst) (qs ++ [q])) ∧
          (r.1.s.commitEnabled = false ∨ ∃ e ∈ items, e.2.commitOk = false)))) := by
  intro items
  induction items with
  | nil =>
    intro t rem hi
    refine ⟨[], hi, by simp [recvLoop], trivial, ?_⟩
    intro n hn
    simp [recvLoop] at hn
    exact ⟨by simp [hn], Or.inl rfl⟩
  | cons e rest ih =>
    obtain ⟨c, o⟩ := e
    intro t rem hi
    have stop : ∀ t' : Traced, Inv env.db t'.s (t'.view v) → (t'.view v).log = (t.view v).log →
        recvLoop env h t rem ((c, o) :: rest) = (t', none) →
        ∃ qs : List Bytes,
          let r := recvLoop env h t rem ((c, o) :: rest)
          Inv env.db r.1.s (r.1.view v) ∧
          (r.1.view v).log = (t.view v).log ++ qs ∧
          Justified env (t.view v).log (((c, o) :: rest).map Prod.fst) qs ∧
          (∀ n, r.2 = some n → rem = n + ((c, o) :: rest).length ∧
            (qs.length = ((c, o) :: rest).length ∨
             (qs.length + 1 = ((c, o) :: rest).length ∧ (r.1.view v).prepped h = true ∧
              (∃ q, Justified env (t.view v).log (((c, o) :: rest).map Prod.fst) (qs ++ [q])) ∧
              (r.1.s.commitEnabled = false ∨ ∃ e ∈ ((c, o) :: rest), e.2.commitOk = false)))) := by
      intro t' h1 h2 h3
      rw [h3]
      exact ⟨[], h1, by simp [h2], trivial, by intro n hn; simp at hn⟩
    by_cases h1 : (!c.isCommit) = true
    · exact stop t hi rfl (by unfold recvLoop; rw [if_pos h1])
    cases hidx : c.index with
    | none => exact stop t hi rfl (by unfold recvLoop; rw [if_neg h1, hidx])
    | some i =>
    by_cases h2 : i < 0
    · exact stop t hi rfl (by unfold recvLoop; rw [if_neg h1, hidx]; simp only [if_pos h2])
    cases hhash : c.hash with
    | none =>
      exact stop t hi rfl (by
        unfold recvLoop; rw [if_neg h1, hidx, hhash]; simp only [if_neg h2])
    | some hash =>
    by_cases h3 : i ≠ t.s.commitCount + 1
    · exact stop t hi rfl (by
        unfold recvLoop; rw [if_neg h1, hidx, hhash]; simp only [if_neg h2, if_pos h3])
    have hb := call_inv hnj hne hi (.begin h false true o.beginOk) trivial
    have hbl := call_log (v := v) _ (begin_not_committed env.db t h false true o.beginOk)
    by_cases h4 : (t.call env.db (.begin h false true o.beginOk)).2 ≠ .done
    · exact stop _ hb hbl (by
        unfold recvLoop; rw [if_neg h1, hidx, hhash]; simp only [if_neg h2, if_neg h3, if_pos h4])
    cases hdec : env.decompress c.content with
    | none =>
      exact stop _ hb hbl (by
        unfold recvLoop; rw [if_neg h1, hidx, hhash]
        simp only [if_neg h2, if_neg h3, if_neg h4, hdec])
    | some q =>
    have e1 := call_eq env.db t (.begin h false true o.beginOk) .done (by simpa using h4)
    have hp1 : ((t.call env.db (.begin h false true o.beginOk)).1.view v).prepped h = false := by
      rw [call_view]; simp only [ne_eq, Decidable.not_not] at h4; rw [h4]; simp [View.step]
    have hw := call_inv hnj hne hb (.write h (env.expand q) true o.writeOk) hp1
    have hwl := call_log (v := v) _ (write_not_committed env.db
      (t.call env.db (.begin h false true o.beginOk)).1 h (env.expand q) true o.writeOk)
    rw [hbl] at hwl
    by_cases h5 : ((t.call env.db (.begin h false true o.beginOk)).1.call env.db
        (.write h (env.expand q) true o.writeOk)).2 ≠ .done
    · exact stop _ hw hwl (by
        unfold recvLoop; rw [if_neg h1, hidx, hhash]
        simp only [if_neg h2, if_neg h3, if_neg h4, hdec, if_pos h5])
    have e2 := call_eq env.db _ (.write h (env.expand q) true o.writeOk) .done (by simpa using h5)
    have hp2 : (((t.call env.db (.begin h false true o.beginOk)).1.call env.db
        (.write h (env.expand q) true o.writeOk)).1.view v).prepped h = false := by
      rw [call_view]; simp only [ne_eq, Decidable.not_not] at h5; rw [h5]; exact hp1
    have hpi := call_inv hnj hne hw (.prepare h o.lockOk o.pick o.insertOk) hp2
    have hpl := call_log (v := v) _ (prepare_not_committed env.db
      ((t.call env.db (.begin h false true o.beginOk)).1.call env.db
        (.write h (env.expand q) true o.writeOk)).1 h o.lockOk o.pick o.insertOk)
    rw [hwl] at hpl
    by_cases h6 : (((t.call env.db (.begin h false true o.beginOk)).1.call env.db
        (.write h (env.expand q) true o.writeOk)).1.call env.db
        (.prepare h o.lockOk o.pick o.insertOk)).2 ≠ .done
    · exact stop _ hpi hpl (by
        unfold recvLoop; rw [if_neg h1, hidx, hhash]
        simp only [if_neg h2, if_neg h3, if_neg h4, hdec, if_neg h5, if_pos h6])
    have e3 := call_eq env.db _ (.prepare h o.lockOk o.pick o.insertOk) .done (by simpa using h6)
    obtain ⟨j1, j2, j3, j4, j5, j6, j7, j8⟩ := prepared_facts hnj hne hi h true _ _ _ _ _ _ _ _ _ e1 e2 e3
    generalize hT : (((t.call env.db (.begin h false true o.beginOk)).1.call env.db
        (.write h (env.expand q) true o.writeOk)).1.call env.db
        (.prepare h o.lockOk o.pick o.insertOk)).1 = t3 at *
    by_cases h7 : (t3.s.handles h).uhash ≠ hash
    · refine stop (t3.call env.db (.rollback h)).1 (call_inv hnj hne j1 _ trivial) ?_ ?_
      · rw [call_log _ (by rw [rollback_done]; simp), j2]
      · unfold recvLoop; rw [if_neg h1, hidx, hhash]
        simp only [if_neg h2, if_neg h3, if_neg h4, hdec, if_neg h5, if_neg h6, hT, if_pos h7]
    have hloop : recvLoop env h t rem ((c, o) :: rest) =
        recvLoop env h (t3.call env.db (.commit h o.commitOk)).1 (rem - 1) rest := by
      conv => lhs; unfold recvLoop
      rw [if_neg h1, hidx, hhash]
      simp only [if_neg h2, if_neg h3, if_neg h4, hdec, if_neg h5, if_neg h6, hT, if_neg h7]
    rw [hloop]
    obtain ⟨k1, k2, k3⟩ := commit_facts hnj hne j1 h o.commitOk
    have hhash' : hash = chain env.db.sha1hex ((t.view v).log ++ [env.expand q]) := by
      rw [← j6]; exact (Decidable.not_not.1 h7).symm
    have hidx' : i = ((t.view v).log.length + 1 : Nat) := by
      simp only [ne_eq, Decidable.not_not] at h3
      rw [h3, hi.count]; rfl
    have hjust : ∀ qs, Justified env ((t.view v).log ++ [env.expand q]) (rest.map Prod.fst) qs →
        Justified env (t.view v).log (((c, o) :: rest).map Prod.fst) (env.expand q :: qs) := by
      intro qs hqs
      refine ⟨by simpa using h1, by rw [hidx, hidx'], ⟨q, hdec, rfl⟩, by rw [hhash, hhash'], hqs⟩
    by_cases hc : (t3.call env.db (.commit h o.commitOk)).2 = .committed
    · have hlog := k2 hc
      rw [j2, j3] at hlog
      obtain ⟨qs, m1, m2, m3, m4⟩ := ih _ (rem - 1) k1
      refine ⟨env.expand q :: qs, m1, ?_, ?_, ?_⟩
      · rw [m2, hlog]; simp
      · apply hjust; rw [← hlog]; exact m3
      · intro n hn
        obtain ⟨a, b⟩ := m4 n hn
        refine ⟨by simp only [List.length_cons]; omega, ?_⟩
        rcases b with b | ⟨b, b', ⟨q', b2⟩, b3⟩
        · left; simp [b]
        · right
          refine ⟨by simp [← b], b', ⟨q', hjust _ (by rw [← hlog]; exact b2)⟩, ?_⟩
          rcases b3 with b3 | ⟨e, he, b3⟩
          · exact Or.inl b3
          · exact Or.inr ⟨e, by simp [he], b3⟩
    · have hlog := k3 hc
      rw [j2] at hlog
      have hs : (t3.call env.db (.commit h o.commitOk)).1.s = t3.s ∧
          (t3.call env.db (.commit h o.commitOk)).2 ≠ .abort := by
        simp only [Traced.call, step] at hc ⊢
        unfold commit at hc ⊢
        cases hen : t3.s.commitEnabled <;> cases hco : o.commitOk <;> rw [hco] at hc <;>
          simp [hen, j5, j7] at hc ⊢
      have hprep : ((t3.call env.db (.commit h o.commitOk)).1.view v).prepped h = true := by
        rw [call_view]
        obtain ⟨_, hna⟩ := hs
        revert hc hna
        cases (t3.call env.db (.commit h o.commitOk)).2 <;> simp [View.step, j4]
      cases rest with
      | nil =>
        refine ⟨[], k1, by simp [recvLoop, hlog], trivial, ?_⟩
        intro n hn
        simp only [recvLoop, Option.some.injEq] at hn
        refine ⟨by simp; omega, Or.inr ⟨rfl, hprep, ⟨_, hjust [] trivial⟩, ?_⟩⟩
        by_cases hco : o.commitOk = true
        · left
          rw [recvLoop, hs.1]
          by_cases hen : t3.s.commitEnabled = true
          · rw [hco] at hc; exact absurd (commit_succeeds h j5 j7 hen) hc
          · simpa using hen
        · right; exact ⟨(c, o), by simp, by simpa using hco⟩
      | cons e2 rest2 =>
        obtain ⟨c2, o2⟩ := e2
        obtain ⟨t', x1, x2, x3⟩ := recvLoop_open env h (t3.call env.db (.commit h o.commitOk)).1 (rem - 1)
          c2 o2 rest2 v (by rw [hs.1]; exact j5) hnj hne k1
        rw [x1]
        refine ⟨[], x2, by simp [x3, hlog], trivial, ?_⟩
        intro n hn
        simp at hn

end Bedrock.Sync

namespace Bedrock.Sync
open Bedrock Bedrock.DB Bedrock.DB.Spec Bedrock.Sync.Spec

theorem replicateOne_facts (env : REnv) (hnj : 0 < env.db.numJournals)
    (hne : ∀ x, env.db.sha1hex x ≠ []) (h : Nat) (v : View) (t : Traced) (m : TxMsg) (o : Outcomes)
    (hi : Inv env.db t.s (t.view v)) :
    let r := replicateOne env t h m o
    Inv env.db r.1.s (r.1.view v) ∧
    (r.2 = .died → (r.1.view v).log = (t.view v).log) ∧
    (r.2 = .applied → ∃ raw,
      env.decompress m.content = some raw ∧ m.id.isSome ∧
      m.newCount = some ((t.view v).log.length + 1) ∧
      m.newHash = some (chain env.db.sha1hex ((t.view v).log ++ [env.expand raw])) ∧
      (r.1.view v).log = (t.view v).log ++ [env.expand raw]) := by
  intro r
  suffices h : ∃ r', replicateOne env t h m o = r' ∧ Inv env.db r'.1.s (r'.1.view v) ∧
    (r'.2 = .died → (r'.1.view v).log = (t.view v).log) ∧
    (r'.2 = .applied → ∃ raw,
      env.decompress m.content = some raw ∧ m.id.isSome ∧
      m.newCount = some ((t.view v).log.length + 1) ∧
      m.newHash = some (chain env.db.sha1hex ((t.view v).log ++ [env.expand raw])) ∧
      (r'.1.view v).log = (t.view v).log ++ [env.expand raw]) by
    obtain ⟨r', e, x⟩ := h
    show Inv env.db (replicateOne env t _ m o).1.s _ ∧ _
    have : r = r' := e
    rw [this]; rw [e]; exact x
  have stop : ∀ t' : Traced, Inv env.db t'.s (t'.view v) → (t'.view v).log = (t.view v).log →
      replicateOne env t h m o = die env.db t' →
      ∃ r', replicateOne env t h m o = r' ∧ Inv env.db r'.1.s (r'.1.view v) ∧
      (r'.2 = .died → (r'.1.view v).log = (t.view v).log) ∧
      (r'.2 = .applied → ∃ raw,
        env.decompress m.content = some raw ∧ m.id.isSome ∧
        m.newCount = some ((t.view v).log.length + 1) ∧
        m.newHash = some (chain env.db.sha1hex ((t.view v).log ++ [env.expand raw])) ∧
        (r'.1.view v).log = (t.view v).log ++ [env.expand raw]) := by
    intro t' a b c
    obtain ⟨d1, d2, d3⟩ := die_facts hnj hne a
    exact ⟨_, c, d2, fun _ => by rw [d3, b], fun hx => by rw [d1] at hx; simp at hx⟩
  by_cases h1 : (!o.following) = true
  · exact stop t hi rfl (by unfold replicateOne; rw [if_pos h1])
  by_cases h2 : (!(t.s.handles h).uhash.isEmpty) = true
  · exact stop t hi rfl (by unfold replicateOne; rw [if_neg h1, if_pos h2])
  have hb := call_inv hnj hne hi (.begin h false false o.beginOk) trivial
  have hbl := call_log (v := v) _ (begin_not_committed env.db t h false false o.beginOk)
  by_cases h4 : (t.call env.db (.begin h false false o.beginOk)).2 ≠ .done
  · exact stop _ hb hbl (by
      unfold replicateOne; rw [if_neg h1, if_neg h2]; simp only [if_pos h4])
  rcases Option.eq_none_or_eq_some (env.decompress m.content) with hdec | ⟨q, hdec⟩
  · exact stop _ hb hbl (by
      unfold replicateOne; rw [if_neg h1, if_neg h2]; simp only [if_neg h4, hdec])
  have e1 := call_eq env.db t (.begin h false false o.beginOk) .done (by simpa using h4)
  have hp1 : ((t.call env.db (.begin h false false o.beginOk)).1.view v).prepped h = false := by
    rw [call_view]; simp only [ne_eq, Decidable.not_not] at h4; rw [h4]; simp [View.step]
  have hw := call_inv hnj hne hb (.write h (env.expand q) true o.writeOk) hp1
  have hwl := call_log (v := v) _ (write_not_committed env.db
    (t.call env.db (.begin h false false o.beginOk)).1 h (env.expand q) true o.writeOk)
  rw [hbl] at hwl
  by_cases h5 : ((t.call env.db (.begin h false false o.beginOk)).1.call env.db
      (.write h (env.expand q) true o.writeOk)).2 ≠ .done
  · exact stop _ hw hwl (by
      unfold replicateOne; rw [if_neg h1, if_neg h2]; simp only [if_neg h4, hdec, if_pos h5])
  have e2 := call_eq env.db _ (.write h (env.expand q) true o.writeOk) .done (by simpa using h5)
  have hp2 : (((t.call env.db (.begin h false false o.beginOk)).1.call env.db
      (.write h (env.expand q) true o.writeOk)).1.view v).prepped h = false := by
    rw [call_view]; simp only [ne_eq, Decidable.not_not] at h5; rw [h5]; exact hp1
  rcases Option.eq_none_or_eq_some m.id with hid | ⟨idv, hid⟩
  · exact stop _ hw hwl (by
      unfold replicateOne; rw [if_neg h1, if_neg h2]; simp only [if_neg h4, hdec, if_neg h5, hid])
  rcases Option.eq_none_or_eq_some m.newCount with hcnt | ⟨n, hcnt⟩
  · exact stop _ hw hwl (by
      unfold replicateOne; rw [if_neg h1, if_neg h2]
      simp only [if_neg h4, hdec, if_neg h5, hid, hcnt])
  rcases Option.eq_none_or_eq_some m.newHash with hhash | ⟨hash, hhash⟩
  · exact stop _ hw hwl (by
      unfold replicateOne; rw [if_neg h1, if_neg h2]
      simp only [if_neg h4, hdec, if_neg h5, hid, hcnt, hhash])
  have hpi := call_inv hnj hne hw (.prepare h o.lockOk o.pick o.insertOk) hp2
  have hpl := call_log (v := v) _ (prepare_not_committed env.db
    ((t.call env.db (.begin h false false o.beginOk)).1.call env.db
      (.write h (env.expand q) true o.writeOk)).1 h o.lockOk o.pick o.insertOk)
  rw [hwl] at hpl
  by_cases h6 : (((t.call env.db (.begin h false false o.beginOk)).1.call env.db
      (.write h (env.expand q) true o.writeOk)).1.call env.db
      (.prepare h o.lockOk o.pick o.insertOk)).2 ≠ .done
  · refine stop _ (call_inv hnj hne hpi (.rollback h) trivial) ?_ (by
      unfold replicateOne; rw [if_neg h1, if_neg h2]
      simp only [if_neg h4, hdec, if_neg h5, hid, hcnt, hhash, if_pos h6])
    rw [call_log _ (by rw [rollback_done]; simp), hpl]
  have e3 := call_eq env.db _ (.prepare h o.lockOk o.pick o.insertOk) .done (by simpa using h6)
  obtain ⟨j1, j2, j3, j4, j5, j6, j7, j8⟩ := prepared_facts hnj hne hi h false _ _ _ _ _ _ _ _ _ e1 e2 e3
  generalize hT : (((t.call env.db (.begin h false false o.beginOk)).1.call env.db
      (.write h (env.expand q) true o.writeOk)).1.call env.db
      (.prepare h o.lockOk o.pick o.insertOk)).1 = t3 at *
  have h7 : ¬ ((t3.s.handles h).uhash.isEmpty = true) := by simpa using j7
  by_cases h8 : n ≠ t3.s.commitCount + 1
  · exact stop _ j1 j2 (by
      unfold replicateOne; rw [if_neg h1, if_neg h2]
      simp only [if_neg h4, hdec, if_neg h5, hid, hcnt, hhash, if_neg h6, hT, if_neg h7, if_pos h8])
  by_cases h9 : hash ≠ (t3.s.handles h).uhash
  · exact stop _ j1 j2 (by
      unfold replicateOne; rw [if_neg h1, if_neg h2]
      simp only [if_neg h4, hdec, if_neg h5, hid, hcnt, hhash, if_neg h6, hT, if_neg h7, if_neg h8,
        if_pos h9])
  obtain ⟨k1, k2, k3⟩ := commit_facts hnj hne j1 h o.commitOk
  by_cases hc : (t3.call env.db (.commit h o.commitOk)).2 = .committed
  · refine ⟨(((t3.call env.db (.commit h o.commitOk)).1.call env.db .pop).1, .applied), ?_, ?_, ?_, ?_⟩
    · unfold replicateOne; rw [if_neg h1, if_neg h2]
      simp only [if_neg h4, hdec, if_neg h5, hid, hcnt, hhash, if_neg h6, hT, if_neg h7, if_neg h8,
        if_neg h9, if_pos hc]
    · exact call_inv hnj hne k1 .pop trivial
    · intro hx; simp at hx
    · intro _
      refine ⟨q, hdec, by simp [hid], ?_, ?_, ?_⟩
      · rw [hcnt, Decidable.not_not.1 h8, j8]
      · rw [hhash, Decidable.not_not.1 h9, j6]
      · rw [call_log _ (by rw [pop_out]; simp), k2 hc, j2, j3]
  · refine stop _ k1 ?_ (by
      unfold replicateOne; rw [if_neg h1, if_neg h2]
      simp only [if_neg h4, hdec, if_neg h5, hid, hcnt, hhash, if_neg h6, hT, if_neg h7, if_neg h8,
        if_neg h9, if_neg hc])
    rw [k3 hc, j2]

/-! ## Success of the individual calls -/

/-- A handle at rest in a database whose lock is free and commits enabled can run a transaction. -/
structure Ready (s : Sys) (h : Nat) : Prop where
  idle : (s.handles h).inside = false
  unlocked : (s.handles h).locked = false
  free : s.lock = none
  enabled : s.commitEnabled = true

theorem ready_tx {env : DB.Env} (hnj : 0 < env.numJournals) (hne : ∀ x, env.sha1hex x ≠ [])
    {v : View} {t : Traced} (hi : Inv env t.s (t.view v)) (h : Nat) (hr : Ready t.s h)
    (sy : Bool) (q : Bytes) (pk : List Nat) :
    ∃ t1 t2 t3 t4,
      t.call env (.begin h false sy true) = (t1, .done) ∧
      t1.call env (.write h q true true) = (t2, .done) ∧
      t2.call env (.prepare h true pk true) = (t3, .done) ∧
      t3.call env (.commit h true) = (t4, .committed) ∧ Ready t4.s h := by
  obtain ⟨hu, hq, _, _⟩ := (hi.handle h).outside hr.idle
  have e1 : begin' t.s h false sy true =
      ({ t.s with handles := upd t.s.handles h { t.s.handles h with inside := true } }, .done) := by
    simp [begin', hr.idle, hu, hq]
  generalize hs1 : ({ t.s with handles := upd t.s.handles h { t.s.handles h with inside := true } } : Sys) = s1 at e1
  have a1 : (s1.handles h).inside = true ∧ (s1.handles h).locked = false ∧ s1.lock = none ∧
      s1.commitEnabled = true ∧ (s1.handles h).uhash = [] := by
    subst hs1; simp [hr.unlocked, hr.free, hr.enabled, hu]
  have e2 : write s1 h q true true =
      ({ s1 with handles := upd s1.handles h { s1.handles h with uquery := (s1.handles h).uquery ++ q } }, .done) := by
    simp [write, a1.1]
  generalize hs2 : ({ s1 with handles := upd s1.handles h { s1.handles h with uquery := (s1.handles h).uquery ++ q } } : Sys) = s2 at e2
  have a2 : (s2.handles h).inside = true ∧ (s2.handles h).locked = false ∧ s2.lock = none ∧
      s2.commitEnabled = true := by
    subst hs2; simp [a1]
  have e3 : ∃ s3, prepare env s2 h true pk true = (s3, .done) ∧ (s3.handles h).inside = true ∧
      (s3.handles h).uhash ≠ [] ∧ s3.commitEnabled = true ∧ s3.lock = some (h, 1) := by
    rcases prepare_cases env s2 h true pk true a2.1 with ⟨he, _⟩ | ⟨s', hs', he⟩
    · exfalso
      revert he
      unfold prepare
      simp only [a2, lockFree]
      simp
    · rcases hs' with ⟨_, hl⟩ | ⟨rfl, hf, _⟩
      · rw [a2.2.1] at hl; simp at hl
      · refine ⟨_, he, ?_, ?_, ?_, ?_⟩ <;>
          simp [prepFinish, acquire, lockAcquire, hne, a2]
  obtain ⟨s3, e3, b1, b2, b3, b4⟩ := e3
  have e4 : ∃ s4, commit s3 h true = (s4, .committed) ∧ Ready s4 h := by
    have hb : ∃ s4, commit s3 h true = (lockRelease s4, .committed) ∧
        (s4.handles h).inside = false ∧ (s4.handles h).locked = false ∧
        s4.lock = some (h, 1) ∧ s4.commitEnabled = true := by
      unfold commit
      rw [if_neg (by simp [b3]), if_neg (by simp [b1, b2]), if_pos rfl]
      refine ⟨_, rfl, ?_, ?_, ?_, ?_⟩ <;> simp [incrementCommit, b3, b4]
    obtain ⟨s4, hb, c1, c2, c3, c4⟩ := hb
    refine ⟨_, hb, ?_, ?_, ?_, ?_⟩
    · rw [lockRelease_lock]; exact c1
    · rw [lockRelease_lock]; exact c2
    · simp [lockRelease, c3]
    · rw [lockRelease_lock]; exact c4
  obtain ⟨s4, e4, b5⟩ := e4
  have f1 := call_eq env t (.begin h false sy true) .done (by simp [Traced.call, step, e1])
  have g1 : (t.call env (.begin h false sy true)).1.s = s1 := by simp [Traced.call, step, e1]
  generalize (t.call env (.begin h false sy true)).1 = t1 at f1 g1
  subst g1
  have f2 := call_eq env t1 (.write h q true true) .done (by simp [Traced.call, step, e2])
  have g2 : (t1.call env (.write h q true true)).1.s = s2 := by simp [Traced.call, step, e2]
  generalize (t1.call env (.write h q true true)).1 = t2 at f2 g2
  subst g2
  have f3 := call_eq env t2 (.prepare h true pk true) .done (by simp [Traced.call, step, e3])
  have g3 : (t2.call env (.prepare h true pk true)).1.s = s3 := by simp [Traced.call, step, e3]
  generalize (t2.call env (.prepare h true pk true)).1 = t3 at f3 g3
  subst g3
  have f4 := call_eq env t3 (.commit h true) .committed (by simp [Traced.call, step, e4])
  have g4 : (t3.call env (.commit h true)).1.s = s4 := by simp [Traced.call, step, e4]
  generalize (t3.call env (.commit h true)).1 = t4 at f4 g4
  subst g4
  exact ⟨t1, t2, t3, t4, f1, f2, f3, f4, b5⟩

end Bedrock.Sync
