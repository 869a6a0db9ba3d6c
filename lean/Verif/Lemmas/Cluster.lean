import Verif.Spec.Cluster
import Verif.Lemmas.SyncReply
import Verif.Props.Sync

namespace Bedrock.Cluster
open Bedrock Bedrock.DB Bedrock.DB.Spec Bedrock.Sync Bedrock.Sync.Spec Bedrock.Cluster.Spec

/-! ## Lists of broadcasts and replies under growth of the leader's history -/

theorem take_append_left (L qs : List Bytes) (i : Nat) (h : i ≤ L.length) :
    (L ++ qs).take i = L.take i := List.take_append_of_le_length h

theorem getD_append_left' (L qs : List Bytes) (i : Nat) (h : i < L.length) :
    (L ++ qs).getD i [] = L.getD i [] := by
  simp [List.getD_eq_getElem?_getD, List.getElem?_append_left h]

theorem broadcasts_append (env : DB.Env) (L qs : List Bytes) (a b : Nat) (h : b ≤ L.length) :
    broadcasts env (L ++ qs) a b = broadcasts env L a b := by
  unfold broadcasts
  apply List.map_congr_left
  intro i hi
  have : a + 1 ≤ i ∧ i < a + 1 + (b - a) := by simpa using hi
  unfold broadcast
  rw [take_append_left _ _ _ (by omega), getD_append_left' _ _ _ (by omega)]

theorem honestItems_append (env : DB.Env) (L qs : List Bytes) (a b : Nat) (h : b ≤ L.length) :
    honestItems env (L ++ qs) a b = honestItems env L a b := by
  unfold honestItems
  apply List.map_congr_left
  intro i hi
  have : a + 1 ≤ i ∧ i < a + 1 + (b - a) := by simpa using hi
  unfold honestItem
  rw [take_append_left _ _ _ (by omega), getD_append_left' _ _ _ (by omega)]

theorem broadcasts_split (env : DB.Env) (L : List Bytes) (a b c : Nat) (h1 : a ≤ b) (h2 : b ≤ c) :
    broadcasts env L a b ++ broadcasts env L b c = broadcasts env L a c := by
  unfold broadcasts
  rw [← List.map_append]
  congr 1
  have := List.range'_append_1 (s := a + 1) (m := b - a) (n := c - b)
  rw [show a + 1 + (b - a) = b + 1 by omega, show b - a + (c - b) = c - a by omega] at this
  exact this

theorem broadcasts_self (env : DB.Env) (L : List Bytes) (a : Nat) : broadcasts env L a a = [] := by
  simp [broadcasts]

theorem broadcasts_cons (env : DB.Env) (L : List Bytes) (a b : Nat) (h : a < b) :
    broadcasts env L a b = broadcast env L (a + 1) :: broadcasts env L (a + 1) b := by
  unfold broadcasts
  obtain ⟨k, hk⟩ : ∃ k, b - a = k + 1 := ⟨b - a - 1, by omega⟩
  rw [hk, List.range'_succ, List.map_cons, show b - (a + 1) = k by omega]

theorem broadcasts_inj_length (env : DB.Env) (L : List Bytes) (a b : Nat) :
    (broadcasts env L a b).length = b - a := by simp [broadcasts]

/-! ## Hash prefixes -/

/-- `F` is no longer than `L` and has the hash `L` has at that length. -/
def HP (env : DB.Env) (L F : List Bytes) : Prop :=
  F.length ≤ L.length ∧ chain env.sha1hex F = chain env.sha1hex (L.take F.length)

theorem HP.append {env : DB.Env} {L F : List Bytes} (h : HP env L F) (qs : List Bytes) :
    HP env (L ++ qs) F := by
  refine ⟨by have := h.1; simp; omega, ?_⟩
  rw [take_append_left _ _ _ h.1]; exact h.2

/-! ## Leader side -/

theorem sendLoop_entries (env : DB.Env) (L : List Bytes) : ∀ (n a : Nat), a + n = L.length →
    sendLoop a (entries env L a) = (L.length, broadcasts env L a L.length) := by
  intro n
  induction n with
  | zero =>
    intro a h
    have : a = L.length := by omega
    subst this
    simp [entries, sendLoop, broadcasts]
  | succ n ih =>
    intro a h
    have e : entries env L a =
        (a + 1, (stored env (L.getD a []), chain env.sha1hex (L.take (a + 1)))) :: entries env L (a + 1) := by
      unfold entries
      rw [show L.length - a = n + 1 by omega, List.range'_succ, List.map_cons,
        show L.length - (a + 1) = n by omega]
    rw [e, sendLoop, if_neg (by omega), ih (a + 1) (by omega), broadcasts_cons env L a _ (by omega)]
    rfl

theorem entries_drop (env : DB.Env) (L : List Bytes) (a : Nat) (x y : TxMap)
    (h : x ++ y = entries env L a) (ha : a ≤ L.length) :
    y = entries env L (a + x.length) ∧ a + x.length ≤ L.length := by
  have hl : x.length + y.length = L.length - a := by
    have := congrArg List.length h
    simpa [entries] using this
  have hy : y = (entries env L a).drop x.length := by rw [← h]; simp
  refine ⟨?_, by omega⟩
  rw [hy]
  unfold entries
  rw [← List.map_drop, List.drop_range']
  congr 2 <;> omega

/-! ## Effect of calls on the view -/

theorem callable_ok {env : DB.Env} {t : Traced} (hi : Inv env t.s (t.view {})) (op : Op)
    (h : callable t.s op = true) : okCall (t.view {}) op := by
  cases op with
  | write h' _ _ _ =>
    have := (hi.handle h').prepped
    simp only [callable] at h
    simp only [okCall]; rw [this, h]; rfl
  | prepare h' _ _ _ =>
    have := (hi.handle h').prepped
    simp only [callable] at h
    simp only [okCall]; rw [this, h]; rfl
  | _ => trivial

theorem step_log_grow (v : View) (op : Op) (o : Out) : ∃ qs, (v.step (op, o)).log = v.log ++ qs := by
  by_cases h : o = .committed
  · subst h
    cases op with
    | commit h' ok => exact ⟨[v.pend h'], rfl⟩
    | crashInCommit h' => exact ⟨[v.pend h'], by simp [View.step]⟩
    | write h' q k ok => cases k <;> exact ⟨[], by simp [View.step]⟩
    | _ => exact ⟨[], by simp [View.step]⟩
  · exact ⟨[], by simp [step_log v op o h]⟩

theorem call_log_grow (env : DB.Env) (t : Traced) (op : Op) :
    ∃ qs, ((t.call env op).1.view {}).log = (t.view {}).log ++ qs := by
  rw [call_view]; exact step_log_grow _ _ _

theorem step_feed (v : View) (op : Op) (o : Out) (h1 : op ≠ .pop) (h2 : fatal op o = false) :
    (v.step (op, o)).feed = v.feed ∧ (v.step (op, o)).startedAt = v.startedAt := by
  cases op with
  | pop => exact absurd rfl h1
  | crash => simp [fatal] at h2
  | crashInCommit h' => simp [fatal] at h2
  | write h' q k ok => cases k <;> cases o <;> simp [fatal] at h2 <;> simp [View.step]
  | _ => cases o <;> simp [fatal] at h2 <;> simp [View.step]

/-- Commits stay enabled through every call but the one that switches them off. -/
theorem step_enabled (env : DB.Env) (s : Sys) (op : Op) (h : s.commitEnabled = true)
    (hop : ∀ t e, op ≠ .setCommitEnabled t e) : (DB.step env s op).1.commitEnabled = true := by
  have hr : ∀ tb, (restart env tb).commitEnabled = true := fun _ => rfl
  have key : ∀ r : Sys × Out, r.1.commitEnabled = true →
      (if r.2 = .abort then (restart env s.tables, Out.abort) else r).1.commitEnabled = true := by
    intro r hr'; split
    · rfl
    · exact hr'
  cases op with
  | setCommitEnabled t e => exact absurd rfl (hop t e)
  | «begin» h' e sy ok =>
    apply key
    show (begin' s h' e sy ok).1.commitEnabled = true
    have core : ∀ s1 : Sys, s1.commitEnabled = true →
        (if ((s1.handles h').inside || !(s1.handles h').uhash.isEmpty || !(s1.handles h').uquery.isEmpty) = true
             then (rollback s1 h', Out.failed)
             else ({ s1 with handles := upd s1.handles h' { s1.handles h' with inside := ok } },
                   if ok = true then Out.done else Out.failed)).1.commitEnabled = true := by
      intro s1 h1
      split
      · rw [rollback_enabled]; exact h1
      · exact h1
    unfold begin'
    split
    · exact h
    · cases e with
      | false => exact core s h
      | true => exact core (acquire s h') (by rw [acquire_enabled]; exact h)
  | write h' q k ok =>
    apply key
    show (write s h' q k ok).1.commitEnabled = true
    unfold write; dsimp only; repeat' split
    all_goals simp_all
  | prepare h' w p ok =>
    apply key
    show (prepare env s h' w p ok).1.commitEnabled = true
    by_cases hin : (s.handles h').inside = true
    · rcases prepare_cases env s h' w p ok hin with ⟨he, _⟩ | ⟨s2, hs2, he⟩
      · rw [he]; exact h
      · have h2 : s2.commitEnabled = true := by
          rcases hs2 with ⟨e, _⟩ | ⟨e, hf, _⟩
          · rw [e]; exact h
          · obtain ⟨n, hn⟩ := acquire_eq _ h' hf
            rw [e, hn]; exact h
        rw [he]
        cases ok
        · simp only [Bool.false_eq_true, if_false]; rw [rollback_enabled]; exact h2
        · exact h2
    · simp [prepare, hin, h]
  | commit h' ok =>
    apply key
    show (commit s h' ok).1.commitEnabled = true
    unfold commit; dsimp only; repeat' split
    all_goals simp_all
    rw [lockRelease_lock]; simp [incrementCommit, h]
  | rollback h' =>
    apply key
    show (rollback s h').commitEnabled = true
    rw [rollback_enabled]; exact h
  | pop => apply key; exact h
  | crash => apply key; rfl
  | crashInCommit h' => apply key; rfl

theorem call_enabled {env : DB.Env} {t : Traced} (op : Op) (h : t.s.commitEnabled = true)
    (hop : ∀ t e, op ≠ .setCommitEnabled t e) : (t.call env op).1.s.commitEnabled = true :=
  step_enabled env t.s op h hop

theorem recvLoop_enabled (env : REnv) (h : Nat) : ∀ (items : List (Item × Outcomes)) (t : Traced)
    (rem : Int), t.s.commitEnabled = true → (recvLoop env h t rem items).1.s.commitEnabled = true := by
  intro items
  induction items with
  | nil => intro t rem hen; simpa [recvLoop] using hen
  | cons e rest ih =>
    obtain ⟨c, o⟩ := e
    intro t rem hen
    have hb := call_enabled (env := env.db) (.begin h false true o.beginOk) hen (by simp)
    unfold recvLoop
    split
    · exact hen
    · split
      · exact hen
      · split
        · exact hen
        · split
          · exact hen
          · split
            · exact hen
            · dsimp only
              split
              · exact hb
              · split
                · exact hb
                · rename_i q _
                  have hw := call_enabled (env := env.db) (.write h (env.expand q) true o.writeOk) hb (by simp)
                  have hp := call_enabled (env := env.db) (.prepare h o.lockOk o.pick o.insertOk) hw (by simp)
                  split
                  · exact hw
                  · split
                    · exact hp
                    · split
                      · exact call_enabled _ hp (by simp)
                      · exact ih _ _ (call_enabled _ hp (by simp))

theorem recvSync_enabled (env : REnv) (t : Traced) (h : Nat) (m : SyncMsg) (os : Nat → Outcomes)
    (hen : t.s.commitEnabled = true) : (recvSynchronize env t h m os).1.s.commitEnabled = true := by
  unfold recvSynchronize
  split
  · exact hen
  · split
    · exact hen
    · exact recvLoop_enabled _ _ _ _ _ hen

theorem die_enabled (env : DB.Env) (t : Traced) : (die env t).1.s.commitEnabled = true := by
  simp [die, Traced.call, DB.step, restart]

theorem replicateOne_enabled (env : REnv) (t : Traced) (h : Nat) (m : TxMsg) (o : Outcomes)
    (hen : t.s.commitEnabled = true) : (replicateOne env t h m o).1.s.commitEnabled = true := by
  have hb := call_enabled (env := env.db) (.begin h false false o.beginOk) hen (by simp)
  unfold replicateOne
  split
  · exact die_enabled _ _
  · split
    · exact die_enabled _ _
    · dsimp only
      split
      · exact die_enabled _ _
      · split
        · exact die_enabled _ _
        · rename_i q _
          have hw := call_enabled (env := env.db) (.write h (env.expand q) true o.writeOk) hb (by simp)
          have hp := call_enabled (env := env.db) (.prepare h o.lockOk o.pick o.insertOk) hw (by simp)
          split
          · exact die_enabled _ _
          · split
            · repeat' split
              all_goals first
                | exact die_enabled _ _
                | exact call_enabled _ (call_enabled _ hp (by simp)) (by simp)
            · exact die_enabled _ _

end Bedrock.Cluster

namespace Bedrock.Cluster
open Bedrock Bedrock.DB Bedrock.DB.Spec Bedrock.Sync Bedrock.Sync.Spec Bedrock.Cluster.Spec

/-- Where a follower is in the subscription protocol, and what is in flight. -/
inductive Phase (env : DB.Env) (G : Prop) (L : List Bytes) (last : Nat) (sub : Bool) (x : Fol) : Prop
  | idle (h1 : x.mode = .idle) (h2 : x.queue = []) (h3 : x.inbox = []) (h4 : x.outbox = [])
      (h5 : sub = false)
  | asked (h1 : x.mode = .subscribing) (h2 : x.queue = []) (h3 : x.inbox = [])
      (h4 : x.outbox = [] ∨
        x.outbox = [((x.db.view {}).log.length, chain env.sha1hex (x.db.view {}).log)])
      (h5 : sub = false)
  | refused (n : Nat) (h : Bytes) (rest : List LMsg) (h1 : x.mode = .subscribing) (h2 : x.queue = [])
      (h3 : x.inbox = .approved (.mismatch n h) :: rest) (h4 : x.outbox = [])
  | accepted (b e : Nat) (m : SyncMsg) (h1 : x.mode = .subscribing) (h2 : x.queue = [])
      (h3 : x.inbox = .approved (.commits m) :: (broadcasts env L b e).map .tx) (h4 : x.outbox = [])
      (h5 : m.items = honestItems env L (x.db.view {}).log.length b)
      (h6 : HP env L (x.db.view {}).log) (h7 : (x.db.view {}).log.length ≤ b) (h8 : b ≤ e)
      (h9 : e ≤ L.length) (h10 : sub = true → e = last)
  | following (a e : Nat) (ib : List TxMsg) (h1 : x.mode = .following) (h2 : x.outbox = [])
      (h3 : x.inbox = ib.map .tx) (h4 : x.queue ++ ib = broadcasts env L a e)
      (h5 : HP env L (x.db.view {}).log) (h6 : a ≤ e) (h7 : e ≤ L.length)
      (h8 : sub = true → e = last)
      (h9 : a = (x.db.view {}).log.length ∨ (¬ G ∧ a = (x.db.view {}).log.length + 1))

theorem Phase.grow {env : DB.Env} {G : Prop} {L : List Bytes} {last : Nat} {sub : Bool} {x : Fol}
    (h : Phase env G L last sub x) (qs : List Bytes) : Phase env G (L ++ qs) last sub x := by
  cases h with
  | idle h1 h2 h3 h4 h5 => exact .idle h1 h2 h3 h4 h5
  | asked h1 h2 h3 h4 h5 => exact .asked h1 h2 h3 h4 h5
  | refused n h rest h1 h2 h3 h4 => exact .refused n h rest h1 h2 h3 h4
  | accepted b e m h1 h2 h3 h4 h5 h6 h7 h8 h9 h10 =>
    exact .accepted b e m h1 h2 (by rw [broadcasts_append _ _ _ _ _ h9]; exact h3) h4
      (by rw [honestItems_append _ _ _ _ _ (by omega)]; exact h5) (h6.append qs) h7 h8
      (by simp; omega) h10
  | following a e ib h1 h2 h3 h4 h5 h6 h7 h8 h9 =>
    exact .following a e ib h1 h2 h3 (by rw [broadcasts_append _ _ _ _ _ h7]; exact h4) (h5.append qs)
      h6 (by simp; omega) h8 h9

theorem Phase.unsub {env : DB.Env} {G : Prop} {L : List Bytes} {last : Nat} {sub : Bool} {x : Fol}
    (h : Phase env G L last sub x) (last' : Nat) : Phase env G L last' false x := by
  cases h with
  | idle h1 h2 h3 h4 h5 => exact .idle h1 h2 h3 h4 rfl
  | asked h1 h2 h3 h4 h5 => exact .asked h1 h2 h3 h4 rfl
  | refused n h rest h1 h2 h3 h4 => exact .refused n h rest h1 h2 h3 h4
  | accepted b e m h1 h2 h3 h4 h5 h6 h7 h8 h9 h10 =>
    exact .accepted b e m h1 h2 h3 h4 h5 h6 h7 h8 h9 (by simp)
  | following a e ib h1 h2 h3 h4 h5 h6 h7 h8 h9 =>
    exact .following a e ib h1 h2 h3 h4 h5 h6 h7 (by simp) h9

theorem Phase.sent {env : DB.Env} {G : Prop} {L : List Bytes} {last : Nat} {sub : Bool} {x : Fol}
    (h : Phase env G L last sub x) (hl : last ≤ L.length) :
    Phase env G L L.length sub
      (if sub = true then { x with inbox := x.inbox ++ (broadcasts env L last L.length).map .tx }
       else x) := by
  cases hs : sub with
  | false => simp only [Bool.false_eq_true, if_false]; rw [hs] at h; exact h.unsub _
  | true =>
    simp only [if_true]
    cases h with
    | idle h1 h2 h3 h4 h5 => rw [hs] at h5; simp at h5
    | asked h1 h2 h3 h4 h5 => rw [hs] at h5; simp at h5
    | refused n h rest h1 h2 h3 h4 =>
      exact .refused n h (rest ++ (broadcasts env L last L.length).map .tx) h1 h2
        (by simp only [h3, List.cons_append]) h4
    | accepted b e m h1 h2 h3 h4 h5 h6 h7 h8 h9 h10 =>
      have := h10 hs; subst this
      refine .accepted b L.length m h1 h2 ?_ h4 h5 h6 h7 (by omega) (Nat.le_refl _) (fun _ => rfl)
      simp only [h3, List.cons_append, ← List.map_append]
      rw [broadcasts_split _ _ _ _ _ h8 h9]
    | following a e ib h1 h2 h3 h4 h5 h6 h7 h8 h9 =>
      have := h8 hs; subst this
      refine .following a L.length (ib ++ broadcasts env L e L.length) h1 h2 ?_ ?_ h5 (by omega)
        (Nat.le_refl _) (fun _ => rfl) h9
      · simp only [h3, ← List.map_append]
      · show x.queue ++ _ = _
        rw [← List.append_assoc, h4, broadcasts_split _ _ _ _ _ h6 h7]

structure FolInv (env : DB.Env) (G : Prop) (L : List Bytes) (last : Nat) (sub : Bool) (x : Fol) : Prop where
  db : Inv env x.db.s (x.db.view {})
  en : x.mode ≠ .idle → x.db.s.commitEnabled = true
  phase : Phase env G L last sub x

structure CInv (env : DB.Env) (G : Prop) (start : Nat) (c : Cluster) : Prop where
  lead : Inv env c.leader.s (c.leader.view {})
  le : c.lastSent ≤ (c.leader.view {}).log.length
  st : start ≤ c.lastSent
  feed : c.leading = true →
    (c.leader.view {}).startedAt + (c.leader.view {}).feed.length = c.lastSent
  sent : c.sent = broadcasts env (c.leader.view {}).log start c.lastSent
  nosub : c.leading = false → ∀ f, c.subscribed f = false
  fols : ∀ f, FolInv env G (c.leader.view {}).log c.lastSent (c.subscribed f) (c.fol f)

/-- Replacing one follower. -/
theorem CInv.setFol {env : DB.Env} {G : Prop} {start : Nat} {c : Cluster} (h : CInv env G start c)
    (f : Nat) (x : Fol) (sub : Bool) (hsub : c.leading = false → sub = false)
    (hx : FolInv env G (c.leader.view {}).log c.lastSent sub x) :
    CInv env G start { c with fol := upd c.fol f x, subscribed := upd c.subscribed f sub } := by
  refine ⟨h.lead, h.le, h.st, h.feed, h.sent, ?_, ?_⟩
  · intro hl g
    show upd c.subscribed f sub g = false
    rw [upd_apply]; split
    · exact hsub hl
    · exact h.nosub hl g
  · intro g
    show FolInv env G _ _ (upd c.subscribed f sub g) (upd c.fol f x g)
    rw [upd_apply, upd_apply]; split
    · exact hx
    · exact h.fols g

theorem upd_self {α : Type} (g : Nat → α) (f : Nat) : upd g f (g f) = g := by
  funext k; rw [upd_apply]; split
  · rename_i h; rw [h]
  · rfl

theorem CInv.setFol' {env : DB.Env} {G : Prop} {start : Nat} {c : Cluster} (h : CInv env G start c)
    (f : Nat) (x : Fol) (hx : FolInv env G (c.leader.view {}).log c.lastSent (c.subscribed f) x) :
    CInv env G start { c with fol := upd c.fol f x } := by
  have := h.setFol f x (c.subscribed f) (fun hl => h.nosub hl f) hx
  rw [upd_self] at this
  exact this

theorem CInv.lose {env : DB.Env} {G : Prop} {start : Nat} {c : Cluster} (h : CInv env G start c)
    (f : Nat) (db : Traced) (hdb : Inv env db.s (db.view {})) : CInv env G start (lose c f db) :=
  h.setFol f { db := db } false (fun _ => rfl) ⟨hdb, by simp, .idle rfl rfl rfl rfl rfl⟩

/-- The leader's database advanced without broadcasting. -/
theorem CInv.setLeader {env : DB.Env} {G : Prop} {start : Nat} {c : Cluster} (h : CInv env G start c)
    (t : Traced) (ht : Inv env t.s (t.view {})) (qs : List Bytes)
    (hq : (t.view {}).log = (c.leader.view {}).log ++ qs)
    (hf : c.leading = true → (t.view {}).feed = (c.leader.view {}).feed ∧
      (t.view {}).startedAt = (c.leader.view {}).startedAt) :
    CInv env G start { c with leader := t } := by
  refine ⟨ht, ?_, h.st, ?_, ?_, h.nosub, ?_⟩
  · show c.lastSent ≤ (t.view {}).log.length
    have := h.le; rw [hq]; simp; omega
  · intro hl
    show (t.view {}).startedAt + (t.view {}).feed.length = c.lastSent
    rw [(hf hl).1, (hf hl).2]; exact h.feed hl
  · show c.sent = broadcasts env (t.view {}).log start c.lastSent
    rw [hq, broadcasts_append _ _ _ _ _ h.le]; exact h.sent
  · intro f
    have := h.fols f
    refine ⟨this.db, this.en, ?_⟩
    show Phase env G (t.view {}).log c.lastSent _ _
    rw [hq]; exact this.phase.grow qs

/-- The leader is gone. -/
theorem CInv.off {env : DB.Env} {G : Prop} {start : Nat} {c : Cluster} (h : CInv env G start c) :
    CInv env G start { c with leading := false, subscribed := fun _ => false } :=
  ⟨h.lead, h.le, h.st, by intro hl; simp at hl, h.sent, fun _ _ => rfl,
    fun f => ⟨(h.fols f).db, (h.fols f).en, (h.fols f).phase.unsub _⟩⟩

theorem sendOutstanding_inv {env : REnv} (hnj : 0 < env.db.numJournals)
    (hne : ∀ x, env.db.sha1hex x ≠ []) {G : Prop} {start : Nat} {c : Cluster}
    (h : CInv env.db G start c) (hl : c.leading = true) :
    CInv env.db G start (sendOutstanding env c) ∧
    (sendOutstanding env c).lastSent = ((sendOutstanding env c).leader.view {}).log.length ∧
    (sendOutstanding env c).leading = true := by
  have hp := call_inv hnj hne h.lead .pop trivial
  have hlog : ((c.leader.call env.db .pop).1.view {}).log = (c.leader.view {}).log := by
    rw [call_log _ (by rw [pop_out]; simp)]
  have hfe : ((c.leader.call env.db .pop).1.view {}).feed = (c.leader.view {}).feed ++ c.leader.s.committed ∧
      ((c.leader.call env.db .pop).1.view {}).startedAt = (c.leader.view {}).startedAt := by
    rw [call_view, pop_out]; exact ⟨rfl, rfl⟩
  obtain ⟨e1, e2⟩ := entries_drop env.db _ _ _ _ h.lead.feed h.lead.started
  rw [h.feed hl] at e1 e2
  have hs := sendLoop_entries env.db (c.leader.view {}).log
    ((c.leader.view {}).log.length - c.lastSent) c.lastSent (by have := h.le; omega)
  have heq : sendOutstanding env c =
      { c with
        leader := (c.leader.call env.db .pop).1
        lastSent := (c.leader.view {}).log.length
        sent := c.sent ++ broadcasts env.db (c.leader.view {}).log c.lastSent (c.leader.view {}).log.length
        fol := fun f => if c.subscribed f then { c.fol f with inbox := (c.fol f).inbox ++
          (broadcasts env.db (c.leader.view {}).log c.lastSent (c.leader.view {}).log.length).map .tx }
          else c.fol f } := by
    unfold sendOutstanding
    simp only [pop_out]
    rw [e1, hs]
  rw [heq]
  refine ⟨⟨hp, ?_, ?_, ?_, ?_, h.nosub, ?_⟩, ?_, hl⟩
  · simp only [hlog]; exact Nat.le_refl _
  · have := h.st; have := h.le; show start ≤ (c.leader.view {}).log.length; omega
  · intro _
    simp only [hfe.1, hfe.2, List.length_append]
    have := congrArg List.length h.lead.feed
    have hst := h.lead.started
    simp [entries] at this
    omega
  · simp only [hlog, h.sent]
    exact broadcasts_split _ _ _ _ _ h.st h.le
  · intro f
    have hf := h.fols f
    simp only [hlog]
    have hph := hf.phase.sent h.le
    split
    · rename_i hsub
      rw [if_pos hsub] at hph
      exact ⟨hf.db, hf.en, hph⟩
    · rename_i hsub
      rw [if_neg hsub] at hph
      exact ⟨hf.db, hf.en, hph⟩
  · simp only [hlog]

theorem justified_chain {env : REnv} {L F : List Bytes} {b : Nat} {qs : List Bytes}
    (hp : HP env.db L F) (hb : b ≤ L.length) (hFb : F.length ≤ b)
    (hj : Justified env F (honestItems env.db L F.length b) qs) : HP env.db L (F ++ qs) := by
  have hlen := justified_length hj
  simp only [honestItems, List.length_map, List.length_range'] at hlen
  refine ⟨by simp; omega, ?_⟩
  cases hq : qs.length with
  | zero =>
    have : qs = [] := List.length_eq_zero_iff.1 hq
    rw [this, List.append_nil]; exact hp.2
  | succ k =>
    obtain ⟨_, _, _, d⟩ := justified_get hj k (by omega) (by simp [honestItems]; omega)
    simp only [honestItems, List.getElem_map, List.getElem_range', honestItem, Option.some.injEq] at d
    rw [List.take_of_length_le (l := qs) (by omega)] at d
    rw [← d]
    congr 2
    simp; omega

theorem call_committed_ne (env : DB.Env) (t : Traced) (op : Op)
    (hop : nodeOnly op = false) : (t.call env op).2 ≠ .committed := by
  cases op with
  | «begin» h e sy ok => exact begin_not_committed env t h e sy ok
  | write h q k ok => exact write_not_committed env t h q k ok
  | prepare h w p ok => exact prepare_not_committed env t h w p ok
  | commit h ok => simp [nodeOnly] at hop
  | rollback h => rw [rollback_done]; simp
  | setCommitEnabled t' e => simp [nodeOnly] at hop
  | pop => rw [pop_out]; simp
  | crash => simp [Traced.call, DB.step]
  | crashInCommit h => simp [nodeOnly] at hop

theorem sce_not_committed (env : DB.Env) (t : Traced) (k : Nat) (e : Bool) :
    (t.call env (.setCommitEnabled k e)).2 ≠ .committed ∧
    (t.call env (.setCommitEnabled k e)).2 ≠ .abort := by
  simp only [Traced.call, DB.step]
  split
  · simp
  · split <;> simp

/-- A phase only looks at the follower's history, not at the rest of its database. -/
theorem Phase.setDb {env : DB.Env} {G : Prop} {L : List Bytes} {last : Nat} {sub : Bool} {x : Fol}
    (h : Phase env G L last sub x) (db : Traced) (hdb : (db.view {}).log = (x.db.view {}).log) :
    Phase env G L last sub { x with db := db } := by
  cases h with
  | idle h1 h2 h3 h4 h5 => exact .idle h1 h2 h3 h4 h5
  | asked h1 h2 h3 h4 h5 => exact .asked h1 h2 h3 (by simp only [hdb]; exact h4) h5
  | refused n h rest h1 h2 h3 h4 => exact .refused n h rest h1 h2 h3 h4
  | accepted b e m h1 h2 h3 h4 h5 h6 h7 h8 h9 h10 =>
    exact .accepted b e m h1 h2 h3 h4 (by simp only [hdb]; exact h5) (by simp only [hdb]; exact h6)
      (by simp only [hdb]; exact h7) h8 h9 h10
  | following a e ib h1 h2 h3 h4 h5 h6 h7 h8 h9 =>
    exact .following a e ib h1 h2 h3 h4 (by simp only [hdb]; exact h5) h6 h7 h8
      (by simp only [hdb]; exact h9)

end Bedrock.Cluster

namespace Bedrock.Cluster
open Bedrock Bedrock.DB Bedrock.DB.Spec Bedrock.Sync Bedrock.Sync.Spec Bedrock.Cluster.Spec

theorem sce_done_enabled {env : Env} {t : Traced} {i : Nat}
    (h : (t.call env (.setCommitEnabled i true)).2 = .done) :
    (t.call env (.setCommitEnabled i true)).1.s.commitEnabled = true := by
  revert h
  simp only [Traced.call, DB.step]
  repeat' split
  all_goals simp_all

theorem step_inv {env : REnv} (hnj : 0 < env.db.numJournals) (hne : ∀ x, env.db.sha1hex x ≠ [])
    {G : Prop} {start : Nat} {c : Cluster} (h : CInv env.db G start c) (ev : Ev)
    (hG : ∀ f os, ev = .deliver f os → G → ∀ k, (os k).commitOk = true) :
    CInv env.db G start (step env c ev) := by
  cases ev with
  | leaderWork op =>
    dsimp only [step]
    split
    · rename_i hc
      obtain ⟨hl, hp, hcall⟩ := hc
      have hi := call_inv hnj hne h.lead op (callable_ok h.lead op hcall)
      obtain ⟨qs, hq⟩ := call_log_grow env.db c.leader op
      split
      · have h1 := h.off
        exact h1.setLeader _ hi qs hq (by intro hx; simp at hx)
      · rename_i hf
        refine h.setLeader _ hi qs hq (fun _ => ?_)
        rw [call_view]
        exact step_feed _ op _ hp (by simpa using hf)
    · exact h
  | send =>
    dsimp only [step]
    split
    · rename_i hl; exact (sendOutstanding_inv hnj hne h hl).1
    · exact h
  | standDown t =>
    dsimp only [step]
    split
    · rename_i hl
      have hi := call_inv hnj hne h.lead (.setCommitEnabled t false) trivial
      have hlog : ((c.leader.call env.db (.setCommitEnabled t false)).1.view {}).log =
          (c.leader.view {}).log := call_log _ (sce_not_committed _ _ _ _).1
      have h1 : CInv env.db G start { c with leader := (c.leader.call env.db (.setCommitEnabled t false)).1 } :=
        h.setLeader _ hi [] (by simpa using hlog) (fun _ => by
          rw [call_view]
          exact step_feed _ _ _ (by simp) (by
            simp only [fatal]; simp [(sce_not_committed env.db c.leader t false).2]))
      split
      · exact ((sendOutstanding_inv hnj hne h1 hl).1).off
      · exact h1
    · exact h
  | subscribe f t =>
    dsimp only [step]
    split
    · rename_i hm
      have hf := h.fols f
      have hi := call_inv hnj hne hf.db (.setCommitEnabled t true) trivial
      have hlog : (((c.fol f).db.call env.db (.setCommitEnabled t true)).1.view {}).log =
          ((c.fol f).db.view {}).log := call_log _ (sce_not_committed _ _ _ _).1
      have hph : (c.fol f).queue = [] ∧ (c.fol f).inbox = [] ∧ (c.fol f).outbox = [] ∧
          c.subscribed f = false := by
        cases hf.phase with
        | idle h1 h2 h3 h4 h5 => exact ⟨h2, h3, h4, h5⟩
        | asked h1 h2 h3 h4 h5 => rw [h1] at hm; simp at hm
        | refused n h rest h1 h2 h3 h4 => rw [h1] at hm; simp at hm
        | accepted b e m h1 h2 h3 h4 h5 h6 h7 h8 h9 h10 => rw [h1] at hm; simp at hm
        | following a e ib h1 h2 h3 h4 h5 h6 h7 h8 h9 => rw [h1] at hm; simp at hm
      split
      · rename_i hdone
        refine h.setFol' f _ ⟨hi, fun _ => ?_, .asked rfl hph.1 hph.2.1 (Or.inr ?_) hph.2.2.2⟩
        · exact sce_done_enabled hdone
        · simp only [hph.2.2.1, List.nil_append]
          rw [hi.count, hi.hash]
      · refine h.setFol' f _ ⟨hi, fun hx => absurd hm hx, ?_⟩
        exact .idle hm hph.1 hph.2.1 hph.2.2.1 hph.2.2.2
    · exact h
  | recvSubscribe f readOk =>
    have hf := h.fols f
    dsimp only [step]
    split
    · exact h
    · rename_i pc ph rest hout
      split
      · exact h.lose f _ hf.db
      · rename_i hl
        have hl' : c.leading = true := by simpa using hl
        obtain ⟨hm, hq, hib, hreq, hrest, hsub⟩ :
            (c.fol f).mode = .subscribing ∧ (c.fol f).queue = [] ∧ (c.fol f).inbox = [] ∧
            (pc = ((c.fol f).db.view {}).log.length ∧
              ph = chain env.db.sha1hex ((c.fol f).db.view {}).log) ∧ rest = [] ∧
            c.subscribed f = false := by
          cases hf.phase with
          | idle h1 h2 h3 h4 h5 => rw [h4] at hout; simp at hout
          | asked h1 h2 h3 h4 h5 =>
            rcases h4 with h4 | h4
            · rw [h4] at hout; simp at hout
            · rw [h4] at hout
              simp only [List.cons.injEq, Prod.mk.injEq] at hout
              exact ⟨h1, h2, h3, ⟨hout.1.1.symm, hout.1.2.symm⟩, hout.2.symm, h5⟩
          | refused n h rest h1 h2 h3 h4 => rw [h4] at hout; simp at hout
          | accepted b e m h1 h2 h3 h4 h5 h6 h7 h8 h9 h10 => rw [h4] at hout; simp at hout
          | following a e ib h1 h2 h3 h4 h5 h6 h7 h8 h9 => rw [h2] at hout; simp at hout
        have hen := hf.en (by rw [hm]; simp)
        generalize hr : queueSynchronize env.db c.leader.s (some c.lastSent) pc ph true readOk = r
        cases r with
        | error => exact h.lose f _ hf.db
        | mismatch n hash =>
          refine h.setFol f _ true (by rw [hl']; simp) ⟨hf.db, fun _ => hen, ?_⟩
          exact .refused n hash [] hm hq (by simp [hib]) hrest
        | commits m =>
            refine h.setFol f _ true (by rw [hl']; simp) ⟨hf.db, fun _ => hen, ?_⟩
            obtain ⟨k1, k2, k3, k4, k5, k6⟩ := queueSync_exact h.lead _ pc ph true readOk m hr
            simp only [Option.getD_some, if_true] at k3 k5 k6
            refine .accepted c.lastSent c.lastSent m hm hq ?_ hrest ?_ ?_ ?_ (Nat.le_refl _) h.le (fun _ => rfl)
            · simp [hib, broadcasts_self]
            · rw [← hreq.1]; exact k6
            · refine ⟨by rw [← hreq.1]; exact k1, ?_⟩
              by_cases h0 : pc = 0
              · rw [← hreq.1, h0]
                have : ((c.fol f).db.view {}).log = [] := List.length_eq_zero_iff.1 (by omega)
                rw [this]; simp
              · rw [← hreq.2, ← hreq.1]; exact k2 h0
            · rw [← hreq.1]; exact k3
  | deliver f os =>
    have hf := h.fols f
    dsimp only [step]
    split
    · exact h
    · -- SUBSCRIPTION_APPROVED
      rename_i r rest hib
      split
      · rename_i m hmode
        obtain ⟨b, e, h5, h6, h7, h8, h9, h10, hq, hout, hrest⟩ :
            ∃ b e, m.items = honestItems env.db (c.leader.view {}).log ((c.fol f).db.view {}).log.length b ∧
              HP env.db (c.leader.view {}).log ((c.fol f).db.view {}).log ∧
              ((c.fol f).db.view {}).log.length ≤ b ∧ b ≤ e ∧ e ≤ (c.leader.view {}).log.length ∧
              (c.subscribed f = true → e = c.lastSent) ∧ (c.fol f).queue = [] ∧ (c.fol f).outbox = [] ∧
              rest = (broadcasts env.db (c.leader.view {}).log b e).map .tx := by
          cases hf.phase with
          | idle h1 h2 h3 h4 h5 => rw [h3] at hib; simp at hib
          | asked h1 h2 h3 h4 h5 => rw [h3] at hib; simp at hib
          | refused n h rest h1 h2 h3 h4 => rw [h3] at hib; simp at hib
          | accepted b e m' h1 h2 h3 h4 h5 h6 h7 h8 h9 h10 =>
            rw [h3] at hib
            simp only [List.cons.injEq, LMsg.approved.injEq, SyncReply.commits.injEq] at hib
            obtain ⟨rfl, rfl⟩ := hib
            exact ⟨b, e, h5, h6, h7, h8, h9, h10, h2, h4, rfl⟩
          | following a e ib h1 h2 h3 h4 h5 h6 h7 h8 h9 => rw [h1] at hmode; simp at hmode
        have hen := hf.en (by rw [hmode]; simp)
        obtain ⟨r1, qs, r2, r3, r4⟩ := recvSync_facts env hnj hne (c.fol f).db hf.db 0 m os
        rw [h5] at r3
        have hp := justified_chain h6 (by omega) h7 r3
        have hlog : ((recvSynchronize env (c.fol f).db 0 m os).1.view {}).log =
            ((c.fol f).db.view {}).log ++ qs := r2
        split
        · rename_i hok
          obtain ⟨n1, n2⟩ := r4 hok
          have hil : m.items.length = b - ((c.fol f).db.view {}).log.length := by
            rw [h5]; simp [honestItems]
          refine h.setFol' f _ ⟨r1, fun _ => recvSync_enabled env _ _ _ _ hen, ?_⟩
          refine .following b e (broadcasts env.db (c.leader.view {}).log b e) rfl hout hrest
            (by simp only [hq, List.nil_append]) (by simp only [hlog]; exact hp) h8 h9 h10 ?_
          simp only [hlog, List.length_append]
          rcases n2 with n2 | ⟨n2, _, _, n3⟩
          · left; omega
          · right
            refine ⟨?_, by omega⟩
            intro g
            rcases n3 with n3 | ⟨k, _, n3⟩
            · rw [recvSync_enabled env _ _ _ _ hen] at n3; simp at n3
            · rw [hG f os rfl g k] at n3; simp at n3
        · exact h.lose f _ r1
      · exact h.lose f _ hf.db
    · -- TRANSACTION
      rename_i m rest hib
      obtain ⟨a, e, ib, h1, h2, h3, h4, h5, h6, h7, h8, h9⟩ :
          ∃ a e ib, (c.fol f).mode = .following ∧ (c.fol f).outbox = [] ∧ (c.fol f).inbox = ib.map .tx ∧
            (c.fol f).queue ++ ib = broadcasts env.db (c.leader.view {}).log a e ∧
            HP env.db (c.leader.view {}).log ((c.fol f).db.view {}).log ∧ a ≤ e ∧
            e ≤ (c.leader.view {}).log.length ∧ (c.subscribed f = true → e = c.lastSent) ∧
            (a = ((c.fol f).db.view {}).log.length ∨
              (¬ G ∧ a = ((c.fol f).db.view {}).log.length + 1)) := by
        cases hf.phase with
        | idle h1 h2 h3 h4 h5 => rw [h3] at hib; simp at hib
        | asked h1 h2 h3 h4 h5 => rw [h3] at hib; simp at hib
        | refused n h rest h1 h2 h3 h4 => rw [h3] at hib; simp at hib
        | accepted b e m' h1 h2 h3 h4 h5 h6 h7 h8 h9 h10 => rw [h3] at hib; simp at hib
        | following a e ib h1 h2 h3 h4 h5 h6 h7 h8 h9 =>
          exact ⟨a, e, ib, h1, h2, h3, h4, h5, h6, h7, h8, h9⟩
      rw [if_pos h1]
      cases ib with
      | nil => rw [h3] at hib; simp at hib
      | cons m' ib =>
        rw [h3] at hib
        simp only [List.map_cons, List.cons.injEq, LMsg.tx.injEq] at hib
        obtain ⟨rfl, rfl⟩ := hib
        refine h.setFol' f _ ⟨hf.db, fun _ => hf.en (by rw [h1]; simp), ?_⟩
        refine .following a e ib h1 h2 rfl ?_ h5 h6 h7 h8 h9
        simp only [List.append_assoc, List.singleton_append]; exact h4
  | replicate f o =>
    have hf := h.fols f
    dsimp only [step]
    split
    · exact h
    · rename_i m rest hq
      obtain ⟨a, e, ib, h1, h2, h3, h4, h5, h6, h7, h8, h9⟩ :
          ∃ a e ib, (c.fol f).mode = .following ∧ (c.fol f).outbox = [] ∧ (c.fol f).inbox = ib.map .tx ∧
            (c.fol f).queue ++ ib = broadcasts env.db (c.leader.view {}).log a e ∧
            HP env.db (c.leader.view {}).log ((c.fol f).db.view {}).log ∧ a ≤ e ∧
            e ≤ (c.leader.view {}).log.length ∧ (c.subscribed f = true → e = c.lastSent) ∧
            (a = ((c.fol f).db.view {}).log.length ∨
              (¬ G ∧ a = ((c.fol f).db.view {}).log.length + 1)) := by
        cases hf.phase with
        | idle h1 h2 h3 h4 h5 => rw [h2] at hq; simp at hq
        | asked h1 h2 h3 h4 h5 => rw [h2] at hq; simp at hq
        | refused n h rest h1 h2 h3 h4 => rw [h2] at hq; simp at hq
        | accepted b e m' h1 h2 h3 h4 h5 h6 h7 h8 h9 h10 => rw [h2] at hq; simp at hq
        | following a e ib h1 h2 h3 h4 h5 h6 h7 h8 h9 =>
          exact ⟨a, e, ib, h1, h2, h3, h4, h5, h6, h7, h8, h9⟩
      obtain ⟨r1, r2, r3⟩ := replicateOne_facts env hnj hne 1 {} (c.fol f).db m o hf.db
      split
      · rename_i happ
        obtain ⟨raw, k1, _, k2, k3, k4⟩ := r3 happ
        have hlt : a < e := by
          apply Decidable.byContradiction
          intro hn
          have : a = e := by omega
          rw [this, broadcasts_self, hq] at h4; simp at h4
        rw [hq, broadcasts_cons _ _ _ _ hlt] at h4
        simp only [List.cons_append, List.cons.injEq] at h4
        obtain ⟨hm, h4⟩ := h4
        subst hm
        simp only [broadcast, Option.some.injEq] at k2 k3
        have ha : a = ((c.fol f).db.view {}).log.length := by omega
        refine h.setFol' f _ ⟨r1, fun _ => replicateOne_enabled env _ _ _ _ (hf.en (by rw [h1]; simp)), ?_⟩
        have hlog : ((replicateOne env (c.fol f).db 1 (broadcast env.db (c.leader.view {}).log (a + 1)) o).1.view
            {}).log = ((c.fol f).db.view {}).log ++ [env.expand raw] := k4
        refine .following (a + 1) e ib h1 h2 h3 h4 ?_ hlt h7 h8 (Or.inl ?_)
        · simp only [hlog]
          refine ⟨by simp; omega, ?_⟩
          rw [← k3]; congr 2; simp; omega
        · simp only [hlog]; simp; omega
      · exact h.lose f _ r1
  | followerWork f op =>
    have hf := h.fols f
    dsimp only [step]
    split
    · rename_i hc
      obtain ⟨hex, hcall⟩ := hc
      have hi := call_inv hnj hne hf.db op (callable_ok hf.db op hcall)
      split
      · exact h.lose f _ hi
      · refine h.setFol' f _ ⟨hi, fun hm => call_enabled op (hf.en hm) ?_,
          hf.phase.setDb _ (call_log _ (call_committed_ne env.db _ op hex))⟩
        intro t' e' he
        rw [he] at hex; simp [nodeOnly] at hex
    · exact h
  | synchronize f m os =>
    have hf := h.fols f
    dsimp only [step]
    split
    · rename_i hm
      obtain ⟨r1, _⟩ := recvSync_facts env hnj hne (c.fol f).db hf.db 0 m os
      refine h.setFol' f _ ⟨r1, fun hx => absurd hm hx, ?_⟩
      cases hf.phase with
      | idle h1 h2 h3 h4 h5 => exact .idle h1 h2 h3 h4 h5
      | asked h1 h2 h3 h4 h5 => rw [h1] at hm; simp at hm
      | refused n h rest h1 h2 h3 h4 => rw [h1] at hm; simp at hm
      | accepted b e m h1 h2 h3 h4 h5 h6 h7 h8 h9 h10 => rw [h1] at hm; simp at hm
      | following a e ib h1 h2 h3 h4 h5 h6 h7 h8 h9 => rw [h1] at hm; simp at hm
    · exact h
  | lostAtLeader f =>
    have hf := h.fols f
    refine h.setFol f _ false (fun _ => rfl) ⟨hf.db, hf.en, ?_⟩
    cases hf.phase.unsub c.lastSent with
    | idle h1 h2 h3 h4 h5 => exact .idle h1 h2 h3 rfl rfl
    | asked h1 h2 h3 h4 h5 => exact .asked h1 h2 h3 (Or.inl rfl) rfl
    | refused n h rest h1 h2 h3 h4 => exact .refused n h rest h1 h2 h3 rfl
    | accepted b e m h1 h2 h3 h4 h5 h6 h7 h8 h9 h10 =>
      exact .accepted b e m h1 h2 h3 rfl h5 h6 h7 h8 h9 h10
    | following a e ib h1 h2 h3 h4 h5 h6 h7 h8 h9 =>
      exact .following a e ib h1 rfl h3 h4 h5 h6 h7 h8 h9
  | lostAtFollower f => exact h.lose f _ (h.fols f).db

theorem run_inv {env : REnv} (hnj : 0 < env.db.numJournals) (hne : ∀ x, env.db.sha1hex x ≠ [])
    {G : Prop} {start : Nat} (evs : List Ev)
    (hG : ∀ f os, Ev.deliver f os ∈ evs → G → ∀ k, (os k).commitOk = true) :
    ∀ {c : Cluster}, CInv env.db G start c → CInv env.db G start (run env c evs) := by
  induction evs with
  | nil => intro c h; exact h
  | cons e evs ih =>
    intro c h
    exact ih (fun f os hm => hG f os (by simp [hm]))
      (step_inv hnj hne h e (fun f os he => hG f os (by simp [he])))

theorem becomeLeader_inv {env : REnv} (hnj : 0 < env.db.numJournals) (hne : ∀ x, env.db.sha1hex x ≠ [])
    (G : Prop) (leader : Traced) (fol : Nat → Traced) (hl : Inv env.db leader.s (leader.view {}))
    (hf : ∀ f, Inv env.db (fol f).s ((fol f).view {})) :
    CInv env.db G (leader.view {}).log.length (becomeLeader env leader fol) := by
  have hp := call_inv hnj hne hl .pop trivial
  have hlog : ((leader.call env.db .pop).1.view {}).log = (leader.view {}).log := by
    rw [call_log _ (by rw [pop_out]; simp)]
  have hc : (leader.call env.db .pop).1.s.commitCount = (leader.view {}).log.length := by
    rw [hp.count, hlog]
  refine ⟨hp, ?_, ?_, ?_, ?_, ?_, ?_⟩
  · simp only [becomeLeader, hc, hlog]; exact Nat.le_refl _
  · simp only [becomeLeader, hc]; exact Nat.le_refl _
  · intro _
    simp only [becomeLeader, hc]
    rw [call_view, pop_out]
    have := congrArg List.length hl.feed
    have hst := hl.started
    simp [entries] at this
    simp only [View.step, List.length_append]
    omega
  · simp only [becomeLeader, hc, hlog]; rw [broadcasts_self]
  · intro hx; simp [becomeLeader] at hx
  · intro f
    exact ⟨hf f, by simp [becomeLeader], .idle rfl rfl rfl rfl rfl⟩

end Bedrock.Cluster
