import Verif.Lemmas.Cluster

/-!
# Properties of a leader and its followers during one term (C02, C07)

`term env lops fops evs` is the cluster after any schedule `evs`, started by a leader whose
database went through any calls `lops` and followers whose databases went through any calls
`fops f`, when the leader enters LEADING.
-/

namespace Bedrock.Cluster
open Bedrock Bedrock.DB Bedrock.DB.Spec Bedrock.Sync Bedrock.Sync.Spec Bedrock.Cluster.Spec

/-- The cluster after a schedule. -/
def term (env : REnv) (lops : List Op) (fops : Nat → List Op) (evs : List Ev) : Cluster :=
  run env (becomeLeader env (after env lops) (fun f => after env (fops f))) evs

/-- The calls made before the term began follow the calling discipline of the code base. -/
def Started (env : REnv) (lops : List Op) (fops : Nat → List Op) : Prop :=
  0 < env.db.numJournals ∧ (∀ x, env.db.sha1hex x ≠ []) ∧ Disciplined {} (trace env.db lops) ∧
  ∀ f, Disciplined {} (trace env.db (fops f))

theorem term_inv {env : REnv} {lops : List Op} {fops : Nat → List Op} (h : Started env lops fops)
    (G : Prop) (evs : List Ev)
    (hG : ∀ f os, Ev.deliver f os ∈ evs → G → ∀ k, (os k).commitOk = true) :
    CInv env.db G (committed (after env lops)).length (term env lops fops evs) :=
  run_inv h.1 h.2.1 evs hG (becomeLeader_inv h.1 h.2.1 G _ _ (after_inv h.1 h.2.1 _ h.2.2.1)
    (fun f => after_inv h.1 h.2.1 _ (h.2.2.2 f)))

/-- `F` is a prefix of `L`, or the two histories exhibit two different digest inputs with the
same digest. -/
def PrefixUpTo (H : Bytes → Bytes) (F L : List Bytes) : Prop :=
  F <+: L ∨ ∃ i, ∃ (hi : i < F.length) (hj : i < L.length),
    Collision H (chain H (F.take i) ++ F[i]) (chain H (L.take i) ++ L[i])

theorem HP.prefix {env : DB.Env} {L F : List Bytes} {k : Nat} (hl : ∀ x, (env.sha1hex x).length = k)
    (h : HP env L F) : PrefixUpTo env.sha1hex F L := by
  have hlen : F.length = (L.take F.length).length := by
    rw [List.length_take]; have := h.1; omega
  rcases c01_chain_agreement env.sha1hex k hl F (L.take F.length) hlen h.2 with h1 | ⟨i, hi, hj, hc⟩
  · left; rw [h1]; exact List.take_prefix _ _
  · right
    have hj' : i < L.length := by rw [List.length_take] at hj; omega
    refine ⟨i, hi, hj', ?_⟩
    rw [List.take_take, List.getElem_take, Nat.min_eq_left (by omega)] at hc
    exact hc

/-! ## C02: a follower's history is a prefix of its leader's -/

/-- **C02** After any schedule of commits, broadcasts, subscriptions, deliveries, refused
transactions, crashes and lost connections, whatever the nodes did before: whoever is following
has committed no more than the leader, its hash is the hash the leader had at that commit, and its
transactions are a prefix of the leader's — or else the two histories contain a digest collision. -/
theorem c02_follower_prefix (env : REnv) (k : Nat) (hk : ∀ x, (env.db.sha1hex x).length = k)
    (lops : List Op) (fops : Nat → List Op) (hs : Started env lops fops) (evs : List Ev) (f : Nat)
    (hf : ((term env lops fops evs).fol f).mode = .following) :
    let L := committed (term env lops fops evs).leader
    let F := committed ((term env lops fops evs).fol f).db
    F.length ≤ L.length ∧
    ((term env lops fops evs).fol f).db.s.lastHash = chain env.db.sha1hex (L.take F.length) ∧
    PrefixUpTo env.db.sha1hex F L := by
  intro L F
  have hc := term_inv hs False evs (by simp)
  have hp : HP env.db L F := by
    cases (hc.fols f).phase with
    | idle h1 => rw [h1] at hf; simp at hf
    | asked h1 => rw [h1] at hf; simp at hf
    | refused n h rest h1 => rw [h1] at hf; simp at hf
    | accepted b e m h1 => rw [h1] at hf; simp at hf
    | following a e ib h1 h2 h3 h4 h5 => exact h5
  exact ⟨hp.1, by rw [(hc.fols f).db.hash]; exact hp.2, hp.prefix hk⟩

/-- One step keeps a follower on the leader's history, following or not, unless it synchronises
with some other node. -/
theorem step_hp {env : REnv} (hnj : 0 < env.db.numJournals) (hne : ∀ x, env.db.sha1hex x ≠ [])
    {G : Prop} {start : Nat} {c : Cluster} (h : CInv env.db G start c) (ev : Ev) (f : Nat)
    (hs : ∀ m os, ev ≠ .synchronize f m os)
    (hp : HP env.db (c.leader.view {}).log ((c.fol f).db.view {}).log) :
    HP env.db ((step env c ev).leader.view {}).log (((step env c ev).fol f).db.view {}).log := by
  have sce : ∀ (t : Traced) i b, ((t.call env.db (.setCommitEnabled i b)).1.view {}).log =
      (t.view {}).log := fun t i b => call_log _ (sce_not_committed _ _ _ _).1
  have hsend : ∀ c' : Cluster, ((sendOutstanding env c').leader.view {}).log = (c'.leader.view {}).log ∧
      ((sendOutstanding env c').fol f).db = (c'.fol f).db := by
    intro c'
    have : ((c'.leader.call env.db .pop).1.view {}).log = (c'.leader.view {}).log :=
      call_log _ (by rw [pop_out]; simp)
    simp only [sendOutstanding, pop_out]
    refine ⟨this, ?_⟩
    split <;> rfl
  have hupd : ∀ (g : Nat) (x : Fol), HP env.db (c.leader.view {}).log (x.db.view {}).log ∨ f ≠ g →
      HP env.db (c.leader.view {}).log (((upd c.fol g x) f).db.view {}).log := by
    intro g x hx
    rw [upd_apply]
    split
    · rename_i hfg
      rcases hx with hx | hx
      · exact hx
      · exact absurd hfg hx
    · exact hp
  cases ev with
  | leaderWork op =>
    dsimp only [step]
    split
    · obtain ⟨qs, hq⟩ := call_log_grow env.db c.leader op
      split <;> (dsimp only; rw [hq]; exact hp.append qs)
    · exact hp
  | send =>
    dsimp only [step]
    split
    · rw [(hsend c).1, (hsend c).2]; exact hp
    · exact hp
  | standDown t =>
    dsimp only [step]
    split
    · split
      · dsimp only; rw [(hsend _).1, (hsend _).2, sce]; exact hp
      · dsimp only; rw [sce]; exact hp
    · exact hp
  | subscribe g t =>
    dsimp only [step]
    by_cases hfg : f = g
    · subst hfg
      split
      · split <;> (apply hupd; left; dsimp only; rw [sce]; exact hp)
      · exact hp
    · split
      · split <;> exact hupd _ _ (Or.inr hfg)
      · exact hp
  | recvSubscribe g readOk =>
    dsimp only [step]
    by_cases hfg : f = g
    · subst hfg
      repeat' split
      all_goals first
        | exact hp
        | exact hupd _ _ (Or.inl hp)
    · repeat' split
      all_goals first
        | exact hp
        | exact hupd _ _ (Or.inr hfg)
  | deliver g os =>
    have hf := h.fols g
    dsimp only [step]
    by_cases hfg : f = g
    · subst hfg
      split
      · exact hp
      · rename_i r rest hib
        split
        · rename_i m hmode
          obtain ⟨_, qs, r2, r3, _⟩ := recvSync_facts env hnj hne (c.fol f).db hf.db 0 m os
          obtain ⟨b, h5, h7, h8⟩ : ∃ b, m.items = honestItems env.db (c.leader.view {}).log
              ((c.fol f).db.view {}).log.length b ∧ ((c.fol f).db.view {}).log.length ≤ b ∧
              b ≤ (c.leader.view {}).log.length := by
            cases hf.phase with
            | idle h1 h2 h3 h4 h5 => rw [h3] at hib; simp at hib
            | asked h1 h2 h3 h4 h5 => rw [h3] at hib; simp at hib
            | refused n h rest h1 h2 h3 h4 => rw [h3] at hib; simp at hib
            | accepted b e m' h1 h2 h3 h4 h5 h6 h7 h8 h9 h10 =>
              rw [h3] at hib
              simp only [List.cons.injEq, LMsg.approved.injEq, SyncReply.commits.injEq] at hib
              obtain ⟨rfl, rfl⟩ := hib
              exact ⟨b, h5, h7, by omega⟩
            | following a e ib h1 h2 h3 h4 h5 h6 h7 h8 h9 => rw [h1] at hmode; simp at hmode
          rw [h5] at r3
          have hp' := justified_chain hp h8 h7 r3
          have hlog : ((recvSynchronize env (c.fol f).db 0 m os).1.view {}).log =
            ((c.fol f).db.view {}).log ++ qs := r2
          split <;> (apply hupd; left; dsimp only; rw [hlog]; exact hp')
        · exact hupd _ _ (Or.inl hp)
      · split <;> exact hupd _ _ (Or.inl hp)
    · repeat' split
      all_goals first
        | exact hp
        | exact hupd _ _ (Or.inr hfg)
  | replicate g o =>
    have hf := h.fols g
    dsimp only [step]
    by_cases hfg : f = g
    · subst hfg
      split
      · exact hp
      · rename_i m rest hq
        obtain ⟨r1, r2, r3⟩ := replicateOne_facts env hnj hne 1 {} (c.fol f).db m o hf.db
        split
        · rename_i happ
          obtain ⟨raw, k1, _, k2, k3, k4⟩ := r3 happ
          obtain ⟨a, hm⟩ : ∃ a, m = broadcast env.db (c.leader.view {}).log (a + 1) ∧
              a < (c.leader.view {}).log.length := by
            cases hf.phase with
            | idle h1 h2 h3 h4 h5 => rw [h2] at hq; simp at hq
            | asked h1 h2 h3 h4 h5 => rw [h2] at hq; simp at hq
            | refused n h rest h1 h2 h3 h4 => rw [h2] at hq; simp at hq
            | accepted b e m' h1 h2 h3 h4 h5 h6 h7 h8 h9 h10 => rw [h2] at hq; simp at hq
            | following a e ib h1 h2 h3 h4 h5 h6 h7 h8 h9 =>
              have hlt : a < e := by
                apply Decidable.byContradiction
                intro hn
                have : a = e := by omega
                rw [this, broadcasts_self, hq] at h4; simp at h4
              rw [hq, broadcasts_cons _ _ _ _ hlt] at h4
              simp only [List.cons_append, List.cons.injEq] at h4
              exact ⟨a, h4.1, by omega⟩
          obtain ⟨hm, ha⟩ := hm
          subst hm
          simp only [broadcast, Option.some.injEq] at k2 k3
          apply hupd; left
          have hlog : ((replicateOne env (c.fol f).db 1 (broadcast env.db (c.leader.view {}).log (a + 1)) o).1.view
            {}).log = ((c.fol f).db.view {}).log ++ [env.expand raw] := k4
          dsimp only
          rw [hlog]
          refine ⟨by simp; omega, ?_⟩
          rw [← k3]; congr 2; simp; omega
        · rename_i hd
          apply hupd; left
          have := r2 hd
          dsimp only
          rw [this]; exact hp
    · repeat' split
      all_goals first
        | exact hp
        | exact hupd _ _ (Or.inr hfg)
  | followerWork g op =>
    dsimp only [step]
    by_cases hfg : f = g
    · subst hfg
      split
      · rename_i hc
        have := call_log (v := {}) (t := (c.fol f).db) op (call_committed_ne env.db _ op hc.1)
        split <;> (apply hupd; left; dsimp only; rw [this]; exact hp)
      · exact hp
    · split
      · split <;> exact hupd _ _ (Or.inr hfg)
      · exact hp
  | synchronize g m os =>
    have hfg : f ≠ g := fun he => hs m os (by rw [he])
    dsimp only [step]
    split
    · exact hupd _ _ (Or.inr hfg)
    · exact hp
  | lostAtLeader g =>
    by_cases hfg : f = g
    · subst hfg; exact hupd _ _ (Or.inl hp)
    · exact hupd _ _ (Or.inr hfg)
  | lostAtFollower g =>
    by_cases hfg : f = g
    · subst hfg; exact hupd _ _ (Or.inl hp)
    · exact hupd _ _ (Or.inr hfg)

theorem run_hp {env : REnv} (hnj : 0 < env.db.numJournals) (hne : ∀ x, env.db.sha1hex x ≠ [])
    {start : Nat} (evs : List Ev) (f : Nat) (hs : ∀ m os, Ev.synchronize f m os ∉ evs) :
    ∀ {c : Cluster}, CInv env.db False start c →
    HP env.db (c.leader.view {}).log ((c.fol f).db.view {}).log →
    HP env.db ((run env c evs).leader.view {}).log (((run env c evs).fol f).db.view {}).log := by
  induction evs with
  | nil => intro c _ hp; exact hp
  | cons e evs ih =>
    intro c h hp
    exact ih (fun m os hm => hs m os (by simp [hm])) (step_inv hnj hne h e (by simp))
      (step_hp hnj hne h e f (fun m os he => hs m os (by simp [he])) hp)

/-- **C02** (from a common history). A follower that starts the term with a prefix of the leader's
transactions, and is not fed by some other node, has a prefix of the leader's transactions after
every step of every schedule — connected or not, following or not, before and after every crash —
or the two histories contain a digest collision. -/
theorem c02_always_prefix (env : REnv) (k : Nat) (hk : ∀ x, (env.db.sha1hex x).length = k)
    (lops : List Op) (fops : Nat → List Op) (hs : Started env lops fops) (evs : List Ev) (f : Nat)
    (hpre : committed (after env (fops f)) <+: committed (after env lops))
    (hsync : ∀ m os, Ev.synchronize f m os ∉ evs) :
    PrefixUpTo env.db.sha1hex (committed ((term env lops fops evs).fol f).db)
      (committed (term env lops fops evs).leader) := by
  have h0 := term_inv hs False [] (by simp)
  refine HP.prefix hk (run_hp hs.1 hs.2.1 evs f hsync h0 ?_)
  have hlog : (((after env lops).call env.db .pop).1.view {}).log = ((after env lops).view {}).log :=
    call_log _ (by rw [pop_out]; simp)
  show HP env.db (((after env lops).call env.db .pop).1.view {}).log ((after env (fops f)).view {}).log
  rw [hlog]
  obtain ⟨t, ht⟩ := hpre
  have ht' : ((after env (fops f)).view {}).log ++ t = ((after env lops).view {}).log := ht
  rw [← ht']
  exact ⟨by simp, by simp⟩

/-- A schedule: follower 0 subscribes and receives the commit it lacks; the leader commits twice
and sends; the follower applies one of the two; then the leader commits once more, unsent. -/
def exSchedule : List Ev :=
  [.subscribe 0 9, .recvSubscribe 0 true, .deliver 0 (fun _ => {}),
   .leaderWork (.begin 0 false false true), .leaderWork (.write 0 [69] true true),
   .leaderWork (.prepare 0 true [] true), .leaderWork (.commit 0 true),
   .leaderWork (.begin 3 true false true), .leaderWork (.write 3 [70] true true),
   .leaderWork (.prepare 3 true [] true), .leaderWork (.commit 3 true),
   .send, .deliver 0 (fun _ => {}), .deliver 0 (fun _ => {}), .replicate 0 {},
   .leaderWork (.begin 0 false false true), .leaderWork (.write 0 [71] true true),
   .leaderWork (.prepare 0 true [] true), .leaderWork (.commit 0 true)]

def exTerm : Cluster := term exREnv exSource (fun _ => exFollower) exSchedule

example : Started exREnv exSource (fun _ => exFollower) ∧
    committed (after exREnv exFollower) <+: committed (after exREnv exSource) :=
  ⟨⟨by decide +kernel, by intro x; simp [exREnv, exEnv], by decide +kernel, fun _ => by show Disciplined {} (trace exEnv exFollower); decide +kernel⟩,
    by decide +kernel⟩

example : (∀ x, (exREnv.db.sha1hex x).length = 2) := fun _ => rfl

/-- The follower is following, one transaction behind what was sent, two behind the leader. -/
example : (exTerm.fol 0).mode = .following ∧ exTerm.subscribed 0 = true ∧
    committed exTerm.leader = [[65], [66], [68], [69], [70], [71]] ∧
    committed (exTerm.fol 0).db = [[65], [66], [68], [69]] ∧ exTerm.lastSent = 5 ∧
    (exTerm.fol 0).queue.map (·.newCount) = [some 5] ∧
    exTerm.sent.map (·.newCount) = [some 4, some 5] := by decide +kernel

example : Ready (exTerm.fol 0).db.s 1 ∧ exTerm.leading = true :=
  ⟨⟨by decide +kernel, by decide +kernel, by decide +kernel, by decide +kernel⟩, by decide +kernel⟩

/-! ## C07: broadcasts are gapless and a subscriber misses nothing -/

/-- **C07** Everything broadcast since the leader took over is exactly the list of its commits
after the history it took over with, each once, in order; nothing uncommitted is ever broadcast. -/
theorem c07_broadcast_gapless (env : REnv) (lops : List Op) (fops : Nat → List Op)
    (hs : Started env lops fops) (evs : List Ev) :
    let c := term env lops fops evs
    let start := (committed (after env lops)).length
    start ≤ c.lastSent ∧ c.lastSent ≤ (committed c.leader).length ∧
    c.sent = broadcasts env.db (committed c.leader) start c.lastSent ∧
    c.sent.map (·.newCount) = (List.range' (start + 1) (c.lastSent - start)).map some := by
  intro c start
  have hc := term_inv hs False evs (by simp)
  refine ⟨hc.st, hc.le, hc.sent, ?_⟩
  rw [show c.sent = _ from hc.sent]
  simp only [broadcasts, List.map_map]
  rfl

/-- **C07** Sending leaves nothing behind. -/
theorem c07_send_complete (env : REnv) (lops : List Op) (fops : Nat → List Op)
    (hs : Started env lops fops) (evs : List Ev)
    (hl : (term env lops fops evs).leading = true) :
    (term env lops fops (evs ++ [.send])).lastSent =
      (committed (term env lops fops (evs ++ [.send])).leader).length := by
  have hc := term_inv hs False evs (by simp)
  have : term env lops fops (evs ++ [.send]) = sendOutstanding env (term env lops fops evs) := by
    have h1 : term env lops fops (evs ++ [.send]) = step env (term env lops fops evs) .send := by
      simp [term, run, List.foldl_append]
    rw [h1]; simp [step, hl]
  rw [this]
  exact (sendOutstanding_inv hs.1 hs.2.1 hc hl).2.1

/-- **C07** A subscriber whose local commits of the subscription reply succeeded has, waiting for
it in order, exactly the broadcasts from its own commit count on; as long as it stays subscribed
they reach up to the last broadcast. -/
theorem c07_nothing_missed_partial (env : REnv) (lops : List Op) (fops : Nat → List Op)
    (hs : Started env lops fops) (evs : List Ev) (f : Nat)
    (hok : ∀ f os, Ev.deliver f os ∈ evs → ∀ k, (os k).commitOk = true)
    (hf : ((term env lops fops evs).fol f).mode = .following) :
    let c := term env lops fops evs
    ∃ e ib, (c.fol f).inbox = ib.map .tx ∧
      (c.fol f).queue ++ ib =
        broadcasts env.db (committed c.leader) (committed (c.fol f).db).length e ∧
      (committed (c.fol f).db).length ≤ e ∧ e ≤ (committed c.leader).length ∧
      (c.subscribed f = true → e = c.lastSent) := by
  intro c
  have hc := term_inv hs True evs (fun f os hm _ => hok f os hm)
  cases (hc.fols f).phase with
  | idle h1 => rw [h1] at hf; simp at hf
  | asked h1 => rw [h1] at hf; simp at hf
  | refused n h rest h1 => rw [h1] at hf; simp at hf
  | accepted b e m h1 => rw [h1] at hf; simp at hf
  | following a e ib h1 h2 h3 h4 h5 h6 h7 h8 h9 =>
    rcases h9 with h9 | ⟨h9, _⟩
    · subst h9; exact ⟨e, ib, h3, h4, h6, h7, h8⟩
    · exact absurd trivial h9

theorem broadcasts_nil {env : DB.Env} {L : List Bytes} {a b : Nat} (h : broadcasts env L a b = [])
    (hle : a ≤ b) : a = b := by
  have := congrArg List.length h
  simp [broadcasts] at this
  omega

/-- **C07** A subscriber that has worked off everything it was sent has the commit count the
leader last broadcast and the hash the leader had there. -/
theorem c07_caught_up_partial (env : REnv) (k : Nat) (hk : ∀ x, (env.db.sha1hex x).length = k)
    (lops : List Op) (fops : Nat → List Op) (hs : Started env lops fops) (evs : List Ev) (f : Nat)
    (hok : ∀ f os, Ev.deliver f os ∈ evs → ∀ k, (os k).commitOk = true)
    (hf : ((term env lops fops evs).fol f).mode = .following)
    (hsub : (term env lops fops evs).subscribed f = true)
    (hq : ((term env lops fops evs).fol f).queue = [])
    (hi : ((term env lops fops evs).fol f).inbox = []) :
    let c := term env lops fops evs
    (c.fol f).db.s.commitCount = c.lastSent ∧
    (c.fol f).db.s.lastHash = chain env.db.sha1hex ((committed c.leader).take c.lastSent) ∧
    PrefixUpTo env.db.sha1hex (committed (c.fol f).db) (committed c.leader) := by
  intro c
  obtain ⟨e, ib, h1, h2, h3, h4, h5⟩ := c07_nothing_missed_partial env lops fops hs evs f hok hf
  obtain ⟨p1, p2, p3⟩ := c02_follower_prefix env k hk lops fops hs evs f hf
  have hib : ib = [] := by
    have : ((term env lops fops evs).fol f).inbox = ib.map .tx := h1
    rw [hi] at this
    simpa using this.symm
  rw [hq, hib] at h2
  have hle := broadcasts_nil h2.symm h3
  have he := h5 hsub
  have hc := term_inv hs False evs (by simp)
  have hcount : (c.fol f).db.s.commitCount = (committed (c.fol f).db).length := (hc.fols f).db.count
  refine ⟨by rw [hcount, hle, he], ?_, p3⟩
  have : c.lastSent = (committed (c.fol f).db).length := by rw [hle, he]
  rw [this]
  exact p2

/-- **C07** (progress). The next queued broadcast is applied: a follower at rest whose SQLite does
not fail appends exactly the leader's next transaction. -/
theorem c07_next_is_applied_partial (env : REnv) (lops : List Op) (fops : Nat → List Op)
    (hs : Started env lops fops) (evs : List Ev) (f : Nat) (o : Outcomes)
    (hok : ∀ f os, Ev.deliver f os ∈ evs → ∀ k, (os k).commitOk = true)
    (hf : ((term env lops fops evs).fol f).mode = .following)
    (hq : ((term env lops fops evs).fol f).queue ≠ [])
    (hrep : Replayable env (committed (term env lops fops evs).leader))
    (hready : Ready ((term env lops fops evs).fol f).db.s 1) (hfine : o.fine) :
    let c := term env lops fops evs
    let c' := term env lops fops (evs ++ [.replicate f o])
    ∃ q, (committed c.leader)[(committed (c.fol f).db).length]? = some q ∧
      committed (c'.fol f).db = committed (c.fol f).db ++ [q] ∧
      (c'.fol f).queue = (c.fol f).queue.tail ∧ (c'.fol f).mode = .following := by
  intro c c'
  obtain ⟨e, ib, h1, h2, h3, h4, h5⟩ := c07_nothing_missed_partial env lops fops hs evs f hok hf
  have hc := term_inv hs False evs (by simp)
  have hp : HP env.db (committed c.leader) (committed (c.fol f).db) := by
    cases (hc.fols f).phase with
    | idle h1 => rw [h1] at hf; simp at hf
    | asked h1 => rw [h1] at hf; simp at hf
    | refused n h rest h1 => rw [h1] at hf; simp at hf
    | accepted b e m h1 => rw [h1] at hf; simp at hf
    | following a e ib h1 h2 h3 h4 h5 => exact h5
  cases hqq : (c.fol f).queue with
  | nil => exact absurd hqq hq
  | cons m rest =>
    generalize hn : (committed (c.fol f).db).length = n at *
    have hlt : n < e := by
      apply Decidable.byContradiction
      intro hx
      have : n = e := by omega
      subst this
      have h2' : (c.fol f).queue ++ ib = _ := h2
      rw [broadcasts_self, hqq] at h2'; simp at h2'
    have h2' : (c.fol f).queue ++ ib = _ := h2
    rw [hqq, broadcasts_cons _ _ _ _ hlt] at h2'
    simp only [List.cons_append, List.cons.injEq] at h2'
    obtain ⟨hm, _⟩ := h2'
    have hL : n < (committed c.leader).length := by
      have : e ≤ (committed c.leader).length := h4
      omega
    obtain ⟨raw, hd, hx⟩ := hrep (committed c.leader)[n] (List.getElem_mem hL)
    have hget : (committed (term env lops fops evs).leader).getD n [] = (committed c.leader)[n] := by
      rw [List.getD_eq_getElem?_getD, List.getElem?_eq_getElem hL]; rfl
    have hch : chain env.db.sha1hex ((committed c.leader).take (n + 1)) =
        chain env.db.sha1hex (committed (c.fol f).db ++ [env.expand raw]) := by
      rw [List.take_succ_eq_append_getElem hL, chain_append, chain_append, hp.2, hx, hn]
    obtain ⟨ha, hb⟩ := replicateOne_accepts env hs.1 hs.2.1 (c.fol f).db (hc.fols f).db 1 m o raw
      hready hfine (by rw [hm]; rfl) (by rw [hm]; simp only [broadcast, Nat.add_sub_cancel, hget]; exact hd)
      (by rw [hm, hn]; rfl) (by rw [hm]; simp only [broadcast]; rw [hch])
    have hc' : c' = step env c (.replicate f o) := by
      simp [c', c, term, run, List.foldl_append]
    refine ⟨_, List.getElem?_eq_getElem hL, ?_⟩
    rw [hc']
    dsimp only [step]
    rw [hqq]
    dsimp only
    rw [ha]
    dsimp only
    rw [upd_apply, if_pos rfl]
    exact ⟨by rw [hb, hx], rfl, hf⟩

/-- The first half of `exSchedule`, with the local commit of the subscription reply failing. -/
def exGapSchedule : List Ev :=
  [.subscribe 0 9, .recvSubscribe 0 true, .deliver 0 (fun _ => { commitOk := false }),
   .leaderWork (.begin 0 false false true), .leaderWork (.write 0 [69] true true),
   .leaderWork (.prepare 0 true [] true), .leaderWork (.commit 0 true),
   .send, .deliver 0 (fun _ => {})]

/-- **C07** (disagreement). Without the assumption on local commits the claim fails:
`_recvSynchronize` ignores the result of its last `commit` (SQLiteNode.cpp:1811), so the follower
reports itself subscribed and FOLLOWING while it lacks commit 3 and is only ever sent commit 4. -/
theorem c07_gap_after_failed_commit :
    let c := term exREnv exSource (fun _ => exFollower) exGapSchedule
    (c.fol 0).mode = .following ∧ c.subscribed 0 = true ∧
    committed (c.fol 0).db = [[65], [66]] ∧ committed c.leader = [[65], [66], [68], [69]] ∧
    (c.fol 0).inbox.length = 0 ∧ (c.fol 0).queue.map (·.newCount) = [some 4] := by
  decide +kernel

end Bedrock.Cluster
