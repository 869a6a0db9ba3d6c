import Verif.Model.StandDown

/-!
# A leader that stands down has sent what it committed
-/

namespace Bedrock.StandDown.Props
open Bedrock.StandDown

/-- All that was given to the socket. -/
def given (p : Peer) : List Msg := p.wire ++ p.buf

theorem mem_txs {a b n : Nat} : Msg.tx n ∈ txs a b ↔ a < n ∧ n ≤ b := by
  unfold txs
  simp only [List.mem_map, List.mem_range, Msg.tx.injEq]
  constructor
  · rintro ⟨k, h1, h2⟩; omega
  · intro h; exact ⟨n - a - 1, by omega, by omega⟩

theorem not_mem_txs {a b : Nat} : Msg.searching ∉ txs a b := by
  unfold txs
  simp

theorem given_put {p : Peer} (l : List Msg) (h : p.linked = true) : given (p.put l) = given p ++ l := by
  unfold given Peer.put
  rw [if_pos h]
  simp [List.append_assoc]

theorem put_closed {p : Peer} (l : List Msg) (h : p.linked = false) : p.put l = p := by
  unfold Peer.put
  rw [if_neg (by rw [h]; decide)]

theorem put_linked (p : Peer) (l : List Msg) : (p.put l).linked = p.linked := by
  unfold Peer.put; split <;> rfl

theorem put_subscribed (p : Peer) (l : List Msg) : (p.put l).subscribed = p.subscribed := by
  unfold Peer.put; split <;> rfl

theorem put_base (p : Peer) (l : List Msg) : (p.put l).base = p.base := by
  unfold Peer.put; split <;> rfl

/-- A peer has been given the transactions up to `n`. -/
def Has (p : Peer) (n : Nat) : Prop := ∀ k, p.base < k → k ≤ n → Msg.tx k ∈ given p

structure Inv (s : S) : Prop where
  le : s.sent ≤ s.commits
  /-- up to date with what was sent -/
  subs : s.pc ≠ .gone → ∀ i, (s.peer i).subscribed = true → s.cut = false → (s.peer i).linked = true ∧ Has (s.peer i) s.sent
  quiet : s.pc ≠ .gone → ∀ i, Msg.searching ∉ given (s.peer i)
  whole : s.cut = true → s.pc = .disable ∨ s.pc = .send ∨ s.pc = .leave ∨ s.pc = .gone
  off : s.pc = .send ∨ s.pc = .leave ∨ s.pc = .gone → s.enabled = false
  all : s.pc = .leave ∨ s.pc = .gone → s.sent = s.commits
  gone : s.pc = .gone → s.cut = false → ∀ i, s.had i = true → ∃ l, given (s.peer i) = l ++ [.searching] ∧
    Msg.searching ∉ l ∧ ∀ k, (s.peer i).base < k → k ≤ s.commits → Msg.tx k ∈ l

theorem inv_start (c : Nat) : Inv (start c) := by
  refine ⟨Nat.le_refl _, ?_, ?_, ?_, ?_, ?_, ?_⟩
  · intro _ i h; cases h
  · intro _ i h; cases h
  · intro h; cases h
  · rintro (h | h | h) <;> cases h
  · rintro (h | h) <;> cases h
  · intro h; cases h

theorem has_mono {p p' : Peer} {n : Nat} (hb : p'.base = p.base) (hg : ∀ m ∈ given p, m ∈ given p') (h : Has p n) : Has p' n :=
  fun k h1 h2 => hg _ (h k (by rw [hb] at h1; exact h1) h2)

theorem inv_sendAll {s : S} (h : Inv s) (hg : s.pc ≠ .gone) {pc' : Pc} (hp : pc' ≠ .gone) (hw : s.cut = true → pc' = .leave)
    (ho : pc' = .send ∨ pc' = .leave ∨ pc' = .gone → s.enabled = false) : Inv { s.sendAll with pc := pc' } := by
  have hle := h.le
  have hsent : max s.sent s.commits = s.commits := Nat.max_eq_right hle
  refine ⟨?_, ?_, ?_, ?_, ?_, ?_, ?_⟩
  · show max s.sent s.commits ≤ s.commits; omega
  · intro _ i hs hc
    show ((if (s.peer i).subscribed = true then _ else _ : Peer)).linked = true ∧ Has (if (s.peer i).subscribed = true then _ else _) (max s.sent s.commits)
    by_cases hsub : (s.peer i).subscribed = true
    · rw [if_pos hsub]
      obtain ⟨h1, h2⟩ := h.subs hg i hsub hc
      refine ⟨by rw [put_linked]; exact h1, ?_⟩
      intro k hk1 hk2
      rw [put_base] at hk1
      rw [hsent] at hk2
      rw [given_put _ h1, List.mem_append]
      by_cases hks : k ≤ s.sent
      · exact Or.inl (h2 k hk1 hks)
      · exact Or.inr (mem_txs.2 ⟨by omega, hk2⟩)
    · exfalso
      apply hsub
      have : ((if (s.peer i).subscribed = true then (s.peer i).put (txs s.sent s.commits) else s.peer i) : Peer).subscribed = true := hs
      rw [if_neg hsub] at this
      exact this
  · intro _ i
    show _ ∉ given (if (s.peer i).subscribed = true then _ else _)
    split
    · by_cases hl : (s.peer i).linked = true
      · rw [given_put _ hl, List.mem_append]
        rintro (hm | hm)
        · exact h.quiet hg i hm
        · exact not_mem_txs hm
      · rw [put_closed _ (by cases e : (s.peer i).linked with
          | true => exact absurd e hl
          | false => rfl)]
        exact h.quiet hg i
    · exact h.quiet hg i
  · intro hc; exact Or.inr (Or.inr (Or.inl (hw hc)))
  · exact ho
  · intro _; exact hsent
  · intro e; exact absurd e hp

theorem inv_pc {s : S} (h : Inv s) {pc' : Pc} (hg : s.pc ≠ .gone) (hp : pc' ≠ .gone) (hl : pc' ≠ .leave) (hn : pc' ≠ .send)
    (hw : s.cut = true → pc' = .disable) : Inv { s with pc := pc' } :=
  ⟨h.le, fun _ => h.subs hg, fun _ => h.quiet hg, fun hc => Or.inl (hw hc), fun e => by
    rcases e with e | e | e
    · exact absurd e hn
    · exact absurd e hl
    · exact absurd e hp, fun e => by
    rcases e with e | e
    · exact absurd e hl
    · exact absurd e hp, fun e => absurd e hp⟩

theorem inv_sync {s : S} (h : Inv s) (r : Bool) : Inv (s.sync r) := by
  have nocut : ∀ {p : Pc}, s.pc = p → p ≠ .disable → p ≠ .send → p ≠ .leave → p ≠ .gone → s.cut = false := by
    intro p e h1 h2 h3 h4
    cases hc : s.cut with
    | false => rfl
    | true =>
      have hw := h.whole hc
      rw [e] at hw
      rcases hw with e | e | e | e
      · exact absurd e h1
      · exact absurd e h2
      · exact absurd e h3
      · exact absurd e h4
  unfold S.sync
  split <;> rename_i hpc
  · have hc := nocut hpc (by decide) (by decide) (by decide) (by decide)
    exact inv_sendAll h (by rw [hpc]; decide) (by decide) (by rw [hc]; intro e; cases e) (by rintro (e | e | e) <;> cases e)
  · have hc := nocut hpc (by decide) (by decide) (by decide) (by decide)
    refine inv_pc h (by rw [hpc]; decide) ?_ ?_ ?_ (by rw [hc]; intro e; cases e) <;> split <;> decide
  · have hc := nocut hpc (by decide) (by decide) (by decide) (by decide)
    have hg : s.pc ≠ .gone := by rw [hpc]; decide
    split
    · refine ⟨h.le, ?_, ?_, fun _ => Or.inl rfl, ?_, ?_, ?_⟩
      · intro _ i _ hc'; cases hc'
      · exact fun _ i => h.quiet hg i
      · rintro (e | e | e) <;> cases e
      · rintro (e | e) <;> cases e
      · intro e; cases e
    · exact inv_pc h hg (by decide) (by decide) (by decide) (by rw [hc]; intro e; cases e)
  · have hg : s.pc ≠ .gone := by rw [hpc]; decide
    refine ⟨h.le, fun _ => h.subs hg, fun _ => h.quiet hg, fun _ => Or.inr (Or.inl rfl), fun _ => rfl, ?_, ?_⟩
    · rintro (e | e) <;> cases e
    · intro e; cases e
  · exact inv_sendAll h (by rw [hpc]; decide) (by decide) (fun _ => rfl) (fun _ => h.off (Or.inl hpc))
  · have hg : s.pc ≠ .gone := by rw [hpc]; decide
    refine ⟨h.le, fun e => absurd rfl e, fun e => absurd rfl e, fun _ => Or.inr (Or.inr (Or.inr rfl)), fun _ => h.off (Or.inr (Or.inl hpc)),
      fun _ => h.all (Or.inl hpc), ?_⟩
    intro _ hc i hi
    obtain ⟨h1, h2⟩ := h.subs hg i hi hc
    refine ⟨given (s.peer i), ?_, h.quiet hg i, ?_⟩
    · show given { (s.peer i).put [.searching] with subscribed := false } = _
      rw [← given_put _ h1]; rfl
    · intro k hk1 hk2
      refine h2 k ?_ (by rw [h.all (Or.inl hpc)]; exact hk2)
      have : ({ (s.peer i).put [.searching] with subscribed := false } : Peer).base < k := hk1
      rw [show ({ (s.peer i).put [.searching] with subscribed := false } : Peer).base = _ from put_base _ _] at this
      exact this
  · exact h

theorem inv_setPeer {s : S} (h : Inv s) (hg : s.pc ≠ .gone) {i : Nat} {p : Peer}
    (h1 : p.subscribed = true → s.cut = false → p.linked = true ∧ Has p s.sent) (h2 : Msg.searching ∉ given p) : Inv (s.setPeer i p) := by
  refine ⟨h.le, ?_, ?_, h.whole, h.off, h.all, fun e => absurd e hg⟩
  · intro _ j
    show (if j = i then p else s.peer j).subscribed = true → _
    intro hs hc
    show (if j = i then p else s.peer j).linked = true ∧ Has (if j = i then p else s.peer j) s.sent
    by_cases e : j = i
    · rw [if_pos e] at hs ⊢
      exact h1 hs hc
    · rw [if_neg e] at hs ⊢
      exact h.subs hg j hs hc
  · intro _ j
    show _ ∉ given (if j = i then p else s.peer j)
    split
    · exact h2
    · exact h.quiet hg j

theorem inv_step {s : S} (h : Inv s) (e : Ev) : Inv (step s e) := by
  cases e with
  | commit =>
    unfold step
    dsimp only
    split
    · rename_i he
      have hno : ¬ (s.pc = .send ∨ s.pc = .leave ∨ s.pc = .gone) := by
        intro e
        rw [h.off e] at he; cases he
      refine ⟨Nat.le_succ_of_le h.le, h.subs, h.quiet, h.whole, h.off, ?_, ?_⟩
      · intro e; exact absurd (Or.inr e) hno
      · intro e; exact absurd (Or.inr (Or.inr e)) hno
    · exact h
  | sync r => exact inv_sync h r
  | subscribe i b =>
    unfold step
    dsimp only
    split
    · rename_i hc
      obtain ⟨h1, h2, h3, h4⟩ := hc
      have hg : s.pc ≠ .gone := by rw [h1]; decide
      refine inv_setPeer h hg ?_ ?_
      · intro _ _
        refine ⟨by show ((s.peer i).put _).linked = true; rw [put_linked]; exact h2, ?_⟩
        intro k hk1 hk2
        show _ ∈ given ((s.peer i).put _)
        rw [given_put _ h2, List.mem_append]
        have := h.le
        exact Or.inr (mem_txs.2 ⟨hk1, by omega⟩)
      · show _ ∉ given ((s.peer i).put _)
        rw [given_put _ h2, List.mem_append]
        rintro (hm | hm)
        · exact h.quiet hg i hm
        · exact not_mem_txs hm
    · exact h
  | lose i =>
    unfold step
    dsimp only
    split
    · rename_i hc
      have hg : s.pc ≠ .gone := by rw [hc]; decide
      exact inv_setPeer h hg (by intro e; cases e) (h.quiet hg i)
    · exact h
  | flush i =>
    unfold step
    dsimp only
    cases hb : (s.peer i).buf with
    | nil => exact h
    | cons m rest =>
      dsimp only
      split
      · have hgiven : given { s.peer i with buf := rest, wire := (s.peer i).wire ++ [m] } = given (s.peer i) := by
          unfold given
          dsimp only
          rw [hb, List.append_assoc]; rfl
        by_cases hg : s.pc = .gone
        · refine ⟨h.le, fun e => absurd hg e, fun e => absurd hg e, h.whole, h.off, h.all, ?_⟩
          intro _ hc j hj
          obtain ⟨l, h1, h2, h3⟩ := h.gone hg hc j hj
          refine ⟨l, ?_, h2, ?_⟩
          · show given (if j = i then _ else s.peer j) = _
            split
            · rename_i e; subst e; rw [hgiven]; exact h1
            · exact h1
          · intro k hk
            have : (if j = i then { s.peer i with buf := rest, wire := (s.peer i).wire ++ [m] } else s.peer j : Peer).base < k := hk
            refine h3 k ?_
            split at this
            · rename_i e; subst e; exact this
            · exact this
        · refine inv_setPeer h hg ?_ ?_
          · intro hs hc
            obtain ⟨h1, h2⟩ := h.subs hg i hs hc
            refine ⟨h1, ?_⟩
            intro k hk1 hk2
            rw [hgiven]; exact h2 k hk1 hk2
          · rw [hgiven]; exact h.quiet hg i
      · exact h
  | beginShutdown =>
    unfold step
    dsimp only
    split
    · exact ⟨h.le, h.subs, h.quiet, h.whole, h.off, h.all, h.gone⟩
    · exact h

theorem inv_run : ∀ (evs : List Ev) {s : S}, Inv s → Inv (run s evs)
  | [], _, h => h
  | e :: evs, _, h => inv_run evs (inv_step h e)

/-- Without a shutdown the sockets stay. -/
theorem uncut {c : Nat} {evs : List Ev} (hc : Ev.beginShutdown ∉ evs) :
    (run (start c) evs).shutting = false ∧ (run (start c) evs).cut = false := by
  have key : ∀ (evs : List Ev) (s : S), Ev.beginShutdown ∉ evs → s.shutting = false ∧ s.cut = false →
      (run s evs).shutting = false ∧ (run s evs).cut = false := by
    intro evs
    induction evs with
    | nil => intro _ _ h; exact h
    | cons e evs ih =>
      intro s hn h
      refine ih _ (fun hm => hn (List.mem_cons_of_mem _ hm)) ?_
      cases e with
      | commit => unfold step; dsimp only; split <;> exact h
      | sync r =>
        unfold step S.sync
        dsimp only
        split
        · exact h
        · exact h
        · rw [if_neg (by rw [h.1]; decide)]; exact h
        · exact h
        · exact h
        · exact h
        · exact h
      | subscribe i b => unfold step; dsimp only; split <;> exact h
      | lose i => unfold step; dsimp only; split <;> exact h
      | flush i =>
        unfold step
        dsimp only
        split
        · exact h
        · split <;> exact h
      | beginShutdown => exact absurd List.mem_cons_self hn
  exact key evs _ hc ⟨rfl, rfl⟩

/-- A leader has left without a shutdown. Whatever workers committed meanwhile, each peer that had subscribed has been given every commit after
those it had, and only then the message that the leader has left; and nothing more is committed. -/
theorem c114_all_sent {c : Nat} {evs : List Ev} (hg : (run (start c) evs).pc = .gone) (hn : Ev.beginShutdown ∉ evs) {i : Nat}
    (hi : (run (start c) evs).had i = true) :
    (∃ l, ((run (start c) evs).peer i).wire ++ ((run (start c) evs).peer i).buf = l ++ [.searching] ∧
      ∀ k, ((run (start c) evs).peer i).base < k → k ≤ (run (start c) evs).commits → Msg.tx k ∈ l) ∧
    (∀ more, (run (start c) (evs ++ more)).commits = (run (start c) evs).commits) := by
  have h := inv_run evs (inv_start c)
  have hc := (uncut (c := c) hn).2
  refine ⟨?_, ?_⟩
  · obtain ⟨l, h1, _, h3⟩ := h.gone hg hc i hi
    exact ⟨l, h1, h3⟩
  · intro more
    have happ : run (start c) (evs ++ more) = run (run (start c) evs) more := List.foldl_append
    rw [happ]
    have key : ∀ (more : List Ev) (s : S), s.pc = .gone → s.enabled = false → (run s more).commits = s.commits := by
      intro more
      induction more with
      | nil => intro _ _ _; rfl
      | cons e more ih =>
        intro s h1 h2
        have hstep : (step s e).pc = .gone ∧ (step s e).enabled = false ∧ (step s e).commits = s.commits := by
          cases e with
          | commit => unfold step; dsimp only; rw [if_neg (by rw [h2]; decide)]; exact ⟨h1, h2, rfl⟩
          | sync r => unfold step S.sync; rw [h1]; exact ⟨h1, h2, rfl⟩
          | subscribe i b =>
            unfold step; dsimp only
            rw [if_neg (by rw [h1]; intro e; cases e.1)]; exact ⟨h1, h2, rfl⟩
          | lose i => unfold step; dsimp only; rw [if_neg (by rw [h1]; decide)]; exact ⟨h1, h2, rfl⟩
          | flush i =>
            unfold step
            dsimp only
            split
            · exact ⟨h1, h2, rfl⟩
            · split <;> exact ⟨h1, h2, rfl⟩
          | beginShutdown => unfold step; dsimp only; rw [if_neg (by rw [h1]; decide)]; exact ⟨h1, h2, rfl⟩
        show (run (step s e) more).commits = _
        rw [ih _ hstep.1 hstep.2.1, hstep.2.2]
    exact key more _ hg (h.off (Or.inr (Or.inr hg)))

/-- A worker commits between each two steps, and everything is sent. -/
example : let s := run (start 5) [.subscribe 0 3, .sync true, .commit, .sync true, .commit, .flush 0, .sync true, .commit, .sync true, .commit, .sync true, .sync true]
    s.pc = .gone ∧ s.cut = false ∧ s.had 0 = true ∧ s.commits = 8 ∧ (s.peer 0).wire = [.tx 4] ∧
      (s.peer 0).buf = [.tx 5, .tx 6, .tx 7, .tx 8, .searching] := by
  decide

/-- When it shuts down, the sockets are closed before commits are stopped: what a worker commits in between is sent to nobody. -/
theorem c114_shutdown_loses_late_commit : let s := run (start 5) [.subscribe 0 5, .beginShutdown, .sync false, .sync false, .sync false, .commit, .sync false, .sync false, .sync false]
    s.pc = .gone ∧ s.had 0 = true ∧ s.commits = 6 ∧ s.sent = 6 ∧ given (s.peer 0) = [] := by
  decide

/-- … and so is what it had sent, but the socket had not taken yet. -/
theorem c114_shutdown_drops_buffer : let s := run (start 5) [.subscribe 0 5, .commit, .beginShutdown, .sync false, .sync false, .sync false, .sync false, .sync false, .sync false]
    s.pc = .gone ∧ s.had 0 = true ∧ s.commits = 6 ∧ (s.peer 0).wire = [] ∧ (s.peer 0).linked = false := by
  decide

/-- What is in the buffer of a closed socket stays there. -/
theorem c114_closed_stays {s : S} {i : Nat} (h : (s.peer i).linked = false) (evs : List Ev) :
    ((run s evs).peer i).wire = (s.peer i).wire := by
  have key : ∀ (evs : List Ev) (s : S), (s.peer i).linked = false → ((run s evs).peer i).wire = (s.peer i).wire := by
    intro evs
    induction evs with
    | nil => intro _ _; rfl
    | cons e evs ih =>
      intro s h
      have hput : ∀ l, (s.peer i).put l = s.peer i := fun l => put_closed l h
      have hstep : ((step s e).peer i).linked = false ∧ ((step s e).peer i).wire = (s.peer i).wire := by
        have hsend : (s.sendAll.peer i) = s.peer i := by
          show (if (s.peer i).subscribed = true then _ else _) = _
          split
          · exact hput _
          · rfl
        have hset : ∀ (j : Nat) (p : Peer), (j = i → p.linked = false ∧ p.wire = (s.peer i).wire) →
            ((s.setPeer j p).peer i).linked = false ∧ ((s.setPeer j p).peer i).wire = (s.peer i).wire := by
          intro j p hp
          show (if i = j then p else s.peer i).linked = false ∧ (if i = j then p else s.peer i).wire = _
          split
          · rename_i e; exact hp e.symm
          · exact ⟨h, rfl⟩
        cases e with
        | commit => unfold step; dsimp only; split <;> exact ⟨h, rfl⟩
        | sync r =>
          unfold step S.sync
          dsimp only
          split
          · show (s.sendAll.peer i).linked = false ∧ (s.sendAll.peer i).wire = _
            rw [hsend]; exact ⟨h, rfl⟩
          · exact ⟨h, rfl⟩
          · split
            · exact ⟨rfl, rfl⟩
            · exact ⟨h, rfl⟩
          · exact ⟨h, rfl⟩
          · show (s.sendAll.peer i).linked = false ∧ (s.sendAll.peer i).wire = _
            rw [hsend]; exact ⟨h, rfl⟩
          · show ((s.peer i).put [.searching]).linked = false ∧ ((s.peer i).put [.searching]).wire = _
            rw [hput]; exact ⟨h, rfl⟩
          · exact ⟨h, rfl⟩
        | subscribe j b =>
          unfold step
          dsimp only
          split
          · rename_i hc
            refine hset j _ ?_
            rintro rfl
            rw [h] at hc
            exact absurd hc.2.1 (by decide)
          · exact ⟨h, rfl⟩
        | lose j =>
          unfold step
          dsimp only
          split
          · refine hset j _ ?_
            rintro rfl; exact ⟨rfl, rfl⟩
          · exact ⟨h, rfl⟩
        | flush j =>
          unfold step
          dsimp only
          split
          · exact ⟨h, rfl⟩
          · split
            · rename_i hl
              refine hset j _ ?_
              rintro rfl
              rw [h] at hl; cases hl
            · exact ⟨h, rfl⟩
        | beginShutdown => unfold step; dsimp only; split <;> exact ⟨h, rfl⟩
      show ((run (step s e) evs).peer i).wire = _
      rw [ih _ hstep.1, hstep.2]
  exact key evs s h

end Bedrock.StandDown.Props
