import Verif.Lemmas.NodeVotes

namespace Bedrock.Node.Node
open Bedrock Bedrock.Node Bedrock.Node.Spec

/-- Opening or closing the command port, and approving a stand-up. -/
def isSpecial : Effect → Bool
  | .blockPort | .unblockPort => true
  | .send _ (.standupResponse _ (some true)) => true
  | _ => false

def special (out : List Effect) : List Effect := out.filter isSpecial

@[simp] theorem special_append (a b : List Effect) : special (a ++ b) = special a ++ special b := by
  simp [special]

theorem special_cons (a : Effect) (l : List Effect) :
    special (a :: l) = if isSpecial a then a :: special l else special l := by
  simp [special, List.filter_cons]

theorem special_nil : special [] = [] := rfl

@[simp] theorem special_shut (l : List Nat) : special (l.map Effect.shutdownSocket) = [] := by
  simp [special, isSpecial]

theorem send_special (n : Node) (i : Nat) (m : OutMsg) (h : isSpecial (.send i m) = false) :
    special (n.send i m).out = special n.out := by
  unfold send emit; split
  · rfl
  · simp [special, h]

@[simp] theorem send_special_forked (n : Node) (i : Nat) : special (n.send i .forked).out = special n.out :=
  send_special _ _ _ rfl
@[simp] theorem send_special_sync (n : Node) (i : Nat) : special (n.send i .synchronize).out = special n.out :=
  send_special _ _ _ rfl
@[simp] theorem send_special_ssd (n : Node) (i : Nat) : special (n.send i .syncShuttingDown).out = special n.out :=
  send_special _ _ _ rfl
@[simp] theorem send_special_sr (n : Node) (i : Nat) : special (n.send i .syncReply).out = special n.out :=
  send_special _ _ _ rfl
@[simp] theorem send_special_sub (n : Node) (i : Nat) : special (n.send i .subscribe).out = special n.out :=
  send_special _ _ _ rfl
@[simp] theorem send_special_sa (n : Node) (i : Nat) :
    special (n.send i .subscriptionApproved).out = special n.out := send_special _ _ _ rfl
@[simp] theorem send_special_rec (n : Node) (i : Nat) : special (n.send i .reconnect).out = special n.out :=
  send_special _ _ _ rfl
@[simp] theorem send_special_deny (n : Node) (i : Nat) (s : Option Int) :
    special (n.send i (.standupResponse s (some false))).out = special n.out := send_special _ _ _ rfl
@[simp] theorem send_special_none (n : Node) (i : Nat) (s : Option Int) :
    special (n.send i (.standupResponse s none)).out = special n.out := send_special _ _ _ rfl

theorem emit_special (n : Node) (e : Effect) (h : isSpecial e = false) :
    special (n.emit e).out = special n.out := by
  unfold emit; simp [special, h]

@[simp] theorem setPeer_special (n : Node) (i : Nat) (f : Peer → Peer) :
    special (n.setPeer i f).out = special n.out := rfl
@[simp] theorem reconnectPeer_special (n : Node) (i : Nat) :
    special (n.reconnectPeer i).out = special n.out := emit_special _ _ rfl
@[simp] theorem reconnectAll_special (n : Node) : special n.reconnectAll.out = special n.out := by
  simp [reconnectAll]
@[simp] theorem fail_special (n : Node) (i : Nat) : special (n.fail i).out = special n.out := by
  unfold fail; rw [emit_special _ _ rfl]; simp
@[simp] theorem dieIfForked_special (n : Node) : special n.dieIfForked.out = special n.out := by
  unfold dieIfForked; dsimp only; repeat' split
  all_goals rfl
@[simp] theorem updateSyncPeer_special (n : Node) : special n.updateSyncPeer.out = special n.out := rfl
@[simp] theorem changeState_special (n : Node) (new : NState) :
    special (n.changeState new).out = special n.out := by
  unfold changeState; dsimp only; repeat' split
  all_goals simp [special_cons, isSpecial, special_nil]

/-- Own lag status and the special effects are unchanged. -/
structure Q (n n' : Node) : Prop where
  blocked : n'.blocked = n.blocked
  out : special n'.out = special n.out

theorem update_q (n : Node) (t b : Bool) : Q n (update n t b) := by
  have es : special (n.emit .sendOutstanding).out = special n.out := emit_special _ _ rfl
  unfold update
  split
  · exact ⟨rfl, rfl⟩
  · unfold updateSearching; dsimp only; repeat' split
    all_goals exact ⟨by simp, by simp⟩
  · unfold updateSynchronizing; repeat' split
    all_goals exact ⟨by simp, by simp⟩
  · unfold updateWaiting; dsimp only; repeat' split
    all_goals exact ⟨by simp, by simp⟩
  · unfold updateStandingUp; dsimp only; repeat' split
    all_goals exact ⟨by simp, by simp⟩
  · unfold updateLeading; dsimp only; repeat' split
    all_goals exact ⟨by simp, by simp [es]⟩
  · unfold updateLeading; dsimp only; repeat' split
    all_goals exact ⟨by simp, by simp [es]⟩
  · unfold updateSubscribing; repeat' split
    all_goals exact ⟨by simp, by simp⟩
  · unfold updateFollowing; repeat' split
    all_goals exact ⟨by simp, by simp⟩

theorem onDisconnect_q (n : Node) (i : Nat) : Q n (onDisconnect n i) := by
  unfold onDisconnect; dsimp only
  constructor
  · repeat' split
    all_goals simp
  · repeat' split
    all_goals simp

theorem setPriority_q (n : Node) (p : Int) : Q n (setPriority n p).1 := by
  have e : ∀ (n : Node) (s : NState) (p : Int) (c : Nat), special (n.emit (.sendAll (.state s p c))).out = special n.out :=
    fun n _ _ _ => emit_special n _ rfl
  unfold setPriority; dsimp only
  constructor
  · repeat' split
    all_goals simp
  · repeat' split
    all_goals simp [e]

/-- The conditions under which a node approves a peer that stands up. -/
def Unopposed (n : Node) (i : Nat) : Prop :=
  leadish n.state = false ∧ ∀ j, j ≠ i → leadish (n.peer j).state = false

theorem zipIdx_any {ps : List Peer} {i : Nat} :
    ps.zipIdx.any (fun x => x.2 != i && leadish x.1.state) = false ↔
      ∀ j, j ≠ i → leadish (ps.getD j {}).state = false := by
  rw [List.any_eq_false]
  constructor
  · intro h j hj
    by_cases hl : j < ps.length
    · have hm : (ps[j], j) ∈ ps.zipIdx := List.mem_zipIdx_iff_getElem?.mpr (by simp [hl])
      have := h _ hm
      simp [hj] at this
      simpa [List.getD_eq_getElem?_getD, hl] using this
    · simp [List.getD_eq_getElem?_getD, List.getElem?_eq_none (Nat.le_of_not_lt hl), leadish]
  · rintro h ⟨p, j⟩ hm
    have hg : ps[j]? = some p := by simpa using List.mem_zipIdx_iff_getElem?.mp hm
    simp only [Bool.and_eq_true, bne_iff_ne, ne_eq, not_and, Bool.not_eq_true]
    intro hj
    have := h j hj
    simpa [List.getD_eq_getElem?_getD, hg] using this

theorem sendStandupResponse_out (n : Node) (i : Nat) (scc : Option Int) :
    (sendStandupResponse n i scc).blocked = n.blocked ∧
    ((special (sendStandupResponse n i scc).out = special n.out ∧
      ¬ (Unopposed n i ∧ (n.peer i).permaFollower = false ∧ (n.peer i).forked = false)) ∨
     (special (sendStandupResponse n i scc).out = special n.out ++ [.send i (.standupResponse scc (some true))] ∧
      Unopposed n i ∧ (n.peer i).permaFollower = false ∧ (n.peer i).forked = false)) := by
  constructor
  · unfold sendStandupResponse; dsimp only; repeat' split
    all_goals simp
  · unfold sendStandupResponse; dsimp only
    split
    · rename_i h; left; exact ⟨by simp, by simp [h]⟩
    · rename_i hp
      split
      · rename_i hl
        left
        refine ⟨?_, fun h => by simp [h.1.1] at hl⟩
        repeat' split
        all_goals simp
      · rename_i hl
        have hl : leadish n.state = false := by simpa using hl
        cases hc : n.peers.zipIdx.any (fun x => x.2 != i && leadish x.1.state) with
        | true =>
          left
          refine ⟨by simp, ?_⟩
          rintro ⟨⟨_, hu⟩, _⟩
          rw [zipIdx_any.mpr hu] at hc
          exact absurd hc (by decide)
        | false =>
          cases hf : (n.peer i).forked with
          | true => left; refine ⟨?_, by simp⟩; unfold send; rw [if_pos hf]
          | false =>
            right
            refine ⟨?_, ⟨hl, zipIdx_any.mp hc⟩, by simpa using hp, rfl⟩
            unfold send; rw [if_neg (by simp [hf])]
            unfold emit; simp [special, isSpecial]

theorem loginRecord_q (n : Node) (i : Nat) (prio : Int) (st : NState) (ver : Bytes) :
    Q n (loginRecord n i prio st ver) := by
  unfold loginRecord; dsimp only
  constructor
  · repeat' split
    all_goals simp
  · repeat' split
    all_goals simp

theorem loginCheck_q (n : Node) (i : Nat) : Q n (loginCheck n i) := by
  unfold loginCheck
  split
  · exact ⟨by simp, by simp⟩
  · exact ⟨by simp, by simp⟩

theorem onSynchronizeResponse_q (n : Node) (i : Nat) (hm : Bool) (o : DbOutcome) :
    Q n (onSynchronizeResponse n i hm o) := by
  unfold onSynchronizeResponse; dsimp only
  constructor
  · repeat' split
    all_goals simp
  · repeat' split
    all_goals simp

theorem onSubscriptionApproved_q (n : Node) (i : Nat) (o : DbOutcome) :
    Q n (onSubscriptionApproved n i o) := by
  unfold onSubscriptionApproved; dsimp only
  constructor
  · repeat' split
    all_goals simp
  · repeat' split
    all_goals simp

theorem onForked_q (n : Node) (i : Nat) : Q n (onForked n i) := by
  unfold onForked; dsimp only
  constructor
  · repeat' split
    all_goals simp
  · repeat' split
    all_goals simp

theorem onStandupResponse_q (n : Node) (i : Nat) (s : Option Int) (r : Option Bool) :
    Q n (onStandupResponse n i s r) := by
  unfold onStandupResponse
  constructor
  · repeat' split
    all_goals simp
  · repeat' split
    all_goals simp

/-- The body announces that its sender stands up. -/
def announces : Body → Option (Option Int)
  | .login (some _) (some .standingUp) (some _) scc => some scc
  | .state (some .standingUp) (some _) scc => some scc
  | _ => none

/-- The priority a LOGIN or STATE message announces. -/
def announced : Body → Option Int
  | .login p _ _ _ => p
  | .state _ p _ => p
  | _ => none

theorem dispatch_blocked (n : Node) (i : Nat) (b : Body) (o : DbOutcome) :
    (dispatch n i b o).blocked = n.blocked := by
  have hl : ∀ p s v c, (onLogin n i p s v c).blocked = n.blocked := by
    intro p s v c
    unfold onLogin; dsimp only
    repeat' split
    · simp
    · simp
    · rw [(loginCheck_q ..).blocked, (loginRecord_q ..).blocked]
    · rw [(sendStandupResponse_out ..).1, (loginCheck_q ..).blocked, (loginRecord_q ..).blocked]
    · rw [(loginCheck_q ..).blocked, (loginRecord_q ..).blocked]
    · simp
  unfold dispatch
  split
  · exact hl ..
  · split
    · unfold onLoggedIn
      split
      · unfold onState; dsimp only
        repeat' split
        all_goals (try rw [(sendStandupResponse_out ..).1])
        all_goals simp
      · exact (onStandupResponse_q ..).blocked
      · repeat' split
        all_goals simp
      · exact (onSynchronizeResponse_q ..).blocked
      · repeat' split
        all_goals simp
      · exact (onSubscriptionApproved_q ..).blocked
      · exact (onForked_q ..).blocked
      all_goals rfl
    · simp

/-- Other peers' announced states are untouched, and so is ours. -/
theorem loginRecord_unopposed {n : Node} {i : Nat} {prio : Int} {st : NState} {ver : Bytes} :
    Unopposed (loginRecord n i prio st ver) i ↔ Unopposed n i := by
  unfold Unopposed
  rw [(loginRecord_still n i prio st ver).state]
  have : ∀ j, j ≠ i → ((loginRecord n i prio st ver).peer j).state = (n.peer j).state := by
    intro j hj
    unfold loginRecord
    dsimp only
    have e : ((n.setPeer i fun p =>
      { p with priority := prio, version := ver, state := st, permaFollower := prio = 0 }).peer j).state =
        (n.peer j).state := by
      rw [setPeer_peer, if_neg (by intro h; exact hj h.1.symm)]
    repeat' split
    · rw [reconnectAll_field _ (·.state) (fun _ _ => rfl)]; exact e
    · exact e
    · exact e
  constructor
  · rintro ⟨a, b⟩; exact ⟨a, fun j hj => by rw [← this j hj]; exact b j hj⟩
  · rintro ⟨a, b⟩; exact ⟨a, fun j hj => by rw [this j hj]; exact b j hj⟩

theorem loginCheck_field {n : Node} {i : Nat} {α : Type} (F : Peer → α)
    (h : ∀ (p : Peer) a b, F { p with loggedIn := a, forked := b } = F p) (j : Nat) :
    F ((loginCheck n i).peer j) = F (n.peer j) := by
  unfold loginCheck
  split
  · rw [dieIfForked_peer, setPeer_field F (fun p => h p p.loggedIn true), send_peer]
  · exact setPeer_field F (fun p => h p true p.forked)

theorem loginCheck_unopposed {n : Node} {i : Nat} :
    Unopposed (loginCheck n i) i ↔ Unopposed n i := by
  unfold Unopposed
  rw [(loginCheck_still n i).state]
  have : ∀ j, ((loginCheck n i).peer j).state = (n.peer j).state :=
    loginCheck_field (·.state) (fun _ _ _ => rfl)
  simp only [this]

theorem loginRecord_self {n : Node} {i : Nat} {prio : Int} {st : NState} {ver : Bytes}
    (hi : i < n.peers.length) : ((loginRecord n i prio st ver).peer i).permaFollower = decide (prio = 0) := by
  unfold loginRecord
  dsimp only
  have e : ((n.setPeer i fun p =>
    { p with priority := prio, version := ver, state := st, permaFollower := prio = 0 }).peer i).permaFollower =
      decide (prio = 0) := by
    rw [setPeer_peer, if_pos ⟨rfl, hi⟩]
  repeat' split
  · rw [reconnectAll_field _ (·.permaFollower) (fun _ _ => rfl)]; exact e
  · exact e
  · exact e

/-- Everything a message handler can approve. -/
theorem dispatch_special (n : Node) (i : Nat) (b : Body) (o : DbOutcome) (hi : i < n.peers.length) :
    special (dispatch n i b o).out = special n.out ∨
    ∃ scc p, announces b = some scc ∧ announced b = some p ∧ p ≠ 0 ∧ Unopposed n i ∧
      special (dispatch n i b o).out = special n.out ++ [.send i (.standupResponse scc (some true))] := by
  have hlogin : ∀ p s v c, special (onLogin n i p s v c).out = special n.out ∨
      ∃ scc q, announces (.login p s v c) = some scc ∧ announced (.login p s v c) = some q ∧ q ≠ 0 ∧
        Unopposed n i ∧
        special (onLogin n i p s v c).out = special n.out ++ [.send i (.standupResponse scc (some true))] := by
    intro p s v c
    unfold onLogin
    split
    · left; simp
    · split
      · rename_i prio st ver
        split
        · left; simp
        · have hq : special (loginCheck (loginRecord n i prio st ver) i).out = special n.out := by
            rw [(loginCheck_q ..).out, (loginRecord_q ..).out]
          dsimp only
          split
          · left; exact hq
          · split
            · rename_i hst
              subst hst
              rcases (sendStandupResponse_out (loginCheck (loginRecord n i prio .standingUp ver) i) i c).2 with
                h | h
              · left; rw [h.1, hq]
              · right
                refine ⟨c, prio, rfl, rfl, ?_, ?_, ?_⟩
                · intro h0
                  have := h.2.2.1
                  rw [loginCheck_field (·.permaFollower) (fun _ _ _ => rfl), loginRecord_self hi] at this
                  simp [h0] at this
                · exact loginRecord_unopposed.mp (loginCheck_unopposed.mp h.2.1)
                · rw [h.1, hq]
            · left; exact hq
      · left; simp
  have hstate : ∀ s p c, special (onState n i s p c).out = special n.out ∨
      ∃ scc q, announces (.state s p c) = some scc ∧ announced (.state s p c) = some q ∧ q ≠ 0 ∧
        Unopposed n i ∧
        special (onState n i s p c).out = special n.out ++ [.send i (.standupResponse scc (some true))] := by
    intro s p c
    unfold onState
    split
    · rename_i st prio
      dsimp only
      split
      · left; simp
      · split
        · left; simp
        · split
          · rename_i hst
            subst hst
            rcases (sendStandupResponse_out (n.setPeer i (fun p =>
                { p with priority := prio, permaFollower := prio = 0, state := .standingUp })) i c).2 with h | h
            · left; rw [h.1]; simp
            · right
              refine ⟨c, prio, rfl, rfl, ?_, ?_, ?_⟩
              · intro h0
                have := h.2.2.1
                rw [setPeer_peer, if_pos ⟨rfl, hi⟩] at this
                simp [h0] at this
              · obtain ⟨h1, h2⟩ := h.2.1
                refine ⟨by simpa using h1, fun j hj => ?_⟩
                have := h2 j hj
                rw [setPeer_peer, if_neg (by intro h; exact hj h.1.symm)] at this
                exact this
              · rw [h.1]; simp
          · left; simp
    · left; simp
  have other : ∀ b, (∀ s p c, b ≠ .state s p c) → special (onLoggedIn n i b o).out = special n.out := by
    intro b hb
    unfold onLoggedIn
    split
    · exact absurd rfl (hb _ _ _)
    · exact (onStandupResponse_q ..).out
    · repeat' split
      all_goals simp
    · exact (onSynchronizeResponse_q ..).out
    · repeat' split
      all_goals simp
    · exact (onSubscriptionApproved_q ..).out
    · exact (onForked_q ..).out
    all_goals rfl
  have guard : ∀ b, (∀ s p c, b ≠ .state s p c) →
      special (if (n.peer i).loggedIn then onLoggedIn n i b o else fail n i).out = special n.out := by
    intro b hb
    split
    · exact other b hb
    · simp
  cases b with
  | login p s v c => exact hlogin p s v c
  | state s p c =>
    show special (if (n.peer i).loggedIn then onState n i s p c else fail n i).out = _ ∨
      ∃ scc q, _ ∧ _ ∧ _ ∧ _ ∧
        special (if (n.peer i).loggedIn then onState n i s p c else fail n i).out = _
    split
    · exact hstate s p c
    · left; simp
  | _ => left; exact guard _ (by intros; simp)

end Bedrock.Node.Node
