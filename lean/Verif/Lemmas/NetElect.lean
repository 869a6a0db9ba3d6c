import Verif.Lemmas.NetVote
import Verif.Lemmas.NodeHeard

/-!
# Every event keeps the votes in order
-/

namespace Bedrock.Net
open Bedrock Bedrock.Node Bedrock.Node.Node Bedrock.Node.Props

theorem r_msgs {x : Option Nat} {n n' : Node} (hr : R x n n') (hw : Wf n) (ho : n.out = []) (hl : leadish n'.state = true) :
    ∀ m ∈ stateMsgs n'.out, leadish m.1 = true := by
  obtain ⟨es, _, e1, _, hok⟩ := hr.said hw
  rw [ho, List.nil_append] at e1
  subst e1
  obtain ⟨l, e2, h2⟩ := hr.clean hl
  intro m hm
  obtain ⟨_, g2, g3, g4⟩ := hok.1 m hm
  by_cases hlt : m.2.2 - 1 < n.hist.length
  · have hlast := hw.last
    rw [List.getLast?_eq_getElem?] at hlast
    have hi : m.2.2 - 1 = n.hist.length - 1 := by rw [hw.len] at hlt ⊢; omega
    rw [e2, List.getElem?_append_left hlt, hi, hlast] at g4
    injection g4 with g4
    rw [← g4]
    exact hr.leadish hl
  · rw [e2, List.getElem?_append_right (by omega)] at g4
    exact h2 _ (List.mem_of_getElem? g4)

theorem count_eq {ps qs : List Peer} (hl : qs.length = ps.length)
    (h : ∀ k, k < ps.length → (qs.getD k {}).standup = (ps.getD k {}).standup) :
    qs.countP (fun p => p.standup = .approve) = ps.countP (fun p => p.standup = .approve) := by
  have hm : qs.map (·.standup) = ps.map (·.standup) := by
    apply List.ext_getElem
    · simp [hl]
    · intro k h1 h2
      have h3 : k < ps.length := by simpa using h2
      have h4 : k < qs.length := by simpa using h1
      have := h k h3
      simp only [List.getD_eq_getElem?_getD, List.getElem?_eq_getElem h3, List.getElem?_eq_getElem h4, Option.getD_some] at this
      simpa using this
  have hc : ∀ l : List Peer, l.countP (fun p => p.standup = .approve) = (l.map (·.standup)).countP (fun s => s = .approve) := by
    intro l; rw [List.countP_map]; rfl
  rw [hc, hc, hm]

theorem acts_of_r {old net0 : Net} (hb : Base old) {i : Nat} (hi : i < old.size) {n' : Node} {x : Option Nat}
    (hr : R x (old.node i) n')
    (standup : ∀ c, c < old.size → i ≠ c → leadish (old.node i).state = true → (n'.peer (ixOf i c)).standup = .approve → Vote old c i)
    (view : ∀ a, a < old.size → i ≠ a → Vote old i a → leadish (n'.peer (ixOf i a)).state = true)
    (fresh : ∀ a, a < old.size → i ≠ a → old.side a i ≠ .closed → (old.node a).state = .standingUp →
      (ixOf i a, some ((old.node a).stateChangeCount : Int)) ∈ approvals n'.out →
      (old.view i a).loggedIn = true ∧ (old.view i a).forked = false ∧ leadish (n'.peer (ixOf i a)).state = true ∧
      (∀ m ∈ said (net0.chan a i), leadish m.1 = true) ∧ leadish n'.state = false ∧
      ∀ b, b < old.size → b ≠ a → b ≠ i → leadish (n'.peer (ixOf i b)).state = false)
    (counted : ∀ c, c < old.size → i ≠ c → leadish (old.node i).state = true → (n'.peer (ixOf i c)).standup = .approve →
      (old.view i c).loggedIn = true)
    (enough : inCharge n'.state = true → n'.peers.length ≤ n'.peers.countP (fun p => p.standup = .approve) * 2) :
    Acts old net0 i n' where
  up h := by
    obtain ⟨h1, h2⟩ := hr.up h
    refine Or.inl ⟨h1, ?_⟩
    rw [← (hr.wf (hb.wf i hi)).len, ← (hb.wf i hi).len, h2]
  msgs := r_msgs hr (hb.wf i hi) (hb.quiet i hi)
  standup c hc hic hl := standup c hc hic (hr.leadish hl)
  lead hl := Or.inl (hr.leadish hl)
  view := view
  fresh := fresh
  counted c hc hic hl := counted c hc hic (hr.leadish hl)
  enough := enough

theorem ix_cover {n i : Nat} {k : Nat} (hi : i < n) (hk : k + 1 < n) : ∃ c, c < n ∧ i ≠ c ∧ ixOf i c = k :=
  ⟨idOf i k, idOf_lt hk, Ne.symm idOf_ne, (ixOf_of_idOf rfl).symm⟩

/-- … without a vote that is counted anew. -/
theorem acts_same {old net0 : Net} (hb : Base old) (h : Elect old) {i : Nat} (hi : i < old.size) {n' : Node} {x : Option Nat}
    (hr : R x (old.node i) n') (hlen : n'.peers.length = (old.node i).peers.length)
    (hst : ∀ c, c < old.size → i ≠ c → (n'.peer (ixOf i c)).standup = ((old.node i).peer (ixOf i c)).standup)
    (view : ∀ a, a < old.size → i ≠ a → Vote old i a → leadish (n'.peer (ixOf i a)).state = true)
    (fresh : ∀ a, a < old.size → i ≠ a → old.side a i ≠ .closed → (old.node a).state = .standingUp →
      (ixOf i a, some ((old.node a).stateChangeCount : Int)) ∈ approvals n'.out →
      (old.view i a).loggedIn = true ∧ (old.view i a).forked = false ∧ leadish (n'.peer (ixOf i a)).state = true ∧
      (∀ m ∈ said (net0.chan a i), leadish m.1 = true) ∧ leadish n'.state = false ∧
      ∀ b, b < old.size → b ≠ a → b ≠ i → leadish (n'.peer (ixOf i b)).state = false) :
    Acts old net0 i n' := by
  refine acts_of_r hb hi hr ?_ view fresh ?_ ?_
  · intro c hc hic hl ha
    rw [hst c hc hic] at ha
    exact ⟨hl, Or.inl ha⟩
  · intro c hc hic hl ha
    rw [hst c hc hic] at ha
    exact h.counted i c hi hc hic hl ha
  · intro hc
    have he := h.enough i hi (hr.charge hc)
    have hcnt : n'.peers.countP (fun p => p.standup = .approve) = (old.node i).peers.countP (fun p => p.standup = .approve) := by
      refine count_eq hlen (fun k hk => ?_)
      have hL := hb.len i hi
      obtain ⟨c, hc, hic, e⟩ := ix_cover hi (k := k) (n := old.size) (by omega)
      rw [← e]
      exact hst c hc hic
    rw [hcnt, hlen]; exact he

theorem peer_view {net : Net} {i j : Nat} : (net.node i).peer (ixOf i j) = net.view i j := rfl

theorem own_acts {old : Net} (hb : Base old) (h : Elect old) {i : Nat} (hi : i < old.size) {ev : Node.Ev}
    (h1 : ∀ i m o, ev ≠ .message i m o) (h2 : ∀ i, ev ≠ .disconnect i) (h3 : ∀ p, ev = .setPriority p → p ≠ 0) :
    Acts old old i (Node.step (old.node i) ev) := by
  have hp := hb.peers hi
  obtain ⟨hs, happ, hk⟩ := own_step hp h1 h2 h3
  have hnone : ∀ x, x ∉ approvals (Node.step (old.node i) ev).out := by
    intro x hx
    rw [happ, hb.quiet i hi] at hx; cases hx
  have hL := hb.len i hi
  have hview : ∀ a, a < old.size → i ≠ a → Vote old i a → leadish ((Node.step (old.node i) ev).peer (ixOf i a)).state = true := by
    intro a ha hia hv
    rw [(hk _).2.1]
    exact (h.sees a i ha hi (Ne.symm hia) hv).state
  rcases step_r (x := none) ev hp h1 h2 h3 with hr | ⟨hw, e, hcl⟩ | ⟨hw, e, hcnt⟩
  · refine acts_same hb h hi hr (step_moves ev).len (fun c _ _ => (hr.seen (ixOf i c) nofun).standup) hview ?_
    intro a _ _ _ _ hm
    exact absurd hm (hnone _)
  · have hst : ∀ k, ((Node.step (old.node i) ev).peer k).standup = .none := by
      intro k
      rw [e, changeState_field _ _ (·.standup) (fun _ _ _ => rfl)]
      unfold peer
      simp only [List.getD_eq_getElem?_getD, List.getElem?_map]
      cases (old.node i).peers[k]? <;> rfl
    have hstate : (Node.step (old.node i) ev).state = .standingUp := by rw [e, changeState_state]
    refine ⟨?_, ?_, ?_, ?_, hview, (fun a _ _ _ _ hm => absurd hm (hnone _)), ?_, ?_⟩
    · intro _
      right
      rw [e, changeState_scc, if_neg (fun he => by rw [show _ = NState.waiting from hw] at he; cases he)]
      exact Nat.lt_succ_self _
    · intro _ m hm
      rw [e] at hm
      obtain ⟨es, e1, e2⟩ := changeState_out { old.node i with peers := (old.node i).peers.map (fun p => { p with standup := .none }) }
        (new := .standingUp) (fun he => by rw [show _ = NState.waiting from hw] at he; cases he)
      rw [e1, stateMsgs_append, stateMsgs_append, e2] at hm
      rw [show ({ old.node i with peers := (old.node i).peers.map (fun p => { p with standup := .none }) } : Node).out = [] from hb.quiet i hi] at hm
      have := List.mem_singleton.1 (show m ∈ [_] from hm)
      rw [this]; rfl
    · intro c _ _ _ ha
      rw [hst] at ha; cases ha
    · intro _
      right
      intro b hbs hib hsees
      have hlt : ixOf i b < (old.node i).peers.length := by
        have := ixOf_lt hi hbs hib
        omega
      have := currentLeader_none hcl hlt
      have hpv : (old.node i).peers.getD (ixOf i b) {} = old.view i b := rfl
      rw [hpv, hsees.login, hsees.state] at this
      have hf := hsees.forked
      have hpm := hb.perma i b hi hbs hib
      unfold eligible full at this
      rw [hf, hpm] at this
      cases this
    · intro c _ _ _ ha
      rw [hst] at ha; cases ha
    · intro hc
      rw [hstate] at hc; cases hc
  · have hsame := fun k => (said_change (x := none) (n := old.node i) .leading).2 k nofun
    have hstate : (Node.step (old.node i) ev).state = .leading := by rw [e, changeState_state]
    have hlead : leadish (old.node i).state = true := by rw [hw]; rfl
    refine ⟨?_, ?_, ?_, fun _ => Or.inl hlead, hview, (fun a _ _ _ _ hm => absurd hm (hnone _)), ?_, ?_⟩
    · intro hu
      rw [hstate] at hu; cases hu
    · intro _ m hm
      rw [e] at hm
      obtain ⟨es, e1, e2⟩ := changeState_out (old.node i) (new := .leading) (fun he => by rw [hw] at he; cases he)
      rw [e1, stateMsgs_append, stateMsgs_append, e2, hb.quiet i hi] at hm
      have := List.mem_singleton.1 (show m ∈ [_] from hm)
      rw [this]; rfl
    · intro c _ _ _ ha
      rw [e, (hsame _).standup] at ha
      exact ⟨hlead, Or.inl ha⟩
    · intro c hc hic _ ha
      rw [e, (hsame _).standup] at ha
      exact h.counted i c hi hc hic hlead ha
    · intro _
      have hlen := (step_moves (n := old.node i) ev).len
      have hcnt' : (Node.step (old.node i) ev).peers.countP (fun p => p.standup = .approve) =
          (old.node i).peers.countP (fun p => p.standup = .approve) := by
        refine count_eq hlen (fun k _ => ?_)
        rw [e]; exact (hsame k).standup
      rw [hcnt', hlen]
      have hfull : (old.node i).peers.countP full = (old.node i).peers.length := by
        rw [List.countP_eq_length]
        intro p hpm
        obtain ⟨k, hkl, e'⟩ := List.mem_iff_getElem.1 hpm
        obtain ⟨c, hc, hic, e''⟩ := ix_cover hi (k := k) (n := old.size) (by omega)
        have := hb.perma i c hi hc hic
        rw [← peer_view, e''] at this
        unfold peer at this
        rw [List.getD_eq_getElem?_getD, List.getElem?_eq_getElem hkl, e'] at this
        unfold full
        rw [show p.permaFollower = false from this]; rfl
      rw [hfull] at hcnt
      have hle : (old.node i).peers.countP (fun p => full p && p.loggedIn && p.standup = .approve) ≤
          (old.node i).peers.countP (fun p => p.standup = .approve) := by
        apply List.countP_mono_left
        intro p _ hp
        simp only [Bool.and_eq_true] at hp
        exact hp.2
      omega

/-- A delivery. -/
theorem deliver_acts {old : Net} (hb : Base old) (hg : Greeted old) (h : Elect old) {i j : Nat} (hi : i < old.size) (hj : j < old.size)
    (hij : i ≠ j) (hs : old.side j i ≠ .closed) {p : Packet} {rest : List Packet} (hc : old.chan i j = p :: rest) (mm : Bool) (o : DbOutcome) :
    Acts old { old with chan := upd2 old.chan i j rest } j (Node.step (old.node j) (.message (ixOf j i)
      { commitCount := some p.commits, hash := some p.hash, body := body mm p.payload } o)) := by
  have hh := deliver_handled hb hi hj hij hc mm o
  have hji := Ne.symm hij
  generalize hn : Node.step (old.node j) (.message (ixOf j i)
      { commitCount := some p.commits, hash := some p.hash, body := body mm p.payload } o) = n' at hh
  have hlen : n'.peers.length = (old.node j).peers.length := by rw [← hn]; exact (step_moves _).len
  have hoth : ∀ b, j ≠ b → b ≠ i → Same ((old.node j).peer (ixOf j b)) (n'.peer (ixOf j b)) := by
    intro b hjb hbi
    exact hh.r.seen (ixOf j b) (fun e => hbi (ixOf_inj hjb hji (Option.some.inj e).symm))
  have fresh : ∀ a, a < old.size → j ≠ a → old.side a j ≠ .closed → (old.node a).state = .standingUp →
      (ixOf j a, some ((old.node a).stateChangeCount : Int)) ∈ approvals n'.out →
      (old.view j a).loggedIn = true ∧ (old.view j a).forked = false ∧ leadish (n'.peer (ixOf j a)).state = true ∧
      (∀ m ∈ said (upd2 old.chan i j rest a j), leadish m.1 = true) ∧ leadish n'.state = false ∧
      ∀ b, b < old.size → b ≠ a → b ≠ j → leadish (n'.peer (ixOf j b)).state = false := by
    intro a ha hja hsa hst hm
    obtain ⟨e1, s, q, k, e2, e3⟩ := hh.app _ _ hm
    have e := ixOf_inj hja hji e1
    subst e
    have hk : (old.node a).stateChangeCount = k := by omega
    have hne : approvals n'.out ≠ approvals (old.node j).out := by
      intro e
      rw [e, hb.quiet j hj] at hm; cases hm
    rw [← hn] at hne
    obtain ⟨i', m, o', scc, _, e, han, _, _, _, n1, n2, n3, hothers, _⟩ := c12_approves_only_unopposed _ _ hne
    injection e with g1 g2 g3
    subst g1 g2
    have hs' : s = .standingUp := by
      dsimp only at han
      rw [e2] at han
      cases s <;> first | rfl | cases han
    subst hs'
    have hnl : ∀ s : NState, s ≠ .standingUp → s ≠ .leading → s ≠ .standingDown → leadish s = false := by
      intro s; cases s <;> simp [leadish]
    have hn2 : n' = Node.step (old.node j) (.message (ixOf j a)
      ⟨some p.commits, some p.hash, .state (some .standingUp) (some q) (some (k : Int))⟩ o) := by
      rw [← hn, e2]; rfl
    rcases state_at hn2 with ⟨_, happ⟩ | ⟨hlog, hfork, hstt, _, _⟩
    · rw [hn] at hne; exact absurd happ hne
    · refine ⟨hlog, hfork, by rw [hstt]; rfl, ?_, ?_, ?_⟩
      · intro m hm'
        have e5 : upd2 old.chan a j rest a j = rest := if_pos ⟨rfl, rfl⟩
        rw [e5] at hm'
        have ht := hb.told a j ha hj (Ne.symm hja) hsa
        have hsaid : said (old.chan a j) = (.standingUp, q, k) :: said rest := by
          rw [hc]; unfold said; rw [List.filterMap_cons, e2]; rfl
        unfold Told at ht
        rw [hsaid] at ht
        have h1 := (List.pairwise_cons.1 ht.2).1 m hm'
        have h2 := ht.1 m (List.mem_cons_of_mem _ hm')
        have h3 := (ht.1 (.standingUp, q, k) List.mem_cons_self)
        have h4 := (List.getElem?_eq_some_iff.1 h2.2).1
        rw [(hb.wf a ha).len, hk] at h4
        dsimp only at h1 h3
        have h5 : m.2.2 = k := by omega
        rw [h5, h3.2] at h2
        have := Option.some.inj h2.2
        rw [← this]; rfl
      · cases hl : leadish n'.state with
        | false => rfl
        | true =>
          have := hh.r.leadish hl
          rw [hnl _ n1 n2 n3] at this; cases this
      · intro b hbs hba hbj
        rw [(hoth b (Ne.symm hbj) hba).state]
        have := hothers (ixOf j b) (fun e => hba (ixOf_inj (Ne.symm hbj) hja e))
        exact hnl _ this.1 this.2.1 this.2.2
  have hrest : ∀ a, a < old.size → j ≠ a → a ≠ i → Vote old j a → leadish (n'.peer (ixOf j a)).state = true := by
    intro a ha hja hai hv
    rw [(hoth a hja hai).state]
    exact (h.sees a j ha hj (Ne.symm hja) hv).state
  have hnone : R none (old.node j) n' → Acts old { old with chan := upd2 old.chan i j rest } j n' := by
    intro hr
    refine acts_same hb h hj hr hlen (fun c _ _ => (hr.seen (ixOf j c) nofun).standup) ?_ fresh
    intro a ha hja hv
    rw [(hr.seen (ixOf j a) nofun).state]
    exact (h.sees a j ha hj (Ne.symm hja) hv).state
  rcases body_plain (mm := mm) (p := p.payload) with hbd | ⟨q, s, v, e, hbd⟩ | ⟨s, q, c, e, hbd⟩ | ⟨c, r, e, hbd⟩
  · refine hnone ?_
    rw [← hn]; exact plain_at hbd
  · rw [hbd] at hn
    rcases login_at hn.symm with hr | ⟨hlog, _, hst⟩
    · exact hnone hr
    · refine acts_same hb h hj hh.r hlen ?_ ?_ fresh
      · intro c hc hjc
        by_cases e : c = i
        · rw [e]; exact hst
        · exact (hoth c hjc e).standup
      · intro a ha hja hv
        by_cases e : a = i
        · subst e
          have := (h.sees a j ha hj (Ne.symm hja) hv).login
          rw [show (old.view j a).loggedIn = false from hlog] at this; cases this
        · exact hrest a ha hja e hv
  · rw [hbd] at hn
    rcases state_at hn.symm with ⟨hr, _⟩ | ⟨_, _, hstt, _, hst⟩
    · exact hnone hr
    · refine acts_same hb h hj hh.r hlen ?_ ?_ fresh
      · intro c hc hjc
        by_cases e : c = i
        · rw [e]; exact hst
        · exact (hoth c hjc e).standup
      · intro a ha hja hv
        by_cases e' : a = i
        · subst e'
          rw [hstt]
          refine (h.sees a j ha hj (Ne.symm hja) hv).told (s, q, c) ?_
          rw [hc]
          exact List.mem_filterMap.2 ⟨p, List.mem_cons_self, by rw [e]; rfl⟩
        · exact hrest a ha hja e' hv
  · rw [hbd] at hn
    rcases vote_at hn.symm with hr | ⟨r', er, hup, hscc, hlog, hstt, _, hst⟩
    · exact hnone hr
    · have hlead : leadish (old.node j).state = true := by rw [hup]; rfl
      refine acts_of_r hb hj hh.r ?_ ?_ fresh ?_ ?_
      · intro b hbs hjb _ ha
        by_cases e' : b = i
        · subst e'
          rw [hst] at ha
          cases r' with
          | false => cases ha
          | true =>
            refine ⟨hlead, Or.inr ⟨hup, hs, p, by rw [hc]; exact List.mem_cons_self, ?_⟩⟩
            have hw := hb.wf j hj
            have hpos : 0 < (old.node j).stateChangeCount := by
              rw [← hw.len]
              apply List.length_pos_iff.2
              intro en
              have := hw.last
              rw [en] at this; cases this
            cases c with
            | none =>
              have : (0 : Int) = ((old.node j).stateChangeCount : Int) := hscc
              omega
            | some c =>
              have hcc : c = ((old.node j).stateChangeCount : Int) := hscc
              unfold approves
              rw [e, er, hcc]
        · rw [(hoth b hjb e').standup] at ha
          exact ⟨hlead, Or.inl ha⟩
      · intro a ha hja hv
        by_cases e' : a = i
        · subst e'
          rw [hstt]
          exact (h.sees a j ha hj (Ne.symm hja) hv).state
        · exact hrest a ha hja e' hv
      · intro b hbs hjb _ ha
        by_cases e' : b = i
        · subst e'; exact hlog
        · rw [(hoth b hjb e').standup] at ha
          exact h.counted j b hj hbs hjb hlead ha
      · intro hch
        have := hh.r.charge hch
        rw [hup] at this; cases this

theorem lost_acts {old : Net} (hb : Base old) (h : Elect old) {i j : Nat} (hi : i < old.size) (hj : j < old.size) (hij : i ≠ j)
    (hd : (old.node i).dead = false) (hcalm : Calm old (act { old with side := upd2 old.side i j .closed } i (.disconnect (ixOf i j)))) :
    Acts old { old with side := upd2 old.side i j .closed } i (Node.step (old.node i) (.disconnect (ixOf i j))) := by
  have hL := hb.len i hi
  have hlt : ixOf i j < (old.node i).peers.length := by
    have := ixOf_lt hi hj hij
    omega
  have hat := disconnect_at hd hlt
  have hlog : (old.view i j).loggedIn = false := by
    cases hl : (old.view i j).loggedIn with
    | false => rfl
    | true =>
      have := (hcalm i j hi hj hij hl).1
      unfold act at this
      rw [settle_view, if_pos rfl] at this
      rw [show ((Node.step (old.node i) (.disconnect (ixOf i j))).peer (ixOf i j)).loggedIn = false from hat.1] at this
      cases this
  have hr := disconnect_r (n := old.node i) (i := ixOf i j)
  have hoth : ∀ b, i ≠ b → b ≠ j → Same ((old.node i).peer (ixOf i b)) ((Node.step (old.node i) (.disconnect (ixOf i j))).peer (ixOf i b)) := by
    intro b hib hbj
    exact hr.seen (ixOf i b) (fun e => hbj (ixOf_inj hib hij (Option.some.inj e).symm))
  have happ : approvals (Node.step (old.node i) (.disconnect (ixOf i j))).out = approvals (old.node i).out := by
    apply Classical.byContradiction
    intro hne
    obtain ⟨_, _, _, _, _, e, _⟩ := c12_approves_only_unopposed _ _ hne
    cases e
  have hne : ∀ c, c < old.size → i ≠ c → leadish (old.node i).state = true →
      ((Node.step (old.node i) (.disconnect (ixOf i j))).peer (ixOf i c)).standup = .approve → (old.view i c).standup = .approve := by
    intro c _ hic _ ha
    by_cases e : c = j
    · subst e; rw [hat.2.2] at ha; cases ha
    · rw [(hoth c hic e).standup] at ha; exact ha
  refine acts_of_r hb hi hr ?_ ?_ ?_ ?_ ?_
  · intro c hc hic hl ha
    exact ⟨hl, Or.inl (hne c hc hic hl ha)⟩
  · intro a ha hia hv
    have hs := h.sees a i ha hi (Ne.symm hia) hv
    by_cases e : a = j
    · subst e
      have := hs.login
      rw [hlog] at this; cases this
    · rw [(hoth a hia e).state]; exact hs.state
  · intro a _ _ _ _ hm
    rw [happ, hb.quiet i hi] at hm; cases hm
  · intro c hc hic hl ha
    exact h.counted i c hi hc hic hl (hne c hc hic hl ha)
  · intro hch
    have hch' := hr.charge hch
    have he := h.enough i hi hch'
    have hlead : leadish (old.node i).state = true := by
      cases hs : (old.node i).state <;> rw [hs] at hch' <;> first | rfl | cases hch'
    have hlen := (step_moves (n := old.node i) (.disconnect (ixOf i j))).len
    have hcnt : (Node.step (old.node i) (.disconnect (ixOf i j))).peers.countP (fun p => p.standup = .approve) =
        (old.node i).peers.countP (fun p => p.standup = .approve) := by
      have hnot : (old.view i j).standup ≠ .approve := by
        intro ha
        have := h.counted i j hi hj hij hlead ha
        rw [hlog] at this; cases this
      have ext : ∀ (ps qs : List Peer), qs.length = ps.length →
          (∀ k, k < ps.length → ((qs.getD k {}).standup = .approve ↔ (ps.getD k {}).standup = .approve)) →
          qs.countP (fun p => p.standup = .approve) = ps.countP (fun p => p.standup = .approve) := by
        intro ps
        induction ps with
        | nil => intro qs hl _; rw [List.length_eq_zero_iff.1 hl]
        | cons p ps ih =>
          intro qs hl hk
          cases qs with
          | nil => cases hl
          | cons q qs =>
            have h0 := hk 0 (by simp)
            have hrec := ih qs (by simpa using hl) (fun k hk' => by simpa using hk (k + 1) (by simpa using hk'))
            simp only [List.getD_cons_zero] at h0
            rw [List.countP_cons, List.countP_cons, hrec]
            congr 1
            simp only [decide_eq_true_eq, h0]
      refine ext _ _ hlen (fun k hk => ?_)
      obtain ⟨c, hc, hic, e⟩ := ix_cover hi (k := k) (n := old.size) (by omega)
      rw [← e]
      show ((Node.step (old.node i) (.disconnect (ixOf i j))).peer (ixOf i c)).standup = .approve ↔ ((old.node i).peer (ixOf i c)).standup = .approve
      by_cases e' : c = j
      · subst e'
        rw [hat.2.2]
        exact ⟨(fun h => by cases h), fun h => absurd h hnot⟩
      · rw [(hoth c hic e').standup]
    rw [hcnt, hlen]; exact he

theorem connect_elect {net : Net} (hg : Greeted net) (h : Elect net) {i j : Nat} (hij : i ≠ j)
    (h1 : net.side i j = .closed) (h2 : net.side j i = .closed) :
    Elect { net with
        side := upd2 (upd2 net.side i j .open) j i .open
        chan := upd2 (upd2 net.chan i j [hello (net.node i)]) j i [hello (net.node j)] } := by
  have hside : ∀ a b, ¬ (a = i ∧ b = j) → ¬ (a = j ∧ b = i) → upd2 (upd2 net.side i j .open) j i .open a b = net.side a b := by
    intro a b e1 e2
    unfold upd2
    rw [if_neg e2, if_neg e1]
  refine elect_step h rfl ?_ (fun a _ hl => Or.inl hl) h.counted h.enough
  intro c a hc ha hac hvt
  have hold : Vote net c a := by
    obtain ⟨hl, hv⟩ := hvt
    refine ⟨hl, ?_⟩
    rcases hv with hv | ⟨h3, h4, p, hp, hap⟩
    · exact Or.inl hv
    · dsimp only at h4 hp
      rw [connect_chan _ _ hij] at hp
      split at hp
      · rw [List.mem_singleton] at hp; subst hp; cases hap
      · split at hp
        · rw [List.mem_singleton] at hp; subst hp; cases hap
        · rename_i e1 e2
          rw [hside a c (fun e => e2 ⟨e.2, e.1⟩) (fun e => e1 ⟨e.2, e.1⟩)] at h4
          exact Or.inr ⟨h3, h4, p, hp, hap⟩
  have hs := h.sees a c ha hc hac hold
  have hgr := (hg c a hc ha (Ne.symm hac) hs.login).1
  refine ⟨⟨hs.login, hs.forked, hs.state, ?_⟩, Or.inl hold⟩
  intro m hm
  dsimp only at hm
  rw [connect_chan _ _ hij, if_neg (fun e => hgr (by rw [e.1, e.2]; exact h2)), if_neg (fun e => hgr (by rw [e.1, e.2]; exact h1))] at hm
  exact hs.told m hm

theorem restart_elect {net : Net} (h : Elect net) {i : Nat} (hi : i < net.size) {c : Int} (v : Bytes) (n : Nat) (jr : Nat → Bytes)
    (hcalm : Calm net { net with
        node := upd net.node i { Node.init ((net.node i).peers.map Peer.reset) c v n jr with out := [] }
        side := fun a b => if a = i then .closed else net.side a b }) : Elect { net with
        node := upd net.node i { Node.init ((net.node i).peers.map Peer.reset) c v n jr with out := [] }
        side := fun a b => if a = i then .closed else net.side a b } := by
  have hnode : ∀ a, upd net.node i { Node.init ((net.node i).peers.map Peer.reset) c v n jr with out := [] } a =
      if a = i then { Node.init ((net.node i).peers.map Peer.reset) c v n jr with out := [] } else net.node a := fun a => rfl
  have hpeer : ∀ k, (Node.init ((net.node i).peers.map Peer.reset) c v n jr).peer k = ((net.node i).peer k).reset := by
    intro k
    unfold peer
    rw [init_peers]
    simp only [List.getD_eq_getElem?_getD, List.getElem?_map]
    cases (net.node i).peers[k]? <;> rfl
  have hlog : ∀ b, b < net.size → i ≠ b → (net.view i b).loggedIn = false := by
    intro b hb hib
    cases hl : (net.view i b).loggedIn with
    | false => rfl
    | true =>
      have := (hcalm i b hi hb hib hl).1
      unfold Net.view at this
      dsimp only at this
      rw [hnode, if_pos rfl] at this
      change ((Node.init ((net.node i).peers.map Peer.reset) c v n jr).peer _).loggedIn = true at this
      rw [hpeer] at this; cases this
  have hstate : (Node.init ((net.node i).peers.map Peer.reset) c v n jr).state = .searching := by
    unfold Node.init; rw [changeState_state]
  have hview : ∀ a b, a ≠ i → Net.view { net with
        node := upd net.node i { Node.init ((net.node i).peers.map Peer.reset) c v n jr with out := [] }
        side := fun a b => if a = i then .closed else net.side a b } a b = net.view a b := by
    intro a b ha
    unfold Net.view
    dsimp only
    rw [hnode, if_neg ha]
  refine elect_step h rfl ?_ ?_ ?_ ?_
  · intro x a hx ha hax hvt
    obtain ⟨hl, hv⟩ := hvt
    dsimp only at hl hv
    have hai : a ≠ i := by
      intro e
      rw [hnode, if_pos e] at hl
      change leadish (Node.init ((net.node i).peers.map Peer.reset) c v n jr).state = true at hl
      rw [hstate] at hl; cases hl
    rw [hnode, if_neg hai] at hl hv
    rw [hview a x hai, if_neg hai] at hv
    have hold : Vote net x a := ⟨hl, hv⟩
    have hs := h.sees a x ha hx hax hold
    have hxi : x ≠ i := by
      intro e
      subst e
      have := hs.login
      rw [hlog a ha (Ne.symm hax)] at this; cases this
    refine ⟨⟨?_, ?_, ?_, hs.told⟩, Or.inl hold⟩
    · rw [hview x a hxi]; exact hs.login
    · rw [hview x a hxi]; exact hs.forked
    · rw [hview x a hxi]; exact hs.state
  · intro a _ hl
    dsimp only at hl
    rw [hnode] at hl
    split at hl
    · change leadish (Node.init ((net.node i).peers.map Peer.reset) c v n jr).state = true at hl
      rw [hstate] at hl; cases hl
    · exact Or.inl hl
  · intro a x ha hx hax hl hst
    dsimp only at hl
    by_cases e : a = i
    · rw [hnode, if_pos e] at hl
      change leadish (Node.init ((net.node i).peers.map Peer.reset) c v n jr).state = true at hl
      rw [hstate] at hl; cases hl
    · rw [hnode, if_neg e] at hl
      rw [hview a x e] at hst ⊢
      exact h.counted a x ha hx hax hl hst
  · intro a ha hl
    dsimp only at hl ⊢
    rw [hnode] at hl ⊢
    split at hl
    · change inCharge (Node.init ((net.node i).peers.map Peer.reset) c v n jr).state = true at hl
      rw [hstate] at hl; cases hl
    · rename_i e
      rw [if_neg e]; exact h.enough a ha hl

theorem own_elect {net : Net} (hg : Good net) (h : Elect net) {i : Nat} (hi : i < net.size) {ev : Node.Ev}
    (h1 : ∀ i m o, ev ≠ .message i m o) (h2 : ∀ i, ev ≠ .disconnect i) (h3 : ∀ p, ev = .setPriority p → p ≠ 0)
    (hcalm : Calm net (act net i ev)) : Elect (act net i ev) :=
  acts_elect hg.base h hi rfl rfl (fun _ _ h => h) (fun _ _ => .refl _) (own_step (hg.base.peers hi) h1 h2 h3).1
    (own_acts hg.base h hi h1 h2 h3) hcalm

theorem step_elect {net : Net} (hg : Good net) (h : Elect net) (ev : Ev) (hf : ev.full) (hcalm : Calm net (step net ev)) :
    Elect (step net ev) := by
  cases ev with
  | update i t b =>
    revert hcalm
    show Calm net (if net.alive i then act net i (.update t b) else net) → Elect (if net.alive i then act net i (.update t b) else net)
    split
    · rename_i ha
      exact own_elect (ev := .update t b) hg h (alive_iff.1 ha).1 (fun _ _ _ e => by cases e) (fun _ e => by cases e) (fun _ e => by cases e)
    · exact fun _ => h
  | setShutdownPriority i =>
    revert hcalm
    show Calm net (if net.alive i then act net i (.setShutdownPriority) else net) → Elect (if net.alive i then act net i (.setShutdownPriority) else net)
    split
    · rename_i ha
      exact own_elect (ev := .setShutdownPriority) hg h (alive_iff.1 ha).1 (fun _ _ _ e => by cases e) (fun _ e => by cases e) (fun _ e => by cases e)
    · exact fun _ => h
  | beginShutdown i =>
    revert hcalm
    show Calm net (if net.alive i then act net i (.beginShutdown) else net) → Elect (if net.alive i then act net i (.beginShutdown) else net)
    split
    · rename_i ha
      exact own_elect (ev := .beginShutdown) hg h (alive_iff.1 ha).1 (fun _ _ _ e => by cases e) (fun _ e => by cases e) (fun _ e => by cases e)
    · exact fun _ => h
  | database i c j =>
    revert hcalm
    show Calm net (if net.alive i then act net i (.database c j) else net) → Elect (if net.alive i then act net i (.database c j) else net)
    split
    · rename_i ha
      exact own_elect (ev := .database c j) hg h (alive_iff.1 ha).1 (fun _ _ _ e => by cases e) (fun _ e => by cases e) (fun _ e => by cases e)
    · exact fun _ => h
  | setPriority i p =>
    revert hcalm
    show Calm net (if net.alive i then act net i (.setPriority p) else net) → Elect (if net.alive i then act net i (.setPriority p) else net)
    split
    · rename_i ha
      exact own_elect (ev := .setPriority p) hg h (alive_iff.1 ha).1 (fun _ _ _ e => by cases e) (fun _ e => by cases e) (fun q e => by injection e with e; rw [← e]; exact hf)
    · exact fun _ => h
  | deliver i j mm o =>
    revert hcalm
    unfold step; dsimp only; split
    · rename_i ha
      obtain ⟨hi, hj, hij, hs⟩ := ha
      split
      · exact fun _ => h
      · rename_i p rest hc
        intro hcalm
        have hj' := (alive_iff.1 hj).1
        refine acts_elect (net0 := { net with chan := upd2 net.chan i j rest }) hg.base h hj' rfl rfl (fun _ _ h => h) ?_
          (deliver_handled hg.base hi hj' hij hc mm o).r.toSaid
          (deliver_acts hg.base hg.greeted h hi hj' hij hs hc mm o) hcalm
        intro a b
        dsimp only
        unfold upd2
        split
        · rename_i e; rw [e.1, e.2, hc]; exact List.sublist_cons_self p rest
        · exact .refl _
    · exact fun _ => h
  | lost i j =>
    revert hcalm
    unfold step; dsimp only; split
    · rename_i ha
      obtain ⟨hi, hj, hij, hs⟩ := ha
      intro hcalm
      have hi' := (alive_iff.1 hi).1
      exact acts_elect (net0 := { net with side := upd2 net.side i j .closed }) hg.base h hi' rfl rfl (fun _ _ h => upd2_side h)
        (fun _ _ => .refl _) disconnect_r.toSaid (lost_acts hg.base h hi' hj hij (alive_iff.1 hi).2 hcalm) hcalm
    · exact fun _ => h
  | connect i j =>
    unfold step; dsimp only; split
    · rename_i ha
      obtain ⟨_, _, hij, h1, h2⟩ := ha
      exact connect_elect hg.greeted h hij h1 h2
    · exact h
  | restart i c v n jr =>
    revert hcalm
    unfold step; dsimp only; split
    · rename_i hi
      exact fun hcalm => restart_elect h hi v n jr hcalm
    · exact fun _ => h

end Bedrock.Net
