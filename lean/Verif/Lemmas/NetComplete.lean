import Verif.Spec.NetComplete
import Verif.Lemmas.NetElect

/-!
# Whoever stands up has all commits
-/

namespace Bedrock.Net
open Bedrock Bedrock.Node Bedrock.Node.Node

/-- What a node has heard of another. -/
structure Word where
  state : NState
  prio : Int
  count : Nat

def word (p : Peer) : Word := ⟨p.state, p.priority, p.commitCount⟩

def hear (e : Word) (p : Packet) : Word := match p.payload with
  | .out (.state s q _) => ⟨s, q, p.commits⟩
  | _ => { e with count := p.commits }

/-- What it has heard and is going to hear. -/
def words (e : Word) : List Packet → List Word
  | [] => [e]
  | p :: ps => e :: words (hear e p) ps

theorem words_head (e : Word) (l : List Packet) : e ∈ words e l := by cases l <;> exact List.mem_cons_self

theorem words_append {b : List Packet} {x : Word} : ∀ {a : List Packet} {e : Word}, x ∈ words e (a ++ b) →
    x ∈ words e a ∨ ∃ y ∈ words e a, x ∈ words y b
  | [], e, h => Or.inr ⟨e, words_head e [], h⟩
  | p :: a, e, h => by
    rcases List.mem_cons.1 h with h | h
    · exact Or.inl (List.mem_cons.2 (Or.inl h))
    · rcases words_append (a := a) h with h | ⟨y, hy, h⟩
      · exact Or.inl (List.mem_cons_of_mem _ h)
      · exact Or.inr ⟨y, List.mem_cons_of_mem _ hy, h⟩

/-- What is added by the messages of one moment. -/
theorem words_new {c : Nat} {h : Bytes} {x : Word} : ∀ {l : List OutMsg} {y : Word},
    x ∈ words y (l.map fun m => { commits := c, hash := h, payload := .out m }) →
    x = y ∨ (x.count = c ∧ ((x.state = y.state ∧ x.prio = y.prio) ∨ ∃ m ∈ l.filterMap stOf, x.state = m.1 ∧ x.prio = m.2.1))
  | [], y, hx => Or.inl (List.mem_singleton.1 hx)
  | m :: l, y, hx => by
    rcases List.mem_cons.1 hx with hx | hx
    · exact Or.inl hx
    · right
      have key : (hear y { commits := c, hash := h, payload := .out m }).count = c ∧
          (((hear y { commits := c, hash := h, payload := .out m }).state = y.state ∧
            (hear y { commits := c, hash := h, payload := .out m }).prio = y.prio) ∨
          ∃ m' ∈ (m :: l).filterMap stOf, (hear y { commits := c, hash := h, payload := .out m }).state = m'.1 ∧
            (hear y { commits := c, hash := h, payload := .out m }).prio = m'.2.1) := by
        cases m with
        | state s q k => exact ⟨rfl, Or.inr ⟨(s, q, k), by simp [stOf], rfl, rfl⟩⟩
        | _ => exact ⟨rfl, Or.inl ⟨rfl, rfl⟩⟩
      rcases words_new (l := l) hx with e | ⟨e, ⟨e1, e2⟩ | ⟨m', hm, e1, e2⟩⟩
      · rw [e]; exact key
      · refine ⟨e, ?_⟩
        rw [e1, e2]; exact key.2
      · exact ⟨e, Or.inr ⟨m', (by
          rw [List.filterMap_cons]
          cases stOf m with
          | none => exact hm
          | some z => exact List.mem_cons_of_mem _ hm), e1, e2⟩⟩

/-- Nobody has heard a priority of a node that is lower than its own; and there is a node `w` with all commits such that no other
leads or tries to, and everybody who could stand up without its commits hears of them first. -/
structure Sound (net : Net) : Prop where
  prio : ∀ i b, i < net.size → b < net.size → i ≠ b → ∀ e ∈ words (word (net.view b i)) (net.chan i b), (net.node i).priority ≤ e.prio
  most : ∃ w, w < net.size ∧ (∀ c, c < net.size → (net.node c).commits ≤ (net.node w).commits) ∧
    (∀ x, x < net.size → leadish (net.node x).state = true → x = w) ∧
    ∀ b, b < net.size → w ≠ b → ∀ e ∈ words (word (net.view b w)) (net.chan w b),
      (leadish (net.node w).state = false ∧ e.count = (net.node w).commits) ∨ leadish e.state = true ∨ (net.node b).priority < e.prio

/-- What a node does, for this. -/
structure Does (old net0 : Net) (i : Nat) (n' : Node) : Prop where
  size : net0.size = old.size
  node : ∀ a, a ≠ i → net0.node a = old.node a
  hears : ∀ a, a < old.size → a ≠ i → ∀ e ∈ words (word (n'.peer (ixOf i a))) (net0.chan a i), e ∈ words (word (old.view i a)) (old.chan a i)
  chan : ∀ a b, b ≠ i → net0.chan a b = old.chan a b
  lower : n'.priority ≤ (old.node i).priority
  says : ∀ m ∈ stateMsgs n'.out, n'.priority ≤ m.2.1
  clean : leadish n'.state = true → ∀ m ∈ stateMsgs n'.out, leadish m.1 = true
  keeps : (old.node i).commits ≤ n'.commits
  gets : inCharge (old.node i).state = true ∨ ∃ j, j < old.size ∧ n'.commits ≤ (old.node j).commits
  up : leadish (old.node i).state = false → leadish n'.state = true →
    n'.commits = (old.node i).commits ∧ n'.priority = (old.node i).priority ∧
    ∀ b, b < old.size → i ≠ b → leadish (old.view i b).state = false ∧ (old.view i b).commitCount ≤ (old.node i).commits ∧
      (old.view i b).priority < (old.node i).priority

theorem lead_of_charge {s : NState} (h : inCharge s = true) : leadish s = true := by cases s <;> first | rfl | cases h

theorem settle_sound {old net0 : Net} {i : Nat} {n' : Node} (hi : i < old.size) (h : Sound old) (d : Does old net0 i n') :
    Sound (settle net0 i n') := by
  have hsize : (settle net0 i n').size = old.size := d.size
  have hnode : ∀ a, a ≠ i → (settle net0 i n').node a = old.node a := by
    intro a ha
    rw [settle_node, if_neg ha, d.node a ha]
  have hown : (settle net0 i n').node i = { n' with out := [] } := by rw [settle_node, if_pos rfl]
  -- what is heard by others from others
  have hoo : ∀ a b, a ≠ i → b ≠ i → words (word ((settle net0 i n').view b a)) ((settle net0 i n').chan a b) =
      words (word (old.view b a)) (old.chan a b) := by
    intro a b ha hb
    rw [settle_view, if_neg hb, settle_chan_ne ha, d.chan a b hb]
    unfold Net.view
    rw [d.node b hb]
  -- by `i`
  have hio : ∀ a, a < old.size → a ≠ i → ∀ e ∈ words (word ((settle net0 i n').view i a)) ((settle net0 i n').chan a i),
      e ∈ words (word (old.view i a)) (old.chan a i) := by
    intro a ha hai e he
    rw [settle_view, if_pos rfl, settle_chan_ne hai] at he
    exact d.hears a ha hai e he
  -- from `i`
  have hoi : ∀ b, b ≠ i → ∀ e ∈ words (word ((settle net0 i n').view b i)) ((settle net0 i n').chan i b),
      e ∈ words (word (old.view b i)) (old.chan i b) ∨
      (e.count = n'.commits ∧ ∃ y ∈ words (word (old.view b i)) (old.chan i b),
        ((e.state = y.state ∧ e.prio = y.prio) ∨ ∃ m ∈ stateMsgs n'.out, e.state = m.1 ∧ e.prio = m.2.1)) := by
    intro b hb e he
    rw [settle_view, if_neg hb, settle_chan] at he
    have hv : net0.view b i = old.view b i := by unfold Net.view; rw [d.node b hb]
    rw [hv, d.chan i b hb] at he
    rcases words_append he with he | ⟨y, hy, he⟩
    · exact Or.inl he
    · rcases words_new he with e1 | ⟨e1, e2 | ⟨m, hm, e2⟩⟩
      · rw [e1]; exact Or.inl hy
      · exact Or.inr ⟨e1, y, hy, Or.inl e2⟩
      · exact Or.inr ⟨e1, y, hy, Or.inr ⟨m, sends_said.subset hm, e2⟩⟩
  have hprio : ∀ a b, a < old.size → b < old.size → a ≠ b →
      ∀ e ∈ words (word ((settle net0 i n').view b a)) ((settle net0 i n').chan a b), ((settle net0 i n').node a).priority ≤ e.prio := by
    intro a b ha hb hab e he
    by_cases hai : a = i
    · subst hai
      rw [hown]
      show n'.priority ≤ e.prio
      rcases hoi b (Ne.symm hab) e he with he | ⟨_, y, hy, ⟨_, e2⟩ | ⟨m, hm, _, e2⟩⟩
      · exact Int.le_trans d.lower (h.prio a b ha hb hab e he)
      · rw [e2]; exact Int.le_trans d.lower (h.prio a b ha hb hab y hy)
      · rw [e2]; exact d.says m hm
    · rw [hnode a hai]
      by_cases hbi : b = i
      · subst hbi
        exact h.prio a b ha hb hab e (hio a ha hai e he)
      · rw [hoo a b hai hbi] at he
        exact h.prio a b ha hb hab e he
  refine ⟨hsize ▸ hprio, ?_⟩
  rw [hsize]
  obtain ⟨w, hw, hall, hone, hw'⟩ := h.most
  by_cases hup : leadish (old.node i).state = false ∧ leadish n'.state = true
  · -- it stands up
    obtain ⟨u1, u2, u3⟩ := d.up hup.1 hup.2
    have hmax : ∀ c, c < old.size → (old.node c).commits ≤ (old.node i).commits ∧ leadish (old.node w).state = false := by
      intro c hc
      by_cases hwi : w = i
      · subst hwi; exact ⟨hall c hc, hup.1⟩
      · obtain ⟨v1, v2, v3⟩ := u3 w hw (Ne.symm hwi)
        rcases hw' i hi hwi (word (old.view i w)) (words_head _ _) with ⟨k1, k2⟩ | k | k
        · have : (old.view i w).commitCount = (old.node w).commits := k2
          exact ⟨by have := hall c hc; omega, k1⟩
        · rw [show leadish (old.view i w).state = true from k] at v1; cases v1
        · have : (old.node i).priority < (old.view i w).priority := k
          omega
    refine ⟨i, hi, ?_, ?_, ?_⟩
    · intro c hc
      rw [hown]
      show _ ≤ n'.commits
      rw [u1]
      by_cases hci : c = i
      · subst hci; rw [hown]; show n'.commits ≤ _; rw [u1]; exact Nat.le_refl _
      · rw [hnode c hci]; exact (hmax c hc).1
    · intro x hx hl
      apply Classical.byContradiction
      intro hxi
      rw [hnode x hxi] at hl
      have e := hone x hx hl
      subst e
      rw [(hmax x hx).2] at hl; cases hl
    · intro b hb hib e he
      right; right
      have p1 := hprio i b hi hb hib e he
      rw [hown] at p1
      have p1' : n'.priority ≤ e.prio := p1
      rw [hnode b (Ne.symm hib)]
      have p2 := h.prio b i hb hi (Ne.symm hib) (word (old.view i b)) (words_head _ _)
      have p2' : (old.node b).priority ≤ (old.view i b).priority := p2
      have p3 := (u3 b hb hib).2.2
      omega
  · -- it does not
    have hlead : leadish n'.state = true → leadish (old.node i).state = true := by
      intro hl
      cases e : leadish (old.node i).state with
      | true => rfl
      | false => exact absurd ⟨e, hl⟩ hup
    have hgrow : n'.commits ≤ (old.node w).commits ∨ (i = w ∧ leadish (old.node w).state = true) := by
      rcases d.gets with g | ⟨j, hj, g⟩
      · have := lead_of_charge g
        have e := hone i hi this
        exact Or.inr ⟨e, e ▸ this⟩
      · exact Or.inl (Nat.le_trans g (hall j hj))
    have hwle : (old.node w).commits ≤ ((settle net0 i n').node w).commits := by
      by_cases hwi : w = i
      · subst hwi; rw [hown]; exact d.keeps
      · rw [hnode w hwi]; exact Nat.le_refl _
    refine ⟨w, hw, ?_, ?_, ?_⟩
    · intro c hc
      by_cases hci : c = i
      · subst hci
        rcases hgrow with g | ⟨g, _⟩
        · rw [hown]; exact Nat.le_trans g hwle
        · rw [g]; exact Nat.le_refl _
      · rw [hnode c hci]; exact Nat.le_trans (hall c hc) hwle
    · intro x hx hl
      by_cases hxi : x = i
      · subst hxi
        rw [hown] at hl
        exact hone x hx (hlead hl)
      · rw [hnode x hxi] at hl
        exact hone x hx hl
    · intro b hb hwb e he
      have hbprio : ((settle net0 i n').node b).priority ≤ (old.node b).priority := by
        by_cases hbi : b = i
        · subst hbi; rw [hown]; exact d.lower
        · rw [hnode b hbi]; exact Int.le_refl _
      by_cases hwi : w = i
      · subst hwi
        rw [hown]
        show (leadish n'.state = false ∧ e.count = n'.commits) ∨ _
        cases hln : leadish n'.state with
        | true =>
          have hlo := hlead hln
          have old' : ∀ y ∈ words (word (old.view b w)) (old.chan w b), leadish y.state = true ∨ (old.node b).priority < y.prio := by
            intro y hy
            rcases hw' b hb hwb y hy with ⟨k, _⟩ | k
            · rw [hlo] at k; cases k
            · exact k
          right
          rcases hoi b (Ne.symm hwb) e he with he | ⟨_, y, hy, ⟨e1, e2⟩ | ⟨m, hm, e1, _⟩⟩
          · rcases old' e he with k | k
            · exact Or.inl k
            · exact Or.inr (by omega)
          · rcases old' y hy with k | k
            · rw [e1]; exact Or.inl k
            · rw [e2]; exact Or.inr (by omega)
          · rw [e1]; exact Or.inl (d.clean hln m hm)
        | false =>
          rcases hoi b (Ne.symm hwb) e he with he | ⟨e0, _⟩
          · rcases hw' b hb hwb e he with ⟨k1, k2⟩ | k | k
            · left
              refine ⟨rfl, ?_⟩
              rcases hgrow with g | ⟨_, g⟩
              · have := d.keeps; omega
              · rw [g] at k1; cases k1
            · exact Or.inr (Or.inl k)
            · exact Or.inr (Or.inr (by omega))
          · exact Or.inl ⟨rfl, e0⟩
      · rw [hnode w hwi]
        have he' : e ∈ words (word (old.view b w)) (old.chan w b) := by
          by_cases hbi : b = i
          · subst hbi; exact hio w hw hwi e he
          · rw [hoo w b hwi hbi] at he; exact he
        rcases hw' b hb hwb e he' with k | k | k
        · exact Or.inl k
        · exact Or.inr (Or.inl k)
        · exact Or.inr (Or.inr (by omega))

/-- All nodes are logged in with each other and no histories are found to differ. -/
def Joined (net : Net) : Prop := ∀ i, i < net.size → ∀ j, j < net.size → i ≠ j →
  (net.view i j).loggedIn = true ∧ (net.view i j).forked = false

theorem linked_of {net : Net} {i : Nat} (hi : i < net.size) {n' : Node} (hlen : n'.peers.length + 1 = net.size)
    (h : ∀ j, j < net.size → i ≠ j → (n'.peer (ixOf i j)).loggedIn = true) : Linked n' := by
  intro k hk
  obtain ⟨c, hc, hic, e⟩ := ix_cover hi (k := k) (n := net.size) (by omega)
  rw [← e]
  exact h c hc hic

theorem word_kept {p q : Peer} (h : Kept p q) : word q = word p := by
  unfold word; rw [h.state, h.priority, h.count]

/-- `Steady` for one event, where a node acts. -/
structure Still (old : Net) (i : Nat) (n' : Node) : Prop where
  login : ∀ j, j < old.size → i ≠ j → (n'.peer (ixOf i j)).loggedIn = true
  lower : n'.priority ≤ (old.node i).priority
  keeps : (old.node i).commits ≤ n'.commits
  gets : inCharge (old.node i).state = true ∨ ∃ j, j < old.size ∧ n'.commits ≤ (old.node j).commits

theorem own_sound {net : Net} (hg : Good net) (hj : Joined net) (h : Sound net) {i : Nat} (hi : i < net.size) {ev : Node.Ev}
    (h1 : ∀ i m o, ev ≠ .message i m o) (h2 : ∀ i, ev ≠ .disconnect i) (h3 : ∀ p, ev = .setPriority p → p ≠ 0)
    (hc : Still net i (Node.step (net.node i) ev)) : Sound (act net i ev) := by
  have hp := hg.base.peers hi
  have ho := step_own ev hp h1 h2
  have hlen : (Node.step (net.node i) ev).peers.length + 1 = net.size := by rw [ho.len]; exact hg.base.len i hi
  have hlk := linked_of hi hlen hc.login
  obtain ⟨es, e1, e2⟩ := ho.said hp hlk
  rw [hg.base.quiet i hi, List.nil_append] at e1
  refine settle_sound hi h ⟨rfl, fun _ _ => rfl, ?_, fun _ _ _ => rfl, hc.lower, ?_, ?_, hc.keeps, hc.gets, ?_⟩
  · intro a _ _ e he
    rw [word_kept (ho.seen _)] at he
    exact he
  · intro m hm
    rw [e1] at hm
    rcases e2 m hm with e | e
    · rw [e]; exact hc.lower
    · rw [e]; exact Int.le_refl _
  · intro hl
    rcases step_r (x := none) ev hp h1 h2 h3 with hr | ⟨hw, e, _⟩ | ⟨hw, e, _⟩
    · exact r_msgs hr (hg.base.wf i hi) (hg.base.quiet i hi) hl
    · intro m hm
      rw [e] at hm
      obtain ⟨es, e1, e2⟩ := changeState_out { net.node i with peers := (net.node i).peers.map (fun p => { p with standup := .none }) }
        (new := .standingUp) (fun he => by rw [show _ = NState.waiting from hw] at he; cases he)
      rw [e1, stateMsgs_append, stateMsgs_append, e2] at hm
      rw [show ({ net.node i with peers := (net.node i).peers.map (fun p => { p with standup := .none }) } : Node).out = [] from hg.base.quiet i hi] at hm
      rw [List.mem_singleton.1 (show m ∈ [_] from hm)]; rfl
    · intro m hm
      rw [e] at hm
      obtain ⟨es, e1, e2⟩ := changeState_out (net.node i) (new := .leading) (fun he => by rw [hw] at he; cases he)
      rw [e1, stateMsgs_append, stateMsgs_append, e2, hg.base.quiet i hi] at hm
      rw [List.mem_singleton.1 (show m ∈ [_] from hm)]; rfl
  · intro h0 hl
    obtain ⟨u1, u2, u3⟩ := stands_up ev hp h1 h2 h3 h0 hl
    refine ⟨u1, u2, fun b hb hib => ?_⟩
    have hlt : ixOf i b < (net.node i).peers.length := by
      have := ixOf_lt hi hb hib
      have := hg.base.len i hi
      omega
    exact u3 (ixOf i b) hlt (hj i hi b hb hib).1 (hj i hi b hb hib).2 (hg.base.perma i b hi hb hib)

theorem hear_stated (e : Word) (p : Packet) (mm : Bool) : hear e p =
    ⟨((stated (body mm p.payload)).map (·.1)).getD e.state, ((stated (body mm p.payload)).map (·.2)).getD e.prio, p.commits⟩ := by
  unfold hear
  cases p.payload with
  | login q s v => rfl
  | out m => cases m <;> rfl

theorem deliver_sound {net : Net} (hg : Good net) (hj : Joined net) (h : Sound net) {i j : Nat} (hi : i < net.size)
    (ha : net.alive j = true) (hij : i ≠ j) {p : Packet} {rest : List Packet} (hch : net.chan i j = p :: rest) (mm : Bool) (o : DbOutcome)
    (hc : Still net j (Node.step (net.node j) (.message (ixOf j i)
      { commitCount := some p.commits, hash := some p.hash, body := body mm p.payload } o))) :
    Sound (act { net with chan := upd2 net.chan i j rest } j (.message (ixOf j i)
      { commitCount := some p.commits, hash := some p.hash, body := body mm p.payload } o)) := by
  obtain ⟨hjs, hd⟩ := alive_iff.1 ha
  have hji := Ne.symm hij
  have hlen := hg.base.len j hjs
  have hlt : ixOf j i < (net.node j).peers.length := by
    have := ixOf_lt hjs hi hji
    omega
  have hle := message_learnt (n := net.node j) (i := ixOf j i) (c := p.commits) (h := p.hash) (b := body mm p.payload) (o := o) hd hlt
    (hj j hjs i hi hji).1 (hj j hjs i hi hji).2
  have hr := message_r (n := net.node j) (i := ixOf j i)
    (m := { commitCount := some p.commits, hash := some p.hash, body := body mm p.payload }) (o := o)
  have hlk := linked_of hjs (by rw [hle.len]; exact hlen) hc.login
  obtain ⟨e0, es, e1, e2⟩ := hle.said (hg.base.peers hjs) hlk
  rw [hg.base.quiet j hjs, List.nil_append] at e1
  refine settle_sound (old := net) hjs h ⟨rfl, fun _ _ => rfl, ?_, ?_, hc.lower, ?_, ?_, hc.keeps, hc.gets, ?_⟩
  · intro a ha haj e he
    by_cases hai : a = i
    · subst hai
      have hrest : upd2 net.chan a j rest a j = rest := if_pos ⟨rfl, rfl⟩
      rw [show ({ net with chan := upd2 net.chan a j rest } : Net).chan a j = rest from hrest] at he
      rw [hch]
      refine List.mem_cons_of_mem _ ?_
      rw [hear_stated _ _ mm]
      have hw : word ((Node.step (net.node j) (.message (ixOf j a)
          { commitCount := some p.commits, hash := some p.hash, body := body mm p.payload } o)).peer (ixOf j a)) =
          ⟨((stated (body mm p.payload)).map (·.1)).getD (word (net.view j a)).state,
            ((stated (body mm p.payload)).map (·.2)).getD (word (net.view j a)).prio, p.commits⟩ := by
        unfold word
        rw [hle.state, hle.priority, hle.count]
        rfl
      rw [← hw]
      exact he
    · have hrest : upd2 net.chan i j rest a j = net.chan a j := if_neg (fun e => hai e.1)
      rw [show ({ net with chan := upd2 net.chan i j rest } : Net).chan a j = net.chan a j from hrest] at he
      rw [word_kept (hle.other (ixOf j a) (fun e => hai (ixOf_inj (Ne.symm haj) hji e)))] at he
      exact he
  · intro a b hb
    exact if_neg (fun e => hb e.2)
  · intro m hm
    change m ∈ stateMsgs (Node.step (net.node j) _).out at hm
    rw [e1] at hm
    show (Node.step (net.node j) _).priority ≤ _
    rw [e2 m hm, e0]
    exact Int.le_refl _
  · intro hl
    exact r_msgs hr (hg.base.wf j hjs) (hg.base.quiet j hjs) hl
  · intro h0 hl
    rw [hr.leadish hl] at h0; cases h0

theorem step_sound {net : Net} (hg : Good net) (hj : Joined net) (h : Sound net) (ev : Ev) (hf : ev.full)
    (hs1 : Joined (step net ev)) (hs2 : ∀ i, i < net.size → ((step net ev).node i).priority ≤ (net.node i).priority)
    (hs3 : ∀ i, i < net.size → (net.node i).commits ≤ ((step net ev).node i).commits ∧
      (inCharge (net.node i).state = true ∨ ∃ j, j < net.size ∧ ((step net ev).node i).commits ≤ (net.node j).commits)) :
    Sound (step net ev) := by
  have calm : ∀ i n' (net0 : Net), i < net.size → net0.size = net.size → step net ev = settle net0 i n' → Still net i n' := by
    intro i n' net0 hi hz e
    have hn : (step net ev).node i = { n' with out := [] } := by rw [e, settle_node, if_pos rfl]
    refine ⟨fun j hj' hij => ?_, ?_, ?_, ?_⟩
    · have hz' : (step net ev).size = net.size := by rw [e]; exact hz
      have := (hs1 i (by rw [hz']; exact hi) j (by rw [hz']; exact hj') hij).1
      rw [e, settle_view, if_pos rfl] at this
      exact this
    · have := hs2 i hi; rw [hn] at this; exact this
    · have := (hs3 i hi).1; rw [hn] at this; exact this
    · have := (hs3 i hi).2; rw [hn] at this; exact this
  have own : ∀ i (e : Node.Ev), (∀ i m o, e ≠ .message i m o) → (∀ i, e ≠ .disconnect i) → (∀ p, e = .setPriority p → p ≠ 0) →
      step net ev = (if net.alive i then act net i e else net) → Sound (step net ev) := by
    intro i e h1 h2 h3 he
    rw [he]
    split
    · rename_i ha
      rw [if_pos ha] at he
      exact own_sound hg hj h (alive_iff.1 ha).1 h1 h2 h3 (calm i _ net (alive_iff.1 ha).1 rfl he)
    · exact h
  cases ev with
  | update i t b => exact own i (.update t b) (fun _ _ _ e => by cases e) (fun _ e => by cases e) (fun _ e => by cases e) rfl
  | setPriority i p => exact own i (.setPriority p) (fun _ _ _ e => by cases e) (fun _ e => by cases e) (fun _ e => by cases e; exact hf) rfl
  | setShutdownPriority i => exact own i .setShutdownPriority (fun _ _ _ e => by cases e) (fun _ e => by cases e) (fun _ e => by cases e) rfl
  | beginShutdown i => exact own i .beginShutdown (fun _ _ _ e => by cases e) (fun _ e => by cases e) (fun _ e => by cases e) rfl
  | database i c j => exact own i (.database c j) (fun _ _ _ e => by cases e) (fun _ e => by cases e) (fun _ e => by cases e) rfl
  | deliver i j mm o =>
    have e : step net (.deliver i j mm o) = if i < net.size ∧ net.alive j ∧ i ≠ j ∧ net.side j i ≠ .closed then
      match net.chan i j with
      | [] => net
      | p :: rest =>
        act { net with chan := upd2 net.chan i j rest } j
          (.message (ixOf j i) { commitCount := some p.commits, hash := some p.hash, body := body mm p.payload } o)
      else net := rfl
    rw [e]
    by_cases hc : i < net.size ∧ net.alive j ∧ i ≠ j ∧ net.side j i ≠ .closed
    · rw [if_pos hc] at e ⊢
      cases hch : net.chan i j with
      | nil => exact h
      | cons p rest =>
        rw [hch] at e
        exact deliver_sound hg hj h hc.1 hc.2.1 hc.2.2.1 hch mm o (calm j _ { net with chan := upd2 net.chan i j rest } (alive_iff.1 hc.2.1).1 rfl e)
    · rw [if_neg hc]; exact h
  | lost i j =>
    have e : step net (.lost i j) = if net.alive i ∧ j < net.size ∧ i ≠ j ∧ net.side i j ≠ .closed then
      act { net with side := upd2 net.side i j .closed } i (.disconnect (ixOf i j)) else net := rfl
    by_cases hc : net.alive i ∧ j < net.size ∧ i ≠ j ∧ net.side i j ≠ .closed
    · exfalso
      rw [if_pos hc] at e
      have c := calm i _ { net with side := upd2 net.side i j .closed } (alive_iff.1 hc.1).1 rfl e
      have hi := (alive_iff.1 hc.1).1
      have hlt : ixOf i j < (net.node i).peers.length := by
        have := ixOf_lt hi hc.2.1 hc.2.2.1
        have := hg.base.len i hi
        omega
      have := (disconnect_at (alive_iff.1 hc.1).2 hlt).1
      have h2 := c.login j hc.2.1 hc.2.2.1
      rw [show (Node.peer (Node.step (net.node i) (.disconnect (ixOf i j))) (ixOf i j)).loggedIn = true from h2] at this
      cases this
    · rw [e, if_neg hc]; exact h
  | connect i j =>
    have e : step net (.connect i j) = if net.alive i ∧ net.alive j ∧ i ≠ j ∧ net.side i j = .closed ∧ net.side j i = .closed then
      { net with
        side := upd2 (upd2 net.side i j .open) j i .open
        chan := upd2 (upd2 net.chan i j [hello (net.node i)]) j i [hello (net.node j)] }
      else net := rfl
    by_cases hc : net.alive i ∧ net.alive j ∧ i ≠ j ∧ net.side i j = .closed ∧ net.side j i = .closed
    · exfalso
      have hi := (alive_iff.1 hc.1).1
      have hjs := (alive_iff.1 hc.2.1).1
      exact (hg.greeted i j hi hjs hc.2.2.1 (hj i hi j hjs hc.2.2.1).1).1 hc.2.2.2.1
    · rw [e, if_neg hc]; exact h
  | restart i c v n jr =>
    have e : step net (.restart i c v n jr) = if i < net.size then
      { net with
        node := upd net.node i { Node.init ((net.node i).peers.map Peer.reset) c v n jr with out := [] }
        side := fun a b => if a = i then .closed else net.side a b }
      else net := rfl
    by_cases hi : i < net.size
    · exfalso
      rw [if_pos hi] at e
      obtain ⟨j, hjs, hij⟩ : ∃ j, j < net.size ∧ i ≠ j := by
        have := hg.base.two
        by_cases h0 : i = 0
        · exact ⟨1, by omega, by omega⟩
        · exact ⟨0, by omega, h0⟩
      have hz : (step net (.restart i c v n jr)).size = net.size := by rw [e]
      have := (hs1 i (by rw [hz]; exact hi) j (by rw [hz]; exact hjs) hij).1
      rw [e] at this
      have hv : ({ net with
        node := upd net.node i { Node.init ((net.node i).peers.map Peer.reset) c v n jr with out := [] }
        side := fun a b => if a = i then .closed else net.side a b } : Net).view i j =
          (Node.init ((net.node i).peers.map Peer.reset) c v n jr).peer (ixOf i j) := by
        unfold Net.view
        rw [show ({ net with
          node := upd net.node i { Node.init ((net.node i).peers.map Peer.reset) c v n jr with out := [] }
          side := fun a b => if a = i then .closed else net.side a b } : Net).node i =
          { Node.init ((net.node i).peers.map Peer.reset) c v n jr with out := [] } from if_pos rfl]
        rfl
      rw [hv] at this
      unfold peer at this
      rw [init_peers] at this
      simp only [List.getD_eq_getElem?_getD, List.getElem?_map] at this
      cases hk : (net.node i).peers[ixOf i j]? <;> simp [hk, Peer.reset] at this
    · rw [e, if_neg hi]; exact h

end Bedrock.Net
