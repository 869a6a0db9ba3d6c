import Verif.Lemmas.Net

/-!
# Votes, while connections last
-/

namespace Bedrock.Net
open Bedrock Bedrock.Node Bedrock.Node.Node Bedrock.Node.Props

/-- No node loses or gives up a peer that is logged in. -/
def Calm (net net' : Net) : Prop := ∀ i j, i < net.size → j < net.size → i ≠ j → (net.view i j).loggedIn = true →
  (net'.view i j).loggedIn = true ∧ (net'.view i j).forked = (net.view i j).forked

/-- `c` has approved of what `a` does now: it is counted, or on its way. -/
def Vote (net : Net) (c a : Nat) : Prop := leadish (net.node a).state = true ∧
  ((net.view a c).standup = .approve ∨
    ((net.node a).state = .standingUp ∧ net.side a c ≠ .closed ∧ ∃ p ∈ net.chan c a, approves (net.node a).stateChangeCount p))

/-- `c` knows, and will not be told otherwise. -/
structure Sees (net : Net) (c a : Nat) : Prop where
  login : (net.view c a).loggedIn = true
  forked : (net.view c a).forked = false
  state : leadish (net.view c a).state = true
  told : ∀ m ∈ said (net.chan a c), leadish m.1 = true

structure Elect (net : Net) : Prop where
  counted : ∀ a c, a < net.size → c < net.size → a ≠ c → leadish (net.node a).state = true →
    (net.view a c).standup = .approve → (net.view a c).loggedIn = true
  sees : ∀ a c, a < net.size → c < net.size → a ≠ c → Vote net c a → Sees net c a
  one : ∀ a b c, a < net.size → b < net.size → c < net.size → a ≠ c → b ≠ c → Vote net c a → Vote net c b → a = b
  enough : ∀ a, a < net.size → inCharge (net.node a).state = true →
    (net.node a).peers.length ≤ (net.node a).peers.countP (fun p => p.standup = .approve) * 2
  none : ∀ a b, a < net.size → b < net.size → a ≠ b → leadish (net.node a).state = true → ¬ Vote net a b

theorem elect_step {old new : Net} (h : Elect old) (hsz : new.size = old.size)
    (hv : ∀ c a, c < old.size → a < old.size → a ≠ c → Vote new c a → Sees new c a ∧ (Vote old c a ∨
      (leadish (new.node c).state = false ∧ ∀ b, b < old.size → b ≠ a → b ≠ c → leadish (new.view c b).state = false)))
    (hl : ∀ a, a < old.size → leadish (new.node a).state = true → leadish (old.node a).state = true ∨
      ∀ b, b < old.size → a ≠ b → ¬ Sees old a b)
    (h0 : ∀ a c, a < old.size → c < old.size → a ≠ c → leadish (new.node a).state = true →
      (new.view a c).standup = .approve → (new.view a c).loggedIn = true)
    (h3 : ∀ a, a < old.size → inCharge (new.node a).state = true →
      (new.node a).peers.length ≤ (new.node a).peers.countP (fun p => p.standup = .approve) * 2) : Elect new := by
  refine ⟨?_, ?_, ?_, ?_, ?_⟩
  · rw [hsz]; exact h0
  · rw [hsz]; intro a c ha hc hac hvt
    exact (hv c a hc ha hac hvt).1
  · rw [hsz]; intro a b c ha hb hc hac hbc hva hvb
    obtain ⟨s1, o1⟩ := hv c a hc ha hac hva
    obtain ⟨s2, o2⟩ := hv c b hc hb hbc hvb
    rcases o1 with o1 | o1
    · rcases o2 with o2 | o2
      · exact h.one a b c ha hb hc hac hbc o1 o2
      · apply Classical.byContradiction
        intro hab
        have := o2.2 a ha hab hac
        rw [s1.state] at this; cases this
    · apply Classical.byContradiction
      intro hab
      have := o1.2 b hb (Ne.symm hab) hbc
      rw [s2.state] at this; cases this
  · rw [hsz]; exact h3
  · rw [hsz]; intro a b ha hb hab hla hvt
    obtain ⟨_, o⟩ := hv a b ha hb (Ne.symm hab) hvt
    rcases o with o | o
    · rcases hl a ha hla with hl | hl
      · exact h.none a b ha hb hab hl o
      · exact hl b hb hab (h.sees b a hb ha (Ne.symm hab) o)
    · rw [hla] at o; cases o.1

/-- A node does something. -/
structure Acts (old net0 : Net) (i : Nat) (n' : Node) : Prop where
  up : n'.state = .standingUp → ((old.node i).state = .standingUp ∧ n'.stateChangeCount = (old.node i).stateChangeCount) ∨
    (old.node i).stateChangeCount < n'.stateChangeCount
  msgs : leadish n'.state = true → ∀ m ∈ stateMsgs n'.out, leadish m.1 = true
  standup : ∀ c, c < old.size → i ≠ c → leadish n'.state = true → (n'.peer (ixOf i c)).standup = .approve →
    Vote old c i
  lead : leadish n'.state = true → leadish (old.node i).state = true ∨ ∀ b, b < old.size → i ≠ b → ¬ Sees old i b
  view : ∀ a, a < old.size → i ≠ a → Vote old i a → leadish (n'.peer (ixOf i a)).state = true
  fresh : ∀ a, a < old.size → i ≠ a → old.side a i ≠ .closed → (old.node a).state = .standingUp →
    (ixOf i a, some ((old.node a).stateChangeCount : Int)) ∈ approvals n'.out →
    (old.view i a).loggedIn = true ∧ (old.view i a).forked = false ∧ leadish (n'.peer (ixOf i a)).state = true ∧
    (∀ m ∈ said (net0.chan a i), leadish m.1 = true) ∧ leadish n'.state = false ∧
    ∀ b, b < old.size → b ≠ a → b ≠ i → leadish (n'.peer (ixOf i b)).state = false
  counted : ∀ c, c < old.size → i ≠ c → leadish n'.state = true → (n'.peer (ixOf i c)).standup = .approve →
    (old.view i c).loggedIn = true
  enough : inCharge n'.state = true → n'.peers.length ≤ n'.peers.countP (fun p => p.standup = .approve) * 2

theorem acts_elect {old net0 : Net} (hb : Base old) (h : Elect old) {i : Nat} (hi : i < old.size) {n' : Node}
    (hsz : net0.size = old.size) (hnode : net0.node = old.node)
    (hside : ∀ a b, net0.side a b ≠ .closed → old.side a b ≠ .closed)
    (hchan : ∀ a b, (net0.chan a b).Sublist (old.chan a b))
    (hsaid : Said (old.node i) n') (hacts : Acts old net0 i n') (hcalm : Calm old (settle net0 i n')) :
    Elect (settle net0 i n') := by
  have hwf := hb.wf i hi
  obtain ⟨es, l, e1, e2, hok⟩ := hsaid.said hwf
  rw [hb.quiet i hi, List.nil_append] at e1
  subst e1
  have hview : ∀ a b, (settle net0 i n').view a b = if a = i then n'.peer (ixOf i b) else old.view a b := by
    intro a b; rw [settle_view]; unfold Net.view; rw [hnode]
  have hnd : ∀ a, (settle net0 i n').node a = if a = i then { n' with out := [] } else old.node a := by
    intro a; rw [settle_node, hnode]
  have hsd : ∀ a b, (settle net0 i n').side a b ≠ .closed → old.side a b ≠ .closed :=
    fun a b hs => hside a b (fun e => hs ((settle_side ..).2 e))
  have hsaidc : ∀ a b, ∀ m ∈ said (net0.chan a b), m ∈ said (old.chan a b) := fun a b m hm => ((hchan a b).filterMap _).subset hm
  refine elect_step h hsz ?_ ?_ ?_ ?_
  · intro c a hc ha hac hvt
    obtain ⟨hvl, hvc⟩ := hvt
    rw [hnd] at hvl hvc
    rw [hview] at hvc
    by_cases ea : a = i
    · -- the candidate acts
      subst ea
      rw [if_pos rfl] at hvl hvc
      rw [if_pos rfl] at hvc
      have hold : Vote old c a := by
        rcases hvc with hvc | ⟨h1, h2, p, hp, h3⟩
        · exact hacts.standup c hc hac hvl hvc
        · rw [settle_chan_ne (Ne.symm hac)] at hp
          have hp' := (hchan c a).subset hp
          rcases hacts.up h1 with ⟨e1, e2⟩ | hlt
          · refine ⟨by rw [e1]; rfl, Or.inr ⟨e1, hsd _ _ h2, p, hp', ?_⟩⟩
            rw [← e2]; exact h3
          · have := hb.approved a c ha hc hac (hsd _ _ h2) _ p hp' h3
            have h4 : ((n'.stateChangeCount : Nat) : Int) ≤ ((old.node a).stateChangeCount : Nat) := this
            omega
      have hs := h.sees a c ha hc hac hold
      refine ⟨⟨?_, ?_, ?_, ?_⟩, Or.inl hold⟩
      · exact (hcalm c a hc ha (Ne.symm hac) hs.login).1
      · rw [(hcalm c a hc ha (Ne.symm hac) hs.login).2]; exact hs.forked
      · rw [hview, if_neg (Ne.symm hac)]; exact hs.state
      · intro m hm
        rw [settle_chan, said_append, said_map] at hm
        rcases List.mem_append.1 hm with hm | hm
        · exact hs.told m (hsaidc _ _ m hm)
        · exact hacts.msgs hvl m (sends_said.subset hm)
    · rw [if_neg ea] at hvl hvc
      rw [if_neg ea] at hvc
      by_cases ec : c = i
      · -- the voter acts
        subst ec
        have hcase : Vote old c a ∨ ((old.node a).state = .standingUp ∧ old.side a c ≠ .closed ∧
            (ixOf c a, some ((old.node a).stateChangeCount : Int)) ∈ approvals n'.out) := by
          rcases hvc with hvc | ⟨h1, h2, p, hp, h3⟩
          · exact Or.inl ⟨hvl, Or.inl hvc⟩
          · rw [settle_chan] at hp
            rcases List.mem_append.1 hp with hp | hp
            · exact Or.inl ⟨hvl, Or.inr ⟨h1, hsd _ _ h2, p, (hchan c a).subset hp, h3⟩⟩
            · obtain ⟨m, hm, e⟩ := List.mem_map.1 hp
              rw [← e] at h3
              have em : m = .standupResponse (some ((old.node a).stateChangeCount : Int)) (some true) := by injection h3
              subst em
              exact Or.inr ⟨h1, hsd _ _ h2, approve_to hok hm⟩
        rcases hcase with hold | ⟨h1, h2, h3⟩
        · have hs := h.sees a c ha hc hac hold
          refine ⟨⟨?_, ?_, ?_, ?_⟩, Or.inl hold⟩
          · exact (hcalm c a hc ha (Ne.symm hac) hs.login).1
          · rw [(hcalm c a hc ha (Ne.symm hac) hs.login).2]; exact hs.forked
          · rw [hview, if_pos rfl]; exact hacts.view a ha (Ne.symm hac) hold
          · intro m hm
            rw [settle_chan_ne ea] at hm
            exact hs.told m (hsaidc _ _ m hm)
        · obtain ⟨f1, f2, f3, f4, f5, f6⟩ := hacts.fresh a ha (Ne.symm hac) h2 h1 h3
          refine ⟨⟨?_, ?_, ?_, ?_⟩, Or.inr ⟨?_, ?_⟩⟩
          · exact (hcalm c a hc ha (Ne.symm hac) f1).1
          · rw [(hcalm c a hc ha (Ne.symm hac) f1).2]; exact f2
          · rw [hview, if_pos rfl]; exact f3
          · intro m hm
            rw [settle_chan_ne ea] at hm
            exact f4 m hm
          · rw [hnd, if_pos rfl]; exact f5
          · intro b hb hba hbc
            rw [hview, if_pos rfl]; exact f6 b hb hba hbc
      · have hold : Vote old c a := by
          rcases hvc with hvc | ⟨h1, h2, p, hp, h3⟩
          · exact ⟨hvl, Or.inl hvc⟩
          · rw [settle_chan_ne ec] at hp
            exact ⟨hvl, Or.inr ⟨h1, hsd _ _ h2, p, (hchan c a).subset hp, h3⟩⟩
        have hs := h.sees a c ha hc hac hold
        refine ⟨⟨?_, ?_, ?_, ?_⟩, Or.inl hold⟩
        · exact (hcalm c a hc ha (Ne.symm hac) hs.login).1
        · rw [(hcalm c a hc ha (Ne.symm hac) hs.login).2]; exact hs.forked
        · rw [hview, if_neg ec]; exact hs.state
        · intro m hm
          rw [settle_chan_ne ea] at hm
          exact hs.told m (hsaidc _ _ m hm)
  · intro a ha hla
    rw [hnd] at hla
    by_cases e : a = i
    · subst e
      rw [if_pos rfl] at hla
      exact hacts.lead hla
    · rw [if_neg e] at hla; exact Or.inl hla
  · intro a c ha hc hac hla hst
    rw [hnd] at hla
    rw [hview] at hst
    by_cases e : a = i
    · subst e
      rw [if_pos rfl] at hla hst
      exact (hcalm a c ha hc hac (hacts.counted c hc hac hla hst)).1
    · rw [if_neg e] at hla hst
      exact (hcalm a c ha hc hac (h.counted a c ha hc hac hla hst)).1
  · intro a ha hla
    rw [hnd] at hla ⊢
    by_cases e : a = i
    · rw [if_pos e] at hla ⊢; exact hacts.enough hla
    · rw [if_neg e] at hla ⊢; exact h.enough a ha hla

end Bedrock.Net
