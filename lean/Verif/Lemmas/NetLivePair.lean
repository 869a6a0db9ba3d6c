import Verif.Lemmas.NetLiveNode

/-!
# The node that is to lead and one of its voters
-/

namespace Bedrock.Net
open Bedrock Bedrock.Node Bedrock.Node.Node Bedrock.Node.Props

/-- The states that STATE messages announce. -/
def announced (l : List OutMsg) : List NState := l.filterMap fun
  | .state s _ _ => some s
  | _ => none

theorem announced_append (l l' : List OutMsg) : announced (l ++ l') = announced l ++ announced l' := List.filterMap_append

def isSubscribe : OutMsg → Bool
  | .subscribe => true
  | _ => false

def isWelcome : OutMsg → Bool
  | .subscriptionApproved => true
  | _ => false

/-- What the leader to be sends. -/
inductive DownMsg (pr : Int) (sT : NState) (scc : Nat) : OutMsg → Prop
  | state (s : NState) (c : Nat) (hs : s = .waiting ∨ s = .standingUp ∨ s = .leading)
      (hc : s = .standingUp → sT = .standingUp → c = scc) : DownMsg pr sT scc (.state s pr c)
  | welcome : DownMsg pr sT scc .subscriptionApproved

/-- What a voter sends to it. -/
inductive UpMsg (pr : Int) (sT : NState) (scc : Nat) : OutMsg → Prop
  | state (s : NState) (c : Nat) (hs : s = .waiting ∨ s = .subscribing ∨ s = .following) : UpMsg pr sT scc (.state s pr c)
  | approve (c : Int) (hT : sT = .standingUp ∨ sT = .leading) (hc : sT = .standingUp → c = (scc : Int)) :
      UpMsg pr sT scc (.standupResponse (some c) (some true))
  | subscribe : UpMsg pr sT scc .subscribe

def lowState (s : NState) : Prop := s = .searching ∨ s = .waiting ∨ s = .subscribing ∨ s = .following
def topState (s : NState) : Prop := s = .searching ∨ s = .waiting ∨ s = .standingUp ∨ s = .leading

theorem lowState.not_leadish {s : NState} (h : lowState s) : leadish s = false := by
  rcases h with h | h | h | h <;> subst h <;> rfl

/-- `sT`, `scc`: state of the leader to be; `vs`, `vr`: what it knows of the voter; `D`: on the way from it; `sI`, `lead`: state of
the voter; `vi`: what that knows; `U`: on the way to the leader. -/
structure Pair (ix : Nat) (prT prI : Int) (sT : NState) (scc : Nat) (vs : NState) (vr : Response) (D : List OutMsg)
    (sI : NState) (lead : Option Nat) (vi : NState) (U : List OutMsg) : Prop where
  top : topState sT
  low : lowState sI
  known : lowState vs
  knows : topState vi
  down : ∀ m ∈ D, DownMsg prT sT scc m
  up : ∀ m ∈ U, UpMsg prI sT scc m
  chain : (vi :: announced D).Pairwise (fun a b => a.rank < b.rank)
  ends : (announced D).getLast?.getD vi = sT
  lead : sI = .subscribing ∨ sI = .following → vi = .leading ∧ lead = some ix
  vote : sT = .standingUp → vr ≠ .deny ∧ (.standingUp ∈ announced D ∨ (∃ c r, .standupResponse c r ∈ U) ∨ vr = .approve)
  subs : U.countP isSubscribe + D.countP isWelcome = if sI = .subscribing then 1 else 0

theorem chain_last {vi s : NState} : ∀ {l : List NState}, (vi :: l).Pairwise (fun a b => a.rank < b.rank) →
    l.getLast?.getD vi = s → ∀ a ∈ vi :: l, a.rank ≤ s.rank := by
  intro l hp he
  rcases List.eq_nil_or_concat l with e | ⟨l', x, e⟩
  · subst e
    simp at he
    intro a ha
    rw [List.mem_singleton.1 ha, he]; exact Nat.le_refl _
  · rw [List.concat_eq_append] at e
    subst e
    simp at he
    subst he
    intro a ha
    rw [← List.cons_append, List.mem_append] at ha
    rcases ha with ha | ha
    · rw [← List.cons_append, List.pairwise_append] at hp
      exact Nat.le_of_lt (hp.2.2 a ha x (List.mem_singleton.2 rfl))
    · rw [List.mem_singleton.1 ha]; exact Nat.le_refl _

section
variable {ix : Nat} {prT prI : Int} {sT : NState} {scc : Nat} {vs : NState} {vr : Response} {D : List OutMsg}
  {sI : NState} {lead : Option Nat} {vi : NState} {U : List OutMsg}

theorem Pair.le (p : Pair ix prT prI sT scc vs vr D sI lead vi U) {a : NState} (h : a ∈ vi :: announced D) : a.rank ≤ sT.rank :=
  chain_last p.chain p.ends a h

theorem Pair.leading (p : Pair ix prT prI sT scc vs vr D sI lead vi U) (h : vi = .leading) : sT = .leading := by
  have h1 := p.le (List.mem_cons_self)
  rw [h] at h1
  rcases p.top with e | e | e | e <;> subst e <;> first | rfl | (exact absurd h1 (by decide))

theorem Pair.announce (p : Pair ix prT prI sT scc vs vr D sI lead vi U) {s : NState} (h1 : sT.rank < s.rank)
    (hs : s = .waiting ∨ s = .standingUp ∨ s = .leading) {vr' : Response} (hv : s = .standingUp → vr' = .none)
    (hv' : s ≠ .standingUp → vr' = vr) :
    Pair ix prT prI s (scc + 1) vs vr' (D ++ [.state s prT (scc + 1)]) sI lead vi U := by
  have hnl : sT ≠ .leading := by
    rintro rfl
    rcases hs with e | e | e <;> subst e <;> exact absurd h1 (by decide)
  have hnu : s = .standingUp → sT ≠ .standingUp := by
    rintro rfl rfl; exact absurd h1 (by decide)
  refine ⟨?_, p.low, p.known, p.knows, ?_, ?_, ?_, ?_, p.lead, ?_, ?_⟩
  · unfold topState
    rcases hs with e | e | e
    · exact Or.inr (Or.inl e)
    · exact Or.inr (Or.inr (Or.inl e))
    · exact Or.inr (Or.inr (Or.inr e))
  · intro m hm
    rcases List.mem_append.1 hm with hm1 | hm
    · cases p.down m hm1 with
      | welcome => exact .welcome
      | state s' c hs' hc =>
        refine .state s' c hs' ?_
        rintro rfl rfl
        have := p.le (a := .standingUp) (List.mem_cons_of_mem _ (List.mem_filterMap.2 ⟨.state .standingUp prT c, hm1, rfl⟩))
        exact absurd h1 (Nat.not_lt.2 this)
    · rw [List.mem_singleton.1 hm]
      exact .state s _ hs (fun _ _ => rfl)
  · intro m hm
    cases p.up m hm with
    | state s' c hs' => exact .state s' c hs'
    | subscribe => exact .subscribe
    | approve c hT hc =>
      rcases hT with hT | hT
      · subst hT
        have hsl : s = .leading := by
          rcases hs with e | e | e <;> subst e
          · exact absurd h1 (by decide)
          · exact absurd h1 (by decide)
          · rfl
        exact .approve c (Or.inr hsl) (fun e => by rw [hsl] at e; cases e)
      · exact absurd hT hnl
  · rw [announced_append]
    show (vi :: (announced D ++ [s])).Pairwise _
    rw [← List.cons_append, List.pairwise_append]
    refine ⟨p.chain, by simp, ?_⟩
    intro a ha b hb
    rw [List.mem_singleton.1 hb]
    exact Nat.lt_of_le_of_lt (p.le ha) h1
  · rw [announced_append]
    show (announced D ++ [s]).getLast?.getD vi = s
    simp
  · intro e
    rw [hv e]
    refine ⟨by decide, Or.inl ?_⟩
    rw [announced_append]
    exact List.mem_append_right _ (by rw [e]; exact List.mem_singleton.2 rfl)
  · rw [List.countP_append]
    exact p.subs

theorem Pair.voter_waits (p : Pair ix prT prI sT scc vs vr D sI lead vi U) (hs : sI = .searching) (c : Nat) :
    Pair ix prT prI sT scc vs vr D .waiting none vi (U ++ [.state .waiting prI c]) := by
  refine ⟨p.top, Or.inr (Or.inl rfl), p.known, p.knows, p.down, ?_, p.chain, p.ends, ?_, ?_, ?_⟩
  · intro m hm
    rcases List.mem_append.1 hm with hm | hm
    · exact p.up m hm
    · rw [List.mem_singleton.1 hm]; exact .state _ _ (Or.inl rfl)
  · rintro (h | h) <;> cases h
  · intro e
    obtain ⟨h1, h2⟩ := p.vote e
    refine ⟨h1, ?_⟩
    rcases h2 with h2 | ⟨c, r, h2⟩ | h2
    · exact Or.inl h2
    · exact Or.inr (Or.inl ⟨c, r, List.mem_append_left _ h2⟩)
    · exact Or.inr (Or.inr h2)
  · have := p.subs
    rw [hs] at this
    rw [List.countP_append]
    exact this

theorem Pair.voter_subscribes (p : Pair ix prT prI sT scc vs vr D sI lead vi U) (hs : sI = .waiting) (hv : vi = .leading) (c : Nat) :
    Pair ix prT prI sT scc vs vr D .subscribing (some ix) vi (U ++ [.subscribe, .state .subscribing prI c]) := by
  refine ⟨p.top, Or.inr (Or.inr (Or.inl rfl)), p.known, p.knows, p.down, ?_, p.chain, p.ends, fun _ => ⟨hv, rfl⟩, ?_, ?_⟩
  · intro m hm
    rcases List.mem_append.1 hm with hm | hm
    · exact p.up m hm
    · rcases List.mem_cons.1 hm with e | hm
      · rw [e]; exact .subscribe
      · rw [List.mem_singleton.1 hm]; exact .state _ _ (Or.inr (Or.inl rfl))
  · intro e
    obtain ⟨h1, h2⟩ := p.vote e
    refine ⟨h1, ?_⟩
    rcases h2 with h2 | ⟨c, r, h2⟩ | h2
    · exact Or.inl h2
    · exact Or.inr (Or.inl ⟨c, r, List.mem_append_left _ h2⟩)
    · exact Or.inr (Or.inr h2)
  · have := p.subs
    rw [hs] at this
    simp only [reduceCtorEq, if_false] at this
    rw [List.countP_append]
    show U.countP isSubscribe + 1 + D.countP isWelcome = 1
    omega

theorem Pair.voter_welcome (p : Pair ix prT prI sT scc vs vr (.subscriptionApproved :: D) sI lead vi U) (c : Nat) :
    sI = .subscribing ∧ Pair ix prT prI sT scc vs vr D .following lead vi (U ++ [.state .following prI c]) := by
  have hsub := p.subs
  rw [List.countP_cons] at hsub
  have hs : sI = .subscribing := by
    apply Classical.byContradiction
    intro hne
    rw [if_neg hne] at hsub
    simp [isWelcome] at hsub
  refine ⟨hs, p.top, Or.inr (Or.inr (Or.inr rfl)), p.known, p.knows, fun m hm => p.down m (List.mem_cons_of_mem _ hm), ?_, p.chain, p.ends,
    fun _ => p.lead (Or.inl hs), ?_, ?_⟩
  · intro m hm
    rcases List.mem_append.1 hm with hm | hm
    · exact p.up m hm
    · rw [List.mem_singleton.1 hm]; exact .state _ _ (Or.inr (Or.inr rfl))
  · intro e
    obtain ⟨h1, h2⟩ := p.vote e
    refine ⟨h1, ?_⟩
    rcases h2 with h2 | ⟨c, r, h2⟩ | h2
    · exact Or.inl h2
    · exact Or.inr (Or.inl ⟨c, r, List.mem_append_left _ h2⟩)
    · exact Or.inr (Or.inr h2)
  · rw [if_pos hs] at hsub
    rw [List.countP_append]
    change U.countP isSubscribe + (D.countP isWelcome + 1) = 1 at hsub
    show U.countP isSubscribe + 0 + D.countP isWelcome = 0
    omega

theorem Pair.voter_hears (p : Pair ix prT prI sT scc vs vr (.state s q c :: D) sI lead vi U) (hs : s ≠ .standingUp) :
    s ≠ .searching ∧ q = prT ∧ Pair ix prT prI sT scc vs vr D sI lead s U := by
  have hd := p.down _ List.mem_cons_self
  have hch : (vi :: s :: announced D).Pairwise (fun a b => a.rank < b.rank) := p.chain
  have hends : (s :: announced D).getLast?.getD vi = sT := p.ends
  cases hd with
  | state _ _ hss hc =>
  have hlt : vi.rank < s.rank := (List.pairwise_cons.1 hch).1 s List.mem_cons_self
  refine ⟨?_, rfl, p.top, p.low, p.known, ?_, fun m hm => p.down m (List.mem_cons_of_mem _ hm), p.up, (List.pairwise_cons.1 hch).2, ?_, ?_, ?_,
    p.subs⟩
  · rintro rfl; rcases hss with e | e | e <;> cases e
  · rcases hss with e | e | e
    · exact Or.inr (Or.inl e)
    · exact absurd e hs
    · exact Or.inr (Or.inr (Or.inr e))
  · rw [← hends]
    cases announced D with
    | nil => rfl
    | cons a l =>
      simp only [List.getLast?_cons_cons]
      rw [List.getLast?_cons]; rfl
  · intro h
    have := (p.lead h).1
    rw [this] at hlt
    rcases hss with e | e | e <;> subst e <;> exact absurd hlt (by decide)
  · intro e
    obtain ⟨h1, h2⟩ := p.vote e
    refine ⟨h1, ?_⟩
    rcases h2 with h2 | h2
    · change NState.standingUp ∈ s :: announced D at h2
      rcases List.mem_cons.1 h2 with h2 | h2
      · exact absurd h2.symm hs
      · exact Or.inl h2
    · exact Or.inr h2

theorem Pair.voter_votes (p : Pair ix prT prI sT scc vs vr (.state .standingUp q c :: D) sI lead vi U) :
    vi ≠ .standingUp ∧ q = prT ∧
      Pair ix prT prI sT scc vs vr D sI lead .standingUp (U ++ [.standupResponse (some (c : Int)) (some true)]) := by
  have hd := p.down _ List.mem_cons_self
  have hch : (vi :: .standingUp :: announced D).Pairwise (fun a b => a.rank < b.rank) := p.chain
  have hends : (.standingUp :: announced D).getLast?.getD vi = sT := p.ends
  cases hd with
  | state _ _ hss hc =>
  have hlt : vi.rank < NState.standingUp.rank := (List.pairwise_cons.1 hch).1 _ List.mem_cons_self
  have hle : NState.standingUp.rank ≤ sT.rank := p.le (List.mem_cons_of_mem _ (List.mem_filterMap.2 ⟨_, List.mem_cons_self, rfl⟩))
  have hT : sT = .standingUp ∨ sT = .leading := by
    rcases p.top with e | e | e | e <;> subst e
    · exact absurd hle (by decide)
    · exact absurd hle (by decide)
    · exact Or.inl rfl
    · exact Or.inr rfl
  refine ⟨?_, rfl, p.top, p.low, p.known, Or.inr (Or.inr (Or.inl rfl)), fun m hm => p.down m (List.mem_cons_of_mem _ hm), ?_,
    (List.pairwise_cons.1 hch).2, ?_, ?_, ?_, ?_⟩
  · rintro rfl; exact absurd hlt (by decide)
  · intro m hm
    rcases List.mem_append.1 hm with hm | hm
    · exact p.up m hm
    · rw [List.mem_singleton.1 hm]
      exact .approve _ hT (fun e => by rw [hc rfl e])
  · rw [← hends]
    cases announced D with
    | nil => rfl
    | cons a l =>
      simp only [List.getLast?_cons_cons]
      rw [List.getLast?_cons]; rfl
  · intro h
    have := (p.lead h).1
    rw [this] at hlt
    exact absurd hlt (by decide)
  · intro e
    refine ⟨(p.vote e).1, Or.inr (Or.inl ⟨_, _, List.mem_append_right _ (List.mem_singleton.2 rfl)⟩)⟩
  · have := p.subs
    rw [List.countP_append]
    exact this

theorem Pair.top_hears (p : Pair ix prT prI sT scc vs vr D sI lead vi (.state s q c :: U)) :
    s ≠ .searching ∧ s ≠ .standingUp ∧ q = prI ∧ Pair ix prT prI sT scc s vr D sI lead vi U := by
  have hu := p.up _ List.mem_cons_self
  cases hu with
  | state _ _ hss =>
  refine ⟨?_, ?_, rfl, p.top, p.low, ?_, p.knows, p.down, fun m hm => p.up m (List.mem_cons_of_mem _ hm), p.chain, p.ends, p.lead, ?_, p.subs⟩
  · rintro rfl; rcases hss with e | e | e <;> cases e
  · rintro rfl; rcases hss with e | e | e <;> cases e
  · rcases hss with e | e | e
    · exact Or.inr (Or.inl e)
    · exact Or.inr (Or.inr (Or.inl e))
    · exact Or.inr (Or.inr (Or.inr e))
  · intro e
    obtain ⟨h1, h2⟩ := p.vote e
    refine ⟨h1, ?_⟩
    rcases h2 with h2 | ⟨c', r, h2⟩ | h2
    · exact Or.inl h2
    · rcases List.mem_cons.1 h2 with h2 | h2
      · cases h2
      · exact Or.inr (Or.inl ⟨c', r, h2⟩)
    · exact Or.inr (Or.inr h2)

theorem Pair.top_counts (p : Pair ix prT prI sT scc vs vr D sI lead vi (.standupResponse c r :: U)) :
    (∃ c' : Int, c = some c' ∧ (sT = .standingUp → c' = (scc : Int))) ∧ r = some true ∧
      Pair ix prT prI sT scc vs (if sT = .standingUp then .approve else vr) D sI lead vi U := by
  have hu := p.up _ List.mem_cons_self
  cases hu with
  | approve c' hT hc =>
  refine ⟨⟨c', rfl, hc⟩, rfl, p.top, p.low, p.known, p.knows, p.down, fun m hm => p.up m (List.mem_cons_of_mem _ hm), p.chain, p.ends, p.lead, ?_,
    p.subs⟩
  intro e
  rw [if_pos e]
  exact ⟨by decide, Or.inr (Or.inr rfl)⟩

theorem Pair.top_welcomes (p : Pair ix prT prI sT scc vs vr D sI lead vi (.subscribe :: U)) :
    sT = .leading ∧ Pair ix prT prI sT scc vs vr (D ++ [.subscriptionApproved]) sI lead vi U := by
  have hsub := p.subs
  rw [List.countP_cons] at hsub
  have hs : sI = .subscribing := by
    apply Classical.byContradiction
    intro hne
    rw [if_neg hne] at hsub
    simp [isSubscribe] at hsub
  have happ : announced (D ++ [.subscriptionApproved]) = announced D := by rw [announced_append]; exact List.append_nil _
  refine ⟨p.leading (p.lead (Or.inl hs)).1, p.top, p.low, p.known, p.knows, ?_, fun m hm => p.up m (List.mem_cons_of_mem _ hm), ?_, ?_, p.lead, ?_, ?_⟩
  · intro m hm
    rcases List.mem_append.1 hm with hm | hm
    · exact p.down m hm
    · rw [List.mem_singleton.1 hm]; exact .welcome
  · rw [happ]; exact p.chain
  · rw [happ]; exact p.ends
  · intro e
    rw [happ]
    obtain ⟨h1, h2⟩ := p.vote e
    refine ⟨h1, ?_⟩
    rcases h2 with h2 | ⟨c', r, h2⟩ | h2
    · exact Or.inl h2
    · rcases List.mem_cons.1 h2 with h2 | h2
      · cases h2
      · exact Or.inr (Or.inl ⟨c', r, h2⟩)
    · exact Or.inr (Or.inr h2)
  · rw [List.countP_append]
    simp [isSubscribe, isWelcome] at hsub ⊢
    omega

/-- When nothing is on the way, the voter knows the state of the leader to be, has voted, and is not subscribing. -/
theorem Pair.quiet (p : Pair ix prT prI sT scc vs vr [] sI lead vi []) :
    vi = sT ∧ (sT = .standingUp → vr = .approve) ∧ sI ≠ .subscribing := by
  refine ⟨p.ends, ?_, ?_⟩
  · intro e
    rcases (p.vote e).2 with h | ⟨_, _, h⟩ | h
    · cases h
    · cases h
    · exact h
  · intro e
    have := p.subs
    rw [if_pos e] at this
    cases this

end

end Bedrock.Net
