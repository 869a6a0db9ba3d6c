import Verif.Spec.PeerPool
import Verif.Lemmas.Http

namespace Bedrock.PeerPool
open Bedrock Text Http Address Spec

/-- A host is its own host. -/
theorem hostOf_host {a h : Bytes} (he : hostOf a = some h) : hostOf h = some h := by
  have hp : ∀ x : Bytes, parseUri (str "http://" ++ x) =
      some (x.takeWhile (· ≠ 47), if x.dropWhile (· ≠ 47) = [] then [47] else x.dropWhile (· ≠ 47)) := by
    intro x
    unfold parseUri
    rw [if_pos (by unfold sHttp; rw [List.isPrefixOf_iff_prefix]; exact List.prefix_append _ _)]
    have : (str "http://" ++ x).drop 7 = x := by
      rw [List.drop_append_of_le_length (by decide +kernel), List.drop_of_length_le (by decide +kernel)]; rfl
    rw [this]; rfl
  unfold hostOf at he ⊢
  rw [hp] at he ⊢
  simp only at he ⊢
  split at he
  · next hv =>
    injection he with he
    have hh : h.takeWhile (· ≠ 47) = h := by
      rw [← he]
      generalize a = a
      induction a with
      | nil => rfl
      | cons x a ih =>
        by_cases hx : x = 47
        · simp [hx]
        · rw [List.takeWhile_cons_of_pos (by simpa using hx), List.takeWhile_cons_of_pos (by simpa using hx), ih]
    rw [hh, if_pos (by rw [← he]; exact hv)]
  · simp at he

/-- Who has a connection. -/
inductive Owner where
  | none | pool (h : Bytes) | thread (t : Nat)

/-- What became of a call. -/
inductive Fate where
  | unborn | at_ (t : Nat) | queued (c : Nat) | answered (h : Bytes) (m : Msg) | lost

structure Good (own : Nat → Owner) (fate : Nat → Fate) (s : Sys) : Prop where
  key : ∀ h l, s.pools h = some l → hostOf h = some h
  mem : ∀ h l c, s.pools h = some l → c ∈ l → own c = .pool h
  nodup : ∀ h l, s.pools h = some l → l.Nodup
  held : ∀ t c, works (s.threads t) = some c → own c = .thread t
  free : ∀ c, s.fresh ≤ c → own c = .none
  emptyFree : ∀ c, s.fresh ≤ c → (s.conns c).queue = []
  pooled : ∀ c h, own c = .pool h → (s.conns c).host = h ∧ (s.conns c).queue = [] ∧ Gap (s.conns c).inbox
  sending : ∀ t call c addr, s.threads t = .sending call c addr →
    hostOf addr = some (s.conns c).host ∧ (s.conns c).queue = [] ∧ Gap (s.conns c).inbox ∧ fate call = .at_ t
  receiving : ∀ t call c addr buf, s.threads t = .receiving call c addr buf →
    hostOf addr = some (s.conns c).host ∧ parse buf = .incomplete ∧
    (((s.conns c).queue = [call] ∧ Gap (buf ++ (s.conns c).inbox)) ∨
     ((s.conns c).queue = [] ∧ ∃ m q, Gap q ∧ Http.Spec.GoodMsg m ∧ buf ++ (s.conns c).inbox = q ++ bytes m ∧
        (call, (s.conns c).host, m) ∈ s.answers))
  short : ∀ c, (s.conns c).queue = [] ∨ ∃ call, (s.conns c).queue = [call]
  queued : ∀ c call, call ∈ (s.conns c).queue → fate call = .queued c
  ans : ∀ call h m, (call, h, m) ∈ s.answers → fate call = .answered h m ∧ Http.Spec.GoodMsg m
  unborn : ∀ call, s.next ≤ call → fate call = .unborn
  whole : ∀ t, s.threads t ≠ .broken
  res : ∀ call addr r, (call, addr, r) ∈ s.results → ∃ h m, hostOf addr = some h ∧ (call, h, m) ∈ s.answers ∧ r = received m

theorem parse_nil : parse [] = .incomplete := by unfold parse; exact run_nil _ _

theorem parse_gap {q : Bytes} (h : Gap q) : parse q = .incomplete := by
  rcases h with rfl | rfl
  · exact parse_nil
  · rw [parse_eq_parseF]; decide +kernel

theorem gap_prefix {a b : Bytes} (h : Gap (a ++ b)) : Gap a := by
  rcases h with h | h
  · left; exact (List.append_eq_nil_iff.1 h).1
  · cases a with
    | nil => exact Or.inl rfl
    | cons x a =>
      simp only [List.cons_append, List.cons.injEq, List.append_eq_nil_iff] at h
      right; rw [h.1, h.2.1]

theorem good_init : Good (fun _ => .none) (fun _ => .unborn) {} where
  key := by intro h l e; simp at e
  mem := by intro h l c e; simp at e
  nodup := by intro h l e; simp at e
  held := by intro t c e; simp [works] at e
  free := by intro c _; rfl
  emptyFree := by intro c _; rfl
  pooled := by intro c h e; simp at e
  sending := by intro t call c addr e; simp at e
  receiving := by intro t call c addr buf e; simp at e
  short := by intro c; exact Or.inl rfl
  queued := by intro c call e; simp at e
  ans := by intro call h m e; simp at e
  unborn := by intro call _; rfl
  whole := by intro t; simp
  res := by intro call addr r e; simp at e

theorem upd_self {A B : Type} [DecidableEq A] (f : A → B) (a : A) (b : B) : upd f a b a = b := by simp [upd]
theorem upd_ne {A B : Type} [DecidableEq A] (f : A → B) {a x : A} (b : B) (h : x ≠ a) : upd f a b x = f x := by simp [upd, h]

variable {gz : Bytes → Bytes} {own : Nat → Owner} {fate : Nat → Fate} {s : Sys}

theorem good_expire (g : Good own fate s) (h : Bytes) (n : Nat) : Good own fate (step gz s (.expire h n)) := by
  dsimp only [step, stepWith]
  cases hp : s.pools h with
  | none => exact g
  | some l =>
    have sub : ∀ h' l', upd s.pools h (some (l.drop n)) h' = some l' → ∃ l0, s.pools h' = some l0 ∧ l'.Sublist l0 := by
      intro h' l' e
      by_cases eh : h' = h
      · subst eh; rw [upd_self] at e; injection e with e; exact ⟨l, hp, e ▸ List.drop_sublist n l⟩
      · rw [upd_ne _ _ eh] at e; exact ⟨l', e, List.Sublist.refl _⟩
    exact { g with
      key := fun h' l' e => by obtain ⟨l0, e0, _⟩ := sub h' l' e; exact g.key h' l0 e0
      mem := fun h' l' c e hc => by obtain ⟨l0, e0, hs⟩ := sub h' l' e; exact g.mem h' l0 c e0 (hs.subset hc)
      nodup := fun h' l' e => by obtain ⟨l0, e0, hs⟩ := sub h' l' e; exact hs.nodup (g.nodup h' l0 e0) }

/-- A thread gives up what it has. -/
theorem good_idle (g : Good own fate s) (t : Nat) : Good own fate { s with threads := upd s.threads t .idle } := by
  have th : ∀ t' x, upd s.threads t .idle t' = x → x ≠ .idle → s.threads t' = x := by
    intro t' x e hx
    by_cases et : t' = t
    · subst et; rw [upd_self] at e; exact absurd e.symm hx
    · rwa [upd_ne _ _ et] at e
  exact { g with
    held := fun t' c e => by
      by_cases et : t' = t
      · subst et; simp [upd_self, works] at e
      · simp only [upd_ne _ _ et] at e; exact g.held t' c e
    sending := fun t' call c addr e => g.sending t' call c addr (th _ _ e (by simp))
    receiving := fun t' call c addr buf e => g.receiving t' call c addr buf (th _ _ e (by simp))
    whole := fun t' e => g.whole t' (th _ _ e (by simp)) }

theorem good_fail (g : Good own fate s) (t : Nat) : Good own fate (step gz s (.fail t)) := by
  dsimp only [step, stepWith]
  split
  · exact good_idle g t
  · exact g

/-- The call is counted and the thread gets a connection nobody else has. -/
theorem good_take (g : Good own fate s) (t c : Nat) (addr : Bytes) (hidle : s.threads t = .idle)
    (hfree : own c = .none) (hc : c < s.fresh) (hh : hostOf addr = some (s.conns c).host) (hq : (s.conns c).queue = [])
    (hg : Gap (s.conns c).inbox) :
    Good (upd own c (.thread t)) (upd fate s.next (.at_ t))
      { s with next := s.next + 1, threads := upd s.threads t (.sending s.next c addr) } := by
  have ne : ∀ c', own c' ≠ .none → c' ≠ c := fun c' h e => h (e ▸ hfree)
  have hb : ∀ call, fate call ≠ .unborn → upd fate s.next (.at_ t) call = fate call := by
    intro call h
    refine upd_ne _ _ ?_
    intro e
    exact h (g.unborn call (by omega))
  have hk : ∀ t', t' ≠ t → ∀ c', works (s.threads t') = some c' → c' ≠ c := by
    intro t' _ c' hw
    exact ne c' (by rw [g.held t' c' hw]; simp)
  exact { g with
    mem := fun h l c' e hm => by
      have := g.mem h l c' e hm
      rw [upd_ne _ _ (ne c' (by rw [this]; simp))]; exact this
    held := fun t' c' e => by
      by_cases et : t' = t
      · subst et
        simp only [upd_self, works, Option.some.injEq] at e
        subst e; exact upd_self _ _ _
      · simp only [upd_ne _ _ et] at e
        have := g.held t' c' e
        rw [upd_ne _ _ (hk t' et c' e)]; exact this
    free := fun c' e => by
      have : c' ≠ c := by intro ec; subst ec; have : s.fresh ≤ c' := e; omega
      rw [upd_ne _ _ this]; exact g.free c' e
    pooled := fun c' h e => by
      by_cases ec : c' = c
      · subst ec; rw [upd_self] at e; simp at e
      · rw [upd_ne _ _ ec] at e; exact g.pooled c' h e
    sending := fun t' call c' a e => by
      by_cases et : t' = t
      · subst et
        simp only [upd_self, Th.sending.injEq] at e
        obtain ⟨rfl, rfl, rfl⟩ := e
        exact ⟨hh, hq, hg, upd_self _ _ _⟩
      · simp only [upd_ne _ _ et] at e
        have := g.sending t' call c' a e
        exact ⟨this.1, this.2.1, this.2.2.1, by rw [hb call (by rw [this.2.2.2]; simp)]; exact this.2.2.2⟩
    receiving := fun t' call c' a buf e => by
      by_cases et : t' = t
      · subst et; simp [upd_self] at e
      · simp only [upd_ne _ _ et] at e
        exact g.receiving t' call c' a buf e
    queued := fun c' call e => by
      have := g.queued c' call e
      rw [hb call (by rw [this]; simp)]; exact this
    ans := fun call h m e => by
      have := g.ans call h m e
      rw [hb call (by rw [this.1]; simp)]; exact this
    unborn := fun call e => by
      have e : s.next + 1 ≤ call := e
      rw [upd_ne _ _ (by omega)]; exact g.unborn call (by omega)
    whole := fun t' e => by
      by_cases et : t' = t
      · subst et; simp [upd_self] at e
      · simp only [upd_ne _ _ et] at e; exact g.whole t' e }

/-- The front of a pool is taken off, with everything stale before it. -/
theorem good_drop (g : Good own fate s) (h : Bytes) (hk : hostOf h = some h) (l : List Nat) (hl : l.Sublist ((s.pools h).getD [])) :
    Good own fate { s with pools := upd s.pools h (some l) } := by
  have sub : ∀ h' l', upd s.pools h (some l) h' = some l' → (h' = h ∧ l' = l) ∨ s.pools h' = some l' := by
    intro h' l' e
    by_cases eh : h' = h
    · subst eh; rw [upd_self] at e; injection e with e; exact Or.inl ⟨rfl, e.symm⟩
    · rw [upd_ne _ _ eh] at e; exact Or.inr e
  have hx : ∀ l0, s.pools h = some l0 → l.Sublist l0 := by intro l0 e; rw [e] at hl; exact hl
  have h0 : s.pools h = none → l = [] := by intro e; rw [e] at hl; exact List.sublist_nil.1 hl
  exact { g with
    key := fun h' l' e => by
      rcases sub h' l' e with ⟨rfl, _⟩ | e
      · exact hk
      · exact g.key h' l' e
    mem := fun h' l' c e hc => by
      rcases sub h' l' e with ⟨rfl, rfl⟩ | e
      · cases hp : s.pools h' with
        | none => rw [h0 hp] at hc; simp at hc
        | some l0 => exact g.mem h' l0 c hp ((hx l0 hp).subset hc)
      · exact g.mem h' l' c e hc
    nodup := fun h' l' e => by
      rcases sub h' l' e with ⟨rfl, rfl⟩ | e
      · cases hp : s.pools h' with
        | none => rw [h0 hp]; simp
        | some l0 => exact (hx l0 hp).nodup (g.nodup h' l0 hp)
      · exact g.nodup h' l' e }

/-- A connection that is in no pool and with no thread may be forgotten. -/
theorem good_forget (g : Good own fate s) (c : Nat) (h1 : ∀ h l, s.pools h = some l → c ∉ l)
    (h2 : ∀ t, works (s.threads t) ≠ some c) : Good (upd own c .none) fate s := by
  exact { g with
    mem := fun h l c' e hm => by
      have : c' ≠ c := fun ec => h1 h l e (ec ▸ hm)
      rw [upd_ne _ _ this]; exact g.mem h l c' e hm
    held := fun t c' e => by
      have : c' ≠ c := fun ec => h2 t (ec ▸ e)
      rw [upd_ne _ _ this]; exact g.held t c' e
    free := fun c' e => by
      by_cases ec : c' = c
      · subst ec; exact upd_self _ _ _
      · rw [upd_ne _ _ ec]; exact g.free c' e
    pooled := fun c' h e => by
      by_cases ec : c' = c
      · subst ec; rw [upd_self] at e; simp at e
      · rw [upd_ne _ _ ec] at e; exact g.pooled c' h e }

theorem good_open (g : Good own fate s) (h : Bytes) :
    Good own fate { s with fresh := s.fresh + 1, conns := upd s.conns s.fresh { host := h } } := by
  have ne : ∀ c, own c ≠ .none → c ≠ s.fresh := fun c hc e => hc (g.free c (by omega))
  have cc : ∀ c, own c ≠ .none → upd s.conns s.fresh { host := h } c = s.conns c := fun c hc => upd_ne _ _ (ne c hc)
  have hw : ∀ t c, works (s.threads t) = some c → upd s.conns s.fresh { host := h } c = s.conns c :=
    fun t c e => cc c (by rw [g.held t c e]; simp)
  exact { g with
    free := fun c e => by have e : s.fresh + 1 ≤ c := e; exact g.free c (by omega)
    emptyFree := fun c e => by
      have e : s.fresh + 1 ≤ c := e
      show (upd s.conns s.fresh _ c).queue = []
      rw [upd_ne _ _ (by omega)]; exact g.emptyFree c (by omega)
    pooled := fun c h' e => by
      show (upd s.conns s.fresh _ c).host = _ ∧ (upd s.conns s.fresh _ c).queue = _ ∧ Gap (upd s.conns s.fresh _ c).inbox
      rw [cc c (by rw [e]; simp)]; exact g.pooled c h' e
    sending := fun t call c addr e => by
      have := g.sending t call c addr e
      show hostOf addr = some (upd s.conns s.fresh _ c).host ∧ (upd s.conns s.fresh _ c).queue = _ ∧ Gap (upd s.conns s.fresh _ c).inbox ∧ _
      have e : s.threads t = _ := e
      rw [hw t c (by rw [e]; rfl)]; exact this
    receiving := fun t call c addr buf e => by
      have := g.receiving t call c addr buf e
      have e : s.threads t = _ := e
      have hc := hw t c (by rw [e]; rfl)
      simp only [hc]; exact this
    short := fun c => by
      show (upd s.conns s.fresh _ c).queue = [] ∨ ∃ call, (upd s.conns s.fresh _ c).queue = [call]
      by_cases ec : c = s.fresh
      · subst ec; rw [upd_self]; exact Or.inl rfl
      · rw [upd_ne _ _ ec]; exact g.short c
    queued := fun c call e => by
      by_cases ec : c = s.fresh
      · subst ec; simp [upd_self] at e
      · simp only [upd_ne _ _ ec] at e; exact g.queued c call e }

theorem works_ne_of_own (g : Good own fate s) {c : Nat} (h : ∀ t, own c ≠ .thread t) : ∀ t, works (s.threads t) ≠ some c :=
  fun t e => h t (g.held t c e)

theorem good_start (g : Good own fate s) (t : Nat) (addr : Bytes) (stale : Nat) (opens : Bool) :
    ∃ own' fate', Good own' fate' (step gz s (.start t addr stale opens)) := by
  dsimp only [step, stepWith]
  split
  · next h hidle hhost =>
    have hk := hostOf_host hhost
    split
    · next c rest hd =>
      have hsl : (c :: rest).Sublist ((s.pools h).getD []) := hd ▸ List.drop_sublist _ _
      obtain ⟨l0, hp⟩ : ∃ l0, s.pools h = some l0 := by
        cases hp : s.pools h with
        | none => rw [hp] at hsl; simp at hsl
        | some l0 => exact ⟨l0, rfl⟩
      rw [hp] at hsl
      have hcm : c ∈ l0 := hsl.subset (by simp)
      have hown := g.mem h l0 c hp hcm
      have hp3 := g.pooled c h hown
      have hcr : c ∉ rest := (List.nodup_cons.1 (hsl.nodup (g.nodup h l0 hp))).1
      have g1 := good_drop g h hk rest (by rw [hp]; exact (List.sublist_cons_self c rest).trans hsl)
      have g2 := good_forget g1 c (by
        intro h' l' e hm
        by_cases eh : h' = h
        · subst eh
          simp only [upd_self, Option.some.injEq] at e
          exact hcr (e ▸ hm)
        · simp only [upd_ne _ _ eh] at e
          have := g.mem h' l' c e hm
          rw [hown] at this
          injection this with this
          exact eh this.symm) (works_ne_of_own g1 (by intro t; rw [hown]; simp))
      have hlt : c < s.fresh := by
        by_cases hle : s.fresh ≤ c
        · have := g.free c hle; rw [hown] at this; simp at this
        · omega
      exact ⟨_, _, good_take g2 t c addr hidle (upd_self _ _ _) hlt (by rw [hp3.1]; exact hhost) hp3.2.1 hp3.2.2⟩
    · have g1 := good_drop g h hk [] (List.nil_sublist _)
      split
      · have g2 := good_open g1 h
        refine ⟨_, _, good_take g2 t s.fresh addr hidle (g.free _ (Nat.le_refl _)) (Nat.lt_succ_self _) ?_ ?_ ?_⟩
        · simp only [upd_self]; exact hhost
        · simp only [upd_self]
        · simp only [upd_self]; exact Or.inl rfl
      · exact ⟨_, _, g1⟩
  · exact ⟨_, _, g⟩

/-- A request comes to lie in the queue of a connection of `t`. -/
theorem good_sent (g : Good own fate s) (t : Nat) (ok arrived : Bool) :
    ∃ own' fate', Good own' fate' (step gz s (.sent t ok arrived)) := by
  dsimp only [step, stepWith]
  split
  · next call c addr hth =>
    have hs := g.sending t call c addr hth
    have ho := g.held t c (by rw [hth]; rfl)
    have other : ∀ t', t' ≠ t → ∀ c', works (s.threads t') = some c' → c' ≠ c := by
      intro t' ht c' hw e
      have := g.held t' c' hw
      rw [e, ho] at this; injection this with this; exact ht this.symm
    by_cases hq : (ok || arrived) = true
    · rw [if_pos hq]
      have hf : ∀ call', fate call' ≠ .at_ t → upd fate call (.queued c) call' = fate call' := by
        intro call' h
        refine upd_ne _ _ ?_
        intro e; subst e; exact h hs.2.2.2
      have hcc : ∀ c', c' ≠ c → upd s.conns c { s.conns c with queue := (s.conns c).queue ++ [call] } c' = s.conns c' :=
        fun c' h => upd_ne _ _ h
      have hlt : c < s.fresh := by
        by_cases hle : s.fresh ≤ c
        · have := g.free c hle; rw [ho] at this; simp at this
        · omega
      refine ⟨own, upd fate call (.queued c), ?_⟩
      exact { g with
        held := fun t' c' e => by
          by_cases et : t' = t
          · subst et
            cases ok with
            | true => simp only [upd_self, if_true, works, Option.some.injEq] at e; subst e; exact ho
            | false => simp [upd_self, works] at e
          · simp only [upd_ne _ _ et] at e; exact g.held t' c' e
        emptyFree := fun c' e => by
          have e : s.fresh ≤ c' := e
          simp only [hcc c' (by omega)]; exact g.emptyFree c' e
        pooled := fun c' h e => by
          have : c' ≠ c := by intro ec; rw [ec, ho] at e; simp at e
          simp only [hcc c' this]; exact g.pooled c' h e
        sending := fun t' call' c' a e => by
          by_cases et : t' = t
          · subst et; cases ok <;> simp [upd_self] at e
          · simp only [upd_ne _ _ et] at e
            have h1 := g.sending t' call' c' a e
            have h2 := other t' et c' (by rw [e]; rfl)
            simp only [hcc c' h2]
            refine ⟨h1.1, h1.2.1, h1.2.2.1, ?_⟩
            rw [hf call' (by rw [h1.2.2.2]; intro e; injection e with e; exact et e)]; exact h1.2.2.2
        receiving := fun t' call' c' a buf e => by
          by_cases et : t' = t
          · subst et
            cases ok with
            | false => simp [upd_self] at e
            | true =>
              simp only [upd_self, if_true, Th.receiving.injEq] at e
              obtain ⟨rfl, rfl, rfl, rfl⟩ := e
              simp only [upd_self]
              refine ⟨hs.1, parse_nil, Or.inl ⟨by rw [hs.2.1]; rfl, hs.2.2.1⟩⟩
          · simp only [upd_ne _ _ et] at e
            have h1 := g.receiving t' call' c' a buf e
            have h2 := other t' et c' (by rw [e]; rfl)
            simp only [hcc c' h2]; exact h1
        short := fun c' => by
          by_cases ec : c' = c
          · subst ec; simp only [upd_self, hs.2.1]; exact Or.inr ⟨call, rfl⟩
          · simp only [hcc c' ec]; exact g.short c'
        queued := fun c' call' e => by
          by_cases ec : c' = c
          · subst ec
            simp only [upd_self, hs.2.1, List.nil_append, List.mem_singleton] at e
            subst e; exact upd_self _ _ _
          · simp only [hcc c' ec] at e
            have := g.queued c' call' e
            rw [hf call' (by rw [this]; simp)]; exact this
        ans := fun call' h m e => by
          have := g.ans call' h m e
          rw [hf call' (by rw [this.1]; simp)]; exact this
        unborn := fun call' e => by
          have := g.unborn call' e
          rw [hf call' (by rw [this]; simp)]; exact this
        whole := fun t' e => by
          by_cases et : t' = t
          · subst et; cases ok <;> simp [upd_self] at e
          · simp only [upd_ne _ _ et] at e; exact g.whole t' e }
    · rw [if_neg hq]
      have hok : ok = false := by cases ok with
        | true => simp at hq
        | false => rfl
      rw [hok]
      exact ⟨own, fate, good_idle g t⟩
  · exact ⟨_, _, g⟩

theorem good_serve (g : Good own fate s) (c : Nat) (m : Msg) (hm : Http.Spec.GoodMsg m) :
    ∃ own' fate', Good own' fate' (step gz s (.serve c m)) := by
  dsimp only [step, stepWith]
  split
  · exact ⟨_, _, g⟩
  · next call rest hq =>
    have hrest : rest = [] := by
      rcases g.short c with h | ⟨x, h⟩
      · rw [hq] at h; simp at h
      · rw [hq] at h; injection h with _ h
    subst hrest
    have hb : (compose gz m).getD [] = bytes m := by rw [compose_eq gz m hm]; rfl
    rw [hb]
    have hfc : fate call = .queued c := g.queued c call (by rw [hq]; simp)
    have hf : ∀ call', fate call' ≠ .queued c → upd fate call (.answered (s.conns c).host m) call' = fate call' := by
      intro call' h
      refine upd_ne _ _ ?_
      intro e; subst e; exact h hfc
    have hlt : c < s.fresh := by
      by_cases hle : s.fresh ≤ c
      · have := g.emptyFree c hle; rw [hq] at this; simp at this
      · omega
    refine ⟨own, upd fate call (.answered (s.conns c).host m), ?_⟩
    have hcc : ∀ c', c' ≠ c → upd s.conns c { s.conns c with queue := [], inbox := (s.conns c).inbox ++ bytes m } c' = s.conns c' :=
      fun c' h => upd_ne _ _ h
    exact { g with
      emptyFree := fun c' e => by
        have e : s.fresh ≤ c' := e
        simp only [hcc c' (by omega)]; exact g.emptyFree c' e
      pooled := fun c' h e => by
        have : c' ≠ c := by
          intro ec; rw [ec] at e
          have := (g.pooled c h e).2.1; rw [hq] at this; simp at this
        simp only [hcc c' this]; exact g.pooled c' h e
      sending := fun t' call' c' a e => by
        have h1 := g.sending t' call' c' a e
        have : c' ≠ c := by intro ec; rw [ec, hq] at h1; simp at h1
        simp only [hcc c' this]
        refine ⟨h1.1, h1.2.1, h1.2.2.1, ?_⟩
        rw [hf call' (by rw [h1.2.2.2]; simp)]; exact h1.2.2.2
      receiving := fun t' call' c' a buf e => by
        have h1 := g.receiving t' call' c' a buf e
        by_cases ec : c' = c
        · subst ec
          simp only [upd_self]
          refine ⟨h1.1, h1.2.1, Or.inr ⟨trivial, ?_⟩⟩
          rcases h1.2.2 with ⟨hx, hgap⟩ | ⟨hx, _⟩
          · rw [hq] at hx
            injection hx with hx
            subst hx
            exact ⟨m, _, hgap, hm, by simp, by simp⟩
          · rw [hq] at hx; simp at hx
        · simp only [hcc c' ec]
          refine ⟨h1.1, h1.2.1, ?_⟩
          rcases h1.2.2 with hx | ⟨hx, m', q, h2, h3, h4, h5⟩
          · exact Or.inl hx
          · exact Or.inr ⟨hx, m', q, h2, h3, h4, List.mem_cons_of_mem _ h5⟩
      short := fun c' => by
        by_cases ec : c' = c
        · subst ec; simp only [upd_self]; exact Or.inl trivial
        · simp only [hcc c' ec]; exact g.short c'
      queued := fun c' call' e => by
        by_cases ec : c' = c
        · subst ec; simp [upd_self] at e
        · simp only [hcc c' ec] at e
          have := g.queued c' call' e
          rw [hf call' (by rw [this]; intro h; injection h with h; exact ec h)]; exact this
      ans := fun call' h m' e => by
        rcases List.mem_cons.1 e with e | e
        · injection e with e1 e2
          injection e2 with e2 e3
          subst e1; subst e2; subst e3
          exact ⟨upd_self _ _ _, hm⟩
        · have := g.ans call' h m' e
          rw [hf call' (by rw [this.1]; simp)]; exact this
      unborn := fun call' e => by
        have := g.unborn call' e
        rw [hf call' (by rw [this]; simp)]; exact this
      res := fun call' a r e => by
        obtain ⟨h, m', h1, h2, h3⟩ := g.res call' a r e
        exact ⟨h, m', h1, List.mem_cons_of_mem _ h2, h3⟩ }

/-- The answer is there: the thread is done with the connection. -/
theorem good_done (g : Good own fate s) (t call c : Nat) (addr buf x : Bytes) (m : Msg)
    (hth : s.threads t = .receiving call c addr buf) (hq : (s.conns c).queue = [])
    (ha : (call, (s.conns c).host, m) ∈ s.answers) :
    Good own fate { s with conns := upd s.conns c { s.conns c with inbox := x }
                           results := (call, addr, received m) :: s.results
                           threads := upd s.threads t .idle } := by
  have ho := g.held t c (by rw [hth]; rfl)
  have hr := g.receiving t call c addr buf hth
  have th : ∀ t' y, upd s.threads t .idle t' = y → y ≠ .idle → t' ≠ t ∧ s.threads t' = y := by
    intro t' y e hx
    by_cases et : t' = t
    · subst et; rw [upd_self] at e; exact absurd e.symm hx
    · rw [upd_ne _ _ et] at e; exact ⟨et, e⟩
  have other : ∀ t', t' ≠ t → ∀ c', works (s.threads t') = some c' → c' ≠ c := by
    intro t' ht c' hw e
    have := g.held t' c' hw
    rw [e, ho] at this; injection this with this; exact ht this.symm
  have hcc : ∀ c', c' ≠ c → upd s.conns c { s.conns c with inbox := x } c' = s.conns c' := fun c' h => upd_ne _ _ h
  have hqq : ∀ c', (upd s.conns c { s.conns c with inbox := x } c').queue = (s.conns c').queue := by
    intro c'
    by_cases ec : c' = c
    · subst ec; rw [upd_self]
    · rw [hcc c' ec]
  exact { g with
    held := fun t' c' e => by
      by_cases et : t' = t
      · subst et; simp [upd_self, works] at e
      · simp only [upd_ne _ _ et] at e; exact g.held t' c' e
    emptyFree := fun c' e => by simp only [hqq]; exact g.emptyFree c' e
    pooled := fun c' h e => by
      have : c' ≠ c := by intro ec; rw [ec, ho] at e; simp at e
      simp only [hcc c' this]; exact g.pooled c' h e
    sending := fun t' call' c' a e => by
      obtain ⟨et, e⟩ := th _ _ e (by simp)
      have h2 := other t' et c' (by rw [e]; rfl)
      simp only [hcc c' h2]; exact g.sending t' call' c' a e
    receiving := fun t' call' c' a buf e => by
      obtain ⟨et, e⟩ := th _ _ e (by simp)
      have h2 := other t' et c' (by rw [e]; rfl)
      simp only [hcc c' h2]; exact g.receiving t' call' c' a buf e
    short := fun c' => by simp only [hqq]; exact g.short c'
    queued := fun c' call' e => by simp only [hqq] at e; exact g.queued c' call' e
    whole := fun t' e => g.whole t' (th _ _ e (by simp)).2
    res := fun call' a r e => by
      rcases List.mem_cons.1 e with e | e
      · injection e with e1 e2
        injection e2 with e2 e3
        subst e1; subst e2; subst e3
        exact ⟨_, m, hr.1, ha, rfl⟩
      · exact g.res call' a r e }

theorem good_giveBack (g : Good own fate s) (t c : Nat) (addr : Bytes) (ho : own c = .thread t)
    (hw : ∀ t, works (s.threads t) ≠ some c) (hh : hostOf addr = some (s.conns c).host) (hq : (s.conns c).queue = [])
    (hg : Gap (s.conns c).inbox) : ∃ own', Good own' fate { s with pools := giveBack s.pools addr c } := by
  unfold giveBack
  split
  · exact ⟨own, g⟩
  · next l hp =>
    have hk := g.key addr l hp
    rw [hk] at hh
    injection hh with hh
    have hnp : ∀ h l, s.pools h = some l → c ∉ l := by
      intro h l e hm
      have := g.mem h l c e hm
      rw [ho] at this; simp at this
    refine ⟨upd own c (.pool addr), ?_⟩
    exact { g with
      key := fun h' l' e => by
        by_cases eh : h' = addr
        · rw [eh]; exact hk
        · simp only [upd_ne _ _ eh] at e; exact g.key h' l' e
      mem := fun h' l' c' e hm => by
        by_cases ec : c' = c
        · subst ec
          by_cases eh : h' = addr
          · rw [eh]; exact upd_self _ _ _
          · simp only [upd_ne _ _ eh] at e; exact absurd hm (hnp h' l' e)
        · rw [upd_ne _ _ ec]
          by_cases eh : h' = addr
          · subst eh
            simp only [upd_self, Option.some.injEq] at e
            subst e
            simp only [List.mem_append, List.mem_singleton] at hm
            exact g.mem h' l c' hp (hm.resolve_right ec)
          · simp only [upd_ne _ _ eh] at e; exact g.mem h' l' c' e hm
      nodup := fun h' l' e => by
        by_cases eh : h' = addr
        · subst eh
          simp only [upd_self, Option.some.injEq] at e
          subst e
          refine List.nodup_append.2 ⟨g.nodup h' l hp, by simp, ?_⟩
          intro a ha b hb e
          simp only [List.mem_singleton] at hb
          subst hb; subst e
          exact hnp h' l hp ha
        · simp only [upd_ne _ _ eh] at e; exact g.nodup h' l' e
      held := fun t' c' e => by
        have : c' ≠ c := fun ec => hw t' (ec ▸ e)
        rw [upd_ne _ _ this]; exact g.held t' c' e
      free := fun c' e => by
        have : c' ≠ c := by
          intro ec; have := g.free c' e; rw [ec, ho] at this; simp at this
        rw [upd_ne _ _ this]; exact g.free c' e
      pooled := fun c' h e => by
        by_cases ec : c' = c
        · subst ec
          rw [upd_self] at e
          injection e with e
          exact ⟨by rw [← hh]; exact e, hq, hg⟩
        · rw [upd_ne _ _ ec] at e; exact g.pooled c' h e }

/-- More of the answer is there. -/
theorem good_more (g : Good own fate s) (t call c n : Nat) (addr buf : Bytes)
    (hth : s.threads t = .receiving call c addr buf) (hp : parse (buf ++ (s.conns c).inbox.take n) = .incomplete) :
    Good own fate { s with conns := upd s.conns c { s.conns c with inbox := (s.conns c).inbox.drop n }
                           threads := upd s.threads t (.receiving call c addr (buf ++ (s.conns c).inbox.take n)) } := by
  have ho := g.held t c (by rw [hth]; rfl)
  have hr := g.receiving t call c addr buf hth
  have other : ∀ t', t' ≠ t → ∀ c', works (s.threads t') = some c' → c' ≠ c := by
    intro t' ht c' hw e
    have := g.held t' c' hw
    rw [e, ho] at this; injection this with this; exact ht this.symm
  have hcc : ∀ c', c' ≠ c → upd s.conns c { s.conns c with inbox := (s.conns c).inbox.drop n } c' = s.conns c' :=
    fun c' h => upd_ne _ _ h
  have hqq : ∀ c', (upd s.conns c { s.conns c with inbox := (s.conns c).inbox.drop n } c').queue = (s.conns c').queue := by
    intro c'
    by_cases ec : c' = c
    · subst ec; rw [upd_self]
    · rw [hcc c' ec]
  exact { g with
    held := fun t' c' e => by
      by_cases et : t' = t
      · subst et
        simp only [upd_self, works, Option.some.injEq] at e; subst e; exact ho
      · simp only [upd_ne _ _ et] at e; exact g.held t' c' e
    emptyFree := fun c' e => by simp only [hqq]; exact g.emptyFree c' e
    pooled := fun c' h e => by
      have : c' ≠ c := by intro ec; rw [ec, ho] at e; simp at e
      simp only [hcc c' this]; exact g.pooled c' h e
    sending := fun t' call' c' a e => by
      by_cases et : t' = t
      · subst et; simp [upd_self] at e
      · simp only [upd_ne _ _ et] at e
        have h2 := other t' et c' (by rw [e]; rfl)
        simp only [hcc c' h2]; exact g.sending t' call' c' a e
    receiving := fun t' call' c' a buf' e => by
      by_cases et : t' = t
      · subst et
        simp only [upd_self, Th.receiving.injEq] at e
        obtain ⟨rfl, rfl, rfl, rfl⟩ := e
        simp only [upd_self, List.append_assoc, List.take_append_drop]
        exact ⟨hr.1, hp, hr.2.2⟩
      · simp only [upd_ne _ _ et] at e
        have h2 := other t' et c' (by rw [e]; rfl)
        simp only [hcc c' h2]; exact g.receiving t' call' c' a buf' e
    short := fun c' => by simp only [hqq]; exact g.short c'
    queued := fun c' call' e => by simp only [hqq] at e; exact g.queued c' call' e
    whole := fun t' e => by
      by_cases et : t' = t
      · subst et; simp [upd_self] at e
      · simp only [upd_ne _ _ et] at e; exact g.whole t' e }

theorem good_recv (g : Good own fate s) (t k : Nat) (close : Bool) :
    ∃ own' fate', Good own' fate' (step gz s (.recv t k close)) := by
  dsimp only [step, stepWith]
  split
  · next call c addr buf hth =>
    split
    · exact ⟨_, _, g⟩
    · next hne =>
      have hr := g.receiving t call c addr buf hth
      have ho := g.held t c (by rw [hth]; rfl)
      generalize min (k + 1) 4096 = n
      -- either more is to come, or the message is there and at most a line feed is left
      have key : parse (buf ++ (s.conns c).inbox.take n) = .incomplete ∨
          ∃ j m, parse (buf ++ (s.conns c).inbox.take n) = .ok j (received m) ∧ (s.conns c).queue = [] ∧
            Gap ((s.conns c).inbox.drop n) ∧ (call, (s.conns c).host, m) ∈ s.answers := by
        rcases hr.2.2 with ⟨_, hgap⟩ | ⟨hq, m, q, hgq, hgm, he, ha⟩
        · left
          refine parse_gap (gap_prefix (b := (s.conns c).inbox.drop n) ?_)
          rw [List.append_assoc, List.take_append_drop]; exact hgap
        · have he' : (buf ++ (s.conns c).inbox.take n) ++ (s.conns c).inbox.drop n = q ++ bytes m := by
            rw [List.append_assoc, List.take_append_drop]; exact he
          by_cases hd : (s.conns c).inbox.drop n = []
          · right
            rw [hd, List.append_nil] at he'
            have := parse_msg m hgm q [] hgq
            rw [List.append_nil, ← he'] at this
            exact ⟨_, m, this, hq, by rw [hd]; exact Or.inl rfl, ha⟩
          · rcases parse_short m hgm q _ _ hgq he' hd with h | ⟨h10, _, h⟩
            · exact Or.inl h
            · exact Or.inr ⟨_, m, h, hq, by rw [h10]; exact Or.inr rfl, ha⟩
      rcases key with hp | ⟨j, m, hp, hq, hgap, ha⟩
      · simp only [hp]
        exact ⟨_, _, good_more g t call c n addr buf hth hp⟩
      · simp only [hp]
        have g1 := good_done g t call c addr buf ((s.conns c).inbox.drop n) m hth hq ha
        cases close with
        | true => exact ⟨_, _, g1⟩
        | false =>
          have := good_giveBack g1 t c addr ho (by
            intro t' e
            by_cases et : t' = t
            · subst et; simp [upd_self, works] at e
            · simp only [upd_ne _ _ et] at e
              have := g.held t' c e
              rw [ho] at this; injection this with this; exact et this.symm)
            (by simp only [upd_self]; exact hr.1) (by simp only [upd_self]; exact hq) (by simp only [upd_self]; exact hgap)
          obtain ⟨own', g2⟩ := this
          exact ⟨own', fate, g2⟩
  · exact ⟨_, _, g⟩

theorem reach (gz : Bytes → Bytes) (ops : List Op) (h : ∀ op ∈ ops, Clean op) : ∃ own fate, Good own fate (run gz ops) := by
  have go : ∀ (ops : List Op) (s : Sys), (∀ op ∈ ops, Clean op) → (∃ own fate, Good own fate s) →
      ∃ own fate, Good own fate (ops.foldl (step gz) s) := by
    intro ops
    induction ops with
    | nil => intro s _ g; exact g
    | cons op ops ih =>
      intro s h g
      refine ih _ (fun o ho => h o (List.mem_cons_of_mem _ ho)) ?_
      obtain ⟨own, fate, g⟩ := g
      have hop := h op (by simp)
      cases op with
      | start t a st o => exact good_start g t a st o
      | sent t ok ar => exact good_sent g t ok ar
      | serve c m => exact good_serve g c m hop
      | noise c b => exact absurd hop (by simp [Clean])
      | recv t k cl => exact good_recv g t k cl
      | fail t => exact ⟨_, _, good_fail g t⟩
      | expire x n => exact ⟨_, _, good_expire g x n⟩
  exact go ops {} h ⟨_, _, good_init⟩

end Bedrock.PeerPool
