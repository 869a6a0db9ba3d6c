import Verif.Model.PeerWait
import Verif.Model.Literal
import Verif.Props.Forward
import Verif.Props.PeersPing

/-!
# C118: waiting for another node ends in time, and asking all of them gives an answer for each
-/

namespace Bedrock.PeerWait.Props
open Bedrock Bedrock.Http Bedrock.Forward Bedrock.PeerWait Bedrock.Text

/-- The moments at which the calls of `poll` return, and what they find. -/
def moments (now : Nat) : List (Nat × Poll) → List (Nat × Poll)
  | [] => []
  | (d, p) :: ps => (now + d, p) :: moments (now + d) ps

/-- What a bound on the clock needs of each wait. -/
def Bounds (l : Limits) (I : Nat → List (Nat × Poll) → Prop) (B : Nat) : Prop :=
  ∀ now ps, I now ps →
    match wait l now ps with
    | .ended .ok t rest => I t rest ∧ t ≤ B
    | .ended _ t _ => t ≤ B
    | .waiting t => t ≤ B

theorem sendT_bound {l : Limits} {I : Nat → List (Nat × Poll) → Prop} {B : Nat} (h : Bounds l I B) :
    ∀ (ios : List SendIo) now ps buf, I now ps →
      (sendT l now ps buf ios).now ≤ B ∧
      ((sendT l now ps buf ios).val.2 = .finished → I (sendT l now ps buf ios).now (sendT l now ps buf ios).polls) := by
  intro ios
  induction ios with
  | nil =>
    intro now ps buf hi
    have := h now ps hi
    unfold sendT
    cases hw : wait l now ps with
    | waiting t => rw [hw] at this; exact ⟨this, by simp⟩
    | ended why t rest => rw [hw] at this; cases why <;> simp_all
  | cons io ios ih =>
    intro now ps buf hi
    have := h now ps hi
    unfold sendT
    cases hw : wait l now ps with
    | waiting t => rw [hw] at this; exact ⟨this, by simp⟩
    | ended why t rest =>
      rw [hw] at this
      cases why with
      | ok =>
        obtain ⟨h1, h2⟩ := this
        cases io with
        | notReady => exact ⟨h2, by simp⟩
        | fatal => exact ⟨h2, by simp⟩
        | again => exact ih t rest buf h1
        | took n =>
          dsimp only
          split
          · exact ⟨h2, fun _ => h1⟩
          · exact ih t rest (buf.drop n) h1
      | _ => exact ⟨this, by simp⟩

theorem recvT_bound {l : Limits} {I : Nat → List (Nat × Poll) → Prop} {B : Nat} (h : Bounds l I B) :
    ∀ (ios : List RecvIo) now ps acc, I now ps → (recvT l now ps acc ios).now ≤ B := by
  intro ios
  induction ios with
  | nil =>
    intro now ps acc hi
    have := h now ps hi
    unfold recvT
    cases hw : wait l now ps with
    | waiting t => rw [hw] at this; exact this
    | ended why t rest => rw [hw] at this; cases why <;> simp_all
  | cons io ios ih =>
    intro now ps acc hi
    have := h now ps hi
    unfold recvT
    cases hw : wait l now ps with
    | waiting t => rw [hw] at this; exact this
    | ended why t rest =>
      rw [hw] at this
      cases why with
      | ok =>
        obtain ⟨h1, h2⟩ := this
        cases io with
        | again => exact ih t rest acc h1
        | data b =>
          dsimp only
          split
          · exact h2
          · exact ih t rest (acc ++ b) h1
          · exact h2
          · exact h2
        | _ => exact h2
      | _ => exact this

theorem socket_bound {l : Limits} {I : Nat → List (Nat × Poll) → Prop} {B : Nat} (h : Bounds l I B)
    (now : Nat) (ps : List (Nat × Poll)) (hi : I now ps) (req : Bytes) (old : Msg) (out : List SendIo)
    (inp : List RecvIo) : (sendOnSocketT l now ps req old out inp).now ≤ B := by
  obtain ⟨h1, h2⟩ := sendT_bound h out now ps req hi
  unfold sendOnSocketT
  dsimp only
  split
  · exact h1
  · exact h1
  · rename_i hf
    have := recvT_bound h inp _ _ [] (h2 hf)
    split <;> exact this

theorem forward_now (l : Limits) (now : Nat) (ps : List (Nat × Poll)) (req : Bytes) (old : Msg)
    (out : List SendIo) (inp : List RecvIo) :
    (forwardT l now ps req old out inp).now = (sendOnSocketT l now ps req old out inp).now := by
  unfold forwardT
  dsimp only
  split <;> rfl

/-- The peer is not heard after `X`, and no call of `poll` takes longer than `L`. -/
def Quiet (X L now : Nat) (ps : List (Nat × Poll)) : Prop :=
  now ≤ X ∧ (∀ e ∈ moments now ps, X < e.1 → e.2 = .idle) ∧ ∀ e ∈ ps, e.1 ≤ L

theorem quiet_bounds (l : Limits) (X L : Nat) (h0 : l.deadline ≠ 0) (hd : l.deadline ≤ X) :
    Bounds l (Quiet X L) (X + L) := by
  intro now ps
  induction ps generalizing now with
  | nil =>
    intro ⟨h1, _, _⟩
    unfold wait
    split
    · rename_i heq; split at heq <;> cases heq
    · rename_i heq; split at heq
      · cases heq; omega
      · cases heq
    · rename_i heq; split at heq
      · cases heq
      · cases heq; omega
  | cons e ps ih =>
    obtain ⟨d, p⟩ := e
    intro ⟨h1, h2, h3⟩
    have hL : d ≤ L := h3 (d, p) List.mem_cons_self
    have hq : now + d ≤ X → Quiet X L (now + d) ps := fun hx =>
      ⟨hx, fun e he => h2 e (List.mem_cons_of_mem _ he), fun e he => h3 e (List.mem_cons_of_mem _ he)⟩
    have hni : p ≠ .idle → now + d ≤ X := fun hp =>
      Nat.le_of_not_lt (fun hx => hp (h2 (now + d, p) List.mem_cons_self hx))
    unfold wait
    by_cases ha : l.aborted now = true
    · rw [if_pos ha]; dsimp only; omega
    · rw [if_neg ha]
      cases p with
      | idle =>
        dsimp only
        by_cases ht : l.deadline ≠ 0 ∧ l.deadline < now + d
        · rw [if_pos ht]; dsimp only; omega
        · rw [if_neg ht]
          exact ih (now + d) (hq (by have := fun x => ht ⟨h0, x⟩; omega))
      | ready bad wanted =>
        have := hni (by simp)
        have hq' := hq this
        cases bad <;> cases wanted <;> simp <;> first | omega | exact ⟨hq', by omega⟩
      | retry => exact ih (now + d) (hq (hni (by simp)))
      | error => dsimp only; omega

theorem gone_bounds (l : Limits) (g X L : Nat) (hg : l.gone = some g) (hx : g ≤ X) :
    Bounds l (fun now ps => now ≤ X + L ∧ ∀ e ∈ ps, e.1 ≤ L) (X + L) := by
  have key : ∀ ps now, (now ≤ X + L ∧ ∀ e ∈ ps, e.1 ≤ L) →
      match wait l now ps with
      | .ended .ok t rest => (t ≤ X + L ∧ ∀ e ∈ rest, e.1 ≤ L) ∧ t ≤ X + L
      | .ended _ t _ => t ≤ X + L
      | .waiting t => t ≤ X + L := by
    intro ps
    induction ps with
    | nil =>
      intro now ⟨h1, _⟩
      unfold wait
      by_cases ha : l.aborted now = true
      · rw [if_pos ha]; exact h1
      · rw [if_neg ha]; exact h1
    | cons e ps ih =>
      obtain ⟨d, p⟩ := e
      intro now ⟨h1, h3⟩
      have hL : d ≤ L := h3 (d, p) List.mem_cons_self
      have h3' : ∀ e ∈ ps, e.1 ≤ L := fun e he => h3 e (List.mem_cons_of_mem _ he)
      unfold wait
      by_cases ha : l.aborted now = true
      · rw [if_pos ha]; exact h1
      · rw [if_neg ha]
        have hn : now + d ≤ X + L := by
          unfold Limits.aborted at ha
          rw [hg] at ha
          have : ¬ g ≤ now := by simpa using ha
          omega
        cases p with
        | idle =>
          dsimp only
          split
          · rename_i heq; split at heq
            · cases heq
            · have := ih (now + d) ⟨hn, h3'⟩; rw [heq] at this; exact this
          · rename_i heq; split at heq
            · cases heq; exact hn
            · have := ih (now + d) ⟨hn, h3'⟩; rw [heq] at this; revert this; split <;> intro this <;> first | exact this | exact this.2 | simp_all
          · rename_i heq; split at heq
            · cases heq
            · have := ih (now + d) ⟨hn, h3'⟩; rw [heq] at this; exact this
        | ready bad wanted =>
          cases bad <;> cases wanted <;> simp only [if_true, Bool.false_eq_true, if_false] <;>
            first | exact hn | exact ⟨⟨hn, h3'⟩, hn⟩
        | retry => exact ih (now + d) ⟨hn, h3'⟩
        | error => exact hn
  exact fun now ps h => key ps now h

/-! ## The waits leave out nothing of what C63 says -/

theorem sendT_refines (l : Limits) : ∀ (ios : List SendIo) now ps buf, ∃ io' : List SendIo,
    (sendT l now ps buf ios).val = sendLoop buf io' := by
  intro ios
  induction ios with
  | nil =>
    intro now ps buf
    unfold sendT
    cases hw : wait l now ps with
    | waiting t => exact ⟨[], rfl⟩
    | ended why t rest =>
      cases why with
      | ok => exact ⟨[], rfl⟩
      | _ => exact ⟨[.notReady], rfl⟩
  | cons io ios ih =>
    intro now ps buf
    unfold sendT
    cases hw : wait l now ps with
    | waiting t => exact ⟨[], rfl⟩
    | ended why t rest =>
      cases why with
      | ok =>
        cases io with
        | notReady => exact ⟨[.notReady], rfl⟩
        | fatal => exact ⟨[.fatal], rfl⟩
        | again =>
          obtain ⟨io', h⟩ := ih t rest buf
          exact ⟨.again :: io', by rw [sendLoop]; exact h⟩
        | took n =>
          obtain ⟨io', h⟩ := ih t rest (buf.drop n)
          refine ⟨.took n :: io', ?_⟩
          dsimp only
          rw [sendLoop]
          split
          · rfl
          · dsimp only; rw [h]
      | _ => exact ⟨[.notReady], rfl⟩

theorem recvT_refines (l : Limits) : ∀ (ios : List RecvIo) now ps acc, ∃ io' : List RecvIo,
    (recvT l now ps acc ios).val = recvLoop acc io' ∧ Forward.Props.chunks io' <+: Forward.Props.chunks ios := by
  intro ios
  induction ios with
  | nil =>
    intro now ps acc
    unfold recvT
    cases hw : wait l now ps with
    | waiting t => exact ⟨[], rfl, List.prefix_refl _⟩
    | ended why t rest =>
      cases why with
      | ok => exact ⟨[], rfl, List.prefix_refl _⟩
      | _ => exact ⟨[.notReady], rfl, List.prefix_refl _⟩
  | cons io ios ih =>
    intro now ps acc
    unfold recvT
    cases hw : wait l now ps with
    | waiting t => exact ⟨[], rfl, List.nil_prefix⟩
    | ended why t rest =>
      cases why with
      | ok =>
        cases io with
        | notReady => exact ⟨[.notReady], rfl, List.nil_prefix⟩
        | fatal => exact ⟨[.fatal], rfl, List.nil_prefix⟩
        | closed => exact ⟨[.closed], rfl, List.nil_prefix⟩
        | again =>
          obtain ⟨io', h, hp⟩ := ih t rest acc
          exact ⟨.again :: io', by rw [recvLoop]; exact h, hp⟩
        | data b =>
          obtain ⟨io', h, hp⟩ := ih t rest (acc ++ b)
          refine ⟨.data b :: io', ?_, ?_⟩
          · dsimp only
            rw [recvLoop]
            split
            · rename_i hq; rw [hq]
            · rename_i hq; rw [hq]; exact h
            · rename_i hq; rw [hq]
            · rename_i hq; rw [hq]
          · have e : ∀ x : List RecvIo, Forward.Props.chunks (.data b :: x) = b :: Forward.Props.chunks x := fun x => rfl
            rw [e, e]
            exact List.cons_prefix_cons.mpr ⟨rfl, hp⟩
      | _ => exact ⟨[.notReady], rfl, List.nil_prefix⟩

theorem socket_refines (l : Limits) (now : Nat) (ps : List (Nat × Poll)) (req : Bytes) (old : Msg)
    (out : List SendIo) (inp : List RecvIo) : ∃ (out' : List SendIo) (inp' : List RecvIo),
    (sendOnSocketT l now ps req old out inp).val = sendOnSocket req old out' inp' ∧
    Forward.Props.chunks inp' <+: Forward.Props.chunks inp := by
  obtain ⟨out', ho⟩ := sendT_refines l out now ps req
  obtain ⟨inp', hi, hp⟩ := recvT_refines l inp (sendT l now ps req out).now (sendT l now ps req out).polls []
  refine ⟨out', inp', ?_, hp⟩
  unfold sendOnSocketT sendOnSocket
  rw [← ho, ← hi]
  dsimp only
  generalize sendT l now ps req out = s
  obtain ⟨⟨d, k⟩, t, q⟩ := s
  cases k with
  | waiting => rfl
  | failed => rfl
  | finished =>
    dsimp only
    generalize recvT l t q [] inp = r
    obtain ⟨v, t', q'⟩ := r
    cases v <;> rfl

/-! ## C118 -/

/-- **C118** With the clock, forwarding is what C63 is about: all that C63 says holds of it. -/
theorem c118_refines (l : Limits) (now : Nat) (ps : List (Nat × Poll)) (req : Bytes) (old : Msg)
    (out : List SendIo) (inp : List RecvIo) :
    ∃ (out' : List SendIo) (inp' : List RecvIo) (ab : Bool),
      (forwardT l now ps req old out inp).val = runOnPeer true req old [.socket out' inp' ab] ∧
      Forward.Props.chunks inp' <+: Forward.Props.chunks inp := by
  obtain ⟨out', inp', h, hp⟩ := socket_refines l now ps req old out inp
  refine ⟨out', inp', l.aborted (sendOnSocketT l now ps req old out inp).now, ?_, hp⟩
  unfold forwardT runOnPeer
  rw [← h]
  dsimp only
  split <;> rfl

/-- **C118** (partial: see `c118_drip` and `c118_interrupted`.)  A command with a deadline waits for
another node no longer than one call of `poll` after its deadline, or after the last thing heard from
that node if this is later: if nothing is heard after `X`, then the clock never gets past `X + L`. -/
theorem c118_ends_in_time_partial (l : Limits) (X L now : Nat) (ps : List (Nat × Poll)) (req : Bytes) (old : Msg)
    (out : List SendIo) (inp : List RecvIo) (h0 : l.deadline ≠ 0) (hd : l.deadline ≤ X) (hn : now ≤ X)
    (hq : ∀ e ∈ moments now ps, X < e.1 → e.2 = .idle) (hL : ∀ e ∈ ps, e.1 ≤ L) :
    (forwardT l now ps req old out inp).now ≤ X + L := by
  rw [forward_now]
  exact socket_bound (quiet_bounds l X L h0 hd) now ps ⟨hn, hq, hL⟩ req old out inp

/-- **C118** When the client of a command is gone, the wait for another node ends within one call of
`poll`, whatever that node does and whatever interrupts the wait. -/
theorem c118_client_gone (l : Limits) (g L now : Nat) (ps : List (Nat × Poll)) (req : Bytes) (old : Msg)
    (out : List SendIo) (inp : List RecvIo) (hg : l.gone = some g) (hL : ∀ e ∈ ps, e.1 ≤ L) :
    (forwardT l now ps req old out inp).now ≤ max now g + L := by
  rw [forward_now]
  exact socket_bound (gone_bounds l g (max now g) L hg (Nat.le_max_right _ _)) now ps
    ⟨by omega, hL⟩ req old out inp

/-! ### A wait is not given up without a reason -/

/-- The connection, or `poll` itself, has failed. -/
def Bad (p : Poll) : Prop := p = .error ∨ (∃ w, p = .ready true w) ∨ p = .ready false false

theorem wait_reason (l : Limits) : ∀ (ps : List (Nat × Poll)) now why t rest, wait l now ps = .ended why t rest →
    rest <:+ ps ∧
    (why ≠ .ok → (l.deadline ≠ 0 ∧ l.deadline < t) ∨ l.aborted t = true ∨ ∃ e ∈ ps, Bad e.2) := by
  intro ps
  induction ps with
  | nil =>
    intro now why t rest h
    unfold wait at h
    split at h
    · rename_i ha; cases h; exact ⟨List.suffix_refl _, fun _ => .inr (.inl ha)⟩
    · cases h
  | cons e ps ih =>
    obtain ⟨d, p⟩ := e
    intro now why t rest h
    unfold wait at h
    split at h
    · rename_i ha; cases h; exact ⟨List.suffix_refl _, fun _ => .inr (.inl ha)⟩
    · have go : wait l (now + d) ps = .ended why t rest → rest <:+ (d, p) :: ps ∧
          (why ≠ .ok → (l.deadline ≠ 0 ∧ l.deadline < t) ∨ l.aborted t = true ∨ ∃ e ∈ (d, p) :: ps, Bad e.2) := by
        intro h
        obtain ⟨h1, h2⟩ := ih _ _ _ _ h
        refine ⟨h1.trans (List.suffix_cons _ _), fun hw => ?_⟩
        rcases h2 hw with h | h | ⟨e, he, hb⟩
        · exact .inl h
        · exact .inr (.inl h)
        · exact .inr (.inr ⟨e, List.mem_cons_of_mem _ he, hb⟩)
      cases p with
      | idle =>
        dsimp only at h
        split at h
        · rename_i ht; cases h; exact ⟨List.suffix_cons _ _, fun _ => .inl ht⟩
        · exact go h
      | ready bad wanted =>
        dsimp only at h
        split at h
        · rename_i hb; cases h
          exact ⟨List.suffix_cons _ _, fun _ => .inr (.inr ⟨_, List.mem_cons_self, .inr (.inl ⟨wanted, by rw [hb]⟩)⟩)⟩
        · rename_i hb
          split at h
          · cases h; exact ⟨List.suffix_cons _ _, fun hk => absurd rfl hk⟩
          · rename_i hw; cases h
            refine ⟨List.suffix_cons _ _, fun _ => .inr (.inr ⟨_, List.mem_cons_self, .inr (.inr ?_)⟩)⟩
            cases bad <;> cases wanted <;> simp_all
      | retry => exact go h
      | error =>
        cases h
        exact ⟨List.suffix_cons _ _, fun _ => .inr (.inr ⟨_, List.mem_cons_self, .inl rfl⟩)⟩

theorem sendT_reason (l : Limits) : ∀ (ios : List SendIo) now ps buf,
    (sendT l now ps buf ios).polls <:+ ps ∧
    ((sendT l now ps buf ios).val.2 = .failed →
      (l.deadline ≠ 0 ∧ l.deadline < (sendT l now ps buf ios).now) ∨ l.aborted (sendT l now ps buf ios).now = true ∨
      (∃ e ∈ ps, Bad e.2) ∨ .fatal ∈ ios ∨ .notReady ∈ ios) := by
  intro ios
  induction ios with
  | nil =>
    intro now ps buf
    unfold sendT
    cases hw : wait l now ps with
    | waiting t => exact ⟨List.nil_suffix, by simp⟩
    | ended why t rest =>
      obtain ⟨h1, h2⟩ := wait_reason l ps now why t rest hw
      cases why with
      | ok => exact ⟨h1, by simp⟩
      | _ =>
        refine ⟨h1, fun _ => ?_⟩
        rcases h2 (by simp) with h | h | h
        · exact .inl h
        · exact .inr (.inl h)
        · exact .inr (.inr (.inl h))
  | cons io ios ih =>
    intro now ps buf
    unfold sendT
    cases hw : wait l now ps with
    | waiting t => exact ⟨List.nil_suffix, by simp⟩
    | ended why t rest =>
      obtain ⟨h1, h2⟩ := wait_reason l ps now why t rest hw
      cases why with
      | ok =>
        have go : ∀ buf', (sendT l t rest buf' ios).polls <:+ ps ∧
            ((sendT l t rest buf' ios).val.2 = .failed →
              (l.deadline ≠ 0 ∧ l.deadline < (sendT l t rest buf' ios).now) ∨
              l.aborted (sendT l t rest buf' ios).now = true ∨
              (∃ e ∈ ps, Bad e.2) ∨ .fatal ∈ io :: ios ∨ .notReady ∈ io :: ios) := by
          intro buf'
          obtain ⟨k1, k2⟩ := ih t rest buf'
          refine ⟨k1.trans h1, fun hf => ?_⟩
          rcases k2 hf with h | h | ⟨e, he, hb⟩ | h | h
          · exact .inl h
          · exact .inr (.inl h)
          · exact .inr (.inr (.inl ⟨e, h1.subset he, hb⟩))
          · exact .inr (.inr (.inr (.inl (List.mem_cons_of_mem _ h))))
          · exact .inr (.inr (.inr (.inr (List.mem_cons_of_mem _ h))))
        cases io with
        | notReady => exact ⟨h1, fun _ => .inr (.inr (.inr (.inr List.mem_cons_self)))⟩
        | fatal => exact ⟨h1, fun _ => .inr (.inr (.inr (.inl List.mem_cons_self)))⟩
        | again => exact go buf
        | took n =>
          dsimp only
          split
          · exact ⟨h1, by simp⟩
          · exact go _
      | _ =>
        refine ⟨h1, fun _ => ?_⟩
        rcases h2 (by simp) with h | h | h
        · exact .inl h
        · exact .inr (.inl h)
        · exact .inr (.inr (.inl h))

theorem recvT_reason (l : Limits) : ∀ (ios : List RecvIo) now ps acc,
    (recvT l now ps acc ios).val = .failed →
      (l.deadline ≠ 0 ∧ l.deadline < (recvT l now ps acc ios).now) ∨ l.aborted (recvT l now ps acc ios).now = true ∨
      (∃ e ∈ ps, Bad e.2) ∨ .fatal ∈ ios ∨ .closed ∈ ios ∨ .notReady ∈ ios := by
  intro ios
  induction ios with
  | nil =>
    intro now ps acc
    unfold recvT
    cases hw : wait l now ps with
    | waiting t => simp
    | ended why t rest =>
      obtain ⟨h1, h2⟩ := wait_reason l ps now why t rest hw
      cases why with
      | ok => simp
      | _ =>
        intro _
        rcases h2 (by simp) with h | h | h
        · exact .inl h
        · exact .inr (.inl h)
        · exact .inr (.inr (.inl h))
  | cons io ios ih =>
    intro now ps acc
    unfold recvT
    cases hw : wait l now ps with
    | waiting t => simp
    | ended why t rest =>
      obtain ⟨h1, h2⟩ := wait_reason l ps now why t rest hw
      cases why with
      | ok =>
        have go : ∀ acc', (recvT l t rest acc' ios).val = .failed →
              (l.deadline ≠ 0 ∧ l.deadline < (recvT l t rest acc' ios).now) ∨
              l.aborted (recvT l t rest acc' ios).now = true ∨
              (∃ e ∈ ps, Bad e.2) ∨ .fatal ∈ io :: ios ∨ .closed ∈ io :: ios ∨ .notReady ∈ io :: ios := by
          intro acc' hf
          rcases ih t rest acc' hf with h | h | ⟨e, he, hb⟩ | h | h | h
          · exact .inl h
          · exact .inr (.inl h)
          · exact .inr (.inr (.inl ⟨e, h1.subset he, hb⟩))
          · exact .inr (.inr (.inr (.inl (List.mem_cons_of_mem _ h))))
          · exact .inr (.inr (.inr (.inr (.inl (List.mem_cons_of_mem _ h)))))
          · exact .inr (.inr (.inr (.inr (.inr (List.mem_cons_of_mem _ h)))))
        cases io with
        | notReady => intro _; simp
        | fatal => intro _; simp
        | closed => intro _; simp
        | again => exact go acc
        | data b =>
          dsimp only
          split
          · simp
          · exact go _
          · simp
          · simp
      | _ =>
        intro _
        rcases h2 (by simp) with h | h | h
        · exact .inl h
        · exact .inr (.inl h)
        · exact .inr (.inr (.inl h))

/-- **C118** Handing a command to another node is not given up early: the command's time is over, the
connection failed or was closed, or the client is gone, and then the command is answered 556. -/
theorem c118_not_early (l : Limits) (now : Nat) (ps : List (Nat × Poll)) (req : Bytes) (old : Msg)
    (out : List SendIo) (inp : List RecvIo)
    (hf : (forwardT l now ps req old out inp).val.result = some false) :
    l.aborted (forwardT l now ps req old out inp).now = false ∧
    ((l.deadline ≠ 0 ∧ l.deadline < (forwardT l now ps req old out inp).now) ∨
     (∃ e ∈ ps, Bad e.2) ∨ .fatal ∈ out ∨ .notReady ∈ out ∨ .fatal ∈ inp ∨ .closed ∈ inp ∨ .notReady ∈ inp) := by
  have hn := forward_now l now ps req old out inp
  unfold forwardT at hf
  dsimp only at hf
  split at hf
  · simp at hf
  · rename_i hna
    have ha : l.aborted (sendOnSocketT l now ps req old out inp).now = false := by
      cases h : l.aborted (sendOnSocketT l now ps req old out inp).now with
      | false => rfl
      | true => exact absurd ⟨hf, h⟩ hna
    rw [hn]
    refine ⟨ha, ?_⟩
    revert hf ha
    obtain ⟨s1, s2⟩ := sendT_reason l out now ps req
    unfold sendOnSocketT
    dsimp only
    split
    · intro hf; simp at hf
    · rename_i hk
      intro _ ha
      rcases s2 hk with h | h | h | h | h
      · exact .inl h
      · dsimp only at ha; rw [ha] at h; cases h
      · exact .inr (.inl h)
      · exact .inr (.inr (.inl h))
      · exact .inr (.inr (.inr (.inl h)))
    · split
      · intro hf; simp at hf
      · intro hf; simp at hf
      · rename_i hk
        intro _ ha
        rcases recvT_reason l inp _ _ _ hk with h | h | ⟨e, he, hb⟩ | h | h | h
        · exact .inl h
        · dsimp only at ha; rw [ha] at h; cases h
        · exact .inr (.inl ⟨e, s1.subset he, hb⟩)
        · exact .inr (.inr (.inr (.inr (.inl h))))
        · exact .inr (.inr (.inr (.inr (.inr (.inl h)))))
        · exact .inr (.inr (.inr (.inr (.inr (.inr h)))))
      · intro hf; simp at hf

/-! ### A silent node -/

theorem wait_silent (l : Limits) (h0 : l.deadline ≠ 0) : ∀ (ps : List (Nat × Poll)) now,
    (∀ e ∈ ps, e.2 = .idle) → max now l.deadline < now + (ps.map (·.1)).sum →
    ∃ why t rest, wait l now ps = .ended why t rest ∧ why ≠ .ok := by
  intro ps
  induction ps with
  | nil => intro now _ h; simp at h; omega
  | cons e ps ih =>
    obtain ⟨d, p⟩ := e
    intro now hi h
    have hp : p = .idle := hi _ List.mem_cons_self
    subst hp
    unfold wait
    split
    · exact ⟨_, _, _, rfl, by simp⟩
    · dsimp only
      split
      · exact ⟨_, _, _, rfl, by simp⟩
      · rename_i hd
        have hd' : now + d ≤ l.deadline := by have := fun x => hd ⟨h0, x⟩; omega
        simp only [List.map_cons, List.sum_cons] at h
        exact ih (now + d) (fun e he => hi e (List.mem_cons_of_mem _ he)) (by omega)

/-- **C118** A node that does not take the request, or does not answer it, for longer than the command's
deadline is given up: sending fails with nothing handed over, waiting for the answer fails. -/
theorem c118_silent_node (l : Limits) (h0 : l.deadline ≠ 0) (now : Nat) (ps : List (Nat × Poll))
    (hi : ∀ e ∈ ps, e.2 = .idle) (ht : max now l.deadline < now + (ps.map (·.1)).sum) :
    (∀ req old out inp, (sendOnSocketT l now ps req old out inp).val.result = some false ∧
      (sendOnSocketT l now ps req old out inp).val.delivered = []) ∧
    (∀ acc inp, (recvT l now ps acc inp).val = .failed) := by
  obtain ⟨why, t, rest, hw, hk⟩ := wait_silent l h0 ps now hi ht
  refine ⟨fun req old out inp => ?_, fun acc inp => ?_⟩
  · have : sendT l now ps req out = ⟨([], .failed), t, rest⟩ := by
      cases out with
      | nil => unfold sendT; rw [hw]; cases why <;> first | exact absurd rfl hk | rfl
      | cons => unfold sendT; rw [hw]; cases why <;> first | exact absurd rfl hk | rfl
    unfold sendOnSocketT
    rw [this]
    exact ⟨rfl, rfl⟩
  · cases inp with
    | nil => unfold recvT; rw [hw]; cases why <;> first | exact absurd rfl hk | rfl
    | cons => unfold recvT; rw [hw]; cases why <;> first | exact absurd rfl hk | rfl

/-! ### What keeps a wait going -/

theorem recvT_drip (l : Limits) (hg : l.gone = none) (d n : Nat) : ∀ now acc, (∀ c ∈ acc, isEol c = false) →
    recvT l now (List.replicate n (d, .ready false true)) acc (List.replicate n (.data [97])) =
      ⟨.waiting, now + n * d, []⟩ := by
  have ha : ∀ t, l.aborted t = false := fun t => by unfold Limits.aborted; rw [hg]
  induction n with
  | zero =>
    intro now acc _
    simp only [List.replicate_zero]
    unfold recvT wait
    simp [ha]
  | succ n ih =>
    intro now acc h
    simp only [List.replicate_succ]
    unfold recvT wait
    have hacc : ∀ c ∈ acc ++ [97], isEol c = false := by
      intro c hc
      rcases List.mem_append.mp hc with h' | h'
      · exact h c h'
      · rw [List.mem_singleton.mp h']; decide
    have hp := Peers.Props.parse_no_line (acc ++ [97]) hacc
    simp only [ha, Bool.false_eq_true, if_false, if_true]
    rw [hp]
    dsimp only
    rw [ih (now + d) (acc ++ [97]) hacc, Nat.succ_mul]
    have : now + d + n * d = now + (n * d + d) := by omega
    rw [this]

/-- C118, violation: a node that answers a byte at a time keeps the command for as long as it likes,
whatever the command's deadline; the deadline is looked at only when nothing happens for 100 ms. -/
theorem c118_drip (req : Bytes) (old : Msg) (T : Nat) : ∃ ps inp,
    (∀ e ∈ ps, e.1 ≤ 100000) ∧
    (forwardT ⟨1, none⟩ 0 ps req old [.took req.length] inp).val.result = none ∧
    T ≤ (forwardT ⟨1, none⟩ 0 ps req old [.took req.length] inp).now := by
  refine ⟨(0, .ready false true) :: List.replicate T (99999, .ready false true), List.replicate T (.data [97]), ?_, ?_⟩
  · intro e he
    rcases List.mem_cons.mp he with rfl | he
    · decide
    · rw [(List.mem_replicate.mp he).2]; decide
  · have hs : sendOnSocketT ⟨1, none⟩ 0 ((0, .ready false true) :: List.replicate T (99999, .ready false true)) req old
        [.took req.length] (List.replicate T (.data [97])) =
        ⟨{ delivered := req, response := old }, 0 + T * 99999, []⟩ := by
      have : sendT ⟨1, none⟩ 0 ((0, .ready false true) :: List.replicate T (99999, .ready false true)) req
          [.took req.length] = ⟨(req, .finished), 0, List.replicate T (99999, .ready false true)⟩ := by
        unfold sendT wait
        simp [Limits.aborted]
      unfold sendOnSocketT
      rw [this]
      dsimp only
      rw [recvT_drip ⟨1, none⟩ rfl 99999 T 0 [] (by simp)]
    have hf : forwardT ⟨1, none⟩ 0 ((0, .ready false true) :: List.replicate T (99999, .ready false true)) req old
        [.took req.length] (List.replicate T (.data [97])) =
        ⟨{ delivered := req, response := old }, 0 + T * 99999, []⟩ := by
      unfold forwardT
      rw [hs]
      simp
    rw [hf]
    exact ⟨rfl, by dsimp only; omega⟩

/-- C118, violation: a wait that is interrupted again and again does not look at the deadline either. -/
theorem c118_interrupted (T : Nat) : ∃ ps : List (Nat × Poll),
    (∀ e ∈ ps, e.1 ≤ 100000) ∧ ∃ t, T ≤ t ∧ wait ⟨1, none⟩ 0 ps = .waiting t := by
  have key : ∀ n now, wait ⟨1, none⟩ now (List.replicate n (99999, .retry)) = .waiting (now + n * 99999) := by
    intro n
    induction n with
    | zero => intro now; simp [wait, Limits.aborted]
    | succ n ih =>
      intro now
      simp only [List.replicate_succ, wait, Limits.aborted, Bool.false_eq_true, if_false]
      rw [ih, Nat.succ_mul]
      congr 1
      omega
  refine ⟨List.replicate T (99999, .retry), ?_, 0 + T * 99999, by omega, key T 0⟩
  intro e he
  rw [(List.mem_replicate.mp he).2]; decide

/-- C118, violation: an answer whose `Content-Length` is no number makes the parser throw.  In the thread
of a broadcast nothing catches this: the node that asked ends. -/
theorem c118_bad_answer :
    let ps := [(0, Poll.ready false true), (0, .ready false true)]
    let inp := [RecvIo.data (b!"200 OK\r\nContent-Length: x\r\n\r\n")]
    (recvT ⟨1, none⟩ 0 ps.tail [] inp).val = .broken ∧
    (runOnNamed ⟨1, none⟩ 0 (b!"X") {} (.socket ps [.took 1] inp)).val.result = none := by
  unfold runOnNamed sendOnSocketT recvT
  rw [parse_eq_parseF]
  decide +kernel

/-! ### One node by name, and all of them -/

/-- **C118** A command sent to a node by name is not left to be run again.  If the call returns, the
command is complete, with what the node answered, or with 500 if the node is unknown or its answer did
not come. -/
theorem c118_named (l : Limits) (now : Nat) (req : Bytes) (hr : req ≠ []) (old : Msg) (p : Peer) (b : Bool)
    (h : (runOnNamed l now req old p).val.result = some b) :
    (runOnNamed l now req old p).val.complete = true ∧
    (b = false → (runOnNamed l now req old p).val.response.methodLine = b!"500 Internal Server Error" ∧
      (runOnNamed l now req old p).val.response.table = [] ∧ (runOnNamed l now req old p).val.response.content = []) ∧
    (b = true → (runOnNamed l now req old p).val.delivered = req ∧ ∃ ps out inp got n, p = .socket ps out inp ∧
      got <+: (Forward.Props.chunks inp).flatten ∧ parse got = .ok n (runOnNamed l now req old p).val.response) := by
  have he : errorResponse.methodLine = b!"500 Internal Server Error" := by decide +kernel
  cases p with
  | unknown => cases h; exact ⟨rfl, fun _ => ⟨he, rfl, rfl⟩, by simp⟩
  | noSocket => cases h; exact ⟨rfl, fun _ => ⟨he, rfl, rfl⟩, by simp⟩
  | socket ps out inp =>
    obtain ⟨out', inp', hs, hc⟩ := socket_refines l now ps req old out inp
    simp only [runOnNamed] at h ⊢
    split at h
    · rename_i hf
      rw [if_pos hf]
      dsimp only at h ⊢
      rw [hf] at h
      cases h
      exact ⟨rfl, fun _ => ⟨he, rfl, rfl⟩, by simp⟩
    · rename_i hf
      rw [if_neg hf]
      have hb : b = true := by cases b with
        | true => rfl
        | false => exact absurd h hf
      subst hb
      rw [hs] at h ⊢
      have hrun : runOnPeer true req old [.socket out' inp' false] = sendOnSocket req old out' inp' := by
        unfold runOnPeer; simp
      unfold sendOnSocket at h ⊢
      obtain ⟨_, k2⟩ := Forward.Props.sendLoop_spec out' req hr
      generalize hsl : sendLoop req out' = sl at h k2 ⊢
      obtain ⟨d, k⟩ := sl
      cases k with
      | waiting => simp at h
      | failed => simp at h
      | finished =>
        dsimp only at h k2 ⊢
        have hd : d = req := k2.mp rfl
        generalize hrl : recvLoop [] inp' = rl at h ⊢
        cases rl with
        | waiting => simp at h
        | broken => simp at h
        | failed => simp at h
        | response m x =>
          obtain ⟨got, n, g1, g2⟩ := Forward.Props.recvLoop_response inp' [] m x hrl
          refine ⟨rfl, by simp, fun _ => ⟨hd, ps, out, inp, got, n, rfl, ?_, g2⟩⟩
          rw [List.nil_append] at g1
          refine g1.trans ?_
          obtain ⟨z, hz⟩ := hc
          exact ⟨z.flatten, by rw [← hz, List.flatten_append]⟩

/-- What holds while the threads of `runOnAll` run; `order`: the threads in the order of their indices. -/
structure Inv (sents : List Sent) (a : All) (order : List Nat) : Prop where
  nodup : order.Nodup
  len : order.length = a.next
  slots : a.slot.length = sents.length
  stores : a.stored.length = sents.length
  res : a.results.length = sents.length
  slot : ∀ k i : Nat, a.slot[k]? = some (some i) ↔ order[i]? = some k
  stored : ∀ k : Nat, a.stored[k]? = some true → ∃ (i : Nat) (s : Sent), order[i]? = some k ∧ sents[k]? = some s ∧
    s.result.isSome ∧ a.results[i]? = some s.response
  got : ∀ (k : Nat) (s : Sent), k ∈ order → sents[k]? = some s → s.result.isSome

theorem inv_lt {sents : List Sent} {a : All} {order : List Nat} (h : Inv sents a order) :
    ∀ k ∈ order, k < sents.length := by
  intro k hk
  obtain ⟨i, hi⟩ := List.getElem?_of_mem hk
  have := (h.slot k i).mpr hi
  obtain ⟨hlt, _⟩ := List.getElem?_eq_some_iff.mp this
  rw [h.slots] at hlt
  exact hlt

theorem inv_le {sents : List Sent} {a : All} {order : List Nat} (h : Inv sents a order) :
    order.length ≤ sents.length := by
  have := List.Nodup.length_le_of_subset h.nodup (l₂ := List.range sents.length)
    (fun k hk => List.mem_range.mpr (inv_lt h k hk))
  simpa using this

theorem inv_step {sents : List Sent} {a : All} {order : List Nat} (h : Inv sents a order) (e : AllEv) :
    ∃ order', Inv sents (a.step sents e) order' := by
  cases e with
  | fetch k =>
    unfold All.step
    dsimp only
    split
    · rename_i s hs hk
      split
      · rename_i hr
        have hkn : k ∉ order := by
          intro hm
          obtain ⟨i, hi⟩ := List.getElem?_of_mem hm
          have := (h.slot k i).mpr hi
          rw [hk] at this; cases this
        have hkl : k < a.slot.length := (List.getElem?_eq_some_iff.mp hk).1
        refine ⟨order ++ [k], ?_, ?_, ?_, h.stores, h.res, ?_, ?_, ?_⟩
        · rw [List.nodup_append]
          refine ⟨h.nodup, by simp, ?_⟩
          intro x hx y hy hxy
          rw [List.mem_singleton.mp hy] at hxy
          exact hkn (hxy ▸ hx)
        · simp [h.len]
        · simp [h.slots]
        · intro k' i
          dsimp only
          by_cases hkk : k = k'
          · subst hkk
            rw [List.getElem?_set_self hkl]
            constructor
            · intro hx
              injection hx with hx; injection hx with hx
              rw [← hx, ← h.len]; simp
            · intro hx
              by_cases hlt : i < order.length
              · rw [List.getElem?_append_left hlt] at hx
                exact absurd (List.mem_of_getElem? hx) hkn
              · have := (List.getElem?_eq_some_iff.mp hx).1
                simp at this
                have : i = a.next := by rw [← h.len]; omega
                rw [this]
          · rw [List.getElem?_set_ne hkk, h.slot k' i]
            constructor
            · intro hx
              rw [List.getElem?_append_left (List.getElem?_eq_some_iff.mp hx).1]; exact hx
            · intro hx
              by_cases hlt : i < order.length
              · rw [List.getElem?_append_left hlt] at hx; exact hx
              · rw [List.getElem?_append_right (by omega)] at hx
                have := List.mem_of_getElem? hx
                exact absurd (List.mem_singleton.mp this).symm hkk
        · intro k' hk'
          obtain ⟨i, s', h1, h2, h3, h4⟩ := h.stored k' hk'
          exact ⟨i, s', by rw [List.getElem?_append_left (List.getElem?_eq_some_iff.mp h1).1]; exact h1, h2, h3, h4⟩
        · intro k' s' hm hs'
          rcases List.mem_append.mp hm with hm | hm
          · exact h.got k' s' hm hs'
          · rw [List.mem_singleton.mp hm] at hs'
            rw [hs] at hs'
            cases hs'
            exact hr
      · exact ⟨order, h⟩
    · exact ⟨order, h⟩
  | store k =>
    unfold All.step
    dsimp only
    split
    · rename_i s i hs hk hst
      have hi : order[i]? = some k := (h.slot k i).mp hk
      have hil : i < a.results.length := by
        have := (List.getElem?_eq_some_iff.mp hi).1
        have := inv_le h
        rw [h.res]; omega
      have hsl : k < a.stored.length := (List.getElem?_eq_some_iff.mp hst).1
      refine ⟨order, h.nodup, h.len, h.slots, by simp [h.stores], by simp [h.res], h.slot, ?_, h.got⟩
      intro k' hk'
      dsimp only at hk' ⊢
      by_cases hkk : k = k'
      · subst hkk
        exact ⟨i, s, hi, hs, h.got k s (List.mem_of_getElem? hi) hs, List.getElem?_set_self hil⟩
      · rw [List.getElem?_set_ne hkk] at hk'
        obtain ⟨j, s', h1, h2, h3, h4⟩ := h.stored k' hk'
        refine ⟨j, s', h1, h2, h3, ?_⟩
        rw [List.getElem?_set_ne]
        · exact h4
        · intro hij
          rw [← hij, hi] at h1
          injection h1 with h1
          exact hkk h1
    · exact ⟨order, h⟩

theorem inv_run (sents : List Sent) (evs : List AllEv) :
    ∃ order, Inv sents (evs.foldl (All.step sents) (All.start sents.length)) order := by
  have h0 : Inv sents (All.start sents.length) [] := by
    refine ⟨List.nodup_nil, rfl, by simp [All.start], by simp [All.start], by simp [All.start], ?_, ?_, by simp⟩
    · intro k i
      simp only [All.start, List.getElem?_nil]
      constructor
      · intro hx
        have := List.mem_of_getElem? hx
        have := (List.mem_replicate.mp this).2
        cases this
      · intro hx; cases hx
    · intro k hk
      have := List.mem_of_getElem? hk
      have := (List.mem_replicate.mp this).2
      cases this
  have : ∀ (evs : List AllEv) a order, Inv sents a order → ∃ order', Inv sents (evs.foldl (All.step sents) a) order' := by
    intro evs
    induction evs with
    | nil => intro a order h; exact ⟨order, h⟩
    | cons e evs ih =>
      intro a order h
      obtain ⟨o, ho⟩ := inv_step h e
      exact ih _ o ho
  exact this evs _ _ h0

/-- **C118** When a broadcast returns, however its threads were scheduled, every node's call has returned
and the results are the nodes' responses: one for each node, none lost, none twice (in no given order). -/
theorem c118_all (sents : List Sent) (evs : List AllEv)
    (hd : (evs.foldl (All.step sents) (All.start sents.length)).done = true) :
    (evs.foldl (All.step sents) (All.start sents.length)).results.Perm (sents.map (·.response)) ∧
    ∀ s ∈ sents, s.result.isSome := by
  obtain ⟨order, h⟩ := inv_run sents evs
  revert hd h
  generalize evs.foldl (All.step sents) (All.start sents.length) = a
  intro hd h
  have hall : ∀ k, k < sents.length → a.stored[k]? = some true := by
    intro k hk
    rw [← h.stores] at hk
    rw [List.getElem?_eq_getElem hk]
    have := List.all_eq_true.mp hd _ (List.getElem_mem hk)
    exact congrArg some this
  have hperm : order.Perm (List.range sents.length) := by
    rw [List.perm_ext_iff_of_nodup h.nodup List.nodup_range]
    intro k
    rw [List.mem_range]
    constructor
    · exact inv_lt h k
    · intro hk
      obtain ⟨i, s, h1, _⟩ := h.stored k (hall k hk)
      exact List.mem_of_getElem? h1
  let f : Nat → Msg := fun k => (sents[k]?.map (·.response)).getD {}
  have hres : a.results = order.map f := by
    apply List.ext_getElem?
    intro i
    by_cases hi : i < order.length
    · have hk : order[i]? = some order[i] := List.getElem?_eq_getElem hi
      obtain ⟨j, s, h1, h2, _, h4⟩ := h.stored _ (hall _ (inv_lt h _ (List.getElem_mem hi)))
      have hij : j = i := by
        have hj := (List.getElem?_eq_some_iff.mp h1).1
        have e1 := (h.slot order[i] j).mpr h1
        have e2 := (h.slot order[i] i).mpr hk
        rw [e1] at e2
        injection e2 with e2; injection e2 with e2
      rw [hij] at h4
      rw [h4, List.getElem?_map, hk]
      simp [f, h2]
    · have hl : order.length = sents.length := by simpa using hperm.length_eq
      rw [List.getElem?_eq_none (by rw [h.res]; omega), List.getElem?_eq_none (by simp; omega)]
  have hmap : (List.range sents.length).map f = sents.map (·.response) := by
    apply List.ext_getElem?
    intro i
    by_cases hi : i < sents.length
    · simp [f, hi]
    · rw [List.getElem?_eq_none (by simp; omega), List.getElem?_eq_none (by simp; omega)]
  refine ⟨?_, ?_⟩
  · rw [hres, ← hmap]
    exact hperm.map f
  · intro s hs
    obtain ⟨k, hk⟩ := List.getElem?_of_mem hs
    obtain ⟨i, s', _, h2, h3, _⟩ := h.stored k (hall k (List.getElem?_eq_some_iff.mp hk).1)
    rw [hk] at h2
    cases h2
    exact h3

/-- **C118** A broadcast whose calls have all returned can always be brought to its end: each thread that
takes its two steps ends, whatever the others did. -/
theorem c118_all_ends (sents : List Sent) (hs : ∀ s ∈ sents, s.result.isSome) (evs : List AllEv) (k : Nat)
    (hk : k < sents.length) :
    ∀ more, ((evs ++ [AllEv.fetch k, AllEv.store k] ++ more).foldl (All.step sents) (All.start sents.length)).stored[k]? =
      some true := by
  intro more
  have keep : ∀ (more : List AllEv) a, a.stored[k]? = some true → (more.foldl (All.step sents) a).stored[k]? = some true := by
    intro more
    induction more with
    | nil => intro a h; exact h
    | cons e more ih =>
      intro a h
      refine ih _ ?_
      cases e with
      | fetch j => unfold All.step; dsimp only; split <;> (try split) <;> exact h
      | store j =>
        unfold All.step
        dsimp only
        split
        · rename_i hst
          dsimp only
          by_cases hj : j = k
          · subst hj; rw [h] at hst; cases hst
          · rw [List.getElem?_set_ne hj]; exact h
        · exact h
  rw [List.foldl_append, List.foldl_append]
  refine keep more _ ?_
  obtain ⟨order, h⟩ := inv_run sents evs
  revert h
  generalize evs.foldl (All.step sents) (All.start sents.length) = a
  intro h
  have hsk : sents[k]? = some sents[k] := List.getElem?_eq_getElem hk
  have hr := hs _ (List.getElem_mem hk)
  have hsl : k < a.slot.length := by rw [h.slots]; exact hk
  have hst : k < a.stored.length := by rw [h.stores]; exact hk
  simp only [List.foldl_cons, List.foldl_nil]
  have hstore : ∀ b : All, b.stored = a.stored → (∃ i, b.slot[k]? = some (some i)) →
      (b.step sents (.store k)).stored[k]? = some true := by
    intro b hb ⟨i, hi⟩
    unfold All.step
    dsimp only
    rw [hsk, hi, hb]
    cases hv : a.stored[k]? with
    | none => rw [List.getElem?_eq_getElem hst] at hv; cases hv
    | some v =>
      cases v with
      | true => dsimp only; rw [hb]; exact hv
      | false => dsimp only; rw [List.getElem?_set_self hst]
  apply hstore
  · unfold All.step; dsimp only; split <;> (try split) <;> rfl
  · unfold All.step
    dsimp only
    rw [hsk]
    cases hv : a.slot[k]? with
    | none => rw [List.getElem?_eq_getElem hsl] at hv; cases hv
    | some v =>
      cases v with
      | some i => exact ⟨i, hv⟩
      | none =>
        dsimp only
        rw [if_pos hr]
        exact ⟨a.next, by dsimp only; rw [List.getElem?_set_self hsl]⟩

/-! ## Cases -/

/-- Non-vacuity: a node that takes the request and then is silent; the command, with 250 ms left, is
given up after 300 ms. -/
example :
    let ps := [(0, Poll.ready false true), (100000, .idle), (100000, .idle), (100000, .idle), (100000, .idle)]
    let r := forwardT ⟨250000, none⟩ 0 ps (b!"X") {} [.took 1] []
    r.now = 300000 ∧ r.val.result = some false ∧ r.val.complete = true ∧
    (∀ e ∈ moments 0 ps, 250000 < e.1 → e.2 = .idle) ∧ (∀ e ∈ ps, e.1 ≤ 100000) := by decide +kernel

/-- Non-vacuity: a client that goes away at 150 ms while the node answers byte by byte; 556. -/
example :
    let r := forwardT ⟨1, some 150000⟩ 0 [(0, .ready false true), (90000, .ready false true), (90000, .retry), (90000, .ready false true)]
      (b!"X") {} [.took 1] [.again, .again, .again]
    r.now = 180000 ∧ r.val.response.methodLine = b!"556 Aborted" ∧ r.val.result = some true := by decide +kernel

/-- Non-vacuity: a silent node, from the start. -/
example : (forwardT ⟨250000, none⟩ 0 [(200000, .idle), (100000, .idle)] (b!"X") {} [.took 1] []).val.result = some false ∧
    max 0 250000 < 0 + (([(200000, .idle), (100000, .idle)] : List (Nat × Poll)).map (·.1)).sum := by decide +kernel

/-- Non-vacuity: by name, unknown and without a socket. -/
example : (runOnNamed ⟨1, none⟩ 0 (b!"X") {} .unknown).val.result = some false ∧
    (runOnNamed ⟨1, none⟩ 0 (b!"X") {} (.socket [(0, .ready true true)] [] [])).val.complete = true := by decide +kernel

/-- Non-vacuity: three nodes, whose threads end in another order. -/
example :
    let sents : List Sent := [{ result := some true, response := { methodLine := b!"A" } },
      { result := some false, response := { methodLine := b!"B" } }, { result := some true, response := { methodLine := b!"C" } }]
    let a := [AllEv.fetch 2, .fetch 0, .store 0, .fetch 1, .fetch 1, .store 2, .store 1].foldl (All.step sents) (All.start 3)
    a.done = true ∧ a.results.map (·.methodLine) = [b!"C", b!"A", b!"B"] := by decide +kernel

end Bedrock.PeerWait.Props
