import Verif.Spec.NetLive
import Verif.Lemmas.NetLivePair

/-!
# Undisturbed elections: what holds all the time
-/

namespace Bedrock.Net
open Bedrock Bedrock.Node Bedrock.Node.Node Bedrock.Node.Props

def pk (C : Nat) (h : Bytes) (m : OutMsg) : Packet := { commits := C, hash := h, payload := .out m }

/-- The messages on a connection. -/
def msgs (c : List Packet) : List OutMsg := c.filterMap fun p => match p.payload with
  | .out m => some m
  | .login _ _ _ => none

theorem msgs_append (c c' : List Packet) : msgs (c ++ c') = msgs c ++ msgs c' := List.filterMap_append

theorem msgs_pk (C : Nat) (h : Bytes) : ∀ l : List OutMsg, msgs (l.map (pk C h)) = l
  | [] => rfl
  | m :: l => congrArg (m :: ·) (msgs_pk C h l)

/-- What the effects `es` send over the socket for entry `k`. -/
def outTo (k : Nat) (es : List Effect) : List OutMsg := es.filterMap fun
  | .send k' m => if k' = k then some m else none
  | .sendAll m => some m
  | _ => none

def noShut (es : List Effect) : Prop := ∀ k, Effect.shutdownSocket k ∉ es

theorem sends_open {i j : Nat} (hij : i ≠ j) : ∀ {es : List Effect}, noShut es →
    sends i j false .open es = (outTo (ixOf i j) es, .open)
  | [], _ => rfl
  | e :: es, h => by
    have hrec := sends_open hij (es := es) (fun k hk => h k (List.mem_cons_of_mem _ hk))
    cases e with
    | shutdownSocket k => exact absurd List.mem_cons_self (h k)
    | send k m =>
      show (if idOf i k = j ∧ Side.open = .open then _ else _) = _
      rw [hrec]
      unfold outTo
      rw [List.filterMap_cons]
      by_cases e : k = ixOf i j
      · subst e
        rw [if_pos ⟨idOf_ixOf hij, rfl⟩]
        simp
      · rw [if_neg (fun e' => e (ixOf_of_idOf e'.1))]
        simp [e]
    | sendAll m =>
      simp [sends, hrec, outTo]
    | blockPort => exact hrec
    | unblockPort => exact hrec
    | setCommitEnabled b => exact hrec
    | sendOutstanding => exact hrec
    | unsubscribeAll => exact hrec

theorem sends_none {i j : Nat} {f : Bool} : ∀ {es : List Effect}, sends i j f .closed es = ([], .closed)
  | [] => rfl
  | e :: es => by
    have hrec := sends_none (i := i) (j := j) (f := f) (es := es)
    cases e with
    | shutdownSocket k =>
      show sends i j f (if idOf i k = j ∧ Side.closed = .open then .closing else .closed) es = _
      rw [if_neg (fun e => by cases e.2)]; exact hrec
    | send k m =>
      show (if idOf i k = j ∧ Side.closed = .open then _ else _) = _
      rw [if_neg (fun e => by cases e.2)]; exact hrec
    | sendAll m =>
      simp [sends, hrec]
    | blockPort => exact hrec
    | unblockPort => exact hrec
    | setCommitEnabled b => exact hrec
    | sendOutstanding => exact hrec
    | unsubscribeAll => exact hrec

/-- Between two nodes neither of which is to lead. -/
def Humble (pr : Int) (l : List OutMsg) : Prop := ∀ m ∈ l, ∃ s c, m = .state s pr c ∧ (s = .waiting ∨ s = .subscribing ∨ s = .following)

structure Inv (up : Nat → Bool) (top : Nat) (prio : Nat → Int) (C : Nat) (h : Bytes) (net : Net) : Prop where
  top_lt : top < net.size
  top_up : up top = true
  high : 1 < prio top
  lower : ∀ i, i < net.size → up i = true → i ≠ top → prio i < prio top
  mem : ∀ i, i < net.size → up i = true → Member (fun k => up (idOf i k)) (fun k => prio (idOf i k)) C h (net.node i)
  len : ∀ i, i < net.size → up i = true → (net.node i).peers.length + 1 = net.size
  pri : ∀ i, i < net.size → up i = true → (net.node i).priority = prio i
  open' : ∀ i j, i < net.size → j < net.size → i ≠ j → up i = true → net.side i j = if up j = true then .open else .closed
  plain : ∀ i j, i < net.size → j < net.size → i ≠ j → up i = true → up j = true → ∀ p ∈ net.chan i j, ∃ m, p = pk C h m
  humble : ∀ i j, i < net.size → j < net.size → i ≠ j → up i = true → up j = true → i ≠ top → j ≠ top →
    lowState (net.view i j).state ∧ Humble (prio i) (msgs (net.chan i j))
  pair : ∀ i, i < net.size → up i = true → i ≠ top →
    Pair (ixOf i top) (prio top) (prio i) (net.node top).state (net.node top).stateChangeCount (net.view top i).state (net.view top i).standup
      (msgs (net.chan top i)) (net.node i).state (net.node i).leadPeer (net.view i top).state (msgs (net.chan i top))

section
variable {up : Nat → Bool} {top : Nat} {prio : Nat → Int} {C : Nat} {h : Bytes} {net : Net}

/-- Node `x` of `up` becomes `n'`, having taken a message from its channels. -/
theorem inv_move (hI : Inv up top prio C h net) {x : Nat} (hx : x < net.size) (hux : up x = true) {n' : Node}
    {ch : Nat → Nat → List Packet} (hch : ∀ a b, b ≠ x → ch a b = net.chan a b) (hsub : ∀ a b p, p ∈ ch a b → p ∈ net.chan a b)
    (hm : Member (fun k => up (idOf x k)) (fun k => prio (idOf x k)) C h { n' with out := [] })
    (hlen : n'.peers.length + 1 = net.size) (hpri : n'.priority = prio x) (hno : noShut n'.out)
    (hh : x ≠ top → ∀ j, j < net.size → x ≠ j → up j = true → j ≠ top →
      lowState (n'.peer (ixOf x j)).state ∧ Humble (prio x) (outTo (ixOf x j) n'.out))
    (ht : x = top → ∀ i, i < net.size → up i = true → i ≠ top →
      Pair (ixOf i top) (prio top) (prio i) n'.state n'.stateChangeCount (n'.peer (ixOf top i)).state (n'.peer (ixOf top i)).standup
        (msgs (net.chan top i) ++ outTo (ixOf top i) n'.out) (net.node i).state (net.node i).leadPeer (net.view i top).state
        (msgs (ch i top)))
    (hp : x ≠ top → Pair (ixOf x top) (prio top) (prio x) (net.node top).state (net.node top).stateChangeCount (net.view top x).state
        (net.view top x).standup (msgs (ch top x)) n'.state n'.leadPeer (n'.peer (ixOf x top)).state
        (msgs (net.chan x top) ++ outTo (ixOf x top) n'.out)) :
    Inv up top prio C h (settle { net with chan := ch } x n') ∧
    (∀ b, b < net.size → b ≠ x → up b = true →
      (settle { net with chan := ch } x n').chan x b = net.chan x b ++ (outTo (ixOf x b) n'.out).map (pk C h)) := by
  have hsends : ∀ b, b < net.size → x ≠ b → sends x b (n'.peer (ixOf x b)).forked (net.side x b) n'.out =
      if up b = true then (outTo (ixOf x b) n'.out, .open) else ([], .closed) := by
    intro b hb hxb
    rw [hI.open' x b hx hb hxb hux]
    by_cases hub : up b = true
    · rw [if_pos hub, if_pos hub]
      have hk : ixOf x b < n'.peers.length := by
        have := ixOf_lt hx hb hxb
        omega
      have hf : (n'.peer (ixOf x b)).forked = false :=
        (hm.inn (ixOf x b) hk (by show up (idOf x (ixOf x b)) = true; rw [idOf_ixOf hxb]; exact hub)).forked
      rw [hf]
      exact sends_open hxb hno
    · rw [if_neg hub, if_neg hub]; exact sends_none
  have hcom : n'.commits = C := hm.commits
  have hjou : n'.journal n'.commits = h := by rw [hcom]; exact hm.journal
  have hchan : ∀ b, b < net.size → b ≠ x → up b = true →
      (settle { net with chan := ch } x n').chan x b = net.chan x b ++ (outTo (ixOf x b) n'.out).map (pk C h) := by
    intro b hb hbx hub
    rw [settle_chan]
    dsimp only
    rw [hsends b hb (Ne.symm hbx), if_pos hub, hch x b hbx, hcom, ← hcom, hjou, hcom]
    rfl
  have hchan' : ∀ a b, a ≠ x → (settle { net with chan := ch } x n').chan a b = ch a b := fun a b ha => settle_chan_ne ha
  have hnode : ∀ a, a ≠ x → (settle { net with chan := ch } x n').node a = net.node a := by
    intro a ha; rw [settle_node, if_neg ha]
  have hnodex : (settle { net with chan := ch } x n').node x = { n' with out := [] } := by rw [settle_node, if_pos rfl]
  have hview : ∀ a b, a ≠ x → (settle { net with chan := ch } x n').view a b = net.view a b := by
    intro a b ha; rw [settle_view, if_neg ha]; rfl
  have hviewx : ∀ b, (settle { net with chan := ch } x n').view x b = n'.peer (ixOf x b) := by
    intro b; rw [settle_view, if_pos rfl]
  have hpk : ∀ l : List OutMsg, ∀ p ∈ l.map (pk C h), ∃ m, p = pk C h m := by
    intro l p hp
    obtain ⟨m, _, e⟩ := List.mem_map.1 hp
    exact ⟨m, e.symm⟩
  refine ⟨⟨hI.top_lt, hI.top_up, hI.high, hI.lower, ?_, ?_, ?_, ?_, ?_, ?_, ?_⟩, hchan⟩
  · intro i hi hui
    by_cases e : i = x
    · subst e; rw [hnodex]; exact hm
    · rw [hnode i e]; exact hI.mem i hi hui
  · intro i hi hui
    by_cases e : i = x
    · subst e; rw [hnodex]; exact hlen
    · rw [hnode i e]; exact hI.len i hi hui
  · intro i hi hui
    by_cases e : i = x
    · subst e; rw [hnodex]; exact hpri
    · rw [hnode i e]; exact hI.pri i hi hui
  · intro i j hi hj hij hui
    show (if i = x then _ else net.side i j) = _
    by_cases e : i = x
    · subst e
      rw [if_pos rfl]
      dsimp only
      rw [hsends j hj hij]
      split <;> rfl
    · rw [if_neg e]; exact hI.open' i j hi hj hij hui
  · intro i j hi hj hij hui huj p hp
    by_cases e : i = x
    · subst e
      rw [hchan j hj (Ne.symm hij) huj] at hp
      rcases List.mem_append.1 hp with hp | hp
      · exact hI.plain i j hi hj hij hui huj p hp
      · exact hpk _ p hp
    · rw [hchan' i j e] at hp
      exact hI.plain i j hi hj hij hui huj p (hsub i j p hp)
  · intro i j hi hj hij hui huj hit hjt
    have hold := hI.humble i j hi hj hij hui huj hit hjt
    by_cases e : i = x
    · subst e
      rw [hviewx, hchan j hj (Ne.symm hij) huj]
      obtain ⟨h1, h2⟩ := hh hit j hj hij huj hjt
      refine ⟨h1, ?_⟩
      rw [msgs_append, msgs_pk]
      intro m hm'
      rcases List.mem_append.1 hm' with hm' | hm'
      · exact hold.2 m hm'
      · exact h2 m hm'
    · rw [hview i j e, hchan' i j e]
      refine ⟨hold.1, ?_⟩
      intro m hm'
      obtain ⟨p, hp, e'⟩ := List.mem_filterMap.1 hm'
      exact hold.2 m (List.mem_filterMap.2 ⟨p, hsub i j p hp, e'⟩)
  · intro i hi hui hit
    by_cases ext : x = top
    · subst ext
      rw [hnodex, hviewx, hchan i hi hit hui, msgs_append, msgs_pk, hnode i hit, hview i x hit, hchan' i x hit]
      exact ht rfl i hi hui hit
    · rw [hnode top (Ne.symm ext), hview top i (Ne.symm ext), hchan' top i (Ne.symm ext)]
      by_cases eix : i = x
      · subst eix
        rw [hnodex, hviewx, hchan top hI.top_lt (Ne.symm ext) hI.top_up, msgs_append, msgs_pk]
        exact hp hit
      · rw [hnode i eix, hview i top eix, hchan' i top eix, hch top i eix, hch i top (Ne.symm ext)]
        exact hI.pair i hi hui hit

end

/-! ### The measure -/

def sumTo : Nat → (Nat → Nat) → Nat
  | 0, _ => 0
  | n + 1, f => sumTo n f + f n

theorem sumTo_mono : ∀ {n : Nat} {f g : Nat → Nat}, (∀ k, k < n → f k ≤ g k) → sumTo n f ≤ sumTo n g
  | 0, _, _, _ => Nat.le_refl _
  | n + 1, _, _, h => Nat.add_le_add (sumTo_mono fun k hk => h k (Nat.lt_succ_of_lt hk)) (h n (Nat.lt_succ_self n))

theorem sumTo_add : ∀ {n : Nat} {f g : Nat → Nat}, sumTo n (fun k => f k + g k) = sumTo n f + sumTo n g
  | 0, _, _ => rfl
  | n + 1, f, g => by
    show sumTo n (fun k => f k + g k) + (f n + g n) = (sumTo n f + f n) + (sumTo n g + g n)
    rw [sumTo_add]; omega

theorem sumTo_zero : ∀ {n : Nat} {f : Nat → Nat}, (∀ k, k < n → f k = 0) → sumTo n f = 0
  | 0, _, _ => rfl
  | n + 1, f, h => by
    show sumTo n f + f n = 0
    rw [sumTo_zero fun k hk => h k (Nat.lt_succ_of_lt hk), h n (Nat.lt_succ_self n)]

theorem sumTo_single : ∀ {n x c : Nat}, x < n → sumTo n (fun k => if k = x then c else 0) = c
  | n + 1, x, c, hx => by
    show sumTo n (fun k => if k = x then c else 0) + (if n = x then c else 0) = c
    by_cases e : n = x
    · rw [if_pos e, sumTo_zero (fun k hk => if_neg (by omega)), Nat.zero_add]
    · rw [if_neg e, sumTo_single (by omega)]; rfl

theorem sumTo_const : ∀ {n c : Nat}, sumTo n (fun _ => c) = n * c
  | 0, _ => (Nat.zero_mul _).symm
  | n + 1, c => by
    show sumTo n (fun _ => c) + c = _
    rw [sumTo_const, Nat.succ_mul]

def sum2 (n : Nat) (f : Nat → Nat → Nat) : Nat := sumTo n (fun a => sumTo n (f a))

theorem sum2_mono {n : Nat} {f g : Nat → Nat → Nat} (h : ∀ a b, a < n → b < n → f a b ≤ g a b) : sum2 n f ≤ sum2 n g :=
  sumTo_mono fun a ha => sumTo_mono fun b hb => h a b ha hb

theorem sum2_add {n : Nat} {f g : Nat → Nat → Nat} : sum2 n (fun a b => f a b + g a b) = sum2 n f + sum2 n g := by
  unfold sum2
  rw [← sumTo_add]
  congr 1
  funext a
  exact sumTo_add

theorem sum2_single {n x y c : Nat} (hx : x < n) (hy : y < n) : sum2 n (fun a b => if a = x ∧ b = y then c else 0) = c := by
  unfold sum2
  have : (fun a => sumTo n (fun b => if a = x ∧ b = y then c else 0)) = fun a => if a = x then c else 0 := by
    funext a
    by_cases e : a = x
    · rw [if_pos e]
      simp only [e, true_and]
      exact sumTo_single hy
    · rw [if_neg e]
      exact sumTo_zero fun b _ => if_neg (fun h => e h.1)
  rw [this]
  exact sumTo_single hx

theorem sum2_row {n x c : Nat} (hx : x < n) : sum2 n (fun a _ => if a = x then c else 0) = n * c := by
  unfold sum2
  have : (fun a => sumTo n (fun _ => if a = x then c else 0)) = fun a => if a = x then n * c else 0 := by
    funext a
    rw [sumTo_const]
    split
    · rfl
    · exact Nat.mul_zero _
  rw [this]
  exact sumTo_single hx

/-- How far a node is from its place. -/
def away : NState → Nat
  | .searching => 3
  | .waiting => 2
  | .standingUp => 1
  | .subscribing => 1
  | _ => 0

def weight (p : Packet) : Nat := match p.payload with
  | .out (.state _ _ _) => 2
  | .out .subscribe => 2
  | _ => 1

def load (c : List Packet) : Nat := (c.map weight).sum

theorem load_append (c c' : List Packet) : load (c ++ c') = load c + load c' := by
  unfold load; rw [List.map_append, List.sum_append]

def effort (up : Nat → Bool) (net : Net) : Nat :=
  (4 * net.size + 1) * sumTo net.size (fun i => if up i = true then away (net.node i).state else 0) +
  sum2 net.size (fun i j => if up i = true ∧ up j = true ∧ i ≠ j then load (net.chan i j) else 0)

end Bedrock.Net
