import Verif.Model.Peers
import Verif.Lemmas.Stream

/-!
# C91: one connection to each peer, its messages in order, none lost
-/

namespace Bedrock.Peers.Props
open Bedrock Bedrock.Text Bedrock.Http Bedrock.Peers Bedrock.Peers.Node
open Bedrock.Sockets (State)

/-! ## Small steps -/

/-- What the theorems are about: who owns which socket, and what happened. -/
structure View where
  sock : Nat → Option Sk
  waiting : List Sk
  pend : List Sk
  fresh : Nat
  log : List Ev

def view (n : Node) (pend : List Sk) : View := ⟨n.sockOf, n.waiting, pend, n.fresh, n.log⟩

/-- The same connection, perhaps with more bytes. -/
def Grown (s t : Sk) : Prop := t.id = s.id ∧ ∃ x, t.buf = s.buf ++ x ∧ t.got = s.got ++ x

def GrownO : Option Sk → Option Sk → Prop
  | none, none => True
  | some s, some t => Grown s t
  | _, _ => False

def upd (f : Nat → Option Sk) (i : Nat) (s : Option Sk) : Nat → Option Sk := fun j => if j = i then s else f j

/-- The small steps a round is made of. -/
inductive Micro : View → View → Prop
  | touch (v : View) (f : Nat → Option Sk) : (∀ i, GrownO (v.sock i) (f i)) → Micro v { v with sock := f }
  | ping (v : View) (i : Nat) : (v.sock i).isSome → Micro v { v with log := v.log ++ [.ping i] }
  | reconnect (v : View) (i : Nat) : (v.sock i).isSome → Micro v { v with log := v.log ++ [.reconnect i] }
  | message (v : View) (i : Nat) (s : Sk) (k : Nat) (m : Msg) : v.sock i = some s → parse s.buf = .ok (k + 1) m →
      Micro v { v with
        sock := upd v.sock i (some { s with buf := s.buf.drop (k + 1) })
        log := v.log ++ [.message i (s.buf.take (k + 1)) m] }
  | attach (v : View) (i : Nat) (s₀ s : Sk) (rest : List Sk) (k : Nat) (m : Msg) : v.sock i = none → v.pend = s₀ :: rest →
      Grown s₀ s → parse s.buf = .ok (k + 1) m →
      Micro v { v with
        sock := upd v.sock i (some { s with buf := s.buf.drop (k + 1) })
        pend := rest
        log := v.log ++ [.attached i s.id, .login i, .ping i, .message i (s.buf.take (k + 1)) m] }
  | opened (v : View) (i : Nat) (s : Sk) : v.sock i = none → s.id = v.fresh → s.buf = [] → s.got = [] →
      Micro v { v with
        sock := upd v.sock i (some s)
        fresh := v.fresh + 1
        log := v.log ++ [.opened i v.fresh, .login i, .ping i] }
  | disconnect (v : View) (i : Nat) (s : Sk) : v.sock i = some s → (∀ k m, parse s.buf ≠ .ok (k + 1) m) →
      Micro v { v with sock := upd v.sock i none, log := v.log ++ [.disconnected i s.got] }
  | refuse (v : View) (s : Sk) (rest : List Sk) : v.pend = s :: rest →
      Micro v { v with pend := rest, log := v.log ++ [.refused s.id] }
  | drop (v : View) (s : Sk) (rest : List Sk) : v.pend = s :: rest → Micro v { v with pend := rest }
  | keep (v : View) (s₀ s : Sk) (rest : List Sk) : v.pend = s₀ :: rest → Grown s₀ s →
      Micro v { v with pend := rest, waiting := v.waiting ++ [s] }
  | accept (v : View) (new : List Sk) : v.pend = [] → (∀ s ∈ new, s.got = s.buf) →
      new.map (·.id) = List.range' v.fresh new.length →
      Micro v { v with waiting := [], pend := v.waiting ++ new, fresh := v.fresh + new.length }

inductive Star : View → View → Prop
  | refl (v : View) : Star v v
  | tail {a b c : View} : Star a b → Micro b c → Star a c

theorem Star.trans {a b c : View} (h : Star a b) (g : Star b c) : Star a c := by
  induction g with
  | refl => exact h
  | tail _ m ih => exact .tail ih m

theorem Star.one {a b : View} (h : Micro a b) : Star a b := .tail (.refl a) h

theorem Star.inv {I : View → Prop} (hI : ∀ a b, Micro a b → I a → I b) {a b : View} (h : Star a b) (ha : I a) : I b := by
  induction h with
  | refl => exact ha
  | tail _ m ih => exact hI _ _ m ih

theorem grown_refl (s : Sk) : Grown s s := ⟨rfl, [], by simp, by simp⟩

theorem grownO_refl (o : Option Sk) : GrownO o o := by
  cases o with
  | none => trivial
  | some s => exact grown_refl s

theorem grown_poll (s : Sk) (now : Nat) (io : Io) : Grown s (s.poll now io) := by
  unfold Sk.poll
  split
  · exact grown_refl s
  · exact ⟨rfl, io.bytes, rfl, rfl⟩

/-! ## The node's functions take small steps -/

theorem sockOf_setPeer (n : Node) (i : Nat) (f : Peer → Peer) (j : Nat) :
    (n.setPeer i f).sockOf j = if i = j then (n.peers[j]?).bind (fun p => (f p).sock) else n.sockOf j := by
  unfold sockOf setPeer
  dsimp only
  rw [List.getElem?_modify]
  cases n.peers[j]? <;> by_cases h : i = j <;> simp [h]

theorem sockOf_setPeer_same (n : Node) (i : Nat) (f : Peer → Peer) (hf : ∀ p, (f p).sock = p.sock) :
    (n.setPeer i f).sockOf = n.sockOf := by
  funext j
  rw [sockOf_setPeer]
  split
  · simp only [hf]; rfl
  · rfl

theorem sockOf_setSock (n : Node) (i : Nat) (s : Option Sk) (p : Peer) (hp : n.peers[i]? = some p) :
    (n.setSock i s).sockOf = upd n.sockOf i s := by
  funext j
  unfold setSock upd
  rw [sockOf_setPeer]
  by_cases h : i = j
  · subst h; simp [hp]
  · rw [if_neg h, if_neg (fun e => h e.symm)]

theorem peer_of_sock {n : Node} {i : Nat} {s : Sk} (h : n.sockOf i = some s) : ∃ p, n.peers[i]? = some p ∧ p.sock = some s := by
  unfold sockOf at h
  cases hp : n.peers[i]? with
  | none => rw [hp] at h; cases h
  | some p => rw [hp] at h; exact ⟨p, rfl, h⟩

theorem shutdown_star (n : Node) (i : Nat) (q : List Sk) : Star (view n q) (view (n.shutdown i) q) := by
  refine Star.one (Micro.touch (view n q) (n.shutdown i).sockOf ?_)
  intro j
  show GrownO (n.sockOf j) _
  unfold shutdown
  rw [sockOf_setPeer]
  split
  · unfold sockOf
    cases n.peers[j]? with
    | none => trivial
    | some p =>
      simp only [Option.bind_some]
      cases p.sock with
      | none => trivial
      | some s => exact ⟨rfl, [], by simp, by simp⟩
  · exact grownO_refl _

theorem shutdowns_star (is : List Nat) (q : List Sk) : ∀ n : Node, Star (view n q) (view (is.foldl shutdown n) q) := by
  induction is with
  | nil => exact fun n => .refl _
  | cons i is ih => exact fun n => (shutdown_star n i q).trans (ih _)

theorem pop_star (w : World) : ∀ (f : Nat) (n : Node) (i : Nat) (q : List Sk),
    Star (view n q) (view (n.pop w f i).1 q)
  | 0, n, i, q => .refl _
  | f + 1, n, i, q => by
    unfold pop
    split
    · exact .refl _
    · rename_i s hs
      split
      · rename_i k m hp
        refine Star.trans ?_ (pop_star w f _ i q)
        unfold handle
        refine Star.trans (Star.one ?_) (shutdowns_star _ q _)
        obtain ⟨p, h1, _⟩ := peer_of_sock hs
        have := Micro.message (view n q) i s k m hs hp
        have e : view ((n.setSock i (some { s with buf := s.buf.drop (k + 1) })).add (.message i (s.buf.take (k + 1)) m)) q
            = { view n q with
                sock := upd n.sockOf i (some { s with buf := s.buf.drop (k + 1) })
                log := n.log ++ [.message i (s.buf.take (k + 1)) m] } := by
          unfold view
          have := sockOf_setSock n i (some { s with buf := s.buf.drop (k + 1) }) p h1
          simp only [View.mk.injEq]
          exact ⟨this, rfl, trivial, rfl, rfl⟩
        rw [e]
        exact this
      · exact .refl _
      · exact .refl _
      · split
        · exact .refl _
        · exact .refl _
      · exact .refl _

theorem some100_star (w : World) (r : Round) (n : Node) (i : Nat) (q : List Sk) :
    Star (view n q) (view (n.some100 w r i) q) := by
  unfold some100
  dsimp only
  split
  · exact pop_star w 100 n i q
  · exact pop_star w 100 n i q

theorem okay_star (w : World) (r : Round) (n : Node) (i : Nat) (q : List Sk) :
    Star (view n q) (view (n.okay w r i) q) := by
  unfold okay
  dsimp only
  refine Star.trans ?_ (some100_star w r _ i q)
  split
  · rename_i h
    have hs : (n.sockOf i).isSome := by
      cases hn : n.sockOf i with
      | none => rw [hn] at h; exact absurd rfl h.1
      | some s => rfl
    have e := sockOf_setPeer_same n i (fun p => { p with lastPing := r.now }) (fun _ => rfl)
    have := Micro.ping (view n q) i hs
    have e2 : view ((n.setPeer i (fun p => { p with lastPing := r.now })).add (.ping i)) q
        = { view n q with log := n.log ++ [.ping i] } := by
      unfold view
      simp only [View.mk.injEq]
      exact ⟨e, rfl, trivial, rfl, rfl⟩
    rw [e2]
    exact Star.one this
  · exact .refl _

/-- After `all` no complete message is left. -/
theorem pop_drained (w : World) (i : Nat) : ∀ (f : Nat) (n : Node) (s : Sk), n.sockOf i = some s → s.buf.length < f →
    (n.pop w f i).1.dead = false → ∃ t, (n.pop w f i).1.sockOf i = some t ∧ t.got = s.got ∧ t.id = s.id ∧
      ∀ k m, parse t.buf ≠ .ok (k + 1) m
  | 0, n, s, _, hf, _ => by omega
  | f + 1, n, s, hs, hf, hd => by
    have shut : ∀ (is : List Nat) (n : Node) (s : Sk), n.sockOf i = some s →
        ∃ t, (is.foldl shutdown n).sockOf i = some t ∧ t.got = s.got ∧ t.id = s.id ∧ t.buf = s.buf := by
      intro is
      induction is with
      | nil => exact fun n s h => ⟨s, h, rfl, rfl, rfl⟩
      | cons j is ih =>
        intro n s h
        have : ∃ t, (n.shutdown j).sockOf i = some t ∧ t.got = s.got ∧ t.id = s.id ∧ t.buf = s.buf := by
          unfold shutdown
          rw [sockOf_setPeer]
          split
          · obtain ⟨p, h1, h2⟩ := peer_of_sock h
            rw [h1]
            simp only [Option.bind_some, h2, Option.map_some]
            exact ⟨_, rfl, rfl, rfl, rfl⟩
          · exact ⟨s, h, rfl, rfl, rfl⟩
        obtain ⟨t, h1, h2, h3, h4⟩ := this
        obtain ⟨u, g1, g2, g3, g4⟩ := ih _ t h1
        exact ⟨u, g1, by rw [g2, h2], by rw [g3, h3], by rw [g4, h4]⟩
    unfold pop at hd ⊢
    rw [hs] at hd ⊢
    dsimp only at hd ⊢
    cases hp : parse s.buf with
    | ok k m =>
      rw [hp] at hd
      cases k with
      | zero =>
        exact ⟨s, hs, rfl, rfl, by rw [hp]; intro k m h; cases h⟩
      | succ k =>
        dsimp only at hd ⊢
        obtain ⟨p, h1, _⟩ := peer_of_sock hs
        have h2 : ((n.setSock i (some { s with buf := s.buf.drop (k + 1) })).add (.message i (s.buf.take (k + 1)) m)).sockOf i
            = some { s with buf := s.buf.drop (k + 1) } := by
          have := congrFun (sockOf_setSock n i (some { s with buf := s.buf.drop (k + 1) }) p h1) i
          simp only [upd, if_true] at this
          exact this
        obtain ⟨t, g1, g2, g3, g4⟩ := shut (w.react (n.setSock i (some { s with buf := s.buf.drop (k + 1) })).log i m) _ _ h2
        have hne : s.buf ≠ [] := by
          intro e
          rw [e] at hp
          unfold parse at hp
          rw [run_nil] at hp
          cases hp
        have hlen : t.buf.length < f := by
          rw [g4]
          simp only [List.length_drop]
          have := List.length_pos_iff.mpr hne
          omega
        obtain ⟨u, k1, k2, k3, k4⟩ := pop_drained w i f _ t g1 hlen hd
        exact ⟨u, k1, by rw [k2, g2], by rw [k3, g3], k4⟩
    | incomplete => exact ⟨s, hs, rfl, rfl, by rw [hp]; intro k m h; cases h⟩
    | throws =>
      rw [hp] at hd
      dsimp only at hd ⊢
      split
      · exact ⟨s, hs, rfl, rfl, by rw [hp]; intro k m h; cases h⟩
      · rename_i he
        rw [if_neg he] at hd
        cases hd
    | ub =>
      rw [hp] at hd
      cases hd

theorem all_star (w : World) (n : Node) (i : Nat) (q : List Sk) : Star (view n q) (view (n.all w i) q) := by
  unfold all
  exact pop_star w _ n i q

theorem refuse_star (n : Node) (s₀ s : Sk) (q : List Sk) (hg : Grown s₀ s) :
    Star (view n (s₀ :: q)) (view (n.refuse s) q) := by
  have := Star.one (Micro.refuse (view n (s₀ :: q)) s₀ q rfl)
  rw [← hg.1] at this
  exact this

theorem authOne_star (w : World) (r : Round) (n : Node) (s₀ : Sk) (q : List Sk) :
    Star (view n (s₀ :: q)) (view (n.authOne w r s₀) q) := by
  have hdrop : Star (view n (s₀ :: q)) (view n q) := Star.one (Micro.drop (view n (s₀ :: q)) s₀ q rfl)
  unfold authOne
  split
  · exact hdrop
  · dsimp only
    generalize hsp : s₀.poll r.now (r.ioWaiting s₀.id) = s
    have hg : Grown s₀ s := by rw [← hsp]; exact grown_poll ..
    split
    · exact refuse_star n s₀ s q hg
    · split
      · rename_i k m hp
        split
        · split
          · rename_i i hi
            split
            · rename_i hn
              unfold handle
              refine Star.trans (Star.one ?_) (shutdowns_star _ q _)
              have hlt : i < n.peers.length := (List.findIdx?_eq_some_iff_findIdx_eq.mp hi).1
              have hp1 : n.peers[i]? = some n.peers[i] := List.getElem?_eq_getElem hlt
              have e := sockOf_setSock n i (some { s with buf := s.buf.drop (k + 1) }) _ hp1
              have := Micro.attach (view n (s₀ :: q)) i s₀ s q k m (Option.isNone_iff_eq_none.mp hn) rfl hg hp
              have e2 : view (((((n.setSock i (some { s with buf := s.buf.drop (k + 1) })).add (.attached i s.id)).add
                    (.login i)).add (.ping i)).add (.message i (s.buf.take (k + 1)) m)) q
                  = { view n (s₀ :: q) with
                      sock := upd n.sockOf i (some { s with buf := s.buf.drop (k + 1) })
                      pend := q
                      log := n.log ++ [.attached i s.id, .login i, .ping i, .message i (s.buf.take (k + 1)) m] } := by
                unfold view
                simp only [View.mk.injEq]
                refine ⟨e, rfl, trivial, rfl, ?_⟩
                show ((((n.log ++ _) ++ _) ++ _) ++ _) = _
                simp
              rw [e2]
              exact this
            · exact refuse_star n s₀ s q hg
          · exact refuse_star n s₀ s q hg
        · exact refuse_star n s₀ s q hg
      · split
        · exact refuse_star n s₀ s q hg
        · exact Star.one (Micro.keep (view n (s₀ :: q)) s₀ s q rfl hg)
      · split
        · exact refuse_star n s₀ s q hg
        · exact Star.one (Micro.keep (view n (s₀ :: q)) s₀ s q rfl hg)
      · exact hdrop
      · exact hdrop

theorem touch_star (n n' : Node) (q : List Sk) (hf : ∀ i, GrownO (n.sockOf i) (n'.sockOf i)) (h1 : n'.waiting = n.waiting)
    (h2 : n'.fresh = n.fresh) (h3 : n'.log = n.log) : Star (view n q) (view n' q) := by
  have := Micro.touch (view n q) n'.sockOf hf
  have e : view n' q = { view n q with sock := n'.sockOf } := by
    unfold view
    simp only [View.mk.injEq]
    exact ⟨trivial, h1, trivial, h2, h3⟩
  rw [e]
  exact Star.one this

theorem peerOne_star (w : World) (r : Round) (n : Node) (i : Nat) (q : List Sk) :
    Star (view n q) (view (n.peerOne w r i) q) := by
  unfold peerOne
  split
  · exact .refl _
  · split
    · exact .refl _
    · rename_i p hp
      split
      · rename_i s₀ hs₀
        dsimp only
        generalize hsp : s₀.poll r.now (r.io s₀.id) = s
        have hg : Grown s₀ s := by rw [← hsp]; exact grown_poll ..
        have hso : n.sockOf i = some s₀ := by unfold sockOf; rw [hp]; exact hs₀
        have hset := sockOf_setSock n i (some s) p hp
        have hsi : (n.setSock i (some s)).sockOf i = some s := by rw [hset]; simp [upd]
        have hgrow : ∀ j, GrownO (n.sockOf j) ((n.setSock i (some s)).sockOf j) := by
          intro j
          rw [hset]
          unfold upd
          split
          · rename_i e; subst e; rw [hso]; exact hg
          · exact grownO_refl _
        have h1 : Star (view n q) (view (n.setSock i (some s)) q) := touch_star n _ q hgrow rfl rfl rfl
        refine h1.trans ?_
        split
        · split
          · refine (all_star w _ i q).trans ?_
            split
            · exact .refl _
            · rename_i hd
              refine Star.trans (Star.one ?_) (shutdown_star _ i q)
              refine Micro.reconnect (view _ q) i ?_
              obtain ⟨t, ht, _⟩ := pop_drained w i _ (n.setSock i (some s)) s hsi (Nat.lt_succ_self _)
                (by simp only [all, hsi] at hd; exact Bool.eq_false_iff.mpr hd)
              show (sockOf _ i).isSome
              unfold all
              rw [hsi]
              exact Option.isSome_iff_exists.mpr ⟨t, ht⟩
          · exact okay_star ..
        · split
          · -- closed
            generalize hn2 : ({ (n.setSock i (some s)).setPeer i (fun p => { p with nextReconnect := r.now + r.delay i }) with
              next := min (n.setSock i (some s)).next (r.now + r.delay i) } : Node) = n2
            have e2 : n2.sockOf = (n.setSock i (some s)).sockOf := by
              rw [← hn2]
              exact sockOf_setPeer_same _ i _ (fun _ => rfl)
            have h2 : Star (view (n.setSock i (some s)) q) (view n2 q) := by
              refine touch_star _ _ q ?_ ?_ ?_ ?_
              · intro j; rw [e2]; exact grownO_refl _
              · rw [← hn2]; rfl
              · rw [← hn2]; rfl
              · rw [← hn2]; rfl
            refine h2.trans ((all_star w n2 i q).trans ?_)
            split
            · exact .refl _
            · rename_i hd
              have hs2 : n2.sockOf i = some s := by rw [e2]; exact hsi
              obtain ⟨t, ht, hgot, _, hno⟩ := pop_drained w i (s.buf.length + 1) n2 s hs2 (Nat.lt_succ_self _)
                (by simp only [all, hs2] at hd; exact Bool.eq_false_iff.mpr hd)
              have hall : (n2.all w i).sockOf i = some t := by unfold all; rw [hs2]; exact ht
              have := Micro.disconnect (view (n2.all w i) q) i t hall hno
              have e : view (((n2.all w i).setPeer i (fun p => { p with sock := none, lastPing := 0 })).add
                  (.disconnected i s.got)) q
                  = { view (n2.all w i) q with
                      sock := upd (n2.all w i).sockOf i none
                      log := (n2.all w i).log ++ [.disconnected i t.got] } := by
                unfold view
                simp only [View.mk.injEq]
                refine ⟨?_, rfl, trivial, rfl, by rw [hgot]; rfl⟩
                funext j
                show ((n2.all w i).setPeer i _).sockOf j = _
                rw [sockOf_setPeer]
                unfold upd
                by_cases h : i = j
                · subst h
                  rw [if_pos rfl, if_pos rfl]
                  cases (n2.all w i).peers[i]? <;> rfl
                · rw [if_neg h, if_neg (fun e => h e.symm)]
              rw [e]
              exact Star.one this
          · exact okay_star ..
      · rename_i hs₀
        have hso : n.sockOf i = none := by unfold sockOf; rw [hp]; exact hs₀
        split
        · dsimp only
          have e1 := sockOf_setPeer_same n i (fun p => { p with lastPing := 0 }) (fun _ => rfl)
          have h1 : Star (view n q) (view (n.setPeer i (fun p => { p with lastPing := 0 })) q) := by
            refine touch_star _ _ q ?_ rfl rfl rfl
            intro j; rw [e1]; exact grownO_refl _
          refine h1.trans ?_
          split
          · refine Star.trans (Star.one ?_) (some100_star w r _ i q)
            generalize hn1 : n.setPeer i (fun p => { p with lastPing := 0 }) = n1 at e1
            have hp1 : ∃ p', n1.peers[i]? = some p' := by
              rw [← hn1]
              unfold setPeer
              dsimp only
              rw [List.getElem?_modify, hp]
              exact ⟨_, rfl⟩
            obtain ⟨p', hp1⟩ := hp1
            have := Micro.opened (view n1 q) i { id := n1.fresh, state := .connecting, lastRecv := r.now }
              (by show n1.sockOf i = none; rw [e1]; exact hso) rfl rfl rfl
            have e2 := sockOf_setSock { n1 with fresh := n1.fresh + 1 } i
              (some { id := n1.fresh, state := .connecting, lastRecv := r.now }) p' hp1
            have e : view (((({ n1 with fresh := n1.fresh + 1 }.setSock i
                (some { id := n1.fresh, state := .connecting, lastRecv := r.now })).add (.opened i n1.fresh)).add
                (.login i)).add (.ping i)) q
                = { view n1 q with
                    sock := upd n1.sockOf i (some { id := n1.fresh, state := .connecting, lastRecv := r.now })
                    fresh := n1.fresh + 1
                    log := n1.log ++ [.opened i n1.fresh, .login i, .ping i] } := by
              unfold view
              simp only [View.mk.injEq]
              refine ⟨e2, rfl, trivial, rfl, ?_⟩
              show (((n1.log ++ _) ++ _) ++ _) = _
              simp
            rw [e]
            exact this
          · refine Star.trans ?_ (okay_star ..)
            refine touch_star _ _ q ?_ rfl rfl rfl
            intro j
            rw [sockOf_setPeer_same _ i (fun p => { p with nextReconnect := r.now + minute }) (fun _ => rfl)]
            exact grownO_refl _
        · exact okay_star w r { n with next := min n.next p.nextReconnect } i q

theorem auths_star (w : World) (r : Round) : ∀ (l : List Sk) (n : Node),
    Star (view n l) (view (l.foldl (authOne w r) n) [])
  | [], _ => .refl _
  | s :: l, n => (authOne_star w r n s l).trans (auths_star w r l _)

theorem peers_star (w : World) (r : Round) : ∀ (l : List Nat) (n : Node),
    Star (view n []) (view (l.foldl (peerOne w r) n) [])
  | [], _ => .refl _
  | i :: l, n => (peerOne_star w r n i []).trans (peers_star w r l _)

theorem round_star (w : World) (n : Node) (r : Round) : Star (view n []) (view (n.round w r) []) := by
  unfold round
  split
  · exact .refl _
  · dsimp only
    refine Star.trans ?_ (peers_star w r _ _)
    refine Star.trans ?_ (auths_star w r _ _)
    have := Micro.accept (view n []) (r.accepted.mapIdx (fun k b =>
      ({ id := n.fresh + k, state := .connected, buf := b, got := b, lastRecv := r.now } : Sk))) rfl
      (by
        intro s hs
        rw [List.mem_mapIdx] at hs
        obtain ⟨k, hk, rfl⟩ := hs
        rfl)
      (by
        show _ = List.range' n.fresh _
        apply List.ext_getElem
        · simp
        · intro j h1 h2
          simp)
    rw [List.length_mapIdx] at this
    exact Star.one this

theorem run_star (w : World) (rs : List Round) : ∀ n : Node, Star (view n []) (view (n.run w rs) []) := by
  induction rs with
  | nil => exact fun n => .refl _
  | cons r rs ih => exact fun n => (round_star w n r).trans (ih _)

/-! ## What the log may look like -/

/-- The messages handled on the peer's present connection, with their bytes; `none` when there is no connection. -/
def connEv (i : Nat) (c : Option (List (Bytes × Msg))) : Ev → Option (List (Bytes × Msg))
  | .message j raw m => if j = i then c.map (· ++ [(raw, m)]) else c
  | .opened j _ => if j = i then some [] else c
  | .attached j _ => if j = i then some [] else c
  | .disconnected j _ => if j = i then none else c
  | _ => c

def conn (i : Nat) (log : List Ev) : Option (List (Bytes × Msg)) := log.foldl (connEv i) none

/-- The connections that have been given to a peer or refused. -/
def settled (log : List Ev) : List Nat := log.filterMap (fun
  | .opened _ id => some id
  | .attached _ id => some id
  | .refused id => some id
  | _ => none)

/-- These messages were cut off the front of these bytes, one after the other, each as the parser read it from some of
the bytes that follow. -/
def Cut : List (Bytes × Msg) → Bytes → Prop
  | [], _ => True
  | (raw, m) :: ms, got => ∃ x y, got = raw ++ (x ++ y) ∧ raw ≠ [] ∧ parse (raw ++ x) = .ok raw.length m ∧ Cut ms (x ++ y)

/-- The bytes that the messages took. -/
def raws (ms : List (Bytes × Msg)) : Bytes := (ms.map (·.1)).flatten

/-- What may happen next. -/
def Legal (a : List Ev) : Ev → Prop
  | .message i raw m => ∃ ms got, conn i a = some ms ∧ Cut (ms ++ [(raw, m)]) got
  | .opened i id => conn i a = none ∧ id ∉ settled a
  | .attached i id => conn i a = none ∧ id ∉ settled a
  | .login i => ∃ a' id, a = a' ++ [.opened i id] ∨ a = a' ++ [.attached i id]
  | .ping i => (conn i a).isSome
  | .reconnect i => (conn i a).isSome
  | .disconnected i got => ∃ ms rest, conn i a = some ms ∧ Cut ms got ∧ got = raws ms ++ rest ∧
      ∀ k m, parse rest ≠ .ok (k + 1) m
  | .refused id => id ∉ settled a

inductive Good : List Ev → Prop
  | nil : Good []
  | snoc {l : List Ev} {e : Ev} : Good l → Legal l e → Good (l ++ [e])

theorem good_at {l : List Ev} (h : Good l) : ∀ (a : List Ev) (e : Ev) (b : List Ev), l = a ++ e :: b → Legal a e := by
  induction h with
  | nil => intro a e b h; cases a <;> cases h
  | @snoc l e' _ hl ih =>
    intro a e b h
    rcases List.eq_nil_or_concat b with rfl | ⟨b', x, rfl⟩
    · obtain ⟨h1, h2⟩ := List.append_inj' h rfl
      cases h2
      subst h1
      exact hl
    · have h' : l ++ [e'] = (a ++ e :: b') ++ [x] := by rw [h]; simp
      obtain ⟨h1, _⟩ := List.append_inj' h' rfl
      exact ih a e b' h1

theorem conn_snoc (i : Nat) (l : List Ev) (e : Ev) : conn i (l ++ [e]) = connEv i (conn i l) e := by
  simp [conn, List.foldl_append]

theorem settled_snoc (l : List Ev) (e : Ev) : settled (l ++ [e]) = settled l ++ settled [e] := by
  simp [settled, List.filterMap_append]

theorem cut_mono (z : Bytes) : ∀ (ms : List (Bytes × Msg)) (got : Bytes), Cut ms got → Cut ms (got ++ z)
  | [], _, _ => trivial
  | (raw, m) :: ms, got, ⟨x, y, h1, h2, h3, h4⟩ => by
    refine ⟨x, y ++ z, by rw [h1]; simp, h2, h3, ?_⟩
    rw [← List.append_assoc]
    exact cut_mono z ms _ h4

theorem cut_snoc (raw x : Bytes) (m : Msg) (h : raw ≠ []) (hp : parse (raw ++ x) = .ok raw.length m) :
    ∀ (ms : List (Bytes × Msg)) (got : Bytes), Cut ms got → got = raws ms ++ (raw ++ x) → Cut (ms ++ [(raw, m)]) got
  | [], got, _, hg => ⟨x, [], by simpa [raws] using hg, h, hp, trivial⟩
  | (r, m') :: ms, got, ⟨x', y', h1, h2, h3, h4⟩, hg => by
    refine ⟨x', y', h1, h2, h3, cut_snoc raw x m h hp ms _ h4 ?_⟩
    rw [h1] at hg
    simp only [raws, List.map_cons, List.flatten_cons, List.append_assoc] at hg
    exact List.append_cancel_left hg

theorem raws_snoc (ms : List (Bytes × Msg)) (raw : Bytes) (m : Msg) : raws (ms ++ [(raw, m)]) = raws ms ++ raw := by
  simp [raws]

/-- The socket of a peer and the log agree. -/
def Agree : Option Sk → Option (List (Bytes × Msg)) → Prop
  | none, none => True
  | some s, some ms => Cut ms s.got ∧ s.got = raws ms ++ s.buf
  | _, _ => False

structure Inv (v : View) : Prop where
  peers : ∀ i j s t, v.sock i = some s → v.sock j = some t → s.id = t.id → i = j
  nodup : ((v.waiting ++ v.pend).map (·.id)).Nodup
  apart : ∀ i s, v.sock i = some s → s.id < v.fresh ∧ s.id ∉ (v.waiting ++ v.pend).map (·.id)
  wait : ∀ s ∈ v.waiting ++ v.pend, s.id < v.fresh ∧ s.id ∉ settled v.log ∧ s.got = s.buf
  old : ∀ id ∈ settled v.log, id < v.fresh
  agree : ∀ i, Agree (v.sock i) (conn i v.log)
  good : Good v.log

theorem agree_isSome {o : Option Sk} {c : Option (List (Bytes × Msg))} (h : Agree o c) : o.isSome = c.isSome := by
  cases o <;> cases c <;> first | rfl | exact absurd h (by simp [Agree])

theorem agree_grown {o o' : Option Sk} {c : Option (List (Bytes × Msg))} (h : Agree o c) (g : GrownO o o') : Agree o' c := by
  cases o with
  | none =>
    cases o' with
    | none => exact h
    | some t => exact g.elim
  | some s =>
    cases o' with
    | none => exact g.elim
    | some t =>
      cases c with
      | none => exact h.elim
      | some ms =>
        obtain ⟨_, x, g1, g2⟩ := g
        obtain ⟨h1, h2⟩ := h
        refine ⟨?_, ?_⟩
        · rw [g2]; exact cut_mono x ms _ h1
        · rw [g2, g1, h2, List.append_assoc]

theorem parse_ok_ne {b : Bytes} {k : Nat} {m : Msg} (h : parse b = .ok (k + 1) m) : b ≠ [] := by
  rintro rfl
  unfold parse at h
  rw [run_nil] at h
  cases h

theorem upd_same (f : Nat → Option Sk) (i : Nat) (s : Option Sk) : upd f i s i = s := by simp [upd]

theorem upd_ne {f : Nat → Option Sk} {i j : Nat} {s : Option Sk} (h : j ≠ i) : upd f i s j = f j := by simp [upd, h]

/-- An event of a peer does not concern the connections of the others. -/
theorem connEv_other (i j : Nat) (h : j ≠ i) (c : Option (List (Bytes × Msg))) :
    (∀ raw m, connEv j c (.message i raw m) = c) ∧ (∀ id, connEv j c (.opened i id) = c) ∧
    (∀ id, connEv j c (.attached i id) = c) ∧ (∀ got, connEv j c (.disconnected i got) = c) := by
  have h' : ¬ i = j := fun e => h e.symm
  simp [connEv, h']

/-- Taking a message off the front of a buffer. -/
theorem cut_take {ms : List (Bytes × Msg)} {s : Sk} {k : Nat} {m : Msg} (h1 : Cut ms s.got) (h2 : s.got = raws ms ++ s.buf)
    (hp : parse s.buf = .ok (k + 1) m) :
    Cut (ms ++ [(s.buf.take (k + 1), m)]) s.got ∧
      s.got = raws (ms ++ [(s.buf.take (k + 1), m)]) ++ s.buf.drop (k + 1) := by
  have hle := parse_le hp
  have hlen : (s.buf.take (k + 1)).length = k + 1 := by rw [List.length_take]; omega
  refine ⟨cut_snoc (s.buf.take (k + 1)) (s.buf.drop (k + 1)) m ?_ ?_ ms s.got h1 ?_, ?_⟩
  · intro e; rw [e] at hlen; simp at hlen
  · rw [List.take_append_drop, hlen]; exact hp
  · rw [List.take_append_drop]; exact h2
  · rw [raws_snoc, List.append_assoc, List.take_append_drop]; exact h2

theorem settled_single (l : List Ev) (e : Ev) (h : settled [e] = []) : settled (l ++ [e]) = settled l := by
  rw [settled_snoc, h, List.append_nil]

theorem inv_touch {v : View} (hv : Inv v) (f : Nat → Option Sk) (hg : ∀ i, GrownO (v.sock i) (f i)) :
    Inv { v with sock := f } := by
  have back : ∀ i t, f i = some t → ∃ s, v.sock i = some s ∧ t.id = s.id := by
    intro i t ht
    have := hg i
    rw [ht] at this
    cases hs : v.sock i with
    | none => rw [hs] at this; exact this.elim
    | some s => rw [hs] at this; exact ⟨s, rfl, this.1⟩
  refine ⟨?_, hv.nodup, ?_, hv.wait, hv.old, fun i => agree_grown (hv.agree i) (hg i), hv.good⟩
  · intro i j s t h1 h2 h3
    obtain ⟨s', g1, g2⟩ := back i s h1
    obtain ⟨t', k1, k2⟩ := back j t h2
    exact hv.peers i j s' t' g1 k1 (by rw [← g2, ← k2, h3])
  · intro i s h
    obtain ⟨s', g1, g2⟩ := back i s h
    have := hv.apart i s' g1
    rw [← g2] at this
    exact this

theorem inv_message {v : View} (hv : Inv v) (i : Nat) (s : Sk) (k : Nat) (m : Msg) (hs : v.sock i = some s)
    (hp : parse s.buf = .ok (k + 1) m) :
    Inv { v with
      sock := upd v.sock i (some { s with buf := s.buf.drop (k + 1) })
      log := v.log ++ [.message i (s.buf.take (k + 1)) m] } := by
  have back : ∀ j t, upd v.sock i (some { s with buf := s.buf.drop (k + 1) }) j = some t →
      ∃ s, v.sock j = some s ∧ t.id = s.id := by
    intro j t ht
    by_cases h : j = i
    · subst h; rw [upd_same] at ht; injection ht with ht; exact ⟨s, hs, by rw [← ht]⟩
    · rw [upd_ne h] at ht; exact ⟨t, ht, rfl⟩
  have hset := settled_single v.log (.message i (s.buf.take (k + 1)) m) rfl
  have ha := hv.agree i
  rw [hs] at ha
  cases hc : conn i v.log with
  | none => rw [hc] at ha; exact ha.elim
  | some ms =>
    rw [hc] at ha
    have hcut := cut_take ha.1 ha.2 hp
    refine ⟨?_, hv.nodup, ?_, ?_, ?_, ?_, ?_⟩
    · intro i' j s t h1 h2 h3
      obtain ⟨s', g1, g2⟩ := back i' s h1
      obtain ⟨t', k1, k2⟩ := back j t h2
      exact hv.peers i' j s' t' g1 k1 (by rw [← g2, ← k2, h3])
    · intro i s h
      obtain ⟨s', g1, g2⟩ := back i s h
      have := hv.apart i s' g1
      rw [← g2] at this
      exact this
    · dsimp only
      rw [hset]; exact hv.wait
    · dsimp only
      rw [hset]; exact hv.old
    · intro j
      dsimp only
      rw [conn_snoc]
      by_cases h : j = i
      · subst h
        rw [upd_same, hc]
        simp only [connEv, if_true, Option.map_some]
        exact hcut
      · rw [upd_ne h, (connEv_other i j h _).1]
        exact hv.agree j
    · exact .snoc hv.good ⟨ms, s.got, hc, hcut.1⟩

/-- An event that changes nothing. -/
theorem inv_event {v : View} (hv : Inv v) (e : Ev) (h1 : settled [e] = []) (h2 : ∀ i c, connEv i c e = c) (h3 : Legal v.log e) :
    Inv { v with log := v.log ++ [e] } := by
  have hset := settled_single v.log e h1
  refine ⟨hv.peers, hv.nodup, hv.apart, ?_, ?_, ?_, .snoc hv.good h3⟩
  · dsimp only
    rw [hset]; exact hv.wait
  · dsimp only
    rw [hset]; exact hv.old
  · intro j
    dsimp only
    rw [conn_snoc, h2]
    exact hv.agree j

theorem inv_ping {v : View} (hv : Inv v) (i : Nat) (hs : (v.sock i).isSome) : Inv { v with log := v.log ++ [.ping i] } :=
  inv_event hv _ rfl (fun _ _ => rfl) (by
    have := agree_isSome (hv.agree i)
    show (conn i v.log).isSome = true
    rw [← this]; exact hs)

theorem inv_reconnect {v : View} (hv : Inv v) (i : Nat) (hs : (v.sock i).isSome) :
    Inv { v with log := v.log ++ [.reconnect i] } :=
  inv_event hv _ rfl (fun _ _ => rfl) (by
    have := agree_isSome (hv.agree i)
    show (conn i v.log).isSome = true
    rw [← this]; exact hs)

/-- A peer without connection gets one: `opened` or `attached`. -/
theorem inv_connect {v : View} (hv : Inv v) (i : Nat) (s : Sk) (e : Ev) (q : List Sk) (fr : Nat)
    (hn : v.sock i = none) (he : e = .opened i s.id ∨ e = .attached i s.id) (hsub : q.Sublist v.pend)
    (hbuf : s.got = s.buf) (h1 : ∀ j t, v.sock j = some t → t.id ≠ s.id)
    (h2 : s.id ∉ (v.waiting ++ q).map (·.id)) (h3 : s.id ∉ settled v.log) (h4 : s.id < fr) (h5 : v.fresh ≤ fr) :
    Inv { v with sock := upd v.sock i (some s), pend := q, fresh := fr, log := v.log ++ [e] } := by
  have hsub' : (v.waiting ++ q).Sublist (v.waiting ++ v.pend) := List.Sublist.append (List.Sublist.refl _) hsub
  have hc : conn i v.log = none := by
    have := hv.agree i
    rw [hn] at this
    cases hc : conn i v.log with
    | none => rfl
    | some ms => rw [hc] at this; exact this.elim
  have hset : settled (v.log ++ [e]) = settled v.log ++ [s.id] := by
    rw [settled_snoc]
    rcases he with rfl | rfl <;> rfl
  refine ⟨?_, ?_, ?_, ?_, ?_, ?_, ?_⟩
  · intro j j' t t' g1 g2 g3
    dsimp only at g1 g2
    by_cases k1 : j = i <;> by_cases k2 : j' = i
    · rw [k1, k2]
    · subst k1
      rw [upd_same] at g1
      rw [upd_ne k2] at g2
      injection g1 with g1
      exact absurd (by rw [← g3, ← g1]) (h1 j' t' g2)
    · subst k2
      rw [upd_same] at g2
      rw [upd_ne k1] at g1
      injection g2 with g2
      exact absurd (by rw [g3, ← g2]) (h1 j t g1)
    · rw [upd_ne k1] at g1
      rw [upd_ne k2] at g2
      exact hv.peers j j' t t' g1 g2 g3
  · exact hv.nodup.sublist (hsub'.map _)
  · intro j t g
    dsimp only at g ⊢
    by_cases k : j = i
    · subst k
      rw [upd_same] at g
      injection g with g
      subst g
      exact ⟨h4, h2⟩
    · rw [upd_ne k] at g
      have := hv.apart j t g
      exact ⟨by omega, fun hm => this.2 ((hsub'.map _).mem hm)⟩
  · intro x hx
    dsimp only at hx ⊢
    have := hv.wait x (hsub'.mem hx)
    refine ⟨by omega, ?_, this.2.2⟩
    rw [hset]
    intro hm
    rcases List.mem_append.mp hm with hm | hm
    · exact this.2.1 hm
    · rw [List.mem_singleton] at hm
      exact h2 (List.mem_map.mpr ⟨x, hx, hm⟩)
  · intro id hid
    dsimp only at hid ⊢
    rw [hset] at hid
    rcases List.mem_append.mp hid with hm | hm
    · have := hv.old id hm; omega
    · rw [List.mem_singleton] at hm; omega
  · intro j
    dsimp only
    rw [conn_snoc]
    by_cases h : j = i
    · subst h
      rw [upd_same]
      have : connEv j (conn j v.log) e = some [] := by rcases he with rfl | rfl <;> simp [connEv]
      rw [this]
      exact ⟨trivial, by simpa [raws] using hbuf⟩
    · rw [upd_ne h]
      have : connEv j (conn j v.log) e = conn j v.log := by
        rcases he with rfl | rfl
        · exact (connEv_other i j h _).2.1 _
        · exact (connEv_other i j h _).2.2.1 _
      rw [this]
      exact hv.agree j
  · refine .snoc hv.good ?_
    rcases he with rfl | rfl <;> exact ⟨hc, h3⟩

theorem inv_login {v : View} (hv : Inv v) (i : Nat) (h : ∃ a' id, v.log = a' ++ [.opened i id] ∨ v.log = a' ++ [.attached i id]) :
    Inv { v with log := v.log ++ [.login i] } :=
  inv_event hv _ rfl (fun _ _ => rfl) h

theorem inv_sub {v : View} (hv : Inv v) (q : List Sk) (hsub : q.Sublist v.pend) : Inv { v with pend := q } := by
  have hsub' : (v.waiting ++ q).Sublist (v.waiting ++ v.pend) := List.Sublist.append (List.Sublist.refl _) hsub
  refine ⟨hv.peers, hv.nodup.sublist (hsub'.map _), ?_, fun x hx => hv.wait x (hsub'.mem hx), hv.old, hv.agree, hv.good⟩
  intro i s h
  have := hv.apart i s h
  exact ⟨this.1, fun hm => this.2 ((hsub'.map _).mem hm)⟩

theorem inv_micro (v v' : View) (h : Micro v v') (hv : Inv v) : Inv v' := by
  cases h with
  | touch f hg => exact inv_touch hv f hg
  | ping i hs => exact inv_ping hv i hs
  | reconnect i hs => exact inv_reconnect hv i hs
  | message i s k m hs hp => exact inv_message hv i s k m hs hp
  | opened i s hn hid hb hg =>
    have h1 := inv_connect hv i s (.opened i v.fresh) v.pend (v.fresh + 1) hn (.inl (by rw [hid])) (List.Sublist.refl _)
      (by rw [hb, hg])
      (fun j t ht e => by have := (hv.apart j t ht).1; omega)
      (by
        rw [hid]
        intro hm
        obtain ⟨x, hx, e⟩ := List.mem_map.mp hm
        have := (hv.wait x hx).1
        omega)
      (by
        rw [hid]
        intro hm
        have := hv.old _ hm
        omega)
      (by omega) (by omega)
    have h2 := inv_login h1 i ⟨v.log, v.fresh, .inl rfl⟩
    have h3 := inv_ping h2 i (by dsimp only; rw [upd_same]; rfl)
    dsimp only at h3
    simp only [List.append_assoc, List.cons_append, List.nil_append] at h3
    exact h3
  | attach i s₀ s rest k m hn hpend hg hp =>
    obtain ⟨g1, x, g2, g3⟩ := hg
    have hmem : s₀ ∈ v.waiting ++ v.pend := by rw [hpend]; simp
    have hw := hv.wait s₀ hmem
    have hnd := hv.nodup
    rw [hpend] at hnd
    have h1 := inv_connect hv i s (.attached i s.id) rest v.fresh hn (.inr rfl) (by rw [hpend]; exact List.sublist_cons_self _ _)
      (by rw [g2, g3, hw.2.2])
      (fun j t ht e => by
        have := (hv.apart j t ht).2
        exact this (List.mem_map.mpr ⟨s₀, hmem, by rw [e, g1]⟩))
      (by
        rw [g1]
        rw [List.map_append, List.map_cons] at hnd
        have := List.nodup_append.mp hnd
        intro hm
        rw [List.map_append] at hm
        rcases List.mem_append.mp hm with hm | hm
        · exact this.2.2 _ hm _ (by simp) rfl
        · exact (List.nodup_cons.mp this.2.1).1 hm)
      (by rw [g1]; exact hw.2.1)
      (by rw [g1]; exact hw.1) (Nat.le_refl _)
    have h2 := inv_login h1 i ⟨v.log, s.id, .inr rfl⟩
    have h3 := inv_ping h2 i (by dsimp only; rw [upd_same]; rfl)
    have h4 := inv_message h3 i s k m (by dsimp only; rw [upd_same]) hp
    dsimp only at h4
    simp only [List.append_assoc, List.cons_append, List.nil_append] at h4
    have e : upd (upd v.sock i (some s)) i (some { s with buf := s.buf.drop (k + 1) })
        = upd v.sock i (some { s with buf := s.buf.drop (k + 1) }) := by
      funext j
      by_cases h : j = i
      · subst h; rw [upd_same, upd_same]
      · rw [upd_ne h, upd_ne h, upd_ne h]
    rw [e] at h4
    exact h4
  | disconnect i s hs hno =>
    have ha := hv.agree i
    rw [hs] at ha
    cases hc : conn i v.log with
    | none => rw [hc] at ha; exact ha.elim
    | some ms =>
      rw [hc] at ha
      have hset := settled_single v.log (.disconnected i s.got) rfl
      have back : ∀ j t, upd v.sock i none j = some t → v.sock j = some t := by
        intro j t ht
        by_cases h : j = i
        · subst h; rw [upd_same] at ht; cases ht
        · rw [upd_ne h] at ht; exact ht
      refine ⟨?_, hv.nodup, fun j t ht => hv.apart j t (back j t ht), ?_, ?_, ?_, ?_⟩
      · exact fun j j' t t' h1 h2 h3 => hv.peers j j' t t' (back j t h1) (back j' t' h2) h3
      · dsimp only
        rw [hset]; exact hv.wait
      · dsimp only
        rw [hset]; exact hv.old
      · intro j
        dsimp only
        rw [conn_snoc]
        by_cases h : j = i
        · subst h
          rw [upd_same]
          simp [connEv, Agree]
        · rw [upd_ne h, (connEv_other i j h _).2.2.2]
          exact hv.agree j
      · exact .snoc hv.good ⟨ms, s.buf, hc, ha.1, ha.2, hno⟩
  | refuse s rest hpend =>
    have h1 := inv_sub hv rest (by rw [hpend]; exact List.sublist_cons_self _ _)
    have hmem : s ∈ v.waiting ++ v.pend := by rw [hpend]; simp
    have hw := hv.wait s hmem
    have hnd := hv.nodup
    rw [hpend, List.map_append, List.map_cons] at hnd
    have hnot : s.id ∉ (v.waiting ++ rest).map (·.id) := by
      have := List.nodup_append.mp hnd
      intro hm
      rw [List.map_append] at hm
      rcases List.mem_append.mp hm with hm | hm
      · exact this.2.2 _ hm _ (by simp) rfl
      · exact (List.nodup_cons.mp this.2.1).1 hm
    have hset : settled (v.log ++ [.refused s.id]) = settled v.log ++ [s.id] := settled_snoc _ _
    refine ⟨h1.peers, h1.nodup, h1.apart, ?_, ?_, ?_, .snoc hv.good hw.2.1⟩
    · intro x hx
      dsimp only at hx ⊢
      have := h1.wait x hx
      refine ⟨this.1, ?_, this.2.2⟩
      rw [hset]
      intro hm
      rcases List.mem_append.mp hm with hm | hm
      · exact this.2.1 hm
      · rw [List.mem_singleton] at hm
        exact hnot (List.mem_map.mpr ⟨x, hx, hm⟩)
    · intro id hid
      dsimp only at hid ⊢
      rw [hset] at hid
      rcases List.mem_append.mp hid with hm | hm
      · exact hv.old id hm
      · rw [List.mem_singleton] at hm; rw [hm]; exact hw.1
    · intro j
      dsimp only
      rw [conn_snoc]
      exact hv.agree j
  | drop s rest hpend => exact inv_sub hv rest (by rw [hpend]; exact List.sublist_cons_self _ _)
  | keep s₀ s rest hpend hg =>
    obtain ⟨g1, x, g2, g3⟩ := hg
    have e : ((v.waiting ++ [s]) ++ rest).map (·.id) = (v.waiting ++ v.pend).map (·.id) := by
      rw [hpend]; simp [g1]
    have hw := hv.wait s₀ (by rw [hpend]; simp)
    refine ⟨hv.peers, ?_, ?_, ?_, hv.old, hv.agree, hv.good⟩
    · dsimp only; rw [e]; exact hv.nodup
    · dsimp only; rw [e]; exact hv.apart
    · intro y hy
      dsimp only at hy ⊢
      have : y = s ∨ y ∈ v.waiting ++ v.pend := by
        rw [hpend]
        simp only [List.mem_append, List.mem_cons, List.not_mem_nil, or_false] at hy ⊢
        rcases hy with (h | h) | h
        · exact .inr (.inl h)
        · exact .inl h
        · exact .inr (.inr (.inr h))
      rcases this with rfl | h
      · exact ⟨by rw [g1]; exact hw.1, by rw [g1]; exact hw.2.1, by rw [g2, g3, hw.2.2]⟩
      · exact hv.wait y h
  | accept new hpend hgot hids =>
    have hnew : ∀ id ∈ new.map (·.id), v.fresh ≤ id ∧ id < v.fresh + new.length := by
      intro id hid
      rw [hids] at hid
      have := List.mem_range'_1.mp hid
      exact ⟨this.1, this.2⟩
    have hw : ∀ id ∈ v.waiting.map (·.id), id < v.fresh := by
      intro id hid
      obtain ⟨x, hx, rfl⟩ := List.mem_map.mp hid
      exact (hv.wait x (by simp [hx])).1
    have hnd := hv.nodup
    rw [hpend, List.append_nil] at hnd
    refine ⟨hv.peers, ?_, ?_, ?_, ?_, hv.agree, hv.good⟩
    · dsimp only
      rw [List.nil_append, List.map_append]
      refine List.nodup_append.mpr ⟨hnd, ?_, ?_⟩
      · rw [hids]; exact List.nodup_range'
      · intro a ha b hb e
        have := hw a ha
        have := (hnew b hb).1
        omega
    · intro i s hs
      dsimp only
      have := hv.apart i s hs
      refine ⟨by omega, ?_⟩
      rw [List.nil_append, List.map_append]
      intro hm
      rcases List.mem_append.mp hm with hm | hm
      · rw [hpend, List.append_nil] at this; exact this.2 hm
      · have := (hnew _ hm).1; omega
    · intro x hx
      dsimp only at hx ⊢
      rw [List.nil_append] at hx
      rcases List.mem_append.mp hx with hx | hx
      · have := hv.wait x (by simp [hx])
        exact ⟨by omega, this.2⟩
      · have := hnew x.id (List.mem_map.mpr ⟨x, hx, rfl⟩)
        refine ⟨by omega, ?_, hgot x hx⟩
        intro hm
        have := hv.old _ hm
        omega
    · intro id hid
      have := hv.old id hid
      dsimp only
      omega

theorem inv_start (names : List Bytes) : Inv (view (start names) []) := by
  have hn : ∀ i, (start names).sockOf i = none := by
    intro i
    unfold sockOf start
    dsimp only
    rw [List.getElem?_map]
    cases names[i]? <;> rfl
  refine ⟨?_, by simp [view, start], ?_, ?_, ?_, ?_, .nil⟩
  · intro i j s t h
    rw [show (view (start names) []).sock i = none from hn i] at h
    cases h
  · intro i s h
    rw [show (view (start names) []).sock i = none from hn i] at h
    cases h
  · intro s hs
    simp [view, start] at hs
  · intro id hid
    simp [view, start, settled] at hid
  · intro i
    rw [show (view (start names) []).sock i = none from hn i]
    trivial

theorem inv_run (w : World) (names : List Bytes) (rs : List Round) : Inv (view ((start names).run w rs) []) :=
  Star.inv inv_micro (run_star w rs _) (inv_start names)

/-! ## C91 -/

/-- C91.  Each connection has one owner: two peers never share one, and none is both a peer's and still waiting to be
announced. -/
theorem c91_one_owner (w : World) (names : List Bytes) (rs : List Round) :
    (∀ i j s t, ((start names).run w rs).sockOf i = some s → ((start names).run w rs).sockOf j = some t →
      s.id = t.id → i = j) ∧
    (((start names).run w rs).waiting.map (·.id)).Nodup ∧
    (∀ i s, ((start names).run w rs).sockOf i = some s → ∀ x ∈ ((start names).run w rs).waiting, x.id ≠ s.id) := by
  have h := inv_run w names rs
  refine ⟨h.peers, ?_, ?_⟩
  · have := h.nodup
    simpa [view] using this
  · intro i s hs x hx e
    refine (h.apart i s hs).2 (List.mem_map.mpr ⟨x, ?_, e⟩)
    simp only [view, List.append_nil]
    exact hx

/-- C91.  What may happen when: a peer gets a connection only when it has none, and a connection that was not used
before; LOGIN is sent first on it; messages, PING and RECONNECT are only for a peer with a connection; messages are
taken off the front of the bytes received, one after the other; and when a connection ends, no message that arrived
completely is left. -/
theorem c91_history (w : World) (names : List Bytes) (rs : List Round) (a b : List Ev) (e : Ev)
    (h : ((start names).run w rs).log = a ++ e :: b) : Legal a e :=
  good_at (inv_run w names rs).good a e b h

/-- C91.  The messages handled on the present connection are the front of the bytes it received. -/
theorem c91_present (w : World) (names : List Bytes) (rs : List Round) (i : Nat) (s : Sk)
    (h : ((start names).run w rs).sockOf i = some s) :
    ∃ ms, conn i ((start names).run w rs).log = some ms ∧ Cut ms s.got ∧ s.got = raws ms ++ s.buf := by
  have := (inv_run w names rs).agree i
  rw [show (view ((start names).run w rs) []).sock i = some s from h] at this
  cases hc : conn i ((start names).run w rs).log with
  | none => rw [show (view ((start names).run w rs) []).log = ((start names).run w rs).log from rfl, hc] at this; exact this.elim
  | some ms =>
    rw [show (view ((start names).run w rs) []).log = ((start names).run w rs).log from rfl, hc] at this
    exact ⟨ms, rfl, this⟩

/-- Messages cut off the front of a stream of messages are the messages of the stream. -/
theorem cut_stream : ∀ (ms : List (Bytes × Msg)) (gs : List Msg), (∀ m ∈ gs, Spec.GoodMsg m) →
    ∀ (got future q rest : Bytes), Gap q → got ++ future = q ++ (gs.map bytes).flatten → Cut ms got → got = raws ms ++ rest →
    ∃ q', ms.length ≤ gs.length ∧ Gap q' ∧ ms.map (·.2) = (gs.take ms.length).map received ∧
      rest ++ future = q' ++ ((gs.drop ms.length).map bytes).flatten
  | [], gs, _, got, future, q, rest, hq, hs, _, hr => by
    refine ⟨q, by simp, hq, rfl, ?_⟩
    simp only [raws, List.map_nil, List.flatten_nil, List.nil_append] at hr
    rw [← hr]
    exact hs
  | (raw, m) :: ms, gs, hgs, got, future, q, rest, hq, hs, ⟨x, y, h1, h2, h3, h4⟩, hr => by
    have hb : (raw ++ x) ++ (y ++ future) = q ++ (gs.map bytes).flatten := by
      rw [← hs, h1]; simp
    obtain ⟨c, raw', hraw⟩ : ∃ c r, raw = c :: r := by
      cases raw with
      | nil => exact absurd rfl h2
      | cons c r => exact ⟨c, r, rfl⟩
    have hlen : raw.length = raw'.length + 1 := by rw [hraw]; rfl
    rcases parse_stream gs hgs (raw ++ x) (y ++ future) q hq hb with ⟨h5, _⟩ | ⟨g, gs', k, q', h5, h6, h7, h8⟩
    · rw [h5] at h3; cases h3
    · rw [h3, hlen] at h6
      injection h6 with h9 h10
      have hk : k = raw'.length := by omega
      rw [hk, ← hlen, List.drop_left] at h8
      have hr' : x ++ y = raws ms ++ rest := by
        rw [h1] at hr
        simp only [raws, List.map_cons, List.flatten_cons, List.append_assoc] at hr
        exact List.append_cancel_left hr
      subst h5
      obtain ⟨q'', k1, k2, k3, k4⟩ := cut_stream ms gs' (fun m hm => hgs m (by simp [hm])) (x ++ y) future q' rest h7
        (by rw [← h8]; simp) h4 hr'
      refine ⟨q'', by simpa using k1, k2, ?_, ?_⟩
      · simp only [List.map_cons, List.length_cons, List.take_succ_cons, h10, k3]
      · simpa using k4

/-- C91.  A peer sends messages, of which some bytes arrive before the connection ends: then just the messages that have
arrived completely have been handled, in the order in which they were sent. -/
theorem c91_nothing_lost (w : World) (names : List Bytes) (rs : List Round) (a b : List Ev) (i : Nat) (got future : Bytes)
    (gs : List Msg) (hgs : ∀ m ∈ gs, Spec.GoodMsg m)
    (h : ((start names).run w rs).log = a ++ .disconnected i got :: b) (hs : got ++ future = (gs.map bytes).flatten) :
    ∃ ms, conn i a = some ms ∧ ms.length ≤ gs.length ∧ ms.map (·.2) = (gs.take ms.length).map received ∧
      ∀ n, ((gs.take n).map bytes).flatten <+: got → n ≤ gs.length → n ≤ ms.length := by
  obtain ⟨ms, rest, h1, h2, h3, h4⟩ := c91_history w names rs a b _ h
  obtain ⟨q', k1, k2, k3, k4⟩ := cut_stream ms gs hgs got future [] rest (.inl rfl) hs h2 h3
  refine ⟨ms, h1, k1, k3, ?_⟩
  intro n hn hle
  rcases Nat.lt_or_ge ms.length n with hlt | hge
  · exfalso
    -- the next message is not there completely
    rcases parse_stream (gs.drop ms.length) (fun m hm => hgs m (List.mem_of_mem_drop hm)) rest future q' k2 k4 with
      ⟨_, h6⟩ | ⟨_, _, k, _, _, h6, _⟩
    · obtain ⟨g, hg⟩ : ∃ g, gs[ms.length]? = some g := ⟨_, List.getElem?_eq_getElem (by omega)⟩
      have h7 := h6 g (by rw [List.head?_drop]; exact hg)
      -- lengths
      have e1 := congrArg List.length hs
      have e2 := congrArg List.length k4
      have e3 := congrArg List.length h3
      have hd : gs.drop ms.length = g :: gs.drop (ms.length + 1) := by
        obtain ⟨hl, e⟩ := List.getElem?_eq_some_iff.mp hg
        rw [← e]
        exact List.drop_eq_getElem_cons hl
      have e4 : ((gs.map bytes).flatten).length
          = (((gs.take n).map bytes).flatten).length + (((gs.drop n).map bytes).flatten).length := by
        rw [← List.length_append, ← List.flatten_append, ← List.map_append, List.take_append_drop]
      have e5 : (((gs.drop (ms.length + 1)).map bytes).flatten).length
          = ((((gs.drop (ms.length + 1)).take (n - (ms.length + 1))).map bytes).flatten).length
            + (((gs.drop n).map bytes).flatten).length := by
        have : gs.drop n = (gs.drop (ms.length + 1)).drop (n - (ms.length + 1)) := by
          rw [List.drop_drop]; congr 1; omega
        rw [this, ← List.length_append, ← List.flatten_append, ← List.map_append, List.take_append_drop]
      have e6 := hn.length_le
      rw [hd] at e2
      simp only [List.length_append, List.map_cons, List.flatten_cons] at e1 e2 h7
      omega
    · exact h4 _ _ h6
  · exact hge

end Bedrock.Peers.Props
