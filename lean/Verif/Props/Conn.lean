import Verif.Model.Conn
import Verif.Lemmas.Buffer
import Verif.Lemmas.Stream
import Verif.Props.Peers

/-!
# C93: requests on a connection are run one at a time, in order, and answered in order
-/

namespace Bedrock.Conn.Props
open Bedrock Bedrock.Text Bedrock.Http Bedrock.Conn
open Bedrock.Buffer (Buf)
open Bedrock.Sockets (State)
open Bedrock.Peers.Props (raws)

/-! ## What the theorems speak about -/

/-- The requests taken, with their bytes. -/
def takes (log : List Ev) : List (Bytes × Msg) := log.filterMap fun
  | .taken raw m => some (raw, m)
  | _ => none

/-- The answers handed to the socket. -/
def replies (log : List Ev) : List Bytes := log.filterMap fun
  | .reply _ b => some b
  | _ => none

/-- No command that has the socket is left. -/
def Idle (log : List Ev) : Prop := ∀ k m, .started k m true ∈ log → .gone k ∈ log

/-- A complete head is in front: something and an empty line; or the end of such a line left over. -/
def Head (b : Bytes) : Prop := Buffer.Spec.Complete b ∨ [10, 13, 10] <+: b

/-- These requests were cut off the front of these bytes, one after the other, each as the parser read it from some of the
bytes that follow, once its head was complete. -/
def Cut : List (Bytes × Msg) → Bytes → Prop
  | [], _ => True
  | (raw, m) :: ms, got => ∃ x y, got = raw ++ (x ++ y) ∧ raw ≠ [] ∧ Head (raw ++ x) ∧
      parse (raw ++ x) = .ok raw.length m ∧ Cut ms (x ++ y)

/-- The request with `Connection: close`. -/
def closing (m : Msg) : Msg := { m with table := m.table.set (str "Connection") (str "close") }

/-- What may happen after `a`. -/
def Legal (a : List Ev) : Ev → Prop
  | .taken _ _ => Idle a ∧ .shut ∉ a
  | .started k m s => k + 1 = (takes a).length ∧ (∀ m' s', .started k m' s' ∉ a) ∧ (s = true ↔ .shut ∉ a) ∧
      ∃ raw m₀, (takes a).getLast? = some (raw, m₀) ∧ (m = m₀ ∨ m = closing m₀)
  | .reply k _ => k + 1 = (takes a).length ∧ (∀ x, .reply k x ∉ a) ∧ .shut ∉ a
  | .gone k => (∃ m s, .started k m s ∈ a) ∧ .gone k ∉ a
  | .abort k => (∃ m, .started k m true ∈ a) ∧ .gone k ∉ a ∧ .abort k ∉ a
  | .shut => True

def Good (log : List Ev) : Prop := ∀ a e b, log = a ++ e :: b → Legal a e

/-! ## The invariant -/

def num : Ev → Option Nat
  | .started k _ _ => some k
  | .reply k _ => some k
  | .gone k => some k
  | .abort k => some k
  | _ => none

structure Core (c : Conn) : Prop where
  ok : Buffer.Ok c.recv
  cut : Cut (takes c.log) c.got
  rest : c.got = raws (takes c.log) ++ c.recv.view
  cnt : c.count = (takes c.log).length
  wire : c.wire ++ c.sendBuf = (replies c.log).flatten
  st : (c.state.sendable = true ↔ .shut ∉ c.log) ∧ c.state ≠ .connecting
  good : Good c.log
  bound : ∀ e ∈ c.log, ∀ k, num e = some k → k < c.count

/-- The thread and the command it waits for. -/
structure Waits (c : Conn) (w : Wait) : Prop where
  pos : 0 < c.count
  started : .started (c.count - 1) w.m w.socket ∈ c.log
  only : ∀ m s, .started (c.count - 1) m s ∈ c.log → s = w.socket
  others : ∀ k m, .started k m true ∈ c.log → k ≠ c.count - 1 → .gone k ∈ c.log
  gone : w.gone = true ↔ .gone (c.count - 1) ∈ c.log
  replied : w.socket = true → w.replied = false → (∀ x, .reply (c.count - 1) x ∉ c.log)
  abort : w.abort = false → .abort (c.count - 1) ∉ c.log

def PhaseOk (c : Conn) : Prop :=
  match c.phase with
  | .polling => c.state ≠ .closed ∧ Idle c.log
  | .waiting w => Waits c w
  | _ => True

def Inv (c : Conn) : Prop := Core c ∧ PhaseOk c

theorem good_snoc {log : List Ev} {e : Ev} (h : Good log) (hl : Legal log e) : Good (log ++ [e]) := by
  intro a e' b he
  rcases List.eq_nil_or_concat b with rfl | ⟨b', y, rfl⟩
  · have h2 := List.append_inj' he rfl
    simp only [List.cons.injEq, and_true] at h2
    rw [← h2.1, ← h2.2]; exact hl
  · rw [List.concat_eq_append, ← List.cons_append, ← List.append_assoc] at he
    have h2 := List.append_inj' he rfl
    exact h a e' b' h2.1

theorem takes_snoc (log : List Ev) (e : Ev) : takes (log ++ [e]) = takes log ++ takes [e] := List.filterMap_append ..

theorem replies_snoc (log : List Ev) (e : Ev) : replies (log ++ [e]) = replies log ++ replies [e] := List.filterMap_append ..

theorem idle_snoc {log : List Ev} {e : Ev} (h : Idle log) (he : ∀ k m, e ≠ .started k m true) : Idle (log ++ [e]) := by
  intro k m hm
  simp only [List.mem_append, List.mem_singleton] at hm ⊢
  rcases hm with hm | hm
  · exact .inl (h k m hm)
  · exact absurd hm.symm (he k m)

/-- An event that is neither a request nor an answer nor the end of the socket. -/
theorem Core.add_plain {c : Conn} (h : Core c) {e : Ev} (hl : Legal c.log e) (ht : takes [e] = []) (hr : replies [e] = [])
    (hs : e ≠ .shut) (hb : ∀ k, num e = some k → k < c.count) : Core (c.add e) := by
  unfold Conn.add
  refine ⟨h.ok, ?_, ?_, ?_, ?_, ?_, good_snoc h.good hl, ?_⟩
  · simp only [takes_snoc, ht, List.append_nil]; exact h.cut
  · simp only [takes_snoc, ht, List.append_nil]; exact h.rest
  · simp only [takes_snoc, ht, List.append_nil]; exact h.cnt
  · simp only [replies_snoc, hr, List.append_nil]; exact h.wire
  · refine ⟨?_, h.st.2⟩
    simp only [List.mem_append, List.mem_singleton, not_or]
    rw [h.st.1]
    exact ⟨fun x => ⟨x, fun y => hs y.symm⟩, fun x => x.1⟩
  · intro e' he k hk
    simp only [List.mem_append, List.mem_singleton] at he
    rcases he with he | rfl
    · exact h.bound e' he k hk
    · exact hb k hk

theorem Core.phase {c : Conn} (h : Core c) (p : Phase) : Core { c with phase := p } :=
  ⟨h.ok, h.cut, h.rest, h.cnt, h.wire, h.st, h.good, h.bound⟩

theorem Core.shut {c : Conn} (h : Core c) (to : State) (hto : to = .shuttingDown ∨ to = .closed) : Core (c.shut to) := by
  unfold Conn.shut Conn.add
  refine ⟨h.ok, ?_, ?_, ?_, ?_, ?_, good_snoc h.good trivial, ?_⟩
  · simp only [takes_snoc]; simpa [takes] using h.cut
  · simp only [takes_snoc]; simpa [takes] using h.rest
  · simp only [takes_snoc]; simpa [takes] using h.cnt
  · simp only [replies_snoc]; simpa [replies] using h.wire
  · refine ⟨?_, ?_⟩
    · rcases hto with rfl | rfl <;> simp [State.sendable]
    · rcases hto with rfl | rfl <;> simp
  · intro e' he k hk
    simp only [List.mem_append, List.mem_singleton] at he
    rcases he with he | rfl
    · exact h.bound e' he k hk
    · cases hk

theorem idle_shut {c : Conn} (h : Idle c.log) (to : State) : Idle (c.shut to).log := idle_snoc h (by simp)

theorem Core.send {c : Conn} (h : Core c) {k : Nat} {b : Bytes} {n : Nat} (hk : k + 1 = c.count)
    (hno : ∀ x, .reply k x ∉ c.log) : Core (c.send k b n) := by
  unfold Conn.send
  split
  · rename_i hs
    have hshut := h.st.1.mp hs
    have hl : Legal c.log (.reply k b) := ⟨by rw [← h.cnt]; exact hk, hno, hshut⟩
    unfold Conn.add
    refine ⟨h.ok, ?_, ?_, ?_, ?_, ?_, good_snoc h.good hl, ?_⟩
    · simp only [takes_snoc]; simpa [takes] using h.cut
    · simp only [takes_snoc]; simpa [takes] using h.rest
    · simp only [takes_snoc]; simpa [takes] using h.cnt
    · simp only [replies_snoc, List.append_assoc, List.take_append_drop]
      rw [← List.append_assoc, h.wire]
      simp [replies]
    · refine ⟨?_, h.st.2⟩
      simp only [List.mem_append, List.mem_singleton, not_or]
      rw [h.st.1]
      exact ⟨fun x => ⟨x, by simp⟩, fun x => x.1⟩
    · intro e' he j hj
      simp only [List.mem_append, List.mem_singleton] at he
      rcases he with he | rfl
      · exact h.bound e' he j hj
      · injection hj with hj; subst hj; show k < c.count; omega
  · exact h

theorem send_log (c : Conn) (k : Nat) (b : Bytes) (n : Nat) :
    (c.send k b n).log = c.log ∨ (c.send k b n).log = c.log ++ [.reply k b] := by
  unfold Conn.send; split
  · exact .inr rfl
  · exact .inl rfl

theorem send_same (c : Conn) (k : Nat) (b : Bytes) (n : Nat) :
    (c.send k b n).count = c.count ∧ (c.send k b n).state = c.state ∧ (c.send k b n).phase = c.phase := by
  unfold Conn.send; split <;> exact ⟨rfl, rfl, rfl⟩

theorem idle_send {c : Conn} (h : Idle c.log) (k : Nat) (b : Bytes) (n : Nat) : Idle (c.send k b n).log := by
  rcases send_log c k b n with e | e <;> rw [e]
  · exact h
  · exact idle_snoc h (by simp)

theorem Core.answer {c : Conn} (h : Core c) {k : Nat} {m : Msg} {r : Bool} {b : Bytes} {n : Nat} (hk : k + 1 = c.count)
    (hno : ∀ x, .reply k x ∉ c.log) : Core (c.answer k m r b n) := by
  unfold Conn.answer
  dsimp only
  split
  · exact (h.send hk hno).shut _ (.inl rfl)
  · exact h.send hk hno

/-- What an answer adds to the log. -/
theorem answer_log (c : Conn) (k : Nat) (m : Msg) (r : Bool) (b : Bytes) (n : Nat) :
    ∃ new, (c.answer k m r b n).log = c.log ++ new ∧ (∀ e ∈ new, e = .reply k b ∨ e = .shut) := by
  unfold Conn.answer
  dsimp only
  rcases send_log c k b n with e | e
  · split
    · exact ⟨[.shut], by simp [Conn.shut, Conn.add, e], by simp⟩
    · exact ⟨[], by simp [e], by simp⟩
  · split
    · exact ⟨[.reply k b, .shut], by simp [Conn.shut, Conn.add, e], by simp⟩
    · exact ⟨[.reply k b], by simp [e], by simp⟩

theorem answer_same (c : Conn) (k : Nat) (m : Msg) (r : Bool) (b : Bytes) (n : Nat) :
    (c.answer k m r b n).count = c.count ∧ (c.answer k m r b n).phase = c.phase ∧
      ((c.answer k m r b n).state = c.state ∨ (c.answer k m r b n).state = .shuttingDown) := by
  have h := send_same c k b n
  unfold Conn.answer
  dsimp only
  split
  · exact ⟨h.1, h.2.2, .inr rfl⟩
  · exact ⟨h.1, h.2.2, .inl h.2.1⟩

theorem idle_answer {c : Conn} (h : Idle c.log) (k : Nat) (m : Msg) (r : Bool) (b : Bytes) (n : Nat) :
    Idle (c.answer k m r b n).log := by
  obtain ⟨new, e, hn⟩ := answer_log c k m r b n
  rw [e]
  intro j m' hm
  simp only [List.mem_append] at hm ⊢
  rcases hm with hm | hm
  · exact .inl (h j m' hm)
  · rcases hn _ hm with x | x <;> cases x

theorem again_inv {c : Conn} (h : Core c) (hi : Idle c.log) : Inv c.again := by
  unfold Conn.again
  refine ⟨h.phase _, ?_⟩
  unfold PhaseOk
  dsimp only
  by_cases hc : c.state = .closed
  · simp [hc]
  · simp only [if_neg hc]; exact ⟨hc, hi⟩

/-! ## A request -/

/-- After a request was taken: it has number `count - 1`, and nothing has happened to it yet. -/
structure Taken (c : Conn) (raw : Bytes) (m : Msg) : Prop where
  core : Core c
  idle : Idle c.log
  pos : 0 < c.count
  last : (takes c.log).getLast? = some (raw, m)
  new : ∀ e ∈ c.log, num e ≠ some (c.count - 1)
  open_ : .shut ∉ c.log

theorem start_inv {c : Conn} {raw : Bytes} {m₀ m : Msg} (h : Core c) (hi : Idle c.log) (hp : 0 < c.count)
    (hlast : (takes c.log).getLast? = some (raw, m₀))
    (hnew : ∀ e ∈ c.log, num e = some (c.count - 1) → ∃ x, e = .reply (c.count - 1) x) (hm : m = m₀ ∨ m = closing m₀) (e : Env)
    (s : Bool) (hs : s = true ↔ .shut ∉ c.log) (hr : s = true → ∀ x, .reply (c.count - 1) x ∉ c.log) :
    Inv (c.start e (c.count - 1) m s) := by
  have hno : ∀ m' s', Ev.started (c.count - 1) m' s' ∉ c.log := by
    intro m' s' hx
    obtain ⟨x, hx⟩ := hnew _ hx rfl
    cases hx
  unfold Conn.start
  split
  · have hl : Legal c.log (.started (c.count - 1) m s) :=
      ⟨by rw [← h.cnt]; omega, hno, hs, raw, m₀, hlast, hm⟩
    refine ⟨(h.add_plain hl rfl rfl (by simp) ?_).phase _, ?_⟩
    · intro k hk; injection hk with hk; omega
    · unfold PhaseOk
      dsimp only
      refine ⟨hp, ?_, ?_, ?_, ?_, ?_, ?_⟩ <;> simp only [Conn.add, List.mem_append, List.mem_singleton]
      · exact .inr trivial
      · intro m' s' hx
        rcases hx with hx | hx
        · exact absurd hx (hno m' s')
        · injection hx
      · intro k m' hx hk
        rcases hx with hx | hx
        · exact .inl (hi k m' hx)
        · injection hx with h1; exact absurd h1 hk
      · simp only [Bool.false_eq_true, false_iff, not_or]
        refine ⟨fun hx => ?_, by simp⟩
        obtain ⟨x, hx⟩ := hnew _ hx rfl
        cases hx
      · intro hx _ x hy
        rcases hy with hy | hy
        · exact hr hx x hy
        · cases hy
      · rintro - (hx | hx)
        · obtain ⟨x, hx⟩ := hnew _ hx rfl
          cases hx
        · cases hx
  · split
    · exact ⟨h.phase _, trivial⟩
    · exact ⟨h.phase _, trivial⟩

theorem handle_inv {c : Conn} {raw : Bytes} {m₀ m : Msg} (h : Taken c raw m₀) (hm : m = m₀ ∨ m = closing m₀) (p : Port) (e : Env) :
    Inv (c.handle p e (c.count - 1) m) := by
  have hk : c.count - 1 + 1 = c.count := by have := h.pos; omega
  have hno : ∀ x, Ev.reply (c.count - 1) x ∉ c.log := fun x hx => h.new _ hx rfl
  unfold Conn.handle
  split
  · have hc := (h.core.send (b := Conn.queued) (n := e.takes) hk hno).shut .closed (.inr rfl)
    have hi := idle_shut (idle_send h.idle (c.count - 1) Conn.queued e.takes) .closed
    have hsame := send_same c (c.count - 1) Conn.queued e.takes
    dsimp only
    split
    · split
      · exact ⟨hc.phase _, trivial⟩
      · split
        · exact again_inv hc hi
        · have hcount : ((c.send (c.count - 1) Conn.queued e.takes).shut .closed).count = c.count := hsame.1
          have hlog : ((c.send (c.count - 1) Conn.queued e.takes).shut .closed).log = (c.send (c.count - 1) Conn.queued e.takes).log ++ [.shut] := rfl
          have := start_inv (raw := raw) (m₀ := m₀) (m := m) hc hi (by rw [hcount]; exact h.pos) ?_ ?_ hm e false (by simp [hlog]) (by simp)
          · rw [hcount] at this; exact this
          · rw [hlog, takes_snoc]
            rcases send_log c (c.count - 1) Conn.queued e.takes with e1 | e1 <;> rw [e1]
            · simpa [takes] using h.last
            · rw [takes_snoc]; simpa [takes] using h.last
          · rw [hcount, hlog]
            intro e' he' hn
            simp only [List.mem_append, List.mem_singleton] at he'
            rcases he' with he' | rfl
            · rcases send_log c (c.count - 1) Conn.queued e.takes with e1 | e1 <;> rw [e1] at he'
              · exact absurd hn (h.new _ he')
              · simp only [List.mem_append, List.mem_singleton] at he'
                rcases he' with he' | rfl
                · exact absurd hn (h.new _ he')
                · exact ⟨_, rfl⟩
            · cases hn
    · exact again_inv (hc.shut _ (.inr rfl)) (idle_shut hi _)
  · split
    · exact ⟨h.core.phase _, trivial⟩
    · split
      · exact again_inv (h.core.answer hk hno) (idle_answer h.idle _ _ _ _ _)
      · split
        · exact again_inv (h.core.answer hk hno) (idle_answer h.idle _ _ _ _ _)
        · exact start_inv h.core h.idle h.pos h.last (fun e' he hn => absurd hn (h.new e' he)) hm e true
            (by simp [h.open_]) (fun _ => hno)

/-! ## Cutting requests off -/

theorem cut_mono (z : Bytes) : ∀ (ms : List (Bytes × Msg)) (got : Bytes), Cut ms got → Cut ms (got ++ z)
  | [], _, _ => trivial
  | (raw, m) :: ms, got, ⟨x, y, h1, h2, h3, h4, h5⟩ => by
    refine ⟨x, y ++ z, by rw [h1]; simp, h2, h3, h4, ?_⟩
    rw [← List.append_assoc]
    exact cut_mono z ms _ h5

theorem cut_snoc (raw x : Bytes) (m : Msg) (h : raw ≠ []) (hh : Head (raw ++ x)) (hp : parse (raw ++ x) = .ok raw.length m) :
    ∀ (ms : List (Bytes × Msg)) (got : Bytes), Cut ms got → got = raws ms ++ (raw ++ x) → Cut (ms ++ [(raw, m)]) got
  | [], got, _, hg => ⟨x, [], by simpa [raws] using hg, h, hh, hp, trivial⟩
  | (r, m') :: ms, got, ⟨x', y', h1, h2, h3, h4, h5⟩, hg => by
    refine ⟨x', y', h1, h2, h3, h4, cut_snoc raw x m h hh hp ms _ h5 ?_⟩
    rw [h1] at hg
    simp only [raws, List.map_cons, List.flatten_cons, List.append_assoc] at hg
    exact List.append_cancel_left hg

theorem view_append {b : Buf} (h : Buffer.Ok b) (full : Bool) (x : Bytes) : (b.append full x).view = b.view ++ x := by
  have := Buffer.step_view b h (.append full x)
  simpa [Buf.step, Buffer.Spec.step] using this

theorem view_query {b : Buf} (h : Buffer.Ok b) : b.startsWithRequest.2.view = b.view := by
  have := Buffer.step_view b h .query
  simpa [Buf.step, Buffer.Spec.step] using this

theorem consume_view {b b' : Buf} (h : Buffer.Ok b) {k : Nat} (hc : b.consumeFront k = some b') :
    k ≤ b.view.length ∧ b'.view = b.view.drop k := by
  have := Buffer.step_view b h (.consume k)
  simp only [Buf.step, hc, Option.map_some, Buffer.Spec.step] at this
  split at this
  · rename_i hk; injection this with this; exact ⟨hk, this⟩
  · cases this

theorem consume_some {b : Buf} (h : Buffer.Ok b) {k : Nat} (hk : k ≤ b.view.length) :
    ∃ b', b.consumeFront k = some b' ∧ b'.view = b.view.drop k := by
  have := Buffer.step_view b h (.consume k)
  simp only [Buf.step, Buffer.Spec.step, if_pos hk] at this
  cases hc : b.consumeFront k with
  | none => rw [hc] at this; cases this
  | some b' => rw [hc] at this; injection this with this; exact ⟨b', rfl, this⟩

theorem query_head {b : Buf} (h : Buffer.Ok b) (hq : b.startsWithRequest.1 = true) : Head b.view := by
  rcases (Buffer.startsWith_complete b h).mp hq with x | ⟨_, _, _, x⟩
  · exact .inl x
  · exact .inr x

theorem recv_core {c : Conn} (h : Core c) {b : Buf} (hb : Buffer.Ok b) (hv : b.view = c.recv.view) : Core { c with recv := b } :=
  ⟨hb, h.cut, by rw [h.rest]; show _ = _ ++ b.view; rw [hv], h.cnt, h.wire, h.st, h.good, h.bound⟩

/-- Taking a request off the buffer. -/
theorem take_taken {c : Conn} (h : Core c) (hi : Idle c.log) (hs : c.state = .connected) (hh : Head c.recv.view) {k : Nat} {m : Msg} {b : Buf}
    (hk : k ≠ 0) (hp : parse c.recv.view = .ok k m) (hc : c.recv.consumeFront k = some b) :
    Taken (({ c with recv := b, count := c.count + 1 } : Conn).add (.taken (c.recv.view.take k) m)) (c.recv.view.take k) m := by
  have hshut : Ev.shut ∉ c.log := h.st.1.mp (by rw [hs]; rfl)
  obtain ⟨hle, hview⟩ := consume_view h.ok hc
  have hlen : (c.recv.view.take k).length = k := by rw [List.length_take]; omega
  have hta : takes (c.log ++ [.taken (c.recv.view.take k) m]) = takes c.log ++ [(c.recv.view.take k, m)] := takes_snoc ..
  unfold Conn.add
  refine ⟨⟨Buffer.Ok.consume hc, ?_, ?_, ?_, ?_, ?_, good_snoc h.good ⟨hi, hshut⟩, ?_⟩, idle_snoc hi (by simp), by simp, ?_, ?_, ?_⟩
  · dsimp only
    rw [hta]
    refine cut_snoc _ (c.recv.view.drop k) m ?_ (by rw [List.take_append_drop]; exact hh) (by rw [List.take_append_drop, hlen]; exact hp)
      _ _ h.cut (by rw [List.take_append_drop]; exact h.rest)
    intro e; rw [e] at hlen; exact hk hlen.symm
  · dsimp only
    rw [hta, hview]
    simp only [raws, List.map_append, List.flatten_append, List.map_cons, List.map_nil, List.flatten_cons, List.flatten_nil,
      List.append_nil, List.append_assoc, List.take_append_drop]
    exact h.rest
  · dsimp only; rw [hta, h.cnt]; simp
  · dsimp only; rw [replies_snoc]; simpa [replies] using h.wire
  · refine ⟨?_, h.st.2⟩
    dsimp only
    simp [hs, State.sendable, hshut]
  · intro e he j hj
    simp only [List.mem_append, List.mem_singleton] at he
    rcases he with he | rfl
    · have := h.bound e he j hj; show j < c.count + 1; omega
    · cases hj
  · dsimp only; rw [hta]; simp
  · intro e he
    simp only [List.mem_append, List.mem_singleton] at he
    rcases he with he | rfl
    · intro hn
      have := h.bound e he _ hn
      simp only [Nat.add_sub_cancel] at this
      exact Nat.lt_irrefl _ this
    · simp [num]
  · simp [hshut]

theorem mark_cases (p : Port) (e : Env) (m : Msg) : Conn.mark p e m = m ∨ Conn.mark p e m = closing m := by
  unfold Conn.mark closing; split <;> simp

theorem look_inv {c : Conn} (h : Core c) (hi : Idle c.log) (hs : c.state = .connected) (p : Port) (e : Env) : Inv (c.look p e) := by
  unfold Conn.look
  dsimp only
  have hok := h.ok.query
  have hview := view_query h.ok
  have hc := recv_core h hok hview
  split
  · rename_i hq
    have hh : Head c.recv.startsWithRequest.2.view := by rw [hview]; exact query_head h.ok hq
    split
    · rename_i k m hp
      split
      · exact ⟨hc.phase _, trivial⟩
      · rename_i b hb
        split
        · exact again_inv hc hi
        · rename_i hk
          have ht := take_taken hc hi hs hh hk hp hb
          split
          · exact again_inv ht.core ht.idle
          · exact handle_inv ht (mark_cases p e m) p e
    · exact again_inv hc hi
    · exact ⟨hc.phase _, trivial⟩
    · exact ⟨hc.phase _, trivial⟩
  · exact again_inv hc hi

/-! ## Every step -/

theorem wake_inv {c : Conn} {w : Wait} (h : Core c) (hw : Waits c w) : Inv (c.wake w) := by
  unfold Conn.wake
  split
  · rename_i hx
    simp only [Bool.and_eq_true, Bool.or_eq_true, Bool.not_eq_true'] at hx
    refine again_inv h ?_
    intro k m hm
    by_cases hk : k = c.count - 1
    · subst hk
      have hsock := hw.only m true hm
      rcases hx.1 with hg | hg
      · exact hw.gone.mp hg
      · rw [hg] at hsock; cases hsock
    · exact hw.others k m hm hk
  · exact ⟨h.phase _, ⟨hw.pos, hw.started, hw.only, hw.others, hw.gone, hw.replied, hw.abort⟩⟩

theorem step_inv {c : Conn} (h : Inv c) (p : Port) (s : Step) : Inv (c.step p s) := by
  obtain ⟨hc, hp⟩ := h
  unfold Conn.step
  cases s with
  | timeout running =>
    dsimp only
    split
    · rename_i hx
      unfold PhaseOk at hp; rw [hx.1] at hp
      exact again_inv (hc.shut _ (.inr rfl)) (idle_shut hp.2 _)
    · exact ⟨hc, hp⟩
  | pollError =>
    dsimp only
    split
    · rename_i hx
      unfold PhaseOk at hp; rw [hx] at hp
      exact again_inv (hc.shut _ (.inr rfl)) (idle_shut hp.2 _)
    · exact ⟨hc, hp⟩
  | ready b alive e =>
    dsimp only
    split
    · rename_i hx
      unfold PhaseOk at hp; rw [hx] at hp
      have hc' : Core { c with recv := c.recv.append e.full b, got := c.got ++ b } := by
        refine ⟨hc.ok.append _ _, cut_mono b _ _ hc.cut, ?_, hc.cnt, hc.wire, hc.st, hc.good, hc.bound⟩
        show c.got ++ b = _ ++ (c.recv.append e.full b).view
        rw [view_append hc.ok, ← List.append_assoc, ← hc.rest]
      split
      · split
        · rename_i hst
          exact look_inv hc' hp.2 hst p e
        · exact again_inv hc' hp.2
      · exact again_inv (hc'.shut _ (.inr rfl)) (idle_shut (c := { c with recv := c.recv.append e.full b, got := c.got ++ b }) hp.2 _)
    · exact ⟨hc, hp⟩
  | reply b n running =>
    dsimp only
    split
    · rename_i w hw
      unfold PhaseOk at hp; rw [hw] at hp
      split
      · rename_i hx
        simp only [Bool.and_eq_true, Bool.not_eq_true'] at hx
        have hpos := hp.pos
        have hk : c.count - 1 + 1 = c.count := by omega
        refine ⟨(hc.answer hk (hp.replied hx.1.1 hx.1.2)).phase _, ?_⟩
        obtain ⟨new, e, hn⟩ := answer_log c (c.count - 1) w.m running b n
        have hsame := answer_same c (c.count - 1) w.m running b n
        unfold PhaseOk
        dsimp only
        have hmem : ∀ e', e' ≠ .reply (c.count - 1) b → e' ≠ .shut → (e' ∈ (c.answer (c.count - 1) w.m running b n).log ↔ e' ∈ c.log) := by
          intro e' h1 h2
          rw [e]
          simp only [List.mem_append]
          constructor
          · rintro (x | x)
            · exact x
            · rcases hn _ x with x | x
              · exact absurd x h1
              · exact absurd x h2
          · exact .inl
        refine ⟨?_, ?_, ?_, ?_, ?_, ?_, ?_⟩ <;> dsimp only <;> rw [hsame.1]
        · exact hpos
        · rw [hmem _ (by simp) (by simp)]; exact hp.started
        · intro m s; rw [hmem _ (by simp) (by simp)]; exact hp.only m s
        · intro k m; rw [hmem _ (by simp) (by simp), hmem _ (by simp) (by simp)]; exact hp.others k m
        · rw [hmem _ (by simp) (by simp)]; exact hp.gone
        · intro _ hx; cases hx
        · rw [hmem _ (by simp) (by simp)]; exact hp.abort
      · exact ⟨hc, by unfold PhaseOk; rw [hw]; exact hp⟩
    · exact ⟨hc, hp⟩
  | gone =>
    dsimp only
    split
    · rename_i w hw
      unfold PhaseOk at hp; rw [hw] at hp
      split
      · exact ⟨hc, by unfold PhaseOk; rw [hw]; exact hp⟩
      · rename_i hx
        have hng : Ev.gone (c.count - 1) ∉ c.log := fun hy => hx (hp.gone.mpr hy)
        have hpos := hp.pos
        refine wake_inv (hc.add_plain ⟨⟨_, _, hp.started⟩, hng⟩ rfl rfl (by simp) ?_) ?_
        · intro k hk; injection hk with hk; omega
        · refine ⟨hpos, ?_, ?_, ?_, ?_, ?_, ?_⟩ <;> simp only [Conn.add, List.mem_append, List.mem_singleton]
          · exact .inl hp.started
          · rintro m s (hy | hy)
            · exact hp.only m s hy
            · cases hy
          · rintro k m (hy | hy) hk
            · exact .inl (hp.others k m hy hk)
            · cases hy
          · simp
          · rintro h1 h2 x (hy | hy)
            · exact hp.replied h1 h2 x hy
            · cases hy
          · rintro h1 (hy | hy)
            · exact hp.abort h1 hy
            · cases hy
    · exact ⟨hc, hp⟩
  | returned =>
    dsimp only
    split
    · rename_i w hw
      unfold PhaseOk at hp; rw [hw] at hp
      exact wake_inv hc ⟨hp.pos, hp.started, hp.only, hp.others, hp.gone, hp.replied, hp.abort⟩
    · exact ⟨hc, hp⟩
  | check hup late =>
    dsimp only
    split
    · rename_i w hw
      unfold PhaseOk at hp; rw [hw] at hp
      split
      · rename_i hx
        simp only [Bool.and_eq_true, Bool.not_eq_true'] at hx
        have hpos := hp.pos
        have hng : Ev.gone (c.count - 1) ∉ c.log := fun hy => by
          have := hp.gone.mpr hy
          rw [hx.1.1.2] at this; cases this
        have hst := hp.started
        rw [hx.1.1.1] at hst
        refine ⟨(hc.add_plain (e := .abort (c.count - 1)) ⟨⟨_, hst⟩, hng, hp.abort hx.1.2⟩ rfl rfl (by simp) ?_).phase _, ?_⟩
        · intro k hk; injection hk with hk; omega
        · unfold PhaseOk
          dsimp only
          refine ⟨hpos, ?_, ?_, ?_, ?_, ?_, ?_⟩ <;> simp only [Conn.add, List.mem_append, List.mem_singleton]
          · exact .inl hp.started
          · rintro m s (hy | hy)
            · exact hp.only m s hy
            · cases hy
          · rintro k m (hy | hy) hk
            · exact .inl (hp.others k m hy hk)
            · cases hy
          · rw [hp.gone]; simp
          · rintro h1 h2 x (hy | hy)
            · exact hp.replied h1 h2 x hy
            · cases hy
          · intro hy; cases hy
      · exact ⟨hc, by unfold PhaseOk; rw [hw]; exact hp⟩
    · exact ⟨hc, hp⟩

theorem start_inv' : Inv {} := by
  refine ⟨⟨Buffer.Ok.init, trivial, rfl, rfl, rfl, by simp [State.sendable], ?_, by simp⟩, by simp, by simp [Idle]⟩
  intro a e b h
  have := congrArg List.length h
  simp at this

theorem run_inv (p : Port) (ss : List Step) : ∀ {c : Conn}, Inv c → Inv (c.run p ss) := by
  induction ss with
  | nil => exact fun h => h
  | cons s ss ih => exact fun h => ih (step_inv h p s)

/-- C93.  Requests are taken off the front of the bytes received, one after the other, each once its head is complete, and
what is left is in the buffer. -/
theorem c93_in_order (p : Port) (ss : List Step) :
    Cut (takes ((({} : Conn).run p ss).log)) (({} : Conn).run p ss).got ∧
    (({} : Conn).run p ss).got = raws (takes (({} : Conn).run p ss).log) ++ (({} : Conn).run p ss).recv.view :=
  ⟨(run_inv p ss start_inv').1.cut, (run_inv p ss start_inv').1.rest⟩

/-- C93.  A request is taken only when no earlier command that has the connection is left and the connection is not shut
down. -/
theorem c93_one_at_a_time (p : Port) (ss : List Step) (a b : List Ev) (raw : Bytes) (m : Msg)
    (h : (({} : Conn).run p ss).log = a ++ .taken raw m :: b) :
    (∀ k m', .started k m' true ∈ a → .gone k ∈ a) ∧ .shut ∉ a :=
  (run_inv p ss start_inv').1.good a _ b h

/-- C93.  An answer belongs to the request taken last, is the only one to it, and is handed over before the connection is
shut down; so answers come in the order of the requests. -/
theorem c93_replies (p : Port) (ss : List Step) (a b : List Ev) (k : Nat) (x : Bytes)
    (h : (({} : Conn).run p ss).log = a ++ .reply k x :: b) :
    k + 1 = (takes a).length ∧ (∀ y, .reply k y ∉ a) ∧ .shut ∉ a :=
  (run_inv p ss start_inv').1.good a _ b h

/-- C93.  What the client is sent is the answers, one after the other, and the rest waits. -/
theorem c93_bytes (p : Port) (ss : List Step) :
    (({} : Conn).run p ss).wire ++ (({} : Conn).run p ss).sendBuf = (replies (({} : Conn).run p ss).log).flatten :=
  (run_inv p ss start_inv').1.wire

/-- C93.  A command is run for the request taken last, once; it is the request as sent, or with `Connection: close`. -/
theorem c93_started (p : Port) (ss : List Step) (a b : List Ev) (k : Nat) (m : Msg) (s : Bool)
    (h : (({} : Conn).run p ss).log = a ++ .started k m s :: b) :
    k + 1 = (takes a).length ∧ (∀ m' s', .started k m' s' ∉ a) ∧ (s = true ↔ .shut ∉ a) ∧
      ∃ raw m₀, (takes a).getLast? = some (raw, m₀) ∧ (m = m₀ ∨ m = closing m₀) :=
  (run_inv p ss start_inv').1.good a _ b h

/-- C93.  Only a command that is there and has the connection is told to give up, and only once. -/
theorem c93_abort (p : Port) (ss : List Step) (a b : List Ev) (k : Nat)
    (h : (({} : Conn).run p ss).log = a ++ .abort k :: b) :
    (∃ m, .started k m true ∈ a) ∧ .gone k ∉ a ∧ .abort k ∉ a :=
  (run_inv p ss start_inv').1.good a _ b h

end Bedrock.Conn.Props
