import Verif.Lemmas.PeerPool
import Verif.Props.HttpBody
import Verif.Model.Literal

/-! # C133: a forwarded command gets its own answer -/

namespace Bedrock.PeerPool.Props
open Bedrock Text Http Address PeerPool PeerPool.Spec

/-- **C133** Whatever a call reads as its answer is what the node at the address it was for answered to this very call, and
nothing of it is lost or changed: it is what the text of that answer says.  For every interleaving of calls, with connections kept
and used again, calls given up half-way, answers that come in pieces and connections that time out. -/
theorem c133_right_answer (gz : Bytes → Bytes) (ops : List Op) (hc : ∀ op ∈ ops, Clean op) (call : Nat) (addr : Bytes) (r : Msg)
    (h : (call, addr, r) ∈ (run gz ops).results) :
    ∃ host m b, hostOf addr = some host ∧ (call, host, m) ∈ (run gz ops).answers ∧ compose gz m = some b ∧
      parse b = .ok b.length r := by
  obtain ⟨own, fate, g⟩ := reach gz ops hc
  obtain ⟨host, m, h1, h2, h3⟩ := g.res call addr r h
  have hm := (g.ans call host m h2).2
  refine ⟨host, m, bytes m, h1, h2, compose_eq gz m hm, ?_⟩
  have := parse_msg m hm [] [] (.inl rfl)
  rw [List.nil_append, List.append_nil, List.length_nil, Nat.zero_add] at this
  rw [this, h3]

/-- **C133** A call is answered once at most. -/
theorem c133_one_answer (gz : Bytes → Bytes) (ops : List Op) (hc : ∀ op ∈ ops, Clean op) (call : Nat) (h h' : Bytes) (m m' : Msg)
    (h1 : (call, h, m) ∈ (run gz ops).answers) (h2 : (call, h', m') ∈ (run gz ops).answers) : h = h' ∧ m = m' := by
  obtain ⟨own, fate, g⟩ := reach gz ops hc
  have e1 := (g.ans call h m h1).1
  have e2 := (g.ans call h' m' h2).1
  rw [e1] at e2
  injection e2 with e3 e4
  exact ⟨e3, e4⟩

/-- **C133** No two threads work on one connection, and none that a thread works on is in a pool. -/
theorem c133_own_connection (gz : Bytes → Bytes) (ops : List Op) (hc : ∀ op ∈ ops, Clean op) (t c : Nat)
    (h : works ((run gz ops).threads t) = some c) :
    (∀ t', works ((run gz ops).threads t') = some c → t' = t) ∧
    (∀ host l, (run gz ops).pools host = some l → c ∉ l) := by
  obtain ⟨own, fate, g⟩ := reach gz ops hc
  have ho := g.held t c h
  constructor
  · intro t' h'
    have := g.held t' c h'
    rw [ho] at this; injection this with this; exact this.symm
  · intro host l hp hm
    have := g.mem host l c hp hm
    rw [ho] at this; simp at this

/-- **C133** The connection a command is sent on leads to the node it is for. -/
theorem c133_right_node (gz : Bytes → Bytes) (ops : List Op) (hc : ∀ op ∈ ops, Clean op) (t call c : Nat) (addr : Bytes)
    (h : (run gz ops).threads t = .sending call c addr) : hostOf addr = some ((run gz ops).conns c).host := by
  obtain ⟨own, fate, g⟩ := reach gz ops hc
  exact (g.sending t call c addr h).1

/-- **C133** A connection that is kept for later has no command outstanding and nothing to read but at most one line feed, leads
to the host it is kept for, and is kept once. -/
theorem c133_kept_clean (gz : Bytes → Bytes) (ops : List Op) (hc : ∀ op ∈ ops, Clean op) (host : Bytes) (l : List Nat)
    (h : (run gz ops).pools host = some l) :
    l.Nodup ∧ ∀ c ∈ l, ((run gz ops).conns c).host = host ∧ ((run gz ops).conns c).queue = [] ∧
      (((run gz ops).conns c).inbox = [] ∨ ((run gz ops).conns c).inbox = [10]) := by
  obtain ⟨own, fate, g⟩ := reach gz ops hc
  exact ⟨g.nodup host l h, fun c hm => g.pooled c host (g.mem host l c h hm)⟩

/-- **C133** Reading an answer never ends in an exception or in undefined behaviour. -/
theorem c133_never_broken (gz : Bytes → Bytes) (ops : List Op) (hc : ∀ op ∈ ops, Clean op) (t : Nat) :
    (run gz ops).threads t ≠ .broken := by
  obtain ⟨own, fate, g⟩ := reach gz ops hc
  exact g.whole t

/-- **C133** When the whole answer has come and is read, the call has it: the next read of everything ends the call. -/
theorem c133_answer_taken (gz : Bytes → Bytes) (ops : List Op) (hc : ∀ op ∈ ops, Clean op) (t call c k : Nat) (addr buf : Bytes)
    (close : Bool) (ht : (run gz ops).threads t = .receiving call c addr buf) (hq : ((run gz ops).conns c).queue = [])
    (hi : ((run gz ops).conns c).inbox ≠ []) (hk : ((run gz ops).conns c).inbox.length ≤ min (k + 1) 4096) :
    (run gz (ops ++ [.recv t k close])).threads t = .idle ∧
    ∃ r, (call, addr, r) ∈ (run gz (ops ++ [.recv t k close])).results := by
  obtain ⟨own, fate, g⟩ := reach gz ops hc
  have hr := g.receiving t call c addr buf ht
  rcases hr.2.2 with ⟨h0, _⟩ | ⟨_, m, q, hgq, hgm, he, _⟩
  · rw [hq] at h0; simp at h0
  · have hp := parse_msg m hgm q [] hgq
    rw [List.append_nil, ← he] at hp
    have : run gz (ops ++ [.recv t k close]) = step gz (run gz ops) (.recv t k close) := by
      unfold run; rw [List.foldl_append]; rfl
    rw [this]
    dsimp only [step, stepWith]
    rw [ht]
    simp only [if_neg hi, List.take_of_length_le hk, hp]
    exact ⟨upd_self _ _ _, _, List.mem_cons_self⟩

/-- **C133** A call that did well leaves its connection to the next one for the same host and port: no new one is opened. -/
theorem c133_reused (gz : Bytes → Bytes) (s : Sys) (t : Nat) (addr h : Bytes) (c : Nat) (l : List Nat) (opens : Bool)
    (hi : s.threads t = .idle) (hh : hostOf addr = some h) (hp : s.pools h = some (c :: l)) :
    (step gz s (.start t addr 0 opens)).threads t = .sending s.next c addr ∧ (step gz s (.start t addr 0 opens)).fresh = s.fresh ∧
    (step gz s (.start t addr 0 opens)).pools h = some l := by
  dsimp only [step, stepWith]
  rw [hi, hh]
  simp only [hp, Option.getD_some, List.drop_zero]
  exact ⟨upd_self _ _ _, trivial, upd_self _ _ _⟩

/-! ## Cases -/

def exMsg (m : String) : Msg := { methodLine := str m }
def exAddr : Bytes := b!"n1:8888"

theorem exGood (l : Bytes) (h : Http.Spec.GoodMethod l) : Http.Spec.GoodMsg { methodLine := l } :=
  Http.Props.goodMsg_of_method h

/-- Two calls over one connection; the answer to the first has no content and is taken with its last byte outstanding, which then
stands before the second answer. -/
def exOps : List Op :=
  [.start 0 exAddr 0 true, .sent 0 true true, .serve 0 (exMsg "200 OK"), .recv 0 27 false,
   .start 1 exAddr 0 true, .sent 1 true true, .serve 0 (exMsg "201 B"), .recv 1 99 false]

theorem run_eq : run = fun gz ops => ops.foldl (stepWith parseF gz) {} := by
  funext gz ops
  unfold run
  rw [← parse_eq_parseF]
  rfl

example : (∀ op ∈ exOps, Clean op) ∧
    (run id exOps).results.map (fun e => (e.1, e.2.2.methodLine)) = [(1, str "201 B"), (0, str "200 OK")] ∧
    (run id exOps).fresh = 1 ∧ (run id exOps).pools exAddr = some [0] ∧
    ((run id (exOps.take 4)).conns 0).inbox = [10] := by
  refine ⟨?_, ?_⟩
  · intro op h
    simp only [exOps, List.mem_cons, List.not_mem_nil, or_false] at h
    rcases h with rfl | rfl | rfl | rfl | rfl | rfl | rfl | rfl <;> try exact trivial
    · exact exGood _ ⟨by decide +kernel, by decide +kernel, by decide +kernel, by decide +kernel⟩
    · exact exGood _ ⟨by decide +kernel, by decide +kernel, by decide +kernel, by decide +kernel⟩
  · rw [run_eq]
    decide +kernel

/-- **C133** fails for a node that writes a message nobody asked for: as nothing in an answer says which command it is to, the
next command on the connection takes it for its own. -/
theorem c133_stray_message_partial :
    let ops : List Op := [.start 0 exAddr 0 true, .sent 0 true true, .serve 0 (exMsg "200 OK"), .recv 0 99 false,
      .noise 0 (str "500 Stray\r\nContent-Length: 0\r\n\r\n"), .start 0 exAddr 0 true, .sent 0 true true, .recv 0 99 false]
    (run id ops).results.map (fun e => (e.1, e.2.2.methodLine)) = [(1, str "500 Stray"), (0, str "200 OK")] ∧
    (run id ops).answers.map Prod.fst = [0] := by
  rw [run_eq]
  decide +kernel

/-- **C133** Connections are used again only if the address is a host and a port and nothing else: they are asked for under the
host and given back under the address, and if the two differ there is no pool of that name. -/
theorem c133_other_addresses_partial (gz : Bytes → Bytes) (ops : List Op) (hc : ∀ op ∈ ops, Clean op) (addr : Bytes)
    (h : hostOf addr ≠ some addr) (c : Nat) : giveBack (run gz ops).pools addr c = (run gz ops).pools := by
  obtain ⟨own, fate, g⟩ := reach gz ops hc
  unfold giveBack
  cases hp : (run gz ops).pools addr with
  | none => rfl
  | some l => exact absurd (g.key addr l hp) h

example : hostOf (b!"n1:8888/x") = some exAddr ∧ hostOf exAddr = some exAddr ∧ hostOf (b!"n1") = none := by decide +kernel

end Bedrock.PeerPool.Props
