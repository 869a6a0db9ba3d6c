import Verif.Props.Deadline
import Verif.Props.Conn

/-!
# C93, continued: clients that wait for their answers are served; others may wait for ever
-/

namespace Bedrock.Conn.Props
open Bedrock Bedrock.Text Bedrock.Http Bedrock.Conn
open Bedrock.Buffer (Buf)
open Bedrock.Sockets (State)
open Bedrock.Peers.Props (raws)

/-! ## The head of a message that lacks its last byte is not complete -/

/-- After a line feed the next line begins, or there is a carriage return and nothing else. -/
def Tame : Bytes → Prop
  | [] => True
  | c :: t => (c = 10 → t = [13] ∨ ∃ d r, t = d :: r ∧ isEol d = false) ∧ Tame t

theorem tame_drop (x : Bytes) : ∀ {y : Bytes}, Tame (x ++ y) → Tame y := by
  induction x with
  | nil => exact fun h => h
  | cons c x ih => exact fun h => ih h.2

theorem tame_not_complete {p : Bytes} (h : Tame p) : ¬ Buffer.Spec.Complete p := by
  rintro ⟨_, head, rest, _, e | e⟩
  · rw [e, List.append_assoc] at h
    have h := (tame_drop head h).1 rfl
    rcases h with h | ⟨d, r, h, hd⟩
    · simp at h
    · injection h with h1; subst h1; revert hd; decide
  · rw [e, List.append_assoc] at h
    have h := (tame_drop head h).2.1 rfl
    rcases h with h | ⟨d, r, h, hd⟩
    · simp at h
    · injection h with h1; subst h1; revert hd; decide

theorem tame_line {l t : Bytes} (hl : ∀ c ∈ l, isEol c = false) (ht : Tame t) : Tame (l ++ t) := by
  induction l with
  | nil => exact ht
  | cons c l ih =>
    refine ⟨fun hc => ?_, ih fun d hd => hl d (by simp [hd])⟩
    have := hl c (by simp)
    rw [hc] at this; exact absurd this (by decide)

theorem tame_lines (ls : List Bytes) (h : ∀ l ∈ ls, Line l) :
    Tame (ls.flatMap (fun l => l ++ crlf) ++ [13]) ∧
      (ls = [] ∨ ∃ d r, ls.flatMap (fun l => l ++ crlf) ++ [13] = d :: r ∧ isEol d = false) := by
  induction ls with
  | nil => exact ⟨⟨fun h => absurd h (by decide), trivial⟩, .inl rfl⟩
  | cons l ls ih =>
    obtain ⟨h1, h2⟩ := ih fun x hx => h x (by simp [hx])
    have hl := h l (by simp)
    have e : (l :: ls).flatMap (fun l => l ++ crlf) ++ [13] = l ++ (13 :: 10 :: (ls.flatMap (fun l => l ++ crlf) ++ [13])) := by
      simp [crlf]
    rw [e]
    refine ⟨tame_line hl.2 ⟨fun h => absurd h (by decide), fun _ => ?_, h1⟩, .inr ?_⟩
    · rcases h2 with h2 | ⟨d, r, h2, h3⟩
      · subst h2; exact .inl rfl
      · exact .inr ⟨d, r, h2, h3⟩
    · cases hc : l with
      | nil => exact absurd hc hl.1
      | cons c t => exact ⟨c, _, rfl, hl.2 c (by simp [hc])⟩

/-- No part of a message that lacks its last byte has a complete head, unless there is content to come. -/
theorem head_short (g : Msg) (h : Spec.GoodMsg g) (hc : g.content = []) (p : Bytes) (hp : p ++ [10] = bytes g) : ¬ Head p := by
  have e : bytes g = ((g.methodLine :: headerLines g).flatMap (fun l => l ++ crlf) ++ [13]) ++ [10] := by
    unfold bytes; rw [hc]; simp [crlf]
  have e2 := List.append_cancel_right (hp.trans e)
  obtain ⟨h1, h2⟩ := tame_lines (g.methodLine :: headerLines g) (by
    intro l hl
    simp only [List.mem_cons] at hl
    rcases hl with rfl | hl
    · exact (method_line g h).1
    · exact headerLines_lines g h l hl)
  rw [← e2] at h1 h2
  rintro (hx | ⟨y, hx⟩)
  · exact tame_not_complete h1 hx
  · rcases h2 with h2 | ⟨d, r, h2, h3⟩
    · cases h2
    · rw [h2] at hx
      simp only [List.cons_append, List.nil_append, List.cons.injEq] at hx
      rw [← hx.1] at h3; revert h3; decide

/-! ## A stream of requests -/

theorem cut_stream : ∀ (ms : List (Bytes × Msg)) (gs : List Msg), (∀ m ∈ gs, Spec.GoodMsg m) →
    ∀ (got future rest : Bytes), got ++ future = (gs.map bytes).flatten → Cut ms got → got = raws ms ++ rest →
    ms.length ≤ gs.length ∧ ms = (gs.take ms.length).map (fun g => (bytes g, received g)) ∧
      rest ++ future = ((gs.drop ms.length).map bytes).flatten
  | [], gs, _, got, future, rest, hs, _, hr => by
    simp only [raws, List.map_nil, List.flatten_nil, List.nil_append] at hr
    exact ⟨by simp, rfl, by rw [← hr]; exact hs⟩
  | (raw, m) :: ms, gs, hg, got, future, rest, hs, ⟨x, y, h1, h2, h3, h4, h5⟩, hr => by
    cases gs with
    | nil =>
      simp only [List.map_nil, List.flatten_nil, List.append_eq_nil_iff] at hs
      rw [hs.1] at h1
      exact absurd (List.append_eq_nil_iff.mp h1.symm).1 h2
    | cons g gs =>
      have hgood := hg g (by simp)
      have hs' : (raw ++ x) ++ (y ++ future) = bytes g ++ (gs.map bytes).flatten := by
        rw [← List.append_assoc, List.append_assoc raw, ← h1, hs]; rfl
      have key : raw = bytes g ∧ m = received g := by
        rcases List.append_eq_append_iff.mp hs' with ⟨a, e1, e2⟩ | ⟨a, e1, e2⟩
        · by_cases ha : a = []
          · subst ha
            rw [List.append_nil] at e1
            have hp := parse_msg g hgood [] [] (.inl rfl)
            simp only [List.append_nil, List.nil_append, List.length_nil, Nat.zero_add] at hp
            rw [e1, ] at hp
            rw [h4] at hp
            injection hp with k1 k2
            refine ⟨?_, k2⟩
            have hx : x = [] := by
              have := congrArg List.length e1
              simp only [List.length_append] at this k1
              exact List.length_eq_zero_iff.mp (by omega)
            rw [e1, hx, List.append_nil]
          · rcases parse_short g hgood [] (raw ++ x) a (.inl rfl) (by simpa using e1.symm) ha with hp | ⟨ha2, hc, _⟩
            · rw [hp] at h4; cases h4
            · subst ha2
              exact absurd h3 (head_short g hgood hc _ e1.symm)
        · have hp := parse_msg g hgood [] a (.inl rfl)
          simp only [List.nil_append, List.length_nil, Nat.zero_add] at hp
          rw [← e1, h4] at hp
          injection hp with k1 k2
          exact ⟨(List.append_inj e1 k1).1, k2⟩
      have hs2 : (x ++ y) ++ future = (gs.map bytes).flatten := by
        have : raw ++ ((x ++ y) ++ future) = bytes g ++ (gs.map bytes).flatten := by
          rw [← List.append_assoc, ← h1, hs]; rfl
        rw [key.1] at this
        exact List.append_cancel_left this
      have hr2 : x ++ y = raws ms ++ rest := by
        rw [h1] at hr
        simp only [raws, List.map_cons, List.flatten_cons, List.append_assoc] at hr
        have := List.append_cancel_left hr
        simpa [raws] using this
      obtain ⟨k1, k2, k3⟩ := cut_stream ms gs (fun m hm => hg m (by simp [hm])) (x ++ y) future rest hs2 h5 hr2
      refine ⟨by simpa using k1, ?_, by simpa using k3⟩
      simp only [List.length_cons, List.take_succ_cons, List.map_cons]
      rw [← k2, key.1, key.2]

/-- C93.  When a client sends requests, the requests taken are its first ones, in order, each once, and none before its last
byte has arrived. -/
theorem c93_stream (p : Port) (ss : List Step) (gs : List Msg) (hgs : ∀ g ∈ gs, Spec.GoodMsg g) (future : Bytes)
    (h : (({} : Conn).run p ss).got ++ future = (gs.map bytes).flatten) :
    ∃ n, n ≤ gs.length ∧ takes (({} : Conn).run p ss).log = (gs.take n).map (fun g => (bytes g, received g)) ∧
      (({} : Conn).run p ss).recv.view ++ future = ((gs.drop n).map bytes).flatten := by
  have hi := (run_inv p ss start_inv').1
  exact ⟨_, cut_stream _ gs hgs _ future _ h hi.cut hi.rest⟩

/-! ## One request for each read -/

theorem takes_append (a b : List Ev) : takes (a ++ b) = takes a ++ takes b := List.filterMap_append ..

theorem takes_none {new : List Ev} (h : ∀ e ∈ new, takes [e] = []) : takes new = [] := by
  induction new with
  | nil => rfl
  | cons e new ih =>
    have := takes_append [e] new
    rw [List.singleton_append] at this
    rw [this, h e (by simp), ih fun x hx => h x (by simp [hx])]; rfl

theorem takes_answer (c : Conn) (k : Nat) (m : Msg) (r : Bool) (b : Bytes) (n : Nat) :
    takes (c.answer k m r b n).log = takes c.log := by
  obtain ⟨new, e, hn⟩ := answer_log c k m r b n
  rw [e, takes_append, takes_none (new := new), List.append_nil]
  intro e' he
  rcases hn e' he with rfl | rfl <;> rfl

theorem takes_send (c : Conn) (k : Nat) (b : Bytes) (n : Nat) : takes (c.send k b n).log = takes c.log := by
  rcases send_log c k b n with e | e <;> rw [e]
  rw [takes_append]; simp [takes]

theorem takes_shut (c : Conn) (to : State) : takes (c.shut to).log = takes c.log := by
  show takes (c.log ++ [.shut]) = _
  rw [takes_append]; simp [takes]

theorem takes_start (c : Conn) (e : Env) (k : Nat) (m : Msg) (s : Bool) : takes (c.start e k m s).log = takes c.log := by
  unfold Conn.start
  split
  · show takes (c.log ++ [_]) = _
    rw [takes_append]; simp [takes]
  · split <;> rfl

theorem takes_again (c : Conn) : takes c.again.log = takes c.log := rfl

theorem takes_handle (c : Conn) (p : Port) (e : Env) (k : Nat) (m : Msg) : takes (c.handle p e k m).log = takes c.log := by
  unfold Conn.handle
  dsimp only
  repeat' split
  all_goals simp only [takes_again, takes_answer, takes_start, takes_shut, takes_send]

theorem takes_look (c : Conn) (p : Port) (e : Env) :
    takes (c.look p e).log = takes c.log ∨ ∃ x, takes (c.look p e).log = takes c.log ++ [x] := by
  unfold Conn.look
  dsimp only
  split
  · split
    · split
      · exact .inl rfl
      · split
        · exact .inl rfl
        · right
          split
          · exact ⟨_, takes_append ..⟩
          · rw [takes_handle]; exact ⟨_, takes_append ..⟩
    · exact .inl rfl
    · exact .inl rfl
    · exact .inl rfl
  · exact .inl rfl

/-- Is this step one in which something is read? -/
def isRead : Step → Bool
  | .ready _ true _ => true
  | _ => false

theorem takes_step (p : Port) (c : Conn) (s : Step) :
    takes (c.step p s).log = takes c.log ∨ (isRead s = true ∧ ∃ x, takes (c.step p s).log = takes c.log ++ [x]) := by
  have hw : ∀ (c : Conn) w, takes (c.wake w).log = takes c.log := by
    intro c w; unfold Conn.wake; split <;> rfl
  unfold Conn.step
  cases s with
  | timeout r => left; dsimp only; split <;> simp only [takes_again, takes_shut]
  | pollError => left; dsimp only; split <;> simp only [takes_again, takes_shut]
  | ready b alive e =>
    dsimp only
    split
    · split
      · rename_i ha
        subst ha
        split
        · rcases takes_look { c with recv := c.recv.append e.full b, got := c.got ++ b } p e with h | h
          · exact .inl h
          · exact .inr ⟨rfl, h⟩
        · exact .inl rfl
      · left; simp only [takes_again, takes_shut]
    · exact .inl rfl
  | reply b n r =>
    left
    dsimp only
    split
    · split
      · exact takes_answer ..
      · rfl
    · rfl
  | gone =>
    left
    dsimp only
    split
    · split
      · rfl
      · rw [hw]; show takes (c.log ++ [_]) = _; rw [takes_append]; simp [takes]
    · rfl
  | returned =>
    left
    dsimp only
    split
    · rw [hw]
    · rfl
  | check hup late =>
    left
    dsimp only
    split
    · split
      · show takes (c.log ++ [_]) = _; rw [takes_append]; simp [takes]
      · rfl
    · rfl

/-- C93, limits: not more requests are taken than times something is read. -/
theorem c93_one_per_read (p : Port) (ss : List Step) :
    (takes (({} : Conn).run p ss).log).length ≤ (ss.filter isRead).length := by
  have key : ∀ (ss : List Step) (c : Conn), (takes (c.run p ss).log).length ≤ (takes c.log).length + (ss.filter isRead).length := by
    intro ss
    induction ss with
    | nil => intro c; exact Nat.le_refl _
    | cons s ss ih =>
      intro c
      have h := ih (c.step p s)
      have e : c.run p (s :: ss) = (c.step p s).run p ss := rfl
      rw [e]
      rcases takes_step p c s with h1 | ⟨hr, x, h1⟩
      · rw [h1] at h
        by_cases hs : isRead s = true
        · rw [List.filter_cons_of_pos hs, List.length_cons]; omega
        · rw [List.filter_cons_of_neg hs]; exact h
      · rw [h1, List.length_append] at h
        rw [List.filter_cons_of_pos hr]
        simp only [List.length_cons, List.length_nil] at h ⊢
        omega
  have := key ss {}
  simpa [takes] using this

/-! ## A client that waits for each answer -/

theorem complete_bytes (g : Msg) (rest : Bytes) (h : Spec.GoodMsg g) : Buffer.Spec.Complete (bytes g ++ rest) := by
  have e : bytes g = (g.methodLine ++ crlf ++
      (((sent g.table).map (fun e => entryLine e.1 e.2)).flatMap (fun l => l ++ crlf) ++
        entryLine sContentLength (natDec g.content.length))) ++ [13, 10, 13, 10] ++ g.content := by
    unfold bytes headerLines
    simp [crlf]
  have hne : g.methodLine ≠ [] := h.method.nonempty
  refine ⟨?_, g.methodLine ++ crlf ++
      (((sent g.table).map (fun e => entryLine e.1 e.2)).flatMap (fun l => l ++ crlf) ++
        entryLine sContentLength (natDec g.content.length)), g.content ++ rest, ?_, .inr (by rw [e]; simp only [List.append_assoc])⟩
  · rw [e]; simp only [List.length_append, List.length_cons, List.length_nil]; omega
  · intro hx; simp [hne] at hx

/-- The connection is open, its thread waits for request `k`, and nothing is in the buffer but `v`. -/
structure At (c : Conn) (k : Nat) (v : Bytes) : Prop where
  phase : c.phase = .polling
  state : c.state = .connected
  ok : Buffer.Ok c.recv
  view : c.recv.view = v
  count : c.count = k

/-- The thread waits for the command of request `k`. -/
structure Busy (c : Conn) (k : Nat) (v : Bytes) (w : Wait) : Prop where
  phase : c.phase = .waiting w
  state : c.state = .connected
  ok : Buffer.Ok c.recv
  view : c.recv.view = v
  count : c.count = k + 1

/-- A request that is answered and leaves the connection open, on this port. -/
structure Plain (p : Port) (g : Msg) (e : Env) : Prop where
  running : e.running = true
  throws : e.throws = false
  handled : e.handled = false
  threads : e.threads = true
  open_ : (p.pub && e.likely) = false
  waits : Conn.forgets (received g) e.now = false

theorem look_short {c : Conn} {k : Nat} {v a : Bytes} (h : At c k v) (g : Msg) (hg : Spec.GoodMsg g) (hp : v ++ a = bytes g) (ha : a ≠ [])
    (p : Port) (e : Env) : At (c.look p e) k v ∧ (c.look p e).log = c.log := by
  have hlook : c.look p e = ({ c with recv := c.recv.startsWithRequest.2 } : Conn).again := by
    unfold Conn.look
    dsimp only
    split
    · rename_i hq
      have hh := query_head h.ok hq
      rw [view_query h.ok]
      rw [h.view] at hh ⊢
      rcases parse_short g hg [] v a (.inl rfl) (by simpa using hp) ha with hx | ⟨ha2, hc, _⟩
      · rw [hx]
      · subst ha2; exact absurd hh (head_short g hg hc _ hp)
    · rfl
  rw [hlook]
  unfold Conn.again
  refine ⟨⟨?_, h.state, h.ok.query, ?_, h.count⟩, rfl⟩
  · simp [h.state]
  · show c.recv.startsWithRequest.2.view = v
    rw [view_query h.ok, h.view]

theorem look_full {c : Conn} {k : Nat} {rest : Bytes} (g : Msg) (hg : Spec.GoodMsg g) (h : At c k (bytes g ++ rest)) (p : Port) (e : Env) :
    ∃ b, Buffer.Ok b ∧ b.view = rest ∧ c.look p e =
      (({ c with recv := b, count := k + 1 } : Conn).add (.taken (bytes g) (received g))).handle p e k (Conn.mark p e (received g)) := by
  have hq : c.recv.startsWithRequest.1 = true := by
    rw [Buffer.startsWith_complete c.recv h.ok, h.view]; exact .inl (complete_bytes g rest hg)
  have hp := parse_msg g hg [] rest (.inl rfl)
  simp only [List.nil_append, List.length_nil, Nat.zero_add] at hp
  have hne : (bytes g).length ≠ 0 := by
    have : g.methodLine ≠ [] := hg.method.nonempty
    unfold bytes; cases hm : g.methodLine with
    | nil => exact absurd hm this
    | cons c t => simp
  have hv : c.recv.startsWithRequest.2.view = bytes g ++ rest := by rw [view_query h.ok, h.view]
  obtain ⟨b, hb, hbv⟩ := consume_some (b := c.recv.startsWithRequest.2) h.ok.query (k := (bytes g).length) (by rw [hv]; simp)
  refine ⟨b, Buffer.Ok.consume hb, by rw [hbv, hv]; simp, ?_⟩
  unfold Conn.look
  dsimp only
  rw [if_pos hq, hv, hp]
  dsimp only
  rw [hb]
  dsimp only
  rw [if_neg hne]
  have hml : (Conn.mark p e (received g)).methodLine ≠ [] := by
    have : g.methodLine ≠ [] := hg.method.nonempty
    rcases mark_cases p e (received g) with hm | hm <;> rw [hm] <;> exact this
  rw [if_neg (fun hx => hml hx.1), h.count]
  simp [Conn.add]

theorem take_busy {c : Conn} {k : Nat} {rest : Bytes} (g : Msg) (hg : Spec.GoodMsg g) (h : At c k (bytes g ++ rest)) (p : Port) (e : Env)
    (he : Plain p g e) :
    Busy (c.look p e) k rest { m := received g, socket := true } ∧
      (c.look p e).log = c.log ++ [.taken (bytes g) (received g), .started k (received g) true] := by
  obtain ⟨b, hb, hv, hl⟩ := look_full g hg h p e
  rw [hl]
  have hm : Conn.mark p e (received g) = received g := by unfold Conn.mark; rw [he.open_]; rfl
  rw [hm]
  unfold Conn.handle Conn.start
  rw [he.waits, he.throws, he.handled, he.running, he.threads]
  simp only [Bool.false_eq_true, if_false, Bool.not_true, Bool.and_false, if_true, Conn.add]
  exact ⟨⟨rfl, h.state, hb, hv, rfl⟩, by simp⟩

/-- Reading some bytes while waiting for a request. -/
theorem step_ready {c : Conn} {k : Nat} {v : Bytes} (h : At c k v) (p : Port) (b : Bytes) (e : Env) :
    ∃ c', At c' k (v ++ b) ∧ c'.log = c.log ∧ c.step p (.ready b true e) = c'.look p e := by
  refine ⟨{ c with recv := c.recv.append e.full b, got := c.got ++ b }, ⟨h.phase, h.state, h.ok.append _ _, ?_, h.count⟩, rfl, ?_⟩
  · show (c.recv.append e.full b).view = _
    rw [view_append h.ok, h.view]
  · unfold Conn.step
    dsimp only
    rw [if_pos h.phase, if_pos rfl, if_pos h.state]

theorem run_append (p : Port) (c : Conn) (a b : List Step) : c.run p (a ++ b) = (c.run p a).run p b := by
  unfold Conn.run; rw [List.foldl_append]

theorem run_pause {c : Conn} (p : Port) (n : Nat) : c.run p (List.replicate n (.timeout true)) = c := by
  induction n with
  | zero => rfl
  | succ n ih =>
    rw [List.replicate_succ]
    show (c.step p (.timeout true)).run p _ = c
    have : c.step p (.timeout true) = c := by unfold Conn.step; simp
    rw [this]; exact ih

/-- A request arrives in pieces; before each the client pauses for some seconds. -/
def arrive (cs : List (Nat × Bytes × Env)) : List Step :=
  cs.flatMap fun x => List.replicate x.1 (.timeout true) ++ [.ready x.2.1 true x.2.2]

theorem arrive_run (g : Msg) (hg : Spec.GoodMsg g) (p : Port) : ∀ (cs : List (Nat × Bytes × Env)) (c : Conn) (k : Nat) (v : Bytes),
    At c k v → v ++ (cs.map (·.2.1)).flatten = bytes g → cs ≠ [] → (∀ x ∈ cs, x.2.1 ≠ [] ∧ Plain p g x.2.2) →
    Busy (c.run p (arrive cs)) k [] { m := received g, socket := true } ∧
      (c.run p (arrive cs)).log = c.log ++ [.taken (bytes g) (received g), .started k (received g) true] := by
  intro cs
  induction cs with
  | nil => intro c k v _ _ hne; exact absurd rfl hne
  | cons x cs ih =>
    intro c k v h hb _ hx
    have e1 : c.run p (arrive (x :: cs)) = (c.step p (.ready x.2.1 true x.2.2)).run p (arrive cs) := by
      show c.run p ((List.replicate x.1 _ ++ [_]) ++ arrive cs) = _
      rw [run_append, run_append, run_pause]; rfl
    obtain ⟨c', h', hlog, e2⟩ := step_ready h p x.2.1 x.2.2
    rw [e1, e2]
    simp only [List.map_cons, List.flatten_cons] at hb
    by_cases hcs : cs = []
    · subst hcs
      simp only [List.map_nil, List.flatten_nil, List.append_nil] at hb
      rw [hb] at h'
      have := take_busy (rest := []) g hg (by simpa using h') p x.2.2 (hx x (by simp)).2
      rw [hlog] at this
      exact this
    · have hne : (cs.map (·.2.1)).flatten ≠ [] := by
        cases cs with
        | nil => exact absurd rfl hcs
        | cons y ys =>
          have := (hx y (by simp)).1
          simp [this]
      obtain ⟨h2, hl2⟩ := look_short h' g hg (a := (cs.map (·.2.1)).flatten) (by rw [List.append_assoc]; exact hb) hne p x.2.2
      have := ih (c'.look p x.2.2) k (v ++ x.2.1) h2 (by rw [List.append_assoc]; exact hb) hcs (fun y hy => hx y (by simp [hy]))
      rw [hl2, hlog] at this
      exact this

/-- A command runs for some seconds, is answered, and ends. -/
def finish (checks : Nat) (b : Bytes) (n : Nat) : List Step :=
  List.replicate checks (.check false false) ++ [.reply b n true, .gone, .returned]

theorem finish_run {c : Conn} {k : Nat} {v : Bytes} {m : Msg} (h : Busy c k v { m, socket := true })
    (hm : sIEquals (m.table.get (str "Connection")) (str "close") = false) (p : Port) (checks : Nat) (b : Bytes) (n : Nat) :
    At (c.run p (finish checks b n)) (k + 1) v ∧ (c.run p (finish checks b n)).log = c.log ++ [.reply k b, .gone k] := by
  have hcheck : ∀ j, c.run p (List.replicate j (.check false false)) = c := by
    intro j
    induction j with
    | zero => rfl
    | succ j ih =>
      rw [List.replicate_succ]
      show (c.step p (.check false false)).run p _ = c
      have : c.step p (.check false false) = c := by unfold Conn.step; dsimp only; rw [h.phase]; simp
      rw [this]; exact ih
  unfold finish
  rw [run_append, hcheck]
  have e1 : c.step p (.reply b n true) = { (c.send k b n) with phase := .waiting { m, socket := true, replied := true } } := by
    unfold Conn.step
    dsimp only
    rw [h.phase]
    simp [Conn.answer, h.count, hm]
  have e2 : c.run p [.reply b n true, .gone, .returned] = ((c.step p (.reply b n true)).step p .gone).step p .returned := rfl
  rw [e2, e1]
  have hs : c.state.sendable = true := by rw [h.state]; rfl
  unfold Conn.send
  rw [if_pos hs]
  simp only [Conn.step, Conn.wake, Conn.add, Conn.again, h.state, h.count, Nat.add_sub_cancel, Bool.and_false, Bool.false_eq_true, if_false,
    Bool.and_true, Bool.true_or, if_true]
  exact ⟨⟨by simp, rfl, h.ok, h.view, rfl⟩, by simp⟩

/-- A request, how it arrives, and what is done with it. -/
structure Item where
  g : Msg
  pieces : List (Nat × Bytes × Env)
  checks : Nat
  answer : Bytes
  takes : Nat

def Item.steps (it : Item) : List Step := arrive it.pieces ++ finish it.checks it.answer it.takes

/-- What is seen of it. -/
def Item.events (it : Item) (k : Nat) : List Ev :=
  [.taken (bytes it.g) (received it.g), .started k (received it.g) true, .reply k it.answer, .gone k]

structure Item.Fine (p : Port) (it : Item) : Prop where
  good : Spec.GoodMsg it.g
  whole : (it.pieces.map (·.2.1)).flatten = bytes it.g
  plain : ∀ x ∈ it.pieces, x.2.1 ≠ [] ∧ Plain p it.g x.2.2
  keeps : sIEquals ((received it.g).table.get (str "Connection")) (str "close") = false

theorem serve_run (p : Port) : ∀ (its : List Item) (c : Conn) (k : Nat), (∀ it ∈ its, it.Fine p) → At c k [] →
    At (c.run p (its.flatMap Item.steps)) (k + its.length) [] ∧
      (c.run p (its.flatMap Item.steps)).log = c.log ++ (its.mapIdx (fun i it => it.events (k + i))).flatten := by
  intro its
  induction its with
  | nil => intro c k _ h; exact ⟨h, by simp [Conn.run]⟩
  | cons it its ih =>
    intro c k hf h
    have hit := hf it (by simp)
    have hne : it.pieces ≠ [] := by
      intro hx
      have := hit.whole
      rw [hx] at this
      have hml : it.g.methodLine ≠ [] := hit.good.method.nonempty
      simp [bytes, hml] at this
    have h1 := arrive_run it.g hit.good p it.pieces c k [] h (by simpa using hit.whole) hne hit.plain
    have h2 := finish_run h1.1 hit.keeps p it.checks it.answer it.takes
    have e : c.run p ((it :: its).flatMap Item.steps) =
        ((c.run p (arrive it.pieces)).run p (finish it.checks it.answer it.takes)).run p (its.flatMap Item.steps) := by
      rw [List.flatMap_cons, run_append]
      unfold Item.steps
      rw [run_append]
    obtain ⟨h3, h4⟩ := ih _ (k + 1) (fun x hx => hf x (by simp [hx])) h2.1
    rw [e]
    refine ⟨by simpa [Nat.add_assoc, Nat.add_comm 1] using h3, ?_⟩
    rw [h4, h2.2, h1.2]
    simp [List.mapIdx_cons, Item.events, Nat.add_assoc, Nat.add_comm 1]

theorem at_start : At {} 0 [] := ⟨rfl, rfl, Buffer.Ok.init, rfl, rfl⟩

/-- C93.  A client that waits for each answer before it sends the next request has every request run and answered, in
order, however the requests are split into pieces, whatever pauses it makes and however long commands take; and the
connection stays open. -/
theorem c93_served (p : Port) (its : List Item) (h : ∀ it ∈ its, it.Fine p) :
    (({} : Conn).run p (its.flatMap Item.steps)).log = (its.mapIdx (fun k it => it.events k)).flatten ∧
    (({} : Conn).run p (its.flatMap Item.steps)).state = .connected := by
  obtain ⟨h1, h2⟩ := serve_run p its {} 0 h at_start
  exact ⟨by simpa using h2, h1.state⟩

/-! ## Limits -/

/-- C93, limits: of two requests sent in one go the second is not run, however long the client waits for its answer; and if
the client then closes the connection, never. -/
theorem c93_pipelined_waits (p : Port) (g₁ g₂ : Msg) (h₁ : Spec.GoodMsg g₁) (e e' : Env) (he : Plain p g₁ e)
    (hk : sIEquals ((received g₁).table.get (str "Connection")) (str "close") = false) (checks : Nat) (b : Bytes) (n seconds : Nat) :
    let c := ({} : Conn).run p (.ready (bytes g₁ ++ bytes g₂) true e :: (finish checks b n ++ List.replicate seconds (.timeout true)))
    c.phase = .polling ∧ c.recv.view = bytes g₂ ∧ takes c.log = [(bytes g₁, received g₁)] ∧
      (c.step p (.ready [] false e')).phase = .over ∧ takes (c.step p (.ready [] false e')).log = [(bytes g₁, received g₁)] := by
  obtain ⟨c', h', hlog, e2⟩ := step_ready at_start p (bytes g₁ ++ bytes g₂) e
  have h1 := take_busy (rest := bytes g₂) g₁ h₁ (by simpa using h') p e he
  have h2 := finish_run h1.1 hk p checks b n
  have hrun : ({} : Conn).run p (.ready (bytes g₁ ++ bytes g₂) true e :: (finish checks b n ++ List.replicate seconds (.timeout true))) =
      (c'.look p e).run p (finish checks b n) := by
    show (({} : Conn).step p _).run p _ = _
    rw [e2, run_append, run_pause]
  dsimp only
  rw [hrun]
  have ht : takes ((c'.look p e).run p (finish checks b n)).log = [(bytes g₁, received g₁)] := by
    rw [h2.2, h1.2, hlog]; simp [takes]
  refine ⟨h2.1.phase, h2.1.view, ht, ?_, ?_⟩
  · unfold Conn.step
    dsimp only
    rw [if_pos h2.1.phase, if_neg (by simp)]
    rfl
  · rcases takes_step p ((c'.look p e).run p (finish checks b n)) (.ready [] false e') with hx | ⟨hx, _⟩
    · rw [hx, ht]
    · cases hx

/-- C93.  A client that is silent for a second while the server shuts down is disconnected. -/
theorem c93_idle_shutdown (p : Port) (c : Conn) (h : c.phase = .polling) :
    (c.step p (.timeout false)).phase = .over ∧ (c.step p (.timeout false)).state = .closed := by
  unfold Conn.step
  dsimp only
  rw [if_pos ⟨h, rfl⟩]
  exact ⟨rfl, rfl⟩

theorem no_head {v : Bytes} (h : ∀ x ∈ v, x = 65) : ¬ Head v := by
  rintro (⟨_, head, rest, _, e | e⟩ | ⟨y, e⟩)
  · have := h 10 (by rw [e]; simp); revert this; decide
  · have := h 10 (by rw [e]; simp); revert this; decide
  · have := h 10 (by rw [← e]; simp); revert this; decide

/-- C93, limits: a client that goes on sending a byte within each second is not disconnected, even if the server is shutting
down: the thread of the connection goes on for ever. -/
theorem c93_trickle (p : Port) (es : List Env) :
    (({} : Conn).run p (es.map (fun e => .ready [65] true e))).phase = .polling ∧
    takes (({} : Conn).run p (es.map (fun e => .ready [65] true e))).log = [] := by
  have key : ∀ (es : List Env) (c : Conn) (v : Bytes), At c 0 v → (∀ x ∈ v, x = 65) → takes c.log = [] →
      (c.run p (es.map (fun e => .ready [65] true e))).phase = .polling ∧ takes (c.run p (es.map (fun e => .ready [65] true e))).log = [] := by
    intro es
    induction es with
    | nil => intro c v h _ ht; exact ⟨h.phase, ht⟩
    | cons e es ih =>
      intro c v h hv ht
      obtain ⟨c', h', hlog, e2⟩ := step_ready h p [65] e
      have hv' : ∀ x ∈ v ++ [65], x = 65 := by simpa [or_imp, forall_and] using hv
      have hlook : c'.look p e = ({ c' with recv := c'.recv.startsWithRequest.2 } : Conn).again := by
        unfold Conn.look
        dsimp only
        split
        · rename_i hq
          have hh := query_head h'.ok hq
          rw [h'.view] at hh
          exact absurd hh (no_head hv')
        · rfl
      show ((c.step p (.ready [65] true e)).run p _).phase = _ ∧ takes ((c.step p (.ready [65] true e)).run p _).log = _
      rw [e2, hlook]
      refine ih _ (v ++ [65]) ⟨?_, h'.state, h'.ok.query, ?_, h'.count⟩ hv' ?_
      · simp [Conn.again, h'.state]
      · show c'.recv.startsWithRequest.2.view = _
        rw [view_query h'.ok, h'.view]
      · show takes c'.log = []
        rw [hlog]; exact ht
  exact key es {} [] at_start (by simp) rfl

/-- C93.  If the client goes away while its command is there, or the time for shutting down is over, the command is told to
give up at the next look, at most a second later; otherwise it is not. -/
theorem c93_gives_up (p : Port) (c : Conn) (w : Wait) (hup late : Bool) (h : c.phase = .waiting w) (hs : w.socket = true)
    (hg : w.gone = false) :
    ∃ w', (c.step p (.check hup late)).phase = .waiting w' ∧ w'.abort = (w.abort || hup || late) ∧
      (c.step p (.check hup late)).log = c.log ++ (if w.abort = false ∧ (hup || late) = true then [.abort (c.count - 1)] else []) := by
  unfold Conn.step
  dsimp only
  rw [h]
  dsimp only
  rw [hs, hg]
  cases ha : w.abort <;> cases hup <;> cases late <;> simp [h, ha, Conn.add]

/-- C93.  After a request that is not waited for no other is taken from the connection. -/
theorem c93_forget_last (p : Port) (ss : List Step) (a b : List Ev) (k : Nat) (m : Msg)
    (h : (({} : Conn).run p ss).log = a ++ .started k m false :: b) : takes b = [] := by
  have h1 := (c93_started p ss a b k m false h).2.2.1
  have hshut : Ev.shut ∈ a := by
    by_cases hx : Ev.shut ∈ a
    · exact hx
    · exact absurd (h1.mpr hx) (by simp)
  refine takes_none ?_
  intro e he
  cases e with
  | taken raw m' =>
    obtain ⟨x, y, rfl⟩ := List.append_of_mem he
    have := (c93_one_at_a_time p ss (a ++ .started k m false :: x) y raw m' (by rw [h]; simp)).2
    exact absurd (by simp [hshut]) this
  | _ => rfl

/-- C93, limits: when no thread can be started for a command, the command is destroyed after the function it calls then:
undefined behaviour. -/
theorem c93_no_thread_undefined (p : Port) (g : Msg) (hg : Spec.GoodMsg g) (e : Env) (he : Plain p g { e with threads := true })
    (ht : e.threads = false) : (({} : Conn).run p [.ready (bytes g) true e]).phase = .ub := by
  obtain ⟨c', h', hlog, e2⟩ := step_ready at_start p (bytes g) e
  obtain ⟨b, hb, hv, hl⟩ := look_full (rest := []) g hg (by simpa using h') p e
  show (({} : Conn).step p (.ready (bytes g) true e)).phase = .ub
  rw [e2, hl]
  have hm : Conn.mark p e (received g) = received g := by
    have := he.open_
    dsimp only at this
    unfold Conn.mark; rw [this]; rfl
  have h1 := he.waits
  have h2 := he.throws
  have h3 := he.handled
  have h4 := he.running
  dsimp only at h1 h2 h3 h4
  rw [hm]
  unfold Conn.handle Conn.start
  rw [h1, h2, h3, h4, ht]
  simp

/-! ## Examples -/

def ask : Msg := { methodLine := str "Query", table := [(str "q", str "1")] }

theorem ask_good : Spec.GoodMsg ask where
  method := ⟨by decide +kernel, by decide +kernel, by decide +kernel, by decide +kernel⟩
  ordinary := by
    intro e he
    simp only [ask, List.mem_singleton] at he
    subst he
    exact ⟨⟨by decide +kernel, by decide +kernel, by decide +kernel, by decide +kernel, by intro c hc; revert hc; decide +kernel +revert, by decide +kernel⟩,
      by unfold Spec.sameName; decide +kernel, by unfold Spec.sameName; decide +kernel, by unfold Spec.sameName; decide +kernel⟩
  sorted := by simp [ask]
  small := by decide +kernel

theorem ask_plain (e : Env) (h1 : e.running = true) (h2 : e.throws = false) (h3 : e.handled = false) (h4 : e.threads = true)
    (h5 : e.now = 7) : Plain {} ask e :=
  ⟨h1, h2, h3, h4, rfl, by rw [h5]; decide +kernel⟩

-- a session of two requests, the first in two pieces
example : (∀ it ∈ [Item.mk ask [(2, (bytes ask).take 9, { now := 7 }), (0, (bytes ask).drop 9, { now := 7 })] 3 (str "200 OK\r\n\r\n") 10,
    Item.mk ask [(0, bytes ask, { now := 7 })] 0 (str "200 OK\r\n\r\n") 10], it.Fine {}) := by
  intro it hit
  simp only [List.mem_cons, List.not_mem_nil, or_false] at hit
  rcases hit with rfl | rfl
  · refine ⟨ask_good, by decide +kernel, ?_, by decide +kernel⟩
    intro x hx
    simp only [List.mem_cons, List.not_mem_nil, or_false] at hx
    rcases hx with rfl | rfl
    · exact ⟨by decide +kernel, ask_plain _ rfl rfl rfl rfl rfl⟩
    · exact ⟨by decide +kernel, ask_plain _ rfl rfl rfl rfl rfl⟩
  · refine ⟨ask_good, by decide +kernel, ?_, by decide +kernel⟩
    intro x hx
    simp only [List.mem_cons, List.not_mem_nil, or_false] at hx
    subst hx
    exact ⟨by decide +kernel, ask_plain _ rfl rfl rfl rfl rfl⟩

/-- C93.  A request with `Connection: forget`, or one for later, is answered at once with `202`, the connection is closed, and
the command, if one is run, has no connection.  It is run if the server is not shutting down and nothing else goes wrong. -/
theorem c93_forget (c : Conn) (p : Port) (e : Env) (k : Nat) (m : Msg) (hc : c.state = .connected)
    (hf : sIEquals (m.table.get (str "Connection")) (str "forget") = true ∨
      (0 ≤ strtoll (m.table.get (str "commandExecuteTime")) ∧ (e.now : Int) < strtoll (m.table.get (str "commandExecuteTime")))) :
    ∃ more, (c.handle p e k m).log = c.log ++ [.reply k Conn.queued, .shut] ++ more ∧ (c.handle p e k m).state = .closed ∧
      (∀ ev ∈ more, ev = .shut ∨ ev = .started k m false) ∧
      (e.running = true → e.throws = false → e.handled = false → e.threads = true → more = [.started k m false]) := by
  have hfg : Conn.forgets m e.now = true := by
    unfold Conn.forgets
    rcases hf with hf | ⟨h1, h2⟩
    · rw [hf]; rfl
    · have hr := (Deadline.Props.strtoll_range (m.table.get (str "commandExecuteTime"))).2
      have : e.now < (strtoll (m.table.get (str "commandExecuteTime")) % (2 ^ 64 : Int)).toNat := by
        rw [Int.emod_eq_of_lt h1 (by omega)]
        omega
      unfold Control.calc64
      rw [decide_eq_true this, Bool.or_true]
  have hlog : ((c.send k Conn.queued e.takes).shut .closed).log = c.log ++ [.reply k Conn.queued, .shut] := by
    unfold Conn.send
    rw [if_pos (by rw [hc]; rfl)]
    simp [Conn.shut, Conn.add]
  have hst : ((c.send k Conn.queued e.takes).shut .closed).state = .closed := rfl
  unfold Conn.handle
  rw [if_pos hfg]
  dsimp only
  generalize (c.send k Conn.queued e.takes).shut .closed = c1 at *
  by_cases hr : e.running = true
  · rw [if_pos hr]
    by_cases ht : e.throws = true
    · rw [if_pos ht]
      exact ⟨[], by simpa using hlog, hst, by simp, fun _ h => by rw [ht] at h; cases h⟩
    · rw [if_neg ht]
      by_cases hh : e.handled = true
      · rw [if_pos hh]
        exact ⟨[], by simpa [Conn.again] using hlog, hst, by simp, fun _ _ h => by rw [hh] at h; cases h⟩
      · rw [if_neg hh]
        unfold Conn.start
        by_cases hth : e.threads = true
        · rw [if_pos hth]
          exact ⟨[.started k m false], by simp [Conn.add, hlog], hst, by simp, fun _ _ _ _ => rfl⟩
        · rw [if_neg hth]
          exact ⟨[], by simpa using hlog, hst, by simp, fun _ _ _ h => absurd h hth⟩
  · rw [if_neg hr]
    exact ⟨[.shut], by simp [Conn.again, Conn.shut, Conn.add, hlog], rfl, by simp, fun h => absurd h hr⟩

/-- C93, limits: while the public port is about to be closed, `Connection: forget` is overwritten: the client has to wait. -/
theorem c93_forget_overwritten (m : Msg) (e : Env) (he : e.likely = true) (now : Nat)
    (hx : strtoll (m.table.get (str "commandExecuteTime")) = 0)
    (hk : (m.table.set (str "Connection") (str "close")).get (str "commandExecuteTime") = m.table.get (str "commandExecuteTime"))
    (hc : (m.table.set (str "Connection") (str "close")).get (str "Connection") = str "close") :
    Conn.forgets (Conn.mark { pub := true } e m) now = false := by
  unfold Conn.mark Conn.forgets Control.calc64
  rw [he]
  simp only [Bool.and_self, if_true]
  rw [hc, hk, hx]
  have : sIEquals (str "close") (str "forget") = false := by decide +kernel
  rw [this]
  simp

example : Conn.forgets (Conn.mark { pub := true } { likely := true } ⟨str "Query", [(str "Connection", str "forget")], []⟩) 0 = false := by
  decide +kernel

-- two in one go: the second waits; more bytes, of a third, set it going
example : (takes (({} : Conn).run {} [.ready (bytes ask ++ bytes ask) true {}, .reply [1] 1 true, .gone, .returned, .timeout true,
      .timeout true]).log).length = 1 ∧
    (takes (({} : Conn).run {} [.ready (bytes ask ++ bytes ask) true {}, .reply [1] 1 true, .gone, .returned, .timeout true,
      .ready [81] true {}]).log).length = 2 := by decide +kernel

-- not waited for: answered at once, the connection closed, and run
example : (({} : Conn).run {} [.ready (str "Query\r\nConnection: forget\r\n\r\n") true { takes := 1000 }, .returned]) =
    { state := .closed, phase := .over, count := 1, wire := Conn.queued, got := str "Query\r\nConnection: forget\r\n\r\n",
      log := [.taken (str "Query\r\nConnection: forget\r\n\r\n") { methodLine := str "Query", table := [(str "Connection", str "forget")] },
        .reply 0 Conn.queued, .shut, .started 0 { methodLine := str "Query", table := [(str "Connection", str "forget")] } false] } := by
  decide +kernel

-- a request that cannot be parsed ends the connection without an answer
example : (({} : Conn).run {} [.ready (str "Query\r\nContent-Length: x\r\n\r\n") true {}]).phase = .over ∧
    replies (({} : Conn).run {} [.ready (str "Query\r\nContent-Length: x\r\n\r\n") true {}]).log = [] := by decide +kernel

-- the client goes away
example : (({} : Conn).run {} [.ready (bytes ask) true {}, .check false false, .check true false, .check true false, .gone]).log.drop 2 =
    [.abort 0, .gone 0] := by decide +kernel

-- the kernel takes only part of an answer: the rest goes out with the next one
example : (({} : Conn).run {} [.ready (bytes ask) true {}, .reply [1, 2, 3] 1 true, .gone, .returned, .timeout true]).wire = [1] ∧
    (({} : Conn).run {} [.ready (bytes ask) true {}, .reply [1, 2, 3] 1 true, .gone, .returned, .ready (bytes ask) true {},
      .reply [4] 9 true]).wire = [1, 2, 3, 4] := by decide +kernel

/-- C93.  The answer to a request with `Connection: close`, and any answer given while the server is shutting down, is the last
on its connection: the connection is shut down after it, so no other request is taken from it (`c93_one_at_a_time`). -/
theorem c93_last_answer (c : Conn) (p : Port) (w : Wait) (b : Bytes) (n : Nat) (running : Bool) (hp : c.phase = .waiting w)
    (hw : w.socket = true ∧ w.replied = false ∧ w.gone = false) (hc : c.state = .connected)
    (h : running = false ∨ sIEquals (w.m.table.get (str "Connection")) (str "close") = true) :
    (c.step p (.reply b n running)).log = c.log ++ [.reply (c.count - 1) b, .shut] ∧
      (c.step p (.reply b n running)).state = .shuttingDown := by
  have hcl : (sIEquals (w.m.table.get (str "Connection")) (str "close") || !running) = true := by
    rcases h with h | h <;> simp [h]
  unfold Conn.step
  dsimp only
  rw [hp]
  dsimp only
  rw [hw.1, hw.2.1, hw.2.2]
  simp only [Bool.not_false, Bool.and_self, if_true]
  unfold Conn.answer
  dsimp only
  rw [if_pos hcl]
  unfold Conn.send
  rw [hc]
  simp [State.sendable, Conn.shut, Conn.add]

/-- C93.  Likewise for what is answered at once, status and control commands and everything the control port refuses. -/
theorem c93_last_answer_at_once (c : Conn) (p : Port) (e : Env) (k : Nat) (m : Msg) (hc : c.state = .connected)
    (hf : Conn.forgets m e.now = false) (ht : e.throws = false) (hh : e.handled = true ∨ (p.control = true ∧ e.running = false))
    (h : e.running = false ∨ sIEquals (m.table.get (str "Connection")) (str "close") = true) :
    (c.handle p e k m).log = c.log ++ [.reply k e.answer, .shut] ∧ (c.handle p e k m).state = .shuttingDown := by
  have hcl : (sIEquals (m.table.get (str "Connection")) (str "close") || !e.running) = true := by
    rcases h with h | h <;> simp [h]
  have key : (c.answer k m e.running e.answer e.takes).again.log = c.log ++ [.reply k e.answer, .shut] ∧
      (c.answer k m e.running e.answer e.takes).again.state = .shuttingDown := by
    unfold Conn.answer
    dsimp only
    rw [if_pos hcl]
    unfold Conn.send
    rw [hc]
    simp [State.sendable, Conn.shut, Conn.add, Conn.again]
  unfold Conn.handle
  rw [hf, ht]
  simp only [Bool.false_eq_true, if_false]
  rcases hh with hh | ⟨h1, h2⟩
  · rw [hh]; exact key
  · cases hx : e.handled with
    | true => exact key
    | false =>
      simp only [Bool.false_eq_true, if_false]
      rw [if_pos (by simp [h1, h2])]
      exact key

example : ((({} : Conn).run {} [.ready (bytes ask) true { now := 7 }]).step {} (.reply (str "200 OK\r\n\r\n") 10 false)).state =
    .shuttingDown := by decide +kernel

end Bedrock.Conn.Props
