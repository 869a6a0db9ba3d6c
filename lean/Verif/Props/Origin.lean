import Verif.Lemmas.Origin

/-!
# C116: what a command brings along on its way to the leader
-/

namespace Bedrock.Origin.Props
open Bedrock Bedrock.Text Bedrock.Http Bedrock.Https.Props Bedrock.Control.Props Bedrock.Json.Spec

/-- The way of a request from its client on: `a` is where it comes in. -/
def travel (gz : Bytes → Bytes) (isFloat : Bytes → Bool) (r : Msg) (a : Arrival) (os : List Op) : Option Built :=
  match build r a with
  | .cmd c => run gz isFloat c os
  | b => some b

/-- The results obtained on the way, in order. -/
def obtained : List Op → List Https.Transaction
  | [] => []
  | .obtain t :: os => t :: obtained os
  | _ :: os => obtained os

/-- The data packed last. -/
def packed (d : Bytes) : List Op → Bytes
  | [] => d
  | .pack d' :: os => packed d' os
  | _ :: os => packed d os

/-- The nodes after the first. -/
def stops : List Op → List Arrival
  | [] => []
  | .hop _ a :: os => a :: stops os
  | _ :: os => stops os

/-- Results and data that the format can carry (C22, C67). -/
def Sendable : Op → Prop
  | .obtain t => Fine t
  | .pack d => Spec.GoodValue d
  | .hop _ _ => True

/-- From another machine, and not to the private command port. -/
def Arrival.Remote (a : Arrival) : Prop := a.priv = false ∧ a.ip ≠ str "127.0.0.1"

theorem run_fit (gz : Bytes → Bytes) (isFloat : Bytes → Bool) (hF : ∀ v, isFloat v = true → Number v) (os : List Op)
    (ho : ∀ o ∈ os, Sendable o) {c : Cmd} (h : Fit c) :
    ((∃ b ∈ stops os, b.running = false ∧ early c.request b.now = true) ∧ run gz isFloat c os = some .dropped) ∨
    ∃ c', run gz isFloat c os = some (.cmd c') ∧ Fit c' ∧
      Follows { c with https := c.https ++ obtained os, data := packed c.data os } c' := by
  induction os generalizing c with
  | nil =>
    right
    refine ⟨c, rfl, h, ?_⟩
    simp only [obtained, packed, List.append_nil]
    exact .refl c
  | cons o os ih =>
    have ho' : ∀ o ∈ os, Sendable o := fun o h => ho o (List.mem_cons_of_mem _ h)
    have h0 := ho o (List.mem_cons_self ..)
    cases o with
    | obtain t =>
      have hc : Fit { c with https := c.https ++ [t] } := by
        refine { h with https := ?_ }
        intro u hu
        rcases List.mem_append.mp hu with hu | hu
        · exact h.https u hu
        · rw [List.mem_singleton.mp hu]; exact h0
      rcases ih ho' hc with ih | ⟨c', i1, i2, i3⟩
      · exact .inl ih
      · refine .inr ⟨c', i1, i2, ?_⟩
        simp only [List.append_assoc, List.singleton_append] at i3
        exact i3
    | pack d =>
      have hc : Fit { c with data := d } := { h with data := h0 }
      exact ih ho' hc
    | hop timeout a =>
      rcases hop_fit gz isFloat hF timeout a h with ⟨e, r, s⟩ | ⟨c1, s, f, fl⟩
      · left
        refine ⟨⟨a, List.mem_cons_self .., r, e⟩, ?_⟩
        unfold run
        rw [s]
      · have hr : run gz isFloat c (.hop timeout a :: os) = run gz isFloat c1 os := by
          conv => lhs; unfold run
          rw [s]
        have he : ∀ now, early c1.request now = early c.request now := fun now =>
          early_congr now (fl.headers _ (by decide +kernel) (by decide +kernel) (by decide +kernel))
            (fl.headers _ (by decide +kernel) (by decide +kernel) (by decide +kernel))
        rw [hr]
        rcases ih ho' f with ⟨⟨b, b1, b2, b3⟩, i⟩ | ⟨c', i1, i2, i3⟩
        · exact .inl ⟨⟨b, List.mem_cons_of_mem _ b1, b2, (he _).symm.trans b3⟩, i⟩
        · refine .inr ⟨c', i1, i2, ?_⟩
          refine ⟨i3.id.trans fl.id, i3.method.trans fl.method, i3.content.trans fl.content,
            fun n a b d => (i3.headers n a b d).trans (fl.headers n a b d), ?_, ?_⟩
          · exact pointwise_trans (R := Like) (fun h h' => h.trans h') (pointwise_append fl.https (pointwise_refl Like.refl _)) i3.https
          · have := i3.data
            rw [show packed c1.data os = packed c.data os by rw [fl.data]] at this
            exact this

/-- What a node makes of a request without results in its headers. -/
theorem build_fit (r : Msg) (hr : Good r) (h1 : r.table.find (str "httpsRequests") = none)
    (h2 : r.table.find (str "serializedData") = none) (a : Arrival) (hip : Spec.GoodValue a.ip) (hfr : Spec.GoodValue a.fresh) :
    (a.running = false ∧ early r a.now = true ∧ build r a = .dropped) ∨
    ∃ c, build r a = .cmd c ∧ Fit c ∧ c.https = [] ∧ c.data = [] ∧ c.request.methodLine = r.methodLine ∧
      c.request.content = r.content ∧
      (Arrival.Remote a → c.request.table.get (str "_source") = a.ip) ∧
      (¬ Arrival.Remote a → c.request.table.find (str "_source") = r.table.find (str "_source")) ∧
      ∀ n, sToLower n ≠ sToLower (str "_source") → sToLower n ≠ sToLower (str "requestID") →
        c.request.table.find n = r.table.find n := by
  by_cases hd : (early r a.now && !a.running) = true
  · left
    unfold build
    rw [if_pos hd]
    rw [Bool.and_eq_true, Bool.not_eq_true'] at hd
    exact ⟨hd.2, hd.1, rfl⟩
  · right
    have hs1 : r.table.get sHttps = [] := by
      unfold Table.get; rw [show r.table.find sHttps = none from h1]; rfl
    have hs2 : r.table.get sData = [] := by
      unfold Table.get; rw [show r.table.find sData = none from h2]; rfl
    have hg : Good (Control.build r a.ip a.priv) := by
      have key : ∀ t : Table, Good { r with table := t } →
          Good { r with table := (t.erase (str "httpsRequests")).erase (str "serializedData") } :=
        fun t h => Good.erase (Good.erase h _) _
      refine key (if (!a.priv && a.ip != Control.localhost) = true then r.table.set Control.sSource a.ip else r.table) ?_
      split
      · exact hr.set name_source.1 name_source.2 hip
      · exact hr
    have hsort : Table.Sorted (if (!a.priv && a.ip != Control.localhost) = true then r.table.set Control.sSource a.ip else r.table) := by
      split
      · exact Table.set_sorted _ _ hr.1.sorted
      · exact hr.1.sorted
    generalize hm : Control.build r a.ip a.priv = m at hg
    have hm1 : m.methodLine = r.methodLine := by rw [← hm]; rfl
    have hm2 : m.content = r.content := by rw [← hm]; rfl
    have hfn : ∀ n, sToLower n ≠ sToLower (str "_source") → m.table.find n = r.table.find n := by
      intro n hn
      rw [← hm]
      by_cases n1 : sToLower n = sToLower sHttps
      · rw [find_congr r.table n1, show r.table.find sHttps = none from h1]
        show (((if _ then _ else _ : Table).erase sHttps).erase sData).find n = none
        rw [find_erase_other _ _ _ (by rw [n1]; decide +kernel)]
        exact find_erase_same _ _ hsort n1
      · by_cases n2 : sToLower n = sToLower sData
        · rw [find_congr r.table n2, show r.table.find sData = none from h2]
          exact find_erase_same _ _ (hsort.sublist (erase_sub _ _)) n2
        · show (((if _ then _ else _ : Table).erase sHttps).erase sData).find n = _
          rw [find_erase_other _ _ _ n2, find_erase_other _ _ _ n1]
          split
          · exact find_set_other _ _ _ _ hn
          · rfl
    have hsr : Arrival.Remote a → m.table.get (str "_source") = a.ip := by
      intro h
      rw [← hm, h.1]
      exact source_build_remote r h.2
    have hsl : ¬ Arrival.Remote a → m.table.find (str "_source") = r.table.find (str "_source") := by
      intro h
      rw [← hm]
      refine build_local r ?_ (by decide +kernel) (by decide +kernel)
      by_cases hp : a.priv = true
      · exact .inl hp
      · right
        rw [Bool.not_eq_true] at hp
        exact Classical.byContradiction fun hc => h ⟨hp, hc⟩
    have hq : ∀ n, sToLower n ≠ sToLower (str "requestID") → (Timing.preprocess a.rand m.table).find n = m.table.find n :=
      fun n hn => Timing.Props.c99_request_rest _ _ _ hn
    have hg' : Good { m with table := Timing.preprocess a.rand m.table } := by
      unfold Timing.preprocess
      split
      · exact hg
      · refine hg.set name_requestID.1 name_requestID.2 ?_
        have hal : ∀ c ∈ (List.finRange 6).map (fun i => Timing.idChars.getD ((a.rand i).toNat % Timing.idChars.length) 0),
            (97 ≤ c ∧ c ≤ 122) ∨ (65 ≤ c ∧ c ≤ 90) ∨ (48 ≤ c ∧ c ≤ 57) := by
          intro c hc
          obtain ⟨i, _, rfl⟩ := List.mem_map.1 hc
          have hl : (a.rand i).toNat % Timing.idChars.length < Timing.idChars.length := Nat.mod_lt _ (by decide +kernel)
          rw [Timing.Props.getD_getElem hl]
          exact Timing.Props.idChars_alnum _ (List.getElem_mem hl)
        refine ⟨fun h => ?_, fun h => ?_, fun h => ?_⟩
        · exact absurd (hal _ h) (by decide)
        · exact absurd (hal _ (List.mem_of_mem_head? h)) (by decide)
        · exact absurd (hal _ (List.mem_of_getLast? h)) (by decide)
    refine ⟨⟨((Timing.preprocess a.rand m.table).find (str "ID")).getD a.fresh,
        { m with table := Timing.preprocess a.rand m.table }, [], [], false, !early r a.now⟩, ?_, ?_, rfl, rfl,
      hm1, hm2, ?_, ?_, ?_⟩
    · unfold build
      rw [if_neg hd]
      dsimp only
      rw [hs1, hs2, hm]
      rfl
    · refine ⟨hg', ?_, ⟨by simp, by simp, by simp⟩, by simp, rfl, ?_, ?_, ?_⟩
      · show Spec.GoodValue (((Timing.preprocess a.rand m.table).find (str "ID")).getD a.fresh)
        cases hf : (Timing.preprocess a.rand m.table).find (str "ID") with
        | none => exact hfr
        | some v =>
          obtain ⟨k, hk, _⟩ := Table.find_some_mem hf
          exact hg'.2 _ hk
      · show (Timing.preprocess a.rand m.table).find sHttps = none
        rw [hq _ (by decide +kernel), hfn _ (by decide +kernel)]; exact h1
      · show (Timing.preprocess a.rand m.table).find sData = none
        rw [hq _ (by decide +kernel), hfn _ (by decide +kernel)]; exact h2
      · obtain ⟨v, hv, _⟩ := Timing.Props.c99_request_id a.rand m.table
        show (Timing.preprocess a.rand m.table).find (str "requestID") ≠ none
        rw [hv]; simp
    · intro h
      show (Timing.preprocess a.rand m.table).get (str "_source") = _
      unfold Table.get
      rw [hq _ (by decide +kernel)]
      exact hsr h
    · intro h
      show (Timing.preprocess a.rand m.table).find (str "_source") = _
      rw [hq _ (by decide +kernel)]
      exact hsl h
    · intro n n1 n2
      show (Timing.preprocess a.rand m.table).find n = _
      rw [hq _ n2, hfn n n1]

/-- C116.  A request without results in its headers, on its way through any number of nodes: on each of them it is the same command,
with the same id, request id, method line, content and headers; `_source` has the address of its client if that is another machine, and
no other way; the results of HTTPS requests it has are those the nodes before obtained for it, all of them and in order, and
likewise the data.  (`httpsRequests` and `serializedData` are not among its headers.)  Otherwise it was answered 202 and dropped by
a node that is not running any more. -/
theorem c116_way_partial (gz : Bytes → Bytes) (isFloat : Bytes → Bool) (hF : ∀ v, isFloat v = true → Number v)
    (r : Msg) (hr : Good r) (h1 : r.table.find (str "httpsRequests") = none) (h2 : r.table.find (str "serializedData") = none)
    (a : Arrival) (hip : Spec.GoodValue a.ip) (hfr : Spec.GoodValue a.fresh) (os : List Op) (ho : ∀ o ∈ os, Sendable o) :
    (travel gz isFloat r a os = some .dropped ∧ ∃ b ∈ a :: stops os, b.running = false ∧ early r b.now = true) ∨
    ∃ c c', build r a = .cmd c ∧ travel gz isFloat r a os = some (.cmd c') ∧ c'.failed = false ∧ c'.id = c.id ∧
      c'.request.methodLine = r.methodLine ∧ c'.request.content = r.content ∧
      (Arrival.Remote a → c'.request.table.get (str "_source") = a.ip) ∧
      (¬ Arrival.Remote a → c'.request.table.find (str "_source") = r.table.find (str "_source")) ∧
      c'.request.table.find (str "requestID") = c.request.table.find (str "requestID") ∧
      (∀ n, sToLower n ∉ [str "_source", str "requestID", str "timeout", str "ID", str "Content-Length"].map sToLower →
        c'.request.table.find n = r.table.find n) ∧
      Pointwise Like (obtained os) c'.https ∧ c'.data = packed [] os := by
  rcases build_fit r hr h1 h2 a hip hfr with ⟨b1, b2, b3⟩ | ⟨c, b, f, c1, c2, c3, c4, c5, c6, c7⟩
  · left
    refine ⟨?_, a, List.mem_cons_self .., b1, b2⟩
    unfold travel
    rw [b3]
  · have ht : travel gz isFloat r a os = run gz isFloat c os := by
      unfold travel
      rw [b]
    have he : ∀ now, early c.request now = early r now := fun now =>
      early_congr now (c7 _ (by decide +kernel) (by decide +kernel)) (c7 _ (by decide +kernel) (by decide +kernel))
    rw [ht]
    rcases run_fit gz isFloat hF os ho f with ⟨⟨x, x1, x2, x3⟩, i⟩ | ⟨c', i1, i2, i3⟩
    · exact .inl ⟨i, x, List.mem_cons_of_mem _ x1, x2, (he _).symm.trans x3⟩
    · right
      have hd := i3.data
      have hh := i3.https
      rw [c2] at hd
      rw [c1, List.nil_append] at hh
      have hsrc : c'.request.table.find (str "_source") = c.request.table.find (str "_source") :=
        i3.headers _ (by decide +kernel) (by decide +kernel) (by decide +kernel)
      refine ⟨c, c', b, i1, i2.ok, i3.id, i3.method.trans c3, i3.content.trans c4, ?_, ?_, ?_, ?_, hh, hd⟩
      · intro h
        unfold Table.get at *
        rw [hsrc]; exact c5 h
      · intro h
        rw [hsrc]; exact c6 h
      · exact i3.headers _ (by decide +kernel) (by decide +kernel) (by decide +kernel)
      · intro n hn
        simp only [List.map_cons, List.map_nil, List.mem_cons, List.not_mem_nil, or_false, not_or] at hn
        rw [i3.headers n hn.2.2.1 hn.2.2.2.1 hn.2.2.2.2, c7 n hn.1 hn.2.1]

/-- C116.  Whatever a client on another machine writes into its headers, and whatever becomes of the request: a node that builds a
command from it knows where it came from. -/
theorem c116_origin (r : Msg) (a : Arrival) (h : Arrival.Remote a) {c : Cmd} (hb : build r a = .cmd c) :
    c.request.table.get (str "_source") = a.ip := by
  have key : ∀ (rand : Fin 6 → UInt64), (Timing.preprocess rand (Control.build r a.ip a.priv).table).get (str "_source") = a.ip := by
    intro rand
    unfold Table.get
    rw [Timing.Props.c99_request_rest _ _ _ (by decide +kernel), h.1]
    exact source_build_remote r h.2
  unfold build at hb
  split at hb
  · cases hb
  · dsimp only at hb
    split at hb <;> cases hb <;> exact key _

theorem like_codes {l l' : List Https.Transaction} (h : Pointwise Like l l') : l'.map (·.response) = l.map (·.response) := by
  induction h with
  | nil => rfl
  | cons h _ ih => rw [List.map_cons, List.map_cons, ih, h.2.2.2.1]

theorem codes_peeked {c : Cmd} {x : Int} {l : List Int} (h : c.https.map (·.response) = x :: l) : peeked false c = false := by
  unfold peeked
  cases hc : c.https with
  | nil => rw [hc] at h; cases h
  | cons a b => rfl

/-- C116, negation: a client on another machine can have any results it likes taken for those of HTTPS requests, by a header.  The
command is then not even peeked: it goes on to be processed with these results. -/
theorem c116_forged (gz : Bytes → Bytes) (isFloat : Bytes → Bool) (hF : ∀ v, isFloat v = true → Number v)
    (l : List Https.Transaction) (hl : ∀ t ∈ l, Fine t) :
    ∃ v, Spec.GoodValue v ∧ ∀ (r : Msg) (a : Arrival), Arrival.Remote a → a.running = true →
      r.table.find (str "httpsRequests") = some v →
      ∃ c, build r a = .cmd c ∧ c.failed = false ∧ Pointwise Like l c.https ∧ (l ≠ [] → peeked false c = false) := by
  obtain ⟨s, l', h1, h2, h3, h4, h5⟩ := round_trip gz isFloat hF l hl
  refine ⟨s, h2, fun r a _ hrun hf => ?_⟩
  have hg : r.table.get sHttps = s := by
    unfold Table.get; rw [show r.table.find sHttps = some s from hf]; rfl
  have h4' : Pointwise Like l l' :=
    pointwise_mono (fun h => ⟨h.1, h.2.1, h.2.2.1, h.2.2.2.1, SameMsg.like h.2.2.2.2.1, SameMsg.like h.2.2.2.2.2⟩) h4
  have hb : ∃ c, build r a = .cmd c ∧ c.failed = false ∧ c.https = l' := by
    unfold build
    rw [if_neg (by rw [hrun]; simp)]
    dsimp only
    rw [hg, results_of h3]
    exact ⟨_, rfl, rfl, rfl⟩
  obtain ⟨c, b1, b2, b3⟩ := hb
  refine ⟨c, b1, b2, b3 ▸ h4', fun hne => ?_⟩
  unfold peeked
  rw [b3]
  cases h4' with
  | nil => exact absurd rfl hne
  | cons _ _ => rfl

/-- C116: a command that came without results of HTTPS requests is peeked on the node it came to, and so is any that asks to be
peeked again. -/
theorem c116_peeked (r : Msg) (a : Arrival) (c : Cmd) (h : build r a = .cmd c) (hr : r.table.find (str "httpsRequests") = none)
    (b : Bool) : peeked b c = true ∧ c.failed = false ∧ c.data = r.table.get (str "serializedData") := by
  have hg : r.table.get sHttps = [] := by
    unfold Table.get; rw [show r.table.find sHttps = none from hr]; rfl
  unfold build at h
  split at h
  · cases h
  · dsimp only at h
    rw [hg, show results [] = .ok [] from rfl] at h
    cases h
    exact ⟨by cases b <;> rfl, rfl, rfl⟩

/-- C116: peeking again is not prevented by results of earlier requests. -/
theorem c116_peeked_again (c : Cmd) : peeked true c = true := rfl

/-- The results of a request whose text says that its content is "y" bytes long. -/
def unreadable : Bytes := str "[{\"fullRequest\":\"eA0KQ29udGVudC1MZW5ndGg6IHkNCg0K\"}]"

theorem unreadable_throws : results unreadable = .throws := by
  unfold results
  rw [if_neg (by decide +kernel)]
  rw [show Json.parseArray (str "null") unreadable =
    .ok [str "{\"fullRequest\":\"eA0KQ29udGVudC1MZW5ndGg6IHkNCg0K\"}"] from by decide +kernel]
  dsimp only
  unfold transactions transaction message
  rw [show Json.parseObject (str "null") (str "{\"fullRequest\":\"eA0KQ29udGVudC1MZW5ndGg6IHkNCg0K\"}") =
    .ok [(str "fullRequest", str "eA0KQ29udGVudC1MZW5ndGg6IHkNCg0K")] from by decide +kernel]
  dsimp only
  rw [parse_eq_parseF]
  decide +kernel

/-- C116: results that cannot be read make the command fail: it is answered with an error, and neither they nor the data that
came along are used. -/
theorem c116_unreadable (r : Msg) (a : Arrival) (h : a.running = true)
    (hr : r.table.find (str "httpsRequests") = some unreadable) :
    ∃ c, build r a = .cmd c ∧ c.failed = true ∧ c.https = [] ∧ c.data = [] := by
  have hg : r.table.get sHttps = unreadable := by
    unfold Table.get; rw [show r.table.find sHttps = some unreadable from hr]; rfl
  unfold build
  rw [if_neg (by rw [h]; simp)]
  dsimp only
  rw [hg, unreadable_throws]
  exact ⟨_, rfl, rfl, rfl, rfl⟩

/-- A request that ends the server: its header has a NUL, written as `\\u0000`, where the name of a member should be. -/
def deadly : Bytes := str "Anything\r\nhttpsRequests: [{\\u0000}]\r\n\r\n"

/-- C116, negation: one such request, from anywhere, fails an assertion. -/
theorem c116_ends : ∃ r, parse deadly = .ok deadly.length r ∧ ∀ a : Arrival, a.running = true → build r a = .ends := by
  refine ⟨{ methodLine := str "Anything", table := [(str "httpsRequests", [91, 123, 0, 125, 93])] }, ?_, ?_⟩
  · rw [parse_eq_parseF]; decide +kernel
  · intro a h
    unfold build
    rw [if_neg (by rw [h]; simp)]
    dsimp only
    rw [show results (Table.get sHttps [(str "httpsRequests", [91, 123, 0, 125, 93])]) = .ends from by decide +kernel]

/-- C116, negation: a request that is not to be waited for is answered 202 (successfully queued) by a node that shuts down, and
dropped, also if another node sent it. -/
theorem c116_dropped (r : Msg) (a : Arrival) (h : a.running = false)
    (hf : r.table.find (str "Connection") = some (str "forget")) : build r a = .dropped := by
  unfold build early Table.get
  rw [hf, h]
  rw [if_pos (by rw [Bool.and_eq_true]; exact ⟨by rw [Bool.or_eq_true]; left; decide +kernel, rfl⟩)]

/-- **C116** A client that asks for a time `t` is answered 202 at once, before the command runs, exactly if it also said
`forget` or `t` is later than the clock of the node; at `t` itself and later it waits for the result. -/
theorem c116_answered (r : Msg) (a : Arrival) (t : Nat) (ht : (t : Int) < 2 ^ 63) (c : Cmd)
    (hx : r.table.find (str "commandExecuteTime") = some (natDec t)) (h : build r a = .cmd c) :
    c.answered = false ↔ sIEquals (r.table.get (str "Connection")) (str "forget") = true ∨ a.now < t := by
  have he : early r a.now = true ↔ sIEquals (r.table.get (str "Connection")) (str "forget") = true ∨ a.now < t := by
    unfold early Control.calc64
    rw [show r.table.get (str "commandExecuteTime") = natDec t by unfold Table.get; rw [hx]; rfl,
      Deadline.Props.strtoll_natDec t ht, Deadline.Props.toU64_id (by omega) (by omega), Bool.or_eq_true, decide_eq_true_eq,
      Int.ofNat_lt]
  rw [← he]
  unfold build at h
  split at h
  · cases h
  · dsimp only at h
    split at h
    all_goals first | (cases h; simp) | cases h

/-- At the time asked for the client waits, a moment before it is answered at once. -/
example : ∀ now ∈ [7, 8], ∃ c, build { methodLine := str "Pay", table := [(str "commandExecuteTime", str "8")] }
    { ip := str "10.0.0.2", priv := true, now := now } = .cmd c ∧ (c.answered = true ↔ now = 8) := by
  intro now h
  simp only [List.mem_cons, List.not_mem_nil, or_false] at h
  rcases h with rfl | rfl
  · refine ⟨_, rfl, ?_⟩; decide +kernel
  · refine ⟨_, rfl, ?_⟩; decide +kernel

/-! ## Cases -/

/-- From a follower to the leader, which stands down meanwhile, and to the next; a result on the first node and one on the second. -/
def exWay : List Op :=
  [.obtain ⟨1, 2, 3, 200, Http.Props.exMsg, Http.Props.exMsg⟩, .hop 5000 { ip := str "10.0.0.2", priv := true },
   .obtain ⟨5, 6, 7, 404, Http.Props.exMsg, Http.Props.exMsg⟩, .pack (str "x=1"),
   .hop 4000 { ip := str "10.0.0.3", priv := true, fresh := str "other" }]

def exRequest : Msg := { methodLine := str "Pay", table := [(str "_source", str ""), (str "amount", str "5")], content := [0, 1] }

theorem exGood : Good Http.Props.exMsg := ⟨Http.Props.exMsg_good, by
  intro e he
  simp only [Http.Props.exMsg, List.mem_cons, List.not_mem_nil, or_false] at he
  rcases he with rfl | rfl <;> exact ⟨by decide +kernel, by decide +kernel, by decide +kernel⟩⟩

theorem exRequest_good : Good exRequest := by
  have h0 : Good { methodLine := str "Pay", table := [], content := [0, 1] } :=
    ⟨⟨⟨by decide +kernel, by decide +kernel, by decide +kernel, by decide +kernel⟩, by simp, List.Pairwise.nil, by decide⟩, by simp⟩
  have h1 := h0.set (n := str "amount") (v := str "5") (plain_name _ (by decide +kernel) (by decide +kernel))
    (by unfold Free Spec.sameName; decide +kernel) ⟨by decide +kernel, by decide +kernel, by decide +kernel⟩
  have h2 := h1.set (n := str "_source") (v := str "") name_source.1 name_source.2
    ⟨by decide +kernel, by decide +kernel, by decide +kernel⟩
  exact h2

/-- The client's empty `_source` does not help it: the third node has its address, and the results of both nodes before. -/
example : ∃ c', travel id (fun _ => false) exRequest { ip := str "99.1.2.3", priv := false, fresh := str "node1:7" } exWay = some (.cmd c') ∧
    c'.id = str "node1:7" ∧ c'.request.table.get (str "_source") = str "99.1.2.3" ∧ c'.request.table.find (str "amount") = some (str "5") ∧
    c'.https.map (·.response) = [200, 404] ∧ c'.data = str "x=1" ∧ peeked false c' = false := by
  have hw : ∀ o ∈ exWay, Sendable o := by
    intro o ho
    simp only [exWay, List.mem_cons, List.not_mem_nil, or_false] at ho
    rcases ho with rfl | rfl | rfl | rfl | rfl
    · exact ⟨by decide, exGood, exGood⟩
    · trivial
    · exact ⟨by decide, exGood, exGood⟩
    · exact ⟨by decide +kernel, by decide +kernel, by decide +kernel⟩
    · trivial
  rcases c116_way_partial id (fun _ => false) (fun _ h => nomatch h) exRequest exRequest_good (by decide +kernel) (by decide +kernel)
    { ip := str "99.1.2.3", priv := false, fresh := str "node1:7" } ⟨by decide +kernel, by decide +kernel, by decide +kernel⟩
    ⟨by decide +kernel, by decide +kernel, by decide +kernel⟩ exWay hw with ⟨_, b, hb, h, _⟩ | ⟨c, c', b, t, _, i, _, _, s, _, _, hd, hh, dd⟩
  · exfalso
    simp only [exWay, stops, List.mem_cons, List.not_mem_nil, or_false] at hb
    rcases hb with rfl | rfl | rfl <;> cases h
  · have hi : c.id = str "node1:7" := by
      unfold build at b
      rw [if_neg (by decide +kernel)] at b
      dsimp only at b
      rw [show results (Table.get sHttps exRequest.table) = .ok [] from by decide +kernel] at b
      cases b
      decide +kernel
    refine ⟨c', t, i.trans hi, s ⟨rfl, by decide +kernel⟩, ?_, ?_, dd, ?_⟩
    · rw [hd _ (by decide +kernel)]; decide +kernel
    · exact like_codes hh
    · exact codes_peeked (like_codes hh)

/-- The hypotheses of the forgery can be met. -/
example : ∃ v, ∀ (a : Arrival), Arrival.Remote a → a.running = true →
    ∃ c, build { methodLine := str "Pay", table := [(str "httpsRequests", v)] } a = .cmd c ∧ c.https.map (·.response) = [200] ∧
      peeked false c = false := by
  obtain ⟨v, _, h⟩ := c116_forged id (fun _ => false) (fun _ h => nomatch h) [⟨1, 2, 3, 200, Http.Props.exMsg, Http.Props.exMsg⟩]
    (fun t ht => by rw [List.mem_singleton.mp ht]; exact ⟨by decide, exGood, exGood⟩)
  refine ⟨v, fun a h1 h2 => ?_⟩
  obtain ⟨c, b, _, p, k⟩ := h { methodLine := str "Pay", table := [(str "httpsRequests", v)] } a h1 h2 (by
    show Table.find (str "httpsRequests") [(str "httpsRequests", v)] = some v
    unfold Table.find
    rw [keyLt_irrefl]
    rfl)
  exact ⟨c, b, like_codes p, k (by simp)⟩

/-- A result that cannot be read: the command is answered with an error. -/
example : ∃ c, build { methodLine := str "Pay", table := [(str "httpsRequests", unreadable)] }
    { ip := str "99.1.2.3", priv := false } = .cmd c ∧ c.failed = true ∧ c.https = [] ∧ c.data = [] :=
  c116_unreadable _ _ rfl (by decide +kernel)

end Bedrock.Origin.Props
