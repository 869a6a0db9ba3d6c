import Verif.Model.Control
import Verif.Lemmas.Http
import Verif.Props.Deadline
import Verif.Props.Ports
import Verif.Props.Https
import Verif.Props.Param

/-!
# C70: who may send control commands, and what they can change
-/

namespace Bedrock.Control.Props
open Bedrock.Text Bedrock.Http

/-! ## Headers -/

theorem find_set_same (t : Table) (n v : Bytes) : (t.set n v).find n = some v := by
  induction t with
  | nil => simp [Table.set, Table.find, keyLt_irrefl]
  | cons e t ih =>
    obtain ⟨m, w⟩ := e
    rw [Table.set]
    split
    · rw [Table.find]; simp [keyLt_irrefl]
    · rename_i h1
      split
      · rename_i h2
        rw [Table.find]; simp only [h2, Bool.or_true, if_true]; exact ih
      · rename_i h2
        rw [Table.find]
        rw [Bool.not_eq_true] at h1 h2
        simp [h1, h2]

theorem find_erase_other (t : Table) (k n : Bytes) (h : sToLower n ≠ sToLower k) :
    (t.erase k).find n = t.find n := by
  induction t with
  | nil => rfl
  | cons e t ih =>
    obtain ⟨m, w⟩ := e
    rw [Table.erase]
    split
    · rw [Table.find, Table.find, ih]
    · rename_i hk
      rw [Bool.not_eq_true] at hk
      rw [key_eq_iff] at hk
      have : (keyLt n m || keyLt m n) = true := by
        cases hx : (keyLt n m || keyLt m n) with
        | true => rfl
        | false => rw [key_eq_iff] at hx; exact absurd (hx.trans hk.symm) h
      rw [Table.find, this]; rfl

theorem source_build_remote (r : Msg) {ip : Bytes} (h1 : ip ≠ localhost) :
    (build r ip false).table.get sSource = ip := by
  unfold build Table.get
  rw [if_pos (by simp [h1])]
  show (((Table.erase (str "serializedData") (Table.erase (str "httpsRequests") (r.table.set sSource ip))).find sSource).getD []) = ip
  rw [find_erase_other _ _ _ (by decide +kernel), find_erase_other _ _ _ (by decide +kernel), find_set_same]
  rfl

theorem build_local (r : Msg) {ip : Bytes} {priv : Bool} (h : priv = true ∨ ip = localhost) {n : Bytes}
    (hn : sToLower n ≠ sToLower (str "httpsRequests")) (hn' : sToLower n ≠ sToLower (str "serializedData")) :
    (build r ip priv).table.find n = r.table.find n := by
  unfold build
  rw [if_neg (by rcases h with h | h <;> simp [h])]
  show ((r.table.erase (str "httpsRequests")).erase (str "serializedData")).find n = _
  rw [find_erase_other _ _ _ hn', find_erase_other _ _ _ hn]

/-! ## Names -/

theorem ieq_rw {m a : Bytes} (h : sIEquals m a = true) (b : Bytes) : sIEquals m b = sIEquals a b := by
  unfold sIEquals at h ⊢
  rw [beq_iff_eq] at h
  rw [h]

theorem isOne_rw {m a : Bytes} (h : sIEquals m a = true) (l : List Bytes) : isOne l m = isOne l a := by
  unfold isOne
  induction l with
  | nil => rfl
  | cons x l ih => rw [List.any_cons, List.any_cons, ih, ieq_rw h]

theorem isOne_mem {l : List Bytes} {m : Bytes} (h : isOne l m = true) : ∃ a ∈ l, sIEquals m a = true := by
  unfold isOne at h; exact List.any_eq_true.mp h

theorem open_cases {m : Bytes} (h : isOne openNames m = true) :
    sIEquals m (str "SuppressCommandPort") = true ∨ sIEquals m (str "ClearCommandPort") = true ∨
    sIEquals m (str "GetCommitHash") = true ∨ sIEquals m (str "CRASH_COMMAND") = true := by
  simpa [isOne, openNames] using h

/-- What `control` does for a given command. -/
theorem control_suppress (env : Env) (c : Ctl) (r : Msg) (h : sIEquals r.methodLine (str "SuppressCommandPort") = true) :
    control env c r = ({ c with ports := c.ports.block (reasonOf r) }, some (str "200 OK")) := by
  unfold control
  simp only [ieq_rw h]
  rw [if_neg (by decide +kernel), if_pos (by decide +kernel)]

theorem control_clear (env : Env) (c : Ctl) (r : Msg) (h : sIEquals r.methodLine (str "ClearCommandPort") = true) :
    control env c r = ({ c with ports := c.ports.unblock (reasonOf r) }, some (str "200 OK")) := by
  unfold control
  simp only [ieq_rw h]
  rw [if_neg (by decide +kernel), if_neg (by decide +kernel), if_pos (by decide +kernel)]

theorem control_crash (env : Env) (c : Ctl) (r : Msg) (h : sIEquals r.methodLine (str "CRASH_COMMAND") = true) :
    control env c r = ({ c with crash := c.crash.onReport r.content }, some (str "200 OK")) := by
  unfold control
  simp only [ieq_rw h]
  rw [if_neg (by decide +kernel), if_neg (by decide +kernel), if_neg (by decide +kernel),
    if_neg (by decide +kernel), if_neg (by decide +kernel), if_neg (by decide +kernel),
    if_neg (by decide +kernel), if_neg (by decide +kernel), if_pos (by decide +kernel)]

theorem control_hash (env : Env) (c : Ctl) (r : Msg) (h : sIEquals r.methodLine (str "GetCommitHash") = true) :
    (control env c r).1 = c := by
  unfold control
  simp only [ieq_rw h]
  iterate 17 rw [if_neg (by decide +kernel)]
  rw [if_pos (by decide +kernel)]
  split
  · rfl
  · split
    · rfl
    · split
      · rfl
      · split <;> rfl

/-! ## Requests -/

structure Req where
  env : Env
  msg : Msg
  ip : Bytes
  priv : Bool

/-- Neither from this machine nor over the private command port. -/
def Req.Remote (q : Req) : Prop := q.priv = false ∧ q.ip ≠ [] ∧ q.ip ≠ str "127.0.0.1"

def step (c : Ctl) (q : Req) : Ctl := (request q.env c q.msg q.ip q.priv).1
def run (c : Ctl) (qs : List Req) : Ctl := qs.foldl step c

/-- The commands that are for administrators only. -/
def secured : List Bytes :=
  [str "BeginBackup", str "ClearCrashCommands", str "ConflictReport", str "Detach", str "Attach",
   str "SetConflictParams", str "SetConflictPageLocks", str "EnableSQLTracing", str "BlockWrites",
   str "UnblockWrites", str "SetMaxSocketThreads", str "SetBlockingQueueTimeRateLimit",
   str "ClearBlockingQueue", str "SetPriority"]

theorem secured_table : ∀ a ∈ secured, isOne statusNames a = false ∧ isOne controlNames a = true ∧
    isOne openNames a = false := by decide +kernel

/-- C70.  A request from another machine that names a command for administrators — in whatever
capitals, with whatever headers, a `_source` of its own among them — is answered with
`401 Unauthorized` and changes nothing. -/
theorem c70_remote_unauthorized (env : Env) (c : Ctl) (r : Msg) (ip : Bytes) {a : Bytes} (ha : a ∈ secured)
    (hm : sIEquals r.methodLine a = true) (h0 : ip ≠ []) (h1 : ip ≠ str "127.0.0.1") :
    request env c r ip false = (c, .control (some (str "401 Unauthorized"))) := by
  unfold request handle
  have hb : (build r ip false).methodLine = r.methodLine := rfl
  obtain ⟨t1, t2, t3⟩ := secured_table a ha
  rw [hb, isOne_rw hm, isOne_rw hm, isOne_rw hm, t1, t2, t3, source_build_remote r h1]
  simp [h0]

/-- C70.  Whatever requests other machines send, and however many: nothing changes but the reasons for
which the command port is blocked (and the ports those close) and the list of crashing commands. -/
theorem c70_remote_changes (c : Ctl) (qs : List Req) (h : ∀ q ∈ qs, q.Remote) :
    run c qs =
      { c with
          crash := (run c qs).crash
          ports := { c.ports with
            reasons := (run c qs).ports.reasons, likely := (run c qs).ports.likely
            pub := (run c qs).ports.pub, plug := (run c qs).ports.plug } } := by
  induction qs generalizing c with
  | nil => rfl
  | cons q qs ih =>
    have hs : step c q =
        { c with
          crash := (step c q).crash
          ports := { c.ports with
            reasons := (step c q).ports.reasons, likely := (step c q).ports.likely
            pub := (step c q).ports.pub, plug := (step c q).ports.plug } } := by
      obtain ⟨q1, q2, q3⟩ := h q (List.mem_cons_self ..)
      unfold step request handle
      rw [q1, source_build_remote q.msg q3]
      split
      · rfl
      · split
        · by_cases ho : isOne openNames (build q.msg q.ip false).methodLine = true
          · rw [if_pos (.inr ho)]
            rcases open_cases ho with h | h | h | h
            · rw [control_suppress _ _ _ h]
              simp only [Ports.Srv.block]
              split <;> rfl
            · rw [control_clear _ _ _ h]
              simp only [Ports.Srv.unblock]
              split <;> split <;> rfl
            · rw [control_hash _ _ _ h]
            · rw [control_crash _ _ _ h]
          · rw [if_neg (by simp [q2, ho])]
        · rfl
    have hr : run c (q :: qs) = run (step c q) qs := rfl
    rw [hr]
    have := ih (step c q) (fun q' hq => h q' (List.mem_cons_of_mem _ hq))
    rw [this]
    rw [hs]

/-- C70.  What other machines may do: block and unblock the command port, with a reason of their own,
and report a crashing command. -/
theorem c70_open_to_all (env : Env) (c : Ctl) (r : Msg) (ip : Bytes) (priv : Bool) :
    (sIEquals r.methodLine (str "SuppressCommandPort") = true →
      request env c r ip priv = ({ c with ports := c.ports.block (reasonOf (build r ip priv)) },
        .control (some (str "200 OK")))) ∧
    (sIEquals r.methodLine (str "ClearCommandPort") = true →
      request env c r ip priv = ({ c with ports := c.ports.unblock (reasonOf (build r ip priv)) },
        .control (some (str "200 OK")))) ∧
    (sIEquals r.methodLine (str "CRASH_COMMAND") = true →
      request env c r ip priv = ({ c with crash := c.crash.onReport r.content },
        .control (some (str "200 OK")))) := by
  have hb : (build r ip priv).methodLine = r.methodLine := rfl
  refine ⟨fun h => ?_, fun h => ?_, fun h => ?_⟩
  · unfold request handle
    rw [hb, isOne_rw h, isOne_rw h, isOne_rw h, if_neg (by decide +kernel), if_pos (by decide +kernel),
      if_pos (.inr (by decide +kernel)), control_suppress _ _ _ (hb ▸ h)]
  · unfold request handle
    rw [hb, isOne_rw h, isOne_rw h, isOne_rw h, if_neg (by decide +kernel), if_pos (by decide +kernel),
      if_pos (.inr (by decide +kernel)), control_clear _ _ _ (hb ▸ h)]
  · unfold request handle
    rw [hb, isOne_rw h, isOne_rw h, isOne_rw h, if_neg (by decide +kernel), if_pos (by decide +kernel),
      if_pos (.inr (by decide +kernel)), control_crash _ _ _ (hb ▸ h)]
    rfl

/-- C70.  A request that is neither changes nothing, and goes on to be run as a command. -/
theorem c70_others_pass (env : Env) (c : Ctl) (r : Msg) (ip : Bytes) (priv : Bool)
    (h : ∀ a ∈ [str "SuppressCommandPort", str "ClearCommandPort", str "GetCommitHash", str "CRASH_COMMAND",
        str "GET /status/isFollower HTTP/1.1", str "GET /status/handlingCommands HTTP/1.1", str "Ping",
        str "Status"] ++ secured, sIEquals r.methodLine a = false) :
    request env c r ip priv = (c, .command) := by
  have hb : (build r ip priv).methodLine = r.methodLine := rfl
  have e1 : isOne statusNames r.methodLine = false := by
    unfold isOne
    rw [List.any_eq_false]
    intro a ha
    rw [h a (by revert a; decide +kernel)]; simp
  have e2 : isOne controlNames r.methodLine = false := by
    unfold isOne
    rw [List.any_eq_false]
    intro a ha
    rw [h a (by revert a; decide +kernel)]; simp
  unfold request handle
  rw [hb, e1, e2]
  simp

theorem ite_ind {α : Type} {P : α → Prop} {b : Prop} [Decidable b] {x y : α} (hx : b → P x) (hy : ¬ b → P y) :
    P (if b then x else y) := by
  split
  · exact hx ‹_›
  · exact hy ‹_›

/-- C70.  Nobody, administrators included, can set the number of socket threads to 0. -/
theorem c70_threads_never_zero (c : Ctl) (qs : List Req) (h : c.maxThreads ≠ 0) : (run c qs).maxThreads ≠ 0 := by
  induction qs generalizing c with
  | nil => exact h
  | cons q qs ih =>
    refine ih _ ?_
    unfold step request handle
    split
    · exact h
    · split
      · split
        · show (control q.env c (build q.msg q.ip q.priv)).1.maxThreads ≠ 0
          generalize build q.msg q.ip q.priv = r
          refine (?_ : (fun x : Ctl × Option Bytes => x.1.maxThreads ≠ 0) (control q.env c r))
          generalize hP : (fun x : Ctl × Option Bytes => x.1.maxThreads ≠ 0) = P
          have hc : ∀ c' a, c'.maxThreads = c.maxThreads → P (c', a) := by
            intro c' a e; rw [← hP]; show c'.maxThreads ≠ 0; rw [e]; exact h
          unfold control
          dsimp only
          repeat' refine ite_ind (fun _ => ?_) (fun _ => ?_)
          all_goals first
            | exact hc _ _ rfl
            | skip
          · exact hc _ _ (by split <;> rfl)
          · exact hc _ _ (by split <;> rfl)
          · rw [← hP]; assumption
          · split
            · exact hc _ _ rfl
            · exact hc _ _ rfl
        · exact h
      · exact h

/-- A local request for a control command is run, whatever else is in its headers, unless it says
itself where it comes from. -/
theorem local_runs (env : Env) (c : Ctl) (r : Msg) {ip : Bytes} {priv : Bool}
    (hl : priv = true ∨ ip = str "127.0.0.1") (hs : r.table.find (str "_source") = none)
    {a : Bytes} (ha : isOne statusNames a = false ∧ isOne controlNames a = true) (hm : sIEquals r.methodLine a = true) :
    request env c r ip priv =
      ((control env c (build r ip priv)).1, .control (control env c (build r ip priv)).2) := by
  have hb : (build r ip priv).methodLine = r.methodLine := rfl
  unfold request handle
  have he : (build r ip priv).table.get sSource = [] := by
    unfold Table.get
    rw [build_local r hl (by decide +kernel) (by decide +kernel)]
    show (r.table.find (str "_source")).getD [] = []
    rw [hs]; rfl
  rw [hb, isOne_rw hm, isOne_rw hm, isOne_rw hm, ha.1, ha.2, he]
  simp

theorem get_local (r : Msg) {ip : Bytes} {priv : Bool} (h : priv = true ∨ ip = str "127.0.0.1") {n : Bytes}
    (hn : sToLower n ≠ sToLower (str "httpsRequests")) (hn' : sToLower n ≠ sToLower (str "serializedData")) :
    (build r ip priv).table.get n = r.table.get n := by
  unfold Table.get; rw [build_local r h hn hn']

theorem control_threads (env : Env) (c : Ctl) (r : Msg) (h : sIEquals r.methodLine (str "SetMaxSocketThreads") = true) :
    control env c r = if calcU64 r (str "socketThreadsCount") ≠ 0 then
      ({ c with maxThreads := calcU64 r (str "socketThreadsCount") }, some (str "200 OK"))
    else (c, some (str "401 Don't Use Zero")) := by
  unfold control
  simp only [ieq_rw h]
  iterate 15 rw [if_neg (by decide +kernel)]
  rw [if_pos (by decide +kernel)]

theorem control_params (env : Env) (c : Ctl) (r : Msg) (h : sIEquals r.methodLine (str "SetConflictParams") = true) :
    control env c r = (if 0 ≤ calc64 r (str "MaxConflictRetries") then
      { c with maxRetries := toInt32 (calc64 r (str "MaxConflictRetries")) } else c, some (str "200 OK")) := by
  unfold control
  simp only [ieq_rw h]
  iterate 10 rw [if_neg (by decide +kernel)]
  rw [if_pos (by decide +kernel)]

theorem control_priority (env : Env) (c : Ctl) (r : Msg) (h : sIEquals r.methodLine (str "SetPriority") = true) :
    control env c r =
    if isSet r (str "priority") = false then (c, some (str "400 Missing priority"))
    else if calc64 r (str "priority") < 0 ∨ calc64 r (str "priority") = 1 then
      (c, some (str "400 Invalid priority"))
    else if env.hasNode = false then (c, some (str "500 No sync node"))
    else match nodePriority env (calc64 r (str "priority")) with
      | .error e => (c, some e)
      | .ok p => ({ c with priorities := c.priorities ++ [p] }, some (str "200 OK")) := by
  unfold control
  simp only [ieq_rw h]
  iterate 16 rw [if_neg (by decide +kernel)]
  rw [if_pos (by decide +kernel)]
  rfl

theorem control_limits (env : Env) (c : Ctl) (r : Msg)
    (h : sIEquals r.methodLine (str "SetBlockingQueueTimeRateLimit") = true) :
    (control env c r).1.limits = (newLimit r (str "windowMS") c.limits.1,
          newLimit r (str "identifierThresholdMS") c.limits.2.1,
          newLimit r (str "commandThresholdMS") c.limits.2.2.1,
          newLimit r (str "blockDurationMS") c.limits.2.2.2) := by
  unfold control
  simp only [ieq_rw h]
  iterate 12 rw [if_neg (by decide +kernel)]
  rw [if_pos (by decide +kernel)]

theorem control_detach (env : Env) (c : Ctl) (r : Msg) (h : sIEquals r.methodLine (str "Detach") = true) :
    control env c r =
    if c.ports.detach = true ∧ c.ports.shut = .running then (c, some (str "400 Already detached"))
    else ({ c with ports := c.ports.beginShutdown true }, some (str "203 DETACHING")) := by
  unfold control
  simp only [ieq_rw h]
  iterate 5 rw [if_neg (by decide +kernel)]
  rw [if_pos (by decide +kernel)]

theorem control_blockWrites (env : Env) (c : Ctl) (r : Msg) (h : sIEquals r.methodLine (str "BlockWrites") = true) :
    control env c r =
    if c.writesBlocked then (c, some (str "400 Already Blocked"))
    else if env.hasDb = false then (c, none)
    else ({ c with writesBlocked := true }, some (str "200 Blocked")) := by
  unfold control
  simp only [ieq_rw h]
  iterate 13 rw [if_neg (by decide +kernel)]
  rw [if_pos (by decide +kernel)]

/-- C70, partial: an administrator's settings.  The number of retries and the priority become the
number in the request if it is less than 2³¹ (see `c70_retries_wrap`, `c70_priority_wraps`). -/
theorem c70_settings_partial (env : Env) (c : Ctl) (r : Msg) {ip : Bytes} {priv : Bool}
    (hl : priv = true ∨ ip = str "127.0.0.1") (hs : r.table.find (str "_source") = none) (n : Nat) (hn : n < 2 ^ 31) :
    (sIEquals r.methodLine (str "SetMaxSocketThreads") = true → n ≠ 0 →
      r.table.find (str "socketThreadsCount") = some (natDec n) →
      (request env c r ip priv).1 = { c with maxThreads := n }) ∧
    (sIEquals r.methodLine (str "SetConflictParams") = true →
      r.table.find (str "MaxConflictRetries") = some (natDec n) →
      (request env c r ip priv).1 = { c with maxRetries := n }) ∧
    (sIEquals r.methodLine (str "SetPriority") = true → n ≠ 1 →
      r.table.find (str "priority") = some (natDec n) → env.hasNode = true → env.refuses n = none →
      (request env c r ip priv).1 = { c with priorities := c.priorities ++ [(n : Int)] }) := by
  have hst : strtoll (natDec n) = n := Deadline.Props.strtoll_natDec n (by omega)
  have h64 : (Https.toUInt64 (natDec n)).toNat = n := by
    have := Https.Props.toUInt64_natDec (UInt64.ofNat n)
    have e : (UInt64.ofNat n).toNat = n := by rw [UInt64.toNat_ofNat']; omega
    rw [e] at this
    rw [this, e]
  refine ⟨fun hm h0 hf => ?_, fun hm hf => ?_, fun hm h1 hf hnode href => ?_⟩
  · rw [local_runs env c r hl hs (by decide +kernel) hm, control_threads env c (build r ip priv) hm]
    have : calcU64 (build r ip priv) (str "socketThreadsCount") = n := by
      unfold calcU64
      rw [get_local r hl (by decide +kernel) (by decide +kernel)]
      unfold Table.get
      rw [hf]; exact h64
    rw [this, if_pos h0]
  · rw [local_runs env c r hl hs (by decide +kernel) hm, control_params env c (build r ip priv) hm]
    have : calc64 (build r ip priv) (str "MaxConflictRetries") = n := by
      unfold calc64
      rw [get_local r hl (by decide +kernel) (by decide +kernel)]
      unfold Table.get
      rw [hf]; exact hst
    rw [this, if_pos (by omega), toInt32_small n hn]
  · rw [local_runs env c r hl hs (by decide +kernel) hm, control_priority env c (build r ip priv) hm]
    have : calc64 (build r ip priv) (str "priority") = n := by
      unfold calc64
      rw [get_local r hl (by decide +kernel) (by decide +kernel)]
      unfold Table.get
      rw [hf]; exact hst
    have h2 : isSet (build r ip priv) (str "priority") = true := by
      unfold isSet
      rw [build_local r hl (by decide +kernel) (by decide +kernel), hf]; rfl
    have h3 : nodePriority env (n : Int) = .ok (n : Int) := by
      unfold nodePriority
      rw [toInt32_small n hn]
      dsimp only
      rw [if_neg (by omega), href]
    rw [this, if_neg (by simp [h2]), if_neg (by omega), if_neg (by simp [hnode]), h3]

/-- C70.  A limit of the blocking queue that is given and not negative becomes that many
milliseconds; one that is absent or negative stays. -/
theorem c70_limits (env : Env) (c : Ctl) (r : Msg) {ip : Bytes} {priv : Bool}
    (hl : priv = true ∨ ip = str "127.0.0.1") (hs : r.table.find (str "_source") = none)
    (hm : sIEquals r.methodLine (str "SetBlockingQueueTimeRateLimit") = true) (v : Option Int)
    (hf : r.table.find (str "blockDurationMS") = v.map intDec) (hv : ∀ x ∈ v, -2 ^ 63 ≤ x ∧ x < 2 ^ 63) :
    (request env c r ip priv).1.limits.2.2.2 =
      match v with
      | none => c.limits.2.2.2
      | some x => if x < 0 then c.limits.2.2.2 else (x.toNat * 1000) % 2 ^ 64 := by
  rw [local_runs env c r hl hs (by decide +kernel) hm, control_limits env c (build r ip priv) hm]
  show newLimit _ _ _ = _
  unfold newLimit isSet calc64
  rw [get_local r hl (by decide +kernel) (by decide +kernel),
    build_local r hl (by decide +kernel) (by decide +kernel), hf]
  unfold Table.get
  rw [hf]
  cases v with
  | none => rfl
  | some x =>
    have hx := hv x rfl
    have : strtoll (intDec x) = x := Param.Props.strtoll_intDec hx.1 hx.2
    simp only [Option.map_some, Option.getD_some, this, Option.isSome_some, true_and]
    by_cases h0 : x < 0
    · rw [if_neg (by omega), if_pos h0]
    · rw [if_pos (by omega), if_neg h0]

/-- C70.  An administrator's `Detach` begins the shutdown of a running server once: repeated, it is
refused or has no effect until the server is attached again. -/
theorem c70_detach (env : Env) (c : Ctl) (r : Msg) {ip : Bytes} {priv : Bool}
    (hl : priv = true ∨ ip = str "127.0.0.1") (hs : r.table.find (str "_source") = none)
    (hm : sIEquals r.methodLine (str "Detach") = true) :
    (c.ports.detach = false → c.ports.shut = .running →
      (request env c r ip priv).1.ports.shut = .startShutdown ∧ (request env c r ip priv).1.ports.detach = true ∧
      (request env c r ip priv).1.ports.pub = false ∧ (request env c r ip priv).1.ports.priv = false ∧
      (request env c r ip priv).1.ports.ctrl = c.ports.ctrl) ∧
    (c.ports.detach = true ∨ c.ports.shut ≠ .running → (request env c r ip priv).1 = c) := by
  rw [local_runs env c r hl hs (by decide +kernel) hm, control_detach env c (build r ip priv) hm]
  constructor
  · intro h1 h2
    rw [if_neg (by simp [h1])]
    simp [Ports.Srv.beginShutdown, h2]
  · intro h
    by_cases h2 : c.ports.shut = .running
    · rw [if_pos ⟨h.resolve_right (fun k => k h2), h2⟩]
    · rw [if_neg (fun k => h2 k.2)]
      simp [Ports.Srv.beginShutdown, h2]

def exReq (m : String) (t : Table) : Msg := { methodLine := str m, table := t }

theorem control_attach (env : Env) (c : Ctl) (r : Msg) (h : sIEquals r.methodLine (str "Attach") = true) :
    control env c r =
    if env.preventAttach ≠ [] then
      (c, some (str "401 Attaching prevented by " ++ control.joinComma env.preventAttach))
    else if c.ports.shut ≠ .running then (c, some (str "401 Attaching prevented by server not ready"))
    else ({ c with ports := c.ports.attach }, some (str "204 ATTACHING")) := by
  unfold control
  simp only [ieq_rw h]
  iterate 6 rw [if_neg (by decide +kernel)]
  rw [if_pos (by decide +kernel)]

theorem control_unblockWrites (env : Env) (c : Ctl) (r : Msg) (h : sIEquals r.methodLine (str "UnblockWrites") = true) :
    control env c r =
    if c.writesBlocked then ({ c with writesBlocked := false }, some (str "200 Unblocked"))
    else (c, some (str "200 Not Blocked")) := by
  unfold control
  simp only [ieq_rw h]
  iterate 14 rw [if_neg (by decide +kernel)]
  rw [if_pos (by decide +kernel)]

/-- C70.  An administrator's `Attach` is refused, and changes nothing, while a plugin forbids it or the
server is still stopping; otherwise a detached server is attached, with its command port unblocked. -/
theorem c70_attach (env : Env) (c : Ctl) (r : Msg) {ip : Bytes} {priv : Bool}
    (hl : priv = true ∨ ip = str "127.0.0.1") (hs : r.table.find (str "_source") = none)
    (hm : sIEquals r.methodLine (str "Attach") = true) :
    (env.preventAttach ≠ [] ∨ c.ports.shut ≠ .running →
      ∃ why, request env c r ip priv = (c, .control (some (str "401 Attaching prevented by " ++ why)))) ∧
    (env.preventAttach = [] → c.ports.shut = .running → c.ports.detach = true →
      (request env c r ip priv).2 = .control (some (str "204 ATTACHING")) ∧
      (request env c r ip priv).1.ports.detach = false ∧ (request env c r ip priv).1.ports.shut = .running ∧
      (request env c r ip priv).1.ports.reasons = []) := by
  rw [local_runs env c r hl hs (by decide +kernel) hm, control_attach env c (build r ip priv) hm]
  constructor
  · intro h
    by_cases h1 : env.preventAttach = []
    · rw [if_neg (by simp [h1]), if_pos (h.resolve_left (by simp [h1]))]
      exact ⟨str "server not ready", by
        have : str "401 Attaching prevented by server not ready" =
          str "401 Attaching prevented by " ++ str "server not ready" := by decide +kernel
        rw [this]⟩
    · rw [if_pos h1]
      exact ⟨_, rfl⟩
  · intro h1 h2 h3
    rw [if_neg (by simp [h1]), if_neg (by simp [h2])]
    simp [Ports.Srv.attach, Ports.Srv.reset, h2, h3]

/-- C70.  An administrator's `UnblockWrites` lifts a block, and with a database `BlockWrites` sets one; nothing
else changes, and neither does anything a second time. -/
theorem c70_writes (env : Env) (c : Ctl) (r : Msg) {ip : Bytes} {priv : Bool}
    (hl : priv = true ∨ ip = str "127.0.0.1") (hs : r.table.find (str "_source") = none) :
    (sIEquals r.methodLine (str "UnblockWrites") = true →
      (request env c r ip priv).1 = { c with writesBlocked := false }) ∧
    (sIEquals r.methodLine (str "BlockWrites") = true → env.hasDb = true →
      (request env c r ip priv).1 = { c with writesBlocked := true }) := by
  constructor
  · intro hm
    rw [local_runs env c r hl hs (by decide +kernel) hm, control_unblockWrites env c (build r ip priv) hm]
    obtain ⟨⟩ := c
    rename_i wb _
    cases wb <;> rfl
  · intro hm hd
    rw [local_runs env c r hl hs (by decide +kernel) hm, control_blockWrites env c (build r ip priv) hm]
    obtain ⟨⟩ := c
    rename_i wb _
    cases wb
    · simp [hd]
    · rfl

theorem find_set_other (t : Table) (k v n : Bytes) (h : sToLower n ≠ sToLower k) :
    (t.set k v).find n = t.find n := by
  have hne : ∀ m, sToLower m = sToLower k → (keyLt n m || keyLt m n) = true := by
    intro m hm
    cases hx : (keyLt n m || keyLt m n) with
    | true => rfl
    | false => rw [key_eq_iff] at hx; exact absurd (hx.trans hm) h
  induction t with
  | nil => simp [Table.set, Table.find, hne k rfl]
  | cons e t ih =>
    obtain ⟨m, w⟩ := e
    rw [Table.set]
    split
    · rw [Table.find, hne k rfl]; rfl
    · rename_i h1
      split
      · rw [Table.find, Table.find, ih]
      · rename_i h2
        rw [Bool.not_eq_true] at h1 h2
        have hm : (keyLt m k || keyLt k m) = false := by rw [h1, h2]; rfl
        rw [key_eq_iff] at hm
        rw [Table.find, Table.find, hne m hm]; rfl

theorem find_build (r : Msg) (ip : Bytes) (priv : Bool) {n : Bytes} (h : sToLower n ≠ sToLower (str "_source"))
    (hn : sToLower n ≠ sToLower (str "httpsRequests")) (hn' : sToLower n ≠ sToLower (str "serializedData")) :
    (build r ip priv).table.find n = r.table.find n := by
  unfold build
  show ((Table.erase (str "serializedData") (Table.erase (str "httpsRequests") _)).find n) = _
  rw [find_erase_other _ _ _ hn', find_erase_other _ _ _ hn]
  split
  · exact find_set_other _ _ _ _ h
  · rfl

/-- C70.  The port is blocked for the reason the request gives, `MANUAL` if it gives none, and unblocked for that
reason only, whoever asks: the other reasons stay as they are. -/
theorem c70_reasons (env : Env) (c : Ctl) (r : Msg) (ip : Bytes) (priv : Bool) (why : Bytes)
    (hr : why ≠ [] ∧ r.table.find (str "reason") = some why ∨
      why = str "MANUAL" ∧ (r.table.find (str "reason") = none ∨ r.table.find (str "reason") = some [])) (x : Bytes) :
    (sIEquals r.methodLine (str "SuppressCommandPort") = true →
      (request env c r ip priv).1.ports.reasons.count x =
        c.ports.reasons.count x + if x = why then 1 else 0) ∧
    (sIEquals r.methodLine (str "ClearCommandPort") = true →
      (request env c r ip priv).1.ports.reasons.count x =
        c.ports.reasons.count x - if x = why then 1 else 0) := by
  have he : reasonOf (build r ip priv) = why := by
    unfold reasonOf Table.get
    rw [find_build r ip priv (by decide +kernel) (by decide +kernel) (by decide +kernel)]
    rcases hr with ⟨h1, h2⟩ | ⟨h1, h2 | h2⟩
    · rw [h2]; simp [h1]
    · rw [h2]; simp [h1]
    · rw [h2]; simp [h1]
  have h := c70_open_to_all env c r ip priv
  rw [he] at h
  constructor
  · intro hm
    rw [h.1 hm]
    simp only [Ports.Props.block_count, List.count_cons, beq_iff_eq]
    by_cases hx : x = why
    · rw [if_pos hx, if_pos hx.symm]
    · rw [if_neg hx, if_neg (fun k => hx k.symm)]
  · intro hm
    rw [h.2.1 hm]
    simp only [Ports.Props.unblock_reasons, List.count_erase, beq_iff_eq]
    by_cases hx : x = why
    · rw [if_pos hx, if_pos hx.symm]
    · rw [if_neg hx, if_neg (fun k => hx k.symm)]

example : (request {} { ports := { reasons := [str "MANUAL", str "backup"] } }
      (exReq "clearcommandport" [(str "REASON", str "backup")]) (str "10.0.0.9") false).1.ports.reasons =
    [str "MANUAL"] := by decide +kernel

example : (request {} { ports := { detach := true } } (exReq "attach" []) (str "127.0.0.1") false).1.ports.detach = false ∧
    (request {} { ports := { detach := true, shut := .startShutdown } } (exReq "attach" []) (str "127.0.0.1") false).2 =
      .control (some (str "401 Attaching prevented by server not ready")) ∧
    (request {} { writesBlocked := true } (exReq "unblockwrites" []) (str "127.0.0.1") false).1.writesBlocked = false := by
  decide +kernel

/-! ## Where the code does otherwise -/

/-- C70, negation: a number of retries that is not negative can make the setting negative. -/
theorem c70_retries_wrap :
    (request {} {} (exReq "SetConflictParams" [(str "MaxConflictRetries", str "4294967295")]) (str "127.0.0.1") false).1.maxRetries = -1 := by
  decide +kernel

/-- C70, negation: priority 4294967296 is accepted and makes the node a permafollower. -/
theorem c70_priority_wraps :
    (request {} {} (exReq "SetPriority" [(str "priority", str "4294967296")]) (str "127.0.0.1") false).1.priorities = [0] ∧
    (request {} {} (exReq "SetPriority" [(str "priority", str "4294967296")]) (str "127.0.0.1") false).2 =
      .control (some (str "200 OK")) := by
  decide +kernel

/-- C70, negation: `BlockWrites` sent while there is no database (the server is detached, or has not
opened it yet) is never answered: the thread that is to take the lock ends without it, and the one that
sent it off waits for ever. -/
theorem c70_block_writes_hangs (env : Env) (c : Ctl) (r : Msg) {ip : Bytes} {priv : Bool}
    (hl : priv = true ∨ ip = str "127.0.0.1") (hs : r.table.find (str "_source") = none)
    (hm : sIEquals r.methodLine (str "BlockWrites") = true) (hw : c.writesBlocked = false) (hd : env.hasDb = false) :
    (request env c r ip priv).2 = .control none := by
  rw [local_runs env c r hl hs (by decide +kernel) hm, control_blockWrites env c (build r ip priv) hm]
  simp [hw, hd]

/-! ## Cases -/

/-- A remote machine tries to detach the server, with an empty `_source` of its own, and to block the
port. -/
example :
    request {} {} (exReq "DETACH" [(str "_SOURCE", [])]) (str "10.0.0.9") false =
      ({}, .control (some (str "401 Unauthorized"))) :=
  c70_remote_unauthorized {} {} _ _ (a := str "Detach") (by decide +kernel) (by decide +kernel)
    (by decide +kernel) (by decide +kernel)

example : (run {} [⟨{}, exReq "suppresscommandport" [(str "reason", str "mine")], str "10.0.0.9", false⟩]).ports.reasons
    = [str "mine"] := by decide +kernel

example : (request {} {} (exReq "setmaxsocketthreads" [(str "socketThreadsCount", str "64")]) (str "10.0.0.9") true).1.maxThreads
    = 64 := by decide +kernel

example : (request {} {} (exReq "Detach" []) (str "127.0.0.1") false).1.ports.shut = .startShutdown := by decide +kernel

example : request {} {} (exReq "Query" []) (str "10.0.0.9") false = ({}, .command) :=
  c70_others_pass {} {} _ _ _ (by decide +kernel)

/-- **C70** `ClearCrashCommands` forgets every command that is refused because it crashed a node, and nothing else. -/
theorem c70_forgives (env : Env) (c : Ctl) (r : Msg) {ip : Bytes} {priv : Bool}
    (hl : priv = true ∨ ip = str "127.0.0.1") (hs : r.table.find (str "_source") = none)
    (hm : sIEquals r.methodLine (str "ClearCrashCommands") = true) :
    (request env c r ip priv).1 = { c with crash := [] } := by
  rw [local_runs env c r hl hs (by decide +kernel) hm]
  have h : sIEquals (build r ip priv).methodLine (str "ClearCrashCommands") = true := hm
  unfold control
  simp only [ieq_rw h]
  iterate 3 rw [if_neg (by decide +kernel)]
  rw [if_pos (by decide +kernel)]

/-- **C70** `GetCommitHash` answers 200 exactly when the number is given and not zero and a database is open that has the
hash of that commit; whatever it answers, it changes nothing. -/
theorem c70_commit_hash (env : Env) (c : Ctl) (r : Msg) {ip : Bytes} {priv : Bool}
    (hl : priv = true ∨ ip = str "127.0.0.1") (hs : r.table.find (str "_source") = none)
    (hm : sIEquals r.methodLine (str "GetCommitHash") = true) :
    (request env c r ip priv).1 = c ∧
    ((request env c r ip priv).2 = .control (some (str "200 OK")) ↔
      isSet (build r ip priv) (str "commitCount") = true ∧ calcU64 (build r ip priv) (str "commitCount") ≠ 0 ∧
      env.hasDb = true ∧ (env.hash (calcU64 (build r ip priv) (str "commitCount"))).isSome = true) := by
  rw [local_runs env c r hl hs (by decide +kernel) hm]
  have h : sIEquals (build r ip priv).methodLine (str "GetCommitHash") = true := hm
  unfold control
  simp only [ieq_rw h]
  iterate 17 rw [if_neg (by decide +kernel)]
  rw [if_pos (by decide +kernel)]
  have n1 : (str "400 Missing commitCount") ≠ str "200 OK" := by decide +kernel
  have n2 : (str "400 Invalid commitCount") ≠ str "200 OK" := by decide +kernel
  have n3 : (str "500 No database") ≠ str "200 OK" := by decide +kernel
  have n4 : (str "404 Commit not found") ≠ str "200 OK" := by decide +kernel
  split
  · next e => exact ⟨rfl, by simp [n1, e]⟩
  · next e => 
    split
    · next e2 => exact ⟨rfl, by simp [n2, e2]⟩
    · next e2 =>
      split
      · next e3 => exact ⟨rfl, by simp [n3, e3]⟩
      · next e3 =>
        split
        · next e4 => exact ⟨rfl, by simp [e, e2, e3, e4]⟩
        · next e4 => exact ⟨rfl, by simp [n4, e4]⟩

/-- **C70** `SetBlockingQueueTimeRateLimit` lifts the blocks exactly if it says so with a true `ClearBlocks`, and flushes
nothing. -/
theorem c70_clear_blocks (env : Env) (c : Ctl) (r : Msg) {ip : Bytes} {priv : Bool}
    (hl : priv = true ∨ ip = str "127.0.0.1") (hs : r.table.find (str "_source") = none)
    (hm : sIEquals r.methodLine (str "SetBlockingQueueTimeRateLimit") = true) :
    (request env c r ip priv).1.limitsCleared =
      c.limitsCleared + (if Attr.test (r.table.get (str "ClearBlocks")) = true then 1 else 0) ∧
    (request env c r ip priv).1.flushed = c.flushed := by
  rw [local_runs env c r hl hs (by decide +kernel) hm]
  have h : sIEquals (build r ip priv).methodLine (str "SetBlockingQueueTimeRateLimit") = true := hm
  unfold control
  simp only [ieq_rw h]
  iterate 12 rw [if_neg (by decide +kernel)]
  rw [if_pos (by decide +kernel), get_local r hl (by decide +kernel) (by decide +kernel)]
  refine ⟨?_, rfl⟩
  split <;> rfl

end Bedrock.Control.Props
