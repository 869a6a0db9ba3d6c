import Verif.Model.Reply
import Verif.Props.Http

/-!
# C73: every command gets its answer
-/

namespace Bedrock.Reply.Props
open Bedrock.Text Bedrock.Http Bedrock.Http.Props

/-- An entry after `set` is an old one, or the new value under the new name or under the spelling the
name had. -/
theorem mem_set' {t : Table} {n v : Bytes} {e : Bytes × Bytes} (h : e ∈ t.set n v) :
    e ∈ t ∨ (e.2 = v ∧ (e.1 = n ∨ (sToLower e.1 = sToLower n ∧ ∃ w, (e.1, w) ∈ t))) := by
  induction t with
  | nil => simp only [Table.set, List.mem_singleton] at h; subst h; exact .inr ⟨rfl, .inl rfl⟩
  | cons x t ih =>
    simp only [Table.set] at h
    split at h
    · rcases List.mem_cons.mp h with h | h
      · subst h; exact .inr ⟨rfl, .inl rfl⟩
      · exact .inl h
    · split at h
      · rcases List.mem_cons.mp h with h | h
        · subst h; exact .inl (by simp)
        · rcases ih h with h | ⟨h1, h2 | ⟨h2, w, h3⟩⟩
          · exact .inl (by simp [h])
          · exact .inr ⟨h1, .inl h2⟩
          · exact .inr ⟨h1, .inr ⟨h2, w, by simp [h3]⟩⟩
      · rename_i h1 h2
        rcases List.mem_cons.mp h with h | h
        · subst h
          exact .inr ⟨rfl, .inr ⟨(key_eq_iff x.1 n).mp (by simp [h1, h2]), x.2, by simp⟩⟩
        · exact .inl (by simp [h])

/-- A header that may be added to any message. -/
def Plain (n : Bytes) : Prop := Spec.GoodName n ∧ ¬ Spec.sameName n (str "Set-Cookie") ∧
  ¬ Spec.sameName n (str "Content-Encoding") ∧ ¬ Spec.sameName n (str "Transfer-Encoding")

theorem good_set {m : Msg} {n v : Bytes} (h : Spec.GoodMsg m) (hn : Plain n) :
    Spec.GoodMsg { m with table := m.table.set n v } := by
  obtain ⟨g, p1, p2, p3⟩ := hn
  refine ⟨h.method, ?_, Table.set_sorted n v h.sorted, h.small⟩
  intro e he
  rcases mem_set' he with he | ⟨_, he | ⟨hl, w, hw⟩⟩
  · exact h.ordinary e he
  · refine ⟨he ▸ g, he ▸ p1, fun k => p2 (he ▸ k.1), fun k => p3 (he ▸ k.1)⟩
  · have hl' : e.1.map toLower = n.map toLower := hl
    refine ⟨(h.ordinary _ hw).name, ?_, fun k => p2 ?_, fun k => p3 ?_⟩
    · exact fun k => p1 (hl'.symm.trans k)
    · exact hl'.symm.trans k.1
    · exact hl'.symm.trans k.1

theorem plain_nodeName : Plain sNodeName := by
  refine ⟨goodName_of _ (by decide +kernel), ?_, ?_, ?_⟩ <;> unfold Spec.sameName <;> decide +kernel

theorem plain_connection : Plain sConnection := by
  refine ⟨goodName_of _ (by decide +kernel), ?_, ?_, ?_⟩ <;> unfold Spec.sameName <;> decide +kernel

theorem finish_good {sv : Server} {c : Cmd} (h : Spec.GoodMsg c.resp) : Spec.GoodMsg (finish sv c) := by
  have h1 : Spec.GoodMsg { c.resp with table := c.resp.table.set sNodeName sv.nodeName } := good_set h plain_nodeName
  unfold finish
  dsimp only
  split
  · exact good_set (m := { c.resp with table := c.resp.table.set sNodeName sv.nodeName }) h1 plain_connection
  · exact h1

theorem finish_values {sv : Server} {c : Cmd} (h : ∀ e ∈ c.resp.table, Spec.GoodValue e.2) (hn : Spec.GoodValue sv.nodeName) :
    ∀ e ∈ (finish sv c).table, Spec.GoodValue e.2 := by
  have hc : Spec.GoodValue sClose := ⟨by decide +kernel, by decide +kernel, by decide +kernel⟩
  have h1 : ∀ e ∈ c.resp.table.set sNodeName sv.nodeName, Spec.GoodValue e.2 := by
    intro e he
    rcases mem_set' he with he | ⟨he, _⟩
    · exact h e he
    · rw [he]; exact hn
  unfold finish
  dsimp only
  split
  · intro e he
    rcases mem_set' he with he | ⟨he, _⟩
    · exact h1 e he
    · rw [he]; exact hc
  · exact h1

/-- The headers of the answer. -/
theorem finish_find {sv : Server} {c : Cmd} (h : Spec.GoodMsg c.resp) (n : Bytes) :
    (finish sv c).table.find n =
      if sToLower n = sToLower (str "Connection") ∧ (sv.running = false ∨ c.req.table.get (str "Connection") = str "close")
      then some (str "close")
      else if sToLower n = sToLower (str "nodeName") then some sv.nodeName
      else c.resp.table.find n := by
  have hs : (c.resp.table.set sNodeName sv.nodeName).Sorted := Table.set_sorted _ _ h.sorted
  have hf := Table.find_set c.resp.table sNodeName sv.nodeName n h.sorted
  unfold finish
  dsimp only
  by_cases hc : sv.running = false ∨ c.req.table.get sConnection = sClose
  · rw [if_pos hc, Table.find_set _ _ _ _ hs, hf]
    by_cases hn : sToLower n = sToLower sConnection
    · rw [if_pos hn, if_pos ⟨hn, hc⟩]; rfl
    · rw [if_neg hn]
      exact (if_neg (fun k => hn k.1)).symm
  · rw [if_neg hc, hf]
    exact (if_neg (fun k => hc k.2)).symm

/-- C73, partial: a command of a client that still has its connection is answered with its response: the
client reads exactly one message with the method line, the content and the headers of the response, the
name of the node, and — if the server is shutting down or the request said `close` — `Connection: close`.
The response must be one that can be transported (C22), and the request must not have a `plugin` header
(see `c73_plugin_header_aborts`). -/
theorem c73_answered_partial (gz : Bytes → Bytes) (sv : Server) (c : Cmd) (rest : Bytes)
    (hc : 0 ≤ c.client) (hs : c.socket = some true) (hp : c.req.table.find (str "plugin") = none)
    (hg : Spec.GoodMsg c.resp) (hv : ∀ e ∈ c.resp.table, Spec.GoodValue e.2) (hn : Spec.GoodValue sv.nodeName) :
    ∃ b m, (reply gz sv c).kind = .sent b ∧ (reply gz sv c).told = false ∧ parse (b ++ rest) = .ok b.length m ∧
      m.methodLine = c.resp.methodLine ∧ m.content = c.resp.content ∧
      ∀ name, m.table.find name =
        if sToLower name = sToLower (str "Content-Length") then some (natDec c.resp.content.length)
        else if sToLower name = sToLower (str "Connection") ∧
            (sv.running = false ∨ c.req.table.get (str "Connection") = str "close") then some (str "close")
        else if sToLower name = sToLower (str "nodeName") then some sv.nodeName
        else c.resp.table.find name := by
  obtain ⟨b, hb⟩ := c22_composes gz (finish sv c) (finish_good hg)
  obtain ⟨m, p1, p2, p3, p4⟩ := c22_round_trip gz (finish sv c) b rest (finish_good hg) (finish_values hv hn) hb
  have hr : reply gz sv c =
      { kind := .sent b, closed := sIEquals (c.req.table.get sConnection) sClose || !sv.running, told := false } := by
    unfold reply
    rw [if_neg (by omega), hs]
    have : c.req.table.get sPlugin = [] := by
      unfold Table.get; show (c.req.table.find (str "plugin")).getD [] = []; rw [hp]; rfl
    simp only [this, ne_eq, not_true_eq_false, if_false, hb]
    rfl
  refine ⟨b, m, by rw [hr], by rw [hr], p1, p2, p3, ?_⟩
  intro name
  rw [p4 name, finish_find hg]
  rfl

/-- C73.  The command is told that nobody got its answer exactly if nobody did: it has no client, no
connection, or the connection is broken.  (If the process aborts or an exception leaves `_reply` there
is nobody to tell.) -/
theorem c73_told_iff (gz : Bytes → Bytes) (sv : Server) (c : Cmd) (hp : c.req.table.find (str "plugin") = none)
    (hm : ∀ x ∈ c.resp.methodLine, x = 9 ∨ (32 ≤ x ∧ x ≠ 127)) :
    (reply gz sv c).told = true ↔ c.client < 0 ∨ c.socket = none ∨ c.socket = some false := by
  have hc : ∃ b, compose gz (finish sv c) = some b := by
    have : (finish sv c).methodLine.any badMethodChar = false := by
      rw [List.any_eq_false]
      intro x hx
      have := hm x hx
      unfold badMethodChar
      rcases this with h | ⟨h1, h2⟩
      · simp [h]
      · have : ¬ x < 32 := by
          intro hlt; exact absurd (UInt8.lt_iff_toNat_lt.mp hlt) (Nat.not_lt.mpr (UInt8.le_iff_toNat_le.mp h1))
        simp [h2, this]
    unfold compose
    rw [this]
    exact ⟨_, rfl⟩
  obtain ⟨b, hb⟩ := hc
  have hpl : c.req.table.get sPlugin = [] := by
    unfold Table.get; show (c.req.table.find (str "plugin")).getD [] = []; rw [hp]; rfl
  unfold reply
  by_cases h1 : c.client < 0
  · rw [if_pos h1]; simp [h1]
  · rw [if_neg h1]
    cases hs : c.socket with
    | none => simp
    | some w => simp [hpl, hb, h1]

/-- C73.  After its answer the connection is shut down exactly if the server is on its way out or the
request said `close`, in whatever capitals. -/
theorem c73_closed_iff (gz : Bytes → Bytes) (sv : Server) (c : Cmd) (b : Bytes) (h : (reply gz sv c).kind = .sent b) :
    (reply gz sv c).closed = true ↔
      sv.running = false ∨ sToLower (cstr (c.req.table.get (str "Connection"))) = str "close" := by
  have hcl : sToLower (cstr sClose) = str "close" := by decide +kernel
  have key : ∀ x : Out, x.kind = .sent b → reply gz sv c = x →
      (x.closed = true ↔ sv.running = false ∨ sToLower (cstr (c.req.table.get (str "Connection"))) = str "close") := by
    intro x hx hr
    unfold reply at hr
    split at hr
    · subst hr; cases hx
    · split at hr
      · subst hr; cases hx
      · dsimp only at hr
        split at hr
        · split at hr
          · split at hr <;> subst hr <;> cases hx
          · subst hr; cases hx
        · split at hr
          · subst hr; cases hx
          · subst hr
            show (sIEquals (c.req.table.get (str "Connection")) sClose || !sv.running) = true ↔ _
            unfold sIEquals
            rw [hcl]
            cases sv.running <;> simp
  exact key _ h rfl

/-! ## Where the code does otherwise -/

/-- C73, negation: a request with a `plugin` header naming no plugin makes the server abort when it is to
be answered, whatever the command (`Ping`, say) and whoever sent it. -/
theorem c73_plugin_header_aborts (gz : Bytes → Bytes) (sv : Server) (c : Cmd) (works : Bool) (p : Bytes)
    (hc : 0 ≤ c.client) (hs : c.socket = some works) (hp : c.req.table.find (str "plugin") = some p) (h0 : p ≠ [])
    (hn : p ∉ sv.plugins) : (reply gz sv c).kind = .aborts := by
  unfold reply
  rw [if_neg (by omega), hs]
  have : c.req.table.get sPlugin = p := by
    unfold Table.get; show (c.req.table.find (str "plugin")).getD [] = p; rw [hp]; rfl
  simp only [this, ne_eq, h0, not_false_eq_true, if_true, hn, if_false]

/-- C73, negation: so does the name of the MySQL plugin, where that is loaded, with any command but
`Query`. -/
theorem c73_mysql_header_aborts (gz : Bytes → Bytes) (sv : Server) (c : Cmd) (works : Bool)
    (hc : 0 ≤ c.client) (hs : c.socket = some works) (hp : c.req.table.find (str "plugin") = some (str "MySQL"))
    (hq : sIEquals c.req.methodLine (str "Query") = false) : (reply gz sv c).kind = .aborts := by
  unfold reply
  rw [if_neg (by omega), hs]
  have : c.req.table.get sPlugin = sMySQL := by
    unfold Table.get; show (c.req.table.find (str "plugin")).getD [] = sMySQL; rw [hp]; rfl
  have h0 : sMySQL ≠ [] := by decide +kernel
  have ha : mysqlAsserts c = false := by unfold mysqlAsserts; rw [hq]; rfl
  simp only [this, ne_eq, h0, not_false_eq_true, if_true, ha, and_self]
  split <;> rfl

/-- C73, negation: the header goes with the command to the leader.  A query that came in on the port of a
plugin and is escalated is not answered with a message the follower can read: the leader lets the plugin
answer the follower, or aborts if it has no such plugin. -/
theorem c73_escalated_plugin (gz : Bytes → Bytes) (sv : Server) (req resp : Msg) (timeout id p : Bytes) (hs : req.table.Sorted)
    (hp : req.table.find (str "plugin") = some p) (h0 : p ≠ []) (client : Int) (hc : 0 ≤ client) (b : Bytes) :
    (reply gz sv ⟨escalated req timeout id, resp, client, some true⟩).kind ≠ .sent b := by
  have : (escalated req timeout id).table.get sPlugin = p := by
    unfold Table.get escalated
    rw [Table.find_set _ _ _ _ (Table.set_sorted _ _ hs), if_neg (by decide +kernel), Table.find_set _ _ _ _ hs,
      if_neg (by decide +kernel)]
    show (req.table.find (str "plugin")).getD [] = p; rw [hp]; rfl
  unfold reply
  rw [if_neg (by simp only; omega)]
  simp only [this, ne_eq, h0, not_false_eq_true, if_true]
  split
  · split <;> simp
  · simp

/-- C73, negation: a request that says `Connection: Close` has its connection shut down without being
told so in the answer. -/
theorem c73_close_not_told :
    (reply id ⟨str "n1", true, []⟩ ⟨{ methodLine := str "Ping", table := [(str "Connection", str "Close")] },
      { methodLine := str "200 OK" }, 1, some true⟩) =
    { kind := .sent (str "200 OK\r\nnodeName: n1\r\nContent-Length: 0\r\n\r\n"), closed := true, told := false } := by
  decide +kernel

/-! ## Cases -/

example : (reply id ⟨str "n1", false, []⟩ ⟨{ methodLine := str "Query" }, { methodLine := str "200 OK", content := str "x" }, 1, some true⟩) =
    { kind := .sent (str "200 OK\r\nConnection: close\r\nnodeName: n1\r\nContent-Length: 1\r\n\r\nx"), closed := true, told := false } := by
  decide +kernel

example : (reply id ⟨str "n1", true, [str "DB"]⟩ ⟨{ methodLine := str "Ping", table := [(str "plugin", str "x")] },
    { methodLine := str "200 OK" }, 1, some true⟩).kind = .aborts :=
  c73_plugin_header_aborts id _ _ true (str "x") (by decide) rfl (by decide +kernel) (by decide +kernel) (by decide +kernel)

example : ∃ b m, (reply id ⟨str "n1", true, []⟩ ⟨{ methodLine := str "Ping" }, exMsg, 1, some true⟩).kind = .sent b ∧
    parse (b ++ []) = .ok b.length m := by
  obtain ⟨b, m, h1, _, h2, _⟩ := c73_answered_partial id ⟨str "n1", true, []⟩ ⟨{ methodLine := str "Ping" }, exMsg, 1, some true⟩ []
    (by decide) rfl rfl exMsg_good (by
      intro e he
      simp only [exMsg, List.mem_cons, List.not_mem_nil, or_false] at he
      rcases he with rfl | rfl <;> exact ⟨by decide +kernel, by decide +kernel, by decide +kernel⟩)
    ⟨by decide +kernel, by decide +kernel, by decide +kernel⟩
  exact ⟨b, m, h1, h2⟩

/-- **C73** What the MySQL plugin asked for is answered by it: its commands are named `Query` and carry a `sequenceID`. -/
theorem c73_mysql_answered (gz : Bytes → Bytes) (sv : Server) (c : Cmd) (works : Bool) (h0 : 0 ≤ c.client) (hs : c.socket = some works)
    (hp : c.req.table.get sPlugin = sMySQL) (hm : sMySQL ∈ sv.plugins) (hq : sIEquals c.req.methodLine (str "Query") = true)
    (hi : (c.req.table.find (str "sequenceID")).isSome = true) : (reply gz sv c).kind = .plugin sMySQL := by
  have hne : sMySQL ≠ [] := by decide +kernel
  have ha : mysqlAsserts c = true := by unfold mysqlAsserts; rw [hq, hi]; rfl
  unfold reply
  rw [if_neg (by omega), hs]
  dsimp only
  rw [hp, if_pos hne, if_pos hm, ha, if_neg (by simp)]

/-- **C73** So for every other plugin, whatever the command. -/
theorem c73_plugin_answers (gz : Bytes → Bytes) (sv : Server) (c : Cmd) (works : Bool) (p : Bytes) (h0 : 0 ≤ c.client) (hs : c.socket = some works)
    (hp : c.req.table.get sPlugin = p) (hne : p ≠ []) (hm : p ∈ sv.plugins) (hx : p ≠ sMySQL) : (reply gz sv c).kind = .plugin p := by
  unfold reply
  rw [if_neg (by omega), hs]
  dsimp only
  rw [hp, if_pos hne, if_pos hm, if_neg (fun h => hx h.1)]

end Bedrock.Reply.Props
