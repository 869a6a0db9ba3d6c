import Verif.Model.Outgoing
import Verif.Props.SocketsIn
import Verif.Props.Address
import Verif.Props.Control
import Verif.Lemmas.Origin

/-!
# C127: sending a request to another server
-/

namespace Bedrock.Outgoing.Props
open Bedrock.Text Bedrock.Http Bedrock.Address Bedrock.Outgoing
open Bedrock.Sockets (Sock Wr Op secure proxied plain connectText)

theorem parts {e : Env} {gz : Bytes → Bytes} {url : Bytes} {req req' : Msg} {allow : Bool} {w : Wr} {r : Route} {s : Sock}
    (h : httpsSend e gz url req allow w = .sent r req' s) :
    route e url allow = some r ∧ e.blockingCommit = false ∧ hostIsValid r.address = true ∧ e.opens r.address = true ∧
    req' = r.request req ∧ ∃ b, compose gz req' = some b ∧ ∃ a, (r.sock e).send b w = .ok s a := by
  unfold httpsSend at h
  cases hr : route e url allow with
  | none =>
    simp only [hr] at h
    split at h <;> exact absurd h (by simp)
  | some r' =>
    simp only [hr] at h
    cases hb : e.blockingCommit with
    | true => simp [hb] at h
    | false =>
      simp only [hb, Bool.false_eq_true, if_false] at h
      cases hv : hostIsValid r'.address with
      | false => simp [hv] at h
      | true =>
        simp only [hv, Bool.not_true, Bool.false_eq_true, if_false] at h
        cases ho : e.opens r'.address with
        | false => simp [ho] at h
        | true =>
          simp only [ho, Bool.not_true, Bool.false_eq_true, if_false] at h
          cases hc : compose gz (r'.request req) with
          | none => simp [hc] at h
          | some b =>
            simp only [hc] at h
            cases hs : (r'.sock e).send b w with
            | ok s' a =>
              simp only [hs, Out.sent.injEq] at h
              obtain ⟨rfl, rfl, rfl⟩ := h
              exact ⟨rfl, rfl, hv, ho, rfl, b, hc, a, hs⟩
            | throws s' => simp [hs] at h
            | ub => simp [hs] at h

/-- The host of a URL, as the text between `//` and the next `/`. -/
def hostOf (url : Bytes) : Bytes := ((url.dropWhile (· ≠ 47)).drop 2).takeWhile (· ≠ 47)

theorem parse_https {url : Bytes} (h : sHttps <+: url) : ∃ p, parseUri url = some (hostOf url, p) := by
  obtain ⟨t, rfl⟩ := h
  refine ⟨if t.dropWhile (· ≠ 47) = [] then [47] else t.dropWhile (· ≠ 47), ?_⟩
  have e : sHttps ++ t = 104 :: 116 :: 116 :: 112 :: 115 :: 58 :: 47 :: 47 :: t := by
    have : sHttps = [104, 116, 116, 112, 115, 58, 47, 47] := by decide +kernel
    rw [this]; rfl
  have h1 : sHttp.isPrefixOf (sHttps ++ t) = false := by
    have : sHttp = [104, 116, 116, 112, 58, 47, 47] := by decide +kernel
    rw [this, e]; simp [List.isPrefixOf]
  have h2 : sHttps.isPrefixOf (sHttps ++ t) = true := List.isPrefixOf_iff_prefix.2 (List.prefix_append _ _)
  have h3 : (sHttps ++ t).drop 8 = t := by rw [e]; rfl
  have h4 : hostOf (sHttps ++ t) = t.takeWhile (· ≠ 47) := by rw [e]; simp [hostOf]
  rw [h4]
  unfold parseUri
  rw [h1, h2, h3]
  rfl

theorem parse_http {url : Bytes} (h : sHttp <+: url) : ∃ p, parseUri url = some (hostOf url, p) := by
  obtain ⟨t, rfl⟩ := h
  refine ⟨if t.dropWhile (· ≠ 47) = [] then [47] else t.dropWhile (· ≠ 47), ?_⟩
  have e : sHttp ++ t = 104 :: 116 :: 116 :: 112 :: 58 :: 47 :: 47 :: t := by
    have : sHttp = [104, 116, 116, 112, 58, 47, 47] := by decide +kernel
    rw [this]; rfl
  have h2 : sHttp.isPrefixOf (sHttp ++ t) = true := List.isPrefixOf_iff_prefix.2 (List.prefix_append _ _)
  have h3 : (sHttp ++ t).drop 7 = t := by rw [e]; rfl
  have h4 : hostOf (sHttp ++ t) = t.takeWhile (· ≠ 47) := by rw [e]; simp [hostOf]
  rw [h4]
  unfold parseUri
  rw [h2, h3]
  rfl

theorem http_not_https {url : Bytes} (h : sHttp <+: url) : sHttps.isPrefixOf url = false := by
  obtain ⟨t, rfl⟩ := h
  have e1 : sHttp = [104, 116, 116, 112, 58, 47, 47] := by decide +kernel
  have e2 : sHttps = [104, 116, 116, 112, 115, 58, 47, 47] := by decide +kernel
  rw [e1, e2]
  simp [List.isPrefixOf]

/-- **C127, secrecy.** A request to an `https://` URL is never written in the clear, whatever happens on the connection afterwards: in
the clear go at most (a beginning of) the CONNECT for the host of the URL, and only to the proxy, when one is configured and allowed;
what goes into the encrypted stream is (a beginning of) the request. -/
theorem c127_encrypted (e : Env) (gz : Bytes → Bytes) (url : Bytes) (req req' : Msg) (allow : Bool) (w : Wr) (r : Route) (s s' : Sock)
    (ops : List Op) (hu : sHttps <+: url) (h : httpsSend e gz url req allow w = .sent r req' s) (hq : ∀ b w, .send b w ∉ ops)
    (hs : s.run ops = some s') :
    (r = .direct (withPort (hostOf url)) true ∧ s'.wire = [] ∨
      allow = true ∧ e.proxy ≠ [] ∧ ∃ c, connectText (withPort (hostOf url)) e.requestID = some c ∧ s'.wire <+: c ∧
        ∃ a p, parseUri e.proxy = some (a, p) ∧ r = .proxy a (withPort (hostOf url))) ∧
    ∀ t, s'.tls = some t → ∃ b, compose gz req' = some b ∧ t.stream <+: b := by
  obtain ⟨hr, -, hv, -, -, b, hc, a, hsend⟩ := parts h
  obtain ⟨p, hp⟩ := parse_https hu
  have hi : sHttps.isPrefixOf url = true := List.isPrefixOf_iff_prefix.2 hu
  have hrun : (r.sock e).run (.send b w :: ops) = some s' := by
    simp only [Sock.run, Sock.step, hsend, Sockets.Out.sock, Option.bind_some]
    exact hs
  unfold route at hr
  rw [hp] at hr
  simp only [hi, Bool.true_and] at hr
  by_cases c : allow = true ∧ e.proxy ≠ []
  · have cc : (allow && e.proxy != []) = true := by simp [c.1, c.2]
    rw [if_pos cc] at hr
    simp only [Option.some.injEq] at hr
    subst hr
    have hpx : ∃ a p, parseUri e.proxy = some (a, p) := by
      cases hx : parseUri e.proxy with
      | none =>
        exfalso
        rw [hx] at hv
        have : hostIsValid (Route.proxy [] (withPort (hostOf url))).address = false := by
          simp only [Route.address]; decide +kernel
        simp only [Option.elim_none] at hv
        rw [this] at hv
        cases hv
      | some ap => exact ⟨ap.1, ap.2, rfl⟩
    obtain ⟨pa, pp, hpx⟩ := hpx
    have hct : (connectText (withPort (hostOf url)) e.requestID).isSome := by
      cases hx : connectText (withPort (hostOf url)) e.requestID with
      | some c => rfl
      | none =>
        exfalso
        have : (proxied (withPort (hostOf url)) e.requestID).send b w = .throws (proxied (withPort (hostOf url)) e.requestID) := by
          simp [Sock.send, proxied, Sockets.State.sendable, hx]
        simp only [Route.sock] at hsend
        rw [this] at hsend
        cases hsend
    obtain ⟨c', hc'⟩ := Option.isSome_iff_exists.1 hct
    refine ⟨.inr ⟨c.1, c.2, c', hc', ?_, pa, pp, hpx, by simp [hpx]⟩, ?_⟩
    · rcases Sockets.Props.c90_proxy_clear _ _ _ _ hrun with h0 | ⟨c'', h1, h2⟩
      · rw [h0]; exact List.nil_prefix
      · rw [hc'] at h1
        cases h1
        exact h2
    · intro t ht
      exact ⟨b, hc, (Sockets.Props.c90_one_request _ _ b w ops hq s' hct hrun t ht).1⟩
  · have cc : (allow && e.proxy != []) = false := by
      cases allow with
      | false => rfl
      | true =>
        have : e.proxy = [] := Classical.byContradiction fun hne => c ⟨rfl, hne⟩
        simp [this]
    rw [if_neg (by rw [cc]; decide)] at hr
    simp only [Option.some.injEq] at hr
    subst hr
    obtain ⟨h1, t, h2, h3, -⟩ := Sockets.Props.c89_tls_one_request e.maxLen b w ops hq s' hrun
    refine ⟨.inl ⟨rfl, h1⟩, ?_⟩
    intro t' ht'
    rw [h2] at ht'
    cases ht'
    exact ⟨b, hc, h3⟩

/-- **C127, what is sent.** Without a proxy the request goes out as it was given; through a proxy without a header `Connection`, in
whatever case it is written, and otherwise as it was given. -/
theorem c127_request (e : Env) (gz : Bytes → Bytes) (url : Bytes) (req req' : Msg) (allow : Bool) (w : Wr) (r : Route) (s : Sock)
    (h : httpsSend e gz url req allow w = .sent r req' s) (hs : req.table.Sorted) :
    req'.methodLine = req.methodLine ∧ req'.content = req.content ∧
    ((∃ host tls, r = .direct host tls) → req' = req) ∧
    ((∃ a host, r = .proxy a host) → ∀ n, req'.table.find n = if sToLower n = sToLower sConnection then none else req.table.find n) := by
  obtain ⟨-, -, -, -, rfl, -⟩ := parts h
  cases r with
  | direct host tls => exact ⟨rfl, rfl, fun _ => rfl, fun ⟨_, _, hh⟩ => by cases hh⟩
  | proxy a host =>
    refine ⟨rfl, rfl, (fun ⟨_, _, hh⟩ => by cases hh), fun _ n => ?_⟩
    simp only [Route.request]
    by_cases c : sToLower n = sToLower sConnection
    · rw [if_pos c]; exact Origin.find_erase_same _ _ hs c
    · rw [if_neg c]; exact Control.Props.find_erase_other _ _ _ c

/-- **C127, the blocking-commit thread** sends nothing and opens nothing. -/
theorem c127_refused (e : Env) (gz : Bytes → Bytes) (url : Bytes) (req : Msg) (allow : Bool) (w : Wr)
    (h : e.blockingCommit = true) : httpsSend e gz url req allow w = .refused := by
  unfold httpsSend
  cases route e url allow <;> simp [h]

/-- **C127, failing.** Elsewhere, when the URL is of another kind or the connection cannot be opened, the caller gets a request that is
complete, with response 503; that is the only way to get one that is complete at once. -/
theorem c127_failed (e : Env) (gz : Bytes → Bytes) (url : Bytes) (req : Msg) (allow : Bool) (w : Wr) (h : e.blockingCommit = false) :
    (¬ (sHttp <+: url ∨ sHttps <+: url) → httpsSend e gz url req allow w = .failed) ∧
    (∀ r, route e url allow = some r → hostIsValid r.address = true → e.opens r.address = false →
      httpsSend e gz url req allow w = .failed) ∧
    (∀ c, (httpsSend e gz url req allow w).response = some c → c ≠ 0 →
      c = 503 ∧ httpsSend e gz url req allow w = .failed ∧
      (Https.areComplete { responses := [c] }).1 = true) := by
  refine ⟨?_, ?_, ?_⟩
  · intro hn
    have h1 : sHttp.isPrefixOf url = false := by
      cases hx : sHttp.isPrefixOf url with
      | false => rfl
      | true => exact absurd (.inl (List.isPrefixOf_iff_prefix.1 hx)) hn
    have h2 : sHttps.isPrefixOf url = false := by
      cases hx : sHttps.isPrefixOf url with
      | false => rfl
      | true => exact absurd (.inr (List.isPrefixOf_iff_prefix.1 hx)) hn
    have h3 : parseUri url = none := by unfold parseUri; rw [h1, h2]; rfl
    simp [httpsSend, route, h3, h]
  · intro r hr hv ho
    simp [httpsSend, hr, h, hv, ho]
  · intro c hc h0
    cases ho : httpsSend e gz url req allow w with
    | failed =>
      rw [ho] at hc
      simp only [Out.response, Option.some.injEq] at hc
      subst hc
      exact ⟨rfl, rfl, by decide⟩
    | sent r q s =>
      rw [ho] at hc
      simp only [Out.response, Option.some.injEq] at hc
      exact absurd hc.symm h0
    | _ => rw [ho] at hc; simp [Out.response] at hc

theorem valid_withPort (h : Bytes) (h1 : h ≠ []) (h2 : 58 ∉ h) : hostIsValid (withPort h) = true := by
  have e : withPort h = composeHost h 443 := by
    simp only [withPort, h2, if_false, composeHost]
    have : str ":443" = [58] ++ natDec 443 := by decide +kernel
    rw [this, List.append_assoc]
  rw [e, hostIsValid, Address.Props.c87_host h 443 h1 h2 (by omega)]
  rfl

/-- **C127, no proxy.** Without a proxy, a URL whose host has a name, and no port or a number below 65536, never ends the
process. -/
theorem c127_no_abort (e : Env) (gz : Bytes → Bytes) (url : Bytes) (req : Msg) (allow : Bool) (w : Wr)
    (hp : allow = false ∨ e.proxy = []) (domain : Bytes) (h1 : domain ≠ []) (h2 : 58 ∉ domain)
    (hu : hostOf url = domain ∨ ∃ port < 65536, hostOf url = composeHost domain port) :
    httpsSend e gz url req allow w ≠ .aborts := by
  have key : ∀ r, route e url allow = some r → hostIsValid r.address = true := by
    intro r hr
    unfold route at hr
    have hx : ∀ b : Bool, (b && allow && e.proxy != []) = false := by
      intro b
      rcases hp with rfl | hp
      · simp
      · simp [hp]
    cases hpar : parseUri url with
    | none => rw [hpar] at hr; cases hr
    | some q =>
      obtain ⟨host, path⟩ := q
      have hh : host = hostOf url := by
        by_cases c1 : sHttp <+: url
        · obtain ⟨p, hp⟩ := parse_http c1
          rw [hp] at hpar; cases hpar; rfl
        · by_cases c2 : sHttps <+: url
          · obtain ⟨p, hp⟩ := parse_https c2
            rw [hp] at hpar; cases hpar; rfl
          · exfalso
            have h1 : sHttp.isPrefixOf url = false := by
              cases hx : sHttp.isPrefixOf url with
              | false => rfl
              | true => exact absurd (List.isPrefixOf_iff_prefix.1 hx) c1
            have h2 : sHttps.isPrefixOf url = false := by
              cases hx : sHttps.isPrefixOf url with
              | false => rfl
              | true => exact absurd (List.isPrefixOf_iff_prefix.1 hx) c2
            unfold parseUri at hpar
            rw [h1, h2] at hpar
            cases hpar
      subst hh
      rw [hpar] at hr
      simp only [hx, Bool.false_eq_true, if_false, Option.some.injEq] at hr
      subst hr
      simp only [Route.address]
      rcases hu with hu | ⟨port, hport, hu⟩
      · rw [hu]; exact valid_withPort domain h1 h2
      · have : withPort (composeHost domain port) = composeHost domain port := by
          have : 58 ∈ composeHost domain port := by simp [composeHost]
          simp [withPort, this]
        rw [hu, this, hostIsValid, Address.Props.c87_host domain port h1 h2 hport]
        rfl
  unfold httpsSend
  cases hr : route e url allow with
  | none => simp only; split <;> simp
  | some r =>
    simp only
    rw [key r hr]
    split
    · simp
    · simp only [Bool.not_true, Bool.false_eq_true, if_false]
      split
      · simp
      · split
        · simp
        · split <;> simp

/-- **C127, but** a port that is too large, or none after the colon, or no host at all in the URL, ends the process where the comment
promises an answer; and so does an address of a proxy without `http://` or without a port, for every request that may use it. -/
theorem c127_aborts (e : Env) (gz : Bytes → Bytes) (req : Msg) (w : Wr) (h : e.blockingCommit = false) :
    httpsSend e gz (str "https://example.com:99999/") req false w = .aborts ∧
    httpsSend e gz (str "https://example.com:/") req false w = .aborts ∧
    httpsSend e gz (str "https:///x") req false w = .aborts ∧
    (e.proxy = str "proxy.example.com:3128" ∨ e.proxy = str "http://proxy.example.com" →
      ∀ url, sHttps <+: url → httpsSend e gz url req true w = .aborts) := by
  have key : ∀ url r, route e url false = some r → hostIsValid r.address = false → httpsSend e gz url req false w = .aborts := by
    intro url r hr hv
    simp [httpsSend, hr, h, hv]
  have dir : ∀ url host p, parseUri url = some (host, p) → route e url false = some (.direct (withPort host) (sHttps.isPrefixOf url)) := by
    intro url host p hp
    simp [route, hp]
  refine ⟨key _ _ (dir _ (str "example.com:99999") (str "/") (by decide +kernel)) (by simp only [Route.address]; decide +kernel),
    key _ _ (dir _ (str "example.com:") (str "/") (by decide +kernel)) (by simp only [Route.address]; decide +kernel),
    key _ _ (dir _ [] (str "/x") (by decide +kernel)) (by simp only [Route.address]; decide +kernel), ?_⟩
  intro hp url hu
  obtain ⟨p, hpar⟩ := parse_https hu
  have hi : sHttps.isPrefixOf url = true := List.isPrefixOf_iff_prefix.2 hu
  have hr : route e url true = some (.proxy ((parseUri e.proxy).elim [] (·.1)) (withPort (hostOf url))) := by
    have hne : (e.proxy != []) = true := by
      rcases hp with hp | hp <;> rw [hp] <;> decide +kernel
    simp only [route, hpar, hi, hne, Bool.and_self, if_true]
  have hv : hostIsValid ((parseUri e.proxy).elim [] (·.1)) = false := by
    rcases hp with hp | hp <;> rw [hp] <;> decide +kernel
  simp [httpsSend, hr, h, Route.address, hv]

/-- **C127, and** a URL with `http://` and no port is sent in the clear to port 443. -/
theorem c127_plain_443 (e : Env) (allow : Bool) (url : Bytes) (hu : sHttp <+: url) (hc : 58 ∉ hostOf url) :
    route e url allow = some (.direct (hostOf url ++ str ":443") false) := by
  obtain ⟨p, hp⟩ := parse_http hu
  simp [route, hp, http_not_https hu, withPort, hc]

/-- A request through a proxy and one without. -/
example : httpsSend { proxy := str "http://proxy:3128", opens := fun _ => true } (fun b => b) (str "https://api.example.com/v1")
      { methodLine := str "GET /v1 HTTP/1.1", table := [(str "connection", str "close"), (str "Host", str "api.example.com")] } true
      ⟨.sent 100, .notReady⟩ =
    .sent (.proxy (str "proxy:3128") (str "api.example.com:443"))
      { methodLine := str "GET /v1 HTTP/1.1", table := [(str "Host", str "api.example.com")] }
      { proxy := some { host := str "api.example.com:443", requestID := [], filled := true, pre := [] }
        wire := str "CONNECT api.example.com:443 HTTP/1.1\r\nHost: api.example.com:443\r\nContent-Length: 0\r\n\r\n"
        sendBuf := str "GET /v1 HTTP/1.1\r\nHost: api.example.com\r\nContent-Length: 0\r\n\r\n" } := by decide +kernel

example : (httpsSend { opens := fun _ => true } (fun b => b) (str "https://api.example.com:8443/v1")
      { methodLine := str "GET /v1 HTTP/1.1", table := [(str "Connection", str "close")] } true ⟨.sent 100, .notReady⟩) =
    .sent (.direct (str "api.example.com:8443") true) { methodLine := str "GET /v1 HTTP/1.1", table := [(str "Connection", str "close")] }
      { tls := some { maxLen := 16384 }
        sendBuf := str "GET /v1 HTTP/1.1\r\nConnection: close\r\nContent-Length: 0\r\n\r\n" } := by decide +kernel

example : hostOf (str "https://api.example.com:8443/v1") = composeHost (str "api.example.com") 8443 := by decide +kernel

end Bedrock.Outgoing.Props
