import Verif.Props.Response
import Verif.Props.Head
/-!
# C60: a connection that is not upgraded is handed back whole
-/

namespace WS

open Spec

/-- What `accept` of a blocking server makes of one connection. `stream` is the connection after TLS, if the server speaks TLS. -/
inductive HandedBack [B64] (p : ReqParser) (stream : Duplex) : InvalidConnection Buffer → Prop
  /-- No request in the bytes: all of them are handed back. -/
  | unreadable {inv s} (h1 : inv.stream = some s) (h2 : inv.parsed = none) (h3 : unread inv.buffer ++ s.input.flat = stream.input.flat)
      (h4 : s.output = stream.output) (h5 : inv.error = .parsing) : HandedBack p stream inv
  /-- A request, but not a websocket one: the request, what follows it, and why. -/
  | notWebsocket {inv s r n} (h1 : inv.stream = some s) (h2 : inv.parsed = some r) (h3 : p.parse stream.input.flat = .complete r n)
      (h4 : unread inv.buffer ++ s.input.flat = stream.input.flat.drop n) (h5 : s.output = stream.output)
      (h6 : validate r.subject.method r.version r.headers = .error inv.error) : HandedBack p stream inv

theorem intoWs_fails [B64] (p : ReqParser) (d : Duplex) (f : IntoWsFail (Option Buffer)) (h : intoWs p d = .error f) :
    HandedBack p d ⟨some f.stream, f.request, f.buffer, f.error⟩ := by
  have h1 := C41_into_ws p d
  have h2 := C45_into_ws_silent p d
  rw [h] at h1 h2
  simp only at h1 h2
  unfold intoWs at h
  cases hx : parseHead p (BufReader.new d) with
  | mk request reader =>
    rw [hx] at h
    simp only [BufReader.intoParts] at h
    cases request with
    | error e =>
      simp only [Except.error.injEq] at h
      subst h
      exact .unreadable rfl rfl h1 h2 rfl
    | ok m =>
      simp only at h
      split at h
      · cases h
      · next e hv =>
        simp only [Except.error.injEq] at h
        subst h
        obtain ⟨n, q1, q2⟩ := h1
        exact .notWebsocket rfl rfl q1 q2 h2 hv

/-- C60, blocking servers. If the operating system gives no connection, the error says so. If TLS fails, nothing of the connection is handed out,
in particular not the plain stream. Otherwise the connection (the TLS one on a TLS server) is upgraded or handed back whole, and no byte was
written on it. -/
theorem C60_accept [B64] (p : ReqParser) (listener : Except IoKind Duplex) (tls : Option (Except Unit Duplex)) :
    match listener, tls with
    | .error k, _ => serverAccept p listener tls = .error ⟨none, none, none, .io k⟩
    | .ok _, some (.error _) => serverAccept p listener tls = .error ⟨none, none, none, .io .other⟩
    | .ok _, some (.ok secure) => (∃ u, serverAccept p listener tls = .ok u ∧ intoWs p secure = .ok u) ∨
        ∃ inv, serverAccept p listener tls = .error inv ∧ HandedBack p secure inv
    | .ok tcp, none => (∃ u, serverAccept p listener tls = .ok u ∧ intoWs p tcp = .ok u) ∨
        ∃ inv, serverAccept p listener tls = .error inv ∧ HandedBack p tcp inv := by
  have key : ∀ d : Duplex, (∃ u, (match intoWs p d with | .ok u => Except.ok u | .error ⟨s, r, b, e⟩ => Except.error (⟨some s, r, b, e⟩ : InvalidConnection Buffer)) = .ok u ∧
        intoWs p d = .ok u) ∨
      ∃ inv, (match intoWs p d with | .ok u => Except.ok u | .error ⟨s, r, b, e⟩ => Except.error (⟨some s, r, b, e⟩ : InvalidConnection Buffer)) = .error inv ∧ HandedBack p d inv := by
    intro d
    cases h : intoWs p d with
    | ok u => exact .inl ⟨u, rfl, rfl⟩
    | error f => exact .inr ⟨_, rfl, intoWs_fails p d f h⟩
  cases listener with
  | error k => rfl
  | ok tcp =>
    cases tls with
    | none => exact key tcp
    | some r =>
      cases r with
      | error e => rfl
      | ok secure => exact key secure

/-- What an async server makes of one connection that was not upgraded. -/
inductive AsyncHandedBack [B64] (p : ReqParser) (stream : Duplex) : InvalidConnection Bytes → Prop
  /-- No request was found: the error is one of reading. -/
  | unreadable {inv s} (h1 : inv.stream = some s) (h2 : inv.parsed = none) (h3 : s.output = stream.output)
      (h4 : inv.error = .parsing ∨ ∃ k, inv.error = .io k) : AsyncHandedBack p stream inv
  /-- A request, but not a websocket one. -/
  | notWebsocket {inv s r} (h1 : inv.stream = some s) (h2 : inv.parsed = some r) (h3 : s.output = stream.output)
      (h4 : validate r.subject.method r.version r.headers = .error inv.error) : AsyncHandedBack p stream inv

theorem asyncIntoWs_fails [B64] (p : ReqParser) (d : Duplex) (f : IntoWsFail Bytes) (h : asyncIntoWs p d = .error f) :
    AsyncHandedBack p d ⟨some f.stream, f.request, some f.buffer, f.error⟩ := by
  have h2 := C45_async_into_ws_silent p d
  rw [h] at h2
  simp only at h2
  unfold asyncIntoWs at h
  cases hx : (Framed.new ()).next (httpDecoder p) d.input with
  | mk x y =>
    obtain ⟨fr, s⟩ := y
    rw [hx] at h
    cases x with
    | item msg =>
      simp only at h
      split at h
      · cases h
      · next e hv =>
        simp only [Except.error.injEq] at h
        subst h
        exact .notWebsocket rfl rfl h2 hv
    | done =>
      simp only [Except.error.injEq] at h
      subst h
      exact .unreadable rfl rfl h2 (.inr ⟨_, rfl⟩)
    | err e =>
      simp only [Except.error.injEq] at h
      subst h
      refine .unreadable rfl rfl h2 ?_
      unfold IntoWsErr.ofCodec
      split <;> first | exact .inl rfl | exact .inr ⟨_, rfl⟩
    | panic w =>
      simp only [Except.error.injEq] at h
      subst h
      exact .unreadable rfl rfl h2 (.inl rfl)

/-- C60, async servers. Which bytes are in the buffer is said by C41 (`C41_async_into_ws_partial`, `C41_async_no_head`). -/
theorem C60_async_accept [B64] (p : ReqParser) (listener : Except IoKind Duplex) (tls : Option (Except Unit Duplex)) :
    match listener, tls with
    | .error k, _ => asyncServerAccept p listener tls = .error ⟨none, none, none, .io k⟩
    | .ok _, some (.error _) => asyncServerAccept p listener tls = .error ⟨none, none, none, .io .other⟩
    | .ok _, some (.ok secure) => (∃ u, asyncServerAccept p listener tls = .ok u ∧ asyncIntoWs p secure = .ok u) ∨
        ∃ inv, asyncServerAccept p listener tls = .error inv ∧ AsyncHandedBack p secure inv
    | .ok tcp, none => (∃ u, asyncServerAccept p listener tls = .ok u ∧ asyncIntoWs p tcp = .ok u) ∨
        ∃ inv, asyncServerAccept p listener tls = .error inv ∧ AsyncHandedBack p tcp inv := by
  have key : ∀ d : Duplex, (∃ u, (match asyncIntoWs p d with | .ok u => Except.ok u | .error ⟨s, r, b, e⟩ => Except.error (⟨some s, r, some b, e⟩ : InvalidConnection Bytes)) = .ok u ∧
        asyncIntoWs p d = .ok u) ∨
      ∃ inv, (match asyncIntoWs p d with | .ok u => Except.ok u | .error ⟨s, r, b, e⟩ => Except.error (⟨some s, r, some b, e⟩ : InvalidConnection Bytes)) = .error inv ∧
        AsyncHandedBack p d inv := by
    intro d
    cases h : asyncIntoWs p d with
    | ok u => exact .inl ⟨u, rfl, rfl⟩
    | error f => exact .inr ⟨_, rfl, asyncIntoWs_fails p d f h⟩
  cases listener with
  | error k => rfl
  | ok tcp =>
    cases tls with
    | none => exact key tcp
    | some r =>
      cases r with
      | error e => rfl
      | ok secure => exact key secure

/-- C60: a request parsed elsewhere is validated like any other; either way stream and request are as they were. -/
theorem C60_parsed [B64] (d : Duplex) (request : Request) (buffer : Option Buffer) :
    (validate request.subject.method request.version request.headers = .ok () ∧ ∃ u, intoWsParsed d request buffer = .ok u ∧ u.stream = d ∧
      u.request = request ∧ u.buffer = buffer ∧ u.headers = []) ∨
    ∃ e, validate request.subject.method request.version request.headers = .error e ∧ intoWsParsed d request buffer = .error (d, request, e) := by
  unfold intoWsParsed
  cases h : validate request.subject.method request.version request.headers with
  | ok _ => exact .inl ⟨rfl, _, rfl, rfl, rfl, rfl, rfl⟩
  | error e => exact .inr ⟨e, rfl, rfl⟩

/-- C41, requests parsed by hyper's server: the connection reads on with the bytes hyper had buffered, then the stream. -/
theorem C41_parsed [B64] (d : Duplex) (request : Request) (buffer : Option Buffer) (u : SyncUpgrade) (h : intoWsParsed d request buffer = .ok u)
    (ops : List UpgradeOp) (custom : Option Headers) (maxDf maxMsg : Nat) (c : Client)
    (ha : SyncUpgrade.internalAcceptWithLimits (u.run ops) custom maxDf maxMsg = .client c) :
    c.pending = unread buffer ++ d.input.flat := by
  rcases C60_parsed d request buffer with ⟨_, u', h1, h2, h3, h4, h5⟩ | ⟨e, _, h1⟩
  · rw [h] at h1
    cases h1
    obtain ⟨_, _, r2, r3⟩ := run_facts u ops (by rw [h5]; simp [Headers.Unique])
    rw [C41_accept (u.run ops) custom maxDf maxMsg c ha, r2, r3, h2, h4]
  · rw [h] at h1; cases h1

/-- A plain HTTP request on a websocket port, with a body: handed back with its body. -/
def plainGet : Duplex := ⟨[.chunk (ascii "POST /x HTTP/1.1\r\nHost: a\r\n\r\nbody")], ⟨[], []⟩⟩

def plainGetView : Option (Option (Method × Bytes) × Bytes × IntoWsErr) :=
  match @serverAccept B64.strict reqParser (.ok plainGet) none with
  | .ok _ => none
  | .error inv => some (inv.parsed.map fun r => (r.subject.method, r.subject.uri), unread inv.buffer, inv.error)

example : plainGetView = some (some (.other (ascii "POST"), ascii "/x"), ascii "body", .methodNotGet) := by decide +kernel

end WS
