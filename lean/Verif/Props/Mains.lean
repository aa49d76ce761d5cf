import Verif.Model.Mains
import Verif.Spec.Mains
import Verif.Props.Suite
import Verif.Props.SslChat
import Verif.Props.Chat
/-!
# C78: the chat clients from the network on

`main` of examples/client.rs, examples/async-client.rs and examples/ssl-client.rs, in any world.
-/

namespace WS
open Spec

/-- The builder of the first two programs. -/
abbrev chatBuilder : Builder := (Builder.init chatUrl).run chatOps

theorem head_append (start : Bytes) (lines : List (Bytes × Bytes)) (n v : Bytes) :
    Head start (lines ++ [(n, v)]) = start ++ ascii "\r\n" ++ lines.flatMap (fun e => e.1 ++ ascii ": " ++ e.2 ++ ascii "\r\n") ++
      (n ++ ascii ": ") ++ v ++ ascii "\r\n\r\n" := by
  have e : ascii "\r\n\r\n" = ascii "\r\n" ++ ascii "\r\n" := by decide
  unfold Head
  rw [e]
  simp [List.flatMap_append]

/-- The headers of a request before the key. -/
def keyless (b : Builder) : Headers :=
  let h := match b.url.host with
    | some _ => Headers.insert nHost (.typed (.other b.url.hostHeader)) b.headers
    | none => b.headers
  let h := if b.url.username ≠ [] then Headers.insert nAuthorization (.typed (.other b.url.basicHeader)) h else h
  let h := h.setConnection [ConnOpt.header (ascii "Upgrade")]
  let h := h.setUpgrade [⟨ProtoName.websocket, none⟩]
  if !b.versionSet then h.setVersion .ws13 else h

theorem insert_absent (name : Bytes) (it : HItem) (h : Headers) (hn : h.all (fun e => !eqIgnoreCase e.1 name) = true) :
    Headers.insert name it h = h ++ [(name, it)] := by
  induction h with
  | nil => rfl
  | cons e h ih =>
    simp only [List.all_cons, Bool.and_eq_true, Bool.not_eq_true'] at hn
    unfold Headers.insert
    rw [hn.1, ih hn.2]
    rfl

theorem requestLines_key (url : Url) (ops : List BOp) (fresh : WsKey) (hk : ((Builder.init url).run ops).keySet = false)
    (hn : (keyless ((Builder.init url).run ops)).all (fun e => !eqIgnoreCase e.1 nKey) = true) :
    requestLines url ops fresh = (keyless ((Builder.init url).run ops)).wire ++ [(nKey, fresh.serialize)] := by
  have e : requestLines url ops fresh = (Headers.setKey fresh (keyless ((Builder.init url).run ops))).wire := by
    unfold requestLines Builder.buildRequest
    simp only [hk]
    rfl
  rw [e]
  unfold Headers.setKey
  rw [insert_absent _ _ _ hn]
  unfold Headers.wire
  rw [List.flatMap_append]
  congr 1
  simp only [List.flatMap_cons, List.flatMap_nil, HItem.lines, List.map_cons, List.map_nil, List.append_nil]
  congr 2
  exact b64_one _

/-- The requests, byte for byte, for any nonce; `C31_key_text` says what the text of the key is. -/
theorem C78_requests (fresh : WsKey) :
    Head (requestStart chatUrl) (requestLines chatUrl chatOps fresh) = chatRequest fresh.serialize ∧
    Head (requestStart sslUrl) (requestLines sslUrl [] fresh) = sslRequest fresh.serialize := by
  rw [requestLines_key _ _ _ (by decide) (by decide +kernel), requestLines_key _ _ _ (by decide) (by decide +kernel), head_append, head_append]
  unfold chatRequest sslRequest
  have e1 : requestStart chatUrl ++ ascii "\r\n" ++ (keyless ((Builder.init chatUrl).run chatOps)).wire.flatMap (fun e => e.1 ++ ascii ": " ++ e.2 ++ ascii "\r\n") ++
      (nKey ++ ascii ": ") = ascii "GET / HTTP/1.1\r\nSec-WebSocket-Protocol: rust-websocket\r\nHost: 127.0.0.1:2794\r\nConnection: Upgrade\r\nUpgrade: websocket\r\nSec-WebSocket-Version: 13\r\nSec-WebSocket-Key: " := by
    decide +kernel
  have e2 : requestStart sslUrl ++ ascii "\r\n" ++ (keyless ((Builder.init sslUrl).run [])).wire.flatMap (fun e => e.1 ++ ascii ": " ++ e.2 ++ ascii "\r\n") ++
      (nKey ++ ascii ": ") = ascii "GET / HTTP/1.1\r\nHost: echo.websocket.org\r\nConnection: Upgrade\r\nUpgrade: websocket\r\nSec-WebSocket-Version: 13\r\nSec-WebSocket-Key: " := by
    decide +kernel
  rw [e1, e2]
  exact ⟨rfl, rfl⟩

/-! ## Where they go -/

/-- All calls into the network: one look-up, and then only addresses it gave are dialled, and TLS is spoken, if at all, with that host. -/
def OnlyTo (net : Net) (host : Bytes) (port : Nat) (tls : Prop) (calls : List NetCall) : Prop :=
  ∃ rest, calls = .resolve host port :: rest ∧
    ∀ c ∈ rest, (∃ addrs, net.resolve host port = .ok addrs ∧ ∃ a ∈ addrs, c = .dial a) ∨ (c = .tls host ∧ tls)

theorem chat_calls (net : Net) (calls : List NetCall)
    (h : calls = (chatBuilder.openStream net .insecure).2 ∨ calls = (chatBuilder.asyncOpenStream net .insecure).2) :
    OnlyTo net (ascii "127.0.0.1") 2794 False calls := by
  obtain ⟨port, rest, h1, h2, h3⟩ := C40_every_call chatBuilder net .insecure (ascii "127.0.0.1") (by decide) calls h
  have hp : port = 2794 := by
    have := h2.2 (.inl (by decide))
    have e : chatBuilder.url.port = some 2794 := by decide
    rw [e] at this
    simpa [DesignatedPort, eq_comm] using this
  subst hp
  exact ⟨rest, h1, fun c hc => h3 c hc⟩

theorem connect_calls_of [B64] (p : ResParser) (net : Net) (v : Variant) (fresh : WsKey) (b : Builder) :
    (b.connect p net v fresh).2.2 = (b.openStream net v).2 := by
  unfold Builder.connect
  split <;> (next h => rw [h])

theorem asyncConnect_calls_of [B64] (p : ResParser) (net : Net) (v : Variant) (fresh : WsKey) (extra : Nat) (b : Builder) :
    (b.asyncConnect p net v fresh extra).2 = (b.asyncOpenStream net v).2 := by
  unfold Builder.asyncConnect
  split <;> (next h => rw [h])

theorem ssl_known : Known (ascii "wss") := .inl (by unfold Secure; decide)

theorem ssl_port {port : Nat} (h : DesignatedPort (ascii "wss") none port) : port = 443 := by
  rcases h with h | ⟨-, -, h⟩ | ⟨-, h, -⟩
  · cases h
  · exact h
  · exact absurd h (by decide)

/-- C78, in any world: the first two programs go to 127.0.0.1, port 2794, and nowhere else, and do not speak TLS; the third goes
to echo.websocket.org, port 443. -/
theorem C78_where [B64] (p : ResParser) (t : Trip) (lines : List Bytes) (ts : List Thread) (user : List (Option OwnedMsg)) (gone : Bool) :
    OnlyTo t.net (ascii "127.0.0.1") 2794 False (chatMain p t lines ts).2 ∧
    OnlyTo t.net (ascii "127.0.0.1") 2794 False (asyncChatMain p t user gone).2.calls ∧
    OnlyTo t.net (ascii "echo.websocket.org") 443 True (sslChatMain p t user gone).2.calls := by
  refine ⟨chat_calls t.net _ (.inl ?_), chat_calls t.net _ (.inr ?_), ?_⟩
  · rw [← connect_calls_of p t.net .insecure t.fresh]
    unfold chatMain
    split <;> (try split) <;> simp only [*]
  · rw [← asyncConnect_calls_of p t.net .insecure t.fresh t.extra]
    unfold asyncChatMain
    split <;> simp only [*]
  · have hc : (sslChatMain p t user gone).2.calls = ((Builder.init sslUrl).asyncOpenStream t.net .secure).2 := by
      rw [← asyncConnect_calls_of p t.net .secure t.fresh t.extra]
      unfold sslChatMain
      split <;> simp only [*]
    obtain ⟨port, rest, h1, h2, h3⟩ := C40_every_call (Builder.init sslUrl) t.net .secure (ascii "echo.websocket.org") rfl _ (.inr hc)
    have hp : port = 443 := ssl_port (h2.2 (.inr ssl_known))
    subst hp
    exact ⟨rest, h1, fun c hc => h3 c hc⟩

/-- The third program: if anything was ever written, TLS was set up first, for that host, over a connection that had been dialled, and
the handshake was made on what TLS carries. Without TLS nothing is written. -/
theorem C78_ssl_secure [B64] (p : ResParser) (t : Trip) (user : List (Option OwnedMsg)) (gone : Bool) :
    ((sslChatMain p t user gone).2.wire ≠ none → ∃ addrs a tcp d, t.net.resolve (ascii "echo.websocket.org") 443 = .ok addrs ∧ a ∈ addrs ∧
      t.net.dial a = .ok tcp ∧ t.net.tls (ascii "echo.websocket.org") tcp = .ok d ∧
      sslChatMain p t user gone = (match (Builder.init sslUrl).asyncConnectOn p t.fresh t.extra d with
        | .client c => ((sslChat t.keys t.extra c user gone).1.map Ending.unwrapped,
            ⟨sslUrl, (sslChatMain p t user gone).2.calls, some (sslChat t.keys t.extra c user gone).2.wire⟩)
        | .err d' _ => (some .panicked, ⟨sslUrl, (sslChatMain p t user gone).2.calls, d'.map (·.output.wire)⟩)
        | .panic _ => (some .panicked, ⟨sslUrl, (sslChatMain p t user gone).2.calls, none⟩))) ∧
    ((∀ host d, t.net.tls host d = .error ()) → (sslChatMain p t user gone).1 = some .panicked ∧ (sslChatMain p t user gone).2.wire = none) := by
  cases ho : (Builder.init sslUrl).asyncOpenStream t.net .secure with
  | mk r calls =>
    cases r with
    | error e =>
      have hm : sslChatMain p t user gone = (some .panicked, ⟨sslUrl, calls, none⟩) := by
        unfold sslChatMain Builder.asyncConnect
        rw [ho]
        rfl
      rw [hm]
      exact ⟨fun h => absurd rfl h, fun _ => ⟨rfl, rfl⟩⟩
    | ok d =>
      obtain ⟨host, port, tls, h1, h2, h3, ⟨addrs, a, dials, tcp, g1, g2, g3, g4, g5, g6⟩⟩ := C40_async_reached _ t.net .secure d calls ho
      cases h1
      have hp : port = 443 := ssl_port (h2 ssl_known)
      subst hp
      have ht : tls = true := h3.mpr trivial
      obtain ⟨k1, k2⟩ := g6 ht
      refine ⟨fun _ => ⟨addrs, a, tcp, d, g1, g2, g3, k1, ?_⟩, fun hno => ?_⟩
      · unfold sslChatMain Builder.asyncConnect
        rw [ho]
        simp only
        cases (Builder.init sslUrl).asyncConnectOn p t.fresh t.extra d <;> rfl
      · rw [hno] at k1; cases k1

/-! ## Without a connection -/

/-- C78, in any world in which connecting fails: the program panics, and what it has written, if there was anything to write to, is a
part of its request. -/
theorem C78_unconnected [B64] (p : ResParser) (t : Trip) (user : List (Option OwnedMsg)) (gone : Bool) (lines : List Bytes) (ts : List Thread) :
    (∀ d e b calls, chatBuilder.connect p t.net .insecure t.fresh = (.err d e, b, calls) →
      ∃ out, chatMain p t lines ts = (.error out, calls) ∧ (out = none ∨ ∃ d0 pre, (chatBuilder.openStream t.net .insecure).1 = .ok d0 ∧
        out = some (d0.output.wire ++ pre) ∧ pre <+: chatRequest t.fresh.serialize)) ∧
    (∀ d e calls, chatBuilder.asyncConnect p t.net .insecure t.fresh t.extra = (.err d e, calls) →
      ∃ out, asyncChatMain p t user gone = (some .panicked, ⟨chatUrl, calls, out⟩) ∧ (out = none ∨ ∃ d0 pre,
        (chatBuilder.asyncOpenStream t.net .insecure).1 = .ok d0 ∧ out = some (d0.output.wire ++ pre) ∧ pre <+: chatRequest t.fresh.serialize)) ∧
    (∀ d e calls, (Builder.init sslUrl).asyncConnect p t.net .secure t.fresh t.extra = (.err d e, calls) →
      ∃ out, sslChatMain p t user gone = (some .panicked, ⟨sslUrl, calls, out⟩) ∧ (out = none ∨ ∃ d0 pre,
        ((Builder.init sslUrl).asyncOpenStream t.net .secure).1 = .ok d0 ∧ out = some (d0.output.wire ++ pre) ∧ pre <+: sslRequest t.fresh.serialize)) := by
  obtain ⟨r1, r2⟩ := C78_requests t.fresh
  refine ⟨?_, ?_, ?_⟩
  · intro d e b calls h
    refine ⟨d.map (·.output.wire), by unfold chatMain; rw [h], ?_⟩
    unfold Builder.connect at h
    split at h
    · cases h; exact .inl rfl
    · next d0 calls' ho =>
      have hx : (chatBuilder.connectOn p t.fresh d0).1 = .err d e := congrArg (fun q => q.1) h
      obtain ⟨pre, q1, q2, -⟩ := C37_request_sent p t.fresh d0 chatUrl chatOps (fun why hw => by
        rw [show ((Builder.init chatUrl).run chatOps).connectOn p t.fresh d0 = chatBuilder.connectOn p t.fresh d0 from rfl, hx] at hw
        cases hw)
      rw [show ((Builder.init chatUrl).run chatOps).connectOn p t.fresh d0 = chatBuilder.connectOn p t.fresh d0 from rfl, hx] at q1
      rw [r1] at q2
      refine .inr ⟨d0, pre, by rw [ho], ?_, q2⟩
      cases d with
      | none => cases q1
      | some d => exact q1
  · intro d e calls h
    refine ⟨d.map (·.output.wire), by unfold asyncChatMain; rw [h], ?_⟩
    unfold Builder.asyncConnect at h
    split at h
    · cases h; exact .inl rfl
    · next d0 calls' ho =>
      have hx : chatBuilder.asyncConnectOn p t.fresh t.extra d0 = .err d e := congrArg (fun q => q.1) h
      cases d with
      | none => exact .inl rfl
      | some d =>
        obtain ⟨pre, q1, q2, -⟩ := C37_async_request_sent p t.fresh t.extra d0 chatUrl chatOps d.output.wire (by
          rw [show ((Builder.init chatUrl).run chatOps).asyncConnectOn p t.fresh t.extra d0 = chatBuilder.asyncConnectOn p t.fresh t.extra d0 from rfl, hx]; rfl)
        rw [r1] at q2
        exact .inr ⟨d0, pre, by rw [ho], congrArg some q1, q2⟩
  · intro d e calls h
    refine ⟨d.map (·.output.wire), by unfold sslChatMain; rw [h], ?_⟩
    unfold Builder.asyncConnect at h
    split at h
    · cases h; exact .inl rfl
    · next d0 calls' ho =>
      have hx : ((Builder.init sslUrl).run []).asyncConnectOn p t.fresh t.extra d0 = .err d e := congrArg (fun q => q.1) h
      cases d with
      | none => exact .inl rfl
      | some d =>
        obtain ⟨pre, q1, q2, -⟩ := C37_async_request_sent p t.fresh t.extra d0 sslUrl [] d.output.wire (by rw [hx]; rfl)
        rw [r2] at q2
        exact .inr ⟨d0, pre, by rw [ho], congrArg some q1, q2⟩

/-- C78, examples/client.rs:23: if the transport cannot be cloned when the connection is split, the program panics, and it has written its request and nothing else. -/
theorem C78_not_split [B64] (p : ResParser) (t : Trip) (lines : List Bytes) (ts : List Thread) (k : IoKind) (hk : t.clone = .error k) (c : Client) (b : Builder) (calls : List NetCall)
    (h : chatBuilder.connect p t.net .insecure t.fresh = (.client c, b, calls)) :
    ∃ d0, (chatBuilder.openStream t.net .insecure).1 = .ok d0 ∧ chatMain p t lines ts = (.error (some (d0.output.wire ++ chatRequest t.fresh.serialize)), calls) := by
  have hm : chatMain p t lines ts = (.error (some c.stream.inner.output.wire), calls) := by
    unfold chatMain
    rw [h]
    simp only [hk]
    rfl
  rw [hm]
  unfold Builder.connect at h
  split at h
  · cases h
  · next d0 calls' ho =>
    have hx : (chatBuilder.connectOn p t.fresh d0).1 = .client c := congrArg (fun q => q.1) h
    obtain ⟨pre, q1, -, q3⟩ := C37_request_sent p t.fresh d0 chatUrl chatOps (fun why hw => by
      rw [show ((Builder.init chatUrl).run chatOps).connectOn p t.fresh d0 = chatBuilder.connectOn p t.fresh d0 from rfl, hx] at hw
      cases hw)
    rw [show ((Builder.init chatUrl).run chatOps).connectOn p t.fresh d0 = chatBuilder.connectOn p t.fresh d0 from rfl, hx] at q1 q3
    refine ⟨d0, by rw [ho], ?_⟩
    have q3 := q3 (by intro h; exact h)
    rw [(C78_requests t.fresh).1] at q3
    rw [← q3, ← q1]
    rfl

/-! ## With a server -/

/-- The network takes the connection, the server accepts the handshake in any segments, and `y` follows. -/
structure Welcomed (t : Trip) (d : Duplex) (y : Bytes) : Prop where
  opened : (chatBuilder.openStream t.net .insecure).1 = .ok d
  answered : ∃ lines, Answers t.fresh lines ∧ Sendable lines ∧ (head101 .http11 lines).length ≤ maxBufferSize ∧
    d.input.flat = head101 .http11 lines ++ y
  input : d.input.Chunks
  output : d.output.Willing
  clone : t.clone = .ok ()

/-- The blocking client with a server, up to any point of any schedule: it is the program of C53 on what the server sends behind its
answer, and it has written its request and then the messages taken from the channel, masked. -/
theorem C78_served [B64] (p : ResParser) (t : Trip) (d : Duplex) (y : Bytes) (h : Welcomed t d y) (lines : List Bytes)
    (hl : ∀ l ∈ lines, (Message.text l).Sendable isizeMax) (ts : List Thread) :
    ∃ s w calls bs, let c := (Chat.start lines (Receiver.newWithLimits false (100 * 2 ^ 20) (100 * 2 ^ 20)) s w t.keys).run ts
      chatMain p t lines ts = (.ok c, calls) ∧ s.Clean ∧ s.flat = y ∧ w.stream.Willing ∧ w.sender.mask = true ∧
      c.writer.stream.wire = d.output.wire ++ chatRequest t.fresh.serialize ++ bs ∧ Says true (c.taken.map OwnedMsg.spec) bs := by
  obtain ⟨rl, ha, hs, hlen, hf⟩ := h.answered
  have hk := (C35_request_asks chatUrl chatOps t.fresh (by
    intro op ho; simp only [chatOps, List.mem_singleton] at ho; subst ho
    exact ⟨(fun k h => by cases h), (fun v h => by cases h)⟩)).2
  obtain ⟨s, w, g1, g2, g3, g4, g5, g6⟩ := chat_reaches p t.fresh t.fresh chatUrl rl d y ha hs hk hlen h.input hf h.output
  obtain ⟨⟨bs, q1, q2⟩, -⟩ := C53_says false (100 * 2 ^ 20) (100 * 2 ^ 20) lines hl s w g3 t.keys ts
  rw [g5, (C78_requests t.fresh).1] at q1
  rw [g4] at q2
  refine ⟨s, w, (chatBuilder.openStream t.net .insecure).2, bs, ?_, g1, g2, g3, g4, q1, q2⟩
  have hcl := g6 lines t.keys ts
  unfold chatClient at hcl
  unfold chatMain Builder.connect
  cases ho : chatBuilder.openStream t.net .insecure with
  | mk r calls =>
    have hop := h.opened
    rw [ho] at hop
    simp only at hop
    subst hop
    simp only
    cases hx : chatBuilder.connectOn p t.fresh d with
    | mk a b =>
      rw [show ((Builder.init chatUrl).run chatOps).connectOn p t.fresh d = chatBuilder.connectOn p t.fresh d from rfl, hx] at hcl
      simp only at hcl ⊢
      cases a with
      | client c =>
        simp only at hcl ⊢
        rw [h.clone]
        cases hsp : c.split (.ok ()) with
        | ok q =>
          obtain ⟨r, w'⟩ := q
          rw [hsp] at hcl
          simp only [Except.ok.injEq] at hcl ⊢
          rw [hcl]
        | error k => rw [hsp] at hcl; cases hcl
      | err d' e => cases d' <;> cases hcl
      | panic why => cases hcl

/-- The same of the async programs, at any pace. -/
structure AsyncWelcomed (b : Builder) (v : Variant) (t : Trip) (d : Duplex) (y : Bytes) : Prop where
  opened : (b.asyncOpenStream t.net v).1 = .ok d
  answered : ∃ lines, Answers t.fresh lines ∧ Sendable lines ∧ d.input.flat = head101 .http11 lines ++ y
  input : d.input.Ready
  output : d.output.Patient

theorem welcomed_connects [B64] (p : ResParser) (t : Trip) (url : Url) (ops : List BOp) (v : Variant) (d : Duplex) (y : Bytes)
    (hops : ∀ op ∈ ops, GivesText op) (hkey : (((Builder.init url).run ops).buildRequest t.fresh).2.headers.getKey = some t.fresh)
    (hdf : ∀ d c, ((Builder.init url).run ops).asyncConnectOn p t.fresh t.extra d = .client c →
      c.read.codec = MsgCodec.newWithLimits .client (100 * 2 ^ 20) (200 * 2 ^ 20))
    (h : AsyncWelcomed ((Builder.init url).run ops) v t d y) :
    ∃ (c : AsyncClient) (calls : List NetCall) (buf : Bytes), ((Builder.init url).run ops).asyncConnect p t.net v t.fresh t.extra = (.client c, calls) ∧
      c.read = Framed.fromParts (MsgCodec.newWithLimits .client (100 * 2 ^ 20) (200 * 2 ^ 20)) buf ∧ buf ++ c.stream.input.flat = y ∧
      c.stream.input.Ready ∧ c.stream.output.Patient ∧ c.write.buf.WF ∧ c.write.buf.data = [] ∧ c.write.isServer = false ∧
      c.stream.output.wire = d.output.wire ++ Head (requestStart url) (requestLines url ops t.fresh) := by
  obtain ⟨lines, ha, hs, hf⟩ := h.answered
  have hwa := httpSend_patient (Head (requestStart url) (requestLines url ops t.fresh)) t.extra d.output h.output
  rcases C35_async_client_takes p t.fresh t.fresh url ops lines t.extra d y hops ha hs hkey (ready_iff.mp h.input) hf with
    ⟨k, hk', _⟩ | ⟨c, g1, g2, g3, g4, g5, g6, g7⟩
  · rw [hwa] at hk'; cases hk'
  · have hx : ((Builder.init url).run ops).asyncConnect p t.net v t.fresh t.extra = (.client c, (((Builder.init url).run ops).asyncOpenStream t.net v).2) := by
      unfold Builder.asyncConnect
      cases ho : ((Builder.init url).run ops).asyncOpenStream t.net v with
      | mk r0 calls =>
        have := h.opened
        rw [ho] at this
        simp only at this
        subst this
        simp only
        rw [g1]
    obtain ⟨k1, k2, k3, codec, k4⟩ := asyncConnectOn_keeps p t.fresh t.extra _ d c g1
    have hcod : codec = MsgCodec.newWithLimits .client (100 * 2 ^ 20) (200 * 2 ^ 20) := by
      have : c.read.codec = codec := by rw [k4]; rfl
      rw [← this]; exact hdf d c g1
    exact ⟨c, _, c.read.buf, hx, hcod ▸ k4, g5, ready_iff.mpr fun e he => ready_iff.mp h.input e (k1.mem he), h.output.suffix k2, k3, g3, g7, g2⟩

/-- The async client with a server: what it says on the wire is its request, then pongs for the pings and the user's messages; all of
it, if the server's stream ends between messages, and then it returns once the user has left; otherwise a part, and it panics. -/
theorem C78_async_served [B64] (p : ResParser) (t : Trip) (d : Duplex) (y : Bytes) (h : AsyncWelcomed chatBuilder .insecure t d y)
    (user : List (Option OwnedMsg)) (gone : Bool) (hu : ∀ m, some m ∈ user → m.spec.Sendable isizeMax) :
    ∃ s buf ms x us zs bs calls, s.Ready ∧ buf ++ s.flat = y ∧
      Drained (Framed.fromParts (MsgCodec.newWithLimits .client (100 * 2 ^ 20) (200 * 2 ^ 20)) buf) s ms x ∧
      us <+: user.filterMap id ∧ Merge ((ms.map OwnedMsg.spec).filterMap Message.pongFor) (us.map OwnedMsg.spec) zs ∧ Says true zs bs ∧
      ((x = .done ∧ us = user.filterMap id ∧ asyncChatMain p t user gone =
          (if gone then some .returned else none, ⟨chatUrl, calls, some (d.output.wire ++ chatRequest t.fresh.serialize ++ bs)⟩)) ∨
       (∃ e pre, x = .err e ∧ pre <+: bs ∧ asyncChatMain p t user gone =
          (some .panicked, ⟨chatUrl, calls, some (d.output.wire ++ chatRequest t.fresh.serialize ++ pre)⟩))) := by
  have hk := (C35_request_asks chatUrl chatOps t.fresh (by
    intro op ho; simp only [chatOps, List.mem_singleton] at ho; subst ho
    exact ⟨(fun k h => by cases h), (fun v h => by cases h)⟩)).2
  obtain ⟨c, calls, buf, h1, h2, h3, h4, h5, h6, h7, h8, h9⟩ := welcomed_connects p t chatUrl chatOps .insecure d y chatOps_text hk
    (fun d' c' hc => by
      have := C39_async_client_limits p t.fresh t.extra d' chatUrl chatOps c' hc
      exact codec_eq this.1 this.2.1) h
  obtain ⟨ms, x, us, zs, bs, r, w', g1, g2, g3, g4, g5, g6⟩ :=
    C64_any_input .client (100 * 2 ^ 20) (200 * 2 ^ 20) t.keys t.extra false buf c.stream.input user gone hu c.write h6 h7 c.stream.output h5
  rw [h8] at g5
  rw [(C78_requests t.fresh).1] at h9
  have hm : asyncChatMain p t user gone = (r.map Ending.unwrapped, ⟨chatUrl, calls, some w'.wire⟩) := by
    unfold asyncChatMain
    rw [h1]
    simp only
    unfold asyncChat
    rw [h2, g2]
  refine ⟨c.stream.input, buf, ms, x, us, zs, bs, calls, h4, h3, g1, g3, g4, g5, ?_⟩
  rcases g6 with ⟨q1, q2, rfl, q4⟩ | ⟨e, q1, rfl, ⟨a, q4⟩, ⟨b, q5⟩⟩
  · refine .inl ⟨q1, q2, ?_⟩
    rw [hm, q4, h9]
    cases gone <;> rfl
  · refine .inr ⟨e, a, q1, ?_, ?_⟩
    · rw [← q4, List.append_assoc, List.append_cancel_left_eq] at q5
      exact ⟨b, q5⟩
    · rw [hm, ← q4, h9]
      rfl

/-- The same for the third program, which also answers a Close with the same Close; `d` is what TLS carries. -/
theorem C78_ssl_served [B64] (p : ResParser) (t : Trip) (d : Duplex) (y : Bytes) (h : AsyncWelcomed (Builder.init sslUrl) .secure t d y)
    (user : List (Option OwnedMsg)) (gone : Bool) (hu : ∀ m, some m ∈ user → m.spec.Sendable isizeMax) :
    ∃ s buf ms x us zs bs calls, s.Ready ∧ buf ++ s.flat = y ∧
      Drained (Framed.fromParts (MsgCodec.newWithLimits .client (100 * 2 ^ 20) (200 * 2 ^ 20)) buf) s ms x ∧
      us <+: user.filterMap id ∧ Merge ((ms.map OwnedMsg.spec).filterMap Message.controlFor) (us.map OwnedMsg.spec) zs ∧ Says true zs bs ∧
      ((x = .done ∧ us = user.filterMap id ∧ sslChatMain p t user gone =
          (if gone then some .returned else none, ⟨sslUrl, calls, some (d.output.wire ++ sslRequest t.fresh.serialize ++ bs)⟩)) ∨
       (∃ e pre, x = .err e ∧ pre <+: bs ∧ sslChatMain p t user gone =
          (some .panicked, ⟨sslUrl, calls, some (d.output.wire ++ sslRequest t.fresh.serialize ++ pre)⟩))) := by
  have hk := (C35_request_asks sslUrl [] t.fresh (by simp)).2
  obtain ⟨c, calls, buf, h1, h2, h3, h4, h5, h6, h7, h8, h9⟩ := welcomed_connects p t sslUrl [] .secure d y (by simp) hk
    (fun d' c' hc => by
      have := C39_async_client_limits p t.fresh t.extra d' sslUrl [] c' hc
      exact codec_eq this.1 this.2.1) h
  obtain ⟨ms, x, us, zs, bs, r, w', g1, g2, g3, g4, g5, g6⟩ :=
    C65_any_input .client (100 * 2 ^ 20) (200 * 2 ^ 20) t.keys t.extra false buf c.stream.input user gone hu c.write h6 h7 c.stream.output h5
  rw [h8] at g5
  rw [(C78_requests t.fresh).2] at h9
  have hm : sslChatMain p t user gone = (r.map Ending.unwrapped, ⟨sslUrl, calls, some w'.wire⟩) := by
    unfold sslChatMain
    rw [show (Builder.init sslUrl).asyncConnect p t.net .secure t.fresh t.extra = (.client c, calls) from h1]
    simp only
    unfold sslChat
    rw [h2, g2]
  refine ⟨c.stream.input, buf, ms, x, us, zs, bs, calls, h4, h3, g1, g3, g4, g5, ?_⟩
  rcases g6 with ⟨q1, q2, rfl, q4⟩ | ⟨e, q1, rfl, ⟨a, q4⟩, ⟨b, q5⟩⟩
  · refine .inl ⟨q1, q2, ?_⟩
    rw [hm, q4, h9]
    cases gone <;> rfl
  · refine .inr ⟨e, a, q1, ?_, ?_⟩
    · rw [← q4, List.append_assoc, List.append_cancel_left_eq] at q5
      exact ⟨b, q5⟩
    · rw [hm, ← q4, h9]
      rfl

/-! ## Samples -/

theorem suiteTrip_welcomed (bs : Bytes) : Welcomed (suiteTrip bs) ⟨[.chunk (suiteHead ++ bs)], ⟨[], []⟩⟩ bs :=
  ⟨by with_unfolding_all rfl, ⟨_, suiteHead_answers, suiteHead_sendable, by decide +kernel, suiteTrip_flat bs⟩, suiteTrip_chunks bs, Sink.willing_of rfl, rfl⟩

theorem suiteTrip_asyncWelcomed (bs : Bytes) : AsyncWelcomed chatBuilder .insecure (suiteTrip bs) ⟨[.chunk (suiteHead ++ bs)], ⟨[], []⟩⟩ bs ∧
    AsyncWelcomed (Builder.init sslUrl) .secure (suiteTrip bs) ⟨[.chunk (suiteHead ++ bs)], ⟨[], []⟩⟩ bs :=
  ⟨⟨by with_unfolding_all rfl, ⟨_, suiteHead_answers, suiteHead_sendable, suiteTrip_flat bs⟩,
    ⟨by intro h; have := congrArg List.length h; simp [suiteHead_length] at this, trivial⟩, Sink.patient_of rfl⟩,
   ⟨by with_unfolding_all rfl, ⟨_, suiteHead_answers, suiteHead_sendable, suiteTrip_flat bs⟩,
    ⟨by intro h; have := congrArg List.length h; simp [suiteHead_length] at this, trivial⟩, Sink.patient_of rfl⟩⟩

/-- A network on which TLS fails. -/
def bareTrip : Trip := { suiteTrip [] with net := { (suiteTrip []).net with tls := fun _ _ => .error () } }

/-- The user says "hi" and leaves; the server pings and ends its stream. -/
example : (@asyncChatMain B64.strict resParser (suiteTrip [0x89, 1, 7]) [some (.text (ascii "hi")), some (.close none)] true).1 = some .returned ∧
    (@asyncChatMain B64.strict resParser (suiteTrip [0x89, 1, 7]) [some (.text (ascii "hi")), some (.close none)] true).2.calls =
      [.resolve (ascii "127.0.0.1") 2794, .dial 1] := by
  decide +kernel

/-- The third program: TLS comes after dialling; if it fails, nothing is written. -/
example : (@sslChatMain B64.strict resParser (suiteTrip [0x88, 0]) [some (.close none)] true).2.calls =
      [.resolve (ascii "echo.websocket.org") 443, .dial 1, .tls (ascii "echo.websocket.org")] ∧
    (@sslChatMain B64.strict resParser bareTrip [] true).2.wire = none := by
  decide +kernel

/-! Concrete cases of the theorems above. -/

example := @C78_where B64.strict resParser refusedTrip [ascii "hi\n"] [.main] [] true
example := (@C78_ssl_secure B64.strict resParser (suiteTrip [0x88, 0]) [some (.close none)] true).1 (by decide +kernel)
example := (@C78_ssl_secure B64.strict resParser bareTrip [] true).2 (fun _ _ => rfl)
example := (@C78_unconnected B64.strict resParser refusedTrip [] true [] []).1 none (.io .connectionReset) _ _ rfl
example := (@C78_unconnected B64.strict resParser refusedTrip [] true [] []).2.1 none (.io .connectionReset) _ rfl
example := (@C78_unconnected B64.strict resParser bareTrip [] true [] []).2.2 none .tls _ rfl
example := @C78_served B64.strict resParser (suiteTrip [0x88, 0]) _ _ (suiteTrip_welcomed _) [ascii "hi\n", ascii "/close\n"]
  (by
    intro l hl
    simp only [List.mem_cons, List.not_mem_nil, or_false] at hl
    rcases hl with rfl | rfl <;> exact ⟨isUtf8_ascii (by decide), by decide⟩)
  [.main, .main, .send, .receive, .send]
example := @C78_async_served B64.strict resParser (suiteTrip [0x89, 1, 7]) _ _ (suiteTrip_asyncWelcomed _).1 [none, some (.close none)] true (by
  intro m hm
  simp only [List.mem_cons, List.not_mem_nil, reduceCtorEq, false_or, Option.some.injEq, or_false] at hm
  subst hm
  exact sendable_close _)
example := @C78_ssl_served B64.strict resParser (suiteTrip [0x88, 0]) _ _ (suiteTrip_asyncWelcomed _).2 [none, some (.close none)] true (by
  intro m hm
  simp only [List.mem_cons, List.not_mem_nil, reduceCtorEq, false_or, Option.some.injEq, or_false] at hm
  subst hm
  exact sendable_close _)
example := C78_requests sampleKey

/-- `C78_not_split`: a server is there, and the transport cannot be cloned. -/
def clonelessTrip : Trip := { suiteTrip [0x88, 0] with clone := .error .other }

example : ∃ d0, (chatBuilder.openStream clonelessTrip.net .insecure).1 = .ok d0 ∧
    (@chatMain B64.strict resParser clonelessTrip [ascii "hi\n"] [.main]).1 = .error (some (d0.output.wire ++ chatRequest clonelessTrip.fresh.serialize)) := by
  have hc : (match (@Builder.connect B64.strict resParser clonelessTrip.net .insecure clonelessTrip.fresh chatBuilder).1 with | .client _ => true | _ => false) = true := by decide +kernel
  cases hx : @Builder.connect B64.strict resParser clonelessTrip.net .insecure clonelessTrip.fresh chatBuilder with
  | mk r q =>
    rw [hx] at hc
    cases r with
    | client c =>
      obtain ⟨d0, h1, h2⟩ := @C78_not_split B64.strict resParser clonelessTrip [ascii "hi\n"] [.main] .other rfl c _ _ hx
      exact ⟨d0, h1, by rw [h2]⟩
    | err d e => cases hc
    | panic w => cases hc

end WS
