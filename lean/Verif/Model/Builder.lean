import Verif.Model.Server
/-!
# The client side of the handshake (src/client/builder.rs)

URLs are parsed by the `url` crate (1.x); the model starts from the parsed parts. The network (name
resolution, TCP, TLS) is an input, and every call into it is logged.
-/

namespace WS

/-- The parts of a `url::Url` the builder looks at. -/
structure Url where
  /-- `scheme()`: lower case -/
  scheme : Bytes
  /-- `host_str()`; `host()` is `None` exactly if this is -/
  host : Option Bytes
  /-- `port()`: the explicit port unless it is the default of the scheme -/
  port : Option Nat
  /-- `username()`: percent-encoded, so without `:`; empty if there is none -/
  username : Bytes
  /-- `password()`: percent-encoded -/
  password : Option Bytes
  /-- `path()` -/
  path : Bytes
  /-- `query()`: without the `?` -/
  query : Option Bytes
  /-- `fragment()`: without the `#` -/
  fragment : Option Bytes
  deriving DecidableEq, Repr

/-- `Host { hostname: host_str, port }` (src/client/builder.rs:847-850) as formatted by hyper 0.10
(header/common/host.rs, trusted dependency model): the ports 80 and 443 are left out whatever the
scheme. -/
def Url.hostHeader (u : Url) : Bytes :=
  match u.host with
  | none => []
  | some host =>
    match u.port with
    | none => host
    | some p => if p = 80 ∨ p = 443 then host else host ++ 58 :: decimal p

/-- `Authorization(Basic { username, password })` (src/client/builder.rs:855-861) as formatted by
hyper 0.10 (header/common/authorization.rs, trusted dependency model). -/
def Url.basicHeader (u : Url) : Bytes :=
  ascii "Basic " ++ b64Encode (u.username ++ 58 :: u.password.getD [])

/-- `url[Position::BeforePath..Position::AfterQuery]`, src/client/builder.rs:883. -/
def Url.resource (u : Url) : Bytes :=
  u.path ++ match u.query with
    | some q => 63 :: q
    | none => []

/-- `ClientBuilder`, src/client/builder.rs:114-122. -/
structure Builder where
  url : Url
  version : HttpVersion
  headers : Headers
  versionSet : Bool
  keySet : Bool
  maxDf : Nat
  maxMsg : Nat
  deriving DecidableEq, Repr

/-- `init`, src/client/builder.rs:162-172; `from_url` (141-143) and `new` (157-160) after parsing. -/
def Builder.init (url : Url) : Builder := ⟨url, .http11, [], false, false, defaultMaxDataframe, defaultMaxMessage⟩

section
variable (b : Builder)

/-- `add_protocol`, src/client/builder.rs:186-195. -/
def Builder.addProtocol (p : Bytes) : Builder := { b with headers := b.headers.upsertProtocol [p] }
/-- `add_protocols`, src/client/builder.rs:210-222. -/
def Builder.addProtocols (ps : List Bytes) : Builder := { b with headers := b.headers.upsertProtocol ps }
/-- `clear_protocols`, src/client/builder.rs:225-228. -/
def Builder.clearProtocols : Builder := { b with headers := b.headers.remove nProtocol }
/-- `add_extension`, src/client/builder.rs:249-255. -/
def Builder.addExtension (e : Ext) : Builder := { b with headers := b.headers.upsertExtensions [e] }
/-- `add_extensions`, src/client/builder.rs:281-291. -/
def Builder.addExtensions (es : List Ext) : Builder := { b with headers := b.headers.upsertExtensions es }
/-- `clear_extensions`, src/client/builder.rs:294-297. -/
def Builder.clearExtensions : Builder := { b with headers := b.headers.remove nExtensions }
/-- `max_dataframe_size`, src/client/builder.rs:301-304. -/
def Builder.maxDataframeSize (n : Nat) : Builder := { b with maxDf := n }
/-- `max_message_size`, src/client/builder.rs:309-312. -/
def Builder.maxMessageSize (n : Nat) : Builder := { b with maxMsg := n }
/-- `key`, src/client/builder.rs:317-321. -/
def Builder.key (k : WsKey) : Builder := { b with headers := b.headers.setKey k, keySet := true }
/-- `clear_key`, src/client/builder.rs:324-328. -/
def Builder.clearKey : Builder := { b with headers := b.headers.remove nKey, keySet := false }
/-- `version`, src/client/builder.rs:334-338. -/
def Builder.setVersion (v : WsVersion) : Builder := { b with headers := b.headers.setVersion v, versionSet := true }
/-- `clear_version`, src/client/builder.rs:341-345. -/
def Builder.clearVersion : Builder := { b with headers := b.headers.remove nVersion, versionSet := false }
/-- `origin`, src/client/builder.rs:351-354. -/
def Builder.origin (o : Bytes) : Builder := { b with headers := b.headers.setOrigin o }
/-- `clear_origin`, src/client/builder.rs:357-360. -/
def Builder.clearOrigin : Builder := { b with headers := b.headers.remove nOrigin }
/-- `custom_headers`, src/client/builder.rs:377-380. -/
def Builder.customHeaders (h : Headers) : Builder := { b with headers := b.headers.extend h }
/-- `clear_header::<H>`, src/client/builder.rs:384-390, for the header called `name`. -/
def Builder.clearHeader (name : Bytes) : Builder := { b with headers := b.headers.remove name }

end

/-- `build_request`, src/client/builder.rs:844-884: the resource and the changed builder. `fresh` is
the random key `WebSocketKey::new` would draw. -/
def Builder.buildRequest (fresh : WsKey) (b : Builder) : Bytes × Builder :=
  let h := b.headers
  let h := match b.url.host with
    | some _ => Headers.insert nHost (.typed (.other b.url.hostHeader)) h
    | none => h
  let h := if b.url.username ≠ [] then Headers.insert nAuthorization (.typed (.other b.url.basicHeader)) h else h
  let h := h.setConnection [ConnOpt.header (ascii "Upgrade")]
  let h := h.setUpgrade [⟨ProtoName.websocket, none⟩]
  let h := if !b.versionSet then h.setVersion .ws13 else h
  let h := if !b.keySet then h.setKey fresh else h
  (b.url.resource, { b with headers := h })

/-- The errors of the client handshake (src/result.rs:35-65 and websocket-base `WebSocketError`). -/
inductive ConnectErr
  /-- `ProtocolError("Connection closed before handshake could complete.")` -/
  | closed
  /-- `RequestError("Request Sec-WebSocket-Key was invalid")` -/
  | request
  /-- `ResponseError("Sec-WebSocket-Accept is invalid")` -/
  | accept
  /-- `ResponseError("Upgrade field must be WebSocket")` -/
  | upgrade
  /-- `ResponseError("Connection field must be 'Upgrade'")` -/
  | connection
  | status (code : Nat)
  | redirect (code : Nat) (location : Bytes)
  /-- `HttpError` -/
  | http (e : HyperErr)
  | io (k : IoKind)
  /-- `WebSocketUrlError(NoHostName)` -/
  | noHost
  /-- `TlsError`, `TlsHandshakeFailure`, `TlsHandshakeInterruption` -/
  | tls
  deriving DecidableEq, Repr

/-- `StatusCode::is_redirection`. -/
def isRedirection (code : Nat) : Bool := 300 ≤ code && code < 400

/-- `validate`, src/client/builder.rs:887-940. The last check reads `self.headers`, not the
response's. -/
def Builder.validate [B64] (b : Builder) (response : Response) : Except ConnectErr Unit :=
  if response.subject.code ≠ 101 then
    if isRedirection response.subject.code then
      match response.headers.getLocation with
      | some x => .error (.redirect response.subject.code x)
      | none => .error (.status response.subject.code)
    else .error (.status response.subject.code)
  else
    match b.headers.getKey with
    | none => .error .request
    | some key =>
      if response.headers.getAccept ≠ some (WsAccept.new key) then .error .accept
      else if response.headers.getUpgrade ≠ some [⟨.websocket, none⟩] then .error .upgrade
      else
        match b.headers.getConnection with
        | some c => if connEq c [.header (ascii "Upgrade")] then .ok () else .error .connection
        | none => .error .connection

/-- Outcome of a blocking connect. On an error the stream is dropped; it is kept here to tell what
was written. -/
inductive ConnectRes
  | client (c : Client)
  | err (stream : Option Duplex) (e : ConnectErr)
  | panic (why : String)

/-- `connect_on`, src/client/builder.rs:502-519. -/
def Builder.connectOn [B64] (p : ResParser) (fresh : WsKey) (stream : Duplex) (b : Builder) : ConnectRes × Builder :=
  match b.buildRequest fresh with
  | (resource, b) =>
    if b.headers.writable = false then (.panic formatPanic, b)
    else
    let data := ascii "GET " ++ resource ++ [32] ++ b.version.fmt ++ crlf ++ b.headers.fmt ++ crlf
    match Sink.writeAll data stream.output with
    | (.error k, w) => (.err (some { stream with output := w }) (.io k), b)
    | (.ok (), w) =>
      match parseHead p (BufReader.new { stream with output := w }) with
      | (.error e, reader) => (.err (some reader.inner) (.http e), b)
      | (.ok response, reader) =>
        match b.validate response with
        | .error e => (.err (some reader.inner) e, b)
        | .ok () => (.client (Client.uncheckedWithLimits reader response.headers true false b.maxDf b.maxDf), b)

/-- Outcome of an async connect. -/
inductive AsyncConnectRes
  | client (c : AsyncClient)
  | err (stream : Option Duplex) (e : ConnectErr)
  | panic (why : String)

/-- `From<HttpCodecError> for WebSocketOtherError` (src/result.rs:148-155) and io errors, in the
notation of `httpDecoder`. -/
def ConnectErr.ofCodec : WsErr → ConnectErr
  | .noData => .io .unexpectedEof
  | .io k => .io k
  | _ => .http .http

/-- `async_connect_on`, src/client/builder.rs:767-812, awaited. -/
def Builder.asyncConnectOn [B64] (p : ResParser) (fresh : WsKey) (extra : Nat) (stream : Duplex) (b : Builder) : AsyncConnectRes :=
  match b.buildRequest fresh with
  | (resource, b) =>
    let request : Request := ⟨b.version, ⟨.get, resource⟩, b.headers⟩
    if b.headers.writable = false then .panic formatPanic
    else
    match httpSend (request.fmt reqLine) extra stream.output with
    | (.ready, fw, w) =>
      match (Framed.new ()).next (httpDecoder p) stream.input with
      | (x, fr, s) =>
        let io : Duplex := ⟨s, w⟩
        match x with
        | .item message =>
          match b.validate message with
          | .ok () => .client ⟨message.headers, io,
              updateFramedCodec (MsgCodec.newWithLimits .client b.maxDf b.maxMsg) fr, { fw with isServer := false }⟩
          | .error e => .err (some io) e
        | .done => .err (some io) .closed
        | .err e => .err (some io) (.ofCodec e)
        | .panic why => .panic why
    | (.notReady, _, w) => .err (some { stream with output := w }) (.io .wouldBlock)
    | (.err e, _, w) => .err (some { stream with output := w }) (.ofCodec e)
    | (.panic why, _, _) => .panic why

/-! ## Where to connect to -/

/-- `is_secure_url`, src/client/builder.rs:946-949. -/
def Builder.isSecureUrl (b : Builder) : Bool := b.url.scheme = ascii "wss" || b.url.scheme = ascii "https"

/-- `Url::port_or_known_default` (url 1.x). -/
def Url.portOrKnownDefault (u : Url) : Option Nat :=
  match u.port with
  | some p => some p
  | none =>
    if u.scheme = ascii "http" ∨ u.scheme = ascii "ws" then some 80
    else if u.scheme = ascii "https" ∨ u.scheme = ascii "wss" then some 443
    else if u.scheme = ascii "ftp" then some 21
    else if u.scheme = ascii "gopher" then some 70
    else none

/-- `extract_host_port`, src/client/builder.rs:952-972; `with_default_port` (url 1.x) asks
`port_or_known_default` first. -/
def Builder.extractHostPort (secure : Option Bool) (b : Builder) : Except ConnectErr (Bytes × Nat) :=
  match b.url.host with
  | none => .error .noHost
  | some host =>
    match b.url.portOrKnownDefault with
    | some p => .ok (host, p)
    | none => .ok (host,
        match secure with
        | none => if b.url.scheme = ascii "wss" then 443 else 80
        | some true => 443
        | some false => 80)

/-- The network, as the program finds it. -/
structure Net where
  /-- name resolution (`to_socket_addrs`); addresses are opaque -/
  resolve : Bytes → Nat → Except IoKind (List Nat)
  /-- TCP connect to one address -/
  dial : Nat → Except IoKind Duplex
  /-- a connector was given, or the default one can be built -/
  connector : Bool
  /-- TLS handshake for a host name; the stream is what TLS carries -/
  tls : Bytes → Duplex → Except Unit Duplex

/-- A call into the network. -/
inductive NetCall
  | resolve (host : Bytes) (port : Nat)
  | dial (addr : Nat)
  | tls (host : Bytes)
  deriving DecidableEq, Repr

/-- `TcpStream::connect` over the resolved addresses: the first that answers, otherwise the last
error. -/
def dialAny (net : Net) : List Nat → Except IoKind Duplex × List NetCall
  | [] => (.error .invalidInput, [])
  | [a] => (net.dial a, [.dial a])
  | a :: rest =>
    match net.dial a with
    | .ok d => (.ok d, [.dial a])
    | .error _ =>
      match dialAny net rest with
      | (r, calls) => (r, .dial a :: calls)

/-- `establish_tcp`, src/client/builder.rs:975-977. -/
def Builder.establishTcp (net : Net) (secure : Option Bool) (b : Builder) : Except ConnectErr Duplex × List NetCall :=
  match b.extractHostPort secure with
  | .error e => (.error e, [])
  | .ok (host, port) =>
    match net.resolve host port with
    | .error k => (.error (.io k), [.resolve host port])
    | .ok addrs =>
      match dialAny net addrs with
      | (.ok d, calls) => (.ok d, .resolve host port :: calls)
      | (.error k, calls) => (.error (.io k), .resolve host port :: calls)

/-- `wrap_ssl`, src/client/builder.rs:1001-1009, with `extract_host_ssl_conn`, 980-998. -/
def Builder.wrapSsl (net : Net) (tcp : Duplex) (b : Builder) : Except ConnectErr Duplex × List NetCall :=
  match b.url.host with
  | none => (.error .noHost, [])
  | some host =>
    if !net.connector then (.error .tls, [])
    else match net.tls host tcp with
      | .ok d => (.ok d, [.tls host])
      | .error () => (.error .tls, [.tls host])

/-- The ways to connect: `connect` (src/client/builder.rs:420-433), `connect_insecure` (450-454),
`connect_secure` (461-470) and their async forms (565-607, 707-722, 643-673). -/
inductive Variant
  | auto | insecure | secure
  deriving DecidableEq, Repr

/-- The argument of `establish_tcp` / `async_tcpstream`. -/
def Variant.hint : Variant → Option Bool
  | .auto => none
  | .insecure => some false
  | .secure => some true

/-- Whether the variant uses TLS on this builder. -/
def Variant.usesTls (b : Builder) : Variant → Bool
  | .auto => b.isSecureUrl
  | .insecure => false
  | .secure => true

/-- The stream the handshake runs on: src/client/builder.rs:424-430, 451, 465-467. -/
def Builder.openStream (net : Net) (v : Variant) (b : Builder) : Except ConnectErr Duplex × List NetCall :=
  match b.establishTcp net v.hint with
  | (.error e, calls) => (.error e, calls)
  | (.ok tcp, calls) =>
    if v.usesTls b then
      match b.wrapSsl net tcp with
      | (r, more) => (r, calls ++ more)
    else (.ok tcp, calls)

/-- `connect`, `connect_insecure`, `connect_secure`. -/
def Builder.connect [B64] (p : ResParser) (net : Net) (v : Variant) (fresh : WsKey) (b : Builder) :
    ConnectRes × Builder × List NetCall :=
  match b.openStream net v with
  | (.error e, calls) => (.err none e, b, calls)
  | (.ok d, calls) =>
    match b.connectOn p fresh d with
    | (r, b) => (r, b, calls)

/-- `async_tcpstream`, src/client/builder.rs:815-841: only the first address is tried. -/
def Builder.asyncTcp (net : Net) (secure : Option Bool) (b : Builder) : Except ConnectErr Duplex × List NetCall :=
  match b.extractHostPort secure with
  | .error e => (.error e, [])
  | .ok (host, port) =>
    match net.resolve host port with
    | .error k => (.error (.io k), [.resolve host port])
    | .ok [] => (.error .noHost, [.resolve host port])
    | .ok (a :: _) =>
      match net.dial a with
      | .ok d => (.ok d, [.resolve host port, .dial a])
      | .error k => (.error (.io k), [.resolve host port, .dial a])

/-- The async stream: src/client/builder.rs:570-606, 650-672, 708-721. The connector is made ready
while the TCP connect is under way, so its failure is the one reported. -/
def Builder.asyncOpenStream (net : Net) (v : Variant) (b : Builder) : Except ConnectErr Duplex × List NetCall :=
  match b.asyncTcp net v.hint with
  | (tcp, calls) =>
    if v.usesTls b then
      match b.url.host with
      | none => (.error .noHost, calls)
      | some host =>
        if !net.connector then (.error .tls, calls)
        else match tcp with
          | .error e => (.error e, calls)
          | .ok d =>
            match net.tls host d with
            | .ok s => (.ok s, calls ++ [.tls host])
            | .error () => (.error .tls, calls ++ [.tls host])
    else (tcp, calls)

/-- `async_connect`, `async_connect_insecure`, `async_connect_secure`, awaited. -/
def Builder.asyncConnect [B64] (p : ResParser) (net : Net) (v : Variant) (fresh : WsKey) (extra : Nat) (b : Builder) :
    AsyncConnectRes × List NetCall :=
  match b.asyncOpenStream net v with
  | (.error e, calls) => (.err none e, calls)
  | (.ok d, calls) => (b.asyncConnectOn p fresh extra d, calls)

/-! ## Histories -/

/-- A call of a builder method. -/
inductive BOp
  | addProtocol (p : Bytes)
  | addProtocols (ps : List Bytes)
  | clearProtocols
  | addExtension (e : Ext)
  | addExtensions (es : List Ext)
  | clearExtensions
  | maxDataframeSize (n : Nat)
  | maxMessageSize (n : Nat)
  | key (k : WsKey)
  | clearKey
  | version (v : WsVersion)
  | clearVersion
  | origin (o : Bytes)
  | clearOrigin
  | customHeaders (h : Headers)
  | clearHeader (name : Bytes)
  deriving DecidableEq, Repr

def Builder.step (b : Builder) : BOp → Builder
  | .addProtocol p => b.addProtocol p
  | .addProtocols ps => b.addProtocols ps
  | .clearProtocols => b.clearProtocols
  | .addExtension e => b.addExtension e
  | .addExtensions es => b.addExtensions es
  | .clearExtensions => b.clearExtensions
  | .maxDataframeSize n => b.maxDataframeSize n
  | .maxMessageSize n => b.maxMessageSize n
  | .key k => b.key k
  | .clearKey => b.clearKey
  | .version v => b.setVersion v
  | .clearVersion => b.clearVersion
  | .origin o => b.origin o
  | .clearOrigin => b.clearOrigin
  | .customHeaders h => b.customHeaders h
  | .clearHeader n => b.clearHeader n

def Builder.run (b : Builder) (ops : List BOp) : Builder := ops.foldl Builder.step b

end WS
