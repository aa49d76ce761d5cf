import Verif.Model.Client
import Verif.Model.HttpCodec
/-!
# The server side of the handshake

src/server/upgrade/mod.rs, src/server/upgrade/sync.rs, src/server/upgrade/async.rs and the connection
setup of src/server/sync.rs and src/server/async.rs. Binding, TLS and the operating system's accept are
inputs. `HyperRequest` (src/server/upgrade/sync.rs:269-297) is `intoWsParsed` with the buffer hyper's
server had.
-/

namespace WS

/-- `HyperIntoWsError`, src/server/upgrade/mod.rs:169-190. -/
inductive IntoWsErr
  | methodNotGet
  | unsupportedHttpVersion
  | unsupportedWebsocketVersion
  | noSecWsKeyHeader
  | noWsUpgradeHeader
  | noUpgradeHeader
  | noWsConnectionHeader
  | noConnectionHeader
  | io (k : IoKind)
  | parsing
  deriving DecidableEq, Repr

/-- `check_connection_header`, src/server/upgrade/mod.rs:286-295. -/
def checkConnection : List ConnOpt → Bool
  | [] => false
  | .header h :: rest => if eqIgnoreCase h (ascii "upgrade") then true else checkConnection rest
  | _ :: rest => checkConnection rest

/-- The version header is there, parses, and is not 13: src/server/upgrade/mod.rs:267-269. -/
def versionRejected : Option WsVersion → Bool
  | some v => decide (v ≠ WsVersion.ws13)
  | none => false

/-- `validate`, src/server/upgrade/mod.rs:253-306. -/
def validate [B64] (method : Method) (version : HttpVersion) (headers : Headers) : Except IntoWsErr Unit :=
  if method ≠ .get then .error .methodNotGet
  else if version = .http09 ∨ version = .http10 then .error .unsupportedHttpVersion
  else if versionRejected headers.getVersion then
    .error .unsupportedWebsocketVersion
  else if headers.getKey = none then .error .noSecWsKeyHeader
  else match headers.getUpgrade with
    | none => .error .noUpgradeHeader
    | some upgrade =>
      if upgrade.all (fun u => u.name ≠ ProtoName.websocket) then .error .noWsUpgradeHeader
      else match headers.getConnection with
        | none => .error .noConnectionHeader
        | some connection =>
          if checkConnection connection then .ok () else .error .noWsConnectionHeader

/-- `WsUpgrade<S, B>`, src/server/upgrade/mod.rs:41-53. -/
structure Upgrade (B : Type) where
  headers : Headers
  stream : Duplex
  request : Request
  buffer : B

section
variable {B : Type}

/-- `use_protocol`, src/server/upgrade/mod.rs:60-69. -/
def Upgrade.useProtocol (p : Bytes) (u : Upgrade B) : Upgrade B := { u with headers := u.headers.upsertProtocol [p] }

/-- `use_extension`, src/server/upgrade/mod.rs:72-78. -/
def Upgrade.useExtension (e : Ext) (u : Upgrade B) : Upgrade B := { u with headers := u.headers.upsertExtensions [e] }

/-- `use_extensions`, src/server/upgrade/mod.rs:81-91. -/
def Upgrade.useExtensions (es : List Ext) (u : Upgrade B) : Upgrade B :=
  { u with headers := u.headers.upsertExtensions es }

/-- `protocols`, src/server/upgrade/mod.rs:99-105. -/
def Upgrade.protocols (u : Upgrade B) : List Bytes := u.request.headers.getProtocol.getD []

/-- `extensions`, src/server/upgrade/mod.rs:108-114. -/
def Upgrade.extensions (u : Upgrade B) : List Ext := u.request.headers.getExtensions.getD []

/-- `key`, src/server/upgrade/mod.rs:117-119. -/
def Upgrade.key [B64] (u : Upgrade B) : Option Bytes := u.request.headers.getKey.map (·.bytes)

/-- `version`, src/server/upgrade/mod.rs:122-124. -/
def Upgrade.version (u : Upgrade B) : Option WsVersion := u.request.headers.getVersion

/-- `uri`, src/server/upgrade/mod.rs:127-129. -/
def Upgrade.uri (u : Upgrade B) : Bytes := u.request.subject.uri

/-- `origin`, src/server/upgrade/mod.rs:132-134. -/
def Upgrade.origin (u : Upgrade B) : Option Bytes := u.request.headers.getOrigin

/-- The response head an upgrade sends with this status: src/server/upgrade/mod.rs:138-141,
src/server/upgrade/async.rs:119-123 and 158-162. -/
def Upgrade.response (u : Upgrade B) (status : ResSubject) : Response := ⟨u.request.version, status, u.headers⟩

/-- Outcome of sending a response. -/
inductive Sent
  | ok (u : Unit)
  | error (k : IoKind)
  | panic (why : String)
  deriving DecidableEq, Repr

/-- `send`, src/server/upgrade/mod.rs:137-144. -/
def Upgrade.send (u : Upgrade B) (status : ResSubject) : Sent × Upgrade B :=
  if u.headers.writable = false then (.panic formatPanic, u)
  else match Sink.writeAll ((u.response status).fmt resLine) u.stream.output with
  | (.ok (), w) => (.ok (), { u with stream := { u.stream with output := w } })
  | (.error k, w) => (.error k, { u with stream := { u.stream with output := w } })

/-- `self.headers.extend(custom.iter())`, src/server/upgrade/mod.rs:148-150. -/
def Upgrade.addCustom (custom : Option Headers) (u : Upgrade B) : Upgrade B :=
  match custom with
  | some c => { u with headers := u.headers.extend c }
  | none => u

/-- `prepare_headers`, src/server/upgrade/mod.rs:147-163; `unwrap` panics without a key. -/
def Upgrade.prepareHeaders [B64] (custom : Option Headers) (u : Upgrade B) : Res (ResSubject × Upgrade B) :=
  let u := u.addCustom custom
  match u.request.headers.getKey with
  | none => .panic "called `Option::unwrap()` on a `None` value"
  | some key =>
    .ok (switchingProtocols,
      { u with headers := ((u.headers.setAccept (WsAccept.new key)).setConnection
          [ConnOpt.header (ascii "Upgrade")]).setUpgrade [⟨.websocket, none⟩] })

end

/-! ## Blocking -/

/-- `Buffer`, src/server/upgrade/sync.rs:27-36. -/
structure Buffer where
  buf : Bytes
  pos : Nat
  cap : Nat
  deriving DecidableEq, Repr

/-- `Upgrade<S>`, src/server/upgrade/sync.rs:46. -/
abbrev SyncUpgrade := Upgrade (Option Buffer)

/-- Outcome of `accept`. -/
inductive AcceptRes
  | client (c : Client)
  /-- `Err((stream, e))` -/
  | err (stream : Duplex) (k : IoKind)
  | panic (why : String)
  deriving DecidableEq, Repr

/-- `internal_accept_with_limits`, src/server/upgrade/sync.rs:84-97. -/
def SyncUpgrade.internalAcceptWithLimits [B64] (u : SyncUpgrade) (custom : Option Headers) (maxDf maxMsg : Nat) : AcceptRes :=
  match u.prepareHeaders custom with
  | .ok (status, u) =>
    match u.send status with
    | (.panic why, _) => .panic why
    | (.error k, u) => .err u.stream k
    | (.ok (), u) =>
      let stream := match u.buffer with
        | some ⟨buf, pos, cap⟩ => BufReader.fromParts u.stream buf pos cap
        | none => BufReader.new u.stream
      .client (Client.uncheckedWithLimits stream u.headers false true maxDf maxMsg)
  | .err _ => .panic "unreachable"
  | .panic why => .panic why

/-- `internal_accept`, src/server/upgrade/sync.rs:80-82. -/
def SyncUpgrade.internalAccept [B64] (u : SyncUpgrade) (custom : Option Headers) : AcceptRes :=
  u.internalAcceptWithLimits custom defaultMaxDataframe defaultMaxMessage

/-- `accept`, src/server/upgrade/sync.rs:56-58. -/
def SyncUpgrade.accept [B64] (u : SyncUpgrade) : AcceptRes := u.internalAccept none
/-- `accept_with`, src/server/upgrade/sync.rs:63-65. -/
def SyncUpgrade.acceptWith [B64] (u : SyncUpgrade) (custom : Headers) : AcceptRes := u.internalAccept (some custom)
/-- `accept_with_limits`, src/server/upgrade/sync.rs:69-71. -/
def SyncUpgrade.acceptWithLimits [B64] (u : SyncUpgrade) (maxDf maxMsg : Nat) : AcceptRes :=
  u.internalAcceptWithLimits none maxDf maxMsg
/-- `accept_with_headers_and_limits`, src/server/upgrade/sync.rs:76-78. -/
def SyncUpgrade.acceptWithHeadersAndLimits [B64] (u : SyncUpgrade) (custom : Headers) (maxDf maxMsg : Nat) : AcceptRes :=
  u.internalAcceptWithLimits (some custom) maxDf maxMsg

/-- `internal_reject`, src/server/upgrade/sync.rs:110-118; the stream is returned unless it panics. -/
def SyncUpgrade.internalReject (u : SyncUpgrade) (custom : Option Headers) : Sent × Duplex :=
  match (u.addCustom custom).send badRequest with
  | (r, u) => (r, u.stream)

/-- `reject`, src/server/upgrade/sync.rs:100-102. -/
def SyncUpgrade.reject (u : SyncUpgrade) : Sent × Duplex := u.internalReject none
/-- `reject_with`, src/server/upgrade/sync.rs:106-108. -/
def SyncUpgrade.rejectWith (u : SyncUpgrade) (custom : Headers) : Sent × Duplex := u.internalReject (some custom)

/-- The error of `into_ws`: stream, request if it was parsed, buffered bytes, cause
(src/server/upgrade/sync.rs:183, src/server/upgrade/async.rs:233). -/
structure IntoWsFail (B : Type) where
  stream : Duplex
  request : Option Request
  buffer : B
  error : IntoWsErr

/-- `into_ws` of a blocking stream, src/server/upgrade/sync.rs:185-206. -/
def intoWs [B64] (p : ReqParser) (d : Duplex) : Except (IntoWsFail (Option Buffer)) SyncUpgrade :=
  match parseHead p (BufReader.new d) with
  | (request, reader) =>
    match reader.intoParts with
    | (stream, buf, pos, cap) =>
      match request with
      | .error _ => .error ⟨stream, none, some ⟨buf, pos, cap⟩, .parsing⟩
      | .ok request =>
        match validate request.subject.method request.version request.headers with
        | .ok () => .ok ⟨[], stream, request, some ⟨buf, pos, cap⟩⟩
        | .error e => .error ⟨stream, some request, some ⟨buf, pos, cap⟩, e⟩

/-- `into_ws` of a request parsed elsewhere: `RequestStreamPair` (src/server/upgrade/sync.rs:209-227)
with no buffer, `HyperRequest` (src/server/upgrade/sync.rs:269-297) with hyper's. -/
def intoWsParsed [B64] (d : Duplex) (request : Request) (buffer : Option Buffer) : Except (Duplex × Request × IntoWsErr) SyncUpgrade :=
  match validate request.subject.method request.version request.headers with
  | .ok () => .ok ⟨[], d, request, buffer⟩
  | .error e => .error (d, request, e)

/-! ## Async -/

/-- `Upgrade<S>`, src/server/upgrade/async.rs:67; of the `BytesMut` only the contents matter. -/
abbrev AsyncUpgrade := Upgrade Bytes

/-- `Framed<S, MessageCodec>` and the headers: `ClientNew`'s item. -/
structure AsyncClient where
  headers : Headers
  stream : Duplex
  read : Framed MsgCodec
  write : FramedWrite

/-- `update_framed_codec`, websocket-base/src/ws/util/mod.rs:20-26: both buffers are kept. -/
def updateFramedCodec {σ τ} (codec : τ) (read : Framed σ) : Framed τ := Framed.fromParts codec read.buf

/-- Outcome of an async `accept` or `connect`. -/
inductive AsyncRes
  | client (c : AsyncClient)
  /-- the transport is dropped; it is kept here to tell what was written -/
  | err (stream : Duplex) (e : WsErr)
  | panic (why : String)

/-- `internal_accept_with_limits`, src/server/upgrade/async.rs:105-131, awaited. -/
def AsyncUpgrade.internalAcceptWithLimits [B64] (u : AsyncUpgrade) (custom : Option Headers) (maxDf maxMsg extra : Nat) : AsyncRes :=
  match u.prepareHeaders custom with
  | .ok (status, u) =>
    let duplex := Framed.fromParts () u.buffer
    if u.headers.writable = false then .panic formatPanic
    else
    match httpSend ((u.response status).fmt resLine) extra u.stream.output with
    | (.ready, fw, w) =>
      .client ⟨u.headers, { u.stream with output := w },
        updateFramedCodec (MsgCodec.newWithLimits .server maxDf maxMsg) duplex, { fw with isServer := true }⟩
    | (.notReady, _, w) => .err { u.stream with output := w } (.io .wouldBlock)
    | (.err e, _, w) => .err { u.stream with output := w } e
    | (.panic why, _, _) => .panic why
  | .err _ => .panic "unreachable"
  | .panic why => .panic why

/-- `internal_accept`, src/server/upgrade/async.rs:101-103. -/
def AsyncUpgrade.internalAccept [B64] (u : AsyncUpgrade) (custom : Option Headers) (extra : Nat) : AsyncRes :=
  u.internalAcceptWithLimits custom defaultMaxDataframe defaultMaxMessage extra

/-- `accept`, src/server/upgrade/async.rs:79-81. -/
def AsyncUpgrade.accept [B64] (u : AsyncUpgrade) (extra : Nat) : AsyncRes := u.internalAccept none extra
/-- `accept_with`, src/server/upgrade/async.rs:86-88. -/
def AsyncUpgrade.acceptWith [B64] (u : AsyncUpgrade) (custom : Headers) (extra : Nat) : AsyncRes :=
  u.internalAccept (some custom) extra
/-- `accept_with_limits`, src/server/upgrade/async.rs:91-93. -/
def AsyncUpgrade.acceptWithLimits [B64] (u : AsyncUpgrade) (maxDf maxMsg extra : Nat) : AsyncRes :=
  u.internalAcceptWithLimits none maxDf maxMsg extra
/-- `accept_with_headers_and_limits`, src/server/upgrade/async.rs:96-98. -/
def AsyncUpgrade.acceptWithHeadersAndLimits [B64] (u : AsyncUpgrade) (custom : Headers) (maxDf maxMsg extra : Nat) : AsyncRes :=
  u.internalAcceptWithLimits (some custom) maxDf maxMsg extra

/-- `internal_reject`, src/server/upgrade/async.rs:148-163, awaited: outcome, the transport, and the
read buffer of the `Framed` handed back. On an error the future drops all of it. -/
def AsyncUpgrade.internalReject (u : AsyncUpgrade) (custom : Option Headers) (extra : Nat) : SendRes × Duplex × Framed Unit :=
  let u := u.addCustom custom
  let duplex := Framed.fromParts () u.buffer
  if u.headers.writable = false then (.panic formatPanic, u.stream, duplex)
  else match httpSend ((u.response badRequest).fmt resLine) extra u.stream.output with
  | (r, _, w) => (r, { u.stream with output := w }, duplex)

/-- `reject`, src/server/upgrade/async.rs:136-138. -/
def AsyncUpgrade.reject (u : AsyncUpgrade) (extra : Nat) : SendRes × Duplex × Framed Unit := u.internalReject none extra
/-- `reject_with`, src/server/upgrade/async.rs:144-146. -/
def AsyncUpgrade.rejectWith (u : AsyncUpgrade) (custom : Headers) (extra : Nat) : SendRes × Duplex × Framed Unit :=
  u.internalReject (some custom) extra

/-- `From<HttpCodecError> for HyperIntoWsError`, src/server/upgrade/mod.rs:243-250, in the notation
of `httpDecoder`. -/
def IntoWsErr.ofCodec : WsErr → IntoWsErr
  | .noData => .io .unexpectedEof
  | .io k => .io k
  | _ => .parsing

/-- `into_ws` of an async stream, src/server/upgrade/async.rs:235-265, awaited. -/
def asyncIntoWs [B64] (p : ReqParser) (d : Duplex) : Except (IntoWsFail Bytes) AsyncUpgrade :=
  match (Framed.new ()).next (httpDecoder p) d.input with
  | (x, fr, s) =>
    let io := { d with input := s }
    match x with
    | .item msg =>
      match validate msg.subject.method msg.version msg.headers with
      | .ok () => .ok ⟨[], io, msg, fr.buf⟩
      | .error e => .error ⟨io, some msg, fr.buf, e⟩
    | .done => .error ⟨io, none, fr.buf, .io .connectionReset⟩
    | .err e => .error ⟨io, none, fr.buf, .ofCodec e⟩
    | .panic _ => .error ⟨io, none, fr.buf, .parsing⟩

/-! ## Servers -/

/-- `InvalidConnection`, src/server/mod.rs:34-50. -/
structure InvalidConnection (B : Type) where
  stream : Option Duplex
  parsed : Option Request
  buffer : Option B
  error : IntoWsErr

/-- `accept` of the blocking servers, src/server/sync.rs:149-183 (TLS) and 230-252 (plain).
`listener` is what the operating system answers, `tls` what the TLS handshake makes of the stream
(`none` for the plain server). -/
def serverAccept [B64] (p : ReqParser) (listener : Except IoKind Duplex) (tls : Option (Except Unit Duplex)) :
    Except (InvalidConnection Buffer) SyncUpgrade :=
  match listener with
  | .error k => .error ⟨none, none, none, .io k⟩
  | .ok tcp =>
    match (match tls with | none => Except.ok tcp | some r => r) with
    | .error () => .error ⟨none, none, none, .io .other⟩
    | .ok stream =>
      match intoWs p stream with
      | .ok u => .ok u
      | .error ⟨s, r, b, e⟩ => .error ⟨some s, r, b, e⟩

/-- One connection of `incoming`, src/server/async.rs:64-89 (plain) and 122-161 (TLS). -/
def asyncServerAccept [B64] (p : ReqParser) (listener : Except IoKind Duplex) (tls : Option (Except Unit Duplex)) :
    Except (InvalidConnection Bytes) AsyncUpgrade :=
  match listener with
  | .error k => .error ⟨none, none, none, .io k⟩
  | .ok tcp =>
    match (match tls with | none => Except.ok tcp | some r => r) with
    | .error () => .error ⟨none, none, none, .io .other⟩
    | .ok stream =>
      match asyncIntoWs p stream with
      | .ok u => .ok u
      | .error ⟨s, r, b, e⟩ => .error ⟨some s, r, some b, e⟩

end WS
