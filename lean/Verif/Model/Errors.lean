import Verif.Model.Builder
import Verif.Model.Server
/-!
# Errors as they are reported

websocket-base/src/result.rs, src/result.rs, the errors of src/server/upgrade/mod.rs and of src/codec/http.rs: the conversions
between them, `Display`, and the chain of causes that `Error::source` leads along. The other models keep only the kind of an error
(`WsErr`, `ConnectErr`, `IntoWsErr`); the `plain` functions here relate the two.
-/

namespace WS

/-- Where an error in the chain of causes comes from, as far as downcasting can tell. -/
inductive Origin
  | io (k : IoKind) | hyper | url | tls | utf8 | wsUrl | other
  deriving DecidableEq, Repr

/-- One error in a chain of causes: `Display` shows `text`. -/
structure Cause where
  origin : Origin
  text : Bytes
  deriving DecidableEq, Repr

/-- `io::Error`: its kind, its text, and the causes that its own `source` leads to. -/
structure IoError where
  kind : IoKind
  text : Bytes
  causes : List Cause
  deriving DecidableEq, Repr

/-- An error of another crate (`hyper::Error`, `url::ParseError`, `native_tls::Error`, `Utf8Error`): its text and what its own `source`
leads to. -/
structure Foreign where
  text : Bytes
  causes : List Cause
  deriving DecidableEq, Repr

/-- The chain that starts with an I/O error. -/
def IoError.chain (e : IoError) : List Cause := ⟨.io e.kind, e.text⟩ :: e.causes
/-- The chain that starts with an error of another crate. -/
def Foreign.chain (o : Origin) (e : Foreign) : List Cause := ⟨o, e.text⟩ :: e.causes

/-- `WSUrlErrorKind`, src/result.rs:183-191. -/
inductive UrlErrorKind
  | cannotSetFragment | invalidScheme | noHostName
  deriving DecidableEq, Repr

/-- `Display for WSUrlErrorKind`, src/result.rs:193-202. -/
def UrlErrorKind.fmt (e : UrlErrorKind) : Bytes :=
  ascii "WebSocket Url Error: " ++ match e with
  | .cannotSetFragment => ascii "WebSocket URL cannot set fragment"
  | .invalidScheme => ascii "WebSocket URL invalid scheme"
  | .noHostName => ascii "WebSocket URL no host name provided"

/-- `StatusCode` of hyper: its number. `Display` shows the number and the canonical reason, a table in hyper that is left open. -/
structure Status where
  code : Nat
  deriving DecidableEq, Repr
/-- `Display for StatusCode` of hyper: `"{} {}"`. -/
def Status.fmt (reason : Nat → Bytes) (s : Status) : Bytes := decimal s.code ++ [32] ++ reason s.code

/-- `WebSocketOtherError`, src/result.rs:35-65. -/
inductive OtherError
  | protocol (e : Bytes)
  | request (e : Bytes)
  | response (e : Bytes)
  | status (s : Status)
  | redirect (s : Status) (location : Bytes)
  | http (e : Foreign)
  | url (e : Foreign)
  | io (e : IoError)
  | wsUrl (e : UrlErrorKind)
  | tls (e : Foreign)
  | tlsFailure
  | tlsInterruption
  deriving DecidableEq, Repr

/-- `Display for WebSocketOtherError`, src/result.rs:67-102. -/
def OtherError.fmt (reason : Nat → Bytes) : OtherError → Bytes
  | .request e => ascii "WebSocket request error: " ++ e
  | .response e => ascii "WebSocket response error: " ++ e
  | .status s => ascii "WebSocketError: Received unexpected status code (" ++ s.fmt reason ++ ascii ")"
  | .redirect s loc => ascii "WebSocketError: Redirected (" ++ s.fmt reason ++ ascii ") to " ++ loc
  | .http e => ascii "WebSocket HTTP error: " ++ e.text
  | .url e => ascii "WebSocket URL parse error: " ++ e.text
  | .io e => ascii "WebSocket I/O error: " ++ e.text
  | .wsUrl e => e.fmt
  | .tls e => ascii "WebSocket SSL error: " ++ e.text
  | .protocol e => ascii "WebSocketError: " ++ e
  | .tlsFailure => ascii "WebSocketError: " ++ ascii "TLS Handshake failure"
  | .tlsInterruption => ascii "WebSocketError: " ++ ascii "TLS Handshake interrupted"

/-- The causes that `source` leads to, src/result.rs:104-116. -/
def OtherError.sources : OtherError → List Cause
  | .http e => e.chain .hyper
  | .url e => e.chain .url
  | .tls e => e.chain .tls
  | .wsUrl e => [⟨.wsUrl, e.fmt⟩]
  | .io e => e.chain
  | _ => []

/-- `WebSocketError`, websocket-base/src/result.rs:27-40. The box of `Other` can hold any error; in this library it is always a
`WebSocketOtherError`. -/
inductive WsError
  | protocol (e : Bytes)
  | dataFrame (e : Bytes)
  | noData
  | io (e : IoError)
  | utf8 (e : Foreign)
  | other (e : OtherError)
  deriving DecidableEq, Repr

/-- `Display for WebSocketError`, websocket-base/src/result.rs:42-54. -/
def WsError.fmt (reason : Nat → Bytes) (e : WsError) : Bytes :=
  ascii "WebSocketError: " ++ match e with
  | .protocol _ => ascii "WebSocket protocol error"
  | .dataFrame _ => ascii "WebSocket data frame error"
  | .noData => ascii "No data available"
  | .io _ => ascii "I/O failure"
  | .utf8 _ => ascii "UTF-8 failure"
  | .other x => x.fmt reason

/-- The causes that `source` leads to, websocket-base/src/result.rs:56-65; the boxed error itself is skipped. -/
def WsError.sources : WsError → List Cause
  | .io e => e.chain
  | .utf8 e => e.chain .utf8
  | .other e => e.sources
  | _ => []

/-- `From<io::Error> for WebSocketError`, websocket-base/src/result.rs:67-74. -/
def WsError.ofIo (e : IoError) : WsError :=
  if e.kind = .unexpectedEof then .noData else .io e

/-- `From<Utf8Error> for WebSocketError`, websocket-base/src/result.rs:76-80. -/
def WsError.ofUtf8 (e : Foreign) : WsError := .utf8 e

/-- `From<WebSocketOtherError> for WebSocketError`, src/result.rs:206-210. -/
def WsError.ofOther (e : OtherError) : WsError := .other e

/-- What the other models keep of an error. -/
def WsError.plain : WsError → (Bytes → String) → WsErr
  | .protocol e, name => .protocol (name e)
  | .dataFrame e, name => .dataFrame (name e)
  | .noData, _ => .noData
  | .io e, _ => .io e.kind
  | .utf8 _, _ => .utf8
  | .other _, _ => .other

/-- `HyperIntoWsError`, src/server/upgrade/mod.rs:169-190: a check that failed (`IntoWsErr` has these) or an error of the transport or
of the parser. -/
inductive UpgradeError
  | methodNotGet
  | unsupportedHttpVersion
  | unsupportedWebsocketVersion
  | noSecWsKeyHeader
  | noWsUpgradeHeader
  | noUpgradeHeader
  | noWsConnectionHeader
  | noConnectionHeader
  | io (e : IoError)
  | parsing (e : Foreign)
  deriving DecidableEq, Repr

/-- `Display for HyperIntoWsError`, src/server/upgrade/mod.rs:192-217. -/
def UpgradeError.fmt : UpgradeError → Bytes
  | .methodNotGet => ascii "Request method must be GET"
  | .unsupportedHttpVersion => ascii "Unsupported request HTTP version"
  | .unsupportedWebsocketVersion => ascii "Unsupported WebSocket version"
  | .noSecWsKeyHeader => ascii "Missing Sec-WebSocket-Key header"
  | .noWsUpgradeHeader => ascii "Invalid Upgrade WebSocket header"
  | .noUpgradeHeader => ascii "Missing Upgrade WebSocket header"
  | .noWsConnectionHeader => ascii "Invalid Connection WebSocket header"
  | .noConnectionHeader => ascii "Missing Connection WebSocket header"
  | .io e => e.text
  | .parsing e => e.text

/-- The causes that `source` leads to, src/server/upgrade/mod.rs:219-227. -/
def UpgradeError.sources : UpgradeError → List Cause
  | .io e => e.chain
  | .parsing e => e.chain .hyper
  | _ => []

/-- `From<io::Error> for HyperIntoWsError`, src/server/upgrade/mod.rs:229-233. -/
def UpgradeError.ofIo (e : IoError) : UpgradeError := .io e
/-- `From<hyper::Error> for HyperIntoWsError`, src/server/upgrade/mod.rs:235-239. -/
def UpgradeError.ofHyper (e : Foreign) : UpgradeError := .parsing e

/-- What `Model/Server` keeps of an error. -/
def UpgradeError.plain : UpgradeError → IntoWsErr
  | .methodNotGet => .methodNotGet
  | .unsupportedHttpVersion => .unsupportedHttpVersion
  | .unsupportedWebsocketVersion => .unsupportedWebsocketVersion
  | .noSecWsKeyHeader => .noSecWsKeyHeader
  | .noWsUpgradeHeader => .noWsUpgradeHeader
  | .noUpgradeHeader => .noUpgradeHeader
  | .noWsConnectionHeader => .noWsConnectionHeader
  | .noConnectionHeader => .noConnectionHeader
  | .io e => .io e.kind
  | .parsing _ => .parsing

/-- `HttpCodecError`, src/codec/http.rs:212-219. -/
inductive CodecError
  | io (e : IoError)
  | http (e : Foreign)
  deriving DecidableEq, Repr

/-- `Display for HttpCodecError`, src/codec/http.rs:221-228. -/
def CodecError.fmt : CodecError → Bytes
  | .io e => e.text
  | .http e => e.text

/-- The causes that `source` leads to, src/codec/http.rs:230-237. -/
def CodecError.sources : CodecError → List Cause
  | .io e => e.chain
  | .http e => e.chain .hyper

/-- `From<HttpCodecError> for HyperIntoWsError`, src/server/upgrade/mod.rs:241-249. -/
def UpgradeError.ofCodec : CodecError → UpgradeError
  | .io e => .io e
  | .http e => .parsing e

/-- `From<HttpCodecError> for WebSocketOtherError`, src/result.rs:148-155. -/
def OtherError.ofCodec : CodecError → OtherError
  | .io e => .io e
  | .http e => .http e

/-- `From<HttpError> for WebSocketOtherError`, src/result.rs:118-122. -/
def OtherError.ofHttp (e : Foreign) : OtherError := .http e
/-- `From<ParseError> for WebSocketOtherError`, src/result.rs:124-128. -/
def OtherError.ofUrl (e : Foreign) : OtherError := .url e
/-- `From<TlsError> for WebSocketOtherError`, src/result.rs:131-135. -/
def OtherError.ofTls (e : Foreign) : OtherError := .tls e
/-- `From<WSUrlErrorKind> for WebSocketOtherError`, src/result.rs:157-161. -/
def OtherError.ofWsUrl (e : UrlErrorKind) : OtherError := .wsUrl e

/-- `native_tls::HandshakeError`: a failure with its cause, or an interruption. -/
inductive TlsHandshake
  | failure (e : Foreign)
  | wouldBlock
  deriving DecidableEq, Repr

/-- `From<TlsHandshakeError<T>> for WebSocketOtherError`, src/result.rs:138-145. -/
def OtherError.ofTlsHandshake : TlsHandshake → OtherError
  | .failure _ => .tlsFailure
  | .wouldBlock => .tlsInterruption

/-- `From<HyperIntoWsError> for WebSocketOtherError`, src/result.rs:163-180. -/
def OtherError.ofUpgrade : UpgradeError → OtherError
  | .io e => .io e
  | .parsing e => .http e
  | .methodNotGet => .protocol (ascii "Request method must be GET")
  | .unsupportedHttpVersion => .protocol (ascii "Unsupported request HTTP version")
  | .unsupportedWebsocketVersion => .protocol (ascii "Unsupported WebSocket version")
  | .noSecWsKeyHeader => .protocol (ascii "Missing Sec-WebSocket-Key header")
  | .noWsUpgradeHeader => .protocol (ascii "Invalid Upgrade WebSocket header")
  | .noUpgradeHeader => .protocol (ascii "Missing Upgrade WebSocket header")
  | .noWsConnectionHeader => .protocol (ascii "Invalid Connection WebSocket header")
  | .noConnectionHeader => .protocol (ascii "Missing Connection WebSocket header")

/-- `towse`, src/result.rs:212-218: into a `WebSocketOtherError` by the conversion `into`, then into a `WebSocketError`. -/
def towse {ε : Type} (into : ε → OtherError) (e : ε) : WsError := .ofOther (into e)

/-- What a failed check of the client handshake is reported as: src/client/builder.rs:887-940 for the response, 797-803 for a peer that
closed the connection, 825-834 and 980-998 for a URL without host. The failures of the transport, the parser and TLS have no text of
this library's. -/
def ConnectErr.report : ConnectErr → Option WsError
  | .closed => some (.protocol (ascii "Connection closed before handshake could complete."))
  | .request => some (.ofOther (.request (ascii "Request Sec-WebSocket-Key was invalid")))
  | .accept => some (towse id (.response (ascii "Sec-WebSocket-Accept is invalid")))
  | .upgrade => some (towse id (.response (ascii "Upgrade field must be WebSocket")))
  | .connection => some (towse id (.response (ascii "Connection field must be 'Upgrade'")))
  | .status code => some (towse id (.status ⟨code⟩))
  | .redirect code loc => some (towse id (.redirect ⟨code⟩ loc))
  | .noHost => some (towse id (.wsUrl .noHostName))
  | .http _ | .io _ | .tls => none

end WS
