import Verif.Model.Keys
import Verif.Model.Text
/-!
# Header values and the header map

The typed headers of src/header/*.rs, and the parts of hyper 0.10 they rely on: the parsing helpers
`from_one_raw_str`, `from_comma_delimited`, `fmt_comma_delimited` (hyper/src/header/parsing.rs), the
`Upgrade` and `Connection` headers, and `Headers` (a `VecMap` from case-insensitive names to items
that are raw lines or typed values). The hyper parts are trusted dependency models.
-/

namespace WS

/-- `hyper::header::parsing::from_one_raw_str::<String>`: exactly one non-empty line of UTF-8. -/
def fromOneRawStr : List Bytes → Option Bytes
  | [x] => if x ≠ [] ∧ utf8Valid x then some x else none
  | _ => none

/-- The items of one comma separated line: trimmed, empty ones dropped. -/
def commaItems (s : Bytes) : List Bytes := ((splitOn 44 s).map trim).filter (· ≠ [])

/-- `hyper::header::parsing::from_comma_delimited`: all lines must be UTF-8; items that do not parse
are dropped. -/
def fromCommaDelimited {α} (parse : Bytes → Option α) (raw : List Bytes) : Option (List α) :=
  if raw.all utf8Valid then some (raw.flatMap fun s => (commaItems s).filterMap parse) else none

/-- `hyper::header::parsing::fmt_comma_delimited`. -/
def fmtCommaDelimited (parts : List Bytes) : Bytes := joinWith [44, 32] parts

/-! ## Extensions (src/header/extensions.rs) -/

/-- `Parameter`, src/header/extensions.rs:82-87. -/
structure Param where
  name : Bytes
  value : Option Bytes
  deriving DecidableEq, Repr

/-- `Extension`, src/header/extensions.rs:29-34. -/
structure Ext where
  name : Bytes
  params : List Param
  deriving DecidableEq, Repr

/-- One parameter of `Extension::from_str`, src/header/extensions.rs:57-64. `unwrap` cannot fail:
`splitn` with a positive count yields a piece. -/
def Param.fromStr (x : Bytes) : Param :=
  let pair := (splitN 1 61 x).map trim
  ⟨pair.headD [], pair[1]?⟩

/-- `Extension::from_str`, src/header/extensions.rs:49-67; `split` always yields a first piece, so
the error branch is not reachable. -/
def Ext.fromStr (s : Bytes) : Ext :=
  match (splitOn 59 s).map trim with
  | [] => ⟨[], []⟩
  | n :: ps => ⟨n, ps.map Param.fromStr⟩

/-- `Display for Parameter`, src/header/extensions.rs:96-104. -/
def Param.fmt (p : Param) : Bytes :=
  match p.value with
  | some x => p.name ++ 61 :: x
  | none => p.name

/-- `Display for Extension`, src/header/extensions.rs:70-78. -/
def Ext.fmt (e : Ext) : Bytes := e.name ++ e.params.flatMap fun p => [59, 32] ++ p.fmt

/-! ## Upgrade, Connection (hyper), Version (src/header/version.rs) -/

/-- `hyper::header::ProtocolName`. -/
inductive ProtoName
  | http | tls | websocket | h2c
  | unregistered (s : Bytes)
  deriving DecidableEq, Repr

/-- `ProtocolName::from_str`. -/
def ProtoName.fromStr (s : Bytes) : ProtoName :=
  if s = ascii "HTTP" then .http
  else if s = ascii "TLS" then .tls
  else if s = ascii "h2c" then .h2c
  else if eqIgnoreCase s (ascii "websocket") then .websocket
  else .unregistered s

def ProtoName.fmt : ProtoName → Bytes
  | .http => ascii "HTTP"
  | .tls => ascii "TLS"
  | .websocket => ascii "websocket"
  | .h2c => ascii "h2c"
  | .unregistered s => s

/-- `hyper::header::Protocol`. -/
structure UpProto where
  name : ProtoName
  version : Option Bytes
  deriving DecidableEq, Repr

/-- `Protocol::from_str`: `splitn(2, '/')`. -/
def UpProto.fromStr (s : Bytes) : UpProto :=
  let parts := splitN 2 47 s
  ⟨.fromStr (parts.headD []), parts[1]?⟩

def UpProto.fmt (p : UpProto) : Bytes :=
  match p.version with
  | some v => p.name.fmt ++ 47 :: v
  | none => p.name.fmt

/-- `hyper::header::ConnectionOption`. -/
inductive ConnOpt
  | keepAlive | close
  | header (s : Bytes)
  deriving DecidableEq, Repr

def ConnOpt.fromStr (s : Bytes) : ConnOpt :=
  if eqIgnoreCase s (ascii "keep-alive") then .keepAlive
  else if eqIgnoreCase s (ascii "close") then .close
  else .header s

def ConnOpt.fmt : ConnOpt → Bytes
  | .keepAlive => ascii "keep-alive"
  | .close => ascii "close"
  | .header s => s

/-- `PartialEq for ConnectionOption`: header names are `UniCase`. -/
def ConnOpt.eqv : ConnOpt → ConnOpt → Bool
  | .keepAlive, .keepAlive => true
  | .close, .close => true
  | .header a, .header b => eqIgnoreCase a b
  | _, _ => false

/-- `PartialEq for Connection`. -/
def connEq : List ConnOpt → List ConnOpt → Bool
  | [], [] => true
  | a :: as, b :: bs => a.eqv b && connEq as bs
  | _, _ => false

/-- `WebSocketVersion`, src/header/version.rs:8-13. -/
inductive WsVersion
  | ws13
  | unknown (s : Bytes)
  deriving DecidableEq, Repr

/-- `parse_header`, src/header/version.rs:29-34. -/
def WsVersion.parse (raw : List Bytes) : Option WsVersion :=
  (fromOneRawStr raw).map fun s => if s = ascii "13" then .ws13 else .unknown s

/-- `fmt`, src/header/version.rs:15-22 and 37-41. -/
def WsVersion.fmt : WsVersion → Bytes
  | .ws13 => ascii "13"
  | .unknown s => s

/-! ## Typed header values -/

/-- A value stored with `Headers::set`. `other` stands for header types the crate never looks at
(`Host`, `Authorization`, the user's own types) and carries the formatted value. -/
inductive HVal
  | protocol (l : List Bytes)
  | extensions (l : List Ext)
  | key (k : WsKey)
  | accept (a : WsAccept)
  | version (v : WsVersion)
  | upgrade (l : List UpProto)
  | connection (l : List ConnOpt)
  | origin (s : Bytes)
  | location (s : Bytes)
  | other (value : Bytes)
  deriving DecidableEq, Repr

/-- `fmt_header` of each type (src/header/*.rs and hyper). -/
def HVal.fmt : HVal → Bytes
  | .protocol l => fmtCommaDelimited l
  | .extensions l => fmtCommaDelimited (l.map Ext.fmt)
  | .key k => k.serialize
  | .accept a => a.serialize
  | .version v => v.fmt
  | .upgrade l => fmtCommaDelimited (l.map UpProto.fmt)
  | .connection l => fmtCommaDelimited (l.map ConnOpt.fmt)
  | .origin s => s
  | .location s => s
  | .other s => s

/-- Header names: websocket-base/src/header.rs:6-11, src/header/*.rs `header_name`, hyper. -/
def nProtocol : Bytes := ascii "Sec-WebSocket-Protocol"
def nExtensions : Bytes := ascii "Sec-WebSocket-Extensions"
def nKey : Bytes := ascii "Sec-WebSocket-Key"
def nAccept : Bytes := ascii "Sec-WebSocket-Accept"
def nVersion : Bytes := ascii "Sec-WebSocket-Version"
def nUpgrade : Bytes := ascii "Upgrade"
def nConnection : Bytes := ascii "Connection"
def nOrigin : Bytes := ascii "Origin"
def nLocation : Bytes := ascii "Location"
def nHost : Bytes := ascii "Host"
def nAuthorization : Bytes := ascii "Authorization"

/-- `hyper::header::internals::Item`: raw lines as received, or a typed value. (hyper caches the
typed form of a raw item; `get_mut` drops the raw form.) -/
inductive HItem
  | raw (lines : List Bytes)
  | typed (v : HVal)
  deriving DecidableEq, Repr

/-- `hyper::header::NewlineReplacer`: carriage returns and line feeds in a header value are written as blanks. -/
def oneLine (v : Bytes) : Bytes := v.map fun c => if c = 13 ∨ c = 10 then 32 else c

/-- The lines an item is written as, if it can be written. -/
def HItem.lines : HItem → List Bytes
  | .raw ls => ls.map oneLine
  | .typed v => [oneLine v.fmt]

/-- Whether hyper's `Display` of an item succeeds: it fails at a raw line that is not UTF-8. Typed values are written from
`String`s. -/
def HItem.writable : HItem → Bool
  | .raw ls => ls.all utf8Valid
  | .typed _ => true

/-- `hyper::header::Headers`. -/
abbrev Headers := List (Bytes × HItem)

/-- Whether `Display` of the headers succeeds. -/
def Headers.writable (h : Headers) : Bool := h.all fun e => e.2.writable

/-- `VecMap::get`. -/
def Headers.item (name : Bytes) (h : Headers) : Option HItem :=
  (h.find? fun e => eqIgnoreCase e.1 name).map (·.2)

/-- `VecMap::insert`: replaces in place, otherwise appends. -/
def Headers.insert (name : Bytes) (it : HItem) : Headers → Headers
  | [] => [(name, it)]
  | e :: rest => if eqIgnoreCase e.1 name then (name, it) :: rest else e :: Headers.insert name it rest

/-- `VecMap::remove`. -/
def Headers.remove (name : Bytes) : Headers → Headers
  | [] => []
  | e :: rest => if eqIgnoreCase e.1 name then rest else e :: Headers.remove name rest

/-- `Headers::extend(headers.iter())`. -/
def Headers.extend (h custom : Headers) : Headers :=
  custom.foldl (fun h e => Headers.insert e.1 e.2 h) h

/-- `Headers::has`. -/
def Headers.has (name : Bytes) (h : Headers) : Bool := (h.item name).isSome

/-- `Headers::get::<WebSocketKey>`; `parse_header`, src/header/key.rs:49-51. A typed item of another
type under this name does not occur: a name belongs to one type. -/
def Headers.getKey [B64] (h : Headers) : Option WsKey :=
  match h.item nKey with
  | some (.typed (.key k)) => some k
  | some (.raw ls) =>
    match fromOneRawStr ls with
    | some s => match WsKey.fromStr s with
      | .ok k => some k
      | _ => none
    | none => none
  | _ => none

/-- `Headers::get::<WebSocketAccept>`; `parse_header`, src/header/accept.rs:45-47. -/
def Headers.getAccept [B64] (h : Headers) : Option WsAccept :=
  match h.item nAccept with
  | some (.typed (.accept a)) => some a
  | some (.raw ls) =>
    match fromOneRawStr ls with
    | some s => match WsAccept.fromStr s with
      | .ok a => some a
      | _ => none
    | none => none
  | _ => none

/-- `Headers::get::<WebSocketVersion>`. -/
def Headers.getVersion (h : Headers) : Option WsVersion :=
  match h.item nVersion with
  | some (.typed (.version v)) => some v
  | some (.raw ls) => WsVersion.parse ls
  | _ => none

/-- `Headers::get::<Upgrade>`. -/
def Headers.getUpgrade (h : Headers) : Option (List UpProto) :=
  match h.item nUpgrade with
  | some (.typed (.upgrade l)) => some l
  | some (.raw ls) => fromCommaDelimited (fun s => some (UpProto.fromStr s)) ls
  | _ => none

/-- `Headers::get::<Connection>`. -/
def Headers.getConnection (h : Headers) : Option (List ConnOpt) :=
  match h.item nConnection with
  | some (.typed (.connection l)) => some l
  | some (.raw ls) => fromCommaDelimited (fun s => some (ConnOpt.fromStr s)) ls
  | _ => none

/-- `WebSocketProtocol::parse_header`, src/header/protocol.rs:25-27. -/
def parseProtocol (ls : List Bytes) : Option (List Bytes) := fromCommaDelimited some ls

/-- `WebSocketExtensions::parse_header`, src/header/extensions.rs:111-113. -/
def parseExtensions (ls : List Bytes) : Option (List Ext) := fromCommaDelimited (fun s => some (Ext.fromStr s)) ls

/-- `Headers::get::<WebSocketProtocol>`. -/
def Headers.getProtocol (h : Headers) : Option (List Bytes) :=
  match h.item nProtocol with
  | some (.typed (.protocol l)) => some l
  | some (.raw ls) => parseProtocol ls
  | _ => none

/-- `Headers::get::<WebSocketExtensions>`. -/
def Headers.getExtensions (h : Headers) : Option (List Ext) :=
  match h.item nExtensions with
  | some (.typed (.extensions l)) => some l
  | some (.raw ls) => parseExtensions ls
  | _ => none

/-- `Headers::get::<Origin>`; src/header/origin.rs:23-25. -/
def Headers.getOrigin (h : Headers) : Option Bytes :=
  match h.item nOrigin with
  | some (.typed (.origin s)) => some s
  | some (.raw ls) => fromOneRawStr ls
  | _ => none

/-- `Headers::get::<hyper::header::Location>`. -/
def Headers.getLocation (h : Headers) : Option Bytes :=
  match h.item nLocation with
  | some (.typed (.location s)) => some s
  | some (.raw ls) => fromOneRawStr ls
  | _ => none

/-- `Headers::set`. -/
def Headers.setKey (k : WsKey) (h : Headers) : Headers := Headers.insert nKey (.typed (.key k)) h
def Headers.setAccept (a : WsAccept) (h : Headers) : Headers := Headers.insert nAccept (.typed (.accept a)) h
def Headers.setVersion (v : WsVersion) (h : Headers) : Headers := Headers.insert nVersion (.typed (.version v)) h
def Headers.setUpgrade (l : List UpProto) (h : Headers) : Headers := Headers.insert nUpgrade (.typed (.upgrade l)) h
def Headers.setConnection (l : List ConnOpt) (h : Headers) : Headers :=
  Headers.insert nConnection (.typed (.connection l)) h
def Headers.setOrigin (s : Bytes) (h : Headers) : Headers := Headers.insert nOrigin (.typed (.origin s)) h

/-- `upsert_header!(headers; WebSocketProtocol; { Some(p) => p.0.append(xs), None => xs })`,
src/lib.rs:63-73: if the header is present but does not parse, nothing happens. -/
def Headers.upsertProtocol (xs : List Bytes) (h : Headers) : Headers :=
  if h.has nProtocol then
    match h.getProtocol with
    | some l => Headers.insert nProtocol (.typed (.protocol (l ++ xs))) h
    | none => h
  else Headers.insert nProtocol (.typed (.protocol xs)) h

/-- The same for `WebSocketExtensions`. -/
def Headers.upsertExtensions (xs : List Ext) (h : Headers) : Headers :=
  if h.has nExtensions then
    match h.getExtensions with
    | some l => Headers.insert nExtensions (.typed (.extensions (l ++ xs))) h
    | none => h
  else Headers.insert nExtensions (.typed (.extensions xs)) h

/-- `Display for Headers` (hyper): one line per header line. -/
def Headers.fmt (h : Headers) : Bytes :=
  h.flatMap fun e => e.2.lines.flatMap fun l => e.1 ++ [58, 32] ++ l ++ [13, 10]

end WS
