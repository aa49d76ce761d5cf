import Verif.Model.Headers
import Verif.Model.IO
/-!
# HTTP heads

Requests and responses as the crate formats them (src/client/builder.rs:508,
src/server/upgrade/mod.rs:137-144, src/codec/http.rs:76-87 and 173-181), and hyper 0.10's head parser
(`hyper::http::h1::parse`, httparse 1) as a trusted dependency: a `HeadParser` is any parser with the
listed laws.
-/

namespace WS

/-- `hyper::version::HttpVersion`. -/
inductive HttpVersion
  | http09 | http10 | http11 | http20
  deriving DecidableEq, Repr

/-- `Display for HttpVersion`. -/
def HttpVersion.fmt : HttpVersion → Bytes
  | .http09 => ascii "HTTP/0.9"
  | .http10 => ascii "HTTP/1.0"
  | .http11 => ascii "HTTP/1.1"
  | .http20 => ascii "HTTP/2.0"

/-- `hyper::method::Method`. -/
inductive Method
  | get
  | other (name : Bytes)
  deriving DecidableEq, Repr

def Method.fmt : Method → Bytes
  | .get => ascii "GET"
  | .other n => n

/-- `hyper::http::h1::Incoming`. -/
structure HttpHead (σ : Type) where
  version : HttpVersion
  subject : σ
  headers : Headers
  deriving DecidableEq, Repr

/-- Subject of a request: method and request target (`RequestUri::AbsolutePath`). -/
structure ReqSubject where
  method : Method
  uri : Bytes
  deriving DecidableEq, Repr

/-- Subject of a response: `RawStatus` / `StatusCode`, the number and the reason phrase. -/
structure ResSubject where
  code : Nat
  reason : Bytes
  deriving DecidableEq, Repr

/-- `Request`, src/server/upgrade/mod.rs:29. -/
abbrev Request := HttpHead ReqSubject

/-- `Incoming<RawStatus>`. -/
abbrev Response := HttpHead ResSubject

/-- `StatusCode::SwitchingProtocols`. -/
def switchingProtocols : ResSubject := ⟨101, ascii "Switching Protocols"⟩
/-- `StatusCode::BadRequest`. -/
def badRequest : ResSubject := ⟨400, ascii "Bad Request"⟩

def crlf : Bytes := [13, 10]

/-- Decimal digits (`Display for u16`). -/
def decimal (n : Nat) : Bytes := ascii (toString n)

/-- The request line, src/client/builder.rs:508 and src/codec/http.rs:78-81. -/
def reqLine (v : HttpVersion) (s : ReqSubject) : Bytes := s.method.fmt ++ [32] ++ s.uri ++ [32] ++ v.fmt

/-- The status line, src/server/upgrade/mod.rs:138-141 and src/codec/http.rs:175; `Display for
StatusCode` is number and reason. -/
def resLine (v : HttpVersion) (s : ResSubject) : Bytes := v.fmt ++ [32] ++ decimal s.code ++ [32] ++ s.reason

/-- `format!("{start}\r\n{headers}\r\n")`, if the headers can be written. -/
def HttpHead.fmt {σ} (line : HttpVersion → σ → Bytes) (m : HttpHead σ) : Bytes :=
  line m.version m.subject ++ crlf ++ m.headers.fmt ++ crlf

/-- What `format!` panics with if they cannot (`alloc::fmt::format`). -/
def formatPanic : String := "a formatting trait implementation returned an error when the underlying stream did not"

/-- Remove trailing spaces of a header value (hyper `Headers::from_raw`). -/
def trimSpacesEnd (v : Bytes) : Bytes := (v.reverse.dropWhile (· = 32)).reverse

/-- Add one received line: lines with equal names are collected in one raw item. -/
def Headers.addRaw (name value : Bytes) : Headers → Headers
  | [] => [(name, .raw [value])]
  | (n, it) :: rest =>
    if eqIgnoreCase n name then
      match it with
      | .raw ls => (n, .raw (ls ++ [value])) :: rest
      | .typed v => (n, .typed v) :: rest
    else (n, it) :: Headers.addRaw name value rest

/-- `Headers::from_raw` (hyper). -/
def Headers.fromRaw (ls : List (Bytes × Bytes)) : Headers :=
  ls.foldl (fun h e => Headers.addRaw e.1 (trimSpacesEnd e.2) h) []

/-- The header lines as written. -/
def Headers.wire (h : Headers) : List (Bytes × Bytes) := h.flatMap fun e => e.2.lines.map fun l => (e.1, l)

/-- A character allowed in a header name (RFC 7230 `tchar`; httparse `HEADER_NAME_MAP`). -/
def isTchar (c : UInt8) : Bool :=
  (48 ≤ c && c ≤ 57) || (65 ≤ c && c ≤ 90) || (97 ≤ c && c ≤ 122) || c == 33 || c == 35 || c == 36 ||
  c == 37 || c == 38 || c == 39 || c == 42 || c == 43 || c == 45 || c == 46 || c == 94 || c == 95 ||
  c == 96 || c == 124 || c == 126

/-- A header line that survives transport unchanged: a token as name; a value without control
characters and without blanks at its ends. -/
def LegalLine (e : Bytes × Bytes) : Prop :=
  e.1 ≠ [] ∧ (∀ c ∈ e.1, isTchar c) ∧ (∀ c ∈ e.2, 32 ≤ c ∧ c ≠ 127) ∧
  (∀ c, e.2.head? = some c → c ≠ 32) ∧ (∀ c, e.2.getLast? = some c → c ≠ 32)

/-- `hyper::http::h1::MAX_HEADERS`. -/
def maxHeaders : Nat := 100

/-- A header set that can be sent. -/
def Headers.Sendable (h : Headers) : Prop := (∀ e ∈ h.wire, LegalLine e) ∧ h.wire.length ≤ maxHeaders

/-- Answer of `try_parse` (hyper) / httparse. -/
inductive Parsed (σ : Type)
  /-- a message and the number of bytes it took -/
  | complete (m : HttpHead σ) (n : Nat)
  | part
  | error

/-- A head parser: what hyper and httparse are trusted to do. `line` formats a start line that the
parser understands when `ok` holds. -/
structure HeadParser (σ : Type) (line : HttpVersion → σ → Bytes) (ok : HttpVersion → σ → Prop) where
  parse : Bytes → Parsed σ
  /-- nothing is parsed from nothing -/
  parse_nil : parse [] = .part
  /-- a complete head takes at least a byte and at most what is there -/
  complete_len : ∀ b m n, parse b = .complete m n → 0 < n ∧ n ≤ b.length
  /-- a complete head is not affected by what follows it -/
  complete_mono : ∀ b m n t, parse b = .complete m n → parse (b ++ t) = .complete m n
  /-- an error does not go away -/
  error_mono : ∀ b t, parse b = .error → parse (b ++ t) = .error
  /-- heads written by this crate are understood -/
  parse_fmt : ∀ m : HttpHead σ, ok m.version m.subject → m.headers.Sendable →
    parse (m.fmt line) = .complete { m with headers := .fromRaw m.headers.wire } (m.fmt line).length

/-- Request lines hyper can parse: HTTP/1.0 or 1.1, a token as method, a target without blanks or
control characters. -/
def okReq (v : HttpVersion) (s : ReqSubject) : Prop :=
  (v = .http10 ∨ v = .http11) ∧ s.uri ≠ [] ∧ (∀ c ∈ s.uri, 33 ≤ c ∧ c ≤ 126) ∧ s.method = .get

/-- Status lines hyper can parse. -/
def okRes (v : HttpVersion) (s : ResSubject) : Prop :=
  (v = .http10 ∨ v = .http11) ∧ 100 ≤ s.code ∧ s.code < 1000 ∧ (∀ c ∈ s.reason, 32 ≤ c ∧ c ≤ 126)

abbrev ReqParser := HeadParser ReqSubject reqLine okReq
abbrev ResParser := HeadParser ResSubject resLine okRes

end WS
