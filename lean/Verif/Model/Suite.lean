import Verif.Model.Cases
import Verif.Model.Builder
/-!
# The two programs that run the Autobahn test suite

`main` of examples/autobahn-client.rs and of examples/async-autobahn-client.rs, with all their connections. Each connection meets
a network of its own, an arbitrary one, so nothing is assumed about what the server makes of the earlier connections. The loops
are those of Model/Echo and Model/Cases. `println!` is left out. Parsing the URLs, which are literals except for the case
number, succeeds; the parsed URL is given. Arithmetic is checked, as it is in the profile `cargo run --example` uses.
-/

namespace WS

/-- What one connection meets. -/
structure Trip where
  net : Net
  /-- the nonce for the key -/
  fresh : WsKey
  /-- whether the stream can be cloned, see `Client.split` -/
  clone : Except IoKind Unit
  /-- what `gen_mask` will return -/
  keys : Nat → Key4
  /-- see `FramedWrite.startSend` -/
  extra : Nat

/-- What there is to tell about one connection. -/
structure Visit where
  url : Url
  calls : List NetCall
  /-- what the transport has taken in the end, if one was opened -/
  wire : Option Bytes
  deriving DecidableEq, Repr

/-- `ws://127.0.0.1:9001` followed by a path and a query, parsed: examples/autobahn-client.rs:8, examples/async-autobahn-client.rs:14. -/
def suiteUrl (path : Bytes) (query : Option Bytes) : Url :=
  { scheme := ascii "ws", host := some (ascii "127.0.0.1"), port := some 9001, username := [], password := none,
    path := path, query := query, fragment := none }

/-- examples/autobahn-client.rs:66, examples/async-autobahn-client.rs:88. -/
def countUrl : Url := suiteUrl (ascii "/getCaseCount") none

/-- examples/autobahn-client.rs:22, examples/async-autobahn-client.rs:28. -/
def caseUrl (n : Nat) : Url := suiteUrl (ascii "/runCase") (some (ascii "case=" ++ decimal n ++ ascii "&agent=rust-websocket"))

/-- examples/autobahn-client.rs:109, examples/async-autobahn-client.rs:104. -/
def reportsUrl : Url := suiteUrl (ascii "/updateReports") (some (ascii "agent=rust-websocket"))

/-! ## Blocking -/

/-- `ClientBuilder::new(&url).unwrap().connect_insecure()`. -/
def Trip.connect [B64] (p : ResParser) (t : Trip) (url : Url) : ConnectRes × List NetCall :=
  match (Builder.init url).connect p t.net .insecure t.fresh with
  | (r, _, calls) => (r, calls)

/-- `get_case_count`, examples/autobahn-client.rs:65-106: 0 if there is no connection. `none` is a panic. -/
def countVisit [B64] (p : ResParser) (t : Trip) : Option Nat × Visit :=
  match t.connect p countUrl with
  | (.client c, calls) => match c.split t.clone with
    | .ok (r, w) => match caseCountLoop t.keys 0 r.receiver r.stream.src w with
      | (n, w') => (n, ⟨countUrl, calls, some w'.stream.wire⟩)
    | .error _ => (none, ⟨countUrl, calls, some c.stream.inner.output.wire⟩)
  | (.err d _, calls) => (some 0, ⟨countUrl, calls, d.map (·.output.wire)⟩)
  | (.panic _, calls) => (none, ⟨countUrl, calls, none⟩)

/-- One case, examples/autobahn-client.rs:22-59. -/
def caseVisit [B64] (p : ResParser) (t : Trip) (n : Nat) : Ending × Visit :=
  match t.connect p (caseUrl n) with
  | (.client c, calls) => match c.split t.clone with
    | .ok (r, w) => match autobahnLoop t.keys r.receiver r.stream.src w with
      | (fin, w') => (fin, ⟨caseUrl n, calls, some w'.stream.wire⟩)
    | .error _ => (.panicked, ⟨caseUrl n, calls, some c.stream.inner.output.wire⟩)
  | (.err d _, calls) => (.panicked, ⟨caseUrl n, calls, d.map (·.output.wire)⟩)
  | (.panic _, calls) => (.panicked, ⟨caseUrl n, calls, none⟩)

/-- `update_reports`, examples/autobahn-client.rs:108-145: without a connection it returns. -/
def reportsVisit [B64] (p : ResParser) (t : Trip) : Ending × Visit :=
  match t.connect p reportsUrl with
  | (.client c, calls) => match c.split t.clone with
    | .ok (r, w) => match reportsLoop t.keys r.receiver r.stream.src w with
      | (fin, w') => (fin, ⟨reportsUrl, calls, some w'.stream.wire⟩)
    | .error _ => (.panicked, ⟨reportsUrl, calls, some c.stream.inner.output.wire⟩)
  | (.err d _, calls) => (.returned, ⟨reportsUrl, calls, d.map (·.output.wire)⟩)
  | (.panic _, calls) => (.panicked, ⟨reportsUrl, calls, none⟩)

/-- The loop over the cases and what follows it, examples/autobahn-client.rs:19-62, from case `id` on. A panic ends the program;
`current_case_id += 1` (line 21) overflows at the last number of all. Connection `i` of the program meets `world i`. -/
def runCases [B64] (p : ResParser) (world : Nat → Trip) (count id : Nat) : Ending × List Visit :=
  if id ≤ count then
    if id = usizeMax then (.panicked, [])
    else match caseVisit p (world id) id with
      | (.returned, v) => match runCases p world count (id + 1) with
        | (fin, vs) => (fin, v :: vs)
      | (_, v) => (.panicked, [v])
  else match reportsVisit p (world id) with
    | (fin, v) => (fin, [v])
termination_by count + 1 - id

/-- `main` of examples/autobahn-client.rs, 7-63. -/
def suiteMain [B64] (p : ResParser) (world : Nat → Trip) : Ending × List Visit :=
  match countVisit p (world 0) with
  | (some n, v) => match runCases p world n 1 with
    | (fin, vs) => (fin, v :: vs)
  | (none, v) => (.panicked, [v])

/-! ## Async -/

/-- `ClientBuilder::new(&url).unwrap().async_connect_insecure()`, awaited. -/
def Trip.asyncConnect [B64] (p : ResParser) (t : Trip) (url : Url) : AsyncConnectRes × List NetCall :=
  (Builder.init url).asyncConnect p t.net .insecure t.fresh t.extra

/-- `get_case_count`, examples/async-autobahn-client.rs:87-101: `unwrap()` panics on every error. -/
def asyncCountVisit [B64] (p : ResParser) (t : Trip) : Option Nat × Visit :=
  match t.asyncConnect p countUrl with
  | (.client c, calls) => (asyncCaseCount c.read c.stream.input, ⟨countUrl, calls, some c.stream.output.wire⟩)
  | (.err d _, calls) => (none, ⟨countUrl, calls, d.map (·.output.wire)⟩)
  | (.panic _, calls) => (none, ⟨countUrl, calls, none⟩)

/-- One case, examples/async-autobahn-client.rs:28-79: an error is printed (`or_else`, `ok`), so `.failed` is not the end of the
program. Which error kept the client from connecting is not told. -/
def asyncCaseVisit [B64] (p : ResParser) (t : Trip) (n : Nat) : Ending × Visit :=
  match t.asyncConnect p (caseUrl n) with
  | (.client c, calls) => match asyncCaseLoop t.keys t.extra c.read c.stream.input c.write c.stream.output with
    | (fin, w) => (fin, ⟨caseUrl n, calls, some w.wire⟩)
  | (.err d _, calls) => (.failed .other, ⟨caseUrl n, calls, d.map (·.output.wire)⟩)
  | (.panic _, calls) => (.panicked, ⟨caseUrl n, calls, none⟩)

/-- `update_reports`, examples/async-autobahn-client.rs:102-113: `unwrap()` panics on every error. -/
def asyncReportsVisit [B64] (p : ResParser) (t : Trip) : Ending × Visit :=
  match t.asyncConnect p reportsUrl with
  | (.client c, calls) => match asyncReports t.keys t.extra c.write c.stream.output with
    | (fin, w) => (fin, ⟨reportsUrl, calls, some w.wire⟩)
  | (.err d _, calls) => (.panicked, ⟨reportsUrl, calls, d.map (·.output.wire)⟩)
  | (.panic _, calls) => (.panicked, ⟨reportsUrl, calls, none⟩)

/-- The loop over the cases and what follows it, examples/async-autobahn-client.rs:27-84, from case `id` on. -/
def asyncRunCases [B64] (p : ResParser) (world : Nat → Trip) (count id : Nat) : Ending × List Visit :=
  if id ≤ count then
    match asyncCaseVisit p (world id) id with
    | (.panicked, v) => (.panicked, [v])
    | (_, v) => match asyncRunCases p world count (id + 1) with
      | (fin, vs) => (fin, v :: vs)
  else match asyncReportsVisit p (world id) with
    | (fin, v) => (fin, [v])
termination_by count + 1 - id

/-- `main` of examples/async-autobahn-client.rs, 13-85. `case_count + 1` (line 27) overflows for the largest count. -/
def asyncSuiteMain [B64] (p : ResParser) (world : Nat → Trip) : Ending × List Visit :=
  match asyncCountVisit p (world 0) with
  | (some n, v) => if n = usizeMax then (.panicked, [v])
    else match asyncRunCases p world n 1 with
      | (fin, vs) => (fin, v :: vs)
  | (none, v) => (.panicked, [v])

end WS
