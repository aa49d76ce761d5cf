import Verif.Base
/-!
# Transports

`std::io::Read` and `std::io::Write` endpoints as scripts of events, and the
standard-library loops (`read_exact`, `Take::read_to_end`, `write_all`) the code
runs over them.  The scripts are universally quantified in the theorems, which is
how "every segmentation, interruption and failure point" is expressed.
-/

namespace WS

/-- One answer of the transport to a `read` call: some bytes are available (an empty
chunk is an `Ok(0)`, i.e. an end-of-file indication), or an error. -/
inductive Ev
  | chunk (b : Bytes)
  | error (k : IoKind)
  deriving DecidableEq, Repr

/-- A reader: the future answers of the transport.  When the script is used up every
further read returns `Ok(0)`.  A buffered reader (`hyper::buffer::BufReader`,
src/client/sync.rs:122-151) whose buffer holds `b` is the script `chunk b :: rest`. -/
abbrev Src := List Ev

/-- `Read::read` with a destination of `n` bytes: returns at most `n` bytes of the first
pending chunk, the remainder of which stays pending.  (Trusted transport model.) -/
def read1 (n : Nat) : Src → Except IoKind Bytes × Src
  | [] => (.ok [], [])
  | .error k :: rest => (.error k, rest)
  | .chunk b :: rest =>
    if b.length ≤ n then (.ok b, rest) else (.ok (b.take n), .chunk (b.drop n) :: rest)

/-- `Read::read_exact` (Rust standard library) for an `n` byte buffer: loops over `read`,
retries on `Interrupted`, turns an early `Ok(0)` into `UnexpectedEof`; bytes read before a
failure are gone.  Written as a structural recursion over the script; `readExact_eq_loop`
shows that it is the loop over `read1`. -/
def readExact (n : Nat) : Src → Except IoKind Bytes × Src
  | [] => if n = 0 then (.ok [], []) else (.error .unexpectedEof, [])
  | .error k :: rest =>
    if n = 0 then (.ok [], .error k :: rest)
    else if k = .interrupted then readExact n rest else (.error k, rest)
  | .chunk b :: rest =>
    if n = 0 then (.ok [], .chunk b :: rest)
    else if b = [] then (.error .unexpectedEof, rest)
    else if b.length ≤ n then
      match readExact (n - b.length) rest with
      | (.ok bs, s) => (.ok (b ++ bs), s)
      | (.error k, s) => (.error k, s)
    else (.ok (b.take n), .chunk (b.drop n) :: rest)

/-- `reader.take(n).read_to_end(&mut vec)` (Rust standard library): reads until `n` bytes
were obtained or `read` returns `Ok(0)`, retrying on `Interrupted`. -/
def takeToEnd (n : Nat) : Src → Except IoKind Bytes × Src
  | [] => (.ok [], [])
  | .error k :: rest =>
    if n = 0 then (.ok [], .error k :: rest)
    else if k = .interrupted then takeToEnd n rest else (.error k, rest)
  | .chunk b :: rest =>
    if n = 0 then (.ok [], .chunk b :: rest)
    else if b = [] then (.ok [], rest)
    else if b.length ≤ n then
      match takeToEnd (n - b.length) rest with
      | (.ok bs, s) => (.ok (b ++ bs), s)
      | (.error k, s) => (.error k, s)
    else (.ok (b.take n), .chunk (b.drop n) :: rest)

/-- The bytes still to come from a script, ignoring errors. -/
def Src.flat : Src → Bytes
  | [] => []
  | .chunk b :: rest => b ++ Src.flat rest
  | .error _ :: rest => Src.flat rest

/-- A transport that delivers its bytes without failing: every event is a non-empty chunk
or an `Interrupted` error. -/
def Src.Clean : Src → Prop
  | [] => True
  | .chunk b :: rest => b ≠ [] ∧ Src.Clean rest
  | .error k :: rest => k = .interrupted ∧ Src.Clean rest

/-- A decreasing measure for loops over a script: bytes and events left. -/
def Src.measure : Src → Nat
  | [] => 0
  | .chunk b :: rest => b.length + 1 + Src.measure rest
  | .error _ :: rest => 1 + Src.measure rest

/-- A computation that reads from a script (`&mut R where R: Read`). -/
def Rd (α : Type) := Src → Res α × Src

/-- Sequencing with `?`: stops at the first error, keeping the reader position. -/
def Rd.bind {α β} (m : Rd α) (f : α → Rd β) : Rd β := fun s =>
  match m s with
  | (.ok a, s') => f a s'
  | (.err e, s') => (.err e, s')
  | (.panic e, s') => (.panic e, s')

instance : Monad Rd where
  pure a := fun s => (.ok a, s)
  bind := Rd.bind

/-- `return Err(e)`. -/
def Rd.fail {α} (e : WsErr) : Rd α := fun s => (.err e, s)

/-- Lift a result that does not touch the reader. -/
def Rd.lift {α} (r : Res α) : Rd α := fun s => (r, s)

/-- `read_exact` with the `?` conversion of I/O errors. -/
def Rd.exact (n : Nat) : Rd Bytes := fun s =>
  match readExact n s with
  | (.ok b, s') => (.ok b, s')
  | (.error k, s') => (.err (.ofIo k), s')

/-- Big-endian interpretation of a byte string (`byteorder::BigEndian::read_uXX`). -/
def beNat (bs : Bytes) : Nat := bs.foldl (fun a b => a * 256 + b.toNat) 0

/-- `ReadBytesExt::read_u8` (byteorder 1.x): `read_exact` of one byte. -/
def Rd.u8 : Rd UInt8 := do
  let b ← Rd.exact 1
  pure (b.headD 0)

/-- `ReadBytesExt::read_u16::<BigEndian>`. -/
def Rd.u16 : Rd Nat := do
  let b ← Rd.exact 2
  pure (beNat b)

/-- `ReadBytesExt::read_u64::<BigEndian>`. -/
def Rd.u64 : Rd Nat := do
  let b ← Rd.exact 8
  pure (beNat b)

/-- One answer of the transport to a `write` call: how many of the offered bytes it takes
(0 is `Ok(0)`; more than offered means all), or an error. -/
inductive WEv
  | accept (n : Nat)
  | error (k : IoKind)
  deriving DecidableEq, Repr

/-- A writer: what reached the wire so far, and the transport's future answers.  When the
script is used up every write is accepted whole (so a `Vec<u8>` is `⟨contents, []⟩`). -/
structure Sink where
  wire : Bytes
  script : List WEv
  deriving DecidableEq, Repr

/-- `Write::write`. (Trusted transport model.) -/
def Sink.write (bs : Bytes) (w : Sink) : Except IoKind Nat × Sink :=
  match w.script with
  | [] => (.ok bs.length, ⟨w.wire ++ bs, []⟩)
  | .error k :: s => (.error k, ⟨w.wire, s⟩)
  | .accept n :: s => (.ok (min n bs.length), ⟨w.wire ++ bs.take n, s⟩)

/-- `Write::write_all` (Rust standard library): loops over `write`; `Ok(0)` is `WriteZero`,
`Interrupted` is retried. -/
def Sink.writeAll (bs : Bytes) (w : Sink) : Except IoKind Unit × Sink :=
  if bs = [] then (.ok (), w)
  else match w with
    | ⟨wire, []⟩ => (.ok (), ⟨wire ++ bs, []⟩)
    | ⟨wire, .error k :: s⟩ =>
      if k = .interrupted then Sink.writeAll bs ⟨wire, s⟩ else (.error k, ⟨wire, s⟩)
    | ⟨wire, .accept n :: s⟩ =>
      if n = 0 then (.error .writeZero, ⟨wire, s⟩)
      else Sink.writeAll (bs.drop n) ⟨wire ++ bs.take n, s⟩
termination_by w.script.length

end WS
