import Verif.Model.Http
import Verif.Lemmas.StdLoops
/-!
# hyper's `BufReader` and the head parsing loop

hyper 0.10 `src/buffer.rs` and `src/http/h1.rs` (`parse`). Trusted dependency model; used by
src/client/sync.rs, src/receiver.rs, src/server/upgrade/sync.rs and src/codec/http.rs.
-/

namespace WS

/-- A `Read + Write` transport. -/
structure Duplex where
  input : Src
  output : Sink
  deriving DecidableEq, Repr

/-- Something that can be read from: it has a script of answers to `read`. -/
class HasSrc (R : Type) where
  get : R → Src
  set : R → Src → R
  get_set : ∀ r s, get (set r s) = s
  set_set : ∀ r s t, set (set r s) t = set r t
  set_get : ∀ r, set r (get r) = r

instance : HasSrc Src := ⟨id, fun _ s => s, fun _ _ => rfl, fun _ _ _ => rfl, fun _ => rfl⟩
instance : HasSrc Duplex :=
  ⟨Duplex.input, fun d s => { d with input := s }, fun _ _ => rfl, fun _ _ _ => rfl, fun _ => rfl⟩

/-- `BufReader { inner, buf, pos, cap }`. -/
structure BufReader (R : Type) where
  inner : R
  buf : Bytes
  pos : Nat
  cap : Nat
  deriving DecidableEq, Repr

variable {R : Type} [HasSrc R]

/-- `INIT_BUFFER_SIZE`. -/
def initBufferSize : Nat := 4096
/-- `MAX_BUFFER_SIZE`. -/
def maxBufferSize : Nat := 8192 + 4096 * 100

/-- `BufReader::with_capacity`. -/
def BufReader.withCapacity (d : R) (n : Nat) : BufReader R := ⟨d, List.replicate n 0, 0, 0⟩
/-- `BufReader::new`. -/
def BufReader.new (d : R) : BufReader R := .withCapacity d initBufferSize
/-- `BufReader::from_parts`. -/
def BufReader.fromParts (d : R) (buf : Bytes) (pos cap : Nat) : BufReader R := ⟨d, buf, pos, cap⟩
/-- `BufReader::into_parts`. -/
def BufReader.intoParts (b : BufReader R) : R × Bytes × Nat × Nat := (b.inner, b.buf, b.pos, b.cap)

/-- `get_buf`: the bytes read from the transport and not yet consumed. -/
def BufReader.window (b : BufReader R) : Bytes := (b.buf.take b.cap).drop b.pos

/-- The bounds kept by `BufReader`; `buf.len() == buf.capacity()` by construction. -/
def BufReader.WF (b : BufReader R) : Prop := b.pos ≤ b.cap ∧ b.cap ≤ b.buf.length

/-- `BufRead::consume`. -/
def BufReader.consume (n : Nat) (b : BufReader R) : BufReader R :=
  if min (b.pos + n) b.cap = b.cap then { b with pos := 0, cap := 0 }
  else { b with pos := min (b.pos + n) b.cap }

/-- `Read::read`: straight from the transport when nothing is buffered. -/
def BufReader.read (n : Nat) (b : BufReader R) : Except IoKind Bytes × BufReader R :=
  if b.cap = b.pos then
    match read1 n (HasSrc.get b.inner) with
    | (r, s) => (r, { b with inner := HasSrc.set b.inner s })
  else (.ok (b.window.take n), b.consume (b.window.take n).length)

/-- `maybe_reserve`: grow when full, `reserve(min(cap * 4, MAX) - cap)`; `Vec::reserve` at least
doubles the capacity. -/
def BufReader.maybeReserve (b : BufReader R) : BufReader R :=
  if b.cap = b.buf.length ∧ b.buf.length < maxBufferSize then
    { b with buf := b.buf ++ List.replicate (max (2 * b.buf.length) (min (4 * b.buf.length) maxBufferSize) - b.buf.length) 0 }
  else b

/-- `read_into_buf`. -/
def BufReader.readIntoBuf (b : BufReader R) : Except IoKind Nat × BufReader R :=
  let b := b.maybeReserve
  if b.cap < b.buf.length then
    match read1 (b.buf.length - b.cap) (HasSrc.get b.inner) with
    | (.ok bs, s) =>
      (.ok bs.length, { b with
        inner := HasSrc.set b.inner s
        buf := b.buf.take b.cap ++ bs ++ b.buf.drop (b.cap + bs.length)
        cap := b.cap + bs.length })
    | (.error k, s) => (.error k, { b with inner := HasSrc.set b.inner s })
  else (.ok 0, b)

/-- The errors of `hyper::Error` that matter here. -/
inductive HyperErr
  | io (k : IoKind)
  | tooLarge
  | http
  deriving DecidableEq, Repr

omit [HasSrc R] in
theorem maybeReserve_inner (b : BufReader R) : b.maybeReserve.inner = b.inner := by
  unfold BufReader.maybeReserve; split <;> rfl

theorem readIntoBuf_measure {b b' : BufReader R} {n : Nat} (h : b.readIntoBuf = (.ok n, b')) (hn : n ≠ 0) :
    (HasSrc.get b'.inner).measure < (HasSrc.get b.inner).measure := by
  have hi := maybeReserve_inner b
  unfold BufReader.readIntoBuf at h
  simp only [hi] at h
  split at h
  · next hlt =>
    cases hr : read1 (b.maybeReserve.buf.length - b.maybeReserve.cap) (HasSrc.get b.inner) with
    | mk r s =>
      rw [hr] at h
      cases r with
      | error k => simp at h
      | ok bs =>
        simp only [Prod.mk.injEq, Except.ok.injEq] at h
        obtain ⟨rfl, rfl⟩ := h
        rw [HasSrc.get_set]; exact read1_measure (by omega) hr (by intro h; cases h; exact hn rfl)
  · simp only [Prod.mk.injEq, Except.ok.injEq] at h; omega

/-- `hyper::http::h1::parse`: parse what is buffered, read more while the head is incomplete. -/
def parseHead {σ line ok} (p : HeadParser σ line ok) (b : BufReader R) : Except HyperErr (HttpHead σ) × BufReader R :=
  match p.parse b.window with
  | .complete m n => (.ok m, b.consume n)
  | .error => (.error .http, b)
  | .part =>
    match _h : b.readIntoBuf with
    | (.error k, b') => (.error (.io k), b')
    | (.ok n, b') =>
      if _hn : n = 0 then
        if b'.window.length = maxBufferSize then (.error .tooLarge, b')
        else (.error (.io .unexpectedEof), b')
      else parseHead p b'
termination_by (HasSrc.get b.inner).measure
decreasing_by exact readIntoBuf_measure _h _hn

/-- The transport as seen through the buffer. -/
def BufReader.src (b : BufReader R) : Src :=
  if b.window = [] then HasSrc.get b.inner else .chunk b.window :: HasSrc.get b.inner

/-- The state of the buffer after a computation that consumed part of `src` and left `s`. -/
def BufReader.restore (b : BufReader R) (s : Src) : BufReader R :=
  if b.window = [] then { b with inner := HasSrc.set b.inner s }
  else match (generalizing := false) s with
    | .chunk w :: rest =>
      if rest.length = (HasSrc.get b.inner).length then { b with pos := b.cap - w.length }
      else { b with pos := 0, cap := 0, inner := HasSrc.set b.inner s }
    | _ => { b with pos := 0, cap := 0, inner := HasSrc.set b.inner s }

end WS
