/-!
# Shared base types

Byte strings, results and errors used by the whole model.
-/

namespace WS

/-- A `Vec<u8>` / `&[u8]`.  `List` instead of a growable array: capacity is only
modelled where the code depends on it (see `Model/BytesMut.lean`). -/
abbrev Bytes := List UInt8

/-- The `std::io::ErrorKind`s that occur in, or matter to, the modelled code. The
human readable message carried by `io::Error` is dropped. -/
inductive IoKind
  | interrupted | unexpectedEof | wouldBlock | timedOut | writeZero
  | invalidData | invalidInput | connectionReset | other
  deriving DecidableEq, Repr

/-- `WebSocketError`, websocket-base/src/result.rs:27-40.  The `Utf8Error` and
`Other` payloads are dropped. -/
inductive WsErr
  | protocol (msg : String)
  | dataFrame (msg : String)
  | noData
  | io (k : IoKind)
  | utf8
  | other
  deriving DecidableEq, Repr

/-- `impl From<io::Error> for WebSocketError`, websocket-base/src/result.rs:67-74. -/
def WsErr.ofIo : IoKind → WsErr
  | .unexpectedEof => .noData
  | k => .io k

/-- Outcome of a Rust function returning `WebSocketResult<T>`; a panic is an
explicit value. -/
inductive Res (α : Type) where
  | ok (a : α)
  | err (e : WsErr)
  | panic (msg : String)
  deriving DecidableEq, Repr

/-- The `?` operator. -/
def Res.bind {α β} : Res α → (α → Res β) → Res β
  | .ok a, f => f a
  | .err e, _ => .err e
  | .panic m, _ => .panic m

instance : Monad Res where
  pure := .ok
  bind := Res.bind

/-- Did the call panic? -/
def Res.isPanic {α} : Res α → Bool
  | .panic _ => true
  | _ => false

@[simp] theorem Res.bind_ok {α β} (a : α) (f : α → Res β) : (Res.ok a >>= f) = f a := rfl
@[simp] theorem Res.bind_err {α β} (e) (f : α → Res β) : (Res.err e >>= f) = .err e := rfl
@[simp] theorem Res.bind_panic {α β} (e) (f : α → Res β) : (Res.panic e >>= f) = .panic e := rfl
@[simp] theorem Res.pure_eq {α} (a : α) : (pure a : Res α) = .ok a := rfl
@[simp] theorem Res.isPanic_ok {α} (a : α) : (Res.ok a).isPanic = false := rfl
@[simp] theorem Res.isPanic_err {α} (e) : (Res.err e : Res α).isPanic = false := rfl
@[simp] theorem Res.isPanic_panic {α} (e) : (Res.panic e : Res α).isPanic = true := rfl

end WS
