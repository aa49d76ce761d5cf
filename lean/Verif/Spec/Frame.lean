/-!
# RFC 6455 section 5.2: the wire layout of a frame

Written with plain arithmetic on naturals, independently of the model.
-/

namespace WS.Spec

/-- A frame as the RFC describes it. -/
structure Frame where
  fin : Bool
  rsv1 : Bool
  rsv2 : Bool
  rsv3 : Bool
  opcode : Nat
  payload : List UInt8
  deriving DecidableEq, Repr

/-- A bit as a number. -/
def bit (b : Bool) : Nat := if b then 1 else 0

/-- Value of a big-endian ("network byte order") string. -/
def be : List UInt8 → Nat
  | [] => 0
  | b :: bs => b.toNat * 256 ^ bs.length + be bs

/-- "Payload length: 7 bits, 7+16 bits, or 7+64 bits … the minimal number of bytes MUST be
used to encode the length … the most significant bit MUST be 0". `LenForm n l7 ext`: a
payload of `n` bytes has the 7-bit field `l7` and the extended length bytes `ext`. -/
inductive LenForm (n : Nat) : Nat → List UInt8 → Prop
  | short (h : n ≤ 125) : LenForm n n []
  | medium (ext : List UInt8) (h₁ : 126 ≤ n) (h₂ : n ≤ 65535) (hl : ext.length = 2)
      (hv : be ext = n) : LenForm n 126 ext
  | long (ext : List UInt8) (h₁ : 65536 ≤ n) (h₂ : n < 2 ^ 63) (hl : ext.length = 8)
      (hv : be ext = n) : LenForm n 127 ext

/-- "octet i of the transformed data is the XOR of octet i of the original data with octet
at index i modulo 4 of the masking key"; without a key the data is unchanged. -/
def Masked (key : Option (List UInt8)) (payload body : List UInt8) : Prop :=
  match key with
  | none => body = payload
  | some k =>
    body.length = payload.length ∧
    ∀ i, i < payload.length → ∃ p q, payload[i]? = some p ∧ k[i % 4]? = some q ∧
      body[i]? = some (p ^^^ q)

/-- `bs` is the wire form of the frame `f`, masked with `key` if there is one. -/
def IsFrame (f : Frame) (key : Option (List UInt8)) (bs : List UInt8) : Prop :=
  ∃ (b0 b1 : UInt8) (l7 : Nat) (ext body : List UInt8),
    bs = [b0, b1] ++ ext ++ key.getD [] ++ body ∧
    f.opcode < 16 ∧
    b0.toNat = 128 * bit f.fin + 64 * bit f.rsv1 + 32 * bit f.rsv2 + 16 * bit f.rsv3 + f.opcode ∧
    b1.toNat = 128 * bit key.isSome + l7 ∧
    LenForm f.payload.length l7 ext ∧
    (∀ k, key = some k → k.length = 4) ∧
    Masked key f.payload body

/-- Section 5.5: "All control frames MUST have a payload length of 125 bytes or less and MUST
NOT be fragmented." Control frames are those with opcodes 8 to 15. -/
def ControlOk (f : Frame) : Prop :=
  8 ≤ f.opcode → f.payload.length ≤ 125 ∧ f.fin = true

end WS.Spec
