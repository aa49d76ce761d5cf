import Verif.Base
/-!
# Base64 (the `base64` crate, version 0.10)

`base64::encode` and `base64::decode` with the standard alphabet and padding, as called by
websocket-base/src/header.rs:36, 63, 83 and 114. This is a trusted dependency model. The decoder of
version 0.10 is lenient in ways that do not matter here (missing padding, trailing bits), so the
model does not fix it: a `B64` is any decoder that undoes the encoder. `B64.strict` is the decoder
of RFC 4648.
-/

namespace WS

/-- The text of an ASCII literal. -/
def ascii (s : String) : Bytes := s.toList.map fun c => UInt8.ofNat c.toNat

/-- `STANDARD_ENCODE` (base64 tables.rs): the character for a 6 bit value. -/
def b64Char (n : Nat) : UInt8 :=
  if n < 26 then UInt8.ofNat (65 + n)
  else if n < 52 then UInt8.ofNat (97 + (n - 26))
  else if n < 62 then UInt8.ofNat (48 + (n - 52))
  else if n = 62 then 43
  else 47

/-- `base64::encode`. -/
def b64Encode : Bytes → Bytes
  | [] => []
  | [a] => [b64Char (a.toNat / 4), b64Char (a.toNat % 4 * 16), 61, 61]
  | [a, b] =>
    [b64Char (a.toNat / 4), b64Char (a.toNat % 4 * 16 + b.toNat / 16), b64Char (b.toNat % 16 * 4), 61]
  | a :: b :: c :: rest =>
    b64Char (a.toNat / 4) :: b64Char (a.toNat % 4 * 16 + b.toNat / 16) ::
      b64Char (b.toNat % 16 * 4 + c.toNat / 64) :: b64Char (c.toNat % 64) :: b64Encode rest

/-- `base64::decode`: any function undoing `base64::encode`. -/
class B64 where
  decode : Bytes → Option Bytes
  decode_encode : ∀ b, decode (b64Encode b) = some b

/-- The 6 bit value of a character. -/
def b64Val (c : UInt8) : Option Nat :=
  if 65 ≤ c ∧ c ≤ 90 then some (c.toNat - 65)
  else if 97 ≤ c ∧ c ≤ 122 then some (c.toNat - 97 + 26)
  else if 48 ≤ c ∧ c ≤ 57 then some (c.toNat - 48 + 52)
  else if c = 43 then some 62
  else if c = 47 then some 63
  else none

/-- The RFC 4648 decoder: padding required, unused bits zero. -/
def b64Strict : Bytes → Option Bytes
  | [] => some []
  | [w, x, 61, 61] => do
    let p ← b64Val w
    let q ← b64Val x
    if q % 16 = 0 then some [UInt8.ofNat (p * 4 + q / 16)] else none
  | [w, x, y, 61] => do
    let p ← b64Val w
    let q ← b64Val x
    let r ← b64Val y
    if r % 4 = 0 then some [UInt8.ofNat (p * 4 + q / 16), UInt8.ofNat (q % 16 * 16 + r / 4)] else none
  | w :: x :: y :: z :: rest => do
    let p ← b64Val w
    let q ← b64Val x
    let r ← b64Val y
    let s ← b64Val z
    let tail ← b64Strict rest
    some (UInt8.ofNat (p * 4 + q / 16) :: UInt8.ofNat (q % 16 * 16 + r / 4) ::
      UInt8.ofNat (r % 4 * 64 + s) :: tail)
  | _ => none

end WS
