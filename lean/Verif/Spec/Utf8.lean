/-!
# UTF-8 (RFC 3629 / Unicode table 3-6)

Written with plain arithmetic on scalar values, independently of the model.
-/

namespace WS.Spec

/-- Unicode scalar values: code points except surrogates. -/
def IsScalar (n : Nat) : Prop := n < 0xD800 ∨ (0xE000 ≤ n ∧ n < 0x110000)

/-- UTF-8 encoding of one scalar value. -/
def utf8Char (n : Nat) : List Nat :=
  if n < 0x80 then [n]
  else if n < 0x800 then [0xC0 + n / 64, 0x80 + n % 64]
  else if n < 0x10000 then [0xE0 + n / 4096, 0x80 + n / 64 % 64, 0x80 + n % 64]
  else [0xF0 + n / 262144, 0x80 + n / 4096 % 64, 0x80 + n / 64 % 64, 0x80 + n % 64]

/-- `bs` is the UTF-8 encoding of the text `cs`. -/
def EncodesText (cs : List Nat) (bs : List UInt8) : Prop :=
  (∀ c ∈ cs, IsScalar c) ∧ bs.map UInt8.toNat = cs.flatMap utf8Char

/-- `bs` is valid UTF-8: the encoding of some sequence of scalar values. -/
def IsUtf8 (bs : List UInt8) : Prop := ∃ cs, EncodesText cs bs

end WS.Spec
