import Verif.Spec.Echo
/-!
# What the clients of the test suite should do
-/

namespace WS.Spec

/-- The value of decimal digits, most significant first. -/
def placeValue : List UInt8 → Nat
  | [] => 0
  | d :: ds => (d.toNat - 48) * 10 ^ ds.length + placeValue ds

/-- The text is a number in decimal, perhaps after a plus sign, that fits in 64 bits. -/
def Number (bs : List UInt8) (n : Nat) : Prop :=
  ∃ ds, (bs = ds ∨ bs = 43 :: ds) ∧ ds ≠ [] ∧ (∀ d ∈ ds, 48 ≤ d.toNat ∧ d.toNat ≤ 57) ∧ placeValue ds = n ∧ n < 2 ^ 64

/-- A ping asks for a pong; nothing else asks for anything. -/
def Message.pongFor : Message → Option Message
  | .ping b => some (.pong b)
  | _ => none

/-- `n` is the number in the last text among the messages, and `start` if there is none; every text is a number. -/
inductive LastNumber : Nat → List Message → Nat → Prop
  | none {start} : LastNumber start [] start
  | text {start t k ms n} : Number t k → LastNumber k ms n → LastNumber start (.text t :: ms) n
  | other {start m ms n} : (∀ t, m ≠ .text t) → LastNumber start ms n → LastNumber start (m :: ms) n

end WS.Spec
