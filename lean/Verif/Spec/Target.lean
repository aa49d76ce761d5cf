import Verif.Spec.Base64
/-!
# What a request says about the URL (RFC 6455 section 4.1, RFC 7230 section 5.4, RFC 7617, RFC 3986 section 2.1)
-/

namespace WS.Spec

/-- `ds` are the decimal digits of `n`, without leading zeros. -/
inductive Decimal : Nat → List UInt8 → Prop
  | one {d} (h : d < 10) : Decimal d [UInt8.ofNat (48 + d)]
  | more {n d ds} (hn : 0 < n) (hd : d < 10) (h : Decimal n ds) : Decimal (10 * n + d) (ds ++ [UInt8.ofNat (48 + d)])

/-- A `Host` value that names a host and a port, to a server whose default port is `dflt`. -/
inductive NamesHost (dflt : Nat) (host : List UInt8) : Nat → List UInt8 → Prop
  | plain : NamesHost dflt host dflt host
  | withPort {p ds} (h : Decimal p ds) : NamesHost dflt host p (host ++ 58 :: ds)

/-- RFC 7617 section 2: the `Authorization` value for a user and a password. -/
def BasicCredentials (user password value : List UInt8) : Prop :=
  ∃ token, value = [66, 97, 115, 105, 99, 32] ++ token ∧
    token.map (fun c => Char.ofNat c.toNat) = base64 ((user ++ 58 :: password).map UInt8.toNat)

/-- A hexadecimal digit and its value. -/
def HexDigit (c : UInt8) (v : Nat) : Prop :=
  48 ≤ c.toNat ∧ c.toNat ≤ 57 ∧ v = c.toNat - 48 ∨ 65 ≤ c.toNat ∧ c.toNat ≤ 70 ∧ v = c.toNat - 55 ∨ 97 ≤ c.toNat ∧ c.toNat ≤ 102 ∧ v = c.toNat - 87

/-- RFC 3986 section 2.1: `text` is a percent-encoded form of `meant`. -/
inductive PercentEncodes : List UInt8 → List UInt8 → Prop
  | nil : PercentEncodes [] []
  | plain {c t m} (hc : c ≠ 37) (h : PercentEncodes t m) : PercentEncodes (c :: t) (c :: m)
  | coded {x y a b t m} (hx : HexDigit x a) (hy : HexDigit y b) (h : PercentEncodes t m) :
      PercentEncodes (37 :: x :: y :: t) (UInt8.ofNat (16 * a + b) :: m)

end WS.Spec
