/-!
# Base64 (RFC 4648 section 4) and SHA-1 (RFC 3174)

Independent of the model: base 64 digits of 24 bit numbers and the alphabet as a string; SHA-1 by
"method 1" of the RFC with the 80 word schedule as a function.
-/

namespace WS.Spec

/-- The alphabet, RFC 4648 table 1. -/
def alphabet : List Char :=
  "ABCDEFGHIJKLMNOPQRSTUVWXYZabcdefghijklmnopqrstuvwxyz0123456789+/".toList

/-- The four base 64 digits of a 24 bit group, most significant first. -/
def digits (n : Nat) : List Nat := [n / 64 ^ 3 % 64, n / 64 ^ 2 % 64, n / 64 % 64, n % 64]

/-- Base64 text of a byte string: 24 bit groups, most significant bit first; the last group is
filled with zero bits and `=` replaces digits that carry no data. -/
def base64 : List Nat → List Char
  | [] => []
  | [a] => ((digits (a * 65536)).take 2).map (alphabet.getD · 'A') ++ ['=', '=']
  | [a, b] => ((digits (a * 65536 + b * 256)).take 3).map (alphabet.getD · 'A') ++ ['=']
  | a :: b :: c :: rest =>
    (digits (a * 65536 + b * 256 + c)).map (alphabet.getD · 'A') ++ base64 rest

/-- RFC 3174 section 3: circular left shift of a 32 bit word. -/
def rotl (n : Nat) (x : BitVec 32) : BitVec 32 := (x <<< n) ||| (x >>> (32 - n))

/-- RFC 3174 section 4: a `1` bit, zero bits up to 448 mod 512, the length in bits as 64 bit
number. -/
def sha1Pad (m : List Nat) : List Nat :=
  m ++ [0x80] ++ List.replicate ((119 - m.length % 64) % 64) 0 ++
    (List.range 8).map fun i => m.length * 8 / 256 ^ (7 - i) % 256

/-- Word `i` of a padded message. -/
def sha1Word (p : List Nat) (i : Nat) : BitVec 32 :=
  BitVec.ofNat 32 (p.getD (4 * i) 0 * 2 ^ 24 + p.getD (4 * i + 1) 0 * 2 ^ 16 +
    p.getD (4 * i + 2) 0 * 2 ^ 8 + p.getD (4 * i + 3) 0)

/-- RFC 3174 section 6.1 (a), (b): the word schedule. -/
def sha1W (p : List Nat) (block t : Nat) : BitVec 32 :=
  if t < 16 then sha1Word p (16 * block + t)
  else rotl 1 (sha1W p block (t - 3) ^^^ sha1W p block (t - 8) ^^^ sha1W p block (t - 14) ^^^
    sha1W p block (t - 16))
termination_by t

/-- RFC 3174 section 5. -/
def sha1F (t : Nat) (b c d : BitVec 32) : BitVec 32 :=
  if t ≤ 19 then (b &&& c) ||| (~~~ b &&& d)
  else if t ≤ 39 then b ^^^ c ^^^ d
  else if t ≤ 59 then (b &&& c) ||| (b &&& d) ||| (c &&& d)
  else b ^^^ c ^^^ d

/-- RFC 3174 section 5. -/
def sha1K (t : Nat) : BitVec 32 :=
  if t ≤ 19 then 0x5A827999 else if t ≤ 39 then 0x6ED9EBA1 else if t ≤ 59 then 0x8F1BBCDC
  else 0xCA62C1D6

/-- The five words of the state. -/
structure Five where
  a : BitVec 32
  b : BitVec 32
  c : BitVec 32
  d : BitVec 32
  e : BitVec 32
  deriving DecidableEq

/-- RFC 3174 section 6.1 (d), after `t` rounds. -/
def sha1Rounds (p : List Nat) (block : Nat) (h : Five) : Nat → Five
  | 0 => h
  | t + 1 =>
    let x := sha1Rounds p block h t
    ⟨rotl 5 x.a + sha1F t x.b x.c x.d + x.e + sha1W p block t + sha1K t, x.a, rotl 30 x.b, x.c, x.d⟩

/-- RFC 3174 section 6.1 (e), after `n` blocks. -/
def sha1Blocks (p : List Nat) : Nat → Five
  | 0 => ⟨0x67452301, 0xEFCDAB89, 0x98BADCFE, 0x10325476, 0xC3D2E1F0⟩
  | n + 1 =>
    let h := sha1Blocks p n
    let x := sha1Rounds p n h 80
    ⟨h.a + x.a, h.b + x.b, h.c + x.c, h.d + x.d, h.e + x.e⟩

/-- The message digest: the five words, most significant byte first. -/
def sha1 (m : List Nat) : List Nat :=
  let p := sha1Pad m
  let h := sha1Blocks p (p.length / 64)
  [h.a, h.b, h.c, h.d, h.e].flatMap fun w =>
    [w.toNat / 2 ^ 24, w.toNat / 2 ^ 16 % 256, w.toNat / 2 ^ 8 % 256, w.toNat % 256]

end WS.Spec
