import Verif.Base
/-!
# SHA-1 (the `sha-1` crate)

`Sha1::digest`, called by websocket-base/src/header.rs:108. Trusted dependency model, organised like
an implementation rather than like the RFC text: bytes are consumed block by block, the schedule is
a sliding window of sixteen words, the padding is appended to the last partial block.
-/

namespace WS

/-- `u32::rotate_left`. -/
def rotl32 (n : UInt32) (x : UInt32) : UInt32 := (x <<< n) ||| (x >>> (32 - n))

/-- Big-endian words of a block. -/
def beWords : Bytes → List UInt32
  | a :: b :: c :: d :: rest =>
    (a.toUInt32 <<< 24 ||| b.toUInt32 <<< 16 ||| c.toUInt32 <<< 8 ||| d.toUInt32) :: beWords rest
  | _ => []

structure Sha1State where
  a : UInt32
  b : UInt32
  c : UInt32
  d : UInt32
  e : UInt32
  deriving DecidableEq, Repr

/-- Initial state. -/
def Sha1State.init : Sha1State := ⟨0x67452301, 0xEFCDAB89, 0x98BADCFE, 0x10325476, 0xC3D2E1F0⟩

/-- Round function and constant of round `t`. -/
def sha1Mix (t : Nat) (b c d : UInt32) : UInt32 :=
  if t < 20 then (d ^^^ (b &&& (c ^^^ d))) + 0x5A827999
  else if t < 40 then (b ^^^ c ^^^ d) + 0x6ED9EBA1
  else if t < 60 then ((b &&& c) ^^^ (b &&& d) ^^^ (c &&& d)) + 0x8F1BBCDC
  else (b ^^^ c ^^^ d) + 0xCA62C1D6

/-- One round with schedule word `w`. -/
def Sha1State.round (t : Nat) (w : UInt32) (s : Sha1State) : Sha1State :=
  ⟨rotl32 5 s.a + sha1Mix t s.b s.c s.d + s.e + w, s.a, rotl32 30 s.b, s.c, s.d⟩

/-- Next window of the schedule: drop the oldest word, append the new one. -/
def slide (w : List UInt32) : List UInt32 :=
  w.drop 1 ++ [rotl32 1 (w.getD 13 0 ^^^ w.getD 8 0 ^^^ w.getD 2 0 ^^^ w.getD 0 0)]

/-- Rounds `t, t+1, …`: `n` of them, with the current window. -/
def sha1Run : Nat → Nat → List UInt32 → Sha1State → Sha1State
  | 0, _, _, s => s
  | n + 1, t, w, s => sha1Run n (t + 1) (slide w) (s.round t (w.getD 0 0))

/-- Compression of one 64 byte block. -/
def Sha1State.compress (block : Bytes) (s : Sha1State) : Sha1State :=
  let x := sha1Run 80 0 (beWords block) s
  ⟨s.a + x.a, s.b + x.b, s.c + x.c, s.d + x.d, s.e + x.e⟩

/-- Big-endian bytes of a word. -/
def word32Bytes (w : UInt32) : Bytes :=
  [(w >>> 24).toUInt8, (w >>> 16).toUInt8, (w >>> 8).toUInt8, w.toUInt8]

/-- Big-endian bytes of the 64 bit message length in bits. -/
def lenBytes (n : Nat) : Bytes :=
  word32Bytes (UInt32.ofNat (n / 2 ^ 29)) ++ word32Bytes (UInt32.ofNat (n * 8))

/-- Consume whole blocks; the last partial block (`len` bytes seen in total) is padded with `0x80`,
zeros and the length, in one or two blocks. -/
def Sha1State.absorb (len : Nat) (m : Bytes) (s : Sha1State) : Sha1State :=
  if h : m.length < 64 then
    let q := m ++ [0x80]
    if q.length ≤ 56 then s.compress (q ++ List.replicate (56 - q.length) 0 ++ lenBytes len)
    else
      let s' := s.compress (q ++ List.replicate (64 - q.length) 0)
      s'.compress (List.replicate 56 0 ++ lenBytes len)
  else Sha1State.absorb len (m.drop 64) (s.compress (m.take 64))
termination_by m.length
decreasing_by simp only [List.length_drop]; omega

/-- `Sha1::digest`. -/
def sha1 (m : Bytes) : Bytes :=
  let s := Sha1State.init.absorb m.length m
  [s.a, s.b, s.c, s.d, s.e].flatMap word32Bytes

end WS
