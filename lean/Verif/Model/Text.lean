import Verif.Model.Base64
import Verif.Model.Utf8
/-!
# Rust string operations used on header values

`str` values are UTF-8 byte strings. Standard library model.
-/

namespace WS

/-- `str::split(c)` for an ASCII `c`: there is always at least one piece. -/
def splitOn (c : UInt8) : Bytes → List Bytes
  | [] => [[]]
  | b :: bs =>
    if b = c then [] :: splitOn c bs
    else match splitOn c bs with
      | [] => [[b]]
      | w :: ws => (b :: w) :: ws

/-- `str::splitn(n, c)`: at most `n` pieces, the last one holding the unsplit rest. -/
def splitN : Nat → UInt8 → Bytes → List Bytes
  | 0, _, _ => []
  | 1, _, s => [s]
  | n + 2, c, s =>
    if c ∈ s then s.takeWhile (· ≠ c) :: splitN (n + 1) c ((s.dropWhile (· ≠ c)).drop 1)
    else [s]

/-- UTF-8 encodings of the Unicode `White_Space` characters (`char::is_whitespace`). -/
def whiteSpace : List Bytes :=
  [[9], [10], [11], [12], [13], [32], [0xC2, 0x85], [0xC2, 0xA0], [0xE1, 0x9A, 0x80],
   [0xE2, 0x80, 0x80], [0xE2, 0x80, 0x81], [0xE2, 0x80, 0x82], [0xE2, 0x80, 0x83], [0xE2, 0x80, 0x84],
   [0xE2, 0x80, 0x85], [0xE2, 0x80, 0x86], [0xE2, 0x80, 0x87], [0xE2, 0x80, 0x88], [0xE2, 0x80, 0x89],
   [0xE2, 0x80, 0x8A], [0xE2, 0x80, 0xA8], [0xE2, 0x80, 0xA9], [0xE2, 0x80, 0xAF], [0xE2, 0x81, 0x9F],
   [0xE3, 0x80, 0x80]]

/-- Remove from the front as long as one of the given patterns matches. -/
def dropAny (tab : List Bytes) (s : Bytes) : Bytes :=
  match _h : tab.find? fun w => w ≠ [] && w.isPrefixOf s with
  | some w => dropAny tab (s.drop w.length)
  | none => s
termination_by s.length
decreasing_by
  have hp := List.find?_some _h
  simp only [ne_eq, decide_not, Bool.and_eq_true, Bool.not_eq_eq_eq_not, Bool.not_true, decide_eq_false_iff_not,
    List.isPrefixOf_iff_prefix] at hp
  have h1 := hp.2.length_le
  have h2 : w.length ≠ 0 := fun h0 => hp.1 (List.length_eq_zero_iff.mp h0)
  simp only [List.length_drop]; omega

/-- `str::trim_start`. -/
def trimStart (s : Bytes) : Bytes := dropAny whiteSpace s

/-- `str::trim_end`: on UTF-8 text a byte suffix equal to the encoding of a character is that
character. -/
def trimEnd (s : Bytes) : Bytes := (dropAny (whiteSpace.map List.reverse) s.reverse).reverse

/-- `str::trim`. -/
def trim (s : Bytes) : Bytes := trimEnd (trimStart s)

/-- ASCII lower case. -/
def lower (c : UInt8) : UInt8 := if 65 ≤ c ∧ c ≤ 90 then c + 32 else c

/-- Equality of `unicase::UniCase` (version 1): ASCII case is ignored. -/
def eqIgnoreCase (a b : Bytes) : Bool := a.map lower == b.map lower

/-- Pieces with a separator between them. -/
def joinWith (sep : Bytes) : List Bytes → Bytes
  | [] => []
  | [x] => x
  | x :: y :: rest => x ++ sep ++ joinWith sep (y :: rest)

end WS
