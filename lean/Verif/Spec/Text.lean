import Verif.Spec.Utf8
/-!
# Header text: white space and comma separated lists

RFC 7230 section 7 lists (`#rule`), with Unicode white space as Rust's `str::trim` understands it.
Independent of the model: relations, no functions that compute.
-/

namespace WS.Spec

/-- Unicode `White_Space` (PropList.txt). -/
def IsWhiteSpace (n : Nat) : Prop :=
  (9 ≤ n ∧ n ≤ 13) ∨ n = 0x20 ∨ n = 0x85 ∨ n = 0xA0 ∨ n = 0x1680 ∨ (0x2000 ≤ n ∧ n ≤ 0x200A) ∨
  n = 0x2028 ∨ n = 0x2029 ∨ n = 0x202F ∨ n = 0x205F ∨ n = 0x3000

/-- No white space at either end. -/
def Trimmed (bs : List UInt8) : Prop :=
  ∀ c, IsWhiteSpace c → ¬ utf8Char c <+: bs.map UInt8.toNat ∧ ¬ utf8Char c <:+ bs.map UInt8.toNat

/-- Only white space. -/
def Blank (bs : List UInt8) : Prop := ∃ cs, EncodesText cs bs ∧ ∀ c ∈ cs, IsWhiteSpace c

/-- `item` is `seg` without the white space around it. -/
def Padded (seg item : List UInt8) : Prop :=
  ∃ l r, seg = l ++ item ++ r ∧ Blank l ∧ Blank r ∧ Trimmed item

/-- The pieces of a line between separators `c`. -/
def Pieces (c : UInt8) (line : List UInt8) (segs : List (List UInt8)) : Prop :=
  segs ≠ [] ∧ line = [c].intercalate segs ∧ ∀ s ∈ segs, c ∉ s

/-- The elements of a comma separated line: the pieces between commas without surrounding white
space, empty ones do not count. -/
def CommaList (line : List UInt8) (items : List (List UInt8)) : Prop :=
  ∃ segs cores, Pieces 44 line segs ∧ segs.length = cores.length ∧
    (∀ p ∈ segs.zip cores, Padded p.1 p.2) ∧ items = cores.filter (· ≠ [])

/-- Equality of ASCII letters up to case. -/
def SameLetter (a b : UInt8) : Prop :=
  a = b ∨ (65 ≤ a ∧ a ≤ 90 ∧ b = a + 32) ∨ (65 ≤ b ∧ b ≤ 90 ∧ a = b + 32)

/-- Equality of texts up to ASCII case. -/
inductive SameText : List UInt8 → List UInt8 → Prop
  | nil : SameText [] []
  | cons {a b s t} : SameLetter a b → SameText s t → SameText (a :: s) (b :: t)

end WS.Spec

namespace WS.Spec

/-- No carriage return and no line feed. -/
def Inline (s : List UInt8) : Prop := 13 ∉ s ∧ 10 ∉ s

/-- A text that can be an element of a comma separated list: not empty, no comma, no white space
around it, valid UTF-8. -/
def ListItem (s : List UInt8) : Prop := s ≠ [] ∧ 44 ∉ s ∧ Trimmed s ∧ IsUtf8 s

end WS.Spec
