import Verif.Spec.Text
/-!
# The lines of a head, as anyone who cuts at CR LF sees them; texts that can be sent in headers
-/

namespace WS.Spec

/-- `ls` are the lines of `s`: each is ended by CR LF and has neither CR nor LF inside. -/
def LinesAre (s : List UInt8) (ls : List (List UInt8)) : Prop :=
  (∀ l ∈ ls, Inline l) ∧ s = ls.flatMap fun l => l ++ [13, 10]

/-- A header value that arrives as it was given: no control characters, no blank at either end. -/
def PlainValue (v : List UInt8) : Prop :=
  (∀ c ∈ v, 32 ≤ c ∧ c ≠ 127) ∧ v.head? ≠ some 32 ∧ v.getLast? ≠ some 32

/-- An element of a list in a header: such a value, not empty. -/
def PlainItem (v : List UInt8) : Prop := v ≠ [] ∧ PlainValue v

end WS.Spec
