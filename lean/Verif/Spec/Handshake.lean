import Verif.Model.Http
import Verif.Spec.Text
import Verif.Spec.Base64
/-!
# The opening handshake (RFC 6455 section 4), on header lines
-/

namespace WS.Spec

/-- `vs` are the values of the header lines called `name`, in order. Blanks at the end of a line do
not belong to the value. -/
inductive Values (name : List UInt8) : List (List UInt8 × List UInt8) → List (List UInt8) → Prop
  | nil : Values name [] []
  | hit {n v k ls vs} : SameText n name → v.getLast? ≠ some 32 → Values name ls vs →
      Values name ((n, v ++ List.replicate k 32) :: ls) (v :: vs)
  | miss {n v ls vs} : ¬ SameText n name → Values name ls vs → Values name ((n, v) :: ls) vs

/-- Some line lists an element with this property. -/
def Lists (P : List UInt8 → Prop) (vs : List (List UInt8)) : Prop :=
  ∃ line ∈ vs, ∃ items, CommaList line items ∧ ∃ x ∈ items, P x

/-- An element of `Upgrade` (RFC 7230 section 6.7) whose protocol name is `websocket`; a version may
follow after a slash. -/
def NamesWebsocket (x : List UInt8) : Prop :=
  ∃ name, SameText name (ascii "websocket") ∧ (x = name ∨ ∃ version, x = name ++ 47 :: version)

/-- All lines together list exactly one element, and it has this property. -/
def ListsOnly (P : List UInt8 → Prop) (vs : List (List UInt8)) : Prop :=
  ∃ itemss x, vs.length = itemss.length ∧ (∀ p ∈ vs.zip itemss, CommaList p.1 p.2) ∧ itemss.flatten = [x] ∧ P x

/-- A readable header: at least one line, all of them UTF-8. -/
def Readable (vs : List (List UInt8)) : Prop := vs ≠ [] ∧ ∀ x ∈ vs, IsUtf8 x

/-- A header with exactly one, non-empty, line. -/
def OneLine (vs : List (List UInt8)) (s : List UInt8) : Prop := vs = [s] ∧ s ≠ [] ∧ IsUtf8 s

/-- The first condition of the list that fails decides; `none` if all hold. -/
def FirstFailure {ε : Type} : List (Prop × ε) → Option ε → Prop
  | [], r => r = none
  | (c, e) :: rest, r => (c ∧ FirstFailure rest r) ∨ (¬ c ∧ r = some e)

/-- The text of an HTTP head (RFC 7230 section 3): start line, header lines, empty line. -/
def Head (start : List UInt8) (lines : List (List UInt8 × List UInt8)) : List UInt8 :=
  start ++ ascii "\r\n" ++ lines.flatMap (fun e => e.1 ++ ascii ": " ++ e.2 ++ ascii "\r\n") ++ ascii "\r\n"

/-- `head` is the part of `s` through its first blank line (CR LF CR LF), `rest` what follows. -/
def FirstBlank (s head rest : List UInt8) : Prop :=
  s = head ++ rest ∧ [13, 10, 13, 10] <:+ head ∧ ∀ h, h <+: head → [13, 10, 13, 10] <:+ h → h = head

/-- RFC 6455 section 4.2.2 item 5.4: the accept value for a key. -/
def acceptText (key : List Nat) : List Char :=
  base64 (sha1 ((base64 key ++ "258EAFA5-E914-47DA-95CA-C5AB0DC85B11".toList).map Char.toNat))

end WS.Spec
