import Verif.Base
/-!
# UTF-8 in the Rust standard library

`core::str::from_utf8` and `String::from_utf8_lossy`, as used by
websocket-base/src/message.rs:217-221, 233 (`bytes_to_string`, websocket-base/src/ws/util/mod.rs:13-16) and
451-470. These are models of the standard library (core/src/str/validations.rs
`run_utf8_validation`, core/src/str/lossy.rs `Utf8Chunks`), not of code in the repository.
-/

namespace WS

/-- A continuation byte, `0x80..=0xBF`. -/
def isCont (b : UInt8) : Bool := 0x80 ≤ b && b ≤ 0xBF

/-- Accepted second byte of a three byte sequence (validations.rs: the match on
`(first, next!())` in the width-3 arm). -/
def second3 (first second : UInt8) : Bool :=
  (first == 0xE0 && 0xA0 ≤ second && second ≤ 0xBF) ||
  (0xE1 ≤ first && first ≤ 0xEC && 0x80 ≤ second && second ≤ 0xBF) ||
  (first == 0xED && 0x80 ≤ second && second ≤ 0x9F) ||
  (0xEE ≤ first && first ≤ 0xEF && 0x80 ≤ second && second ≤ 0xBF)

/-- Accepted second byte of a four byte sequence. -/
def second4 (first second : UInt8) : Bool :=
  (first == 0xF0 && 0x90 ≤ second && second ≤ 0xBF) ||
  (0xF1 ≤ first && first ≤ 0xF3 && 0x80 ≤ second && second ≤ 0xBF) ||
  (first == 0xF4 && 0x80 ≤ second && second ≤ 0x8F)

/-- `utf8_char_width` (validations.rs, table `UTF8_CHAR_WIDTH`). -/
def charWidth (b : UInt8) : Nat :=
  if b < 0x80 then 1
  else if b < 0xC2 then 0
  else if b < 0xE0 then 2
  else if b < 0xF0 then 3
  else if b < 0xF5 then 4
  else 0

/-- One step of the validator / of the chunk iterator: at a non-empty input, the number of
bytes consumed and whether they form a character. An ill-formed sequence consumes the
"maximal subpart" as `Utf8Chunks` does. -/
def utf8Step : UInt8 → Bytes → Nat × Bool
  | a, rest =>
    if charWidth a = 1 then (1, true)
    else if charWidth a = 2 then
      match rest with
      | b :: _ => if isCont b then (2, true) else (1, false)
      | [] => (1, false)
    else if charWidth a = 3 then
      match rest with
      | b :: rest' =>
        if second3 a b then
          match rest' with
          | c :: _ => if isCont c then (3, true) else (2, false)
          | [] => (2, false)
        else (1, false)
      | [] => (1, false)
    else if charWidth a = 4 then
      match rest with
      | b :: rest' =>
        if second4 a b then
          match rest' with
          | c :: rest'' =>
            if isCont c then
              match rest'' with
              | d :: _ => if isCont d then (4, true) else (3, false)
              | [] => (3, false)
            else (2, false)
          | [] => (2, false)
        else (1, false)
      | [] => (1, false)
    else (1, false)

/-- `core::str::from_utf8(..).is_ok()`. -/
def utf8Valid : Bytes → Bool
  | [] => true
  | a :: rest =>
    let st := utf8Step a rest
    st.2 && utf8Valid (rest.drop (st.1 - 1))
termination_by bs => bs.length
decreasing_by simp; omega

/-- The replacement character U+FFFD in UTF-8. -/
def replacement : Bytes := [0xEF, 0xBF, 0xBD]

/-- `String::from_utf8_lossy`. -/
def utf8Lossy : Bytes → Bytes
  | [] => []
  | a :: rest =>
    let st := utf8Step a rest
    (if st.2 then a :: rest.take (st.1 - 1) else replacement) ++ utf8Lossy (rest.drop (st.1 - 1))
termination_by bs => bs.length
decreasing_by simp; omega

end WS
