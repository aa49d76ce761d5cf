import Verif.Model.Raw
/-!
# What raw access to a stream means

Which bytes of the incoming stream a call takes, and which it adds to the outgoing stream, given its answer. A call on the
library (`ClientOp`) may take any bytes: what it makes of them is the subject of other properties.
-/

namespace WS.Spec

/-- The call `o`, answered by `r`, took `bs` from the incoming stream. -/
inductive Took : RawOp → RawRes → Bytes → Prop
  | message {r bs} : Took (.op .recvMessage) (.op (.message r)) bs
  | dataframe {r bs} : Took (.op .recvDataframe) (.op (.dataframe r)) bs
  | sent {v key r} : Took (.op (.send v key)) (.op (.sent r)) []
  | read {n bs} : bs.length ≤ n → Took (.read n) (.read (.ok bs)) bs
  | readFailed {n k} : Took (.read n) (.read (.error k)) []
  | exact {n bs} : bs.length = n → Took (.readExact n) (.read (.ok bs)) bs
  | exactFailed {n k bs} : bs.length < n → Took (.readExact n) (.read (.error k)) bs
  | toEnd {r bs} : Took .toEnd (.toEnd r bs) bs
  | write {bs r} : Took (.write bs) (.write r) []
  | writeAll {bs r} : Took (.writeAll bs) (.writeAll r) []

/-- The call `o`, answered by `r`, added `bs` to the outgoing stream; `frame v key` is the frame that sending `v` makes, if it
can be made. -/
inductive Gave (frame : FrameView → Key4 → Option Bytes) : RawOp → RawRes → Bytes → Prop
  | message {r} : Gave frame (.op .recvMessage) (.op (.message r)) []
  | dataframe {r} : Gave frame (.op .recvDataframe) (.op (.dataframe r)) []
  | sent {v key bs} : frame v key = some bs → Gave frame (.op (.send v key)) (.op (.sent (.ok ()))) bs
  | sentPart {v key bs pre e} : frame v key = some bs → pre <+: bs → Gave frame (.op (.send v key)) (.op (.sent (.err e))) pre
  | refused {v key e} : frame v key = none → Gave frame (.op (.send v key)) (.op (.sent (.err e))) []
  | read {n r} : Gave frame (.read n) (.read r) []
  | exact {n r} : Gave frame (.readExact n) (.read r) []
  | toEnd {r bs} : Gave frame .toEnd (.toEnd r bs) []
  | write {bs n} : n ≤ bs.length → Gave frame (.write bs) (.write (.ok n)) (bs.take n)
  | writeFailed {bs k} : Gave frame (.write bs) (.write (.error k)) []
  | writeAll {bs} : Gave frame (.writeAll bs) (.writeAll (.ok ())) bs
  | writeAllFailed {bs pre k} : pre <+: bs → Gave frame (.writeAll bs) (.writeAll (.error k)) pre

/-- One after the other: the calls `ops`, answered by `rs`, took `ins` and gave `outs`. -/
inductive InTurn (frame : FrameView → Key4 → Option Bytes) : List RawOp → List RawRes → Bytes → Bytes → Prop
  | nil : InTurn frame [] [] [] []
  | cons {o r i g ops rs is gs} : Took o r i → Gave frame o r g → InTurn frame ops rs is gs →
    InTurn frame (o :: ops) (r :: rs) (i ++ is) (g ++ gs)

end WS.Spec
