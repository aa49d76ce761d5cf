import Verif.Spec.Heard
import Verif.Model.IO
/-!
# Why a receive call may fail

Each constructor pairs a cause with the error that names it. Written on bytes, RFC frames and transport events only.
-/

namespace WS.Spec

/-- The bytes `bs` were taken from the transport `s`, which then goes on as `s'`: whole chunks, interruptions, and perhaps the beginning of a last chunk. -/
inductive Takes : List UInt8 → List Ev → List Ev → Prop
  | refl {s} : Takes [] s s
  | interrupted {bs s s'} (h : Takes bs s s') : Takes bs (.error .interrupted :: s) s'
  | whole {b bs s s'} (hb : b ≠ []) (h : Takes bs s s') : Takes (b ++ bs) (.chunk b :: s) s'
  | start {b c s} (hb : b ≠ []) (hc : c ≠ []) : Takes b (.chunk (b ++ c) :: s) (.chunk c :: s)

/-- The transport, asked for more, ended or failed; the error says which. -/
inductive Halts : WsErr → List Ev → List Ev → Prop
  | exhausted : Halts .noData [] []
  | ended {s} : Halts .noData (.chunk [] :: s) s
  | saidEnd {s} : Halts .noData (.error .unexpectedEof :: s) s
  | failed {k s} (h : k ≠ .interrupted) (he : k ≠ .unexpectedEof) : Halts (.io k) (.error k :: s) s

/-- These bytes do not contain a whole legal frame at their start. -/
def NoWholeFrame (bs : List UInt8) : Prop :=
  ∀ f key pre rest, bs = pre ++ rest → IsFrame f key pre → ¬ ControlOk f

/-- The header bytes announce a payload of `n` bytes. -/
inductive Announces (n : Nat) : List UInt8 → Prop
  | short {b0 b1 key} (h : b1.toNat % 128 = n) (hn : n ≤ 125) (hk : key.length = if 128 ≤ b1.toNat then 4 else 0) : Announces n (b0 :: b1 :: key)
  | medium {b0 b1 ext key} (h : b1.toNat % 128 = 126) (hl : ext.length = 2) (hv : be ext = n) (hk : key.length = if 128 ≤ b1.toNat then 4 else 0) :
      Announces n (b0 :: b1 :: (ext ++ key))
  | long {b0 b1 ext key} (h : b1.toNat % 128 = 127) (hl : ext.length = 8) (hv : be ext = n) (hk : key.length = if 128 ≤ b1.toNat then 4 else 0) :
      Announces n (b0 :: b1 :: (ext ++ key))

/-- What can be wrong with a single frame, and the error for it; the bytes end where it becomes evident. `big` is the error for a frame above the limit. -/
inductive FrameFault (masked : Bool) (limit : Nat) (big : WsErr) : WsErr → List UInt8 → Prop
  | longForm16 {b0 b1 ext} (h : b1.toNat % 128 = 126) (hl : ext.length = 2) (hv : be ext ≤ 125) :
      FrameFault masked limit big (.dataFrame "Invalid data frame length") (b0 :: b1 :: ext)
  | longForm64 {b0 b1 ext} (h : b1.toNat % 128 = 127) (hl : ext.length = 8) (hv : be ext ≤ 65535) :
      FrameFault masked limit big (.dataFrame "Invalid data frame length") (b0 :: b1 :: ext)
  | longControl {b0 b1 ext} (h : 8 ≤ b0.toNat % 16) (hl : 126 ≤ b1.toNat % 128) :
      FrameFault masked limit big (.dataFrame "Control frame length too long") (b0 :: b1 :: ext)
  | partControl {b0 b1 ext} (h : 8 ≤ b0.toNat % 16) (hf : b0.toNat < 128) :
      FrameFault masked limit big (.protocol "Illegal fragmented control frame") (b0 :: b1 :: ext)
  | tooBig {n bs} (h : Announces n bs) (hn : limit < n) : FrameFault masked limit big big bs
  | unmasked {f bs} (h : IsFrame f none bs) (hm : masked = true) :
      FrameFault masked limit big (.dataFrame "Expected masked data frame") bs
  | masked {f key bs} (h : IsFrame f (some key) bs) (hm : masked = false) :
      FrameFault masked limit big (.dataFrame "Expected unmasked data frame") bs

/-- Why frames that make up a complete message mean nothing, and the error for it. -/
inductive Unreadable : WsErr → List Fragment → Prop
  | reserved {fs f} (h : f ∈ fs) (hr : f.reserved = true) : Unreadable (.protocol "Unsupported reserved bits received") fs
  | opcode {f fs} (h : f.opcode ∉ [1, 2, 8, 9, 10]) : Unreadable (.protocol "Unsupported opcode received") (f :: fs)
  | text {f fs} (h : f.opcode = 1) (hu : ¬ IsUtf8 ((f :: fs).flatMap Fragment.payload)) : Unreadable .utf8 (f :: fs)
  | reason {f fs hi lo r} (h : f.opcode = 8) (hp : (f :: fs).flatMap Fragment.payload = hi :: lo :: r) (hu : ¬ IsUtf8 r) : Unreadable .utf8 (f :: fs)
  | halfCode {f fs b} (h : f.opcode = 8) (hp : (f :: fs).flatMap Fragment.payload = [b]) : Unreadable .noData (f :: fs)

/-- What can be wrong with a good frame that comes after the fragments `held`, and the error for it. `over` says which unfinished messages exceed the message
limit. -/
inductive MessageFault (over : List Frame → Prop) (held : List Frame) (f : Frame) : WsErr → Prop
  | orphan (h : held = []) (h0 : f.opcode = 0) : MessageFault over held f (.protocol "Unexpected continuation data frame opcode")
  | intruder (h : held ≠ []) (h0 : f.opcode ≠ 0) (h8 : f.opcode < 8) : MessageFault over held f (.protocol "Unexpected data frame opcode")
  | tooMany (ha : Allowed held f) (hf : f.fin = false) (h : 2 ^ 20 ≤ (held ++ [f]).length) :
      MessageFault over held f (.protocol "Exceeded count of data frames in one WebSocket message")
  | tooLong (ha : Allowed held f) (hf : f.fin = false) (h : over (held ++ [f])) :
      MessageFault over held f (.protocol "Exceeded maximum WebSocket message size")
  | control {e} (h8 : 8 ≤ f.opcode) (h : Unreadable e [f.fragment]) : MessageFault over held f e
  | final {e} (ha : Allowed held f) (hf : f.fin = true) (h : Unreadable e ((held ++ [f]).map Frame.fragment)) : MessageFault over held f e

/-- The error that names the failure `k` of the transport. -/
inductive Names : IoKind → WsErr → Prop
  | ended : Names .unexpectedEof .noData
  | failed {k} (h : k ≠ .unexpectedEof) : Names k (.io k)

/-- Why a blocking receive call on the transport `s`, with the fragments `held`, fails with `e` and leaves `s'`: after the bytes `bs`, which are complete frames
and carry no complete message, either the transport ended or failed within a frame, or a bad frame came, or a good frame that does not fit. -/
def Cause (masked : Bool) (maxDf maxMsg : Nat) (held : List Frame) (s s' : List Ev) (e : WsErr) : Prop :=
  ∃ bs held₁, Carried masked maxDf maxMsg held bs [] held₁ ∧
    ((∃ left s₁, Takes (bs ++ left) s s₁ ∧ Halts e s₁ s' ∧ NoWholeFrame left) ∨
     (∃ bad, Takes (bs ++ bad) s s' ∧ FrameFault masked maxDf (.io .invalidData) e bad) ∨
     (∃ f key fb, Takes (bs ++ fb) s s' ∧ IsFrame f key fb ∧ key.isSome = masked ∧ f.payload.length ≤ maxDf ∧ ControlOk f ∧
        MessageFault (fun h => maxMsg ≤ weight h) held₁ f e))

/-- The same for the async decoder, given the bytes `src`. -/
def DecodeCause (masked : Bool) (maxDf maxMsg : Nat) (held : List Frame) (src : List UInt8) (e : WsErr) : Prop :=
  ∃ bs held₁, Carried masked maxDf maxMsg held bs [] held₁ ∧
    ((∃ bad rest, src = bs ++ bad ++ rest ∧ FrameFault masked maxDf (.protocol "Exceeded maximum incoming DataFrame size") e bad) ∨
     (∃ f key fb rest, src = bs ++ fb ++ rest ∧ IsFrame f key fb ∧ key.isSome = masked ∧ f.payload.length ≤ maxDf ∧ ControlOk f ∧
        MessageFault (fun h => maxMsg < weight h) held₁ f e))

/-- The bytes of some transport events. -/
def chunkBytes (s : List Ev) : List UInt8 := s.flatMap fun | .chunk b => b | .error _ => []

/-- The same for the async stream, which holds the unused bytes `buf` and has or has not seen the end of the transport before (`eof`): the last event
was a failure; or the transport has ended and what is left (`buf'`) is no whole frame; or the decoder had a cause. -/
def StreamCause (masked : Bool) (maxDf maxMsg : Nat) (held : List Frame) (buf : List UInt8) (eof : Bool) (s s' : List Ev) (buf' : List UInt8) (e : WsErr) :
    Prop :=
  ∃ pre, s = pre ++ s' ∧
    ((∃ k pre', pre = pre' ++ [.error k] ∧ k ≠ .wouldBlock ∧ Names k e) ∨
     (e = .io .other ∧ (eof = true ∨ s' = [] ∨ ∃ pre', pre = pre' ++ [.chunk []]) ∧ buf' ≠ [] ∧ NoWholeFrame buf') ∨
     DecodeCause masked maxDf maxMsg held (buf ++ chunkBytes pre) e)

end WS.Spec
