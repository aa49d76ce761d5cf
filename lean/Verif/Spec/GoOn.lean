import Verif.Spec.Blame
/-!
# Going on after an error

What successive receive calls report on a stream of frames, some of which are refused. Written on bytes, RFC frames and error texts only.
-/

namespace WS.Spec

/-- What one receive call tells the program. -/
inductive Report
  | heard (m : Message)
  | refused (e : WsErr)
  deriving DecidableEq, Repr

/-- The bytes are the layouts of these frames one after the other; each frame may be masked (`true`) or not. Control frames are short and whole. -/
inductive Tape : List (Frame × Bool) → List UInt8 → Prop
  | nil : Tape [] []
  | cons {f : Frame} {fs : List (Frame × Bool)} {key : Option (List UInt8)} {bs rest : List UInt8}
      (h : IsFrame f key bs) (hc : ControlOk f) (hr : Tape fs rest) : Tape ((f, key.isSome) :: fs) (bs ++ rest)

/-- The error for a frame that is masked and should not be, or the other way round. -/
def maskFault (masked : Bool) : WsErr := if masked then .dataFrame "Expected masked data frame" else .dataFrame "Expected unmasked data frame"

/-- Why frames that make up a complete message mean nothing, and which error is reported if several are due: reserved bits come first. -/
def Refused (e : WsErr) (fs : List Fragment) : Prop :=
  Unreadable e fs ∧ ((∃ f ∈ fs, f.reserved = true) → e = .protocol "Unsupported reserved bits received")

/-- The payload bytes of some frames. -/
def load (fs : List Frame) : Nat := (fs.map fun f => f.payload.length).sum

/-- With the fragments `held`, of which `k` came during this call, this frame makes the call end with a report; the last argument is what is held
afterwards. `over` says which unfinished messages exceed the message limit. -/
inductive Meets (masked : Bool) (over : List Frame → Nat → Prop) (held : List Frame) (k : Nat) : Frame × Bool → Report → List Frame → Prop
  | wrongMask {f m} (h : m ≠ masked) : Meets masked over held k (f, m) (.refused (maskFault masked)) held
  | control {f msg} (h8 : 8 ≤ f.opcode) (h : Assembles [f.fragment] msg) : Meets masked over held k (f, masked) (.heard msg) held
  | badControl {f e} (h8 : 8 ≤ f.opcode) (h : Refused e [f.fragment]) : Meets masked over held k (f, masked) (.refused e) held
  | orphan {f} (h : held = []) (h0 : f.opcode = 0) :
      Meets masked over held k (f, masked) (.refused (.protocol "Unexpected continuation data frame opcode")) held
  | intruder {f} (h : held ≠ []) (h0 : f.opcode ≠ 0) (h8 : f.opcode < 8) :
      Meets masked over held k (f, masked) (.refused (.protocol "Unexpected data frame opcode")) held
  | tooMany {f} (ha : Allowed held f) (hf : f.fin = false) (h : 2 ^ 20 ≤ (held ++ [f]).length) :
      Meets masked over held k (f, masked) (.refused (.protocol "Exceeded count of data frames in one WebSocket message")) (held ++ [f])
  | tooLong {f} (ha : Allowed held f) (hf : f.fin = false) (hn : (held ++ [f]).length < 2 ^ 20) (h : over (held ++ [f]) (k + 1)) :
      Meets masked over held k (f, masked) (.refused (.protocol "Exceeded maximum WebSocket message size")) (held ++ [f])
  | final {f msg} (ha : Allowed held f) (hf : f.fin = true) (h : Assembles ((held ++ [f]).map Frame.fragment) msg) :
      Meets masked over held k (f, masked) (.heard msg) []
  | badFinal {f e} (ha : Allowed held f) (hf : f.fin = true) (h : Refused e ((held ++ [f]).map Frame.fragment)) :
      Meets masked over held k (f, masked) (.refused e) []

/-- This frame is taken as a further fragment, and the call goes on. -/
def Joins (masked : Bool) (over : List Frame → Nat → Prop) (held : List Frame) (k : Nat) (f : Frame × Bool) : Prop :=
  f.2 = masked ∧ Allowed held f.1 ∧ f.1.fin = false ∧ (held ++ [f.1]).length < 2 ^ 20 ∧ ¬ over (held ++ [f.1]) (k + 1)

/-- One receive call on these frames: it takes fragments until a frame makes it report; what is held then and the frames not taken. -/
inductive Call (masked : Bool) (over : List Frame → Nat → Prop) :
    List Frame → Nat → List (Frame × Bool) → Report → List Frame → List (Frame × Bool) → Prop
  | now {held k f fs rep held'} (h : Meets masked over held k f rep held') : Call masked over held k (f :: fs) rep held' fs
  | later {held k f fs rep held' fs'} (h : Joins masked over held k f) (hr : Call masked over (held ++ [f.1]) (k + 1) fs rep held' fs') :
      Call masked over held k (f :: fs) rep held' fs'

/-- Successive receive calls; the program goes on whatever is reported. -/
inductive Calls (masked : Bool) (over : List Frame → Nat → Prop) :
    List Frame → List (Frame × Bool) → List Report → List Frame → List (Frame × Bool) → Prop
  | nil {held fs} : Calls masked over held fs [] held fs
  | cons {held fs rep held₁ fs₁ reps held' fs'} (h : Call masked over held 0 fs rep held₁ fs₁) (hr : Calls masked over held₁ fs₁ reps held' fs') :
      Calls masked over held fs (rep :: reps) held' fs'

/-- The blocking receiver's limit: the first fragment is not counted against it; 64 bytes are added for each fragment taken during the call. -/
def OverBlocking (maxMsg : Nat) (held : List Frame) (k : Nat) : Prop := 2 ≤ held.length ∧ maxMsg ≤ load held + 64 * k

/-- The async decoder's limit. -/
def OverAsync (maxMsg : Nat) (held : List Frame) (k : Nat) : Prop := maxMsg < load held + 64 * k

end WS.Spec
