import Verif.Model.BufReader
import Verif.Model.Framed
import Verif.Model.Send
/-!
# The async HTTP codecs (src/codec/http.rs)

`HttpClientCodec` and `HttpServerCodec` differ only in which head they read and which they write;
`HeadParser` and the `line` function are the parameters.
-/

namespace WS

/-- Position of the first blank line: `src.windows(4).position(|i| i == b"\r\n\r\n")`,
src/codec/http.rs:66. -/
def findBlank : Bytes → Option Nat
  | a :: b :: c :: d :: t =>
    if a = 13 ∧ b = 10 ∧ c = 13 ∧ d = 10 then some 0
    else (findBlank (b :: c :: d :: t)).map (· + 1)
  | _ => none

/-- `split_off_http`, src/codec/http.rs:65-70: the head and what stays in the buffer. -/
def splitOffHttp (src : Bytes) : Option (Bytes × Bytes) :=
  match findBlank src with
  | some p => some (src.take (p + 4), src.drop (p + 4))
  | none => none

/-- `decode`, src/codec/http.rs:94-112 and 188-206. The head is parsed by hyper out of its own
slice, which answers `read` once with everything it has. `HttpCodecError` (src/codec/http.rs:213-249) is
written as a `WsErr`: `Http(_)` as `other`, `Io(k)` (only from the transport, `FramedRead`) as
`WsErr.ofIo k`. -/
def httpDecoder {σ line ok} (p : HeadParser σ line ok) : Decoder Unit (HttpHead σ) := fun c src =>
  match splitOffHttp src with
  | some (buf, rest) =>
    match (parseHead p (BufReader.withCapacity ([.chunk buf] : Src) buf.length)).1 with
    | .error (.io .unexpectedEof) => (.ok none, c, rest)
    | .error .tooLarge => (.ok none, c, rest)
    | .error _ => (.err .other, c, rest)
    | .ok r => (.ok (some r), c, rest)
  | none => (.ok none, c, src)

/-- `encode`, src/codec/http.rs:76-87 and 173-181: the count returned by `write` is ignored.
`extra` is the allocator's generosity. -/
def httpEncode (head : Bytes) (extra : Nat) (dst : BytesMut) : BytesMut :=
  let dst := if head.length > dst.remainingMut then dst.reserve head.length extra else dst
  (dst.write head).2

theorem FramedWrite.pollComplete_lt (fw fw' : FramedWrite) (w w' : Sink)
    (h : fw.pollComplete w = (.notReady, fw', w')) : w'.script.length < w.script.length := by
  fun_induction FramedWrite.pollComplete fw w with
  | case1 => simp at h
  | case2 => simp at h
  | case3 => simp only [Prod.mk.injEq] at h; obtain ⟨_, _, rfl⟩ := h; simp
  | case4 => simp at h
  | case5 => simp at h
  | case6 fw h0 wire n s hm ih => have := ih h; simp only [List.length_cons] at *; omega

/-- Awaiting `poll_complete`: polled again whenever the transport becomes writable. -/
def FramedWrite.drain (fw : FramedWrite) (w : Sink) : SendRes × FramedWrite × Sink :=
  match h : fw.pollComplete w with
  | (.notReady, fw', w') => FramedWrite.drain fw' w'
  | (r, fw', w') => (r, fw', w')
termination_by w.script.length
decreasing_by exact FramedWrite.pollComplete_lt _ _ _ _ h

/-- `Sink::send` of a head over a new `Framed` (`futures::sink::Send`): the queue is empty and has
8 KiB, so `start_send` encodes at once; then `poll_complete`. -/
def httpSend (head : Bytes) (extra : Nat) (w : Sink) : SendRes × FramedWrite × Sink :=
  let fw := FramedWrite.new true
  FramedWrite.drain { fw with buf := httpEncode head extra fw.buf } w

end WS
