import Verif.Model.Codec
/-!
# Sequences of sends

Blocking: websocket-base/src/ws/sender.rs:18-35 through src/sender.rs:28-43 and
src/client/sync.rs:154-177. Async: the write half of tokio-codec 0.1 `Framed` (`framed_write.rs`,
`FramedWrite2`) around the encoders of websocket-base/src/codec/ws.rs:158-165 and 336-343. The
latter loop is a trusted dependency model.
-/

namespace WS

/-- Successive `send_message` / `send_dataframe` calls; the caller goes on after errors. -/
def Sender.sendMany (x : Sender) : List (FrameView × Key4) → Sink → List (Res Unit) × Sink
  | [], w => ([], w)
  | (v, key) :: vs, w =>
    let (r, w') := x.send v key w
    let (rs, w'') := Sender.sendMany x vs w'
    (r :: rs, w'')

/-- State of `FramedWrite2`: the encoder's role and the output queue. -/
structure FramedWrite where
  isServer : Bool
  buf : BytesMut
  deriving DecidableEq, Repr

/-- `Framed::new`: an empty queue with 8 KiB capacity. -/
def FramedWrite.new (isServer : Bool) : FramedWrite := ⟨isServer, ⟨[], 8 * 1024⟩⟩

/-- `BytesMut::split_to` on the sender's side: the first `n` bytes are dropped. -/
def BytesMut.advance (n : Nat) (b : BytesMut) : BytesMut := ⟨b.data.drop n, b.cap - n⟩

/-- Outcome of `start_send` and `poll_complete`. -/
inductive SendRes
  | ready
  | notReady
  | err (e : WsErr)
  | panic (why : String)
  deriving DecidableEq, Repr

/-- `FramedWrite2::poll_complete`: write until the queue is empty. `WouldBlock` becomes
`NotReady`; the transport's own `poll_flush` is taken to succeed. -/
def FramedWrite.pollComplete (fw : FramedWrite) (w : Sink) : SendRes × FramedWrite × Sink :=
  if fw.buf.data = [] then (.ready, fw, w)
  else match w with
    | ⟨wire, []⟩ => (.ready, { fw with buf := fw.buf.advance fw.buf.data.length }, ⟨wire ++ fw.buf.data, []⟩)
    | ⟨wire, .error k :: s⟩ =>
      if k = .wouldBlock then (.notReady, fw, ⟨wire, s⟩) else (.err (.ofIo k), fw, ⟨wire, s⟩)
    | ⟨wire, .accept n :: s⟩ =>
      if min n fw.buf.data.length = 0 then (.err (.ofIo .writeZero), fw, ⟨wire, s⟩)
      else FramedWrite.pollComplete { fw with buf := fw.buf.advance (min n fw.buf.data.length) }
        ⟨wire ++ fw.buf.data.take n, s⟩
termination_by w.script.length

/-- `FramedWrite2::start_send` with its 8 KiB backpressure boundary. `key` is what `gen_mask`
returns, `extra` the allocator's generosity. -/
def FramedWrite.startSend (fw : FramedWrite) (v : FrameView) (key : Key4) (extra : Nat) (w : Sink) :
    SendRes × FramedWrite × Sink :=
  let enc (fw : FramedWrite) (w : Sink) : SendRes × FramedWrite × Sink :=
    match encodeInto fw.isServer v key extra fw.buf with
    | (.ok _, buf) => (.ready, { fw with buf := buf }, w)
    | (.err e, buf) => (.err e, { fw with buf := buf }, w)
    | (.panic e, buf) => (.panic e, { fw with buf := buf }, w)
  if fw.buf.data.length ≥ 8 * 1024 then
    match fw.pollComplete w with
    | (.err e, fw', w') => (.err e, fw', w')
    | (.panic e, fw', w') => (.panic e, fw', w')
    | (_, fw', w') => if fw'.buf.data.length ≥ 8 * 1024 then (.notReady, fw', w') else enc fw' w'
  else enc fw w

/-- What the user of the sink does. -/
inductive SinkOp
  | send (v : FrameView) (key : Key4) (extra : Nat)
  | flush

/-- One step. -/
def FramedWrite.step (fw : FramedWrite) (op : SinkOp) (w : Sink) : SendRes × FramedWrite × Sink :=
  match op with
  | .send v key extra => fw.startSend v key extra w
  | .flush => fw.pollComplete w

/-- Any sequence of steps; the caller may go on after errors. -/
def FramedWrite.run : FramedWrite → List SinkOp → Sink → List SendRes × FramedWrite × Sink
  | fw, [], w => ([], fw, w)
  | fw, op :: ops, w =>
    let (r, fw', w') := fw.step op w
    let (rs, fw'', w'') := FramedWrite.run fw' ops w'
    (r :: rs, fw'', w'')

end WS
