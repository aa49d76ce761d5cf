import Verif.Model.MsgCodec
/-!
# The async stream: tokio-codec's `FramedRead` around a decoder

Trusted dependency model (tokio-codec 0.1, `framed_read.rs`): the code in /repo only builds the
`Framed` object (src/client/builder.rs:803-811, src/server/upgrade/async.rs:116-130,
websocket-base/src/ws/util/mod.rs:20-26) and leaves the polling to this loop.
-/

namespace WS

/-- `tokio_codec::Decoder::decode` as a function of codec state and input buffer. -/
abbrev Decoder (σ α : Type) := σ → Bytes → Res (Option α) × σ × Bytes

/-- `DataFrameCodec` as a decoder; `decode` does not change the codec (websocket-base/src/codec/ws.rs:112-148). -/
def dfDecoder : Decoder DfCodec DataFrame := fun c src => ((c.decode src).1, c, (c.decode src).2)

/-- `MessageCodec` as a decoder (websocket-base/src/codec/ws.rs:278-326). -/
def msgDecoder : Decoder MsgCodec OwnedMsg := MsgCodec.decode

/-- State of `FramedRead2`. -/
structure Framed (σ : Type) where
  codec : σ
  buf : Bytes
  readable : Bool
  eof : Bool

/-- `Framed::new`, `framed_read2`: nothing buffered yet. -/
def Framed.new {σ} (c : σ) : Framed σ := ⟨c, [], false, false⟩

/-- `framed_read2_with_buffer` (used by `Framed::from_parts`): readable if bytes are buffered. -/
def Framed.fromParts {σ} (c : σ) (buf : Bytes) : Framed σ := ⟨c, buf, decide (buf ≠ []), false⟩

/-- What a completed poll hands to the user. -/
inductive Item (α : Type)
  | item (a : α)
  /-- the stream ended (`Ready(None)`) -/
  | done
  | err (e : WsErr)
  | panic (why : String)
  deriving DecidableEq, Repr

inductive Poll (α : Type)
  | ready (x : Item α)
  | notReady

/-- `io::Error::new(ErrorKind::Other, "bytes remaining on stream").into()`
(websocket-base/src/result.rs:67-74). -/
def bytesRemaining : WsErr := .io .other

/-- `Decoder::decode_eof` (default method; neither codec overrides it), and what the poll makes of
the answer. -/
def Framed.pollEof {σ α} (dec : Decoder σ α) (fr : Framed σ) : Item α × Framed σ :=
  match dec fr.codec fr.buf with
  | (.ok (some a), c, b) => (.item a, { fr with codec := c, buf := b })
  | (.ok none, c, b) => (if b = [] then .done else .err bytesRemaining, { fr with codec := c, buf := b })
  | (.err e, c, b) => (.err e, { fr with codec := c, buf := b })
  | (.panic e, c, b) => (.panic e, { fr with codec := c, buf := b })

/-- The part of the poll loop after `is_readable = false`: read, then decode again. One chunk of
the script is what one `read_buf` call returns. -/
def Framed.pollRead {σ α} (dec : Decoder σ α) (fr : Framed σ) : Src → Poll α × Framed σ × Src
  | [] =>
    let (x, fr') := Framed.pollEof dec { fr with eof := true, readable := true }
    (.ready x, fr', [])
  | .error k :: rest =>
    if k = .wouldBlock then (.notReady, fr, rest) else (.ready (.err (.ofIo k)), fr, rest)
  | .chunk b :: rest =>
    if b = [] then
      let (x, fr') := Framed.pollEof dec { fr with eof := true, readable := true }
      (.ready x, fr', rest)
    else
      match dec fr.codec (fr.buf ++ b) with
      | (.ok (some a), c, b') => (.ready (.item a), { fr with codec := c, buf := b', readable := true }, rest)
      | (.ok none, c, b') => Framed.pollRead dec { fr with codec := c, buf := b', readable := false } rest
      | (.err e, c, b') => (.ready (.err e), { fr with codec := c, buf := b', readable := true }, rest)
      | (.panic e, c, b') => (.ready (.panic e), { fr with codec := c, buf := b', readable := true }, rest)

/-- `FramedRead2::poll`. -/
def Framed.poll {σ α} (dec : Decoder σ α) (fr : Framed σ) (s : Src) : Poll α × Framed σ × Src :=
  if fr.readable then
    if fr.eof then
      let (x, fr') := Framed.pollEof dec fr
      (.ready x, fr', s)
    else
      match dec fr.codec fr.buf with
      | (.ok (some a), c, b) => (.ready (.item a), { fr with codec := c, buf := b }, s)
      | (.ok none, c, b) => Framed.pollRead dec { fr with codec := c, buf := b, readable := false } s
      | (.err e, c, b) => (.ready (.err e), { fr with codec := c, buf := b }, s)
      | (.panic e, c, b) => (.ready (.panic e), { fr with codec := c, buf := b }, s)
  else Framed.pollRead dec fr s

theorem Framed.pollRead_lt {σ α} (dec : Decoder σ α) (s : Src) (fr fr' : Framed σ) (s' : Src)
    (h : fr.pollRead dec s = (.notReady, fr', s')) : s'.length < s.length := by
  induction s generalizing fr with
  | nil => simp [Framed.pollRead] at h
  | cons e rest ih =>
    cases e with
    | error k =>
      unfold Framed.pollRead at h
      split at h
      · simp only [Prod.mk.injEq, true_and] at h; simp [h.2]
      · simp at h
    | chunk b =>
      unfold Framed.pollRead at h
      split at h
      · simp at h
      · split at h
        · simp at h
        · have := ih _ h; simp only [List.length_cons]; omega
        · simp at h
        · simp at h

theorem Framed.poll_lt {σ α} {dec : Decoder σ α} {s : Src} {fr fr' : Framed σ} {s' : Src}
    (h : fr.poll dec s = (.notReady, fr', s')) : s'.length < s.length := by
  unfold Framed.poll at h
  split at h
  · split at h
    · simp at h
    · split at h
      · simp at h
      · exact Framed.pollRead_lt dec s _ _ _ h
      · simp at h
      · simp at h
  · exact Framed.pollRead_lt dec s _ _ _ h

/-- Awaiting the next item (`stream.into_future().wait()`): the task is polled again whenever the
transport becomes ready. -/
def Framed.next {σ α} (dec : Decoder σ α) (fr : Framed σ) (s : Src) : Item α × Framed σ × Src :=
  match h : fr.poll dec s with
  | (.ready x, fr', s') => (x, fr', s')
  | (.notReady, fr', s') => Framed.next dec fr' s'
termination_by s.length
decreasing_by exact Framed.poll_lt h

/-- Awaiting the next `n` items. -/
def Framed.nextMany {σ α} (dec : Decoder σ α) : Nat → Framed σ → Src → List (Item α) × Framed σ × Src
  | 0, fr, s => ([], fr, s)
  | n + 1, fr, s =>
    let (x, fr', s') := fr.next dec s
    let (xs, fr'', s'') := Framed.nextMany dec n fr' s'
    (x :: xs, fr'', s'')

end WS
