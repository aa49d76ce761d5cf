import Verif.Lemmas.DfCodec
/-! `MessageCodec::decode`, websocket-base/src/codec/ws.rs:278-326. -/

namespace WS

/-- The loop `while let Some(frame) = self.dataframe_codec.decode(src)?`,
websocket-base/src/codec/ws.rs:280-323. -/
def MsgCodec.loop (c : MsgCodec) (cur : Nat) (src : Bytes) : Res (Option OwnedMsg) × MsgCodec × Bytes :=
  match h : c.df.decode src with
  | (.ok (some frame), src') =>
    match MsgCodec.onFrame c.maxMsg c.buffer cur frame with
    | .done r buffer => (r, { c with buffer := buffer }, src')
    | .next buffer cur' => MsgCodec.loop { c with buffer := buffer } cur' src'
  | (.ok none, src') => (.ok none, c, src')
  | (.err e, src') => (.err e, c, src')
  | (.panic e, src') => (.panic e, c, src')
termination_by src.length
decreasing_by exact DfCodec.decode_lt h

/-- `MessageCodec::decode`, websocket-base/src/codec/ws.rs:278-326. -/
def MsgCodec.decode (c : MsgCodec) (src : Bytes) : Res (Option OwnedMsg) × MsgCodec × Bytes :=
  c.loop (heldLen c.buffer) src

end WS
