import Verif.Model.Talk
/-!
# The echo programs in /repo/examples

The loops of examples/autobahn-server.rs, examples/autobahn-client.rs, examples/server.rs (and the same
loop in examples/hyper.rs), examples/async-autobahn-server.rs and examples/async-server.rs. `println!` is
left out; threads are left out (each connection has its own). `unwrap()` on an error is a panic.
`keys n` is what `gen_mask` returns at the n-th send (used by clients only), `extra` the allocator's
generosity. A `Reader` is used through its buffer as everywhere (`BufReader.src`, Lemmas/BufReader).
-/

namespace WS

theorem recvLoop_measure (r : Receiver) (cur : Nat) (s : Src) :
    ∀ fs r' s', recvLoop r cur s = (.ok fs, r', s') → s'.measure < s.measure := by
  fun_induction recvLoop r cur s with
  | case1 r cur s next s' h h0 r' hfin => intro fs r'' s'' q; cases q; exact readDataframeWithLimit_lt h
  | case2 => intro fs r'' s'' q; cases q
  | case3 => intro fs r'' s'' q; cases q
  | case4 r cur s next s' h h0 cur' r' hfin hmax hlen ih =>
    intro fs r'' s'' q
    exact Nat.lt_trans (ih fs r'' s'' q) (readDataframeWithLimit_lt h)
  | case5 r cur s next s' h h0 h8 => intro fs r'' s'' q; cases q; exact readDataframeWithLimit_lt h
  | case6 => intro fs r'' s'' q; cases q
  | case7 => intro fs r'' s'' q; cases q
  | case8 => intro fs r'' s'' q; cases q

/-- A received message has consumed input. -/
theorem recvMessage_measure {r r' : Receiver} {s s' : Src} {m : OwnedMsg} (h : r.recvMessage s = (.ok m, r', s')) :
    s'.measure < s.measure := by
  unfold Receiver.recvMessage at h
  split at h
  · next fs r1 s1 hd =>
    simp only [Prod.mk.injEq] at h
    obtain ⟨-, -, rfl⟩ := h
    unfold Receiver.recvMessageDataframes at hd
    simp only at hd
    split at hd
    · split at hd
      · next f s2 hf =>
        have := readDataframeWithLimit_lt hf
        split at hd
        · cases hd
        · split at hd
          · cases hd; exact this
          · exact Nat.lt_trans (recvLoop_measure _ _ _ _ _ _ hd) this
      · cases hd
      · cases hd
    · exact recvLoop_measure _ _ _ _ _ _ hd
  · cases h
  · cases h

/-- How a program ended. -/
inductive Ending
  /-- it returned -/
  | returned
  /-- its future failed -/
  | failed (e : WsErr)
  /-- a thread panicked -/
  | panicked
  deriving DecidableEq, Repr

/-- The loop of examples/autobahn-server.rs:16-42 and examples/autobahn-client.rs:33-59: text and binary
messages are sent back, a ping is answered, a close is answered and ends the loop, an error ends the loop
after an attempt to send a close. The results of the last sends are ignored. -/
def autobahnLoop (keys : Nat → Key4) (r : Receiver) (s : Src) (w : Writer) : Ending × Writer :=
  match h : r.recvMessage s with
  | (.ok m, r', s') =>
    match m with
    | .text t => match w.send (OwnedMsg.text t).view (keys 0) with
      | (.ok _, w') => autobahnLoop (fun n => keys (n + 1)) r' s' w'
      | (_, w') => (.panicked, w')
    | .binary b => match w.send (OwnedMsg.binary b).view (keys 0) with
      | (.ok _, w') => autobahnLoop (fun n => keys (n + 1)) r' s' w'
      | (_, w') => (.panicked, w')
    | .close _ => match w.send (OwnedMsg.close none).view (keys 0) with
      | (_, w') => (.returned, w')
    | .ping d => match w.send (OwnedMsg.pong d).view (keys 0) with
      | (.ok _, w') => autobahnLoop (fun n => keys (n + 1)) r' s' w'
      | (_, w') => (.panicked, w')
    | .pong _ => autobahnLoop keys r' s' w
  | (.err _, _, _) => match w.send Msg.closeEmpty.view (keys 0) with
    | (_, w') => (.returned, w')
  | (.panic _, _, _) => (.panicked, w)
termination_by s.measure
decreasing_by all_goals exact recvMessage_measure h

/-- The loop of examples/server.rs:29-45 and examples/hyper.rs:55-71: `message.unwrap()`, and every
message except close and ping is sent back. -/
def serverLoop (keys : Nat → Key4) (r : Receiver) (s : Src) (w : Writer) : Ending × Writer :=
  match h : r.recvMessage s with
  | (.ok m, r', s') =>
    match m with
    | .close _ => match w.send (OwnedMsg.close none).view (keys 0) with
      | (.ok _, w') => (.returned, w')
      | (_, w') => (.panicked, w')
    | .ping d => match w.send (OwnedMsg.pong d).view (keys 0) with
      | (.ok _, w') => serverLoop (fun n => keys (n + 1)) r' s' w'
      | (_, w') => (.panicked, w')
    | m => match w.send m.view (keys 0) with
      | (.ok _, w') => serverLoop (fun n => keys (n + 1)) r' s' w'
      | (_, w') => (.panicked, w')
  | (_, _, _) => (.panicked, w)
termination_by s.measure
decreasing_by all_goals exact recvMessage_measure h

/-- The thread of one connection of examples/autobahn-server.rs:11-43: `accept`, `split`, loop. The second component
is the transport's output. -/
def serveAutobahn [B64] (clone : Except IoKind Unit) (keys : Nat → Key4) (u : SyncUpgrade) : Ending × Sink :=
  match u.accept with
  | .client c => match c.split clone with
    | .ok (r, w) => match autobahnLoop keys r.receiver r.stream.src w with
      | (e, w') => (e, w'.stream)
    | .error _ => (.panicked, c.stream.inner.output)
  | .err d' _ => (.panicked, d'.output)
  | .panic _ => (.panicked, u.stream.output)

/-- One connection of examples/autobahn-server.rs:10-44. `none` if the request is refused (`filter_map(Result::ok)`). -/
def autobahnServer [B64] (p : ReqParser) (clone : Except IoKind Unit) (keys : Nat → Key4) (d : Duplex) :
    Option (Ending × Sink) :=
  match intoWs p d with
  | .error _ => none
  | .ok u => some (serveAutobahn clone keys u)

/-- The name examples/server.rs asks for. -/
def rustWebsocket : Bytes := ascii "rust-websocket"

/-- The thread of one connection of examples/server.rs:12-46. -/
def serveExample [B64] (clone : Except IoKind Unit) (keys : Nat → Key4) (u : SyncUpgrade) : Ending × Sink :=
  if rustWebsocket ∈ u.protocols then
    match SyncUpgrade.accept (Upgrade.useProtocol rustWebsocket u) with
    | .client c => match c.send (OwnedMsg.text (ascii "Hello")).view (keys 0) with
      | (.ok _, c) => match c.split clone with
        | .ok (r, w) => match serverLoop (fun n => keys (n + 1)) r.receiver r.stream.src w with
          | (e, w') => (e, w'.stream)
        | .error _ => (.panicked, c.stream.inner.output)
      | (_, c) => (.panicked, c.stream.inner.output)
    | .err d' _ => (.panicked, d'.output)
    | .panic _ => (.panicked, u.stream.output)
  else match SyncUpgrade.reject u with
    | (.ok _, d') => (.returned, d'.output)
    | (_, d') => (.panicked, d'.output)

/-- One connection of examples/server.rs:10-47. -/
def exampleServer [B64] (p : ReqParser) (clone : Except IoKind Unit) (keys : Nat → Key4) (d : Duplex) :
    Option (Ending × Sink) :=
  match intoWs p d with
  | .error _ => none
  | .ok u => some (serveExample clone keys u)

/-! ## Async -/

theorem DfCodec.decode_le (c : DfCodec) (src : Bytes) : (c.decode src).2.length ≤ src.length := by
  unfold DfCodec.decode
  split
  · exact Nat.le_refl _
  · exact Nat.le_refl _
  · exact Nat.le_refl _
  · simp only
    split
    · exact Nat.le_refl _
    · split
      · exact Nat.le_refl _
      · split
        · exact Nat.le_refl _
        · split
          · exact Nat.le_refl _
          · split
            · simp
            · split <;> simp <;> omega

/-- The message decoder takes bytes away, and at least one for a message. -/
theorem MsgCodec.loop_length (c : MsgCodec) (cur : Nat) (src : Bytes) :
    (c.loop cur src).2.2.length ≤ src.length ∧ ∀ m, (c.loop cur src).1 = .ok (some m) → (c.loop cur src).2.2.length < src.length := by
  fun_induction MsgCodec.loop c cur src with
  | case1 c cur src frame src' h r buffer hf =>
    have := DfCodec.decode_lt h
    exact ⟨Nat.le_of_lt this, fun _ _ => this⟩
  | case2 c cur src frame src' h buffer cur' hf ih =>
    have := DfCodec.decode_lt h
    exact ⟨by omega, fun m hm => by have := ih.2 m hm; omega⟩
  | case3 c cur src src' h =>
    have := DfCodec.decode_le c.df src
    rw [h] at this
    exact ⟨this, fun m hm => by cases hm⟩
  | case4 c cur src e src' h =>
    have := DfCodec.decode_le c.df src
    rw [h] at this
    exact ⟨this, fun m hm => by cases hm⟩
  | case5 c cur src e src' h =>
    have := DfCodec.decode_le c.df src
    rw [h] at this
    exact ⟨this, fun m hm => by cases hm⟩

/-- Bytes a stream has buffered and events it can still see. -/
def Framed.measure {σ} (fr : Framed σ) (s : Src) : Nat := fr.buf.length + s.measure

/-- A decoder that takes bytes away, and at least one for an item. -/
def Shrinking {σ α} (dec : Decoder σ α) : Prop :=
  ∀ c bs, (dec c bs).2.2.length ≤ bs.length ∧ ∀ a, (dec c bs).1 = .ok (some a) → (dec c bs).2.2.length < bs.length

theorem msgDecoder_shrinking : Shrinking msgDecoder := fun c bs => MsgCodec.loop_length c (heldLen c.buffer) bs

/-- The poll made progress: it waited, or handed out an item. -/
def Poll.moved {α} : Poll α → Prop
  | .notReady => True
  | .ready (.item _) => True
  | _ => False

theorem Framed.pollEof_measure {σ α} {dec : Decoder σ α} (hd : Shrinking dec) (fr : Framed σ) :
    (∃ a, (fr.pollEof dec).1 = .item a) → (fr.pollEof dec).2.buf.length < fr.buf.length := by
  have := hd fr.codec fr.buf
  unfold Framed.pollEof
  split <;> rename_i heq <;> rw [heq] at this
  · exact fun _ => this.2 _ rfl
  · rintro ⟨a, h⟩; simp only at h; split at h <;> cases h
  · rintro ⟨a, h⟩; cases h
  · rintro ⟨a, h⟩; cases h

theorem Framed.pollRead_measure {σ α} {dec : Decoder σ α} (hd : Shrinking dec) (s : Src) (fr : Framed σ) :
    (fr.pollRead dec s).1.moved → (fr.pollRead dec s).2.1.measure (fr.pollRead dec s).2.2 < fr.measure s := by
  induction s generalizing fr with
  | nil =>
    have := Framed.pollEof_measure hd { fr with eof := true, readable := true }
    unfold Framed.pollRead Framed.measure
    cases hx : (Framed.pollEof dec { fr with eof := true, readable := true }).1 <;> simp only [hx] <;> intro h <;>
      first
        | exact absurd h id
        | (rw [hx] at this; have := this ⟨_, rfl⟩; simp only [Src.measure] at *; omega)
  | cons e rest ih =>
    cases e with
    | error k =>
      unfold Framed.pollRead Framed.measure
      split
      · intro _; simp only [Src.measure]; omega
      · intro h; exact absurd h id
    | chunk b =>
      unfold Framed.pollRead
      split
      · have := Framed.pollEof_measure hd { fr with eof := true, readable := true }
        unfold Framed.measure
        cases hx : (Framed.pollEof dec { fr with eof := true, readable := true }).1 <;> simp only [hx] <;> intro h <;>
          first
            | exact absurd h id
            | (rw [hx] at this; have := this ⟨_, rfl⟩; simp only [Src.measure] at *; omega)
      · have := hd fr.codec (fr.buf ++ b)
        split <;> rename_i heq <;> rw [heq] at this <;> simp only [List.length_append] at this
        · intro _
          have := this.2 _ rfl
          simp only [Framed.measure, Src.measure]; omega
        · intro h
          have h1 := ih _ h
          refine Nat.lt_of_lt_of_le h1 ?_
          simp only [Framed.measure, Src.measure]; omega
        · intro h; exact absurd h id
        · intro h; exact absurd h id

theorem Framed.poll_measure {σ α} {dec : Decoder σ α} (hd : Shrinking dec) (s : Src) (fr : Framed σ) :
    (fr.poll dec s).1.moved → (fr.poll dec s).2.1.measure (fr.poll dec s).2.2 < fr.measure s := by
  unfold Framed.poll
  split
  · split
    · have := Framed.pollEof_measure hd fr
      unfold Framed.measure
      cases hx : (Framed.pollEof dec fr).1 <;> simp only [hx] <;> intro h <;>
        first
          | exact absurd h id
          | (rw [hx] at this; have := this ⟨_, rfl⟩; omega)
    · have := hd fr.codec fr.buf
      split <;> rename_i heq <;> rw [heq] at this <;> simp only at this
      · intro _
        have := this.2 _ rfl
        simp only [Framed.measure]; omega
      · intro h
        have h1 := Framed.pollRead_measure hd s _ h
        refine Nat.lt_of_lt_of_le h1 ?_
        simp only [Framed.measure]; omega
      · intro h; exact absurd h id
      · intro h; exact absurd h id
  · exact Framed.pollRead_measure hd s fr

theorem Framed.poll_item_lt {fr fr' : Framed MsgCodec} {s s' : Src} {m : OwnedMsg}
    (h : fr.poll msgDecoder s = (.ready (.item m), fr', s')) : fr'.measure s' < fr.measure s := by
  have := Framed.poll_measure msgDecoder_shrinking s fr
  rw [h] at this
  exact this trivial

theorem Framed.poll_wait_lt {fr fr' : Framed MsgCodec} {s s' : Src}
    (h : fr.poll msgDecoder s = (.notReady, fr', s')) : fr'.measure s' < fr.measure s := by
  have := Framed.poll_measure msgDecoder_shrinking s fr
  rw [h] at this
  exact this trivial

/-- The `filter_map` closure of examples/async-autobahn-server.rs:33-37 and examples/async-server.rs:58-65. -/
def filterReply : OwnedMsg → Option OwnedMsg
  | .ping p => some (.pong p)
  | .pong _ => none
  | m => some m

/-- `.and_then(|(_, sink)| sink.send(OwnedMessage::Close(None)))`, examples/async-autobahn-server.rs:39, after
`Forward` has closed the sink (`FramedWrite2::close`: `poll_complete`, then the transport's `shutdown`, which
does nothing on a TCP stream). -/
def sayGoodbye (keys : Nat → Key4) (extra : Nat) (fw : FramedWrite) (w : Sink) : Ending × Sink :=
  match fw.drain w with
  | (.ready, fw', w') => match fw'.sendAwait (OwnedMsg.close none).view (keys 0) extra w' with
    | (.ready, _, w'') => (.returned, w'')
    | (.err e, _, w'') => (.failed e, w'')
    | (_, _, w'') => (.panicked, w'')
  | (.err e, _, w') => (.failed e, w')
  | (_, _, w') => (.panicked, w')

/-- `stream.take_while(..).filter_map(..).forward(sink)` and the farewell, examples/async-autobahn-server.rs:31-39,
examples/async-server.rs:56-67. `Forward` (futures 0.1.31, src/stream/forward.rs; trusted dependency model): an
item that the sink does not take is kept (`buffered`) and offered again at the next poll; when the stream has
nothing, `poll_complete`; at the end of the stream the sink is closed; an error of the stream is returned at once. -/
def forwardLoop (keys : Nat → Key4) (extra : Nat) (buffered : Option OwnedMsg) (fr : Framed MsgCodec) (s : Src)
    (fw : FramedWrite) (w : Sink) : Ending × Sink :=
  match buffered with
  | some m => match h : fw.startSend m.view (keys 0) extra w with
    | (.ready, fw', w') => forwardLoop (fun n => keys (n + 1)) extra none fr s fw' w'
    | (.notReady, fw', w') => forwardLoop keys extra (some m) fr s fw' w'
    | (.err e, _, w') => (.failed e, w')
    | (.panic _, _, w') => (.panicked, w')
  | none => match h : fr.poll msgDecoder s with
    | (.notReady, fr', s') => match h' : fw.pollComplete w with
      | (.err e, _, w') => (.failed e, w')
      | (.panic _, _, w') => (.panicked, w')
      | (_, fw', w') => forwardLoop keys extra none fr' s' fw' w'
    | (.ready (.item m), fr', s') =>
      if m.isClose then sayGoodbye keys extra fw w
      else match filterReply m with
        | some a => forwardLoop keys extra (some a) fr' s' fw w
        | none => forwardLoop keys extra none fr' s' fw w
    | (.ready .done, _, _) => sayGoodbye keys extra fw w
    | (.ready (.err e), _, _) => (.failed e, w)
    | (.ready (.panic _), _, _) => (.panicked, w)
termination_by 2 * fr.measure s + (if buffered.isSome then 1 else 0) + w.script.length
decreasing_by
  · have := startSend_script_le h
    simp only [Option.isSome, if_true]; simp; omega
  · have := startSend_script h
    omega
  · have := Framed.poll_wait_lt h
    have := (pollComplete_script fw w).1
    rw [h'] at this
    simp at this ⊢; omega
  · have := Framed.poll_item_lt h
    simp; omega
  · have := Framed.poll_item_lt h
    simp; omega

/-- The task of one connection of examples/async-autobahn-server.rs:28-45. -/
def serveAsyncAutobahn [B64] (keys : Nat → Key4) (extra : Nat) (u : AsyncUpgrade) : Ending × Sink :=
  match u.accept extra with
  | .client c => forwardLoop keys extra none c.read c.stream.input c.write c.stream.output
  | .err d' e => (.failed e, d'.output)
  | .panic _ => (.panicked, u.stream.output)

/-- One connection of examples/async-autobahn-server.rs:24-47; `none` if the request is refused. -/
def asyncAutobahnServer [B64] (p : ReqParser) (keys : Nat → Key4) (extra : Nat) (d : Duplex) : Option (Ending × Sink) :=
  match asyncIntoWs p d with
  | .error _ => none
  | .ok u => some (serveAsyncAutobahn keys extra u)

/-- The task of one connection of examples/async-server.rs:40-71. -/
def serveAsyncExample [B64] (keys : Nat → Key4) (extra : Nat) (u : AsyncUpgrade) : Ending × Sink :=
  if rustWebsocket ∈ u.protocols then
    match AsyncUpgrade.accept (Upgrade.useProtocol rustWebsocket u) extra with
    | .client c => match c.write.sendAwait (OwnedMsg.text (ascii "Hello World!")).view (keys 0) extra c.stream.output with
      | (.ready, fw, w) => forwardLoop (fun n => keys (n + 1)) extra none c.read c.stream.input fw w
      | (.err e, _, w) => (.failed e, w)
      | (_, _, w) => (.panicked, w)
    | .err d' e => (.failed e, d'.output)
    | .panic _ => (.panicked, u.stream.output)
  else match AsyncUpgrade.reject u extra with
    | (.ready, d', _) => (.returned, d'.output)
    | (.err e, d', _) => (.failed e, d'.output)
    | (_, d', _) => (.panicked, d'.output)

/-- One connection of examples/async-server.rs:24-72; `none` if the request is refused. -/
def asyncExampleServer [B64] (p : ReqParser) (keys : Nat → Key4) (extra : Nat) (d : Duplex) : Option (Ending × Sink) :=
  match asyncIntoWs p d with
  | .error _ => none
  | .ok u => some (serveAsyncExample keys extra u)

end WS
