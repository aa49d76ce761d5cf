import Verif.Lemmas.Prompt
import Verif.Props.Receive
import Verif.Props.Head
import Verif.Model.Builder
/-!
# C51, C52: nothing waits for more than it needs

A script `s ++ t` is a transport that first does `s` and then `t`. That a call gives the same answer on `s ++ t` as on
`s`, for every `t`, and leaves `t` alone, says that the call has finished before the transport gets to `t`: it neither
waits for nor looks at anything that comes later.
-/

namespace WS
open Spec

/-! ## C51: messages -/

/-- A call of `recv_message` that found its answer in `s` gives it without looking further, whether the answer is a
message or a refusal, and whatever the transport did before. -/
theorem C51_blocking_answers_at_once (r : Receiver) (s t : Src) (x : Res OwnedMsg) (r' : Receiver) (s' : Src)
    (h : r.recvMessage s = (x, r', s')) (hx : x ≠ .err .noData) : r.recvMessage (s ++ t) = (x, r', s' ++ t) :=
  recvMessage_prompt r s t x r' s' h hx

/-- The same for `recv_dataframe`. -/
theorem C51_dataframe_answers_at_once (r : Receiver) (s t : Src) (x : Res DataFrame) (s' : Src)
    (h : r.recvDataframe s = (x, s')) (hx : x ≠ .err .noData) : r.recvDataframe (s ++ t) = (x, s' ++ t) :=
  recvDataframe_prompt r s t x s' h hx

/-- Once the last byte of the frames that make up some messages has arrived, all of them are delivered, although the
transport has nothing more, is not ready, fails or ends afterwards. -/
theorem C51_blocking_delivers_at_once (mask : Bool) (maxDf maxMsg : Nat) (frames : List Spec.Frame)
    (ms : List Spec.Message)
    (hd : Delivers (FitsBlocking (min maxMsg u32Max)) [] frames ms [])
    (hl : ∀ f ∈ frames, f.payload.length ≤ min maxDf u32Max)
    (bs : Bytes) (hw : Wire mask frames bs) (s : Src) (hs : s.Clean) (hx : s.flat = bs) (t : Src) :
    ∃ (oms : List OwnedMsg) (s' : Src),
      (Receiver.newWithLimits mask maxDf maxMsg).recvMany ms.length (s ++ t) =
        (oms.map Res.ok, Receiver.newWithLimits mask maxDf maxMsg, s' ++ t) ∧
      oms.map OwnedMsg.spec = ms ∧ s'.flat = [] := by
  obtain ⟨oms, r', s', h1, h2, h3⟩ := C17_fragments_and_controls_blocking mask maxDf maxMsg frames ms [] hd hl bs [] hw s hs
    (by rw [hx, List.append_nil])
  obtain ⟨rfl, h5⟩ := h3 rfl
  exact ⟨oms, s', recvMany_prompt _ _ _ _ _ _ _ h1 (by simp), h2, h5⟩

/-- The async stream likewise: an item that was yielded without reaching the end of the stream was yielded before the
transport gets to what comes later. -/
theorem C51_async_answers_at_once (fr fr' : Framed MsgCodec) (s s' t : Src) (x : Item OwnedMsg)
    (h : fr.next msgDecoder s = (x, fr', s')) (he : fr'.eof = false) : fr.next msgDecoder (s ++ t) = (x, fr', s' ++ t) :=
  next_prompt fr fr' s s' t x h he

/-- All messages whose bytes have arrived are yielded, whatever the transport does afterwards; `buf` are bytes that came
with the handshake. -/
theorem C51_async_delivers_at_once (ctx : Context) (maxDf maxMsg : Nat) (frames : List Spec.Frame)
    (ms : List Spec.Message)
    (hd : Delivers (FitsAsync (min maxMsg u32Max)) [] frames ms [])
    (hl : ∀ f ∈ frames, f.payload.length ≤ min maxDf u32Max)
    (bs : Bytes) (hw : Wire (decide (ctx = .server)) frames bs) (buf : Bytes) (s : Src) (hs : s.Ready)
    (hx : buf ++ s.flat = bs) (t : Src) :
    ∃ (oms : List OwnedMsg) (fr' : Framed MsgCodec) (s' : Src),
      (Framed.fromParts (MsgCodec.newWithLimits ctx maxDf maxMsg) buf).nextMany msgDecoder ms.length (s ++ t) =
        (oms.map Item.item, fr', s' ++ t) ∧
      oms.map OwnedMsg.spec = ms ∧ fr'.codec = MsgCodec.newWithLimits ctx maxDf maxMsg ∧ fr'.buf ++ s'.flat = [] := by
  obtain ⟨oms, fr', s', h1, h2, h3⟩ := C18_fragments_and_controls_async ctx maxDf maxMsg frames ms [] hd hl bs [] hw buf s hs
    (by rw [hx, List.append_nil])
  obtain ⟨h4, h5⟩ := h3 rfl
  have hc : (MsgCodec.newWithLimits ctx maxDf maxMsg).df.maxDf ≤ u32Max := (MsgCodec.wf_new ctx maxDf maxMsg).1
  obtain ⟨h6, -, -⟩ := nextMany_items msgDecoder_settles _ _ _ _ _ _ hc
    (awake_fromParts (MsgCodec.newWithLimits ctx maxDf maxMsg) hc buf) rfl h1
  exact ⟨oms, fr', s', nextMany_prompt _ _ _ _ _ _ _ h1 h6, h2, h4, h5⟩

/-- A stream that was polled `k` times, whatever came of it. -/
def polled {σ α} (dec : Decoder σ α) : Nat → Framed σ × Src → Framed σ × Src
  | 0, p => p
  | k + 1, p => polled dec k (p.1.poll dec p.2).2

theorem polled_awake {σ α} {dec : Decoder σ α} {P : σ → Prop} (hd : Settles dec P) (k : Nat) (fr : Framed σ) (s : Src)
    (hP : P fr.codec) (hi : Awake dec fr) :
    Awake dec (polled dec k (fr, s)).1 ∧ P (polled dec k (fr, s)).1.codec := by
  induction k generalizing fr s with
  | zero => exact ⟨hi, hP⟩
  | succ k ih =>
    obtain ⟨h1, h2⟩ := poll_awake hd fr s hP hi
    exact ih _ _ h2 h1

theorem decode_df {c : MsgCodec} (hc : c.df.maxDf ≤ u32Max) (bs : Bytes) : (msgDecoder c bs).2.1.df = c.df := by
  unfold msgDecoder
  rw [MsgCodec.decode_eq c hc]
  split <;> rfl

/-- The limits and the role do not change. -/
theorem msgDecoder_settles_df (df : DfCodec) (h : df.maxDf ≤ u32Max) : Settles msgDecoder (fun c => c.df = df) where
  inv := fun c bs hc => (decode_df (hc ▸ h) bs).trans hc
  idle := fun hc hx => msgDecoder_settles.idle (show _ ≤ _ from hc ▸ h) hx

/-- A stream says "not ready" only when the transport has just said so (so that the task is woken when that changes),
and no complete frame is left in the buffer. This holds at any time in the life of a stream. -/
theorem C51_async_waits_for_the_transport (ctx : Context) (maxDf maxMsg : Nat) (buf : Bytes) (s0 : Src) (k : Nat)
    (fr' : Framed MsgCodec) (s' : Src)
    (h : (polled msgDecoder k (Framed.fromParts (MsgCodec.newWithLimits ctx maxDf maxMsg) buf, s0)).1.poll msgDecoder
        (polled msgDecoder k (Framed.fromParts (MsgCodec.newWithLimits ctx maxDf maxMsg) buf, s0)).2 = (.notReady, fr', s')) :
    (∃ p, (polled msgDecoder k (Framed.fromParts (MsgCodec.newWithLimits ctx maxDf maxMsg) buf, s0)).2 =
        p ++ .error .wouldBlock :: s') ∧
      ∀ (f : Spec.Frame) (bs x : Bytes), Wire (decide (ctx = .server)) [f] bs → ControlOk f →
        f.payload.length ≤ min maxDf u32Max → fr'.buf ≠ bs ++ x := by
  have hc : (MsgCodec.newWithLimits ctx maxDf maxMsg).df.maxDf ≤ u32Max := (MsgCodec.wf_new ctx maxDf maxMsg).1
  have hset := msgDecoder_settles_df (MsgCodec.newWithLimits ctx maxDf maxMsg).df hc
  obtain ⟨h1, h2⟩ := polled_awake hset k (Framed.fromParts (MsgCodec.newWithLimits ctx maxDf maxMsg) buf) s0 rfl
    (awake_fromParts _ hc buf)
  obtain ⟨h3, h4, h5, -⟩ := poll_waits hset _ _ _ _ h2 h1 h
  refine ⟨h3, fun f bs x hw hcf hl hbuf => ?_⟩
  have hm := idle_no_frame (h5 ▸ hc) h4
  cases hw with
  | @cons _ _ key bs1 rest hf hk hr =>
    cases hr
    rw [List.append_nil] at hbuf
    obtain ⟨g, -, hg⟩ := parseFrame_isFrame (lim := min maxDf u32Max) (Nat.lt_of_le_of_lt (Nat.min_le_right _ _) (by decide))
      (big := bigErr) hf hk hcf hl x
    rw [h5] at hm
    rw [hbuf] at hm
    have e1 : (MsgCodec.newWithLimits ctx maxDf maxMsg).df.isServer = decide (ctx = .server) := rfl
    have e2 : (MsgCodec.newWithLimits ctx maxDf maxMsg).df.maxDf = min maxDf u32Max := rfl
    rw [e1, e2, hg] at hm
    cases hm

/-- The sending side: "not ready" comes only from a transport that has just said so, with bytes still queued. -/
theorem C51_flush_waits_for_the_transport (fw fw' : FramedWrite) (w w' : Sink) (h : fw.pollComplete w = (.notReady, fw', w')) :
    (∃ p, w.script = p ++ .error .wouldBlock :: w'.script) ∧ fw'.buf.data ≠ [] := by
  fun_induction FramedWrite.pollComplete fw w with
  | case1 fw w hb => simp at h
  | case2 fw hb wire => simp at h
  | case3 fw hb wire s =>
    simp only [Prod.mk.injEq, true_and] at h
    obtain ⟨rfl, rfl⟩ := h
    exact ⟨⟨[], rfl⟩, hb⟩
  | case4 fw hb wire k s hk => simp at h
  | case5 fw hb wire n s hn => simp at h
  | case6 fw hb wire n s hn ih =>
    obtain ⟨⟨p, hp⟩, h2⟩ := ih h
    exact ⟨⟨.accept n :: p, by simp only at hp ⊢; rw [hp]; rfl⟩, h2⟩

theorem pollComplete_emptied {fw fw' : FramedWrite} {w w' : Sink} (h : fw.pollComplete w = (.ready, fw', w')) :
    fw'.buf.data = [] := by
  fun_induction FramedWrite.pollComplete fw w with
  | case1 fw w hb => cases h; exact hb
  | case2 fw hb wire => cases h; simp [BytesMut.advance]
  | case3 fw hb wire s => simp at h
  | case4 fw hb wire k s hk => simp at h
  | case5 fw hb wire n s hn => simp at h
  | case6 fw hb wire n s hn ih => exact ih h

/-- `start_send` turns a message away only when the transport has just said that it is not ready and 8 KiB or more are
queued. -/
theorem C51_send_waits_for_the_transport (fw fw' : FramedWrite) (v : FrameView) (key : Key4) (extra : Nat) (w w' : Sink)
    (h : fw.startSend v key extra w = (.notReady, fw', w')) :
    (∃ p, w.script = p ++ .error .wouldBlock :: w'.script) ∧ 8192 ≤ fw'.buf.data.length := by
  unfold FramedWrite.startSend at h
  have henc : ∀ (f : FramedWrite) (u : Sink), (match encodeInto f.isServer v key extra f.buf with
      | (.ok _, buf) => (SendRes.ready, { f with buf := buf }, u)
      | (.err e, buf) => (.err e, { f with buf := buf }, u)
      | (.panic e, buf) => (.panic e, { f with buf := buf }, u)) ≠ (.notReady, fw', w') := by
    intro f u h
    split at h <;> simp at h
  by_cases hb : fw.buf.data.length ≥ 8 * 1024
  · simp only [hb, if_true] at h
    cases hp : fw.pollComplete w with
    | mk r q =>
      obtain ⟨f1, w1⟩ := q
      rw [hp] at h
      cases r with
      | err e => simp at h
      | panic e => simp at h
      | notReady =>
        simp only at h
        by_cases hb' : f1.buf.data.length ≥ 8 * 1024
        · simp only [hb', if_true, Prod.mk.injEq, true_and] at h
          obtain ⟨rfl, rfl⟩ := h
          exact ⟨(C51_flush_waits_for_the_transport _ _ _ _ hp).1, hb'⟩
        · simp only [hb', if_false] at h
          exact absurd h (henc _ _)
      | ready =>
        simp only at h
        by_cases hb' : f1.buf.data.length ≥ 8 * 1024
        · exfalso
          have : f1.buf.data = [] := pollComplete_emptied hp
          rw [this] at hb'; simp at hb'
        · simp only [hb', if_false] at h
          exact absurd h (henc _ _)
  · simp only [hb, if_false] at h
    exact absurd h (henc _ _)

/-! ## C52: handshakes -/

/-- A transport that goes on with `t`. -/
def Duplex.later (t : Src) (d : Duplex) : Duplex := { d with input := d.input ++ t }

/-- The blocking server's answer to a request that it could read in full is given without waiting for more, whether it
is an upgrade or a refusal. -/
theorem C52_server_answers_at_once [B64] (p : ReqParser) (d : Duplex) (t : Src) :
    (∀ u, intoWs p d = .ok u → intoWs p (d.later t) = .ok { u with stream := u.stream.later t }) ∧
    (∀ s r b e, intoWs p d = .error ⟨s, some r, b, e⟩ → intoWs p (d.later t) = .error ⟨s.later t, some r, b, e⟩) := by
  have key : ∀ r b', parseHead p (BufReader.new d) = (.ok r, b') →
      parseHead p (BufReader.new (d.later t)) = (.ok r, b'.later t) := by
    intro r b' h
    exact parseHead_prompt p (BufReader.new d) b' t (.ok r) h trivial
  unfold intoWs
  cases hp : parseHead p (BufReader.new d) with
  | mk r b' =>
    cases r with
    | error e => simp [BufReader.intoParts]
    | ok r =>
      rw [key r b' hp]
      simp only [BufReader.intoParts]
      cases validate r.subject.method r.version r.headers with
      | ok _ =>
        refine ⟨fun u h => ?_, fun s r b e h => (by cases h)⟩
        cases h; rfl
      | error e =>
        refine ⟨fun u h => (by cases h), fun s r b e h => ?_⟩
        cases h; rfl

/-- The blocking client returns from `connect_on` as soon as the response is complete. -/
theorem C52_client_answers_at_once [B64] (p : ResParser) (fresh : WsKey) (d : Duplex) (b : Builder) (t : Src) (c : Client) (b' : Builder)
    (h : b.connectOn p fresh d = (.client c, b')) :
    b.connectOn p fresh (d.later t) = (.client { c with stream := c.stream.later t }, b') := by
  have hwr : (b.buildRequest fresh).2.headers.writable = true := by
    rcases connect_or p fresh d b with ⟨-, he⟩ | ⟨hw, -⟩
    · rw [he] at h; cases h
    · exact hw
  rw [connect_text p fresh _ b hwr] at h ⊢
  unfold Builder.connectText at h ⊢
  cases hb : b.buildRequest fresh with
  | mk resource b1 =>
    simp only [hb] at h ⊢
    simp only [Duplex.later] at h ⊢
    cases hw : Sink.writeAll (ascii "GET " ++ resource ++ [32] ++ b1.version.fmt ++ crlf ++ b1.headers.fmt ++ crlf) d.output with
    | mk r w =>
      simp only [hw] at h ⊢
      cases r with
      | error k => simp at h
      | ok u =>
        simp only at h ⊢
        cases hp : parseHead p (BufReader.new { d with output := w }) with
        | mk r reader =>
          simp only [hp] at h
          cases r with
          | error e => simp at h
          | ok resp =>
            have hl := parseHead_prompt p (BufReader.new { d with output := w }) reader t (.ok resp) hp trivial
            have e : (BufReader.new { d with output := w }).later t = BufReader.new ⟨d.input ++ t, w⟩ := rfl
            rw [e] at hl
            rw [hl]
            simp only at h ⊢
            cases hv : b1.validate resp with
            | error e => simp [hv] at h
            | ok _ => simp only [hv] at h ⊢; cases h; rfl

/-- The async server: once the request has arrived in full (its blank line is there and hyper can parse it), the future
is done, whatever comes later. -/
theorem C52_async_server_answers_at_once_partial [B64] (p : ReqParser) (d : Duplex) (t : Src) {head rest : Bytes}
    (hs : ∀ e ∈ d.input, ¬ e.fails) (hf : FirstBlank d.input.flat head rest) (hp : p.parse head ≠ .part) :
    match asyncIntoWs p d with
    | .ok u => asyncIntoWs p (d.later t) = .ok { u with stream := u.stream.later t }
    | .error e => asyncIntoWs p (d.later t) = .error { e with stream := e.stream.later t } := by
  have ha : headAnswer p head ≠ .ok none := by
    unfold headAnswer
    cases h : p.parse head with
    | part => exact absurd h hp
    | complete m n => simp
    | error => simp
  have he := next_head_eof p d.input (Framed.new ()) (by simpa [Framed.new] using hf) rfl rfl ha hs
  unfold asyncIntoWs
  cases hn : (Framed.new ()).next (httpDecoder p) d.input with
  | mk x q =>
    obtain ⟨fr, s⟩ := q
    rw [hn] at he
    rw [show (d.later t).input = d.input ++ t from rfl, next_prompt _ _ _ _ t _ hn he]
    cases x with
    | item m =>
      simp only
      cases validate m.subject.method m.version m.headers <;> rfl
    | done => rfl
    | err e => rfl
    | panic w => rfl

/-- The async client likewise. -/
theorem C52_async_client_answers_at_once_partial [B64] (p : ResParser) (fresh : WsKey) (extra : Nat) (d : Duplex) (b : Builder) (t : Src)
    {head rest : Bytes} (hs : ∀ e ∈ d.input, ¬ e.fails) (hf : FirstBlank d.input.flat head rest) (hp : p.parse head ≠ .part)
    (c : AsyncClient) (h : b.asyncConnectOn p fresh extra d = .client c) :
    b.asyncConnectOn p fresh extra (d.later t) = .client { c with stream := c.stream.later t } := by
  have ha : headAnswer p head ≠ .ok none := by
    unfold headAnswer
    cases h : p.parse head with
    | part => exact absurd h hp
    | complete m n => simp
    | error => simp
  have he := next_head_eof p d.input (Framed.new ()) (by simpa [Framed.new] using hf) rfl rfl ha hs
  have hwr : (b.buildRequest fresh).2.headers.writable = true := by
    rcases asyncConnect_or p fresh extra d b with ⟨-, he⟩ | ⟨hw, -⟩
    · rw [he] at h; cases h
    · exact hw
  rw [asyncConnect_text p fresh extra _ b hwr] at h ⊢
  unfold Builder.asyncConnectText at h ⊢
  cases hb : b.buildRequest fresh with
  | mk resource b1 =>
    simp only [hb] at h ⊢
    rw [show (d.later t).output = d.output from rfl]
    cases hw : httpSend (HttpHead.fmt reqLine (⟨b1.version, ⟨.get, resource⟩, b1.headers⟩ : Request)) extra d.output with
    | mk r q =>
      obtain ⟨fw, w⟩ := q
      simp only [hw] at h ⊢
      cases r with
      | notReady => simp at h
      | err e => simp at h
      | panic e => simp at h
      | ready =>
        simp only at h ⊢
        cases hn : (Framed.new ()).next (httpDecoder p) d.input with
        | mk x q =>
          obtain ⟨fr, s⟩ := q
          rw [hn] at he
          rw [show (d.later t).input = d.input ++ t from rfl, next_prompt _ _ _ _ t _ hn he]
          simp only [hn] at h
          cases x with
          | item m =>
            simp only at h ⊢
            cases hv : b1.validate m with
            | ok _ => simp only [hv] at h ⊢; cases h; rfl
            | error e => simp [hv] at h
          | done => simp at h
          | err e => simp at h
          | panic w => simp at h

/-- What a poll says and what it leaves in the buffer, for comparison. -/
def pollView {σ α} : Poll α × Framed σ × Src → Bool × Bytes × Src
  | (.notReady, fr, s) => (true, fr.buf, s)
  | (.ready _, fr, s) => (false, fr.buf, s)

/-- How many bytes a parsed head took. -/
def parsedLen {σ} : Parsed σ → Option Nat
  | .complete _ n => some n
  | _ => none

/-- Without the condition on the parser the claim is false: after a blank line the decoder has split off two line ends,
hyper wants more, and the decoder waits for the transport with a complete request in its buffer. hyper itself
(and with it the blocking server) takes the request. -/
theorem C52_async_server_refuted :
    ∃ req : Bytes, FirstBlank req req [] ∧ (∃ m, reqParser.parse (crlf2 ++ req) = .complete m (crlf2 ++ req).length) ∧
      (parseHead reqParser (BufReader.withCapacity ([.chunk (crlf2 ++ req)] : Src) 64)).1.isOk = true ∧
      ∀ t, ∃ fr, (Framed.new ()).poll (httpDecoder reqParser) (.chunk (crlf2 ++ req) :: .error .wouldBlock :: t) =
        (.notReady, fr, t) ∧ fr.buf = req := by
  refine ⟨ascii "GET / HTTP/1.1\r\n\r\n", splitOff_iff.mp (by decide +kernel), ?_, by decide +kernel, ?_⟩
  · have hl : parsedLen (reqParser.parse (crlf2 ++ ascii "GET / HTTP/1.1\r\n\r\n")) =
        some (crlf2 ++ ascii "GET / HTTP/1.1\r\n\r\n").length := by decide +kernel
    cases h : reqParser.parse (crlf2 ++ ascii "GET / HTTP/1.1\r\n\r\n") with
    | complete m n =>
      rw [h] at hl
      simp only [parsedLen, Option.some.injEq] at hl
      exact ⟨m, by rw [hl]⟩
    | error => rw [h] at hl; cases hl
    | part => rw [h] at hl; cases hl
  · intro t
    have h : pollView ((Framed.new ()).poll (httpDecoder reqParser)
        [.chunk (crlf2 ++ ascii "GET / HTTP/1.1\r\n\r\n"), .error .wouldBlock]) =
        (true, ascii "GET / HTTP/1.1\r\n\r\n", []) := by decide +kernel
    have h' : ((Framed.new ()).poll (httpDecoder reqParser)
        [.chunk (crlf2 ++ ascii "GET / HTTP/1.1\r\n\r\n"), .error .wouldBlock]).2.1.eof = false := by decide +kernel
    cases hp : (Framed.new ()).poll (httpDecoder reqParser)
        [.chunk (crlf2 ++ ascii "GET / HTTP/1.1\r\n\r\n"), .error .wouldBlock] with
    | mk x q =>
      obtain ⟨fr, s⟩ := q
      rw [hp] at h h'
      cases x with
      | ready x => simp [pollView] at h
      | notReady =>
        simp only [pollView, Prod.mk.injEq, true_and] at h
        obtain ⟨h1, rfl⟩ := h
        have := poll_prompt _ _ _ _ t _ hp h'
        exact ⟨fr, this, h1⟩

/-! ## The hypotheses can be met -/

/-- A masked ping in two pieces with an interruption, then an error: the ping is delivered, the error is left. -/
example : ((Receiver.newWithLimits true 100 100).recvMany 1
    ([.chunk [0x89], .error .interrupted, .chunk [0x80, 1, 2, 3, 4]] ++ [.error .wouldBlock])) =
    ([.ok (.ping [])], Receiver.newWithLimits true 100 100, [.error .wouldBlock]) := by decide +kernel

/-- A stream that has yielded a message and holds half of the next. -/
example : pollView ((polled msgDecoder 1 (Framed.fromParts (MsgCodec.newWithLimits .client 100 100) [0x89],
      [.chunk [0, 0x89], .error .wouldBlock, .chunk [0]])).1.poll msgDecoder
    (polled msgDecoder 1 (Framed.fromParts (MsgCodec.newWithLimits .client 100 100) [0x89],
      [.chunk [0, 0x89], .error .wouldBlock, .chunk [0]])).2) = (true, [0x89], [.chunk [0]]) := by decide +kernel

/-- A sink that is full. -/
example : (FramedWrite.mk false ⟨List.replicate 8192 0, 8192⟩).startSend (OwnedMsg.ping []).view ⟨1, 2, 3, 4⟩ 0
    ⟨[], [.error .wouldBlock]⟩ = (.notReady, ⟨false, ⟨List.replicate 8192 0, 8192⟩⟩, ⟨[], []⟩) := by
  have h : (List.replicate 8192 (0 : UInt8)).length = 8192 := List.length_replicate
  have h' : List.replicate 8192 (0 : UInt8) ≠ [] := fun e => by rw [e] at h; cases h
  generalize List.replicate 8192 (0 : UInt8) = l at h h'
  simp [FramedWrite.startSend, FramedWrite.pollComplete, h, h']

/-! Concrete cases of the theorems above. -/

example := fun t => C51_blocking_answers_at_once (Receiver.newWithLimits true 100 100) [.chunk [0x89], .error .interrupted, .chunk [0x80, 1, 2, 3, 4]] t
  (.ok (.ping [])) (Receiver.newWithLimits true 100 100) [] (by decide +kernel) (by decide)
example := fun t => C51_dataframe_answers_at_once (Receiver.newWithLimits true 100 100) [.chunk [0x89], .error .interrupted, .chunk [0x80, 1, 2, 3, 4]] t
  (.ok ⟨true, false, false, false, .ping, []⟩) [] (by decide +kernel) (by decide)
example := fun t => C51_blocking_delivers_at_once false 125 1000 _ _ (exDelivers _ (by decide)).1 (by decide) _ exWire
  [.chunk [0x01, 1, 72, 0x89], .chunk [1, 7, 0x80, 1, 105]] (by simp [Src.Clean]) rfl t
example := fun t => C51_async_answers_at_once (Framed.fromParts (MsgCodec.newWithLimits .client 100 100) [0x89]) _ [.chunk [0, 0x89], .error .wouldBlock, .chunk [0]] _ t _ rfl
  (by decide +kernel)
example := fun t => C51_async_delivers_at_once .client 125 1000 _ _ (exDelivers _ (by decide)).2 (by decide) _ exWire [0x01, 1]
  [.chunk [72, 0x89], .error .wouldBlock, .chunk [1, 7, 0x80, 1, 105]] (by simp [Src.Ready]) rfl t
/-- `C51_async_waits_for_the_transport`: the second poll of this stream waits. -/
example : (match (polled msgDecoder 1 (Framed.fromParts (MsgCodec.newWithLimits .client 100 100) [0x89], [.chunk [0, 0x89], .error .wouldBlock, .chunk [0]])).1.poll
      msgDecoder (polled msgDecoder 1 (Framed.fromParts (MsgCodec.newWithLimits .client 100 100) [0x89], [.chunk [0, 0x89], .error .wouldBlock, .chunk [0]])).2 with
    | (.notReady, _, _) => true | _ => false) = true := by decide +kernel
example := C51_flush_waits_for_the_transport ⟨false, ⟨[1, 2, 3], 8192⟩⟩ ⟨false, ⟨[2, 3], 8191⟩⟩ ⟨[], [.accept 1, .error .wouldBlock, .accept 5]⟩ ⟨[1], [.accept 5]⟩
  (by decide +kernel)
/-- `C51_send_waits_for_the_transport`: as in the sink above that is full. -/
example (l : Bytes) (h : l.length = 8192) := C51_send_waits_for_the_transport ⟨false, ⟨l, 8192⟩⟩ ⟨false, ⟨l, 8192⟩⟩ (OwnedMsg.ping []).view ⟨1, 2, 3, 4⟩ 0
  ⟨[], [.error .wouldBlock]⟩ ⟨[], []⟩ (by
    have h' : l ≠ [] := fun e => by rw [e] at h; cases h
    simp [FramedWrite.startSend, FramedWrite.pollComplete, h, h'])

/-- `C52_server_answers_at_once`, `C52_client_answers_at_once`: the request that is taken and the answer that is accepted. -/
example : (∃ u, @intoWs B64.strict reqParser exServed = .ok u) ∧ ∃ c, (@Builder.connectOn B64.strict resParser exNonce exAnswered exBuilder).1 = .client c :=
  ⟨ok_of_isOk (by decide +kernel), ConnectRes.exists_client (by decide +kernel)⟩
example := fun t => @C52_async_server_answers_at_once_partial B64.strict reqParser exServed t _ _ (Src.not_fails_of (by decide +kernel)) exServed_blank exServed_parse
/-- `C52_async_client_answers_at_once_partial`: the head of the answer is whole, and the client connects. -/
example : ∃ head rest c, FirstBlank exAnswered.input.flat head rest ∧ resParser.parse head ≠ .part ∧ (∀ e ∈ exAnswered.input, ¬ e.fails) ∧
    @Builder.asyncConnectOn B64.strict resParser exNonce 0 exAnswered exBuilder = .client c := by
  obtain ⟨c, hc⟩ := AsyncConnectRes.exists_client (x := @Builder.asyncConnectOn B64.strict resParser exNonce 0 exAnswered exBuilder) (by decide +kernel)
  refine ⟨exAnswered.input.flat.dropLast.dropLast.dropLast, [0x81, 1, 65], c, splitOff_iff.mp (by decide +kernel), ?_, Src.not_fails_of (by decide +kernel), hc⟩
  generalize hr : exAnswered.input.flat.dropLast.dropLast.dropLast = r
  exact parseWith_blank (b := r) parseResLine (by rw [← hr]; decide +kernel) ⟨72, by rw [← hr]; decide +kernel, by decide⟩

end WS
