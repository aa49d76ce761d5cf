import Verif.Lemmas.Memory
import Verif.Props.Builder
/-!
# C70 and C71: how much a peer can make the library hold

C70 is about the time before the handshake is done, C71 about the time after. What a client holds of an unfinished message is C20
and C21; here it is the bytes that are read but not yet decoded, and on the async side the bytes that are encoded but not yet
written.
-/

namespace WS
open Spec (FirstBlank)

/-! ## C70: before the handshake is done -/

/-- A blocking server takes at most 512 KiB from a stranger's connection, and holds no more, whatever is sent and whatever becomes
of the handshake. -/
theorem C70_blocking_server [B64] (p : ReqParser) (d : Duplex) :
    match intoWs p d with
    | .ok u => d.input.flat.length ≤ u.stream.input.flat.length + 2 ^ 19 ∧ ∃ b, u.buffer = some b ∧ b.buf.length ≤ 2 ^ 19
    | .error f => d.input.flat.length ≤ f.stream.input.flat.length + 2 ^ 19 ∧ ∃ b, f.buffer = some b ∧ b.buf.length ≤ 2 ^ 19 := by
  obtain ⟨h1, h2⟩ := parseHead_size p (BufReader.new d) (new_wf d) (new_size d) rfl
  have h3 := sizes_le h1
  rw [new_window] at h2
  have h4 : d.input.flat.length ≤ (parseHead p (BufReader.new d)).2.inner.input.flat.length + 2 ^ 19 := by
    have : (0 : Nat) + d.input.flat.length ≤ (parseHead p (BufReader.new d)).2.inner.input.flat.length + (parseHead p (BufReader.new d)).2.buf.length := h2
    have e : (2 : Nat) ^ 19 = 524288 := rfl
    omega
  unfold intoWs
  cases hx : parseHead p (BufReader.new d) with
  | mk request reader =>
    rw [hx] at h3 h4
    simp only [BufReader.intoParts]
    cases request with
    | error e => exact ⟨h4, _, rfl, h3⟩
    | ok request =>
      simp only
      cases hv : validate request.subject.method request.version request.headers with
      | ok _ => exact ⟨h4, _, rfl, h3⟩
      | error e => exact ⟨h4, _, rfl, h3⟩

/-- A blocking client takes at most 512 KiB before it has decided about the response. -/
theorem C70_blocking_client [B64] (p : ResParser) (fresh : WsKey) (d : Duplex) (b : Builder) :
    match (b.connectOn p fresh d).1 with
    | .client c => d.input.flat.length ≤ c.stream.inner.input.flat.length + 2 ^ 19 ∧ c.stream.buf.length ≤ 2 ^ 19
    | .err (some t) _ => d.input.flat.length ≤ t.input.flat.length + 2 ^ 19
    | .err none _ => True
    | .panic _ => True := by
  rcases connect_or p fresh d b with ⟨-, he⟩ | ⟨-, he⟩
  · rw [he]; trivial
  rw [he]
  unfold Builder.connectText
  simp only
  cases hw : Sink.writeAll (ascii "GET " ++ (b.buildRequest fresh).1 ++ [32] ++ (b.buildRequest fresh).2.version.fmt ++ crlf ++
      (b.buildRequest fresh).2.headers.fmt ++ crlf) d.output with
  | mk r w =>
    cases r with
    | error k => exact Nat.le_add_right _ _
    | ok _ =>
      simp only
      obtain ⟨h1, h2⟩ := parseHead_size p (BufReader.new ({ d with output := w } : Duplex)) (new_wf _) (new_size _) rfl
      have h3 := sizes_le h1
      rw [new_window] at h2
      have h4 : d.input.flat.length ≤ (parseHead p (BufReader.new ({ d with output := w } : Duplex))).2.inner.input.flat.length + 2 ^ 19 := by
        have : (0 : Nat) + d.input.flat.length ≤ (parseHead p (BufReader.new ({ d with output := w } : Duplex))).2.inner.input.flat.length +
          (parseHead p (BufReader.new ({ d with output := w } : Duplex))).2.buf.length := h2
        have e : (2 : Nat) ^ 19 = 524288 := rfl
        omega
      cases hx : parseHead p (BufReader.new ({ d with output := w } : Duplex)) with
      | mk response reader =>
        rw [hx] at h3 h4
        cases response with
        | error e => exact h4
        | ok response =>
          simp only
          cases hv : (b.buildRequest fresh).2.validate response with
          | error e => exact h4
          | ok _ => exact ⟨h4, h3⟩

/-- A script that is never used up by a wait: chunks, then the transport has nothing more for now. -/
def Spec.Pending (s : Src) : Prop := ∃ t : Src, s = t ++ [.error .wouldBlock] ∧ ∀ e ∈ t, ∃ b, e = .chunk b ∧ b ≠ []

theorem pending_poll {σ line ok} (p : HeadParser σ line ok) (t : Src) (ht : ∀ e ∈ t, ∃ b, e = .chunk b ∧ b ≠ []) (fr : Framed Unit)
    (hr : fr.readable = false) (hb : ¬ [13, 10, 13, 10] <:+: fr.buf ++ t.flat) :
    ∃ fr', fr.pollRead (httpDecoder p) (t ++ [.error .wouldBlock]) = (.notReady, fr', []) ∧ fr'.buf = fr.buf ++ t.flat ∧ fr'.readable = false := by
  induction t generalizing fr with
  | nil => exact ⟨fr, rfl, by simp [Src.flat], hr⟩
  | cons e t ih =>
    obtain ⟨b, rfl, hne⟩ := ht e List.mem_cons_self
    rw [Src.flat, ← List.append_assoc] at hb
    rw [List.cons_append, Framed.pollRead, if_neg hne]
    rw [decode_none p (splitOff_none.mpr fun h => hb (h.trans (List.prefix_append _ _).isInfix))]
    obtain ⟨fr', h1, h2, h3⟩ := ih (fun e he => ht e (List.mem_cons_of_mem _ he)) { fr with codec := (), buf := fr.buf ++ b, readable := false } rfl hb
    exact ⟨fr', h1, by rw [h2, Src.flat, ← List.append_assoc], h3⟩

/-- What an async server or client holds while it waits for a head: everything it has received. Partial: there is no bound. -/
theorem C70_async_partial {σ line ok} (p : HeadParser σ line ok) (s : Src) (hs : Spec.Pending s) (hb : ¬ [13, 10, 13, 10] <:+: s.flat) :
    ((Framed.new ()).poll (httpDecoder p) s).1 = .notReady ∧ ((Framed.new ()).poll (httpDecoder p) s).2.1.buf = s.flat := by
  obtain ⟨t, rfl, ht⟩ := hs
  have e : Src.flat (t ++ [.error .wouldBlock]) = Src.flat t := by
    clear hb ht
    induction t with
    | nil => rfl
    | cons x t ih => cases x <;> simp [Src.flat, ih]
  rw [e] at hb ⊢
  obtain ⟨fr', h1, h2, -⟩ := pending_poll p t ht (Framed.new ()) rfl hb
  have hp : (Framed.new ()).poll (httpDecoder p) (t ++ [.error .wouldBlock]) = (Framed.new ()).pollRead (httpDecoder p) (t ++ [.error .wouldBlock]) := by
    unfold Framed.poll; rw [if_neg (by decide)]
  rw [hp, h1]
  exact ⟨rfl, h2⟩

/-- Whatever the bound, a stranger can make the async library exceed it without completing a request: it holds a gigabyte of `a`s
and waits for more (departure 37). -/
theorem C70_refuted_async {σ line ok} (p : HeadParser σ line ok) (bound : Nat) :
    ∃ s : Src, ((Framed.new ()).poll (httpDecoder p) s).1 = .notReady ∧ ((Framed.new ()).poll (httpDecoder p) s).2.1.buf.length > bound := by
  have hp : Spec.Pending [.chunk (List.replicate (bound + 1) 97), .error .wouldBlock] :=
    ⟨[.chunk (List.replicate (bound + 1) 97)], rfl, fun e he => ⟨_, List.mem_singleton.mp he, by simp⟩⟩
  have hf : Src.flat [.chunk (List.replicate (bound + 1) 97), .error .wouldBlock] = List.replicate (bound + 1) 97 := by simp [Src.flat]
  have hb : ¬ [13, 10, 13, 10] <:+: Src.flat [.chunk (List.replicate (bound + 1) 97), .error .wouldBlock] := by
    rw [hf]
    rintro ⟨a, c, h⟩
    have h13 : (13 : UInt8) ∈ List.replicate (bound + 1) (97 : UInt8) := by rw [← h]; simp
    exact absurd (List.eq_of_mem_replicate h13) (by decide)
  obtain ⟨h1, h2⟩ := C70_async_partial p _ hp hb
  refine ⟨_, h1, ?_⟩
  rw [h2, hf, List.length_replicate]
  exact Nat.lt_succ_self _

/-! ## C71: after the handshake -/

/-- The state after `n` polls. -/
def Spec.polls {σ α} (dec : Decoder σ α) : Nat → Framed σ → Src → Framed σ × Src
  | 0, fr, s => (fr, s)
  | n + 1, fr, s => Spec.polls dec n (fr.poll dec s).2.1 (fr.poll dec s).2.2

theorem polls_slim {σ α} {dec : Decoder σ α} {P : σ → Prop} {limit top K : Nat} (hd : Modest dec P limit) (htop : limit + K ≤ top + 1)
    (n : Nat) (s : Src) (hs : s.Pieces K) (fr : Framed σ) (h : fr.Slim P limit top) : (Spec.polls dec n fr s).1.Slim P limit top := by
  induction n generalizing fr s with
  | zero => exact h
  | succ n ih => exact ih _ (poll_pieces s hs fr) _ (poll_slim hd htop s hs fr h)

theorem polls_last {σ α} {dec : Decoder σ α} (n : Nat) (fr : Framed σ) (s : Src) : Spec.polls dec (n + 1) fr s =
    (((Spec.polls dec n fr s).1.poll dec (Spec.polls dec n fr s).2).2.1, ((Spec.polls dec n fr s).1.poll dec (Spec.polls dec n fr s).2).2.2) := by
  induction n generalizing fr s with
  | zero => rfl
  | succ n ih => exact ih _ _

/-- However often the message stream is polled, and whatever arrives, it has never buffered more than the largest frame it may
take and one read: 14 bytes of header, the frame limit, and the at most `K` bytes one read brings; or what the handshake left, if
that is more. -/
theorem C71_read_buffer (c : MsgCodec) (buf : Bytes) (s : Src) (K : Nat) (hs : s.Pieces K) (n : Nat) :
    (Spec.polls msgDecoder n (Framed.fromParts c buf) s).1.buf.length ≤ max buf.length (13 + c.df.maxDf + K) := by
  have h0 : (Framed.fromParts c buf).Slim (fun c' => c'.df.maxDf ≤ c.df.maxDf) (14 + c.df.maxDf) (max buf.length (13 + c.df.maxDf + K)) := by
    refine ⟨Nat.le_refl _, Nat.le_max_left _ _, fun h => ?_⟩
    have : buf = [] := by
      simpa [Framed.fromParts] using h
    show buf.length < _
    rw [this, List.length_nil]
    omega
  exact (polls_slim (msgDecoder_modest c.df.maxDf) (by omega) n s hs _ h0).2.1

/-- What one poll buffers is decoded as far as possible before more is read: when the stream waits for the transport it has less
than one frame. -/
theorem C71_waits_short (c : MsgCodec) (buf : Bytes) (s : Src) (n : Nat)
    (hw : ((Spec.polls msgDecoder n (Framed.fromParts c buf) s).1.poll msgDecoder (Spec.polls msgDecoder n (Framed.fromParts c buf) s).2).1 = .notReady) :
    (Spec.polls msgDecoder (n + 1) (Framed.fromParts c buf) s).1.buf.length < 14 + c.df.maxDf := by
  have h0 : (Framed.fromParts c buf).Slim (fun c' => c'.df.maxDf ≤ c.df.maxDf) (14 + c.df.maxDf)
      (max buf.length (13 + c.df.maxDf + s.flat.length)) := by
    refine ⟨Nat.le_refl _, Nat.le_max_left _ _, fun h => ?_⟩
    have : buf = [] := by simpa [Framed.fromParts] using h
    show buf.length < _
    rw [this, List.length_nil]
    omega
  have hp : s.Pieces s.flat.length := pieces_flat s
  have h1 := polls_slim (msgDecoder_modest c.df.maxDf) (by omega) (n + 1) s hp _ h0
  rw [polls_last] at h1 ⊢
  exact h1.2.2 (poll_rests _ _ hw)

/-- The same for a stream of single frames. -/
theorem C71_frame_stream (c : DfCodec) (buf : Bytes) (s : Src) (K : Nat) (hs : s.Pieces K) (n : Nat) :
    (Spec.polls dfDecoder n (Framed.fromParts c buf) s).1.buf.length ≤ max buf.length (13 + c.maxDf + K) := by
  have h0 : (Framed.fromParts c buf).Slim (fun c' => c'.maxDf ≤ c.maxDf) (14 + c.maxDf) (max buf.length (13 + c.maxDf + K)) := by
    refine ⟨Nat.le_refl _, Nat.le_max_left _ _, fun h => ?_⟩
    have : buf = [] := by simpa [Framed.fromParts] using h
    show buf.length < _
    rw [this, List.length_nil]
    omega
  exact (polls_slim (dfDecoder_modest c.maxDf) (by omega) n s hs _ h0).2.1

theorem next_left {σ line ok} (p : HeadParser σ line ok) (s : Src) (fr : Framed Unit) {head rest : Bytes} {K : Nat} (hk : s.Pieces K)
    (hf : FirstBlank (fr.buf ++ s.flat) head rest) (hn : splitOffHttp fr.buf = none) (hr : fr.readable = false)
    (ha : headAnswer p head ≠ .ok none) (m : HttpHead σ) (hm : (fr.next (httpDecoder p) s).1 = .item m) :
    (fr.next (httpDecoder p) s).2.1.buf.length < K ∧ (fr.next (httpDecoder p) s).2.2.Pieces K := by
  have hpoll : ∀ (fr : Framed Unit) (s : Src), fr.readable = false → fr.poll (httpDecoder p) s = fr.pollRead (httpDecoder p) s := by
    intro fr s hr
    unfold Framed.poll; rw [if_neg (by rw [hr]; decide)]
  fun_induction Framed.next (httpDecoder p) fr s with
  | case1 fr s x fr' s' hp =>
    have h1 := (pollRead_left p s fr hk hf hn ha).1 m
    have h2 := pollRead_pieces (dec := httpDecoder p) s hk fr
    rw [← hpoll fr s hr, hp] at h1 h2
    exact ⟨h1 (by rw [show x = .item m from hm]), h2⟩
  | case2 fr s fr' s' hp ih =>
    have h1 := (pollRead_left p s fr hk hf hn ha).2
    have h2 := pollRead_pieces (dec := httpDecoder p) s hk fr
    rw [← hpoll fr s hr, hp] at h1 h2
    rw [hpoll fr s hr] at hp
    rcases pollRead_head p s fr hf hn hr ha with ⟨a, f, t, g1, -⟩ | ⟨a, f, t, g1, -⟩ | ⟨f, t, g1, g2, g3, g4, g5⟩
    · rw [hp] at g1; cases g1
    · rw [hp] at g1; cases g1
    · rw [hp] at g1; cases g1
      exact ih h2 (by rw [g2, ← hf.1]; exact hf) g3 g5 hm

/-- An async server that was given its requests in reads of at most `K` bytes never buffers more than 13 bytes, the frame limit
and `K` for a connection it has accepted, unless the request began with blank lines (`hp`; see C42). -/
theorem C71_async_server [B64] (p : ReqParser) (d : Duplex) (K : Nat) (hk : d.input.Pieces K) {head rest : Bytes}
    (hf : FirstBlank d.input.flat head rest) (hp : p.parse head ≠ .part) (u : AsyncUpgrade) (hu : asyncIntoWs p d = .ok u)
    (ops : List UpgradeOp) (custom : Option Headers) (maxDf maxMsg extra : Nat) (c : AsyncClient)
    (hc : AsyncUpgrade.internalAcceptWithLimits (u.run ops) custom maxDf maxMsg extra = .client c) (n : Nat) :
    (Spec.polls msgDecoder n c.read c.stream.input).1.buf.length ≤ 13 + min maxDf u32Max + K := by
  have ha : headAnswer p head ≠ .ok none := by
    unfold headAnswer
    cases hh : p.parse head with
    | part => exact absurd hh hp
    | complete m n => simp
    | error => simp
  have h1 : u.buffer.length < K ∧ u.stream.input.Pieces K := by
    unfold asyncIntoWs at hu
    cases hx : (Framed.new ()).next (httpDecoder p) d.input with
    | mk x q =>
      obtain ⟨fr, s⟩ := q
      rw [hx] at hu
      cases x with
      | item m =>
        simp only at hu
        split at hu
        · cases hu
          have := next_left p d.input (Framed.new ()) hk (by simpa [Framed.new] using hf) rfl rfl ha m (by rw [hx])
          rw [hx] at this
          exact this
        · cases hu
      | done => cases hu
      | err e => cases hu
      | panic e => cases hu
  have h2 : (u.run ops).buffer = u.buffer ∧ (u.run ops).stream = u.stream := by
    have hh := (C45_async_upgrade_has_key p d u hu).2
    obtain ⟨-, -, g3, g4⟩ := run_facts u ops (by rw [hh]; simp [Headers.Unique])
    exact ⟨g4, g3⟩
  have h3 : c.read = Framed.fromParts (MsgCodec.newWithLimits .server maxDf maxMsg) u.buffer ∧ c.stream.input = u.stream.input := by
    have e : ((u.run ops).addCustom custom).buffer = (u.run ops).buffer ∧ ((u.run ops).addCustom custom).stream = (u.run ops).stream := by
      unfold Upgrade.addCustom; split <;> exact ⟨rfl, rfl⟩
    replace hc := asyncAccept_client hc
    unfold AsyncUpgrade.acceptText Upgrade.prepareHeaders at hc
    simp only at hc
    cases hk : ((u.run ops).addCustom custom).request.headers.getKey with
    | none => rw [hk] at hc; cases hc
    | some key =>
      rw [hk] at hc
      simp only at hc
      split at hc
      · cases hc
        simp only [updateFramedCodec, Framed.fromParts, e, h2, and_self]
      · cases hc
      · cases hc
      · cases hc
  rw [h3.1, h3.2]
  have := C71_read_buffer (MsgCodec.newWithLimits .server maxDf maxMsg) u.buffer u.stream.input K h1.2 n
  have e : (MsgCodec.newWithLimits .server maxDf maxMsg).df.maxDf = min maxDf u32Max := rfl
  rw [e] at this
  omega

/-- The same for an async client and the response. -/
theorem C71_async_client [B64] (p : ResParser) (fresh : WsKey) (extra : Nat) (d : Duplex) (b : Builder) (K : Nat)
    (hk : d.input.Pieces K) {head rest : Bytes} (hf : FirstBlank d.input.flat head rest) (hp : p.parse head ≠ .part) (c : AsyncClient)
    (hc : b.asyncConnectOn p fresh extra d = .client c) (n : Nat) :
    (Spec.polls msgDecoder n c.read c.stream.input).1.buf.length ≤ 13 + min b.maxDf u32Max + K := by
  have ha : headAnswer p head ≠ .ok none := by
    unfold headAnswer
    cases hh : p.parse head with
    | part => exact absurd hh hp
    | complete m n => simp
    | error => simp
  have hm : (b.buildRequest fresh).2.maxDf = b.maxDf := rfl
  replace hc := asyncConnect_client hc
  unfold Builder.asyncConnectText at hc
  simp only at hc
  split at hc
  · cases hx : (Framed.new ()).next (httpDecoder p) d.input with
    | mk x q =>
      obtain ⟨fr, s⟩ := q
      rw [hx] at hc
      cases x with
      | item m =>
        simp only at hc
        split at hc
        · cases hc
          have h1 := next_left p d.input (Framed.new ()) hk (by simpa [Framed.new] using hf) rfl rfl ha m (by rw [hx])
          rw [hx] at h1
          have := C71_read_buffer (MsgCodec.newWithLimits .client b.maxDf (b.buildRequest fresh).2.maxMsg) fr.buf s K h1.2 n
          have e : (MsgCodec.newWithLimits .client b.maxDf (b.buildRequest fresh).2.maxMsg).df.maxDf = min b.maxDf u32Max := rfl
          rw [e] at this
          have h2 : fr.buf.length < K := h1.1
          simp only [updateFramedCodec, hm]
          omega
        · cases hc
      | done => cases hc
      | err e => cases hc
      | panic e => cases hc
  · cases hc
  · cases hc
  · cases hc

/-- However the async sink is used, and however slow the peer reads, fewer than 8 KiB and one frame are queued. -/
theorem C71_write_queue (fw : FramedWrite) (hw : fw.buf.WF) (w : Sink) (ops : List SinkOp) (hops : ∀ op ∈ ops, op.Lawful) (L : Nat)
    (hq : fw.buf.data.length < 8 * 1024 + L) (hL : ∀ v key extra, SinkOp.send v key extra ∈ ops → v.frameSize (!fw.isServer) ≤ L) :
    (fw.run ops w).2.1.buf.data.length < 8 * 1024 + L := by
  induction ops generalizing fw w with
  | nil => exact hq
  | cons op ops ih =>
    have ho := hops op List.mem_cons_self
    obtain ⟨h1, h2, h3, h4, -⟩ := step_inv fw op ho w hw
    have hq' : (fw.step op w).2.1.buf.data.length < 8 * 1024 + L := by
      cases op with
      | send v key extra => exact startSend_short fw v ho key extra w hw (hL v key extra List.mem_cons_self) hq
      | flush =>
        obtain ⟨a, -, -, b, -⟩ := pollComplete_inv fw w hw
        have hlen := congrArg List.length a
        have := b.length_le
        simp only [List.length_append] at hlen
        show (fw.pollComplete w).2.1.buf.data.length < _
        omega
    show (FramedWrite.run (fw.step op w).2.1 ops (fw.step op w).2.2).2.1.buf.data.length < _
    exact ih (fw.step op w).2.1 h2 (fw.step op w).2.2 (fun o h => hops o (List.mem_cons_of_mem _ h)) hq'
      (fun v key extra h => by rw [h3]; exact hL v key extra (List.mem_cons_of_mem _ h))

/-! ## Cases -/

/-- A transport that gives three bytes, then five, then nothing for now. -/
example : Src.Pieces 5 [.chunk [1, 2, 3], .chunk [1, 2, 3, 4, 5], .error .wouldBlock] := by
  intro b hb
  simp only [List.mem_cons, Ev.chunk.injEq, List.not_mem_nil, or_false, reduceCtorEq] at hb
  rcases hb with rfl | rfl <;> decide

/-- A frame that comes in two reads, and half of the next one: two bytes are left. -/
example : (Spec.polls msgDecoder 2 (Framed.fromParts (MsgCodec.newWithLimits .client 2 100) [])
    [.chunk [0x82, 2, 7], .error .wouldBlock, .chunk [0x80, 9, 9]]).1.buf.length = 2 := by decide +kernel

/-- A request that meets the hypotheses of `C71_async_server`, with the first byte of a frame behind it. -/
example : let head := ascii "GET / HTTP/1.1\r\nSec-WebSocket-Key: dGhlIHNhbXBsZSBub25jZQ==\r\nUpgrade: websocket\r\nConnection: Upgrade\r\n\r\n"
    FirstBlank (Src.flat [.chunk (head.take 50), .error .wouldBlock, .chunk (head.drop 50 ++ [0x81])]) head [0x81] ∧
      (match reqParser.parse head with | .part => False | _ => True) ∧
      (@asyncIntoWs B64.strict reqParser ⟨[.chunk (head.take 50), .error .wouldBlock, .chunk (head.drop 50 ++ [0x81])], ⟨[], []⟩⟩).isOk = true := by
  refine ⟨splitOff_iff.mp (by decide +kernel), ?_, by decide +kernel⟩
  have h : (match reqParser.parse (ascii "GET / HTTP/1.1\r\nSec-WebSocket-Key: dGhlIHNhbXBsZSBub25jZQ==\r\nUpgrade: websocket\r\nConnection: Upgrade\r\n\r\n") with
    | .part => false | _ => true) = true := by decide +kernel
  revert h
  split <;> simp

/-- A frame for `C71_write_queue`. -/
example : SinkOp.Lawful (.send (OwnedMsg.binary (List.replicate 3 1)).view ⟨1, 2, 3, 4⟩ 0) ∧
    (OwnedMsg.binary (List.replicate 3 1)).view.frameSize true ≤ 9 := ⟨OwnedMsg.lawful _, by decide⟩

/-! Concrete cases of the theorems above. -/

theorem samplePieces : Src.Pieces 5 [.chunk [0x82, 3, 7], .chunk [1, 2, 3, 4, 5], .error .wouldBlock] := by
  intro b hb
  simp only [List.mem_cons, Ev.chunk.injEq, List.not_mem_nil, or_false, reduceCtorEq] at hb
  rcases hb with rfl | rfl <;> decide
example := C71_read_buffer (MsgCodec.newWithLimits .client 2 100) [0x81] _ 5 samplePieces
example := C71_frame_stream ⟨false, 100⟩ [0x81] _ 5 samplePieces
/-- `C71_waits_short`: the second poll of this stream waits. -/
example : (match ((Spec.polls msgDecoder 1 (Framed.fromParts (MsgCodec.newWithLimits .client 2 100) []) [.chunk [0x82, 2, 7, 7, 0x82], .error .wouldBlock]).1.poll msgDecoder
    (Spec.polls msgDecoder 1 (Framed.fromParts (MsgCodec.newWithLimits .client 2 100) []) [.chunk [0x82, 2, 7, 7, 0x82], .error .wouldBlock]).2).1 with
    | .notReady => true | _ => false) = true := by decide +kernel

example := C70_async_partial reqParser [.chunk (ascii "GET / HTTP/1.1\r\nX: "), .chunk (ascii "aaaaaaaa"), .error .wouldBlock]
  ⟨[.chunk (ascii "GET / HTTP/1.1\r\nX: "), .chunk (ascii "aaaaaaaa")], rfl, by
    intro e he
    simp only [List.mem_cons, List.not_mem_nil, or_false] at he
    rcases he with rfl | rfl <;> exact ⟨_, rfl, by decide +kernel⟩⟩ (by decide +kernel)

/-- A response that meets the hypotheses of `C71_async_client`, with the first byte of a frame behind it. -/
def shortAnswer : Bytes :=
  ascii "HTTP/1.1 101 Switching Protocols\r\nUpgrade: websocket\r\nConnection: Upgrade\r\nSec-WebSocket-Accept: s3pPLMBiTxaQ9kYGzzhZRbK+xOo=\r\n\r\n"
example : FirstBlank (Src.flat [.chunk shortAnswer, .chunk [0x81]]) shortAnswer [0x81] ∧ resParser.parse shortAnswer ≠ .part ∧
    ∃ c, @Builder.asyncConnectOn B64.strict resParser ⟨ascii "the sample nonce", by decide⟩ 0 ⟨[.chunk shortAnswer, .chunk [0x81]], ⟨[], []⟩⟩
      (Builder.init ⟨ascii "ws", some (ascii "a"), none, [], none, ascii "/", none, none⟩) = .client c :=
  ⟨splitOff_iff.mp (by decide +kernel),
   (by
    have h : (match resParser.parse shortAnswer with | .part => false | _ => true) = true := by decide +kernel
    intro hc; rw [hc] at h; cases h),
   AsyncConnectRes.exists_client (by decide +kernel)⟩

end WS
