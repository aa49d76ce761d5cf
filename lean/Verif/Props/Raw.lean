import Verif.Lemmas.Raw
import Verif.Props.EndToEnd
/-!
# C73: raw access to the stream, and shutting down

`reader_mut` and `writer_mut` let a program read and write between the library's own calls; `shutdown_*` end a direction.
-/

namespace WS
open Spec (InTurn)

/-! ## Mixing raw and library calls -/

/-- Any sequence of raw reads, raw writes, receives and sends, over any transport, takes consecutive bytes of the incoming
stream — none twice, none skipped, starting with those in the buffer — and adds, in order, to the outgoing stream. -/
theorem C73_in_turn (c : Client) (h : c.stream.WF) (ops : List RawOp) :
    ∃ taken given, InTurn c.frame ops (c.rawRun ops).1 taken given ∧
      c.stream.window ++ c.stream.inner.input.flat =
        taken ++ ((c.rawRun ops).2.stream.window ++ (c.rawRun ops).2.stream.inner.input.flat) ∧
      (c.rawRun ops).2.stream.inner.output.wire = c.stream.inner.output.wire ++ given ∧ (c.rawRun ops).2.stream.WF := by
  obtain ⟨i, g, h1, h2, h3, h4⟩ := rawRun_spec c h ops
  rw [src_flat_parts, src_flat_parts] at h2
  exact ⟨i, g, h1, h2, h3, h4⟩

/-- A call on the library between raw calls works on exactly the bytes that are left: after reading `a` raw, receives give what
they give on a connection whose stream is the rest. -/
theorem C73_read_then_receive (c : Client) (h : c.stream.WF) (hr : c.receiver.maxDf ≤ isizeMax) (hs : c.stream.inner.input.Clean)
    (a b : Bytes) (hab : c.stream.window ++ c.stream.inner.input.flat = a ++ b) :
    (c.rawReadExact a.length).1 = .ok a ∧
    ∀ (n : Nat) (s : Src), s.Clean → s.flat = b →
      ((c.rawReadExact a.length).2.run (List.replicate n .recvMessage)).1 = (c.receiver.recvMany n s).1.map .message := by
  rw [← src_flat_parts] at hab
  obtain ⟨s', h1, h2⟩ := readExact_clean a.length c.stream.src (src_clean_of hs)
  have hl : a.length ≤ c.stream.src.flat.length := by rw [hab, List.length_append]; omega
  rw [if_pos hl, hab, List.take_left, List.drop_left] at h2
  have hrem := rem_readExact a.length c.stream.src
  unfold Client.rawReadExact
  rw [h2.1] at hrem ⊢
  refine ⟨rfl, fun n s hs hb => ?_⟩
  obtain ⟨s1, -, e1, -⟩ := recvMany_clean n c.receiver hr s hs
  obtain ⟨s2, -, e2, -⟩ := recvMany_clean n c.receiver hr s' h1
  rw [run_recvMany _ (restore_wf h _)]
  show (c.receiver.recvMany n (c.stream.restore s').src).1.map _ = _
  rw [restore_src h hrem, e1, e2, h2.2, hb]

/-- The length of a raw read does not matter: `read_to_end` gives the same bytes and outcome however many bytes its `read`
calls ask for. -/
theorem C73_to_end_sizes (size : Nat → Nat) (s : Src) : toEndLoop size 0 s = toEnd s := toEndLoop_any size 0 s

/-! ## The documented patterns -/

/-- `io::Cursor` over a vector. -/
def cursor (bs : Bytes) : Src := if bs = [] then [] else [.chunk bs]

theorem cursor_clean (bs : Bytes) : (cursor bs).Clean := by
  unfold cursor; split
  · trivial
  · next h => exact ⟨h, trivial⟩

theorem cursor_flat (bs : Bytes) : (cursor bs).flat = bs := by
  unfold cursor; split
  · next h => rw [h]; rfl
  · simp [Src.flat]

/-- The pattern documented at `writer_mut`: sending into a vector with a sender of one's own and writing the vector raw does to
any transport, failing or not, exactly what `send_message` does, provided the sender masks as the client does. -/
theorem C73_write_pattern (c : Client) (v : FrameView) (key : Key4) (x : Sender) (hx : x = c.sender) :
    match x.send v key ⟨[], []⟩ with
    | (.ok _, buf) => (c.rawWriteAll buf.wire).2 = (c.send v key).2 ∧
        ((c.rawWriteAll buf.wire).1 = .ok () ↔ (c.send v key).1 = .ok ())
    | (r, buf) => buf.wire = [] ∧ c.send v key = (r, c) := by
  subst hx
  unfold Client.send Sender.send FrameView.writeTo Client.rawWriteAll
  cases he : v.encode (if c.sender.mask then some key else none) with
  | ok bs =>
    simp only [writeAll_vec, List.nil_append]
    cases hw : c.stream.inner.output.writeAll bs with
    | mk r w => cases r <;> exact ⟨rfl, by simp⟩
  | err e => exact ⟨rfl, rfl⟩
  | panic e => exact ⟨rfl, rfl⟩

/-- The pattern documented at `reader_mut`: reading to the end and receiving from a cursor over the bytes gives the answers the
client itself would have given. -/
theorem C73_read_pattern (c : Client) (h : c.stream.WF) (hr : c.receiver.maxDf ≤ isizeMax) (hs : c.stream.inner.input.Clean)
    (rx : Receiver) (hx : rx = c.receiver) :
    ∃ bs c', c.rawToEnd = (.ok (), bs, c') ∧ bs = c.stream.window ++ c.stream.inner.input.flat ∧
      ∀ n, (rx.recvMany n (cursor bs)).1.map OpRes.message = (c.run (List.replicate n .recvMessage)).1 := by
  subst hx
  have hc := src_clean_of hs
  unfold Client.rawToEnd
  rw [toEnd_clean hc]
  refine ⟨_, _, rfl, src_flat_parts c, fun n => ?_⟩
  rw [run_recvMany c h]
  obtain ⟨s1, -, e1, -⟩ := recvMany_clean n c.receiver hr c.stream.src hc
  obtain ⟨s2, -, e2, -⟩ := recvMany_clean n c.receiver hr (cursor c.stream.src.flat) (cursor_clean _)
  rw [e1, e2, cursor_flat]

/-- What the two patterns are for: messages sent into a vector, transformed, written raw, read to the end by the peer, transformed
back and received from a cursor are exactly the messages sent, then there is no data. -/
theorem C73_transformed (c p : Client) (x : Sender) (ms : List (OwnedMsg × Key4)) (maxDf maxMsg : Nat)
    (hm : ∀ p ∈ ms, p.1.spec.Sendable (min maxDf u32Max)) (f g : Bytes → Bytes) (hfg : ∀ bs, f (g bs) = bs)
    (hw : (c.rawWriteAll (g (x.sendMany (outgoing ms) ⟨[], []⟩).2.wire)).1 = .ok ()) (hp : p.stream.inner.input.Clean)
    (hc : (c.rawWriteAll (g (x.sendMany (outgoing ms) ⟨[], []⟩).2.wire)).2.stream.inner.output.wire =
      c.stream.inner.output.wire ++ (p.stream.window ++ p.stream.inner.input.flat)) (n : Nat) :
    ∃ bs p', p.rawToEnd = (.ok (), bs, p') ∧
      ((Receiver.newWithLimits x.mask maxDf maxMsg).recvMany (ms.length + n) (cursor (f bs))).1 =
        ms.map (fun p => .ok p.1) ++ List.replicate n (.err .noData) := by
  unfold Client.rawToEnd
  rw [toEnd_clean (src_clean_of hp), src_flat_parts]
  refine ⟨_, _, rfl, ?_⟩
  have hok := C26_sends_succeed x ms _ hm ⟨[], []⟩ (by intro e he; simp at he)
  obtain ⟨bs, h1, h2⟩ := C26_blocking_to_blocking x ms maxDf maxMsg hm ⟨[], []⟩ (by rw [hok]; intro r hr; obtain ⟨_, _, rfl⟩ := List.mem_map.mp hr; rfl)
  rw [List.nil_append] at h1
  rw [h1] at hw hc
  unfold Client.rawWriteAll at hw hc
  cases hq : c.stream.inner.output.writeAll (g bs) with
  | mk r w =>
    rw [hq] at hw hc
    simp only at hw
    subst hw
    have hb := (writeAll_ok hq).symm.trans hc
    rw [← List.append_cancel_left hb, hfg]
    obtain ⟨s', e1, e2⟩ := h2 [] (cursor bs) (cursor_clean bs) (by rw [cursor_flat, List.append_nil])
    have hd : (Receiver.newWithLimits x.mask maxDf maxMsg).maxDf ≤ isizeMax :=
      Nat.le_trans (Nat.min_le_right _ _) (by decide)
    obtain ⟨s1, -, k1, k2⟩ := recvMany_clean ms.length (Receiver.newWithLimits x.mask maxDf maxMsg) hd (cursor bs) (cursor_clean bs)
    obtain ⟨s2, -, k3, -⟩ := recvMany_clean (ms.length + n) (Receiver.newWithLimits x.mask maxDf maxMsg) hd (cursor bs) (cursor_clean bs)
    rw [k1] at e1
    simp only [Prod.mk.injEq] at e1
    obtain ⟨e3, e4, rfl⟩ := e1
    rw [k3, recvManyBytes_add, e3, e4, ← k2, e2, recvManyBytes_end]

/-! ## `into_stream` -/

/-- The documentation of `into_stream` calls the two numbers it returns the capacity and the position of the buffer, in this
order (src/client/sync.rs:304-310). -/
def Documented (parts : Bytes × Nat × Nat) (unread : Bytes) : Prop := (parts.1.take parts.2.1).drop parts.2.2 = unread

/-- They come in the other order: read as documented, the unread bytes are lost whenever there are any. -/
theorem C73_refuted_into_stream (c : Client) (h : c.stream.WF) :
    ∃ d parts, c.intoStream = (d, some parts) ∧ (parts.1.take parts.2.2).drop parts.2.1 = c.stream.window ∧
      (Documented parts c.stream.window ↔ c.stream.window = []) := by
  refine ⟨_, _, rfl, rfl, ?_⟩
  unfold Documented
  have : (c.stream.buf.take c.stream.pos).drop c.stream.cap = [] := by
    apply List.drop_eq_nil_of_le
    rw [List.length_take]
    have := h.1
    omega
  show (c.stream.buf.take c.stream.pos).drop c.stream.cap = _ ↔ _
  rw [this]
  exact eq_comm

/-! ## Shutting down -/

/-- After the receiving side is shut down, receives give a prefix of the answers they would have given otherwise, and then report
the end of the stream for ever. Everything the client had already buffered and everything the operating system still hands out
(`t`) counts; nothing is invented or garbled. -/
theorem C73_shutdown_receiver (c : Client) (h : c.stream.WF) (hr : c.receiver.maxDf ≤ isizeMax) (hs : c.stream.inner.input.Clean)
    (t : Src) (ht : Src.Shut c.stream.inner.input t) (n : Nat) :
    (∃ k, k ≤ n ∧ ((c.shutdownReceiver t).run (List.replicate n .recvMessage)).1 =
      (c.run (List.replicate n .recvMessage)).1.take k ++ List.replicate (n - k) (.message (.err .noData))) ∧
    ((c.shutdownReceiver t).run (List.replicate n .recvMessage)).1 =
      (c.receiver.recvMany n (cursor (c.stream.window ++ t.flat))).1.map .message := by
  have hc := src_clean_of hs
  have hw : (c.shutdownReceiver t).stream.WF := h
  have hc' : (c.shutdownReceiver t).stream.src.Clean := src_clean_of (c := c.shutdownReceiver t) (shut_clean ht hs)
  have hf : (c.shutdownReceiver t).stream.src.flat = c.stream.window ++ t.flat := src_flat_parts (c.shutdownReceiver t)
  obtain ⟨x, hx⟩ := shut_flat ht
  have hfx : c.stream.src.flat = (c.stream.window ++ t.flat) ++ x := by rw [src_flat_parts, ← hx, List.append_assoc]
  rw [run_recvMany c h, run_recvMany _ hw]
  show (∃ k, k ≤ n ∧ (c.receiver.recvMany n _).1.map _ = _) ∧ (c.receiver.recvMany n _).1.map _ = _
  obtain ⟨s1, -, e1, -⟩ := recvMany_clean n c.receiver hr _ hc
  obtain ⟨s2, -, e2, -⟩ := recvMany_clean n c.receiver hr _ hc'
  obtain ⟨s3, -, e3, -⟩ := recvMany_clean n c.receiver hr _ (cursor_clean (c.stream.window ++ t.flat))
  rw [e1, e2, e3, cursor_flat, hf, hfx]
  refine ⟨?_, rfl⟩
  obtain ⟨k, hk, e⟩ := recvManyBytes_short n c.receiver (c.stream.window ++ t.flat) x
  exact ⟨k, hk, by rw [e]; simp⟩

theorem pairRun_shut (ops : List ClientOp) (p : Reader) (x : Sender) (w : Sink) (n : Nat) (hn : ops.length ≤ n) :
    (∀ r, OpRes.sent r ∈ (pairRun ops (p, ⟨w.shut n, x⟩)).1 → ∃ e, r = .err e) ∧
    (pairRun ops (p, ⟨w.shut n, x⟩)).2.2.stream.wire = w.wire := by
  induction ops generalizing p n with
  | nil => exact ⟨fun r hr => by simp [pairRun] at hr, rfl⟩
  | cons o ops ih =>
    simp only [List.length_cons] at hn
    cases o with
    | recvMessage =>
      obtain ⟨h1, h2⟩ := ih p.recvMessage.2 n (by omega)
      simp only [pairRun, pairStep, List.mem_cons, reduceCtorEq, false_or]
      exact ⟨h1, h2⟩
    | recvDataframe =>
      obtain ⟨h1, h2⟩ := ih p.recvDataframe.2 n (by omega)
      simp only [pairRun, pairStep, List.mem_cons, reduceCtorEq, false_or]
      exact ⟨h1, h2⟩
    | send v key =>
      obtain ⟨m, rfl⟩ := Nat.exists_eq_add_of_le' (show 1 ≤ n by omega)
      obtain ⟨⟨e, h1⟩, -, k, hk, h2⟩ := send_shut x v key w m
      obtain ⟨h3, h4⟩ := ih p k (by omega)
      simp only [pairRun, pairStep, Writer.send, List.mem_cons, OpRes.sent.injEq, h1, h2]
      refine ⟨fun r hr => ?_, h4⟩
      rcases hr with rfl | hr
      · exact ⟨e, rfl⟩
      · exact h3 r hr

/-- After the sending side is shut down, whatever calls follow, no send succeeds and nothing more goes out; receives answer as
they would have. -/
theorem C73_shutdown_sender (c : Client) (ops : List ClientOp) (n : Nat) (hn : ops.length ≤ n) :
    (∀ r, OpRes.sent r ∈ ((c.shutdownSender n).run ops).1 → ∃ e, r = .err e) ∧
    ((c.shutdownSender n).run ops).2.stream.inner.output.wire = c.stream.inner.output.wire ∧
    ((c.shutdownSender n).run ops).1.filter OpRes.isRead = (c.run ops).1.filter OpRes.isRead := by
  obtain ⟨h1, h2⟩ := C30_split_equivalent (c.shutdownSender n) _ (.ok ()) rfl ops
  obtain ⟨k1, -⟩ := C30_split_equivalent c _ (.ok ()) rfl ops
  obtain ⟨g1, g2⟩ := pairRun_shut ops (halves c).1 c.sender c.stream.inner.output n hn
  rw [split_ok] at h2
  simp only [Except.ok.injEq] at h2
  rw [← h1, ← k1]
  refine ⟨g1, ?_, ?_⟩
  · have := congrArg (fun p => p.2.stream.wire) h2
    exact this.trans g2
  · have a := (C30_reads_independent ops (halves (c.shutdownSender n)) (halves c).2).1
    have b := (C30_reads_independent ops (halves c) (halves c).2).1
    exact a.trans b.symm

/-- After both sides are shut down, whatever calls follow: no send succeeds and nothing more goes out, whatever was to come; receives
give a prefix of the answers they would have given, and then report the end of the stream for ever, also between sends. -/
theorem C73_shutdown (c : Client) (h : c.stream.WF) (hr : c.receiver.maxDf ≤ isizeMax) (hs : c.stream.inner.input.Clean)
    (t : Src) (ht : Src.Shut c.stream.inner.input t) (ops : List ClientOp) (n : Nat) (hn : ops.length ≤ n) :
    (∀ r, OpRes.sent r ∈ ((c.shutdown t n).run ops).1 → ∃ e, r = .err e) ∧
    ((c.shutdown t n).run ops).2.stream.inner.output.wire = c.stream.inner.output.wire ∧
    ((c.shutdown t n).run ops).1.filter OpRes.isRead = ((c.shutdownReceiver t).run ops).1.filter OpRes.isRead ∧
    (∀ m, ops = List.replicate m .recvMessage → ∃ k, k ≤ m ∧ ((c.shutdown t n).run ops).1 =
      (c.run ops).1.take k ++ List.replicate (m - k) (.message (.err .noData))) := by
  obtain ⟨h1, h2, h3⟩ := C73_shutdown_sender (c.shutdownReceiver t) ops n hn
  refine ⟨h1, h2, h3, ?_⟩
  rintro m rfl
  obtain ⟨⟨k, hk, e⟩, -⟩ := C73_shutdown_receiver c h hr hs t ht m
  refine ⟨k, hk, ?_⟩
  rw [← e]
  have hw : (c.shutdownReceiver t).stream.WF := h
  have hw' : (c.shutdown t n).stream.WF := h
  rw [run_recvMany _ hw, run_recvMany _ hw']
  rfl

/-! ## The hypotheses can be met -/

/-- A client with a ping in its buffer, half a text message received, and the rest to come. -/
example : sampleClient.stream.WF ∧ sampleClient.receiver.maxDf ≤ isizeMax ∧ sampleClient.stream.inner.input.Clean ∧
    sampleClient.stream.window ++ sampleClient.stream.inner.input.flat = [0x89, 0] ++ [0x80, 1, 0x63] ∧
    Src.Shut sampleClient.stream.inner.input [.chunk [0x80]] ∧
    ((sampleClient.run (List.replicate 3 .recvMessage)).1.length = 3) := by
  refine ⟨⟨by decide, by decide⟩, by decide, ?_, by decide, .within _ _ 1 (by decide), rfl⟩
  simp [sampleClient, Src.Clean]

/-- Reading the ping raw leaves the rest of the text to `recv_message`. -/
example : (sampleClient.rawReadExact 2).1.toOption = some [0x89, 0] ∧
    ((sampleClient.rawReadExact 2).2.recvMessage).1 = .ok (.text [0x61, 0x63]) := by decide +kernel

/-- After `shutdown_receiver` with one more byte in the operating system's hands, the buffered ping still comes, then the end. -/
example : ((sampleClient.shutdownReceiver [.chunk [0x80]]).recvMessage).1 = .ok (.ping []) ∧
    (((sampleClient.shutdownReceiver [.chunk [0x80]]).recvMessage).2.recvMessage).1 = .err .noData := by decide +kernel

/-- After `shutdown_sender` a send fails and nothing goes out. -/
example : ((sampleClient.shutdownSender 1).send (OwnedMsg.text [0x78]).view ⟨0, 0, 0, 0⟩).1 = .err (.io .other) ∧
    ((sampleClient.shutdownSender 1).send (OwnedMsg.text [0x78]).view ⟨0, 0, 0, 0⟩).2.stream.inner.output.wire = [] := by decide +kernel

/-- Read as documented, `into_stream` loses the buffered ping. -/
example : sampleClient.stream.window = [0x89, 0] ∧ ¬ Documented ([0, 0x89, 0, 0, 0, 0], 1, 3) [0x89, 0] ∧
    sampleClient.intoStream.2 = some ([0, 0x89, 0, 0, 0, 0], 1, 3) := by
  refine ⟨by decide, by simp [Documented], by decide⟩

/-- The hypotheses of the transformation theorem: two messages, transformed by reversing the bytes. -/
example : (∀ p ∈ [(OwnedMsg.text [72, 105], (⟨1, 2, 3, 4⟩ : Key4)), (.ping [7], ⟨5, 6, 7, 8⟩)],
      p.1.spec.Sendable (min 1000 u32Max)) ∧ (∀ bs : Bytes, bs.reverse.reverse = bs) ∧
    ((Sender.mk false).sendMany (outgoing [(OwnedMsg.text [72, 105], ⟨1, 2, 3, 4⟩), (.ping [7], ⟨5, 6, 7, 8⟩)]) ⟨[], []⟩).2.wire =
      [0x81, 2, 72, 105, 0x89, 1, 7] := by
  refine ⟨?_, fun bs => List.reverse_reverse bs, by decide +kernel⟩
  intro p hp
  rcases List.mem_cons.mp hp with rfl | hp
  · exact ⟨isUtf8_ascii (by decide), by decide⟩
  · rcases List.mem_cons.mp hp with rfl | hp
    · exact ⟨by decide, by decide⟩
    · simp at hp

/-! Concrete cases of the theorems above. -/

theorem sampleClient_clean : sampleClient.stream.inner.input.Clean := by simp [sampleClient, Src.Clean]
example := C73_in_turn sampleClient ⟨by decide, by decide⟩
example := C73_read_then_receive sampleClient ⟨by decide, by decide⟩ (by decide) sampleClient_clean [0x89, 0] [0x80, 1, 0x63] (by decide)
example := fun key => C73_write_pattern sampleClient (OwnedMsg.text [0x78]).view key _ rfl
example := C73_read_pattern sampleClient ⟨by decide, by decide⟩ (by decide) sampleClient_clean _ rfl
example := C73_transformed sampleClient { sampleClient with stream := BufReader.new ⟨[.chunk [7, 1, 0x89, 105], .chunk [72, 2, 0x81]], ⟨[], []⟩⟩ } ⟨false⟩
  [(OwnedMsg.text [72, 105], ⟨1, 2, 3, 4⟩), (.ping [7], ⟨5, 6, 7, 8⟩)] 1000 1000
  (by
    intro p hp
    simp only [List.mem_cons, List.not_mem_nil, or_false] at hp
    rcases hp with rfl | rfl
    · exact ⟨isUtf8_ascii (by decide), by decide⟩
    · exact ⟨by decide, by decide⟩)
  List.reverse List.reverse List.reverse_reverse ((ok_of_isOk (by decide +kernel)).elim fun _ h => h) (by simp [Src.Clean, BufReader.new, BufReader.withCapacity]) (by decide +kernel)
example := C73_refuted_into_stream sampleClient ⟨by decide, by decide⟩
example := C73_shutdown_receiver sampleClient ⟨by decide, by decide⟩ (by decide) sampleClient_clean [.chunk [0x80]] (.within _ _ 1 (by decide))
example := fun key => C73_shutdown sampleClient ⟨by decide, by decide⟩ (by decide) sampleClient_clean [.chunk [0x80]] (.within _ _ 1 (by decide))
  [.recvMessage, .send (OwnedMsg.text [0x78]).view key, .recvMessage] 3 (Nat.le_refl 3)

end WS
