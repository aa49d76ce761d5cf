import Verif.Lemmas.Sound
/-!
# Properties of the frame layer: C01–C08, C10

The statements use the RFC predicate `Spec.IsFrame` and the observable behaviour of
senders and readers on transports (scripts).
-/

namespace WS
open Spec (IsFrame ControlOk)

/-- A frame used in the non-vacuity examples: a final text frame `"Hi"`. -/
def exFrame : DataFrame := ⟨true, false, false, false, .text, [72, 105]⟩
/-- A masking key used in examples. -/
def exKey : Key4 := ⟨1, 2, 3, 4⟩

/-! ## C01 -/

/-- C01: if a sender reports success, then — whatever the transport did in between — the bytes
added to the wire are the RFC layout of the frame, masked with the drawn key exactly if the
sender masks. Covers every implementor of the frame trait that keeps its contract. -/
theorem C01_sent_bytes_are_rfc_frame (x : Sender) (v : FrameView) (hv : v.Lawful)
    (hlen : v.payload.length < 2 ^ 63) (key : Key4) (w w' : Sink)
    (h : x.send v key w = (.ok (), w')) :
    ∃ bs, w'.wire = w.wire ++ bs ∧
      IsFrame v.spec (if x.mask then some key.toBytes else none) bs := by
  obtain ⟨bs, he, hw⟩ := writeTo_ok h
  refine ⟨bs, hw, ?_⟩
  have := (encode_isFrame hv (by rw [hv.size_eq]; exact hlen) he).1
  cases hm : x.mask <;> simpa [hm] using this

/-- A masked two-byte text frame over a transport that already carries a byte, takes one byte, is
interrupted, then takes the rest. -/
example : ∃ bs, ([5, 129, 130, 1, 2, 3, 4, 73, 107] : Bytes) = [5] ++ bs ∧
    IsFrame exFrame.view.spec (some exKey.toBytes) bs :=
  C01_sent_bytes_are_rfc_frame ⟨true⟩ exFrame.view exFrame.lawful (by decide) exKey
    ⟨[5], [.accept 1, .error .interrupted]⟩ ⟨[5, 129, 130, 1, 2, 3, 4, 73, 107], []⟩ (by decide +kernel)

/-- C01 for the crate's own frame and message types, which keep the trait's contract. -/
theorem C01_crate_types_lawful :
    (∀ f : DataFrame, f.view.Lawful ∧ f.view.spec = f.spec) ∧ (∀ m : Msg, m.view.Lawful) ∧
    (∀ m : OwnedMsg, m.view.Lawful) :=
  ⟨fun f => ⟨f.lawful, rfl⟩, Msg.lawful, OwnedMsg.lawful⟩

/-- C01 for a frame made by `DataFrame::new`: the final bit and the opcode are those asked for and the reserved bits are clear. -/
theorem C01_new_dataframe (x : Sender) (fin : Bool) (op : Opcode) (data : Bytes) (hlen : data.length < 2 ^ 63) (key : Key4) (w w' : Sink)
    (h : x.send (DataFrame.new fin op data).view key w = (.ok (), w')) :
    ∃ bs, w'.wire = w.wire ++ bs ∧ IsFrame ⟨fin, false, false, false, op.toU8.toNat, data⟩ (if x.mask then some key.toBytes else none) bs :=
  C01_sent_bytes_are_rfc_frame x _ (DataFrame.new fin op data).lawful hlen key w w' h

example : Sender.send ⟨false⟩ (DataFrame.new false .binary [1, 2]).view exKey ⟨[], []⟩ = (.ok (), ⟨[0x02, 0x02, 1, 2], []⟩) := by
  decide +kernel

/-- C01: two frames with the same wire bytes (under known masking) are the same frame, i.e. the
layout predicate is not satisfied by several readings. -/
theorem C01_layout_unambiguous (f g : DataFrame) (k k' : Option Key4) (bs : Bytes)
    (hf : IsFrame f.spec (k.map Key4.toBytes) bs) (hg : IsFrame g.spec (k'.map Key4.toBytes) bs)
    (hcf : ControlOk f.spec) (hcg : ControlOk g.spec) : f = g := by
  have hm : k.isSome = k'.isSome := by
    obtain ⟨b0, b1, l7, ext, body, h1, -, -, h2, hl, -⟩ := hf
    obtain ⟨c0, c1, m7, ext', body', h1', -, -, h2', hl', -⟩ := hg
    have e : b1 = c1 := by
      have := h1.symm.trans h1'
      simp only [List.cons_append, List.cons.injEq] at this
      exact this.2.1
    subst e
    have hl := (lenOk_of_form hl).lt
    have hl' := (lenOk_of_form hl').lt
    cases k <;> cases k' <;> simp [Spec.bit] at * <;> omega
  have h63 : ∀ (f : DataFrame) (k : Option (List UInt8)), IsFrame f.spec k bs → f.data.length < 2 ^ 63 := by
    rintro f k ⟨b0, b1, l7, ext, body, h1, -, -, h2, hl, -⟩
    have : f.data.length = f.spec.payload.length := rfl
    cases hl <;> omega
  have h1 := (parseFrame_ok_iff (m := k.isSome) (lim := 2 ^ 63 - 1) (by omega) (big := .noData) (bs := bs)
    (rest := []) (f := f)).mpr ⟨by have := h63 f _ hf; omega, hcf, k, bs, by simp, rfl, hf⟩
  have h2 := (parseFrame_ok_iff (m := k.isSome) (lim := 2 ^ 63 - 1) (by omega) (big := .noData) (bs := bs)
    (rest := []) (f := g)).mpr ⟨by have := h63 g _ hg; omega, hcg, k', bs, by simp, hm.symm, hg⟩
  rw [h1] at h2
  simpa using h2

/-- The hypotheses of C01 hold for a masked two-byte text frame over a transport that takes one
byte, is interrupted, then takes the rest. -/
example : (Sender.mk true).send exFrame.view exKey ⟨[], [.accept 1, .error .interrupted]⟩ =
    (.ok (), ⟨[129, 130, 1, 2, 3, 4, 73, 107], []⟩) := by decide +kernel

/-! ## C02 -/

/-- C02 (blocking, with limit): reading what was sent gives the frame back and leaves the bytes
behind it unread, for every segmentation of the stream. -/
theorem C02_roundtrip_blocking (x : Sender) (f : DataFrame) (hc : ControlOk f.spec)
    (key : Key4) (w : Sink) (h : x.send f.view key ⟨[], []⟩ = (.ok (), w))
    (limit : Nat) (hlim : limit < 2 ^ 63) (hf : f.data.length ≤ limit)
    (s : Src) (hs : s.Clean) (rest : Bytes) (hflat : s.flat = w.wire ++ rest) :
    ∃ s', readDataframeWithLimit x.mask limit s = (.ok f, s') ∧ s'.flat = rest := by
  obtain ⟨bs, hw, hfr⟩ := C01_sent_bytes_are_rfc_frame x f.view f.lawful
    (by show f.data.length < _; omega) key _ _ h
  simp only [List.nil_append] at hw
  have hp : parseFrame x.mask limit (.io .invalidData) s.flat = .ok f rest := by
    rw [parseFrame_ok_iff hlim]
    refine ⟨hf, hc, if x.mask then some key else none, bs, by rw [hflat, hw], by cases x.mask <;> rfl, ?_⟩
    have hfr' : IsFrame f.spec _ bs := hfr
    cases hm : x.mask <;> simpa [hm] using hfr'
  have hii : isizeMax = 2 ^ 63 - 1 := rfl
  obtain ⟨s', hs', h'⟩ := refines_frame x.mask limit (by omega) s hs
  rw [hp] at h'
  exact ⟨s', h'⟩

/-- The stream is cut inside the header and interrupted, and a byte of the next frame follows. -/
example : ∃ s', readDataframeWithLimit true 2
      [.chunk [129], .error .interrupted, .chunk [130, 1, 2, 3, 4, 73, 107, 99]] = (.ok exFrame, s') ∧
    s'.flat = [99] :=
  C02_roundtrip_blocking ⟨true⟩ exFrame (by intro h; revert h; decide) exKey
    ⟨[129, 130, 1, 2, 3, 4, 73, 107], []⟩ (by decide +kernel) 2 (by decide) (by decide)
    [.chunk [129], .error .interrupted, .chunk [130, 1, 2, 3, 4, 73, 107, 99]] (by simp [Src.Clean]) [99] rfl

/-- C02 (blocking, without limit). -/
theorem C02_roundtrip_blocking_unlimited (x : Sender) (f : DataFrame) (hc : ControlOk f.spec)
    (hlen : f.data.length < 2 ^ 63) (key : Key4) (w : Sink)
    (h : x.send f.view key ⟨[], []⟩ = (.ok (), w))
    (s : Src) (hs : s.Clean) (rest : Bytes) (hflat : s.flat = w.wire ++ rest) :
    ∃ s', readDataframe x.mask s = (.ok f, s') ∧ s'.flat = rest := by
  have hii : isizeMax = 2 ^ 63 - 1 := rfl
  obtain ⟨s', h1, h2⟩ := C02_roundtrip_blocking x f hc key w h isizeMax (by omega) (by omega) s hs rest hflat
  refine ⟨s', ?_, h2⟩
  rw [readDataframe_eq]
  split
  · next hd s1 hh =>
    rw [if_neg, h1]
    intro hbig
    unfold readDataframeWithLimit at h1
    rw [rd_bind_apply, hh] at h1
    simp [hbig, Rd.fail] at h1
  · exact h1

example : ∃ s', readDataframe true [.chunk [129], .chunk [130, 1, 2, 3, 4, 73, 107, 99]] = (.ok exFrame, s') ∧
    s'.flat = [99] :=
  C02_roundtrip_blocking_unlimited ⟨true⟩ exFrame (by intro h; revert h; decide) (by decide) exKey
    ⟨[129, 130, 1, 2, 3, 4, 73, 107], []⟩ (by decide +kernel)
    [.chunk [129], .chunk [130, 1, 2, 3, 4, 73, 107, 99]] (by simp [Src.Clean]) [99] rfl

theorem DfCodec.decode_some_iff (ctx : Context) (maxDf : Nat) (src rest : Bytes) (f : DataFrame) :
    (DfCodec.newWithLimits ctx maxDf).decode src = (.ok (some f), rest) ↔
    parseFrame (decide (ctx = .server)) (min maxDf u32Max) bigErr src = .ok f rest := by
  have := DfCodec.decode_eq (DfCodec.newWithLimits ctx maxDf)
    (by simp [DfCodec.newWithLimits]; omega) src
  simp only [DfCodec.newWithLimits] at this ⊢
  cases hp : parseFrame (decide (ctx = .server)) (min maxDf u32Max) bigErr src with
  | ok g r => rw [hp] at this; rw [this]; simp
  | err e r => rw [hp] at this; rw [this]; simp
  | more => rw [hp] at this; rw [this]; simp

/-- C02 (async): decoding a buffer that starts with what was sent gives the frame back and leaves
the rest in the buffer. -/
theorem C02_roundtrip_async (x : Sender) (f : DataFrame) (hc : ControlOk f.spec)
    (key : Key4) (w : Sink) (h : x.send f.view key ⟨[], []⟩ = (.ok (), w))
    (ctx : Context) (hctx : x.mask = decide (ctx = .server)) (maxDf : Nat)
    (hf : f.data.length ≤ min maxDf u32Max) (rest : Bytes) :
    (DfCodec.newWithLimits ctx maxDf).decode (w.wire ++ rest) = (.ok (some f), rest) := by
  have hu : u32Max = 4294967295 := rfl
  obtain ⟨bs, hw, hfr⟩ := C01_sent_bytes_are_rfc_frame x f.view f.lawful
    (by show f.data.length < _; omega) key _ _ h
  simp only [List.nil_append] at hw
  rw [DfCodec.decode_some_iff, ← hctx, parseFrame_ok_iff (by omega)]
  refine ⟨hf, hc, if x.mask then some key else none, bs, by rw [hw], by cases x.mask <;> rfl, ?_⟩
  have hfr' : IsFrame f.spec _ bs := hfr
  cases hm : x.mask <;> simpa [hm] using hfr'

example : (DfCodec.newWithLimits .server 2).decode [129, 130, 1, 2, 3, 4, 73, 107, 99] = (.ok (some exFrame), [99]) :=
  C02_roundtrip_async ⟨true⟩ exFrame (by intro h; revert h; decide) exKey
    ⟨[129, 130, 1, 2, 3, 4, 73, 107], []⟩ (by decide +kernel) .server rfl 2 (by decide) [99]

/-- The hypothesis on control frames cannot be dropped: a non-final ping can be sent, and every
reader refuses it. -/
theorem C02_fragmented_control_is_sent_but_refused :
    ∃ (f : DataFrame) (key : Key4) (w : Sink), (Sender.mk true).send f.view key ⟨[], []⟩ = (.ok (), w) ∧
      (readDataframe true [.chunk w.wire]).1 = .err (.protocol "Illegal fragmented control frame") ∧
      (DfCodec.new .server).decode w.wire = (.err (.protocol "Illegal fragmented control frame"), w.wire) :=
  ⟨⟨false, false, false, false, .ping, []⟩, exKey, ⟨[9, 128, 1, 2, 3, 4], []⟩, by decide +kernel⟩

/-- The hypotheses of C02 hold for a concrete frame, and the stream may be cut anywhere. -/
example : ControlOk exFrame.spec ∧
    (Sender.mk true).send exFrame.view exKey ⟨[], []⟩ =
      (.ok (), ⟨[129, 130, 1, 2, 3, 4, 73, 107], []⟩) ∧
    Src.Clean [.chunk [129], .error .interrupted, .chunk [130, 1, 2, 3, 4, 73, 107, 99]] := by
  refine ⟨by intro h; revert h; decide, by decide +kernel, by simp [Src.Clean]⟩

/-! ## C03 -/

/-- C03 (blocking): if reading a frame succeeds on *any* transport (also one that fails later), the
bytes consumed are exactly the RFC layout of the returned frame with the expected masking, control
frames are final and short, and the limit is respected. -/
theorem C03_reader_sound (m : Bool) (limit : Nat) (hlim : limit < 2 ^ 63) (s s' : Src) (f : DataFrame)
    (h : readDataframeWithLimit m limit s = (.ok f, s')) :
    ∃ (key : Option Key4) (pre : Bytes), s.flat = pre ++ s'.flat ∧ key.isSome = m ∧
      IsFrame f.spec (key.map Key4.toBytes) pre ∧ ControlOk f.spec ∧ f.data.length ≤ limit := by
  have := sound_frame m limit .noData s s' f h
  rw [parseFrame_ok_iff hlim] at this
  obtain ⟨h1, h2, key, pre, h3, h4, h5⟩ := this
  exact ⟨key, pre, h3, h4, h5, h2, h1⟩

/-- The transport fails after the frame; what was read before is still a frame. -/
example : ∃ (key : Option Key4) (pre : Bytes), ([129, 130, 1, 2, 3, 4, 73, 107, 7] : Bytes) = pre ++ [7] ∧
    key.isSome = true ∧ IsFrame exFrame.spec (key.map Key4.toBytes) pre ∧ ControlOk exFrame.spec ∧
    exFrame.data.length ≤ 10 :=
  C03_reader_sound true 10 (by decide) [.chunk [129, 130, 1, 2, 3, 4], .chunk [73, 107, 7], .error .connectionReset]
    [.chunk [7], .error .connectionReset] exFrame (by decide +kernel)

/-- C03 for the reader without a limit. -/
theorem C03_reader_sound_unlimited (m : Bool) (s s' : Src) (f : DataFrame)
    (h : readDataframe m s = (.ok f, s')) :
    ∃ (key : Option Key4) (pre : Bytes), s.flat = pre ++ s'.flat ∧ key.isSome = m ∧
      IsFrame f.spec (key.map Key4.toBytes) pre ∧ ControlOk f.spec := by
  rw [readDataframe_eq] at h
  have hii : isizeMax = 2 ^ 63 - 1 := rfl
  split at h
  · split at h
    · simp at h
    · obtain ⟨k, p, h1, h2, h3, h4, -⟩ := C03_reader_sound m isizeMax (by omega) s s' f h
      exact ⟨k, p, h1, h2, h3, h4⟩
  · obtain ⟨k, p, h1, h2, h3, h4, -⟩ := C03_reader_sound m isizeMax (by omega) s s' f h
    exact ⟨k, p, h1, h2, h3, h4⟩

example := C03_reader_sound_unlimited false [.chunk [129], .chunk [2, 72, 105, 7]] [.chunk [7]] exFrame (by decide +kernel)

/-- C03 (async), both directions: the decoder yields a frame exactly if the buffer starts with the
RFC layout of a legal frame within the limit, masked as the role demands. -/
theorem C03_decoder_exact (ctx : Context) (maxDf : Nat) (src rest : Bytes) (f : DataFrame) :
    (DfCodec.newWithLimits ctx maxDf).decode src = (.ok (some f), rest) ↔
      f.data.length ≤ min maxDf u32Max ∧ ControlOk f.spec ∧
      ∃ (key : Option Key4) (pre : Bytes), src = pre ++ rest ∧ (key.isSome = true ↔ ctx = .server) ∧
        IsFrame f.spec (key.map Key4.toBytes) pre := by
  have hu : u32Max = 4294967295 := rfl
  rw [DfCodec.decode_some_iff, parseFrame_ok_iff (by omega)]
  have e : ∀ b : Bool, (b = decide (ctx = Context.server)) ↔ (b = true ↔ ctx = .server) := by
    intro b; rw [Bool.eq_iff_iff, decide_eq_true_eq]
  simp only [e]

example : readDataframeWithLimit true 10 [.chunk [129, 130, 1, 2, 3, 4], .chunk [73, 107, 7]] =
    (.ok exFrame, [.chunk [7]]) := by decide +kernel

/-! ## C04 -/

/-- A frame start that the RFC forbids: a length form longer than necessary, a control frame
announcing more than 125 bytes, or a control frame without FIN. -/
def Malformed (bs : Bytes) : Prop :=
  ∃ (b0 b1 : UInt8) (rest : Bytes), bs = b0 :: b1 :: rest ∧
    ((∃ e t, rest = e ++ t ∧ e.length = 2 ∧ b1.toNat % 128 = 126 ∧ Spec.be e ≤ 125) ∨
     (∃ e t, rest = e ++ t ∧ e.length = 8 ∧ b1.toNat % 128 = 127 ∧ Spec.be e ≤ 65535) ∨
     (8 ≤ b0.toNat % 16 ∧ 126 ≤ b1.toNat % 128) ∨
     (8 ≤ b0.toNat % 16 ∧ b0.toNat < 128))

theorem parseHeader_malformed {bs : Bytes} (h : Malformed bs) (hd : Header) (rest : Bytes) :
    parseHeader bs ≠ .ok hd rest := by
  intro hp
  obtain ⟨b0, b1, ext, hbs, hl, -, -, ho, hc⟩ := parseHeader_ok_iff.mp hp
  obtain ⟨c0, c1, r, hbs', hcase⟩ := h
  rw [hbs'] at hbs
  simp only [List.cons_append, List.nil_append, List.append_assoc, List.cons.injEq] at hbs
  obtain ⟨rfl, rfl, rfl⟩ := hbs
  rw [ho, u8_and0F] at hc
  generalize c1.toNat % 128 = m at *
  generalize hd.len = len at *
  rcases hcase with ⟨e, t, he, hel, rfl, hv⟩ | ⟨e, t, he, hel, rfl, hv⟩ | ⟨h1, h2⟩ | ⟨h1, h2⟩
  · cases hl with
    | short h => omega
    | medium ext a b c d =>
      have := List.append_inj_left he (by omega)
      subst this; omega
  · cases hl with
    | short h => omega
    | long ext a b c =>
      have := List.append_inj_left he (by omega)
      subst this; omega
  · cases hl <;> (have := hc h1; omega)
  · have := hc h1; omega

/-- C04: on any transport, no reader ever returns a frame from a malformed start. -/
theorem C04_malformed_never_read (s : Src) (h : Malformed s.flat) (m : Bool) (limit : Nat) (f : DataFrame)
    (s' : Src) :
    readDataframeWithLimit m limit s ≠ (.ok f, s') ∧ readDataframe m s ≠ (.ok f, s') := by
  have key : ∀ limit, readDataframeWithLimit m limit s ≠ (.ok f, s') := by
    intro limit hr
    have := sound_frame m limit .noData s s' f hr
    unfold parseFrame at this
    rw [Ps.bind_ok_iff] at this
    obtain ⟨hd, mid, hp, -⟩ := this
    exact parseHeader_malformed h hd mid hp
  refine ⟨key limit, ?_⟩
  rw [readDataframe_eq]
  split
  · split
    · simp
    · exact key _
  · exact key _

/-- A text frame of five bytes whose length is written in the sixteen-bit form. -/
example := C04_malformed_never_read [.chunk [0x81, 126], .chunk [0, 5, 1, 2, 3, 4, 5]]
  ⟨0x81, 126, _, rfl, .inl ⟨[0, 5], [1, 2, 3, 4, 5], rfl, rfl, rfl, by decide⟩⟩ false 100

/-- C04 (async): the decoder never yields a frame from a malformed start, however much is appended. -/
theorem C04_malformed_never_decoded (src : Bytes) (h : Malformed src) (ctx : Context) (maxDf : Nat)
    (f : DataFrame) (more rest : Bytes) :
    (DfCodec.newWithLimits ctx maxDf).decode (src ++ more) ≠ (.ok (some f), rest) := by
  intro hd
  rw [DfCodec.decode_some_iff] at hd
  unfold parseFrame at hd
  rw [Ps.bind_ok_iff] at hd
  obtain ⟨hd', mid, hp, -⟩ := hd
  refine parseHeader_malformed ?_ hd' mid hp
  obtain ⟨b0, b1, r, rfl, hc⟩ := h
  refine ⟨b0, b1, r ++ more, by simp, ?_⟩
  rcases hc with ⟨e, t, rfl, h⟩ | ⟨e, t, rfl, h⟩ | h | h
  · exact .inl ⟨e, t ++ more, by simp, h⟩
  · exact .inr (.inl ⟨e, t ++ more, by simp, h⟩)
  · exact .inr (.inr (.inl h))
  · exact .inr (.inr (.inr h))

/-- A ping that is not final. -/
example := C04_malformed_never_decoded [0x09, 0] ⟨0x09, 0, _, rfl, .inr (.inr (.inr (by decide)))⟩ .client 100

theorem parseHeader_malformed_err {bs : Bytes} (h : Malformed bs) (hlen : 14 ≤ bs.length) :
    ∃ e rest, parseHeader bs = .err e rest := by
  cases hp : parseHeader bs with
  | ok hd rest => exact absurd hp (parseHeader_malformed h hd rest)
  | err e rest => exact ⟨e, rest, rfl⟩
  | more =>
    exfalso
    unfold parseHeader at hp
    match bs, hlen with
    | b0 :: b1 :: r, hlen =>
      simp only [Ps.bind_def, Ps.u8_cons] at hp
      have hr : 12 ≤ r.length := by simpa using hlen
      cases hl : parseLen b1 r with
      | more =>
        unfold parseLen at hl
        have h2 : Ps.take 2 r = .ok (r.take 2) (r.drop 2) := by unfold Ps.take; rw [if_pos (by omega)]
        have h8 : Ps.take 8 r = .ok (r.take 8) (r.drop 8) := by unfold Ps.take; rw [if_pos (by omega)]
        split at hl
        · simp at hl
        · split at hl
          · simp only [Ps.bind_def, h2, Ps.pure_apply] at hl
            split at hl <;> simp at hl
          · simp only [Ps.bind_def, h8, Ps.pure_apply] at hl
            split at hl <;> simp at hl
      | err e r' => simp [hl] at hp
      | ok n r' =>
        obtain ⟨ext, hlo, rfl⟩ := parseLen_ok_iff.mp hl
        have hel : ext.length ≤ 8 := by
          generalize b1.toNat % 128 = m at hlo
          cases hlo <;> simp_all
        simp only [hl] at hp
        split at hp
        · simp at hp
        · split at hp
          · simp at hp
          · have hr' : 4 ≤ r'.length := by
              simp only [List.length_append] at hr; omega
            match r', hr' with
            | a :: b :: c :: d :: r'', _ =>
              unfold parseMask at hp
              split at hp <;> simp [Ps.bind_def] at hp

/-- C04: once a whole header has arrived, a malformed start is answered with an error that names the
violation — never with "need more data". -/
theorem C04_malformed_is_an_error (s : Src) (hs : s.Clean) (h : Malformed s.flat) (hlen : 14 ≤ s.flat.length)
    (m : Bool) (limit : Nat) (hlim : limit < 2 ^ 63) (ctx : Context) (maxDf : Nat) :
    (∃ e, (e = .dataFrame "Invalid data frame length" ∨ e = .dataFrame "Control frame length too long" ∨
        e = .protocol "Illegal fragmented control frame") ∧
      (readDataframeWithLimit m limit s).1 = .err e ∧
      (DfCodec.newWithLimits ctx maxDf).decode s.flat = (.err e, s.flat)) := by
  obtain ⟨e, rest, hp⟩ := parseHeader_malformed_err h hlen
  have he := parseHeader_err hp
  refine ⟨e, he, ?_, ?_⟩
  · have hii : isizeMax = 2 ^ 63 - 1 := rfl
    obtain ⟨s', -, h'⟩ := refines_frame m limit (by omega) s hs
    have : parseFrame m limit (.io .invalidData) s.flat = .err e rest := by
      unfold parseFrame; rw [Ps.bind_def, hp]
    rw [this] at h'
    rw [h'.1]
  · have := DfCodec.decode_eq (DfCodec.newWithLimits ctx maxDf)
      (by simp [DfCodec.newWithLimits]; omega) s.flat
    have hpf : parseFrame (DfCodec.newWithLimits ctx maxDf).isServer (DfCodec.newWithLimits ctx maxDf).maxDf bigErr s.flat
        = .err e rest := by
      unfold parseFrame; rw [Ps.bind_def, hp]
    rw [hpf] at this
    rw [this, if_neg]
    rcases he with rfl | rfl | rfl <;> (unfold maskErr; split <;> simp)

/-- A ping announcing 126 bytes, cut after the first header byte. -/
example := C04_malformed_is_an_error [.chunk [0x89], .chunk [254, 0, 126, 1, 2, 3, 4, 0, 0, 0, 0, 0, 0]]
  (by simp [Src.Clean]) ⟨0x89, 254, _, rfl, .inr (.inr (.inl (by decide)))⟩ (by decide) true 100 (by decide) .server 100

example : Malformed [0x81, 126, 0, 5, 1, 2, 3, 4, 5] :=
  ⟨0x81, 126, _, rfl, .inl ⟨[0, 5], [1, 2, 3, 4, 5], rfl, rfl, rfl, by decide⟩⟩
example : Malformed [0x09, 0] := ⟨0x09, 0, _, rfl, .inr (.inr (.inr (by decide)))⟩

/-! ## C05 -/

/-- C05: masking is an involution, keeps the length, and XORs byte `i` with key byte `i mod 4`. -/
theorem C05_mask_data (k : Key4) (d : Bytes) :
    maskData k (maskData k d) = d ∧ (maskData k d).length = d.length ∧
    ∀ i b, d[i]? = some b → ∃ q, k.toBytes[i % 4]? = some q ∧ (maskData k d)[i]? = some (b ^^^ q) := by
  simp only [maskData_eq]
  refine ⟨maskFrom_maskFrom k 0 d, maskFrom_length k 0 d, fun i b hb => ?_⟩
  refine ⟨_, key_at_eq k i, ?_⟩
  rw [maskFrom_getElem?, hb]; simp

/-- C05: writing a payload through the masking writer (over a vector) in any pieces gives the masked
payload. -/
theorem C05_masker_any_split (k : Key4) (out : Bytes) (pieces : List Bytes) :
    ∃ pos, maskerWrites (Masker.new k ⟨out, []⟩) pieces =
      (.ok (), ⟨k, pos, ⟨out ++ maskData k pieces.flatten, []⟩⟩) := by
  rw [maskData_eq]
  exact ⟨_, maskerWrites_vec k 0 (by decide) out pieces⟩

/-- C05 limitation: over an endpoint that takes only part of a write, `write_all` on the masking
writer corrupts the payload (the position advances by the whole attempt). The crate itself only uses
it over a vector. -/
theorem C05_masker_short_write_corrupts :
    ∃ (k : Key4) (d : Bytes) (script : List WEv),
      (Masker.writeAll d (Masker.new k ⟨[], script⟩)).1.isOk = true ∧
      (Masker.writeAll d (Masker.new k ⟨[], script⟩)).2.out.wire ≠ maskData k d :=
  ⟨⟨1, 2, 3, 4⟩, [0, 0], [.accept 1], by decide +kernel⟩

example : maskData ⟨1, 2, 3, 4⟩ [0, 0, 0, 0, 0xFF] = [1, 2, 3, 4, 0xFE] := by decide +kernel

/-! ## C06 -/

/-- C06: a reader that expects masked (unmasked) frames never returns an unmasked (masked) one: the
mask bit, the top bit of the second byte consumed, always matches the expectation. -/
theorem C06_mask_bit_matches (m : Bool) (limit : Nat) (s s' : Src) (f : DataFrame)
    (h : readDataframeWithLimit m limit s = (.ok f, s') ∨ readDataframe m s = (.ok f, s')) :
    ∃ b0 b1 rest, s.flat = b0 :: b1 :: rest ∧ (m = true ↔ 128 ≤ b1.toNat) := by
  have key : ∀ limit, readDataframeWithLimit m limit s = (.ok f, s') →
      ∃ b0 b1 rest, s.flat = b0 :: b1 :: rest ∧ (m = true ↔ 128 ≤ b1.toNat) := by
    intro limit h
    have := sound_frame m limit .noData s s' f h
    unfold parseFrame at this
    rw [Ps.bind_ok_iff] at this
    obtain ⟨hd, mid, hp, h2⟩ := this
    obtain ⟨b0, b1, ext, hb, -, hm, hf, ho, -⟩ := parseHeader_ok_iff.mp hp
    refine ⟨b0, b1, _, by rw [hb]; simp; rfl, ?_⟩
    split at h2
    · simp at h2
    · rw [Ps.bind_ok_iff] at h2
      obtain ⟨data, mid', -, h3⟩ := h2
      unfold bodyPs at h3
      split at h3
      · next hbody =>
        have := (body_ok_iff hd b0 hf ho data m _).mp hbody
        rw [← this.1, hm]; simp
      · simp at h3
      · simp at h3
  rcases h with h | h
  · exact key limit h
  · rw [readDataframe_eq] at h
    split at h
    · split at h
      · simp at h
      · exact key _ h
    · exact key _ h

example := C06_mask_bit_matches true 10 [.chunk [129, 130, 1, 2, 3, 4], .chunk [73, 107, 7]] [.chunk [7]] exFrame
  (.inl (by decide +kernel))

theorem parseFrame_wrong_mask {m : Bool} {lim : Nat} (hlim : lim < 2 ^ 63) {big : WsErr} {f : DataFrame}
    {key : Option Key4} {pre rest : Bytes} (hf : IsFrame f.spec (key.map Key4.toBytes) pre)
    (hc : ControlOk f.spec) (hl : f.data.length ≤ lim) (hm : key.isSome ≠ m) :
    parseFrame m lim big (pre ++ rest) = .err (maskErr m) rest := by
  have hok := (parseFrame_ok_iff (m := key.isSome) hlim (big := big) (bs := pre ++ rest) (rest := rest)
    (f := f)).mpr ⟨hl, hc, key, pre, rfl, rfl, hf⟩
  unfold parseFrame at hok ⊢
  rw [Ps.bind_ok_iff] at hok
  obtain ⟨h, mid, hp, h2⟩ := hok
  rw [Ps.bind_def, hp]
  simp only
  split at h2
  · simp at h2
  · next hbig =>
    rw [if_neg hbig]
    rw [Ps.bind_ok_iff] at h2
    obtain ⟨data, mid', ht, hb⟩ := h2
    rw [Ps.bind_def, ht]
    simp only
    have hop := parseHeader_opcode hp
    unfold bodyPs at hb ⊢
    have hn := readDataframeBody_no_panic h hop data m
    cases hb1 : readDataframeBody h data key.isSome with
    | err e => rw [hb1] at hb; simp at hb
    | panic e => rw [hb1] at hb; simp at hb
    | ok g =>
      rw [hb1] at hb
      simp only [PRes.ok.injEq] at hb
      obtain ⟨rfl, rfl⟩ := hb
      cases hb2 : readDataframeBody h data m with
      | err e => simp [body_err hb2]
      | panic e => rw [hb2] at hn; simp at hn
      | ok g' =>
        exfalso
        obtain ⟨b0, b1, ext, -, -, -, hfl, ho, -⟩ := parseHeader_ok_iff.mp hp
        have e1 := ((body_ok_iff h b0 hfl ho data m g').mp hb2).1
        have e2 := ((body_ok_iff h b0 hfl ho data key.isSome g).mp hb1).1
        exact hm (by rw [← e2, e1])

/-- C06: a legal frame with the wrong mask direction is consumed and refused with the error for the
violated expectation, blocking and async, whatever follows. -/
theorem C06_wrong_direction_refused (f : DataFrame) (key : Option Key4) (pre : Bytes)
    (hf : IsFrame f.spec (key.map Key4.toBytes) pre) (hc : ControlOk f.spec) (m : Bool)
    (hm : key.isSome ≠ m) (rest : Bytes) :
    (∀ limit, limit < 2 ^ 63 → f.data.length ≤ limit → ∀ s : Src, s.Clean → s.flat = pre ++ rest →
      ∃ s', readDataframeWithLimit m limit s =
        (.err (.dataFrame (if m then "Expected masked data frame" else "Expected unmasked data frame")), s') ∧
        s'.flat = rest) ∧
    (∀ ctx maxDf, f.data.length ≤ min maxDf u32Max → m = decide (ctx = .server) →
      (DfCodec.newWithLimits ctx maxDf).decode (pre ++ rest) =
        (.err (.dataFrame (if m then "Expected masked data frame" else "Expected unmasked data frame")), rest)) := by
  have hme : WsErr.dataFrame (if m then "Expected masked data frame" else "Expected unmasked data frame") = maskErr m := by
    cases m <;> rfl
  rw [hme]
  constructor
  · intro limit hlim hl s hs hflat
    have hii : isizeMax = 2 ^ 63 - 1 := rfl
    obtain ⟨s', -, h'⟩ := refines_frame m limit (by omega) s hs
    rw [hflat, parseFrame_wrong_mask hlim hf hc hl hm] at h'
    exact ⟨s', h'⟩
  · intro ctx maxDf hl hctx
    have hu : u32Max = 4294967295 := rfl
    have := DfCodec.decode_eq (DfCodec.newWithLimits ctx maxDf)
      (by simp [DfCodec.newWithLimits]; omega) (pre ++ rest)
    have hp := parseFrame_wrong_mask (lim := min maxDf u32Max) (by omega) (big := bigErr) (rest := rest) hf hc hl hm
    simp only [DfCodec.newWithLimits, ← hctx] at this ⊢
    rw [hp] at this
    simpa using this

example : (readDataframeWithLimit true 10 [.chunk [129, 2, 72, 105]]).1 =
    .err (.dataFrame "Expected masked data frame") := by decide +kernel

/-! ## C07 -/

/-- C07: the predicted size is the number of bytes produced, for every frame-like object that keeps
the trait's contract (data frames, borrowed and owned messages). -/
theorem C07_size_exact (v : FrameView) (hv : v.Lawful) (key : Option Key4) (bs : Bytes)
    (h : v.encode key = .ok bs) : v.frameSize key.isSome = bs.length :=
  (frameSize_eq hv h).symm

/-- A masked frame of 126 bytes takes 2 + 2 + 4 + 126. -/
example : (DataFrame.new true .binary (List.replicate 126 7)).view.frameSize true = 134 := by decide +kernel
example := C07_size_exact exFrame.view exFrame.lawful (some exKey) [129, 130, 1, 2, 3, 4, 73, 107] (by decide +kernel)

/-- C07: the sizes in closed form. -/
theorem C07_size_formula (m : OwnedMsg) (masked : Bool) :
    m.view.frameSize masked = m.view.payload.length
      + (if m.view.payload.length ≤ 125 then 2 else if m.view.payload.length ≤ 65535 then 4 else 10)
      + (if masked then 4 else 0) := by
  unfold FrameView.frameSize
  rw [m.lawful.size_eq]
  split
  · omega
  · split <;> omega

/-- C07: encoding into the async output buffer never fails for lack of room; it appends exactly the
serialised bytes to whatever the buffer held, whatever its spare capacity, and fails (leaving the
contents alone) exactly if the frame itself cannot be serialised. -/
theorem C07_encode_into_buffer (isServer : Bool) (v : FrameView) (hv : v.Lawful) (key : Key4) (extra : Nat)
    (dst : BytesMut) (hd : dst.WF) :
    match v.encode (if isServer then none else some key) with
    | .ok bs => ∃ cap, encodeInto isServer v key extra dst = (.ok (), ⟨dst.data ++ bs, cap⟩) ∧
        (dst.data ++ bs).length ≤ cap
    | .err e => ∃ cap, encodeInto isServer v key extra dst = (.err e, ⟨dst.data, cap⟩)
    | .panic _ => False := by
  have hk : (if (!isServer) = true then some key else none) = (if isServer then none else some key) := by
    cases isServer <;> rfl
  have hsome : (if isServer then none else some key : Option Key4).isSome = !isServer := by
    cases isServer <;> rfl
  unfold encodeInto
  simp only [hk]
  have hdd : ∀ n, (if n > dst.remainingMut then dst.reserve n extra else dst).data = dst.data := by
    intro n; unfold BytesMut.reserve; split
    · split <;> rfl
    · rfl
  cases he : v.encode (if isServer then none else some key) with
  | panic m => have := encode_not_panic (v := v) (if isServer then none else some key); rw [he] at this; simp at this
  | err e => exact ⟨_, by simp only; rw [← hdd (v.frameSize !isServer)]⟩
  | ok bs =>
    simp only
    have hs := C07_size_exact v hv _ bs he
    rw [hsome] at hs
    rw [hs]
    have hroom : bs.length ≤ (if bs.length > dst.remainingMut then dst.reserve bs.length extra else dst).remainingMut ∧
        (if bs.length > dst.remainingMut then dst.reserve bs.length extra else dst).WF := by
      split
      · next hgt =>
        unfold BytesMut.reserve
        rw [if_neg (by omega)]
        simp only [BytesMut.remainingMut, BytesMut.WF]; omega
      · exact ⟨by omega, hd⟩
    have hd1 := hdd bs.length
    generalize (if bs.length > dst.remainingMut then dst.reserve bs.length extra else dst) = d at *
    obtain ⟨hr, hwf⟩ := hroom
    refine ⟨d.cap, ?_, ?_⟩
    · have hw : d.writeAll bs = (.ok (), ⟨dst.data ++ bs, d.cap⟩) := by
        unfold BytesMut.writeAll
        by_cases hn : bs = []
        · subst hn; simp [← hd1]
        · rw [if_neg hn]
          simp [BytesMut.write, Nat.min_eq_right hr, Nat.min_eq_left hr, hd1]
      rw [hw]
    · rw [List.length_append]
      unfold BytesMut.remainingMut BytesMut.WF at *
      rw [hd1] at *
      omega

example : encodeInto true exFrame.view exKey 0 ⟨[9], 1⟩ = (.ok (), ⟨[9, 129, 2, 72, 105], 5⟩) := by
  decide +kernel

/-! ## C08 -/

/-- C08: a send is refused because of the frame exactly if its opcode exceeds 15 or it is a control
frame with more than 125 payload bytes; then the transport is not touched at all. Any other
outcome is success or a transport error. -/
theorem C08_refused_send_writes_nothing (x : Sender) (v : FrameView) (hv : v.Lawful) (key : Key4) (w : Sink) :
    (if v.opcode.toNat > 15 ∨ (8 ≤ v.opcode.toNat ∧ 125 < v.payload.length) then
      ∃ msg, x.send v key w = (.err (.dataFrame msg), w)
    else ∃ bs, v.encode (if x.mask then some key else none) = .ok bs ∧
      ((∃ w', x.send v key w = (.ok (), w')) ∨ ∃ k w', x.send v key w = (.err (.ofIo k), w'))) := by
  have h := encode_err_iff (v := v) (if x.mask then some key else none)
  rw [hv.size_eq] at h
  split
  · next hc =>
    obtain ⟨e, he⟩ := h.mpr (by omega)
    have : ∃ msg, e = .dataFrame msg := by
      generalize (if x.mask then some key else none) = k at he
      rw [encode_eq] at he
      cases hw : writeHeader (v.header k) with
      | ok b => rw [hw] at he; simp [Res.bind] at he
      | panic b => rw [hw] at he; simp [Res.bind] at he
      | err e' =>
        rw [hw] at he
        simp only [Res.bind, Res.err.injEq] at he
        subst he
        unfold writeHeader at hw
        split at hw
        · simp only [Res.err.injEq] at hw; exact ⟨_, hw.symm⟩
        · split at hw
          · simp only [Res.err.injEq] at hw; exact ⟨_, hw.symm⟩
          · simp at hw
    obtain ⟨msg, rfl⟩ := this
    exact ⟨msg, by unfold Sender.send FrameView.writeTo; rw [he]⟩
  · next hc =>
    have hn := encode_not_panic (v := v) (if x.mask then some key else none)
    cases he : v.encode (if x.mask then some key else none) with
    | err e => have := h.mp ⟨e, he⟩; omega
    | panic m => rw [he] at hn; simp at hn
    | ok bs =>
      refine ⟨bs, rfl, ?_⟩
      unfold Sender.send FrameView.writeTo
      rw [he]
      simp only
      cases w.writeAll bs with
      | mk r w' =>
        cases r with
        | ok u => exact .inl ⟨w', rfl⟩
        | error k => exact .inr ⟨k, w', rfl⟩

/-- A ping of any content, so also one of 126 bytes, over a transport that takes three bytes at first. -/
example (d : Bytes) := C08_refused_send_writes_nothing ⟨true⟩ (OwnedMsg.ping d).view (OwnedMsg.lawful _) exKey
  ⟨[5], [.accept 3]⟩

/-- C08 at the message level: the only messages the library refuses to send are control messages with
more than 125 bytes of payload (status code included). -/
theorem C08_refused_messages (x : Sender) (m : OwnedMsg) (key : Key4) (w : Sink) :
    ((m.isControl = true ∧ 125 < m.view.payload.length) → ∃ msg, x.send m.view key w = (.err (.dataFrame msg), w)) ∧
    (¬ (m.isControl = true ∧ 125 < m.view.payload.length) → ∃ w', x.send m.view key ⟨w.wire, []⟩ = (.ok (), w')) := by
  have hop : m.view.opcode.toNat ≤ 15 ∧ (8 ≤ m.view.opcode.toNat ↔ m.isControl = true) := by
    cases m <;> simp only [OwnedMsg.view, OwnedMsg.isControl] <;> decide
  have h := C08_refused_send_writes_nothing x m.view m.lawful key w
  constructor
  · rintro ⟨h1, h2⟩
    rw [if_pos (.inr ⟨hop.2.mpr h1, h2⟩)] at h
    exact h
  · intro hn
    rw [if_neg (by rintro (h1 | ⟨h1, h2⟩); omega; exact hn ⟨hop.2.mp h1, h2⟩)] at h
    obtain ⟨bs, he, -⟩ := h
    unfold Sender.send FrameView.writeTo
    rw [he]
    simp only [writeAll_vec]
    exact ⟨_, rfl⟩

example : (Sender.mk false).send (OwnedMsg.ping (List.replicate 126 0)).view exKey ⟨[5], [.accept 3]⟩ =
    (.err (.dataFrame "Control frame length too long"), ⟨[5], [.accept 3]⟩) := by decide +kernel

/-! ## C10 -/

/-- C10: on any transport, no frame over the limit is returned. -/
theorem C10_limit_respected (m : Bool) (limit : Nat) (hlim : limit < 2 ^ 63) (s s' : Src) (f : DataFrame)
    (h : readDataframeWithLimit m limit s = (.ok f, s')) : f.data.length ≤ limit :=
  let ⟨_, _, _, _, _, _, h⟩ := C03_reader_sound m limit hlim s s' f h
  h

/-- A frame of exactly the limit. -/
example := C10_limit_respected true 2 (by decide) [.chunk [129, 130, 1, 2, 3, 4], .chunk [73, 107, 7]] [.chunk [7]] exFrame
  (by decide +kernel)

theorem parseFrame_too_big {m : Bool} {lim : Nat} {big : WsErr} {f : DataFrame}
    {key : Option Key4} {hdr body : Bytes} (hf : IsFrame f.spec (key.map Key4.toBytes) (hdr ++ body))
    (hb : body.length = f.data.length) (hc : ControlOk f.spec) (hl : lim < f.data.length)
    (rest : Bytes) : parseFrame m lim big (hdr ++ rest) = .err big rest := by
  have h63 : f.data.length < 2 ^ 63 := by
    obtain ⟨b0, b1, l7, ext, body, h1, -, -, h2, hl, -⟩ := hf
    have : f.data.length = f.spec.payload.length := rfl
    cases hl <;> omega
  have hok := (parseFrame_ok_iff (m := key.isSome) (lim := f.data.length) h63 (big := big) (bs := hdr ++ body)
    (rest := []) (f := f)).mpr ⟨Nat.le_refl _, hc, key, hdr ++ body, by simp, rfl, hf⟩
  unfold parseFrame at hok
  rw [Ps.bind_ok_iff] at hok
  obtain ⟨h, mid, hp, h2⟩ := hok
  split at h2
  · simp at h2
  · rw [Ps.bind_ok_iff] at h2
    obtain ⟨data, mid', ht, hbd⟩ := h2
    obtain ⟨hdl, rfl⟩ := Ps.take_ok_iff.mp ht
    unfold bodyPs at hbd
    split at hbd
    · next g hg =>
      simp only [PRes.ok.injEq] at hbd
      obtain ⟨rfl, rfl⟩ := hbd
      obtain ⟨b0, b1, ext, hsplit, hlen, hm', hfl, ho, hcc⟩ := parseHeader_ok_iff.mp hp
      have hml := masked_length ((body_ok_iff h b0 hfl ho data _ _).mp hg).2.2
      have hsp := List.append_inj_left' hsplit (by simp [hml, hb])
      unfold parseFrame
      rw [Ps.bind_def, hsp]
      have := (parseHeader_ok_iff (rest := rest)).mpr ⟨b0, b1, ext, rfl, hlen, hm', hfl, ho, hcc⟩
      rw [this]
      simp only
      rw [if_pos (by omega)]; rfl
    · simp at hbd
    · simp at hbd

/-- C10: a header that announces more than the limit is refused without reading a single payload
byte: what follows the header stays unread (blocking) or untouched in the buffer (async), no matter
how little of the payload has arrived. -/
theorem C10_refused_before_payload (f : DataFrame) (key : Option Key4) (hdr body : Bytes)
    (hf : IsFrame f.spec (key.map Key4.toBytes) (hdr ++ body)) (hb : body.length = f.data.length)
    (hc : ControlOk f.spec) (rest : Bytes) :
    (∀ m limit, limit < f.data.length → ∀ s : Src, s.Clean → s.flat = hdr ++ rest →
      ∃ s', readDataframeWithLimit m limit s = (.err (.io .invalidData), s') ∧ s'.flat = rest) ∧
    (∀ ctx maxDf, min maxDf u32Max < f.data.length →
      (DfCodec.newWithLimits ctx maxDf).decode (hdr ++ rest) =
        (.err (.protocol "Exceeded maximum incoming DataFrame size"), hdr ++ rest)) := by
  constructor
  · intro m limit hl s hs hflat
    have h63 : f.data.length < 2 ^ 63 := by
      obtain ⟨b0, b1, l7, ext, body, h1, -, -, h2, hl, -⟩ := hf
      have : f.data.length = f.spec.payload.length := rfl
      cases hl <;> omega
    have hii : isizeMax = 2 ^ 63 - 1 := rfl
    obtain ⟨s', -, h'⟩ := refines_frame m limit (by omega) s hs
    rw [hflat, parseFrame_too_big hf hb hc hl rest] at h'
    exact ⟨s', h'⟩
  · intro ctx maxDf hl
    have := DfCodec.decode_eq (DfCodec.newWithLimits ctx maxDf)
      (by simp [DfCodec.newWithLimits]; omega) (hdr ++ rest)
    have hl' : (DfCodec.newWithLimits ctx maxDf).maxDf < f.data.length := hl
    rw [parseFrame_too_big hf hb hc hl' rest] at this
    rw [this, if_neg]
    · rfl
    · unfold bigErr maskErr; split <;> simp

/-- The two header bytes of a frame of two bytes; nothing of the payload has to have arrived. -/
example := C10_refused_before_payload exFrame none [129, 2] [72, 105]
  ⟨129, 2, 2, [], [72, 105], rfl, by decide, by decide, by decide, .short (by decide), by simp, rfl⟩ rfl
  (by intro h; revert h; decide) []

/-- C10: whatever limits are configured, the enforced ones are at most `u32::MAX`. -/
theorem C10_limits_capped (mask : Bool) (ctx : Context) (maxDf maxMsg : Nat) :
    (Receiver.newWithLimits mask maxDf maxMsg).maxDf = min maxDf (2 ^ 32 - 1) ∧
    (Receiver.newWithLimits mask maxDf maxMsg).maxMsg = min maxMsg (2 ^ 32 - 1) ∧
    (MsgCodec.newWithLimits ctx maxDf maxMsg).df.maxDf = min maxDf (2 ^ 32 - 1) ∧
    (MsgCodec.newWithLimits ctx maxDf maxMsg).maxMsg = min maxMsg (2 ^ 32 - 1) := by
  refine ⟨rfl, rfl, rfl, rfl⟩

/-- The reader *without* limit can be crashed by a ten byte header announcing `2^63` bytes. -/
theorem C10_unlimited_reader_can_panic :
    ∃ bs : Bytes, bs.length = 10 ∧ (readDataframe false [.chunk bs]).1 = .panic "capacity overflow" :=
  ⟨[0x82, 127, 128, 0, 0, 0, 0, 0, 0, 0], by decide +kernel⟩

example : ∃ body, IsFrame exFrame.spec none ([129, 2] ++ body) ∧ body.length = exFrame.data.length := by
  refine ⟨[72, 105], ⟨129, 2, 2, [], [72, 105], rfl, by decide, by decide, by decide, ?_, by simp, rfl⟩, rfl⟩
  exact .short (by decide)

end WS
