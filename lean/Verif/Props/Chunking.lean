import Verif.Lemmas.Lenient
import Verif.Lemmas.EndToEnd
import Verif.Props.Receive
/-!
# C23 near the message limit

`C23_refuted` shows that the outcome can depend on the chunks. These theorems say how far it can:
the bytes arriving one by one are the most a stream can get through, the only other outcome is the
limit error, and there are exact bounds for both.
-/

namespace WS
open Spec (Wire Delivers FitsApart FitsAsync payloadSum Allowed IsFrame)

/-- C23: whatever the chunks are, the items are those of the same bytes arriving one at a time, up
to the first place where they are not, and there the message limit is reported. All streams, legal
or not. -/
theorem C23_extremes (ctx : Context) (maxDf maxMsg n : Nat) (s : Src) (hs : s.Ready) :
    let slow := ((Framed.new (MsgCodec.newWithLimits ctx maxDf maxMsg)).nextMany msgDecoder n
      (s.flat.map fun b => .chunk [b])).1
    let items := ((Framed.new (MsgCodec.newWithLimits ctx maxDf maxMsg)).nextMany msgDecoder n s).1
    items = slow ∨ ∃ k, k < n ∧ items.take k = slow.take k ∧ items[k]? = some (.err msgLimitErr) := by
  intro slow items
  have hc := MsgCodec.wf_new ctx maxDf maxMsg
  have h1 : slow = ((Framed.new (MsgCodec.newWithLimits ctx maxDf maxMsg)).nextMany lenDecoder n s).1 := by
    have e : slow = ((Framed.new (MsgCodec.newWithLimits ctx maxDf maxMsg)).nextMany msgDecoder n (Src.drip s.flat)).1 := rfl
    rw [e, nextMany_drip n _ _ (dripping_new _ hc.1), lenient_items _ hc.1 n _ (drip_ready _), drip_flat,
      lenient_items _ hc.1 n s hs]
  rw [h1]
  exact unless_limit.nextMany n s (Framed.new (MsgCodec.newWithLimits ctx maxDf maxMsg)) hc.1

/-- C23: what is refused when the bytes come one by one is refused, there or earlier, in every
chunking. -/
theorem C23_refused_always (ctx : Context) (maxDf maxMsg n k : Nat) (hk : k < n) (s : Src) (hs : s.Ready)
    (h : ((Framed.new (MsgCodec.newWithLimits ctx maxDf maxMsg)).nextMany msgDecoder n
      (s.flat.map fun b => .chunk [b])).1[k]? = some (.err msgLimitErr)) :
    ∃ j, j ≤ k ∧
      ((Framed.new (MsgCodec.newWithLimits ctx maxDf maxMsg)).nextMany msgDecoder n s).1[j]? = some (.err msgLimitErr) := by
  rcases C23_extremes ctx maxDf maxMsg n s hs with h1 | ⟨j, hj, h1, h2⟩
  · exact ⟨k, Nat.le_refl k, by rw [h1]; exact h⟩
  · by_cases hjk : j ≤ k
    · exact ⟨j, hjk, h2⟩
    · refine ⟨k, Nat.le_refl k, ?_⟩
      have h3 := congrArg (fun l => l[k]?) h1
      simp only [List.getElem?_take, if_pos (Nat.lt_of_not_le hjk)] at h3
      rw [h3]; exact h

/-- C23, the most that gets through: frames that deliver messages while the payload of each
unfinished message, with 64 bytes for its last frame, stays within the limit, deliver exactly these
messages when the bytes come one by one. -/
theorem C23_one_by_one (ctx : Context) (maxDf maxMsg : Nat) (frames : List Spec.Frame) (ms : List OwnedMsg)
    (held : List Spec.Frame) (bs x : Bytes) (hw : Wire (decide (ctx = .server)) frames bs)
    (hl : ∀ f ∈ frames, f.payload.length ≤ min maxDf u32Max)
    (hd : Delivers (FitsApart (min maxMsg u32Max)) [] frames (ms.map OwnedMsg.spec) held) :
    ((Framed.new (MsgCodec.newWithLimits ctx maxDf maxMsg)).nextMany msgDecoder ms.length
      ((bs ++ x).map fun b => .chunk [b])).1 = ms.map Item.item := by
  have hc := MsgCodec.wf_new ctx maxDf maxMsg
  obtain ⟨oms, b, frames1, bs1, h1, h2, -⟩ := deliver_len (c := MsgCodec.newWithLimits ctx maxDf maxMsg) hc
    ⟨hw, hl, hd, .inl rfl, by simp [MsgCodec.newWithLimits]⟩ x
  have e : ((bs ++ x).map fun b => Ev.chunk [b]) = Src.drip (bs ++ x) := rfl
  rw [e, nextMany_drip _ _ _ (dripping_new _ hc.1), lenient_items _ hc.1 _ _ (drip_ready _), drip_flat]
  rw [List.length_map] at h1
  rw [h1, OwnedMsg.map_spec_inj h2]

/-- C23: in any other chunking of these bytes the same messages come, or the limit error instead of
one of them and nothing wrong before it. -/
theorem C23_delivered_or_limit (ctx : Context) (maxDf maxMsg : Nat) (frames : List Spec.Frame) (ms : List OwnedMsg)
    (held : List Spec.Frame) (bs x : Bytes) (hw : Wire (decide (ctx = .server)) frames bs)
    (hl : ∀ f ∈ frames, f.payload.length ≤ min maxDf u32Max)
    (hd : Delivers (FitsApart (min maxMsg u32Max)) [] frames (ms.map OwnedMsg.spec) held)
    (s : Src) (hs : s.Ready) (hf : s.flat = bs ++ x) :
    let items := ((Framed.new (MsgCodec.newWithLimits ctx maxDf maxMsg)).nextMany msgDecoder ms.length s).1
    items = ms.map Item.item ∨
    ∃ k, k < ms.length ∧ items.take k = (ms.take k).map Item.item ∧ items[k]? = some (.err msgLimitErr) := by
  have h := C23_extremes ctx maxDf maxMsg ms.length s hs
  rw [hf, C23_one_by_one ctx maxDf maxMsg frames ms held bs x hw hl hd] at h
  simpa [List.map_take] using h

/-- C23, what never gets through: if the payload of an unfinished message with 64 bytes for its
last frame exceeds the limit, the limit error is reported in every chunking, after the messages
before it or earlier. -/
theorem C23_certain_refusal (ctx : Context) (maxDf maxMsg : Nat) (frames : List Spec.Frame) (ms : List OwnedMsg)
    (held : List Spec.Frame) (bs fb x : Bytes) (hw : Wire (decide (ctx = .server)) frames bs)
    (hl : ∀ f ∈ frames, f.payload.length ≤ min maxDf u32Max)
    (hd : Delivers (FitsApart (min maxMsg u32Max)) [] frames (ms.map OwnedMsg.spec) held)
    (f : Spec.Frame) (key : Option (List UInt8)) (hfb : IsFrame f key fb) (hk : key.isSome = decide (ctx = .server))
    (hlf : f.payload.length ≤ min maxDf u32Max) (ha : Allowed held f) (hfin : f.fin = false)
    (hn : held.length + 1 < 2 ^ 20) (hbig : min maxMsg u32Max < payloadSum (held ++ [f]) + 64)
    (s : Src) (hs : s.Ready) (hf : s.flat = bs ++ (fb ++ x)) :
    let items := ((Framed.new (MsgCodec.newWithLimits ctx maxDf maxMsg)).nextMany msgDecoder (ms.length + 1) s).1
    ∃ k, k ≤ ms.length ∧ items.take k = (ms.take k).map Item.item ∧ items[k]? = some (.err msgLimitErr) := by
  have hc := MsgCodec.wf_new ctx maxDf maxMsg
  obtain ⟨oms, b, frames1, bs1, h1, h2, h3⟩ := deliver_len (c := MsgCodec.newWithLimits ctx maxDf maxMsg) hc
    ⟨hw, hl, hd, .inl rfl, by simp [MsgCodec.newWithLimits]⟩ (fb ++ x)
  obtain ⟨c', h4⟩ := refuse_len (c := { MsgCodec.newWithLimits ctx maxDf maxMsg with buffer := b }) hc h3 hfb hk hlf ha
    hfin hn hbig x
  have hslow : ((Framed.new (MsgCodec.newWithLimits ctx maxDf maxMsg)).nextMany msgDecoder (ms.length + 1)
      ((bs ++ (fb ++ x)).map fun b => .chunk [b])).1 = ms.map Item.item ++ [.err msgLimitErr] := by
    have e : ((bs ++ (fb ++ x)).map fun b => Ev.chunk [b]) = Src.drip (bs ++ (fb ++ x)) := rfl
    rw [e, nextMany_drip _ _ _ (dripping_new _ hc.1), lenient_items _ hc.1 _ _ (drip_ready _), drip_flat, decMany_add]
    rw [List.length_map] at h1
    rw [h1, OwnedMsg.map_spec_inj h2]
    simp only [decMany, h4]
  have h := C23_extremes ctx maxDf maxMsg (ms.length + 1) s hs
  rw [hf, hslow] at h
  rcases h with h | ⟨k, hk, h5, h6⟩
  · refine ⟨ms.length, Nat.le_refl _, ?_, ?_⟩
    · rw [h]; simp
    · rw [h]; simp
  · refine ⟨k, by omega, ?_, h6⟩
    rw [h5, List.take_append_of_le_length (by simp; omega), List.map_take]

/-- C23, what always gets through: if the size of every unfinished message with 64 bytes for every
frame stays within the limit, the messages are delivered in every chunking. -/
theorem C23_within_limit (ctx : Context) (maxDf maxMsg : Nat) (frames : List Spec.Frame) (ms : List OwnedMsg)
    (held : List Spec.Frame) (bs x : Bytes) (hw : Wire (decide (ctx = .server)) frames bs)
    (hl : ∀ f ∈ frames, f.payload.length ≤ min maxDf u32Max)
    (hd : Delivers (FitsAsync (min maxMsg u32Max)) [] frames (ms.map OwnedMsg.spec) held)
    (s : Src) (hs : s.Ready) (hf : s.flat = bs ++ x) :
    ((Framed.new (MsgCodec.newWithLimits ctx maxDf maxMsg)).nextMany msgDecoder ms.length s).1 = ms.map Item.item := by
  have hc := MsgCodec.wf_new ctx maxDf maxMsg
  obtain ⟨oms, b, frames1, bs1, h1, h2, -, h4⟩ := deliver_async (c := MsgCodec.newWithLimits ctx maxDf maxMsg) hc
    ⟨hw, hl, hd, .inl rfl, by simp [MsgCodec.newWithLimits]⟩ x
  rw [List.length_map] at h1 h4
  obtain ⟨xs, fr', s', g1, -, -, g4⟩ := nextMany_spec msgDecoder_chunkable ms.length s
    (Framed.new (MsgCodec.newWithLimits ctx maxDf maxMsg)) (msg_live_new _ hc [] s hs) hc.1
    (by show GoodMany msgDecoder notLimit _ _ ([] ++ s.flat); rw [hf]; exact h4)
  have e : (Framed.new (MsgCodec.newWithLimits ctx maxDf maxMsg)).buf ++ s.flat = bs ++ x := hf
  rw [e] at g4
  rw [g1]
  have := g4.symm.trans h1
  simp only [Prod.mk.injEq] at this
  show xs = _
  rw [this.1, OwnedMsg.map_spec_inj h2]

/-- C23, the least that gets through: if that size exceeds the limit at some fragment and the
fragments arrive in one chunk, the limit error is what the stream says. So the bound of
`C23_within_limit` is exact for one chunk, as that of `C23_one_by_one` is for single bytes. -/
theorem C23_at_once_refused (ctx : Context) (maxDf maxMsg : Nat) (frames held : List Spec.Frame) (bs fb x : Bytes)
    (hw : Wire (decide (ctx = .server)) frames bs) (hl : ∀ f ∈ frames, f.payload.length ≤ min maxDf u32Max)
    (hd : Delivers (FitsAsync (min maxMsg u32Max)) [] frames [] held)
    (f : Spec.Frame) (key : Option (List UInt8)) (hfb : IsFrame f key fb) (hk : key.isSome = decide (ctx = .server))
    (hlf : f.payload.length ≤ min maxDf u32Max) (ha : Allowed held f) (hfin : f.fin = false)
    (hn : held.length + 1 < 2 ^ 20) (hbig : min maxMsg u32Max < Spec.weight (held ++ [f])) :
    ((Framed.new (MsgCodec.newWithLimits ctx maxDf maxMsg)).nextMany msgDecoder 1 [.chunk (bs ++ (fb ++ x))]).1 =
      [.err msgLimitErr] := by
  have hc := MsgCodec.wf_new ctx maxDf maxMsg
  have hne : bs ++ (fb ++ x) ≠ [] := by
    obtain ⟨_, _, _, _, _, h, -⟩ := hfb
    rw [h]; simp
  rw [(nextMany_oneChunk msgDecoder_chunkable 1 (MsgCodec.newWithLimits ctx maxDf maxMsg) hc.1 _ hne).1]
  obtain ⟨b, h1, h2⟩ := pLoop_parts (c := (MsgCodec.newWithLimits ctx maxDf maxMsg).cfg)
    (stepOk_async _ hc.1 hc.2) hd rfl hl [] rfl hw (fb ++ x)
  subst h1
  have hok : Spec.ControlOk f := by
    intro h8
    rcases ha with ⟨_, _, h⟩ | ⟨_, h⟩ <;> omega
  obtain ⟨g, rfl, hg⟩ := parseFrame_isFrame (Nat.lt_of_le_of_lt hc.1 (by decide)) (big := bigErr) hfb hk hok hlf x
  have hn' : (b ++ [g]).length < maxFrames := by
    simp only [specs, List.length_map] at hn
    simp only [List.length_append, List.length_singleton, maxFrames]; omega
  have hs : (MsgCodec.newWithLimits ctx maxDf maxMsg).cfg.step b (Spec.weight (specs b)) g = .fail msgLimitErr (b ++ [g]) := by
    show asyncStep _ b _ g = _
    rw [asyncStep_part ha hfin hn', if_pos]
    have e : specs b ++ [g.spec] = specs (b ++ [g]) := by rw [specs_append]; rfl
    rw [e, weight_specs, heldLen_snoc, List.length_append, List.length_singleton] at hbig
    rw [weight_specs]
    show min maxMsg u32Max < _
    simp only [overhead]; omega
  have hp : pLoop (MsgCodec.newWithLimits ctx maxDf maxMsg).cfg [] 0 (bs ++ (fb ++ x)) = .fail msgLimitErr (b ++ [g]) x := by
    have h3 : pLoop (MsgCodec.newWithLimits ctx maxDf maxMsg).cfg [] 0 (bs ++ (fb ++ x)) = _ := h2
    rw [h3, pLoop_ok (c := (MsgCodec.newWithLimits ctx maxDf maxMsg).cfg) hg, hs]
  have hdec : msgDecoder (MsgCodec.newWithLimits ctx maxDf maxMsg) (bs ++ (fb ++ x)) =
      (.err msgLimitErr, { MsgCodec.newWithLimits ctx maxDf maxMsg with buffer := b ++ [g] }, x) := by
    rw [msgDecoder_out _ hc.1]
    have e : (MsgCodec.newWithLimits ctx maxDf maxMsg).buffer = [] := rfl
    rw [e, heldLen_nil, hp]; rfl
  simp only [decMany, decNext, hdec]

/-! ### Cases -/

/-- Three fragments of one byte. -/
def chunkA : Spec.Frame := ⟨false, false, false, false, 1, [97]⟩
def chunkB : Spec.Frame := ⟨false, false, false, false, 0, [98]⟩
def chunkC : Spec.Frame := ⟨true, false, false, false, 0, [99]⟩

theorem chunkA_frame : IsFrame chunkA none [0x01, 1, 97] :=
  ⟨0x01, 1, 1, [], [97], rfl, by decide, by decide, by decide, .short (by decide), by simp, rfl⟩
theorem chunkB_frame : IsFrame chunkB none [0x00, 1, 98] :=
  ⟨0x00, 1, 1, [], [98], rfl, by decide, by decide, by decide, .short (by decide), by simp, rfl⟩
theorem chunkC_frame : IsFrame chunkC none [0x80, 1, 99] :=
  ⟨0x80, 1, 1, [], [99], rfl, by decide, by decide, by decide, .short (by decide), by simp, rfl⟩

/-- With a limit of 66 bytes they fit one by one. -/
theorem chunks_apart : Delivers (FitsApart 66) [] [chunkA, chunkB, chunkC] [.text [97, 98, 99]] [] := by
  have ht : Spec.Assembles (([] ++ [chunkA] ++ [chunkB] ++ [chunkC]).map Spec.Frame.fragment) (.text [97, 98, 99]) :=
    ⟨_, _, rfl, by decide, by decide, .text ((utf8Valid_iff _).mp (by decide +kernel))⟩
  exact .part (.inl ⟨rfl, by decide, by decide⟩) rfl ⟨by decide, by decide⟩
    (.part (.inr ⟨by simp, rfl⟩) rfl ⟨by decide, by decide⟩
    (.final (.inr ⟨by simp, rfl⟩) rfl ht .nil))

theorem chunks_wire : Wire false [chunkA, chunkB, chunkC] [1, 1, 97, 0, 1, 98, 0x80, 1, 99] :=
  .cons chunkA_frame rfl (.cons chunkB_frame rfl (.cons chunkC_frame rfl .nil))

/-- With a limit of 66 bytes: one by one they are delivered, in one chunk they are refused. -/
example : ((Framed.new (MsgCodec.newWithLimits .client 125 66)).nextMany msgDecoder 1
      ((([1, 1, 97, 0, 1, 98, 0x80, 1, 99] ++ [] : Bytes)).map fun b => .chunk [b])).1 = [.item (.text [97, 98, 99])] ∧
    ((Framed.new (MsgCodec.newWithLimits .client 125 66)).nextMany msgDecoder 1
      [.chunk ([0x01, 1, 97] ++ ([0x00, 1, 98] ++ [0x80, 1, 99]))]).1 = [.err msgLimitErr] :=
  ⟨C23_one_by_one .client 125 66 [chunkA, chunkB, chunkC] [.text [97, 98, 99]] [] _ []
      chunks_wire (by decide) chunks_apart,
   C23_at_once_refused .client 125 66 [chunkA] [chunkA] _ _ [0x80, 1, 99] (.cons chunkA_frame rfl .nil) (by decide)
    (.part (.inl ⟨rfl, by decide, by decide⟩) rfl ⟨by decide, by decide⟩ .nil) chunkB none chunkB_frame rfl (by decide)
    (.inr ⟨by simp, rfl⟩) rfl (by decide) (by decide)⟩

/-- With a limit of 65 bytes no chunking delivers them. -/
example (s : Src) (hs : s.Ready) (hf : s.flat = [0x01, 1, 97] ++ ([0x00, 1, 98] ++ [0x80, 1, 99])) :
    ((Framed.new (MsgCodec.newWithLimits .client 125 65)).nextMany msgDecoder 1 s).1[0]? = some (.err msgLimitErr) := by
  obtain ⟨k, h1, -, h3⟩ := C23_certain_refusal .client 125 65 [chunkA] [] [chunkA] _ _ [0x80, 1, 99]
    (.cons chunkA_frame rfl .nil) (by decide)
    (.part (.inl ⟨rfl, by decide, by decide⟩) rfl ⟨by decide, by decide⟩ .nil) chunkB none chunkB_frame rfl (by decide)
    (.inr ⟨by simp, rfl⟩) rfl (by decide) (by decide) s hs hf
  simp only [List.length_nil, Nat.le_zero] at h1
  subst h1; exact h3

/-- With a limit of 1000 bytes every chunking does. -/
example (s : Src) (hs : s.Ready) (hf : s.flat = [1, 1, 97, 0, 1, 98, 0x80, 1, 99] ++ []) :
    ((Framed.new (MsgCodec.newWithLimits .client 125 1000)).nextMany msgDecoder 1 s).1 = [.item (.text [97, 98, 99])] :=
  C23_within_limit .client 125 1000 [chunkA, chunkB, chunkC] [.text [97, 98, 99]] [] _ []
    chunks_wire (by decide)
    (.part (.inl ⟨rfl, by decide, by decide⟩) rfl ⟨by decide, by decide⟩
      (.part (.inr ⟨by simp, rfl⟩) rfl ⟨by decide, by decide⟩
      (.final (.inr ⟨by simp, rfl⟩) rfl ⟨_, _, rfl, by decide, by decide, .text ((utf8Valid_iff _).mp (by decide +kernel))⟩ .nil))) s hs hf

example := C23_extremes .client 125 66 1 [.chunk [0x01, 1, 97, 0x00], .error .wouldBlock, .chunk [1, 98, 0x80, 1, 99]] (by simp [Src.Ready])
example := C23_delivered_or_limit .client 125 66 [chunkA, chunkB, chunkC] [.text [97, 98, 99]] [] _ [] chunks_wire (by decide) chunks_apart
  [.chunk [0x01, 1, 97, 0x00], .error .wouldBlock, .chunk [1, 98, 0x80, 1, 99]] (by simp [Src.Ready]) rfl
/-- `C23_refused_always`: with a limit of 65 bytes they are refused even one by one. -/
example := C23_refused_always .client 125 65 1 0 (by decide) [.chunk [0x01, 1, 97, 0x00], .error .wouldBlock, .chunk [1, 98, 0x80, 1, 99]] (by simp [Src.Ready])
  (by decide +kernel)

end WS
