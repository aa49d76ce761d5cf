import Verif.Lemmas.Count
import Verif.Lemmas.Live
import Verif.Lemmas.Tight
import Verif.Lemmas.AsyncChat
/-!
# Lemmas: the two async tasks keep step with the numbers of Lemmas/Count
-/

namespace WS
open Spec

/-! ## One direction -/

/-- The length of the frame of a message. -/
def frameLen (mask : Bool) (m : OwnedMsg) : Nat := onWire mask m.view.spec.payload.length

theorem frameLen_pos (mask : Bool) (m : OwnedMsg) : 0 < frameLen mask m := by
  unfold frameLen onWire
  split <;> (try split) <;> omega

theorem frames_length {mask : Bool} {said : Nat → OwnedMsg} {bss : List Bytes}
    (h : ∀ (i : Nat) b, bss[i]? = some b → Wire mask [(said i).view.spec] b) {k : Nat} (hk : k ≤ bss.length) :
    (bss.take k).flatten.length = cum (fun i => frameLen mask (said i)) k := by
  induction k with
  | zero => rfl
  | succ k ih =>
    have hk' : k < bss.length := hk
    have hg := List.getElem?_eq_getElem hk'
    rw [List.take_add_one, hg, List.flatten_append, List.length_append, ih (by omega)]
    simp only [cum, Option.toList_some, List.flatten_cons, List.flatten_nil, List.append_nil]
    rw [wire_length (h k _ hg)]
    rfl

/-- `n` messages of `said` have been put into the sink. -/
structure Flowing (mask : Bool) (said : Nat → OwnedMsg) (n : Nat) (bss : List Bytes) (o : Outbox) : Prop where
  count : bss.length = n
  frames : ∀ (i : Nat) b, bss[i]? = some b → Wire mask [(said i).view.spec] b
  total : o.wire ++ o.sink.buf.data = bss.flatten
  wf : o.sink.buf.WF
  role : o.sink.isServer = !mask

theorem Flowing.length {mask said n bss o} (h : Flowing mask said n bss o) :
    o.wire.length + o.sink.buf.data.length = cum (fun i => frameLen mask (said i)) n := by
  have h1 := frames_length h.frames (Nat.le_refl bss.length)
  rw [List.take_length, h.count, ← h.total, List.length_append] at h1
  exact h1

/-- The reader has taken `taken` bytes off the network and made `k` messages of them. -/
structure Listens (ctx : Context) (maxDf maxMsg : Nat) (len : Nat → Nat) (k : Nat) (wire : Bytes) (taken : Nat) (fr : Framed MsgCodec) : Prop where
  codec : fr.codec = MsgCodec.newWithLimits ctx maxDf maxMsg
  inside : taken ≤ wire.length
  before : cum len k ≤ taken
  buf : fr.buf = (wire.take taken).drop (cum len k)
  idle : fr.readable = false → taken < cum len (k + 1)
  eof : fr.eof = false

theorem Listens.grow {ctx maxDf maxMsg len k wire taken fr} (h : Listens ctx maxDf maxMsg len k wire taken fr) (b : Bytes) :
    Listens ctx maxDf maxMsg len k (wire ++ b) taken fr :=
  ⟨h.codec, by have := h.inside; rw [List.length_append]; omega, h.before, by rw [List.take_append_of_le_length h.inside]; exact h.buf, h.idle, h.eof⟩

/-- The decoder at any point of the stream. -/
theorem decode_at {mask said n bss o} (hf : Flowing mask said n bss o) {ctx : Context} (hctx : mask = decide (ctx = .server)) {maxDf maxMsg : Nat}
    (hs : ∀ i, (said i).spec.Sendable (min maxDf u32Max)) {k t : Nat} (hkn : k ≤ n) (ht : t ≤ o.wire.length)
    (hk : cum (fun i => frameLen mask (said i)) k ≤ t) :
    msgDecoder (MsgCodec.newWithLimits ctx maxDf maxMsg) ((o.wire.take t).drop (cum (fun i => frameLen mask (said i)) k)) =
      if cum (fun i => frameLen mask (said i)) (k + 1) ≤ t then
        (.ok (some (said k)), MsgCodec.newWithLimits ctx maxDf maxMsg, (o.wire.take t).drop (cum (fun i => frameLen mask (said i)) (k + 1)))
      else (.ok none, MsgCodec.newWithLimits ctx maxDf maxMsg, (o.wire.take t).drop (cum (fun i => frameLen mask (said i)) k)) := by
  have hlen := hf.length
  have hcl := frames_length hf.frames (k := k) (by rw [hf.count]; exact hkn)
  have hwt : o.wire.take t <+: bss.flatten := by
    rw [← hf.total]
    exact (List.take_prefix _ _).trans (List.prefix_append _ _)
  obtain ⟨rest, hrest⟩ := hwt
  have hsplit : (o.wire.take t).drop (cum (fun i => frameLen mask (said i)) k) ++ rest = (bss.drop k).flatten := by
    rw [← List.drop_append_of_le_length (by rw [List.length_take]; omega), hrest]
    conv => lhs; rw [← List.take_append_drop k bss]
    rw [List.flatten_append, ← hcl, List.drop_left]
  by_cases hk' : k < n
  · have hkb : k < bss.length := by rw [hf.count]; exact hk'
    have hg := List.getElem?_eq_getElem hkb
    have hw := hf.frames k _ hg
    have hwl := wire_length hw
    rw [List.drop_eq_getElem_cons hkb, List.flatten_cons] at hsplit
    rcases front_or_cut hsplit with ⟨y, hy, -⟩ | ⟨hl, z, hz, hzn⟩
    · have hyl := congrArg List.length hy
      rw [List.length_append, List.length_drop, List.length_take, hwl] at hyl
      have hc : cum (fun i => frameLen mask (said i)) (k + 1) ≤ t := by
        simp only [cum, frameLen]
        simp only [frameLen] at hyl hk
        omega
      rw [if_pos hc, hy, decode_whole ctx maxDf maxMsg (hs k) (hctx ▸ hw)]
      congr 2
      have : cum (fun i => frameLen mask (said i)) (k + 1) = cum (fun i => frameLen mask (said i)) k + bss[k].length := by
        rw [hwl]; rfl
      rw [this, ← List.drop_drop, hy, List.drop_left]
    · rw [List.length_drop, List.length_take, hwl] at hl
      have hc : ¬ cum (fun i => frameLen mask (said i)) (k + 1) ≤ t := by
        simp only [cum, frameLen]
        simp only [frameLen] at hl hk
        omega
      rw [if_neg hc]
      exact decode_truncated ctx maxDf maxMsg (truncated_of_wire (hs k) (hctx ▸ hw) hz hzn)
  · obtain rfl : k = n := by omega
    have hc : ¬ cum (fun i => frameLen mask (said i)) (k + 1) ≤ t := by
      have := frameLen_pos mask (said k)
      simp only [cum]
      omega
    rw [if_neg hc]
    have : (o.wire.take t).drop (cum (fun i => frameLen mask (said i)) k) = [] := by
      apply List.drop_of_length_le
      rw [List.length_take]
      omega
    rw [this]
    exact decode_truncated ctx maxDf maxMsg (truncated_nil _ _)

/-! ## The sink -/

theorem flush_granted (o : Outbox) (free k : Nat) :
    o.flush (granted free k) = (if o.sink.buf.data.length ≤ min free k then .ready else .notReady,
      { o with sink := { o.sink with buf := o.sink.buf.advance (min (min free k) o.sink.buf.data.length) },
               wire := o.wire ++ o.sink.buf.data.take (min (min free k) o.sink.buf.data.length) }) := by
  have hadv0 : o.sink.buf.advance 0 = o.sink.buf := by simp [BytesMut.advance]
  by_cases hd : o.sink.buf.data = []
  · have : o.sink.buf.data.length = 0 := by rw [hd]; rfl
    unfold Outbox.flush FramedWrite.pollComplete
    rw [if_pos hd]
    simp only [this, Nat.zero_le, if_true, Nat.min_zero, hadv0, List.take_zero, List.append_nil]
  · have hpos : 0 < o.sink.buf.data.length := List.length_pos_iff.mpr hd
    unfold granted Outbox.flush
    by_cases hz : min free k = 0
    · rw [if_pos hz]
      unfold FramedWrite.pollComplete
      rw [if_neg hd]
      simp only [if_true, hz, Nat.zero_min, hadv0, List.take_zero, List.append_nil]
      rw [if_neg (by omega)]
    · rw [if_neg hz]
      unfold FramedWrite.pollComplete
      rw [if_neg hd]
      simp only
      rw [if_neg (by omega)]
      generalize hq : min free k = q
      rw [hq] at hz
      unfold FramedWrite.pollComplete
      by_cases hall : o.sink.buf.data.length ≤ q
      · rw [if_pos (by simp only [BytesMut.advance]; rw [Nat.min_eq_right hall, List.drop_of_length_le (Nat.le_refl _)]), if_pos hall]
        simp only
        rw [List.take_of_length_le hall, Nat.min_eq_right hall, List.take_length]
      · rw [if_neg, if_neg hall]
        · simp only [if_true]
          rw [Nat.min_eq_left (by omega)]
        · simp only [BytesMut.advance]
          intro h0
          have := congrArg List.length h0
          rw [List.length_drop, List.length_nil] at this
          omega

/-- How many bytes leave. -/
def leaves (o : Outbox) (free k : Nat) : Nat := min (min free k) o.sink.buf.data.length

theorem flush_flowing {mask said n bss o} (h : Flowing mask said n bss o) (free k : Nat) :
    ∃ o', o.flush (granted free k) = (if o.sink.buf.data.length ≤ min free k then .ready else .notReady, o') ∧ Flowing mask said n bss o' ∧
      (∃ b, o'.wire = o.wire ++ b) ∧ o'.wire.length = o.wire.length + leaves o free k := by
  refine ⟨_, flush_granted o free k, ⟨h.count, h.frames, ?_, ?_, h.role⟩, ⟨_, rfl⟩, ?_⟩
  · simp only [BytesMut.advance]
    rw [List.append_assoc, List.take_append_drop]
    exact h.total
  · have := h.wf
    simp only [BytesMut.WF, BytesMut.advance, List.length_drop] at this ⊢
    omega
  · simp only [List.length_append, List.length_take, leaves]
    omega

theorem encode_flowing {mask said n bss o} (h : Flowing mask said n bss o) {lim : Nat} (hlim : lim < 2 ^ 63) (hm : (said n).spec.Sendable lim)
    (key : Key4) (extra : Nat) :
    ∃ buf b, encodeInto o.sink.isServer (said n).view key extra o.sink.buf = (.ok (), buf) ∧
      Flowing mask said (n + 1) (bss ++ [b]) { o with sink := { o.sink with buf := buf } } := by
  obtain ⟨bs, hbs⟩ := encode_sendable hm (if o.sink.isServer then none else some key)
  have hc := C07_encode_into_buffer o.sink.isServer (said n).view (said n).lawful key extra o.sink.buf h.wf
  rw [hbs] at hc
  obtain ⟨cap, h1, h2⟩ := hc
  refine ⟨_, bs, h1, by simp [h.count], ?_, ?_, h2, h.role⟩
  · intro i x hx
    rw [List.getElem?_append] at hx
    split at hx
    · exact h.frames i x hx
    · next hi =>
      cases hq : i - bss.length with
      | zero =>
        rw [hq] at hx
        simp only [List.getElem?_cons_zero, Option.some.injEq] at hx
        have : i = n := by rw [← h.count]; omega
        rw [this, ← hx]
        obtain ⟨k, g1, g2⟩ := encode_wire hlim hm mask key (bs := bs) (by
          rw [← hbs, h.role]
          cases mask <;> rfl)
        have := Wire.cons g1 g2 .nil
        simpa using this
      | succ q => rw [hq] at hx; simp at hx
  · simp only
    rw [← List.append_assoc, h.total]
    simp

/-- `start_send` takes the message, or the sink stays full. -/
theorem push_flowing {mask said n bss o} (h : Flowing mask said n bss o) {lim : Nat} (hlim : lim < 2 ^ 63) (hm : (said n).spec.Sendable lim) (free k : Nat) :
    ∃ o', (∃ b, o'.wire = o.wire ++ b) ∧
      if o.sink.buf.data.length < 8192 then
        o.push (said n) (granted free k) = (.ready, o') ∧ (∃ b, Flowing mask said (n + 1) (bss ++ [b]) o') ∧ o'.wire.length = o.wire.length
      else o'.wire.length = o.wire.length + leaves o free k ∧
        if o.sink.buf.data.length - leaves o free k < 8192 then
          o.push (said n) (granted free k) = (.ready, o') ∧ ∃ b, Flowing mask said (n + 1) (bss ++ [b]) o'
        else o.push (said n) (granted free k) = (.notReady, o') ∧ Flowing mask said n bss o' := by
  by_cases hq : o.sink.buf.data.length < 8192
  · obtain ⟨buf, b, e1, e2⟩ := encode_flowing h hlim hm (o.keys 0) o.extra
    refine ⟨{ o with sink := { o.sink with buf := buf }, keys := fun n => o.keys (n + 1) }, ⟨[], by simp⟩, ?_⟩
    rw [if_pos hq]
    refine ⟨?_, ⟨b, e2.count, e2.frames, e2.total, e2.wf, e2.role⟩, rfl⟩
    unfold Outbox.push FramedWrite.startSend
    rw [if_neg (by omega)]
    simp only [e1]
  · obtain ⟨o', f1, f2, f3, f4⟩ := flush_flowing h free k
    have hl : o'.sink.buf.data.length = o.sink.buf.data.length - leaves o free k := by
      have a1 := h.length
      have a2 := f2.length
      omega
    have hp : ∃ w', o.sink.pollComplete ⟨o.wire, granted free k⟩ =
        (if o.sink.buf.data.length ≤ min free k then .ready else .notReady, o'.sink, w') ∧ w'.wire = o'.wire ∧ o'.keys = o.keys ∧ o'.extra = o.extra := by
      unfold Outbox.flush at f1
      split at f1
      rename_i x fw w hx
      simp only [Prod.mk.injEq] at f1
      obtain ⟨g1, g2⟩ := f1
      subst g2
      exact ⟨w, by rw [hx, g1], rfl, rfl, rfl⟩
    obtain ⟨w', p1, p2, p3, p4⟩ := hp
    have hstart : ∀ m : OwnedMsg, o.sink.startSend m.view (o.keys 0) o.extra ⟨o.wire, granted free k⟩ =
        if o'.sink.buf.data.length ≥ 8 * 1024 then (.notReady, o'.sink, w')
        else match encodeInto o'.sink.isServer m.view (o.keys 0) o.extra o'.sink.buf with
          | (.ok _, buf) => (.ready, { o'.sink with buf := buf }, w')
          | (.err e, buf) => (.err e, { o'.sink with buf := buf }, w')
          | (.panic e, buf) => (.panic e, { o'.sink with buf := buf }, w') := by
      intro m
      unfold FramedWrite.startSend
      simp only
      rw [if_pos (show o.sink.buf.data.length ≥ 8 * 1024 by omega), p1]
      by_cases hr : o.sink.buf.data.length ≤ min free k
      · simp only [if_pos hr]
        rfl
      · simp only [if_neg hr]
        rfl
    by_cases hq' : o.sink.buf.data.length - leaves o free k < 8192
    · obtain ⟨buf, b, e1, e2⟩ := encode_flowing f2 hlim hm (o.keys 0) o.extra
      refine ⟨{ o' with sink := { o'.sink with buf := buf }, keys := fun n => o.keys (n + 1) }, f3, ?_⟩
      rw [if_neg hq]
      refine ⟨f4, ?_⟩
      rw [if_pos hq']
      refine ⟨?_, b, e2.count, e2.frames, e2.total, e2.wf, e2.role⟩
      unfold Outbox.push
      rw [hstart, if_neg (by omega), e1]
      simp only [p2, p4]
    · refine ⟨o', f3, ?_⟩
      rw [if_neg hq]
      refine ⟨f4, ?_⟩
      rw [if_neg hq']
      refine ⟨?_, f2⟩
      unfold Outbox.push
      rw [hstart, if_pos (by omega)]
      simp only [p2, ← p3, ← p4]

/-! ## The stream -/

theorem offered_zero (transit : Bytes) (closed : Bool) : offered transit 0 closed = [.error .wouldBlock] := by
  simp [offered]

/-- The reading half of a poll. -/
theorem pollRead_offered {mask said n bss o} (hf : Flowing mask said n bss o) {ctx : Context} (hctx : mask = decide (ctx = .server)) {maxDf maxMsg : Nat}
    (hs : ∀ i, (said i).spec.Sendable (min maxDf u32Max)) {k taken : Nat} {fr : Framed MsgCodec}
    (hl : Listens ctx maxDf maxMsg (fun i => frameLen mask (said i)) k o.wire taken fr) (hkn : k ≤ n) (hr : fr.readable = false) (c : Nat) {closed : Bool}
    (hcl : ¬ (closed = true ∧ o.wire.drop taken = [] ∧ 0 < c)) :
    ∃ fr' s', used (offered (o.wire.drop taken) c closed) s' = min c (o.wire.length - taken) ∧
      if cum (fun i => frameLen mask (said i)) (k + 1) ≤ taken + min c (o.wire.length - taken) then
        fr.pollRead msgDecoder (offered (o.wire.drop taken) c closed) = (.ready (.item (said k)), fr', s') ∧ s' = [.error .wouldBlock] ∧
        Listens ctx maxDf maxMsg (fun i => frameLen mask (said i)) (k + 1) o.wire (taken + min c (o.wire.length - taken)) fr' ∧ fr'.readable = true
      else fr.pollRead msgDecoder (offered (o.wire.drop taken) c closed) = (.notReady, fr', s') ∧
        Listens ctx maxDf maxMsg (fun i => frameLen mask (said i)) k o.wire (taken + min c (o.wire.length - taken)) fr' ∧ fr'.readable = false := by
  have hin := hl.inside
  have hbe := hl.before
  by_cases ht : (o.wire.drop taken).take c = []
  · have hoff : offered (o.wire.drop taken) c closed = [.error .wouldBlock] := by
      unfold offered
      rw [if_neg (fun h => h ht), if_neg hcl]
    have hz : min c (o.wire.length - taken) = 0 := by
      have := congrArg List.length ht
      rw [List.length_take, List.length_drop, List.length_nil] at this
      omega
    refine ⟨fr, [], ?_, ?_⟩
    · rw [hoff, hz]; rfl
    · rw [hz, Nat.add_zero, if_neg (by have := hl.idle hr; omega), hoff]
      refine ⟨?_, hl, hr⟩
      unfold Framed.pollRead
      simp
  · have hoff : offered (o.wire.drop taken) c closed = [.chunk ((o.wire.drop taken).take c), .error .wouldBlock] := by
      unfold offered
      rw [if_pos ht]
    have hlen : ((o.wire.drop taken).take c).length = min c (o.wire.length - taken) := by rw [List.length_take, List.length_drop]
    have hbuf : fr.buf ++ (o.wire.drop taken).take c =
        (o.wire.take (taken + min c (o.wire.length - taken))).drop (cum (fun i => frameLen mask (said i)) k) := by
      rw [hl.buf, ← List.drop_append_of_le_length (by rw [List.length_take]; omega), ← hlen, List.take_add]
      congr 2
      rw [hlen, ← List.length_drop, ← List.take_eq_take_min]
    have hd := decode_at hf hctx (maxMsg := maxMsg) hs hkn (show taken + min c (o.wire.length - taken) ≤ o.wire.length by omega) (by omega)
    by_cases hc : cum (fun i => frameLen mask (said i)) (k + 1) ≤ taken + min c (o.wire.length - taken)
    · rw [if_pos hc] at hd
      refine ⟨{ fr with codec := MsgCodec.newWithLimits ctx maxDf maxMsg,
                        buf := (o.wire.take (taken + min c (o.wire.length - taken))).drop (cum (fun i => frameLen mask (said i)) (k + 1)),
                        readable := true }, [.error .wouldBlock], ?_, ?_⟩
      · rw [hoff]
        simp only [used, Src.flat, List.append_nil, List.length_nil, Nat.sub_zero]
        exact hlen
      · rw [if_pos hc, hoff]
        refine ⟨?_, rfl, ⟨rfl, ?_, hc, rfl, by simp, hl.eof⟩, rfl⟩
        · unfold Framed.pollRead
          rw [if_neg ht, hbuf, hl.codec, hd]
        · omega
    · rw [if_neg hc] at hd
      refine ⟨{ fr with codec := MsgCodec.newWithLimits ctx maxDf maxMsg,
                        buf := (o.wire.take (taken + min c (o.wire.length - taken))).drop (cum (fun i => frameLen mask (said i)) k),
                        readable := false }, [], ?_, ?_⟩
      · rw [hoff]
        simp only [used, Src.flat, List.append_nil, List.length_nil, Nat.sub_zero]
        exact hlen
      · rw [if_neg hc, hoff]
        refine ⟨?_, ⟨rfl, ?_, ?_, rfl, fun _ => by omega, hl.eof⟩, rfl⟩
        · unfold Framed.pollRead
          rw [if_neg ht, hbuf, hl.codec, hd]
          simp only
          unfold Framed.pollRead
          simp
        · omega
        · omega

theorem used_self (s : Src) : used s s = 0 := by simp [used]

/-- One poll. -/
theorem poll_offered {mask said n bss o} (hf : Flowing mask said n bss o) {ctx : Context} (hctx : mask = decide (ctx = .server)) {maxDf maxMsg : Nat}
    (hs : ∀ i, (said i).spec.Sendable (min maxDf u32Max)) {k taken : Nat} {fr : Framed MsgCodec}
    (hl : Listens ctx maxDf maxMsg (fun i => frameLen mask (said i)) k o.wire taken fr) (hkn : k ≤ n) (c : Nat) {closed : Bool}
    (hcl : ¬ (closed = true ∧ o.wire.drop taken = [] ∧ 0 < c)) :
    ∃ fr' s', if cum (fun i => frameLen mask (said i)) (k + 1) ≤ taken then
        fr.poll msgDecoder (offered (o.wire.drop taken) c closed) = (.ready (.item (said k)), fr', offered (o.wire.drop taken) c closed) ∧
        Listens ctx maxDf maxMsg (fun i => frameLen mask (said i)) (k + 1) o.wire taken fr' ∧ fr'.readable = true
      else used (offered (o.wire.drop taken) c closed) s' = min c (o.wire.length - taken) ∧
        if cum (fun i => frameLen mask (said i)) (k + 1) ≤ taken + min c (o.wire.length - taken) then
          fr.poll msgDecoder (offered (o.wire.drop taken) c closed) = (.ready (.item (said k)), fr', s') ∧ s' = [.error .wouldBlock] ∧
          Listens ctx maxDf maxMsg (fun i => frameLen mask (said i)) (k + 1) o.wire (taken + min c (o.wire.length - taken)) fr' ∧ fr'.readable = true
        else fr.poll msgDecoder (offered (o.wire.drop taken) c closed) = (.notReady, fr', s') ∧
          Listens ctx maxDf maxMsg (fun i => frameLen mask (said i)) k o.wire (taken + min c (o.wire.length - taken)) fr' ∧ fr'.readable = false := by
  have hd := decode_at hf hctx (maxMsg := maxMsg) hs hkn hl.inside hl.before
  rw [← hl.buf, ← hl.codec] at hd
  by_cases hc : cum (fun i => frameLen mask (said i)) (k + 1) ≤ taken
  · have hr : fr.readable = true := by
      cases h : fr.readable with
      | true => rfl
      | false => have := hl.idle h; omega
    rw [if_pos hc] at hd
    refine ⟨{ fr with buf := (o.wire.take taken).drop (cum (fun i => frameLen mask (said i)) (k + 1)) }, [], ?_⟩
    rw [if_pos hc]
    refine ⟨?_, ⟨hl.codec, hl.inside, hc, rfl, fun h => ?_, hl.eof⟩, hr⟩
    · unfold Framed.poll
      rw [if_pos hr, if_neg (by simp [hl.eof]), hd]
    · rw [show fr.readable = false from h] at hr; exact absurd hr (by decide)
  · rw [if_neg hc] at hd
    have hp : ∃ fr0 : Framed MsgCodec, fr.poll msgDecoder (offered (o.wire.drop taken) c closed) = fr0.pollRead msgDecoder (offered (o.wire.drop taken) c closed) ∧
        Listens ctx maxDf maxMsg (fun i => frameLen mask (said i)) k o.wire taken fr0 ∧ fr0.readable = false := by
      cases hr : fr.readable with
      | true =>
        refine ⟨{ fr with readable := false }, ?_, ⟨hl.codec, hl.inside, hl.before, hl.buf, fun _ => by omega, hl.eof⟩, rfl⟩
        unfold Framed.poll
        rw [if_pos hr, if_neg (by simp [hl.eof]), hd]
      | false =>
        refine ⟨fr, ?_, hl, hr⟩
        unfold Framed.poll
        rw [if_neg (by simp [hr])]
    obtain ⟨fr0, p1, p2, p3⟩ := hp
    obtain ⟨fr', s', q1, q2⟩ := pollRead_offered hf hctx hs p2 hkn p3 c hcl
    refine ⟨fr', s', ?_⟩
    rw [if_neg hc]
    refine ⟨q1, ?_⟩
    rw [p1]
    exact q2

theorem filterPoll_skip {f : OwnedMsg → Option OwnedMsg} {fr fr' : Framed MsgCodec} {s s' : Src} {m : OwnedMsg}
    (h : fr.poll msgDecoder s = (.ready (.item m), fr', s')) (hm : f m = none) :
    filterPoll f fr s = filterPoll f fr' s' ∧ filterSeen f fr s = m :: filterSeen f fr' s' := by
  constructor
  · conv => lhs; rw [filterPoll]
    split
    · next q =>
      rw [h] at q
      cases q
      rw [hm]
    · next hne q => rw [h] at q; cases q; exact absurd rfl (hne m)
  · conv => lhs; rw [filterSeen]
    split
    · next q =>
      rw [h] at q
      cases q
      rw [hm]
    · next hne => exact absurd h (hne m fr' s')

theorem filterPoll_stop {f : OwnedMsg → Option OwnedMsg} {fr fr' : Framed MsgCodec} {s s' : Src} {x : Poll OwnedMsg}
    (h : fr.poll msgDecoder s = (x, fr', s')) (hx : ∀ m, x ≠ .ready (.item m)) : filterPoll f fr s = (x, fr', s') ∧ filterSeen f fr s = [] := by
  constructor
  · rw [filterPoll]
    split
    · next q => rw [h] at q; cases q; exact absurd rfl (hx _)
    · next hne q => rw [h] at q; cases q; rfl
  · rw [filterSeen]
    split
    · next q => rw [h] at q; cases q; exact absurd rfl (hx _)
    · rfl

/-- What has been read is shown, all of it. -/
theorem filter_rest {f : OwnedMsg → Option OwnedMsg} {mask said n bss o} (hf : Flowing mask said n bss o) (hskip : ∀ i, f (said i) = none) {ctx : Context}
    (hctx : mask = decide (ctx = .server)) {maxDf maxMsg : Nat} (hs : ∀ i, (said i).spec.Sendable (min maxDf u32Max)) {taken : Nat} :
    ∀ (d k : Nat) (fr : Framed MsgCodec), d = n - k → Listens ctx maxDf maxMsg (fun i => frameLen mask (said i)) k o.wire taken fr → k ≤ n →
    ∃ k' fr', filterPoll f fr [.error .wouldBlock] = (.notReady, fr', []) ∧ k' ≤ n ∧
      (List.range k).map said ++ filterSeen f fr [.error .wouldBlock] = (List.range k').map said ∧
      Listens ctx maxDf maxMsg (fun i => frameLen mask (said i)) k' o.wire taken fr' ∧ fr'.readable = false := by
  intro d
  induction d with
  | zero =>
    intro k fr hd hl hkn
    have hin := hl.inside
    have hlen := hf.length
    obtain ⟨fr', s', hp⟩ := poll_offered hf hctx hs hl hkn 0 (closed := false) (by simp)
    rw [offered_zero] at hp
    have hnot : ¬ cum (fun i => frameLen mask (said i)) (k + 1) ≤ taken := by
      obtain rfl : k = n := by omega
      have := frameLen_pos mask (said k)
      simp only [cum]
      omega
    simp only [Nat.zero_min, Nat.add_zero] at hp
    rw [if_neg hnot, if_neg hnot] at hp
    obtain ⟨-, p1, p2, p3⟩ := hp
    have hs' : s' = [] := by
      have := Framed.poll_lt p1
      simp at this
      exact this
    subst hs'
    obtain ⟨q1, q2⟩ := filterPoll_stop (f := f) p1 (by simp)
    exact ⟨k, fr', q1, hkn, by rw [q2, List.append_nil], p2, p3⟩
  | succ d ih =>
    intro k fr hd hl hkn
    have hin := hl.inside
    have hlen := hf.length
    obtain ⟨fr', s', hp⟩ := poll_offered hf hctx hs hl hkn 0 (closed := false) (by simp)
    rw [offered_zero] at hp
    by_cases hc : cum (fun i => frameLen mask (said i)) (k + 1) ≤ taken
    · rw [if_pos hc] at hp
      obtain ⟨p1, p2, p3⟩ := hp
      obtain ⟨q1, q2⟩ := filterPoll_skip p1 (hskip k)
      obtain ⟨k', fr'', r1, r2, r3, r4, r5⟩ := ih (k + 1) fr' (by omega) p2 (by omega)
      refine ⟨k', fr'', by rw [q1]; exact r1, r2, ?_, r4, r5⟩
      rw [q2, ← r3, List.range_succ, List.map_append]
      simp
    · simp only [Nat.zero_min, Nat.add_zero] at hp
      rw [if_neg hc, if_neg hc] at hp
      obtain ⟨-, p1, p2, p3⟩ := hp
      have hs' : s' = [] := by
        have := Framed.poll_lt p1
        simp at this
        exact this
      subst hs'
      obtain ⟨q1, q2⟩ := filterPoll_stop (f := f) p1 (by simp)
      exact ⟨k, fr', q1, hkn, by rw [q2, List.append_nil], p2, p3⟩

/-- One poll of the filtered stream. -/
theorem filter_offered {f : OwnedMsg → Option OwnedMsg} {mask said n bss o} (hf : Flowing mask said n bss o) (hskip : ∀ i, f (said i) = none) {ctx : Context}
    (hctx : mask = decide (ctx = .server)) {maxDf maxMsg : Nat} (hs : ∀ i, (said i).spec.Sendable (min maxDf u32Max)) {k taken : Nat} {fr : Framed MsgCodec}
    (hl : Listens ctx maxDf maxMsg (fun i => frameLen mask (said i)) k o.wire taken fr) (hkn : k ≤ n) (hr : fr.readable = false) (c : Nat) {closed : Bool}
    (hcl : ¬ (closed = true ∧ o.wire.drop taken = [] ∧ 0 < c)) :
    ∃ k' fr' s', filterPoll f fr (offered (o.wire.drop taken) c closed) = (.notReady, fr', s') ∧ k' ≤ n ∧
      used (offered (o.wire.drop taken) c closed) s' = min c (o.wire.length - taken) ∧
      (List.range k).map said ++ filterSeen f fr (offered (o.wire.drop taken) c closed) = (List.range k').map said ∧
      Listens ctx maxDf maxMsg (fun i => frameLen mask (said i)) k' o.wire (taken + min c (o.wire.length - taken)) fr' ∧ fr'.readable = false := by
  have hin := hl.inside
  have hlen := hf.length
  have hidle := hl.idle hr
  obtain ⟨fr', s', hp⟩ := poll_offered hf hctx hs hl hkn c hcl
  rw [if_neg (by omega)] at hp
  obtain ⟨p0, hp⟩ := hp
  by_cases hc : cum (fun i => frameLen mask (said i)) (k + 1) ≤ taken + min c (o.wire.length - taken)
  · rw [if_pos hc] at hp
    obtain ⟨p1, rfl, p2, p3⟩ := hp
    have hkn' : k + 1 ≤ n := by
      refine cum_le_inv (len := fun i => frameLen mask (said i)) (fun i => frameLen_pos _ _) ?_
      omega
    obtain ⟨q1, q2⟩ := filterPoll_skip p1 (hskip k)
    obtain ⟨k', fr'', r1, r2, r3, r4, r5⟩ := filter_rest hf hskip hctx hs _ (k + 1) fr' rfl p2 hkn'
    refine ⟨k', fr'', [], by rw [q1]; exact r1, r2, ?_, ?_, r4, r5⟩
    · rw [← p0]; rfl
    · rw [q2, ← r3, List.range_succ, List.map_append]
      simp
  · rw [if_neg hc] at hp
    obtain ⟨p1, p2, p3⟩ := hp
    obtain ⟨q1, q2⟩ := filterPoll_stop (f := f) p1 (by simp)
    exact ⟨k, fr', s', q1, hkn, p0, by rw [q2, List.append_nil], p2, p3⟩

/-- The end of the stream, when everything was read. -/
theorem filter_end {f : OwnedMsg → Option OwnedMsg} {mask said n bss o} (hf : Flowing mask said n bss o) {ctx : Context}
    (hctx : mask = decide (ctx = .server)) {maxDf maxMsg : Nat} (hs : ∀ i, (said i).spec.Sendable (min maxDf u32Max)) {k taken : Nat} {fr : Framed MsgCodec}
    (hl : Listens ctx maxDf maxMsg (fun i => frameLen mask (said i)) k o.wire taken fr) (hr : fr.readable = false)
    (hend : taken = cum (fun i => frameLen mask (said i)) n) (hkn : k ≤ n) {c : Nat} (hc : 0 < c) (hd : o.wire.drop taken = []) :
    k = n ∧ offered (o.wire.drop taken) c true = [] ∧
    ∃ fr', filterPoll f fr (offered (o.wire.drop taken) c true) = (.ready .done, fr', []) ∧ filterSeen f fr (offered (o.wire.drop taken) c true) = [] := by
  have hidle := hl.idle hr
  have hk : k = n := by
    by_cases hk : k = n
    · exact hk
    · have := cum_mono (len := fun i => frameLen mask (said i)) (show k + 1 ≤ n by omega)
      omega
  have hoff : offered (o.wire.drop taken) c true = [] := by
    unfold offered
    rw [if_neg (by rw [hd]; simp), if_pos ⟨rfl, hd, hc⟩]
  have hb : fr.buf = [] := by
    rw [hl.buf]
    apply List.drop_of_length_le
    rw [List.length_take, hk]
    omega
  have hdec := decode_at hf hctx (maxMsg := maxMsg) hs hkn hl.inside hl.before
  rw [if_neg (by omega), ← hl.buf, ← hl.codec, hb] at hdec
  have hp : fr.poll msgDecoder [] = (.ready .done, { fr with buf := [], readable := true, eof := true }, []) := by
    unfold Framed.poll
    rw [if_neg (by simp [hr])]
    unfold Framed.pollRead Framed.pollEof
    simp only [hb, hdec, if_true]
  obtain ⟨q1, q2⟩ := filterPoll_stop (f := f) hp (by simp)
  exact ⟨hk, hoff, _, by rw [hoff]; exact q1, by rw [hoff]; exact q2⟩

/-! ## The client's `Select` -/

/-- Whether the stream is polled. -/
def ChatTask.polls (t : ChatTask) : Bool := !t.over && !(t.flag && t.chan.isSome)

/-- What one round makes of a poll of the stream that ends (`e`) or finds nothing more. -/
def ChatTask.polled (t : ChatTask) (e : Bool) (fr : Framed MsgCodec) (s : Src) : ChatTask :=
  { t with over := t.over || (t.polls && e), read := if t.polls then fr else t.read,
           seen := t.seen ++ (if t.polls then filterSeen pingOnly t.read s else []) }

theorem turn_idle (t : ChatTask) (s s' : Src) (script : List WEv) (e : Bool) (fr' : Framed MsgCodec) (hp : t.phase = .forward none)
    (hF : t.over = false → filterPoll pingOnly t.read s = (if e then .ready .done else .notReady, fr', s')) :
    t.turn s script =
      match t.chan with
      | some m => ({ t.polled e fr' s with flag := !t.flag && (t.polled e fr' s).over, chan := none, phase := .forward (some m) }, if t.polls then s' else s)
      | none =>
        if t.gone && (t.polled e fr' s).over then ({ t.polled e fr' s with flag := !t.flag, chan := none, phase := .closing }, if t.polls then s' else s)
        else ({ t.polled e fr' s with flag := !t.flag, chan := none }.after (.forward none) (t.out.flush script), if t.polls then s' else s) := by
  obtain ⟨lines, chan, gone, phase, flag, over, read, out, typed, seen⟩ := t
  simp only at hp hF
  subst hp
  cases over with
  | true =>
    cases flag <;> cases chan <;> cases gone <;>
      simp [ChatTask.turn, ChatTask.polled, ChatTask.polls, Selecting.poll, Selecting.pollOne, Selecting.pollStream, Selecting.pollUser, ChatTask.inbox, ChatTask.shown]
  | false =>
    have hF := hF rfl
    cases e <;> cases flag <;> cases chan <;> cases gone <;>
      simp [ChatTask.turn, ChatTask.polled, ChatTask.polls, Selecting.poll, Selecting.pollOne, Selecting.pollStream, Selecting.pollUser, ChatTask.inbox, ChatTask.shown, hF]

/-! ## The invariant -/

/-- What the async example server says. -/
def greets (lines : List Bytes) : Nat → OwnedMsg
  | 0 => .text (ascii "Hello World!")
  | i + 1 => sentBack (asks lines i)

def lens (lines : List Bytes) : Lens := ⟨fun i => frameLen true (asks lines i), fun i => frameLen false (greets lines i), fun i => (asks lines i).isClose⟩

def ChatPhase.stage : ChatPhase → CPhase
  | .forward none => .idle
  | .forward (some _) => .holding
  | .closing => .closing
  | .over _ => .over

def ServePhase.stage : ServePhase → SPhase
  | .greet => .greet
  | .greeting => .greeting
  | .forward none => .idle
  | .forward (some _) => .holding
  | .closing => .closing
  | .part => .part
  | .parting => .parting
  | .over _ => .over

def Tandem.count (x : Tandem) : Count :=
  ⟨x.chat.typed.length, x.chat.chan.isSome, x.chat.phase.stage, x.chat.flag, x.chat.over, x.chat.out.wire.length, x.up, x.server.heard.length, x.server.phase.stage,
    x.server.out.wire.length, x.down⟩

structure TandemInv (lines : List Bytes) (cdf cmsg sdf smsg : Nat) (r : Room) (x : Tandem) (bu bd : List Bytes) : Prop where
  sane : x.count.Sane (lens lines) r
  typed : x.chat.typed = (List.range x.chat.typed.length).map (lineAt lines)
  left : x.chat.lines = lines.drop x.chat.typed.length
  chan : ∀ m, x.chat.chan = some m → m = asks lines (x.chat.typed.length - 1)
  gone : x.chat.gone = x.count.gone (lens lines)
  chatHolds : ∀ m, x.chat.phase = .forward (some m) → m = asks lines x.count.pushed
  chatOver : ∀ e, x.chat.phase = .over e → e = .returned
  up : Flowing true (asks lines) x.count.pushed bu x.chat.out
  down : Flowing false (greets lines) x.count.answered bd x.server.out
  heard : x.server.heard = (List.range x.server.heard.length).map (asks lines)
  serverRead : Listens .server sdf smsg (lens lines).up x.server.heard.length x.chat.out.wire x.up x.server.read
  serverHolds : ∀ m, x.server.phase = .forward (some m) → m = greets lines x.server.heard.length
  serverOver : ∀ e, x.server.phase = .over e → e = .returned
  seen : x.chat.seen = (List.range x.chat.seen.length).map (greets lines)
  seenLe : x.chat.seen.length ≤ x.count.answered
  caught : cum (lens lines).down x.chat.seen.length ≤ x.down ∧ x.down < cum (lens lines).down (x.chat.seen.length + 1)
  chatRead : x.chat.over = false →
    Listens .client cdf cmsg (lens lines).down x.chat.seen.length x.server.out.wire x.down x.chat.read ∧ x.chat.read.readable = false

theorem asyncLine_eq (l : Bytes) : asyncLine l = ((lineSaid l).isClose, lineSaid l) := by
  unfold asyncLine lineSaid lineMessage
  split
  · simp [OwnedMsg.isClose]
  · split
    · simp [OwnedMsg.isClose]
    · simp [OwnedMsg.isClose]

theorem sentBack_not_ping (m : OwnedMsg) : pingOnly (sentBack m) = none := by cases m <;> rfl

theorem greets_skip (lines : List Bytes) (i : Nat) : pingOnly (greets lines i) = none := by
  cases i with
  | zero => rfl
  | succ i => exact sentBack_not_ping _

theorem lens_up_pos (lines : List Bytes) (i : Nat) : 0 < (lens lines).up i := frameLen_pos _ _

theorem lens_down_pos (lines : List Bytes) (i : Nat) : 0 < (lens lines).down i := frameLen_pos _ _

theorem isOver_iff (p : ChatPhase) : p.isOver = decide (p.stage = .over) := by
  cases p with
  | forward b => cases b <;> rfl
  | _ => rfl

theorem serveOver_iff (p : ServePhase) : p.isOver = decide (p.stage = .over) := by
  cases p with
  | forward b => cases b <;> rfl
  | _ => rfl

section
variable {lines : List Bytes} {cdf cmsg sdf smsg : Nat} {r : Room} {x : Tandem} {bu bd : List Bytes}

theorem tandem_type (h : TandemInv lines cdf cmsg sdf smsg r x bu bd) :
    TandemInv lines cdf cmsg sdf smsg r (x.step r .type) bu bd ∧ (x.step r .type).count = x.count.step (lens lines) r .type := by
  have hc : (x.step r .type).count = x.count.step (lens lines) r .type := by
    simp only [Tandem.step, Count.step, ChatTask.type, Count.type]
    have e1 : x.chat.gone = x.count.gone (lens lines) := h.gone
    rw [e1, isOver_iff]
    show Tandem.count _ = if (x.count.gone (lens lines) || x.chat.chan.isSome || decide (x.chat.phase.stage = .over)) = true then _ else _
    split
    · rfl
    · simp [Tandem.count]
  have hs := Count.sane_step h.sane .type
  rw [← hc] at hs
  refine ⟨?_, hc⟩
  by_cases hcond : (x.chat.gone || x.chat.chan.isSome || x.chat.phase.isOver) = true
  · have : x.step r .type = x := by
      simp only [Tandem.step, ChatTask.type]
      rw [if_pos hcond]
    rw [this]
    exact h
  · have hl : x.chat.lines.headD [] = lines[x.chat.typed.length]?.getD [] := by
      rw [h.left, List.headD_eq_head?_getD, List.head?_drop]
    have hstep : x.step r .type = { x with chat := { x.chat with lines := x.chat.lines.tail, chan := some (asks lines x.chat.typed.length),
                                                                 gone := (asks lines x.chat.typed.length).isClose,
                                                                 typed := x.chat.typed ++ [lineAt lines x.chat.typed.length] } } := by
      simp only [Tandem.step, ChatTask.type]
      rw [if_neg hcond, asyncLine_eq, hl]
      rfl
    simp only [Bool.or_eq_true, not_or, Bool.not_eq_true] at hcond
    obtain ⟨⟨c1, c2⟩, c3⟩ := hcond
    have hpu : (x.step r .type).count.pushed = x.count.pushed := by
      rw [hstep]
      simp [Count.pushed, Count.held, Tandem.count, c2]
    have hpu' : (x.step r .type).count.pushed = x.count.pushed := hpu
    rw [hstep] at hs hpu ⊢
    refine ⟨hs, ?_, ?_, ?_, ?_, ?_, h.chatOver, ?_, h.down, h.heard, h.serverRead, h.serverHolds, h.serverOver, h.seen, h.seenLe, h.caught, h.chatRead⟩
    · simp only [List.length_append, List.length_singleton]
      rw [List.range_succ, List.map_append, ← h.typed]
      simp
    · simp only [List.length_append, List.length_singleton, h.left, List.tail_drop]
    · intro m hm
      simp only [Option.some.injEq] at hm
      rw [← hm]
      simp
    · simp [Count.gone, Tandem.count, lens]
    · intro m hm
      rw [hpu]
      exact h.chatHolds m hm
    · rw [hpu]; exact h.up

/-! ### The server moves -/

theorem inv_server_out (h : TandemInv lines cdf cmsg sdf smsg r x bu bd) (p : ServePhase) (o : Outbox) (bd' : List Bytes)
    (hs : ({ x with server := { x.server with phase := p, out := o } } : Tandem).count.Sane (lens lines) r)
    (ho : ∃ b, o.wire = x.server.out.wire ++ b)
    (hf : Flowing false (greets lines) ({ x with server := { x.server with phase := p, out := o } } : Tandem).count.answered bd' o)
    (hp : ∀ m, p = .forward (some m) → m = greets lines x.server.heard.length) (hpo : ∀ e, p = .over e → e = .returned)
    (ha : x.count.answered ≤ ({ x with server := { x.server with phase := p, out := o } } : Tandem).count.answered) :
    TandemInv lines cdf cmsg sdf smsg r { x with server := { x.server with phase := p, out := o } } bu bd' := by
  obtain ⟨b, hb⟩ := ho
  refine ⟨hs, h.typed, h.left, h.chan, h.gone, h.chatHolds, h.chatOver, h.up, hf, h.heard, h.serverRead, hp, hpo, h.seen, Nat.le_trans h.seenLe ha, h.caught, ?_⟩
  intro ho
  have := h.chatRead ho
  refine ⟨?_, this.2⟩
  simp only
  rw [hb]
  exact this.1.grow b

theorem downTransit_length (h : TandemInv lines cdf cmsg sdf smsg r x bu bd) : x.downTransit.length = x.count.back - x.count.read := by
  simp [Tandem.downTransit, Tandem.count]

theorem down_data (h : TandemInv lines cdf cmsg sdf smsg r x bu bd) :
    x.server.out.sink.buf.data.length = cum (lens lines).down x.count.answered - x.count.back := by
  have h1 := h.down.length
  show _ = cum (fun i => frameLen false (greets lines i)) x.count.answered - x.server.out.wire.length
  omega

theorem up_data (h : TandemInv lines cdf cmsg sdf smsg r x bu bd) :
    x.chat.out.sink.buf.data.length = cum (lens lines).up x.count.pushed - x.count.sent := by
  have h1 := h.up.length
  show _ = cum (fun i => frameLen true (asks lines i)) x.count.pushed - x.chat.out.wire.length
  omega

theorem sflush_back (h : TandemInv lines cdf cmsg sdf smsg r x bu bd) (k : Nat) :
    (x.count.sflush (lens lines) r k).back = x.server.out.wire.length + leaves x.server.out (r.down - x.downTransit.length) k := by
  rw [downTransit_length h]
  unfold leaves
  rw [down_data h]
  rfl

theorem cflush_sent (h : TandemInv lines cdf cmsg sdf smsg r x bu bd) (k : Nat) :
    (x.count.cflush (lens lines) r k).sent = x.chat.out.wire.length + leaves x.chat.out (r.up - x.upTransit.length) k := by
  have : x.upTransit.length = x.count.sent - x.count.got := by simp [Tandem.upTransit, Tandem.count]
  rw [this]
  unfold leaves
  rw [up_data h]
  rfl

theorem task_lim_lt (a : Nat) : min a u32Max < 2 ^ 63 := Nat.lt_of_le_of_lt (Nat.min_le_right _ _) (by decide)

/-- A message is put into the server's sink. -/
theorem serve_push (hg : ∀ i, (greets lines i).spec.Sendable (min cdf u32Max)) (h : TandemInv lines cdf cmsg sdf smsg r x bu bd) (n k : Nat) (next : ServePhase)
    (hturn : ∀ s script, x.server.turn s script = (x.server.after next (x.server.out.push (greets lines x.count.answered) script), s))
    (hserve : x.count.serve (lens lines) r n k = x.count.spush (lens lines) r k next.stage)
    (hnext : ({ x.count with sphase := next.stage } : Count).answered = x.count.answered + 1)
    (hp : ∀ m, next ≠ .forward (some m)) (hpo : ∀ e, next ≠ .over e) :
    ∃ bd', TandemInv lines cdf cmsg sdf smsg r (x.step r (.serve n k)) bu bd' ∧ (x.step r (.serve n k)).count = x.count.step (lens lines) r (.serve n k) := by
  have hd := down_data h
  have hsb := sflush_back h k
  obtain ⟨o', hw, hq⟩ := push_flowing h.down (task_lim_lt cdf) (hg x.count.answered) (r.down - x.downTransit.length) k
  have hstep : x.step r (.serve n k) =
      { x with server := x.server.after next (x.server.out.push (greets lines x.count.answered) (granted (r.down - x.downTransit.length) k)) } := by
    simp only [Tandem.step, hturn, used_self, Nat.add_zero]
  have hcs : x.count.step (lens lines) r (.serve n k) = x.count.spush (lens lines) r k next.stage := hserve
  have main : ∃ p o, x.step r (.serve n k) = { x with server := { x.server with phase := p, out := o } } ∧ (∃ b, o.wire = x.server.out.wire ++ b) ∧
      (p = next ∨ p = x.server.phase) ∧
      ({ x with server := { x.server with phase := p, out := o } } : Tandem).count = x.count.spush (lens lines) r k next.stage ∧
      ∃ bd', Flowing false (greets lines) ({ x with server := { x.server with phase := p, out := o } } : Tandem).count.answered bd' o := by
    rw [hstep]
    by_cases c1 : x.server.out.sink.buf.data.length < 8192
    · rw [if_pos c1] at hq
      obtain ⟨q1, ⟨b, q2⟩, q3⟩ := hq
      refine ⟨next, o', by rw [q1]; rfl, hw, .inl rfl, ?_, bd ++ [b], ?_⟩
      · unfold Count.spush
        rw [if_pos (by omega)]
        simp only [Tandem.count, q3]
      · have : ({ x with server := { x.server with phase := next, out := o' } } : Tandem).count.answered = x.count.answered + 1 := hnext
        rw [this]; exact q2
    · rw [if_neg c1] at hq
      obtain ⟨q3, hq⟩ := hq
      have hl : leaves x.server.out (r.down - x.downTransit.length) k ≤ x.server.out.sink.buf.data.length := by unfold leaves; omega
      have e1 : x.count.back = x.server.out.wire.length := rfl
      by_cases c2 : x.server.out.sink.buf.data.length - leaves x.server.out (r.down - x.downTransit.length) k < 8192
      · rw [if_pos c2] at hq
        obtain ⟨q1, b, q2⟩ := hq
        refine ⟨next, o', by rw [q1]; rfl, hw, .inl rfl, ?_, bd ++ [b], ?_⟩
        · unfold Count.spush
          rw [if_neg (by omega), if_pos (by omega)]
          have : ({ x with server := { x.server with phase := next, out := o' } } : Tandem).count =
              { x.count with sphase := next.stage, back := o'.wire.length } := rfl
          rw [this, q3, ← hsb]
          rfl
        · have : ({ x with server := { x.server with phase := next, out := o' } } : Tandem).count.answered = x.count.answered + 1 := hnext
          rw [this]; exact q2
      · rw [if_neg c2] at hq
        obtain ⟨q1, q2⟩ := hq
        refine ⟨x.server.phase, o', by rw [q1]; rfl, hw, .inr rfl, ?_, bd, q2⟩
        unfold Count.spush
        rw [if_neg (by omega), if_neg (by omega)]
        have : ({ x with server := { x.server with phase := x.server.phase, out := o' } } : Tandem).count =
            { x.count with back := o'.wire.length } := rfl
        rw [this, q3, ← hsb]
        rfl
  obtain ⟨p, o, m1, m2, m3, m4, bd', m5⟩ := main
  have hcount : (x.step r (.serve n k)).count = x.count.step (lens lines) r (.serve n k) := by rw [m1, m4, hcs]
  refine ⟨bd', ?_, hcount⟩
  have hsane := Count.sane_step h.sane (.serve n k)
  rw [← hcount] at hsane
  have hgrow := (Count.grows_step (L := lens lines) (r := r) (a := x.count) (.serve n k)).answered
  rw [← hcount] at hgrow
  rw [m1] at hsane hgrow ⊢
  refine inv_server_out h p o bd' hsane m2 m5 ?_ ?_ hgrow
  · intro m hm
    rcases m3 with m3 | m3
    · rw [m3] at hm; exact absurd hm (hp m)
    · rw [m3] at hm; exact h.serverHolds m hm
  · intro e he
    rcases m3 with m3 | m3
    · rw [m3] at he; exact absurd he (hpo e)
    · rw [m3] at he; exact h.serverOver e he

/-- The server's sink is flushed. -/
theorem serve_done (h : TandemInv lines cdf cmsg sdf smsg r x bu bd) (n k : Nat) (next : ServePhase)
    (hturn : ∀ s script, x.server.turn s script = (x.server.after next (x.server.out.flush script), s))
    (hserve : x.count.serve (lens lines) r n k = x.count.sdone (lens lines) r k next.stage)
    (hnext : ({ x.count with sphase := next.stage } : Count).answered = x.count.answered)
    (hp : ∀ m, next ≠ .forward (some m)) (hpo : ∀ e, next = .over e → e = .returned) :
    ∃ bd', TandemInv lines cdf cmsg sdf smsg r (x.step r (.serve n k)) bu bd' ∧ (x.step r (.serve n k)).count = x.count.step (lens lines) r (.serve n k) := by
  have hd := down_data h
  have hsb := sflush_back h k
  have hlen := h.down.length
  obtain ⟨o', f1, f2, f3, f4⟩ := flush_flowing h.down (r.down - x.downTransit.length) k
  have hstep : x.step r (.serve n k) =
      { x with server := x.server.after next (x.server.out.flush (granted (r.down - x.downTransit.length) k)) } := by
    simp only [Tandem.step, hturn, used_self, Nat.add_zero]
  have hcs : x.count.step (lens lines) r (.serve n k) = x.count.sdone (lens lines) r k next.stage := hserve
  have e1 : x.count.back = x.server.out.wire.length := rfl
  have e2 : cum (fun i => frameLen false (greets lines i)) x.count.answered = cum (lens lines).down x.count.answered := rfl
  have main : ∃ p, x.step r (.serve n k) = { x with server := { x.server with phase := p, out := o' } } ∧
      (p = next ∨ p = x.server.phase) ∧
      ({ x with server := { x.server with phase := p, out := o' } } : Tandem).count = x.count.sdone (lens lines) r k next.stage ∧
      Flowing false (greets lines) ({ x with server := { x.server with phase := p, out := o' } } : Tandem).count.answered bd o' := by
    rw [hstep, f1]
    by_cases c1 : x.server.out.sink.buf.data.length ≤ min (r.down - x.downTransit.length) k
    · rw [if_pos c1]
      refine ⟨next, rfl, .inl rfl, ?_, ?_⟩
      · unfold Count.sdone
        rw [if_pos (by rw [hsb]; unfold leaves; rw [Nat.min_eq_right c1]; omega)]
        have : ({ x with server := { x.server with phase := next, out := o' } } : Tandem).count =
            { x.count with sphase := next.stage, back := o'.wire.length } := rfl
        rw [this, f4, ← hsb]
        rfl
      · have : ({ x with server := { x.server with phase := next, out := o' } } : Tandem).count.answered = x.count.answered := hnext
        rw [this]; exact f2
    · rw [if_neg c1]
      refine ⟨x.server.phase, rfl, .inr rfl, ?_, f2⟩
      unfold Count.sdone
      rw [if_neg (by rw [hsb]; unfold leaves; omega)]
      have : ({ x with server := { x.server with phase := x.server.phase, out := o' } } : Tandem).count =
          { x.count with back := o'.wire.length } := rfl
      rw [this, f4, ← hsb]
      rfl
  obtain ⟨p, m1, m3, m4, m5⟩ := main
  have hcount : (x.step r (.serve n k)).count = x.count.step (lens lines) r (.serve n k) := by rw [m1, m4, hcs]
  refine ⟨bd, ?_, hcount⟩
  have hsane := Count.sane_step h.sane (.serve n k)
  rw [← hcount] at hsane
  have hgrow := (Count.grows_step (L := lens lines) (r := r) (a := x.count) (.serve n k)).answered
  rw [← hcount] at hgrow
  rw [m1] at hsane hgrow ⊢
  refine inv_server_out h p o' bd hsane f3 m5 ?_ ?_ hgrow
  · intro m hm
    rcases m3 with m3 | m3
    · rw [m3] at hm; exact absurd hm (hp m)
    · rw [m3] at hm; exact h.serverHolds m hm
  · intro e he
    rcases m3 with m3 | m3
    · rw [m3] at he; exact hpo e he
    · rw [m3] at he; exact h.serverOver e he

/-- What the server makes of what it hears. -/
theorem filterReply_asks (lines : List Bytes) (i : Nat) (hc : (asks lines i).isClose = false) : filterReply (asks lines i) = some (greets lines (i + 1)) := by
  have hl : (asks lines i).isClose = true ∨ asks lines i = .ping (ascii "PING") ∨ asks lines i = .text (lineAt lines i) := by
    unfold asks
    have := asyncLine_eq (lineAt lines i)
    unfold asyncLine at this
    split at this
    · left; exact (congrArg Prod.fst this).symm
    · split at this
      · right; left; exact (congrArg Prod.snd this).symm
      · right; right; exact (congrArg Prod.snd this).symm
  rcases hl with hl | hl | hl
  · rw [hl] at hc; exact absurd hc (by decide)
  · simp only [greets, hl]; rfl
  · simp only [greets, hl]; rfl

theorem serve_count {L : Lens} {r : Room} {a : Count} {n k : Nat} (h : a.sphase = .idle) : a.serve L r n k =
    if cum L.up (a.heard + 1) ≤ a.got then a.item L
    else if cum L.up (a.heard + 1) ≤ a.got + min n (a.sent - a.got) then { a with got := a.got + min n (a.sent - a.got) }.item L
    else { a with got := a.got + min n (a.sent - a.got) }.sflush L r k := by
  cases a
  simp only at h
  subst h
  rfl

/-- The server's loop has read a message. -/
def ServeTask.took (t : ServeTask) (fr : Framed MsgCodec) (m : OwnedMsg) : ServeTask :=
  { t with read := fr, heard := t.heard ++ [m], phase := if m.isClose then .closing else .forward (filterReply m) }

/-- The server's loop. -/
theorem serve_idle (hu : ∀ i, (asks lines i).spec.Sendable (min sdf u32Max)) (h : TandemInv lines cdf cmsg sdf smsg r x bu bd) (n k : Nat)
    (hp : x.server.phase = .forward none) :
    ∃ bd', TandemInv lines cdf cmsg sdf smsg r (x.step r (.serve n k)) bu bd' ∧ (x.step r (.serve n k)).count = x.count.step (lens lines) r (.serve n k) := by
  have hsp : x.count.sphase = .idle := by show x.server.phase.stage = _; rw [hp]; rfl
  have hopen : x.chat.phase.isOver = false := by
    cases ho : x.chat.phase.isOver with
    | false => rfl
    | true =>
      rw [isOver_iff, decide_eq_true_eq] at ho
      have := h.sane.eof (h.sane.leaving (.inr ho)).1
      rw [hsp] at this
      exact absurd this.1 (by decide)
  have hhp := h.sane.heard_pushed (lens_up_pos lines)
  obtain ⟨fr', s', hq⟩ := poll_offered h.up (ctx := .server) rfl hu h.serverRead hhp n (closed := x.chat.phase.isOver) (by simp [hopen])
  have hsane := Count.sane_step h.sane (.serve n k)
  have hitem : ∀ (up : Nat) (y : Tandem), y = { x with server := x.server.took fr' (asks lines x.server.heard.length), up := up } →
      Listens .server sdf smsg (lens lines).up (x.server.heard.length + 1) x.chat.out.wire up fr' →
      y.count = x.count.step (lens lines) r (.serve n k) →
      TandemInv lines cdf cmsg sdf smsg r y bu bd := by
    intro up y hy hl hc
    rw [← hc] at hsane
    have hans : y.count.answered = x.count.answered := by
      have e1 : x.count.answered = x.server.heard.length + 1 := by simp only [Count.answered, hsp]; rfl
      rw [e1, hy]
      cases hcl : (asks lines x.server.heard.length).isClose with
      | true => simp [Count.answered, Tandem.count, ServePhase.stage, ServeTask.took, hcl]
      | false =>
        simp [Count.answered, Tandem.count, ServePhase.stage, ServeTask.took, hcl, filterReply_asks lines _ hcl]
    have hd : Flowing false (greets lines) y.count.answered bd y.server.out := by rw [hans, hy]; exact h.down
    have hse : y.chat.seen.length ≤ y.count.answered := by rw [hans, hy]; exact h.seenLe
    subst hy
    refine ⟨hsane, h.typed, h.left, h.chan, h.gone, h.chatHolds, h.chatOver, h.up, hd, ?_, ?_, ?_, ?_, h.seen, hse, h.caught, h.chatRead⟩
    · simp only [ServeTask.took, List.length_append, List.length_singleton]
      rw [List.range_succ, List.map_append, ← h.heard]
      simp
    · simp only [ServeTask.took, List.length_append, List.length_singleton]
      exact hl
    · intro m hm
      simp only [ServeTask.took, List.length_append, List.length_singleton] at hm ⊢
      cases hcl : (asks lines x.server.heard.length).isClose with
      | true => rw [hcl] at hm; simp at hm
      | false =>
        rw [hcl, filterReply_asks lines _ hcl] at hm
        simp at hm
        exact hm.symm
    · intro e he
      simp only [ServeTask.took] at he
      split at he <;> simp at he
  have eup : cum (fun i => frameLen true (asks lines i)) (x.server.heard.length + 1) = cum (lens lines).up (x.count.heard + 1) := rfl
  have hstage : (if (asks lines x.server.heard.length).isClose then ServePhase.closing
      else .forward (filterReply (asks lines x.server.heard.length))).stage = if (lens lines).last x.server.heard.length then .closing else .holding := by
    cases hcl : (asks lines x.server.heard.length).isClose with
    | true => simp [lens, hcl, ServePhase.stage]
    | false => simp [lens, hcl, ServePhase.stage, filterReply_asks lines _ hcl]
  have hserve : x.count.step (lens lines) r (.serve n k) =
      if cum (lens lines).up (x.count.heard + 1) ≤ x.count.got then x.count.item (lens lines)
      else if cum (lens lines).up (x.count.heard + 1) ≤ x.count.got + min n (x.count.sent - x.count.got) then
        { x.count with got := x.count.got + min n (x.count.sent - x.count.got) }.item (lens lines)
      else { x.count with got := x.count.got + min n (x.count.sent - x.count.got) }.sflush (lens lines) r k := by
    exact serve_count hsp
  by_cases c1 : cum (lens lines).up (x.count.heard + 1) ≤ x.count.got
  · rw [if_pos (show cum (fun i => frameLen true (asks lines i)) (x.server.heard.length + 1) ≤ x.up from c1)] at hq
    obtain ⟨q1, q2, q3⟩ := hq
    have hstep : x.step r (.serve n k) = { x with server := x.server.took fr' (asks lines x.server.heard.length), up := x.up } := by
      simp only [Tandem.step, ServeTask.turn, hp, Tandem.upTransit, q1, used_self, Nat.add_zero, ServeTask.took]
    have hcount : (x.step r (.serve n k)).count = x.count.step (lens lines) r (.serve n k) := by
      rw [hserve, if_pos c1, hstep]
      simp only [Tandem.count, ServeTask.took, List.length_append, List.length_singleton, hstage, Count.item]
      rfl
    exact ⟨bd, hitem _ _ hstep q2 hcount, hcount⟩
  · rw [if_neg (show ¬ cum (fun i => frameLen true (asks lines i)) (x.server.heard.length + 1) ≤ x.up from c1)] at hq
    obtain ⟨q0, hq⟩ := hq
    by_cases c2 : cum (lens lines).up (x.count.heard + 1) ≤ x.count.got + min n (x.count.sent - x.count.got)
    · rw [if_pos (show cum (fun i => frameLen true (asks lines i)) (x.server.heard.length + 1) ≤ x.up + min n (x.chat.out.wire.length - x.up) from c2)] at hq
      obtain ⟨q1, -, q2, q3⟩ := hq
      have hstep : x.step r (.serve n k) = { x with server := x.server.took fr' (asks lines x.server.heard.length), up := x.up + min n (x.chat.out.wire.length - x.up) } := by
        simp only [Tandem.step, ServeTask.turn, hp, Tandem.upTransit, q1, q0, ServeTask.took]
      have hcount : (x.step r (.serve n k)).count = x.count.step (lens lines) r (.serve n k) := by
        rw [hserve, if_neg c1, if_pos c2, hstep]
        simp only [Tandem.count, ServeTask.took, List.length_append, List.length_singleton, hstage, Count.item]
        rfl
      exact ⟨bd, hitem _ _ hstep q2 hcount, hcount⟩
    · rw [if_neg (show ¬ cum (fun i => frameLen true (asks lines i)) (x.server.heard.length + 1) ≤ x.up + min n (x.chat.out.wire.length - x.up) from c2)] at hq
      obtain ⟨q1, q2, q3⟩ := hq
      obtain ⟨o', f1, f2, f3, f4⟩ := flush_flowing h.down (r.down - x.downTransit.length) k
      have hstep : x.step r (.serve n k) = { x with server := { x.server with read := fr', out := o' }, up := x.up + min n (x.chat.out.wire.length - x.up) } := by
        have hphase : ({ x.server with phase := .forward none } : ServeTask) = x.server := by rw [← hp]
        simp only [Tandem.step, ServeTask.turn, hp, Tandem.upTransit, q1, q0, f1]
        split <;> simp only [ServeTask.after, hp] 
      have hcount : (x.step r (.serve n k)).count = x.count.step (lens lines) r (.serve n k) := by
        rw [hserve, if_neg c1, if_neg c2, hstep]
        have hsb := sflush_back h k
        have : ({ x with server := { x.server with read := fr', out := o' }, up := x.up + min n (x.chat.out.wire.length - x.up) } : Tandem).count =
            { x.count with got := x.count.got + min n (x.count.sent - x.count.got), back := o'.wire.length } := rfl
        rw [this, f4, ← hsb]
        rfl
      refine ⟨bd, ?_, hcount⟩
      rw [← hcount] at hsane
      rw [hstep] at hsane ⊢
      obtain ⟨b, hb⟩ := f3
      refine ⟨hsane, h.typed, h.left, h.chan, h.gone, h.chatHolds, h.chatOver, h.up, f2, h.heard, q2, h.serverHolds, h.serverOver, h.seen, h.seenLe, h.caught, ?_⟩
      intro ho
      have := h.chatRead ho
      refine ⟨?_, this.2⟩
      simp only
      rw [hb]
      exact this.1.grow b

theorem tandem_serve (hu : ∀ i, (asks lines i).spec.Sendable (min sdf u32Max)) (hg : ∀ i, (greets lines i).spec.Sendable (min cdf u32Max))
    (h : TandemInv lines cdf cmsg sdf smsg r x bu bd) (n k : Nat) :
    ∃ bd', TandemInv lines cdf cmsg sdf smsg r (x.step r (.serve n k)) bu bd' ∧ (x.step r (.serve n k)).count = x.count.step (lens lines) r (.serve n k) := by
  cases hp : x.server.phase with
  | greet =>
    have hsp : x.count.sphase = .greet := by show x.server.phase.stage = _; rw [hp]; rfl
    refine serve_push hg h n k .greeting (fun s script => ?_) (by unfold Count.serve; rw [hsp]; rfl) (by simp [Count.answered, hsp, ServePhase.stage]) (by simp) (by simp)
    unfold ServeTask.turn
    rw [hp]
    simp only
    rw [show x.count.answered = 0 by simp [Count.answered, hsp]]
    rfl
  | greeting =>
    have hsp : x.count.sphase = .greeting := by show x.server.phase.stage = _; rw [hp]; rfl
    have h0 := h.sane.starting (.inr hsp)
    refine serve_done h n k (.forward none) (fun s script => ?_) (by unfold Count.serve; rw [hsp]; rfl) (by simp [Count.answered, hsp, ServePhase.stage, h0]) (by simp) (by simp)
    unfold ServeTask.turn
    rw [hp]
  | forward b =>
    cases b with
    | none => exact serve_idle hu h n k hp
    | some m =>
      have hsp : x.count.sphase = .holding := by show x.server.phase.stage = _; rw [hp]; rfl
      refine serve_push hg h n k (.forward none) (fun s script => ?_) (by unfold Count.serve; rw [hsp]; rfl) (by simp [Count.answered, hsp, ServePhase.stage]) (by simp) (by simp)
      unfold ServeTask.turn
      rw [hp]
      simp only
      rw [h.serverHolds m hp, show x.count.answered = x.server.heard.length by simp only [Count.answered, hsp]; rfl]
  | closing =>
    have hsp : x.count.sphase = .closing := by show x.server.phase.stage = _; rw [hp]; rfl
    refine serve_done h n k .part (fun s script => ?_) (by unfold Count.serve; rw [hsp]; rfl) (by simp [Count.answered, hsp, ServePhase.stage]) (by simp) (by simp)
    unfold ServeTask.turn
    rw [hp]
  | part =>
    have hsp : x.count.sphase = .part := by show x.server.phase.stage = _; rw [hp]; rfl
    have hend := h.sane.ending (.inr (.inl hsp))
    refine serve_push hg h n k .parting (fun s script => ?_) (by unfold Count.serve; rw [hsp]; rfl) (by simp [Count.answered, hsp, ServePhase.stage]) (by simp) (by simp)
    unfold ServeTask.turn
    rw [hp]
    simp only
    rw [show x.count.answered = x.server.heard.length - 1 + 1 by
      have : x.count.answered = x.server.heard.length := by simp only [Count.answered, hsp]; rfl
      have : x.count.heard = x.server.heard.length := rfl
      omega]
    have hcl : (asks lines (x.server.heard.length - 1)).isClose = true := hend.2
    show _ = (x.server.after _ (x.server.out.push (sentBack (asks lines (x.server.heard.length - 1))) script), s)
    cases hm : asks lines (x.server.heard.length - 1) with
    | close d => rfl
    | text d => rw [hm] at hcl; cases hcl
    | binary d => rw [hm] at hcl; cases hcl
    | ping d => rw [hm] at hcl; cases hcl
    | pong d => rw [hm] at hcl; cases hcl
  | parting =>
    have hsp : x.count.sphase = .parting := by show x.server.phase.stage = _; rw [hp]; rfl
    refine serve_done h n k (.over .returned) (fun s script => ?_) (by unfold Count.serve; rw [hsp]; rfl) (by simp [Count.answered, hsp, ServePhase.stage]) (by simp)
      (fun e he => by cases he; rfl)
    unfold ServeTask.turn
    rw [hp]
  | over e =>
    have hsp : x.count.sphase = .over := by show x.server.phase.stage = _; rw [hp]; rfl
    have hstep : x.step r (.serve n k) = x := by
      simp only [Tandem.step, ServeTask.turn, hp, used_self, Nat.add_zero]
    rw [hstep]
    refine ⟨bd, h, ?_⟩
    show _ = x.count.serve (lens lines) r n k
    unfold Count.serve
    rw [hsp]

/-! ### The client moves -/

theorem inv_chat_out (h : TandemInv lines cdf cmsg sdf smsg r x bu bd) (p : ChatPhase) (o : Outbox) (flag : Bool) (chan : Option OwnedMsg) (bu' : List Bytes)
    (hs : ({ x with chat := { x.chat with phase := p, out := o, flag := flag, chan := chan } } : Tandem).count.Sane (lens lines) r)
    (ho : ∃ b, o.wire = x.chat.out.wire ++ b)
    (hf : Flowing true (asks lines) ({ x with chat := { x.chat with phase := p, out := o, flag := flag, chan := chan } } : Tandem).count.pushed bu' o)
    (hch : chan = none ∨ chan = x.chat.chan)
    (hp : ∀ m, p = .forward (some m) →
      m = asks lines ({ x with chat := { x.chat with phase := p, out := o, flag := flag, chan := chan } } : Tandem).count.pushed)
    (hpo : ∀ e, p = .over e → e = .returned) :
    TandemInv lines cdf cmsg sdf smsg r { x with chat := { x.chat with phase := p, out := o, flag := flag, chan := chan } } bu' bd := by
  obtain ⟨b, hb⟩ := ho
  refine ⟨hs, h.typed, h.left, ?_, h.gone, hp, hpo, hf, h.down, h.heard, ?_, h.serverHolds, h.serverOver, h.seen, h.seenLe, h.caught, h.chatRead⟩
  · intro m hm
    rcases hch with hch | hch
    · simp only at hm; rw [hch] at hm; cases hm
    · simp only at hm; rw [hch] at hm; exact h.chan m hm
  · have := h.serverRead
    simp only
    rw [hb]
    exact this.grow b

/-- The poll of the stream in one round of the client. -/
theorem chat_reading (hg : ∀ i, (greets lines i).spec.Sendable (min cdf u32Max)) (h : TandemInv lines cdf cmsg sdf smsg r x bu bd) (n : Nat) :
    ∃ e fr' s', (x.chat.over = false →
        filterPoll pingOnly x.chat.read (offered x.downTransit n x.server.phase.isOver) = (if e then .ready .done else .notReady, fr', s')) ∧
      TandemInv lines cdf cmsg sdf smsg r
        { x with chat := x.chat.polled e fr' (offered x.downTransit n x.server.phase.isOver),
                 down := x.down + used (offered x.downTransit n x.server.phase.isOver) (if x.chat.polls then s' else offered x.downTransit n x.server.phase.isOver) } bu bd ∧
      ({ x with chat := x.chat.polled e fr' (offered x.downTransit n x.server.phase.isOver),
                down := x.down + used (offered x.downTransit n x.server.phase.isOver)
                  (if x.chat.polls then s' else offered x.downTransit n x.server.phase.isOver) } : Tandem).count = x.count.reading n := by
  have hno : ∀ e fr' s', x.chat.polls = false →
      ({ x with chat := x.chat.polled e fr' (offered x.downTransit n x.server.phase.isOver),
                down := x.down + used (offered x.downTransit n x.server.phase.isOver)
                  (if x.chat.polls then s' else offered x.downTransit n x.server.phase.isOver) } : Tandem) = x := by
    intro e fr' s' hpo
    rw [hpo]
    simp only [ChatTask.polled, hpo, Bool.false_and, Bool.or_false, Bool.false_eq_true, if_false, List.append_nil, used_self, Nat.add_zero]
  have hcp : x.count.polls = x.chat.polls := rfl
  have hnc : x.chat.polls = false → x.count = x.count.reading n := by
    intro hpo
    unfold Count.reading
    rw [hcp, hpo]
    simp only [Bool.false_and, Bool.or_false, Bool.false_eq_true, if_false]
  cases hov : x.chat.over with
  | true =>
    have hpo : x.chat.polls = false := by simp [ChatTask.polls, hov]
    refine ⟨false, x.chat.read, [], by simp, ?_⟩
    rw [hno _ _ _ hpo]
    exact ⟨h, hnc hpo⟩
  | false =>
    obtain ⟨hl, hr⟩ := h.chatRead hov
    have hsane := Count.sane_reading n h.sane
    by_cases hend : x.server.phase.isOver = true ∧ x.server.out.wire.drop x.down = [] ∧ 0 < n
    · obtain ⟨he1, he2, he3⟩ := hend
      have hso : x.count.sphase = .over := by rw [serveOver_iff, decide_eq_true_eq] at he1; exact he1
      have hb : x.server.out.wire.length = cum (lens lines).down x.count.answered := h.sane.over hso
      have hle : x.server.out.wire.length ≤ x.down := by simpa using he2
      have hrb : x.down ≤ x.server.out.wire.length := h.sane.read_back
      obtain ⟨k1, k2, fr', k3, k4⟩ := filter_end (f := pingOnly) h.down (ctx := .client) rfl hg hl hr
        (show x.down = cum (lens lines).down x.count.answered by omega) h.seenLe he3 he2
      refine ⟨true, fr', [], fun _ => ?_, ?_⟩
      · rw [he1]; exact k3
      cases hpo : x.chat.polls with
      | false =>
        have := hno true fr' [] hpo
        rw [hpo] at this
        rw [this]
        exact ⟨h, hnc hpo⟩
      | true =>
        rw [he1]
        have hoff : offered x.downTransit n true = [] := k2
        have hseen : filterSeen pingOnly x.chat.read ([] : Src) = [] := by rw [← k2]; exact k4
        have hy : ({ x with chat := x.chat.polled true fr' (offered x.downTransit n true),
                            down := x.down + used (offered x.downTransit n true) (if true = true then ([] : Src) else offered x.downTransit n true) } : Tandem) =
            { x with chat := { x.chat with over := true, read := fr' } } := by
          rw [hoff, if_pos rfl, used_self, Nat.add_zero]
          simp only [ChatTask.polled, hpo, hseen, if_true, Bool.and_true, Bool.or_true, List.append_nil]
        rw [hy]
        have hc : ({ x with chat := { x.chat with over := true, read := fr' } } : Tandem).count = x.count.reading n := by
          unfold Count.reading
          rw [hcp, hpo, hso]
          have e1 : x.count.back = x.count.read := show x.server.out.wire.length = x.down by omega
          simp only [e1, he3, decide_true, Bool.and_true, Bool.or_true, if_true, Nat.sub_self, Nat.min_zero, Nat.add_zero]
          simp only [Tandem.count] at e1 hso ⊢
          rw [← hso, ← e1]
        refine ⟨?_, hc⟩
        rw [← hc] at hsane
        refine ⟨hsane, h.typed, h.left, h.chan, h.gone, h.chatHolds, h.chatOver, h.up, h.down, h.heard, h.serverRead, h.serverHolds, h.serverOver, h.seen, h.seenLe, h.caught, ?_⟩
        intro ho
        simp at ho
    · obtain ⟨k', fr', s', k1, k2, k3, k4, k5, k6⟩ := filter_offered (f := pingOnly) h.down (greets_skip lines) (ctx := .client) rfl hg hl h.seenLe hr n hend
      refine ⟨false, fr', s', fun _ => by simp; exact k1, ?_⟩
      cases hpo : x.chat.polls with
      | false =>
        have := hno false fr' s' hpo
        rw [hpo] at this
        rw [this]
        exact ⟨h, hnc hpo⟩
      | true =>
        have k4' : x.chat.seen ++ filterSeen pingOnly x.chat.read (offered x.downTransit n x.server.phase.isOver) = (List.range k').map (greets lines) := by
          rw [h.seen]; exact k4
        have hy : ({ x with chat := x.chat.polled false fr' (offered x.downTransit n x.server.phase.isOver),
                            down := x.down + used (offered x.downTransit n x.server.phase.isOver)
                              (if true = true then s' else offered x.downTransit n x.server.phase.isOver) } : Tandem) =
            { x with chat := { x.chat with read := fr', seen := (List.range k').map (greets lines) }, down := x.down + min n (x.server.out.wire.length - x.down) } := by
          rw [if_pos rfl, show used (offered x.downTransit n x.server.phase.isOver) s' = min n (x.server.out.wire.length - x.down) from k3]
          simp only [ChatTask.polled, hpo, if_true, Bool.and_false, Bool.or_false, k4']
        rw [hy]
        have hc : ({ x with chat := { x.chat with read := fr', seen := (List.range k').map (greets lines) },
                            down := x.down + min n (x.server.out.wire.length - x.down) } : Tandem).count = x.count.reading n := by
          unfold Count.reading
          rw [hcp, hpo]
          have e1 : (decide (0 < n) && decide (x.count.back = x.count.read) && decide (x.count.sphase = .over)) = false := by
            rw [Bool.eq_false_iff]
            intro hx
            simp only [Bool.and_eq_true, decide_eq_true_eq] at hx
            refine hend ⟨?_, ?_, hx.1.1⟩
            · rw [serveOver_iff, decide_eq_true_eq]; exact hx.2
            · apply List.drop_of_length_le
              exact Nat.le_of_eq hx.1.2
          simp only [Bool.true_and, e1, Bool.or_false, if_true]
          rfl
        refine ⟨?_, hc⟩
        rw [← hc] at hsane
        refine ⟨hsane, h.typed, h.left, h.chan, h.gone, h.chatHolds, h.chatOver, h.up, h.down, h.heard, h.serverRead, h.serverHolds, h.serverOver, ?_, ?_, ?_, ?_⟩
        · simp
        · show ((List.range k').map (greets lines)).length ≤ x.count.answered
          simpa using k2
        · simp only [List.length_map, List.length_range]
          exact ⟨k5.before, k5.idle k6⟩
        · intro _
          simp only [List.length_map, List.length_range]
          exact ⟨k5, k6⟩

theorem chat_round (hg : ∀ i, (greets lines i).spec.Sendable (min cdf u32Max))
    (h : TandemInv lines cdf cmsg sdf smsg r x bu bd) (n k : Nat) (hp : x.chat.phase = .forward none) :
    ∃ bu', TandemInv lines cdf cmsg sdf smsg r (x.step r (.chat n k)) bu' bd ∧ (x.step r (.chat n k)).count = x.count.step (lens lines) r (.chat n k) := by
  have hcp : x.count.cphase = .idle := by show x.chat.phase.stage = _; rw [hp]; rfl
  have hsane := Count.sane_step h.sane (.chat n k)
  obtain ⟨e, fr', s', hF, hy, hcy⟩ := chat_reading hg h n
  have ht := turn_idle x.chat (offered x.downTransit n x.server.phase.isOver) s' (granted (r.up - x.upTransit.length) k) e fr' hp hF
  have hcs : x.count.step (lens lines) r (.chat n k) = x.count.chat (lens lines) r n k := rfl
  rw [Count.chat_idle hcp] at hcs
  have heof : (x.count.reading n).eof = (x.chat.polled e fr' (offered x.downTransit n x.server.phase.isOver)).over := by rw [← hcy]; rfl
  have hgone := h.gone
  cases hch : x.chat.chan with
  | some m =>
    have hcc : x.count.chan = true := by show x.chat.chan.isSome = true; rw [hch]; rfl
    have hm := h.chan m hch
    rw [hch] at ht
    rw [if_pos hcc, ← hcy] at hcs
    have hstep : x.step r (.chat n k) =
        { x with chat := { x.chat.polled e fr' (offered x.downTransit n x.server.phase.isOver) with
                           phase := .forward (some m), out := x.chat.out, flag := !x.chat.flag && (x.chat.polled e fr' (offered x.downTransit n x.server.phase.isOver)).over,
                           chan := none },
                 down := x.down + used (offered x.downTransit n x.server.phase.isOver) (if x.chat.polls then s' else offered x.downTransit n x.server.phase.isOver) } := by
      simp only [Tandem.step, ht]
      rfl
    have hcount : (x.step r (.chat n k)).count = x.count.step (lens lines) r (.chat n k) := by
      rw [hcs, hstep]
      rfl
    refine ⟨bu, ?_, hcount⟩
    rw [← hcount] at hsane
    rw [hstep] at hsane ⊢
    have hpu : ({ x with chat := { x.chat.polled e fr' (offered x.downTransit n x.server.phase.isOver) with
                           phase := .forward (some m), out := x.chat.out, flag := !x.chat.flag && (x.chat.polled e fr' (offered x.downTransit n x.server.phase.isOver)).over,
                           chan := none },
                         down := x.down + used (offered x.downTransit n x.server.phase.isOver)
                              (if x.chat.polls then s' else offered x.downTransit n x.server.phase.isOver) } : Tandem).count.pushed = x.chat.typed.length - 1 := by
      simp [Count.pushed, Count.held, Tandem.count, ChatPhase.stage, ChatTask.polled]
    refine inv_chat_out hy (.forward (some m)) x.chat.out _ none bu hsane ⟨[], by simp [ChatTask.polled]⟩ ?_ (.inl rfl) ?_ (by simp)
    · have : x.count.pushed = x.chat.typed.length - 1 := by
        simp [Count.pushed, Count.held, Tandem.count, ChatPhase.stage, hp, hch]
      rw [hpu, ← this]
      exact h.up
    · intro m' hm'
      rw [hpu]
      simp only [ChatPhase.forward.injEq, Option.some.injEq] at hm'
      rw [← hm', hm]
  | none =>
    have hcc : ¬ x.count.chan = true := by show ¬ x.chat.chan.isSome = true; rw [hch]; simp
    rw [hch] at ht
    rw [if_neg hcc, heof, ← hgone] at hcs
    by_cases hgo : (x.chat.gone && (x.chat.polled e fr' (offered x.downTransit n x.server.phase.isOver)).over) = true
    · simp only [if_pos hgo] at ht
      rw [if_pos hgo, ← hcy] at hcs
      have hstep : x.step r (.chat n k) =
          { x with chat := { x.chat.polled e fr' (offered x.downTransit n x.server.phase.isOver) with
                             phase := .closing, out := x.chat.out, flag := !x.chat.flag, chan := none },
                   down := x.down + used (offered x.downTransit n x.server.phase.isOver) (if x.chat.polls then s' else offered x.downTransit n x.server.phase.isOver) } := by
        simp only [Tandem.step, ht]
        rfl
      have hcount : (x.step r (.chat n k)).count = x.count.step (lens lines) r (.chat n k) := by
        rw [hcs, hstep]
        simp [Tandem.count, ChatTask.polled, ChatPhase.stage, hch]
      refine ⟨bu, ?_, hcount⟩
      rw [← hcount] at hsane
      rw [hstep] at hsane ⊢
      refine inv_chat_out hy .closing x.chat.out _ none bu hsane ⟨[], by simp [ChatTask.polled]⟩ ?_ (.inl rfl) (by simp) (by simp)
      have : x.count.pushed = x.chat.typed.length := by
        simp [Count.pushed, Count.held, Tandem.count, ChatPhase.stage, hp, hch]
      have hup := h.up
      rw [this] at hup
      simpa [Count.pushed, Count.held, Tandem.count, ChatPhase.stage, ChatTask.polled] using hup
    · simp only [if_neg hgo] at ht
      rw [if_neg hgo] at hcs
      obtain ⟨o', f1, f2, f3, f4⟩ := flush_flowing h.up (r.up - x.upTransit.length) k
      have hpp : (x.chat.polled e fr' (offered x.downTransit n x.server.phase.isOver)).phase = .forward none := hp
      have hstep : x.step r (.chat n k) =
          { x with chat := { x.chat.polled e fr' (offered x.downTransit n x.server.phase.isOver) with
                             phase := .forward none, out := o', flag := !x.chat.flag, chan := none },
                   down := x.down + used (offered x.downTransit n x.server.phase.isOver) (if x.chat.polls then s' else offered x.downTransit n x.server.phase.isOver) } := by
        simp only [Tandem.step, ht, f1]
        split <;> simp only [ChatTask.after, hpp]
      have hcount : (x.step r (.chat n k)).count = x.count.step (lens lines) r (.chat n k) := by
        rw [hcs, hstep]
        have hsb := cflush_sent h k
        have e2 : ({ x.count.reading n with flag := !x.count.flag } : Count).cflush (lens lines) r k =
            { x.count.reading n with flag := !x.count.flag, sent := (x.count.cflush (lens lines) r k).sent } := rfl
        rw [e2, hsb, ← f4, ← hcy]
        simp [Tandem.count, ChatTask.polled, ChatPhase.stage, hch, hp]
      refine ⟨bu, ?_, hcount⟩
      rw [← hcount] at hsane
      rw [hstep] at hsane ⊢
      refine inv_chat_out hy (.forward none) o' _ none bu hsane f3 ?_ (.inl rfl) (by simp) (by simp)
      have : x.count.pushed = x.chat.typed.length := by
        simp [Count.pushed, Count.held, Tandem.count, ChatPhase.stage, hp, hch]
      rw [this] at f2
      simpa [Count.pushed, Count.held, Tandem.count, ChatPhase.stage, ChatTask.polled] using f2

theorem tandem_chat (hu : ∀ i, (asks lines i).spec.Sendable (min sdf u32Max)) (hg : ∀ i, (greets lines i).spec.Sendable (min cdf u32Max))
    (h : TandemInv lines cdf cmsg sdf smsg r x bu bd) (n k : Nat) :
    ∃ bu', TandemInv lines cdf cmsg sdf smsg r (x.step r (.chat n k)) bu' bd ∧ (x.step r (.chat n k)).count = x.count.step (lens lines) r (.chat n k) := by
  have hsane := Count.sane_step h.sane (.chat n k)
  have hcs : x.count.step (lens lines) r (.chat n k) = x.count.chat (lens lines) r n k := rfl
  have hd := up_data h
  have hsb := cflush_sent h k
  have hlen := h.up.length
  have e1 : x.count.sent = x.chat.out.wire.length := rfl
  have e2 : cum (fun i => frameLen true (asks lines i)) x.count.pushed = cum (lens lines).up x.count.pushed := rfl
  cases hp : x.chat.phase with
  | over e =>
    have hcp : x.count.cphase = .over := by show x.chat.phase.stage = _; rw [hp]; rfl
    have hstep : x.step r (.chat n k) = x := by
      simp only [Tandem.step, ChatTask.turn, hp, used_self, Nat.add_zero]
    rw [hstep]
    refine ⟨bu, h, ?_⟩
    rw [hcs]
    unfold Count.chat
    rw [hcp]
  | closing =>
    have hcp : x.count.cphase = .closing := by show x.chat.phase.stage = _; rw [hp]; rfl
    rw [Count.chat_closing hcp] at hcs
    obtain ⟨o', f1, f2, f3, f4⟩ := flush_flowing h.up (r.up - x.upTransit.length) k
    have hturn : ∀ s, x.chat.turn s (granted (r.up - x.upTransit.length) k) = (x.chat.after (.over .returned) (x.chat.out.flush (granted (r.up - x.upTransit.length) k)), s) := by
      intro s
      unfold ChatTask.turn
      rw [hp]
    have main : ∃ p, x.step r (.chat n k) = { x with chat := { x.chat with phase := p, out := o', flag := x.chat.flag, chan := x.chat.chan } } ∧
        (p = .over .returned ∨ p = .closing) ∧
        ({ x with chat := { x.chat with phase := p, out := o', flag := x.chat.flag, chan := x.chat.chan } } : Tandem).count = x.count.step (lens lines) r (.chat n k) := by
      by_cases c1 : x.chat.out.sink.buf.data.length ≤ min (r.up - x.upTransit.length) k
      · rw [if_pos c1] at f1
        refine ⟨.over .returned, ?_, .inl rfl, ?_⟩
        · simp only [Tandem.step, hturn, f1, used_self, Nat.add_zero]
          rfl
        · rw [hcs, if_pos (by rw [hsb]; unfold leaves; rw [Nat.min_eq_right c1]; omega)]
          have : ({ x with chat := { x.chat with phase := .over .returned, out := o', flag := x.chat.flag, chan := x.chat.chan } } : Tandem).count =
              { x.count with cphase := .over, sent := o'.wire.length } := rfl
          rw [this, f4, ← hsb]
          rfl
      · rw [if_neg c1] at f1
        refine ⟨.closing, ?_, .inr rfl, ?_⟩
        · simp only [Tandem.step, hturn, f1, used_self, Nat.add_zero]
          simp only [ChatTask.after, hp]
        · rw [hcs, if_neg (by rw [hsb]; unfold leaves; omega)]
          have : ({ x with chat := { x.chat with phase := .closing, out := o', flag := x.chat.flag, chan := x.chat.chan } } : Tandem).count =
              { x.count with cphase := .closing, sent := o'.wire.length } := rfl
          rw [this, f4, ← hsb, ← hcp]
          rfl
    obtain ⟨p, m1, m2, m3⟩ := main
    refine ⟨bu, ?_, by rw [m1, m3]⟩
    rw [← m3] at hsane
    rw [m1]
    refine inv_chat_out h p o' x.chat.flag x.chat.chan bu hsane f3 ?_ (.inr rfl) ?_ ?_
    · have : ({ x with chat := { x.chat with phase := p, out := o', flag := x.chat.flag, chan := x.chat.chan } } : Tandem).count.pushed = x.count.pushed := by
        rcases m2 with rfl | rfl <;> simp [Count.pushed, Count.held, Tandem.count, ChatPhase.stage, hp]
      rw [this]
      exact f2
    · intro m hm
      rcases m2 with rfl | rfl <;> simp at hm
    · intro e he
      rcases m2 with rfl | rfl
      · cases he; rfl
      · cases he
  | forward b =>
    cases b with
    | none => exact chat_round hg h n k hp
    | some m =>
      have hcp : x.count.cphase = .holding := by show x.chat.phase.stage = _; rw [hp]; rfl
      have hpos := h.sane.held_pos hcp
      rw [Count.chat_holding hcp] at hcs
      have hm := h.chatHolds m hp
      obtain ⟨o', hw, hq⟩ := push_flowing h.up (task_lim_lt sdf) (hu x.count.pushed) (r.up - x.upTransit.length) k
      have hturn : ∀ s, x.chat.turn s (granted (r.up - x.upTransit.length) k) =
          (x.chat.after (.forward none) (x.chat.out.push (asks lines x.count.pushed) (granted (r.up - x.upTransit.length) k)), s) := by
        intro s
        unfold ChatTask.turn
        rw [hp]
        simp only
        rw [hm]
      have hpu : ∀ o'', ({ x with chat := { x.chat with phase := .forward none, out := o'', flag := x.chat.flag, chan := x.chat.chan } } : Tandem).count.pushed = x.count.pushed + 1 := by
        intro o''
        have : x.count.pushed = x.count.held - 1 := by simp [Count.pushed, hcp]
        have e : ({ x with chat := { x.chat with phase := .forward none, out := o'', flag := x.chat.flag, chan := x.chat.chan } } : Tandem).count.pushed = x.count.held := by
          simp [Count.pushed, Count.held, Tandem.count, ChatPhase.stage]
        omega
      have main : ∃ p o, x.step r (.chat n k) = { x with chat := { x.chat with phase := p, out := o, flag := x.chat.flag, chan := x.chat.chan } } ∧
          (∃ b, o.wire = x.chat.out.wire ++ b) ∧ (p = .forward none ∨ p = x.chat.phase) ∧
          ({ x with chat := { x.chat with phase := p, out := o, flag := x.chat.flag, chan := x.chat.chan } } : Tandem).count = x.count.step (lens lines) r (.chat n k) ∧
          ∃ bu', Flowing true (asks lines)
            ({ x with chat := { x.chat with phase := p, out := o, flag := x.chat.flag, chan := x.chat.chan } } : Tandem).count.pushed bu' o := by
        by_cases c1 : x.chat.out.sink.buf.data.length < 8192
        · rw [if_pos c1] at hq
          obtain ⟨q1, ⟨b, q2⟩, q3⟩ := hq
          refine ⟨.forward none, o', ?_, hw, .inl rfl, ?_, bu ++ [b], ?_⟩
          · simp only [Tandem.step, hturn, q1, used_self, Nat.add_zero]
            rfl
          · rw [hcs, if_pos (by omega)]
            simp only [Tandem.count, q3]
            rfl
          · rw [hpu]; exact q2
        · rw [if_neg c1] at hq
          obtain ⟨q3, hq⟩ := hq
          have hl : leaves x.chat.out (r.up - x.upTransit.length) k ≤ x.chat.out.sink.buf.data.length := by unfold leaves; omega
          by_cases c2 : x.chat.out.sink.buf.data.length - leaves x.chat.out (r.up - x.upTransit.length) k < 8192
          · rw [if_pos c2] at hq
            obtain ⟨q1, b, q2⟩ := hq
            refine ⟨.forward none, o', ?_, hw, .inl rfl, ?_, bu ++ [b], ?_⟩
            · simp only [Tandem.step, hturn, q1, used_self, Nat.add_zero]
              rfl
            · rw [hcs, if_neg (by omega), if_pos (by omega)]
              have : ({ x with chat := { x.chat with phase := .forward none, out := o', flag := x.chat.flag, chan := x.chat.chan } } : Tandem).count =
                  { x.count with cphase := .idle, sent := o'.wire.length } := rfl
              rw [this, q3, ← hsb]
              rfl
            · rw [hpu]; exact q2
          · rw [if_neg c2] at hq
            obtain ⟨q1, q2⟩ := hq
            refine ⟨x.chat.phase, o', ?_, hw, .inr rfl, ?_, bu, q2⟩
            · simp only [Tandem.step, hturn, q1, used_self, Nat.add_zero]
              rfl
            · rw [hcs, if_neg (by omega), if_neg (by omega)]
              have : ({ x with chat := { x.chat with phase := x.chat.phase, out := o', flag := x.chat.flag, chan := x.chat.chan } } : Tandem).count =
                  { x.count with sent := o'.wire.length } := rfl
              rw [this, q3, ← hsb]
              rfl
      obtain ⟨p, o, m1, m2, m3, m4, bu', m5⟩ := main
      refine ⟨bu', ?_, by rw [m1, m4]⟩
      rw [← m4] at hsane
      rw [m1]
      refine inv_chat_out h p o x.chat.flag x.chat.chan bu' hsane m2 m5 (.inr rfl) ?_ ?_
      · intro m' hm'
        rcases m3 with rfl | rfl
        · cases hm'
        · exact h.chatHolds m' hm'
      · intro e he
        rcases m3 with rfl | rfl
        · cases he
        · exact h.chatOver e he

/-! ### Any move -/

theorem tandem_step (hu : ∀ i, (asks lines i).spec.Sendable (min sdf u32Max)) (hg : ∀ i, (greets lines i).spec.Sendable (min cdf u32Max))
    (h : TandemInv lines cdf cmsg sdf smsg r x bu bd) (e : Move) :
    ∃ bu' bd', TandemInv lines cdf cmsg sdf smsg r (x.step r e) bu' bd' ∧ (x.step r e).count = x.count.step (lens lines) r e := by
  cases e with
  | type => exact ⟨bu, bd, tandem_type h⟩
  | chat n k =>
    obtain ⟨bu', h1, h2⟩ := tandem_chat hu hg h n k
    exact ⟨bu', bd, h1, h2⟩
  | serve n k =>
    obtain ⟨bd', h1, h2⟩ := tandem_serve hu hg h n k
    exact ⟨bu, bd', h1, h2⟩

end

end WS
