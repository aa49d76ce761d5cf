import Verif.Lemmas.Script
/-! Sequences of receive calls. -/

namespace WS
open Spec (Wire Delivers)

/-- The bytes `bs` carry `frames`, which — continuing the unfinished message in `buffer` — deliver
`ms` and leave `held'` unfinished, within the frame limit `lim`. -/
structure Incoming (fits : List Spec.Frame → Prop) (lim : Nat) (masked : Bool) (buffer : List DataFrame)
    (frames : List Spec.Frame) (ms : List Spec.Message) (held' : List Spec.Frame) (bs : Bytes) : Prop where
  wire : Wire masked frames bs
  small : ∀ f ∈ frames, f.payload.length ≤ lim
  delivers : Delivers fits (specs buffer) frames ms held'
  fits : buffer = [] ∨ fits (specs buffer)
  bounded : ∀ f ∈ buffer, f.data.length ≤ u32Max

theorem delivers_nil {fits : List Spec.Frame → Prop} {held frames : List Spec.Frame} {ms : List Spec.Message}
    {held' : List Spec.Frame} (h : Delivers fits held frames ms held') (hh : held' = []) (hm : ms = []) :
    held = [] ∧ frames = [] := by
  induction h with
  | nil => exact ⟨hh, rfl⟩
  | control => simp at hm
  | final => simp at hm
  | part ha hf hfit hr ih => have := (ih hh hm).1; simp at this

theorem wire_nil {masked : Bool} {bs : Bytes} (h : Wire masked [] bs) : bs = [] := by cases h; rfl

theorem Incoming.empty {fits : List Spec.Frame → Prop} {lim : Nat} {masked : Bool} {buffer : List DataFrame}
    {frames : List Spec.Frame} {bs : Bytes} (h : Incoming fits lim masked buffer frames [] [] bs) :
    buffer = [] ∧ bs = [] := by
  obtain ⟨h1, rfl⟩ := delivers_nil h.delivers rfl rfl
  exact ⟨specs_nil.mp h1, wire_nil h.wire⟩

theorem Incoming.step {c : Cfg} {fits : List Spec.Frame → Prop} (hc : StepOk c fits) {buffer : List DataFrame}
    {frames : List Spec.Frame} {m : Spec.Message} {ms : List Spec.Message} {held' : List Spec.Frame} {bs : Bytes}
    (h : Incoming fits c.lim c.masked buffer frames (m :: ms) held' bs) (x : Bytes) :
    ∃ fs b frames1 bs1 om, pLoop c buffer (heldLen buffer) (bs ++ x) = .msg fs b (bs1 ++ x) ∧
      OwnedMsg.fromDataframes (fs.map DataFrame.view) = .ok om ∧ om.spec = m ∧
      Incoming fits c.lim c.masked b frames1 ms held' bs1 := by
  have hw : heldLen buffer ≤ Spec.weight (specs buffer) := by rw [weight_specs]; omega
  obtain ⟨fs, b, frames1, bs1, om, h1, h2, h3, h4, h5, h6, h7, h8⟩ :=
    pLoop_delivers hc h.delivers h.small buffer rfl (h.fits.imp (fun h => specs_nil.mpr h) id) h.bounded _ hw h.wire x
  exact ⟨fs, b, frames1, bs1, om, h1, h2, h3, h7, h6, h8, h4.imp specs_nil.mp id, h5⟩

theorem Incoming.rest {c : Cfg} {fits : List Spec.Frame → Prop} (hc : StepOk c fits) {buffer : List DataFrame}
    {frames : List Spec.Frame} {held' : List Spec.Frame} {bs : Bytes}
    (h : Incoming fits c.lim c.masked buffer frames [] held' bs) (x : Bytes) :
    ∃ b cur', specs b = held' ∧ (∀ f ∈ b, f.data.length ≤ u32Max) ∧ (b = [] ∨ fits held') ∧
      pLoop c buffer (heldLen buffer) (bs ++ x) = pLoop c b cur' x := by
  have hw : heldLen buffer ≤ Spec.weight (specs buffer) := by rw [weight_specs]; omega
  obtain ⟨b, cur', h1, h2, h3, -, -, h4⟩ :=
    pLoop_delivers hc h.delivers h.small buffer rfl (h.fits.imp (fun h => specs_nil.mpr h) id) h.bounded _ hw h.wire x
  exact ⟨b, cur', h1, h3, h2.imp (fun h => specs_nil.mp (h1.trans h)) id, h4⟩

/-! ### Blocking -/

/-- `recvMany` on a clean transport, as a function of the bytes. -/
def Receiver.recvManyBytes : Nat → Receiver → Bytes → List (Res OwnedMsg) × Receiver × Bytes
  | 0, r, bs => ([], r, bs)
  | n + 1, r, bs =>
    let (x, r', bs') := r.recvBytes bs
    let (xs, r'', bs'') := Receiver.recvManyBytes n r' bs'
    (x :: xs, r'', bs'')

theorem recvBytes_same (r : Receiver) (bs : Bytes) :
    (r.recvBytes bs).2.1 = { r with buffer := (r.recvBytes bs).2.1.buffer } := by
  unfold Receiver.recvBytes; split <;> rfl

theorem recvMany_clean (n : Nat) (r : Receiver) (hr : r.maxDf ≤ isizeMax) (s : Src) (hs : s.Clean) :
    ∃ s', Src.Clean s' ∧
      Receiver.recvMany n r s = ((r.recvManyBytes n s.flat).1, (r.recvManyBytes n s.flat).2.1, s') ∧
      s'.flat = (r.recvManyBytes n s.flat).2.2 := by
  induction n generalizing r s with
  | zero => exact ⟨s, hs, rfl, rfl⟩
  | succ n ih =>
    obtain ⟨s1, h1, h2, h3⟩ := recvMessage_clean r hr s hs
    have hr' : (r.recvBytes s.flat).2.1.maxDf ≤ isizeMax := by rw [recvBytes_same]; exact hr
    obtain ⟨s2, g1, g2, g3⟩ := ih _ hr' s1 h1
    refine ⟨s2, g1, ?_, ?_⟩
    · unfold Receiver.recvMany Receiver.recvManyBytes
      simp only [h2, g2, h3]
    · rw [g3, h3]; rfl

theorem deliver_sync {r : Receiver} (hr : r.WF) {frames : List Spec.Frame} {ms : List Spec.Message}
    {held' : List Spec.Frame} {bs : Bytes}
    (h : Incoming (Spec.FitsBlocking r.maxMsg) r.maxDf r.mask r.buffer frames ms held' bs) (x : Bytes) :
    ∃ (oms : List OwnedMsg) (b : List DataFrame) (frames1 : List Spec.Frame) (bs1 : Bytes), r.recvManyBytes ms.length (bs ++ x) =
        (oms.map Res.ok, { r with buffer := b }, bs1 ++ x) ∧ oms.map OwnedMsg.spec = ms ∧
      Incoming (Spec.FitsBlocking r.maxMsg) r.maxDf r.mask b frames1 [] held' bs1 := by
  induction ms generalizing r frames bs with
  | nil => exact ⟨[], r.buffer, frames, bs, rfl, rfl, h⟩
  | cons m ms ih =>
    obtain ⟨fs, b, frames1, bs1, om, h1, h2, h3, h4⟩ := Incoming.step (c := r.cfg) (stepOk_sync r hr.1 hr.2) h x
    obtain ⟨oms, b', frames2, bs2, g1, g2, g3⟩ := ih (r := { r with buffer := b }) hr h4
    refine ⟨om :: oms, b', frames2, bs2, ?_, by simp [h3, g2], g3⟩
    have e : r.recvBytes (bs ++ x) = (.ok om, { r with buffer := b }, bs1 ++ x) := by
      unfold Receiver.recvBytes; rw [h1]; simp only [h2]
    simp only [List.length_cons, Receiver.recvManyBytes, e, g1, List.map_cons]

/-! ### Async -/

theorem decode_msg {c : MsgCodec} (hc : c.WF) {bs rest : Bytes} {fs b : List DataFrame} {om : OwnedMsg}
    (h : pLoop c.cfg c.buffer (heldLen c.buffer) bs = .msg fs b rest)
    (ho : OwnedMsg.fromDataframes (fs.map DataFrame.view) = .ok om) :
    c.decode bs = (.ok (some om), { c with buffer := b }, rest) := by
  rw [MsgCodec.decode_eq c hc.1, h]
  simp only [asyncOut, ho]
  rfl

/-- The async codec's errors a stream can resume from. -/
abbrev notLimit (r : Res (Option OwnedMsg)) : Prop := r ≠ .err msgLimitErr

theorem deliver_async {c : MsgCodec} (hc : c.WF) {frames : List Spec.Frame} {ms : List Spec.Message}
    {held' : List Spec.Frame} {bs : Bytes}
    (h : Incoming (Spec.FitsAsync c.maxMsg) c.df.maxDf c.df.isServer c.buffer frames ms held' bs) (x : Bytes) :
    ∃ (oms : List OwnedMsg) (b : List DataFrame) (frames1 : List Spec.Frame) (bs1 : Bytes), decMany msgDecoder ms.length c (bs ++ x) =
        (oms.map Item.item, { c with buffer := b }, bs1 ++ x) ∧ oms.map OwnedMsg.spec = ms ∧
      Incoming (Spec.FitsAsync c.maxMsg) c.df.maxDf c.df.isServer b frames1 [] held' bs1 ∧
      GoodMany msgDecoder notLimit ms.length c (bs ++ x) := by
  induction ms generalizing c frames bs with
  | nil => exact ⟨[], c.buffer, frames, bs, rfl, rfl, h, trivial⟩
  | cons m ms ih =>
    obtain ⟨fs, b, frames1, bs1, om, h1, h2, h3, h4⟩ := Incoming.step (c := c.cfg) (stepOk_async c hc.1 hc.2) h x
    obtain ⟨oms, b', frames2, bs2, g1, g2, g3, g4⟩ := ih (c := { c with buffer := b }) hc h4
    have e : msgDecoder c (bs ++ x) = (.ok (some om), { c with buffer := b }, bs1 ++ x) := decode_msg hc h1 h2
    have e' : decNext msgDecoder c (bs ++ x) = (.item om, { c with buffer := b }, bs1 ++ x) := by
      unfold decNext; rw [e]
    refine ⟨om :: oms, b', frames2, bs2, ?_, by simp [h3, g2], g3, ?_⟩
    · simp only [List.length_cons, decMany, e', g1, List.map_cons]
    · refine ⟨by rw [e]; simp, ?_⟩
      rw [e']; exact g4

theorem decMany_add {σ α} (dec : Decoder σ α) (m n : Nat) (c : σ) (bs : Bytes) :
    decMany dec (m + n) c bs =
      ((decMany dec m c bs).1 ++ (decMany dec n (decMany dec m c bs).2.1 (decMany dec m c bs).2.2).1,
       (decMany dec n (decMany dec m c bs).2.1 (decMany dec m c bs).2.2).2) := by
  induction m generalizing c bs with
  | zero => simp [decMany]
  | succ m ih =>
    rw [Nat.add_right_comm]
    simp [decMany, ih]

theorem goodMany_add {σ α} {dec : Decoder σ α} {good : Res (Option α) → Prop} (m n : Nat) (c : σ) (bs : Bytes) :
    GoodMany dec good (m + n) c bs ↔ GoodMany dec good m c bs ∧
      GoodMany dec good n (decMany dec m c bs).2.1 (decMany dec m c bs).2.2 := by
  induction m generalizing c bs with
  | zero => simp [decMany, GoodMany]
  | succ m ih =>
    rw [Nat.add_right_comm]
    simp [decMany, GoodMany, ih, and_assoc]

theorem recvManyBytes_add (m n : Nat) (r : Receiver) (bs : Bytes) :
    r.recvManyBytes (m + n) bs =
      ((r.recvManyBytes m bs).1 ++ ((r.recvManyBytes m bs).2.1.recvManyBytes n (r.recvManyBytes m bs).2.2).1,
       ((r.recvManyBytes m bs).2.1.recvManyBytes n (r.recvManyBytes m bs).2.2).2) := by
  induction m generalizing r bs with
  | zero => simp [Receiver.recvManyBytes]
  | succ m ih =>
    rw [Nat.add_right_comm]
    simp [Receiver.recvManyBytes, ih]

theorem msg_live_new (c : MsgCodec) (hc : c.WF) (buf : Bytes) (s : Src) (hs : s.Ready) :
    Live msgDecoder (Framed.fromParts c buf) s := by
  refine live_fromParts c buf s hs ?_
  unfold msgDecoder
  rw [MsgCodec.decode_eq c hc.1, pLoop_more (c := c.cfg) parseFrame_nil]

/-! ### Everything in one chunk -/

section
variable {σ α : Type} {dec : Decoder σ α} {P : σ → Prop} {good : Res (Option α) → Prop}

theorem decNext_inv (hd : Chunkable dec P good) {c : σ} (hP : P c) (bs : Bytes) : P (decNext dec c bs).2.1 := by
  have := hd.inv c bs hP
  unfold decNext
  split <;> simp_all

theorem next_ready {fr fr' : Framed σ} {s s' : Src} {x : Item α} (h : fr.poll dec s = (.ready x, fr', s')) :
    fr.next dec s = (x, fr', s') := by
  rw [Framed.next]
  split
  · next h' => rw [h] at h'; simp only [Prod.mk.injEq, Poll.ready.injEq] at h'; simp [h']
  · next h' => rw [h] at h'; simp at h'

theorem next_notReady {fr fr' : Framed σ} {s s' : Src} (h : fr.poll dec s = (.notReady, fr', s')) :
    fr.next dec s = fr'.next dec s' := by
  rw [Framed.next]
  split
  · next h' => rw [h] at h'; simp at h'
  · next h' => rw [h] at h'; simp only [Prod.mk.injEq, true_and] at h'; simp [h']

theorem next_buffered (hd : Chunkable dec P good) (fr : Framed σ) (hP : P fr.codec) (hr : fr.readable = true) :
    ∃ fr', fr.next dec [] = ((decNext dec fr.codec fr.buf).1, fr', []) ∧ fr'.readable = true ∧
      fr'.codec = (decNext dec fr.codec fr.buf).2.1 ∧ fr'.buf = (decNext dec fr.codec fr.buf).2.2 := by
  by_cases he : fr.eof = true
  · have hp : fr.poll dec [] = (.ready (decNext dec fr.codec fr.buf).1,
        { fr with codec := (decNext dec fr.codec fr.buf).2.1, buf := (decNext dec fr.codec fr.buf).2.2 }, []) := by
      unfold Framed.poll; simp only [hr, he, if_true, pollEof_eq]
    exact ⟨_, next_ready hp, hr, rfl, rfl⟩
  · have he' : fr.eof = false := by simpa using he
    cases hdec : dec fr.codec fr.buf with
    | mk r q =>
      obtain ⟨c', b'⟩ := q
      have hp : fr.poll dec [] = match (generalizing := false) r with
          | .ok (some a) => (.ready (.item a), { fr with codec := c', buf := b' }, [])
          | .ok none => Framed.pollRead dec { fr with codec := c', buf := b', readable := false } []
          | .err e => (.ready (.err e), { fr with codec := c', buf := b' }, [])
          | .panic e => (.ready (.panic e), { fr with codec := c', buf := b' }, []) := by
        unfold Framed.poll
        simp only [hr, he', if_true, hdec]
        cases r with
        | ok o => cases o <;> rfl
        | _ => rfl
      have hn : decNext dec fr.codec fr.buf = match (generalizing := false) r with
          | .ok (some a) => (.item a, c', b')
          | .ok none => (if b' = [] then .done else .err bytesRemaining, c', b')
          | .err e => (.err e, c', b')
          | .panic e => (.panic e, c', b') := by
        unfold decNext; rw [hdec]; cases r with
        | ok o => cases o <;> rfl
        | _ => rfl
      cases r with
      | ok o =>
        cases o with
        | some a =>
          simp only at hn hp
          simp only [hn]; exact ⟨_, next_ready hp, hr, rfl, rfl⟩
        | none =>
          have hid := hd.idle hP hdec
          simp only at hn
          simp only [hn]
          simp only [Framed.pollRead, pollEof_eq] at hp
          have e2 : decNext dec c' b' = (if b' = [] then .done else .err bytesRemaining, c', b') := by
            unfold decNext; rw [hid]
          rw [e2] at hp
          exact ⟨_, next_ready hp, rfl, rfl, rfl⟩
      | err e =>
        simp only at hn hp
        simp only [hn]; exact ⟨_, next_ready hp, hr, rfl, rfl⟩
      | panic e =>
        simp only at hn hp
        simp only [hn]; exact ⟨_, next_ready hp, hr, rfl, rfl⟩

theorem nextMany_buffered (hd : Chunkable dec P good) (n : Nat) (fr : Framed σ) (hP : P fr.codec)
    (hr : fr.readable = true) : (fr.nextMany dec n []).1 = (decMany dec n fr.codec fr.buf).1 ∧
      (fr.nextMany dec n []).2.1.codec = (decMany dec n fr.codec fr.buf).2.1 := by
  induction n generalizing fr with
  | zero => exact ⟨rfl, rfl⟩
  | succ n ih =>
    obtain ⟨fr', h1, h2, h3, h4⟩ := next_buffered hd fr hP hr
    obtain ⟨i1, i2⟩ := ih fr' (h3 ▸ decNext_inv hd hP _) h2
    simp only [Framed.nextMany, decMany, h1, i1, i2, h3, h4, and_self]

theorem next_oneChunk (c : σ) (bs : Bytes) (hbs : bs ≠ []) :
    (Framed.new c).next dec [.chunk bs] = Framed.next dec ⟨c, bs, true, false⟩ [] := by
  have h : (Framed.new c).poll dec [.chunk bs] = Framed.poll dec ⟨c, bs, true, false⟩ [] := by
    unfold Framed.poll
    simp only [Framed.new, Bool.false_eq_true, if_false, if_true, Framed.pollRead, hbs, List.nil_append]
  cases hp : Framed.poll dec ⟨c, bs, true, false⟩ [] with
  | mk x q =>
    obtain ⟨fr', s'⟩ := q
    rw [hp] at h
    cases x with
    | ready x => rw [next_ready hp, next_ready h]
    | notReady => rw [next_notReady hp, next_notReady h]

theorem nextMany_oneChunk (hd : Chunkable dec P good) (n : Nat) (c : σ) (hP : P c) (bs : Bytes) (hbs : bs ≠ []) :
    ((Framed.new c).nextMany dec n [.chunk bs]).1 = (decMany dec n c bs).1 ∧
      ((Framed.new c).nextMany dec n [.chunk bs]).2.1.codec = (decMany dec n c bs).2.1 := by
  cases n with
  | zero => exact ⟨rfl, rfl⟩
  | succ n =>
    obtain ⟨h1, h2⟩ := nextMany_buffered hd (n + 1) ⟨c, bs, true, false⟩ hP rfl
    rw [← h1, ← h2]
    simp only [Framed.nextMany, next_oneChunk c bs hbs, and_self]

theorem goodMany_of_items {e : WsErr} (n : Nat) (c : σ) (bs : Bytes)
    (h : Item.err e ∉ (decMany dec n c bs).1) : GoodMany dec (fun r => r ≠ .err e) n c bs := by
  induction n generalizing c bs with
  | zero => trivial
  | succ n ih =>
    simp only [decMany, List.mem_cons, not_or] at h
    refine ⟨?_, ih _ _ h.2⟩
    intro he
    apply h.1
    unfold decNext
    split <;> simp_all
end

end WS
