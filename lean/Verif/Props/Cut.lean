import Verif.Lemmas.Cut
import Verif.Props.EndToEnd
import Verif.Props.Frame
/-!
# C28 and C29 for frames cut by a transport failure

`C28_refuted_blocking` shows that a would-block inside a frame damages the stream of a blocking
receiver, `C29_refuted_after_failure` that a failed write damages that of a blocking sender which
goes on. These theorems say exactly what the damage is.
-/

namespace WS
open Spec (Wire Delivers IsFrame ControlOk FitsBlocking)

/-- A transport that fails anywhere: stretches of whole frames followed by the first bytes `p` of
another frame (none, if the failure is between frames), then a failure. What comes after it is read
as the beginning of a frame. With the frames held and what the user should see: a message or the
kind of the reported transport error. -/
inductive Spec.Torn (fits : List Frame → Prop) (lim : Nat) (masked : Bool) :
    List Frame → Src → List (Except IoKind Message) → List Frame → Prop
  | last {held frames s ms held' bs} (hd : Delivers fits held frames ms held') (hl : ∀ f ∈ frames, f.payload.length ≤ lim)
      (hw : Wire masked frames bs) (hs : Src.Clean s) (hf : Src.flat s = bs) :
      Torn fits lim masked held s (ms.map .ok) held'
  | cut {held frames s ms held₁ bs p q f key k t rs held'} (hd : Delivers fits held frames ms held₁)
      (hl : ∀ f ∈ frames, f.payload.length ≤ lim) (hw : Wire masked frames bs)
      (hp : IsFrame f key (p ++ q)) (hq : q ≠ []) (hk : key.isSome = masked) (hc : ControlOk f) (hlf : f.payload.length ≤ lim)
      (hs : Src.Clean s) (hf : Src.flat s = bs ++ p) (hki : k ≠ IoKind.interrupted)
      (hr : Torn fits lim masked held₁ t rs held') :
      Torn fits lim masked held (s ++ .error k :: t) (ms.map .ok ++ .error k :: rs) held'

/-- What the user sees matches the expectation, up to the kinds of the errors. -/
def Spec.Shows : List (Res OwnedMsg) → List (Except IoKind Spec.Message) → Prop
  | [], [] => True
  | .ok m :: xs, .ok sm :: rs => m.spec = sm ∧ Shows xs rs
  | .err e :: xs, .error k :: rs => e = .ofIo k ∧ Shows xs rs
  | _, _ => False

theorem Spec.shows_append {xs ys : List (Res OwnedMsg)} {rs ts : List (Except IoKind Spec.Message)} (h1 : Spec.Shows xs rs)
    (h2 : Spec.Shows ys ts) : Spec.Shows (xs ++ ys) (rs ++ ts) := by
  induction xs generalizing rs with
  | nil => cases rs with
    | nil => exact h2
    | cons => simp [Spec.Shows] at h1
  | cons x xs ih =>
    cases rs with
    | nil => cases x <;> simp [Spec.Shows] at h1
    | cons r rs =>
      cases x <;> cases r <;> simp only [Spec.Shows, List.cons_append] at h1 ⊢
      · exact ⟨h1.1, ih h1.2⟩
      · exact ⟨h1.1, ih h1.2⟩

theorem Spec.shows_ok (oms : List OwnedMsg) : Spec.Shows (oms.map Res.ok) ((oms.map OwnedMsg.spec).map .ok) := by
  induction oms with
  | nil => trivial
  | cons m ms ih => exact ⟨rfl, ih⟩

theorem torn_any {fits : List Spec.Frame → Prop} {lim : Nat} {masked : Bool} {held s rs held'}
    (h : Spec.Torn fits lim masked held s rs held') (r : Receiver) (hr : r.WF)
    (e1 : fits = FitsBlocking r.maxMsg) (e2 : lim = r.maxDf) (e3 : masked = r.mask)
    (b : List DataFrame) (hb : specs b = held) (hbl : ∀ f ∈ b, f.data.length ≤ u32Max) (hfit : b = [] ∨ fits held) :
    Spec.Shows (Receiver.recvMany rs.length { r with buffer := b } s).1 rs := by
  subst e1 e2 e3
  induction h generalizing b with
  | @last held frames s ms held' bs hd hl hw hs hf =>
    have hi : Incoming (FitsBlocking r.maxMsg) r.maxDf r.mask b frames ms held' bs :=
      ⟨hw, hl, hb ▸ hd, hb ▸ hfit, hbl⟩
    obtain ⟨oms, b', frames1, bs1, h1, h2, -⟩ := deliver_sync (r := { r with buffer := b }) hr hi []
    obtain ⟨s', -, g2, -⟩ := recvMany_clean ms.length { r with buffer := b } (Nat.le_trans hr.1 (by decide)) s hs
    rw [List.append_nil] at h1
    rw [hf, h1] at g2
    rw [List.length_map, g2, ← h2]
    exact Spec.shows_ok oms
  | @cut held frames s ms held₁ bs p q f key k t rs held' hd hl hw hp hq hk hc hlf hs hf hki hrest ih =>
    have hi : Incoming (FitsBlocking r.maxMsg) r.maxDf r.mask b frames ms held₁ bs :=
      ⟨hw, hl, hb ▸ hd, hb ▸ hfit, hbl⟩
    obtain ⟨oms, b', h1, h2, h3, h4, h5⟩ := recvMany_cut (r := { r with buffer := b }) hr hi p k t
      (fun b1 s1 hs1 hf1 => recvDataframe_cut { r with buffer := b1 } hr hp hq hk hc hlf s1 t hs1 hf1 k hki) s hs hf
    have hlen : (ms.map Except.ok ++ Except.error k :: rs).length = (ms.length + 1) + rs.length := by simp; omega
    rw [hlen, recvMany_add, h1]
    have : ms.map Except.ok ++ Except.error k :: rs = (ms.map Except.ok ++ [Except.error k]) ++ rs := by simp
    rw [this]
    refine Spec.shows_append (Spec.shows_append ?_ ⟨rfl, trivial⟩) (ih b' h3 h4 (h3 ▸ h5))
    rw [← h2]; exact Spec.shows_ok oms

/-- C28, blocking, the exact damage: each failure is reported with its kind, the bytes read so far
of the frame in which it happened are lost, and nothing else is: messages and fragments received
before are kept, and what comes after it is read from its first byte. -/
theorem C28_blocking_exact_loss (mask : Bool) (maxDf maxMsg : Nat) {s : Src} {rs : List (Except IoKind Spec.Message)}
    {held' : List Spec.Frame}
    (h : Spec.Torn (FitsBlocking (min maxMsg u32Max)) (min maxDf u32Max) mask [] s rs held') :
    Spec.Shows ((Receiver.newWithLimits mask maxDf maxMsg).recvMany rs.length s).1 rs :=
  torn_any h (Receiver.newWithLimits mask maxDf maxMsg) (Receiver.wf_new _ _ _) rfl rfl rfl [] rfl (by simp) (.inl rfl)

/-- C28, blocking: a peer that sends the interrupted frame again from its first byte, whole, makes
the failure harmless. -/
theorem C28_blocking_resent (mask : Bool) (maxDf maxMsg : Nat) {frames frames' : List Spec.Frame} {f : Spec.Frame}
    {key : Option (List UInt8)} {bs p q bs' : Bytes} {ms ms' : List Spec.Message} {held held' : List Spec.Frame}
    (hd : Delivers (FitsBlocking (min maxMsg u32Max)) [] frames ms held)
    (hl : ∀ g ∈ frames, g.payload.length ≤ min maxDf u32Max) (hw : Wire mask frames bs)
    (hp : IsFrame f key (p ++ q)) (hq : q ≠ []) (hk : key.isSome = mask) (hc : ControlOk f)
    (hlf : f.payload.length ≤ min maxDf u32Max)
    (hd' : Delivers (FitsBlocking (min maxMsg u32Max)) held (f :: frames') ms' held')
    (hl' : ∀ g ∈ frames', g.payload.length ≤ min maxDf u32Max) (hw' : Wire mask frames' bs')
    (s t : Src) (hs : s.Clean) (hf : s.flat = bs ++ p) (ht : t.Clean) (hft : t.flat = (p ++ q) ++ bs')
    (k : IoKind) (hki : k ≠ .interrupted) :
    Spec.Shows ((Receiver.newWithLimits mask maxDf maxMsg).recvMany (ms.length + (1 + ms'.length)) (s ++ .error k :: t)).1
      (ms.map .ok ++ .error k :: ms'.map .ok) := by
  have h : Spec.Torn (FitsBlocking (min maxMsg u32Max)) (min maxDf u32Max) mask [] (s ++ .error k :: t)
      (ms.map .ok ++ .error k :: ms'.map .ok) held' :=
    .cut hd hl hw hp hq hk hc hlf hs hf hki
      (.last hd' (by
        intro g hg
        rcases List.mem_cons.mp hg with rfl | hg
        · exact hlf
        · exact hl' g hg) (.cons hp hk hw') ht hft)
  have := C28_blocking_exact_loss mask maxDf maxMsg h
  have hlen : (ms.map Except.ok ++ Except.error k :: ms'.map Except.ok : List (Except IoKind Spec.Message)).length =
      ms.length + (1 + ms'.length) := by simp; omega
  rwa [hlen] at this

/-! ## C29 -/

/-- What a list of sends leaves on the wire, given their results: the whole layout of a frame that
was sent, nothing of a frame that was refused, and some of the bytes, but not all, of a frame during
which the transport failed. -/
inductive Spec.Leaves (masked : Bool) : List (Frame × List UInt8) → List (Res Unit) → List UInt8 → Prop
  | nil : Leaves masked [] [] []
  | whole {f key bs rest rs out} (hf : IsFrame f (if masked then some key else none) bs) (hr : Leaves masked rest rs out) :
      Leaves masked ((f, key) :: rest) (.ok () :: rs) (bs ++ out)
  | refused {f key msg rest rs out} (hf : f.opcode > 15 ∨ (8 ≤ f.opcode ∧ 125 < f.payload.length))
      (hr : Leaves masked rest rs out) : Leaves masked ((f, key) :: rest) (.err (.dataFrame msg) :: rs) out
  | torn {f key p q k rest rs out} (hf : IsFrame f (if masked then some key else none) (p ++ q)) (hq : q ≠ [])
      (hr : Leaves masked rest rs out) : Leaves masked ((f, key) :: rest) (.err (.ofIo k) :: rs) (p ++ out)

theorem writeAll_error {bs : Bytes} {w w' : Sink} {k : IoKind} (h : w.writeAll bs = (.error k, w')) :
    ∃ p q, bs = p ++ q ∧ q ≠ [] ∧ w'.wire = w.wire ++ p := by
  fun_induction Sink.writeAll bs w with
  | case1 => simp at h
  | case2 => simp at h
  | case3 _ _ _ _ ih => exact ih h
  | case4 bs hb wire k s hk => simp only [Prod.mk.injEq] at h; exact ⟨[], bs, rfl, hb, by simp [← h.2]⟩
  | case5 bs hb wire s => simp only [Prod.mk.injEq] at h; exact ⟨[], bs, rfl, hb, by simp [← h.2]⟩
  | case6 bs hb wire n s hn ih =>
    obtain ⟨p, q, h1, h2, h3⟩ := ih h
    exact ⟨bs.take n ++ p, q, by rw [List.append_assoc, ← h1, List.take_append_drop], h2, by simp [h3]⟩

/-- C29, blocking, every history: whatever the transport does and however long the caller goes on
after failures, the wire holds what it held before and then, in order, one piece per send: the
whole frame if the send was reported as done, nothing if it was refused, and a proper part of the
beginning of the frame if the transport failed. -/
theorem C29_blocking_any_history (x : Sender) (vs : List (FrameView × Key4))
    (hv : ∀ p ∈ vs, p.1.Lawful ∧ p.1.payload.length < 2 ^ 63) (w : Sink) :
    ∃ out, (x.sendMany vs w).2.wire = w.wire ++ out ∧
      Spec.Leaves x.mask (vs.map fun p => (p.1.spec, p.2.toBytes)) (x.sendMany vs w).1 out := by
  induction vs generalizing w with
  | nil => exact ⟨[], by simp [Sender.sendMany], .nil⟩
  | cons p vs ih =>
    obtain ⟨v, key⟩ := p
    obtain ⟨hl, hlen⟩ := hv (v, key) (by simp)
    have hx := C08_refused_send_writes_nothing x v hl key w
    obtain ⟨out, h1, h2⟩ := ih (fun p hp => hv p (by simp [hp])) (x.send v key w).2
    have hframe : ∀ bs, v.encode (if x.mask then some key else none) = .ok bs →
        IsFrame v.spec (if x.mask then some key.toBytes else none) bs := by
      intro bs he
      have := (encode_isFrame hl (by rw [hl.size_eq]; exact hlen) he).1
      cases hm : x.mask <;> simpa [hm] using this
    simp only [Sender.sendMany, List.map_cons]
    split at hx
    · next hc =>
      obtain ⟨msg, hs⟩ := hx
      rw [hs] at h1 h2 ⊢
      exact ⟨out, h1, .refused hc h2⟩
    · obtain ⟨bs, he, hx⟩ := hx
      rcases hx with ⟨w', hs⟩ | ⟨k, w', hs⟩
      · rw [hs] at h1 h2 ⊢
        obtain ⟨bs', hb', hw⟩ := writeTo_ok hs
        rw [he] at hb'
        simp only [Res.ok.injEq] at hb'
        subst hb'
        exact ⟨bs ++ out, by rw [h1, hw, List.append_assoc], .whole (hframe bs he) h2⟩
      · rw [hs] at h1 h2 ⊢
        have hw : ∃ k', w.writeAll bs = (.error k', w') := by
          unfold Sender.send FrameView.writeTo at hs
          rw [he] at hs
          simp only at hs
          cases hr : w.writeAll bs with
          | mk r w1 =>
            rw [hr] at hs
            cases r with
            | ok u => simp at hs
            | error k' => simp only [Prod.mk.injEq] at hs; exact ⟨k', by rw [hs.2]⟩
        obtain ⟨k', hw⟩ := hw
        obtain ⟨p, q, g1, g2, g3⟩ := writeAll_error hw
        subst g1
        exact ⟨p ++ out, by rw [h1, g3, List.append_assoc], .torn (hframe _ he) g2 h2⟩

/-! ### Cases -/

/-- Three sends, of which the transport cuts the first and the library refuses the second. -/
example : ((Sender.mk false).sendMany [((OwnedMsg.binary [1, 2, 3]).view, ⟨0, 0, 0, 0⟩),
      ((OwnedMsg.ping (List.replicate 126 0)).view, ⟨0, 0, 0, 0⟩), ((OwnedMsg.text [72]).view, ⟨0, 0, 0, 0⟩)]
      ⟨[], [.accept 3, .error .other]⟩).2.wire = [0x82, 3, 1] ++ ([] ++ [0x81, 1, 72]) := by
  decide +kernel

/-- The first fragment of a text, three bytes of its last frame, a time-out, and then the last frame
with another byte: the text is put together from the first and the third. -/
example : Spec.Shows ((Receiver.newWithLimits false 125 1000).recvMany 2
      ([.chunk [0x01, 1], .chunk [72, 0x80, 1]] ++ .error .timedOut :: [.chunk [0x80, 1, 105]])).1
    ([].map .ok ++ .error .timedOut :: [Spec.Message.text [72, 105]].map .ok) := by
  have hp : Wire false [exPart] [0x01, 1, 72] :=
    .cons (bs := [0x01, 1, 72]) (rest := []) (key := none) ⟨0x01, 1, 1, [], [72], rfl, by decide, by decide, by decide,
      .short (by decide), by simp, rfl⟩ rfl .nil
  have hx : IsFrame ⟨true, false, false, false, 0, [106]⟩ none ([0x80, 1] ++ [106]) :=
    ⟨0x80, 1, 1, [], [106], rfl, by decide, by decide, by decide, .short (by decide), by simp, rfl⟩
  have hq : Wire false [exLast] [0x80, 1, 105] :=
    .cons (bs := [0x80, 1, 105]) (rest := []) (key := none) ⟨0x80, 1, 1, [], [105], rfl, by decide, by decide, by decide,
      .short (by decide), by simp, rfl⟩ rfl .nil
  have ht : Spec.Assembles (([] ++ [exPart] ++ [exLast]).map Spec.Frame.fragment) (.text [72, 105]) :=
    ⟨_, _, rfl, by decide, by decide, .text ((utf8Valid_iff _).mp (by decide +kernel))⟩
  exact C28_blocking_exact_loss false 125 1000 (held' := [])
    (.cut (.part (.inl ⟨rfl, by decide, by decide⟩) rfl ⟨by decide, by decide⟩ .nil) (by decide) hp hx (by decide) rfl
      (by intro h; simp at h) (by decide) (by simp [Src.Clean]) rfl (by decide)
      (.last (.final (.inr ⟨by simp [exPart], rfl⟩) rfl ht .nil) (by decide) hq (by simp [Src.Clean]) rfl))

/-- Two bytes of a frame, a time-out, and the frame sent again in full. -/
example := C28_blocking_resent false 125 1000 (frames := []) (frames' := [exPing, exLast]) (f := exPart) (key := none) (bs := []) (p := [0x01, 1]) (q := [72])
  (ms := []) (held := []) .nil (by simp) .nil
  ⟨0x01, 1, 1, [], [72], rfl, by decide, by decide, by decide, .short (by decide), by simp, rfl⟩ (by decide) rfl (fun h => absurd h (by decide)) (by decide)
  (exDelivers _ (by decide)).1 (by decide)
  (.cons (bs := [0x89, 1, 7]) (key := none) ⟨0x89, 1, 1, [], [7], rfl, by decide, by decide, by decide,
      .short (by decide), by simp, rfl⟩ rfl
    (.cons (bs := [0x80, 1, 105]) (rest := []) (key := none) ⟨0x80, 1, 1, [], [105], rfl, by decide, by decide, by decide,
      .short (by decide), by simp, rfl⟩ rfl .nil))
  [.chunk [0x01, 1]] [.chunk [0x01, 1, 72, 0x89, 1, 7, 0x80, 1, 105]] (by simp [Src.Clean]) rfl (by simp [Src.Clean]) rfl .timedOut (by decide)

end WS
