import Verif.Model.Echo
import Verif.Spec.Echo
import Verif.Lemmas.Connection
/-! The echo programs. -/

namespace WS
open Spec (Wire Delivers IsFrame ControlOk Assembles Carries Says)

/-! ### Saying things -/

theorem says_nil (masked : Bool) : Says masked [] [] := ⟨[], .nil, rfl, by simp⟩

theorem wire_append {masked : Bool} {fs gs : List Spec.Frame} {a b : Bytes} (h : Wire masked fs a) (h' : Wire masked gs b) :
    Wire masked (fs ++ gs) (a ++ b) := by
  induction h with
  | nil => exact h'
  | cons h hk hr ih => rw [List.append_assoc]; exact .cons h hk ih

theorem Says.append {masked : Bool} {ms ns : List Spec.Message} {a b : Bytes} (h : Says masked ms a) (h' : Says masked ns b) :
    Says masked (ms ++ ns) (a ++ b) := by
  obtain ⟨fs, h1, h2, h3⟩ := h
  obtain ⟨gs, g1, g2, g3⟩ := h'
  refine ⟨fs ++ gs, wire_append h1 g1, by simp [h2, g2], ?_⟩
  rw [List.zip_append h2]
  intro p hp
  rcases List.mem_append.mp hp with hp | hp
  · exact h3 p hp
  · exact g3 p hp

theorem says_encode {lim : Nat} (hlim : lim < 2 ^ 63) {m : OwnedMsg} (h : m.spec.Sendable lim) (masked : Bool) (key : Key4)
    {bs : Bytes} (he : m.view.encode (if masked then some key else none) = .ok bs) : Says masked [m.spec] bs := by
  obtain ⟨k, h1, h2⟩ := encode_wire hlim h masked key he
  refine ⟨[m.view.spec], ?_, rfl, ?_⟩
  · have := Wire.cons h1 h2 .nil; simpa using this
  · intro p hp
    simp only [List.zip_cons_cons, List.zip_nil_right, List.mem_singleton] at hp
    subst hp
    exact (OwnedMsg.carries h).1

/-- Sending on a willing transport. -/
theorem writer_send (w : Writer) (hw : w.stream.Willing) {m : OwnedMsg} {lim : Nat} (hlim : lim < 2 ^ 63)
    (h : m.spec.Sendable lim) (key : Key4) :
    ∃ bs w', w.send m.view key = (.ok (), w') ∧ w'.sender = w.sender ∧ w'.stream.Willing ∧
      w'.stream.wire = w.stream.wire ++ bs ∧ Says w.sender.mask [m.spec] bs := by
  obtain ⟨bs, hb⟩ := encode_sendable h (if w.sender.mask then some key else none)
  obtain ⟨h1, h2⟩ := writeAll_willing bs w.stream hw
  have e : w.sender.send m.view key w.stream = (.ok (), (w.stream.writeAll bs).2) := by
    unfold Sender.send FrameView.writeTo
    rw [hb]
    cases hq : w.stream.writeAll bs with
    | mk r w' => rw [hq] at h1; simp only at h1; subst h1; simp only [hq]
  refine ⟨bs, { w with stream := (w.stream.writeAll bs).2 }, ?_, rfl, h2, ?_, says_encode hlim h _ key hb⟩
  · unfold Writer.send; rw [e]
  · exact writeAll_ok (Prod.ext h1 rfl)

theorem send_close_borrowed (w : Writer) (key : Key4) : w.send Msg.closeEmpty.view key = w.send (OwnedMsg.close none).view key := by
  have : ∀ k, Msg.closeEmpty.view.encode k = (OwnedMsg.close none).view.encode k :=
    fun k => (Msg.encode_toOwned (m := Msg.closeEmpty) rfl 0 trivial k).1
  unfold Writer.send Sender.send FrameView.writeTo
  rw [this]

/-! ### Received messages can be sent -/

/-- Fragments belong to a data message. -/
def HeadData (b : List DataFrame) : Prop := ∀ f rest, b = f :: rest → f.spec.opcode < 8

theorem HeadData.nil : HeadData [] := by intro f rest h; cases h

theorem HeadData.snoc {b : List DataFrame} (h : HeadData b) (hb : b ≠ []) (f : DataFrame) : HeadData (b ++ [f]) := by
  cases b with
  | nil => exact absurd rfl hb
  | cons g b => intro g' rest e; cases e; exact h g b rfl

/-- Frames that make up a message: one control frame, or the fragments of a data message. -/
def Group (fs : List DataFrame) : Prop := (∃ f, fs = [f] ∧ ControlOk f.spec) ∨ HeadData fs

def StepHead : Step → Prop
  | .msg fs b' => Group fs ∧ HeadData b'
  | .fail _ b' => HeadData b'
  | .next b' _ => HeadData b'

theorem headData_part {f : DataFrame} (hc : ControlOk f.spec) (hf : f.finished = false) : HeadData [f] := by
  intro g rest e
  cases e
  refine Nat.lt_of_not_le fun h8 => ?_
  have := (hc h8).2
  rw [show f.spec.fin = f.finished from rfl, hf] at this
  cases this

theorem syncStep_head {maxMsg : Nat} {b : List DataFrame} {cur : Nat} {f : DataFrame} (h : HeadData b) (hc : ControlOk f.spec) :
    StepHead (syncStep maxMsg b cur f) := by
  unfold syncStep
  split
  · split
    · exact h
    · split
      · exact ⟨.inl ⟨f, rfl, hc⟩, .nil⟩
      · next hf => exact headData_part hc (by simpa using hf)
  · next hb =>
    split
    · split
      · exact ⟨.inr (h.snoc hb f), .nil⟩
      · split
        · exact h.snoc hb f
        · split
          · exact h.snoc hb f
          · exact h.snoc hb f
    · split
      · exact ⟨.inl ⟨f, rfl, hc⟩, h⟩
      · exact h

theorem asyncStep_head {maxMsg : Nat} {b : List DataFrame} {cur : Nat} {f : DataFrame} (h : HeadData b) (hc : ControlOk f.spec) :
    StepHead (asyncStep maxMsg b cur f) := by
  have hs : f.finished = false → HeadData (b ++ [f]) := by
    intro hf
    cases b with
    | nil => exact headData_part hc hf
    | cons g b => exact h.snoc (by simp) f
  have hg : Group (b ++ [f]) := by
    cases b with
    | nil => exact .inl ⟨f, rfl, hc⟩
    | cons g b => exact .inr (h.snoc (by simp) f)
  unfold asyncStep
  split
  · exact h
  · split
    · exact ⟨.inl ⟨f, rfl, hc⟩, h⟩
    · split
      · exact h
      · split
        · exact ⟨hg, .nil⟩
        · next hf =>
          have hf : f.finished = false := by simpa using hf
          split
          · exact hs hf
          · split
            · exact hs hf
            · exact hs hf

/-- What such frames yield can be sent in one frame. -/
theorem group_sendable {fs : List DataFrame} (hg : Group fs) {N : Nat} (hN : N ≤ isizeMax) (hsz : heldLen fs ≤ N) {m : OwnedMsg}
    (h : OwnedMsg.fromDataframes (fs.map DataFrame.view) = .ok m) : m.spec.Sendable N := by
  have hv := OwnedMsg.valid_of_assembles (OwnedMsg.fromDataframes_assembles h)
  have hl := payload_length (Nat.le_trans hsz hN) h
  obtain ⟨-, f, rest, rfl, ho⟩ := C11_payload_is_concatenation fs (Nat.le_trans hsz hN) m h
  have hctl : 8 ≤ m.view.opcode.toNat → m.view.payload.length ≤ 125 := by
    intro h8
    rw [ho] at h8
    rcases hg with ⟨g, e, hc⟩ | hd
    · cases e
      have := (hc h8).1
      rw [hl]
      simpa [heldLen] using (show f.data.length ≤ 125 from this)
    · have := hd f rest rfl
      exact absurd this (Nat.not_lt.mpr h8)
  rw [← hl] at hsz
  rcases m with s | b | (_ | ⟨c, r⟩) | b | b
  · exact ⟨hv, hsz⟩
  · exact hsz
  · trivial
  · have h1 := hctl (by simp [OwnedMsg.view, MsgType.toU8])
    simp [OwnedMsg.view, beBytes_length] at h1 hsz
    refine ⟨hv, ?_, ?_⟩
    · show r.length + 2 ≤ 125; omega
    · show r.length + 2 ≤ N; omega
  · exact ⟨hctl (by simp [OwnedMsg.view, MsgType.toU8]), hsz⟩
  · exact ⟨hctl (by simp [OwnedMsg.view, MsgType.toU8]), hsz⟩

/-- A receiver that has reported no error. -/
structure Fit (r : Receiver) : Prop where
  wf : r.WF
  size : heldLen r.buffer ≤ u32Max
  count : r.buffer.length < maxFrames
  head : HeadData r.buffer

theorem fit_new (mask : Bool) (maxDf maxMsg : Nat) : Fit (Receiver.newWithLimits mask maxDf maxMsg) :=
  ⟨Receiver.wf_new _ _ _, Nat.zero_le _, by show 0 < maxFrames; decide, .nil⟩

theorem frames_room : maxFrames ≤ (maxFrames - 1) + 1 := by decide

theorem two_u32 : u32Max + u32Max ≤ isizeMax := by decide

/-- One receive call: no panic, and what arrives can be sent. -/
theorem fit_step {r : Receiver} (h : Fit r) (s : Src) :
    (r.recvMessage s).1.isPanic = false ∧
      ∀ m, (r.recvMessage s).1 = .ok m → Fit (r.recvMessage s).2.1 ∧ m.spec.Sendable isizeMax := by
  obtain ⟨⟨h1, h1'⟩, h2, h3, h4⟩ := h
  have safe := (sLoop_safe (heldLen r.buffer + s.flat.length) r h1 (heldLen r.buffer) s (Nat.le_refl _)).1
  have hk : r.buffer.length ≤ maxFrames - 1 := by omega
  obtain ⟨key, keep⟩ := sLoop_induct (J := fun b cur => heldLen b ≤ cur ∧ heldLen b ≤ u32Max ∧ b.length ≤ maxFrames - 1 ∧ HeadData b)
    (Q := fun res b => ∀ fs, res = .ok fs → heldLen b ≤ u32Max ∧ b.length ≤ maxFrames - 1 ∧ HeadData b ∧ Group fs ∧
      heldLen fs ≤ u32Max + u32Max) r h1
    (by
      intro b cur f ⟨j1, j2, j3, j4⟩ hf hc
      have hb := syncStep_bound (K := maxFrames - 1) h1 (by omega : r.maxMsg ≤ u32Max + 1) frames_room j1 j2 j3 hf
      have hh := syncStep_head (maxMsg := r.maxMsg) (cur := cur) j4 hc
      cases hs : syncStep r.maxMsg b cur f <;> rw [hs] at hb hh
      · intro fs' e
        cases e
        exact ⟨hb.2.1, hb.2.2, hh.2, hh.1, Nat.le_trans hb.1 (by omega)⟩
      · intro fs e; cases e
      · exact ⟨hb.1, hb.2.1, hb.2.2, hh⟩)
    (fun b cur e j => by intro fs h; cases h) (fun b cur e j => by intro fs h; cases h)
    r rfl rfl rfl (heldLen r.buffer) s ⟨Nat.le_refl _, h2, hk, h4⟩
  rw [← recvMessageDataframes_eq] at key keep safe
  unfold Receiver.recvMessage
  split <;> rename_i heq <;> rw [heq] at key keep safe
  · obtain ⟨k1, k2, k3, k4, k5⟩ := key _ rfl
    have hN := Nat.le_trans k5 two_u32
    refine ⟨fromFrames_no_panic hN, fun m hm => ⟨⟨?_, k1, ?_, k3⟩, group_sendable k4 (Nat.le_refl _) hN hm⟩⟩
    · simp only at keep ⊢; rw [keep]; exact ⟨h1, h1'⟩
    · exact Nat.lt_of_le_of_lt k2 (by decide)
  · exact ⟨rfl, fun m hm => by cases hm⟩
  · exact absurd safe (by simp)

/-! ### The blocking loops -/

theorem Hears.last {r : Receiver} {s : Src} (h : ∀ m, (r.recvMessage s).1 = .ok m → m.isClose = true) :
    Hears r s [] (r.recvMessage s).1 := ⟨rfl, by simp, h⟩

theorem Hears.more {r r' : Receiver} {s s' : Src} {m : OwnedMsg} {ms : List OwnedMsg} {x : Res OwnedMsg}
    (h : r.recvMessage s = (.ok m, r', s')) (hm : m.isClose = false) (hs : Hears r' s' ms x) : Hears r s (m :: ms) x := by
  refine ⟨?_, ?_, hs.stop⟩
  · have := hs.calls
    simp only [List.length_cons, Receiver.recvMany, h, List.map_cons, List.cons_append]
    simp only [Receiver.recvMany] at this
    exact congrArg _ this
  · intro a ha
    rcases List.mem_cons.mp ha with rfl | ha
    · exact hm
    · exact hs.open_ a ha

theorem isize_lt : isizeMax < 2 ^ 63 := by decide

/-- The loop ended as it should: it returned, and what it wrote are the replies `rep` asks for to what it heard,
and `last`. -/
def Echoed (rep : Spec.Message → Option Spec.Message) (r : Receiver) (s : Src) (w : Writer) (out : Ending × Writer)
    (fin : Res OwnedMsg → Ending × List Spec.Message) : Prop :=
  ∃ ms x bs w', Hears r s ms x ∧ out = ((fin x).1, w') ∧ w'.stream.wire = w.stream.wire ++ bs ∧
    Says w.sender.mask ((ms.map OwnedMsg.spec).filterMap rep ++ (fin x).2) bs

theorem spec_isClose (m : OwnedMsg) : m.spec.isClose = m.isClose := by
  cases m with
  | close d => cases d <;> rfl
  | _ => rfl

theorem Echoed.more {rep} {r r' : Receiver} {s s' : Src} {w w' : Writer} {out : Ending × Writer} {fin} {m a : OwnedMsg} {key : Key4}
    (hf : Fit r) (hw : w.stream.Willing) (h : r.recvMessage s = (.ok m, r', s')) (hm : m.isClose = false)
    (ha : rep m.spec = some a.spec) (hs : a.spec.Sendable isizeMax) (hsend : w.send a.view key = (.ok (), w'))
    (ih : Fit r' → w'.stream.Willing → Echoed rep r' s' w' out fin) : Echoed rep r s w out fin := by
  have hst := fit_step hf s
  rw [h] at hst
  obtain ⟨bs, w1, h1, h2, h3, h4, h5⟩ := writer_send w hw isize_lt hs key
  rw [hsend] at h1
  cases h1
  obtain ⟨ms, x, out', w2, g1, g2, g3, g4⟩ := ih (hst.2 _ rfl).1 h3
  refine ⟨m :: ms, x, bs ++ out', w2, g1.more h hm, g2, by rw [g3, h4, List.append_assoc], ?_⟩
  rw [h2] at g4
  rw [List.map_cons, List.filterMap_cons_some ha]
  exact Says.append (ms := [a.spec]) h5 g4

theorem Echoed.quiet {rep} {r r' : Receiver} {s s' : Src} {w : Writer} {out : Ending × Writer} {fin} {m : OwnedMsg}
    (hf : Fit r) (h : r.recvMessage s = (.ok m, r', s')) (hm : m.isClose = false)
    (ha : rep m.spec = none) (ih : Fit r' → Echoed rep r' s' w out fin) : Echoed rep r s w out fin := by
  have hst := fit_step hf s
  rw [h] at hst
  obtain ⟨ms, x, out', w2, g1, g2, g3, g4⟩ := ih (hst.2 _ rfl).1
  refine ⟨m :: ms, x, out', w2, g1.more h hm, g2, g3, ?_⟩
  rw [List.map_cons, List.filterMap_cons, ha]
  exact g4

theorem sendable_close (n : Nat) : (OwnedMsg.close none).spec.Sendable n := trivial

theorem sendable_pong {d : Bytes} {n : Nat} (h : (OwnedMsg.ping d).spec.Sendable n) : (OwnedMsg.pong d).spec.Sendable n := h

/-- The transport takes it, so the arm where it does not is never taken. -/
theorem send_never_fails {w w' : Writer} (hw : w.stream.Willing) {m : OwnedMsg} {key : Key4} {x : Res Unit}
    (h : m.spec.Sendable isizeMax) (hs : w.send m.view key = (x, w')) : x = .ok () := by
  obtain ⟨bs, w1, h1, -⟩ := writer_send w hw isize_lt h key
  rw [hs] at h1
  cases h1
  rfl

theorem Echoed.bye {rep} {r : Receiver} {s : Src} {w w' : Writer} {fin} {key : Key4} {x : Res Unit}
    (hw : w.stream.Willing) (h : ∀ m, (r.recvMessage s).1 = .ok m → m.isClose = true)
    (hs : w.send (OwnedMsg.close none).view key = (x, w')) (hfin : fin (r.recvMessage s).1 = (.returned, [.close])) :
    Echoed rep r s w (.returned, w') fin := by
  obtain ⟨bs, w1, h1, h2, h3, h4, h5⟩ := writer_send w hw isize_lt (sendable_close _) key
  rw [hs] at h1
  cases h1
  exact ⟨[], _, bs, w', .last h, by rw [hfin], h4, by rw [hfin]; exact h5⟩

/-- The loop on any input: it returns, and what it wrote are the replies to what it heard and a close. -/
theorem autobahn_loop (keys : Nat → Key4) (r : Receiver) (s : Src) (w : Writer) (hf : Fit r) (hw : w.stream.Willing) :
    Echoed Spec.Message.reply r s w (autobahnLoop keys r s w) fun _ => (.returned, [.close]) := by
  have hst := fit_step hf s
  fun_induction autobahnLoop keys r s w with
  | case1 keys r s w r' s' t h u w' hs _ ih =>
    rw [h] at hst
    exact .more hf hw h rfl rfl ((hst.2 _ rfl).2) hs fun a b => ih a b (fit_step a _)
  | case2 keys r s w r' s' t h x w' hne hs =>
    rw [h] at hst
    exact absurd (send_never_fails hw ((hst.2 _ rfl).2) hs) (by rintro rfl; exact hne () rfl)
  | case3 keys r s w r' s' t h u w' hs _ ih =>
    rw [h] at hst
    exact .more hf hw h rfl rfl ((hst.2 _ rfl).2) hs fun a b => ih a b (fit_step a _)
  | case4 keys r s w r' s' t h x w' hne hs =>
    rw [h] at hst
    exact absurd (send_never_fails hw ((hst.2 _ rfl).2) hs) (by rintro rfl; exact hne () rfl)
  | case5 keys r s w r' s' c h x w' hs =>
    exact .bye hw (by rw [h]; intro m hm; cases hm; rfl) hs rfl
  | case6 keys r s w r' s' t h u w' hs _ ih =>
    rw [h] at hst
    exact .more hf hw h rfl rfl (sendable_pong ((hst.2 _ rfl).2)) hs fun a b => ih a b (fit_step a _)
  | case7 keys r s w r' s' t h x w' hne hs =>
    rw [h] at hst
    exact absurd (send_never_fails hw (sendable_pong ((hst.2 _ rfl).2)) hs) (by rintro rfl; exact hne () rfl)
  | case8 keys r s w r' s' t h _ ih =>
    exact .quiet hf h rfl rfl fun a => ih a hw (fit_step a _)
  | case9 keys r s w e r' s' h x w' hs =>
    rw [send_close_borrowed] at hs
    exact .bye hw (by rw [h]; intro m hm; cases hm) hs rfl
  | case10 keys r s w e r' s' h => rw [h] at hst; cases hst.1

/-- How `serverLoop` ends on the last thing heard. -/
def unwrapped : Res OwnedMsg → Ending × List Spec.Message
  | .ok _ => (.returned, [.close])
  | _ => (.panicked, [])

theorem server_loop (keys : Nat → Key4) (r : Receiver) (s : Src) (w : Writer) (hf : Fit r) (hw : w.stream.Willing) :
    Echoed Spec.Message.reflect r s w (serverLoop keys r s w) unwrapped := by
  have hst := fit_step hf s
  fun_induction serverLoop keys r s w with
  | case1 keys r s w r' s' c h u w' hs =>
    exact .bye hw (by rw [h]; intro m hm; cases hm; rfl) hs (by rw [h]; rfl)
  | case2 keys r s w r' s' c h x w' hne hs =>
    exact absurd (send_never_fails hw (sendable_close _) hs) (by rintro rfl; exact hne () rfl)
  | case3 keys r s w r' s' t h u w' hs _ ih =>
    rw [h] at hst
    exact .more hf hw h rfl rfl (sendable_pong ((hst.2 _ rfl).2)) hs fun a b => ih a b (fit_step a _)
  | case4 keys r s w r' s' t h x w' hne hs =>
    rw [h] at hst
    exact absurd (send_never_fails hw (sendable_pong ((hst.2 _ rfl).2)) hs) (by rintro rfl; exact hne () rfl)
  | case5 keys r s w r' s' m h h1 h2 u w' hs _ ih =>
    rw [h] at hst
    refine .more hf hw h ?_ ?_ ((hst.2 _ rfl).2) hs fun a b => ih a b (fit_step a _)
    · cases m <;> first | rfl | exact (h1 _ h rfl HEq.rfl).elim
    · cases m <;> first | rfl | exact (h1 _ h rfl HEq.rfl).elim | exact (h2 _ h rfl HEq.rfl).elim
  | case6 keys r s w r' s' m h h1 h2 x w' hne hs =>
    rw [h] at hst
    exact absurd (send_never_fails hw ((hst.2 _ rfl).2) hs) (by rintro rfl; exact hne () rfl)
  | case7 keys r s w x r' s' hne h =>
    refine ⟨[], _, [], w, .last ?_, ?_, by simp, ?_⟩
    · rw [h]; intro m hm; exact absurd hm (hne m)
    · rw [h]; cases x <;> first | rfl | exact absurd rfl (hne _)
    · rw [h]; cases x <;> first | exact says_nil _ | exact absurd rfl (hne _)

/-! ### Which messages are heard -/

theorem Hears.tail {r r' : Receiver} {s s' : Src} {m : OwnedMsg} {ms : List OwnedMsg} {x : Res OwnedMsg} {o : OwnedMsg}
    (hr : r.recvMessage s = (.ok o, r', s')) (h : Hears r s (m :: ms) x) : m = o ∧ Hears r' s' ms x := by
  have := h.calls
  simp only [List.length_cons, Receiver.recvMany, hr, List.map_cons, List.cons_append, List.cons.injEq, Res.ok.injEq] at this
  refine ⟨this.1.symm, ⟨?_, fun a ha => h.open_ a (List.mem_cons_of_mem _ ha), h.stop⟩⟩
  simp only [Receiver.recvMany]
  exact this.2

/-- The loop hears what is delivered, up to the first close. -/
theorem hears_delivered {r : Receiver} {s : Src} {oms ms : List OwnedMsg} {x : Res OwnedMsg}
    (hd : (r.recvMany oms.length s).1 = oms.map Res.ok) (h : Hears r s ms x) :
    ((∃ m ∈ oms, m.isClose = true) → ms = oms.takeWhile (fun m => !m.isClose) ∧ ∃ m, x = .ok m) ∧
    (∀ y, (∀ m ∈ oms, m.isClose = false) → (r.recvMany (oms.length + 1) s).1 = oms.map Res.ok ++ [y] → (∀ m, y ≠ .ok m) →
      ms = oms ∧ x = y) := by
  induction oms generalizing r s ms with
  | nil =>
    refine ⟨(by rintro ⟨m, hm, -⟩; cases hm), fun y _ hy hn => ?_⟩
    have := h.calls
    simp only [Receiver.recvMany, List.length_nil, List.map_nil, List.nil_append, List.cons.injEq] at hy
    cases ms with
    | nil =>
      simp only [Receiver.recvMany, List.length_nil, List.map_nil, List.nil_append, List.cons.injEq] at this
      exact ⟨rfl, by rw [← this.1, hy.1]⟩
    | cons m ms =>
      simp only [Receiver.recvMany, List.length_cons, List.map_cons, List.cons_append, List.cons.injEq] at this
      rw [hy.1] at this
      exact absurd this.1 (hn m)
  | cons o oms ih =>
    cases hr : r.recvMessage s with
    | mk y q =>
      obtain ⟨r1, s1⟩ := q
      simp only [List.length_cons, Receiver.recvMany, hr, List.map_cons, List.cons.injEq] at hd
      obtain ⟨rfl, hd'⟩ := hd
      cases ho : o.isClose with
      | true =>
        refine ⟨fun _ => ?_, fun y hn => absurd (hn o List.mem_cons_self) (by simp [ho])⟩
        cases ms with
        | nil =>
          have := h.calls
          simp only [Receiver.recvMany, List.length_nil, List.map_nil, List.nil_append, List.cons.injEq, hr] at this
          exact ⟨by simp [ho], o, this.1.symm⟩
        | cons m ms =>
          obtain ⟨rfl, -⟩ := h.tail hr
          exact absurd (h.open_ m List.mem_cons_self) (by simp [ho])
      | false =>
        cases ms with
        | nil =>
          have := h.calls
          simp only [Receiver.recvMany, List.length_nil, List.map_nil, List.nil_append, List.cons.injEq, hr] at this
          exact absurd (h.stop o this.1.symm) (by simp [ho])
        | cons m ms =>
          obtain ⟨rfl, ht⟩ := h.tail hr
          obtain ⟨i1, i2⟩ := ih hd' ht
          refine ⟨?_, fun y hn hx => ?_⟩
          · rintro ⟨c, hc, hcc⟩
            rcases List.mem_cons.mp hc with rfl | hc
            · rw [ho] at hcc; cases hcc
            · obtain ⟨rfl, hx⟩ := i1 ⟨c, hc, hcc⟩
              exact ⟨by simp [ho], hx⟩
          · have hx' : (r1.recvMany (oms.length + 1) s1).1 = oms.map Res.ok ++ [y] := by
              rw [List.length_cons, Receiver.recvMany] at hx
              simp only [hr, List.map_cons, List.cons_append, List.cons.injEq, true_and] at hx
              exact hx
            intro hy
            obtain ⟨rfl, hz⟩ := i2 y (fun c hc => hn c (List.mem_cons_of_mem _ hc)) hx' hy
            exact ⟨rfl, hz⟩

/-! ### The async stream -/

section
variable {σ α : Type} {dec : Decoder σ α} {I : σ → Prop} {D : α → Prop}

/-- A decoder that does not panic and keeps `I` until it reports an error. -/
def DecGood (dec : Decoder σ α) (I : σ → Prop) (D : α → Prop) : Prop :=
  ∀ c bs, I c → match dec c bs with
    | (.ok (some a), c', _) => I c' ∧ D a
    | (.ok none, c', _) => I c'
    | (.err _, _, _) => True
    | (.panic _, _, _) => False

def ItemGood (I : σ → Prop) (D : α → Prop) (fr : Framed σ) : Item α → Prop
  | .item a => I fr.codec ∧ D a
  | .panic _ => False
  | _ => True

def PollGood (I : σ → Prop) (D : α → Prop) (fr : Framed σ) : Poll α → Prop
  | .ready x => ItemGood I D fr x
  | .notReady => I fr.codec

theorem pollEof_good (hd : DecGood dec I D) (fr : Framed σ) (h : I fr.codec) :
    ItemGood I D (fr.pollEof dec).2 (fr.pollEof dec).1 := by
  have := hd fr.codec fr.buf h
  unfold Framed.pollEof
  split <;> rename_i heq <;> rw [heq] at this
  · exact this
  · simp only; split <;> trivial
  · trivial
  · exact this

theorem pollRead_good (hd : DecGood dec I D) (s : Src) (fr : Framed σ) (h : I fr.codec) :
    PollGood I D (fr.pollRead dec s).2.1 (fr.pollRead dec s).1 := by
  induction s generalizing fr with
  | nil => exact pollEof_good hd { fr with eof := true, readable := true } h
  | cons e s ih =>
    cases e with
    | error k =>
      unfold Framed.pollRead
      split
      · exact h
      · trivial
    | chunk b =>
      unfold Framed.pollRead
      split
      · exact pollEof_good hd { fr with eof := true, readable := true } h
      · have := hd fr.codec (fr.buf ++ b) h
        split <;> rename_i heq <;> rw [heq] at this
        · exact this
        · exact ih _ this
        · trivial
        · exact this

theorem poll_good (hd : DecGood dec I D) (s : Src) (fr : Framed σ) (h : I fr.codec) :
    PollGood I D (fr.poll dec s).2.1 (fr.poll dec s).1 := by
  unfold Framed.poll
  split
  · split
    · exact pollEof_good hd fr h
    · have := hd fr.codec fr.buf h
      split <;> rename_i heq <;> rw [heq] at this
      · exact this
      · exact pollRead_good hd s _ this
      · trivial
      · exact this
  · exact pollRead_good hd s fr h
end

/-- A codec that has reported no error. -/
structure FitAsync (c : MsgCodec) : Prop where
  wf : c.WF
  size : heldLen c.buffer ≤ u32Max
  count : c.buffer.length < maxFrames
  head : HeadData c.buffer

theorem fitAsync_new (ctx : Context) (maxDf maxMsg : Nat) : FitAsync (MsgCodec.newWithLimits ctx maxDf maxMsg) :=
  ⟨MsgCodec.wf_new _ _ _, Nat.zero_le _, by show 0 < maxFrames; decide, .nil⟩

theorem msgDecoder_good : DecGood msgDecoder FitAsync (fun m => m.spec.Sendable isizeMax) := by
  intro c bs ⟨⟨h1, h1'⟩, h2, h3, h4⟩
  have hlt : (u32Max : Nat) < 2 ^ 63 := by decide
  have key := pLoop_induct (c := c.cfg) (J := fun b cur => heldLen b ≤ cur ∧ heldLen b ≤ u32Max ∧ b.length ≤ maxFrames - 1 ∧ HeadData b)
    (Q := fun o => match o with
      | .msg fs b _ => heldLen b ≤ u32Max ∧ b.length ≤ maxFrames - 1 ∧ HeadData b ∧ Group fs ∧ heldLen fs ≤ u32Max + u32Max
      | .fail _ _ _ => True
      | .bad _ _ _ _ => True
      | .more b _ _ => heldLen b ≤ u32Max ∧ b.length ≤ maxFrames - 1 ∧ HeadData b)
    (by show c.df.maxDf < 2 ^ 63; omega)
    (by
      intro b cur f rest ⟨j1, j2, j3, j4⟩ hf hc
      have hb := asyncStep_bound (K := maxFrames - 1) h1' frames_room j1 j2 j3 (show f.data.length ≤ c.df.maxDf from hf)
      have hh := asyncStep_head (maxMsg := c.maxMsg) (cur := cur) j4 hc
      have e : c.cfg.step = asyncStep c.maxMsg := rfl
      rw [e]
      cases hs : asyncStep c.maxMsg b cur f <;> rw [hs] at hb hh
      · exact ⟨hb.2.1, hb.2.2, hh.2, hh.1, Nat.le_trans hb.1 (by omega)⟩
      · trivial
      · exact ⟨hb.1, hb.2.1, hb.2.2, hh⟩)
    (fun b cur e start rest j _ => trivial) (fun b cur left j => j.2)
    c.buffer (heldLen c.buffer) bs ⟨Nat.le_refl _, h2, by omega, h4⟩
  have hfr : maxFrames - 1 < maxFrames := by decide
  unfold msgDecoder
  rw [MsgCodec.decode_eq c h1]
  cases hp : pLoop c.cfg c.buffer (heldLen c.buffer) bs with
  | msg fs b rest =>
    rw [hp] at key
    obtain ⟨k1, k2, k3, k4, k5⟩ := key
    have hN := Nat.le_trans k5 two_u32
    have hnp := fromFrames_no_panic (fs := fs) hN
    simp only [asyncOut]
    cases hf : OwnedMsg.fromDataframes (fs.map DataFrame.view) with
    | ok m => exact ⟨⟨⟨h1, h1'⟩, k1, Nat.lt_of_le_of_lt k2 hfr, k3⟩, group_sendable k4 (Nat.le_refl _) hN hf⟩
    | err e => trivial
    | panic e => rw [hf] at hnp; simp at hnp
  | fail e b rest => trivial
  | bad e b start rest => trivial
  | more b cur left =>
    rw [hp] at key
    exact ⟨⟨h1, h1'⟩, key.1, Nat.lt_of_le_of_lt key.2.1 hfr, key.2.2⟩

theorem next_of_ready {fr fr' : Framed MsgCodec} {s s' : Src} {x : Item OwnedMsg} (h : fr.poll msgDecoder s = (.ready x, fr', s')) :
    fr.next msgDecoder s = (x, fr', s') := by
  rw [Framed.next]
  split
  · next q => rw [h] at q; cases q; rfl
  · next q => rw [h] at q; cases q

theorem next_of_wait {fr fr' : Framed MsgCodec} {s s' : Src} (h : fr.poll msgDecoder s = (.notReady, fr', s')) :
    fr.next msgDecoder s = fr'.next msgDecoder s' := by
  conv => lhs; rw [Framed.next]
  split
  · next q => rw [h] at q; cases q
  · next q => rw [h] at q; cases q; rfl

theorem AHears.last {fr fr' : Framed MsgCodec} {s s' : Src} {x : Item OwnedMsg} (h : fr.poll msgDecoder s = (.ready x, fr', s'))
    (hx : ∀ m, x = .item m → m.isClose = true) : AHears fr s [] x := by
  refine ⟨?_, by simp, hx⟩
  simp [Framed.nextMany, next_of_ready h]

theorem AHears.more {fr fr' : Framed MsgCodec} {s s' : Src} {m : OwnedMsg} {ms : List OwnedMsg} {x : Item OwnedMsg}
    (h : fr.poll msgDecoder s = (.ready (.item m), fr', s')) (hm : m.isClose = false) (hs : AHears fr' s' ms x) :
    AHears fr s (m :: ms) x := by
  refine ⟨?_, ?_, hs.stop⟩
  · have := hs.calls
    simp only [List.length_cons, Framed.nextMany, next_of_ready h, List.map_cons, List.cons_append]
    simp only [Framed.nextMany] at this
    exact congrArg _ this
  · intro a ha
    rcases List.mem_cons.mp ha with rfl | ha
    · exact hm
    · exact hs.open_ a ha

theorem AHears.wait {fr fr' : Framed MsgCodec} {s s' : Src} {ms : List OwnedMsg} {x : Item OwnedMsg}
    (h : fr.poll msgDecoder s = (.notReady, fr', s')) (hs : AHears fr' s' ms x) : AHears fr s ms x := by
  refine ⟨?_, hs.open_, hs.stop⟩
  have := hs.calls
  simp only [Framed.nextMany, next_of_wait h] at this ⊢
  exact this

theorem startSend_patient (fw : FramedWrite) (w : Sink) (h : w.Patient) (hb : fw.buf.WF) {m : OwnedMsg} {lim : Nat} (hlim : lim < 2 ^ 63)
    (hm : m.spec.Sendable lim) (key : Key4) (extra : Nat) :
    (fw.startSend m.view key extra w).2.2.Patient ∧ (fw.startSend m.view key extra w).2.1.buf.WF ∧
      (fw.startSend m.view key extra w).2.1.isServer = fw.isServer ∧
      w.wire <+: (fw.startSend m.view key extra w).2.2.wire ∧
      (((fw.startSend m.view key extra w).1 = .notReady ∧
        (fw.startSend m.view key extra w).2.2.wire ++ (fw.startSend m.view key extra w).2.1.buf.data = w.wire ++ fw.buf.data) ∨
       ((fw.startSend m.view key extra w).1 = .ready ∧ ∃ bs, Says (!fw.isServer) [m.spec] bs ∧
        (fw.startSend m.view key extra w).2.2.wire ++ (fw.startSend m.view key extra w).2.1.buf.data = w.wire ++ fw.buf.data ++ bs)) := by
  have enc : ∀ (fw : FramedWrite) (w : Sink), fw.buf.WF → ∃ buf bs, encodeInto fw.isServer m.view key extra fw.buf = (.ok (), buf) ∧
      buf.WF ∧ buf.data = fw.buf.data ++ bs ∧ Says (!fw.isServer) [m.spec] bs := by
    intro fw w hb
    obtain ⟨bs, hbs⟩ := encode_sendable hm (if fw.isServer then none else some key)
    have hc := C07_encode_into_buffer fw.isServer m.view m.lawful key extra fw.buf hb
    rw [hbs] at hc
    obtain ⟨cap, h1, h2⟩ := hc
    refine ⟨_, bs, h1, h2, rfl, says_encode hlim hm _ key ?_⟩
    rw [← hbs]
    cases fw.isServer <;> rfl
  unfold FramedWrite.startSend
  simp only
  split
  · have hp := pollComplete_patient fw w h
    have hi := pollComplete_inv fw w hb
    split
    · next q => rw [q] at hp; rcases hp.1 with h | h <;> cases h
    · next q => rw [q] at hp; rcases hp.1 with h | h <;> cases h
    · next r fw' w' h1 h2 q =>
      rw [q] at hp hi
      simp only at hp hi
      split
      · exact ⟨hp.2, hi.2.1, hi.2.2.1, hi.2.2.2.1, .inl ⟨rfl, hi.1⟩⟩
      · obtain ⟨buf, bs, e1, e2, e3, e4⟩ := enc fw' w' hi.2.1
        rw [e1]
        refine ⟨hp.2, e2, hi.2.2.1, hi.2.2.2.1, .inr ⟨rfl, bs, hi.2.2.1 ▸ e4, ?_⟩⟩
        simp only
        rw [e3, ← List.append_assoc, hi.1]
  · obtain ⟨buf, bs, e1, e2, e3, e4⟩ := enc fw w hb
    rw [e1]
    refine ⟨h, e2, rfl, List.prefix_rfl, .inr ⟨rfl, bs, e4, ?_⟩⟩
    simp only
    rw [e3, List.append_assoc]

/-- How the async program ends on the last thing it heard: `q` is what it had queued or written. -/
def Ends (server : Bool) (q : Bytes) (before : Bytes) (out : Ending × Sink) : Item OwnedMsg → Prop
  | .err e => out.1 = .failed e ∧ before <+: out.2.wire ∧ out.2.wire <+: q
  | .panic _ => False
  | _ => out.1 = .returned ∧ ∃ bye, Says (!server) [.close] bye ∧ out.2.wire = q ++ bye

theorem Ends.before {server : Bool} {q b b' : Bytes} {out : Ending × Sink} {x : Item OwnedMsg} (h : Ends server q b' out x)
    (hb : b <+: b') : Ends server q b out x := by
  cases x with
  | err e => exact ⟨h.1, hb.trans h.2.1, h.2.2⟩
  | _ => exact h

theorem goodbye (keys : Nat → Key4) (extra : Nat) (fw : FramedWrite) (w : Sink) (h : w.Patient) (hb : fw.buf.WF) :
    (sayGoodbye keys extra fw w).1 = .returned ∧
      ∃ bye, Says (!fw.isServer) [.close] bye ∧ (sayGoodbye keys extra fw w).2.wire = w.wire ++ fw.buf.data ++ bye := by
  have hd := drain_patient fw w h
  have hs := drain_spec fw w hb
  unfold sayGoodbye
  cases hx : fw.drain w with
  | mk r q =>
    obtain ⟨fw', w'⟩ := q
    rw [hx] at hd hs
    simp only at hd hs
    obtain ⟨rfl, hd2, hd3⟩ := hd
    obtain ⟨hs1, hs2, hs3, hs4, hs5, hs6⟩ := hs
    have he := hs3 rfl
    obtain ⟨bs, fw'', w'', h1, h2, h3, -⟩ := sendAwait_patient fw' w' hd2 hs6 he (sendable_close isizeMax) (keys 0) extra
    simp only [h2]
    rw [he, List.append_nil] at hs1
    refine ⟨trivial, bs, ?_, by rw [h3, hs1]⟩
    rw [← hd3]
    refine says_encode isize_lt (sendable_close isizeMax) _ (keys 0) ?_
    rw [← h1]
    cases fw'.isServer <;> rfl

theorem filterReply_spec (m : OwnedMsg) (h : m.isClose = false) : m.spec.reply = (filterReply m).map OwnedMsg.spec := by
  cases m <;> first | rfl | cases h

theorem filterReply_sendable {m a : OwnedMsg} {n : Nat} (h : m.spec.Sendable n) (hf : filterReply m = some a) : a.spec.Sendable n := by
  cases m <;> cases hf <;> exact h

theorem forward_loop (keys : Nat → Key4) (extra : Nat) (buffered : Option OwnedMsg) (fr : Framed MsgCodec) (s : Src) (fw : FramedWrite)
    (w : Sink) (hf : FitAsync fr.codec) (hbuf : ∀ m ∈ buffered, m.spec.Sendable isizeMax) (hw : w.Patient) (hb : fw.buf.WF) :
    ∃ ms x bs, AHears fr s ms x ∧
      Says (!fw.isServer) (buffered.toList.map OwnedMsg.spec ++ (ms.map OwnedMsg.spec).filterMap Spec.Message.reply) bs ∧
      Ends fw.isServer (w.wire ++ fw.buf.data ++ bs) w.wire (forwardLoop keys extra buffered fr s fw w) x := by
  fun_induction forwardLoop keys extra buffered fr s fw w with
  | case1 keys fr s fw w a fw' w' h ih =>
    have hp := startSend_patient fw w hw hb isize_lt (hbuf a rfl) (keys 0) extra
    rw [h] at hp
    obtain ⟨p1, p2, p3, p4, ⟨p5, -⟩ | ⟨-, b0, p6, p7⟩⟩ := hp
    · cases p5
    · simp only at p1 p2 p3 p4 p7
      obtain ⟨ms, x, bs, g1, g2, g3⟩ := ih hf (by simp) p1 p2
      rw [p3] at g2 g3
      rw [p7] at g3
      refine ⟨ms, x, b0 ++ bs, g1, ?_, ?_⟩
      · exact Says.append (ms := [a.spec]) p6 g2
      · rw [← List.append_assoc]; exact g3.before p4
  | case2 keys fr s fw w a fw' w' h ih =>
    have hp := startSend_patient fw w hw hb isize_lt (hbuf a rfl) (keys 0) extra
    rw [h] at hp
    obtain ⟨p1, p2, p3, p4, ⟨-, p5⟩ | ⟨p5, -⟩⟩ := hp
    · simp only at p1 p2 p3 p4 p5
      obtain ⟨ms, x, bs, g1, g2, g3⟩ := ih hf hbuf p1 p2
      rw [p3] at g2 g3
      rw [p5] at g3
      exact ⟨ms, x, bs, g1, g2, g3.before p4⟩
    · cases p5
  | case3 keys fr s fw w a e fw' w' h =>
    have hp := startSend_patient fw w hw hb isize_lt (hbuf a rfl) (keys 0) extra
    rw [h] at hp
    obtain ⟨-, -, -, -, ⟨p5, -⟩ | ⟨p5, -⟩⟩ := hp <;> cases p5
  | case4 keys fr s fw w a e fw' w' h =>
    have hp := startSend_patient fw w hw hb isize_lt (hbuf a rfl) (keys 0) extra
    rw [h] at hp
    obtain ⟨-, -, -, -, ⟨p5, -⟩ | ⟨p5, -⟩⟩ := hp <;> cases p5
  | case5 keys fr s fw w fr' s' h e fw' w' hc =>
    have hp := pollComplete_patient fw w hw
    rw [hc] at hp
    rcases hp.1 with h | h <;> cases h
  | case6 keys fr s fw w fr' s' h e fw' w' hc =>
    have hp := pollComplete_patient fw w hw
    rw [hc] at hp
    rcases hp.1 with h | h <;> cases h
  | case7 keys fr s fw w fr' s' h r fw' w' _ _ hc ih =>
    have hg := poll_good msgDecoder_good s fr hf
    rw [h] at hg
    have hp := pollComplete_patient fw w hw
    have hi := pollComplete_inv fw w hb
    rw [hc] at hp hi
    simp only at hp hi
    obtain ⟨ms, x, bs, g1, g2, g3⟩ := ih hg (by simp) hp.2 hi.2.1
    rw [hi.2.2.1] at g2 g3
    rw [hi.1] at g3
    exact ⟨ms, x, bs, g1.wait h, g2, g3.before hi.2.2.2.1⟩
  | case8 keys fr s fw w m fr' s' h hm =>
    refine ⟨[], .item m, [], .last h (by rintro m' e; cases e; exact hm), says_nil _, ?_⟩
    rw [List.append_nil]
    exact goodbye keys extra fw w hw hb
  | case9 keys fr s fw w m fr' s' h hm a ha ih =>
    have hm : m.isClose = false := by simpa using hm
    have hg := poll_good msgDecoder_good s fr hf
    rw [h] at hg
    obtain ⟨ms, x, bs, g1, g2, g3⟩ := ih hg.1 (by rintro a' e; cases e; exact filterReply_sendable hg.2 ha) hw hb
    refine ⟨m :: ms, x, bs, g1.more h hm, ?_, g3⟩
    have e : m.spec.reply = some a.spec := by rw [filterReply_spec m hm, ha]; rfl
    rw [List.map_cons, List.filterMap_cons_some e]
    exact g2
  | case10 keys fr s fw w m fr' s' h hm ha ih =>
    have hm : m.isClose = false := by simpa using hm
    have hg := poll_good msgDecoder_good s fr hf
    rw [h] at hg
    obtain ⟨ms, x, bs, g1, g2, g3⟩ := ih hg.1 (by simp) hw hb
    refine ⟨m :: ms, x, bs, g1.more h hm, ?_, g3⟩
    have e : m.spec.reply = none := by rw [filterReply_spec m hm, ha]; rfl
    rw [List.map_cons, List.filterMap_cons_none e]
    exact g2
  | case11 keys fr s fw w fr' s' h =>
    refine ⟨[], .done, [], .last h (by rintro m' e; cases e), says_nil _, ?_⟩
    rw [List.append_nil]
    exact goodbye keys extra fw w hw hb
  | case12 keys fr s fw w e fr' s' h =>
    refine ⟨[], .err e, [], .last h (by rintro m' e; cases e), says_nil _, rfl, List.prefix_rfl, ?_⟩
    rw [List.append_nil]
    exact List.prefix_append _ _
  | case13 keys fr s fw w e fr' s' h =>
    have hg := poll_good msgDecoder_good s fr hf
    rw [h] at hg
    exact absurd hg id

theorem AHears.tail {fr fr' : Framed MsgCodec} {s s' : Src} {m : OwnedMsg} {ms : List OwnedMsg} {x : Item OwnedMsg} {o : OwnedMsg}
    (hr : fr.next msgDecoder s = (.item o, fr', s')) (h : AHears fr s (m :: ms) x) : m = o ∧ AHears fr' s' ms x := by
  have := h.calls
  simp only [List.length_cons, Framed.nextMany, hr, List.map_cons, List.cons_append, List.cons.injEq, Item.item.injEq] at this
  refine ⟨this.1.symm, ⟨?_, fun a ha => h.open_ a (List.mem_cons_of_mem _ ha), h.stop⟩⟩
  simp only [Framed.nextMany]
  exact this.2

/-- The async program hears what is delivered, up to the first close. -/
theorem ahears_delivered {fr : Framed MsgCodec} {s : Src} {oms ms : List OwnedMsg} {x : Item OwnedMsg}
    (hd : (fr.nextMany msgDecoder oms.length s).1 = oms.map Item.item) (h : AHears fr s ms x) :
    ((∃ m ∈ oms, m.isClose = true) → ms = oms.takeWhile (fun m => !m.isClose) ∧ ∃ m, x = .item m) ∧
    (∀ y, (∀ m ∈ oms, m.isClose = false) → (fr.nextMany msgDecoder (oms.length + 1) s).1 = oms.map Item.item ++ [y] → (∀ m, y ≠ .item m) →
      ms = oms ∧ x = y) := by
  induction oms generalizing fr s ms with
  | nil =>
    refine ⟨(by rintro ⟨m, hm, -⟩; cases hm), fun y _ hy hn => ?_⟩
    have := h.calls
    simp only [Framed.nextMany, List.length_nil, List.map_nil, List.nil_append, List.cons.injEq] at hy
    cases ms with
    | nil =>
      simp only [Framed.nextMany, List.length_nil, List.map_nil, List.nil_append, List.cons.injEq] at this
      exact ⟨rfl, by rw [← this.1, hy.1]⟩
    | cons m ms =>
      simp only [Framed.nextMany, List.length_cons, List.map_cons, List.cons_append, List.cons.injEq] at this
      rw [hy.1] at this
      exact absurd this.1 (hn m)
  | cons o oms ih =>
    cases hr : fr.next msgDecoder s with
    | mk y q =>
      obtain ⟨r1, s1⟩ := q
      simp only [List.length_cons, Framed.nextMany, hr, List.map_cons, List.cons.injEq] at hd
      obtain ⟨rfl, hd'⟩ := hd
      cases ho : o.isClose with
      | true =>
        refine ⟨fun _ => ?_, fun y hn => absurd (hn o List.mem_cons_self) (by simp [ho])⟩
        cases ms with
        | nil =>
          have := h.calls
          simp only [Framed.nextMany, List.length_nil, List.map_nil, List.nil_append, List.cons.injEq, hr] at this
          exact ⟨by simp [ho], o, this.1.symm⟩
        | cons m ms =>
          obtain ⟨rfl, -⟩ := h.tail hr
          exact absurd (h.open_ m List.mem_cons_self) (by simp [ho])
      | false =>
        cases ms with
        | nil =>
          have := h.calls
          simp only [Framed.nextMany, List.length_nil, List.map_nil, List.nil_append, List.cons.injEq, hr] at this
          exact absurd (h.stop o this.1.symm) (by simp [ho])
        | cons m ms =>
          obtain ⟨rfl, ht⟩ := h.tail hr
          obtain ⟨i1, i2⟩ := ih hd' ht
          refine ⟨?_, fun y hn hx => ?_⟩
          · rintro ⟨c, hc, hcc⟩
            rcases List.mem_cons.mp hc with rfl | hc
            · rw [ho] at hcc; cases hcc
            · obtain ⟨rfl, hx⟩ := i1 ⟨c, hc, hcc⟩
              exact ⟨by simp [ho], hx⟩
          · have hx' : (r1.nextMany msgDecoder (oms.length + 1) s1).1 = oms.map Item.item ++ [y] := by
              rw [List.length_cons, Framed.nextMany] at hx
              simp only [hr, List.map_cons, List.cons_append, List.cons.injEq, true_and] at hx
              exact hx
            intro hy
            obtain ⟨rfl, hz⟩ := i2 y (fun c hc => hn c (List.mem_cons_of_mem _ hc)) hx' hy
            exact ⟨rfl, hz⟩

/-! ### Single steps, for concrete runs -/

deriving instance DecidableEq for Poll

theorem forward_item {keys : Nat → Key4} {extra : Nat} {fr : Framed MsgCodec} {s : Src} {fw : FramedWrite} {w : Sink} {m a : OwnedMsg}
    (h : (fr.poll msgDecoder s).1 = .ready (.item m)) (hc : m.isClose = false) (ha : filterReply m = some a)
    (hs : (fw.startSend a.view (keys 0) extra w).1 = .ready) :
    forwardLoop keys extra none fr s fw w =
      forwardLoop (fun n => keys (n + 1)) extra none (fr.poll msgDecoder s).2.1 (fr.poll msgDecoder s).2.2
        (fw.startSend a.view (keys 0) extra w).2.1 (fw.startSend a.view (keys 0) extra w).2.2 := by
  rw [forwardLoop]
  split
  · next q => rw [q] at h; cases h
  · next q =>
    rw [q] at h ⊢
    simp only [Poll.ready.injEq, Item.item.injEq] at h
    subst h
    simp only [hc, Bool.false_eq_true, if_false, ha]
    rw [forwardLoop]
    split
    · next q => rw [q]
    · next q => rw [q] at hs; cases hs
    · next q => rw [q] at hs; cases hs
    · next q => rw [q] at hs; cases hs
  · next q => rw [q] at h; cases h
  · next q => rw [q] at h; cases h
  · next q => rw [q] at h; cases h

theorem forward_err {keys : Nat → Key4} {extra : Nat} {fr : Framed MsgCodec} {s : Src} {fw : FramedWrite} {w : Sink} {e : WsErr}
    (h : (fr.poll msgDecoder s).1 = .ready (.err e)) : forwardLoop keys extra none fr s fw w = (.failed e, w) := by
  rw [forwardLoop]
  split
  · next q => rw [q] at h; cases h
  · next q => rw [q] at h; cases h
  · next q => rw [q] at h; cases h
  · next q => rw [q] at h; cases h; rfl
  · next q => rw [q] at h; cases h

/-! ### What well-formed traffic is heard as -/

/-- The traffic ends with a close (anything may follow) or the stream ends, perhaps inside a frame. -/
def Stops (mask : Bool) (lim : Nat) (ms : List Spec.Message) (x : Bytes) : Prop :=
  (∃ m ∈ ms, m.isClose = true) ∨ Truncated mask lim x

theorem takeWhile_spec (oms : List OwnedMsg) :
    (oms.takeWhile fun m => !m.isClose).map OwnedMsg.spec = (oms.map OwnedMsg.spec).takeWhile fun m => !m.isClose := by
  rw [List.takeWhile_map]
  congr 2
  funext m
  simp [spec_isClose]

theorem no_close {oms : List OwnedMsg} (h : ¬ ∃ m ∈ oms.map OwnedMsg.spec, m.isClose = true) : ∀ m ∈ oms, m.isClose = false := by
  intro m hm
  cases hc : m.isClose with
  | false => rfl
  | true => exact absurd ⟨m.spec, List.mem_map_of_mem hm, by rw [spec_isClose]; exact hc⟩ h

theorem takeWhile_open {oms : List OwnedMsg} (h : ∀ m ∈ oms, m.isClose = false) : (oms.takeWhile fun m => !m.isClose) = oms := by
  induction oms with
  | nil => rfl
  | cons o oms ih =>
    have := h o List.mem_cons_self
    simp [this, ih fun m hm => h m (List.mem_cons_of_mem _ hm)]

theorem hears_wire {mask : Bool} {maxDf maxMsg : Nat} {frames : List Spec.Frame} {ms : List Spec.Message} {held' : List Spec.Frame}
    (hd : Delivers (Spec.FitsBlocking (min maxMsg u32Max)) [] frames ms held') (hl : ∀ f ∈ frames, f.payload.length ≤ min maxDf u32Max)
    {bs x : Bytes} (hw : Wire mask frames bs) {s : Src} (hs : s.Clean) (hx : s.flat = bs ++ x)
    (hstop : Stops mask (min maxDf u32Max) ms x) {oms : List OwnedMsg} {y : Res OwnedMsg}
    (h : Hears (Receiver.newWithLimits mask maxDf maxMsg) s oms y) :
    oms.map OwnedMsg.spec = ms.takeWhile (fun m => !m.isClose) ∧ ((∃ m ∈ ms, m.isClose = true) → ∃ m, y = .ok m) ∧
      ((¬ ∃ m ∈ ms, m.isClose = true) → y = .err .noData) := by
  obtain ⟨dms, r', s', h1, h2, -⟩ := C17_fragments_and_controls_blocking mask maxDf maxMsg frames ms held' hd hl bs x hw s hs hx
  have hlen : ms.length = dms.length := by rw [← h2]; simp
  rw [hlen] at h1
  obtain ⟨k1, k2⟩ := hears_delivered (by rw [h1]) h
  by_cases hc : ∃ m ∈ ms, m.isClose = true
  · have hc' : ∃ m ∈ dms, m.isClose = true := by
      obtain ⟨m, hm, hmc⟩ := hc
      rw [← h2] at hm
      obtain ⟨o, ho, rfl⟩ := List.mem_map.mp hm
      exact ⟨o, ho, by rw [← spec_isClose]; exact hmc⟩
    obtain ⟨rfl, hy⟩ := k1 hc'
    exact ⟨by rw [takeWhile_spec, h2], fun _ => hy, fun hn => absurd hc hn⟩
  · have ht : Truncated mask (min maxDf u32Max) x := by
      rcases hstop with h | h
      · exact absurd h hc
      · exact h
    obtain ⟨ems, e1, e2⟩ := C27_truncated_stream_blocking mask maxDf maxMsg frames ms held' hd hl bs x hw ht s hs hx 1
    have : ems = dms := OwnedMsg.map_spec_inj (by rw [e2, h2])
    subst this
    rw [hlen] at e1
    have hno := no_close (oms := ems) (by rw [h2]; exact hc)
    obtain ⟨rfl, rfl⟩ := k2 _ hno e1 (by simp)
    refine ⟨?_, fun h => absurd h hc, fun _ => rfl⟩
    rw [← h2, ← takeWhile_spec, takeWhile_open hno]

theorem ahears_wire {ctx : Context} {maxDf maxMsg : Nat} {frames : List Spec.Frame} {ms : List Spec.Message} {held' : List Spec.Frame}
    (hd : Delivers (Spec.FitsAsync (min maxMsg u32Max)) [] frames ms held') (hl : ∀ f ∈ frames, f.payload.length ≤ min maxDf u32Max)
    {bs x : Bytes} (hw : Wire (decide (ctx = .server)) frames bs) {buf : Bytes} {s : Src} (hs : s.Ready) (hx : buf ++ s.flat = bs ++ x)
    (hstop : Stops (decide (ctx = .server)) (min maxDf u32Max) ms x) {oms : List OwnedMsg} {y : Item OwnedMsg}
    (h : AHears (Framed.fromParts (MsgCodec.newWithLimits ctx maxDf maxMsg) buf) s oms y) :
    oms.map OwnedMsg.spec = ms.takeWhile (fun m => !m.isClose) ∧ ((∃ m ∈ ms, m.isClose = true) → ∃ m, y = .item m) ∧
      ((¬ ∃ m ∈ ms, m.isClose = true) → y = if x = [] then .done else .err bytesRemaining) := by
  obtain ⟨dms, r', s', h1, h2, -⟩ := C18_fragments_and_controls_async ctx maxDf maxMsg frames ms held' hd hl bs x hw buf s hs hx
  have hlen : ms.length = dms.length := by rw [← h2]; simp
  rw [hlen] at h1
  obtain ⟨k1, k2⟩ := ahears_delivered (by rw [h1]) h
  by_cases hc : ∃ m ∈ ms, m.isClose = true
  · have hc' : ∃ m ∈ dms, m.isClose = true := by
      obtain ⟨m, hm, hmc⟩ := hc
      rw [← h2] at hm
      obtain ⟨o, ho, rfl⟩ := List.mem_map.mp hm
      exact ⟨o, ho, by rw [← spec_isClose]; exact hmc⟩
    obtain ⟨rfl, hy⟩ := k1 hc'
    exact ⟨by rw [takeWhile_spec, h2], fun _ => hy, fun hn => absurd hc hn⟩
  · have ht : Truncated (decide (ctx = .server)) (min maxDf u32Max) x := by
      rcases hstop with h | h
      · exact absurd h hc
      · exact h
    obtain ⟨ems, e1, e2⟩ := C27_truncated_stream_async ctx maxDf maxMsg frames ms held' hd hl bs x hw ht buf s hs hx 1
    have : ems = dms := OwnedMsg.map_spec_inj (by rw [e2, h2])
    subst this
    rw [hlen] at e1
    have hno := no_close (oms := ems) (by rw [h2]; exact hc)
    obtain ⟨rfl, rfl⟩ := k2 _ hno e1 (by intro m; split <;> simp)
    refine ⟨?_, fun h => absurd h hc, fun _ => rfl⟩
    rw [← h2, ← takeWhile_spec, takeWhile_open hno]

/-! ### Whole programs -/

/-- A connection accepted by a blocking server reaches the loop with a new receiver on the bytes after the request. -/
theorem server_reaches [B64] (p : ReqParser) (key : WsKey) (uri : Bytes) (lines : List (Bytes × Bytes)) (d : Duplex) (x : Bytes)
    (ha : Asks key lines) (hu : Target uri) (hs : Sendable lines) (hl : (Spec.Head (getLine uri) lines).length ≤ maxBufferSize)
    (hc : d.input.Chunks) (hf : d.input.flat = Spec.Head (getLine uri) lines ++ x) (hw : d.output.Willing) (sops : List UpgradeOp) :
    ∃ u c, intoWs p d = .ok u ∧ u.request = ⟨.http11, ⟨.get, uri⟩, .fromRaw lines⟩ ∧ SyncUpgrade.accept (u.run sops) = .client c ∧
      c.stream.src.Clean ∧ c.stream.src.flat = x ∧ c.stream.inner.output.Willing ∧ c.sender.mask = false ∧
      c.stream.inner.output.wire = d.output.wire ++ head101 .http11 (responseLines sops none key) ∧
      c.receiver = Receiver.newWithLimits true defaultMaxDataframe defaultMaxMessage ∧ c.stream.WF := by
  obtain ⟨u, h1, h2, h3, h4, h5, h6⟩ := C35_server_takes p key uri lines d x ha hu hs hl hc hf
  have hok : okReq .http11 ⟨.get, uri⟩ := ⟨Or.inr rfl, hu.1, hu.2, rfl⟩
  have hp := parse_lines p .http11 ⟨.get, uri⟩ hok hs
  rw [← getLine_eq] at hp
  have hch := intoWs_chunks p d _ x _ hp hl hc hf u h1
  obtain ⟨-, h8⟩ := C35_server_answers u key sops none defaultMaxDataframe defaultMaxMessage h4 h3 textCustom_none
  rw [h5, h2] at h8
  have hwa := writeAll_willing (head101 .http11 (responseLines sops none key)) d.output hw
  rcases h8 with ⟨k, hk, _⟩ | ⟨c, g1, g2, g3, g4, g5⟩
  · rw [hwa.1] at hk; cases hk
  · have hlm := C39_server_limits (u.run sops) none defaultMaxDataframe defaultMaxMessage c g1
    have hwf := (C41_server p d u h1 sops none defaultMaxDataframe defaultMaxMessage c g1).1
    have hin := accept_input (u.run sops) none defaultMaxDataframe defaultMaxMessage c g1
    rw [(run_facts u sops (by rw [h4]; simp [Headers.Unique])).2.2.1, h5] at hin
    refine ⟨u, c, h1, h2, g1, src_clean (by rw [hin.1]; exact hch), ?_, hw.suffix hin.2, g5, g2, receiver_eq hlm.1 g4, hwf⟩
    rw [C41_pending_read, g3, h6]

/-- One connection of examples/autobahn-server.rs. -/
theorem autobahn_accepts [B64] (p : ReqParser) (key : WsKey) (uri : Bytes) (lines : List (Bytes × Bytes)) (d : Duplex) (x : Bytes)
    (ha : Asks key lines) (hu : Target uri) (hs : Sendable lines) (hl : (Spec.Head (getLine uri) lines).length ≤ maxBufferSize)
    (hc : d.input.Chunks) (hf : d.input.flat = Spec.Head (getLine uri) lines ++ x) (hw : d.output.Willing) (keys : Nat → Key4) :
    ∃ (s : Src) (w : Writer), s.Clean ∧ s.flat = x ∧ w.stream.Willing ∧ w.sender.mask = false ∧
      w.stream.wire = d.output.wire ++ head101 .http11 (responseLines [] none key) ∧
      autobahnServer p (.ok ()) keys d =
        some ((autobahnLoop keys (Receiver.newWithLimits true defaultMaxDataframe defaultMaxMessage) s w).1,
          (autobahnLoop keys (Receiver.newWithLimits true defaultMaxDataframe defaultMaxMessage) s w).2.stream) := by
  obtain ⟨u, c, h1, -, h2, h3, h4, h5, h6, h7, h8, -⟩ := server_reaches p key uri lines d x ha hu hs hl hc hf hw []
  refine ⟨c.stream.src, ⟨c.stream.inner.output, c.sender⟩, h3, h4, h5, h6, h7, ?_⟩
  have h2 : u.accept = .client c := h2
  unfold autobahnServer serveAutobahn
  rw [h1]
  simp only [h2]
  rcases C30_split_state c (.ok ()) with ⟨k, hk, -⟩ | ⟨r, w, g1, g2, g3, g4, g5, g6⟩
  · cases hk
  · have : w = ⟨c.stream.inner.output, c.sender⟩ := by cases w; simp only at g5 g6; subst g5 g6; rfl
    subst this
    rw [g1]
    simp only [g2, g4, h8]

/-- One connection of examples/server.rs, for a client that offers its protocol. -/
theorem example_accepts [B64] (p : ReqParser) (key : WsKey) (uri : Bytes) (lines : List (Bytes × Bytes)) (d : Duplex) (x : Bytes)
    (ha : Asks key lines) (hu : Target uri) (hs : Sendable lines) (hl : (Spec.Head (getLine uri) lines).length ≤ maxBufferSize)
    (hc : d.input.Chunks) (hf : d.input.flat = Spec.Head (getLine uri) lines ++ x) (hw : d.output.Willing) (keys : Nat → Key4)
    (hp : rustWebsocket ∈ (Headers.fromRaw lines).getProtocol.getD []) :
    ∃ (s : Src) (w : Writer) (bs : Bytes), s.Clean ∧ s.flat = x ∧ w.stream.Willing ∧ w.sender.mask = false ∧
      w.stream.wire = d.output.wire ++ head101 .http11 (responseLines [.useProtocol rustWebsocket] none key) ++ bs ∧
      Says false [.text (ascii "Hello")] bs ∧
      exampleServer p (.ok ()) keys d =
        some ((serverLoop (fun n => keys (n + 1)) (Receiver.newWithLimits true defaultMaxDataframe defaultMaxMessage) s w).1,
          (serverLoop (fun n => keys (n + 1)) (Receiver.newWithLimits true defaultMaxDataframe defaultMaxMessage) s w).2.stream) := by
  obtain ⟨u, c, h1, h0, h2, h3, h4, h5, h6, h7, h8, -⟩ :=
    server_reaches p key uri lines d x ha hu hs hl hc hf hw [.useProtocol rustWebsocket]
  have h2 : SyncUpgrade.accept (Upgrade.useProtocol rustWebsocket u) = .client c := h2
  have hp' : rustWebsocket ∈ u.protocols := by unfold Upgrade.protocols; rw [h0]; exact hp
  have hsend : (OwnedMsg.text (ascii "Hello")).spec.Sendable isizeMax := ⟨(utf8Valid_iff _).mp (by decide +kernel), by decide⟩
  obtain ⟨bs, w', g1, g2, g3, g4, g5⟩ := writer_send ⟨c.stream.inner.output, c.sender⟩ h5 isize_lt hsend (keys 0)
  refine ⟨c.stream.src, w', bs, h3, h4, g3, by rw [g2]; exact h6, by rw [g4, ← h7], by rw [← h6]; exact g5, ?_⟩
  have e : c.send (OwnedMsg.text (ascii "Hello")).view (keys 0) =
      (.ok (), { c with stream := { c.stream with inner := { c.stream.inner with output := w'.stream } } }) := by
    unfold Writer.send at g1
    unfold Client.send
    generalize c.sender.send (OwnedMsg.text (ascii "Hello")).view (keys 0) c.stream.inner.output = q at g1 ⊢
    obtain ⟨a, b⟩ := q
    simp only [Prod.mk.injEq] at g1
    obtain ⟨rfl, rfl⟩ := g1
    rfl
  unfold exampleServer serveExample
  rw [h1]
  simp only [hp', if_true, h2, e]
  obtain ⟨ws, wsd⟩ := w'
  simp only at g2
  subst g2
  rw [← h8]
  rfl

/-- An async server that takes a request. -/
theorem async_reaches [B64] (p : ReqParser) (key : WsKey) (uri : Bytes) (lines : List (Bytes × Bytes)) (d : Duplex) (x : Bytes)
    (ha : Asks key lines) (hu : Target uri) (hs : Sendable lines)
    (hc : d.input.Ready) (hf : d.input.flat = Spec.Head (getLine uri) lines ++ x) (hw : d.output.Patient) (ops : List UpgradeOp) (extra : Nat) :
    ∃ (u : AsyncUpgrade) (buf : Bytes) (c : AsyncClient), asyncIntoWs p d = .ok u ∧ u.request.headers = Headers.fromRaw lines ∧
      AsyncUpgrade.accept (Upgrade.run u ops) extra = .client c ∧
      c.read = Framed.fromParts (MsgCodec.newWithLimits .server defaultMaxDataframe defaultMaxMessage) buf ∧
      c.stream.input.Ready ∧ buf ++ c.stream.input.flat = x ∧ c.stream.output.Patient ∧ c.write.buf.WF ∧ c.write.isServer = true ∧
      c.stream.output.wire = d.output.wire ++ head101 .http11 (responseLines ops none key) ∧ c.write.buf.data = [] := by
  obtain ⟨u, h1, h2, h3, h4, h5, h6⟩ := C35_async_server_takes p key uri lines d x ha hu hs (ready_iff.mp hc) hf
  have hin := asyncIntoWs_input p d u h1
  obtain ⟨-, h8⟩ := C35_async_server_answers u key ops none defaultMaxDataframe defaultMaxMessage extra h4 h3 textCustom_none
  have h2' : u.request.headers = Headers.fromRaw lines := by rw [h2]
  rw [h5, h2] at h8
  have hwa := httpSend_patient (head101 .http11 (responseLines ops none key)) extra d.output hw
  rcases h8 with ⟨k, hk, _⟩ | ⟨c, g1, g2, g3, g4, g5, g6⟩
  · rw [hwa] at hk; cases hk
  · have hlm := C39_async_server_limits (Upgrade.run u ops) none defaultMaxDataframe defaultMaxMessage extra c g1
    obtain ⟨k1, k2, k3, codec, k4⟩ := asyncAccept_keeps (Upgrade.run u ops) none defaultMaxDataframe defaultMaxMessage extra c g1
    have hst : (Upgrade.run u ops).stream = u.stream := (run_facts u ops (by rw [h4]; exact List.Pairwise.nil)).2.2.1
    rw [hst] at k1 k2
    rw [h5] at k2
    have hcod : codec = MsgCodec.newWithLimits .server defaultMaxDataframe defaultMaxMessage := by
      have : c.read.codec = codec := by rw [k4]; rfl
      rw [← this]; exact codec_eq hlm.1 hlm.2.1
    refine ⟨u, c.read.buf, c, h1, h2', g1, by rw [← hcod]; exact k4, ?_, ?_, hw.suffix k2, k3, g6, g2, g3⟩
    · rw [k1]; exact ready_iff.mpr fun e he => ready_iff.mp hc e (hin.mem he)
    · rw [g4, h6]

/-- One connection of examples/async-autobahn-server.rs. -/
theorem async_autobahn_accepts [B64] (p : ReqParser) (key : WsKey) (uri : Bytes) (lines : List (Bytes × Bytes)) (d : Duplex) (x : Bytes)
    (ha : Asks key lines) (hu : Target uri) (hs : Sendable lines)
    (hc : d.input.Ready) (hf : d.input.flat = Spec.Head (getLine uri) lines ++ x) (hw : d.output.Patient) (keys : Nat → Key4) (extra : Nat) :
    ∃ (buf : Bytes) (s : Src) (fw : FramedWrite) (w : Sink), s.Ready ∧ buf ++ s.flat = x ∧ w.Patient ∧ fw.buf.WF ∧ fw.isServer = true ∧
      w.wire ++ fw.buf.data = d.output.wire ++ head101 .http11 (responseLines [] none key) ∧ fw.buf.data = [] ∧
      asyncAutobahnServer p keys extra d =
        some (forwardLoop keys extra none (Framed.fromParts (MsgCodec.newWithLimits .server defaultMaxDataframe defaultMaxMessage) buf) s fw w) := by
  obtain ⟨u, buf, c, h1, -, h2, h3, h4, h5, h6, h7, h8, h9, h10⟩ := async_reaches p key uri lines d x ha hu hs hc hf hw [] extra
  refine ⟨buf, c.stream.input, c.write, c.stream.output, h4, h5, h6, h7, h8, by rw [h10, List.append_nil, h9], h10, ?_⟩
  have h2 : u.accept extra = .client c := h2
  unfold asyncAutobahnServer serveAsyncAutobahn
  rw [h1]
  simp only [h2, h3]

/-- One connection of examples/async-server.rs, the client offering the protocol. -/
theorem async_example_accepts [B64] (p : ReqParser) (key : WsKey) (uri : Bytes) (lines : List (Bytes × Bytes)) (d : Duplex) (x : Bytes)
    (ha : Asks key lines) (hu : Target uri) (hs : Sendable lines)
    (hc : d.input.Ready) (hf : d.input.flat = Spec.Head (getLine uri) lines ++ x) (hw : d.output.Patient) (keys : Nat → Key4) (extra : Nat)
    (hp : rustWebsocket ∈ (Headers.fromRaw lines).getProtocol.getD []) :
    ∃ (buf : Bytes) (s : Src) (fw : FramedWrite) (w : Sink) (bs : Bytes), s.Ready ∧ buf ++ s.flat = x ∧ w.Patient ∧ fw.buf.WF ∧
      fw.isServer = true ∧ fw.buf.data = [] ∧
      w.wire = d.output.wire ++ head101 .http11 (responseLines [.useProtocol rustWebsocket] none key) ++ bs ∧
      Says false [.text (ascii "Hello World!")] bs ∧
      asyncExampleServer p keys extra d =
        some (forwardLoop (fun n => keys (n + 1)) extra none
          (Framed.fromParts (MsgCodec.newWithLimits .server defaultMaxDataframe defaultMaxMessage) buf) s fw w) := by
  obtain ⟨u, buf, c, h1, h0, h2, h3, h4, h5, h6, h7, h8, h9, h10⟩ :=
    async_reaches p key uri lines d x ha hu hs hc hf hw [.useProtocol rustWebsocket] extra
  have h2 : AsyncUpgrade.accept (Upgrade.useProtocol rustWebsocket u) extra = .client c := h2
  have hp' : rustWebsocket ∈ u.protocols := by unfold Upgrade.protocols; rw [h0]; exact hp
  have hsend : (OwnedMsg.text (ascii "Hello World!")).spec.Sendable isizeMax := ⟨(utf8Valid_iff _).mp (by decide +kernel), by decide⟩
  obtain ⟨bs, fw, w, g1, g2, g3, g4, g5, g6, g7⟩ := sendAwait_patient c.write c.stream.output h6 h7 h10 hsend (keys 0) extra
  refine ⟨buf, c.stream.input, fw, w, bs, h4, h5, g4, g5, by rw [g7, h8], g6, by rw [g3, h9], ?_, ?_⟩
  · rw [h8] at g1
    exact says_encode isize_lt hsend false (keys 0) g1
  · unfold asyncExampleServer serveAsyncExample
    rw [h1]
    simp only [hp', if_true, h2, g2, h3]

/-! ### Hearing the echo -/

theorem means_inj {n n' : Nat} {d d' : Bytes} {m : Spec.Message} (h : Spec.Means n d m) (h' : Spec.Means n' d' m) : n = n' ∧ d = d' := by
  generalize hm : m = m' at h'
  cases h <;> cases h' <;> first | exact ⟨rfl, rfl⟩ | (cases hm; exact ⟨rfl, rfl⟩) | (cases hm; done) | skip
  next hi lo r _ hi' lo' r' _ =>
    simp only [Spec.Message.closeWith.injEq] at hm
    obtain ⟨hc, rfl⟩ := hm
    have h1 := hi.toNat_lt
    have h2 := lo.toNat_lt
    have h3 := hi'.toNat_lt
    have h4 := lo'.toNat_lt
    have e1 : hi = hi' := UInt8.toNat_inj.mp (by omega)
    have e2 : lo = lo' := UInt8.toNat_inj.mp (by omega)
    exact ⟨rfl, by rw [e1, e2]⟩

theorem carries_inj {f g : Spec.Frame} {m : Spec.Message} (hf : Carries f m) (hg : Carries g m) : f = g := by
  obtain ⟨f1, f2, f3, f4, f5⟩ := hf
  obtain ⟨g1, g2, g3, g4, g5⟩ := hg
  obtain ⟨h1, h2⟩ := means_inj f5 g5
  cases f; cases g
  simp_all

/-- Bytes that say these messages are the frames in which this library writes them. -/
theorem says_wire {masked : Bool} {lim : Nat} {es : List OwnedMsg} (hs : ∀ e ∈ es, e.spec.Sendable lim) {bs : Bytes}
    (h : Says masked (es.map OwnedMsg.spec) bs) : Wire masked (es.map fun m => m.view.spec) bs := by
  obtain ⟨fs, h1, h2, h3⟩ := h
  have : fs = es.map fun m => m.view.spec := by
    clear h1
    induction es generalizing fs with
    | nil => simpa using h2
    | cons e es ih =>
      cases fs with
      | nil => simp at h2
      | cons f fs =>
        rw [List.map_cons, ih (fun e he => hs e (List.mem_cons_of_mem _ he)) fs (by simpa using h2)
          fun p hp => h3 p (List.mem_cons_of_mem _ hp)]
        congr 1
        exact carries_inj (h3 (f, e.spec) List.mem_cons_self) (OwnedMsg.carries (hs e List.mem_cons_self)).1
  rw [← this]; exact h1

/-- The echo of sendable messages consists of sendable messages. -/
theorem echoes_owned {lim : Nat} (oms : List OwnedMsg) (hs : ∀ m ∈ oms, m.spec.Sendable lim) :
    ∃ es : List OwnedMsg, es.map OwnedMsg.spec = Spec.echoes (oms.map OwnedMsg.spec) ∧ ∀ e ∈ es, e.spec.Sendable lim := by
  refine ⟨(oms.takeWhile fun m => !m.isClose).filterMap filterReply ++ [.close none], ?_, ?_⟩
  · unfold Spec.echoes
    rw [← takeWhile_spec, List.map_append]
    congr 1
    clear hs
    induction oms with
    | nil => rfl
    | cons o os ih =>
      rw [List.takeWhile_cons]
      cases hc : o.isClose with
      | true => rfl
      | false =>
        simp only [Bool.not_false, if_true, List.map_cons]
        cases hr : filterReply o with
        | none =>
          rw [List.filterMap_cons_none hr, List.filterMap_cons_none (by rw [filterReply_spec _ hc, hr]; rfl)]
          exact ih
        | some a =>
          rw [List.filterMap_cons_some hr, List.filterMap_cons_some (by rw [filterReply_spec _ hc, hr]; rfl), List.map_cons]
          exact congrArg _ ih
  · intro e he
    rcases List.mem_append.mp he with he | he
    · obtain ⟨m, hm, hr⟩ := List.mem_filterMap.mp he
      have := hs m ((List.takeWhile_sublist _).mem hm)
      cases m <;> simp [filterReply] at hr <;> subst hr <;> exact this
    · simp only [List.mem_singleton] at he; subst he; trivial

/-- A client program at one end, something that echoes at the other. -/
theorem echo_compose {cts : List Talk} {c : Outcome} {out req res : Bytes} {cl sl : Nat}
    (hask : ∃ z, c.wire = req ++ z)
    (hserver : ∀ x, c.wire = req ++ x → ∃ bs, out = res ++ bs ∧
      ∀ ms : List OwnedMsg, (∀ m ∈ ms, m.spec.Sendable sl) → Wire true (ms.map fun m => m.view.spec) x →
        Says false (Spec.echoes (ms.map OwnedMsg.spec)) bs)
    (hclient : ∀ y, out = res ++ y → End c [] req true cts ∧
      ∀ ms : List OwnedMsg, (∀ m ∈ ms, m.spec.Sendable cl) → Wire false (ms.map fun m => m.view.spec) y →
        c.heard = expected ms (hears cts))
    (hs : ∀ p ∈ said cts, p.1.spec.Sendable sl) (hc : ∀ p ∈ said cts, p.1.spec.Sendable cl) :
    c.connected = true ∧ c.sent = ((said cts).map fun _ => true) ∧
      ∃ es : List OwnedMsg, es.map OwnedMsg.spec = Spec.echoes ((said cts).map fun p => p.1.spec) ∧ c.heard = expected es (hears cts) := by
  obtain ⟨z, hz⟩ := hask
  obtain ⟨bs, s1, s2⟩ := hserver z hz
  obtain ⟨⟨c1, c2, bc, c3, c4⟩, c5⟩ := hclient bs s1
  have hzz : z = bc := by
    rw [hz] at c3
    simpa using c3
  subst hzz
  have h1 := s2 ((said cts).map Prod.fst) (by intro m hm; obtain ⟨p, hp, rfl⟩ := List.mem_map.mp hm; exact hs p hp)
    (by simpa [Function.comp_def] using c4)
  obtain ⟨es, e1, e2⟩ := echoes_owned (lim := cl) ((said cts).map Prod.fst)
    (by intro m hm; obtain ⟨p, hp, rfl⟩ := List.mem_map.mp hm; exact hc p hp)
  rw [← e1] at h1
  exact ⟨c1, c2, es, by simpa [Function.comp_def] using e1, c5 es e2 (says_wire e2 h1)⟩

end WS
