import Verif.Lemmas.Heard
/-!
# C55: nothing is delivered that the bytes did not carry

The converse of C17/C18. No assumption on the peer: the bytes are arbitrary. `Spec.Carried` says that a
stretch of bytes consists of complete frames and which messages these make (RFC 6455 5.2, 5.4).
-/

namespace WS
open Spec (Carried)

/-- C55, blocking, one call in any state, on any transport (also one that fails later): if the call returns a message, the bytes it took are complete frames which,
after the fragments already held, carry this message and no other, and the fragments now held are what remains. -/
theorem C55_message_was_on_the_wire (r : Receiver) (hr : r.WF) (s s' : Src) (m : OwnedMsg) (r' : Receiver) (h : r.recvMessage s = (.ok m, r', s')) :
    ∃ bs, s.flat = bs ++ s'.flat ∧
      Carried r.mask r.maxDf r.maxMsg (r.buffer.map DataFrame.spec) bs [m.spec] (r'.buffer.map DataFrame.spec) := by
  obtain ⟨bs, h1, h2, -⟩ := recvMessage_sound r hr.1 s h
  exact ⟨bs, h1, h2⟩

/-- C55, blocking, from the start of a connection: as long as calls succeed, the messages returned are exactly those carried by the bytes
taken, in order. -/
theorem C55_blocking (mask : Bool) (maxDf maxMsg n : Nat) (s s' : Src) (oms : List OwnedMsg) (r' : Receiver)
    (h : (Receiver.newWithLimits mask maxDf maxMsg).recvMany n s = (oms.map Res.ok, r', s')) :
    ∃ bs, s.flat = bs ++ s'.flat ∧
      Carried mask (min maxDf u32Max) (min maxMsg u32Max) [] bs (oms.map OwnedMsg.spec) (r'.buffer.map DataFrame.spec) := by
  obtain ⟨bs, h1, h2, -⟩ := recvMany_sound n _ (Receiver.wf_new mask maxDf maxMsg).1 s h
  exact ⟨bs, h1, h2⟩

/-- C55, async, on any transport: as long as the stream reports no protocol error (errors of the transport are harmless), the messages it yields
are exactly those carried by the bytes taken, in order. What was read but not used yet is still in its buffer. -/
theorem C55_async (ctx : Context) (maxDf maxMsg n : Nat) (buf : Bytes) (s s' : Src) (xs : List (Item OwnedMsg)) (fr' : Framed MsgCodec)
    (h : (Framed.fromParts (MsgCodec.newWithLimits ctx maxDf maxMsg) buf).nextMany msgDecoder n s = (xs, fr', s'))
    (hx : ∀ x ∈ xs, (∃ m, x = .item m) ∨ x = .done ∨ ∃ k, x = .err (.io k)) :
    ∃ bs, buf ++ s.flat = bs ++ (fr'.buf ++ s'.flat) ∧
      Carried (decide (ctx = .server)) (min maxDf u32Max) (min maxMsg u32Max) [] bs
        ((xs.filterMap fun | .item m => some m | _ => none).map OwnedMsg.spec) (fr'.codec.buffer.map DataFrame.spec) := by
  have hx' : ∀ x ∈ xs, x.clean ≠ none := by
    intro x hm
    rcases hx x hm with ⟨m, rfl⟩ | rfl | ⟨k, rfl⟩ <;> simp [Item.clean]
  obtain ⟨-, bs, h1, h2⟩ := nextMany_sound n _ s (MsgCodec.wf_new ctx maxDf maxMsg).1 h hx'
  refine ⟨bs, h1, ?_⟩
  have e : heardItems xs = xs.filterMap fun | .item m => some m | _ => none := by
    clear h h1 h2
    induction xs with
    | nil => rfl
    | cons x xs ih =>
      have ih := ih (fun y hy => hx y (by simp [hy])) (fun y hy => hx' y (by simp [hy]))
      rcases hx x (by simp) with ⟨m, rfl⟩ | rfl | ⟨k, rfl⟩
      · simp only [heardItems, List.filterMap_cons, Item.clean, List.flatten_cons, List.singleton_append] at ih ⊢
        rw [ih]
      · simp only [heardItems, List.filterMap_cons, Item.clean, List.flatten_cons, List.nil_append] at ih ⊢
        rw [ih]
      · simp only [heardItems, List.filterMap_cons, Item.clean, List.flatten_cons, List.nil_append] at ih ⊢
        rw [ih]
  rw [← e]
  exact h2

/-- C55: there is only one reading of the bytes, so the theorems above leave no freedom. -/
theorem C55_one_reading (masked : Bool) (maxDf maxMsg : Nat) (hlim : maxDf < 2 ^ 63) (held : List Spec.Frame) (bs : Bytes) (ms ns : List Spec.Message)
    (held₁ held₂ : List Spec.Frame) (h : Carried masked maxDf maxMsg held bs ms held₁) (g : Carried masked maxDf maxMsg held bs ns held₂) :
    ms = ns ∧ held₁ = held₂ := by
  obtain ⟨fs, h1, h2, h3⟩ := h
  obtain ⟨gs, g1, g2, g3⟩ := g
  have := wire_unique hlim h1 g1 h2 g2
  subst this
  exact delivers_unique h3 g3

/-- Two messages, one of them in two fragments around a ping, cut inside a frame, then a failing transport. -/
example : ((Receiver.newWithLimits false 100 1000).recvMany 2
    [.chunk [0x01, 1, 72, 0x89], .error .interrupted, .chunk [1, 7, 0x80, 1, 105], .error .connectionReset]).1 =
      [OwnedMsg.ping [7], .text [72, 105]].map Res.ok := by decide +kernel

/-- The same for the stream, which also survives an error of the transport in the middle of a frame. -/
example : ((Framed.fromParts (MsgCodec.newWithLimits .client 100 1000) [0x01, 1]).nextMany msgDecoder 4
    [.chunk [72, 0x89], .error .connectionReset, .chunk [1, 7, 0x80, 1], .error .wouldBlock, .chunk [105]]).1 =
      [.err (.io .connectionReset), .item (.ping [7]), .item (.text [72, 105]), .done] := by decide +kernel

/-- What those bytes carry. -/
example : Carried false 100 1000 [] [0x01, 1, 72, 0x89, 1, 7, 0x80, 1, 105] [.ping [7], .text [72, 105]] [] := by
  obtain ⟨bs, h1, h2⟩ := C55_blocking false 100 1000 2 [.chunk [0x01, 1, 72, 0x89, 1, 7, 0x80, 1, 105]] [] [.ping [7], .text [72, 105]]
    (Receiver.newWithLimits false 100 1000) (Prod.ext (by decide +kernel) (Prod.ext (by decide +kernel) (by decide +kernel)))
  have e : bs = [0x01, 1, 72, 0x89, 1, 7, 0x80, 1, 105] := by
    have : bs ++ [] = ([0x01, 1, 72, 0x89, 1, 7, 0x80, 1, 105] : Bytes) := h1.symm
    simpa using this
  subst e
  exact h2

example := C55_message_was_on_the_wire (Receiver.newWithLimits false 100 1000) (Receiver.wf_new ..)
  [.chunk [0x01, 1, 72, 0x89], .error .interrupted, .chunk [1, 7, 0x80, 1, 105]] [.chunk [0x80, 1, 105]] (.ping [7])
  { Receiver.newWithLimits false 100 1000 with buffer := [⟨false, false, false, false, .text, [72]⟩] } (by decide +kernel)
example := C55_async .client 100 1000 4 [0x01, 1] [.chunk [72, 0x89], .error .connectionReset, .chunk [1, 7, 0x80, 1], .error .wouldBlock, .chunk [105]]
  ((Framed.fromParts (MsgCodec.newWithLimits .client 100 1000) [0x01, 1]).nextMany msgDecoder 4
    [.chunk [72, 0x89], .error .connectionReset, .chunk [1, 7, 0x80, 1], .error .wouldBlock, .chunk [105]]).2.2
  [.err (.io .connectionReset), .item (.ping [7]), .item (.text [72, 105]), .done]
  ((Framed.fromParts (MsgCodec.newWithLimits .client 100 1000) [0x01, 1]).nextMany msgDecoder 4
    [.chunk [72, 0x89], .error .connectionReset, .chunk [1, 7, 0x80, 1], .error .wouldBlock, .chunk [105]]).2.1
  (Prod.ext (by decide +kernel) rfl)
  (by
    intro x hx
    simp only [List.mem_cons, List.not_mem_nil, or_false] at hx
    rcases hx with rfl | rfl | rfl | rfl
    · exact .inr (.inr ⟨_, rfl⟩)
    · exact .inl ⟨_, rfl⟩
    · exact .inl ⟨_, rfl⟩
    · exact .inr (.inl rfl))

end WS
