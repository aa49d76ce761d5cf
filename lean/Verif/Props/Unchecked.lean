import Verif.Lemmas.Echo
/-! # C06 for a client made from a stream that is already connected -/

namespace WS
open Spec

/-- `Client::unchecked`: received frames have the mask bit that was asked for, and what is sent is masked if that was asked for,
unmasked otherwise. -/
theorem C06_unchecked (stream : BufReader Duplex) (headers : Headers) (outMask inMask : Bool) :
    (∀ f c', (Client.unchecked stream headers outMask inMask).recvDataframe = (.ok f, c') →
      ∃ b0 b1 rest, stream.src.flat = b0 :: b1 :: rest ∧ (inMask = true ↔ 128 ≤ b1.toNat)) ∧
    (∀ (m : OwnedMsg) (key : Key4), m.spec.Sendable isizeMax → stream.inner.output.Willing →
      ∃ bs c', (Client.unchecked stream headers outMask inMask).send m.view key = (.ok (), c') ∧
        c'.stream.inner.output.wire = stream.inner.output.wire ++ bs ∧ Says outMask [m.spec] bs) := by
  constructor
  · intro f c' h
    unfold Client.recvDataframe at h
    simp only [Client.unchecked, Prod.mk.injEq] at h
    exact C06_mask_bit_matches inMask _ stream.src _ f (.inl (Prod.ext h.1 rfl))
  · intro m key hm hw
    obtain ⟨bs, w', h1, h2, h3, h4, h5⟩ := writer_send ⟨stream.inner.output, ⟨outMask⟩⟩ hw isize_lt hm key
    unfold Writer.send at h1
    simp only at h1
    unfold Client.send
    simp only [Client.unchecked]
    refine ⟨bs, _, Prod.ext (Prod.mk.inj h1).1 rfl, ?_, h5⟩
    rw [← h4, ← (Prod.mk.inj h1).2]

/-- The hypotheses hold for a text and a stream with nothing in the way; the two masks are independent. -/
example : ((OwnedMsg.text (ascii "hi")).spec.Sendable isizeMax) ∧ (⟨[], []⟩ : Sink).Willing :=
  ⟨⟨isUtf8_ascii (by decide), by decide⟩, by simp [Sink.Willing]⟩

end WS
