import Verif.Lemmas.Base64
import Verif.Lemmas.Sha1
import Verif.Model.Keys
/-!
# C31, C32: handshake keys
-/

namespace WS

/-! ## C31: textual form of keys and accept values -/

/-- The text of a key is the RFC 4648 base64 of its 16 bytes, always 24 characters. -/
theorem C31_key_text (k : WsKey) :
    chars k.serialize = Spec.base64 (k.bytes.map UInt8.toNat) ∧ k.serialize.length = 24 := by
  refine ⟨b64Encode_spec _, ?_⟩
  rw [WsKey.serialize, b64Encode_length, k.len]

/-- Same for accept values: 28 characters. -/
theorem C31_accept_text (a : WsAccept) :
    chars a.serialize = Spec.base64 (a.bytes.map UInt8.toNat) ∧ a.serialize.length = 28 := by
  refine ⟨b64Encode_spec _, ?_⟩
  rw [WsAccept.serialize, b64Encode_length, a.len]

/-- Parsing the text of a key yields the key, whatever base64 decoder is used. -/
theorem C31_key_round_trip [B64] (k : WsKey) : WsKey.fromStr k.serialize = .ok k := by
  unfold WsKey.fromStr WsKey.serialize
  rw [B64.decode_encode]
  simp [k.len]

theorem C31_accept_round_trip [B64] (a : WsAccept) : WsAccept.fromStr a.serialize = .ok a := by
  unfold WsAccept.fromStr WsAccept.serialize
  rw [B64.decode_encode]
  simp [a.len]

/-- A text is accepted as a key exactly if it decodes to 16 bytes, and those are the key; every
other text is an error (never a panic). -/
theorem C31_key_accepts_iff [B64] (t : Bytes) (k : WsKey) :
    WsKey.fromStr t = .ok k ↔ B64.decode t = some k.bytes := by
  unfold WsKey.fromStr
  constructor
  · intro h
    split at h
    · next vec hv =>
      split at h
      · next hl => cases h; exact hv
      · cases h
    · cases h
  · intro h
    rw [h]
    simp [k.len]

theorem C31_accept_accepts_iff [B64] (t : Bytes) (a : WsAccept) :
    WsAccept.fromStr t = .ok a ↔ B64.decode t = some a.bytes := by
  unfold WsAccept.fromStr
  constructor
  · intro h
    split at h
    · next vec hv =>
      split at h
      · next hl => cases h; exact hv
      · cases h
    · cases h
  · intro h
    rw [h]
    simp [a.len]

/-- Text that is not base64, or is base64 of another number of bytes, gives an error. -/
theorem C31_key_rejects [B64] (t : Bytes)
    (h : B64.decode t = none ∨ ∃ v, B64.decode t = some v ∧ v.length ≠ 16) :
    ∃ m, WsKey.fromStr t = .err (.protocol m) := by
  unfold WsKey.fromStr
  rcases h with h | ⟨v, h, hl⟩
  · exact ⟨_, by rw [h]⟩
  · exact ⟨"Sec-WebSocket-Key must be 16 bytes", by rw [h]; simp [hl]⟩

/-- Not base64, and base64 of three bytes. -/
example := @C31_key_rejects B64.strict (ascii "not base64!") (.inl (by decide +kernel))
example := @C31_key_rejects B64.strict (ascii "AAAA") (.inr ⟨[0, 0, 0], by decide +kernel, by decide⟩)

theorem C31_accept_rejects [B64] (t : Bytes)
    (h : B64.decode t = none ∨ ∃ v, B64.decode t = some v ∧ v.length ≠ 20) :
    ∃ m, WsAccept.fromStr t = .err (.protocol m) := by
  unfold WsAccept.fromStr
  rcases h with h | ⟨v, h, hl⟩
  · exact ⟨_, by rw [h]⟩
  · exact ⟨"Sec-WebSocket-Accept must be 20 bytes", by rw [h]; simp [hl]⟩

example := @C31_accept_rejects B64.strict (ascii "not base64!") (.inl (by decide +kernel))
/-- A key where an accept value is expected: sixteen bytes, not twenty. -/
example := @C31_accept_rejects B64.strict (ascii "dGhlIHNhbXBsZSBub25jZQ==")
  (.inr ⟨ascii "the sample nonce", by decide +kernel, by decide⟩)

/-- With the RFC 4648 decoder a text is accepted exactly if it is the base64 text of 16 bytes. -/
theorem C31_key_strict (t : Bytes) (k : WsKey) :
    @WsKey.fromStr B64.strict t = .ok k ↔ chars t = Spec.base64 (k.bytes.map UInt8.toNat) := by
  rw [@C31_key_accepts_iff B64.strict]
  constructor
  · intro h
    rw [strict_some h, b64Encode_spec]
  · intro h
    rw [← b64Encode_spec] at h
    rw [chars_inj h]
    exact strict_encode _

/-- Different keys have different texts. -/
theorem C31_key_text_injective (k l : WsKey) (h : k.serialize = l.serialize) : k = l := by
  have := b64Encode_inj h
  cases k; cases l; simp only at this; subst this; rfl

/-- The hypotheses are met: the RFC 6455 sample key and a text of the wrong length. -/
example : @WsKey.fromStr B64.strict (ascii "dGhlIHNhbXBsZSBub25jZQ==") =
    .ok ⟨ascii "the sample nonce", by decide⟩ := by decide +kernel
example : b64Strict (ascii "AAAA") = some [0, 0, 0] ∧ b64Strict (ascii "not base64!") = none := by decide +kernel

/-! ## C32: the accept value -/

/-- The bytes of the accept value for a key: SHA-1 (RFC 3174) of the base64 text of the key followed
by the GUID of RFC 6455 section 1.3. -/
theorem C32_accept_digest (k : WsKey) :
    (WsAccept.new k).bytes.map UInt8.toNat =
      Spec.sha1 ((Spec.base64 (k.bytes.map UInt8.toNat) ++ "258EAFA5-E914-47DA-95CA-C5AB0DC85B11".toList).map Char.toNat) := by
  simp only [WsAccept.new]
  rw [sha1_spec, List.map_append, List.map_append, WsKey.serialize, ← b64Encode_spec, chars_toNat]
  rfl

/-- The header value sent: base64 of that digest, 28 characters, and the digest has 20 bytes. -/
theorem C32_accept_value (k : WsKey) :
    chars (WsAccept.new k).serialize = Spec.base64 (Spec.sha1
      ((Spec.base64 (k.bytes.map UInt8.toNat) ++ "258EAFA5-E914-47DA-95CA-C5AB0DC85B11".toList).map Char.toNat)) ∧
    (WsAccept.new k).bytes.length = 20 ∧ (WsAccept.new k).serialize.length = 28 := by
  refine ⟨?_, (WsAccept.new k).len, (C31_accept_text _).2⟩
  rw [← C32_accept_digest]
  exact (C31_accept_text _).1

/-- The accept value travels unchanged: what the server computes from the text it received for the
client's key, serialized and parsed again, is what the client computes from its key. -/
theorem C32_same_on_both_sides [B64] (k : WsKey) :
    ∃ k', WsKey.fromStr k.serialize = .ok k' ∧
      WsAccept.fromStr (WsAccept.new k').serialize = .ok (WsAccept.new k) :=
  ⟨k, C31_key_round_trip k, C31_accept_round_trip _⟩

set_option maxRecDepth 10000 in
/-- RFC 6455 section 1.3: the sample key. -/
example : (WsAccept.new ⟨ascii "the sample nonce", by decide⟩).serialize = ascii "s3pPLMBiTxaQ9kYGzzhZRbK+xOo=" := by
  decide +kernel

end WS
