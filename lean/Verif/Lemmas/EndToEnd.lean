import Verif.Spec.Send
import Verif.Lemmas.Send
import Verif.Lemmas.Many
/-! From messages to frames on the wire. -/

namespace WS
open Spec (Wire Delivers IsFrame ControlOk Assembles Carries)

theorem beBytes_two (c : UInt16) : ∃ hi lo : UInt8, beBytes 2 c.toNat = [hi, lo] ∧ 256 * hi.toNat + lo.toNat = c.toNat := by
  have h := c.toNat_lt
  refine ⟨UInt8.ofNat (c.toNat / 256), UInt8.ofNat c.toNat, ?_, ?_⟩
  · simp [beBytes]
  · simp only [UInt8.toNat_ofNat']; omega

theorem OwnedMsg.map_spec_inj {as bs : List OwnedMsg} (h : as.map OwnedMsg.spec = bs.map OwnedMsg.spec) : as = bs :=
  (List.map_inj_right fun _ _ => OwnedMsg.spec_inj).mp h

/-- The frame of a message carries it. -/
theorem OwnedMsg.carries {lim : Nat} {m : OwnedMsg} (h : m.spec.Sendable lim) :
    Carries m.view.spec m.spec ∧ m.view.payload.length ≤ lim ∧ (8 ≤ m.view.opcode.toNat → m.view.size ≤ 125) ∧
      m.view.opcode.toNat ≤ 15 ∧ m.view.opcode.toNat ≠ 0 := by
  refine ⟨⟨rfl, rfl, rfl, rfl, ?_⟩, ?_⟩
  · rcases m with s | b | (_ | ⟨c, r⟩) | b | b
    · exact .text h.1
    · exact .binary
    · exact .close
    · obtain ⟨hi, lo, h1, h2⟩ := beBytes_two c
      show Spec.Means 8 (beBytes 2 c.toNat ++ r) (.closeWith c.toNat r)
      rw [h1, ← h2]
      exact .closeWith h.1
    · exact .ping
    · exact .pong
  · rcases m with s | b | (_ | ⟨c, r⟩) | b | b <;>
      simp_all [OwnedMsg.view, OwnedMsg.spec, Spec.Message.Sendable, MsgType.toU8, beBytes_length] <;> omega

/-- Frames carrying whole messages, one after the other, deliver them. -/
theorem delivers_whole {fits : List Spec.Frame → Prop} (ps : List (Spec.Frame × Spec.Message))
    (h : ∀ p ∈ ps, Carries p.1 p.2 ∧ ControlOk p.1) :
    Delivers fits [] (ps.map Prod.fst) (ps.map Prod.snd) [] := by
  induction ps with
  | nil => exact .nil
  | cons p ps ih =>
    obtain ⟨⟨h1, h2, h3, h4, h5⟩, hc⟩ := h p List.mem_cons_self
    have ih := ih fun q hq => h q (List.mem_cons_of_mem _ hq)
    have ha : Assembles [p.1.fragment] p.2 :=
      ⟨_, [], rfl, by simp [Spec.Frame.fragment, h2, h3, h4], by simp, by simpa [Spec.Frame.fragment] using h5⟩
    by_cases h8 : 8 ≤ p.1.opcode
    · exact .control h8 hc ha ih
    · refine .final (.inl ⟨rfl, ?_, by omega⟩) h1 (by simpa using ha) ih
      intro h0; rw [h0] at h5; cases h5

/-- The frames of a list of messages. -/
theorem msgs_delivers {fits : List Spec.Frame → Prop} {lim : Nat} (ms : List OwnedMsg)
    (h : ∀ m ∈ ms, m.spec.Sendable lim) :
    Delivers fits [] (ms.map fun m => m.view.spec) (ms.map OwnedMsg.spec) [] ∧
    ∀ f ∈ ms.map (fun m => m.view.spec), f.payload.length ≤ lim := by
  constructor
  · have := delivers_whole (fits := fits) (ms.map fun m => (m.view.spec, m.spec)) (by
      intro p hp
      obtain ⟨m, hm, rfl⟩ := List.mem_map.mp hp
      obtain ⟨h1, h2, h3, h4⟩ := OwnedMsg.carries (h m hm)
      refine ⟨h1, fun h8 => ⟨?_, rfl⟩⟩
      have := h3 h8
      rw [m.lawful.size_eq] at this
      exact this)
    simpa [Function.comp_def] using this
  · intro f hf
    obtain ⟨m, hm, rfl⟩ := List.mem_map.mp hf
    exact (OwnedMsg.carries (h m hm)).2.1

/-- What the encodings of messages look like on the wire. -/
theorem encode_wire {lim : Nat} (hlim : lim < 2 ^ 63) {m : OwnedMsg} (h : m.spec.Sendable lim) (masked : Bool) (key : Key4)
    {bs : Bytes} (he : m.view.encode (if masked then some key else none) = .ok bs) :
    ∃ k, IsFrame m.view.spec k bs ∧ k.isSome = masked := by
  have hl := (OwnedMsg.carries h).2.1
  rw [← m.lawful.size_eq] at hl
  refine ⟨_, (encode_isFrame m.lawful (by omega) he).1, ?_⟩
  cases masked <;> rfl

/-- Sendable messages are not refused by the encoder. -/
theorem encode_sendable {lim : Nat} {m : OwnedMsg} (h : m.spec.Sendable lim) (key : Option Key4) :
    ∃ bs, m.view.encode key = .ok bs := by
  obtain ⟨-, -, h3, h4, -⟩ := OwnedMsg.carries h
  cases he : m.view.encode key with
  | ok bs => exact ⟨bs, rfl⟩
  | err e =>
    have := (encode_err_iff (v := m.view) key).mp ⟨e, he⟩
    omega
  | panic e => have := encode_not_panic (v := m.view) key; rw [he] at this; simp at this

/-- A list of messages with their keys, as frames to send. -/
def outgoing (ms : List (OwnedMsg × Key4)) : List (FrameView × Key4) := ms.map fun p => (p.1.view, p.2)

theorem sendMany_wire {lim : Nat} (hlim : lim < 2 ^ 63) (x : Sender) (ms : List (OwnedMsg × Key4))
    (h : ∀ p ∈ ms, p.1.spec.Sendable lim) (w : Sink) (hok : ∀ r ∈ (x.sendMany (outgoing ms) w).1, r = .ok ()) :
    ∃ bs, (x.sendMany (outgoing ms) w).2.wire = w.wire ++ bs ∧
      Wire x.mask (ms.map fun p => p.1.view.spec) bs := by
  induction ms generalizing w with
  | nil => exact ⟨[], by simp [outgoing, Sender.sendMany], .nil⟩
  | cons p ms ih =>
    simp only [outgoing, List.map_cons, Sender.sendMany, List.mem_cons, forall_eq_or_imp] at hok ⊢
    obtain ⟨h1, h2⟩ := hok
    obtain ⟨bs, g1, g2⟩ := ih (fun q hq => h q (List.mem_cons_of_mem _ hq)) _ h2
    rcases send_wire x p.1.view p.2 w with ⟨b, w', a1, a2, a3⟩ | ⟨e, a1, a2⟩ | ⟨_, _, k, w', a1, a2, _⟩
    · obtain ⟨k, f1, f2⟩ := encode_wire hlim (h p List.mem_cons_self) x.mask p.2 a1
      refine ⟨b ++ bs, ?_, .cons f1 f2 g2⟩
      rw [← List.append_assoc, ← a3]
      rw [show w' = (x.send p.1.view p.2 w).2 by rw [a2]]
      exact g1
    · rw [a2] at h1; simp at h1
    · rw [a2] at h1; simp at h1

/-! ### Async sending -/

/-- What the user of an async message sink does. -/
inductive MsgOp
  | send (m : OwnedMsg) (key : Key4) (extra : Nat)
  | flush

def MsgOp.toOp : MsgOp → SinkOp
  | .send m key extra => .send m.view key extra
  | .flush => .flush

/-- The messages whose `start_send` was answered `Ready`. -/
def acceptedMsgs : List MsgOp → List SendRes → List OwnedMsg
  | .send m _ _ :: ops, .ready :: rs => m :: acceptedMsgs ops rs
  | _ :: ops, _ :: rs => acceptedMsgs ops rs
  | _, _ => []

theorem acceptedMsgs_mem {ops : List MsgOp} {rs : List SendRes} {m : OwnedMsg} (h : m ∈ acceptedMsgs ops rs) :
    ∃ key extra, MsgOp.send m key extra ∈ ops := by
  fun_induction acceptedMsgs ops rs with
  | case1 m' key extra ops rs ih =>
    rcases List.mem_cons.mp h with rfl | h
    · exact ⟨key, extra, List.mem_cons_self⟩
    · obtain ⟨k, e, h⟩ := ih h; exact ⟨k, e, List.mem_cons_of_mem _ h⟩
  | case2 op ops r rs hne ih => obtain ⟨k, e, h⟩ := ih h; exact ⟨k, e, List.mem_cons_of_mem _ h⟩
  | case3 => simp at h

theorem MsgOp.lawful (op : MsgOp) : op.toOp.Lawful := by
  cases op with
  | send m => exact m.lawful
  | flush => trivial

theorem accepted_wire {lim : Nat} (hlim : lim < 2 ^ 63) (isServer : Bool) (ops : List MsgOp) (rs : List SendRes)
    (h : ∀ m key extra, MsgOp.send m key extra ∈ ops → m.spec.Sendable lim) :
    Wire (!isServer) ((acceptedMsgs ops rs).map fun m => m.view.spec) (accepted isServer (ops.map MsgOp.toOp) rs) := by
  fun_induction acceptedMsgs ops rs with
  | case1 m key extra ops rs ih =>
    have ih := ih fun m k e hm => h m k e (List.mem_cons_of_mem _ hm)
    have hm := h m key extra List.mem_cons_self
    obtain ⟨bs, hb⟩ := encode_sendable hm (if isServer then none else some key)
    have hb' : m.view.encode (if (!isServer) then some key else none) = .ok bs := by
      cases isServer <;> exact hb
    obtain ⟨k, f1, f2⟩ := encode_wire hlim hm (!isServer) key hb'
    simp only [List.map_cons, accepted, MsgOp.toOp, SinkOp.adds, hb]
    exact .cons f1 f2 ih
  | case2 op ops r rs hne ih =>
    have ih := ih fun m k e hm => h m k e (List.mem_cons_of_mem _ hm)
    have : op.toOp.adds isServer r = [] := by
      cases op with
      | flush => cases r <;> rfl
      | send m key extra =>
        cases r with
        | ready => exact absurd rfl (hne m key extra rfl)
        | _ => rfl
    simp only [List.map_cons, accepted, this, List.nil_append]
    exact ih
  | case3 ops rs h1 h2 =>
    cases ops with
    | nil => exact .nil
    | cons op ops => cases rs with
      | nil => exact .nil
      | cons r rs => exact absurd rfl (h2 op ops r rs rfl)

end WS
