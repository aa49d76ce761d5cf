import Verif.Lemmas.Message
import Verif.Model.MsgCodec
/-!
# Properties of messages: C11–C13, C15, C16, C46

The meaning of frames and messages is `Spec.Assembles` / `Spec.Means`.
-/

namespace WS
open Spec (IsUtf8 Means Assembles EncodesText)

/-! ## C11 -/

/-- C11: forming a message from frames succeeds exactly if the frames assemble to it in the sense of
RFC 6455 5.4–5.6 (owned form, the one all receivers deliver). The size hypothesis is the address
space limit of `Vec`. -/
theorem C11_assembly_exact (fs : List FrameView) (hsz : (fs.map FrameView.size).sum ≤ isizeMax)
    (m : OwnedMsg) :
    OwnedMsg.fromDataframes fs = .ok m ↔ Assembles (fs.map FrameView.fragment) m.spec :=
  OwnedMsg.fromDataframes_ok_iff fs hsz m

/-- A text message of two fragments, cut inside a character. -/
example : Assembles ([(DataFrame.mk false false false false .text [0xC3]).view,
     (DataFrame.mk true false false false .continuation [0xA9, 33]).view].map FrameView.fragment)
    (OwnedMsg.text [0xC3, 0xA9, 33]).spec :=
  (C11_assembly_exact _ (by decide) _).mp (by decide +kernel)

/-- C11 for the borrowed form. -/
theorem C11_assembly_exact_borrowed (fs : List FrameView) (hsz : (fs.map FrameView.size).sum ≤ isizeMax)
    (m : Msg) :
    Msg.fromDataframes fs = .ok m ↔ ∃ sm, m.spec = some sm ∧ Assembles (fs.map FrameView.fragment) sm :=
  Msg.fromDataframes_ok_iff fs hsz m

example := (C11_assembly_exact_borrowed [(DataFrame.mk false false false false .text [0xC3]).view,
     (DataFrame.mk true false false false .continuation [0xA9, 33]).view] (by decide) (Msg.text [0xC3, 0xA9, 33])).mp
  (by decide +kernel)

/-- C11: the concatenated payload, explicitly: a delivered message carries exactly the bytes of the
fragments in order. -/
theorem C11_payload_is_concatenation (fs : List DataFrame)
    (hsz : (fs.map fun f => f.data.length).sum ≤ isizeMax) (m : OwnedMsg)
    (h : OwnedMsg.fromDataframes (fs.map DataFrame.view) = .ok m) :
    m.view.payload = fs.flatMap DataFrame.data ∧
    ∃ f rest, fs = f :: rest ∧ m.view.opcode = f.opcode.toU8 := by
  have hsz' : ((fs.map DataFrame.view).map FrameView.size).sum ≤ isizeMax := by
    simpa [List.map_map, Function.comp_def, DataFrame.view] using hsz
  obtain ⟨first, rest, he, -, -, hm⟩ := (C11_assembly_exact _ hsz' m).mp h
  cases fs with
  | nil => simp at he
  | cons f fs =>
    simp only [List.map_cons, List.cons.injEq] at he
    obtain ⟨rfl, rfl⟩ := he
    have hp : ((f :: fs).map DataFrame.view |>.map FrameView.fragment).flatMap Spec.Fragment.payload
        = (f :: fs).flatMap DataFrame.data := by
      rw [List.map_map, List.flatMap_map]; rfl
    rw [hp] at hm
    refine ⟨?_, f, fs, rfl, ?_⟩
    · generalize (f :: fs).flatMap DataFrame.data = d at hm
      generalize f.view.fragment.opcode = n at hm
      generalize hs : m.spec = sm at hm
      cases hm with
      | @closeWith hi lo r h =>
        rcases m with _ | _ | (_ | ⟨c, r⟩) | _ | _ <;> simp only [OwnedMsg.spec, reduceCtorEq, Spec.Message.closeWith.injEq] at hs
        obtain ⟨hc, rfl⟩ := hs
        have h1 := hi.toNat_lt; have h2 := lo.toNat_lt
        show beBytes 2 c.toNat ++ r = _
        rw [hc]
        have e1 : UInt8.ofNat ((256 * hi.toNat + lo.toNat) / 256) = hi := u8_eq_of_toNat (by simp; omega)
        have e2 : UInt8.ofNat ((256 * hi.toNat + lo.toNat) % 256) = lo := u8_eq_of_toNat (by simp)
        have : beBytes 2 (256 * hi.toNat + lo.toNat) = [hi, lo] := by
          apply be_inj (by simp [beBytes_length])
          rw [be_beBytes_of_lt (by omega)]
          simp [Spec.be]; omega
        rw [this]; rfl
      | _ =>
        rcases m with _ | _ | (_ | ⟨c, r⟩) | _ | _ <;> simp_all [OwnedMsg.spec, OwnedMsg.view]
    · have hn : f.view.fragment.opcode = f.opcode.toU8.toNat := rfl
      rw [hn] at hm
      apply u8_eq_of_toNat
      generalize f.opcode.toU8.toNat = n at hm
      generalize (f :: fs).flatMap DataFrame.data = d at hm
      generalize hs : m.spec = sm at hm
      cases hm <;>
        rcases m with _ | _ | (_ | ⟨c, r⟩) | _ | _ <;> simp [OwnedMsg.spec] at hs <;> rfl

example := C11_payload_is_concatenation
  [⟨false, false, false, false, .binary, [1]⟩, ⟨false, false, false, false, .continuation, []⟩,
   ⟨true, false, false, false, .continuation, [2, 3]⟩] (by decide) (.binary [1, 2, 3]) (by decide +kernel)

/-- C11: no frame list makes assembly panic (up to the address space limit), and an empty list is
refused. -/
theorem C11_assembly_total (fs : List FrameView) (hsz : (fs.map FrameView.size).sum ≤ isizeMax) :
    (Msg.fromDataframes fs).isPanic = false ∧ (OwnedMsg.fromDataframes fs).isPanic = false ∧
    OwnedMsg.fromDataframes [] = .err (.protocol "No dataframes provided") :=
  ⟨Msg.fromDataframes_no_panic fs hsz, OwnedMsg.fromDataframes_no_panic fs hsz, rfl⟩

/-- A text split inside a two byte character over two frames. -/
example : OwnedMsg.fromDataframes
    [(DataFrame.mk false false false false .text [0xC3]).view,
     (DataFrame.mk true false false false .continuation [0xA9, 33]).view] = .ok (.text [0xC3, 0xA9, 33]) := by
  decide +kernel

/-! ## C12 -/

theorem OwnedMsg.fromDataframes_assembles {fs : List FrameView} {m : OwnedMsg}
    (h : OwnedMsg.fromDataframes fs = .ok m) : Assembles (fs.map FrameView.fragment) m.spec := by
  by_cases hsz : (fs.map FrameView.size).sum ≤ isizeMax
  · exact (OwnedMsg.fromDataframes_ok_iff fs hsz m).mp h
  · exfalso
    unfold OwnedMsg.fromDataframes Msg.fromDataframes at h
    cases fs with
    | nil => simp at h
    | cons f rest =>
      simp only at h
      rw [if_pos (by omega)] at h
      simp at h

/-- C12: the validator used for text and close reasons accepts exactly the encodings of sequences of
Unicode scalar values, and the text is unique. -/
theorem C12_validator_exact (bs : Bytes) :
    (utf8Valid bs = true ↔ IsUtf8 bs) ∧
    ∀ cs ds, EncodesText cs bs → EncodesText ds bs → cs = ds :=
  ⟨utf8Valid_iff bs, fun _ _ => encodesText_unique⟩

example : utf8Valid [0xE2, 0x82, 0xAC] = true ∧ utf8Valid [0xC0, 0x80] = false := by decide +kernel

/-- C12: every text (and close reason) delivered by the blocking receiver is valid UTF-8, in any
state and on any transport. -/
theorem C12_delivered_text_valid_blocking (r r' : Receiver) (s s' : Src) (m : OwnedMsg)
    (h : r.recvMessage s = (.ok m, r', s')) : m.Valid := by
  unfold Receiver.recvMessage at h
  split at h
  · simp only [Prod.mk.injEq] at h
    exact OwnedMsg.valid_of_assembles (OwnedMsg.fromDataframes_assembles h.1)
  · simp at h
  · simp at h

example := C12_delivered_text_valid_blocking (Receiver.new false) (Receiver.new false)
  [.chunk [0x01, 1, 0xC3], .chunk [0x80, 1, 0xA9, 7]] [.chunk [7]] (.text [0xC3, 0xA9]) (by decide +kernel)

theorem MsgCodec.onFrame_ok {maxMsg cur : Nat} {buffer buffer' : List DataFrame} {f : DataFrame} {m : OwnedMsg}
    (h : MsgCodec.onFrame maxMsg buffer cur f = .done (.ok (some m)) buffer') :
    ∃ fs : List DataFrame, OwnedMsg.fromDataframes (fs.map DataFrame.view) = .ok m := by
  have aux : ∀ fs : List FrameView, (do let m ← OwnedMsg.fromDataframes fs; pure (some m)) = Res.ok (some m) →
      OwnedMsg.fromDataframes fs = .ok m := by
    intro fs h
    cases hx : OwnedMsg.fromDataframes fs with
    | ok x =>
      rw [hx] at h
      have h' : Res.ok (some x) = Res.ok (some m) := h
      simpa using h'
    | err e => rw [hx] at h; simp at h
    | panic e => rw [hx] at h; simp at h
  unfold MsgCodec.onFrame at h
  simp only at h
  repeat' split at h
  all_goals simp only [FrameStep.done.injEq, reduceCtorEq, false_and] at h
  · exact ⟨[f], by simpa using aux _ h.1⟩
  · exact ⟨buffer ++ [f], aux _ h.1⟩

/-- C12: the same for the async codec. -/
theorem C12_delivered_text_valid_async (c c' : MsgCodec) (src src' : Bytes) (m : OwnedMsg)
    (h : c.decode src = (.ok (some m), c', src')) : m.Valid := by
  unfold MsgCodec.decode at h
  generalize heldLen c.buffer = cur at h
  fun_induction MsgCodec.loop c cur src with
  | case1 c cur src frame src' hd r buffer hf =>
    simp only [Prod.mk.injEq] at h
    rw [h.1] at hf
    obtain ⟨fs, hfs⟩ := MsgCodec.onFrame_ok hf
    exact OwnedMsg.valid_of_assembles (OwnedMsg.fromDataframes_assembles hfs)
  | case2 c cur src frame src' hd buffer cur' hf ih => exact ih h
  | case3 => simp at h
  | case4 => simp at h
  | case5 => simp at h

example := C12_delivered_text_valid_async (MsgCodec.new .client) (MsgCodec.new .client)
  [0x01, 1, 0xC3, 0x80, 1, 0xA9, 7] [7] (.text [0xC3, 0xA9]) (by decide +kernel)

/-- C12: no valid text is refused, however it is cut into fragments (also inside a character). -/
theorem C12_valid_text_accepted (pieces : List Bytes) (p : Bytes) (hv : IsUtf8 (p ++ pieces.flatten))
    (hsz : (p ++ pieces.flatten).length ≤ isizeMax) :
    OwnedMsg.fromDataframes ((⟨pieces.isEmpty, false, false, false, .text, p⟩ ::
      pieces.mapIdx fun i q => ⟨decide (i + 1 = pieces.length), false, false, false, .continuation, q⟩).map DataFrame.view)
      = .ok (.text (p ++ pieces.flatten)) := by
  have hp : ∀ (l : List Bytes) (n : Nat → Bool),
      ((l.mapIdx fun i q => (⟨n i, false, false, false, .continuation, q⟩ : DataFrame)).map DataFrame.data) = l := by
    intro l n
    apply List.ext_getElem?
    intro i
    simp [List.getElem?_mapIdx, Option.map_map, Function.comp_def]
  have hpay := hp pieces (fun i => decide (i + 1 = pieces.length))
  have hc : ∀ g ∈ pieces.mapIdx fun i q => (⟨decide (i + 1 = pieces.length), false, false, false, .continuation, q⟩ : DataFrame),
      g.opcode = .continuation ∧ g.rsv1 = false ∧ g.rsv2 = false ∧ g.rsv3 = false := by
    intro g hg
    obtain ⟨i, hi, rfl⟩ := List.mem_mapIdx.mp hg
    simp
  generalize (pieces.mapIdx fun i q => (⟨decide (i + 1 = pieces.length), false, false, false, .continuation, q⟩ : DataFrame)) = ds at *
  subst hpay
  rw [OwnedMsg.fromDataframes_ok_iff]
  · refine ⟨_, _, rfl, ?_, ?_, ?_⟩
    · intro f hf
      simp only [List.map_map, List.mem_map, List.mem_cons] at hf
      obtain ⟨g, rfl | hg, rfl⟩ := hf
      · rfl
      · obtain ⟨-, h1, h2, h3⟩ := hc g hg
        simp [DataFrame.view, FrameView.fragment, h1, h2, h3]
    · intro f hf
      simp only [List.map_map, List.mem_map] at hf
      obtain ⟨g, hg, rfl⟩ := hf
      simp [DataFrame.view, FrameView.fragment, (hc g hg).1]; rfl
    · have e : ((List.map DataFrame.view (⟨(List.map DataFrame.data ds).isEmpty, false, false, false, .text, p⟩ :: ds)).map FrameView.fragment).flatMap Spec.Fragment.payload
          = p ++ (ds.map DataFrame.data).flatten := by
        rw [List.map_map, List.flatMap_map, List.flatMap_cons, ← List.flatMap_def]; rfl
      rw [e]
      exact .text hv
  · simp only [List.map_cons, List.map_map, List.sum_cons]
    have : (FrameView.size ∘ DataFrame.view) = (List.length ∘ DataFrame.data) := rfl
    rw [this, ← List.map_map]
    simpa [List.length_flatten, DataFrame.view] using hsz

example : IsUtf8 ([0xC3] ++ List.flatten [[0xA9], [33]]) := by
  rw [← utf8Valid_iff]; decide +kernel
example : ¬ IsUtf8 [0xED, 0xA0, 0x80] := by rw [← utf8Valid_iff]; decide +kernel

/-! ## C13 -/

/-- C13: owned → borrowed → owned is the identity (for owned messages, whose strings are valid
UTF-8). -/
theorem C13_owned_roundtrip (m : OwnedMsg) (h : m.Valid) : m.toMsg.toOwned = m := by
  have hl : ∀ {d}, IsUtf8 d → utf8Lossy d = d := fun h => utf8Lossy_valid ((utf8Valid_iff _).mpr h)
  rcases m with _ | _ | (_ | ⟨c, r⟩) | _ | _ <;>
    simp_all [OwnedMsg.toMsg, Msg.toOwned, OwnedMsg.Valid, Msg.text, Msg.binary, Msg.closeBecause,
      Msg.closeEmpty, Msg.ping, Msg.pong]

example := C13_owned_roundtrip (.close (some ⟨1000, [66, 121, 101]⟩)) ((utf8Valid_iff _).mp (by decide +kernel))

/-- C13: every message made by a public constructor survives borrowed → owned → borrowed. -/
theorem C13_borrowed_roundtrip (s : Bytes) (hs : IsUtf8 s) (code : UInt16) (b : Bytes) :
    (Msg.text s).toOwned.toMsg = Msg.text s ∧ (Msg.binary b).toOwned.toMsg = Msg.binary b ∧
    (Msg.ping b).toOwned.toMsg = Msg.ping b ∧ (Msg.pong b).toOwned.toMsg = Msg.pong b ∧
    Msg.closeEmpty.toOwned.toMsg = Msg.closeEmpty ∧
    (Msg.closeBecause code s).toOwned.toMsg = Msg.closeBecause code s := by
  have hl : utf8Lossy s = s := utf8Lossy_valid ((utf8Valid_iff _).mpr hs)
  simp [Msg.toOwned, OwnedMsg.toMsg, Msg.text, Msg.binary, Msg.closeBecause, Msg.closeEmpty, Msg.ping,
    Msg.pong, hl]

example := C13_borrowed_roundtrip [0xC3, 0xA9] ((utf8Valid_iff _).mp (by decide +kernel)) 1000 [0, 255]

/-- C13: both forms put the same bytes on the wire. -/
theorem C13_same_bytes (m : OwnedMsg) (key : Option Key4) :
    m.toMsg.view.encode key = m.view.encode key ∧
    ∀ masked, m.toMsg.view.frameSize masked = m.view.frameSize masked := by
  have hsz : m.toMsg.view.size = m.view.size ∧ m.toMsg.view.opcode = m.view.opcode ∧
      m.toMsg.view.writes.flatten = m.view.writes.flatten := by
    rcases m with _ | _ | (_ | ⟨c, r⟩) | _ | _ <;>
      simp [OwnedMsg.toMsg, OwnedMsg.view, Msg.view, Msg.text, Msg.binary, Msg.closeBecause,
        Msg.closeEmpty, Msg.ping, Msg.pong]
  constructor
  · have hh : m.toMsg.view.header key = m.view.header key := by
      unfold FrameView.header
      rw [hsz.1, hsz.2.1]; rfl
    rw [encode_eq, encode_eq, hsz.2.2, hh]
  · intro masked
    unfold FrameView.frameSize
    rw [hsz.1]

/-- C13: whatever a (hand-built) borrowed message contains, converting it yields valid text; and
data is kept unless it was not valid UTF-8 or sat in a close message without status code. -/
theorem C13_conversion_always_valid (m : Msg) : m.toOwned.Valid := by
  obtain ⟨o, c, p⟩ := m
  cases o <;> cases c <;> simp [Msg.toOwned, OwnedMsg.Valid, utf8Lossy_isUtf8]

/-- C13: the lossy case exists: a hand-built close without code loses its payload. -/
theorem C13_handbuilt_can_lose : ∃ m : Msg, m.toOwned.toMsg ≠ m := ⟨⟨.close, none, [1]⟩, by decide⟩

example : (OwnedMsg.close (some ⟨1000, [66, 121, 101]⟩)).Valid :=
  (utf8Valid_iff _).mp (by decide +kernel)

/-! ## C15 -/

/-- C15: the meaning of a close payload: empty, one byte, and code plus reason. -/
theorem C15_close_payload (d : Bytes) (hsz : d.length ≤ isizeMax) :
    OwnedMsg.fromDataframes [(DataFrame.mk true false false false .close d).view] =
      match d with
      | [] => .ok (.close none)
      | [_] => .err .noData
      | hi :: lo :: reason =>
        if utf8Valid reason then .ok (.close (some ⟨UInt16.ofNat (256 * hi.toNat + lo.toNat), reason⟩))
        else .err .utf8 := by
  have hb : ∀ hi lo : UInt8, beNat [hi, lo] = 256 * hi.toNat + lo.toNat := by
    intro hi lo; simp [beNat]; omega
  unfold OwnedMsg.fromDataframes Msg.fromDataframes
  simp only [DataFrame.view, List.map_cons, List.map_nil, List.sum_cons, List.sum_nil, Nat.add_zero, opcode_new_toU8]
  rw [if_neg (by omega)]
  match d with
  | [] => rfl
  | [x] => rfl
  | hi :: lo :: r =>
    simp only [collectFrames, Bool.false_eq_true, false_and, or_self, if_false, reduceCtorEq,
      List.nil_append, Res.bind_ok]
    rw [if_neg (by simp), if_neg (by simp)]
    simp only [List.drop_succ_cons, List.drop_zero]
    split
    · next h =>
      simp [Msg.toOwned, Msg.closeBecause, hb, utf8Lossy_valid h]
    · rfl

example := C15_close_payload [3, 232, 98, 121, 101] (by decide)

/-- C15: a reason is accepted exactly if it is valid UTF-8 (via C12's validator). -/
theorem C15_reason_utf8 (hi lo : UInt8) (reason : Bytes) (hsz : reason.length + 2 ≤ isizeMax) :
    (∃ c, OwnedMsg.fromDataframes [(DataFrame.mk true false false false .close (hi :: lo :: reason)).view]
      = .ok (.close (some c)) ∧ c.statusCode.toNat = 256 * hi.toNat + lo.toNat ∧ c.reason = reason)
    ↔ IsUtf8 reason := by
  rw [C15_close_payload _ (by simpa using hsz), ← utf8Valid_iff]
  have h1 := hi.toNat_lt; have h2 := lo.toNat_lt
  simp only
  split
  · next h =>
    simp only [h, iff_true]
    exact ⟨_, rfl, by simp; omega, rfl⟩
  · next h => simp [h]

example : ∃ c, OwnedMsg.fromDataframes [(DataFrame.mk true false false false .close [3, 232, 0xC3, 0xA9]).view]
      = .ok (.close (some c)) ∧ c.statusCode.toNat = 1000 ∧ c.reason = [0xC3, 0xA9] :=
  (C15_reason_utf8 3 232 [0xC3, 0xA9] (by decide)).mpr ((utf8Valid_iff _).mp (by decide +kernel))

/-- C15: close data is turned back into exactly that payload, by `into_bytes`, by `take_payload`
and on the wire. -/
theorem C15_close_data_inverse (c : CloseData) (hsz : c.reason.length + 2 ≤ isizeMax) (hv : IsUtf8 c.reason) :
    c.intoBytes = (OwnedMsg.close (some c)).view.payload ∧
    (OwnedMsg.close (some c)).view.writes.flatten = c.intoBytes ∧
    OwnedMsg.fromDataframes [(DataFrame.mk true false false false .close c.intoBytes).view]
      = .ok (.close (some c)) := by
  refine ⟨rfl, by simp [OwnedMsg.view, CloseData.intoBytes], ?_⟩
  obtain ⟨code, reason⟩ := c
  have hlen : (beBytes 2 code.toNat).length = 2 := beBytes_length 2 _
  obtain ⟨hi, lo, hb⟩ : ∃ hi lo, beBytes 2 code.toNat = [hi, lo] := by
    match beBytes 2 code.toNat, hlen with
    | [a, b], _ => exact ⟨a, b, rfl⟩
  have hbe : 256 * hi.toNat + lo.toNat = code.toNat := by
    have := be_beBytes_of_lt (n := 2) (v := code.toNat) (by have := code.toNat_lt; omega)
    rw [hb] at this
    simp [Spec.be] at this; omega
  have e : CloseData.intoBytes ⟨code, reason⟩ = hi :: lo :: reason := by
    simp [CloseData.intoBytes, hb]
  rw [e, C15_close_payload _ (by simpa using hsz)]
  simp only
  rw [if_pos ((utf8Valid_iff _).mpr hv), hbe]
  simp

example : OwnedMsg.fromDataframes [(DataFrame.mk true false false false .close [3, 232, 98, 121, 101]).view]
    = .ok (.close (some ⟨1000, [98, 121, 101]⟩)) := by decide +kernel

/-! ## C16 -/

/-- C16: `into_pong` succeeds exactly on pings, changes only the type, and leaves any other message
alone. -/
theorem C16_into_pong (m : Msg) :
    (m.intoPong.1 = true ↔ m.opcode = .ping) ∧ m.intoPong.2.payload = m.payload ∧
    m.intoPong.2.cdStatusCode = m.cdStatusCode ∧
    (m.intoPong.1 = true → m.intoPong.2.opcode = .pong) ∧
    (m.intoPong.1 = false → m.intoPong.2 = m) := by
  unfold Msg.intoPong
  split <;> simp_all

/-- C16: the pong made from a received ping serialises to a pong frame with the ping's data. -/
theorem C16_pong_frame (d : Bytes) (key : Option Key4) :
    (Msg.ping d).intoPong = (true, Msg.pong d) ∧
    ∀ bs, (Msg.pong d).view.encode key = .ok bs → d.length < 2 ^ 63 →
      Spec.IsFrame ⟨true, false, false, false, 10, d⟩ (key.map Key4.toBytes) bs := by
  refine ⟨rfl, fun bs h hl => ?_⟩
  exact (encode_isFrame (Msg.lawful (Msg.pong d)) (by simpa [Msg.view, Msg.pong] using hl) h).1

example : (Msg.ping [1, 2]).intoPong = (true, Msg.pong [1, 2]) := rfl

/-! ## C46 -/

/-- C46: the opcode table is defined exactly on 0..15 and inverse to the numeric value; the variant
names follow RFC 6455 11.8. -/
theorem C46_opcode_table :
    (∀ n : UInt8, (Opcode.new n).isSome = true ↔ n.toNat ≤ 15) ∧
    (∀ n o, Opcode.new n = some o ↔ o.toU8 = n) ∧
    Opcode.continuation.toU8 = 0 ∧ Opcode.text.toU8 = 1 ∧ Opcode.binary.toU8 = 2 ∧
    Opcode.close.toU8 = 8 ∧ Opcode.ping.toU8 = 9 ∧ Opcode.pong.toU8 = 10 := by
  refine ⟨fun n => ?_, fun n o => ⟨opcode_new_some, fun h => h ▸ opcode_new_toU8 o⟩, rfl, rfl, rfl, rfl, rfl, rfl⟩
  rw [opcode_new_isSome]; simp; omega

/-- C46: the message predicates agree with the opcode on the wire. -/
theorem C46_predicates (m : OwnedMsg) :
    (m.isControl = true ↔ 8 ≤ m.view.opcode.toNat) ∧ (m.isData = true ↔ m.view.opcode.toNat < 8) ∧
    (m.isClose = true ↔ m.view.opcode.toNat = 8) ∧ (m.isPing = true ↔ m.view.opcode.toNat = 9) ∧
    (m.isPong = true ↔ m.view.opcode.toNat = 10) ∧ m.view.opcode.toNat ∈ [1, 2, 8, 9, 10] := by
  cases m <;> simp only [OwnedMsg.isControl, OwnedMsg.isData, OwnedMsg.isClose, OwnedMsg.isPing,
    OwnedMsg.isPong, OwnedMsg.view] <;> decide

end WS
