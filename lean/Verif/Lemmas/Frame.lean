import Verif.Lemmas.Parse
import Verif.Spec.Abs
/-! Frame parser and encoder against the RFC layout. -/

namespace WS
open Spec (IsFrame LenForm Masked ControlOk)

def bodyPs (h : Header) (data : Bytes) (masked : Bool) : Ps DataFrame := fun bs =>
  match readDataframeBody h data masked with
  | .ok f => .ok f bs
  | .err e => .err e bs
  | .panic _ => .more

/-- Read one frame from a byte string; `big` is the error for a declared length over `limit`. -/
def parseFrame (masked : Bool) (limit : Nat) (big : WsErr) : Ps DataFrame := do
  let h ← parseHeader
  if h.len > limit then Ps.fail big
  else do
    let data ← Ps.take h.len
    bodyPs h data masked

theorem refines_bind' {α β} {m : Rd α} {p : Ps α} {f : α → Rd β} {g : α → Ps β}
    (hm : Refines m p) (hf : ∀ a bs rest, p bs = .ok a rest → Refines (f a) (g a)) :
    Refines (m >>= f) (p >>= g) := by
  intro s hs
  obtain ⟨s', hs', h⟩ := hm s hs
  show ∃ s'', _ ∧ (match Ps.bind p g s.flat with
      | .ok a rest => Rd.bind m f s = (.ok a, s'') ∧ s''.flat = rest
      | .err e rest => Rd.bind m f s = (.err e, s'') ∧ s''.flat = rest
      | .more => Rd.bind m f s = (.err .noData, s'') ∧ s''.flat = [])
  unfold Ps.bind Rd.bind
  cases hp : p s.flat with
  | ok a rest =>
    rw [hp] at h
    obtain ⟨s'', hs'', h'⟩ := hf a _ _ hp s' hs'
    refine ⟨s'', hs'', ?_⟩
    simp only [h.1]
    rw [← h.2]
    exact h'
  | err e rest =>
    rw [hp] at h
    exact ⟨s', hs', by simp [h.1, h.2]⟩
  | more =>
    rw [hp] at h
    exact ⟨s', hs', by simp [h.1, h.2]⟩

theorem parseHeader_opcode {bs rest : Bytes} {h : Header} (hp : parseHeader bs = .ok h rest) :
    h.opcode.toNat < 16 := by
  obtain ⟨b0, b1, ext, -, -, -, -, ho, -⟩ := parseHeader_ok_iff.mp hp
  rw [ho, u8_and0F]; omega

theorem readDataframeBody_no_panic (h : Header) (hop : h.opcode.toNat < 16) (data : Bytes) (m : Bool) :
    (readDataframeBody h data m).isPanic = false := by
  have := opcode_new_isSome h.opcode
  simp only [hop, decide_true] at this
  unfold readDataframeBody
  obtain ⟨o, ho⟩ := Option.isSome_iff_exists.mp this
  rw [ho]
  cases h.mask <;> cases m <;> simp

theorem refines_body (h : Header) (hop : h.opcode.toNat < 16) (data : Bytes) (m : Bool) :
    Refines (Rd.lift (readDataframeBody h data m)) (bodyPs h data m) := by
  intro s hs
  refine ⟨s, hs, ?_⟩
  unfold bodyPs Rd.lift
  have hn := readDataframeBody_no_panic h hop data m
  cases hr : readDataframeBody h data m with
  | ok f => simp
  | err e => simp
  | panic => rw [hr] at hn; simp at hn

theorem refines_withCapacity {n : Nat} (h : n ≤ isizeMax) {α} {m : Rd α} {p : Ps α} (hm : Refines m p) :
    Refines (do vecWithCapacity n; m) p := by
  unfold vecWithCapacity
  rw [if_neg (by omega)]
  exact hm

theorem refines_frame (masked : Bool) (limit : Nat) (hl : limit ≤ isizeMax) :
    Refines (readDataframeWithLimit masked limit) (parseFrame masked limit (.io .invalidData)) := by
  unfold readDataframeWithLimit parseFrame
  refine refines_bind' refines_header fun h bs rest hp => ?_
  split
  · exact refines_fail _
  · refine refines_withCapacity (by omega) ?_
    exact refines_bind (refines_payload _) fun data => refines_body h (parseHeader_opcode hp) data masked

/-! ### Masking spec -/

theorem masked_iff (k : Key4) (p b : Bytes) : Masked (some k.toBytes) p b ↔ b = maskFrom k 0 p := by
  unfold Masked
  constructor
  · rintro ⟨hl, h⟩
    apply List.ext_getElem?
    intro i
    rw [maskFrom_getElem?]
    by_cases hi : i < p.length
    · obtain ⟨x, q, h1, h2, h3⟩ := h i hi
      rw [h3, h1]
      rw [key_at_eq] at h2
      simp only [Option.some.injEq] at h2
      simp [h2]
    · rw [List.getElem?_eq_none (by omega), List.getElem?_eq_none (by omega)]; rfl
  · rintro rfl
    refine ⟨maskFrom_length k 0 p, fun i hi => ?_⟩
    refine ⟨p[i], k.at (i % 4), by simp [hi], key_at_eq k i, ?_⟩
    rw [maskFrom_getElem?]; simp [hi]

theorem maskFrom_eq_iff (k : Key4) (p b : Bytes) : b = maskFrom k 0 p ↔ maskFrom k 0 b = p := by
  constructor
  · rintro rfl; exact maskFrom_maskFrom k 0 p
  · rintro rfl; exact (maskFrom_maskFrom k 0 b).symm

theorem key_toBytes_surj {l : Bytes} (h : l.length = 4) : ∃ k : Key4, k.toBytes = l := by
  match l, h with
  | [a, b, c, d], _ => exact ⟨⟨a, b, c, d⟩, rfl⟩

theorem key_toBytes_inj {k k' : Key4} (h : k.toBytes = k'.toBytes) : k = k' := by
  cases k; cases k'; simp [Key4.toBytes] at h; simp [h]

theorem lenOk_of_form {n l7 : Nat} {ext : Bytes} (h : LenForm n l7 ext) : LenOk n l7 ext := by
  cases h with
  | short h => exact .short h
  | medium ext a b c d => exact .medium _ a b c d
  | long ext a b c d => exact .long _ a c d

theorem form_of_lenOk {n l7 : Nat} {ext : Bytes} (h : LenOk n l7 ext) (hn : n < 2 ^ 63) :
    LenForm n l7 ext := by
  cases h with
  | short h => exact .short h
  | medium ext a b c d => exact .medium _ a b c d
  | long ext a c d => exact .long _ a hn c d

theorem bit_le (b : Bool) : Spec.bit b ≤ 1 := by cases b <;> decide

/-- The frame that a header with first byte `b0` and a payload make. -/
theorem body_ok_iff (h : Header) (b0 : UInt8) (hf : h.flags = fromBitsTruncate b0)
    (ho : h.opcode = b0 &&& 0x0F) (body : Bytes) (m : Bool) (f : DataFrame) :
    readDataframeBody h body m = .ok f ↔
      h.mask.isSome = m ∧
      b0.toNat = 128 * Spec.bit f.finished + 64 * Spec.bit f.rsv1 + 32 * Spec.bit f.rsv2
        + 16 * Spec.bit f.rsv3 + f.opcode.toU8.toNat ∧
      Masked (h.mask.map Key4.toBytes) f.data body := by
  have h16 : h.opcode.toNat < 16 := by rw [ho, u8_and0F]; omega
  have := opcode_new_isSome h.opcode
  simp only [h16, decide_true] at this
  obtain ⟨o, hoo⟩ := Option.isSome_iff_exists.mp this
  have hn := opcode_new_some hoo
  have hon : o.toU8.toNat = b0.toNat % 16 := by rw [hn, ho, u8_and0F]
  have hb0 := b0.toNat_lt
  have key : ∀ (fin r1 r2 r3 : Bool) (op : Opcode),
      (fin = decide (128 ≤ b0.toNat) ∧ r1 = decide (b0.toNat / 64 % 2 = 1) ∧
        r2 = decide (b0.toNat / 32 % 2 = 1) ∧ r3 = decide (b0.toNat / 16 % 2 = 1) ∧ op = o) ↔
      b0.toNat = 128 * Spec.bit fin + 64 * Spec.bit r1 + 32 * Spec.bit r2
        + 16 * Spec.bit r3 + op.toU8.toNat := by
    intro fin r1 r2 r3 op
    have hop := opcode_toU8_lt op
    constructor
    · rintro ⟨rfl, rfl, rfl, rfl, rfl⟩
      unfold Spec.bit
      simp only [decide_eq_true_eq]
      split <;> split <;> split <;> split <;> omega
    · intro he
      have ht : op.toU8.toNat = b0.toNat % 16 := by
        revert he; unfold Spec.bit; cases fin <;> cases r1 <;> cases r2 <;> cases r3 <;> simp <;> omega
      have hop' : op = o := by
        have e : op.toU8 = o.toU8 := u8_eq_of_toNat (by omega)
        have := opcode_new_toU8 op
        rw [e, opcode_new_toU8] at this
        exact (Option.some.inj this).symm
      revert he; unfold Spec.bit
      cases fin <;> cases r1 <;> cases r2 <;> cases r3 <;> simp [hop'] <;> omega
  unfold readDataframeBody
  rw [hoo]
  simp only [hf, flag_fin, flag_rsv1, flag_rsv2, flag_rsv3]
  cases hmk : h.mask with
  | none =>
    cases m
    · simp only [Bool.false_eq_true, if_false, Res.ok.injEq, Option.isSome_none, true_and,
        Option.map_none, Masked]
      rw [← key]
      cases f
      simp only [DataFrame.mk.injEq]
      constructor
      · rintro ⟨rfl, rfl, rfl, rfl, rfl, rfl⟩; simp
      · rintro ⟨⟨rfl, rfl, rfl, rfl, rfl⟩, rfl⟩; simp
    · simp
  | some k =>
    cases m
    · simp
    · simp only [Bool.not_true, Bool.false_eq_true, if_false, Res.ok.injEq, Option.isSome_some,
        true_and, Option.map_some]
      rw [masked_iff, maskData_eq, maskFrom_eq_iff, ← key]
      cases f
      simp only [DataFrame.mk.injEq]
      constructor
      · rintro ⟨rfl, rfl, rfl, rfl, rfl, rfl⟩; simp
      · rintro ⟨⟨rfl, rfl, rfl, rfl, rfl⟩, rfl⟩; simp

theorem masked_length {key : Option Key4} {p b : Bytes} (h : Masked (key.map Key4.toBytes) p b) :
    b.length = p.length := by
  cases key with
  | none => simp [Masked] at h; simp [h]
  | some k => exact h.1

/-- The parser accepts exactly the RFC layouts (soundness and completeness). -/
theorem parseFrame_ok_iff {m : Bool} {lim : Nat} (hlim : lim < 2 ^ 63) {big : WsErr} {bs rest : Bytes}
    {f : DataFrame} :
    parseFrame m lim big bs = .ok f rest ↔
      f.data.length ≤ lim ∧ ControlOk f.spec ∧
      ∃ (key : Option Key4) (pre : Bytes), bs = pre ++ rest ∧ key.isSome = m ∧
        IsFrame f.spec (key.map Key4.toBytes) pre := by
  unfold parseFrame
  rw [Ps.bind_ok_iff]
  constructor
  · rintro ⟨h, mid, hp, h2⟩
    split at h2
    · simp at h2
    · next hle =>
      simp only [Ps.bind_ok_iff, Ps.take_ok_iff] at h2
      obtain ⟨data, _, ⟨hdl, rfl⟩, h3⟩ := h2
      obtain ⟨b0, b1, ext, rfl, hl, hm, hf, ho, hc⟩ := parseHeader_ok_iff.mp hp
      have hb : readDataframeBody h data m = .ok f := by
        unfold bodyPs at h3; split at h3 <;> simp_all
      unfold bodyPs at h3
      rw [hb] at h3
      simp only [PRes.ok.injEq, true_and] at h3
      subst h3
      obtain ⟨hm', hb0, hmk⟩ := (body_ok_iff h b0 hf ho data m f).mp hb
      have hlen := masked_length hmk
      have h16 := opcode_toU8_lt f.opcode
      have hb1 := b1.toNat_lt
      have hopn : h.opcode.toNat = f.opcode.toU8.toNat := by
        rw [ho, u8_and0F]
        revert hb0; unfold Spec.bit; split <;> split <;> split <;> split <;> omega
      refine ⟨by omega, ?_, h.mask, [b0, b1] ++ ext ++ (h.mask.map Key4.toBytes).getD [] ++ data, by simp, hm', b0, b1, b1.toNat % 128, ext, data, rfl, h16, hb0, ?_, ?_, ?_, hmk⟩
      · intro h8
        simp only [DataFrame.spec] at h8 ⊢
        obtain ⟨h1, h2⟩ := hc (by omega)
        refine ⟨by omega, ?_⟩
        cases hfin : f.finished
        · rw [hfin, show Spec.bit false = 0 from rfl] at hb0
          have := bit_le f.rsv1; have := bit_le f.rsv2; have := bit_le f.rsv3
          omega
        · rfl
      · simp only [Option.isSome_map, hm, Spec.bit, decide_eq_true_eq]; split <;> omega
      · simp only [DataFrame.spec]; rw [← hlen, hdl]; exact form_of_lenOk hl (by omega)
      · rintro k hk
        rw [Option.map_eq_some_iff] at hk
        obtain ⟨k', -, rfl⟩ := hk; rfl
  · rintro ⟨hle, hco, key, pre, rfl, hkm, b0, b1, l7, ext, body, rfl, h16, hb0, hb1, hl, hk4, hmk⟩
    have hlen := masked_length hmk
    simp only [DataFrame.spec] at *
    have hlok := lenOk_of_form hl
    have hl7 := hlok.lt
    have hlm : b1.toNat % 128 = l7 := by
      rw [hb1]; unfold Spec.bit; split <;> omega
    let h : Header := { flags := fromBitsTruncate b0, opcode := b0 &&& 0x0F, mask := key, len := f.data.length }
    have hopn : h.opcode.toNat = f.opcode.toU8.toNat := by
      show (b0 &&& 0x0F).toNat = _
      rw [u8_and0F]
      revert hb0; unfold Spec.bit; split <;> split <;> split <;> split <;> omega
    refine ⟨h, body ++ rest, ?_, ?_⟩
    · rw [parseHeader_ok_iff]
      refine ⟨b0, b1, ext, by simp [h], by rw [hlm]; exact hlok, ?_, rfl, rfl, ?_⟩
      · show key.isSome = _
        rw [hb1]
        cases key <;> simp [Spec.bit] <;> omega
      · intro h8
        obtain ⟨hc1, hc2⟩ := hco (by simp only; omega)
        refine ⟨hc1, ?_⟩
        rw [hb0]
        simp only at hc2
        simp [hc2, Spec.bit]; omega
    · rw [if_neg (by show ¬ (f.data.length > lim); omega)]
      simp only [Ps.bind_ok_iff, Ps.take_ok_iff]
      refine ⟨body, rest, ⟨hlen, rfl⟩, ?_⟩
      have := (body_ok_iff h b0 rfl rfl body m f).mpr ⟨hkm, hb0, hmk⟩
      unfold bodyPs; rw [this]

/-! ### The encoder -/

theorem writeHeader_ok {v : FrameView} {key : Option Key4} {hdr : Bytes} (hs : v.size < 2 ^ 63)
    (h : writeHeader (v.header key) = .ok hdr) :
    v.opcode.toNat < 16 ∧ (8 ≤ v.opcode.toNat → v.size ≤ 125) ∧
    ∃ (b0 b1 : UInt8) (l7 : Nat) (ext : Bytes),
      hdr = [b0, b1] ++ ext ++ (key.map Key4.toBytes).getD [] ∧
      b0.toNat = 128 * Spec.bit v.isLast + 64 * Spec.bit v.rsv1 + 32 * Spec.bit v.rsv2
        + 16 * Spec.bit v.rsv3 + v.opcode.toNat ∧
      b1.toNat = 128 * Spec.bit key.isSome + l7 ∧
      LenForm v.size l7 ext := by
  have h15 : (0xF : UInt8).toNat = 15 := rfl
  have h8 : (8 : UInt8).toNat = 8 := rfl
  unfold writeHeader FrameView.header at h
  simp only [gt_iff_lt, ge_iff_le, u8_lt_iff, u8_le_iff, h15, h8] at h
  split at h
  · simp at h
  · next h1 =>
    split at h
    · simp at h
    · next h2 =>
      simp only [Res.ok.injEq] at h
      refine ⟨by omega, by omega, ?_⟩
      have hb0 := byte0_toNat v.isLast v.rsv1 v.rsv2 v.rsv3 v.opcode (by omega)
      refine ⟨_, _, if v.size ≤ 125 then v.size else if v.size ≤ 65535 then 126 else 127, _, h.symm, hb0, ?_, ?_⟩
      · rw [byte1_toNat]
        · split
          · rw [UInt8.toNat_ofNat']; omega
          · split <;> rfl
        · split
          · rw [UInt8.toNat_ofNat']; omega
          · split <;> decide
      · split
        · next h => rw [if_neg (by omega), if_neg (by omega)]; exact .short h
        · next h =>
          split
          · next h' =>
            rw [if_pos (by omega)]
            exact .medium _ (by omega) h' (beBytes_length _ _) (be_beBytes_of_lt (by omega))
          · rw [if_neg (by omega), if_pos (by omega)]
            exact .long _ (by omega) hs (beBytes_length _ _) (be_beBytes_of_lt (by omega))

theorem encode_eq {v : FrameView} (key : Option Key4) :
    v.encode key = (writeHeader (v.header key)).bind fun hdr =>
      .ok (hdr ++ maskOpt key v.writes.flatten) := by
  unfold FrameView.encode
  congr 1
  funext hdr
  cases key with
  | none => simp [vecWrites_eq, maskOpt]
  | some k => simp [maskOpt, Masker.new, maskerWrites_vec k 0 (by decide) hdr v.writes]

theorem encode_isFrame {v : FrameView} (hv : v.Lawful) {key : Option Key4} {bs : Bytes}
    (hs : v.size < 2 ^ 63) (h : v.encode key = .ok bs) :
    IsFrame v.spec (key.map Key4.toBytes) bs ∧ (8 ≤ v.opcode.toNat → v.payload.length ≤ 125) := by
  rw [encode_eq] at h
  cases hw : writeHeader (v.header key) with
  | err e => rw [hw] at h; simp [Res.bind] at h
  | panic e => rw [hw] at h; simp [Res.bind] at h
  | ok hdr =>
    rw [hw] at h
    simp only [Res.bind, Res.ok.injEq] at h
    obtain ⟨h16, hc, b0, b1, l7, ext, rfl, hb0, hb1, hl⟩ := writeHeader_ok hs hw
    rw [hv.writes_eq] at h
    refine ⟨⟨b0, b1, l7, ext, _, h.symm, h16, hb0, by simpa using hb1, ?_, ?_, ?_⟩, ?_⟩
    · simpa [FrameView.spec, ← hv.size_eq] using hl
    · rintro k hk
      rw [Option.map_eq_some_iff] at hk
      obtain ⟨k', -, rfl⟩ := hk; rfl
    · cases key with
      | none => simp [Masked, FrameView.spec, maskOpt]
      | some k => exact (masked_iff k _ _).mpr rfl
    · intro h8; rw [← hv.size_eq]; exact hc h8

theorem encode_err_iff {v : FrameView} (key : Option Key4) :
    (∃ e, v.encode key = .err e) ↔ (v.opcode.toNat > 15 ∨ (8 ≤ v.opcode.toNat ∧ 126 ≤ v.size)) := by
  have h15 : (0xF : UInt8).toNat = 15 := rfl
  have h8 : (8 : UInt8).toNat = 8 := rfl
  rw [encode_eq]
  unfold writeHeader FrameView.header
  simp only [gt_iff_lt, ge_iff_le, u8_lt_iff, u8_le_iff, h15, h8]
  split
  · simp [Res.bind]; omega
  · split
    · simp [Res.bind]; omega
    · simp [Res.bind]; omega

theorem encode_not_panic {v : FrameView} (key : Option Key4) : (v.encode key).isPanic = false := by
  rw [encode_eq]
  unfold writeHeader
  split
  · simp [Res.bind]
  · split <;> simp [Res.bind]

theorem DataFrame.lawful (f : DataFrame) : f.view.Lawful := ⟨rfl, by simp [DataFrame.view]⟩

end WS
