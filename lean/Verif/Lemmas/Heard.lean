import Verif.Lemmas.Script
import Verif.Props.Message
import Verif.Spec.Heard
import Verif.Model.Framed
/-! Receivers deliver only what the bytes carry: one frame, one call, many calls. -/

namespace WS
open Spec (IsFrame ControlOk Wire Delivers Allowed FitsLoosely Carried)

theorem wire_join {masked fs gs as bs} (h : Wire masked fs as) (g : Wire masked gs bs) : Wire masked (fs ++ gs) (as ++ bs) := by
  induction h with
  | nil => exact g
  | cons h hk _ ih => rw [List.append_assoc]; exact .cons h hk ih

theorem delivers_trans {fits : List Spec.Frame → Prop} {held fs ms held₁ gs ns held'}
    (h1 : Delivers fits held fs ms held₁) (h2 : Delivers fits held₁ gs ns held') :
    Delivers fits held (fs ++ gs) (ms ++ ns) held' := by
  induction h1 with
  | nil => exact h2
  | control a b c _ ih => exact .control a b c (ih h2)
  | part a b c _ ih => exact .part a b c (ih h2)
  | final a b c _ ih => exact .final a b c (ih h2)

theorem carried_nil {masked maxDf maxMsg held} : Carried masked maxDf maxMsg held [] [] held :=
  ⟨[], .nil, by simp, .nil⟩

theorem carried_trans {masked maxDf maxMsg held as ms held₁ bs ns held'} (h : Carried masked maxDf maxMsg held as ms held₁)
    (g : Carried masked maxDf maxMsg held₁ bs ns held') : Carried masked maxDf maxMsg held (as ++ bs) (ms ++ ns) held' := by
  obtain ⟨fs, h1, h2, h3⟩ := h
  obtain ⟨gs, g1, g2, g3⟩ := g
  refine ⟨fs ++ gs, wire_join h1 g1, ?_, delivers_trans h3 g3⟩
  intro f hf
  rcases List.mem_append.mp hf with hf | hf
  · exact h2 f hf
  · exact g2 f hf

/-- A step that is right about single frames. -/
structure StepSound (step : List DataFrame → Nat → DataFrame → Step) (maxMsg : Nat) : Prop where
  msg : ∀ b cur f fs b' m, ControlOk f.spec → step b cur f = .msg fs b' → OwnedMsg.fromDataframes (fs.map DataFrame.view) = .ok m →
    Delivers (FitsLoosely maxMsg) (specs b) [f.spec] [m.spec] (specs b')
  next : ∀ b cur f b' cur', ControlOk f.spec → heldLen b ≤ cur → step b cur f = .next b' cur' →
    Delivers (FitsLoosely maxMsg) (specs b) [f.spec] [] (specs b') ∧ heldLen b' ≤ cur'

theorem assembles_specs {fs : List DataFrame} {m : OwnedMsg} (h : OwnedMsg.fromDataframes (fs.map DataFrame.view) = .ok m) :
    Spec.Assembles ((specs fs).map Spec.Frame.fragment) m.spec := by
  rw [specs_fragments]; exact OwnedMsg.fromDataframes_assembles h

theorem loosely {maxMsg : Nat} {b : List DataFrame} (h : b.length < 2 ^ 20) (g : b.length = 1 ∨ heldLen b + 64 ≤ maxMsg) :
    FitsLoosely maxMsg (specs b) := by
  refine ⟨by simpa [specs] using h, ?_⟩
  rcases g with g | g
  · exact .inl (by simpa [specs] using g)
  · right
    have : ((specs b).map fun f => f.payload.length).sum = heldLen b := by
      simp [specs, heldLen, Function.comp_def, DataFrame.spec]
    rw [this]; exact g

theorem small_control {f : DataFrame} (h : ControlOk f.spec) (h8 : 8 ≤ f.spec.opcode) : f.finished = true := (h h8).2

theorem not_small {f : DataFrame} (h : ¬ (f.opcode.toU8 ≥ 8 ∧ f.opcode.toU8 ≤ 15)) : f.spec.opcode < 8 := by
  have h16 := opcode_toU8_lt f.opcode
  show f.opcode.toU8.toNat < 8
  apply Classical.byContradiction
  intro hn
  exact h ⟨UInt8.le_iff_toNat_le.mpr (by simp; omega), UInt8.le_iff_toNat_le.mpr (by simp; omega)⟩

theorem opcode_zero {f : DataFrame} (h : f.opcode ≠ .continuation) : f.spec.opcode ≠ 0 := by
  intro h0
  apply h
  have : f.opcode.toU8.toNat = 0 := h0
  cases ho : f.opcode <;> rw [ho] at this <;> first | rfl | (exfalso; revert this; decide)

theorem deliver_control {fits : List Spec.Frame → Prop} {b : List DataFrame} {f : DataFrame} {m : OwnedMsg} (hc : ControlOk f.spec)
    (h8 : 8 ≤ f.spec.opcode) (hm : OwnedMsg.fromDataframes ([f].map DataFrame.view) = .ok m) :
    Delivers fits (specs b) [f.spec] [m.spec] (specs b) :=
  .control h8 hc (by simpa [specs] using assembles_specs hm) .nil

theorem deliver_final {fits : List Spec.Frame → Prop} {b : List DataFrame} {f : DataFrame} {m : OwnedMsg} (ha : Allowed (specs b) f.spec)
    (hf : f.finished = true) (hm : OwnedMsg.fromDataframes ((b ++ [f]).map DataFrame.view) = .ok m) :
    Delivers fits (specs b) [f.spec] [m.spec] (specs []) :=
  .final ha hf (by have := assembles_specs hm; rwa [specs_append] at this) .nil

theorem deliver_part {fits : List Spec.Frame → Prop} {b : List DataFrame} {f : DataFrame} (ha : Allowed (specs b) f.spec)
    (hf : ¬ f.finished = true) (hfit : fits (specs (b ++ [f]))) : Delivers fits (specs b) [f.spec] [] (specs (b ++ [f])) := by
  refine .part ha (by simpa [DataFrame.spec] using hf) (by rwa [specs_append] at hfit) ?_
  rw [specs_append]; exact .nil

theorem syncStep_sound (maxMsg : Nat) : StepSound (syncStep maxMsg) maxMsg where
  msg := by
    intro b cur f fs b' m hc hs hm
    unfold syncStep at hs
    by_cases hb : b = []
    · subst hb
      rw [if_pos rfl] at hs
      by_cases h0 : f.opcode = .continuation
      · rw [if_pos h0] at hs; cases hs
      rw [if_neg h0] at hs
      by_cases hf : f.finished = true
      · rw [if_pos hf] at hs
        simp only [Step.msg.injEq] at hs
        obtain ⟨rfl, rfl⟩ := hs
        by_cases h8 : 8 ≤ f.spec.opcode
        · exact deliver_control hc h8 hm
        · exact deliver_final (.inl ⟨rfl, opcode_zero h0, by omega⟩) hf hm
      · rw [if_neg hf] at hs; cases hs
    · rw [if_neg hb] at hs
      by_cases h0 : f.opcode.toU8 = 0
      · rw [if_pos h0] at hs
        by_cases hf : f.finished = true
        · rw [if_pos hf] at hs
          simp only [Step.msg.injEq] at hs
          obtain ⟨rfl, rfl⟩ := hs
          exact deliver_final (.inr ⟨fun h => hb (specs_nil.mp h), by simp [DataFrame.spec, h0]⟩) hf hm
        · rw [if_neg hf] at hs
          repeat' split at hs
          all_goals cases hs
      · rw [if_neg h0] at hs
        split at hs
        · next h8 =>
          simp only [Step.msg.injEq] at hs
          obtain ⟨rfl, rfl⟩ := hs
          exact deliver_control hc (UInt8.le_iff_toNat_le.mp h8.1) hm
        · cases hs
  next := by
    intro b cur f b' cur' hc hcur hs
    unfold syncStep at hs
    by_cases hb : b = []
    · subst hb
      rw [if_pos rfl] at hs
      by_cases h0 : f.opcode = .continuation
      · rw [if_pos h0] at hs; cases hs
      rw [if_neg h0] at hs
      by_cases hf : f.finished = true
      · rw [if_pos hf] at hs; cases hs
      · rw [if_neg hf] at hs
        simp only [Step.next.injEq] at hs
        obtain ⟨rfl, rfl⟩ := hs
        have h8 : f.spec.opcode < 8 := by
          apply Classical.byContradiction; intro h; exact hf (small_control hc (by omega))
        refine ⟨deliver_part (b := []) (.inl ⟨rfl, opcode_zero h0, h8⟩) hf (loosely (by simp) (.inl rfl)), ?_⟩
        rw [heldLen_single]; omega
    · rw [if_neg hb] at hs
      by_cases h0 : f.opcode.toU8 = 0
      · rw [if_pos h0] at hs
        by_cases hf : f.finished = true
        · rw [if_pos hf] at hs; cases hs
        · rw [if_neg hf] at hs
          split at hs
          · cases hs
          · next h1 =>
            split at hs
            · cases hs
            · next h2 =>
              simp only [Step.next.injEq] at hs
              obtain ⟨rfl, rfl⟩ := hs
              simp only [maxFrames, overhead] at h1 h2
              have e : heldLen (b ++ [f]) = heldLen b + f.data.length := by rw [heldLen_append, heldLen_single]
              refine ⟨deliver_part (.inr ⟨fun h => hb (specs_nil.mp h), by simp [DataFrame.spec, h0]⟩) hf
                (loosely (by omega) (.inr (by omega))), by simp only [overhead]; omega⟩
      · rw [if_neg h0] at hs
        split at hs <;> cases hs

theorem async_allowed {b : List DataFrame} {f : DataFrame} (h1 : ¬ (f.opcode.toU8 = 0 ∧ b = [])) (h8 : ¬ (8 ≤ f.opcode.toU8 ∧ f.opcode.toU8 ≤ 15))
    (h2 : ¬ (1 ≤ f.opcode.toU8 ∧ f.opcode.toU8 ≤ 7 ∧ b ≠ [])) : Allowed (specs b) f.spec := by
  have hs := not_small (f := f) h8
  by_cases hb : b = []
  · refine .inl ⟨specs_nil.mpr hb, ?_, hs⟩
    intro h0
    exact h1 ⟨u8_eq_of_toNat h0, hb⟩
  · refine .inr ⟨fun h => hb (specs_nil.mp h), ?_⟩
    apply Classical.byContradiction
    intro h0
    have hs : f.opcode.toU8.toNat < 8 := hs
    have h0 : f.opcode.toU8.toNat ≠ 0 := h0
    exact h2 ⟨UInt8.le_iff_toNat_le.mpr (by simp; omega), UInt8.le_iff_toNat_le.mpr (by simp; omega), hb⟩

theorem asyncStep_sound (maxMsg : Nat) : StepSound (asyncStep maxMsg) maxMsg where
  msg := by
    intro b cur f fs b' m hc hs hm
    unfold asyncStep at hs
    split at hs
    · cases hs
    next h1 =>
    split at hs
    · next h8 =>
      simp only [Step.msg.injEq] at hs
      obtain ⟨rfl, rfl⟩ := hs
      exact deliver_control hc (UInt8.le_iff_toNat_le.mp h8.1) hm
    next h8 =>
    split at hs
    · cases hs
    next h2 =>
    split at hs
    · next hf =>
      simp only [Step.msg.injEq] at hs
      obtain ⟨rfl, rfl⟩ := hs
      exact deliver_final (async_allowed h1 h8 h2) hf hm
    repeat' split at hs
    all_goals cases hs
  next := by
    intro b cur f b' cur' hc hcur hs
    unfold asyncStep at hs
    split at hs
    · cases hs
    next h1 =>
    split at hs
    · cases hs
    next h8 =>
    split at hs
    · cases hs
    next h2 =>
    split at hs
    · cases hs
    next hf =>
    split at hs
    · cases hs
    next h3 =>
    split at hs
    · cases hs
    next h4 =>
    simp only [Step.next.injEq] at hs
    obtain ⟨rfl, rfl⟩ := hs
    simp only [maxFrames, overhead] at h3 h4
    have e : heldLen (b ++ [f]) = heldLen b + f.data.length := by rw [heldLen_append, heldLen_single]
    exact ⟨deliver_part (async_allowed h1 h8 h2) hf (loosely (by omega) (.inr (by omega))), by simp only [overhead]; omega⟩

theorem carried_one {masked : Bool} {maxDf maxMsg : Nat} {held held' : List Spec.Frame} {f : DataFrame} {ms : List Spec.Message} {key : Option Key4} {pre : Bytes}
    (hk : key.isSome = masked) (hf : IsFrame f.spec (key.map Key4.toBytes) pre) (hl : f.data.length ≤ maxDf) (hc : ControlOk f.spec)
    (hd : Delivers (FitsLoosely maxMsg) held [f.spec] ms held') : Carried masked maxDf maxMsg held pre ms held' := by
  refine ⟨[f.spec], ?_, ?_, hd⟩
  · have := Wire.cons hf (by simpa using hk) (.nil : Wire masked [] [])
    simpa using this
  · intro g hg
    rw [List.mem_singleton] at hg
    subst hg
    exact ⟨hl, hc⟩

/-- One call of the blocking receiver that succeeds, on any transport. -/
theorem sLoop_sound (r : Receiver) (hr : r.maxDf ≤ u32Max) (cur : Nat) (s : Src) (hcur : heldLen r.buffer ≤ cur) {fs : List DataFrame}
    {r' : Receiver} {s' : Src} (h : sLoop r cur s = (.ok fs, r', s')) {m : OwnedMsg}
    (hm : OwnedMsg.fromDataframes (fs.map DataFrame.view) = .ok m) :
    ∃ bs, s.flat = bs ++ s'.flat ∧ Carried r.mask r.maxDf r.maxMsg (specs r.buffer) bs [m.spec] (specs r'.buffer) ∧
      r' = { r with buffer := r'.buffer } := by
  fun_induction sLoop r cur s with
  | case1 r cur s f s1 hf fs1 b hs =>
    simp only [Prod.mk.injEq, Res.ok.injEq] at h
    obtain ⟨rfl, rfl, rfl⟩ := h
    have hp := sound_frame r.mask r.maxDf (.io .invalidData) s s1 f hf
    obtain ⟨h1, h2, key, pre, h3, h4, h5⟩ := (parseFrame_ok_iff (Nat.lt_of_le_of_lt hr (by decide))).mp hp
    exact ⟨pre, h3, carried_one h4 h5 h1 h2 ((syncStep_sound r.maxMsg).msg _ _ _ _ _ _ h2 hs hm), rfl⟩
  | case2 => simp at h
  | case3 r cur s f s1 hf b cur' hs ih =>
    have hp := sound_frame r.mask r.maxDf (.io .invalidData) s s1 f hf
    obtain ⟨h1, h2, key, pre, h3, h4, h5⟩ := (parseFrame_ok_iff (Nat.lt_of_le_of_lt hr (by decide))).mp hp
    obtain ⟨d1, d2⟩ := (syncStep_sound r.maxMsg).next _ _ _ _ _ h2 hcur hs
    obtain ⟨bs, g1, g2, g3⟩ := ih hr d2 h
    refine ⟨pre ++ bs, by rw [h3, g1, List.append_assoc], carried_trans (carried_one h4 h5 h1 h2 d1) g2, g3⟩
  | case4 => simp at h
  | case5 => simp at h

theorem recvMessage_sound (r : Receiver) (hr : r.maxDf ≤ u32Max) (s : Src) {m : OwnedMsg} {r' : Receiver} {s' : Src}
    (h : r.recvMessage s = (.ok m, r', s')) :
    ∃ bs, s.flat = bs ++ s'.flat ∧ Carried r.mask r.maxDf r.maxMsg (specs r.buffer) bs [m.spec] (specs r'.buffer) ∧
      r' = { r with buffer := r'.buffer } := by
  unfold Receiver.recvMessage at h
  rw [recvMessageDataframes_eq] at h
  split at h
  · next fs r1 s1 hx =>
    simp only [Prod.mk.injEq] at h
    obtain ⟨hm, rfl, rfl⟩ := h
    exact sLoop_sound r hr _ s (Nat.le_refl _) hx hm
  · simp at h
  · simp at h

theorem recvMany_sound (n : Nat) (r : Receiver) (hr : r.maxDf ≤ u32Max) (s : Src) {oms : List OwnedMsg} {r' : Receiver} {s' : Src}
    (h : r.recvMany n s = (oms.map Res.ok, r', s')) :
    ∃ bs, s.flat = bs ++ s'.flat ∧ Carried r.mask r.maxDf r.maxMsg (specs r.buffer) bs (oms.map OwnedMsg.spec) (specs r'.buffer) ∧
      r' = { r with buffer := r'.buffer } := by
  induction n generalizing r s oms with
  | zero =>
    simp only [Receiver.recvMany, Prod.mk.injEq] at h
    obtain ⟨h1, rfl, rfl⟩ := h
    have : oms = [] := by simpa using h1.symm
    subst this
    exact ⟨[], rfl, carried_nil, rfl⟩
  | succ n ih =>
    simp only [Receiver.recvMany, Prod.mk.injEq] at h
    obtain ⟨h1, h2, h3⟩ := h
    cases oms with
    | nil => simp at h1
    | cons m oms =>
      simp only [List.map_cons, List.cons.injEq] at h1
      obtain ⟨bs, g1, g2, g3⟩ := recvMessage_sound r hr s (m := m) (Prod.ext h1.1 rfl)
      have hr' : (r.recvMessage s).2.1.maxDf ≤ u32Max := by rw [g3]; exact hr
      obtain ⟨bs', k1, k2, k3⟩ := ih _ hr' _ (oms := oms) (Prod.ext h1.2 (Prod.ext h2 h3))
      rw [g3] at k2 k3
      simp only at k2 k3
      exact ⟨bs ++ bs', by rw [g1, k1, List.append_assoc], carried_trans g2 k2, k3⟩

/-! ## The async codec -/

theorem pLoop_sound {c : Cfg} {maxMsg : Nat} (hc : StepSound c.step maxMsg) (hlim : c.lim < 2 ^ 63) (b : List DataFrame) (cur : Nat) (bs : Bytes)
    (hcur : heldLen b ≤ cur) :
    match pLoop c b cur bs with
    | .msg fs b' rest => ∀ m, OwnedMsg.fromDataframes (fs.map DataFrame.view) = .ok m →
        ∃ pre, bs = pre ++ rest ∧ Carried c.masked c.lim maxMsg (specs b) pre [m.spec] (specs b')
    | .fail .. => True
    | .bad _ b' start _ => ∃ pre, bs = pre ++ start ∧ Carried c.masked c.lim maxMsg (specs b) pre [] (specs b')
    | .more b' _ left => ∃ pre, bs = pre ++ left ∧ Carried c.masked c.lim maxMsg (specs b) pre [] (specs b') := by
  fun_induction pLoop c b cur bs with
  | case1 b cur bs f rest h fs b' hs =>
    intro m hm
    obtain ⟨h1, h2, key, pre, h3, h4, h5⟩ := (parseFrame_ok_iff hlim).mp h
    exact ⟨pre, h3, carried_one h4 h5 h1 h2 (hc.msg _ _ _ _ _ _ h2 hs hm)⟩
  | case2 => trivial
  | case3 b cur bs f rest h b' cur' hs ih =>
    obtain ⟨h1, h2, key, pre, h3, h4, h5⟩ := (parseFrame_ok_iff hlim).mp h
    obtain ⟨d1, d2⟩ := hc.next _ _ _ _ _ h2 hcur hs
    have ih := ih d2
    have one := carried_one h4 h5 h1 h2 d1
    split at ih
    · intro m hm
      obtain ⟨p, e, g⟩ := ih m hm
      exact ⟨pre ++ p, by rw [h3, e, List.append_assoc], carried_trans one g⟩
    · trivial
    · obtain ⟨p, e, g⟩ := ih
      exact ⟨pre ++ p, by rw [h3, e, List.append_assoc], carried_trans one g⟩
    · obtain ⟨p, e, g⟩ := ih
      exact ⟨pre ++ p, by rw [h3, e, List.append_assoc], carried_trans one g⟩
  | case4 b cur bs e rest h => exact ⟨[], rfl, carried_nil⟩
  | case5 b cur bs h => exact ⟨[], rfl, carried_nil⟩

theorem fromDataframes_not_io {fs : List FrameView} {k : IoKind} (h : OwnedMsg.fromDataframes fs = .err (.io k)) : False := by
  have collect : ∀ (first : Bool) (data : Bytes) (gs : List FrameView), collectFrames first data gs ≠ .err (.io k) := by
    intro first data gs
    induction gs generalizing first data with
    | nil => simp [collectFrames]
    | cons f gs ih =>
      unfold collectFrames
      split
      · simp
      · split
        · simp
        · exact ih _ _
  unfold OwnedMsg.fromDataframes at h
  cases hm : Msg.fromDataframes fs with
  | ok m => rw [hm] at h; cases h
  | panic e => rw [hm] at h; cases h
  | err e =>
    rw [hm] at h
    have h : e = .io k := by cases h; rfl
    subst h
    unfold Msg.fromDataframes at hm
    split at hm
    · cases hm
    · next first rest =>
      simp only at hm
      split at hm
      · cases hm
      · cases hc : collectFrames true [] (first :: rest) with
        | err e =>
          rw [hc] at hm
          have : e = .io k := by cases hm; rfl
          subst this
          exact collect _ _ _ hc
        | panic e => rw [hc] at hm; cases hm
        | ok data =>
          rw [hc] at hm
          have hm : (match Opcode.new first.opcode with
            | some .text => if utf8Valid data then Res.ok ⟨.text, none, data⟩ else .err .utf8
            | some .binary => .ok (Msg.binary data)
            | some .close =>
              if data = [] then .ok Msg.closeEmpty
              else
                if data.length < 2 then .err (.ofIo .unexpectedEof)
                else if 2 > data.length then .panic "range start index out of range"
                else if utf8Valid (data.drop 2) then
                  .ok (Msg.closeBecause (UInt16.ofNat (beNat (data.take 2))) (data.drop 2))
                else .err .utf8
            | some .ping => .ok (Msg.ping data)
            | some .pong => .ok (Msg.pong data)
            | _ => .err (.protocol "Unsupported opcode received") : Res Msg) = .err (.io k) := hm
          repeat' split at hm
          all_goals cases hm

theorem asyncStep_fail_not_io {maxMsg : Nat} {b b' : List DataFrame} {cur : Nat} {f : DataFrame} {k : IoKind}
    (h : asyncStep maxMsg b cur f = .fail (.io k) b') : False := by
  unfold asyncStep at h
  repeat' split at h
  all_goals cases h

theorem pLoop_fail_not_io {c : MsgCodec} {b b' : List DataFrame} {cur : Nat} {bs rest : Bytes} {k : IoKind}
    (h : pLoop c.cfg b cur bs = .fail (.io k) b' rest) : False := by
  generalize hg : c.cfg = g at h
  fun_induction pLoop g b cur bs with
  | case2 b cur bs f rest hp e b1 hs =>
    subst hg
    simp only [POut.fail.injEq] at h
    obtain ⟨rfl, -, -⟩ := h
    exact asyncStep_fail_not_io (show asyncStep c.maxMsg b cur f = .fail (.io k) b1 from hs)
  | case3 b cur bs f rest hp b1 cur1 hs ih => exact ih h
  | _ => cases h

/-- The decoder, one call. -/
theorem decode_sound (c : MsgCodec) (hc : c.df.maxDf ≤ u32Max) (src : Bytes) :
    ((c.decode src).2.1 = { c with buffer := (c.decode src).2.1.buffer }) ∧
    (∀ ms : List OwnedMsg, ((c.decode src).1 = .ok none ∧ ms = [] ∨ (∃ m, (c.decode src).1 = .ok (some m) ∧ ms = [m]) ∨ ∃ k, (c.decode src).1 = .err (.io k) ∧ ms = []) →
      ∃ pre, src = pre ++ (c.decode src).2.2 ∧
        Carried c.df.isServer c.df.maxDf c.maxMsg (specs c.buffer) pre (ms.map OwnedMsg.spec) (specs (c.decode src).2.1.buffer)) := by
  rw [MsgCodec.decode_eq c hc]
  have hs := pLoop_sound (c := c.cfg) (maxMsg := c.maxMsg) (asyncStep_sound c.maxMsg) (Nat.lt_of_le_of_lt hc (by decide)) c.buffer
    (heldLen c.buffer) src (Nat.le_refl _)
  cases hp : pLoop c.cfg c.buffer (heldLen c.buffer) src with
  | msg fs b rest =>
    rw [hp] at hs
    refine ⟨rfl, ?_⟩
    intro ms h
    simp only at h hs ⊢
    unfold asyncOut at h
    cases hm : OwnedMsg.fromDataframes (fs.map DataFrame.view) with
    | ok m =>
      rw [hm] at h
      rcases h with ⟨h, -⟩ | ⟨m', h, rfl⟩ | ⟨k, h, -⟩
      · cases h
      · cases h
        exact hs m hm
      · cases h
    | err e =>
      rw [hm] at h
      rcases h with ⟨h, -⟩ | ⟨m', h, rfl⟩ | ⟨k, h, -⟩
      · cases h
      · cases h
      · cases h
        exact (fromDataframes_not_io hm).elim
    | panic e =>
      rw [hm] at h
      rcases h with ⟨h, -⟩ | ⟨m', h, rfl⟩ | ⟨k, h, -⟩ <;> cases h
  | fail e b rest =>
    refine ⟨rfl, ?_⟩
    intro ms h
    simp only at h
    rcases h with ⟨h, -⟩ | ⟨m', h, rfl⟩ | ⟨k, h, -⟩
    · cases h
    · cases h
    · cases h
      exact (pLoop_fail_not_io hp).elim
  | bad e b start rest =>
    rw [hp] at hs
    refine ⟨rfl, ?_⟩
    intro ms h
    simp only at h hs ⊢
    rcases h with ⟨h, -⟩ | ⟨m', h, rfl⟩ | ⟨k, h, rfl⟩
    · cases h
    · cases h
    · cases h
      rw [if_neg (by cases c.df.isServer <;> simp [maskErr])]
      exact hs
  | more b cur left =>
    rw [hp] at hs
    refine ⟨rfl, ?_⟩
    intro ms h
    simp only at h hs ⊢
    rcases h with ⟨h, rfl⟩ | ⟨m', h, rfl⟩ | ⟨k, h, -⟩
    · exact hs
    · cases h
    · cases h

/-- What a poll hands out, if it is not an error of the decoder. -/
def Item.clean : Item OwnedMsg → Option (List OwnedMsg)
  | .item m => some [m]
  | .done => some []
  | .err (.io _) => some []
  | _ => none

/-- From one state of stream and transport to a later one, these messages having been handed out. -/
structure Carries (lim maxMsg : Nat) (isServer : Bool) (fr : Framed MsgCodec) (s : Src) (ms : List OwnedMsg) (fr' : Framed MsgCodec) (s' : Src) : Prop where
  codec : fr'.codec = { fr.codec with buffer := fr'.codec.buffer }
  bytes : ∃ bs, fr.buf ++ s.flat = bs ++ (fr'.buf ++ s'.flat) ∧
    Carried isServer lim maxMsg (specs fr.codec.buffer) bs (ms.map OwnedMsg.spec) (specs fr'.codec.buffer)

theorem Carries.refl {lim maxMsg isServer} (fr : Framed MsgCodec) (s : Src) : Carries lim maxMsg isServer fr s [] fr s :=
  ⟨rfl, [], rfl, carried_nil⟩

theorem Carries.trans {lim maxMsg isServer} {fr fr₁ fr' : Framed MsgCodec} {s s₁ s' : Src} {ms ns : List OwnedMsg}
    (h : Carries lim maxMsg isServer fr s ms fr₁ s₁) (g : Carries lim maxMsg isServer fr₁ s₁ ns fr' s') :
    Carries lim maxMsg isServer fr s (ms ++ ns) fr' s' := by
  obtain ⟨h1, bs, h2, h3⟩ := h
  obtain ⟨g1, bs', g2, g3⟩ := g
  refine ⟨?_, bs ++ bs', by rw [h2, g2, List.append_assoc], ?_⟩
  · rw [g1, h1]
  · rw [List.map_append]; exact carried_trans h3 g3

/-- Same bytes in another place. -/
theorem Carries.move {lim maxMsg isServer} {fr fr₁ fr' : Framed MsgCodec} {s s₁ s' : Src} {ms : List OwnedMsg}
    (hc : fr₁.codec = fr.codec) (hb : fr₁.buf ++ s₁.flat = fr.buf ++ s.flat) (g : Carries lim maxMsg isServer fr₁ s₁ ms fr' s') :
    Carries lim maxMsg isServer fr s ms fr' s' := by
  obtain ⟨g1, bs', g2, g3⟩ := g
  rw [hc] at g1 g3
  rw [hb] at g2
  exact ⟨g1, bs', g2, g3⟩

/-- One call of the decoder inside a poll. -/
theorem carries_decode {c c' : MsgCodec} (hc : c.df.maxDf ≤ u32Max) {src rest : Bytes} {res : Res (Option OwnedMsg)} (h : msgDecoder c src = (res, c', rest))
    {ms : List OwnedMsg} (hm : res = .ok none ∧ ms = [] ∨ (∃ m, res = .ok (some m) ∧ ms = [m]) ∨ ∃ k, res = .err (.io k) ∧ ms = [])
    (fr fr' : Framed MsgCodec) (s s' : Src) (h1 : fr.codec = c) (h2 : fr'.codec = c') (hb : fr.buf ++ s.flat = src ++ s'.flat) (hb' : fr'.buf = rest) :
    Carries c.df.maxDf c.maxMsg c.df.isServer fr s ms fr' s' := by
  have h : c.decode src = (res, c', rest) := h
  obtain ⟨d1, d2⟩ := decode_sound c hc src
  rw [h] at d1 d2
  obtain ⟨pre, e1, e2⟩ := d2 ms hm
  simp only at d1 e1 e2
  refine ⟨by rw [h1, h2]; exact d1, pre, ?_, by rw [h1, h2]; exact e2⟩
  rw [hb, e1, hb', List.append_assoc]

theorem pollEof_sound (fr : Framed MsgCodec) (hc : fr.codec.df.maxDf ≤ u32Max) {x : Item OwnedMsg} {fr' : Framed MsgCodec}
    (h : Framed.pollEof msgDecoder fr = (x, fr')) {ms : List OwnedMsg} (hx : x.clean = some ms) (s : Src) :
    Carries fr.codec.df.maxDf fr.codec.maxMsg fr.codec.df.isServer fr s ms fr' s := by
  unfold Framed.pollEof at h
  split at h
  · next a c b hd =>
    cases h
    cases hx
    exact carries_decode hc hd (.inr (.inl ⟨a, rfl, rfl⟩)) _ _ _ _ rfl rfl rfl rfl
  · next c b hd =>
    simp only [Prod.mk.injEq] at h
    obtain ⟨h1, rfl⟩ := h
    have : ms = [] := by
      split at h1 <;> subst h1 <;> simp only [Item.clean, bytesRemaining, Option.some.injEq] at hx <;> exact hx.symm
    subst this
    exact carries_decode hc hd (.inl ⟨rfl, rfl⟩) _ _ _ _ rfl rfl rfl rfl
  · next e c b hd =>
    cases h
    cases e with
    | io k => cases hx; exact carries_decode hc hd (.inr (.inr ⟨k, rfl, rfl⟩)) _ _ _ _ rfl rfl rfl rfl
    | _ => cases hx
  · cases h; cases hx

theorem pollRead_sound (s : Src) (fr : Framed MsgCodec) (hc : fr.codec.df.maxDf ≤ u32Max) {p : Poll OwnedMsg} {fr' : Framed MsgCodec} {s' : Src}
    (h : Framed.pollRead msgDecoder fr s = (p, fr', s')) {ms : List OwnedMsg}
    (hx : (∃ x, p = .ready x ∧ x.clean = some ms) ∨ p = .notReady ∧ ms = []) :
    Carries fr.codec.df.maxDf fr.codec.maxMsg fr.codec.df.isServer fr s ms fr' s' := by
  induction s generalizing fr with
  | nil =>
    unfold Framed.pollRead at h
    simp only [Prod.mk.injEq] at h
    obtain ⟨rfl, rfl, rfl⟩ := h
    rcases hx with ⟨x, h1, h2⟩ | ⟨h1, -⟩
    · cases h1
      exact Carries.move (fr₁ := { fr with eof := true, readable := true }) (s₁ := []) rfl rfl
            (pollEof_sound { fr with eof := true, readable := true } hc (fr' := (Framed.pollEof msgDecoder { fr with eof := true, readable := true }).2) rfl h2 [])
    · cases h1
  | cons e rest ih =>
    cases e with
    | error k =>
      unfold Framed.pollRead at h
      split at h
      · cases h
        rcases hx with ⟨x, h1, -⟩ | ⟨-, rfl⟩
        · cases h1
        · exact Carries.move (s₁ := s') rfl rfl (Carries.refl fr' s')
      · next hk =>
        cases h
        rcases hx with ⟨x, h1, h2⟩ | ⟨h1, -⟩
        · cases h1
          have : ms = [] := by
            cases k <;> simp only [WsErr.ofIo, Item.clean, Option.some.injEq, reduceCtorEq] at h2 <;> exact h2.symm
          subst this
          exact Carries.move (s₁ := s') rfl rfl (Carries.refl fr' s')
        · cases h1
    | chunk b =>
      unfold Framed.pollRead at h
      split at h
      · next hb =>
        subst hb
        simp only [Prod.mk.injEq] at h
        obtain ⟨rfl, rfl, rfl⟩ := h
        rcases hx with ⟨x, h1, h2⟩ | ⟨h1, -⟩
        · cases h1
          exact Carries.move (fr₁ := { fr with eof := true, readable := true }) (s₁ := rest) rfl rfl
            (pollEof_sound { fr with eof := true, readable := true } hc (fr' := (Framed.pollEof msgDecoder { fr with eof := true, readable := true }).2) rfl h2 rest)
        · cases h1
      · have hb : fr.buf ++ Src.flat (.chunk b :: rest) = (fr.buf ++ b) ++ Src.flat rest := by
          rw [List.append_assoc]; rfl
        split at h
        · next a c b' hd =>
          cases h
          rcases hx with ⟨x, h1, h2⟩ | ⟨h1, -⟩
          · cases h1; cases h2
            exact carries_decode hc hd (.inr (.inl ⟨a, rfl, rfl⟩)) _ _ _ _ rfl rfl hb rfl
          · cases h1
        · next c b' hd =>
          have one := carries_decode hc hd (.inl ⟨rfl, rfl⟩) fr { fr with codec := c, buf := b', readable := false } (.chunk b :: rest) rest rfl rfl hb rfl
          have hcod := one.codec
          simp only at hcod
          have two := ih { fr with codec := c, buf := b', readable := false } (by rw [hcod]; exact hc) h
          rw [hcod] at two
          rw [hcod] at one
          have := one.trans two
          simpa using this
        · next e c b' hd =>
          cases h
          rcases hx with ⟨x, h1, h2⟩ | ⟨h1, -⟩
          · cases h1
            cases e with
            | io k => cases h2; exact carries_decode hc hd (.inr (.inr ⟨k, rfl, rfl⟩)) _ _ _ _ rfl rfl hb rfl
            | _ => cases h2
          · cases h1
        · cases h
          rcases hx with ⟨x, h1, h2⟩ | ⟨h1, -⟩
          · cases h1; cases h2
          · cases h1

theorem poll_sound (s : Src) (fr : Framed MsgCodec) (hc : fr.codec.df.maxDf ≤ u32Max) {p : Poll OwnedMsg} {fr' : Framed MsgCodec} {s' : Src}
    (h : Framed.poll msgDecoder fr s = (p, fr', s')) {ms : List OwnedMsg}
    (hx : (∃ x, p = .ready x ∧ x.clean = some ms) ∨ p = .notReady ∧ ms = []) :
    Carries fr.codec.df.maxDf fr.codec.maxMsg fr.codec.df.isServer fr s ms fr' s' := by
  unfold Framed.poll at h
  split at h
  · split at h
    · simp only [Prod.mk.injEq] at h
      obtain ⟨rfl, rfl, rfl⟩ := h
      rcases hx with ⟨x, h1, h2⟩ | ⟨h1, -⟩
      · cases h1
        exact pollEof_sound fr hc (Prod.ext rfl rfl) h2 _
      · cases h1
    · split at h
      · next a c b' hd =>
        cases h
        rcases hx with ⟨x, h1, h2⟩ | ⟨h1, -⟩
        · cases h1; cases h2
          exact carries_decode hc hd (.inr (.inl ⟨a, rfl, rfl⟩)) _ _ _ _ rfl rfl rfl rfl
        · cases h1
      · next c b' hd =>
        have one := carries_decode hc hd (.inl ⟨rfl, rfl⟩) fr { fr with codec := c, buf := b', readable := false } s s rfl rfl rfl rfl
        have hcod := one.codec
        simp only at hcod
        have two := pollRead_sound s { fr with codec := c, buf := b', readable := false } (by rw [hcod]; exact hc) h hx
        rw [hcod] at two
        rw [hcod] at one
        have := one.trans two
        simpa using this
      · next e c b' hd =>
        cases h
        rcases hx with ⟨x, h1, h2⟩ | ⟨h1, -⟩
        · cases h1
          cases e with
          | io k => cases h2; exact carries_decode hc hd (.inr (.inr ⟨k, rfl, rfl⟩)) _ _ _ _ rfl rfl rfl rfl
          | _ => cases h2
        · cases h1
      · cases h
        rcases hx with ⟨x, h1, h2⟩ | ⟨h1, -⟩
        · cases h1; cases h2
        · cases h1
  · exact pollRead_sound s fr hc h hx

theorem next_sound (fr : Framed MsgCodec) (s : Src) (hc : fr.codec.df.maxDf ≤ u32Max) {x : Item OwnedMsg} {fr' : Framed MsgCodec} {s' : Src}
    (h : fr.next msgDecoder s = (x, fr', s')) {ms : List OwnedMsg} (hx : x.clean = some ms) :
    Carries fr.codec.df.maxDf fr.codec.maxMsg fr.codec.df.isServer fr s ms fr' s' := by
  fun_induction Framed.next msgDecoder fr s with
  | case1 fr s y fr₁ s₁ hp =>
    cases h
    exact poll_sound s fr hc hp (.inl ⟨_, rfl, hx⟩)
  | case2 fr s fr₁ s₁ hp ih =>
    have one := poll_sound s fr hc hp (ms := []) (.inr ⟨rfl, rfl⟩)
    have hcod := one.codec
    have two := ih (by rw [hcod]; exact hc) h
    have e : fr₁.codec.df = fr.codec.df ∧ fr₁.codec.maxMsg = fr.codec.maxMsg := by rw [hcod]; exact ⟨rfl, rfl⟩
    rw [e.1, e.2] at two
    exact one.trans two

/-- Everything handed out, in order. -/
def heardItems (xs : List (Item OwnedMsg)) : List OwnedMsg := (xs.filterMap Item.clean).flatten

theorem nextMany_sound (n : Nat) (fr : Framed MsgCodec) (s : Src) (hc : fr.codec.df.maxDf ≤ u32Max) {xs : List (Item OwnedMsg)} {fr' : Framed MsgCodec}
    {s' : Src} (h : fr.nextMany msgDecoder n s = (xs, fr', s')) (hx : ∀ x ∈ xs, x.clean ≠ none) :
    Carries fr.codec.df.maxDf fr.codec.maxMsg fr.codec.df.isServer fr s (heardItems xs) fr' s' := by
  induction n generalizing fr s xs with
  | zero =>
    simp only [Framed.nextMany] at h
    cases h
    exact .refl _ _
  | succ n ih =>
    simp only [Framed.nextMany, Prod.mk.injEq] at h
    obtain ⟨rfl, h2, h3⟩ := h
    cases hm : (fr.next msgDecoder s).1.clean with
    | none => exact absurd hm (hx _ (by simp))
    | some ms =>
      have one := next_sound fr s hc (Prod.ext rfl rfl) hm
      have hcod := one.codec
      have two := ih (fr.next msgDecoder s).2.1 (fr.next msgDecoder s).2.2 (by rw [hcod]; exact hc) (Prod.ext rfl (Prod.ext h2 h3))
        (fun x hxm => hx x (by simp [hxm]))
      have e : (fr.next msgDecoder s).2.1.codec.df = fr.codec.df ∧ (fr.next msgDecoder s).2.1.codec.maxMsg = fr.codec.maxMsg := by
        rw [hcod]; exact ⟨rfl, rfl⟩
      rw [e.1, e.2] at two
      have := one.trans two
      have e' : heardItems ((fr.next msgDecoder s).1 :: ((fr.next msgDecoder s).2.1.nextMany msgDecoder n (fr.next msgDecoder s).2.2).1) =
          ms ++ heardItems ((fr.next msgDecoder s).2.1.nextMany msgDecoder n (fr.next msgDecoder s).2.2).1 := by
        simp [heardItems, hm]
      rw [e']
      exact this

/-! ## The carried messages are determined by the bytes -/

theorem means_unique {n d m m'} (h : Spec.Means n d m) (g : Spec.Means n d m') : m = m' := by
  cases h <;> cases g <;> rfl

theorem assembles_unique {fs m m'} (h : Spec.Assembles fs m) (g : Spec.Assembles fs m') : m = m' := by
  obtain ⟨a, r, rfl, -, -, h⟩ := h
  obtain ⟨a', r', e, -, -, g⟩ := g
  cases e
  exact means_unique h g

theorem delivers_unique {fits : List Spec.Frame → Prop} {held fs ms held₁ ns held₂} (h : Delivers fits held fs ms held₁)
    (g : Delivers fits held fs ns held₂) : ms = ns ∧ held₁ = held₂ := by
  have clash : ∀ {held f}, 8 ≤ f.opcode → Allowed held f → False := by
    intro held f h8 ha
    rcases ha with ⟨_, _, h⟩ | ⟨_, h⟩ <;> omega
  induction h generalizing ns with
  | nil => cases g; exact ⟨rfl, rfl⟩
  | control hc hok hm _ ih =>
    cases g with
    | control _ _ hm' hr' => rw [assembles_unique hm hm', (ih hr').1, (ih hr').2]; exact ⟨rfl, rfl⟩
    | part ha => exact (clash hc ha).elim
    | final ha => exact (clash hc ha).elim
  | part ha hf _ _ ih =>
    cases g with
    | control hc => exact (clash hc ha).elim
    | part _ _ _ hr' => exact ih hr'
    | final _ hf' => rw [hf] at hf'; cases hf'
  | final ha hf hm _ ih =>
    cases g with
    | control hc => exact (clash hc ha).elim
    | part _ hf' => rw [hf] at hf'; cases hf'
    | final _ _ hm' hr' => rw [assembles_unique hm hm', (ih hr').1, (ih hr').2]; exact ⟨rfl, rfl⟩

theorem wire_unique {masked : Bool} {lim : Nat} (hlim : lim < 2 ^ 63) {fs gs : List Spec.Frame} {bs : Bytes} (h : Wire masked fs bs) (g : Wire masked gs bs)
    (hf : ∀ f ∈ fs, f.payload.length ≤ lim ∧ ControlOk f) (hg : ∀ f ∈ gs, f.payload.length ≤ lim ∧ ControlOk f) : fs = gs := by
  induction h generalizing gs with
  | nil =>
    generalize hb : ([] : Bytes) = bs at g
    cases g with
    | nil => rfl
    | cons h hk hr =>
      obtain ⟨b0, b1, l7, ext, body, h1, -⟩ := h
      rw [h1] at hb
      simp at hb
  | @cons f fs key bs rest h hk hr ih =>
    generalize hb : bs ++ rest = bs' at g
    cases g with
    | nil =>
      obtain ⟨b0, b1, l7, ext, body, h1, -⟩ := h
      rw [h1] at hb
      simp at hb
    | @cons f' fs' key' p rest' h' hk' hr' =>
      have a := hf f (by simp)
      have a' := hg f' (by simp)
      obtain ⟨d, rfl, h1⟩ := parseFrame_isFrame hlim (big := .noData) h hk a.2 a.1 rest
      obtain ⟨d', rfl, h2⟩ := parseFrame_isFrame hlim (big := .noData) h' hk' a'.2 a'.1 rest'
      rw [hb, h2] at h1
      simp only [PRes.ok.injEq] at h1
      obtain ⟨rfl, rfl⟩ := h1
      rw [ih hr' (fun f hm => hf f (by simp [hm])) (fun f hm => hg f (by simp [hm]))]

end WS
