import Verif.Lemmas.Limits
/-! The blocking receiver and the async codec in lockstep. -/

namespace WS

/-- The two message APIs name two conditions differently: a frame over the frame limit
(src/receiver.rs through websocket-base/src/dataframe.rs:105-108, websocket-base/src/codec/ws.rs:127-131) and the end
of the stream inside a frame. -/
inductive Spec.SameError : WsErr → WsErr → Prop
  | same (e : WsErr) : SameError e e
  | tooBig : SameError (.io .invalidData) (.protocol "Exceeded maximum incoming DataFrame size")
  | cutOff : SameError .noData (.io .other)

/-- Blocking results and async items tell the same story up to the first error. -/
inductive Spec.Agree : List (Res OwnedMsg) → List (Item OwnedMsg) → Prop
  | nil : Agree [] []
  | message (m : OwnedMsg) {xs ys} : Agree xs ys → Agree (.ok m :: xs) (.item m :: ys)
  | error {e e' : WsErr} (xs ys) : SameError e e' → Agree (.err e :: xs) (.err e' :: ys)
  | ended (xs ys) : Agree (.err .noData :: xs) (.done :: ys)

theorem parseFrame_big (m : Bool) (lim : Nat) (big1 big2 : WsErr) (bs : Bytes) :
    match parseFrame m lim big1 bs with
    | .ok f rest => parseFrame m lim big2 bs = .ok f rest
    | .err e rest => ∃ e', parseFrame m lim big2 bs = .err e' rest ∧ (e = e' ∨ (e = big1 ∧ e' = big2))
    | .more => parseFrame m lim big2 bs = .more := by
  unfold parseFrame
  simp only [Ps.bind_def]
  cases hh : parseHeader bs with
  | ok h rest =>
    simp only
    by_cases hl : h.len > lim
    · simp only [if_pos hl, Ps.fail]
      exact ⟨big2, rfl, .inr ⟨trivial, rfl⟩⟩
    · simp only [if_neg hl, Ps.bind_def]
      cases ht : Ps.take h.len rest with
      | ok d rest' =>
        simp only
        cases hb : bodyPs h d m rest' with
        | ok f r => rfl
        | err e r => exact ⟨e, rfl, .inl rfl⟩
        | more => rfl
      | err e r => exact ⟨e, rfl, .inl rfl⟩
      | more => rfl
  | err e rest => exact ⟨e, rfl, .inl rfl⟩
  | more => rfl

theorem step_agree (maxMsg : Nat) (b : List DataFrame) (cur : Nat) (f : DataFrame) (hc : Spec.ControlOk f.spec) :
    syncStep maxMsg b cur f = asyncStep maxMsg b cur f ∨
    (∃ b', syncStep maxMsg b cur f = .fail msgLimitErr b') ∨
    (∃ b', asyncStep maxMsg b cur f = .fail msgLimitErr b') := by
  by_cases h8 : 8 ≤ f.spec.opcode
  · obtain ⟨a1, a2, a3, a4⟩ := control_ranges h8
    obtain ⟨-, hfin⟩ := hc h8
    have hfin : f.finished = true := hfin
    left
    unfold syncStep asyncStep
    by_cases hb : b = []
    · simp [hb, a1, a2, a3, a4, hfin]
    · simp [hb, a2, a3, a4]
  · have hlt : ¬ 8 ≤ f.opcode.toU8 := fun h => h8 (by have := UInt8.le_iff_toNat_le.mp h; exact this)
    have hlt' : ¬ (8 ≤ f.opcode.toU8 ∧ f.opcode.toU8 ≤ 15) := fun h => hlt h.1
    by_cases h0 : f.opcode.toU8 = 0
    · have hcont : f.opcode = .continuation := by
        cases ho : f.opcode <;> rw [ho] at h0 <;> simp [Opcode.toU8] at h0 ⊢
      unfold syncStep asyncStep
      by_cases hb : b = []
      · left; simp [hb, hcont, Opcode.toU8]
      · have n1 : ¬ (f.opcode.toU8 = 0 ∧ b = []) := fun h => hb h.2
        have n2 : ¬ (1 ≤ f.opcode.toU8 ∧ f.opcode.toU8 ≤ 7 ∧ b ≠ []) := by
          rw [h0]; intro h; exact absurd h.1 (by decide)
        rw [if_neg hb, if_pos h0, if_neg n1, if_neg hlt', if_neg n2]
        by_cases c1 : f.finished = true
        · left; rw [if_pos c1, if_pos c1]
        · rw [if_neg c1, if_neg c1]
          by_cases c2 : (b ++ [f]).length ≥ maxFrames
          · left; rw [if_pos c2, if_pos c2]
          · rw [if_neg c2, if_neg c2]
            by_cases c3 : cur + (f.data.length + overhead) ≥ maxMsg
            · right; left; rw [if_pos c3]; exact ⟨_, rfl⟩
            · left; rw [if_neg c3, if_neg (by omega)]
    · have h17 : 1 ≤ f.opcode.toU8 ∧ f.opcode.toU8 ≤ 7 := by
        cases ho : f.opcode <;> rw [ho] at h0 hlt <;> simp [Opcode.toU8] at h0 hlt ⊢
      have hcont : f.opcode ≠ .continuation := fun h => h0 (by rw [h]; rfl)
      unfold syncStep asyncStep
      by_cases hb : b = []
      · subst hb
        have n1 : ¬ (f.opcode.toU8 = 0 ∧ ([] : List DataFrame) = []) := fun h => h0 h.1
        have n2 : ¬ (1 ≤ f.opcode.toU8 ∧ f.opcode.toU8 ≤ 7 ∧ ([] : List DataFrame) ≠ []) := fun h => h.2.2 rfl
        rw [if_pos rfl, if_neg hcont, if_neg n1, if_neg hlt', if_neg n2]
        by_cases c1 : f.finished = true
        · left; rw [if_pos c1, if_pos c1]; rfl
        · have n3 : ¬ ([] ++ [f]).length ≥ maxFrames := by simp [maxFrames]
          rw [if_neg c1, if_neg c1, if_neg n3]
          by_cases c3 : cur + (f.data.length + overhead) > maxMsg
          · right; right; rw [if_pos c3]; exact ⟨_, rfl⟩
          · left; rw [if_neg c3]; rfl
      · left
        have n1 : ¬ (f.opcode.toU8 = 0 ∧ b = []) := fun h => hb h.2
        have n2 : (1 ≤ f.opcode.toU8 ∧ f.opcode.toU8 ≤ 7 ∧ b ≠ []) := ⟨h17.1, h17.2, hb⟩
        have n3 : ¬ (f.opcode.toU8 ≥ 8 ∧ f.opcode.toU8 ≤ 15) := hlt'
        rw [if_neg hb, if_neg h0, if_neg n3, if_neg n1, if_neg hlt', if_pos n2]

/-- Outcomes of the two loops. -/
inductive OutAgree : POut → POut → Prop
  | msg (fs b rest) : OutAgree (.msg fs b rest) (.msg fs b rest)
  | fail (e b rest) : OutAgree (.fail e b rest) (.fail e b rest)
  | bad {e e'} (b start rest) : Spec.SameError e e' → OutAgree (.bad e b start rest) (.bad e' b start rest)
  | more (b cur left) : OutAgree (.more b cur left) (.more b cur left)
  | limitL (b rest o) : OutAgree (.fail msgLimitErr b rest) o
  | limitR (b rest o) : OutAgree o (.fail msgLimitErr b rest)

theorem pLoop_agree {maxMsg lim : Nat} (hlim : lim < 2 ^ 63) {masked : Bool} (b : List DataFrame) (cur : Nat) (bs : Bytes) :
    OutAgree (pLoop ⟨syncStep maxMsg, masked, lim, .io .invalidData⟩ b cur bs)
      (pLoop ⟨asyncStep maxMsg, masked, lim, bigErr⟩ b cur bs) := by
  generalize hcfg : (Cfg.mk (syncStep maxMsg) masked lim (.io .invalidData)) = c
  fun_induction pLoop c b cur bs with
  | case1 b cur bs f rest h fs b' hs =>
    subst hcfg
    have hb := parseFrame_big masked lim (.io .invalidData) bigErr bs
    rw [show parseFrame masked lim (.io .invalidData) bs = .ok f rest from h] at hb
    have hs : syncStep maxMsg b cur f = .msg fs b' := hs
    rw [pLoop_ok (c := ⟨asyncStep maxMsg, masked, lim, bigErr⟩) hb]
    rcases step_agree maxMsg b cur f ((parseFrame_ok_iff hlim).mp h).2.1 with g | ⟨b1, g⟩ | ⟨b1, g⟩
    · simp only [← g, hs]; exact .msg _ _ _
    · rw [hs] at g; cases g
    · simp only [g]; exact .limitR _ _ _
  | case2 b cur bs f rest h e b' hs =>
    subst hcfg
    have hb := parseFrame_big masked lim (.io .invalidData) bigErr bs
    rw [show parseFrame masked lim (.io .invalidData) bs = .ok f rest from h] at hb
    have hs : syncStep maxMsg b cur f = .fail e b' := hs
    rw [pLoop_ok (c := ⟨asyncStep maxMsg, masked, lim, bigErr⟩) hb]
    rcases step_agree maxMsg b cur f ((parseFrame_ok_iff hlim).mp h).2.1 with g | ⟨b1, g⟩ | ⟨b1, g⟩
    · simp only [← g, hs]; exact .fail _ _ _
    · rw [hs] at g; cases g; exact .limitL _ _ _
    · simp only [g]; exact .limitR _ _ _
  | case3 b cur bs f rest h b' cur' hs ih =>
    subst hcfg
    have hb := parseFrame_big masked lim (.io .invalidData) bigErr bs
    rw [show parseFrame masked lim (.io .invalidData) bs = .ok f rest from h] at hb
    have hs : syncStep maxMsg b cur f = .next b' cur' := hs
    rw [pLoop_ok (c := ⟨asyncStep maxMsg, masked, lim, bigErr⟩) hb]
    rcases step_agree maxMsg b cur f ((parseFrame_ok_iff hlim).mp h).2.1 with g | ⟨b1, g⟩ | ⟨b1, g⟩
    · simp only [← g, hs]; exact ih
    · rw [hs] at g; cases g
    · simp only [g]; exact .limitR _ _ _
  | case4 b cur bs e rest h =>
    subst hcfg
    have hb := parseFrame_big masked lim (.io .invalidData) bigErr bs
    rw [show parseFrame masked lim (.io .invalidData) bs = .err e rest from h] at hb
    obtain ⟨e', he', hor⟩ := hb
    rw [pLoop_err (c := ⟨asyncStep maxMsg, masked, lim, bigErr⟩) he']
    refine .bad _ _ _ ?_
    rcases hor with rfl | ⟨rfl, rfl⟩
    · exact .same _
    · exact .tooBig
  | case5 b cur bs h =>
    subst hcfg
    have hb := parseFrame_big masked lim (.io .invalidData) bigErr bs
    rw [show parseFrame masked lim (.io .invalidData) bs = .more from h] at hb
    rw [pLoop_more (c := ⟨asyncStep maxMsg, masked, lim, bigErr⟩) hb]
    exact .more _ _ _

theorem decNext_of {σ α} {dec : Decoder σ α} {c : σ} {bs : Bytes} {q : Res (Option α) × σ × Bytes}
    (h : dec c bs = q) : decNext dec c bs = match (generalizing := false) q with
      | (.ok (some a), c', rest) => (.item a, c', rest)
      | (.ok none, c', rest) => (if rest = [] then .done else .err bytesRemaining, c', rest)
      | (.err e, c', rest) => (.err e, c', rest)
      | (.panic e, c', rest) => (.panic e, c', rest) := by
  subst h; rfl

/-- The two receivers from the same state on the same bytes. -/
theorem many_agree (n : Nat) (b : List DataFrame) (masked : Bool) (maxDf maxMsg : Nat) (h1 : maxDf ≤ u32Max) (bs : Bytes)
    (hmem : heldLen b + bs.length ≤ isizeMax)
    (hs : Res.err msgLimitErr ∉ ((Receiver.mk b masked maxDf maxMsg).recvManyBytes n bs).1)
    (ha : Item.err msgLimitErr ∉ (decMany msgDecoder n (MsgCodec.mk b ⟨masked, maxDf⟩ maxMsg) bs).1) :
    Spec.Agree ((Receiver.mk b masked maxDf maxMsg).recvManyBytes n bs).1
      (decMany msgDecoder n (MsgCodec.mk b ⟨masked, maxDf⟩ maxMsg) bs).1 := by
  induction n generalizing b bs with
  | zero => exact .nil
  | succ n ih =>
    have hu : (u32Max : Nat) < 2 ^ 63 := by decide
    have key := pLoop_agree (maxMsg := maxMsg) (lim := maxDf) (by omega) (masked := masked) b (heldLen b) bs
    have hsafe := msgDecoder_safe (MsgCodec.mk b ⟨masked, maxDf⟩ maxMsg) bs h1 hmem
    have hdec := MsgCodec.decode_eq (MsgCodec.mk b ⟨masked, maxDf⟩ maxMsg) h1 bs
    have hrb : (Receiver.mk b masked maxDf maxMsg).recvBytes bs =
        match pLoop ⟨syncStep maxMsg, masked, maxDf, .io .invalidData⟩ b (heldLen b) bs with
        | .msg fs b rest => (OwnedMsg.fromDataframes (fs.map DataFrame.view), Receiver.mk b masked maxDf maxMsg, rest)
        | .fail e b rest => (.err e, Receiver.mk b masked maxDf maxMsg, rest)
        | .bad e b _ rest => (.err e, Receiver.mk b masked maxDf maxMsg, rest)
        | .more b _ _ => (.err .noData, Receiver.mk b masked maxDf maxMsg, []) := rfl
    have e2 : (MsgCodec.mk b ⟨masked, maxDf⟩ maxMsg).cfg = ⟨asyncStep maxMsg, masked, maxDf, bigErr⟩ := rfl
    rw [e2] at hdec
    simp only [Receiver.recvManyBytes, decMany, List.mem_cons, not_or] at hs ha ⊢
    generalize ho1 : pLoop ⟨syncStep maxMsg, masked, maxDf, .io .invalidData⟩ b (heldLen b) bs = o1 at key hrb
    simp only at hdec
    generalize ho2 : pLoop ⟨asyncStep maxMsg, masked, maxDf, bigErr⟩ b (heldLen b) bs = o2 at key hdec
    have hdn := decNext_of (dec := msgDecoder) hdec
    have hsafe : (MsgCodec.decode (MsgCodec.mk b ⟨masked, maxDf⟩ maxMsg) bs).1.isPanic = false ∧ _ := hsafe
    cases key with
    | msg fs b' rest =>
      obtain ⟨p1, -, p3⟩ := hsafe
      have p3 : heldLen (MsgCodec.decode (MsgCodec.mk b ⟨masked, maxDf⟩ maxMsg) bs).2.1.buffer +
          (MsgCodec.decode (MsgCodec.mk b ⟨masked, maxDf⟩ maxMsg) bs).2.2.length ≤ heldLen b + bs.length := p3
      rw [hdec] at p1 p3
      simp only [asyncOut] at hdn hrb p1 p3
      cases hf : OwnedMsg.fromDataframes (fs.map DataFrame.view) with
      | ok m =>
        rw [hf] at hdn hrb
        rw [hrb] at hs ⊢
        rw [hdn] at ha ⊢
        exact .message m (ih b' rest (by omega) hs.2 ha.2)
      | err e => rw [hf] at hdn hrb; rw [hdn, hrb]; exact .error _ _ (.same e)
      | panic e => rw [hf] at p1; simp [Bind.bind, Res.bind] at p1
    | fail e b' rest => rw [hdn, hrb]; exact .error _ _ (.same e)
    | bad b' start rest he => rw [hdn, hrb]; exact .error _ _ he
    | more b' cur left =>
      rw [hdn, hrb]
      by_cases hl : left = []
      · simp only [hl, if_true]; exact .ended _ _
      · simp only [hl, if_false]; exact .error _ _ .cutOff
    | limitL b' rest o => rw [hrb] at hs; exact absurd rfl hs.1
    | limitR b' rest o => rw [hdn] at ha; exact absurd rfl ha.1

end WS
