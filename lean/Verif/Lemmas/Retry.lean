import Verif.Lemmas.Many
/-! Reading stops at the first byte it does not need, so that a transport error at a frame boundary
costs nothing. -/

namespace WS
open Spec (Wire Delivers IsFrame ControlOk Assembles)

/-- A successful read does not depend on what the transport does afterwards. -/
def Local {α} (m : Rd α) : Prop := ∀ s t a s', m s = (.ok a, s') → m (s ++ t) = (.ok a, s' ++ t)

theorem readExact_zero (s : Src) : readExact 0 s = (.ok [], s) := by
  cases s with
  | nil => rfl
  | cons e rest => cases e <;> simp [readExact]

theorem takeToEnd_zero (s : Src) : takeToEnd 0 s = (.ok [], s) := by
  cases s with
  | nil => rfl
  | cons e rest => cases e <;> simp [takeToEnd]

theorem readExact_local (n : Nat) (s t : Src) (b : Bytes) (s' : Src) (h : readExact n s = (.ok b, s')) :
    readExact n (s ++ t) = (.ok b, s' ++ t) := by
  induction s generalizing n b with
  | nil =>
    by_cases h0 : n = 0
    · subst h0
      rw [readExact_zero] at h
      simp only [Prod.mk.injEq, Except.ok.injEq] at h
      obtain ⟨rfl, rfl⟩ := h
      simp [readExact_zero]
    · simp [readExact, h0] at h
  | cons e rest ih =>
    by_cases h0 : n = 0
    · subst h0
      rw [readExact_zero] at h
      simp only [Prod.mk.injEq, Except.ok.injEq] at h
      obtain ⟨rfl, rfl⟩ := h
      rw [readExact_zero]
    · cases e with
      | error k =>
        simp only [List.cons_append, readExact, h0, if_false] at h ⊢
        split at h
        · next hk => rw [if_pos hk]; exact ih n b h
        · simp at h
      | chunk c =>
        simp only [List.cons_append, readExact, h0, if_false] at h ⊢
        split at h
        · simp at h
        · next hc =>
          rw [if_neg hc]
          split at h
          · next hl =>
            rw [if_pos hl]
            cases hr : readExact (n - c.length) rest with
            | mk r s1 =>
              rw [hr] at h
              cases r with
              | error k => simp at h
              | ok bs =>
                simp only [Prod.mk.injEq, Except.ok.injEq] at h
                obtain ⟨rfl, rfl⟩ := h
                rw [ih _ _ hr]
          · next hl =>
            rw [if_neg hl]
            simp only [Prod.mk.injEq, Except.ok.injEq] at h
            obtain ⟨rfl, rfl⟩ := h
            rfl

theorem takeToEnd_local (n : Nat) (s t : Src) (b : Bytes) (s' : Src) (h : takeToEnd n s = (.ok b, s'))
    (hb : n ≤ b.length) : takeToEnd n (s ++ t) = (.ok b, s' ++ t) := by
  induction s generalizing n b with
  | nil =>
    simp only [takeToEnd, Prod.mk.injEq, Except.ok.injEq] at h
    obtain ⟨rfl, rfl⟩ := h
    simp only [List.length_nil, Nat.le_zero] at hb
    subst hb
    simp [takeToEnd_zero]
  | cons e rest ih =>
    by_cases h0 : n = 0
    · subst h0
      rw [takeToEnd_zero] at h
      simp only [Prod.mk.injEq, Except.ok.injEq] at h
      obtain ⟨rfl, rfl⟩ := h
      rw [takeToEnd_zero]
    · cases e with
      | error k =>
        simp only [List.cons_append, takeToEnd, h0, if_false] at h ⊢
        split at h
        · next hk => rw [if_pos hk]; exact ih n b h hb
        · simp at h
      | chunk c =>
        simp only [List.cons_append, takeToEnd, h0, if_false] at h ⊢
        split at h
        · simp only [Prod.mk.injEq, Except.ok.injEq] at h
          obtain ⟨rfl, rfl⟩ := h
          simp at hb; omega
        · next hc =>
          rw [if_neg hc]
          split at h
          · next hl =>
            rw [if_pos hl]
            cases hr : takeToEnd (n - c.length) rest with
            | mk r s1 =>
              rw [hr] at h
              cases r with
              | error k => simp at h
              | ok bs =>
                simp only [Prod.mk.injEq, Except.ok.injEq] at h
                obtain ⟨rfl, rfl⟩ := h
                rw [ih _ _ hr (by simp only [List.length_append] at hb; omega)]
          · next hl =>
            rw [if_neg hl]
            simp only [Prod.mk.injEq, Except.ok.injEq] at h
            obtain ⟨rfl, rfl⟩ := h
            rfl

theorem local_pure {α} (a : α) : Local (pure a) := by
  intro s t b s' h
  have h : ((Res.ok a : Res α), s) = (.ok b, s') := h
  simp only [Prod.mk.injEq, Res.ok.injEq] at h
  obtain ⟨rfl, rfl⟩ := h
  rfl

theorem local_lift {α} (r : Res α) : Local (Rd.lift r) := by
  intro s t b s' h
  simp only [Rd.lift, Prod.mk.injEq] at h ⊢
  exact ⟨h.1, by rw [h.2]⟩

theorem local_fail {α} (e : WsErr) : Local (Rd.fail e : Rd α) := by
  intro s t b s' h; simp [Rd.fail] at h

theorem local_exact (n : Nat) : Local (Rd.exact n) := by
  intro s t b s' h
  unfold Rd.exact at h ⊢
  cases hr : readExact n s with
  | mk r s1 =>
    rw [hr] at h
    cases r with
    | error k => simp at h
    | ok bs =>
      simp only [Prod.mk.injEq, Res.ok.injEq] at h
      obtain ⟨rfl, rfl⟩ := h
      rw [readExact_local n s t _ _ hr]

theorem local_payload (n : Nat) : Local (readPayload n) := by
  intro s t b s' h
  unfold readPayload at h ⊢
  cases hr : takeToEnd n s with
  | mk r s1 =>
    rw [hr] at h
    cases r with
    | error k => simp at h
    | ok bs =>
      simp only at h
      split at h
      · simp at h
      · next hlt =>
        simp only [Prod.mk.injEq, Res.ok.injEq] at h
        obtain ⟨rfl, rfl⟩ := h
        rw [takeToEnd_local n s t _ _ hr (by omega)]
        simp only [hlt, if_false]

theorem local_bind {α β} {m : Rd α} {f : α → Rd β} (hm : Local m) (hf : ∀ a, Local (f a)) : Local (m >>= f) := by
  intro s t b s' h
  have h : Rd.bind m f s = (.ok b, s') := h
  show Rd.bind m f (s ++ t) = _
  unfold Rd.bind at h ⊢
  cases hms : m s with
  | mk r s1 =>
    rw [hms] at h
    cases r with
    | ok a => rw [hm s t a s1 hms]; exact hf a s1 t b s' h
    | err e => simp at h
    | panic e => simp at h

theorem local_ite {α} {c : Prop} [Decidable c] {m m' : Rd α} (h : Local m) (h' : Local m') :
    Local (if c then m else m') := by split <;> assumption

theorem local_u8 : Local Rd.u8 := local_bind (local_exact 1) fun _ => local_pure _

theorem local_frame (masked : Bool) (limit : Nat) : Local (readDataframeWithLimit masked limit) := by
  unfold readDataframeWithLimit readHeader
  refine local_bind ?_ fun h => ?_
  · refine local_bind local_u8 fun b0 => local_bind local_u8 fun b1 => local_bind ?_ fun len => ?_
    · unfold readLen
      refine local_ite (local_pure _) (local_ite ?_ ?_)
      · exact local_bind (local_bind (local_exact _) fun _ => local_pure _) fun _ => local_ite (local_fail _) (local_pure _)
      · exact local_bind (local_bind (local_exact _) fun _ => local_pure _) fun _ => local_ite (local_fail _) (local_pure _)
    · refine local_ite (local_fail _) (local_ite (local_fail _) ?_)
      refine local_bind ?_ fun _ => local_pure _
      unfold readMask
      exact local_ite (local_bind local_u8 fun _ => local_bind local_u8 fun _ =>
        local_bind local_u8 fun _ => local_bind local_u8 fun _ => local_pure _) (local_pure _)
  · refine local_ite (local_fail _) ?_
    refine local_bind ?_ fun _ => local_bind (local_payload _) fun _ => local_lift _
    unfold vecWithCapacity; exact local_ite (local_lift _) (local_pure _)

/-- With nothing buffered or pending, a transport error comes straight through. -/
theorem recvDataframe_boundary (r : Receiver) (s t : Src) (hs : s.Clean) (hf : s.flat = []) (k : IoKind)
    (hk : k ≠ .interrupted) : r.recvDataframe (s ++ .error k :: t) = (.err (.ofIo k), t) := by
  have h : readExact 1 (s ++ .error k :: t) = (.error k, t) := by
    induction s with
    | nil => simp [readExact, hk]
    | cons e rest ih =>
      cases e with
      | chunk b =>
        obtain ⟨hb, -⟩ := hs
        simp [Src.flat] at hf
        exact absurd hf.1 hb
      | error k' =>
        obtain ⟨rfl, hs⟩ := hs
        simp only [List.cons_append, readExact, if_true]
        exact ih hs hf
  unfold Receiver.recvDataframe readDataframeWithLimit readHeader Rd.u8
  simp [Bind.bind, Rd.bind, Rd.exact, h]

theorem sLoop_local {r : Receiver} {cur : Nat} {s : Src} (t : Src) {fs : List DataFrame} {r' : Receiver} {s' : Src}
    (h : sLoop r cur s = (.ok fs, r', s')) : sLoop r cur (s ++ t) = (.ok fs, r', s' ++ t) := by
  fun_induction sLoop r cur s with
  | case1 r cur s f s1 hr fs' b hs =>
    rw [sLoop_ok (local_frame _ _ s t _ _ hr), hs]
    simp only [Prod.mk.injEq, Res.ok.injEq] at h ⊢
    exact ⟨h.1, h.2.1, by rw [h.2.2]⟩
  | case2 => simp at h
  | case3 r cur s f s1 hr b cur' hs ih =>
    rw [sLoop_ok (local_frame _ _ s t _ _ hr), hs]
    exact ih h
  | case4 => simp at h
  | case5 => simp at h

theorem recvMessage_local {r : Receiver} {s : Src} (t : Src) {m : OwnedMsg} {r' : Receiver} {s' : Src}
    (h : r.recvMessage s = (.ok m, r', s')) : r.recvMessage (s ++ t) = (.ok m, r', s' ++ t) := by
  unfold Receiver.recvMessage at h ⊢
  rw [recvMessageDataframes_eq] at h ⊢
  cases hx : sLoop r (heldLen r.buffer) s with
  | mk a b =>
    obtain ⟨r1, s1⟩ := b
    rw [hx] at h
    cases a with
    | ok fs =>
      simp only [Prod.mk.injEq] at h
      obtain ⟨h1, rfl, rfl⟩ := h
      rw [sLoop_local t hx]
      simp only [h1]
    | err e => simp at h
    | panic e => simp at h

theorem recvMany_local {n : Nat} {r : Receiver} {s : Src} (t : Src) {ms : List OwnedMsg} {r' : Receiver} {s' : Src}
    (h : r.recvMany n s = (ms.map Res.ok, r', s')) : r.recvMany n (s ++ t) = (ms.map Res.ok, r', s' ++ t) := by
  induction n generalizing r s ms with
  | zero =>
    simp only [Receiver.recvMany, Prod.mk.injEq] at h ⊢
    exact ⟨h.1, h.2.1, by rw [h.2.2]⟩
  | succ n ih =>
    simp only [Receiver.recvMany] at h ⊢
    cases ms with
    | nil => simp at h
    | cons m ms =>
      simp only [List.map_cons, Prod.mk.injEq, List.cons.injEq] at h
      obtain ⟨⟨h1, h2⟩, h3, h4⟩ := h
      rw [recvMessage_local t (m := m) (r' := (r.recvMessage s).2.1) (s' := (r.recvMessage s).2.2) (by rw [← h1])]
      simp only
      rw [ih (ms := ms) (by rw [← h2, ← h3, ← h4])]
      rfl

/-- The frames at hand complete no message; then the transport fails at the frame boundary. -/
theorem sLoop_parts {r : Receiver} (hr : r.WF) {held frames : List Spec.Frame} {ms : List Spec.Message}
    {held' : List Spec.Frame} (hd : Delivers (Spec.FitsBlocking r.maxMsg) held frames ms held') (hms : ms = [])
    (hlen : ∀ f ∈ frames, f.payload.length ≤ r.maxDf)
    (b0 : List DataFrame) (hb : specs b0 = held) (hbl : ∀ f ∈ b0, f.data.length ≤ u32Max)
    (hfit : held = [] ∨ Spec.FitsBlocking r.maxMsg held)
    (cur : Nat) (hcur : cur ≤ Spec.weight held) {bs : Bytes} (hw : Wire r.mask frames bs) (s t : Src)
    (hs : s.Clean) (hf : s.flat = bs) (k : IoKind) (hk : k ≠ .interrupted) :
    ∃ b, sLoop { r with buffer := b0 } cur (s ++ .error k :: t) = (.err (.ofIo k), { r with buffer := b }, t) ∧ specs b = held' ∧
      (∀ f ∈ b, f.data.length ≤ u32Max) ∧ (held' = [] ∨ Spec.FitsBlocking r.maxMsg held') := by
  induction hd generalizing b0 cur bs s with
  | nil =>
    cases hw
    exact ⟨b0, sLoop_err (recvDataframe_boundary { r with buffer := b0 } s t hs hf k hk), hb, hbl, hfit⟩
  | control => simp at hms
  | final => simp at hms
  | @part held f fs ms held' ha hfin hfits hrest ih =>
    cases hw with
    | @cons _ _ key bs1 rest hff hk' hrest' =>
    have hl63 : r.maxDf < 2 ^ 63 := Nat.lt_of_le_of_lt hr.1 (by decide)
    have hok : ControlOk f := by
      intro h8
      rcases ha with ⟨_, _, h⟩ | ⟨_, h⟩ <;> omega
    obtain ⟨g, rfl, hg⟩ := parseFrame_isFrame hl63 (big := .io .invalidData) hff hk' hok (hlen f (by simp)) rest
    have href := refines_frame r.mask r.maxDf (Nat.le_trans hr.1 (by decide)) s hs
    rw [hf, hg] at href
    obtain ⟨s1, hs1, h1, h2⟩ := href
    have hgl : g.data.length ≤ u32Max := Nat.le_trans (hlen g.spec List.mem_cons_self) hr.1
    have hb' : specs (b0 ++ [g]) = held ++ [g.spec] := by rw [specs_append, hb]; rfl
    rw [sLoop_ok (r := { r with buffer := b0 }) (local_frame _ _ s _ _ _ h1)]
    have hst := (stepOk_sync r hr.1 hr.2).part b0 cur g (hb ▸ ha) hfin (hb' ▸ hfits) (hb ▸ hcur)
    have hst : syncStep r.maxMsg b0 cur g = _ := hst
    simp only [hst]
    obtain ⟨b, i1, i2, i3, i4⟩ := ih hms
      (fun f hf => hlen f (by simp [hf])) (b0 ++ [g]) hb' (by
        intro f hf
        rcases List.mem_append.mp hf with hf | hf
        · exact hbl f hf
        · rw [List.mem_singleton.mp hf]; exact hgl) (.inr hfits) (cur + (g.data.length + 64)) (by
        simp only [Spec.weight, List.map_append, List.sum_append, List.map_cons, List.map_nil, List.sum_cons, List.sum_nil]
        have : g.spec.payload.length = g.data.length := rfl
        unfold Spec.weight at hcur
        omega) hrest' s1 hs1 h2
    exact ⟨b, i1, i2, i3, i4⟩

theorem recvMany_add (m n : Nat) (r : Receiver) (s : Src) :
    r.recvMany (m + n) s =
      ((r.recvMany m s).1 ++ ((r.recvMany m s).2.1.recvMany n (r.recvMany m s).2.2).1,
       ((r.recvMany m s).2.1.recvMany n (r.recvMany m s).2.2).2) := by
  induction m generalizing r s with
  | zero => simp [Receiver.recvMany]
  | succ m ih =>
    rw [Nat.add_right_comm]
    simp only [Receiver.recvMany, ih, List.cons_append]

/-- One stretch of whole frames, then a transport error at the frame boundary. -/
theorem recvMany_stretch {r : Receiver} (hr : r.WF) {frames : List Spec.Frame} {ms : List Spec.Message}
    {held' : List Spec.Frame} {bs : Bytes}
    (h : Incoming (Spec.FitsBlocking r.maxMsg) r.maxDf r.mask r.buffer frames ms held' bs) (s t : Src)
    (hs : s.Clean) (hf : s.flat = bs) (k : IoKind) (hk : k ≠ .interrupted) :
    ∃ (oms : List OwnedMsg) (b : List DataFrame),
      r.recvMany (ms.length + 1) (s ++ .error k :: t) =
        (oms.map Res.ok ++ [.err (.ofIo k)], { r with buffer := b }, t) ∧
      oms.map OwnedMsg.spec = ms ∧ specs b = held' ∧
      (∀ f ∈ b, f.data.length ≤ u32Max) ∧ (b = [] ∨ Spec.FitsBlocking r.maxMsg (specs b)) := by
  obtain ⟨oms, b, frames1, bs1, h1, h2, h3⟩ := deliver_sync hr h []
  rw [List.append_nil, List.append_nil] at h1
  obtain ⟨s1, g1, g2, g3⟩ := recvMany_clean ms.length r (Nat.le_trans hr.1 (by decide)) s hs
  rw [hf, h1] at g2 g3
  have hl := recvMany_local (.error k :: t) g2
  have hw : heldLen b ≤ Spec.weight (specs b) := by rw [weight_specs]; omega
  obtain ⟨b', i1, i2, i3, i4⟩ := sLoop_parts hr h3.delivers rfl h3.small b rfl h3.bounded
    (h3.fits.imp specs_nil.mpr id) (heldLen b) hw h3.wire s1 t g1 g3 k hk
  refine ⟨oms, b', ?_, h2, i2, i3, ?_⟩
  · rw [recvMany_add, hl]
    simp only [Receiver.recvMany, Receiver.recvMessage, recvMessageDataframes_eq, i1]
  · rw [i2]
    rcases i4 with i4 | i4
    · left; exact specs_nil.mp (i2.trans i4)
    · exact .inr i4

end WS

namespace WS

/-! ### Async: not-ready answers -/

/-- The same transport without its "not ready" answers. -/
def Src.strip (s : Src) : Src := s.filter fun e => decide (e ≠ .error .wouldBlock)

variable {σ α : Type} {dec : Decoder σ α}

/-- The part of `next` after the read buffer has been tried. -/
theorem next_pollRead (fr : Framed σ) (h : fr.readable = false) (s : Src) :
    fr.next dec s = match fr.pollRead dec s with
      | (.ready x, fr', s') => (x, fr', s')
      | (.notReady, fr', s') => fr'.next dec s' := by
  have hp : fr.poll dec s = fr.pollRead dec s := by unfold Framed.poll; simp [h]
  cases hx : fr.pollRead dec s with
  | mk r q =>
    obtain ⟨fr', s'⟩ := q
    cases r with
    | ready x => exact next_ready (hp.trans hx)
    | notReady => exact next_notReady (hp.trans hx)

theorem pollRead_notReady {fr fr' : Framed σ} (h : fr.readable = false) {s s' : Src}
    (hx : fr.pollRead dec s = (.notReady, fr', s')) : fr'.readable = false := by
  induction s generalizing fr with
  | nil => simp [Framed.pollRead] at hx
  | cons e rest ih =>
    cases e with
    | error k =>
      unfold Framed.pollRead at hx
      split at hx
      · simp only [Prod.mk.injEq, true_and] at hx; rw [← hx.1]; exact h
      · simp at hx
    | chunk b =>
      unfold Framed.pollRead at hx
      split at hx
      · simp at hx
      · split at hx
        · simp at hx
        · exact ih rfl hx
        · simp at hx
        · simp at hx

theorem next_strip_read (s : Src) (fr : Framed σ) (h : fr.readable = false) :
    fr.next dec s.strip = ((fr.next dec s).1, (fr.next dec s).2.1, (fr.next dec s).2.2.strip) := by
  induction s generalizing fr with
  | nil => rw [next_pollRead fr h, next_pollRead fr h]; simp [Src.strip, Framed.pollRead]
  | cons e rest ih =>
    cases e with
    | error k =>
      by_cases hk : k = .wouldBlock
      · subst hk
        have e1 : Src.strip (.error .wouldBlock :: rest) = (Src.strip rest) := by simp [Src.strip]
        have e2 : fr.next dec (.error .wouldBlock :: rest) = fr.next dec rest := by
          rw [next_pollRead fr h]; simp [Framed.pollRead]
        rw [e1, e2]; exact ih fr h
      · have e1 : Src.strip (.error k :: rest) = .error k :: (Src.strip rest) := by simp [Src.strip, hk]
        rw [e1, next_pollRead fr h, next_pollRead fr h]
        simp [Framed.pollRead, hk]
    | chunk b =>
      have e1 : Src.strip (.chunk b :: rest) = .chunk b :: (Src.strip rest) := by simp [Src.strip]
      rw [e1, next_pollRead fr h, next_pollRead fr h]
      unfold Framed.pollRead
      by_cases hb : b = []
      · simp [hb]
      · simp only [hb, if_false]
        cases hd : dec fr.codec (fr.buf ++ b) with
        | mk r q =>
          obtain ⟨c, b'⟩ := q
          rcases r with (_ | a) | e | e
          · simp only
            have h1 := next_pollRead (dec := dec) ({ fr with codec := c, buf := b', readable := false } : Framed σ) rfl rest
            have h2 := next_pollRead (dec := dec) ({ fr with codec := c, buf := b', readable := false } : Framed σ) rfl (Src.strip rest)
            rw [← h1, ← h2]
            exact ih _ rfl
          · simp
          · simp
          · simp

/-- "Not ready" answers do not change the next item, for any decoder. -/
theorem next_strip (s : Src) (fr : Framed σ) :
    fr.next dec s.strip = ((fr.next dec s).1, (fr.next dec s).2.1, (fr.next dec s).2.2.strip) := by
  by_cases h : fr.readable = true
  · by_cases he : fr.eof = true
    · have e : ∀ s : Src, fr.next dec s = ((fr.pollEof dec).1, (fr.pollEof dec).2, s) := fun s =>
        next_ready (by unfold Framed.poll; simp [h, he])
      rw [e, e]
    · cases hd : dec fr.codec fr.buf with
      | mk r q =>
        obtain ⟨c, b⟩ := q
        have hp : ∀ s : Src, fr.poll dec s = match (generalizing := false) r with
            | .ok (some a) => (.ready (.item a), { fr with codec := c, buf := b }, s)
            | .ok none => Framed.pollRead dec { fr with codec := c, buf := b, readable := false } s
            | .err e => (.ready (.err e), { fr with codec := c, buf := b }, s)
            | .panic e => (.ready (.panic e), { fr with codec := c, buf := b }, s) := by
          intro s
          unfold Framed.poll
          simp only [h, he, if_true, hd]
          rcases r with (_ | a) | e | e <;> simp
        rcases r with (_ | a) | e | e
        · have hn : ∀ s : Src, fr.next dec s = Framed.next dec { fr with codec := c, buf := b, readable := false } s := by
            intro s
            rw [next_pollRead (dec := dec) ({ fr with codec := c, buf := b, readable := false } : Framed σ) rfl s]
            cases hx : Framed.pollRead dec ({ fr with codec := c, buf := b, readable := false } : Framed σ) s with
            | mk x q =>
              obtain ⟨fr', s'⟩ := q
              cases x with
              | ready x => exact next_ready ((hp s).trans hx)
              | notReady => exact next_notReady ((hp s).trans hx)
          rw [hn, hn]
          exact next_strip_read s _ rfl
        · rw [next_ready (hp s), next_ready (hp s.strip)]
        · rw [next_ready (hp s), next_ready (hp s.strip)]
        · rw [next_ready (hp s), next_ready (hp s.strip)]
  · exact next_strip_read s fr (by simpa using h)

theorem nextMany_strip (n : Nat) (s : Src) (fr : Framed σ) :
    fr.nextMany dec n s.strip = ((fr.nextMany dec n s).1, (fr.nextMany dec n s).2.1, (fr.nextMany dec n s).2.2.strip) := by
  induction n generalizing fr s with
  | zero => rfl
  | succ n ih =>
    simp only [Framed.nextMany]
    rw [next_strip]
    simp only [ih]

end WS
