import Verif.Lemmas.Retry
/-! A transport error inside a frame: what was read of that frame is lost, nothing else is. -/

namespace WS
open Spec (Wire Delivers IsFrame ControlOk)

/-- If the input ends too early for `p`, a transport error at its end is what `m` reports, and `m`
has consumed exactly this input. -/
def Cuts {α} (m : Rd α) (p : Ps α) : Prop :=
  ∀ s : Src, s.Clean → p s.flat = .more → ∀ k, k ≠ IoKind.interrupted → ∀ t,
    m (s ++ .error k :: t) = (.err (.ofIo k), t)

theorem readExact_cut (n : Nat) (s : Src) (hs : s.Clean) (hn : s.flat.length < n) (k : IoKind) (hk : k ≠ .interrupted)
    (t : Src) : readExact n (s ++ .error k :: t) = (.error k, t) := by
  induction s generalizing n with
  | nil => simp [readExact, hk, show n ≠ 0 by omega]
  | cons e rest ih =>
    have h0 : n ≠ 0 := by omega
    cases e with
    | error k' =>
      obtain ⟨rfl, hc⟩ := hs
      simp only [List.cons_append, readExact, h0, if_false, if_true]
      exact ih n hc hn
    | chunk b =>
      obtain ⟨hb, hc⟩ := hs
      simp only [Src.flat, List.length_append] at hn
      simp only [List.cons_append, readExact, h0, hb, if_false, if_pos (show b.length ≤ n by omega)]
      rw [ih (n - b.length) hc (by omega)]

theorem takeToEnd_cut (n : Nat) (s : Src) (hs : s.Clean) (hn : s.flat.length < n) (k : IoKind) (hk : k ≠ .interrupted)
    (t : Src) : takeToEnd n (s ++ .error k :: t) = (.error k, t) := by
  induction s generalizing n with
  | nil => simp [takeToEnd, hk, show n ≠ 0 by omega]
  | cons e rest ih =>
    have h0 : n ≠ 0 := by omega
    cases e with
    | error k' =>
      obtain ⟨rfl, hc⟩ := hs
      simp only [List.cons_append, takeToEnd, h0, if_false, if_true]
      exact ih n hc hn
    | chunk b =>
      obtain ⟨hb, hc⟩ := hs
      simp only [Src.flat, List.length_append] at hn
      simp only [List.cons_append, takeToEnd, h0, hb, if_false, if_pos (show b.length ≤ n by omega)]
      rw [ih (n - b.length) hc (by omega)]

theorem cuts_exact (n : Nat) : Cuts (Rd.exact n) (Ps.take n) := by
  intro s hs h k hk t
  unfold Ps.take at h
  split at h
  · simp at h
  · unfold Rd.exact
    rw [readExact_cut n s hs (by omega) k hk t]

theorem cuts_payload (n : Nat) : Cuts (readPayload n) (Ps.take n) := by
  intro s hs h k hk t
  unfold Ps.take at h
  split at h
  · simp at h
  · unfold readPayload
    rw [takeToEnd_cut n s hs (by omega) k hk t]

theorem cuts_pure {α} (a : α) : Cuts (pure a) (pure a) := by
  intro s hs h
  have h : (PRes.ok a s.flat : PRes α) = .more := h
  simp at h

theorem cuts_fail {α} (e : WsErr) : Cuts (Rd.fail e : Rd α) (Ps.fail e) := by
  intro s hs h
  simp [Ps.fail] at h

theorem cuts_ite {α} (c : Prop) [Decidable c] {m m' : Rd α} {p p' : Ps α}
    (h : Cuts m p) (h' : Cuts m' p') : Cuts (if c then m else m') (if c then p else p') := by
  split <;> assumption

theorem cuts_bind' {α β} {m : Rd α} {p : Ps α} {f : α → Rd β} {g : α → Ps β} (hr : Refines m p) (hl : Local m)
    (hm : Cuts m p) (hf : ∀ a bs rest, p bs = .ok a rest → Cuts (f a) (g a)) : Cuts (m >>= f) (p >>= g) := by
  intro s hs h k hk t
  have h : Ps.bind p g s.flat = .more := h
  show Rd.bind m f (s ++ .error k :: t) = _
  unfold Ps.bind at h
  unfold Rd.bind
  cases hp : p s.flat with
  | ok a rest =>
    rw [hp] at h
    obtain ⟨s', hs', h'⟩ := hr s hs
    rw [hp] at h'
    rw [hl s (.error k :: t) a s' h'.1]
    exact hf a _ _ hp s' hs' (by rw [h'.2]; exact h) k hk t
  | err e rest => rw [hp] at h; simp at h
  | more => rw [hm s hs hp k hk t]

theorem cuts_bind {α β} {m : Rd α} {p : Ps α} {f : α → Rd β} {g : α → Ps β} (hr : Refines m p) (hl : Local m)
    (hm : Cuts m p) (hf : ∀ a, Cuts (f a) (g a)) : Cuts (m >>= f) (p >>= g) :=
  cuts_bind' hr hl hm fun a _ _ _ => hf a

theorem cuts_u8 : Cuts Rd.u8 Ps.u8 := by
  intro s hs h k hk t
  have hf : s.flat = [] := by
    cases hf : s.flat with
    | nil => rfl
    | cons b bs => rw [hf] at h; simp at h
  unfold Rd.u8
  simp [Bind.bind, Rd.bind, Rd.exact, readExact_cut 1 s hs (by simp [hf]) k hk t]

theorem local_header : Local readHeader := by
  unfold readHeader
  refine local_bind local_u8 fun b0 => local_bind local_u8 fun b1 => local_bind ?_ fun len => ?_
  · unfold readLen
    refine local_ite (local_pure _) (local_ite ?_ ?_)
    · exact local_bind (local_bind (local_exact _) fun _ => local_pure _) fun _ => local_ite (local_fail _) (local_pure _)
    · exact local_bind (local_bind (local_exact _) fun _ => local_pure _) fun _ => local_ite (local_fail _) (local_pure _)
  · refine local_ite (local_fail _) (local_ite (local_fail _) ?_)
    refine local_bind ?_ fun _ => local_pure _
    unfold readMask
    exact local_ite (local_bind local_u8 fun _ => local_bind local_u8 fun _ =>
      local_bind local_u8 fun _ => local_bind local_u8 fun _ => local_pure _) (local_pure _)

theorem cuts_len (byte1 : UInt8) : Cuts (readLen byte1) (parseLen byte1) := by
  unfold readLen parseLen
  refine cuts_ite _ (cuts_pure _) (cuts_ite _ ?_ ?_)
  · refine cuts_bind (refines_bind (refines_exact 2) fun b => refines_pure _)
      (local_bind (local_exact _) fun _ => local_pure _)
      (cuts_bind (refines_exact 2) (local_exact 2) (cuts_exact 2) fun b => cuts_pure _) fun len => ?_
    exact cuts_ite _ (cuts_fail _) (cuts_pure _)
  · refine cuts_bind (refines_bind (refines_exact 8) fun b => refines_pure _)
      (local_bind (local_exact _) fun _ => local_pure _)
      (cuts_bind (refines_exact 8) (local_exact 8) (cuts_exact 8) fun b => cuts_pure _) fun len => ?_
    exact cuts_ite _ (cuts_fail _) (cuts_pure _)

theorem refines_len (byte1 : UInt8) : Refines (readLen byte1) (parseLen byte1) := by
  unfold readLen parseLen
  refine refines_ite _ (refines_pure _) ?_
  refine refines_ite _ ?_ ?_
  · refine refines_bind (refines_bind (refines_exact 2) fun b => refines_pure _) fun len => ?_
    exact refines_ite _ (refines_fail _) (refines_pure _)
  · refine refines_bind (refines_bind (refines_exact 8) fun b => refines_pure _) fun len => ?_
    exact refines_ite _ (refines_fail _) (refines_pure _)

theorem local_len (byte1 : UInt8) : Local (readLen byte1) := by
  unfold readLen
  refine local_ite (local_pure _) (local_ite ?_ ?_)
  · exact local_bind (local_bind (local_exact _) fun _ => local_pure _) fun _ => local_ite (local_fail _) (local_pure _)
  · exact local_bind (local_bind (local_exact _) fun _ => local_pure _) fun _ => local_ite (local_fail _) (local_pure _)

theorem cuts_mask (byte1 : UInt8) : Cuts (readMask byte1) (parseMask byte1) := by
  unfold readMask parseMask
  refine cuts_ite _ ?_ (cuts_pure _)
  exact cuts_bind refines_u8 local_u8 cuts_u8 fun _ => cuts_bind refines_u8 local_u8 cuts_u8 fun _ =>
    cuts_bind refines_u8 local_u8 cuts_u8 fun _ => cuts_bind refines_u8 local_u8 cuts_u8 fun _ => cuts_pure _

theorem refines_mask (byte1 : UInt8) : Refines (readMask byte1) (parseMask byte1) := by
  unfold readMask parseMask
  refine refines_ite _ ?_ (refines_pure _)
  exact refines_bind refines_u8 fun _ => refines_bind refines_u8 fun _ =>
    refines_bind refines_u8 fun _ => refines_bind refines_u8 fun _ => refines_pure _

theorem local_mask (byte1 : UInt8) : Local (readMask byte1) := by
  unfold readMask
  exact local_ite (local_bind local_u8 fun _ => local_bind local_u8 fun _ =>
    local_bind local_u8 fun _ => local_bind local_u8 fun _ => local_pure _) (local_pure _)

theorem cuts_header : Cuts readHeader parseHeader := by
  unfold readHeader parseHeader
  refine cuts_bind refines_u8 local_u8 cuts_u8 fun b0 => cuts_bind refines_u8 local_u8 cuts_u8 fun b1 => ?_
  refine cuts_bind (refines_len b1) (local_len b1) (cuts_len b1) fun len => ?_
  refine cuts_ite _ (cuts_fail _) (cuts_ite _ (cuts_fail _) ?_)
  exact cuts_bind (refines_mask b1) (local_mask b1) (cuts_mask b1) fun mask => cuts_pure _

theorem cuts_body (h : Header) (hop : h.opcode.toNat < 16) (data : Bytes) (m : Bool) :
    Cuts (Rd.lift (readDataframeBody h data m)) (bodyPs h data m) := by
  intro s hs hm
  unfold bodyPs at hm
  have hn := readDataframeBody_no_panic h hop data m
  cases hr : readDataframeBody h data m with
  | ok f => rw [hr] at hm; simp at hm
  | err e => rw [hr] at hm; simp at hm
  | panic => rw [hr] at hn; simp at hn

theorem cuts_frame (masked : Bool) (limit : Nat) (hl : limit ≤ isizeMax) :
    Cuts (readDataframeWithLimit masked limit) (parseFrame masked limit (.io .invalidData)) := by
  unfold readDataframeWithLimit parseFrame
  refine cuts_bind' refines_header local_header cuts_header fun h bs rest hp => ?_
  split
  · exact cuts_fail _
  · unfold vecWithCapacity
    rw [if_neg (by omega)]
    exact cuts_bind (refines_payload _) (local_payload _) (cuts_payload _) fun data => cuts_body h (parseHeader_opcode hp) data masked

/-- A transport error inside a legal frame: the error is reported and the bytes `p` of the frame
are gone. -/
theorem recvDataframe_cut (r : Receiver) (hr : r.WF) {f : Spec.Frame} {key : Option (List UInt8)} {p q : Bytes}
    (h : IsFrame f key (p ++ q)) (hq : q ≠ []) (hk : key.isSome = r.mask) (hc : ControlOk f)
    (hl : f.payload.length ≤ r.maxDf) (s t : Src) (hs : s.Clean) (hf : s.flat = p) (k : IoKind) (hki : k ≠ .interrupted) :
    r.recvDataframe (s ++ .error k :: t) = (.err (.ofIo k), t) := by
  refine cuts_frame r.mask r.maxDf (Nat.le_trans hr.1 (by decide)) s hs ?_ k hki t
  rw [hf]
  exact parseFrame_prefix (Nat.lt_of_le_of_lt hr.1 (by decide)) h hq hk hc hl

/-- The frames at hand complete no message; then reading the next one fails. -/
theorem sLoop_cut {r : Receiver} (hr : r.WF) {held frames : List Spec.Frame} {ms : List Spec.Message}
    {held' : List Spec.Frame} (hd : Delivers (Spec.FitsBlocking r.maxMsg) held frames ms held') (hms : ms = [])
    (hlen : ∀ f ∈ frames, f.payload.length ≤ r.maxDf)
    (b0 : List DataFrame) (hb : specs b0 = held) (hbl : ∀ f ∈ b0, f.data.length ≤ u32Max)
    (hfit : held = [] ∨ Spec.FitsBlocking r.maxMsg held)
    (cur : Nat) (hcur : cur ≤ Spec.weight held) {bs : Bytes} (hw : Wire r.mask frames bs) (p : Bytes) (k : IoKind) (t : Src)
    (hcut : ∀ b (s : Src), s.Clean → s.flat = p → Receiver.recvDataframe { r with buffer := b } (s ++ .error k :: t) = (.err (.ofIo k), t))
    (s : Src) (hs : s.Clean) (hf : s.flat = bs ++ p) :
    ∃ b, sLoop { r with buffer := b0 } cur (s ++ .error k :: t) = (.err (.ofIo k), { r with buffer := b }, t) ∧ specs b = held' ∧
      (∀ f ∈ b, f.data.length ≤ u32Max) ∧ (held' = [] ∨ Spec.FitsBlocking r.maxMsg held') := by
  induction hd generalizing b0 cur bs s with
  | nil =>
    cases hw
    exact ⟨b0, sLoop_err (hcut b0 s hs hf), hb, hbl, hfit⟩
  | control => simp at hms
  | final => simp at hms
  | @part held f fs ms held' ha hfin hfits hrest ih =>
    cases hw with
    | @cons _ _ key bs1 rest hff hk' hrest' =>
    have hl63 : r.maxDf < 2 ^ 63 := Nat.lt_of_le_of_lt hr.1 (by decide)
    have hok : ControlOk f := by
      intro h8
      rcases ha with ⟨_, _, h⟩ | ⟨_, h⟩ <;> omega
    obtain ⟨g, rfl, hg⟩ := parseFrame_isFrame hl63 (big := .io .invalidData) hff hk' hok (hlen f (by simp)) (rest ++ p)
    have href := refines_frame r.mask r.maxDf (Nat.le_trans hr.1 (by decide)) s hs
    rw [hf, List.append_assoc, hg] at href
    obtain ⟨s1, hs1, h1, h2⟩ := href
    have hgl : g.data.length ≤ u32Max := Nat.le_trans (hlen g.spec List.mem_cons_self) hr.1
    have hb' : specs (b0 ++ [g]) = held ++ [g.spec] := by rw [specs_append, hb]; rfl
    rw [sLoop_ok (r := { r with buffer := b0 }) (local_frame _ _ s _ _ _ h1)]
    have hst := (stepOk_sync r hr.1 hr.2).part b0 cur g (hb ▸ ha) hfin (hb' ▸ hfits) (hb ▸ hcur)
    have hst : syncStep r.maxMsg b0 cur g = _ := hst
    simp only [hst]
    obtain ⟨b, i1, i2, i3, i4⟩ := ih hms
      (fun f hf => hlen f (by simp [hf])) (b0 ++ [g]) hb' (by
        intro f hf
        rcases List.mem_append.mp hf with hf | hf
        · exact hbl f hf
        · rw [List.mem_singleton.mp hf]; exact hgl) (.inr hfits) (cur + (g.data.length + 64)) (by
        simp only [Spec.weight, List.map_append, List.sum_append, List.map_cons, List.map_nil, List.sum_cons, List.sum_nil]
        have : g.spec.payload.length = g.data.length := rfl
        unfold Spec.weight at hcur
        omega) hrest' s1 hs1 h2
    exact ⟨b, i1, i2, i3, i4⟩

/-- One stretch of whole frames, then an error while the next frame is being read. -/
theorem recvMany_cut {r : Receiver} (hr : r.WF) {frames : List Spec.Frame} {ms : List Spec.Message}
    {held' : List Spec.Frame} {bs : Bytes}
    (h : Incoming (Spec.FitsBlocking r.maxMsg) r.maxDf r.mask r.buffer frames ms held' bs) (p : Bytes) (k : IoKind) (t : Src)
    (hcut : ∀ b (s : Src), s.Clean → s.flat = p → Receiver.recvDataframe { r with buffer := b } (s ++ .error k :: t) = (.err (.ofIo k), t))
    (s : Src) (hs : s.Clean) (hf : s.flat = bs ++ p) :
    ∃ (oms : List OwnedMsg) (b : List DataFrame),
      r.recvMany (ms.length + 1) (s ++ .error k :: t) =
        (oms.map Res.ok ++ [.err (.ofIo k)], { r with buffer := b }, t) ∧
      oms.map OwnedMsg.spec = ms ∧ specs b = held' ∧
      (∀ f ∈ b, f.data.length ≤ u32Max) ∧ (b = [] ∨ Spec.FitsBlocking r.maxMsg (specs b)) := by
  obtain ⟨oms, b, frames1, bs1, h1, h2, h3⟩ := deliver_sync hr h p
  obtain ⟨s1, g1, g2, g3⟩ := recvMany_clean ms.length r (Nat.le_trans hr.1 (by decide)) s hs
  rw [hf, h1] at g2 g3
  have hl := recvMany_local (.error k :: t) g2
  have hw : heldLen b ≤ Spec.weight (specs b) := by rw [weight_specs]; omega
  obtain ⟨b', i1, i2, i3, i4⟩ := sLoop_cut hr h3.delivers rfl h3.small b rfl h3.bounded
    (h3.fits.imp specs_nil.mpr id) (heldLen b) hw h3.wire p k t hcut s1 g1 g3
  refine ⟨oms, b', ?_, h2, i2, i3, ?_⟩
  · rw [recvMany_add, hl]
    simp only [Receiver.recvMany, Receiver.recvMessage, recvMessageDataframes_eq, i1]
  · rw [i2]
    rcases i4 with i4 | i4
    · left; exact specs_nil.mp (i2.trans i4)
    · exact .inr i4

end WS
