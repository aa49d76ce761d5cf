import Verif.Lemmas.DfCodec
/-! Facts about reads on arbitrary (also failing) transports, and about writes. -/

namespace WS

/-- Whatever the transport does: if `m` succeeds, the parser succeeds on the bytes consumed. -/
def Sound {α} (m : Rd α) (p : Ps α) : Prop :=
  ∀ s s' a, m s = (.ok a, s') → p s.flat = .ok a s'.flat

theorem readExact_sound {n : Nat} {s s' : Src} {b : Bytes} (h : readExact n s = (.ok b, s')) :
    b.length = n ∧ s.flat = b ++ s'.flat := by
  induction s generalizing n b with
  | nil =>
    unfold readExact at h
    split at h
    · simp at h; obtain ⟨rfl, rfl⟩ := h; simp [*]
    · simp at h
  | cons e rest ih =>
    cases e with
    | error k =>
      unfold readExact at h
      split at h
      · simp at h; obtain ⟨rfl, rfl⟩ := h; simp [*]
      · split at h
        · exact ih h
        · simp at h
    | chunk c =>
      unfold readExact at h
      split at h
      · simp at h; obtain ⟨rfl, rfl⟩ := h; simp [*]
      · split at h
        · simp at h
        · split at h
          · split at h
            · next heq =>
              simp only [Prod.mk.injEq, Except.ok.injEq] at h
              obtain ⟨rfl, rfl⟩ := h
              obtain ⟨h1, h2⟩ := ih heq
              simp only [List.length_append, Src.flat, List.append_assoc, h2]
              exact ⟨by omega, trivial⟩
            · simp at h
          · simp only [Prod.mk.injEq, Except.ok.injEq] at h
            obtain ⟨rfl, rfl⟩ := h
            refine ⟨by rw [List.length_take]; omega, ?_⟩
            simp only [Src.flat]
            rw [← List.append_assoc, List.take_append_drop]

theorem takeToEnd_sound {n : Nat} {s s' : Src} {b : Bytes} (h : takeToEnd n s = (.ok b, s')) :
    b.length ≤ n ∧ s.flat = b ++ s'.flat := by
  induction s generalizing n b with
  | nil => unfold takeToEnd at h; simp at h; obtain ⟨rfl, rfl⟩ := h; simp
  | cons e rest ih =>
    cases e with
    | error k =>
      unfold takeToEnd at h
      split at h
      · simp at h; obtain ⟨rfl, rfl⟩ := h; simp
      · split at h
        · exact ih h
        · simp at h
    | chunk c =>
      unfold takeToEnd at h
      split at h
      · simp at h; obtain ⟨rfl, rfl⟩ := h; simp
      · split at h
        · next hc => simp at h; obtain ⟨rfl, rfl⟩ := h; simp [Src.flat, hc]
        · split at h
          · split at h
            · next heq =>
              simp only [Prod.mk.injEq, Except.ok.injEq] at h
              obtain ⟨rfl, rfl⟩ := h
              obtain ⟨h1, h2⟩ := ih heq
              simp only [List.length_append, Src.flat, List.append_assoc, h2]
              exact ⟨by omega, trivial⟩
            · simp at h
          · simp only [Prod.mk.injEq, Except.ok.injEq] at h
            obtain ⟨rfl, rfl⟩ := h
            refine ⟨by rw [List.length_take]; omega, ?_⟩
            simp only [Src.flat]
            rw [← List.append_assoc, List.take_append_drop]

theorem sound_exact (n : Nat) : Sound (Rd.exact n) (Ps.take n) := by
  intro s s' a h
  unfold Rd.exact at h
  split at h
  · next heq =>
    simp only [Prod.mk.injEq, Res.ok.injEq] at h
    obtain ⟨rfl, rfl⟩ := h
    exact Ps.take_ok_iff.mpr (readExact_sound heq)
  · simp at h

theorem sound_payload (n : Nat) : Sound (readPayload n) (Ps.take n) := by
  intro s s' a h
  unfold readPayload at h
  split at h
  · next heq =>
    split at h
    · simp at h
    · simp only [Prod.mk.injEq, Res.ok.injEq] at h
      obtain ⟨rfl, rfl⟩ := h
      obtain ⟨h1, h2⟩ := takeToEnd_sound heq
      exact Ps.take_ok_iff.mpr ⟨by omega, h2⟩
  · simp at h

theorem sound_pure {α} (a : α) : Sound (pure a) (pure a) := by
  intro s s' b h
  have h' : (Res.ok a, s) = (Res.ok b, s') := h
  simp only [Prod.mk.injEq, Res.ok.injEq] at h'
  obtain ⟨rfl, rfl⟩ := h'; rfl

theorem sound_fail {α} (e : WsErr) (p : Ps α) : Sound (Rd.fail e : Rd α) p := by
  intro s s' b h
  unfold Rd.fail at h; simp at h

theorem sound_bind {α β} {m : Rd α} {p : Ps α} {f : α → Rd β} {g : α → Ps β}
    (hm : Sound m p) (hf : ∀ a, Sound (f a) (g a)) : Sound (m >>= f) (p >>= g) := by
  intro s s' b h
  have h' : Rd.bind m f s = (.ok b, s') := h
  unfold Rd.bind at h'
  cases hms : m s with
  | mk r s1 =>
    rw [hms] at h'
    cases r with
    | err e => simp at h'
    | panic e => simp at h'
    | ok a =>
      rw [Ps.bind_def, hm s s1 a hms]
      exact hf a s1 s' b h'

theorem sound_ite {α} (c : Prop) [Decidable c] {m m' : Rd α} {p p' : Ps α}
    (h : Sound m p) (h' : Sound m' p') : Sound (if c then m else m') (if c then p else p') := by
  split <;> assumption

theorem sound_u8 : Sound Rd.u8 Ps.u8 := by
  have h : Sound Rd.u8 (do let b ← Ps.take 1; pure (b.headD 0)) :=
    sound_bind (sound_exact 1) (fun b => sound_pure _)
  have e : (do let b ← Ps.take 1; pure (b.headD 0)) = Ps.u8 := by
    funext bs
    show Ps.bind (Ps.take 1) _ bs = _
    cases bs <;> simp [Ps.bind, Ps.take, Ps.u8] <;> rfl
  exact e ▸ h

theorem sound_header : Sound readHeader parseHeader := by
  unfold readHeader parseHeader readLen parseLen readMask parseMask
  refine sound_bind sound_u8 fun byte0 => ?_
  refine sound_bind sound_u8 fun byte1 => ?_
  refine sound_bind ?_ fun len => ?_
  · refine sound_ite _ (sound_pure _) ?_
    refine sound_ite _ ?_ ?_
    · refine sound_bind (sound_bind (sound_exact 2) fun b => sound_pure _) fun len => ?_
      exact sound_ite _ (sound_fail _ _) (sound_pure _)
    · refine sound_bind (sound_bind (sound_exact 8) fun b => sound_pure _) fun len => ?_
      exact sound_ite _ (sound_fail _ _) (sound_pure _)
  · refine sound_ite _ (sound_fail _ _) ?_
    refine sound_ite _ (sound_fail _ _) ?_
    refine sound_bind ?_ fun mask => sound_pure _
    refine sound_ite _ ?_ (sound_pure _)
    exact sound_bind sound_u8 fun _ => sound_bind sound_u8 fun _ =>
      sound_bind sound_u8 fun _ => sound_bind sound_u8 fun _ => sound_pure _

theorem sound_body (h : Header) (data : Bytes) (m : Bool) :
    Sound (Rd.lift (readDataframeBody h data m)) (bodyPs h data m) := by
  intro s s' f hf
  unfold Rd.lift at hf
  simp only [Prod.mk.injEq] at hf
  obtain ⟨h1, rfl⟩ := hf
  unfold bodyPs; rw [h1]

theorem sound_frame (masked : Bool) (limit : Nat) (big : WsErr) :
    Sound (readDataframeWithLimit masked limit) (parseFrame masked limit big) := by
  unfold readDataframeWithLimit parseFrame
  refine sound_bind sound_header fun h => ?_
  refine sound_ite _ (sound_fail _ _) ?_
  unfold vecWithCapacity
  split
  · intro s s' b hb
    have hb' : (Res.panic "capacity overflow", s) = (Res.ok b, s') := hb
    simp at hb'
  · intro s s' b hb
    exact sound_bind (sound_payload _) (fun _ => sound_body _ _ _) s s' b hb

theorem rd_bind_apply {α β} (m : Rd α) (f : α → Rd β) (s : Src) :
    (m >>= f) s = match m s with
      | (.ok a, s') => f a s'
      | (.err e, s') => (.err e, s')
      | (.panic e, s') => (.panic e, s') := rfl

/-- The reader without limit is the reader with limit `isize::MAX`, except that it panics where
that one reports an error. -/
theorem readDataframe_eq (m : Bool) (s : Src) :
    readDataframe m s = match readHeader s with
      | (.ok h, s') => if h.len > isizeMax then (.panic "capacity overflow", s')
          else readDataframeWithLimit m isizeMax s
      | _ => readDataframeWithLimit m isizeMax s := by
  unfold readDataframe readDataframeWithLimit
  simp only [rd_bind_apply]
  cases readHeader s with
  | mk r s' =>
    cases r with
    | err e => rfl
    | panic e => rfl
    | ok h =>
      simp only
      unfold vecWithCapacity
      by_cases hl : h.len > isizeMax
      · simp [hl, Rd.lift]
      · rw [if_neg hl, if_neg hl, if_neg hl]; rfl

/-! ### No panics -/

def NoPanic {α} (m : Rd α) : Prop := ∀ s, (m s).1.isPanic = false

theorem noPanic_pure {α} (a : α) : NoPanic (pure a) := fun _ => rfl
theorem noPanic_fail {α} (e : WsErr) : NoPanic (Rd.fail e : Rd α) := fun _ => rfl
theorem noPanic_exact (n : Nat) : NoPanic (Rd.exact n) := by
  intro s; unfold Rd.exact; split <;> rfl
theorem noPanic_payload (n : Nat) : NoPanic (readPayload n) := by
  intro s; unfold readPayload; split
  · split <;> rfl
  · rfl
theorem noPanic_bind {α β} {m : Rd α} {f : α → Rd β} (hm : NoPanic m)
    (hf : ∀ a s s', m s = (.ok a, s') → NoPanic (f a)) : NoPanic (m >>= f) := by
  intro s
  rw [rd_bind_apply]
  have h := hm s
  cases hms : m s with
  | mk r s' =>
    rw [hms] at h
    cases r with
    | ok a => exact hf a s s' hms s'
    | err e => rfl
    | panic e => simp at h
theorem noPanic_ite {α} (c : Prop) [Decidable c] {m m' : Rd α} (h : NoPanic m) (h' : NoPanic m') :
    NoPanic (if c then m else m') := by split <;> assumption

theorem noPanic_u8 : NoPanic Rd.u8 := noPanic_bind (noPanic_exact 1) fun _ _ _ _ => noPanic_pure _

theorem noPanic_header : NoPanic readHeader := by
  unfold readHeader readLen readMask
  refine noPanic_bind noPanic_u8 fun byte0 _ _ _ => ?_
  refine noPanic_bind noPanic_u8 fun byte1 _ _ _ => ?_
  refine noPanic_bind ?_ fun len _ _ _ => ?_
  · refine noPanic_ite _ (noPanic_pure _) (noPanic_ite _ ?_ ?_)
    · refine noPanic_bind (noPanic_bind (noPanic_exact 2) fun b _ _ _ => noPanic_pure _) fun len _ _ _ => ?_
      exact noPanic_ite _ (noPanic_fail _) (noPanic_pure _)
    · refine noPanic_bind (noPanic_bind (noPanic_exact 8) fun b _ _ _ => noPanic_pure _) fun len _ _ _ => ?_
      exact noPanic_ite _ (noPanic_fail _) (noPanic_pure _)
  · refine noPanic_ite _ (noPanic_fail _) (noPanic_ite _ (noPanic_fail _) ?_)
    refine noPanic_bind ?_ fun mask _ _ _ => noPanic_pure _
    refine noPanic_ite _ ?_ (noPanic_pure _)
    exact noPanic_bind noPanic_u8 fun _ _ _ _ => noPanic_bind noPanic_u8 fun _ _ _ _ =>
      noPanic_bind noPanic_u8 fun _ _ _ _ => noPanic_bind noPanic_u8 fun _ _ _ _ => noPanic_pure _

theorem noPanic_frame (m : Bool) (limit : Nat) (hl : limit ≤ isizeMax) :
    NoPanic (readDataframeWithLimit m limit) := by
  unfold readDataframeWithLimit
  refine noPanic_bind noPanic_header fun h s s' hs => ?_
  have hop := parseHeader_opcode (sound_header _ _ _ hs)
  by_cases hc : h.len > limit
  · rw [if_pos hc]; exact noPanic_fail _
  · rw [if_neg hc]
    unfold vecWithCapacity
    rw [if_neg (by omega)]
    refine noPanic_bind (noPanic_pure _) fun _ _ _ _ => noPanic_bind (noPanic_payload _) fun data _ _ _ => ?_
    intro s
    exact readDataframeBody_no_panic h hop data m

/-! ### Writes -/

theorem writeAll_ok {bs : Bytes} {w w' : Sink} (h : w.writeAll bs = (.ok (), w')) :
    w'.wire = w.wire ++ bs := by
  fun_induction Sink.writeAll bs w with
  | case1 => simp at h; simp [← h]
  | case2 => simp at h; simp [← h]
  | case3 _ _ _ _ ih => exact ih h
  | case4 => simp at h
  | case5 => simp at h
  | case6 bs _ wire n s _ ih =>
    rw [ih h]; simp

theorem writeAll_prefix (bs : Bytes) (w : Sink) :
    ∃ pre, pre <+: bs ∧ (w.writeAll bs).2.wire = w.wire ++ pre := by
  fun_induction Sink.writeAll bs w with
  | case1 => exact ⟨[], by simp, by simp⟩
  | case2 bs => exact ⟨bs, by simp, by simp⟩
  | case3 _ _ _ _ ih => exact ih
  | case4 => exact ⟨[], by simp, by simp⟩
  | case5 => exact ⟨[], by simp, by simp⟩
  | case6 bs hb wire n s hn ih =>
    obtain ⟨pre, ⟨t, ht⟩, h2⟩ := ih
    refine ⟨bs.take n ++ pre, ⟨t, ?_⟩, by rw [h2]; simp⟩
    rw [List.append_assoc, ht, List.take_append_drop]

theorem writeAll_vec (bs wire : Bytes) : Sink.writeAll bs ⟨wire, []⟩ = (.ok (), ⟨wire ++ bs, []⟩) := by
  unfold Sink.writeAll
  split
  · simp [*]
  · rfl

theorem writeTo_ok {v : FrameView} {key : Option Key4} {w w' : Sink} (h : v.writeTo key w = (.ok (), w')) :
    ∃ bs, v.encode key = .ok bs ∧ w'.wire = w.wire ++ bs := by
  unfold FrameView.writeTo at h
  split at h
  · next data he =>
    split at h
    · next heq =>
      simp only [Prod.mk.injEq, true_and] at h
      subst h
      exact ⟨data, he, writeAll_ok heq⟩
    · simp at h
  · simp at h
  · simp at h

theorem frameSize_eq {v : FrameView} (hv : v.Lawful) {key : Option Key4} {bs : Bytes}
    (h : v.encode key = .ok bs) : bs.length = v.frameSize key.isSome := by
  rw [encode_eq] at h
  cases hw : writeHeader (v.header key) with
  | err e => rw [hw] at h; simp [Res.bind] at h
  | panic e => rw [hw] at h; simp [Res.bind] at h
  | ok hdr =>
    rw [hw] at h
    simp only [Res.bind, Res.ok.injEq] at h
    have hp : (maskOpt key v.writes.flatten).length = v.size := by
      rw [hv.size_eq]
      rw [maskOpt_length, hv.writes_eq]
    have hg : ∀ n : Nat, (if n ≥ 126 ∧ n ≤ 65535 then beBytes 2 n else if n > 65535 then beBytes 8 n else []).length + 1
        = if n ≤ 125 then 1 else if n ≤ 65535 then 3 else 9 := by
      intro n
      by_cases h1 : n ≤ 125
      · rw [if_neg (by omega), if_neg (by omega), if_pos h1]; simp
      · by_cases h2 : n ≤ 65535
        · rw [if_pos (by omega), if_neg h1, if_pos h2]; simp [beBytes_length]
        · rw [if_neg (by omega), if_pos (by omega), if_neg h1, if_neg h2]; simp [beBytes_length]
    have hh : hdr.length = 1 + (if v.size ≤ 125 then 1 else if v.size ≤ 65535 then 3 else 9)
        + (if key.isSome then 4 else 0) := by
      unfold writeHeader at hw
      split at hw
      · simp at hw
      · split at hw
        · simp at hw
        · simp only [Res.ok.injEq] at hw
          unfold FrameView.header at hw
          rw [← hw]
          have hk : ((key.map Key4.toBytes).getD []).length = if key.isSome then 4 else 0 := by
            cases key <;> rfl
          simp only [List.length_append, List.length_cons, List.length_nil, hk]
          have := hg v.size
          omega
    rw [← h, List.length_append, hp, hh]
    unfold FrameView.frameSize
    omega

theorem Msg.lawful (m : Msg) : m.view.Lawful := by
  obtain ⟨o, c, p⟩ := m
  cases c <;> constructor <;> simp [Msg.view, beBytes_length, Nat.add_comm]

theorem OwnedMsg.lawful (m : OwnedMsg) : m.view.Lawful := by
  rcases m with _ | _ | (_ | c) | _ | _ <;> constructor <;>
    simp [OwnedMsg.view, beBytes_length, Nat.add_comm]

end WS
