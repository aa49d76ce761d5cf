import Verif.Lemmas.Heard
import Verif.Spec.Blame
/-! Errors of receive calls and their causes. -/

namespace WS
open Spec (IsFrame ControlOk Wire Delivers Allowed FitsLoosely Carried Takes Halts FrameFault MessageFault Unreadable NoWholeFrame Announces Names chunkBytes)
open Spec (Cause DecodeCause StreamCause)

theorem Takes.trans' {as bs : Bytes} {s s₁ s' : Src} (h : Takes as s s₁) (g : Takes bs s₁ s') : Takes (as ++ bs) s s' := by
  induction h with
  | refl => exact g
  | interrupted _ ih => exact .interrupted (ih g)
  | whole hb _ ih => rw [List.append_assoc]; exact .whole hb (ih g)
  | @start b c s hb hc =>
    cases g with
    | refl => rw [List.append_nil]; exact .start hb hc
    | whole hb' g => rw [← List.append_assoc]; exact .whole (by simp [hb]) g
    | @start b' c' _ hb' hc' => rw [← List.append_assoc]; exact .start (by simp [hb]) hc'

theorem Takes.flat {as : Bytes} {s s' : Src} (h : Takes as s s') : Src.flat s = as ++ Src.flat s' := by
  induction h with
  | refl => rfl
  | interrupted _ ih => exact ih
  | whole hb _ ih => simp [Src.flat, ih]
  | start hb hc => simp [Src.flat]

/-- The reads of `m` follow the parser `p`, whatever the transport does. -/
def Follows {α} (m : Rd α) (p : Ps α) : Prop := ∀ s r s', m s = (r, s') →
  (∀ a, r = .ok a → ∃ bs, Takes bs s s' ∧ ∀ x, p (bs ++ x) = .ok a x) ∧
  (∀ e, r = .err e → (∃ bs, Takes bs s s' ∧ ∀ x, p (bs ++ x) = .err e x) ∨
    ∃ bs s₁, Takes bs s s₁ ∧ Halts e s₁ s' ∧ p bs = .more)

theorem halts_io {k : IoKind} (h : k ≠ .interrupted) {s : Src} : Halts (WsErr.ofIo k) (.error k :: s) s := by
  cases k with
  | unexpectedEof => exact .saidEnd
  | interrupted => exact absurd rfl h
  | _ => exact .failed (by decide) (by decide)

theorem readExact_follows (n : Nat) (s s' : Src) :
    (∀ b, readExact n s = (.ok b, s') → Takes b s s' ∧ b.length = n) ∧
    (∀ k, readExact n s = (.error k, s') → ∃ bs s₁, Takes bs s s₁ ∧ Halts (WsErr.ofIo k) s₁ s' ∧ bs.length < n) := by
  induction s generalizing n with
  | nil =>
    unfold readExact
    by_cases hn : n = 0
    · simp only [hn, if_true, Prod.mk.injEq, Except.ok.injEq, reduceCtorEq, false_and, false_implies, implies_true, and_true]
      rintro b ⟨rfl, rfl⟩; exact ⟨.refl, rfl⟩
    · simp only [hn, if_false, Prod.mk.injEq, Except.error.injEq, reduceCtorEq, false_and, false_implies, implies_true, true_and]
      rintro k ⟨rfl, rfl⟩; exact ⟨[], [], .refl, .exhausted, by simp; omega⟩
  | cons e rest ih =>
    unfold readExact
    cases e with
    | error k =>
      by_cases hn : n = 0
      · simp only [hn, if_true, Prod.mk.injEq, Except.ok.injEq, reduceCtorEq, false_and, false_implies, implies_true, and_true]
        rintro b ⟨rfl, rfl⟩; exact ⟨.refl, rfl⟩
      · simp only [hn, if_false]
        by_cases hk : k = .interrupted
        · subst hk
          simp only [if_true]
          obtain ⟨h1, h2⟩ := ih n
          refine ⟨fun b h => ⟨.interrupted (h1 b h).1, (h1 b h).2⟩, fun k h => ?_⟩
          obtain ⟨bs, s₁, a, b, c⟩ := h2 k h
          exact ⟨bs, s₁, .interrupted a, b, c⟩
        · simp only [hk, if_false, Prod.mk.injEq, Except.error.injEq, reduceCtorEq, false_and, false_implies, implies_true, true_and]
          rintro k' ⟨rfl, rfl⟩
          exact ⟨[], _, .refl, halts_io hk, by simp; omega⟩
    | chunk c =>
      by_cases hn : n = 0
      · simp only [hn, if_true, Prod.mk.injEq, Except.ok.injEq, reduceCtorEq, false_and, false_implies, implies_true, and_true]
        rintro b ⟨rfl, rfl⟩; exact ⟨.refl, rfl⟩
      · simp only [hn, if_false]
        by_cases hc : c = []
        · subst hc
          simp only [if_true, Prod.mk.injEq, Except.error.injEq, reduceCtorEq, false_and, false_implies, implies_true, true_and]
          rintro k' ⟨rfl, rfl⟩
          exact ⟨[], _, .refl, .ended, by simp; omega⟩
        · simp only [hc, if_false]
          by_cases hl : c.length ≤ n
          · simp only [hl, if_true]
            obtain ⟨h1, h2⟩ := ih (n - c.length)
            cases hr : readExact (n - c.length) rest with
            | mk r t =>
              rw [hr] at h1 h2
              cases r with
              | ok b' =>
                simp only [Prod.mk.injEq, Except.ok.injEq, reduceCtorEq, false_and, false_implies, implies_true, and_true] at h1 ⊢
                rintro b ⟨rfl, rfl⟩
                obtain ⟨a, d⟩ := h1 b' ⟨rfl, rfl⟩
                exact ⟨.whole hc a, by simp [d]; omega⟩
              | error k =>
                simp only [Prod.mk.injEq, Except.error.injEq, reduceCtorEq, false_and, false_implies, implies_true, true_and] at h2 ⊢
                rintro k' ⟨rfl, rfl⟩
                obtain ⟨bs, s₁, a, b, d⟩ := h2 k ⟨rfl, rfl⟩
                exact ⟨c ++ bs, s₁, .whole hc a, b, by simp; omega⟩
          · simp only [hl, if_false, Prod.mk.injEq, Except.ok.injEq, reduceCtorEq, false_and, false_implies, implies_true, and_true]
            rintro b ⟨rfl, rfl⟩
            refine ⟨?_, by simp; omega⟩
            have := Takes.start (b := c.take n) (c := c.drop n) (s := rest) (by simp [hn, hc])
              (by intro h; have := congrArg List.length h; simp at this; omega)
            rwa [List.take_append_drop] at this

theorem takeToEnd_follows (n : Nat) (s s' : Src) :
    (∀ b, takeToEnd n s = (.ok b, s') → (b.length = n ∧ Takes b s s') ∨ (b.length < n ∧ ∃ s₁, Takes b s s₁ ∧ Halts .noData s₁ s')) ∧
    (∀ k, takeToEnd n s = (.error k, s') → ∃ bs s₁, Takes bs s s₁ ∧ Halts (WsErr.ofIo k) s₁ s' ∧ bs.length < n) := by
  induction s generalizing n with
  | nil =>
    unfold takeToEnd
    simp only [Prod.mk.injEq, Except.ok.injEq, reduceCtorEq, false_and, false_implies, implies_true, and_true]
    rintro b ⟨rfl, rfl⟩
    by_cases hn : n = 0
    · exact .inl ⟨hn.symm, .refl⟩
    · exact .inr ⟨by simp; omega, [], .refl, .exhausted⟩
  | cons e rest ih =>
    unfold takeToEnd
    cases e with
    | error k =>
      by_cases hn : n = 0
      · simp only [hn, if_true, Prod.mk.injEq, Except.ok.injEq, reduceCtorEq, false_and, false_implies, implies_true, and_true]
        rintro b ⟨rfl, rfl⟩; exact .inl ⟨rfl, .refl⟩
      · simp only [hn, if_false]
        by_cases hk : k = .interrupted
        · subst hk
          simp only [if_true]
          obtain ⟨h1, h2⟩ := ih n
          refine ⟨fun b h => ?_, fun k h => ?_⟩
          · rcases h1 b h with ⟨a, c⟩ | ⟨a, s₁, c, d⟩
            · exact .inl ⟨a, .interrupted c⟩
            · exact .inr ⟨a, s₁, .interrupted c, d⟩
          · obtain ⟨bs, s₁, a, b, c⟩ := h2 k h
            exact ⟨bs, s₁, .interrupted a, b, c⟩
        · simp only [hk, if_false, Prod.mk.injEq, Except.error.injEq, reduceCtorEq, false_and, false_implies, implies_true, true_and]
          rintro k' ⟨rfl, rfl⟩
          exact ⟨[], _, .refl, halts_io hk, by simp; omega⟩
    | chunk c =>
      by_cases hn : n = 0
      · simp only [hn, if_true, Prod.mk.injEq, Except.ok.injEq, reduceCtorEq, false_and, false_implies, implies_true, and_true]
        rintro b ⟨rfl, rfl⟩; exact .inl ⟨rfl, .refl⟩
      · simp only [hn, if_false]
        by_cases hc : c = []
        · subst hc
          simp only [if_true, Prod.mk.injEq, Except.ok.injEq, reduceCtorEq, false_and, false_implies, implies_true, and_true]
          rintro b ⟨rfl, rfl⟩
          exact .inr ⟨by simp; omega, _, .refl, .ended⟩
        · simp only [hc, if_false]
          by_cases hl : c.length ≤ n
          · simp only [hl, if_true]
            obtain ⟨h1, h2⟩ := ih (n - c.length)
            cases hr : takeToEnd (n - c.length) rest with
            | mk r t =>
              rw [hr] at h1 h2
              cases r with
              | ok b' =>
                simp only [Prod.mk.injEq, Except.ok.injEq, reduceCtorEq, false_and, false_implies, implies_true, and_true] at h1 ⊢
                rintro b ⟨rfl, rfl⟩
                rcases h1 b' ⟨rfl, rfl⟩ with ⟨a, d⟩ | ⟨a, s₁, d, g⟩
                · exact .inl ⟨by simp [a]; omega, .whole hc d⟩
                · exact .inr ⟨by simp; omega, s₁, .whole hc d, g⟩
              | error k =>
                simp only [Prod.mk.injEq, Except.error.injEq, reduceCtorEq, false_and, false_implies, implies_true, true_and] at h2 ⊢
                rintro k' ⟨rfl, rfl⟩
                obtain ⟨bs, s₁, a, b, d⟩ := h2 k ⟨rfl, rfl⟩
                exact ⟨c ++ bs, s₁, .whole hc a, b, by simp; omega⟩
          · simp only [hl, if_false, Prod.mk.injEq, Except.ok.injEq, reduceCtorEq, false_and, false_implies, implies_true, and_true]
            rintro b ⟨rfl, rfl⟩
            refine .inl ⟨by simp; omega, ?_⟩
            have := Takes.start (b := c.take n) (c := c.drop n) (s := rest) (by simp [hn, hc])
              (by intro h; have := congrArg List.length h; simp at this; omega)
            rwa [List.take_append_drop] at this

theorem take_more {n : Nat} {bs : Bytes} (h : bs.length < n) : Ps.take n bs = .more := by
  unfold Ps.take; rw [if_neg (by omega)]

theorem follows_exact (n : Nat) : Follows (Rd.exact n) (Ps.take n) := by
  intro s r s' h
  unfold Rd.exact at h
  obtain ⟨h1, h2⟩ := readExact_follows n s s'
  split at h
  · next b t heq =>
    simp only [Prod.mk.injEq] at h
    obtain ⟨rfl, rfl⟩ := h
    refine ⟨?_, by simp⟩
    rintro a ha
    cases ha
    obtain ⟨a, b⟩ := h1 _ heq
    exact ⟨_, a, fun x => Ps.take_append b⟩
  · next k t heq =>
    simp only [Prod.mk.injEq] at h
    obtain ⟨rfl, rfl⟩ := h
    refine ⟨by simp, ?_⟩
    rintro e he
    cases he
    obtain ⟨bs, s₁, a, b, c⟩ := h2 _ heq
    exact .inr ⟨bs, s₁, a, b, take_more c⟩

theorem follows_payload (n : Nat) : Follows (readPayload n) (Ps.take n) := by
  intro s r s' h
  unfold readPayload at h
  obtain ⟨h1, h2⟩ := takeToEnd_follows n s s'
  split at h
  · next b t heq =>
    split at h
    · next hlt =>
      simp only [Prod.mk.injEq] at h
      obtain ⟨rfl, rfl⟩ := h
      refine ⟨by simp, ?_⟩
      rintro e he
      cases he
      rcases h1 _ heq with ⟨a, c⟩ | ⟨a, s₁, c, d⟩
      · omega
      · exact .inr ⟨_, s₁, c, d, take_more a⟩
    · next hlt =>
      simp only [Prod.mk.injEq] at h
      obtain ⟨rfl, rfl⟩ := h
      refine ⟨?_, by simp⟩
      rintro a ha
      cases ha
      rcases h1 _ heq with ⟨a, c⟩ | ⟨a, s₁, c, d⟩
      · exact ⟨_, c, fun x => Ps.take_append a⟩
      · omega
  · next k t heq =>
    simp only [Prod.mk.injEq] at h
    obtain ⟨rfl, rfl⟩ := h
    refine ⟨by simp, ?_⟩
    rintro e he
    cases he
    obtain ⟨bs, s₁, a, b, c⟩ := h2 _ heq
    exact .inr ⟨bs, s₁, a, b, take_more c⟩

theorem follows_pure {α} (a : α) : Follows (pure a) (pure a) := by
  intro s r s' h
  have h' : (Res.ok a, s) = (r, s') := h
  simp only [Prod.mk.injEq] at h'
  obtain ⟨rfl, rfl⟩ := h'
  exact ⟨fun b hb => by cases hb; exact ⟨[], .refl, fun x => rfl⟩, by simp⟩

theorem follows_fail {α} (e : WsErr) : Follows (Rd.fail e : Rd α) (Ps.fail e) := by
  intro s r s' h
  unfold Rd.fail at h
  simp only [Prod.mk.injEq] at h
  obtain ⟨rfl, rfl⟩ := h
  exact ⟨by simp, fun b hb => by cases hb; exact .inl ⟨[], .refl, fun x => rfl⟩⟩

theorem follows_bind {α β} {m : Rd α} {p : Ps α} {f : α → Rd β} {g : α → Ps β} (hm : Follows m p) (hf : ∀ a, Follows (f a) (g a)) :
    Follows (m >>= f) (p >>= g) := by
  intro s r s' h
  have h' : Rd.bind m f s = (r, s') := h
  unfold Rd.bind at h'
  cases hms : m s with
  | mk r1 s1 =>
    rw [hms] at h'
    obtain ⟨h1, h2⟩ := hm s r1 s1 hms
    cases r1 with
    | ok a =>
      obtain ⟨bs, ht, hp⟩ := h1 a rfl
      obtain ⟨k1, k2⟩ := hf a s1 r s' h'
      constructor
      · intro b hb
        obtain ⟨bs', ht', hp'⟩ := k1 b hb
        exact ⟨bs ++ bs', Takes.trans' ht ht', fun x => by rw [Ps.bind_def, List.append_assoc, hp]; exact hp' x⟩
      · intro e he
        rcases k2 e he with ⟨bs', ht', hp'⟩ | ⟨bs', s₁, ht', hh, hp'⟩
        · exact .inl ⟨bs ++ bs', Takes.trans' ht ht', fun x => by rw [Ps.bind_def, List.append_assoc, hp]; exact hp' x⟩
        · exact .inr ⟨bs ++ bs', s₁, Takes.trans' ht ht', hh, by rw [Ps.bind_def, hp]; exact hp'⟩
    | err e =>
      simp only [Prod.mk.injEq] at h'
      obtain ⟨rfl, rfl⟩ := h'
      refine ⟨by simp, fun e' he' => ?_⟩
      cases he'
      rcases h2 e rfl with ⟨bs', ht', hp'⟩ | ⟨bs', s₁, ht', hh, hp'⟩
      · exact .inl ⟨bs', ht', fun x => by rw [Ps.bind_def, hp']⟩
      · exact .inr ⟨bs', s₁, ht', hh, by rw [Ps.bind_def, hp']⟩
    | panic e =>
      simp only [Prod.mk.injEq] at h'
      obtain ⟨rfl, rfl⟩ := h'
      exact ⟨by simp, by simp⟩

theorem follows_ite {α} (c : Prop) [Decidable c] {m m' : Rd α} {p p' : Ps α} (h : Follows m p) (h' : Follows m' p') :
    Follows (if c then m else m') (if c then p else p') := by split <;> assumption

theorem follows_u8 : Follows Rd.u8 Ps.u8 := by
  have h : Follows Rd.u8 (do let b ← Ps.take 1; pure (b.headD 0)) := follows_bind (follows_exact 1) (fun b => follows_pure _)
  have e : (do let b ← Ps.take 1; pure (b.headD 0)) = Ps.u8 := by
    funext bs
    show Ps.bind (Ps.take 1) _ bs = _
    cases bs <;> simp [Ps.bind, Ps.take, Ps.u8] <;> rfl
  exact e ▸ h

theorem follows_header : Follows readHeader parseHeader := by
  unfold readHeader parseHeader readLen parseLen readMask parseMask
  refine follows_bind follows_u8 fun byte0 => ?_
  refine follows_bind follows_u8 fun byte1 => ?_
  refine follows_bind ?_ fun len => ?_
  · refine follows_ite _ (follows_pure _) ?_
    refine follows_ite _ ?_ ?_
    · refine follows_bind (follows_bind (follows_exact 2) fun b => follows_pure _) fun len => ?_
      exact follows_ite _ (follows_fail _) (follows_pure _)
    · refine follows_bind (follows_bind (follows_exact 8) fun b => follows_pure _) fun len => ?_
      exact follows_ite _ (follows_fail _) (follows_pure _)
  · refine follows_ite _ (follows_fail _) ?_
    refine follows_ite _ (follows_fail _) ?_
    refine follows_bind ?_ fun mask => follows_pure _
    refine follows_ite _ ?_ (follows_pure _)
    exact follows_bind follows_u8 fun _ => follows_bind follows_u8 fun _ =>
      follows_bind follows_u8 fun _ => follows_bind follows_u8 fun _ => follows_pure _

theorem follows_body (h : Header) (data : Bytes) (m : Bool) :
    Follows (Rd.lift (readDataframeBody h data m)) (bodyPs h data m) := by
  intro s r s' hf
  unfold Rd.lift at hf
  simp only [Prod.mk.injEq] at hf
  obtain ⟨rfl, rfl⟩ := hf
  refine ⟨fun a ha => ⟨[], .refl, fun x => ?_⟩, fun e he => .inl ⟨[], .refl, fun x => ?_⟩⟩
  · unfold bodyPs; rw [ha]; rfl
  · unfold bodyPs; rw [he]; rfl

theorem follows_frame (masked : Bool) (limit : Nat) (hlim : limit ≤ isizeMax) :
    Follows (readDataframeWithLimit masked limit) (parseFrame masked limit (.io .invalidData)) := by
  unfold readDataframeWithLimit parseFrame
  refine follows_bind follows_header fun h => ?_
  by_cases hl : h.len > limit
  · rw [if_pos hl, if_pos hl]; exact follows_fail _
  · rw [if_neg hl, if_neg hl]
    unfold vecWithCapacity
    rw [if_neg (by omega)]
    have := follows_bind (follows_payload h.len) (fun data => follows_body h data masked)
    exact this

/-! ### The faults of a frame -/

theorem parseLen_err {b1 : UInt8} {bs rest : Bytes} {e : WsErr} (h : parseLen b1 bs = .err e rest) :
    e = .dataFrame "Invalid data frame length" ∧ ∃ ext, bs = ext ++ rest ∧
      ((b1.toNat % 128 = 126 ∧ ext.length = 2 ∧ Spec.be ext ≤ 125) ∨ (b1.toNat % 128 = 127 ∧ ext.length = 8 ∧ Spec.be ext ≤ 65535)) := by
  refine ⟨parseLen_no_noData _ _ _ _ h, ?_⟩
  have hb := u8_and7F b1
  unfold parseLen at h
  split at h
  · simp at h
  · next h125 =>
    split at h
    · next h126 =>
      simp only [Ps.bind_def] at h
      cases ht : Ps.take 2 bs with
      | more => rw [ht] at h; simp at h
      | err e r => unfold Ps.take at ht; split at ht <;> cases ht
      | ok a r =>
        rw [ht] at h
        simp only [Ps.pure_apply] at h
        obtain ⟨h1, h2⟩ := Ps.take_ok_iff.mp ht
        split at h
        · next hle =>
          simp only [Ps.fail_apply, PRes.err.injEq] at h
          obtain ⟨-, rfl⟩ := h
          refine ⟨a, h2, .inl ⟨?_, h1, ?_⟩⟩
          · rw [← hb, h126]; rfl
          · rw [← beNat_eq]; exact hle
        · simp at h
    · next h126 =>
      simp only [Ps.bind_def] at h
      cases ht : Ps.take 8 bs with
      | more => rw [ht] at h; simp at h
      | err e r => unfold Ps.take at ht; split at ht <;> cases ht
      | ok a r =>
        rw [ht] at h
        simp only [Ps.pure_apply] at h
        obtain ⟨h1, h2⟩ := Ps.take_ok_iff.mp ht
        split at h
        · next hle =>
          simp only [Ps.fail_apply, PRes.err.injEq] at h
          obtain ⟨-, rfl⟩ := h
          refine ⟨a, h2, .inr ⟨?_, h1, ?_⟩⟩
          · have h1 : ¬ b1.toNat % 128 ≤ 125 := by
              intro hc; apply h125; rw [u8_le_iff, hb]; exact hc
            have h2 : b1.toNat % 128 ≠ 126 := by
              intro hc; apply h126; apply u8_eq_of_toNat; rw [hb]; exact hc
            omega
          · rw [← beNat_eq]; exact hle
        · simp at h

theorem parseHeader_fault {masked : Bool} {limit : Nat} {big : WsErr} {bs rest : Bytes} {e : WsErr} (h : parseHeader bs = .err e rest) :
    ∃ pre, bs = pre ++ rest ∧ FrameFault masked limit big e pre := by
  unfold parseHeader at h
  simp only [Ps.bind_def] at h
  cases bs with
  | nil => simp at h
  | cons b0 bs =>
    cases bs with
    | nil => simp at h
    | cons b1 bs =>
      simp only [Ps.u8_cons] at h
      cases hl : parseLen b1 bs with
      | more => simp only [hl] at h; simp at h
      | err e' r =>
        simp only [hl, PRes.err.injEq] at h
        obtain ⟨rfl, rfl⟩ := h
        obtain ⟨rfl, ext, rfl, h1 | h1⟩ := parseLen_err hl
        · exact ⟨b0 :: b1 :: ext, rfl, .longForm16 h1.1 h1.2.1 h1.2.2⟩
        · exact ⟨b0 :: b1 :: ext, rfl, .longForm64 h1.1 h1.2.1 h1.2.2⟩
      | ok n r =>
        simp only [hl] at h
        obtain ⟨ext, h1, rfl⟩ := parseLen_ok_iff.mp hl
        split at h
        · next hc =>
          simp only [Ps.fail_apply, PRes.err.injEq] at h
          obtain ⟨rfl, rfl⟩ := h
          refine ⟨b0 :: b1 :: ext, rfl, .longControl ?_ ?_⟩
          · have := (u8_le_iff _ _).mp hc.1; rwa [u8_and0F] at this
          · have hn := hc.2
            generalize b1.toNat % 128 = l at h1 ⊢
            cases h1 <;> omega
        · split at h
          · next hc =>
            simp only [Ps.fail_apply, PRes.err.injEq] at h
            obtain ⟨rfl, rfl⟩ := h
            refine ⟨b0 :: b1 :: ext, rfl, .partControl ?_ ?_⟩
            · have := (u8_le_iff _ _).mp hc.1; rwa [u8_and0F] at this
            · have h2 := hc.2
              rw [flag_fin] at h2
              simpa using h2
          · unfold parseMask at h
            split at h
            · exfalso
              rcases r with _ | ⟨_, _ | ⟨_, _ | ⟨_, _ | ⟨_, _⟩⟩⟩⟩ <;> simp [Ps.bind_def] at h
            · simp [Ps.bind_def] at h

theorem announces_header {bs rest : Bytes} {h : Header} (hp : parseHeader bs = .ok h rest) : ∃ pre, bs = pre ++ rest ∧ Announces h.len pre := by
  obtain ⟨b0, b1, ext, hbs, hl, hm, -, -, -⟩ := parseHeader_ok_iff.mp hp
  have hk : ((h.mask.map Key4.toBytes).getD []).length = if 128 ≤ b1.toNat then 4 else 0 := by
    cases hmm : h.mask with
    | none => rw [hmm] at hm; simp at hm; rw [if_neg (by omega)]; rfl
    | some k => rw [hmm] at hm; simp at hm; rw [if_pos hm]; rfl
  refine ⟨b0 :: b1 :: (ext ++ (h.mask.map Key4.toBytes).getD []), by rw [hbs]; simp, ?_⟩
  generalize h.len = n at *
  generalize hg : b1.toNat % 128 = l at hl
  cases hl with
  | short hn => exact .short hg hn hk
  | medium ext a b c d => exact .medium hg c d hk
  | long ext a b c => exact .long hg b c hk

theorem body_unmasked {h : Header} {b0 : UInt8} (hf : h.flags = fromBitsTruncate b0) (ho : h.opcode = b0 &&& 0x0F) {data : Bytes} {m : Bool} {e : WsErr}
    (hb : readDataframeBody h data m = .err e) : h.mask.isSome = !m ∧ ∃ f, readDataframeBody h data (!m) = .ok f := by
  unfold readDataframeBody at hb ⊢
  split at hb
  · cases hb
  · next o ho =>
    cases hm : h.mask <;> cases m <;> simp [hm] at hb ⊢

theorem parseFrame_fault {m : Bool} {lim : Nat} (hlim : lim < 2 ^ 63) {big : WsErr} {bs rest : Bytes} {e : WsErr}
    (h : parseFrame m lim big bs = .err e rest) : ∃ pre, bs = pre ++ rest ∧ FrameFault m lim big e pre := by
  have h0 := h
  unfold parseFrame at h
  rw [Ps.bind_def] at h
  cases hp : parseHeader bs with
  | more => rw [hp] at h; cases h
  | err e' r =>
    rw [hp] at h
    simp only [PRes.err.injEq] at h
    obtain ⟨rfl, rfl⟩ := h
    exact parseHeader_fault hp
  | ok hd mid =>
    rw [hp] at h
    simp only at h
    by_cases hl : hd.len > lim
    · rw [if_pos hl] at h
      simp only [Ps.fail_apply, PRes.err.injEq] at h
      obtain ⟨rfl, rfl⟩ := h
      obtain ⟨pre, h1, h2⟩ := announces_header hp
      exact ⟨pre, h1, .tooBig h2 hl⟩
    · rw [if_neg hl, Ps.bind_def] at h
      cases ht : Ps.take hd.len mid with
      | more => rw [ht] at h; cases h
      | err e' r => unfold Ps.take at ht; split at ht <;> cases ht
      | ok data r =>
        rw [ht] at h
        simp only at h
        obtain ⟨b0, b1, ext, hbs, hlo, hmk, hfl, hop, hc⟩ := parseHeader_ok_iff.mp hp
        unfold bodyPs at h
        cases hb : readDataframeBody hd data m with
        | ok f => rw [hb] at h; cases h
        | panic w => rw [hb] at h; have := readDataframeBody_no_panic hd (by rw [hop, u8_and0F]; omega) data m; rw [hb] at this; cases this
        | err e' =>
          rw [hb] at h
          simp only [PRes.err.injEq] at h
          obtain ⟨rfl, rfl⟩ := h
          obtain ⟨hms, f, hf⟩ := body_unmasked hfl hop hb
          have e2 : parseFrame (!m) lim big bs = .ok f r := by
            unfold parseFrame
            rw [Ps.bind_def, hp]
            simp only
            rw [if_neg hl, Ps.bind_def, ht]
            simp only
            unfold bodyPs; rw [hf]
          obtain ⟨g1, g2, key, pre, g3, g4, g5⟩ := (parseFrame_ok_iff hlim).mp e2
          refine ⟨pre, g3, ?_⟩
          have he := body_err hb
          cases m with
          | true =>
            simp at g4
            subst g4
            rw [he]
            exact .unmasked g5 rfl
          | false =>
            cases key with
            | none => simp at g4
            | some k => rw [he]; exact .masked g5 rfl

theorem parseFrame_more {m : Bool} {lim : Nat} {big : WsErr} {bs : Bytes} (h : parseFrame m lim big bs = .more) : NoWholeFrame bs := by
  intro f key pre rest hbs hf hc
  subst hbs
  have h63 : f.payload.length < 2 ^ 63 := by
    obtain ⟨b0, b1, l7, ext, body, h1, -, -, h2, hl, -⟩ := hf
    cases hl <;> omega
  obtain ⟨g, rfl, hg⟩ := parseFrame_isFrame h63 (big := big) hf rfl hc (Nat.le_refl _) rest
  unfold parseFrame at h hg
  rw [Ps.bind_ok_iff] at hg
  obtain ⟨hd, mid, hp, hg⟩ := hg
  rw [Ps.bind_def, hp] at h
  simp only at h
  split at hg
  · simp at hg
  · rw [Ps.bind_ok_iff] at hg
    obtain ⟨data, mid', ht, -⟩ := hg
    split at h
    · simp at h
    · rw [Ps.bind_def, ht] at h
      simp only at h
      unfold bodyPs at h
      split at h
      · cases h
      · cases h
      · next hb =>
        obtain ⟨b0, b1, ext, -, -, -, -, hop, -⟩ := parseHeader_ok_iff.mp hp
        have := readDataframeBody_no_panic hd (by rw [hop, u8_and0F]; omega) data m
        rw [hb] at this; cases this

/-! ### The faults of a message -/

theorem fragment_reserved (f : DataFrame) : f.spec.fragment.reserved = (f.rsv1 || f.rsv2 || f.rsv3) := rfl

theorem collect_err {first : Bool} {data : Bytes} {fs : List DataFrame} {e : WsErr} (h : collectFrames first data (fs.map DataFrame.view) = .err e)
    (h0 : ∀ f ∈ (if first then fs.drop 1 else fs), f.opcode.toU8 = 0) :
    e = .protocol "Unsupported reserved bits received" ∧ ∃ f ∈ (specs fs).map Spec.Frame.fragment, f.reserved = true := by
  induction fs generalizing first data with
  | nil => cases h
  | cons f fs ih =>
    simp only [List.map_cons] at h
    unfold collectFrames at h
    split at h
    · next hc =>
      obtain ⟨rfl, hc⟩ := hc
      exact absurd (h0 f (by simp)) hc
    · split at h
      · next hr =>
        simp only [Res.err.injEq] at h
        refine ⟨h.symm, f.spec.fragment, by simp [specs], ?_⟩
        have hr : f.rsv1 = true ∨ f.rsv2 = true ∨ f.rsv3 = true := hr
        rw [fragment_reserved]
        rcases hr with hr | hr | hr <;> simp [hr]
      · obtain ⟨h1, g, h2, h3⟩ := ih h (by
          intro g hg
          apply h0 g
          cases first
          · simp only [Bool.false_eq_true, if_false] at hg ⊢; exact List.mem_cons_of_mem _ hg
          · simpa using hg)
        exact ⟨h1, g, by simp only [specs, List.map_cons, List.mem_cons]; exact .inr h2, h3⟩

theorem collect_ok {first : Bool} {data out : Bytes} {fs : List DataFrame} (h : collectFrames first data (fs.map DataFrame.view) = .ok out) :
    out = data ++ ((specs fs).map Spec.Frame.fragment).flatMap Spec.Fragment.payload := by
  induction fs generalizing first data with
  | nil => unfold collectFrames at h; simp only [List.map_nil, Res.ok.injEq] at h; simp [specs, h]
  | cons f fs ih =>
    simp only [List.map_cons] at h
    unfold collectFrames at h
    split at h
    · cases h
    · split at h
      · cases h
      · rw [ih h]
        simp only [specs, List.map_cons, List.flatMap_cons, List.append_assoc]
        rfl

/-- Why frames received as one message are refused. -/
theorem fromDataframes_fault {f : DataFrame} {fs : List DataFrame} {e : WsErr} (h : OwnedMsg.fromDataframes ((f :: fs).map DataFrame.view) = .err e)
    (h0 : ∀ g ∈ fs, g.opcode.toU8 = 0) : Unreadable e ((specs (f :: fs)).map Spec.Frame.fragment) := by
  have h' : Msg.fromDataframes ((f :: fs).map DataFrame.view) = .err e := by
    unfold OwnedMsg.fromDataframes at h
    cases hm : Msg.fromDataframes ((f :: fs).map DataFrame.view) with
    | ok m => rw [hm] at h; cases h
    | err e' => rw [hm] at h; simp only [Res.bind_err, Res.err.injEq] at h; rw [h]
    | panic w => rw [hm] at h; cases h
  clear h
  simp only [List.map_cons] at h'
  unfold Msg.fromDataframes at h'
  simp only at h'
  split at h'
  · cases h'
  rw [← List.map_cons (f := DataFrame.view)] at h'
  cases hc : collectFrames true [] ((f :: fs).map DataFrame.view) with
  | panic w => rw [hc] at h'; cases h'
  | err e' =>
    rw [hc] at h'
    simp only [Res.bind_err, Res.err.injEq] at h'
    subst h'
    obtain ⟨rfl, g, h1, h2⟩ := collect_err hc (by simpa using h0)
    exact .reserved h1 h2
  | ok data =>
    rw [hc] at h'
    simp only [Res.bind_ok] at h'
    have hd := collect_ok hc
    simp only [List.nil_append] at hd
    have ho : (f.view).opcode = f.opcode.toU8 := rfl
    rw [ho, opcode_new_toU8] at h'
    have hop : ((specs (f :: fs)).map Spec.Frame.fragment) = f.spec.fragment :: (specs fs).map Spec.Frame.fragment := rfl
    have hfo : f.spec.fragment.opcode = f.opcode.toU8.toNat := rfl
    rw [hop] at hd ⊢
    split at h'
    · next hq =>
      simp only [Option.some.injEq] at hq
      split at h'
      · cases h'
      · next hu =>
        simp only [Res.err.injEq] at h'; subst h'
        refine .text (by rw [hfo, hq]; rfl) ?_
        rw [← hd, ← utf8Valid_iff]; simpa using hu
    · cases h'
    · next hq =>
      simp only [Option.some.injEq] at hq
      split at h'
      · cases h'
      · next hne =>
        split at h'
        · next hlt =>
          simp only [Res.err.injEq] at h'; subst h'
          match data, hne, hlt with
          | [b], _, _ => exact .halfCode (by rw [hfo, hq]; rfl) hd.symm
        · next hge =>
          split at h'
          · cases h'
          · next hu =>
            simp only [Res.err.injEq] at h'; subst h'
            match data, hne, hge, hu, hd with
            | [], hne, _, _, _ => exact absurd rfl hne
            | [b], _, hge, _, _ => exact absurd (by simp) hge
            | hi :: lo :: r, _, _, hu, hd =>
              refine .reason (by rw [hfo, hq]; rfl) hd.symm ?_
              rw [← utf8Valid_iff]; simpa using hu
    · cases h'
    · cases h'
    · next h1 h2 h3 h4 h5 =>
      simp only [Res.err.injEq] at h'; subst h'
      refine .opcode ?_
      rw [hfo]
      cases hq : f.opcode <;> rw [hq] at h1 h2 h3 h4 h5 <;> first | decide | exact absurd rfl h1 | exact absurd rfl h2 | exact absurd rfl h3 | exact absurd rfl h4 | exact absurd rfl h5

theorem specs_snoc (b : List DataFrame) (f : DataFrame) : specs (b ++ [f]) = specs b ++ [f.spec] := by simp [specs]

/-- Held fragments: all but the first are continuations. -/
def Tail (b : List DataFrame) : Prop := ∀ g ∈ b.drop 1, g.opcode.toU8 = 0

theorem tail_append {b : List DataFrame} {f : DataFrame} (h : Tail b) (hf : b = [] ∨ f.opcode.toU8 = 0) : Tail (b ++ [f]) := by
  cases b with
  | nil => intro g hg; simp at hg
  | cons a b =>
    intro g hg
    simp only [List.cons_append, List.drop_succ_cons, List.drop_zero, List.mem_append, List.mem_singleton] at hg
    rcases hg with hg | rfl
    · exact h g (by simpa using hg)
    · simpa using hf

theorem fault_final {over : List Spec.Frame → Prop} {b : List DataFrame} {f : DataFrame} {e : WsErr} (ht : Tail b) (ha : Allowed (specs b) f.spec)
    (hf : f.finished = true) (h : OwnedMsg.fromDataframes ((b ++ [f]).map DataFrame.view) = .err e) : MessageFault over (specs b) f.spec e := by
  refine .final ha hf ?_
  rw [← specs_snoc]
  have ht' : Tail (b ++ [f]) := tail_append ht (by
    rcases ha with ha | ha
    · exact .inl (specs_nil.mp ha.1)
    · exact .inr (u8_eq_of_toNat ha.2))
  cases hb : b ++ [f] with
  | nil => simp at hb
  | cons g gs =>
    rw [hb] at h ht'
    exact fromDataframes_fault h (by simpa [Tail] using ht')

theorem fault_control {over : List Spec.Frame → Prop} {b : List DataFrame} {f : DataFrame} {e : WsErr} (h8 : 8 ≤ f.spec.opcode)
    (h : OwnedMsg.fromDataframes ([f].map DataFrame.view) = .err e) : MessageFault over (specs b) f.spec e :=
  .control h8 (fromDataframes_fault h (by simp))

theorem weight_append (b : List DataFrame) (f : DataFrame) : Spec.weight (specs (b ++ [f])) = Spec.weight (specs b) + (f.data.length + 64) := by
  simp [Spec.weight, specs, DataFrame.spec]

/-- What a step does wrong with a good frame has a cause. -/
structure StepFault (step : List DataFrame → Nat → DataFrame → Step) (over : List Spec.Frame → Prop) : Prop where
  fail : ∀ b cur f e b', ControlOk f.spec → Tail b → cur ≤ Spec.weight (specs b) → step b cur f = .fail e b' → MessageFault over (specs b) f.spec e ∧ Tail b'
  msg : ∀ b cur f fs b', ControlOk f.spec → Tail b → step b cur f = .msg fs b' →
    Tail b' ∧ ∀ e, OwnedMsg.fromDataframes (fs.map DataFrame.view) = .err e → MessageFault over (specs b) f.spec e
  next : ∀ b cur f b' cur', ControlOk f.spec → Tail b → cur ≤ Spec.weight (specs b) → step b cur f = .next b' cur' →
    Tail b' ∧ cur' ≤ Spec.weight (specs b')

theorem tail_nil : Tail [] := by intro g hg; simp at hg

theorem syncStep_fault (maxMsg : Nat) : StepFault (syncStep maxMsg) (fun held => maxMsg ≤ Spec.weight held) where
  fail := by
    intro b cur f e b' hc ht hcur hs
    unfold syncStep at hs
    by_cases hb : b = []
    · subst hb
      rw [if_pos rfl] at hs
      split at hs
      · next h0 =>
        simp only [Step.fail.injEq] at hs
        obtain ⟨rfl, rfl⟩ := hs
        exact ⟨.orphan rfl (by show f.opcode.toU8.toNat = 0; rw [h0]; rfl), ht⟩
      · split at hs <;> cases hs
    · have hb' : specs b ≠ [] := fun h => hb (specs_nil.mp h)
      rw [if_neg hb] at hs
      by_cases h0 : f.opcode.toU8 = 0
      · rw [if_pos h0] at hs
        have ha : Allowed (specs b) f.spec := .inr ⟨hb', by show f.opcode.toU8.toNat = 0; rw [h0]; rfl⟩
        have ht' := tail_append ht (.inr h0 : b = [] ∨ _)
        by_cases hf : f.finished = true
        · rw [if_pos hf] at hs; cases hs
        · rw [if_neg hf] at hs
          have hff : f.spec.fin = false := by simpa [DataFrame.spec] using hf
          split at hs
          · next h1 =>
            simp only [Step.fail.injEq] at hs
            obtain ⟨rfl, rfl⟩ := hs
            refine ⟨.tooMany ha hff ?_, ht'⟩
            simp only [maxFrames] at h1
            simp [specs] at h1 ⊢; omega
          · split at hs
            · next h2 =>
              simp only [Step.fail.injEq] at hs
              obtain ⟨rfl, rfl⟩ := hs
              refine ⟨.tooLong ha hff ?_, ht'⟩
              show maxMsg ≤ _
              rw [← specs_snoc, weight_append]
              simp only [overhead] at h2; omega
            · cases hs
      · rw [if_neg h0] at hs
        split at hs
        · cases hs
        · next h8 =>
          simp only [Step.fail.injEq] at hs
          obtain ⟨rfl, rfl⟩ := hs
          exact ⟨.intruder hb' (fun h => h0 (u8_eq_of_toNat h)) (not_small h8), ht⟩
  msg := by
    intro b cur f fs b' hc ht hs
    unfold syncStep at hs
    by_cases hb : b = []
    · subst hb
      rw [if_pos rfl] at hs
      by_cases h0 : f.opcode = .continuation
      · rw [if_pos h0] at hs; cases hs
      rw [if_neg h0] at hs
      by_cases hf : f.finished = true
      · rw [if_pos hf] at hs
        simp only [Step.msg.injEq] at hs
        obtain ⟨rfl, rfl⟩ := hs
        refine ⟨tail_nil, fun e he => ?_⟩
        by_cases h8 : 8 ≤ f.spec.opcode
        · exact fault_control h8 he
        · exact fault_final (b := []) ht (.inl ⟨rfl, opcode_zero h0, by omega⟩) hf he
      · rw [if_neg hf] at hs; cases hs
    · rw [if_neg hb] at hs
      by_cases h0 : f.opcode.toU8 = 0
      · rw [if_pos h0] at hs
        by_cases hf : f.finished = true
        · rw [if_pos hf] at hs
          simp only [Step.msg.injEq] at hs
          obtain ⟨rfl, rfl⟩ := hs
          exact ⟨tail_nil, fun e he => fault_final ht (.inr ⟨fun h => hb (specs_nil.mp h), by simp [DataFrame.spec, h0]⟩) hf he⟩
        · rw [if_neg hf] at hs
          repeat' split at hs
          all_goals cases hs
      · rw [if_neg h0] at hs
        split at hs
        · next h8 =>
          simp only [Step.msg.injEq] at hs
          obtain ⟨rfl, rfl⟩ := hs
          exact ⟨ht, fun e he => fault_control (UInt8.le_iff_toNat_le.mp h8.1) he⟩
        · cases hs
  next := by
    intro b cur f b' cur' hc ht hcur hs
    unfold syncStep at hs
    by_cases hb : b = []
    · subst hb
      rw [if_pos rfl] at hs
      split at hs
      · cases hs
      · split at hs
        · cases hs
        · simp only [Step.next.injEq] at hs
          obtain ⟨rfl, rfl⟩ := hs
          refine ⟨tail_append (b := []) ht (.inl rfl), ?_⟩
          have := weight_append [] f
          simp only [List.nil_append] at this
          rw [this]; simp only [overhead]; omega
    · rw [if_neg hb] at hs
      by_cases h0 : f.opcode.toU8 = 0
      · rw [if_pos h0] at hs
        split at hs
        · cases hs
        · split at hs
          · cases hs
          · split at hs
            · cases hs
            · simp only [Step.next.injEq] at hs
              obtain ⟨rfl, rfl⟩ := hs
              refine ⟨tail_append ht (.inr h0), ?_⟩
              rw [weight_append]; simp only [overhead]; omega
      · rw [if_neg h0] at hs
        split at hs <;> cases hs

theorem asyncStep_fault (maxMsg : Nat) : StepFault (asyncStep maxMsg) (fun held => maxMsg < Spec.weight held) where
  fail := by
    intro b cur f e b' hc ht hcur hs
    unfold asyncStep at hs
    split at hs
    · next h =>
      simp only [Step.fail.injEq] at hs
      obtain ⟨rfl, rfl⟩ := hs
      exact ⟨.orphan (specs_nil.mpr h.2) (by show f.opcode.toU8.toNat = 0; rw [h.1]; rfl), ht⟩
    next h1 =>
    split at hs
    · cases hs
    next h8 =>
    split at hs
    · next h2 =>
      simp only [Step.fail.injEq] at hs
      obtain ⟨rfl, rfl⟩ := hs
      refine ⟨.intruder (fun h => h2.2.2 (specs_nil.mp h)) ?_ (not_small h8), ht⟩
      intro h
      have h : f.opcode.toU8.toNat = 0 := h
      have := (u8_le_iff _ _).mp h2.1
      rw [h] at this; exact absurd this (by decide)
    next h2 =>
    have ha := async_allowed h1 h8 h2
    have ht' : Tail (b ++ [f]) := tail_append ht (by
      rcases ha with ha | ha
      · exact .inl (specs_nil.mp ha.1)
      · exact .inr (u8_eq_of_toNat ha.2))
    split at hs
    · cases hs
    next hf =>
    have hff : f.spec.fin = false := by simpa [DataFrame.spec] using hf
    split at hs
    · next h3 =>
      simp only [Step.fail.injEq] at hs
      obtain ⟨rfl, rfl⟩ := hs
      refine ⟨.tooMany ha hff ?_, ht'⟩
      simp only [maxFrames] at h3
      simp [specs] at h3 ⊢; omega
    split at hs
    · next h4 =>
      simp only [Step.fail.injEq] at hs
      obtain ⟨rfl, rfl⟩ := hs
      refine ⟨.tooLong ha hff ?_, ht'⟩
      show maxMsg < _
      rw [← specs_snoc, weight_append]
      simp only [overhead] at h4; omega
    · cases hs
  msg := by
    intro b cur f fs b' hc ht hs
    unfold asyncStep at hs
    split at hs
    · cases hs
    next h1 =>
    split at hs
    · next h8 =>
      simp only [Step.msg.injEq] at hs
      obtain ⟨rfl, rfl⟩ := hs
      exact ⟨ht, fun e he => fault_control (UInt8.le_iff_toNat_le.mp h8.1) he⟩
    next h8 =>
    split at hs
    · cases hs
    next h2 =>
    split at hs
    · next hf =>
      simp only [Step.msg.injEq] at hs
      obtain ⟨rfl, rfl⟩ := hs
      exact ⟨tail_nil, fun e he => fault_final ht (async_allowed h1 h8 h2) hf he⟩
    repeat' split at hs
    all_goals cases hs
  next := by
    intro b cur f b' cur' hc ht hcur hs
    unfold asyncStep at hs
    split at hs
    · cases hs
    next h1 =>
    split at hs
    · cases hs
    next h8 =>
    split at hs
    · cases hs
    next h2 =>
    split at hs
    · cases hs
    split at hs
    · cases hs
    split at hs
    · cases hs
    simp only [Step.next.injEq] at hs
    obtain ⟨rfl, rfl⟩ := hs
    have ha := async_allowed h1 h8 h2
    refine ⟨tail_append ht (by
      rcases ha with ha | ha
      · exact .inl (specs_nil.mp ha.1)
      · exact .inr (u8_eq_of_toNat ha.2)), ?_⟩
    rw [weight_append]; simp only [overhead]; omega

theorem held_le_weight (b : List DataFrame) : heldLen b ≤ Spec.weight (specs b) := by
  induction b with
  | nil => exact Nat.le_refl _
  | cons f b ih =>
    have e1 : heldLen (f :: b) = f.data.length + heldLen b := by simp [heldLen]
    have e2 : Spec.weight (specs (f :: b)) = (f.data.length + 64) + Spec.weight (specs b) := by simp [Spec.weight, specs, DataFrame.spec]
    omega

/-! ### One call -/

theorem cause_after {masked : Bool} {maxDf maxMsg : Nat} {held held₁ : List Spec.Frame} {s s₁ s' : Src} {e : WsErr} {pre : Bytes}
    (hc : Carried masked maxDf maxMsg held pre [] held₁) (ht : Takes pre s s₁) (h : Cause masked maxDf maxMsg held₁ s₁ s' e) :
    Cause masked maxDf maxMsg held s s' e := by
  obtain ⟨bs, held₂, h1, h2⟩ := h
  refine ⟨pre ++ bs, held₂, carried_trans hc h1, ?_⟩
  simp only [List.append_assoc]
  rcases h2 with ⟨left, s₂, a, b⟩ | ⟨bad, a, b⟩ | ⟨f, key, fb, a, b⟩
  · exact .inl ⟨left, s₂, Takes.trans' ht a, b⟩
  · exact .inr (.inl ⟨bad, Takes.trans' ht a, b⟩)
  · exact .inr (.inr ⟨f, key, fb, Takes.trans' ht a, b⟩)

theorem frame_cause {masked : Bool} {limit : Nat} (hl : limit ≤ u32Max) {s s' : Src} {e : WsErr} (h : readDataframeWithLimit masked limit s = (.err e, s')) :
    (∃ left s₁, Takes left s s₁ ∧ Halts e s₁ s' ∧ NoWholeFrame left) ∨ (∃ bad, Takes bad s s' ∧ FrameFault masked limit (.io .invalidData) e bad) := by
  rcases (follows_frame masked limit (Nat.le_trans hl (by decide)) s _ s' h).2 e rfl with ⟨bs, h1, h2⟩ | ⟨bs, s₁, h1, h2, h3⟩
  · have := h2 []
    obtain ⟨pre, g1, g2⟩ := parseFrame_fault (Nat.lt_of_le_of_lt hl (by decide)) this
    simp only [List.append_nil] at g1
    subst g1
    exact .inr ⟨bs, h1, g2⟩
  · exact .inl ⟨bs, s₁, h1, h2, parseFrame_more h3⟩

theorem frame_taken {masked : Bool} {limit : Nat} (hl : limit ≤ u32Max) {s s' : Src} {f : DataFrame} (h : readDataframeWithLimit masked limit s = (.ok f, s')) :
    f.data.length ≤ limit ∧ ControlOk f.spec ∧ ∃ (key : Option Key4) (pre : Bytes), Takes pre s s' ∧ key.isSome = masked ∧ IsFrame f.spec (key.map Key4.toBytes) pre := by
  obtain ⟨bs, h1, h2⟩ := (follows_frame masked limit (Nat.le_trans hl (by decide)) s _ s' h).1 f rfl
  have := h2 []
  obtain ⟨a, b, key, pre, c, d, g⟩ := (parseFrame_ok_iff (Nat.lt_of_le_of_lt hl (by decide))).mp this
  simp only [List.append_nil] at c
  subst c
  exact ⟨a, b, key, bs, h1, d, g⟩

theorem sLoop_cause (r : Receiver) (hr : r.maxDf ≤ u32Max) (cur : Nat) (s : Src) (hcur : heldLen r.buffer ≤ cur) (hw : cur ≤ Spec.weight (specs r.buffer)) (ht : Tail r.buffer)
    {x : Res (List DataFrame)} {r' : Receiver} {s' : Src} (h : sLoop r cur s = (x, r', s')) :
    Tail r'.buffer ∧
    (∀ e, x = .err e → Cause r.mask r.maxDf r.maxMsg (specs r.buffer) s s' e) ∧
    (∀ fs e, x = .ok fs → OwnedMsg.fromDataframes (fs.map DataFrame.view) = .err e → Cause r.mask r.maxDf r.maxMsg (specs r.buffer) s s' e) := by
  fun_induction sLoop r cur s with
  | case1 r cur s f s1 hf fs1 b hs =>
    simp only [Prod.mk.injEq] at h
    obtain ⟨rfl, rfl, rfl⟩ := h
    obtain ⟨h1, h2, key, pre, h3, h4, h5⟩ := frame_taken hr hf
    obtain ⟨k1, k2⟩ := (syncStep_fault r.maxMsg).msg _ _ _ _ _ h2 ht hs
    refine ⟨k1, by simp, ?_⟩
    rintro fs e hfs he
    cases hfs
    exact ⟨[], _, carried_nil, .inr (.inr ⟨f.spec, key.map Key4.toBytes, pre, h3, h5, by simpa using h4, h1, h2, k2 e he⟩)⟩
  | case2 r cur s f s1 hf e1 b hs =>
    simp only [Prod.mk.injEq] at h
    obtain ⟨rfl, rfl, rfl⟩ := h
    obtain ⟨h1, h2, key, pre, h3, h4, h5⟩ := frame_taken hr hf
    obtain ⟨k1, k2⟩ := (syncStep_fault r.maxMsg).fail _ _ _ _ _ h2 ht hw hs
    refine ⟨k2, ?_, by simp⟩
    rintro e he
    cases he
    exact ⟨[], _, carried_nil, .inr (.inr ⟨f.spec, key.map Key4.toBytes, pre, h3, h5, by simpa using h4, h1, h2, k1⟩)⟩
  | case3 r cur s f s1 hf b cur' hs ih =>
    obtain ⟨h1, h2, key, pre, h3, h4, h5⟩ := frame_taken hr hf
    obtain ⟨d1, d2⟩ := (syncStep_sound r.maxMsg).next _ _ _ _ _ h2 hcur hs
    obtain ⟨k1, k2⟩ := (syncStep_fault r.maxMsg).next _ _ _ _ _ h2 ht hw hs
    obtain ⟨g1, g2, g3⟩ := ih hr d2 k2 k1 h
    have one := carried_one (maxMsg := r.maxMsg) h4 h5 h1 h2 d1
    exact ⟨g1, fun e he => cause_after one h3 (g2 e he), fun fs e hfs he => cause_after one h3 (g3 fs e hfs he)⟩
  | case4 r cur s e1 s1 hf =>
    simp only [Prod.mk.injEq] at h
    obtain ⟨rfl, rfl, rfl⟩ := h
    refine ⟨ht, ?_, by simp⟩
    rintro e he
    cases he
    rcases frame_cause hr hf with h | h
    · obtain ⟨left, s₁, h⟩ := h
      exact ⟨[], _, carried_nil, .inl ⟨left, s₁, h⟩⟩
    · obtain ⟨bad, h⟩ := h
      exact ⟨[], _, carried_nil, .inr (.inl ⟨bad, h⟩)⟩
  | case5 r cur s w s1 hf =>
    simp only [Prod.mk.injEq] at h
    obtain ⟨rfl, rfl, rfl⟩ := h
    exact ⟨ht, by simp, by simp⟩

theorem recvMessage_cause (r : Receiver) (hr : r.maxDf ≤ u32Max) (s : Src) (ht : Tail r.buffer) {x : Res OwnedMsg} {r' : Receiver} {s' : Src}
    (h : r.recvMessage s = (x, r', s')) :
    Tail r'.buffer ∧ ∀ e, x = .err e → Cause r.mask r.maxDf r.maxMsg (specs r.buffer) s s' e := by
  unfold Receiver.recvMessage at h
  rw [recvMessageDataframes_eq] at h
  have key := @sLoop_cause r hr (heldLen r.buffer) s (Nat.le_refl _) (held_le_weight _) ht
  split at h
  · next fs r1 s1 hx =>
    simp only [Prod.mk.injEq] at h
    obtain ⟨rfl, rfl, rfl⟩ := h
    obtain ⟨k1, -, k3⟩ := key hx
    exact ⟨k1, fun e he => k3 fs e rfl he⟩
  · next e1 r1 s1 hx =>
    simp only [Prod.mk.injEq] at h
    obtain ⟨rfl, rfl, rfl⟩ := h
    obtain ⟨k1, k2, -⟩ := key hx
    exact ⟨k1, fun e he => k2 e (by cases he; rfl)⟩
  · next w r1 s1 hx =>
    simp only [Prod.mk.injEq] at h
    obtain ⟨rfl, rfl, rfl⟩ := h
    obtain ⟨k1, k2, -⟩ := key hx
    exact ⟨k1, by simp⟩

/-! ### The async codec -/

theorem decodeCause_after {masked : Bool} {maxDf maxMsg : Nat} {held held₁ : List Spec.Frame} {src pre : Bytes} {e : WsErr}
    (hc : Carried masked maxDf maxMsg held pre [] held₁) (h : DecodeCause masked maxDf maxMsg held₁ src e) :
    DecodeCause masked maxDf maxMsg held (pre ++ src) e := by
  obtain ⟨bs, held₂, h1, h2⟩ := h
  refine ⟨pre ++ bs, held₂, carried_trans hc h1, ?_⟩
  rcases h2 with ⟨bad, rest, rfl, b⟩ | ⟨f, key, fb, rest, rfl, b⟩
  · exact .inl ⟨bad, rest, by simp, b⟩
  · exact .inr ⟨f, key, fb, rest, by simp, b⟩

theorem pLoop_cause (maxMsg : Nat) (m : Bool) (lim : Nat) (hlim : lim < 2 ^ 63) (b : List DataFrame) (cur : Nat) (bs : Bytes)
    (hcur : heldLen b ≤ cur) (hw : cur ≤ Spec.weight (specs b)) (ht : Tail b) :
    match pLoop ⟨asyncStep maxMsg, m, lim, bigErr⟩ b cur bs with
    | .msg fs b' _ => Tail b' ∧ ∀ e, OwnedMsg.fromDataframes (fs.map DataFrame.view) = .err e → DecodeCause m lim maxMsg (specs b) bs e
    | .fail e b' _ => Tail b' ∧ DecodeCause m lim maxMsg (specs b) bs e
    | .bad e b' _ _ => Tail b' ∧ DecodeCause m lim maxMsg (specs b) bs e
    | .more b' _ left => Tail b' ∧ NoWholeFrame left := by
  fun_induction pLoop ⟨asyncStep maxMsg, m, lim, bigErr⟩ b cur bs with
  | case1 b cur bs f rest h fs b' hs =>
    obtain ⟨h1, h2, key, pre, h3, h4, h5⟩ := (parseFrame_ok_iff hlim).mp h
    obtain ⟨k1, k2⟩ := (asyncStep_fault maxMsg).msg _ _ _ _ _ h2 ht hs
    exact ⟨k1, fun e he => ⟨[], _, carried_nil, .inr ⟨f.spec, key.map Key4.toBytes, pre, rest, h3, h5, by simpa using h4, h1, h2, k2 e he⟩⟩⟩
  | case2 b cur bs f rest h e b' hs =>
    obtain ⟨h1, h2, key, pre, h3, h4, h5⟩ := (parseFrame_ok_iff hlim).mp h
    obtain ⟨k1, k2⟩ := (asyncStep_fault maxMsg).fail _ _ _ _ _ h2 ht hw hs
    exact ⟨k2, [], _, carried_nil, .inr ⟨f.spec, key.map Key4.toBytes, pre, rest, h3, h5, by simpa using h4, h1, h2, k1⟩⟩
  | case3 b cur bs f rest h b' cur' hs ih =>
    obtain ⟨h1, h2, key, pre, rfl, h4, h5⟩ := (parseFrame_ok_iff hlim).mp h
    obtain ⟨d1, d2⟩ := (asyncStep_sound maxMsg).next _ _ _ _ _ h2 hcur hs
    obtain ⟨k1, k2⟩ := (asyncStep_fault maxMsg).next _ _ _ _ _ h2 ht hw hs
    have ih := ih d2 k2 k1
    have one := carried_one (maxMsg := maxMsg) h4 h5 h1 h2 d1
    split at ih
    · exact ⟨ih.1, fun e he => decodeCause_after one (ih.2 e he)⟩
    · exact ⟨ih.1, decodeCause_after one ih.2⟩
    · exact ⟨ih.1, decodeCause_after one ih.2⟩
    · exact ih
  | case4 b cur bs e rest h =>
    obtain ⟨pre, g1, g2⟩ := parseFrame_fault hlim h
    exact ⟨ht, [], _, carried_nil, .inl ⟨pre, rest, g1, g2⟩⟩
  | case5 b cur bs h => exact ⟨ht, parseFrame_more h⟩

theorem decode_cause (c : MsgCodec) (hc : c.df.maxDf ≤ u32Max) (ht : Tail c.buffer) (src : Bytes) {x : Res (Option OwnedMsg)} {c' : MsgCodec} {src' : Bytes}
    (h : c.decode src = (x, c', src')) :
    Tail c'.buffer ∧ (∀ e, x = .err e → DecodeCause c.df.isServer c.df.maxDf c.maxMsg (specs c.buffer) src e) ∧
    (x = .ok none → NoWholeFrame src') := by
  rw [MsgCodec.decode_eq c hc] at h
  have key := pLoop_cause c.maxMsg c.df.isServer c.df.maxDf (Nat.lt_of_le_of_lt hc (by decide)) c.buffer (heldLen c.buffer) src (Nat.le_refl _)
    (held_le_weight _) ht
  have e0 : (⟨asyncStep c.maxMsg, c.df.isServer, c.df.maxDf, bigErr⟩ : Cfg) = c.cfg := rfl
  rw [e0] at key
  split at h
  · next fs b rest hp =>
    rw [hp] at key
    simp only [Prod.mk.injEq] at h
    obtain ⟨rfl, rfl, rfl⟩ := h
    refine ⟨key.1, fun e he => key.2 e ?_, ?_⟩
    · unfold asyncOut at he
      cases hm : OwnedMsg.fromDataframes (fs.map DataFrame.view) with
      | ok m => rw [hm] at he; cases he
      | err e1 => rw [hm] at he; simpa using he
      | panic w => rw [hm] at he; cases he
    · intro he
      unfold asyncOut at he
      cases hm : OwnedMsg.fromDataframes (fs.map DataFrame.view) with
      | ok m => rw [hm] at he; cases he
      | err e1 => rw [hm] at he; cases he
      | panic w => rw [hm] at he; cases he
  · next e1 b rest hp =>
    rw [hp] at key
    simp only [Prod.mk.injEq] at h
    obtain ⟨rfl, rfl, rfl⟩ := h
    exact ⟨key.1, fun e he => by cases he; exact key.2, by simp⟩
  · next e1 b start rest hp =>
    rw [hp] at key
    simp only [Prod.mk.injEq] at h
    obtain ⟨rfl, rfl, rfl⟩ := h
    exact ⟨key.1, fun e he => by cases he; exact key.2, by simp⟩
  · next b cur left hp =>
    rw [hp] at key
    simp only [Prod.mk.injEq] at h
    obtain ⟨rfl, rfl, rfl⟩ := h
    exact ⟨key.1, by simp, fun _ => key.2⟩

theorem chunkBytes_append (a b : Src) : chunkBytes (a ++ b) = chunkBytes a ++ chunkBytes b := by simp [chunkBytes]

theorem names_ofIo (k : IoKind) : Names k (.ofIo k) := by
  cases k with
  | unexpectedEof => exact .ended
  | _ => exact .failed (by simp)

theorem streamCause_after {masked : Bool} {maxDf maxMsg : Nat} {held held₁ : List Spec.Frame} {buf buf₁ buf' q : Bytes} {eof : Bool} {pre s s' : Src} {e : WsErr}
    (hq : buf ++ chunkBytes pre = q ++ buf₁) (hc : Carried masked maxDf maxMsg held q [] held₁)
    (h : StreamCause masked maxDf maxMsg held₁ buf₁ eof s s' buf' e) : StreamCause masked maxDf maxMsg held buf eof (pre ++ s) s' buf' e := by
  obtain ⟨p, rfl, h⟩ := h
  refine ⟨pre ++ p, by simp, ?_⟩
  rcases h with ⟨k, p', rfl, h⟩ | ⟨rfl, h1, h2⟩ | h
  · exact .inl ⟨k, pre ++ p', by simp, h⟩
  · refine .inr (.inl ⟨rfl, ?_, h2⟩)
    rcases h1 with h | h | ⟨p', rfl⟩
    · exact .inl h
    · exact .inr (.inl h)
    · exact .inr (.inr ⟨pre ++ p', by simp⟩)
  · refine .inr (.inr ?_)
    rw [chunkBytes_append, ← List.append_assoc, hq, List.append_assoc]
    exact decodeCause_after hc h

theorem pollEof_cause (fr : Framed MsgCodec) (hc : fr.codec.df.maxDf ≤ u32Max) (ht : Tail fr.codec.buffer) {x : Item OwnedMsg} {fr' : Framed MsgCodec}
    (h : Framed.pollEof msgDecoder fr = (x, fr')) :
    Tail fr'.codec.buffer ∧ ∀ e, x = .err e → (e = bytesRemaining ∧ fr'.buf ≠ [] ∧ NoWholeFrame fr'.buf) ∨
      DecodeCause fr.codec.df.isServer fr.codec.df.maxDf fr.codec.maxMsg (specs fr.codec.buffer) fr.buf e := by
  unfold Framed.pollEof at h
  split at h
  · next a c b hd =>
    cases h
    obtain ⟨k1, -, -⟩ := decode_cause _ hc ht _ hd
    exact ⟨k1, by simp⟩
  · next c b hd =>
    simp only [Prod.mk.injEq] at h
    obtain ⟨h1, rfl⟩ := h
    obtain ⟨k1, -, k3⟩ := decode_cause _ hc ht _ hd
    refine ⟨k1, ?_⟩
    intro e he
    subst he
    split at h1
    · cases h1
    · next hb =>
      cases h1
      exact .inl ⟨rfl, hb, k3 rfl⟩
  · next e c b hd =>
    cases h
    obtain ⟨k1, k2, -⟩ := decode_cause _ hc ht _ hd
    refine ⟨k1, ?_⟩
    intro e he
    cases he
    exact .inr (k2 _ rfl)
  · next hd =>
    cases h
    obtain ⟨k1, -, -⟩ := decode_cause _ hc ht _ hd
    exact ⟨k1, by simp⟩

/-- What a poll leaves behind when it is not ready. -/
def Waits (fr : Framed MsgCodec) (s : Src) (fr' : Framed MsgCodec) (s' : Src) : Prop :=
  fr'.eof = fr.eof ∧ fr'.codec = { fr.codec with buffer := fr'.codec.buffer } ∧ ∃ pre q, s = pre ++ s' ∧ fr.buf ++ chunkBytes pre = q ++ fr'.buf ∧
    Carried fr.codec.df.isServer fr.codec.df.maxDf fr.codec.maxMsg (specs fr.codec.buffer) q [] (specs fr'.codec.buffer)

theorem msgDecode_none {c c' : MsgCodec} (hc : c.df.maxDf ≤ u32Max) {src rest : Bytes} (h : msgDecoder c src = (.ok none, c', rest)) :
    c' = { c with buffer := c'.buffer } ∧ ∃ q, src = q ++ rest ∧ Carried c.df.isServer c.df.maxDf c.maxMsg (specs c.buffer) q [] (specs c'.buffer) := by
  have h : c.decode src = (.ok none, c', rest) := h
  obtain ⟨d1, d2⟩ := decode_sound c hc src
  rw [h] at d1 d2
  exact ⟨d1, d2 [] (.inl ⟨rfl, rfl⟩)⟩

theorem pollRead_cause (s : Src) (fr : Framed MsgCodec) (hc : fr.codec.df.maxDf ≤ u32Max) (ht : Tail fr.codec.buffer) {p : Poll OwnedMsg} {fr' : Framed MsgCodec}
    {s' : Src} (h : Framed.pollRead msgDecoder fr s = (p, fr', s')) :
    Tail fr'.codec.buffer ∧
    (∀ e, p = .ready (.err e) →
      StreamCause fr.codec.df.isServer fr.codec.df.maxDf fr.codec.maxMsg (specs fr.codec.buffer) fr.buf fr.eof s s' fr'.buf e) ∧
    (p = .notReady → Waits fr s fr' s') := by
  induction s generalizing fr with
  | nil =>
    unfold Framed.pollRead at h
    simp only [Prod.mk.injEq] at h
    obtain ⟨rfl, rfl, rfl⟩ := h
    obtain ⟨k1, k2⟩ := pollEof_cause { fr with eof := true, readable := true } hc ht
      (fr' := (Framed.pollEof msgDecoder { fr with eof := true, readable := true }).2) rfl
    refine ⟨k1, ?_, by simp⟩
    intro e he
    simp only [Poll.ready.injEq] at he
    rcases k2 e he with ⟨h1, h2⟩ | h
    · exact ⟨[], rfl, .inr (.inl ⟨h1, .inr (.inl rfl), h2⟩)⟩
    · exact ⟨[], rfl, .inr (.inr (by simpa [chunkBytes] using h))⟩
  | cons ev rest ih =>
    cases ev with
    | error k =>
      unfold Framed.pollRead at h
      split at h
      · cases h
        refine ⟨ht, by simp, fun _ => ⟨rfl, rfl, [.error k], [], rfl, ?_, carried_nil⟩⟩
        simp [chunkBytes]
      · next hk =>
        cases h
        refine ⟨ht, ?_, by simp⟩
        intro e he
        cases he
        exact ⟨[.error k], rfl, .inl ⟨k, [], rfl, hk, names_ofIo k⟩⟩
    | chunk b =>
      unfold Framed.pollRead at h
      split at h
      · next hb =>
        subst hb
        simp only [Prod.mk.injEq] at h
        obtain ⟨rfl, rfl, rfl⟩ := h
        obtain ⟨k1, k2⟩ := pollEof_cause { fr with eof := true, readable := true } hc ht
          (fr' := (Framed.pollEof msgDecoder { fr with eof := true, readable := true }).2) rfl
        refine ⟨k1, ?_, by simp⟩
        intro e he
        simp only [Poll.ready.injEq] at he
        rcases k2 e he with ⟨h1, h2⟩ | h
        · exact ⟨[.chunk []], rfl, .inr (.inl ⟨h1, .inr (.inr ⟨[], rfl⟩), h2⟩)⟩
        · exact ⟨[.chunk []], rfl, .inr (.inr (by simpa [chunkBytes] using h))⟩
      · have hb : ∀ x, x ++ chunkBytes [.chunk b] = x ++ b := by intro x; simp [chunkBytes]
        split at h
        · next a c b' hd =>
          cases h
          obtain ⟨k1, -, -⟩ := decode_cause _ hc ht _ hd
          exact ⟨k1, by simp, by simp⟩
        · next c b' hd =>
          obtain ⟨k1, -, k3⟩ := decode_cause _ hc ht _ hd
          obtain ⟨d1, q, d2, d3⟩ := msgDecode_none hc hd
          have two := ih { fr with codec := c, buf := b', readable := false } (by rw [d1]; exact hc) k1 h
          have e1 : c.df = fr.codec.df ∧ c.maxMsg = fr.codec.maxMsg := by rw [d1]; exact ⟨rfl, rfl⟩
          obtain ⟨w1, w2, w3⟩ := two
          refine ⟨w1, ?_, ?_⟩
          · intro e he
            have w := w2 e he
            simp only [e1.1, e1.2] at w
            exact streamCause_after (pre := [.chunk b]) (by rw [hb]; exact d2) d3 w
          · intro hp
            obtain ⟨g1, g2, pre, q', g3, g4, g5⟩ := w3 hp
            simp only [e1.1, e1.2] at g5
            refine ⟨g1, ?_, .chunk b :: pre, q ++ q', by rw [g3]; rfl, ?_, carried_trans d3 g5⟩
            · rw [g2]; simp only; rw [d1]
            · rw [show chunkBytes (.chunk b :: pre) = b ++ chunkBytes pre from rfl]
              rw [← List.append_assoc, d2, List.append_assoc, g4, List.append_assoc]
        · next e c b' hd =>
          cases h
          obtain ⟨k1, k2, -⟩ := decode_cause _ hc ht _ hd
          refine ⟨k1, ?_, by simp⟩
          intro e he
          cases he
          exact ⟨[.chunk b], rfl, .inr (.inr (by rw [hb]; exact k2 _ rfl))⟩
        · next hd =>
          cases h
          obtain ⟨k1, -, -⟩ := decode_cause _ hc ht _ hd
          exact ⟨k1, by simp, by simp⟩

theorem poll_cause (s : Src) (fr : Framed MsgCodec) (hc : fr.codec.df.maxDf ≤ u32Max) (ht : Tail fr.codec.buffer) {p : Poll OwnedMsg} {fr' : Framed MsgCodec}
    {s' : Src} (h : Framed.poll msgDecoder fr s = (p, fr', s')) :
    Tail fr'.codec.buffer ∧
    (∀ e, p = .ready (.err e) →
      StreamCause fr.codec.df.isServer fr.codec.df.maxDf fr.codec.maxMsg (specs fr.codec.buffer) fr.buf fr.eof s s' fr'.buf e) ∧
    (p = .notReady → Waits fr s fr' s') := by
  unfold Framed.poll at h
  split at h
  · split at h
    · next he =>
      simp only [Prod.mk.injEq] at h
      obtain ⟨rfl, rfl, rfl⟩ := h
      obtain ⟨k1, k2⟩ := pollEof_cause fr hc ht (fr' := (Framed.pollEof msgDecoder fr).2) rfl
      refine ⟨k1, ?_, by simp⟩
      intro e he'
      simp only [Poll.ready.injEq] at he'
      rcases k2 e he' with ⟨h1, h2⟩ | h
      · exact ⟨[], rfl, .inr (.inl ⟨h1, .inl he, h2⟩)⟩
      · exact ⟨[], rfl, .inr (.inr (by simpa [chunkBytes] using h))⟩
    · split at h
      · next a c b' hd =>
        cases h
        obtain ⟨k1, -, -⟩ := decode_cause _ hc ht _ hd
        exact ⟨k1, by simp, by simp⟩
      · next c b' hd =>
        obtain ⟨k1, -, k3⟩ := decode_cause _ hc ht _ hd
        obtain ⟨d1, q, d2, d3⟩ := msgDecode_none hc hd
        have two := pollRead_cause s { fr with codec := c, buf := b', readable := false } (by rw [d1]; exact hc) k1 h
        have e1 : c.df = fr.codec.df ∧ c.maxMsg = fr.codec.maxMsg := by rw [d1]; exact ⟨rfl, rfl⟩
        obtain ⟨w1, w2, w3⟩ := two
        refine ⟨w1, ?_, ?_⟩
        · intro e he
          have w := w2 e he
          simp only [e1.1, e1.2] at w
          exact streamCause_after (pre := []) (by simpa [chunkBytes] using d2) d3 w
        · intro hp
          obtain ⟨g1, g2, pre, q', g3, g4, g5⟩ := w3 hp
          simp only [e1.1, e1.2] at g5
          refine ⟨g1, ?_, pre, q ++ q', g3, ?_, carried_trans d3 g5⟩
          · rw [g2]; simp only; rw [d1]
          · rw [d2, List.append_assoc, g4, List.append_assoc]
      · next e c b' hd =>
        cases h
        obtain ⟨k1, k2, -⟩ := decode_cause _ hc ht _ hd
        refine ⟨k1, ?_, by simp⟩
        intro e he
        cases he
        exact ⟨[], rfl, .inr (.inr (by simpa [chunkBytes] using k2 _ rfl))⟩
      · next hd =>
        cases h
        obtain ⟨k1, -, -⟩ := decode_cause _ hc ht _ hd
        exact ⟨k1, by simp, by simp⟩
  · exact pollRead_cause s fr hc ht h

theorem next_cause (fr : Framed MsgCodec) (s : Src) (hc : fr.codec.df.maxDf ≤ u32Max) (ht : Tail fr.codec.buffer) {x : Item OwnedMsg} {fr' : Framed MsgCodec}
    {s' : Src} (h : fr.next msgDecoder s = (x, fr', s')) :
    Tail fr'.codec.buffer ∧ ∀ e, x = .err e →
      StreamCause fr.codec.df.isServer fr.codec.df.maxDf fr.codec.maxMsg (specs fr.codec.buffer) fr.buf fr.eof s s' fr'.buf e := by
  fun_induction Framed.next msgDecoder fr s with
  | case1 fr s y fr₁ s₁ hp =>
    cases h
    obtain ⟨k1, k2, -⟩ := poll_cause s fr hc ht hp
    exact ⟨k1, fun e he => k2 e (by rw [he])⟩
  | case2 fr s fr₁ s₁ hp ih =>
    obtain ⟨k1, -, k3⟩ := poll_cause s fr hc ht hp
    obtain ⟨g1, g2, pre, q, g3, g4, g5⟩ := k3 rfl
    have e1 : fr₁.codec.df = fr.codec.df ∧ fr₁.codec.maxMsg = fr.codec.maxMsg := by rw [g2]; exact ⟨rfl, rfl⟩
    obtain ⟨w1, w2⟩ := ih (by rw [e1.1]; exact hc) k1 h
    refine ⟨w1, fun e he => ?_⟩
    have w := w2 e he
    rw [e1.1, e1.2, g1] at w
    rw [g3]
    exact streamCause_after g4 g5 w

/-! ### After any number of calls -/

theorem sLoop_keeps (r : Receiver) (cur : Nat) (s : Src) : (sLoop r cur s).2.1 = { r with buffer := (sLoop r cur s).2.1.buffer } := by
  fun_induction sLoop r cur s with
  | case3 r cur s f s1 hf b cur' hs ih => exact ih
  | _ => rfl

theorem recvMessage_keeps (r : Receiver) (s : Src) : (r.recvMessage s).2.1 = { r with buffer := (r.recvMessage s).2.1.buffer } := by
  have k := sLoop_keeps r (heldLen r.buffer) s
  unfold Receiver.recvMessage
  rw [recvMessageDataframes_eq]
  split <;> (next hx => rw [hx] at k; exact k)

theorem recvMany_tail (n : Nat) (r : Receiver) (hr : r.maxDf ≤ u32Max) (ht : Tail r.buffer) (s : Src) :
    (r.recvMany n s).2.1 = { r with buffer := (r.recvMany n s).2.1.buffer } ∧ Tail (r.recvMany n s).2.1.buffer := by
  induction n generalizing r s with
  | zero => exact ⟨rfl, ht⟩
  | succ n ih =>
    have k := recvMessage_keeps r s
    have t := (recvMessage_cause r hr s ht (x := (r.recvMessage s).1) (r' := (r.recvMessage s).2.1) (s' := (r.recvMessage s).2.2) rfl).1
    have i := ih (r.recvMessage s).2.1 (by rw [k]; exact hr) t (r.recvMessage s).2.2
    refine ⟨?_, i.2⟩
    show ((r.recvMessage s).2.1.recvMany n (r.recvMessage s).2.2).2.1 =
      { r with buffer := ((r.recvMessage s).2.1.recvMany n (r.recvMessage s).2.2).2.1.buffer }
    have i1 := i.1
    rw [k] at i1
    simp only at i1
    rw [k]
    exact i1

/-- The configuration of a codec does not change. -/
def SameCfg (c c' : MsgCodec) : Prop := c'.df = c.df ∧ c'.maxMsg = c.maxMsg

theorem SameCfg.trans {c c₁ c' : MsgCodec} (h : SameCfg c c₁) (g : SameCfg c₁ c') : SameCfg c c' := ⟨g.1.trans h.1, g.2.trans h.2⟩

theorem decode_cfg {c c' : MsgCodec} (hc : c.df.maxDf ≤ u32Max) {src rest : Bytes} {x} (h : msgDecoder c src = (x, c', rest)) : SameCfg c c' := by
  have h : c.decode src = (x, c', rest) := h
  obtain ⟨d1, -⟩ := decode_sound c hc src
  rw [h] at d1
  simp only at d1
  exact ⟨by rw [d1], by rw [d1]⟩

theorem pollEof_cfg (fr : Framed MsgCodec) (hc : fr.codec.df.maxDf ≤ u32Max) : SameCfg fr.codec (Framed.pollEof msgDecoder fr).2.codec := by
  unfold Framed.pollEof
  split <;> (next hd => exact decode_cfg hc hd)

theorem pollRead_cfg (s : Src) (fr : Framed MsgCodec) (hc : fr.codec.df.maxDf ≤ u32Max) : SameCfg fr.codec (Framed.pollRead msgDecoder fr s).2.1.codec := by
  induction s generalizing fr with
  | nil => exact pollEof_cfg { fr with eof := true, readable := true } hc
  | cons ev rest ih =>
    cases ev with
    | error k => unfold Framed.pollRead; split <;> exact ⟨rfl, rfl⟩
    | chunk b =>
      unfold Framed.pollRead
      split
      · exact pollEof_cfg { fr with eof := true, readable := true } hc
      · split
        · next hd => exact decode_cfg hc hd
        · next c b' hd =>
          have one := decode_cfg hc hd
          exact one.trans (ih { fr with codec := c, buf := b', readable := false } (by show c.df.maxDf ≤ _; rw [one.1]; exact hc))
        · next hd => exact decode_cfg hc hd
        · next hd => exact decode_cfg hc hd

theorem poll_cfg (s : Src) (fr : Framed MsgCodec) (hc : fr.codec.df.maxDf ≤ u32Max) : SameCfg fr.codec (Framed.poll msgDecoder fr s).2.1.codec := by
  unfold Framed.poll
  split
  · split
    · exact pollEof_cfg fr hc
    · split
      · next hd => exact decode_cfg hc hd
      · next c b' hd =>
        have one := decode_cfg hc hd
        exact one.trans (pollRead_cfg s { fr with codec := c, buf := b', readable := false } (by show c.df.maxDf ≤ _; rw [one.1]; exact hc))
      · next hd => exact decode_cfg hc hd
      · next hd => exact decode_cfg hc hd
  · exact pollRead_cfg s fr hc

theorem next_cfg (fr : Framed MsgCodec) (s : Src) (hc : fr.codec.df.maxDf ≤ u32Max) : SameCfg fr.codec (fr.next msgDecoder s).2.1.codec := by
  fun_induction Framed.next msgDecoder fr s with
  | case1 fr s y fr₁ s₁ hp =>
    have := poll_cfg s fr hc
    rw [hp] at this
    exact this
  | case2 fr s fr₁ s₁ hp ih =>
    have := poll_cfg s fr hc
    rw [hp] at this
    exact this.trans (ih (by rw [this.1]; exact hc))

theorem nextMany_tail (n : Nat) (fr : Framed MsgCodec) (hc : fr.codec.df.maxDf ≤ u32Max) (ht : Tail fr.codec.buffer) (s : Src) :
    SameCfg fr.codec (fr.nextMany msgDecoder n s).2.1.codec ∧ Tail (fr.nextMany msgDecoder n s).2.1.codec.buffer := by
  induction n generalizing fr s with
  | zero => exact ⟨⟨rfl, rfl⟩, ht⟩
  | succ n ih =>
    have k := next_cfg fr s hc
    have t := (next_cause fr s hc ht (x := (fr.next msgDecoder s).1) (fr' := (fr.next msgDecoder s).2.1) (s' := (fr.next msgDecoder s).2.2) rfl).1
    have i := ih (fr.next msgDecoder s).2.1 (by rw [k.1]; exact hc) t (fr.next msgDecoder s).2.2
    exact ⟨k.trans i.1, i.2⟩

end WS
