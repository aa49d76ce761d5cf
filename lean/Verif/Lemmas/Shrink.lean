import Verif.Lemmas.Sound
/-! Reading never makes the bytes to come longer. -/

namespace WS

theorem readExact_shrink (n : Nat) (s : Src) : (readExact n s).2.flat.length ≤ s.flat.length := by
  induction s generalizing n with
  | nil => unfold readExact; split <;> simp
  | cons e rest ih =>
    cases e with
    | error k =>
      unfold readExact
      split
      · simp
      · split
        · have := ih n; simpa only [Src.flat] using this
        · simp [Src.flat]
    | chunk b =>
      unfold readExact
      split
      · simp
      · split
        · simp [Src.flat]
        · split
          · have := ih (n - b.length)
            split <;> simp_all [Src.flat] <;> omega
          · simp only [Src.flat, List.length_append, List.length_drop]; omega

theorem takeToEnd_shrink (n : Nat) (s : Src) : (takeToEnd n s).2.flat.length ≤ s.flat.length := by
  induction s generalizing n with
  | nil => unfold takeToEnd; simp
  | cons e rest ih =>
    cases e with
    | error k =>
      unfold takeToEnd
      split
      · simp
      · split
        · have := ih n; simpa only [Src.flat] using this
        · simp [Src.flat]
    | chunk b =>
      unfold takeToEnd
      split
      · simp
      · split
        · simp [Src.flat]
        · split
          · have := ih (n - b.length)
            split <;> simp_all [Src.flat] <;> omega
          · simp only [Src.flat, List.length_append, List.length_drop]; omega

def Shrinks {α} (m : Rd α) : Prop := ∀ s, (m s).2.flat.length ≤ s.flat.length

theorem shrinks_pure {α} (a : α) : Shrinks (pure a) := fun _ => Nat.le_refl _
theorem shrinks_fail {α} (e : WsErr) : Shrinks (Rd.fail e : Rd α) := fun _ => Nat.le_refl _
theorem shrinks_lift {α} (r : Res α) : Shrinks (Rd.lift r) := fun _ => Nat.le_refl _

theorem shrinks_exact (n : Nat) : Shrinks (Rd.exact n) := by
  intro s
  have := readExact_shrink n s
  unfold Rd.exact
  split <;> simp_all

theorem shrinks_payload (n : Nat) : Shrinks (readPayload n) := by
  intro s
  have := takeToEnd_shrink n s
  unfold readPayload
  split
  · split <;> simp_all
  · simp_all

theorem shrinks_bind {α β} {m : Rd α} {f : α → Rd β} (hm : Shrinks m) (hf : ∀ a, Shrinks (f a)) :
    Shrinks (m >>= f) := by
  intro s
  show (Rd.bind m f s).2.flat.length ≤ _
  have h := hm s
  unfold Rd.bind
  cases hms : m s with
  | mk r s' =>
    rw [hms] at h
    cases r with
    | ok a => exact Nat.le_trans (hf a s') h
    | err e => exact h
    | panic e => exact h

theorem shrinks_ite {α} {c : Prop} [Decidable c] {m m' : Rd α} (h : Shrinks m) (h' : Shrinks m') :
    Shrinks (if c then m else m') := by split <;> assumption

theorem shrinks_u8 : Shrinks Rd.u8 := shrinks_bind (shrinks_exact 1) fun _ => shrinks_pure _

theorem shrinks_cap (n : Nat) : Shrinks (vecWithCapacity n) := by
  unfold vecWithCapacity; exact shrinks_ite (shrinks_lift _) (shrinks_pure _)

theorem shrinks_len (b : UInt8) : Shrinks (readLen b) := by
  unfold readLen
  refine shrinks_ite (shrinks_pure _) (shrinks_ite ?_ ?_)
  · exact shrinks_bind (shrinks_bind (shrinks_exact _) fun _ => shrinks_pure _) fun _ =>
      shrinks_ite (shrinks_fail _) (shrinks_pure _)
  · exact shrinks_bind (shrinks_bind (shrinks_exact _) fun _ => shrinks_pure _) fun _ =>
      shrinks_ite (shrinks_fail _) (shrinks_pure _)

theorem shrinks_mask (b : UInt8) : Shrinks (readMask b) := by
  unfold readMask
  exact shrinks_ite (shrinks_bind shrinks_u8 fun _ => shrinks_bind shrinks_u8 fun _ =>
    shrinks_bind shrinks_u8 fun _ => shrinks_bind shrinks_u8 fun _ => shrinks_pure _) (shrinks_pure _)

theorem shrinks_frame (masked : Bool) (limit : Nat) : Shrinks (readDataframeWithLimit masked limit) := by
  unfold readDataframeWithLimit readHeader
  refine shrinks_bind ?_ fun h => ?_
  · refine shrinks_bind shrinks_u8 fun b0 => shrinks_bind shrinks_u8 fun b1 => shrinks_bind (shrinks_len _) fun len => ?_
    refine shrinks_ite (shrinks_fail _) (shrinks_ite (shrinks_fail _) ?_)
    exact shrinks_bind (shrinks_mask _) fun _ => shrinks_pure _
  · refine shrinks_ite (shrinks_fail _) ?_
    exact shrinks_bind (shrinks_cap _) fun _ => shrinks_bind (shrinks_payload _) fun _ => shrinks_lift _

end WS
