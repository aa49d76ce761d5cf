import Verif.Model.DataFrame
/-! Reading makes progress: needed for the termination of the receive loop. -/

namespace WS

theorem readExact_measure (n : Nat) (s : Src) : (readExact n s).2.measure ≤ s.measure := by
  induction s generalizing n with
  | nil => unfold readExact; split <;> simp
  | cons e rest ih =>
    cases e with
    | error k =>
      unfold readExact
      split
      · simp
      · split
        · have := ih n; simp only [Src.measure]; omega
        · simp [Src.measure]
    | chunk b =>
      unfold readExact
      split
      · simp
      · split
        · simp [Src.measure]
        · split
          · have := ih (n - b.length)
            split <;> simp_all [Src.measure] <;> omega
          · simp [Src.measure]

theorem readExact_measure_lt {n : Nat} (hn : 0 < n) {s s' : Src} {b : Bytes}
    (h : readExact n s = (.ok b, s')) : s'.measure < s.measure := by
  induction s generalizing n b with
  | nil => unfold readExact at h; rw [if_neg (by omega)] at h; simp at h
  | cons e rest ih =>
    cases e with
    | error k =>
      unfold readExact at h
      rw [if_neg (by omega)] at h
      split at h
      · have := ih hn h; simp only [Src.measure]; omega
      · simp at h
    | chunk c =>
      unfold readExact at h
      rw [if_neg (by omega)] at h
      split at h
      · simp at h
      · split at h
        · have := readExact_measure (n - c.length) rest
          split at h
          · simp only [Prod.mk.injEq] at h
            next heq =>
            rw [heq] at this
            rw [← h.2]; simp only [Src.measure] at *; omega
          · simp at h
        · simp only [Prod.mk.injEq] at h
          rw [← h.2]; simp only [Src.measure, List.length_drop]; omega

theorem takeToEnd_measure (n : Nat) (s : Src) : (takeToEnd n s).2.measure ≤ s.measure := by
  induction s generalizing n with
  | nil => unfold takeToEnd; simp
  | cons e rest ih =>
    cases e with
    | error k =>
      unfold takeToEnd
      split
      · simp
      · split
        · have := ih n; simp only [Src.measure]; omega
        · simp [Src.measure]
    | chunk b =>
      unfold takeToEnd
      split
      · simp
      · split
        · simp [Src.measure]
        · split
          · have := ih (n - b.length)
            split <;> simp_all [Src.measure] <;> omega
          · simp [Src.measure]

/-- `m` never makes the script longer. -/
def NonInc {α} (m : Rd α) : Prop := ∀ s, (m s).2.measure ≤ s.measure

theorem nonInc_pure {α} (a : α) : NonInc (pure a) := fun _ => Nat.le_refl _
theorem nonInc_fail {α} (e : WsErr) : NonInc (Rd.fail e : Rd α) := fun _ => Nat.le_refl _
theorem nonInc_lift {α} (r : Res α) : NonInc (Rd.lift r) := fun _ => Nat.le_refl _

theorem nonInc_exact (n : Nat) : NonInc (Rd.exact n) := by
  intro s
  have := readExact_measure n s
  unfold Rd.exact
  split <;> simp_all

theorem nonInc_payload (n : Nat) : NonInc (readPayload n) := by
  intro s
  have := takeToEnd_measure n s
  unfold readPayload
  split
  · split <;> simp_all
  · simp_all

theorem nonInc_bind {α β} {m : Rd α} {f : α → Rd β} (hm : NonInc m) (hf : ∀ a, NonInc (f a)) :
    NonInc (m >>= f) := by
  intro s
  show (Rd.bind m f s).2.measure ≤ _
  have h := hm s
  unfold Rd.bind
  cases hms : m s with
  | mk r s' =>
    rw [hms] at h
    cases r with
    | ok a => exact Nat.le_trans (hf a s') h
    | err e => exact h
    | panic e => exact h

theorem nonInc_ite {α} {c : Prop} [Decidable c] {m m' : Rd α} (h : NonInc m) (h' : NonInc m') :
    NonInc (if c then m else m') := by split <;> assumption

theorem nonInc_u8 : NonInc Rd.u8 := nonInc_bind (nonInc_exact 1) fun _ => nonInc_pure _

theorem nonInc_cap (n : Nat) : NonInc (vecWithCapacity n) := by
  unfold vecWithCapacity; exact nonInc_ite (nonInc_lift _) (nonInc_pure _)

theorem nonInc_len (b : UInt8) : NonInc (readLen b) := by
  unfold readLen
  refine nonInc_ite (nonInc_pure _) (nonInc_ite ?_ ?_)
  · exact nonInc_bind (nonInc_bind (nonInc_exact _) fun _ => nonInc_pure _) fun _ =>
      nonInc_ite (nonInc_fail _) (nonInc_pure _)
  · exact nonInc_bind (nonInc_bind (nonInc_exact _) fun _ => nonInc_pure _) fun _ =>
      nonInc_ite (nonInc_fail _) (nonInc_pure _)

theorem nonInc_mask (b : UInt8) : NonInc (readMask b) := by
  unfold readMask
  exact nonInc_ite (nonInc_bind nonInc_u8 fun _ => nonInc_bind nonInc_u8 fun _ =>
    nonInc_bind nonInc_u8 fun _ => nonInc_bind nonInc_u8 fun _ => nonInc_pure _) (nonInc_pure _)

/-- A successful read after `u8` consumed something. -/
theorem u8_bind_lt {α} {f : UInt8 → Rd α} (hf : ∀ a, NonInc (f a)) {s s' : Src} {a : α}
    (h : (Rd.u8 >>= f) s = (.ok a, s')) : s'.measure < s.measure := by
  have h' : Rd.bind Rd.u8 f s = (.ok a, s') := h
  have hu : Rd.u8 s = match readExact 1 s with
    | (.ok b, s') => (.ok (b.headD 0), s')
    | (.error k, s') => (.err (.ofIo k), s') := by
    show Rd.bind (Rd.exact 1) _ s = _
    unfold Rd.bind Rd.exact
    cases readExact 1 s with
    | mk r s' => cases r <;> rfl
  unfold Rd.bind at h'
  rw [hu] at h'
  cases hr : readExact 1 s with
  | mk r s1 =>
    rw [hr] at h'
    cases r with
    | error k => simp at h'
    | ok b =>
      have h1 := readExact_measure_lt (by decide) hr
      simp only at h'
      have h2 := hf (b.headD 0) s1
      rw [h'] at h2
      exact Nat.lt_of_le_of_lt h2 h1

theorem bind_assoc_apply {α β γ} (m : Rd α) (f : α → Rd β) (g : β → Rd γ) :
    (m >>= f) >>= g = m >>= fun a => f a >>= g := by
  funext s
  show Rd.bind (Rd.bind m f) g s = Rd.bind m (fun a => Rd.bind (f a) g) s
  unfold Rd.bind
  cases m s with
  | mk r s' => cases r <;> rfl

theorem readDataframeWithLimit_lt {masked : Bool} {limit : Nat} {s s' : Src} {f : DataFrame}
    (h : readDataframeWithLimit masked limit s = (.ok f, s')) : s'.measure < s.measure := by
  unfold readDataframeWithLimit readHeader at h
  rw [bind_assoc_apply] at h
  refine u8_bind_lt (fun b0 => ?_) h
  rw [bind_assoc_apply]
  refine nonInc_bind nonInc_u8 fun b1 => ?_
  rw [bind_assoc_apply]
  refine nonInc_bind (nonInc_len _) fun len => ?_
  refine nonInc_bind ?_ fun h => ?_
  · refine nonInc_ite (nonInc_fail _) (nonInc_ite (nonInc_fail _) ?_)
    exact nonInc_bind (nonInc_mask _) fun _ => nonInc_pure _
  · refine nonInc_ite (nonInc_fail _) ?_
    exact nonInc_bind (nonInc_cap _) fun _ => nonInc_bind (nonInc_payload _) fun _ => nonInc_lift _

end WS
