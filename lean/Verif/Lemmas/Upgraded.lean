import Verif.Lemmas.Hall
/-!
# Lemmas for C90: the 101 is not lost
-/

namespace WS
open Spec

/-- Once the task echoes, the answer to the request is on the wire. -/
def HasUpgraded (w : Bytes) (x : Desk) : Prop := x.door = .through → w <+: x.task.out.wire

/-- What has been written stays written. -/
theorem turn_keeps {w rest R : Bytes} {x : Desk} (h : EchoInv w rest R x) (n k : Nat) :
    x.task.out.wire <+: (x.task.turn (offered x.waiting n x.ended) (granted k k)).1.out.wire := by
  obtain ⟨hc, h⟩ := h
  unfold ServeTask.turn
  cases hp : x.task.phase with
  | over e => exact List.prefix_refl _
  | greet => simp only [hp] at h
  | greeting => simp only [hp] at h
  | closing =>
    simp only [hp] at h
    obtain ⟨h1, h2⟩ := h
    obtain ⟨o', ⟨q1, -⟩ | ⟨q1, -⟩, q2, q4, -⟩ := h2.flush k
    all_goals
      simp only [q1, ServeTask.after]
      exact q4
  | part =>
    simp only [hp] at h
    obtain ⟨h1, h2⟩ := h
    obtain ⟨o', ⟨q1, q2⟩ | ⟨q1, q2, -⟩, q4⟩ := h2.push (sendable_close isizeMax) k
    all_goals
      simp only [q1, ServeTask.after]
      exact q4
  | parting =>
    simp only [hp] at h
    obtain ⟨h1, h2⟩ := h
    obtain ⟨o', ⟨q1, -⟩ | ⟨q1, -⟩, q2, q4, -⟩ := h2.flush k
    all_goals
      simp only [q1, ServeTask.after]
      exact q4
  | forward b =>
    simp only [hp] at h
    obtain ⟨h1, ⟨L, h2, h3⟩, h4⟩ := h
    cases b with
    | some m =>
      obtain ⟨o', ⟨q1, q2⟩ | ⟨q1, q2, -⟩, q4⟩ := h2.push (h4 m rfl) k
      all_goals
        simp only [q1, ServeTask.after]
        exact q4
    | none =>
      simp only
      split
      · obtain ⟨o', ⟨q1, -⟩ | ⟨q1, -⟩, q2, q4, -⟩ := h2.flush k
        all_goals
          simp only [q1, ServeTask.after]
          exact q4
      all_goals exact List.prefix_refl _

section
variable [B64]

theorem hall_takes {preq : ReqParser} {B : Bytes} (hB : Unclouded preq B) {x : Desk} {e : Befalls} {es : List Befalls} (h : HallInv preq B (if x.ended then [] else brought (e :: es)) x) :
    HallInv preq B (if (x.takes preq e).ended then [] else brought es) (x.takes preq e) := by
  have stay := tick_ended (preq := preq) x
  cases e with
  | poll n k =>
    have h' : HallInv preq B (if x.ended then [] else brought es) x := h
    show HallInv preq B (if (x.tick preq n k).ended then [] else brought es) (x.tick preq n k)
    rw [stay]
    exact hall_poll hB h' (fun he => by simp [he]) n k
  | bytes b =>
    rcases Bool.eq_false_or_eq_true x.ended with he | he
    · have hm : x.takes preq (.bytes b) = x := by simp [Desk.takes, he]
      rw [hm]
      simpa [he] using h
    · have hm : x.takes preq (.bytes b) = { x with waiting := x.waiting ++ b } := by simp [Desk.takes, he]
      rw [hm]
      simp only [he, Bool.false_eq_true, if_false, brought] at h
      rw [if_neg (by simp [he])]
      cases h with
      | reading fr hd a1 a2 hb a3 a4 a5 a6 a7 a8 => exact .reading fr hd a1 a2 (by rw [← hb]; simp) a3 a4 a5 a6 a7 a8
      | accepting w rest hd ha hp hs => exact .accepting w rest hd ha hp (hall_bytes hs he)
      | serving w rest hd ha hs => exact .serving w rest hd ha (hall_bytes hs he)
      | late hd ha he' hw hp => rw [he] at he'; cases he'
      | bad hd ha hw hp => exact .bad hd ha hw hp
  | finish =>
    have hm : x.takes preq .finish = { x with ended := true } := rfl
    rw [hm]
    have h : HallInv preq B [] x := by cases hx : x.ended <;> simpa [hx, brought] using h
    simp only [if_true]
    cases h with
    | reading fr hd a1 a2 hb a3 a4 a5 a6 a7 a8 => exact .reading fr hd a1 a2 hb a3 a4 a5 a6 a7 a8
    | accepting w rest hd ha hp hs => exact .accepting w rest hd ha hp (hall_finish hs)
    | serving w rest hd ha hs => exact .serving w rest hd ha (hall_finish hs)
    | late hd ha he' hw hp => exact .late hd ha rfl hw hp
    | bad hd ha hw hp => exact .bad hd ha hw hp

theorem upgraded_tick {preq : ReqParser} {B R w rest : Bytes} (hB : Unclouded preq B) (ha : openReception preq B = .serves w rest) {x : Desk} (h : HallInv preq B R x)
    (hg : HasUpgraded w x) (n k : Nat) : HasUpgraded w (x.tick preq n k) := by
  unfold HasUpgraded at hg ⊢
  cases h with
  | reading fr hd he hi hb =>
    unfold Desk.tick
    rw [hd]
    simp only
    cases hq : fr.poll (httpDecoder preq) (offered x.waiting n x.ended) with
    | mk y q =>
      obtain ⟨fr', s'⟩ := q
      have hread := desk_read (R := R) n he hi (by rw [hb]; exact hB.head) hq
      cases hread with
      | waits => intro hx; cases hx
      | item _ _ m i head h1 h2 =>
        have hB' : splitOffHttp B = some (head, fr'.buf ++ x.waiting.drop (used (offered x.waiting n x.ended) s') ++ R) := by rw [← hb]; exact splitOff_more R h1
        simp only
        rcases hall_asked (buf := fr'.buf) hB' h2 { x with door := .reading fr, waiting := x.waiting.drop (used (offered x.waiting n x.ended) s') } with ⟨a1, a2⟩ | ⟨w, a1, a2⟩
        · rw [a2]; intro hx; cases hx
        · rw [a2]; intro hx; cases hx
      | fails _ _ y head rest hy =>
        cases y with
        | item m => exact absurd rfl (hy m)
        | _ => intro hx; cases hx
      | ends _ _ y hy =>
        cases y with
        | item m => exact absurd rfl (hy m)
        | _ => intro hx; cases hx
  | accepting w' rest' hd ha' hp hs =>
    rw [ha, Reception.serves.injEq] at ha'
    obtain ⟨rfl, rfl⟩ := ha'
    obtain ⟨hc, hs⟩ := hs
    simp only [hp] at hs
    obtain ⟨h1, ⟨L, h3, h2⟩, -⟩ := hs
    obtain ⟨o', ho, q2, -⟩ := h3.flush k
    unfold Desk.tick
    rw [hd]
    simp only
    rcases ho with ⟨q1, q3⟩ | ⟨q1, -⟩
    · rw [q1]
      intro _
      obtain ⟨out, o1, -⟩ := q2.total
      rw [q3, List.append_nil] at o1
      simp only
      rw [o1]
      exact List.prefix_append _ _
    · rw [q1]
      intro hx
      simp only at hx
      cases hx
  | serving w' rest' hd ha' hs =>
    rw [ha, Reception.serves.injEq] at ha'
    obtain ⟨rfl, rfl⟩ := ha'
    have := turn_keeps hs n k
    unfold Desk.tick
    rw [hd]
    exact fun _ => (hg hd).trans this
  | late hd ha' => rw [ha] at ha'; cases ha'
  | bad hd ha' => rw [ha] at ha'; cases ha'

theorem upgraded_lasts {preq : ReqParser} {B w rest : Bytes} (hB : Unclouded preq B) (ha : openReception preq B = .serves w rest) (es : List Befalls) : ∀ x : Desk,
    HallInv preq B (if x.ended then [] else brought es) x → HasUpgraded w x → HasUpgraded w (x.lasts preq es) := by
  induction es with
  | nil => intro x _ h; exact h
  | cons e es ih =>
    intro x h hg
    refine ih (x.takes preq e) (hall_takes hB h) ?_
    cases e with
    | poll n k => exact upgraded_tick hB ha h hg n k
    | bytes b =>
      unfold Desk.takes
      simp only
      split
      · exact hg
      · exact hg
    | finish => exact hg

end

end WS
