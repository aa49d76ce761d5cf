import Verif.Lemmas.Desk
/-!
# Lemmas for C88: the greeting is not lost
-/

namespace WS
open Spec

/-- The greeting as it is written. -/
def helloFrame : Bytes := [0x81, 12] ++ ascii "Hello World!"

def Early : ServePhase → Prop
  | .greet => True
  | .greeting => True
  | _ => False

/-- Behind the greeting the answer to the request and the greeting are on the wire. -/
def HasHello (w : Bytes) (x : Desk) : Prop := x.door = .through → ¬ Early x.task.phase → w ++ helloFrame <+: x.task.out.wire

section
variable [B64]

theorem desk_meets {preq : ReqParser} {B : Bytes} (hB : Unmistakable preq B) {x : Desk} {e : Befalls} {es : List Befalls} (h : DeskInv preq B (if x.ended then [] else brought (e :: es)) x) :
    DeskInv preq B (if (x.meets preq e).ended then [] else brought es) (x.meets preq e) := by
  have stay := poll_ended (preq := preq) x
  cases e with
  | poll n k =>
    have h' : DeskInv preq B (if x.ended then [] else brought es) x := h
    show DeskInv preq B (if (x.poll preq n k).ended then [] else brought es) (x.poll preq n k)
    rw [stay]
    exact desk_poll hB h' (fun he => by simp [he]) n k
  | bytes b =>
    rcases Bool.eq_false_or_eq_true x.ended with he | he
    · have hm : x.meets preq (.bytes b) = x := by simp [Desk.meets, he]
      rw [hm]
      simpa [he] using h
    · have hm : x.meets preq (.bytes b) = { x with waiting := x.waiting ++ b } := by simp [Desk.meets, he]
      rw [hm]
      simp only [he, Bool.false_eq_true, if_false, brought] at h
      rw [if_neg (by simp [he])]
      cases h with
      | reading fr hd a1 a2 hb a3 a4 a5 a6 a7 a8 => exact .reading fr hd a1 a2 (by rw [← hb]; simp) a3 a4 a5 a6 a7 a8
      | rejecting w hd ha hp hq => exact .rejecting w hd ha hp hq
      | accepting w rest hd ha hp hs => exact .accepting w rest hd ha hp (desk_bytes hs he)
      | serving w rest hd ha hs => exact .serving w rest hd ha (desk_bytes hs he)
      | late hd ha he' hw hp => rw [he] at he'; cases he'
      | bad hd ha hw hp => exact .bad hd ha hw hp
      | rejected w hd ha hw hp => exact .rejected w hd ha hw hp
  | finish =>
    have hm : x.meets preq .finish = { x with ended := true } := rfl
    rw [hm]
    have h : DeskInv preq B [] x := by cases hx : x.ended <;> simpa [hx, brought] using h
    simp only [if_true]
    cases h with
    | reading fr hd a1 a2 hb a3 a4 a5 a6 a7 a8 => exact .reading fr hd a1 a2 hb a3 a4 a5 a6 a7 a8
    | rejecting w hd ha hp hq => exact .rejecting w hd ha hp hq
    | accepting w rest hd ha hp hs => exact .accepting w rest hd ha hp (desk_finish hs)
    | serving w rest hd ha hs => exact .serving w rest hd ha (desk_finish hs)
    | late hd ha he' hw hp => exact .late hd ha rfl hw hp
    | bad hd ha hw hp => exact .bad hd ha hw hp
    | rejected w hd ha hw hp => exact .rejected w hd ha hw hp

omit [B64] in
/-- The greeting has this form only. -/
theorem hello_once {out : Bytes} (h : Says false [.text (ascii "Hello World!")] out) : out = helloFrame := by
  let o : Outbox := ⟨FramedWrite.new true, [], fun _ => ⟨0, 0, 0, 0⟩, 0⟩
  have hc : ((o.push (.text (ascii "Hello World!")) (granted 0 0)).2.wire ++ (o.push (.text (ascii "Hello World!")) (granted 0 0)).2.sink.buf.data, (o.push (.text (ascii "Hello World!")) (granted 0 0)).1) =
      (helloFrame, .ready) := by decide +kernel
  obtain ⟨o', ⟨q1, q2⟩ | ⟨q1, q2, -⟩, -⟩ := Queued.push (base := []) (L := []) (o := o) ⟨Nat.zero_le _, rfl, [], rfl, says_nil _⟩ sendable_hello 0
  · rw [q1] at hc
    obtain ⟨out', h1, h2⟩ := q2.total
    have h3 : helloFrame = out' := (congrArg Prod.fst hc).symm.trans h1
    rw [h3]
    exact says_once h h2
  · rw [q1] at hc
    have := congrArg Prod.snd hc
    cases this

omit [B64] in
/-- What has been written stays written. -/
theorem turn_greeted {w rest R : Bytes} {x : Desk} (h : ServesInv w rest R x) (hg : ¬ Early x.task.phase → w ++ helloFrame <+: x.task.out.wire) (n k : Nat) :
    let t := (x.task.turn (offered x.waiting n x.ended) (granted k k)).1
    ¬ Early t.phase → w ++ helloFrame <+: t.out.wire := by
  obtain ⟨hc, h⟩ := h
  unfold ServeTask.turn
  cases hp : x.task.phase with
  | over e => intro t _; exact hg (by rw [hp]; exact id)
  | greet =>
    simp only [hp] at h
    obtain ⟨h1, h2, h3⟩ := h
    obtain ⟨o', ⟨q1, q2⟩ | ⟨q1, q2, -⟩, -⟩ := h3.push sendable_hello k
    · simp only [q1, ServeTask.after]
      exact fun hx => absurd trivial hx
    · simp only [q1, ServeTask.after, hp]
      exact fun hx => absurd trivial hx
  | greeting =>
    simp only [hp] at h
    obtain ⟨h1, h2, h3⟩ := h
    obtain ⟨o', ⟨q1, q3⟩ | ⟨q1, -⟩, q2, -⟩ := h3.flush k
    · simp only [q1, ServeTask.after]
      intro _
      obtain ⟨out, o1, o2⟩ := q2.total
      rw [q3, List.append_nil] at o1
      rw [o1, hello_once o2]
      exact List.prefix_refl _
    · simp only [q1, ServeTask.after, hp]
      exact fun hx => absurd trivial hx
  | closing =>
    simp only [hp] at h
    obtain ⟨h1, h2⟩ := h
    obtain ⟨o', ⟨q1, -⟩ | ⟨q1, -⟩, q2, q4, -⟩ := h2.flush k
    all_goals
      simp only [q1, ServeTask.after]
      exact fun _ => (hg (by rw [hp]; exact id)).trans q4
  | part =>
    simp only [hp] at h
    obtain ⟨h1, h2⟩ := h
    obtain ⟨o', ⟨q1, q2⟩ | ⟨q1, q2, -⟩, q4⟩ := h2.push (sendable_close isizeMax) k
    all_goals
      simp only [q1, ServeTask.after]
      exact fun _ => (hg (by rw [hp]; exact id)).trans q4
  | parting =>
    simp only [hp] at h
    obtain ⟨h1, h2⟩ := h
    obtain ⟨o', ⟨q1, -⟩ | ⟨q1, -⟩, q2, q4, -⟩ := h2.flush k
    all_goals
      simp only [q1, ServeTask.after]
      exact fun _ => (hg (by rw [hp]; exact id)).trans q4
  | forward b =>
    have hg' := hg (by rw [hp]; exact id)
    simp only [hp] at h
    obtain ⟨h1, ⟨L, h2, h3⟩, h4⟩ := h
    cases b with
    | some m =>
      obtain ⟨o', ⟨q1, q2⟩ | ⟨q1, q2, -⟩, q4⟩ := h2.push (h4 m rfl) k
      all_goals
        simp only [q1, ServeTask.after]
        exact fun _ => hg'.trans q4
    | none =>
      simp only
      split
      · obtain ⟨o', ⟨q1, -⟩ | ⟨q1, -⟩, q2, q4, -⟩ := h2.flush k
        all_goals
          simp only [q1, ServeTask.after]
          exact fun _ => hg'.trans q4
      all_goals exact fun _ => hg'

theorem asked_door (x : Desk) (m : Request) (b : Bytes) : (x.asked m b).door ≠ .through := by
  unfold Desk.asked Desk.drops
  cases validate m.subject.method m.version m.headers with
  | error e => nofun
  | ok q =>
    simp only
    split
    · split
      · split <;> nofun
      · nofun
    · nofun

theorem greeted_poll {preq : ReqParser} {B R w rest : Bytes} (ha : asyncReception preq B = .serves w rest) {x : Desk} (h : DeskInv preq B R x) (hg : HasHello w x) (n k : Nat) : HasHello w (x.poll preq n k) := by
  unfold HasHello at hg ⊢
  cases h with
  | reading fr hd he hi hb hp =>
    intro hdoor
    exfalso
    revert hdoor
    unfold Desk.poll
    rw [hd]
    simp only
    cases fr.poll (httpDecoder preq) (offered x.waiting n x.ended) with
    | mk y q =>
      obtain ⟨fr', s'⟩ := q
      simp only
      cases y with
      | notReady => intro hx; cases hx
      | ready y =>
        cases y with
        | item m =>
          simp only
          exact asked_door _ _ _
        | _ => intro hx; simp [Desk.drops] at hx
  | rejecting w' hd ha' => rw [ha] at ha'; cases ha'
  | accepting w' rest' hd ha' hp =>
    unfold Desk.poll
    rw [hd]
    simp only
    split
    · intro _ hx
      simp only [if_true] at hx
      rw [hp] at hx
      exact absurd trivial hx
    · intro _ hx
      rw [hp] at hx
      exact absurd trivial hx
    · intro hx; simp [Desk.drops] at hx
  | serving w' rest' hd ha' hs =>
    rw [ha, Reception.serves.injEq] at ha'
    obtain ⟨rfl, rfl⟩ := ha'
    have := turn_greeted hs (hg hd) n k
    unfold Desk.poll
    rw [hd]
    exact fun _ => this
  | late hd ha' => rw [ha] at ha'; cases ha'
  | bad hd ha' => rw [ha] at ha'; cases ha'
  | rejected w' hd ha' => rw [ha] at ha'; cases ha'

theorem greeted_endures {preq : ReqParser} {B w rest : Bytes} (hB : Unmistakable preq B) (ha : asyncReception preq B = .serves w rest) (es : List Befalls) : ∀ x : Desk,
    DeskInv preq B (if x.ended then [] else brought es) x → HasHello w x → HasHello w (x.endures preq es) := by
  induction es with
  | nil => intro x _ h; exact h
  | cons e es ih =>
    intro x h hg
    refine ih (x.meets preq e) (desk_meets hB h) ?_
    cases e with
    | poll n k => exact greeted_poll ha h hg n k
    | bytes b =>
      unfold Desk.meets
      simp only
      split
      · exact hg
      · exact hg
    | finish => exact hg

end

end WS
