import Verif.Lemmas.Upgraded
import Verif.Props.Bureau
/-!
# C90: examples/async-autobahn-server.rs, and everybody who calls

Nobody waits for anybody, as long as everybody sends an opening handshake; one who does not ends the process.
-/

namespace WS
open Spec

section
variable [B64] {preq : ReqParser} {keys : Nat → Nat → Key4} {extra : Nat → Nat}

theorem hall_written (es : List Befalls) (hB : Unclouded preq (brought es)) {y : Desk} (hs : HallInv preq (brought es) [] y) (he : y.ended = endedBy es) :
    MayHaveEchoed y.task.out.wire (endedBy es) (openReception preq (brought es)) := by
  have nil : y.task.out.wire = [] → MayHaveEchoed y.task.out.wire (endedBy es) (openReception preq (brought es)) := by
    intro hw
    rw [hw]
    unfold MayHaveEchoed
    split
    · exact ⟨[], [], ⟨nofun, nofun⟩, List.nil_prefix, .inl (says_nil _)⟩
    · rfl
  have serves : ∀ {w rest}, EchoInv w rest [] y → MayHaveEchoed y.task.out.wire (endedBy es) (.serves w rest) := by
    rintro w rest ⟨hc, h⟩
    unfold MayHaveEchoed
    simp only
    rw [← he]
    have more : ∀ {out b}, y.task.out.wire <+: w ++ out → y.task.out.wire <+: w ++ (out ++ b) := by
      intro out b h
      exact h.trans ⟨b, by simp⟩
    split at h
    · exact absurd h id
    · exact absurd h id
    · next b hp =>
      obtain ⟨-, ⟨L, h2, h3⟩, h4⟩ := h
      obtain ⟨out, o1, o2⟩ := h2.says
      cases b with
      | none =>
        refine ⟨_, out, hc, o2, .inl ?_⟩
        rw [← h3]
        simpa using o1
      | some m =>
        obtain ⟨b, hb⟩ := says_some (h4 m rfl)
        refine ⟨_, out ++ b, hc, more o2, .inl ?_⟩
        rw [← h3]
        exact says_append o1 hb
    · obtain ⟨out, o1, o2⟩ := h.2.says
      exact ⟨_, out, hc, o2, .inl o1⟩
    · obtain ⟨out, o1, o2⟩ := h.2.says
      exact ⟨_, out, hc, o2, .inl o1⟩
    · obtain ⟨out, o1, o2⟩ := h.2.says
      exact ⟨_, out, hc, o2, .inr ⟨h.1, o1⟩⟩
    · obtain ⟨out, o1, o2⟩ := h.2.1.says
      exact ⟨_, out, hc, o2, .inr ⟨h.1, o1⟩⟩
    · obtain ⟨out, o1, o2⟩ := h.2.2.says
      exact ⟨_, out, hc, o2, .inl o1⟩
  cases hs with
  | reading fr hd a1 a2 hb a3 a4 hw => exact nil hw
  | accepting w rest hd ha hp hs => rw [ha]; exact serves hs
  | serving w rest hd ha hs => rw [ha]; exact serves hs
  | late hd ha he hw hp => exact nil hw
  | bad hd ha hw hp => exact nil hw

theorem hall_rested {B : Bytes} {y : Desk} (h1 : HallInv preq B [] y) (h2 : DeskRest y) : HasEchoed y.task.out.wire y.gone y.ended (openReception preq B) := by
  unfold HasEchoed
  cases h1 with
  | reading fr hd a1 a2 hb a3 a4 hw =>
    cases h2 with
    | idle fr' hd' r1 r2 r3 =>
      rw [hd] at hd'
      cases hd'
      rw [r2] at hb
      rw [← hb, open_none (by simpa using a2 r1), r3]
      exact ⟨hw, by unfold Desk.gone; rw [a3]; rfl⟩
    | open_ hd' => rw [hd] at hd'; cases hd'
    | dropped hd' => rw [hd] at hd'; cases hd'
    | over e hd' => rw [hd] at hd'; cases hd'
  | accepting w rest hd => cases h2 with
    | idle fr' hd' => rw [hd] at hd'; cases hd'
    | open_ hd' => rw [hd] at hd'; cases hd'
    | dropped hd' => rw [hd] at hd'; cases hd'
    | over e hd' => rw [hd] at hd'; cases hd'
  | late hd ha he hw hp => rw [ha, he]; exact ⟨hw, by unfold Desk.gone; rw [hp]; rfl⟩
  | bad hd ha hw hp => rw [ha]; exact ⟨hw, by unfold Desk.gone; rw [hp]; rfl⟩
  | serving w rest hd ha hs =>
    rw [ha]
    obtain ⟨hc, h⟩ := hs
    cases h2 with
    | idle fr' hd' => rw [hd] at hd'; cases hd'
    | dropped hd' => rw [hd] at hd'; cases hd'
    | open_ hd' r1 r2 r3 r4 r5 =>
      simp only [r1] at h
      obtain ⟨k1, ⟨L, k2, k3⟩, -⟩ := h
      obtain ⟨out, o1, o2⟩ := k2.total
      refine ⟨_, out, hc, .inr (rest_quiet k1 r3 r4), .inl ⟨by unfold Desk.gone; rw [r1]; rfl, r5, k1.open_, ?_, by simpa [r2] using o1⟩⟩
      rw [← k3]
      simpa using o2
    | over e hd' hp =>
      have hg : y.gone = true := by unfold Desk.gone; rw [hp]; rfl
      simp only [hp] at h
      cases e with
      | returned =>
        obtain ⟨k1, k2, k3⟩ := h
        obtain ⟨out, o1, o2⟩ := k2.total
        refine ⟨_, out, hc, ?_, .inr (.inl ⟨hg, k1, o2, by simpa [k3] using o1⟩)⟩
        rcases k1 with k1 | ⟨k1, -⟩
        · exact .inl k1
        · exact .inr (by rw [k1]; nofun)
      | failed e =>
        obtain ⟨k1, k2, k3⟩ := h
        obtain ⟨out, o1, o2⟩ := k3.says
        exact ⟨_, out, hc, .inr (by rw [k2]; nofun), .inr (.inr ⟨hg, k1, k2, o1, o2⟩)⟩
      | panicked =>
        obtain ⟨k1, k2, k3⟩ := h
        obtain ⟨out, o1, o2⟩ := k3.says
        exact ⟨_, out, hc, .inr (by rw [k2]; nofun), .inr (.inr ⟨hg, k1, k2, o1, o2⟩)⟩

/-- C90: each connection is as if there were no other: what has become of it is what becomes of it alone when its own peer does what it has done. -/
theorem C90_alone (es : List Occasion) (i : Nat) : ∃ ds, brought ds = broughtBy i es ∧ endedBy ds = leftBy i es ∧
    ((Hall.start keys extra).endures preq es).conns i = (Desk.opened (keys i) (extra i)).lasts preq ds := by
  obtain ⟨ds, h1, h2⟩ := (hallAlone_run (preq := preq) (keys := keys) (extra := extra) es).alone i
  obtain ⟨h3, h4⟩ := brought_acts ds
  rw [h1] at h3 h4
  exact ⟨ds, h3.symm, h4.symm, h2⟩

theorem hall_inv_run (es : List Occasion) (i : Nat) (hB : Unclouded preq (broughtBy i es)) :
    HallInv preq (broughtBy i es) [] (((Hall.start keys extra).endures preq es).conns i) ∧ (((Hall.start keys extra).endures preq es).conns i).ended = leftBy i es := by
  obtain ⟨ds, h1, h2, h3⟩ := C90_alone (preq := preq) (keys := keys) (extra := extra) es i
  rw [h3, ← h1, ← h2]
  rw [← h1] at hB
  exact hall_inv (keys i) (extra i) ds hB

/-- C90: whatever everybody does, at any time a peer has been written no more than it is owed for its own bytes: nothing as long as they are no opening handshake, and else a 101, the answers to the
first messages in the bytes behind the request, and a Close only behind the answers to everything up to a Close, or to the end of the stream. Missing: bytes that are not `Unclouded` (C23, C42). -/
theorem C90_written_partial (es : List Occasion) (i : Nat) (hB : Unclouded preq (broughtBy i es)) :
    MayHaveEchoed (((Hall.start keys extra).endures preq es).conns i).task.out.wire (leftBy i es) (openReception preq (broughtBy i es)) := by
  obtain ⟨ds, h1, h2, h3⟩ := C90_alone (preq := preq) (keys := keys) (extra := extra) es i
  rw [h3, ← h1, ← h2]
  rw [← h1] at hB
  obtain ⟨hs, he⟩ := hall_inv (preq := preq) (keys i) (extra i) ds hB
  exact hall_written ds hB hs he

/-- C90: and as long as there is a process, nobody is let go of because of somebody else. Missing: as above. -/
theorem C90_gone_partial (es : List Occasion) (i : Nat) (hB : Unclouded preq (broughtBy i es)) (h : (((Hall.start keys extra).endures preq es).conns i).gone = true) :
    EchoLetGo (((Hall.start keys extra).endures preq es).conns i).task.out.wire (leftBy i es) (openReception preq (broughtBy i es)) := by
  obtain ⟨hs, he⟩ := hall_inv_run (preq := preq) (keys := keys) (extra := extra) es i hB
  generalize ((Hall.start keys extra).endures preq es).conns i = y at h hs he ⊢
  change y.task.phase.isOver = true at h
  rw [← he]
  unfold EchoLetGo
  cases hs with
  | reading fr hd a1 a2 hb a3 a4 hw => rw [a3] at h; cases h
  | accepting w rest hd ha hp hs => rw [hp] at h; cases h
  | late hd ha he' hw hp => rw [ha]; exact ⟨he', hw⟩
  | bad hd ha hw hp => rw [ha]; exact hw
  | serving w rest hd ha hs =>
    rw [ha]
    obtain ⟨hc, hs⟩ := hs
    cases hp : y.task.phase with
    | over e =>
      rw [hp] at hs
      cases e with
      | returned =>
        obtain ⟨h1, h2, h3⟩ := hs
        obtain ⟨out, o1, o2⟩ := h2.total
        exact ⟨_, out, hc, .inl ⟨h1, o2, by simpa [h3] using o1⟩⟩
      | failed e =>
        obtain ⟨out, o1, o2⟩ := hs.2.2.says
        exact ⟨_, out, hc, .inr ⟨hs.1, hs.2.1, o1, o2⟩⟩
      | panicked =>
        obtain ⟨out, o1, o2⟩ := hs.2.2.says
        exact ⟨_, out, hc, .inr ⟨hs.1, hs.2.1, o1, o2⟩⟩
    | _ => rw [hp] at h; cases h

/-- C90: the process ends only because of somebody who has sent what is no opening handshake, or has hung up before the end of the head. Missing: as above. -/
theorem C90_crash_partial (es : List Occasion) (hB : ∀ i, Unclouded preq (broughtBy i es)) (h : ((Hall.start keys extra).endures preq es).crashed = true) :
    ∃ i, i < visitors es ∧ ¬ Decent (leftBy i es) (openReception preq (broughtBy i es)) := by
  have ha := accounted_run (preq := preq) es (accounted_start (keys := keys) (extra := extra))
  unfold Accounted at ha
  rw [if_pos h] at ha
  obtain ⟨i, h1, h2⟩ := ha
  rw [(hallAlone_run es).made] at h1
  obtain ⟨hi, he⟩ := hall_inv_run (preq := preq) (keys := keys) (extra := extra) es i (hB i)
  refine ⟨i, h1, ?_⟩
  unfold Desk.isDropped at h2
  rw [← he]
  cases hi with
  | reading fr hd => rw [hd] at h2; cases h2
  | accepting w rest hd => rw [hd] at h2; cases h2
  | serving w rest hd => rw [hd] at h2; cases h2
  | late hd ha he => rw [ha, he]; nofun
  | bad hd ha => rw [ha]; exact id

/-- C90: whatever comes behind a request that is granted, the answer to the request is not lost: before the server lets go of the connection it has been written whole. Missing: bytes that are not
`Unclouded` (C23, C42). -/
theorem C90_upgrades_partial (es : List Occasion) (i : Nat) (hB : Unclouded preq (broughtBy i es)) (written rest : Bytes) (hr : openReception preq (broughtBy i es) = .serves written rest)
    (h : (((Hall.start keys extra).endures preq es).conns i).gone = true) : written <+: (((Hall.start keys extra).endures preq es).conns i).task.out.wire := by
  obtain ⟨ds, h1, h2, h3⟩ := C90_alone (preq := preq) (keys := keys) (extra := extra) es i
  rw [h3] at h ⊢
  rw [← h1] at hB hr
  have hw := upgraded_lasts hB hr ds (Desk.opened (keys i) (extra i)) (hall_start (keys i) (extra i) ds) nofun
  have hs := (hall_inv (preq := preq) (keys i) (extra i) ds hB).1
  unfold Desk.gone at h
  cases hs with
  | reading fr hd a1 a2 hb hp => rw [hp] at h; cases h
  | accepting w rest hd ha hp => rw [hp] at h; cases h
  | serving w rest hd ha hs => exact hw hd
  | late hd ha => rw [hr] at ha; cases ha
  | bad hd ha => rw [hr] at ha; cases ha

/-- C90: if nobody is like that, then the process goes on, and nobody has to wait for anybody else: as soon as the main future and the task of its connection have been polled often enough, a peer has got
what it is owed for its own bytes, whatever all the others do before, in between and after. Missing: that, when somebody is (`C90_crashes_partial`), and bytes that are not `Unclouded`. -/
theorem C90_served_partial (es : List Occasion) (i : Nat) (hi : i < visitors es) (rs : Nat → List Occasion) (hr : ∀ j, Attention i (rs j))
    (hB : ∀ j k, Unclouded preq (broughtBy k (es ++ roundsOf rs j)))
    (hd : ∀ j k, Decent (leftBy k (es ++ roundsOf rs j)) (openReception preq (broughtBy k (es ++ roundsOf rs j)))) :
    ∃ N, ∀ j, N ≤ j →
      let x := (Hall.start keys extra).endures preq (es ++ roundsOf rs j)
      x.crashed = false ∧ HasEchoed (x.conns i).task.out.wire (x.conns i).gone (leftBy i es) (openReception preq (broughtBy i es)) := by
  have fine : ∀ j, ((Hall.start keys extra).endures preq (es ++ roundsOf rs j)).crashed = false := by
    intro j
    rcases Bool.eq_false_or_eq_true ((Hall.start keys extra).endures preq (es ++ roundsOf rs j)).crashed with h | h
    · obtain ⟨k, -, h2⟩ := C90_crash_partial _ (hB j) h
      exact absurd (hd j k) h2
    · exact h
  have hB0 : Unclouded preq (broughtBy i es) := by
    have := hB 0 i
    rwa [(rounds_quiet hr es 0).1] at this
  obtain ⟨h1, h2⟩ := hall_inv_run (preq := preq) (keys := keys) (extra := extra) es i hB0
  obtain ⟨N, y, k1, k2⟩ := hall_quiets hB0 i _ _ rfl h1 (by rw [(hallAlone_run es).made]; exact hi) rs hr (fun j => by rw [← hall_append]; exact fine j)
  refine ⟨N, fun j hj => ⟨fine j, ?_⟩⟩
  obtain ⟨g1, g2⟩ := hall_inv_run (preq := preq) (keys := keys) (extra := extra) (es ++ roundsOf rs j) i (hB j i)
  have hy : ((Hall.start keys extra).endures preq (es ++ roundsOf rs j)).conns i = y := by rw [hall_append]; exact k2 j hj
  obtain ⟨q1, q2⟩ := rounds_quiet hr es j
  rw [hy, q1] at g1
  rw [hy, q2] at g2
  rw [hy, ← g2]
  exact hall_rested g1 k1

theorem echoed_once {r : Reception} {a b : Bytes} {p q fin : Bool} (hm : ∀ written rest, r = .serves written rest → ∃ ms, Course (deskHears rest) ms ∧ (Parted ms ∨ deskHears rest ms.length = .ended))
    (h : HasEchoed a p fin r) (h' : HasEchoed b q fin r) : a = b ∧ p = q := by
  cases r with
  | waits => exact ⟨h.1.trans h'.1.symm, h.2.trans h'.2.symm⟩
  | drops => exact ⟨h.1.trans h'.1.symm, h.2.trans h'.2.symm⟩
  | rejects z => exact ⟨h.1.trans h'.1.symm, h.2.trans h'.2.symm⟩
  | serves written rest =>
    obtain ⟨ms₀, c0, e0⟩ := hm _ _ rfl
    obtain ⟨ms, out, h1, h2, h3⟩ := h
    obtain ⟨ms', out', k1, k2, k3⟩ := h'
    obtain rfl := course_once h1 k1 h2 k2
    obtain rfl := course_once c0 h1 (by rcases e0 with e0 | e0; exact .inl e0; exact .inr (by rw [e0]; nofun)) h2
    rcases h3 with ⟨g, b1, b2, b3, b4⟩ | ⟨g, b2, b3, b4⟩ | ⟨g, b2, b3, b4⟩
    · rcases k3 with ⟨g', d1, d2, d3, d4⟩ | ⟨g', d2, d3, d4⟩ | ⟨g', d2, d3, d4⟩
      · obtain rfl := says_once b3 d3
        exact ⟨b4.trans d4.symm, g.trans g'.symm⟩
      · rcases d2 with d2 | ⟨-, d2⟩
        · exact absurd d2 b2
        · rw [b1] at d2; cases d2
      · rcases e0 with e0 | e0
        · exact absurd e0 b2
        · rw [e0] at d3; cases d3
    · rcases k3 with ⟨g', d1, d2, d3, d4⟩ | ⟨g', d2, d3, d4⟩ | ⟨g', d2, d3, d4⟩
      · rcases b2 with b2 | ⟨-, b2⟩
        · exact absurd b2 d2
        · rw [d1] at b2; cases b2
      · obtain rfl := says_once b3 d3
        exact ⟨b4.trans d4.symm, g.trans g'.symm⟩
      · rcases e0 with e0 | e0
        · exact absurd e0 d2
        · rw [e0] at d3; cases d3
    · rcases e0 with e0 | e0
      · exact absurd e0 b2
      · rw [e0] at b3; cases b3

/-- C90: so, as long as nobody ends it for everybody, what a peer gets in the end depends on nothing but its own bytes and whether it hung up, if all that is behind its request is messages up to a Close or
to the end. Missing: bytes with something in them that is no message (as `C88_refuted_lost`), servers that somebody ends (`C90_refuted_everybody`), and bytes that are not `Unclouded`. -/
theorem C90_deterministic_partial {keys' : Nat → Nat → Key4} {extra' : Nat → Nat} (es es' : List Occasion) (i i' : Nat) (hi : i < visitors es) (hi' : i' < visitors es')
    (hb : broughtBy i es = broughtBy i' es') (he : leftBy i es = leftBy i' es')
    (hm : ∀ written rest, openReception preq (broughtBy i es) = .serves written rest → ∃ ms, Course (deskHears rest) ms ∧ (Parted ms ∨ deskHears rest ms.length = .ended))
    (rs rs' : Nat → List Occasion) (hr : ∀ j, Attention i (rs j)) (hr' : ∀ j, Attention i' (rs' j))
    (hB : ∀ j k, Unclouded preq (broughtBy k (es ++ roundsOf rs j))) (hB' : ∀ j k, Unclouded preq (broughtBy k (es' ++ roundsOf rs' j)))
    (hd : ∀ j k, Decent (leftBy k (es ++ roundsOf rs j)) (openReception preq (broughtBy k (es ++ roundsOf rs j))))
    (hd' : ∀ j k, Decent (leftBy k (es' ++ roundsOf rs' j)) (openReception preq (broughtBy k (es' ++ roundsOf rs' j)))) :
    ∃ N, ∀ j j', N ≤ j → N ≤ j' →
      let y := ((Hall.start keys extra).endures preq (es ++ roundsOf rs j)).conns i
      let y' := ((Hall.start keys' extra').endures preq (es' ++ roundsOf rs' j')).conns i'
      y.task.out.wire = y'.task.out.wire ∧ y.gone = y'.gone := by
  obtain ⟨N, h⟩ := C90_served_partial (keys := keys) (extra := extra) es i hi rs hr hB hd
  obtain ⟨N', h'⟩ := C90_served_partial (keys := keys') (extra := extra') es' i' hi' rs' hr' hB' hd'
  refine ⟨N + N', fun j j' h1 h2 => ?_⟩
  have a := (h j (by omega)).2
  have b := (h' j' (by omega)).2
  rw [← hb, ← he] at b
  exact echoed_once hm a b

/-- C90: but one is enough. If a single peer has sent what is no opening handshake, or has hung up before the end of the head, then main panics as soon as it has been polled often enough, whatever all the
others do. -/
theorem C90_crashes_partial (es : List Occasion) (i : Nat) (hi : i < visitors es) (hB : Unclouded preq (broughtBy i es)) (hd : ¬ Decent (leftBy i es) (openReception preq (broughtBy i es)))
    (rs : Nat → List Occasion) (hr : ∀ j, Attention i (rs j)) : ∃ N, ∀ j, N ≤ j → ((Hall.start keys extra).endures preq (es ++ roundsOf rs j)).crashed = true := by
  by_cases hall : ∀ j, ((Hall.start keys extra).endures preq (es ++ roundsOf rs j)).crashed = false
  · exfalso
    obtain ⟨h1, h2⟩ := hall_inv_run (preq := preq) (keys := keys) (extra := extra) es i hB
    obtain ⟨N, y, k1, k2⟩ := hall_quiets hB i _ _ rfl h1 (by rw [(hallAlone_run es).made]; exact hi) rs hr (fun j => by rw [← hall_append]; exact hall j)
    obtain ⟨q1, q2⟩ := rounds_quiet hr es N
    obtain ⟨g1, g2⟩ := hall_inv_run (preq := preq) (keys := keys) (extra := extra) (es ++ roundsOf rs N) i (by rw [q1]; exact hB)
    have hy : ((Hall.start keys extra).endures preq (es ++ roundsOf rs N)).conns i = y := by rw [hall_append]; exact k2 N (Nat.le_refl _)
    have ha := accounted_run (preq := preq) (es ++ roundsOf rs N) (accounted_start (keys := keys) (extra := extra))
    unfold Accounted at ha
    rw [hall N, if_neg (by simp)] at ha
    have ha := ha i
    rw [hy] at ha
    unfold Desk.isDropped at ha
    rw [hy, q1] at g1
    rw [hy, q2] at g2
    rw [← g2] at hd
    cases g1 with
    | reading fr hd' a1 a2 hb a3 a4 hw =>
      cases k1 with
      | idle fr' hd'' r1 r2 r3 =>
        rw [hd'] at hd''
        cases hd''
        rw [r2] at hb
        rw [← hb, open_none (by simpa using a2 r1)] at hd
        exact hd r3
      | open_ hd'' => rw [hd'] at hd''; cases hd''
      | dropped hd'' => rw [hd'] at hd''; cases hd''
      | over e hd'' => rw [hd'] at hd''; cases hd''
    | accepting w rest hd' ha' => rw [ha'] at hd; exact hd trivial
    | serving w rest hd' ha' => rw [ha'] at hd; exact hd trivial
    | late hd' => rw [hd'] at ha; cases ha
    | bad hd' => rw [hd'] at ha; cases ha
  · obtain ⟨N, hN⟩ := Classical.not_forall.mp hall
    refine ⟨N, fun j hj => ?_⟩
    have hc : ((Hall.start keys extra).endures preq (es ++ roundsOf rs N)).crashed = true := by simpa using hN
    obtain ⟨m, rfl⟩ : ∃ m, j = N + m := ⟨j - N, by omega⟩
    have : roundsOf rs (N + m) = roundsOf rs N ++ roundsOf (fun j => rs (N + j)) m := by
      unfold roundsOf
      rw [List.range_add, List.map_append, List.flatten_append, List.map_map]
      rfl
    rw [this, ← List.append_assoc, hall_append]
    exact (crashed_run _ hc).1

/-- C90: and then nobody gets anything any more. -/
theorem C90_stopped (es fs : List Occasion) (h : ((Hall.start keys extra).endures preq es).crashed = true) (i : Nat) :
    ((Hall.start keys extra).endures preq (es ++ fs)).crashed = true ∧
    (((Hall.start keys extra).endures preq (es ++ fs)).conns i).task.out.wire = (((Hall.start keys extra).endures preq es).conns i).task.out.wire := by
  rw [hall_append]
  obtain ⟨h1, h2⟩ := crashed_run (preq := preq) fs h
  exact ⟨h1, by rw [h2 i]⟩

theorem open101 (v : HttpVersion) (k : WsKey) : head101 v (responseLines [] none k) =
    v.fmt ++ ascii " 101 Switching Protocols\r\nSec-WebSocket-Accept: " ++ (WsAccept.new k).serialize ++ ascii "\r\nConnection: Upgrade\r\nUpgrade: websocket\r\n\r\n" := by
  have a : ascii " 101 Switching Protocols" ++ ascii "\r\n" ++ (nAccept ++ ascii ": ") = ascii " 101 Switching Protocols\r\nSec-WebSocket-Accept: " := by decide +kernel
  have b : ascii "\r\n" ++ (nConnection ++ ascii ": " ++ ascii "Upgrade" ++ ascii "\r\n") ++ (nUpgrade ++ ascii ": " ++ ascii "websocket" ++ ascii "\r\n") ++ ascii "\r\n" =
      ascii "\r\nConnection: Upgrade\r\nUpgrade: websocket\r\n\r\n" := by decide +kernel
  have l : responseLines [] none k = [(nAccept, (WsAccept.new k).serialize), (nConnection, ascii "Upgrade"), (nUpgrade, ascii "websocket")] := by
    have key : ∀ a : WsAccept, Headers.wire (((Headers.setAccept a []).setConnection [ConnOpt.header (ascii "Upgrade")]).setUpgrade [⟨.websocket, none⟩]) =
        [(nAccept, oneLine a.serialize), (nConnection, ascii "Upgrade"), (nUpgrade, ascii "websocket")] := by
      intro a
      unfold Headers.setUpgrade Headers.setConnection Headers.setAccept
      have e1 : eqIgnoreCase nAccept nConnection = false ∧ eqIgnoreCase nAccept nUpgrade = false ∧ eqIgnoreCase nConnection nUpgrade = false := by decide +kernel
      rw [insert_absent nAccept _ _ (by simp), insert_absent nConnection _ _ (by simp [e1]), insert_absent nUpgrade _ _ (by simp [e1])]
      have e3 : HItem.lines (.typed (.connection [ConnOpt.header (ascii "Upgrade")])) = [ascii "Upgrade"] := by decide +kernel
      have e4 : HItem.lines (.typed (.upgrade [⟨.websocket, none⟩])) = [ascii "websocket"] := by decide +kernel
      have e5 : HItem.lines (.typed (.accept a)) = [oneLine a.serialize] := rfl
      simp only [Headers.wire, List.cons_append, List.nil_append, List.flatMap_cons, List.flatMap_nil, e3, e4, e5, List.map_cons, List.map_nil]
    have := key (WsAccept.new k)
    rw [show oneLine (WsAccept.new k).serialize = (WsAccept.new k).serialize from b64_one _] at this
    exact this
  unfold head101
  rw [l, ← a, ← b]
  generalize (WsAccept.new k).serialize = z
  simp only [Head, List.flatMap_cons, List.flatMap_nil, List.append_nil, List.append_assoc]

/-- C90: which bytes are answered, and how, byte for byte: what comes up to the first blank line is a head that is an opening handshake, and the answer is a 101 with `Sec-WebSocket-Accept` for its key and
the two lines that say the connection is upgraded; no subprotocol is selected, whatever is offered. -/
theorem C90_answers (B x rest : Bytes) : openReception preq B = .serves x rest ↔ ∃ head m n key accept, splitOffHttp B = some (head, rest) ∧ preq.parse head = .complete m n ∧
    (∀ c ∈ mapConditions m.subject.method m.version m.headers, c.1) ∧ m.headers.getKey = some key ∧ chars accept = acceptText (key.bytes.map UInt8.toNat) ∧
    x = m.version.fmt ++ ascii " 101 Switching Protocols\r\nSec-WebSocket-Accept: " ++ accept ++ ascii "\r\nConnection: Upgrade\r\nUpgrade: websocket\r\n\r\n" := by
  unfold openReception
  cases hsp : splitOffHttp B with
  | none => exact ⟨nofun, fun ⟨_, _, _, _, _, h, _⟩ => nomatch h⟩
  | some q =>
    obtain ⟨head, r⟩ := q
    simp only
    cases hp : preq.parse head with
    | part =>
      refine ⟨nofun, ?_⟩
      rintro ⟨head', m, n, _, _, h, h', -⟩; cases h; rw [hp] at h'; cases h'
    | error =>
      refine ⟨nofun, ?_⟩
      rintro ⟨head', m, n, _, _, h, h', -⟩; cases h; rw [hp] at h'; cases h'
    | complete m n =>
      simp only
      split
      · next key hv hk =>
        refine ⟨fun h => ?_, ?_⟩
        · rw [Reception.serves.injEq] at h
          exact ⟨head, m, n, key, (WsAccept.new key).serialize, by rw [h.2], hp, conditions_hold hv, hk, (whole_heads key).2.2, by rw [← h.1, open101]⟩
        · rintro ⟨head', m', n', key', accept, h, h1, -, h2, h4, h5⟩
          cases h
          rw [hp] at h1
          cases h1
          rw [hk] at h2
          obtain rfl := Option.some.inj h2
          have : accept = (WsAccept.new key).serialize := chars_inj (h4.trans (whole_heads key).2.2.symm)
          rw [open101, h5, this]
      · next hno =>
        refine ⟨nofun, ?_⟩
        rintro ⟨head', m', n', key', accept, h, h1, h2, -⟩
        cases h
        rw [hp] at h1
        cases h1
        have := firstFailure_unique _ (C33_first_failure_map m.subject.method m.version m.headers) ((firstFailure_none _).mpr h2)
        have hv := (validate_ok_iff _ _ _).mpr this
        obtain ⟨key, hk⟩ := validate_key hv
        exact absurd hk (hno key hv)

/-- C90: for hyper's way of reading heads all that is asked of the bytes is that they do not begin with a line end and that there are not many of them. -/
theorem C90_unclouded (B : Bytes) (h1 : B.head? ≠ some 13) (h2 : B.head? ≠ some 10) (hl : 32 * B.length ≤ 200 * 2 ^ 20) : Unclouded reqParser B := by
  cases B with
  | nil => exact ⟨nofun, nofun⟩
  | cons c B =>
    refine ⟨(C84_clearcut c B (fun h => h1 (by rw [h]; rfl)) (fun h => h2 (by rw [h]; rfl))).1, fun written rest hr n => nextMany_calm ?_ n⟩
    unfold openReception at hr
    cases hsp : splitOffHttp (c :: B) with
    | none => rw [hsp] at hr; cases hr
    | some q =>
      obtain ⟨head, r⟩ := q
      rw [hsp] at hr
      simp only at hr
      split at hr
      · split at hr
        · rw [Reception.serves.injEq] at hr
          obtain ⟨g1, g2, -⟩ := splitOff_iff.mp hsp
          have l1 := congrArg List.length g1
          have l2 := g2.length_le
          rw [List.length_append, hr.2] at l1
          simp only [List.length_cons, List.length_nil] at l2
          have : min (200 * 2 ^ 20) u32Max = 200 * 2 ^ 20 := by decide
          rw [this]
          omega
        · cases hr
      · cases hr

end

/-! ## Concrete cases -/

/-- Three connect; the first sends half a head, the second nothing, and the third is served. -/
def foyer : List Occasion := [.connects, .connects, .bytes 0 caller1, .main [(0, 900), (1, 3)], .connects, .task 1 5 5, .bytes 2 caller1, .main [(2, 3), (2, 8)], .bytes 2 caller2, .main [(1, 7)],
  .bytes 2 caller3, .bytes 2 caller4]

/-- In each round somebody else connects. -/
def stir (_ : Nat) : List Occasion := [.connects, .main [(0, 4), (2, 500), (1, 90)], .task 2 500 90, .task 1 0 0]

theorem stir_attends (j : Nat) : Attention 2 (stir j) := by
  refine ⟨fun e he => ?_, ⟨_, List.mem_cons_of_mem _ List.mem_cons_self, 500, by simp⟩, ⟨500, 90, by simp [stir]⟩, fun ps n h h' => ?_, fun n k h => ?_⟩
  · simp only [stir, List.mem_cons, List.not_mem_nil, or_false] at he
    rcases he with rfl | rfl | rfl | rfl <;> exact ⟨fun b hb => (by cases hb), fun hb => (by cases hb)⟩
  · simp only [stir, List.mem_cons, List.not_mem_nil, or_false, Occasion.main.injEq, reduceCtorEq, false_or] at h
    subst h
    simp only [List.mem_cons, List.not_mem_nil, or_false, Prod.mk.injEq] at h'
    omega
  · simp only [stir, List.mem_cons, List.not_mem_nil, or_false, Occasion.task.injEq, reduceCtorEq, false_or] at h
    omega

theorem foyer_visits (j k : Nat) : visitsOf k 0 (foyer ++ roundsOf stir j) = visitsOf k 0 foyer := by
  have hq : ∀ e ∈ roundsOf stir j, (∀ b, e ≠ .bytes k b) ∧ e ≠ .finish k := by
    intro e he
    obtain ⟨r, h1, h2⟩ := List.mem_flatten.mp he
    obtain ⟨n, -, rfl⟩ := List.mem_map.mp h1
    simp only [stir, List.mem_cons, List.not_mem_nil, or_false] at h2
    rcases h2 with rfl | rfl | rfl | rfl <;> exact ⟨fun b hb => (by cases hb), fun hb => (by cases hb)⟩
  rw [visitsOf_append, quiet_visits k hq, List.append_nil]

theorem foyer_brought (k : Nat) : broughtBy k foyer = (if k = 0 then caller1 else if k = 2 then callerBytes else []) ∧ leftBy k foyer = false := by
  match k with
  | 0 => refine ⟨?_, ?_⟩ <;> simp [broughtBy, leftBy, visitsOf, foyer, brought, endedBy]
  | 1 => refine ⟨?_, ?_⟩ <;> simp [broughtBy, leftBy, visitsOf, foyer, brought, endedBy]
  | 2 => refine ⟨?_, ?_⟩ <;> simp [broughtBy, leftBy, visitsOf, foyer, brought, endedBy, callerBytes]
  | k + 3 => refine ⟨?_, ?_⟩ <;> simp [broughtBy, leftBy, visitsOf, foyer, brought, endedBy]

theorem caller_openReception : @openReception B64.strict reqParser callerBytes = .serves plainAnswer (caller3 ++ caller4) := by decide +kernel

theorem caller_unclouded : @Unclouded B64.strict reqParser callerBytes := @C90_unclouded B64.strict _ (by decide +kernel) (by decide +kernel) (by decide +kernel)

theorem foyer_decent (k : Nat) : @Unclouded B64.strict reqParser (broughtBy k foyer) ∧ Decent (leftBy k foyer) (@openReception B64.strict reqParser (broughtBy k foyer)) := by
  obtain ⟨h1, h2⟩ := foyer_brought k
  rw [h1, h2]
  split
  · refine ⟨@C90_unclouded B64.strict _ (by decide +kernel) (by decide +kernel) (by decide +kernel), ?_⟩
    rw [show @openReception B64.strict reqParser caller1 = .waits by decide +kernel]
    rfl
  · split
    · refine ⟨caller_unclouded, ?_⟩
      rw [caller_openReception]
      trivial
    · exact ⟨@C90_unclouded B64.strict [] nofun nofun (by decide), rfl⟩

example : ∃ N : Nat, ∀ j, N ≤ j → (@Hall.endures B64.strict reqParser (Hall.start keys89 fun _ => 0) (foyer ++ roundsOf stir j)).crashed = false ∧
    HasEchoed ((@Hall.endures B64.strict reqParser (Hall.start keys89 fun _ => 0) (foyer ++ roundsOf stir j)).conns 2).task.out.wire
      ((@Hall.endures B64.strict reqParser (Hall.start keys89 fun _ => 0) (foyer ++ roundsOf stir j)).conns 2).gone false (.serves plainAnswer (caller3 ++ caller4)) := by
  have h := fun rs hr hB hd => @C90_served_partial B64.strict reqParser keys89 (fun _ => 0) foyer 2 (by decide) rs hr hB hd
  have hb : ∀ j k, broughtBy k (foyer ++ roundsOf stir j) = broughtBy k foyer := fun j k => congrArg brought (foyer_visits j k)
  have hl : ∀ j k, leftBy k (foyer ++ roundsOf stir j) = leftBy k foyer := fun j k => congrArg endedBy (foyer_visits j k)
  have h := h stir stir_attends (fun j k => by rw [hb]; exact (foyer_decent k).1) (fun j k => by rw [hb, hl]; exact (foyer_decent k).2)
  rw [(foyer_brought 2).1, (foyer_brought 2).2, if_neg (by decide), if_pos rfl, caller_openReception] at h
  exact h

/-- The same caller alone. -/
theorem solo_visits (j k : Nat) : visitsOf k 0 ([.connects, .bytes 0 callerBytes] ++ roundsOf (fun _ => [.main [(0, 1)], .task 0 2 1]) j) = visitsOf k 0 [.connects, .bytes 0 callerBytes] := by
  have hq : ∀ e ∈ roundsOf (fun _ => [.main [(0, 1)], .task 0 2 1]) j, (∀ b, e ≠ .bytes k b) ∧ e ≠ .finish k := by
    intro e he
    obtain ⟨r, h1, h2⟩ := List.mem_flatten.mp he
    obtain ⟨n, -, rfl⟩ := List.mem_map.mp h1
    simp only [List.mem_cons, List.not_mem_nil, or_false] at h2
    rcases h2 with rfl | rfl <;> exact ⟨fun b hb => (by cases hb), fun hb => (by cases hb)⟩
  rw [visitsOf_append, quiet_visits k hq, List.append_nil]

theorem solo_brought (k : Nat) : broughtBy k [.connects, .bytes 0 callerBytes] = (if k = 0 then callerBytes else []) ∧ leftBy k [.connects, .bytes 0 callerBytes] = false := by
  match k with
  | 0 => refine ⟨?_, ?_⟩ <;> simp [broughtBy, leftBy, visitsOf, brought, endedBy]
  | k + 1 => refine ⟨?_, ?_⟩ <;> simp [broughtBy, leftBy, visitsOf, brought, endedBy]

theorem solo_decent (k : Nat) : @Unclouded B64.strict reqParser (broughtBy k [.connects, .bytes 0 callerBytes]) ∧
    Decent (leftBy k [.connects, .bytes 0 callerBytes]) (@openReception B64.strict reqParser (broughtBy k [.connects, .bytes 0 callerBytes])) := by
  obtain ⟨h1, h2⟩ := solo_brought k
  rw [h1, h2]
  split
  · refine ⟨caller_unclouded, ?_⟩
    rw [caller_openReception]
    trivial
  · exact ⟨@C90_unclouded B64.strict [] nofun nofun (by decide), rfl⟩

set_option maxRecDepth 8000 in
example : ∃ N, ∀ j j', N ≤ j → N ≤ j' →
    let y := (@Hall.endures B64.strict reqParser (Hall.start keys89 fun _ => 0) (foyer ++ roundsOf stir j)).conns 2
    let y' := (@Hall.endures B64.strict reqParser (Hall.start keys89 fun _ => 1) ([.connects, .bytes 0 callerBytes] ++ roundsOf (fun _ => [.main [(0, 1)], .task 0 2 1]) j')).conns 0
    y.task.out.wire = y'.task.out.wire ∧ y.gone = y'.gone := by
  have hb : ∀ j k, broughtBy k (foyer ++ roundsOf stir j) = broughtBy k foyer := fun j k => congrArg brought (foyer_visits j k)
  have hl : ∀ j k, leftBy k (foyer ++ roundsOf stir j) = leftBy k foyer := fun j k => congrArg endedBy (foyer_visits j k)
  have hb' : ∀ j k, broughtBy k ([.connects, .bytes 0 callerBytes] ++ roundsOf (fun _ => [.main [(0, 1)], .task 0 2 1]) j) = broughtBy k [.connects, .bytes 0 callerBytes] :=
    fun j k => congrArg brought (solo_visits j k)
  have hl' : ∀ j k, leftBy k ([.connects, .bytes 0 callerBytes] ++ roundsOf (fun _ => [.main [(0, 1)], .task 0 2 1]) j) = leftBy k [.connects, .bytes 0 callerBytes] :=
    fun j k => congrArg endedBy (solo_visits j k)
  refine @C90_deterministic_partial B64.strict reqParser keys89 (fun _ => 0) keys89 (fun _ => 1) foyer [.connects, .bytes 0 callerBytes] 2 0 (by decide) (by decide)
    ((foyer_brought 2).1.trans (solo_brought 0).1.symm) ((foyer_brought 2).2.trans (solo_brought 0).2.symm) (fun written rest hr => ?_)
    stir _ stir_attends alone_attends (fun j k => by rw [hb]; exact (foyer_decent k).1) (fun j k => by rw [hb']; exact (solo_decent k).1)
    (fun j k => by rw [hb, hl]; exact (foyer_decent k).2) (fun j k => by rw [hb', hl']; exact (solo_decent k).2)
  rw [(foyer_brought 2).1, if_neg (by decide), if_pos rfl, caller_openReception, Reception.serves.injEq] at hr
  rw [← hr.2]
  exact ⟨_, caller_course.1, .inl caller_course.2⟩

/-- What becomes of them. -/
theorem foyer_end : (let x := @Hall.endures B64.strict reqParser (Hall.start keys89 fun _ => 0) (foyer ++ roundsOf stir 20)
      (x.crashed, (x.conns 0).task.out.wire, (x.conns 1).gone, (x.conns 2).task.out.wire, (x.conns 2).gone)) =
    (false, [], false, plainAnswer ++ [0x8a, 1, 7, 0x81, 2, 104, 105, 0x88, 0], true) := by decide +kernel

set_option maxRecDepth 8000 in
example := @C90_alone B64.strict reqParser keys89 (fun _ => 0) foyer 2
set_option maxRecDepth 8000 in
example := @C90_written_partial B64.strict reqParser keys89 (fun _ => 0) foyer 2 (foyer_decent 2).1
example := (@C90_answers B64.strict reqParser callerBytes plainAnswer _).mp caller_openReception

theorem foyer_gone : ((@Hall.endures B64.strict reqParser (Hall.start keys89 fun _ => 0) (foyer ++ roundsOf stir 20)).conns 2).gone = true := by decide +kernel

set_option maxRecDepth 8000 in
example := @C90_gone_partial B64.strict reqParser keys89 (fun _ => 0) (foyer ++ roundsOf stir 20) 2 (by rw [show broughtBy 2 (foyer ++ roundsOf stir 20) = broughtBy 2 foyer from congrArg brought (foyer_visits 20 2)]; exact (foyer_decent 2).1) foyer_gone

example : plainAnswer <+: ((@Hall.endures B64.strict reqParser (Hall.start keys89 fun _ => 0) (foyer ++ roundsOf stir 20)).conns 2).task.out.wire := by
  have hg := foyer_gone
  have hb : broughtBy 2 (foyer ++ roundsOf stir 20) = callerBytes := (congrArg brought (foyer_visits 20 2)).trans (foyer_brought 2).1
  generalize foyer ++ roundsOf stir 20 = es at hg hb ⊢
  exact @C90_upgrades_partial B64.strict reqParser keys89 (fun _ => 0) es 2 (by rw [hb]; exact caller_unclouded) _ _ (by rw [hb]; exact caller_openReception) hg

/-- The same, and somebody comes who sends something else. -/
def intruded : List Occasion := foyer ++ [.connects, .bytes 3 rudeBytes]

theorem intruded_brought : broughtBy 3 intruded = rudeBytes ∧ leftBy 3 intruded = false ∧ broughtBy 2 intruded = callerBytes := by
  refine ⟨?_, ?_, ?_⟩ <;> simp [broughtBy, leftBy, visitsOf, intruded, foyer, brought, endedBy, callerBytes]

theorem rude_openReception : @openReception B64.strict reqParser rudeBytes = .drops := by decide +kernel

theorem rude_unclouded : @Unclouded B64.strict reqParser rudeBytes := @C90_unclouded B64.strict _ (by decide +kernel) (by decide +kernel) (by decide +kernel)

theorem watch_attends (_ : Nat) : Attention 3 [.task 2 9 9, .main [(3, 1)], .task 3 2 1] := by
  refine ⟨fun e he => ?_, ⟨_, List.mem_cons_of_mem _ List.mem_cons_self, 1, by simp⟩, ⟨2, 1, by simp⟩, fun ps n h h' => ?_, fun n k h => ?_⟩
  · simp only [List.mem_cons, List.not_mem_nil, or_false] at he
    rcases he with rfl | rfl | rfl <;> exact ⟨fun b hb => (by cases hb), fun hb => (by cases hb)⟩
  · simp only [List.mem_cons, List.not_mem_nil, or_false, Occasion.main.injEq, reduceCtorEq, false_or] at h
    subst h
    simp only [List.mem_cons, List.not_mem_nil, or_false, Prod.mk.injEq] at h'
    omega
  · simp only [List.mem_cons, List.not_mem_nil, or_false, Occasion.task.injEq, reduceCtorEq, false_or] at h
    omega

set_option maxRecDepth 8000 in
example := @C90_crashes_partial B64.strict reqParser keys89 (fun _ => 0) intruded 3 (by decide) (by rw [intruded_brought.1]; exact rude_unclouded)
  (by rw [intruded_brought.1, rude_openReception]; exact id) _ watch_attends

theorem intruded_end : (let x := @Hall.endures B64.strict reqParser (Hall.start keys89 fun _ => 0) (intruded ++ [.main [(3, 1000), (2, 1000)]])
      (x.crashed, (x.conns 2).task.out.wire)) = (true, []) := by decide +kernel

set_option maxRecDepth 8000 in
example : ∃ i, i < visitors (intruded ++ [.main [(3, 1000), (2, 1000)]]) ∧ ¬ Decent (leftBy i (intruded ++ [.main [(3, 1000), (2, 1000)]]))
    (@openReception B64.strict reqParser (broughtBy i (intruded ++ [.main [(3, 1000), (2, 1000)]]))) := by
  refine @C90_crash_partial B64.strict reqParser keys89 (fun _ => 0) _ (fun k => ?_) (congrArg Prod.fst intruded_end)
  match k with
  | 0 => exact @C90_unclouded B64.strict _ (by decide +kernel) (by decide +kernel) (by decide +kernel)
  | 1 => exact @C90_unclouded B64.strict _ (by decide +kernel) (by decide +kernel) (by decide +kernel)
  | 2 => exact @C90_unclouded B64.strict _ (by decide +kernel) (by decide +kernel) (by decide +kernel)
  | 3 => exact @C90_unclouded B64.strict _ (by decide +kernel) (by decide +kernel) (by decide +kernel)
  | k + 4 =>
    have : broughtBy (k + 4) (intruded ++ [.main [(3, 1000), (2, 1000)]]) = [] := by simp [broughtBy, visitsOf, intruded, foyer, brought]
    rw [this]
    exact @C90_unclouded B64.strict [] nofun nofun (by decide)

set_option maxRecDepth 8000 in
example (fs : List Occasion) : (@Hall.endures B64.strict reqParser (Hall.start keys89 fun _ => 0) (intruded ++ [.main [(3, 1000), (2, 1000)]] ++ fs)).crashed = true :=
  (@C90_stopped B64.strict reqParser keys89 (fun _ => 0) (intruded ++ [.main [(3, 1000), (2, 1000)]]) fs (congrArg Prod.fst intruded_end) 2).1

set_option maxRecDepth 8000 in
/-- The full claim is false: a peer that has sent its opening handshake and its messages gets nothing, whatever happens afterwards, because another has sent something else. -/
theorem C90_refuted_everybody : ∃ es : List Occasion, broughtBy 2 es = callerBytes ∧ ∀ fs : List Occasion,
    ((@Hall.endures B64.strict reqParser (Hall.start keys89 fun _ => 0) (es ++ fs)).conns 2).task.out.wire = [] := by
  refine ⟨intruded ++ [.main [(3, 1000), (2, 1000)]], by simp [broughtBy, visitsOf, intruded, foyer, brought, callerBytes], fun fs => ?_⟩
  rw [(@C90_stopped B64.strict reqParser keys89 (fun _ => 0) _ fs (congrArg Prod.fst intruded_end) 2).2]
  exact congrArg Prod.snd intruded_end

end WS
