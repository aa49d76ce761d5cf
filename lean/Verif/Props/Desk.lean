import Verif.Lemmas.Greeted
import Verif.Props.Reception
/-!
# C88: examples/async-server.rs, whoever calls

Whatever comes from the first byte of a connection on, in whatever pieces and at whatever times, however its future is polled and however much of its writes the transport takes: what
examples/async-server.rs writes, and whether and why it lets go of the connection, is decided by the bytes that came; but how much of its last answers is written before something comes that is no
message, is not.
-/

namespace WS
open Spec

theorem says_hello : ∃ b, Says false [.text (ascii "Hello World!")] b := by
  obtain ⟨b, hb⟩ := encode_sendable sendable_hello none
  exact ⟨b, says_encode isize_lt sendable_hello false ⟨0, 0, 0, 0⟩ hb⟩

theorem says_some {m : OwnedMsg} (h : m.spec.Sendable isizeMax) : ∃ b, Says false [m.spec] b := by
  obtain ⟨b, hb⟩ := encode_sendable h none
  exact ⟨b, says_encode isize_lt h false ⟨0, 0, 0, 0⟩ hb⟩

section
variable [B64] {preq : ReqParser}

/-- C88: at any time the server has written no more than it owes: nothing if the bytes are no opening handshake; no more than a 400 if they are one that does not offer the protocol `rust-websocket`;
and else no more than a 101 that selects it, the greeting, and the answers to the first messages that are heard in the bytes behind the request, and a Close only behind the answers to everything up to
a Close, or to the end of the stream. Missing: bytes that are not `Unmistakable` (C23, C42). -/
theorem C88_written_partial (keys : Nat → Key4) (extra : Nat) (es : List Befalls) (hB : Unmistakable preq (brought es)) :
    let y := (Desk.start keys extra).endures preq es
    match asyncReception preq (brought es) with
    | .waits => y.task.out.wire = []
    | .drops => y.task.out.wire = []
    | .rejects x => y.task.out.wire <+: x
    | .serves written rest => ∃ ms out, Course (deskHears rest) ms ∧ y.task.out.wire <+: written ++ out ∧
        (Says false (welcome (ms.map OwnedMsg.spec)) out ∨
          (Parted ms ∨ deskHears rest ms.length = .ended ∧ endedBy es = true) ∧ Says false (welcome (ms.map OwnedMsg.spec) ++ [.close]) out) := by
  intro y
  obtain ⟨hs, he⟩ := desk_inv (preq := preq) keys extra es hB
  change DeskInv preq (brought es) [] y at hs
  change y.ended = _ at he
  have nil : y.task.out.wire = [] → match asyncReception preq (brought es) with
    | .waits => y.task.out.wire = []
    | .drops => y.task.out.wire = []
    | .rejects x => y.task.out.wire <+: x
    | .serves written rest => ∃ ms out, Course (deskHears rest) ms ∧ y.task.out.wire <+: written ++ out ∧
        (Says false (welcome (ms.map OwnedMsg.spec)) out ∨
          (Parted ms ∨ deskHears rest ms.length = .ended ∧ endedBy es = true) ∧ Says false (welcome (ms.map OwnedMsg.spec) ++ [.close]) out) := by
    intro hw
    rw [hw]
    split
    · rfl
    · rfl
    · exact List.nil_prefix
    · obtain ⟨b, hb⟩ := says_hello
      exact ⟨[], b, ⟨nofun, nofun⟩, List.nil_prefix, .inl hb⟩
  have serves : ∀ {w rest}, ServesInv w rest [] y → ∃ ms out, Course (deskHears rest) ms ∧ y.task.out.wire <+: w ++ out ∧
        (Says false (welcome (ms.map OwnedMsg.spec)) out ∨
          (Parted ms ∨ deskHears rest ms.length = .ended ∧ endedBy es = true) ∧ Says false (welcome (ms.map OwnedMsg.spec) ++ [.close]) out) := by
    rintro w rest ⟨hc, h⟩
    rw [← he]
    have more : ∀ {out b}, y.task.out.wire <+: w ++ out → y.task.out.wire <+: w ++ (out ++ b) := by
      intro out b h
      exact h.trans ⟨b, by simp⟩
    split at h
    · obtain ⟨-, h2, h3⟩ := h
      obtain ⟨out, o1, o2⟩ := h3.says
      obtain ⟨b, hb⟩ := says_hello
      refine ⟨_, out ++ b, hc, more o2, .inl ?_⟩
      rw [h2]
      exact says_append o1 hb
    · obtain ⟨-, h2, h3⟩ := h
      obtain ⟨out, o1, o2⟩ := h3.says
      refine ⟨_, out, hc, o2, .inl ?_⟩
      rw [h2]
      exact o1
    · next b hp =>
      obtain ⟨-, ⟨L, h2, h3⟩, h4⟩ := h
      obtain ⟨out, o1, o2⟩ := h2.says
      cases b with
      | none =>
        refine ⟨_, out, hc, o2, .inl ?_⟩
        rw [← h3]
        simpa using o1
      | some m =>
        obtain ⟨b, hb⟩ := says_some (h4 m rfl)
        refine ⟨_, out ++ b, hc, more o2, .inl ?_⟩
        rw [← h3]
        exact says_append o1 hb
    · obtain ⟨out, o1, o2⟩ := h.2.says
      exact ⟨_, out, hc, o2, .inl o1⟩
    · obtain ⟨out, o1, o2⟩ := h.2.says
      exact ⟨_, out, hc, o2, .inl o1⟩
    · obtain ⟨out, o1, o2⟩ := h.2.says
      exact ⟨_, out, hc, o2, .inr ⟨h.1, o1⟩⟩
    · obtain ⟨out, o1, o2⟩ := h.2.1.says
      exact ⟨_, out, hc, o2, .inr ⟨h.1, o1⟩⟩
    · obtain ⟨out, o1, o2⟩ := h.2.2.says
      exact ⟨_, out, hc, o2, .inl o1⟩
  cases hs with
  | reading fr hd a1 a2 hb a3 a4 hw => exact nil hw
  | rejecting w hd ha hp hq =>
    rw [ha]
    obtain ⟨out, o1, o2⟩ := hq.says
    obtain rfl := says_once o1 (says_nil _)
    simpa using o2
  | accepting w rest hd ha hp hs => rw [ha]; exact serves hs
  | serving w rest hd ha hs => rw [ha]; exact serves hs
  | late hd ha he hw hp => exact nil hw
  | bad hd ha hw hp => exact nil hw
  | rejected w hd ha hw hp => rw [ha]; exact ⟨[], by simp [hw]⟩

/-- C88: and it does not let go of the connection without reason. If it is gone, then the stream had ended before a request was there; or the bytes are no opening handshake; or the 400 has been written
in full; or the 101, the greeting, the answers to what was heard and a Close have been, up to a Close or the end of the stream; or something has come that is no message. Then the stream has ended in
the middle of one, or else no further bytes would make a message of it. Missing: bytes that are not `Unmistakable` (C23, C42). -/
theorem C88_gone_partial (keys : Nat → Key4) (extra : Nat) (es : List Befalls) (hB : Unmistakable preq (brought es)) :
    let y := (Desk.start keys extra).endures preq es
    y.gone = true →
    match asyncReception preq (brought es) with
    | .waits => endedBy es = true ∧ y.task.out.wire = []
    | .drops => y.task.out.wire = []
    | .rejects x => y.task.out.wire = x
    | .serves written rest => ∃ ms out, Course (deskHears rest) ms ∧
        ((Parted ms ∨ deskHears rest ms.length = .ended ∧ endedBy es = true) ∧ Says false (welcome (ms.map OwnedMsg.spec) ++ [.close]) out ∧ y.task.out.wire = written ++ out ∨
          ¬ Parted ms ∧ deskHears rest ms.length = .failed ∧ Says false (welcome (ms.map OwnedMsg.spec)) out ∧ y.task.out.wire <+: written ++ out ∧
            (endedBy es = true ∨ ∀ more, Unmistakable preq (brought es ++ more) → deskHears (rest ++ more) ms.length = .failed)) := by
  intro y hgone
  obtain ⟨hs, he⟩ := desk_inv (preq := preq) keys extra es hB
  change DeskInv preq (brought es) [] y at hs
  change y.ended = _ at he
  change y.task.phase.isOver = true at hgone
  cases hs with
  | reading fr hd a1 a2 hb a3 a4 hw => rw [a3] at hgone; cases hgone
  | rejecting w hd ha hp hq => rw [hp] at hgone; cases hgone
  | accepting w rest hd ha hp hs => rw [hp] at hgone; cases hgone
  | late hd ha he' hw hp => rw [ha]; exact ⟨he ▸ he', hw⟩
  | bad hd ha hw hp => rw [ha]; exact hw
  | rejected w hd ha hw hp => rw [ha]; exact hw
  | serving w rest hd ha hs =>
    rw [ha]
    obtain ⟨hc, h⟩ := hs
    rw [← he]
    have failed : ¬ Parted y.task.heard ∧ deskHears rest y.task.heard.length = .failed ∧ Queued w (welcome (y.task.heard.map OwnedMsg.spec)) y.task.out →
        (∀ e, y.task.phase = .over e → e ≠ .returned) →
        ∃ out, Says false (welcome (y.task.heard.map OwnedMsg.spec)) out ∧ y.task.out.wire <+: w ++ out ∧
          (y.ended = true ∨ ∀ more, Unmistakable preq (brought es ++ more) → deskHears (rest ++ more) y.task.heard.length = .failed) := by
      rintro ⟨f1, f2, f3⟩ hne
      obtain ⟨out, o1, o2⟩ := f3.says
      refine ⟨out, o1, o2, ?_⟩
      rcases Bool.eq_false_or_eq_true y.ended with hx | hx
      · exact .inl hx
      refine .inr fun more hm => ?_
      rw [he] at hx
      have hb : ∀ es : List Befalls, endedBy es = false → brought (es ++ [.bytes more]) = brought es ++ more := by
        intro es
        induction es with
        | nil => intro _; simp [brought]
        | cons e es ih =>
          cases e with
          | poll n k => exact ih
          | bytes b => intro h; simp only [List.cons_append, brought, List.append_assoc]; rw [ih h]
          | finish => intro h; cases h
      have hb := hb es hx
      obtain ⟨hs', -⟩ := desk_inv (preq := preq) keys extra (es ++ [.bytes more]) (by rw [hb]; exact hm)
      have hy : (Desk.start keys extra).endures preq (es ++ [.bytes more]) = { y with waiting := y.waiting ++ more } := by
        show List.foldl _ _ _ = _
        rw [List.foldl_append]
        show Desk.meets preq y (.bytes more) = _
        simp [Desk.meets, he, hx]
      rw [hy, hb] at hs'
      have ha' : asyncReception preq (brought es ++ more) = .serves w (rest ++ more) := by
        unfold asyncReception at ha ⊢
        cases hsp : splitOffHttp (brought es) with
        | none => rw [hsp] at ha; cases ha
        | some q =>
          obtain ⟨head, r⟩ := q
          rw [splitOff_more more hsp]
          rw [hsp] at ha
          simp only at ha ⊢
          split at ha
          · split at ha
            · split at ha
              · rw [Reception.serves.injEq] at ha
                rw [if_pos (by assumption), ha.1, ha.2]
              · cases ha
            · cases ha
          · cases ha
      cases hs' with
      | reading fr hd' => rw [hd] at hd'; cases hd'
      | rejecting w hd' => rw [hd] at hd'; cases hd'
      | accepting w rest hd' => rw [hd] at hd'; cases hd'
      | late hd' => rw [hd] at hd'; cases hd'
      | bad hd' => rw [hd] at hd'; cases hd'
      | rejected w hd' => rw [hd] at hd'; cases hd'
      | serving w' rest' hd' ha'' hs' =>
        rw [ha', Reception.serves.injEq] at ha''
        obtain ⟨-, h'⟩ := hs'
        rw [← ha''.2] at h'
        simp only at h'
        cases hp : y.task.phase with
        | over e =>
          rw [hp] at h'
          cases e with
          | returned => exact absurd rfl (hne _ hp)
          | failed e => exact h'.2.1
          | panicked => exact h'.2.1
        | _ => rw [hp] at hgone; cases hgone
    cases hp : y.task.phase with
    | over e =>
      rw [hp] at h
      cases e with
      | returned =>
        obtain ⟨h1, h2, h3⟩ := h
        obtain ⟨out, o1, o2⟩ := h2.total
        exact ⟨_, out, hc, .inl ⟨h1, o2, by simpa [h3] using o1⟩⟩
      | failed e =>
        obtain ⟨out, f1, f2, f3⟩ := failed h (by intro e' h'; rw [hp] at h'; cases h'; nofun)
        exact ⟨_, out, hc, .inr ⟨h.1, h.2.1, f1, f2, f3⟩⟩
      | panicked =>
        obtain ⟨out, f1, f2, f3⟩ := failed h (by intro e' h'; rw [hp] at h'; cases h'; nofun)
        exact ⟨_, out, hc, .inr ⟨h.1, h.2.1, f1, f2, f3⟩⟩
    | _ => rw [hp] at hgone; cases hgone

theorem rest_quiet {rest : Bytes} {x : Desk} (h : DeskEar rest [] x) (hw : x.waiting = []) (hr : x.task.read.readable = false) (m : OwnedMsg) :
    deskHears rest x.task.heard.length ≠ .message m := by
  have h0 := h.hears 0
  obtain ⟨-, -, hs⟩ := h.sane
  rcases hs with ⟨-, hd⟩ | ⟨-, -, hd, -⟩
  · rw [hw] at h0
    simp only [Mind.hears, Mind.next, List.append_nil, Nat.add_zero] at h0
    rw [← h0]
    unfold decNext
    rw [hd hr]
    simp only
    split <;> nofun
  · rw [hr] at hd; cases hd

/-- C88: and it does all that it owes, if the transport has room for it. Let every poll find something if something has come, and some room. When there have been polls enough behind what has come, then:
as long as the request is not whole it waits, and lets go if the stream has ended; what is no opening handshake makes it let go; a request without the protocol gets its 400; and else one of three things
is the case. The connection is open, no Close has been heard, everything has been heard, and the answer to every message has been written; or it has let go, and all answers and a Close have been
written, because a Close was heard or the stream has ended; or something was heard that is no message, and it has let go. In this last case it may be that not all answers have been written
(`C88_refuted_lost`). Missing: that, and bytes that are not `Unmistakable` (C23, C42). -/
theorem C88_does_partial (keys : Nat → Key4) (extra : Nat) (es : List Befalls) (hB : Unmistakable preq (brought es)) (f : Nat → Nat × Nat) (hf : ∀ i, 0 < (f i).1 ∧ 0 < (f i).2) :
    ∃ N, ∀ j, N ≤ j →
    let y := (Desk.start keys extra).endures preq (es ++ polledBy f j)
    match asyncReception preq (brought es) with
    | .waits => y.task.out.wire = [] ∧ y.gone = endedBy es
    | .drops => y.task.out.wire = [] ∧ y.gone = true
    | .rejects x => y.task.out.wire = x ∧ y.gone = true
    | .serves written rest => ∃ ms out, Course (deskHears rest) ms ∧ Exhausted (deskHears rest) ms ∧
        (y.gone = false ∧ endedBy es = false ∧ ¬ Parted ms ∧ Says false (welcome (ms.map OwnedMsg.spec)) out ∧ y.task.out.wire = written ++ out ∨
          y.gone = true ∧ (Parted ms ∨ deskHears rest ms.length = .ended ∧ endedBy es = true) ∧ Says false (welcome (ms.map OwnedMsg.spec) ++ [.close]) out ∧ y.task.out.wire = written ++ out ∨
          y.gone = true ∧ ¬ Parted ms ∧ deskHears rest ms.length = .failed ∧ Says false (welcome (ms.map OwnedMsg.spec)) out ∧ y.task.out.wire <+: written ++ out) := by
  obtain ⟨hs, he⟩ := desk_inv (preq := preq) keys extra es hB
  obtain ⟨N, y, h1, h2, h3, h4⟩ := desk_settles hB hs f hf
  refine ⟨N, fun j hj => ?_⟩
  have hend : (Desk.start keys extra).endures preq (es ++ polledBy f j) = y := by
    rw [← h4 j hj]
    exact List.foldl_append
  rw [hend]
  rw [he] at h3
  clear hend hs he h4
  show match asyncReception preq (brought es) with
    | .waits => y.task.out.wire = [] ∧ y.gone = endedBy es
    | .drops => y.task.out.wire = [] ∧ y.gone = true
    | .rejects x => y.task.out.wire = x ∧ y.gone = true
    | .serves written rest => _
  cases h1 with
  | reading fr hd a1 a2 hb a3 a4 hw =>
    cases h2 with
    | idle fr' hd' r1 r2 r3 =>
      rw [hd] at hd'
      cases hd'
      rw [r2] at hb
      rw [← hb, reception_none (by simpa using a2 r1), ← h3, r3]
      exact ⟨hw, by unfold Desk.gone; rw [a3]; rfl⟩
    | open_ hd' => rw [hd] at hd'; cases hd'
    | dropped hd' => rw [hd] at hd'; cases hd'
    | over e hd' => rw [hd] at hd'; cases hd'
  | rejecting w hd => cases h2 with
    | idle fr' hd' => rw [hd] at hd'; cases hd'
    | open_ hd' => rw [hd] at hd'; cases hd'
    | dropped hd' => rw [hd] at hd'; cases hd'
    | over e hd' => rw [hd] at hd'; cases hd'
  | accepting w rest hd => cases h2 with
    | idle fr' hd' => rw [hd] at hd'; cases hd'
    | open_ hd' => rw [hd] at hd'; cases hd'
    | dropped hd' => rw [hd] at hd'; cases hd'
    | over e hd' => rw [hd] at hd'; cases hd'
  | late hd ha he hw hp => rw [ha, ← h3, he]; exact ⟨hw, by unfold Desk.gone; rw [hp]; rfl⟩
  | bad hd ha hw hp => rw [ha]; exact ⟨hw, by unfold Desk.gone; rw [hp]; rfl⟩
  | rejected w hd ha hw hp => rw [ha]; exact ⟨hw, by unfold Desk.gone; rw [hp]; rfl⟩
  | serving w rest hd ha hs =>
    rw [ha, ← h3]
    obtain ⟨hc, h⟩ := hs
    cases h2 with
    | idle fr' hd' => rw [hd] at hd'; cases hd'
    | dropped hd' => rw [hd] at hd'; cases hd'
    | open_ hd' r1 r2 r3 r4 r5 =>
      simp only [r1] at h
      obtain ⟨k1, ⟨L, k2, k3⟩, -⟩ := h
      obtain ⟨out, o1, o2⟩ := k2.total
      refine ⟨_, out, hc, .inr (rest_quiet k1 r3 r4), .inl ⟨by unfold Desk.gone; rw [r1]; rfl, r5, k1.open_, ?_, by simpa [r2] using o1⟩⟩
      rw [← k3]
      simpa using o2
    | over e hd' hp =>
      have hg : y.gone = true := by unfold Desk.gone; rw [hp]; rfl
      simp only [hp] at h
      cases e with
      | returned =>
        obtain ⟨k1, k2, k3⟩ := h
        obtain ⟨out, o1, o2⟩ := k2.total
        refine ⟨_, out, hc, ?_, .inr (.inl ⟨hg, k1, o2, by simpa [k3] using o1⟩)⟩
        rcases k1 with k1 | ⟨k1, -⟩
        · exact .inl k1
        · exact .inr (by rw [k1]; nofun)
      | failed e =>
        obtain ⟨k1, k2, k3⟩ := h
        obtain ⟨out, o1, o2⟩ := k3.says
        exact ⟨_, out, hc, .inr (by rw [k2]; nofun), .inr (.inr ⟨hg, k1, k2, o1, o2⟩)⟩
      | panicked =>
        obtain ⟨k1, k2, k3⟩ := h
        obtain ⟨out, o1, o2⟩ := k3.says
        exact ⟨_, out, hc, .inr (by rw [k2]; nofun), .inr (.inr ⟨hg, k1, k2, o1, o2⟩)⟩

/-- C88: whatever comes behind a request that is granted, and whatever is lost because of it (`C88_refuted_lost`), the answer to the request and the greeting are not: before the server lets go they have been
written whole. Missing: bytes that are not `Unmistakable` (C23, C42). -/
theorem C88_greets_partial (keys : Nat → Key4) (extra : Nat) (es : List Befalls) (hB : Unmistakable preq (brought es)) (written rest : Bytes)
    (hr : asyncReception preq (brought es) = .serves written rest) (hg : ((Desk.start keys extra).endures preq es).gone = true) :
    written ++ ([0x81, 12] ++ ascii "Hello World!") <+: ((Desk.start keys extra).endures preq es).task.out.wire := by
  obtain ⟨hs, -⟩ := desk_inv (preq := preq) keys extra es hB
  have h := greeted_endures hB hr es (Desk.start keys extra) (desk_start keys extra es) nofun
  unfold Desk.gone at hg
  have over : ¬ Early ((Desk.start keys extra).endures preq es).task.phase := by
    cases hp : ((Desk.start keys extra).endures preq es).task.phase <;> rw [hp] at hg <;> first | exact id | cases hg
  cases hs with
  | reading fr hd a1 a2 a3 hp => rw [hp] at hg; cases hg
  | rejecting w hd ha => rw [hr] at ha; cases ha
  | accepting w rest hd ha hp => rw [hp] at hg; cases hg
  | serving w rest hd ha hs => exact h hd over
  | late hd ha => rw [hr] at ha; cases ha
  | bad hd ha => rw [hr] at ha; cases ha
  | rejected w hd ha => rw [hr] at ha; cases ha

/-- C88: so two runs of the server with peers that send the same bytes, both ending the stream or both not, come to the same if all that is behind the request is messages up to a Close or to the end: in the
end they have written the same bytes and both let go, or neither. It does not matter how the bytes were cut, when they came, when the future was polled and how the transport took what it wrote.
Missing: bytes with something in them that is no message (`C88_refuted_lost`), and bytes that are not `Unmistakable` (C23, C42). -/
theorem C88_deterministic_partial (keys keys' : Nat → Key4) (extra extra' : Nat) (es es' : List Befalls) (hb : brought es = brought es') (he : endedBy es = endedBy es')
    (hB : Unmistakable preq (brought es)) (f f' : Nat → Nat × Nat) (hf : ∀ i, 0 < (f i).1 ∧ 0 < (f i).2) (hf' : ∀ i, 0 < (f' i).1 ∧ 0 < (f' i).2)
    (hm : ∀ written rest, asyncReception preq (brought es) = .serves written rest → ∃ ms, Course (deskHears rest) ms ∧ (Parted ms ∨ deskHears rest ms.length = .ended)) :
    ∃ N, ∀ j j', N ≤ j → N ≤ j' →
    let y := (Desk.start keys extra).endures preq (es ++ polledBy f j)
    let y' := (Desk.start keys' extra').endures preq (es' ++ polledBy f' j')
    y.task.out.wire = y'.task.out.wire ∧ y.gone = y'.gone := by
  obtain ⟨N, h⟩ := C88_does_partial keys extra es hB f hf
  obtain ⟨N', h'⟩ := C88_does_partial keys' extra' es' (hb ▸ hB) f' hf'
  refine ⟨N + N', fun j j' hj hj' => ?_⟩
  replace h := h j (by omega)
  replace h' := h' j' (by omega)
  rw [← hb, ← he] at h'
  simp only at h h' ⊢
  generalize (Desk.start keys extra).endures preq (es ++ polledBy f j) = x at h ⊢
  generalize (Desk.start keys' extra').endures preq (es' ++ polledBy f' j') = y at h' ⊢
  cases hr : asyncReception preq (brought es) with
  | waits => rw [hr] at h h'; exact ⟨h.1.trans h'.1.symm, h.2.trans h'.2.symm⟩
  | drops => rw [hr] at h h'; exact ⟨h.1.trans h'.1.symm, h.2.trans h'.2.symm⟩
  | rejects z => rw [hr] at h h'; exact ⟨h.1.trans h'.1.symm, h.2.trans h'.2.symm⟩
  | serves written rest =>
    obtain ⟨ms₀, c0, e0⟩ := hm _ _ hr
    rw [hr] at h h'
    obtain ⟨ms, out, h1, h2, h3⟩ := h
    obtain ⟨ms', out', k1, k2, k3⟩ := h'
    obtain rfl := course_once h1 k1 h2 k2
    obtain rfl := course_once c0 h1 (by rcases e0 with e0 | e0; exact .inl e0; exact .inr (by rw [e0]; nofun)) h2
    rcases h3 with ⟨g, b1, b2, b3, b4⟩ | ⟨g, b2, b3, b4⟩ | ⟨g, b2, b3, b4⟩
    · rcases k3 with ⟨g', d1, d2, d3, d4⟩ | ⟨g', d2, d3, d4⟩ | ⟨g', d2, d3, d4⟩
      · obtain rfl := says_once b3 d3
        exact ⟨b4.trans d4.symm, g.trans g'.symm⟩
      · rcases d2 with d2 | ⟨-, d2⟩
        · exact absurd d2 b2
        · rw [b1] at d2; cases d2
      · rcases e0 with e0 | e0
        · exact absurd e0 b2
        · rw [e0] at d3; cases d3
    · rcases k3 with ⟨g', d1, d2, d3, d4⟩ | ⟨g', d2, d3, d4⟩ | ⟨g', d2, d3, d4⟩
      · rcases b2 with b2 | ⟨-, b2⟩
        · exact absurd b2 d2
        · rw [d1] at b2; cases b2
      · obtain rfl := says_once b3 d3
        exact ⟨b4.trans d4.symm, g.trans g'.symm⟩
      · rcases e0 with e0 | e0
        · exact absurd e0 d2
        · rw [e0] at d3; cases d3
    · rcases e0 with e0 | e0
      · exact absurd e0 b2
      · rw [e0] at b3; cases b3

theorem asked_same (x : AsyncWhole) (m : Request) (b : Bytes) : deskOf (x.asked m b) = (deskOf x).asked m b := by
  unfold AsyncWhole.asked Desk.asked
  cases validate m.subject.method m.version m.headers with
  | error e => rfl
  | ok q =>
    cases q
    simp only
    generalize (⟨[], ⟨[], ⟨[], []⟩⟩, m, b⟩ : AsyncUpgrade) = u
    by_cases h : rustWebsocket ∈ u.protocols
    · rw [if_pos h, if_pos h]
      cases hp : (Upgrade.useProtocol rustWebsocket u).prepareHeaders none with
      | ok q =>
        obtain ⟨st, u'⟩ := q
        simp only
        by_cases hw : u'.headers.writable = false
        · rw [if_pos hw, if_pos hw]; rfl
        · rw [if_neg hw, if_neg hw]; rfl
      | _ => rfl
    · rw [if_neg h, if_neg h]; rfl

/-- C88: the server is the one of C80: a move of it in the network of Model/AsyncWhole, where examples/async-client.rs is at the other end, is a poll of the server here, with as much room as the network
has. -/
theorem C88_same_server (r : Room) (x : AsyncWhole) (n k : Nat) :
    deskOf (x.serve preq r n k) = (deskOf x).poll preq n (min (r.down - x.tasks.downTransit.length) k) := by
  have hg : granted (min (r.down - x.tasks.downTransit.length) k) (min (r.down - x.tasks.downTransit.length) k) = granted (r.down - x.tasks.downTransit.length) k := by
    unfold granted
    rw [Nat.min_self]
  obtain ⟨call, door, tasks⟩ := x
  unfold AsyncWhole.serve Desk.poll
  have hdo : ∀ d, deskOf ⟨call, d, tasks⟩ = ⟨d, tasks.server, tasks.upTransit, tasks.chat.phase.isOver⟩ := fun _ => rfl
  simp only [hg, hdo]
  cases door with
  | reading fr =>
    simp only
    cases hq : fr.poll (httpDecoder preq) (offered tasks.upTransit n tasks.chat.phase.isOver) with
    | mk y q =>
      obtain ⟨fr', s'⟩ := q
      cases y with
      | notReady =>
        unfold deskOf Tandem.upTransit
        simp only [List.drop_drop]
      | ready y =>
        cases y with
        | item m =>
          simp only
          rw [asked_same]
          unfold deskOf Tandem.upTransit
          simp only [List.drop_drop]
        | _ =>
          unfold AsyncWhole.doorDrops Desk.drops deskOf Tandem.upTransit
          simp only [List.drop_drop]
  | answering a =>
    simp only
    cases hf : tasks.server.out.flush (granted (r.down - tasks.downTransit.length) k) with
    | mk y o =>
      cases y with
      | ready => cases a <;> rfl
      | notReady => rfl
      | err e => rfl
      | panic e => rfl
  | through =>
    simp only [Tandem.step]
    unfold deskOf Tandem.upTransit
    simp only [List.drop_drop]
  | dropped => rfl

/-- C88: which bytes are answered, and how, byte for byte. What comes up to the first blank line is a head that is an opening handshake, and it does not offer `rust-websocket`: a 400 without header
lines. It does: a 101 with this protocol, `Sec-WebSocket-Accept` for its key and the two lines that say the connection is upgraded; the talk begins with the byte behind the blank line. -/
theorem C88_answers (B x : Bytes) :
    (asyncReception preq B = .rejects x ↔ ∃ head rest m n, splitOffHttp B = some (head, rest) ∧ preq.parse head = .complete m n ∧
      (∀ c ∈ mapConditions m.subject.method m.version m.headers, c.1) ∧ ascii "rust-websocket" ∉ m.headers.getProtocol.getD [] ∧ x = m.version.fmt ++ ascii " 400 Bad Request\r\n\r\n") ∧
    ∀ rest, asyncReception preq B = .serves x rest ↔ ∃ head m n key accept, splitOffHttp B = some (head, rest) ∧ preq.parse head = .complete m n ∧
      (∀ c ∈ mapConditions m.subject.method m.version m.headers, c.1) ∧ m.headers.getKey = some key ∧ ascii "rust-websocket" ∈ m.headers.getProtocol.getD [] ∧
      chars accept = acceptText (key.bytes.map UInt8.toNat) ∧
      x = m.version.fmt ++ ascii " 101 Switching Protocols\r\nSec-WebSocket-Protocol: rust-websocket\r\nSec-WebSocket-Accept: " ++ accept ++
        ascii "\r\nConnection: Upgrade\r\nUpgrade: websocket\r\n\r\n" := by
  have hrw : ascii "rust-websocket" = rustWebsocket := rfl
  rw [hrw]
  unfold asyncReception
  cases hsp : splitOffHttp B with
  | none => exact ⟨⟨nofun, fun ⟨_, _, _, _, h, _⟩ => nomatch h⟩, fun rest => ⟨nofun, fun ⟨_, _, _, _, _, h, _⟩ => nomatch h⟩⟩
  | some q =>
    obtain ⟨head, r⟩ := q
    simp only
    cases hp : preq.parse head with
    | part =>
      refine ⟨⟨nofun, ?_⟩, fun rest => ⟨nofun, ?_⟩⟩
      · rintro ⟨head', r', m, n, h, h', -⟩; cases h; rw [hp] at h'; cases h'
      · rintro ⟨head', m, n, _, _, h, h', -⟩; cases h; rw [hp] at h'; cases h'
    | error =>
      refine ⟨⟨nofun, ?_⟩, fun rest => ⟨nofun, ?_⟩⟩
      · rintro ⟨head', r', m, n, h, h', -⟩; cases h; rw [hp] at h'; cases h'
      · rintro ⟨head', m, n, _, _, h, h', -⟩; cases h; rw [hp] at h'; cases h'
    | complete m n =>
      simp only
      split
      · next key hv hk =>
        have hc := conditions_hold hv
        split
        · next hin =>
          refine ⟨⟨nofun, ?_⟩, fun rest => ⟨fun h => ?_, ?_⟩⟩
          · rintro ⟨head', r', m', n', h, h1, -, h2, -⟩
            cases h
            rw [hp] at h1
            cases h1
            exact absurd hin h2
          · rw [Reception.serves.injEq] at h
            exact ⟨head, m, n, key, (WsAccept.new key).serialize, by rw [h.2], hp, hc, hk, hin, (whole_heads key).2.2, by rw [← h.1, answer101]⟩
          · rintro ⟨head', m', n', key', accept, h, h1, -, h2, -, h4, h5⟩
            cases h
            rw [hp] at h1
            cases h1
            rw [hk] at h2
            obtain rfl := Option.some.inj h2
            have : accept = (WsAccept.new key).serialize := chars_inj (h4.trans (whole_heads key).2.2.symm)
            rw [answer101, h5, this]
        · next hin =>
          refine ⟨⟨fun h => ?_, ?_⟩, fun rest => ⟨nofun, ?_⟩⟩
          · rw [Reception.rejects.injEq] at h
            exact ⟨head, r, m, n, rfl, hp, hc, hin, by rw [← h, answer400]⟩
          · rintro ⟨head', r', m', n', h, h1, -, h2, h3⟩
            cases h
            rw [hp] at h1
            cases h1
            rw [answer400, h3]
          · rintro ⟨head', m', n', key', accept, h, h1, -, -, h2, -⟩
            cases h
            rw [hp] at h1
            cases h1
            exact absurd h2 hin
      · next hno =>
        have hbad : ¬ ∀ c ∈ mapConditions m.subject.method m.version m.headers, c.1 := by
          intro h
          have := firstFailure_unique _ (C33_first_failure_map m.subject.method m.version m.headers) ((firstFailure_none _).mpr h)
          have hv := (validate_ok_iff _ _ _).mpr this
          obtain ⟨key, hk⟩ := validate_key hv
          exact hno key hv hk
        refine ⟨⟨nofun, ?_⟩, fun rest => ⟨nofun, ?_⟩⟩
        · rintro ⟨head', r', m', n', h, h1, h2, -⟩
          cases h
          rw [hp] at h1
          cases h1
          exact absurd h2 hbad
        · rintro ⟨head', m', n', key', accept, h, h1, h2, -⟩
          cases h
          rw [hp] at h1
          cases h1
          exact absurd h2 hbad

/-- C88: for hyper's way of reading heads (`reqParser`) all that is asked of the bytes is that they do not begin with a line end and that there are not many of them: then nothing of what the other
theorems say depends on how they are cut. -/
theorem C88_unmistakable (c : UInt8) (B : Bytes) (h1 : c ≠ 13) (h2 : c ≠ 10) (hl : 32 * B.length ≤ 200 * 2 ^ 20) : Unmistakable reqParser (c :: B) := by
  refine ⟨(C84_clearcut c B h1 h2).1, fun written rest hr n => nextMany_calm ?_ n⟩
  unfold asyncReception at hr
  cases hsp : splitOffHttp (c :: B) with
  | none => rw [hsp] at hr; cases hr
  | some q =>
    obtain ⟨head, r⟩ := q
    rw [hsp] at hr
    simp only at hr
    split at hr
    · split at hr
      · split at hr
        · rw [Reception.serves.injEq] at hr
          obtain ⟨g1, g2, -⟩ := splitOff_iff.mp hsp
          have l1 := congrArg List.length g1
          have l2 := g2.length_le
          rw [List.length_append, List.length_cons, hr.2] at l1
          simp only [List.length_cons, List.length_nil] at l2
          have : min (200 * 2 ^ 20) u32Max = 200 * 2 ^ 20 := by decide
          rw [this]
          omega
        · cases hr
      · cases hr
    · cases hr

end

/-! ## Concrete cases -/

/-- The caller of C85, in pieces; the future is polled now and then, and finds little room. -/
def visits88 : List Befalls := [.poll 9 9, .bytes caller1, .poll 7 0, .poll 100 3, .bytes caller2, .bytes caller3, .poll 500 100, .poll 1 50, .poll 9 9, .bytes caller4, .poll 0 7]

theorem visits_brought : brought visits88 = callerBytes := by simp [brought, visits88, callerBytes]

theorem caller_split : splitOffHttp callerBytes = some (caller1 ++ caller2, caller3 ++ caller4) := by decide +kernel

theorem caller_asyncReception : @asyncReception B64.strict reqParser callerBytes = .serves callerAnswer (caller3 ++ caller4) := by decide +kernel

theorem caller_unmistakable : @Unmistakable B64.strict reqParser callerBytes := by
  have h : callerBytes = 71 :: callerBytes.tail := by decide +kernel
  rw [h]
  exact @C88_unmistakable B64.strict 71 _ (by decide) (by decide) (by decide +kernel)

def keys88 : Nat → Key4 := fun _ => ⟨1, 2, 3, 4⟩
def little : Nat → Nat × Nat := fun i => (i % 3 + 1, i % 2 + 1)

example : ∃ ms out, Course (deskHears (caller3 ++ caller4)) ms ∧ (@Desk.endures B64.strict reqParser (Desk.start keys88 0) visits88).task.out.wire <+: callerAnswer ++ out ∧
    (Says false (welcome (ms.map OwnedMsg.spec)) out ∨
      (Parted ms ∨ deskHears (caller3 ++ caller4) ms.length = .ended ∧ endedBy visits88 = true) ∧ Says false (welcome (ms.map OwnedMsg.spec) ++ [.close]) out) := by
  generalize hes : visits88 = es
  have hb : brought es = callerBytes := by rw [← hes]; exact visits_brought
  have := @C88_written_partial B64.strict reqParser keys88 0 es (by rw [hb]; exact caller_unmistakable)
  rw [hb, caller_asyncReception] at this
  exact this

/-- The greeting, the Pong, the text, the Close; the Pong is not answered, and what is behind the Close is not looked at. -/
def callerGets : Bytes := [0x81, 12] ++ ascii "Hello World!" ++ [0x8a, 1, 7, 0x81, 2, 104, 105, 0x88, 0]

theorem visits_end : (let y := @Desk.endures B64.strict reqParser (Desk.start keys88 0) (visits88 ++ List.replicate 20 (.poll 40 30)); (y.task.out.wire, y.gone)) = (callerAnswer ++ callerGets, true) := by
  decide +kernel

example : ∃ ms, Course (deskHears (caller3 ++ caller4)) ms ∧ (Parted ms ∧ Says false (welcome (ms.map OwnedMsg.spec) ++ [.close]) callerGets ∨
    deskHears (caller3 ++ caller4) ms.length = .failed) := by
  generalize hes : visits88 ++ List.replicate 20 (.poll 40 30) = es
  have he := visits_end
  rw [hes] at he
  have hb : brought es = callerBytes := by rw [← hes]; simp [brought, visits88, callerBytes, List.replicate]
  have hn : endedBy es = false := by rw [← hes]; rfl
  have := @C88_gone_partial B64.strict reqParser keys88 0 es (by rw [hb]; exact caller_unmistakable) (congrArg Prod.snd he)
  rw [hb, caller_asyncReception, hn] at this
  obtain ⟨ms, out, h1, ⟨h2, h3, h4⟩ | ⟨-, h2, -⟩⟩ := this
  · rw [show (@Desk.endures B64.strict reqParser (Desk.start keys88 0) es).task.out.wire = _ from congrArg Prod.fst he] at h4
    rw [← List.append_cancel_left h4] at h3
    rcases h2 with h2 | ⟨-, h2⟩
    · exact ⟨ms, h1, .inl ⟨h2, h3⟩⟩
    · cases h2
  · exact ⟨ms, h1, .inr h2⟩

example : callerAnswer ++ ([0x81, 12] ++ ascii "Hello World!") <+: (@Desk.endures B64.strict reqParser (Desk.start keys88 0) (visits88 ++ List.replicate 20 (.poll 40 30))).task.out.wire := by
  generalize hes : visits88 ++ List.replicate 20 (.poll 40 30) = es
  have he := visits_end
  rw [hes] at he
  have hb : brought es = callerBytes := by rw [← hes]; simp [brought, visits88, callerBytes, List.replicate]
  exact @C88_greets_partial B64.strict reqParser keys88 0 es (by rw [hb]; exact caller_unmistakable) _ _ (by rw [hb]; exact caller_asyncReception) (congrArg Prod.snd he)

example : ∃ N : Nat, ∀ j, N ≤ j → ∃ ms, Course (deskHears (caller3 ++ caller4)) ms ∧ Exhausted (deskHears (caller3 ++ caller4)) ms := by
  generalize hes : visits88 = es
  have hb : brought es = callerBytes := by rw [← hes]; exact visits_brought
  obtain ⟨N, h⟩ := @C88_does_partial B64.strict reqParser keys88 0 es (by rw [hb]; exact caller_unmistakable) little (fun i => by simp [little])
  refine ⟨N, fun j hj => ?_⟩
  have := h j hj
  rw [hb, caller_asyncReception] at this
  obtain ⟨ms, -, h1, h2, -⟩ := this
  exact ⟨ms, h1, h2⟩

/-- What the caller says. -/
theorem caller_course : Course (deskHears (caller3 ++ caller4)) [.ping [7], .pong [], .text [104, 105], .close (some ⟨1000, []⟩)] ∧
    Parted [.ping [7], .pong [], .text [104, 105], .close (some ⟨1000, []⟩)] := by
  refine ⟨⟨fun i m h => ?_, fun i m h hi => ?_⟩, _, rfl, rfl⟩
  · match i, h with
    | 0, h => cases h; decide +kernel
    | 1, h => cases h; decide +kernel
    | 2, h => cases h; decide +kernel
    | 3, h => cases h; decide +kernel
  · match i, h with
    | 0, h => cases h; rfl
    | 1, h => cases h; rfl
    | 2, h => cases h; rfl
    | 3, h => simp at hi

example (keys : Nat → Key4) (extra : Nat) : ∃ N, ∀ j j', N ≤ j → N ≤ j' →
    let y := @Desk.endures B64.strict reqParser (Desk.start keys88 0) (visits88 ++ polledBy little j)
    let y' := @Desk.endures B64.strict reqParser (Desk.start keys extra) ([.bytes callerBytes] ++ polledBy (fun _ => (1000, 1000)) j')
    y.task.out.wire = y'.task.out.wire ∧ y.gone = y'.gone := by
  generalize hes : visits88 = es
  have hb : brought es = callerBytes := by rw [← hes]; exact visits_brought
  have hn : endedBy es = false := by rw [← hes]; rfl
  refine @C88_deterministic_partial B64.strict reqParser keys88 keys 0 extra es [.bytes callerBytes] (by rw [hb]; simp [brought]) (by rw [hn]; rfl) (by rw [hb]; exact caller_unmistakable) little _
    (fun i => by simp [little]) (fun i => by decide) ?_
  intro written rest hr
  rw [hb, caller_asyncReception, Reception.serves.injEq] at hr
  rw [← hr.2]
  exact ⟨_, caller_course.1, .inl caller_course.2⟩

example := ((@C88_answers B64.strict reqParser callerBytes callerAnswer).2 _).mp caller_asyncReception
example := @C88_unmistakable B64.strict 71 callerBytes (by decide) (by decide) (by decide +kernel)

/-- Another caller does not offer the protocol. -/
theorem soap_asyncReception : @asyncReception B64.strict reqParser (caller1 ++ soap1 ++ caller3) = .rejects (ascii "HTTP/1.1 400 Bad Request\r\n\r\n") := by decide +kernel

example := (@C88_answers B64.strict reqParser _ _).1.mp soap_asyncReception

example : (let y := @Desk.endures B64.strict reqParser (Desk.start keys88 0) ([.bytes caller1, .poll 9 9, .bytes soap1, .bytes caller3] ++ List.replicate 9 (.poll 300 7)); (y.task.out.wire, y.gone)) =
    (ascii "HTTP/1.1 400 Bad Request\r\n\r\n", true) := by decide +kernel

example : @asyncReception B64.strict reqParser rudeBytes = .waits ∨ @asyncReception B64.strict reqParser rudeBytes = .drops := by
  generalize h : @asyncReception B64.strict reqParser rudeBytes = r
  have : (match @asyncReception B64.strict reqParser rudeBytes with | .waits => true | .drops => true | _ => false) = true := by decide +kernel
  rw [h] at this
  cases r <;> simp_all

/-- The two programs of C80. -/
example (r : Room) (x : AsyncWhole) (n k : Nat) := @C88_same_server B64.strict reqParser r x n k

/-- A caller that says something, and then something that is no message. -/
def rough88 : Bytes := [0x81, 0x82, 0, 0, 0, 0, 104, 105]
def rougher88 : Bytes := [0x83, 0x80, 0, 0, 0, 0]

/-- The full claim, that what is written is decided by the bytes that came, is false. The same bytes come, and both times the server lets go. If the text and what is no message are there at the same time,
then the answer to the text has not left the sink when the server fails on what comes behind it, and is lost; if the server has been polled in between, it has been written. -/
theorem C88_refuted_lost : ∃ es es' : List Befalls, brought es = brought es' ∧ endedBy es = endedBy es' ∧ @Unmistakable B64.strict reqParser (brought es) ∧
    (let y := @Desk.endures B64.strict reqParser (Desk.start keys88 0) es
     (y.task.out.wire, y.gone)) = (callerAnswer ++ ([0x81, 12] ++ ascii "Hello World!"), true) ∧
    (let y := @Desk.endures B64.strict reqParser (Desk.start keys88 0) es'
     (y.task.out.wire, y.gone)) = (callerAnswer ++ ([0x81, 12] ++ ascii "Hello World!" ++ [0x81, 2, 104, 105]), true) := by
  refine ⟨[.bytes (caller1 ++ caller2 ++ rough88 ++ rougher88)] ++ List.replicate 9 (.poll 1000 1000),
    [.bytes (caller1 ++ caller2 ++ rough88)] ++ List.replicate 9 (.poll 1000 1000) ++ [.bytes rougher88] ++ List.replicate 2 (.poll 1000 1000), ?_, by decide, ?_, ?_, ?_⟩
  · simp [brought, List.replicate]
  · have hb : brought ([.bytes (caller1 ++ caller2 ++ rough88 ++ rougher88)] ++ List.replicate 9 (.poll 1000 1000)) = 71 :: (caller1.tail ++ caller2 ++ rough88 ++ rougher88) := by
      decide +kernel
    rw [hb]
    exact @C88_unmistakable B64.strict 71 _ (by decide) (by decide) (by decide +kernel)
  · decide +kernel
  · decide +kernel

end WS
