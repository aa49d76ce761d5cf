import Verif.Spec.Hall
import Verif.Lemmas.Bureau
/-!
# Lemmas for C90
-/

namespace WS
open Spec

/-! ## The request -/

section
variable [B64]

theorem hall_asked {preq : ReqParser} {B rest head buf : Bytes} {m : Request} {n : Nat} (hs : splitOffHttp B = some (head, rest)) (hp : preq.parse head = .complete m n) (x : Desk) :
    openReception preq B = .drops ∧ x.admitted m buf = x.drops ∨
    ∃ w, openReception preq B = .serves w rest ∧ x.admitted m buf = { x with door := .answering true, task := { x.task with
      read := Framed.fromParts (MsgCodec.newWithLimits .server (100 * 2 ^ 20) (200 * 2 ^ 20)) buf, out := x.task.out.head w } } := by
  unfold openReception
  rw [hs]
  simp only [hp]
  unfold Desk.admitted
  cases hv : validate m.subject.method m.version m.headers with
  | error e => exact .inl ⟨by cases m.headers.getKey <;> rfl, rfl⟩
  | ok q =>
    cases q
    obtain ⟨key, hk⟩ := validate_key hv
    rw [hk]
    simp only
    generalize hu : (⟨[], ⟨[], ⟨[], []⟩⟩, m, buf⟩ : AsyncUpgrade) = u
    have hu0 : u.headers = [] := by rw [← hu]
    have hur : u.request = m := by rw [← hu]
    have hub : u.buffer = buf := by rw [← hu]
    right
    have hprep := prepare_some (u.run []) none (key := key) (by show u.request.headers.getKey = _; rw [hur]; exact hk)
    have hwr := text_prepare (run_text [] (by rw [hu0]; exact text_nil) : TextHeaders (u.run []).headers) (custom := none)
      (fun c h => by cases h) _ _ hprep
    rw [show u.prepareHeaders none = _ from hprep]
    simp only
    rw [if_neg (by rw [hwr]; simp), fmt_response_101, responseLines_eq u hu0 [] none key]
    have e1 : ((u.run []).accepted none key).buffer = buf := hub
    have e2 : ((u.run []).accepted none key).request.version = m.version := by
      show u.request.version = _
      rw [hur]
    rw [e1, e2]
    exact ⟨_, rfl, rfl⟩

end

/-! ## Behind the handshake -/

/-- How far the task is. -/
def EchoInv (w rest R : Bytes) (x : Desk) : Prop :=
  Course (deskHears rest) x.task.heard ∧
  match x.task.phase with
  | .greet => False
  | .greeting => False
  | .forward b => DeskEar rest R x ∧ (∃ L, Queued w L x.task.out ∧ L ++ b.toList.map OwnedMsg.spec = echoing (x.task.heard.map OwnedMsg.spec)) ∧ ∀ m ∈ b, m.spec.Sendable isizeMax
  | .closing => Silenced rest x ∧ Queued w (echoing (x.task.heard.map OwnedMsg.spec)) x.task.out
  | .part => Silenced rest x ∧ Queued w (echoing (x.task.heard.map OwnedMsg.spec)) x.task.out
  | .parting => Silenced rest x ∧ Queued w (echoing (x.task.heard.map OwnedMsg.spec) ++ [.close]) x.task.out
  | .over .returned => Silenced rest x ∧ Queued w (echoing (x.task.heard.map OwnedMsg.spec) ++ [.close]) x.task.out ∧ x.task.out.sink.buf.data = []
  | .over _ => ¬ Parted x.task.heard ∧ deskHears rest x.task.heard.length = .failed ∧ Queued w (echoing (x.task.heard.map OwnedMsg.spec)) x.task.out

theorem echoing_snoc (ms : List OwnedMsg) (m : OwnedMsg) : echoing ((ms ++ [m]).map OwnedMsg.spec) = echoing (ms.map OwnedMsg.spec) ++ m.spec.reply.toList := by
  unfold echoing
  rw [List.map_append, List.filterMap_append]
  cases h : m.spec.reply <;> simp [h]

theorem hall_turn {w rest R : Bytes} {x : Desk} (h : EchoInv w rest R x) (hR : x.ended = true → R = []) (n k : Nat) :
    EchoInv w rest R { x with
      task := (x.task.turn (offered x.waiting n x.ended) (granted k k)).1,
      waiting := x.waiting.drop (used (offered x.waiting n x.ended) (x.task.turn (offered x.waiting n x.ended) (granted k k)).2) } := by
  have hstay : x.waiting.drop (used (offered x.waiting n x.ended) (offered x.waiting n x.ended)) = x.waiting := by simp [used]
  obtain ⟨hc, h⟩ := h
  unfold ServeTask.turn
  cases hp : x.task.phase with
  | over e =>
    simp only [hstay]
    exact ⟨hc, by simpa only [hp] using h⟩
  | greet => simp only [hp] at h
  | greeting => simp only [hp] at h
  | closing =>
    simp only [hp] at h
    obtain ⟨h1, h2⟩ := h
    obtain ⟨o', ⟨q1, -⟩ | ⟨q1, -⟩, q2, -⟩ := h2.flush k
    · simp only [q1, ServeTask.after, hstay]
      exact ⟨hc, h1, q2⟩
    · simp only [q1, ServeTask.after, hstay]
      refine ⟨hc, ?_⟩
      simp only [hp]
      exact ⟨h1, q2⟩
  | part =>
    simp only [hp] at h
    obtain ⟨h1, h2⟩ := h
    obtain ⟨o', ⟨q1, q2⟩ | ⟨q1, q2, -⟩, -⟩ := h2.push (sendable_close isizeMax) k
    · simp only [q1, ServeTask.after, hstay]
      exact ⟨hc, h1, q2⟩
    · simp only [q1, ServeTask.after, hstay]
      refine ⟨hc, ?_⟩
      simp only [hp]
      exact ⟨h1, q2⟩
  | parting =>
    simp only [hp] at h
    obtain ⟨h1, h2⟩ := h
    obtain ⟨o', ⟨q1, q3⟩ | ⟨q1, -⟩, q2, -⟩ := h2.flush k
    · simp only [q1, ServeTask.after, hstay]
      exact ⟨hc, h1, q2, q3⟩
    · simp only [q1, ServeTask.after, hstay]
      refine ⟨hc, ?_⟩
      simp only [hp]
      exact ⟨h1, q2⟩
  | forward b =>
    simp only [hp] at h
    obtain ⟨h1, ⟨L, h2, h3⟩, h4⟩ := h
    cases b with
    | some m =>
      obtain ⟨o', ⟨q1, q2⟩ | ⟨q1, q2, -⟩, -⟩ := h2.push (h4 m rfl) k
      · simp only [q1, ServeTask.after, hstay]
        refine ⟨hc, h1.out _ _, ⟨_, q2, ?_⟩, nofun⟩
        simpa using h3
      · simp only [q1, ServeTask.after, hstay]
        refine ⟨hc, ?_⟩
        simp only [hp]
        exact ⟨⟨h1.sane, h1.calm, h1.fit, h1.hears, h1.open_⟩, ⟨L, q2, h3⟩, h4⟩
    | none =>
      have hL : L = echoing (x.task.heard.map OwnedMsg.spec) := by simpa using h3
      subst hL
      simp only
      cases hq : x.task.read.poll msgDecoder (offered x.waiting n x.ended) with
      | mk y q =>
        obtain ⟨fr, s'⟩ := q
        obtain ⟨g1, g2, g3⟩ := desk_hear n h1.sane hR h1.calm hq
        have h0 := h1.hears 0
        simp only [Mind.hears, Nat.add_zero] at h0
        cases y with
        | notReady =>
          simp only at g3
          obtain ⟨o', ho, q2, -⟩ := h2.flush k
          have key : DeskEar rest R { x with task := { x.task with read := fr, out := o' }, waiting := x.waiting.drop (used (offered x.waiting n x.ended) s') } := by
            refine ⟨g1, g2, ?_, ?_, h1.open_⟩
            · have := poll_good msgDecoder_good (offered x.waiting n x.ended) x.task.read h1.fit
              rw [hq] at this
              exact this
            · intro i
              rw [← h1.hears i]
              cases i with
              | zero => simp only [Mind.hears]; rw [g3]
              | succ i => simp only [Mind.hears]; rw [g3]
          rcases ho with ⟨q1, -⟩ | ⟨q1, -⟩
          · simp only [q1, ServeTask.after]
            exact ⟨hc, ⟨key.sane, key.calm, key.fit, key.hears, key.open_⟩, ⟨_, q2, by simp⟩, nofun⟩
          · simp only [q1, ServeTask.after]
            refine ⟨hc, ?_⟩
            simp only [hp]
            exact ⟨⟨key.sane, key.calm, key.fit, key.hears, key.open_⟩, ⟨_, q2, by simp⟩, nofun⟩
        | ready y =>
          simp only at g3
          obtain ⟨g3, g4⟩ := g3
          rw [g3] at h0
          simp only at h0
          cases y with
          | item m =>
            have h0 : Heard.message m = deskHears rest x.task.heard.length := h0
            have hf := next_fit h1.fit (x := m) (by rw [g3]; rfl)
            rw [g3] at hf
            obtain ⟨f1, f2⟩ := hf
            have hc' := course_snoc hc h1.open_ h0.symm
            simp only
            by_cases hm : m.isClose = true
            · simp only [if_pos hm]
              refine ⟨hc', .inl (parted_snoc.mpr hm), ?_⟩
              rw [echoing_snoc]
              have : m.spec.reply = none := by
                cases m with
                | close c => cases c <;> rfl
                | _ => cases hm
              rw [this]
              simpa using h2
            · simp only [if_neg hm]
              refine ⟨hc', ⟨g1, g2, f1, ?_, fun h => hm (parted_snoc.mp h)⟩, ⟨_, h2, ?_⟩, ?_⟩
              · intro i
                have := h1.hears (i + 1)
                simp only [Mind.hears] at this
                rw [g3] at this
                simp only at this
                rw [this]
                simp only [List.length_append, List.length_cons, List.length_nil]
                congr 1
                omega
              · rw [echoing_snoc, filterReply_spec m (by simpa using hm)]
                cases filterReply m <;> rfl
              · intro a ha
                exact filterReply_sendable f2 ha
          | done =>
            exact ⟨hc, .inr ⟨h0.symm, g4 rfl⟩, h2⟩
          | err e => exact ⟨hc, h1.open_, h0.symm, h2⟩
          | panic e => exact ⟨hc, h1.open_, h0.symm, h2⟩

theorem EchoInv.door {w rest R : Bytes} {x : Desk} (h : EchoInv w rest R x) (d : DoorPhase) : EchoInv w rest R { x with door := d } := by
  obtain ⟨hc, h⟩ := h
  refine ⟨hc, ?_⟩
  simp only
  split at h
  all_goals first
    | exact ⟨⟨h.1.sane, h.1.calm, h.1.fit, h.1.hears, h.1.open_⟩, h.2⟩
    | exact h

/-! ## From the first byte on -/

section
variable [B64]

/-- How far the connection is, when `B` is everything that is to come and `R` has not come yet. -/
inductive HallInv (preq : ReqParser) (B R : Bytes) (x : Desk) : Prop
  | reading (fr : Framed Unit) (hd : x.door = .reading fr) (he : fr.eof = false) (hi : fr.readable = false → splitOffHttp fr.buf = none) (hb : fr.buf ++ x.waiting ++ R = B)
      (hp : x.task.phase = .forward none) (hh : x.task.heard = []) (hw : x.task.out.wire = []) (hz : x.task.out.sink.buf.data = []) (hf : x.task.out.sink.buf.WF) (hr : x.task.out.sink.isServer = true)
  | accepting (w rest : Bytes) (hd : x.door = .answering true) (ha : openReception preq B = .serves w rest) (hp : x.task.phase = .forward none) (hs : EchoInv w rest R x)
  | serving (w rest : Bytes) (hd : x.door = .through) (ha : openReception preq B = .serves w rest) (hs : EchoInv w rest R x)
  | late (hd : x.door = .dropped) (ha : openReception preq B = .waits) (he : x.ended = true) (hw : x.task.out.wire = []) (hp : x.task.phase = .over .returned)
  | bad (hd : x.door = .dropped) (ha : openReception preq B = .drops) (hw : x.task.out.wire = []) (hp : x.task.phase = .over .returned)

theorem open_none {preq : ReqParser} {B : Bytes} (h : splitOffHttp B = none) : openReception preq B = .waits := by
  unfold openReception
  rw [h]

theorem open_error {preq : ReqParser} {B head rest : Bytes} (h : splitOffHttp B = some (head, rest)) (hp : preq.parse head = .error) : openReception preq B = .drops := by
  unfold openReception
  rw [h]
  simp only [hp]

theorem hall_poll {preq : ReqParser} {B R : Bytes} (hB : Unclouded preq B) {x : Desk} (h : HallInv preq B R x) (hR : x.ended = true → R = []) (n k : Nat) : HallInv preq B R (x.tick preq n k) := by
  cases h with
  | reading fr hd he hi hb hp hh hw hz hf hr =>
    unfold Desk.tick
    rw [hd]
    simp only
    cases hq : fr.poll (httpDecoder preq) (offered x.waiting n x.ended) with
    | mk y q =>
      obtain ⟨fr', s'⟩ := q
      have hread := desk_read (R := R) n he hi (by rw [hb]; exact hB.head) hq
      cases hread with
      | waits _ _ h1 h2 h3 h4 => exact .reading fr' rfl h1 (fun _ => h3) (by simp only; rw [h4, hb]) hp hh hw hz hf hr
      | item _ _ m i head h1 h2 =>
        have hB' : splitOffHttp B = some (head, fr'.buf ++ x.waiting.drop (used (offered x.waiting n x.ended) s') ++ R) := by rw [← hb]; exact splitOff_more R h1
        simp only
        rcases hall_asked (buf := fr'.buf) hB' h2 { x with door := .reading fr, waiting := x.waiting.drop (used (offered x.waiting n x.ended) s') } with ⟨a1, a2⟩ | ⟨w, a1, a2⟩
        · rw [a2]; exact .bad rfl a1 hw rfl
        · rw [a2]
          have hcalm := calm_new (hB.calm _ _ a1)
          refine .accepting w _ rfl a1 hp ⟨?_, ?_⟩
          · simp only [hh]
            exact ⟨nofun, nofun⟩
          · simp only [hp]
            refine ⟨⟨async_sane rfl (by decide) (allOf_chunks _) _, hcalm, fitAsync_new _ _ _, ?_, ?_⟩, ⟨[], Queued.head hw hz hf hr w, by simp only [hh]; rfl⟩, nofun⟩
            · intro i
              simp only [hh, List.length_nil, Nat.zero_add]
              exact asyncHears_eq hcalm i
            · simp only [hh]
              rintro ⟨m, hm, -⟩
              cases hm
      | fails _ _ y head rest hy h1 h2 =>
        have hx : HallInv preq B R (Desk.drops { x with waiting := x.waiting.drop (used (offered x.waiting n x.ended) s') }) :=
          .bad rfl (open_error (by rw [← hb]; exact splitOff_more R h1) h2) hw rfl
        cases y with
        | item m => exact absurd rfl (hy m)
        | done => exact hx
        | err e => exact hx
        | panic e => exact hx
      | ends _ _ y hy h1 h2 =>
        obtain rfl := hR h1
        have hx : HallInv preq B [] (Desk.drops { x with waiting := x.waiting.drop (used (offered x.waiting n x.ended) s') }) :=
          .late rfl (open_none (by rw [← hb, List.append_nil]; exact h2)) h1 hw rfl
        cases y with
        | item m => exact absurd rfl (hy m)
        | done => exact hx
        | err e => exact hx
        | panic e => exact hx
  | accepting w rest hd ha hp hs =>
    unfold Desk.tick
    rw [hd]
    simp only
    obtain ⟨hc, hs⟩ := hs
    simp only [hp] at hs
    obtain ⟨h1, ⟨L, h3, h2⟩, -⟩ := hs
    obtain ⟨o', ho, q2, -⟩ := h3.flush k
    have key : EchoInv w rest R { x with task := { x.task with out := o' } } := by
      refine ⟨hc, ?_⟩
      simp only [hp]
      exact ⟨⟨h1.sane, h1.calm, h1.fit, h1.hears, h1.open_⟩, ⟨L, q2, h2⟩, nofun⟩
    rcases ho with ⟨q1, -⟩ | ⟨q1, -⟩
    · rw [q1]
      refine .serving w rest rfl ha ⟨key.1, ?_⟩
      have := key.2
      simp only [hp, if_true] at this ⊢
      exact ⟨⟨h1.sane, h1.calm, h1.fit, h1.hears, h1.open_⟩, ⟨L, q2, h2⟩, nofun⟩
    · rw [q1]
      exact .accepting w rest rfl ha hp (key.door _)
  | serving w rest hd ha hs =>
    unfold Desk.tick
    rw [hd]
    exact .serving w rest rfl ha ((hall_turn hs hR n k).door _)
  | late hd ha he hw hp => unfold Desk.tick; rw [hd]; exact .late hd ha he hw hp
  | bad hd ha hw hp => unfold Desk.tick; rw [hd]; exact .bad hd ha hw hp

omit [B64] in
theorem hall_bytes {w rest R b : Bytes} {x : Desk} (h : EchoInv w rest (b ++ R) x) (he : x.ended = false) : EchoInv w rest R { x with waiting := x.waiting ++ b } := by
  obtain ⟨hc, h⟩ := h
  refine ⟨hc, ?_⟩
  simp only
  split at h
  all_goals first
    | exact ⟨ear_bytes h.1 he, h.2⟩
    | exact h

omit [B64] in
theorem hall_finish {w rest R : Bytes} {x : Desk} (h : EchoInv w rest R x) : EchoInv w rest R { x with ended := true } := by
  obtain ⟨hc, h⟩ := h
  refine ⟨hc, ?_⟩
  simp only
  split at h
  all_goals first
    | exact ⟨ear_finish h.1, h.2⟩
    | exact ⟨silenced_finish h.1, h.2⟩
    | exact h

theorem tick_ended {preq : ReqParser} (x : Desk) (n k : Nat) : (x.tick preq n k).ended = x.ended := by
  unfold Desk.tick Desk.admitted Desk.drops
  repeat' split
  all_goals first | rfl | (simp only []; repeat' split) <;> rfl

/-- Whatever happens. -/
theorem hall_endures {preq : ReqParser} {B : Bytes} (hB : Unclouded preq B) (es : List Befalls) (x : Desk) (h : HallInv preq B (if x.ended then [] else brought es) x) :
    HallInv preq B [] (x.lasts preq es) ∧ (x.lasts preq es).ended = (x.ended || endedBy es) := by
  induction es generalizing x with
  | nil =>
    refine ⟨?_, by simp [Desk.lasts, endedBy]⟩
    show HallInv preq B [] x
    cases hx : x.ended <;> simpa [hx, brought] using h
  | cons e es ih =>
    show HallInv preq B [] (Desk.lasts preq (x.takes preq e) es) ∧ (Desk.lasts preq (x.takes preq e) es).ended = _
    have stay := tick_ended (preq := preq) x
    cases e with
    | poll n k =>
      have h' : HallInv preq B (if x.ended then [] else brought es) x := h
      have := ih (x.tick preq n k) (by rw [stay]; exact hall_poll hB h' (fun he => by simp [he]) n k)
      rw [stay] at this
      exact this
    | bytes b =>
      rcases Bool.eq_false_or_eq_true x.ended with he | he
      · have hm : x.takes preq (.bytes b) = x := by simp [Desk.takes, he]
        rw [hm]
        exact ih x (by simpa [he] using h)
      · have hm : x.takes preq (.bytes b) = { x with waiting := x.waiting ++ b } := by simp [Desk.takes, he]
        rw [hm]
        refine ih _ ?_
        simp only [he, Bool.false_eq_true, if_false, brought] at h
        rw [if_neg (by simp [he])]
        cases h with
        | reading fr hd a1 a2 hb a3 a4 a5 a6 a7 a8 => exact .reading fr hd a1 a2 (by rw [← hb]; simp) a3 a4 a5 a6 a7 a8
        | accepting w rest hd ha hp hs => exact .accepting w rest hd ha hp (hall_bytes hs he)
        | serving w rest hd ha hs => exact .serving w rest hd ha (hall_bytes hs he)
        | late hd ha he' hw hp => rw [he] at he'; cases he'
        | bad hd ha hw hp => exact .bad hd ha hw hp
    | finish =>
      have hm : x.takes preq .finish = { x with ended := true } := rfl
      rw [hm]
      have := ih { x with ended := true } (by
        have h : HallInv preq B [] x := by cases hx : x.ended <;> simpa [hx, brought] using h
        simp only [if_true]
        cases h with
        | reading fr hd a1 a2 hb a3 a4 a5 a6 a7 a8 => exact .reading fr hd a1 a2 hb a3 a4 a5 a6 a7 a8
        | accepting w rest hd ha hp hs => exact .accepting w rest hd ha hp (hall_finish hs)
        | serving w rest hd ha hs => exact .serving w rest hd ha (hall_finish hs)
        | late hd ha he' hw hp => exact .late hd ha rfl hw hp
        | bad hd ha hw hp => exact .bad hd ha hw hp)
      simpa [endedBy] using this

theorem hall_start {preq : ReqParser} (keys : Nat → Key4) (extra : Nat) (es : List Befalls) : HallInv preq (brought es) (brought es) (Desk.opened keys extra) :=
  .reading _ rfl rfl (fun h => by revert h; decide) (by simp [Desk.opened, Framed.new]) rfl rfl rfl rfl (Nat.zero_le _) rfl

theorem hall_inv {preq : ReqParser} (keys : Nat → Key4) (extra : Nat) (es : List Befalls) (hB : Unclouded preq (brought es)) :
    HallInv preq (brought es) [] ((Desk.opened keys extra).lasts preq es) ∧ ((Desk.opened keys extra).lasts preq es).ended = endedBy es := by
  have := hall_endures hB es (Desk.opened keys extra) (hall_start keys extra es)
  simpa [Desk.opened] using this

end

/-! ## It gets there -/

section
variable [B64]

theorem rest_tick {preq : ReqParser} {x : Desk} (h : DeskRest x) (n k : Nat) : x.tick preq n k = x := by
  obtain ⟨door, task, waiting, ended⟩ := x
  cases h with
  | idle fr hd hr hw he =>
    simp only at hd hw he
    subst hd hw he
    unfold Desk.tick
    simp only [poll_still hr]
    simp [used]
  | open_ hd hp hz hw hr he =>
    simp only at hd hp hz hw hr he
    subst hd hw he
    unfold Desk.tick ServeTask.turn
    simp only [hp, poll_still hr, flush_granted, hz, ServeTask.after]
    obtain ⟨phase, read, ⟨sink, wire, keys, extra⟩, heard⟩ := task
    simp only at hp hz ⊢
    subst hp
    simp [used, BytesMut.advance, hz]
    obtain ⟨r, d, c⟩ := sink
    simp_all
  | dropped hd =>
    simp only at hd
    subst hd
    rfl
  | over e hd hp =>
    simp only at hd hp
    subst hd
    unfold Desk.tick ServeTask.turn
    simp only [hp]
    simp [used]

theorem admitted_rank (x : Desk) (m : Request) (b : Bytes) : doorRank (x.admitted m b).door < 3 := by
  have hd : doorRank x.drops.door < 3 := by simp [Desk.drops, doorRank]
  unfold Desk.admitted
  cases validate m.subject.method m.version m.headers with
  | error e => exact hd
  | ok q =>
    simp only
    split
    · split <;> simp [doorRank]
    · simp [doorRank]

theorem hall_progress {preq : ReqParser} {B : Bytes} (hB : Unclouded preq B) {x : Desk} (h : HallInv preq B [] x) {n k : Nat} (hn : 0 < n) (hk : 0 < k) :
    DeskRest x ∨ Below (x.tick preq n k) x := by
  have hInv := hall_poll hB h (fun _ => rfl) n k
  obtain ⟨door, task, waiting, ended⟩ := x
  cases h with
  | reading fr hd he hi hb hp hh hw hz hf hr =>
    simp only at hd
    subst hd
    have drop : ∀ y : Desk, doorRank y.door < 3 → Below y ⟨.reading fr, task, waiting, ended⟩ := fun y hy => .inl hy
    unfold Desk.tick at hInv ⊢
    simp only at hInv ⊢
    cases hq : fr.poll (httpDecoder preq) (offered waiting n ended) with
    | mk y q =>
      obtain ⟨fr', s'⟩ := q
      rw [hq] at hInv
      cases y with
      | notReady =>
        obtain ⟨l1, l2⟩ := wait_length hq
        have hsl := poll_sleeps (httpDecoder preq) (offered waiting n ended) fr
        rw [hq] at hsl
        have hsl : fr'.readable = false := hsl rfl
        by_cases hw0 : waiting = []
        · subst hw0
          rcases Bool.eq_false_or_eq_true fr.readable with hre | hre
          · right
            refine .inr ⟨rfl, .inr ⟨rfl, .inr ⟨?_, .inr ⟨rfl, .inr ⟨rfl, ?_⟩⟩⟩⟩⟩
            · simp
            · simp [Desk.bit, hre, hsl]
          · cases ended with
            | true => exact absurd hq (poll_ends hre hn)
            | false => exact .inl (.idle fr rfl hre rfl rfl)
        · right
          have := List.length_pos_iff.mpr hw0
          refine .inr ⟨rfl, .inr ⟨rfl, .inl ?_⟩⟩
          simp only [l1]
          omega
      | ready y =>
        right
        refine drop _ ?_
        cases y with
        | item m =>
          simp only at hInv ⊢
          exact admitted_rank _ _ _
        | _ => simp [Desk.drops, doorRank]
  | accepting w rest hd ha hp hs =>
    simp only at hd
    subst hd
    obtain ⟨-, hs⟩ := hs
    simp only at hp
    simp only [hp] at hs
    unfold Desk.tick
    simp only
    obtain ⟨-, ⟨L, h3, -⟩, -⟩ := hs
    obtain ⟨o', ⟨q1, q3⟩ | ⟨q1, q3⟩, q2, -⟩ := h3.flush k
    · right; rw [q1]; left; simp [doorRank]
    · right
      rw [q1]
      refine .inr ⟨rfl, .inr ⟨rfl, .inr ⟨rfl, .inr ⟨rfl, .inl (q3 hk)⟩⟩⟩⟩
  | late hd => exact .inl (.dropped hd)
  | bad hd => exact .inl (.dropped hd)
  | serving w rest hd ha hs =>
    simp only at hd
    subst hd
    obtain ⟨phase, read, out, heard⟩ := task
    have hstay : waiting.drop (used (offered waiting n ended) (offered waiting n ended)) = waiting := by simp [used]
    obtain ⟨hc, hs⟩ := hs
    unfold Desk.tick ServeTask.turn
    cases phase with
    | over e => exact .inl (.over e rfl rfl)
    | greet => exact absurd hs id
    | greeting => exact absurd hs id
    | closing =>
      right
      simp only at hs
      obtain ⟨o', ⟨q1, -⟩ | ⟨q1, q3⟩, q2, -⟩ := hs.2.flush k
      · simp only [q1, ServeTask.after, hstay]
        exact .inr ⟨rfl, .inl (by simp [phaseRank])⟩
      · simp only [q1, ServeTask.after, hstay]
        exact .inr ⟨rfl, .inr ⟨rfl, .inr ⟨rfl, .inr ⟨rfl, .inl (q3 hk)⟩⟩⟩⟩
    | part =>
      right
      simp only at hs
      obtain ⟨o', ⟨q1, q2⟩ | ⟨q1, q2, q3⟩, -⟩ := hs.2.push (sendable_close isizeMax) k
      · simp only [q1, ServeTask.after, hstay]
        exact .inr ⟨rfl, .inl (by simp [phaseRank])⟩
      · simp only [q1, ServeTask.after, hstay]
        exact .inr ⟨rfl, .inr ⟨rfl, .inr ⟨rfl, .inr ⟨rfl, .inl (q3 hk)⟩⟩⟩⟩
    | parting =>
      right
      simp only at hs
      obtain ⟨o', ⟨q1, -⟩ | ⟨q1, q3⟩, q2, -⟩ := hs.2.flush k
      · simp only [q1, ServeTask.after, hstay]
        exact .inr ⟨rfl, .inl (by simp [phaseRank])⟩
      · simp only [q1, ServeTask.after, hstay]
        exact .inr ⟨rfl, .inr ⟨rfl, .inr ⟨rfl, .inr ⟨rfl, .inl (q3 hk)⟩⟩⟩⟩
    | forward b =>
      simp only at hs
      obtain ⟨h1, ⟨L, h2, h3⟩, h4⟩ := hs
      cases b with
      | some m =>
        right
        obtain ⟨o', ⟨q1, q2⟩ | ⟨q1, q2, q3⟩, -⟩ := h2.push (h4 m rfl) k
        · simp only [q1, ServeTask.after, hstay]
          exact .inr ⟨rfl, .inr ⟨rfl, .inr ⟨rfl, .inl (by simp [carrying])⟩⟩⟩
        · simp only [q1, ServeTask.after, hstay]
          exact .inr ⟨rfl, .inr ⟨rfl, .inr ⟨rfl, .inr ⟨rfl, .inl (q3 hk)⟩⟩⟩⟩
      | none =>
        simp only
        cases hq : read.poll msgDecoder (offered waiting n ended) with
        | mk y q =>
          obtain ⟨fr, s'⟩ := q
          cases y with
          | notReady =>
            obtain ⟨l1, l2⟩ := wait_length hq
            have l3 := poll_shrinks msgDecoder_shrinking hq
            have hsl := poll_sleeps msgDecoder (offered waiting n ended) read
            rw [hq] at hsl
            have hsl : fr.readable = false := hsl rfl
            have less : ∀ (o : Outbox) (p : ServePhase), phaseRank p = 4 → carrying p = 0 → o.sink.buf.data.length ≤ out.sink.buf.data.length →
                (o.sink.buf.data.length < out.sink.buf.data.length ∨ waiting ≠ [] ∨ read.readable = true) →
                Below ⟨.through, ⟨p, fr, o, heard⟩, waiting.drop (used (offered waiting n ended) s'), ended⟩ ⟨.through, ⟨.forward none, read, out, heard⟩, waiting, ended⟩ := by
              intro o p p1 p2 p3 p4
              have hb : Bool.toNat false = 0 := rfl
              have hb' : read.readable.toNat ≤ 1 := Bool.toNat_le _
              have p4' : o.sink.buf.data.length < out.sink.buf.data.length ∨ 0 < waiting.length ∨ read.readable.toNat = 1 := by
                rcases p4 with p4 | p4 | p4
                · exact .inl p4
                · exact .inr (.inl (List.length_pos_iff.mpr p4))
                · exact .inr (.inr (by rw [p4]; rfl))
              rw [l2] at l3
              refine .inr ⟨rfl, .inr ⟨p1, ?_⟩⟩
              simp only [l1, Desk.bit, hsl, hb]
              by_cases hlt : fr.buf.length + (waiting.length - n) < read.buf.length + waiting.length
              · exact .inl hlt
              · refine .inr ⟨by omega, .inr ⟨p2, ?_⟩⟩
                omega
            obtain ⟨o', ho, q2, -, q4⟩ := h2.flush k
            by_cases hrest : out.sink.buf.data = [] ∧ waiting = [] ∧ read.readable = false
            · obtain ⟨r1, r2, r3⟩ := hrest
              subst r2
              cases ended with
              | true => exact absurd hq (poll_ends r3 hn)
              | false => exact .inl (.open_ rfl rfl r1 rfl r3 rfl)
            · right
              have hcase : o'.sink.buf.data.length < out.sink.buf.data.length ∨ waiting ≠ [] ∨ read.readable = true := by
                by_cases a1 : out.sink.buf.data = []
                · by_cases a2 : waiting = []
                  · right; right
                    cases a3 : read.readable with
                    | true => rfl
                    | false => exact absurd ⟨a1, a2, a3⟩ hrest
                  · exact .inr (.inl a2)
                · left
                  have := List.length_pos_iff.mpr a1
                  rcases ho with ⟨-, q3⟩ | ⟨-, q3⟩
                  · rw [q3]; exact this
                  · exact q3 hk
              rcases ho with ⟨q1, -⟩ | ⟨q1, -⟩
              · simp only [q1, ServeTask.after]
                exact less o' _ rfl rfl q4 hcase
              · simp only [q1, ServeTask.after]
                exact less o' _ rfl rfl q4 hcase
          | ready y =>
            right
            obtain ⟨g1, g2, g3, g4⟩ := desk_hear (R := []) n h1.sane (fun _ => rfl) h1.calm hq
            cases y with
            | item m =>
              have hlt := next_lt (m := Mind.async read.codec) (bs := read.buf ++ waiting ++ []) (x := m) (by rw [g3]; rfl)
              rw [g3] at hlt
              simp only [List.append_nil, List.length_append] at hlt
              simp only
              by_cases hm : m.isClose = true
              · simp only [if_pos hm]
                exact .inr ⟨rfl, .inl (by simp [phaseRank])⟩
              · simp only [if_neg hm]
                exact .inr ⟨rfl, .inr ⟨rfl, .inl hlt⟩⟩
            | _ => exact .inr ⟨rfl, .inl (by simp [phaseRank])⟩

end

/-! ## Everybody -/

section
variable [B64] {preq : ReqParser} {keys : Nat → Nat → Key4} {extra : Nat → Nat}

/-- Each connection is as if there were no other. -/
structure HallAlone (preq : ReqParser) (keys : Nat → Nat → Key4) (extra : Nat → Nat) (es : List Occasion) (x : Hall) : Prop where
  made : x.made = visitors es
  alone : ∀ i, ∃ ds, acts ds = visitsOf i 0 es ∧ x.conns i = (Desk.opened (keys i) (extra i)).lasts preq ds

theorem lasts_snoc (x : Desk) (es : List Befalls) (e : Befalls) : x.lasts preq (es ++ [e]) = (x.lasts preq es).takes preq e := by
  unfold Desk.lasts; rw [List.foldl_append]; rfl

theorem hallAlone_poll {es : List Occasion} {x : Hall} (h : HallAlone preq keys extra es x) (i n k : Nat) : HallAlone preq keys extra es (x.put i ((x.conns i).tick preq n k)) := by
  refine ⟨h.made, fun j => ?_⟩
  show ∃ ds, _ ∧ (if j = i then _ else _) = _
  obtain ⟨ds, h1, h2⟩ := h.alone j
  split
  · next hj => subst hj; exact ⟨ds ++ [.poll n k], by rw [acts_append, h1]; exact List.append_nil _, by rw [lasts_snoc, h2]; rfl⟩
  · exact ⟨ds, h1, h2⟩

theorem hallAlone_step {es : List Occasion} {x : Hall} (h : HallAlone preq keys extra es x) (e : Occasion) : HallAlone preq keys extra (es ++ [e]) (x.meets preq e) := by
  have hd : ∀ i, visitsOf i 0 (es ++ [e]) = visitsOf i 0 es ++ visitsOf i x.made [e] := fun i => by rw [visitsOf_append, h.made, Nat.zero_add]
  have hm : visitors (es ++ [e]) = x.made + visitors [e] := by rw [visitors_append, h.made]
  have stay : ∀ y : Hall, HallAlone preq keys extra es y → visitors [e] = 0 → (∀ i, visitsOf i x.made [e] = []) → HallAlone preq keys extra (es ++ [e]) y := by
    intro y hy h1 h2
    refine ⟨by rw [hm, h1, hy.made, h.made]; rfl, fun i => ?_⟩
    rw [hd, h2, List.append_nil]
    exact hy.alone i
  have met : ∀ (j : Nat) (b : Befalls), j < x.made → (∀ n k, b ≠ .poll n k) → visitors [e] = 0 → (∀ i, visitsOf i x.made [e] = if j = i ∧ j < x.made then [b] else []) →
      HallAlone preq keys extra (es ++ [e]) (x.put j ((x.conns j).takes preq b)) := by
    intro j b hj hb h1 h2
    refine ⟨by rw [hm, h1]; rfl, fun i => ?_⟩
    show ∃ ds, _ ∧ (if i = j then _ else _) = _
    obtain ⟨ds, k1, k2⟩ := h.alone i
    rw [hd, h2]
    by_cases hi : i = j
    · subst hi
      rw [if_pos ⟨rfl, hj⟩, if_pos rfl]
      exact ⟨ds ++ [b], by rw [acts_append, k1]; cases b <;> first | rfl | exact absurd rfl (hb _ _), by rw [lasts_snoc, k2]⟩
    · rw [if_neg fun hx => hi hx.1.symm, if_neg hi, List.append_nil]; exact ⟨ds, k1, k2⟩
  cases e with
  | connects =>
    refine ⟨by rw [hm]; rfl, fun i => ?_⟩
    obtain ⟨ds, k1, k2⟩ := h.alone i
    exact ⟨ds, by rw [hd, k1]; exact (List.append_nil _).symm, k2⟩
  | main ps =>
    refine stay _ ?_ rfl (fun _ => rfl)
    show HallAlone preq keys extra es (ps.foldl (Hall.reads preq) x)
    clear stay met hd hm
    induction ps generalizing x with
    | nil => exact h
    | cons p ps ih =>
      refine ih ?_
      unfold Hall.reads
      split
      · exact ⟨(hallAlone_poll h p.1 p.2 0).made, (hallAlone_poll h p.1 p.2 0).alone⟩
      · exact h
  | task j n k =>
    refine stay _ ?_ rfl (fun _ => rfl)
    show HallAlone preq keys extra es (if _ then _ else x)
    split
    · exact hallAlone_poll h _ _ _
    · exact h
  | bytes j b =>
    show HallAlone preq keys extra _ (if j < x.made then _ else x)
    split
    · next hj => exact met j (.bytes b) hj nofun rfl (fun i => rfl)
    · next hj => exact stay x h rfl (fun i => if_neg fun hx => hj hx.2)
  | finish j =>
    show HallAlone preq keys extra _ (if j < x.made then _ else x)
    split
    · next hj => exact met j .finish hj nofun rfl (fun i => rfl)
    · next hj => exact stay x h rfl (fun i => if_neg fun hx => hj hx.2)

theorem hallAlone_more {fs es : List Occasion} {x : Hall} (h : HallAlone preq keys extra es x) : HallAlone preq keys extra (es ++ fs) (x.endures preq fs) := by
  induction fs generalizing es x with
  | nil => rw [List.append_nil]; exact h
  | cons e fs ih =>
    have := ih (hallAlone_step h e)
    rw [List.append_assoc] at this
    exact this

theorem hallAlone_run (es : List Occasion) : HallAlone preq keys extra es ((Hall.start keys extra).endures preq es) :=
  hallAlone_more (es := []) ⟨rfl, fun _ => ⟨[], rfl, rfl⟩⟩

/-! ## It is somebody's turn -/

theorem tick_room {x : Desk} (h : x.isReading = true) (n k k' : Nat) : x.tick preq n k = x.tick preq n k' := by
  unfold Desk.isReading at h
  unfold Desk.tick
  cases hd : x.door with
  | reading fr => rfl
  | _ => simp [hd] at h

/-- Something has been done for connection `i`: `ps` are its polls. -/
structure Seen (preq : ReqParser) (i : Nat) (x y : Hall) (ps : List (Nat × Nat)) : Prop where
  conns : y.conns i = (x.conns i).lasts preq (pollsOf ps)
  fine : Fruitful ps
  made : x.made ≤ y.made
  worse : x.crashed = true → y.crashed = true

theorem seen_refl (i : Nat) (x : Hall) : Seen preq i x x [] := ⟨rfl, fruitful_nil, Nat.le_refl _, id⟩

theorem seen_trans {i : Nat} {x y z : Hall} {ps qs : List (Nat × Nat)} (h : Seen preq i x y ps) (h' : Seen preq i y z qs) : Seen preq i x z (ps ++ qs) := by
  refine ⟨?_, fun p hp => ?_, Nat.le_trans h.made h'.made, fun hc => h'.worse (h.worse hc)⟩
  · rw [h'.conns, h.conns]
    unfold pollsOf Desk.lasts
    rw [List.map_append, List.foldl_append]
  · rcases List.mem_append.mp hp with hp | hp
    · exact h.fine p hp
    · exact h'.fine p hp

theorem reads_seen (i : Nat) (x : Hall) (p : Nat × Nat) (hp : p.1 = i → 0 < p.2) :
    ∃ ps, Seen preq i x (x.reads preq p) ps ∧ ((x.reads preq p).crashed = false → p.1 = i → i < x.made → (x.conns i).isReading = true → ps ≠ []) := by
  unfold Hall.reads
  split
  · next h =>
    by_cases he : p.1 = i
    · refine ⟨[(p.2, 1)], ⟨?_, fun q hq => ?_, Nat.le_refl _, fun hc => by rw [h.1] at hc; cases hc⟩, fun _ _ _ _ => by simp⟩
      · show (if i = p.1 then _ else _) = _
        rw [if_pos he.symm, he]
        exact tick_room (by rw [← he]; exact h.2.2) _ _ _
      · rw [List.mem_singleton.mp hq]; exact ⟨hp he, Nat.one_pos⟩
    · refine ⟨[], ⟨?_, fruitful_nil, Nat.le_refl _, fun hc => by rw [h.1] at hc; cases hc⟩, fun _ hx => absurd hx he⟩
      show (if i = p.1 then _ else _) = _
      rw [if_neg fun hx => he hx.symm]
      rfl
  · next h => exact ⟨[], seen_refl i x, fun h0 h1 h2 h3 => absurd ⟨h0, by rw [h1]; exact h2, by rw [h1]; exact h3⟩ h⟩

theorem main_seen (i : Nat) (qs : List (Nat × Nat)) (hq : ∀ n, (i, n) ∈ qs → 0 < n) : ∀ x : Hall,
    ∃ ps, Seen preq i x (qs.foldl (Hall.reads preq) x) ps ∧ ((qs.foldl (Hall.reads preq) x).crashed = false → (∃ n, (i, n) ∈ qs) → i < x.made → (x.conns i).isReading = true → ps ≠ []) := by
  induction qs with
  | nil => intro x; exact ⟨[], seen_refl i x, fun _ ⟨_, h⟩ => nomatch h⟩
  | cons p qs ih =>
    intro x
    obtain ⟨ps, h1, h2⟩ := reads_seen (preq := preq) i x p (fun he => hq p.2 (by rw [← he]; exact List.mem_cons_self))
    obtain ⟨ps', h3, h4⟩ := ih (fun n hn => hq n (List.mem_cons_of_mem _ hn)) (x.reads preq p)
    refine ⟨ps ++ ps', seen_trans h1 h3, fun h0 ⟨n, hn⟩ hm hr he => ?_⟩
    have h0' : (x.reads preq p).crashed = false := by
      rcases Bool.eq_false_or_eq_true (x.reads preq p).crashed with hc | hc
      · have h0 : (qs.foldl (Hall.reads preq) (x.reads preq p)).crashed = false := h0
        rw [h3.worse hc] at h0; cases h0
      · exact hc
    obtain ⟨e1, e2⟩ := List.append_eq_nil_iff.mp he
    rcases List.mem_cons.mp hn with hn | hn
    · exact h2 h0' (by rw [← hn]) hm hr e1
    · subst e1
      have hc : (x.reads preq p).conns i = x.conns i := h1.conns
      exact h4 h0 ⟨n, hn⟩ (Nat.lt_of_lt_of_le hm h1.made) (by rw [hc]; exact hr) e2

/-- What happens in one round comes to some polls of connection `i`. -/
theorem round_seen (i : Nat) (r : List Occasion) (hq : ∀ e ∈ r, (∀ b, e ≠ .bytes i b) ∧ e ≠ .finish i) (hf : ∀ ps n, .main ps ∈ r → (i, n) ∈ ps → 0 < n)
    (hk : ∀ n k, .task i n k ∈ r → 0 < n ∧ 0 < k) : ∀ x : Hall, i < x.made →
    ∃ ps, Seen preq i x (x.endures preq r) ps ∧ ((x.endures preq r).crashed = false → ps = [] → ((x.conns i).isReading = true → ∀ qs n, .main qs ∈ r → (i, n) ∉ qs) ∧ ((x.conns i).isReading = false → ∀ n k, .task i n k ∉ r)) := by
  induction r with
  | nil => intro x hm; exact ⟨[], seen_refl i x, fun _ _ => ⟨fun _ _ _ h => (nomatch h), fun _ _ _ h => (nomatch h)⟩⟩
  | cons e r ih =>
    intro x hm
    have one : ∃ ps, Seen preq i x (x.meets preq e) ps ∧ ((x.meets preq e).crashed = false → ps = [] → ((x.conns i).isReading = true → ∀ qs n, e = .main qs → (i, n) ∉ qs) ∧ ((x.conns i).isReading = false → ∀ n k, e ≠ .task i n k)) := by
      cases e with
      | connects => exact ⟨[], ⟨rfl, fruitful_nil, Nat.le_succ _, id⟩, fun _ _ => ⟨fun _ _ _ => nofun, fun _ _ _ => nofun⟩⟩
      | main qs =>
        obtain ⟨ps, h1, h2⟩ := main_seen (preq := preq) i qs (fun n hn => hf qs n List.mem_cons_self hn) x
        exact ⟨ps, h1, fun h0 he => ⟨fun hr qs' n hqs hn => h2 h0 ⟨n, by cases hqs; exact hn⟩ hm hr he, fun _ _ _ => nofun⟩⟩
      | task j n k =>
        unfold Hall.meets
        simp only
        split
        · next h =>
          by_cases he : j = i
          · subst he
            refine ⟨[(n, k)], ⟨?_, fun q hq => ?_, Nat.le_refl _, id⟩, fun _ hx => nomatch hx⟩
            · show (if j = j then _ else _) = _
              rw [if_pos rfl]
              rfl
            · rw [List.mem_singleton.mp hq]; exact hk n k List.mem_cons_self
          · refine ⟨[], ⟨?_, fruitful_nil, Nat.le_refl _, id⟩, fun _ _ => ⟨fun _ _ _ => nofun, fun _ _ _ hx => by cases hx; exact he rfl⟩⟩
            show (if i = j then _ else _) = _
            rw [if_neg fun hx => he hx.symm]
            rfl
        · next h => exact ⟨[], seen_refl i x, fun h0 _ => ⟨fun _ _ _ => nofun, fun hr _ _ hx => by cases hx; exact h ⟨h0, hm, hr⟩⟩⟩
      | bytes j b =>
        have hj : j ≠ i := fun he => (hq _ List.mem_cons_self).1 b (by rw [he])
        refine ⟨[], ?_, fun _ _ => ⟨fun _ _ _ => nofun, fun _ _ _ => nofun⟩⟩
        show Seen preq i x (if _ then _ else x) []
        split
        · refine ⟨?_, fruitful_nil, Nat.le_refl _, id⟩
          show (if i = j then _ else _) = _
          rw [if_neg fun hx => hj hx.symm]
          rfl
        · exact seen_refl i x
      | finish j =>
        have hj : j ≠ i := fun he => (hq _ List.mem_cons_self).2 (by rw [he])
        refine ⟨[], ?_, fun _ _ => ⟨fun _ _ _ => nofun, fun _ _ _ => nofun⟩⟩
        show Seen preq i x (if _ then _ else x) []
        split
        · refine ⟨?_, fruitful_nil, Nat.le_refl _, id⟩
          show (if i = j then _ else _) = _
          rw [if_neg fun hx => hj hx.symm]
          rfl
        · exact seen_refl i x
    obtain ⟨ps, h1, h2⟩ := one
    obtain ⟨ps', h3, h4⟩ := ih (fun e he => hq e (List.mem_cons_of_mem _ he)) (fun ps n h => hf ps n (List.mem_cons_of_mem _ h)) (fun n k h => hk n k (List.mem_cons_of_mem _ h)) (x.meets preq e)
      (Nat.lt_of_lt_of_le hm h1.made)
    refine ⟨ps ++ ps', seen_trans h1 h3, fun h0 he => ?_⟩
    have h0' : (x.meets preq e).crashed = false := by
      rcases Bool.eq_false_or_eq_true (x.meets preq e).crashed with hc | hc
      · have h0 : ((x.meets preq e).endures preq r).crashed = false := h0
        rw [h3.worse hc] at h0; cases h0
      · exact hc
    obtain ⟨e1, e2⟩ := List.append_eq_nil_iff.mp he
    subst e1
    have hc : (x.meets preq e).conns i = x.conns i := h1.conns
    obtain ⟨a1, a2⟩ := h2 h0' rfl
    obtain ⟨b1, b2⟩ := h4 h0 e2
    rw [hc] at b1 b2
    refine ⟨fun hr qs n hmem => ?_, fun hr n k hmem => ?_⟩
    · rcases List.mem_cons.mp hmem with hx | hx
      · exact a1 hr qs n hx.symm
      · exact b1 hr qs n hx
    · rcases List.mem_cons.mp hmem with hx | hx
      · exact a2 hr n k hx.symm
      · exact b2 hr n k hx

theorem attention_seen {i : Nat} {r : List Occasion} (hr : Attention i r) (x : Hall) (hm : i < x.made) :
    ∃ ps, Seen preq i x (x.endures preq r) ps ∧ ((x.endures preq r).crashed = false → ps ≠ []) := by
  obtain ⟨ps, h1, h2⟩ := round_seen (preq := preq) i r hr.quiet hr.found hr.room x hm
  refine ⟨ps, h1, fun h0 he => ?_⟩
  obtain ⟨a, b⟩ := h2 h0 he
  rcases Bool.eq_false_or_eq_true (x.conns i).isReading with h | h
  · obtain ⟨qs, h3, n, h4⟩ := hr.main
    exact a h qs n h3 h4
  · obtain ⟨n, k, h3⟩ := hr.task
    exact b h n k h3

/-! ## It gets there -/

theorem rest_ticks {x : Desk} (h : DeskRest x) (ps : List (Nat × Nat)) : x.lasts preq (pollsOf ps) = x := by
  induction ps with
  | nil => rfl
  | cons p ps ih =>
    show Desk.lasts preq (x.tick preq p.1 p.2) (pollsOf ps) = x
    rw [rest_tick h]
    exact ih

theorem ticks_inv {B : Bytes} (hB : Unclouded preq B) (ps : List (Nat × Nat)) : ∀ {x : Desk}, HallInv preq B [] x → HallInv preq B [] (x.lasts preq (pollsOf ps)) := by
  induction ps with
  | nil => intro x h; exact h
  | cons p ps ih => intro x h; exact ih (hall_poll hB h (fun _ => rfl) p.1 p.2)

theorem ticks_lower {B : Bytes} (hB : Unclouded preq B) (ps : List (Nat × Nat)) : ∀ {x : Desk}, HallInv preq B [] x → Fruitful ps →
    DeskRest x ∨ ps = [] ∨ Relation.TransGen Below (x.lasts preq (pollsOf ps)) x := by
  induction ps with
  | nil => intro x _ _; exact .inr (.inl rfl)
  | cons p ps ih =>
    intro x h hf
    obtain ⟨hp1, hp2⟩ := hf p List.mem_cons_self
    rcases hall_progress hB h hp1 hp2 with hr | hlt
    · exact .inl hr
    · refine .inr (.inr ?_)
      show Relation.TransGen Below (Desk.lasts preq (x.tick preq p.1 p.2) (pollsOf ps)) x
      rcases ih (hall_poll hB h (fun _ => rfl) p.1 p.2) (fun q hq => hf q (List.mem_cons_of_mem _ hq)) with hr | rfl | hlt'
      · rw [rest_ticks hr]; exact .single hlt
      · exact .single hlt
      · exact hlt'.tail hlt

theorem hall_append (x : Hall) (a b : List Occasion) : x.endures preq (a ++ b) = (x.endures preq a).endures preq b := List.foldl_append

theorem hall_quiets {B : Bytes} (hB : Unclouded preq B) (i : Nat) : ∀ (d : Desk) (x : Hall), x.conns i = d → HallInv preq B [] d → i < x.made → ∀ rs : Nat → List Occasion, (∀ j, Attention i (rs j)) → (∀ j, (x.endures preq (roundsOf rs j)).crashed = false) →
    ∃ N y, DeskRest y ∧ ∀ j, N ≤ j → (x.endures preq (roundsOf rs j)).conns i = y := by
  have still : ∀ (y : Desk) (rs : Nat → List Occasion), DeskRest y → (∀ j, Attention i (rs j)) → ∀ j (x : Hall), i < x.made → x.conns i = y →
      i < (x.endures preq (roundsOf rs j)).made ∧ (x.endures preq (roundsOf rs j)).conns i = y := by
    intro y rs hy ha j
    induction j with
    | zero => intro x hm hx; exact ⟨hm, hx⟩
    | succ j ih =>
      intro x hm hx
      obtain ⟨h1, h2⟩ := ih x hm hx
      have : roundsOf rs (j + 1) = roundsOf rs j ++ rs j := by simp [roundsOf, List.range_succ]
      rw [this, hall_append]
      obtain ⟨ps, k1, -⟩ := attention_seen (preq := preq) (ha j) _ h1
      exact ⟨Nat.lt_of_lt_of_le h1 k1.made, by rw [k1.conns, h2, rest_ticks hy]⟩
  intro d
  induction d using (WellFounded.transGen below_wf).induction with
  | _ d ih =>
    intro x hx h hm rs ha hcr
    have split0 : ∀ j, roundsOf rs (j + 1) = rs 0 ++ roundsOf (fun j => rs (j + 1)) j := by
      intro j
      unfold roundsOf
      rw [List.range_succ_eq_map, List.map_cons, List.map_map, List.flatten_cons]
      rfl
    obtain ⟨ps, k1, k2⟩ := attention_seen (preq := preq) (ha 0) x hm
    rcases ticks_lower hB ps h k1.fine with hr | he | hlt
    · exact ⟨0, d, hr, fun j _ => (still d rs hr ha j x hm hx).2⟩
    · exact absurd he (k2 (by have := hcr 1; rw [split0 0] at this; simpa [roundsOf] using this))
    · obtain ⟨N, y, h1, h2⟩ := ih _ hlt (x.endures preq (rs 0)) (by rw [k1.conns, hx]) (ticks_inv hB ps h) (Nat.lt_of_lt_of_le hm k1.made) (fun j => rs (j + 1)) (fun j => ha (j + 1))
        (fun j => by rw [← hall_append, ← split0]; exact hcr (j + 1))
      refine ⟨N + 1, y, h1, fun j hj => ?_⟩
      obtain ⟨j, rfl⟩ : ∃ j', j = j' + 1 := ⟨j - 1, by omega⟩
      have : roundsOf rs (j + 1) = rs 0 ++ roundsOf (fun j => rs (j + 1)) j := by
        unfold roundsOf
        rw [List.range_succ_eq_map, List.map_cons, List.map_map, List.flatten_cons]
        rfl
      rw [this, hall_append]
      exact h2 j (by omega)

/-! ## The end of the process -/

/-- The process has ended if and only if a handshake has failed. -/
def Accounted (x : Hall) : Prop := if x.crashed then ∃ i, i < x.made ∧ (x.conns i).isDropped = true else ∀ i, (x.conns i).isDropped = false

theorem tick_drops {d : Desk} (hr : d.isReading = false) (h : d.isDropped = false) (n k : Nat) : (d.tick preq n k).isDropped = false := by
  unfold Desk.isReading at hr
  unfold Desk.isDropped at h ⊢
  unfold Desk.tick
  cases hd : d.door with
  | reading fr => rw [hd] at hr; cases hr
  | answering a =>
    simp only
    cases d.task.out.flush (granted k k) with
    | mk y o => cases y <;> simp [hd]
  | through => simp
  | dropped => rw [hd] at h; cases h

theorem takes_door (d : Desk) (b : Bytes) : (d.takes preq (.bytes b)).isDropped = d.isDropped ∧ (d.takes preq .finish).isDropped = d.isDropped := by
  refine ⟨?_, rfl⟩
  unfold Desk.takes
  simp only
  split <;> rfl

theorem accounted_reads {x : Hall} (h : Accounted x) (p : Nat × Nat) : Accounted (x.reads preq p) := by
  unfold Hall.reads
  split
  · next hx =>
    unfold Accounted at h ⊢
    rw [hx.1, if_neg (by simp)] at h
    simp only
    split
    · next hc => exact ⟨p.1, hx.2.1, by simpa [Hall.put] using hc⟩
    · next hc =>
      intro i
      simp only [Hall.put]
      split
      · simpa using hc
      · exact h i
  · exact h

theorem accounted_same {x : Hall} (h : Accounted x) (j : Nat) {d : Desk} (hd : d.isDropped = (x.conns j).isDropped) : Accounted (x.put j d) := by
  have same : ∀ i, ((x.put j d).conns i).isDropped = (x.conns i).isDropped := by
    intro i
    simp only [Hall.put]
    split
    · next he => rw [hd, he]
    · rfl
  unfold Accounted at h ⊢
  simp only [same]
  exact h

theorem accounted_meets {x : Hall} (h : Accounted x) (e : Occasion) : Accounted (x.meets preq e) := by
  cases e with
  | connects =>
    show Accounted { x with made := x.made + 1 }
    unfold Accounted at h ⊢
    simp only
    split at h
    · next hc =>
      rw [if_pos hc]
      obtain ⟨i, h1, h2⟩ := h
      exact ⟨i, Nat.lt_succ_of_lt h1, h2⟩
    · next hc => rw [if_neg hc]; exact h
  | main ps =>
    show Accounted (ps.foldl (Hall.reads preq) x)
    induction ps generalizing x with
    | nil => exact h
    | cons p ps ih => exact ih (accounted_reads h p)
  | task i n k =>
    show Accounted (if _ then _ else x)
    split
    · next hx =>
      have hi : (x.conns i).isDropped = false := by
        unfold Accounted at h
        rw [hx.1, if_neg (by simp)] at h
        exact h i
      exact accounted_same h i (by rw [tick_drops hx.2.2 hi, hi])
    · exact h
  | bytes i b =>
    show Accounted (if _ then _ else x)
    split
    · exact accounted_same h i (takes_door _ b).1
    · exact h
  | finish i =>
    show Accounted (if _ then _ else x)
    split
    · exact accounted_same h i (takes_door _ []).2
    · exact h

theorem accounted_run (es : List Occasion) : ∀ {x : Hall}, Accounted x → Accounted (x.endures preq es) := by
  induction es with
  | nil => intro x h; exact h
  | cons e es ih => intro x h; exact ih (accounted_meets h e)

omit [B64] in
theorem accounted_start : Accounted (Hall.start keys extra) := by
  unfold Accounted
  rw [if_neg (by simp [Hall.start])]
  intro i
  rfl

/-- When the process has ended nothing is written. -/
theorem crashed_meets {x : Hall} (h : x.crashed = true) (e : Occasion) : (x.meets preq e).crashed = true ∧ ∀ i, ((x.meets preq e).conns i).task = (x.conns i).task := by
  have put : ∀ (j : Nat) (d : Desk), d.task = (x.conns j).task → (x.put j d).crashed = true ∧ ∀ i, ((x.put j d).conns i).task = (x.conns i).task := by
    intro j d hd
    refine ⟨h, fun i => ?_⟩
    simp only [Hall.put]
    split
    · next he => rw [hd, he]
    · rfl
  cases e with
  | connects => exact ⟨h, fun _ => rfl⟩
  | main ps =>
    have : ps.foldl (Hall.reads preq) x = x := by
      clear put
      induction ps with
      | nil => rfl
      | cons p ps ih =>
        show ps.foldl (Hall.reads preq) (x.reads preq p) = x
        rw [show x.reads preq p = x by unfold Hall.reads; rw [if_neg (by simp [h])]]
        exact ih
    show (ps.foldl (Hall.reads preq) x).crashed = true ∧ ∀ i, ((ps.foldl (Hall.reads preq) x).conns i).task = _
    rw [this]
    exact ⟨h, fun _ => rfl⟩
  | task i n k =>
    unfold Hall.meets
    simp only [h]
    exact ⟨h, fun _ => rfl⟩
  | bytes i b =>
    unfold Hall.meets
    simp only
    split
    · refine put i _ ?_
      unfold Desk.takes
      simp only
      split <;> rfl
    · exact ⟨h, fun _ => rfl⟩
  | finish i =>
    unfold Hall.meets
    simp only
    split
    · exact put i _ rfl
    · exact ⟨h, fun _ => rfl⟩

theorem crashed_run (es : List Occasion) : ∀ {x : Hall}, x.crashed = true → (x.endures preq es).crashed = true ∧ ∀ i, ((x.endures preq es).conns i).task = (x.conns i).task := by
  induction es with
  | nil => intro x h; exact ⟨h, fun _ => rfl⟩
  | cons e es ih =>
    intro x h
    obtain ⟨h1, h2⟩ := crashed_meets (preq := preq) h e
    obtain ⟨h3, h4⟩ := ih h1
    exact ⟨h3, fun i => (h4 i).trans (h2 i)⟩

end

end WS
