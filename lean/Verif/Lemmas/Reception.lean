import Verif.Spec.Reception
import Verif.Lemmas.Doorstep
import Verif.Lemmas.Live
import Verif.Lemmas.Whole
/-!
# Lemmas for C85
-/

namespace WS
open Spec

/-! ## The talk -/

/-- How far the thread has come with what is to be heard; `R` has not come yet. -/
structure Serves (hearing : Nat → Heard) (written : Bytes) (fin : Bool) (t : ServerThread) (R : Bytes) : Prop where
  ended : t.ended = fin
  late : fin = true → R = []
  course : Course hearing t.heard
  mask : t.writer.sender.mask = false
  willing : t.writer.stream.Willing
  input : t.input.Clean
  /-- what has been said -/
  says : (t.greeted = false ∧ t.heard = [] ∧ t.ending = none ∧ t.writer.stream.wire = written) ∨
    (t.greeted = true ∧ ∃ out, t.writer.stream.wire = written ++ out ∧ Says false (screen (t.heard.map OwnedMsg.spec)) out)
  goes : t.ending = none → Fit t.receiver ∧ (∀ n, (Mind.blocking t.receiver).hears n (t.input.flat ++ R) = hearing (t.heard.length + n)) ∧ ¬ Parted t.heard
  returned : t.ending = some .returned → Parted t.heard
  panicked : ∀ e, t.ending = some e → e ≠ .returned → ¬ Parted t.heard ∧ (hearing t.heard.length = .failed ∨ (hearing t.heard.length = .ended ∧ fin = true))

theorem parted_snoc {ms : List OwnedMsg} {m : OwnedMsg} : Parted (ms ++ [m]) ↔ m.isClose = true := by
  simp [Parted]

theorem clean_append {s t : Src} (hs : s.Clean) (ht : t.Clean) : Src.Clean (s ++ t) := by
  induction s with
  | nil => exact ht
  | cons e s ih => cases e <;> exact ⟨hs.1, ih hs.2⟩

/-- One receiving call on what has come, against the same call on all. -/
theorem recv_ahead (r : Receiver) (hr : r.maxDf ≤ isizeMax) (s : Src) (hs : s.Clean) (R : Bytes) {x : Res OwnedMsg} {r' : Receiver} {s' : Src}
    (h : r.recvMessage s = (x, r', s')) (hx : x ≠ .err .noData ∨ R = []) :
    r.recvBytes (s.flat ++ R) = (x, r', s'.flat ++ R) ∧ s'.Clean := by
  obtain ⟨s1, g1, g2, g3⟩ := recvMessage_clean r hr s hs
  rw [h] at g2
  simp only [Prod.mk.injEq] at g2
  obtain ⟨e1, e2, e3⟩ := g2
  refine ⟨?_, by rw [e3]; exact g1⟩
  by_cases hR : R = []
  · subst hR
    rw [List.append_nil, List.append_nil, e1, e2, e3, g3]
  · have hx : x ≠ .err .noData := hx.resolve_right hR
    have hp := recvMessage_prompt r s [.chunk R] _ _ _ h hx
    obtain ⟨s2, k1, k2, k3⟩ := recvMessage_clean r hr (s ++ [.chunk R]) (clean_append (t := [.chunk R]) hs ⟨hR, trivial⟩)
    have hfl : ∀ z : Src, Src.flat (z ++ [.chunk R]) = z.flat ++ R := by intro z; rw [flat_app]; simp [Src.flat]
    rw [hp, hfl] at k2
    rw [hfl] at k3
    simp only [Prod.mk.injEq] at k2
    obtain ⟨k4, k5, k6⟩ := k2
    rw [← k6, hfl] at k3
    rw [k4, k5, k3]

theorem course_snoc {hearing : Nat → Heard} {ms : List OwnedMsg} {m : OwnedMsg} (h : Course hearing ms) (hp : ¬ Parted ms) (hm : hearing ms.length = .message m) :
    Course hearing (ms ++ [m]) := by
  refine ⟨fun i x hx => ?_, fun i x hx hi => ?_⟩
  · rw [List.getElem?_append] at hx
    split at hx
    · exact h.heard i x hx
    · next hl =>
      have : i - ms.length = 0 := by
        rcases Nat.eq_zero_or_pos (i - ms.length) with h0 | h0
        · exact h0
        · rw [List.getElem?_eq_none (by simp; omega)] at hx; cases hx
      rw [this] at hx
      simp at hx
      subst hx
      rw [show i = ms.length by omega]; exact hm
  · simp at hi
    rw [List.getElem?_append_left hi] at hx
    by_cases hl : i + 1 < ms.length
    · exact h.open_ i x hx hl
    · cases hc : x.isClose with
      | false => rfl
      | true =>
        refine absurd ⟨x, ?_, hc⟩ hp
        rw [List.getLast?_eq_getElem?, show ms.length - 1 = i by omega]; exact hx

theorem sentBack_sendable {m : OwnedMsg} {n : Nat} (h : m.spec.Sendable n) : (sentBack m).spec.Sendable n := by
  rw [sentBack_spec]
  rcases m with b | b | (_ | c) | b | b <;> first | exact h | trivial

theorem says_append {masked : Bool} {ms ns : List Message} {a b : Bytes} (h : Says masked ms a) (h' : Says masked ns b) : Says masked (ms ++ ns) (a ++ b) := by
  obtain ⟨fs, h1, h2, h3⟩ := h
  obtain ⟨gs, k1, k2, k3⟩ := h'
  refine ⟨fs ++ gs, wire_append h1 k1, by simp [h2, k2], fun p hp => ?_⟩
  rw [List.zip_append h2] at hp
  rcases List.mem_append.mp hp with hp | hp
  · exact h3 p hp
  · exact k3 p hp

/-- The thread says something. -/
theorem thread_says {t : ServerThread} {m : OwnedMsg} (hm : m.spec.Sendable isizeMax) (hw : t.writer.sender.mask = false) (hw' : t.writer.stream.Willing) :
    ∃ b w' ks, t.say m = { t with writer := w', keys := ks } ∧ w'.sender.mask = false ∧ w'.stream.Willing ∧ w'.stream.wire = t.writer.stream.wire ++ b ∧
      Says false [m.spec] b := by
  obtain ⟨b, w', w1, w2, w3, w4, w5⟩ := writer_send t.writer hw' isize_lt hm (t.keys 0)
  rw [hw] at w5
  refine ⟨b, w', fun n => t.keys (n + 1), ?_, by rw [w2]; exact hw, w3, w4, w5⟩
  unfold ServerThread.say
  rw [w1]

/-- How the turn goes: the thread is over, or it waits for what is to come, or it has something to do. -/
inductive Proceeds (hearing : Nat → Heard) (t : ServerThread) (R : Bytes) : ServerThread → Prop
  | over (h : t.ending.isSome = true) : Proceeds hearing t R t
  | waits (h : t.ending = none) (hg : t.greeted = true) (he : t.ended = false) (hh : R = [] → hearing t.heard.length = .ended) : Proceeds hearing t R t
  | greets (t' : ServerThread) (h : t.greeted = false) (h' : t'.greeted = true) (hi : t'.input = t.input) : Proceeds hearing t R t'
  | hears (t' : ServerThread) (h : t'.input.measure < t.input.measure) (hg : t.greeted = true) (hg' : t'.greeted = true) (h0 : t.ending = none) : Proceeds hearing t R t'
  | ends (t' : ServerThread) (h : t'.ending.isSome = true) (hg : t.greeted = true) (hg' : t'.greeted = true) (h0 : t.ending = none) : Proceeds hearing t R t'

/-- One turn. -/
theorem serves_turn {hearing : Nat → Heard} {written : Bytes} {fin : Bool} {t : ServerThread} {R : Bytes} (h : Serves hearing written fin t R) :
    Serves hearing written fin t.turn R ∧ Proceeds hearing t R t.turn := by
  unfold ServerThread.turn
  rcases Option.eq_none_or_eq_some t.ending with hend | ⟨e, hend⟩
  rotate_left
  · rw [if_pos (by rw [hend]; rfl)]
    exact ⟨h, .over (by rw [hend]; rfl)⟩
  · rw [if_neg (by simp [hend])]
    obtain ⟨hfit, hmind, hpart⟩ := h.goes hend
    rcases Bool.eq_false_or_eq_true t.greeted with hgr | hgr
    rotate_left
    · rw [if_pos hgr]
      obtain ⟨b, w', ks, s1, s2, s3, s4, s5⟩ := thread_says (t := t) (m := .text (ascii "Hello")) ⟨(utf8Valid_iff _).mp (by decide +kernel), by decide⟩ h.mask h.willing
      rw [s1]
      rcases h.says with ⟨-, k1, k2, k3⟩ | ⟨k, -⟩
      · refine ⟨⟨h.ended, h.late, h.course, s2, s3, h.input, .inr ⟨rfl, b, by rw [← k3]; exact s4, by rw [k1]; exact s5⟩, h.goes, h.returned, h.panicked⟩, .greets _ hgr rfl rfl⟩
      · rw [hgr] at k; cases k
    · rw [if_neg (by simp [hgr])]
      obtain ⟨out, ho, hsay⟩ : ∃ out, t.writer.stream.wire = written ++ out ∧ Says false (screen (t.heard.map OwnedMsg.spec)) out := by
        rcases h.says with ⟨k, -⟩ | ⟨-, k⟩
        · rw [hgr] at k; cases k
        · exact k
      have hr : t.receiver.maxDf ≤ isizeMax := Nat.le_trans hfit.wf.1 (by decide)
      cases hx : t.receiver.recvMessage t.input with
      | mk x q =>
        obtain ⟨r', s'⟩ := q
        simp only
        have hst := fit_step hfit t.input
        rw [hx] at hst
        by_cases hw : x = .err .noData ∧ t.ended = false
        · rw [if_pos hw]
          refine ⟨h, .waits hend hgr hw.2 fun hR => ?_⟩
          subst hR
          have := hmind 0
          obtain ⟨k1, -⟩ := recv_ahead t.receiver hr t.input h.input [] hx (.inr rfl)
          simp only [Mind.hears, Mind.next, k1, hw.1, Heard.ofRes, Nat.add_zero] at this
          exact this.symm
        · rw [if_neg hw]
          have hR : x ≠ .err .noData ∨ R = [] := by
            by_cases hn : x = .err .noData
            · right
              have he : t.ended = true := by
                cases he : t.ended with
                | true => rfl
                | false => exact absurd ⟨hn, he⟩ hw
              exact h.late (h.ended ▸ he)
            · exact .inl hn
          obtain ⟨k1, k2⟩ := recv_ahead t.receiver hr t.input h.input R hx hR
          have h0 := hmind 0
          simp only [Mind.hears, Mind.next, k1, Nat.add_zero] at h0
          have hfail : (∀ m, x ≠ .ok m) → hearing t.heard.length = .failed ∨ (hearing t.heard.length = .ended ∧ fin = true) := by
            intro hno
            rw [← h0]
            by_cases hn : x = .err .noData
            · right
              refine ⟨by rw [hn]; rfl, ?_⟩
              rw [← h.ended]
              cases he : t.ended with
              | true => rfl
              | false => exact absurd ⟨hn, he⟩ hw
            · left
              cases x with
              | ok m => exact absurd rfl (hno m)
              | err e => cases e <;> first | rfl | exact absurd rfl hn
              | panic e => rfl
          cases x with
          | ok m =>
            obtain ⟨hfit', hsend⟩ := hst.2 m rfl
            obtain ⟨b, w', ks, s1, s2, s3, s4, s5⟩ := thread_says (t := { t with receiver := r', input := s', heard := t.heard ++ [m] }) (sentBack_sendable hsend) h.mask h.willing
            have hgm : hearing t.heard.length = .message m := h0.symm
            have hscr : Says false (screen ((t.heard ++ [m]).map OwnedMsg.spec)) (out ++ b) := by
              have := says_append hsay s5
              rw [sentBack_spec] at this
              simpa [screen] using this
            have hwire : w'.stream.wire = written ++ (out ++ b) := by rw [s4, ← List.append_assoc, ← ho]
            have hcs := course_snoc h.course hpart hgm
            simp only
            rw [thread_answers, s1]
            cases hc : m.isClose with
            | true =>
              rw [if_pos (by simp [hend])]
              refine ⟨⟨h.ended, h.late, hcs, s2, s3, k2, .inr ⟨hgr, out ++ b, hwire, hscr⟩, nofun, fun _ => parted_snoc.mpr hc, fun e he hn => absurd (Option.some.inj he).symm hn⟩, .ends _ rfl hgr hgr hend⟩
            | false =>
              rw [if_neg (by simp)]
              refine ⟨⟨h.ended, h.late, hcs, s2, s3, k2, .inr ⟨hgr, out ++ b, hwire, hscr⟩, fun _ => ⟨hfit', fun n => ?_, fun hp => ?_⟩, fun h1 => ?_, fun e h1 _ => ?_⟩, .hears _ (recvMessage_measure hx) hgr hgr hend⟩
              · have := hmind (n + 1)
                simp only [Mind.hears, Mind.next, k1] at this
                rw [this]
                simp only [List.length_append, List.length_cons, List.length_nil]
                congr 1; omega
              · rw [parted_snoc.mp hp] at hc; cases hc
              · rw [show (_ : Option Ending) = t.ending from rfl, hend] at h1; cases h1
              · rw [show (_ : Option Ending) = t.ending from rfl, hend] at h1; cases h1
          | err e =>
            simp only
            exact ⟨⟨h.ended, h.late, h.course, h.mask, h.willing, k2, .inr ⟨hgr, out, ho, hsay⟩, nofun, nofun, fun _ _ _ => ⟨hpart, hfail nofun⟩⟩, .ends _ rfl hgr hgr hend⟩
          | panic e =>
            simp only
            exact ⟨⟨h.ended, h.late, h.course, h.mask, h.willing, k2, .inr ⟨hgr, out, ho, hsay⟩, nofun, nofun, fun _ _ _ => ⟨hpart, hfail nofun⟩⟩, .ends _ rfl hgr hgr hend⟩

theorem serves_bytes {hearing : Nat → Heard} {written : Bytes} {t : ServerThread} {b R : Bytes} (hb : b ≠ []) (h : Serves hearing written false t (b ++ R)) :
    Serves hearing written false { t with input := t.input ++ [.chunk b] } R := by
  refine ⟨h.ended, nofun, h.course, h.mask, h.willing, clean_append (t := [.chunk b]) h.input ⟨hb, trivial⟩, h.says, fun he => ?_, h.returned, h.panicked⟩
  obtain ⟨h1, h2, h3⟩ := h.goes he
  refine ⟨h1, fun n => ?_, h3⟩
  rw [← h2 n]
  show Mind.hears n _ (Src.flat (t.input ++ [.chunk b]) ++ R) = _
  rw [flat_app]
  simp [Src.flat]

theorem serves_finish {hearing : Nat → Heard} {written : Bytes} {fin : Bool} {t : ServerThread} (h : Serves hearing written fin t []) :
    Serves hearing written true { t with ended := true } [] := by
  refine ⟨rfl, fun _ => rfl, h.course, h.mask, h.willing, h.input, h.says, h.goes, h.returned, fun e he hn => ?_⟩
  obtain ⟨h1, h2 | ⟨h2, -⟩⟩ := h.panicked e he hn
  · exact ⟨h1, .inl h2⟩
  · exact ⟨h1, .inr ⟨h2, rfl⟩⟩

/-! ## From the first byte -/

section
variable [B64] (preq : ReqParser) (g : Given) (B : Bytes)

/-- How a request is received. -/
def received (m : Request) (key : WsKey) (rest : Bytes) : Reception :=
  if rustWebsocket ∈ m.headers.getProtocol.getD [] then .serves (head101 m.version (responseLines [.useProtocol rustWebsocket] none key)) rest
  else .rejects (head400 m.version [])

/-- How far the server has come; `R` is what has not come yet of `B`. -/
inductive HStage : Host → Bytes → Bool → Prop
  | reading (s : Src) (w : Sink) (R : Bytes) (fin : Bool) (hc : s.Chunks) (hf : s.flat ++ R = B) (hl : fin = true → R = []) (hw : w.wire = []) : HStage (.reading s fin w) R fin
  | asked (u : SyncUpgrade) (R : Bytes) (fin : Bool) (key : WsKey) (rest : Bytes) (hh : u.headers = []) (ho : u.stream.output = g.server) (hk : u.request.headers.getKey = some key)
    (hr : reception preq B = received u.request key rest) (hc : Src.Chunks u.stream.input.left) (hi : unread u.buffer ++ u.stream.input.flat ++ R = rest) (hl : fin = true → R = []) :
    HStage (.asked u fin) R fin
  | serving (t : ServerThread) (R : Bytes) (fin : Bool) (written rest : Bytes) (hr : reception preq B = .serves written rest) (h : Serves (hostHears rest) written fin t R) :
    HStage (.serving t) R fin
  | dropped (w : Sink) (R : Bytes) (fin : Bool) (hl : fin = true → R = [])
    (h : (reception preq B = .waits ∧ fin = true ∧ w.wire = []) ∨ (reception preq B = .drops ∧ w.wire = []) ∨ ∃ x, reception preq B = .rejects x ∧ w.wire = x) :
    HStage (.dropped w) R fin

variable {preq g B}

theorem reception_more {A R : Bytes} : (reception preq A = .drops → reception preq (A ++ R) = .drops) ∧
    ∀ m n, preq.parse (A.take (2 ^ 19)) = .complete m n → preq.parse ((A ++ R).take (2 ^ 19)) = .complete m n ∧ (A ++ R).drop n = A.drop n ++ R := by
  have hpre : A.take (2 ^ 19) <+: (A ++ R).take (2 ^ 19) := take_prefix_take _
  have hcm : ∀ m n, preq.parse (A.take (2 ^ 19)) = .complete m n → preq.parse ((A ++ R).take (2 ^ 19)) = .complete m n ∧ (A ++ R).drop n = A.drop n ++ R := by
    intro m n hx
    have hn := (preq.complete_len _ _ _ hx).2
    have hn' : n ≤ A.length := Nat.le_trans hn (by rw [List.length_take]; omega)
    exact ⟨by rw [decided_prefix preq hpre (by rw [hx]; nofun), hx], List.drop_append_of_le_length hn'⟩
  refine ⟨fun h => ?_, hcm⟩
  unfold reception at h ⊢
  cases hx : preq.parse (A.take (2 ^ 19)) with
  | complete m n =>
    rw [(hcm m n hx).1]
    rw [hx] at h
    simp only at h ⊢
    split at h
    · split at h <;> cases h
    · rfl
  | error => rw [decided_prefix preq hpre (by rw [hx]; nofun), hx]
  | part =>
    rw [hx] at h
    simp only at h
    split at h
    · next hl =>
      rw [List.take_append_of_le_length hl, hx]
      simp only
      rw [if_pos (by rw [List.length_append]; omega)]
    · cases h

theorem host_reads {s : Src} {w : Sink} {R : Bytes} {fin : Bool} (hg : g.server.wire = []) (hc : s.Chunks) (hf : s.flat ++ R = B) (hl : fin = true → R = []) (hw : w.wire = []) :
    HStage preq g B ((Host.reading s fin w).turn preq g) R fin ∧
      (((Host.reading s fin w).turn preq g = .reading s fin w ∧ fin = false ∧ reception preq s.flat = .waits) ∨ ∀ s' f' w', (Host.reading s fin w).turn preq g ≠ .reading s' f' w') := by
  obtain ⟨t, ht, hrd, htm, hte⟩ : ∃ t : Src, Marked t ∧ readable s fin = s ++ t ∧ (fin = false → t = [mark]) ∧ (fin = true → t = []) := by
    unfold readable
    cases fin with
    | true => exact ⟨[], .inl rfl, by simp, nofun, fun _ => rfl⟩
    | false => exact ⟨[mark], .inr rfl, by simp, fun _ => rfl, nofun⟩
  have h := reads_head preq s t g.server hc ht
  obtain ⟨hm1, hm2⟩ := reception_more (preq := preq) (A := s.flat) (R := R)
  rw [hf] at hm1 hm2
  have htn : (Host.reading s fin w).turn preq g = (match intoWs preq ⟨s ++ t, g.server⟩ with
        | .ok u => if fin = false ∧ mark ∉ u.stream.input then .reading s fin u.stream.output else .asked u fin
        | .error e => if fin = false ∧ mark ∉ e.stream.input then .reading s fin w else .dropped e.stream.output) := by
    rw [← hrd]; rfl
  rw [htn]
  generalize hres : (match intoWs preq ⟨s ++ t, g.server⟩ with
        | .ok u => if fin = false ∧ mark ∉ u.stream.input then Host.reading s fin u.stream.output else .asked u fin
        | .error e => if fin = false ∧ mark ∉ e.stream.input then .reading s fin w else .dropped e.stream.output) = res
  have fail : ∀ e, ∀ b' : BufReader Duplex, parseHead preq (BufReader.new (⟨s ++ t, g.server⟩ : Duplex)) = (.error e, b'.later t) → b'.inner.output = g.server → reception preq s.flat = .drops →
      HStage preq g B res R fin ∧ ((res = .reading s fin w ∧ fin = false ∧ reception preq s.flat = .waits) ∨ ∀ s' f' w', res ≠ .reading s' f' w') := by
    intro e b' h1 h2 h3
    unfold intoWs at hres
    rw [h1] at hres
    change (if fin = false ∧ mark ∉ (b'.later t).inner.input then Host.reading s fin w else .dropped (b'.later t).inner.output) = res at hres
    split at hres
    · next hq =>
      obtain ⟨q, h4⟩ := hq
      refine (h4 ?_).elim
      show mark ∈ b'.inner.input ++ t
      rw [htm q]; simp
    · subst hres
      refine ⟨?_, .inr nofun⟩
      exact .dropped _ R fin hl (.inr (.inl ⟨hm1 h3, by show b'.inner.output.wire = []; rw [h2]; exact hg⟩))
  cases hx : preq.parse (s.flat.take (2 ^ 19)) with
  | error =>
    rw [hx] at h
    obtain ⟨e, b', h1, h2⟩ := h
    exact fail e b' h1 h2 (by unfold reception; rw [hx])
  | part =>
    rw [hx] at h
    simp only at h
    split at h
    · next hlen =>
      obtain ⟨e, b', h1, h2⟩ := h
      exact fail e b' h1 h2 (by unfold reception; rw [hx]; simp only; rw [if_pos hlen])
    · next hlen =>
      obtain ⟨e, b', h1, h2, h3⟩ := h
      have hwt : reception preq s.flat = .waits := by
        unfold reception
        rw [hx]
        simp only
        rw [if_neg hlen]
      unfold intoWs at hres
      rw [h1] at hres
      change (if fin = false ∧ mark ∉ b'.inner.input then Host.reading s fin w else .dropped b'.inner.output) = res at hres
      cases fin with
      | false =>
        split at hres
        · subst hres
          exact ⟨.reading s w R false hc hf hl hw, .inl ⟨rfl, rfl, hwt⟩⟩
        · next hq => exact absurd ⟨rfl, by rw [h3 (htm rfl)]; simp⟩ hq
      | true =>
        split at hres
        · next hq => cases hq.1
        subst hres
        refine ⟨?_, .inr nofun⟩
        refine .dropped _ R true hl (.inl ⟨?_, rfl, by show b'.inner.output.wire = []; rw [h2]; exact hg⟩)
        rw [← hf, hl rfl, List.append_nil]
        unfold reception
        rw [hx]
        simp only
        rw [if_neg hlen]
  | complete m n =>
    rw [hx] at h
    obtain ⟨b', h1, h2, h3, h4⟩ := h
    obtain ⟨k1, k2⟩ := hm2 m n hx
    unfold intoWs at hres
    rw [h1] at hres
    simp only [BufReader.intoParts] at hres
    have hmark : ¬ (fin = false ∧ mark ∉ (b'.later t).inner.input) := by
      rintro ⟨q, h5⟩
      refine h5 ?_
      show mark ∈ b'.inner.input ++ t
      rw [htm q]; simp
    cases hv : validate m.subject.method m.version m.headers with
    | error e =>
      simp only [hv] at hres
      split at hres
      · next hq => exact absurd hq hmark
      subst hres
      refine ⟨?_, .inr nofun⟩
      refine .dropped _ R fin hl (.inr (.inl ⟨?_, by show b'.inner.output.wire = []; rw [h2]; exact hg⟩))
      unfold reception
      rw [k1]
      simp only [hv]
    | ok u =>
      obtain ⟨key, hk⟩ := validate_key hv
      simp only [hv] at hres
      split at hres
      · next hq => exact absurd hq hmark
      subst hres
      refine ⟨?_, .inr nofun⟩
      refine .asked _ R fin key (s.flat.drop n ++ R) rfl h2 hk ?_ ?_ ?_ hl
      · unfold reception received
        rw [k1]
        simp only [hv, hk]
        rw [k2]
      · show Src.Chunks (Src.left (b'.inner.input ++ t))
        rw [left_tail h3 ht]; exact h3
      · show b'.window ++ Src.flat (b'.inner.input ++ t) ++ R = _
        rw [flat_tail ht, h4]

omit [B64] in
theorem src_left_of {b : BufReader Duplex} (h : Src.Chunks b.inner.input.left) : b.src.left.Clean ∧ b.src.left.flat = b.window ++ b.inner.input.flat := by
  refine ⟨?_, ?_⟩
  · unfold BufReader.src
    split
    · exact clean_of_chunks h
    · next hw =>
      have : Src.left (.chunk b.window :: HasSrc.get b.inner) = .chunk b.window :: Src.left b.inner.input := rfl
      rw [this]
      exact ⟨hw, clean_of_chunks h⟩
  · rw [flat_left]
    unfold BufReader.src
    split
    · next hw => rw [hw]; rfl
    · rfl

theorem host_answers {u : SyncUpgrade} {R : Bytes} {fin : Bool} {key : WsKey} {rest : Bytes} (hg : g.server.wire = []) (hgw : g.server.Willing)
    (hh : u.headers = []) (ho : u.stream.output = g.server) (hk : u.request.headers.getKey = some key)
    (hr : reception preq B = received u.request key rest) (hc : Src.Chunks u.stream.input.left) (hi : unread u.buffer ++ u.stream.input.flat ++ R = rest) (hl : fin = true → R = []) :
    HStage preq g B (Host.answer g u fin) R fin := by
  unfold Host.answer Upgrade.protocols
  unfold received at hr
  split
  · next hp =>
    rw [if_pos hp] at hr
    obtain ⟨-, h8⟩ := C35_server_answers u key [.useProtocol rustWebsocket] none defaultMaxDataframe defaultMaxMessage hh hk nofun
    have hwa := writeAll_willing (head101 u.request.version (responseLines [.useProtocol rustWebsocket] none key)) u.stream.output (by rw [ho]; exact hgw)
    rcases h8 with ⟨k, hk, _⟩ | ⟨c, g1, g2, g3, g4, g5⟩
    · rw [hwa.1] at hk; cases hk
    · have hlm := C39_server_limits _ none _ _ c g1
      have hin := accept_input _ none _ _ c g1
      have hacc : SyncUpgrade.accept (Upgrade.useProtocol rustWebsocket u) = .client c := g1
      rw [hacc]
      simp only
      have hin1 : c.stream.inner.input = u.stream.input := hin.1
      have hin2 : c.stream.inner.output.script <:+ u.stream.output.script := hin.2
      obtain ⟨k1, k2⟩ := src_left_of (b := c.stream) (by rw [hin1]; exact hc)
      have hrc := receiver_eq hlm.1 g4
      have hfit : Fit c.receiver := by rw [hrc]; exact fit_new _ _ _
      refine .serving _ R fin _ rest hr ⟨rfl, hl, ⟨nofun, nofun⟩, g5, ?_, k1, .inl ⟨rfl, rfl, rfl, ?_⟩, fun _ => ⟨hfit, fun n => ?_, ?_⟩, nofun, nofun⟩
      · refine Sink.Willing.suffix ?_ hin2
        rw [ho]; exact hgw
      · show c.stream.inner.output.wire = _
        rw [g2, ho, hg]; rfl
      · show Mind.hears n (.blocking c.receiver) (c.stream.src.left.flat ++ R) = hostHears rest (0 + n)
        rw [k2, show c.stream.window ++ c.stream.inner.input.flat = c.pending from rfl, g3, hi, hrc, Nat.zero_add]
        exact blockingHears_eq true _ _ rest n
      · rintro ⟨m, hm, -⟩; cases hm
  · next hp =>
    rw [if_neg hp] at hr
    cases hj : SyncUpgrade.reject u with
    | mk r d =>
      simp only
      obtain ⟨-, out, h2, -, -, h5, h6⟩ := C45_reject u [] (by rw [hh]; simp [Headers.Unique]) none r d hj
      have hhd : ((u.run []).addCustom none).headers = [] := hh
      have hok : ∃ x, r = .ok x := by
        unfold SyncUpgrade.reject SyncUpgrade.internalReject Upgrade.send Upgrade.addCustom at hj
        simp only [hh] at hj
        rw [if_neg (by decide)] at hj
        have hwa := writeAll_willing ((u.response badRequest).fmt resLine) u.stream.output (by rw [ho]; exact hgw)
        cases hq : Sink.writeAll ((u.response badRequest).fmt resLine) u.stream.output with
        | mk x w =>
          rw [hq] at hwa hj
          obtain ⟨e1, -⟩ := hwa
          simp only at e1
          subst e1
          cases hj
          exact ⟨(), rfl⟩
      refine .dropped _ R fin hl (.inr (.inr ⟨_, hr, ?_⟩))
      rw [h2, h5 hok, ho, hg, hhd]
      rfl

theorem turn_hstage (hg : g.server.wire = []) (hgw : g.server.Willing) {h : Host} {R : Bytes} {fin : Bool} (hs : HStage preq g B h R fin) : HStage preq g B (h.turn preq g) R fin := by
  cases hs with
  | reading s w R fin hc hf hl hw => exact (host_reads hg hc hf hl hw).1
  | asked u R fin key rest hh ho hk hr hc hi hl => exact host_answers hg hgw hh ho hk hr hc hi hl
  | serving t R fin written rest hr h => exact .serving _ R fin written rest hr (serves_turn h).1
  | dropped w R fin hl h => exact .dropped w R fin hl h

theorem host_bytes (h : Host) (b : Bytes) : h.meets preq g (.bytes b) = if h.closed = true ∨ b = [] then h else h.takes b := rfl

theorem bytes_hstage {h : Host} {b R : Bytes} (hb : b ≠ []) (hs : HStage preq g B h (b ++ R) false) : HStage preq g B (h.meets preq g (.bytes b)) R false := by
  rw [host_bytes]
  cases hs with
  | reading s w R' fin hc hf hl hw =>
    rw [if_neg (by simp [Host.closed, hb])]
    refine .reading _ w R false (fun e he => ?_) ?_ nofun hw
    · rcases List.mem_append.mp he with he | he
      · exact hc e he
      · rw [List.mem_singleton.mp he]; exact ⟨b, rfl, hb⟩
    · rw [flat_app]; simpa [Src.flat] using hf
  | asked u R' fin key rest hh ho hk hr hc hi hl =>
    rw [if_neg (by simp [Host.closed, hb])]
    refine .asked _ R false key rest hh ho hk hr ?_ ?_ nofun
    · show Src.Chunks (Src.left (u.stream.input ++ [.chunk b]))
      rw [left_append]
      intro e he
      rcases List.mem_append.mp he with he | he
      · exact hc e he
      · have : e = .chunk b := by
          unfold Src.left at he
          exact List.mem_singleton.mp (List.mem_filter.mp he).1
        exact ⟨b, this, hb⟩
    · show unread u.buffer ++ Src.flat (u.stream.input ++ [.chunk b]) ++ R = rest
      rw [flat_app, ← hi]; simp [Src.flat]
  | serving t R' fin written rest hr h =>
    rw [if_neg (by simp [Host.closed, hb, h.ended])]
    exact .serving _ R false written rest hr (serves_bytes hb h)
  | dropped w R' fin hl h =>
    rw [if_pos (.inl rfl)]
    exact .dropped w R false nofun h

theorem finish_hstage {h : Host} {fin : Bool} (hs : HStage preq g B h [] fin) : HStage preq g B h.close [] true := by
  cases hs with
  | reading s w R' fin hc hf hl hw => exact .reading s w [] true hc hf (fun _ => rfl) hw
  | asked u R' fin key rest hh ho hk hr hc hi hl => exact .asked u [] true key rest hh ho hk hr hc hi (fun _ => rfl)
  | serving t R' fin written rest hr h => exact .serving _ [] true written rest hr (serves_finish h)
  | dropped w R' fin hl h =>
    refine .dropped w [] true (fun _ => rfl) ?_
    rcases h with ⟨h1, h2, h3⟩ | h
    · exact .inl ⟨h1, rfl, h3⟩
    · exact .inr h

theorem late_bytes {h : Host} {b : Bytes} (hs : HStage preq g B h [] true) : HStage preq g B (h.meets preq g (.bytes b)) [] true := by
  rw [host_bytes]
  have : h.closed = true := by
    cases hs with
    | serving t R' fin written rest hr h => exact h.ended
    | _ => rfl
  rw [if_pos (.inl this)]
  exact hs

theorem run_hstage (hg : g.server.wire = []) (hgw : g.server.Willing) (es : List Brings) : ∀ {h : Host} {fin : Bool},
    HStage preq g B h (if fin then [] else came es) fin → HStage preq g B (h.endures preq g es) [] (fin || finished es) := by
  induction es with
  | nil =>
    intro h fin hs
    cases fin <;> exact hs
  | cons e es ih =>
    intro h fin hs
    unfold Host.endures
    rw [List.foldl_cons]
    cases e with
    | turn => exact ih (turn_hstage hg hgw hs)
    | finish =>
      have hs : HStage preq g B h [] fin := by cases fin <;> exact hs
      have := ih (h := h.meets preq g .finish) (fin := true) (finish_hstage hs)
      simpa [finished, Host.endures] using this
    | bytes b =>
      cases fin with
      | true =>
        have := ih (h := h.meets preq g (.bytes b)) (fin := true) (late_bytes hs)
        simpa [Host.endures] using this
      | false =>
        refine ih (h := h.meets preq g (.bytes b)) (fin := false) ?_
        by_cases hb : b = []
        · subst hb
          rw [host_bytes]
          rw [if_pos (.inr rfl)]
          exact hs
        · exact bytes_hstage hb hs

theorem start_hstage (hg : g.server.wire = []) : HStage preq g B (Host.start g) B false :=
  .reading [] g.server B false nofun rfl nofun hg

/-- Where the server stands. -/
theorem host_run (hg : g.server.wire = []) (hgw : g.server.Willing) (es : List Brings) : HStage preq g (came es) ((Host.start g).endures preq g es) [] (finished es) := by
  have := run_hstage (preq := preq) (B := came es) hg hgw es (h := Host.start g) (fin := false) (start_hstage hg)
  simpa using this

/-! ## To the end -/

omit [B64] in
/-- The thread comes to rest. -/
theorem thread_rests {hearing : Nat → Heard} {written : Bytes} {fin : Bool} (k : Nat) : ∀ {t : ServerThread}, Serves hearing written fin t [] →
    (t.ending.isSome = true ∨ t.input.measure + (if t.greeted then 0 else 1) < k) →
    ∃ N t', ServerThread.turns N t = t' ∧ t'.turn = t' ∧ Serves hearing written fin t' [] ∧
      (t'.ending.isSome = true ∨ (t'.ending = none ∧ t'.greeted = true ∧ t'.ended = false ∧ hearing t'.heard.length = .ended)) := by
  induction k with
  | zero =>
    intro t h hk
    have he : t.ending.isSome = true := hk.resolve_right (by omega)
    exact ⟨0, t, rfl, by unfold ServerThread.turn; rw [if_pos he], h, .inl he⟩
  | succ k ih =>
    intro t h hk
    obtain ⟨h1, h2⟩ := serves_turn h
    generalize ht : t.turn = u at h1 h2
    have step : (u.ending.isSome = true ∨ u.input.measure + (if u.greeted then 0 else 1) < k) → ∃ N t', ServerThread.turns N t = t' ∧ t'.turn = t' ∧ Serves hearing written fin t' [] ∧
      (t'.ending.isSome = true ∨ (t'.ending = none ∧ t'.greeted = true ∧ t'.ended = false ∧ hearing t'.heard.length = .ended)) := by
      intro hu
      obtain ⟨N, t', g1, g2⟩ := ih h1 hu
      refine ⟨N + 1, t', ?_, g2⟩
      show ServerThread.turns N t.turn = t'
      rw [ht]; exact g1
    cases h2 with
    | over he => exact ⟨0, t, rfl, ht, h, .inl he⟩
    | waits h0 hg he hh => exact ⟨0, t, rfl, ht, h, .inr ⟨h0, hg, he, hh rfl⟩⟩
    | greets t' hg hg' hi =>
      refine step (.inr ?_)
      rcases hk with hk | hk
      · rcases h.says with ⟨-, -, k2, -⟩ | ⟨k2, -⟩
        · rw [k2] at hk; cases hk
        · rw [hg] at k2; cases k2
      · rw [hg] at hk
        rw [hg', hi]
        simp at hk ⊢
        omega
    | hears t' hm hg hg' h0 =>
      refine step (.inr ?_)
      rcases hk with hk | hk
      · rw [h0] at hk; cases hk
      · rw [hg] at hk
        rw [hg']
        simp at hk ⊢
        omega
    | ends t' he => exact step (.inl he)

/-- Turns of the server. -/
def Host.turns (preq : ReqParser) (g : Given) : Nat → Host → Host
  | 0, h => h
  | n + 1, h => Host.turns preq g n (h.turn preq g)

theorem turns_add (m n : Nat) (h : Host) : Host.turns preq g (m + n) h = Host.turns preq g n (Host.turns preq g m h) := by
  induction m generalizing h with
  | zero => rw [Nat.zero_add]; rfl
  | succ m ih => rw [Nat.succ_add]; exact ih _

theorem turns_fixed {h : Host} (hf : h.turn preq g = h) (n : Nat) : Host.turns preq g n h = h := by
  induction n with
  | zero => rfl
  | succ n ih => unfold Host.turns; rw [hf]; exact ih

theorem turns_serving (n : Nat) (t : ServerThread) : Host.turns preq g n (.serving t) = .serving (t.turns n) := by
  induction n generalizing t with
  | zero => rfl
  | succ n ih => exact ih _

theorem endures_turns (h : Host) (es : List Brings) (n : Nat) : h.endures preq g (es ++ List.replicate n .turn) = Host.turns preq g n (h.endures preq g es) := by
  unfold Host.endures
  rw [List.foldl_append]
  generalize es.foldl (Host.meets preq g) h = x
  induction n generalizing x with
  | zero => rfl
  | succ n ih => rw [List.replicate_succ, List.foldl_cons]; exact ih _

/-- The server has nothing to do. -/
inductive AtEase (preq : ReqParser) (B : Bytes) (fin : Bool) : Host → Prop
  | waits (s : Src) (w : Sink) (hr : reception preq B = .waits) (hf : fin = false) (hw : w.wire = []) : AtEase preq B fin (.reading s fin w)
  | dropped (w : Sink) (h : (reception preq B = .waits ∧ fin = true ∧ w.wire = []) ∨ (reception preq B = .drops ∧ w.wire = []) ∨ ∃ x, reception preq B = .rejects x ∧ w.wire = x) : AtEase preq B fin (.dropped w)
  | serving (t : ServerThread) (written rest : Bytes) (hr : reception preq B = .serves written rest) (h : Serves (hostHears rest) written fin t [])
    (he : t.ending.isSome = true ∨ (t.ending = none ∧ t.greeted = true ∧ t.ended = false ∧ hostHears rest t.heard.length = .ended)) : AtEase preq B fin (.serving t)

theorem host_rests (hg : g.server.wire = []) (hgw : g.server.Willing) {h : Host} {fin : Bool} (hs : HStage preq g B h [] fin) :
    ∃ N h', Host.turns preq g N h = h' ∧ h'.turn preq g = h' ∧ AtEase preq B fin h' := by
  have serving : ∀ t written rest, reception preq B = .serves written rest → Serves (hostHears rest) written fin t [] →
      ∃ N h', Host.turns preq g N (.serving t) = h' ∧ h'.turn preq g = h' ∧ AtEase preq B fin h' := by
    intro t written rest hr h
    obtain ⟨N, t', h1, h2, h3, h4⟩ := thread_rests (t.input.measure + (if t.greeted then 0 else 1) + 1) h (.inr (Nat.lt_succ_self _))
    refine ⟨N, .serving t', by rw [turns_serving, h1], ?_, .serving t' written rest hr h3 h4⟩
    show Host.serving t'.turn = _
    rw [h2]
  have dropped : ∀ w, (reception preq B = .waits ∧ fin = true ∧ w.wire = []) ∨ (reception preq B = .drops ∧ w.wire = []) ∨ (∃ x, reception preq B = .rejects x ∧ w.wire = x) →
      ∃ N h', Host.turns preq g N (.dropped w) = h' ∧ h'.turn preq g = h' ∧ AtEase preq B fin h' :=
    fun w h => ⟨0, _, rfl, rfl, .dropped w h⟩
  have step : ∀ h : Host, (∃ N h', Host.turns preq g N (h.turn preq g) = h' ∧ h'.turn preq g = h' ∧ AtEase preq B fin h') →
      ∃ N h', Host.turns preq g N h = h' ∧ h'.turn preq g = h' ∧ AtEase preq B fin h' := by
    rintro h ⟨N, h', h1, h2⟩
    exact ⟨N + 1, h', h1, h2⟩
  have asked : ∀ u, HStage preq g B (.asked u fin) [] fin → ∃ N h', Host.turns preq g N (.asked u fin) = h' ∧ h'.turn preq g = h' ∧ AtEase preq B fin h' := by
    intro u hu
    refine step _ ?_
    have := turn_hstage hg hgw hu
    generalize hx : (Host.asked u fin).turn preq g = x at this
    cases this with
    | reading s w R fin hc hf hl hw =>
      exfalso
      change Host.answer g u fin = _ at hx
      unfold Host.answer at hx
      split at hx
      · split at hx <;> cases hx
      · cases hx
    | asked u' R fin key rest hh ho hk hr hc hi hl =>
      exfalso
      change Host.answer g u fin = _ at hx
      unfold Host.answer at hx
      split at hx
      · split at hx <;> cases hx
      · cases hx
    | serving t R fin written rest hr h => exact serving t written rest hr h
    | dropped w R fin hl h => exact dropped w h
  cases hs with
  | serving t R fin written rest hr h => exact serving t written rest hr h
  | dropped w R fin hl h => exact dropped w h
  | asked u R fin key rest hh ho hk hr hc hi hl => exact asked u (.asked u [] fin key rest hh ho hk hr hc hi hl)
  | reading s w R fin hc hf hl hw =>
    rw [List.append_nil] at hf
    obtain ⟨hn, hn'⟩ := host_reads (preq := preq) (g := g) (B := B) (s := s) (w := w) (R := []) (fin := fin) hg hc (by rw [List.append_nil]; exact hf) (fun _ => rfl) hw
    generalize hx : (Host.reading s fin w).turn preq g = x at hn hn'
    cases hn with
    | serving t R fin written rest hr h => exact step _ (by rw [hx]; exact serving t written rest hr h)
    | dropped w R fin hl h => exact step _ (by rw [hx]; exact dropped _ h)
    | asked u R fin key rest hh ho hk hr hc hi hl => exact step _ (by rw [hx]; exact asked u (.asked u [] fin key rest hh ho hk hr hc hi hl))
    | reading s' w' R fin' hc' hf' hl' hw' =>
      rcases hn' with ⟨h1, h2, h3⟩ | h1
      · refine ⟨0, _, rfl, hx.trans h1, .waits s w ?_ h2 hw⟩
        rw [← hf]; exact h3
      · exact absurd rfl (h1 _ _ _)

end

/-! ## What is said has one form -/

theorem lenForm_unique {n l l' : Nat} {e e' : List UInt8} (h : LenForm n l e) (h' : LenForm n l' e') : l = l' ∧ e = e' := by
  cases h <;> cases h' <;> first | exact ⟨rfl, rfl⟩ | omega | skip
  · next a b c d a' b' c' d' => exact ⟨rfl, be_inj (c.trans c'.symm) (d.trans d'.symm)⟩
  · next a b c d a' b' c' d' => exact ⟨rfl, be_inj (c.trans c'.symm) (d.trans d'.symm)⟩

theorem isFrame_once {f : Spec.Frame} {a b : List UInt8} (h : IsFrame f none a) (h' : IsFrame f none b) : a = b := by
  obtain ⟨b0, b1, l, e, d, rfl, -, h0, h1, h2, -, h3⟩ := h
  obtain ⟨c0, c1, l', e', d', rfl, -, k0, k1, k2, -, k3⟩ := h'
  obtain ⟨rfl, rfl⟩ := lenForm_unique h2 k2
  have e0 : b0 = c0 := UInt8.toNat_inj.mp (by omega)
  have e1 : b1 = c1 := UInt8.toNat_inj.mp (by omega)
  have e3 : d = d' := Eq.trans h3 (Eq.symm k3)
  rw [e0, e1, e3]

theorem wire_once {fs : List Spec.Frame} {a b : List UInt8} (h : Wire false fs a) (h' : Wire false fs b) : a = b := by
  induction h generalizing b with
  | nil => cases h'; rfl
  | @cons f fs key bs rest h hk hr ih =>
    cases h' with
    | @cons _ _ key' bs' rest' g gk gr =>
      cases key with
      | some k => cases hk
      | none =>
        cases key' with
        | some k => cases gk
        | none => rw [isFrame_once h g, ih gr]

theorem says_once {ms : List Spec.Message} {a b : List UInt8} (h : Says false ms a) (h' : Says false ms b) : a = b := by
  obtain ⟨fs, h1, h2, h3⟩ := h
  obtain ⟨gs, k1, k2, k3⟩ := h'
  have : fs = gs := by
    clear h1 k1
    induction ms generalizing fs gs with
    | nil =>
      rw [List.length_eq_zero_iff.mp h2, List.length_eq_zero_iff.mp k2]
    | cons m ms ih =>
      cases fs with
      | nil => cases h2
      | cons f fs =>
        cases gs with
        | nil => cases k2
        | cons f' gs =>
          have e : f = f' := carries_inj (h3 (f, m) (by simp)) (k3 (f', m) (by simp))
          rw [e,
            ih fs (by simpa using h2) (fun p hp => h3 p (by simp [hp])) gs (by simpa using k2) (fun p hp => k3 p (by simp [hp]))]
  rw [← this] at k1
  exact wire_once h1 k1

theorem course_once {hearing : Nat → Heard} {as bs : List OwnedMsg} (ha : Course hearing as) (hb : Course hearing bs) (ea : Exhausted hearing as) (eb : Exhausted hearing bs) : as = bs := by
  have key : ∀ {as bs : List OwnedMsg}, Course hearing as → Course hearing bs → Exhausted hearing as → ¬ as.length < bs.length := by
    intro as bs ha hb ea hl
    rcases ea with ⟨m, h1, h2⟩ | h
    · rw [List.getLast?_eq_getElem?] at h1
      have hpos : 0 < as.length := by
        cases as with
        | nil => simp at h1
        | cons _ _ => simp
      have h3 := ha.heard _ m h1
      have h4 : bs[as.length - 1]? = some bs[as.length - 1] := List.getElem?_eq_getElem (by omega)
      have h5 := hb.heard _ _ h4
      rw [h3] at h5
      simp only [Heard.message.injEq] at h5
      have := hb.open_ _ _ h4 (by omega)
      rw [← h5, h2] at this
      cases this
    · have h4 : bs[as.length]? = some bs[as.length] := List.getElem?_eq_getElem hl
      exact h _ (hb.heard _ _ h4)
  have hl : as.length = bs.length := by
    have := key ha hb ea
    have := key hb ha eb
    omega
  refine List.ext_getElem hl fun i h1 h2 => ?_
  have a1 := ha.heard i _ (List.getElem?_eq_getElem h1)
  have a2 := hb.heard i _ (List.getElem?_eq_getElem h2)
  rw [a1] at a2
  exact Heard.message.inj a2

end WS
