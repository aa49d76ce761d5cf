import Verif.Model.AsyncChat
import Verif.Spec.AsyncChat
import Verif.Lemmas.Cases
import Verif.Lemmas.Chat
/-! The async chat client. -/

namespace WS
open Spec (Says Merge)

theorem Drained.last {fr fr' : Framed MsgCodec} {s s' : Src} {x : Item OwnedMsg} (h : fr.poll msgDecoder s = (.ready x, fr', s'))
    (hx : ∀ m, x ≠ .item m) : Drained fr s [] x := by
  refine ⟨?_, hx⟩
  simp [Framed.nextMany, next_of_ready h]

theorem Drained.more {fr fr' : Framed MsgCodec} {s s' : Src} {m : OwnedMsg} {ms : List OwnedMsg} {x : Item OwnedMsg}
    (h : fr.poll msgDecoder s = (.ready (.item m), fr', s')) (hs : Drained fr' s' ms x) : Drained fr s (m :: ms) x := by
  refine ⟨?_, hs.stop⟩
  have := hs.calls
  simp only [List.length_cons, Framed.nextMany, next_of_ready h, List.map_cons, List.cons_append]
  simp only [Framed.nextMany] at this
  exact congrArg _ this

theorem Drained.wait {fr fr' : Framed MsgCodec} {s s' : Src} {ms : List OwnedMsg} {x : Item OwnedMsg}
    (h : fr.poll msgDecoder s = (.notReady, fr', s')) (hs : Drained fr' s' ms x) : Drained fr s ms x := by
  refine ⟨?_, hs.stop⟩
  have := hs.calls
  simp only [Framed.nextMany, next_of_wait h] at this ⊢
  exact this

/-- What is still to be heard. -/
def Selecting.Hears (c : Selecting) (ms : List OwnedMsg) (x : Item OwnedMsg) : Prop :=
  if c.over then ms = [] ∧ x = .done else Drained c.read c.input ms x

/-- The closure answers what the specification asks for, and every answer can be sent. -/
structure Answering (f : OwnedMsg → Option OwnedMsg) (g : Spec.Message → Option Spec.Message) : Prop where
  spec : ∀ m, (f m).map OwnedMsg.spec = g m.spec
  sendable : ∀ m a, f m = some a → m.spec.Sendable isizeMax → a.spec.Sendable isizeMax

theorem pingOnly_answering : Answering pingOnly Spec.Message.pongFor := by
  refine ⟨fun m => ?_, fun m a h hm => ?_⟩
  · cases m with
    | close d => cases d <;> rfl
    | _ => rfl
  · cases m <;> cases h
    exact sendable_pong hm

theorem pingOrClose_answering : Answering pingOrClose Spec.Message.controlFor := by
  refine ⟨fun m => ?_, fun m a h hm => ?_⟩
  · cases m with
    | close d => cases d <;> rfl
    | _ => rfl
  · cases m <;> cases h
    · exact hm
    · exact sendable_pong hm

/-- The answers due for what was heard. -/
def pongs (f : OwnedMsg → Option OwnedMsg) (ms : List OwnedMsg) : List OwnedMsg := ms.filterMap f

section
variable {f : OwnedMsg → Option OwnedMsg}

theorem pongs_append (a b : List OwnedMsg) : pongs f (a ++ b) = pongs f a ++ pongs f b := List.filterMap_append

theorem pongs_spec {g : Spec.Message → Option Spec.Message} (hg : Answering f g) (ms : List OwnedMsg) :
    (pongs f ms).map OwnedMsg.spec = (ms.map OwnedMsg.spec).filterMap g := by
  induction ms with
  | nil => rfl
  | cons m ms ih =>
    have := hg.spec m
    simp only [pongs, List.map_cons] at ih ⊢
    cases hm : f m with
    | none =>
      rw [hm] at this
      rw [List.filterMap_cons_none hm, List.filterMap_cons_none this.symm, ih]
    | some a =>
      rw [hm] at this
      rw [List.filterMap_cons_some hm, List.filterMap_cons_some this.symm, List.map_cons, ih]

/-- What the channel still holds. -/
def Selecting.said (c : Selecting) : List OwnedMsg := c.user.filterMap id

/-- From `c` to `c'` the messages `sk` were heard and `us` taken from the channel. -/
structure Shift (c c' : Selecting) (sk us : List OwnedMsg) : Prop where
  hears : ∀ ms x, c'.Hears ms x → c.Hears (sk ++ ms) x
  said : c.said = us ++ c'.said
  fit : c'.over = false → FitAsync c'.read.codec
  gone : c'.gone = c.gone

theorem Shift.trans {c c' c'' : Selecting} {a b u v : List OwnedMsg} (h : Shift c c' a u) (h' : Shift c' c'' b v) :
    Shift c c'' (a ++ b) (u ++ v) :=
  ⟨fun ms x g => by rw [List.append_assoc]; exact h.hears _ _ (h'.hears _ _ g), by rw [h.said, h'.said, List.append_assoc], h'.fit,
   h'.gone.trans h.gone⟩

theorem Shift.flag {c c' : Selecting} {a u : List OwnedMsg} (h : Shift c c' a u) (b d : Bool) :
    Shift { c with flag := b } { c' with flag := d } a u := ⟨h.hears, h.said, h.fit, h.gone⟩

theorem Shift.refl {c : Selecting} (hf : c.over = false → FitAsync c.read.codec) : Shift c c [] [] := ⟨fun _ _ h => h, rfl, hf, rfl⟩

/-- What a poll has found; `D` is what the end means. -/
def Found (f : OwnedMsg → Option OwnedMsg) (D : Selecting → Prop) (c c' : Selecting) : Poll OwnedMsg → Prop
  | .notReady => ∃ sk, Shift c c' sk [] ∧ pongs f sk = []
  | .ready (.item m) => ∃ sk us, Shift c c' sk us ∧ pongs f sk ++ us = [m] ∧ m.spec.Sendable isizeMax
  | .ready .done => ∃ sk, Shift c c' sk [] ∧ pongs f sk = [] ∧ D c'
  | .ready (.err e) => ∃ sk, c.Hears sk (.err e) ∧ pongs f sk = []
  | .ready (.panic _) => False

/-- The parts of `filterPoll`: what was skipped and what came then. -/
theorem filterPoll_spec (hsend : ∀ m a, f m = some a → m.spec.Sendable isizeMax → a.spec.Sendable isizeMax) (fr : Framed MsgCodec) (s : Src) (hf : FitAsync fr.codec) :
    ∃ sk, (∀ fr' s', (filterPoll f fr s).2 = (fr', s') → (∀ m, (filterPoll f fr s).1 = .ready (.item m) ∨ (filterPoll f fr s).1 = .notReady →
        FitAsync fr'.codec ∧ ∀ ms x, Drained fr' s' ms x → Drained fr s (sk ++ ms) x)) ∧
      match (filterPoll f fr s).1 with
      | .notReady => pongs f sk = []
      | .ready (.item m) => pongs f sk = [m] ∧ m.spec.Sendable isizeMax
      | .ready .done => pongs f sk = [] ∧ Drained fr s sk .done
      | .ready (.err e) => pongs f sk = [] ∧ Drained fr s sk (.err e)
      | .ready (.panic _) => False := by
  have hg := poll_good msgDecoder_good s fr hf
  fun_induction filterPoll f fr s with
  | case1 fr s m fr' s' h a ha =>
    rw [h] at hg
    refine ⟨[m], ?_, ?_⟩
    · rintro _ _ e m' -
      cases e
      exact ⟨hg.1, fun ms x hd => hd.more h⟩
    · refine ⟨by simp [pongs, ha], ?_⟩
      exact hsend m a ha hg.2
  | case2 fr s m fr' s' h ha ih =>
    rw [h] at hg
    obtain ⟨sk, h1, h2⟩ := ih hg.1 (poll_good msgDecoder_good _ _ hg.1)
    refine ⟨m :: sk, ?_, ?_⟩
    · intro fr2 s2 e m' hm
      obtain ⟨h3, h4⟩ := h1 fr2 s2 e m' hm
      exact ⟨h3, fun ms x hd => (h4 ms x hd).more h⟩
    · have e : pongs f (m :: sk) = pongs f sk := by simp [pongs, List.filterMap_cons, ha]
      simp only [e]
      split <;> rename_i q <;> rw [q] at h2
      · exact h2
      · exact h2
      · exact ⟨h2.1, h2.2.more h⟩
      · exact ⟨h2.1, h2.2.more h⟩
      · exact h2
  | case3 fr s x fr' s' hne h =>
    rw [h] at hg
    refine ⟨[], ?_, ?_⟩
    · rintro _ _ e m' hm
      cases e
      rcases hm with hm | hm
      · exact (hne m' hm).elim
      · simp only at hm
        subst hm
        exact ⟨hg, fun ms x hd => hd.wait h⟩
    · cases x with
      | notReady => rfl
      | ready y =>
        cases y with
        | item m => exact (hne m rfl).elim
        | done => exact ⟨rfl, .last h (by intro m e; cases e)⟩
        | err e => exact ⟨rfl, .last h (by intro m e; cases e)⟩
        | panic p => exact hg.elim

theorem pollStream_found (hsend : ∀ m a, f m = some a → m.spec.Sendable isizeMax → a.spec.Sendable isizeMax) (c : Selecting) (hf : c.over = false → FitAsync c.read.codec) :
    Found f (fun c' => c'.over = true ∧ c'.user = c.user) c (c.pollStream f).2 (c.pollStream f).1 := by
  unfold Selecting.pollStream
  split
  · next ho => exact ⟨[], .refl hf, rfl, ho, rfl⟩
  · next ho =>
    have ho : c.over = false := by simpa using ho
    obtain ⟨sk, h1, h2⟩ := filterPoll_spec hsend c.read c.input (hf ho)
    have hh : ∀ ms x, c.Hears ms x ↔ Drained c.read c.input ms x := by intro ms x; simp [Selecting.Hears, ho]
    split
    · next fr s h =>
      rw [h] at h2
      refine ⟨sk, ⟨?_, rfl, (by intro h; cases h), rfl⟩, h2.1, rfl, rfl⟩
      rintro ms x ⟨rfl, rfl⟩
      rw [List.append_nil, hh]
      exact h2.2
    · next x fr s hne h =>
      rw [h] at h1 h2
      have sh : ∀ m, (x = .ready (.item m) ∨ x = .notReady) → Shift c { c with read := fr, input := s } sk [] := by
        intro m hm
        obtain ⟨h3, h4⟩ := h1 _ _ rfl m hm
        refine ⟨?_, rfl, fun _ => h3, rfl⟩
        intro ms y hy
        rw [hh]
        simp only [Selecting.Hears, ho] at hy
        exact h4 ms y hy
      cases x with
      | notReady => exact ⟨sk, sh (.close none) (.inr rfl), h2⟩
      | ready y =>
        cases y with
        | item m => exact ⟨sk, [], sh m (.inl rfl), by rw [List.append_nil]; exact h2.1, h2.2⟩
        | done => exact (hne rfl).elim
        | err e => exact ⟨sk, (hh _ _).mpr h2.2, h2.1⟩
        | panic p => exact h2.elim

theorem pollUser_found (c : Selecting) (hf : c.over = false → FitAsync c.read.codec) (hs : ∀ m ∈ c.said, m.spec.Sendable isizeMax) :
    Found f (fun c' => c'.over = c.over ∧ c'.user = [] ∧ c.gone = true) c c.pollUser.2 c.pollUser.1 := by
  unfold Selecting.pollUser
  split <;> rename_i hu
  · cases hg : c.gone with
    | true => exact ⟨[], .refl hf, rfl, rfl, hu, rfl⟩
    | false => exact ⟨[], .refl hf, rfl⟩
  · refine ⟨[], ⟨fun _ _ h => h, ?_, hf, rfl⟩, rfl⟩
    simp [Selecting.said, hu]
  · next m us =>
    have e : c.said = m :: us.filterMap id := by simp [Selecting.said, hu]
    exact ⟨[], [m], ⟨fun _ _ h => h, e, hf, rfl⟩, rfl, hs m (by rw [e]; exact List.mem_cons_self)⟩

theorem Found.imp {D E : Selecting → Prop} {c c' : Selecting} {p : Poll OwnedMsg} (h : Found f D c c' p) (hi : D c' → E c') :
    Found f E c c' p := by
  cases p with
  | notReady => exact h
  | ready y =>
    cases y with
    | done => obtain ⟨sk, h1, h2, h3⟩ := h; exact ⟨sk, h1, h2, hi h3⟩
    | _ => exact h

/-- A second poll after one that gave nothing. -/
theorem Found.after {D : Selecting → Prop} {c c' c'' : Selecting} {sk : List OwnedMsg} {p : Poll OwnedMsg} (h : Shift c c' sk [])
    (hk : pongs f sk = []) (h' : Found f D c' c'' p) : Found f D c c'' p := by
  cases p with
  | notReady =>
    obtain ⟨a, h1, h2⟩ := h'
    exact ⟨sk ++ a, h.trans h1, by rw [pongs_append, hk, h2]; rfl⟩
  | ready y =>
    cases y with
    | item m =>
      obtain ⟨a, u, h1, h2, h3⟩ := h'
      exact ⟨sk ++ a, [] ++ u, h.trans h1, by rw [pongs_append, hk]; exact h2, h3⟩
    | done =>
      obtain ⟨a, h1, h2, h3⟩ := h'
      exact ⟨sk ++ a, h.trans h1, by rw [pongs_append, hk, h2]; rfl, h3⟩
    | err e =>
      obtain ⟨a, h1, h2⟩ := h'
      exact ⟨sk ++ a, h.hears _ _ h1, by rw [pongs_append, hk, h2]; rfl⟩
    | panic p => exact h'

theorem said_rest {c c' : Selecting} {a u : List OwnedMsg} (h : Shift c c' a u) {P : OwnedMsg → Prop} (hs : ∀ m ∈ c.said, P m) :
    ∀ m ∈ c'.said, P m := fun m hm => hs m (by rw [h.said]; exact List.mem_append_right _ hm)

theorem poll_found (hsend : ∀ m a, f m = some a → m.spec.Sendable isizeMax → a.spec.Sendable isizeMax) (c : Selecting) (hf : c.over = false → FitAsync c.read.codec) (hs : ∀ m ∈ c.said, m.spec.Sendable isizeMax) :
    Found f (fun c' => c'.over = true ∧ c'.user = [] ∧ c.gone = true) c (c.poll f).2 (c.poll f).1 := by
  have start : ∀ b, Shift c { c with flag := b } [] [] := fun b => ⟨fun _ _ h => h, rfl, hf, rfl⟩
  unfold Selecting.poll
  cases hfl : c.flag with
  | true =>
    simp only [Selecting.pollOne, if_true, Bool.not_true, Bool.false_eq_true, if_false]
    have h1 := Found.after (start false) rfl (pollUser_found (f := f) { c with flag := false } hf hs)
    split <;> rename_i q <;> rw [q] at h1
    · obtain ⟨sk, s1, s2, s3, s4, s5⟩ := h1
      refine Found.after s1 s2 ((pollStream_found hsend _ s1.fit).imp ?_)
      rintro ⟨e1, e2⟩
      exact ⟨e1, e2.trans s4, s5⟩
    · obtain ⟨sk, s1, s2⟩ := h1
      have h2 := Found.after s1 s2 (pollStream_found hsend _ s1.fit)
      split <;> rename_i q2 <;> rw [q2] at h2
      · obtain ⟨a, u, t1, t2⟩ := h2
        exact ⟨a, u, t1.flag c.flag _, t2⟩
      · obtain ⟨a, t1, t2, -⟩ := h2
        exact ⟨a, t1, t2⟩
      · next x c2 hne1 hne2 =>
        cases x with
        | notReady => exact h2
        | ready y =>
          cases y with
          | item m => exact (hne1 m rfl).elim
          | done => exact (hne2 rfl).elim
          | err e => exact h2
          | panic p => exact h2
    · next x c1 hne1 hne2 =>
      cases x with
      | notReady => exact (hne2 rfl).elim
      | ready y =>
        cases y with
        | done => exact (hne1 rfl).elim
        | item m => exact h1
        | err e => exact h1
        | panic p => exact h1
  | false =>
    simp only [Selecting.pollOne, if_true, Bool.not_false, Bool.false_eq_true, if_false]
    have h1 := Found.after (start true) rfl (pollStream_found hsend { c with flag := true } hf)
    split <;> rename_i q <;> rw [q] at h1
    · obtain ⟨sk, s1, s2, s3, s4⟩ := h1
      refine Found.after s1 s2 ((pollUser_found (f := f) _ s1.fit (said_rest s1 hs)).imp ?_)
      rintro ⟨e1, e2, e3⟩
      exact ⟨e1.trans s3, e2, s1.gone ▸ e3⟩
    · obtain ⟨sk, s1, s2⟩ := h1
      have h2 := Found.after s1 s2 (pollUser_found (f := f) _ s1.fit (said_rest s1 hs))
      split <;> rename_i q2 <;> rw [q2] at h2
      · obtain ⟨a, u, t1, t2⟩ := h2
        exact ⟨a, u, t1.flag c.flag _, t2⟩
      · obtain ⟨a, t1, t2, -⟩ := h2
        exact ⟨a, t1, t2⟩
      · next x c2 hne1 hne2 =>
        cases x with
        | notReady => exact h2
        | ready y =>
          cases y with
          | item m => exact (hne1 m rfl).elim
          | done => exact (hne2 rfl).elim
          | err e => exact h2
          | panic p => exact h2
    · next x c1 hne1 hne2 =>
      cases x with
      | notReady => exact (hne2 rfl).elim
      | ready y =>
        cases y with
        | done => exact (hne1 rfl).elim
        | item m => exact h1
        | err e => exact h1
        | panic p => exact h1

/-- How the program ends on the last thing it heard: `q` is what it had queued or written. -/
def ChatEnds (gone : Bool) (q before : Bytes) (out : Option Ending × Sink) : Item OwnedMsg → Prop
  | .err e => out.1 = some (.failed e) ∧ before <+: out.2.wire ∧ out.2.wire <+: q
  | .done => out.1 = (if gone then some .returned else none) ∧ out.2.wire = q
  | _ => False

theorem ChatEnds.before {gone : Bool} {q b b' : Bytes} {out : Option Ending × Sink} {x : Item OwnedMsg} (h : ChatEnds gone q b' out x)
    (hb : b <+: b') : ChatEnds gone q b out x := by
  cases x with
  | err e => exact ⟨h.1, hb.trans h.2.1, h.2.2⟩
  | _ => exact h

/-- The outcome of `chatForward`. -/
def Chatted (f : OwnedMsg → Option OwnedMsg) (buffered : List OwnedMsg) (c : Selecting) (fw : FramedWrite) (w : Sink) (out : Option Ending × Sink) : Prop :=
  ∃ ms x us zs bs, c.Hears ms x ∧ us <+: c.said ∧ (x = .done → us = c.said) ∧ Merge (pongs f ms) us zs ∧
    Says (!fw.isServer) ((buffered ++ zs).map OwnedMsg.spec) bs ∧ ChatEnds c.gone (w.wire ++ fw.buf.data ++ bs) w.wire out x

theorem merge_single {α : Type} {p u x y z : List α} {m : α} (h : p ++ u = [m]) (hm : Merge x y z) : Merge (p ++ x) (u ++ y) (m :: z) := by
  cases p with
  | nil => cases h; exact .right hm
  | cons a p =>
    simp only [List.cons_append, List.cons.injEq, List.append_eq_nil_iff] at h
    obtain ⟨rfl, rfl, rfl⟩ := h
    exact .left hm

theorem Chatted.shift {c c' : Selecting} {sk : List OwnedMsg} {fw fw' : FramedWrite} {w w' : Sink} {out : Option Ending × Sink}
    (h : Shift c c' sk []) (hk : pongs f sk = []) (hq : w'.wire ++ fw'.buf.data = w.wire ++ fw.buf.data) (hp : w.wire <+: w'.wire)
    (hv : fw'.isServer = fw.isServer) (ih : Chatted f [] c' fw' w' out) : Chatted f [] c fw w out := by
  obtain ⟨ms, x, us, zs, bs, h1, h2, h3, h4, h5, h6⟩ := ih
  have e : c.said = c'.said := h.said
  rw [hq, h.gone] at h6
  rw [hv] at h5
  exact ⟨sk ++ ms, x, us, zs, bs, h.hears _ _ h1, e ▸ h2, e ▸ h3, by rw [pongs_append, hk]; exact h4, h5, h6.before hp⟩

theorem drain_all (fw : FramedWrite) (w : Sink) (h : w.Patient) (hb : fw.buf.WF) :
    ∃ fw' w', fw.drain w = (.ready, fw', w') ∧ w'.wire = w.wire ++ fw.buf.data := by
  have hd := drain_patient fw w h
  have hs := drain_spec fw w hb
  cases hx : fw.drain w with
  | mk r q =>
    obtain ⟨fw', w'⟩ := q
    rw [hx] at hd hs
    simp only at hd hs
    obtain ⟨rfl, hd2, hd3⟩ := hd
    have he := hs.2.2.1 rfl
    refine ⟨fw', w', rfl, ?_⟩
    have := hs.1
    rw [he, List.append_nil] at this
    exact this

theorem quiet_iff (c : Selecting) : c.quiet = true ↔ c.over = true ∧ c.user = [] ∧ c.gone = false := by
  simp [Selecting.quiet, and_assoc]

/-- Both sides have ended. -/
theorem Chatted.over {c c' : Selecting} {sk : List OwnedMsg} {fw : FramedWrite} {w : Sink} {out : Option Ending × Sink} (h : Shift c c' sk [])
    (hk : pongs f sk = []) (ho : c'.over = true) (hu : c'.user = []) (h1 : out.1 = if c.gone then some .returned else none)
    (h2 : out.2.wire = w.wire ++ fw.buf.data) : Chatted f [] c fw w out := by
  have e : c.said = [] := by rw [h.said]; simp [Selecting.said, hu]
  refine ⟨sk, .done, [], [], [], ?_, by rw [e]; exact List.prefix_rfl, fun _ => e.symm, by rw [hk]; exact .nil, says_nil _, h1, by
    rw [List.append_nil]; exact h2⟩
  have := h.hears [] .done (by simp [Selecting.Hears, ho])
  rwa [List.append_nil] at this

theorem chat_loop (hsend : ∀ m a, f m = some a → m.spec.Sendable isizeMax → a.spec.Sendable isizeMax) (keys : Nat → Key4) (extra : Nat) (buffered : Option OwnedMsg) (c : Selecting) (fw : FramedWrite) (w : Sink)
    (hf : c.over = false → FitAsync c.read.codec) (hs : ∀ m ∈ c.said, m.spec.Sendable isizeMax)
    (hbuf : ∀ m ∈ buffered, m.spec.Sendable isizeMax) (hw : w.Patient) (hb : fw.buf.WF) :
    Chatted f buffered.toList c fw w (chatForward f keys extra buffered c fw w) := by
  have hp := poll_found hsend c hf hs
  fun_induction chatForward f keys extra buffered c fw w with
  | case1 keys c fw w a fw' w' h ih =>
    have hq := startSend_patient fw w hw hb isize_lt (hbuf a rfl) (keys 0) extra
    rw [h] at hq
    obtain ⟨p1, p2, p3, p4, ⟨p5, -⟩ | ⟨-, b0, p6, p7⟩⟩ := hq
    · cases p5
    · simp only at p1 p2 p3 p4 p7
      obtain ⟨ms, x, us, zs, bs, g1, g2, g3, g4, g5, g6⟩ := ih hf hs (by simp) p1 p2 hp
      rw [p3] at g5
      rw [p7] at g6
      refine ⟨ms, x, us, zs, b0 ++ bs, g1, g2, g3, g4, ?_, ?_⟩
      · exact Says.append (ms := [a.spec]) p6 g5
      · rw [← List.append_assoc]; exact g6.before p4
  | case2 keys c fw w a fw' w' h ih =>
    have hq := startSend_patient fw w hw hb isize_lt (hbuf a rfl) (keys 0) extra
    rw [h] at hq
    obtain ⟨p1, p2, p3, p4, ⟨-, p5⟩ | ⟨p5, -⟩⟩ := hq
    · simp only at p1 p2 p3 p4 p5
      obtain ⟨ms, x, us, zs, bs, g1, g2, g3, g4, g5, g6⟩ := ih hf hs hbuf p1 p2 hp
      rw [p3] at g5
      rw [p5] at g6
      exact ⟨ms, x, us, zs, bs, g1, g2, g3, g4, g5, g6.before p4⟩
    · cases p5
  | case3 keys c fw w a e fw' w' h =>
    have hq := startSend_patient fw w hw hb isize_lt (hbuf a rfl) (keys 0) extra
    rw [h] at hq
    obtain ⟨-, -, -, -, ⟨p5, -⟩ | ⟨p5, -⟩⟩ := hq <;> cases p5
  | case4 keys c fw w a e fw' w' h =>
    have hq := startSend_patient fw w hw hb isize_lt (hbuf a rfl) (keys 0) extra
    rw [h] at hq
    obtain ⟨-, -, -, -, ⟨p5, -⟩ | ⟨p5, -⟩⟩ := hq <;> cases p5
  | case5 keys c fw w c' h hq fw' w' hd =>
    rw [h] at hp
    obtain ⟨sk, h1, h2⟩ := hp
    obtain ⟨fw2, w2, e1, e2⟩ := drain_all fw w hw hb
    rw [hd] at e1
    cases e1
    obtain ⟨q1, q2, q3⟩ := (quiet_iff c').mp hq
    exact .over h1 h2 q1 q2 (by rw [← h1.gone, q3]; rfl) e2
  | case6 keys c fw w c' h hq e fw' w' hd =>
    obtain ⟨fw2, w2, e1, e2⟩ := drain_all fw w hw hb
    rw [hd] at e1
    cases e1
  | case7 keys c fw w c' h hq r fw' w' hne _ hd =>
    obtain ⟨fw2, w2, e1, e2⟩ := drain_all fw w hw hb
    rw [hd] at e1
    cases e1
    exact (hne rfl).elim
  | case8 keys c fw w c' h hq e fw' w' hc =>
    have hp := pollComplete_patient fw w hw
    rw [hc] at hp
    rcases hp.1 with h | h <;> cases h
  | case9 keys c fw w c' h hq e fw' w' hc =>
    have hp := pollComplete_patient fw w hw
    rw [hc] at hp
    rcases hp.1 with h | h <;> cases h
  | case10 keys c fw w c' h hq r fw' w' _ _ hc ih =>
    rw [h] at hp
    obtain ⟨sk, h1, h2⟩ := hp
    have hp := pollComplete_patient fw w hw
    have hi := pollComplete_inv fw w hb
    rw [hc] at hp hi
    simp only at hp hi
    exact .shift h1 h2 hi.1 hi.2.2.2.1 hi.2.2.1 (ih h1.fit (said_rest h1 hs) (by simp) hp.2 hi.2.1 (poll_found hsend _ h1.fit (said_rest h1 hs)))
  | case11 keys c fw w m c' h ih =>
    rw [h] at hp
    obtain ⟨sk, us0, h1, h2, h3⟩ := hp
    obtain ⟨ms, x, us, zs, bs, g1, g2, g3, g4, g5, g6⟩ := ih h1.fit (said_rest h1 hs) (by rintro a e; cases e; exact h3) hw hb
      (poll_found hsend _ h1.fit (said_rest h1 hs))
    rw [h1.gone] at g6
    refine ⟨sk ++ ms, x, us0 ++ us, m :: zs, bs, h1.hears _ _ g1, ?_, ?_, ?_, g5, g6⟩
    · rw [h1.said]; exact (List.prefix_append_right_inj _).mpr g2
    · intro e; rw [h1.said, g3 e]
    · rw [pongs_append]; exact merge_single h2 g4
  | case12 keys c fw w c' h fw' w' hd =>
    rw [h] at hp
    obtain ⟨sk, h1, h2, q1, q2, q3⟩ := hp
    obtain ⟨fw2, w2, e1, e2⟩ := drain_all fw w hw hb
    rw [hd] at e1
    cases e1
    exact .over h1 h2 q1 q2 (by rw [q3]; rfl) e2
  | case13 keys c fw w c' h e fw' w' hd =>
    obtain ⟨fw2, w2, e1, e2⟩ := drain_all fw w hw hb
    rw [hd] at e1
    cases e1
  | case14 keys c fw w c' h r fw' w' hne _ hd =>
    obtain ⟨fw2, w2, e1, e2⟩ := drain_all fw w hw hb
    rw [hd] at e1
    cases e1
    exact (hne rfl).elim
  | case15 keys c fw w e c' h =>
    rw [h] at hp
    obtain ⟨sk, h1, h2⟩ := hp
    refine ⟨sk, .err e, [], [], [], h1, List.nil_prefix, (by intro h; cases h), by rw [h2]; exact .nil, says_nil _, rfl, List.prefix_rfl, ?_⟩
    rw [List.append_nil]
    exact List.prefix_append _ _
  | case16 keys c fw w p c' h =>
    rw [h] at hp
    exact hp.elim


/-- One message found and taken by the sink at once. -/
theorem chat_item (keys : Nat → Key4) (extra : Nat) (c : Selecting) (fw : FramedWrite) (w : Sink) {m : OwnedMsg}
    (h : (c.poll f).1 = .ready (.item m)) (hs : (fw.startSend m.view (keys 0) extra w).1 = .ready) :
    chatForward f keys extra none c fw w =
      chatForward f (fun n => keys (n + 1)) extra none (c.poll f).2 (fw.startSend m.view (keys 0) extra w).2.1
        (fw.startSend m.view (keys 0) extra w).2.2 := by
  have e : c.poll f = (.ready (.item m), (c.poll f).2) := Prod.ext h rfl
  have e' : fw.startSend m.view (keys 0) extra w = (.ready, (fw.startSend m.view (keys 0) extra w).2.1,
    (fw.startSend m.view (keys 0) extra w).2.2) := Prod.ext hs rfl
  conv => lhs; rw [chatForward]
  split
  · next q => rw [e] at q; cases q
  · next q =>
    rw [e] at q
    cases q
    conv => lhs; rw [chatForward]
    split
    · next q => rw [e'] at q; cases q; rfl
    · next q => rw [e'] at q; cases q
    · next q => rw [e'] at q; cases q
    · next q => rw [e'] at q; cases q
  · next q => rw [e] at q; cases q
  · next q => rw [e] at q; cases q
  · next q => rw [e] at q; cases q

/-- The end. -/
theorem chat_done (keys : Nat → Key4) (extra : Nat) (c : Selecting) (fw : FramedWrite) (w : Sink) (h : (c.poll f).1 = .ready .done)
    (hs : (fw.drain w).1 = .ready) : chatForward f keys extra none c fw w = (some .returned, (fw.drain w).2.2) := by
  have e : c.poll f = (.ready .done, (c.poll f).2) := Prod.ext h rfl
  have e' : fw.drain w = (.ready, (fw.drain w).2.1, (fw.drain w).2.2) := Prod.ext hs rfl
  rw [chatForward]
  split
  · next q => rw [e] at q; cases q
  · next q => rw [e] at q; cases q
  · next q =>
    split
    · next q => rw [e'] at q; cases q; rfl
    · next q => rw [e'] at q; cases q
    · next hne _ q => rw [e'] at q; cases q; exact (hne rfl).elim
  · next q => rw [e] at q; cases q
  · next q => rw [e] at q; cases q

theorem merge_map {α β : Type} (f : α → β) {x y z : List α} (h : Merge x y z) : Merge (x.map f) (y.map f) (z.map f) := by
  induction h with
  | nil => exact .nil
  | left _ ih => exact .left ih
  | right _ ih => exact .right ih

/-- What the calls of a stream give is determined. -/
theorem drained_unique {fr : Framed MsgCodec} {s : Src} {ms ns : List OwnedMsg} {x y : Item OwnedMsg} (h : Drained fr s ms x)
    (h' : Drained fr s ns y) : ms = ns ∧ x = y := by
  induction ms generalizing fr s ns with
  | nil =>
    have h1 := h.calls
    have h2 := h'.calls
    cases ns with
    | nil =>
      rw [List.length_nil] at h1 h2
      rw [h1] at h2
      simpa using h2
    | cons n ns =>
      simp only [Framed.nextMany, List.length_nil, List.length_cons, List.map_nil, List.nil_append, List.map_cons, List.cons_append,
        List.cons.injEq] at h1 h2
      rw [h1.1] at h2
      exact absurd h2.1 (h.stop n)
  | cons m ms ih =>
    have h1 := h.calls
    have h2 := h'.calls
    cases ns with
    | nil =>
      simp only [Framed.nextMany, List.length_nil, List.length_cons, List.map_nil, List.nil_append, List.map_cons, List.cons_append,
        List.cons.injEq] at h1 h2
      rw [h1.1] at h2
      exact absurd h2.1.symm (h'.stop m)
    | cons n ns =>
      simp only [Framed.nextMany, List.length_cons, List.map_cons, List.cons_append, List.cons.injEq] at h1 h2
      have e : m = n := by
        have := h1.1.symm.trans h2.1
        simpa using this
      subst e
      obtain ⟨rfl, rfl⟩ := ih (fr := (fr.next msgDecoder s).2.1) (s := (fr.next msgDecoder s).2.2) ⟨by simp only [Framed.nextMany]; exact h1.2, h.stop⟩
        ⟨by simp only [Framed.nextMany]; exact h2.2, h'.stop⟩
      exact ⟨rfl, rfl⟩

theorem chat_any {g : Spec.Message → Option Spec.Message} (hg : Answering f g) (ctx : Context) (maxDf maxMsg : Nat) (keys : Nat → Key4)
    (extra : Nat) (flag : Bool) (buf : Bytes) (s : Src)
    (user : List (Option OwnedMsg)) (gone : Bool) (hu : ∀ m, some m ∈ user → m.spec.Sendable isizeMax)
    (fw : FramedWrite) (hb : fw.buf.WF) (he : fw.buf.data = []) (w : Sink) (hw : w.Patient) :
    ∃ ms x us zs bs r w', Drained (Framed.fromParts (MsgCodec.newWithLimits ctx maxDf maxMsg) buf) s ms x ∧
      chatForward f keys extra none ⟨flag, false, Framed.fromParts (MsgCodec.newWithLimits ctx maxDf maxMsg) buf, s, user, gone⟩ fw w = (r, w') ∧
      us <+: user.filterMap id ∧ Merge ((ms.map OwnedMsg.spec).filterMap g) (us.map OwnedMsg.spec) zs ∧
      Says (!fw.isServer) zs bs ∧
      ((x = .done ∧ us = user.filterMap id ∧ r = (if gone then some .returned else none) ∧ w'.wire = w.wire ++ bs) ∨
       (∃ e, x = .err e ∧ r = some (.failed e) ∧ w.wire <+: w'.wire ∧ w'.wire <+: w.wire ++ bs)) := by
  obtain ⟨ms, x, us, zs, bs, h1, h2, h3, h4, h5, h6⟩ := chat_loop hg.sendable keys extra none
    ⟨flag, false, Framed.fromParts (MsgCodec.newWithLimits ctx maxDf maxMsg) buf, s, user, gone⟩ fw w (fun _ => fitAsync_new ctx maxDf maxMsg)
    (by
      intro m hm
      simp only [Selecting.said, List.mem_filterMap, id] at hm
      obtain ⟨o, ho, rfl⟩ := hm
      exact hu m ho) (by simp) hw hb
  rw [he, List.append_nil] at h6
  simp only [Selecting.Hears] at h1
  refine ⟨ms, x, us, zs.map OwnedMsg.spec, bs, _, _, h1, rfl, h2, ?_, h5, ?_⟩
  · rw [← pongs_spec hg]; exact merge_map _ h4
  · cases x with
    | done => exact .inl ⟨rfl, h3 rfl, h6⟩
    | err e => exact .inr ⟨e, rfl, h6⟩
    | item m => exact h6.elim
    | panic p => exact h6.elim

theorem chat_traffic {g : Spec.Message → Option Spec.Message} (hg : Answering f g) (ctx : Context) (maxDf maxMsg : Nat) (frames : List Spec.Frame) (ms : List Spec.Message) (held' : List Spec.Frame)
    (hd : Spec.Delivers (Spec.FitsAsync (min maxMsg u32Max)) [] frames ms held') (hl : ∀ f ∈ frames, f.payload.length ≤ min maxDf u32Max)
    (bs x : Bytes) (hf : Spec.Wire (decide (ctx = .server)) frames bs) (hx : Truncated (decide (ctx = .server)) (min maxDf u32Max) x)
    (buf : Bytes) (s : Src) (hs : s.Ready) (hsx : buf ++ s.flat = bs ++ x) (keys : Nat → Key4) (extra : Nat) (flag : Bool)
    (user : List (Option OwnedMsg)) (gone : Bool) (hu : ∀ m, some m ∈ user → m.spec.Sendable isizeMax)
    (fw : FramedWrite) (hb : fw.buf.WF) (he : fw.buf.data = []) (w : Sink) (hw : w.Patient) :
    ∃ us zs out r w',
      chatForward f keys extra none ⟨flag, false, Framed.fromParts (MsgCodec.newWithLimits ctx maxDf maxMsg) buf, s, user, gone⟩ fw w = (r, w') ∧
      us <+: user.filterMap id ∧ Merge (ms.filterMap g) (us.map OwnedMsg.spec) zs ∧ Says (!fw.isServer) zs out ∧
      (x = [] → us = user.filterMap id ∧ r = (if gone then some .returned else none) ∧ w'.wire = w.wire ++ out) ∧
      (x ≠ [] → r = some (.failed bytesRemaining) ∧ w.wire <+: w'.wire ∧ w'.wire <+: w.wire ++ out) := by
  obtain ⟨oms, y, us, zs, out, r, w', h1, h2, h3, h4, h5, h6⟩ :=
    chat_any hg ctx maxDf maxMsg keys extra flag buf s user gone hu fw hb he w hw
  obtain ⟨ems, e1, e2⟩ := C27_truncated_stream_async ctx maxDf maxMsg frames ms held' hd hl bs x hf hx buf s hs hsx 1
  have hlen : ms.length = ems.length := by rw [← e2]; simp
  rw [hlen] at e1
  obtain ⟨rfl, rfl⟩ := drained_unique h1 (ns := ems) (y := if x = [] then .done else .err bytesRemaining)
    ⟨e1, by intro m; split <;> simp⟩
  rw [e2] at h4
  refine ⟨us, zs, out, r, w', h2, h3, h4, h5, ?_, ?_⟩
  · intro hxe
    rcases h6 with ⟨-, h6⟩ | ⟨e, h6, -⟩
    · exact h6
    · rw [if_pos hxe] at h6; cases h6
  · intro hxe
    rcases h6 with ⟨h6, -⟩ | ⟨e, h6, h7⟩
    · rw [if_neg hxe] at h6; cases h6
    · rw [if_neg hxe] at h6; cases h6; exact h7

end

end WS
