import Verif.Props.Echo
import Verif.Lemmas.AsyncChat
/-!
# C64: the async chat client

examples/async-client.rs, for every input, every user and every order in which the two are found ready.
-/

namespace WS
open Spec

/-- Whatever arrives and whatever the user says: what is written are the pongs for the pings heard and the user's messages, each
in its order. If the stream ends, it is all of them, and the program returns if the channel is closed and waits forever
otherwise; if the stream fails, the program fails with the same error, and what was written is the beginning of this. There is
no panic on the way. -/
theorem C64_any_input (ctx : Context) (maxDf maxMsg : Nat) (keys : Nat → Key4) (extra : Nat) (flag : Bool) (buf : Bytes) (s : Src)
    (user : List (Option OwnedMsg)) (gone : Bool) (hu : ∀ m, some m ∈ user → m.spec.Sendable isizeMax)
    (fw : FramedWrite) (hb : fw.buf.WF) (he : fw.buf.data = []) (w : Sink) (hw : w.Patient) :
    ∃ ms x us zs bs r w', Drained (Framed.fromParts (MsgCodec.newWithLimits ctx maxDf maxMsg) buf) s ms x ∧
      chatForward pingOnly keys extra none ⟨flag, false, Framed.fromParts (MsgCodec.newWithLimits ctx maxDf maxMsg) buf, s, user, gone⟩ fw w = (r, w') ∧
      us <+: user.filterMap id ∧ Merge ((ms.map OwnedMsg.spec).filterMap Message.pongFor) (us.map OwnedMsg.spec) zs ∧
      Says (!fw.isServer) zs bs ∧
      ((x = .done ∧ us = user.filterMap id ∧ r = (if gone then some .returned else none) ∧ w'.wire = w.wire ++ bs) ∨
       (∃ e, x = .err e ∧ r = some (.failed e) ∧ w.wire <+: w'.wire ∧ w'.wire <+: w.wire ++ bs)) :=
  chat_any pingOnly_answering ctx maxDf maxMsg keys extra flag buf s user gone hu fw hb he w hw

/-- A peer that sends frames which deliver `ms` and then ends its stream between frames gets a pong for every ping, also for those
after a Close, and everything the user says; if the stream ends inside a frame the program fails, having written a part of this. -/
theorem C64_traffic (ctx : Context) (maxDf maxMsg : Nat) (frames : List Frame) (ms : List Message) (held' : List Frame)
    (hd : Delivers (FitsAsync (min maxMsg u32Max)) [] frames ms held') (hl : ∀ f ∈ frames, f.payload.length ≤ min maxDf u32Max)
    (bs x : Bytes) (hf : Wire (decide (ctx = .server)) frames bs) (hx : Truncated (decide (ctx = .server)) (min maxDf u32Max) x)
    (buf : Bytes) (s : Src) (hs : s.Ready) (hsx : buf ++ s.flat = bs ++ x) (keys : Nat → Key4) (extra : Nat) (flag : Bool)
    (user : List (Option OwnedMsg)) (gone : Bool) (hu : ∀ m, some m ∈ user → m.spec.Sendable isizeMax)
    (fw : FramedWrite) (hb : fw.buf.WF) (he : fw.buf.data = []) (w : Sink) (hw : w.Patient) :
    ∃ us zs out r w',
      chatForward pingOnly keys extra none ⟨flag, false, Framed.fromParts (MsgCodec.newWithLimits ctx maxDf maxMsg) buf, s, user, gone⟩ fw w = (r, w') ∧
      us <+: user.filterMap id ∧ Merge (ms.filterMap Message.pongFor) (us.map OwnedMsg.spec) zs ∧ Says (!fw.isServer) zs out ∧
      (x = [] → us = user.filterMap id ∧ r = (if gone then some .returned else none) ∧ w'.wire = w.wire ++ out) ∧
      (x ≠ [] → r = some (.failed bytesRemaining) ∧ w.wire <+: w'.wire ∧ w'.wire <+: w.wire ++ out) :=
  chat_traffic pingOnly_answering ctx maxDf maxMsg frames ms held' hd hl bs x hf hx buf s hs hsx keys extra flag user gone hu fw hb he w hw

/-! ## The user -/

/-- What `n` calls of `read_line` leave: the lines, then nothing. -/
def reads (n : Nat) (lines : List Bytes) : List Bytes := (lines ++ List.replicate n []).take n

theorem reads_succ (n : Nat) (lines : List Bytes) : reads (n + 1) lines = lines.headD [] :: reads n lines.tail := by
  cases lines with
  | nil => simp [reads, List.replicate_succ]
  | cons l ls =>
    simp only [reads, List.cons_append, List.take_succ_cons, List.headD_cons, List.tail_cons, List.cons.injEq, true_and]
    rw [List.replicate_succ', ← List.append_assoc, List.take_append_of_le_length]
    simp

theorem asyncLine_spec (l : Bytes) : (asyncLine l).2.spec = lineSays l ∧ ((asyncLine l).1 = true ↔ l = ascii "/close") := by
  unfold asyncLine lineSays
  split
  · next h => exact ⟨rfl, by simp [h]⟩
  · next h => split <;> exact ⟨rfl, by simp [h]⟩

/-- What comes through the channel: each line read stands for its message, up to and including the first `/close`, after which
the sending end is gone. -/
theorem C64_typed (n : Nat) (lines : List Bytes) :
    ((typedMessages n lines).2 = false → (∀ l ∈ reads n lines, trim l ≠ ascii "/close") ∧
      (typedMessages n lines).1.map OwnedMsg.spec = (reads n lines).map (lineSays ∘ trim)) ∧
    ((typedMessages n lines).2 = true → ∃ pre l post, reads n lines = pre ++ l :: post ∧ (∀ p ∈ pre, trim p ≠ ascii "/close") ∧
      trim l = ascii "/close" ∧ (typedMessages n lines).1.map OwnedMsg.spec = pre.map (lineSays ∘ trim) ++ [.close]) := by
  induction n generalizing lines with
  | zero => exact ⟨fun _ => ⟨by simp [reads], by simp [reads, typedMessages]⟩, fun h => by cases h⟩
  | succ n ih =>
    obtain ⟨a1, a2⟩ := asyncLine_spec (trim (lines.headD []))
    rw [reads_succ]
    unfold typedMessages
    split <;> rename_i m h <;> rw [h] at a1 a2 <;> simp only at a1 a2
    · have hc := a2.mp trivial
      refine ⟨(by intro h; cases h), fun _ => ⟨[], _, _, rfl, by simp, hc, ?_⟩⟩
      simp only [List.map_cons, List.map_nil, List.nil_append, a1, hc]
      rfl
    · have hc : trim (lines.headD []) ≠ ascii "/close" := fun e => Bool.noConfusion (a2.mpr e)
      obtain ⟨i1, i2⟩ := ih lines.tail
      refine ⟨fun h => ?_, fun h => ?_⟩
      · obtain ⟨j1, j2⟩ := i1 h
        refine ⟨fun l hl => ?_, by simp only [List.map_cons, a1, j2]; rfl⟩
        rcases List.mem_cons.mp hl with rfl | hl
        · exact hc
        · exact j1 l hl
      · obtain ⟨pre, l, post, j1, j2, j3, j4⟩ := i2 h
        refine ⟨_ :: pre, l, post, by rw [j1]; rfl, fun p hp => ?_, j3, by simp only [List.map_cons, a1, j4]; rfl⟩
        rcases List.mem_cons.mp hp with rfl | hp
        · exact hc
        · exact j2 p hp

/-- Lines that can be sent are sent: the hypothesis of the other theorems. -/
theorem C64_typed_sendable (n : Nat) (lines : List Bytes) (hl : ∀ l ∈ lines, (Message.text l).Sendable isizeMax) :
    ∀ m ∈ (typedMessages n lines).1, m.spec.Sendable isizeMax := by
  induction n generalizing lines with
  | zero => intro m hm; cases hm
  | succ n ih =>
    have h0 : (Message.text (lines.headD [])).Sendable isizeMax := by
      cases lines with
      | nil => exact sendable_nothing
      | cons l ls => exact hl l List.mem_cons_self
    have h1 : (asyncLine (trim (lines.headD []))).2.spec.Sendable isizeMax := by
      unfold asyncLine
      split
      · exact sendable_close _
      · split
        · exact ⟨by decide, by decide⟩
        · exact sendable_trim h0
    unfold typedMessages
    split <;> rename_i m h <;> rw [h] at h1
    · intro m' hm
      cases List.mem_singleton.mp hm
      exact h1
    · intro m' hm
      rcases List.mem_cons.mp hm with rfl | hm
      · exact h1
      · exact ih lines.tail (fun l hl' => hl l (List.mem_of_mem_tail hl')) m' hm

/-- Nothing but pongs is sent after the user's Close (RFC 6455 section 5.5.1: no data after a Close). -/
theorem C64_no_data_after_close (n : Nat) (lines : List Bytes) (ms us zs : List Message)
    (hu : us <+: (typedMessages n lines).1.map OwnedMsg.spec) (hm : Merge (ms.filterMap Message.pongFor) us zs) (a b : List Message)
    (hz : zs = a ++ .close :: b) : ∀ m ∈ b, ∃ d, m = .pong d := by
  have hp : ∀ m ∈ ms.filterMap Message.pongFor, ∃ d, m = .pong d := by
    intro m h
    obtain ⟨q, -, h⟩ := List.mem_filterMap.mp h
    cases q <;> cases h
    exact ⟨_, rfl⟩
  have hlast : ∀ p q, us = p ++ .close :: q → q = [] := by
    intro p q e
    have hns : ∀ l, trim l ≠ ascii "/close" → lineSays (trim l) ≠ .close := by
      intro l h
      unfold lineSays
      rw [if_neg h]
      split <;> simp
    obtain ⟨t, ht⟩ := hu
    obtain ⟨k1, k2⟩ := C64_typed n lines
    cases hg : (typedMessages n lines).2 with
    | false =>
      obtain ⟨k3, k4⟩ := k1 hg
      rw [k4, e] at ht
      have : Message.close ∈ (reads n lines).map (lineSays ∘ trim) := by rw [← ht]; simp
      obtain ⟨l, hl, h⟩ := List.mem_map.mp this
      exact absurd h (hns l (k3 l hl))
    | true =>
      obtain ⟨pre, l, post, -, k3, -, k4⟩ := k2 hg
      rw [k4, e] at ht
      have hn : Message.close ∉ pre.map (lineSays ∘ trim) := by
        intro h
        obtain ⟨l, hl, h⟩ := List.mem_map.mp h
        exact absurd h (hns l (k3 l hl))
      generalize pre.map (lineSays ∘ trim) = pr at ht hn
      clear e k4
      induction p generalizing pr with
      | nil =>
        cases pr with
        | nil =>
          simp only [List.nil_append, List.cons_append, List.cons.injEq, true_and, List.append_eq_nil_iff] at ht
          exact ht.1
        | cons c pr =>
          simp only [List.nil_append, List.cons_append, List.cons.injEq] at ht
          rw [← ht.1] at hn
          exact absurd List.mem_cons_self hn
      | cons c p ih =>
        cases pr with
        | nil => simp at ht
        | cons d pr =>
          simp only [List.cons_append, List.cons.injEq] at ht
          exact ih pr ht.2 fun h => hn (List.mem_cons_of_mem _ h)
  generalize ms.filterMap Message.pongFor = ps at hm hp
  clear hu
  induction hm generalizing a with
  | nil => simp at hz
  | left hm' ih =>
    cases a with
    | nil =>
      simp only [List.nil_append, List.cons.injEq] at hz
      obtain ⟨d, hd⟩ := hp _ List.mem_cons_self
      rw [hz.1] at hd
      cases hd
    | cons c a =>
      simp only [List.cons_append, List.cons.injEq] at hz
      exact ih a hz.2 hlast fun m h => hp m (List.mem_cons_of_mem _ h)
  | @right c x y z hm' ih =>
    cases a with
    | nil =>
      simp only [List.nil_append, List.cons.injEq] at hz
      have : y = [] := hlast [] y (by rw [hz.1]; rfl)
      subst this
      rw [← hz.2]
      have hzx : ∀ {x z : List Message}, Merge x [] z → z = x := by
        intro x z h
        generalize hy : ([] : List Message) = y at h
        induction h with
        | nil => rfl
        | left _ ih => rw [ih hy]
        | right _ _ => cases hy
      rw [hzx hm']
      exact hp
    | cons d a =>
      simp only [List.cons_append, List.cons.injEq] at hz
      exact ih a hz.2 (fun p q e => hlast (c :: p) q (by rw [e]; rfl)) hp

/-- Whatever the peer sends, a Close included: as long as the user does not say Close the program does not. -/
theorem C64_close_only_from_user (ms us zs : List Message) (hm : Merge (ms.filterMap Message.pongFor) us zs)
    (hu : ∀ m ∈ us, m.isClose = false) : ∀ m ∈ zs, m.isClose = false := by
  have hp : ∀ m ∈ ms.filterMap Message.pongFor, m.isClose = false := by
    intro m h
    obtain ⟨q, -, h⟩ := List.mem_filterMap.mp h
    cases q <;> cases h
    rfl
  generalize ms.filterMap Message.pongFor = ps at hm hp
  induction hm with
  | nil => intro m h; cases h
  | left _ ih =>
    intro m h
    rcases List.mem_cons.mp h with rfl | h
    · exact hp _ List.mem_cons_self
    · exact ih hu (fun m h => hp m (List.mem_cons_of_mem _ h)) m h
  | right _ ih =>
    intro m h
    rcases List.mem_cons.mp h with rfl | h
    · exact hu _ List.mem_cons_self
    · exact ih (fun m h => hu m (List.mem_cons_of_mem _ h)) hp m h

/-- A peer that says Close and ends its stream gets no answer, and the program waits forever. The comment in the code ("Respond to
close or ping commands from the server") is wrong about Close; RFC 6455 section 5.5.1 asks for an answer. -/
theorem C64_refuted_close_unanswered : ∃ s : Src, s.Ready ∧
    (let fr := Framed.fromParts (MsgCodec.newWithLimits .client 125 1000) []
     (fr.nextMany msgDecoder 2 s).1 = [.item (.close none), .done] ∧
     ∀ (keys : Nat → Key4) (extra : Nat) (w : Sink), w.Patient →
       ∃ w', chatForward pingOnly keys extra none ⟨false, false, fr, s, [], false⟩ (FramedWrite.new false) w = (none, w') ∧ w'.wire = w.wire) := by
  refine ⟨[.chunk [0x88, 0]], ⟨by simp, trivial⟩, by decide +kernel, fun keys extra w hw => ?_⟩
  obtain ⟨ms, x, us, zs, bs, r, w', h1, h2, h3, h4, h5, h6⟩ := C64_any_input .client 125 1000 keys extra false [] [.chunk [0x88, 0]] [] false
    (by simp) (FramedWrite.new false) (by show (0:Nat) ≤ 8192; decide) rfl w hw
  obtain ⟨rfl, rfl⟩ := drained_unique h1 (ns := [.close none]) (y := .done) ⟨by decide +kernel, by simp⟩
  have hus : us = [] := by simpa using h3
  subst hus
  cases h4
  obtain ⟨fs, f1, f2, -⟩ := h5
  cases fs with
  | cons f fs => simp at f2
  | nil =>
    cases f1
    rcases h6 with ⟨-, -, rfl, h6⟩ | ⟨e, h, -⟩
    · exact ⟨w', h2, by simpa using h6⟩
    · cases h

/-! ## Nobody waits for ever -/

/-- A message the user has ready is taken by this poll or the next, however much the peer sends, unless the stream fails. -/
theorem C64_user_not_starved (f : OwnedMsg → Option OwnedMsg) (c : Selecting) (m : OwnedMsg) (us : List (Option OwnedMsg)) (h : c.user = some m :: us) :
    ((c.poll f).1 = .ready (.item m) ∧ (c.poll f).2.user = us) ∨
    (∃ a, (c.poll f).1 = .ready (.item a) ∧ ((c.poll f).2.poll f).1 = .ready (.item m) ∧ ((c.poll f).2.poll f).2.user = us) ∨
    (∃ e, (c.poll f).1 = .ready (.err e)) ∨ ∃ p, (c.poll f).1 = .ready (.panic p) := by
  have first : ∀ c : Selecting, c.flag = true → c.user = some m :: us → (c.poll f).1 = .ready (.item m) ∧ (c.poll f).2.user = us := by
    intro c hf h
    simp only [Selecting.poll, Selecting.pollOne, hf, if_true, Selecting.pollUser, h]
    exact ⟨trivial, trivial⟩
  cases hf : c.flag with
  | true => exact .inl (first c hf h)
  | false =>
    have hk := (Selecting.pollStream_measure f { c with flag := true }).2.1
    have hfl : (({ c with flag := true } : Selecting).pollStream f).2.flag = true := by
      unfold Selecting.pollStream
      split
      · rfl
      · split <;> rfl
    cases hp : ({ c with flag := true } : Selecting).pollStream f with
    | mk x c1 =>
      rw [hp] at hk hfl
      have hu : c1.user = some m :: us := Eq.trans hk h
      have e : c.poll f = match (x, c1) with
          | (.ready .done, c') => c'.pollOne f true
          | (.notReady, c') => match c'.pollOne f true with
            | (.ready (.item m), c'') => (.ready (.item m), { c'' with flag := !c''.flag })
            | (.ready .done, c'') => (.notReady, c'')
            | (x, c'') => (x, c'')
          | (x, c') => (x, c') := by
        rw [← hp]
        simp only [Selecting.poll, hf, Bool.not_false, Selecting.pollOne, Bool.false_eq_true, if_false]
        rfl
      rw [e]
      cases x with
      | notReady =>
        simp only [Selecting.pollOne, if_true, Selecting.pollUser, hu]
        exact .inl ⟨trivial, trivial⟩
      | ready y =>
        cases y with
        | done =>
          simp only [Selecting.pollOne, if_true, Selecting.pollUser, hu]
          exact .inl ⟨trivial, trivial⟩
        | item a => exact .inr (.inl ⟨a, rfl, first c1 hfl hu⟩)
        | err e' => exact .inr (.inr (.inl ⟨e', rfl⟩))
        | panic p => exact .inr (.inr (.inr ⟨p, rfl⟩))

/-- A pong that is due is taken by this poll or the next, however much the user says. -/
theorem C64_pong_not_starved (f : OwnedMsg → Option OwnedMsg) (c : Selecting) (a : OwnedMsg) (ho : c.over = false)
    (h : (filterPoll f c.read c.input).1 = .ready (.item a)) :
    (c.poll f).1 = .ready (.item a) ∨ (∃ m, (c.poll f).1 = .ready (.item m) ∧ ((c.poll f).2.poll f).1 = .ready (.item a)) := by
  have one : ∀ c : Selecting, c.over = false → (filterPoll f c.read c.input).1 = .ready (.item a) → (c.pollStream f).1 = .ready (.item a) := by
    intro c ho h
    unfold Selecting.pollStream
    cases hp : filterPoll f c.read c.input with
    | mk x q =>
      rw [hp] at h
      simp only at h
      subst h
      simp [ho]
  have first : ∀ c : Selecting, c.flag = false → c.over = false → (filterPoll f c.read c.input).1 = .ready (.item a) →
      (c.poll f).1 = .ready (.item a) := by
    intro c hf ho h
    have := one { c with flag := true } ho h
    cases hp : ({ c with flag := true } : Selecting).pollStream f with
    | mk x c1 =>
      rw [hp] at this
      simp only at this
      subst this
      simp only [Selecting.poll, Selecting.pollOne, hf, Bool.not_false, Bool.false_eq_true, if_false, hp]
  cases hf : c.flag with
  | false => exact .inl (first c hf ho h)
  | true =>
    have h2 := one { c with flag := false } ho h
    cases hu : c.user with
    | nil =>
      left
      cases hp : ({ c with flag := false } : Selecting).pollStream f with
      | mk x c1 =>
        rw [hp] at h2
        simp only at h2
        subst h2
        cases hg : c.gone <;>
        simp only [Selecting.poll, Selecting.pollOne, hf, Bool.not_true, Bool.false_eq_true, if_false, if_true, Selecting.pollUser, hu, hg]
        · rw [hu, hg] at hp
          simp only [hp]
        · rw [hu, hg] at hp
          simp only [hp]
    | cons o us =>
      cases o with
      | none =>
        left
        have h3 := one { c with flag := false, user := us } ho h
        cases hp : ({ c with flag := false, user := us } : Selecting).pollStream f with
        | mk x c1 =>
          rw [hp] at h3
          simp only at h3
          subst h3
          simp only [Selecting.poll, Selecting.pollOne, hf, Bool.not_true, Bool.false_eq_true, if_false, if_true, Selecting.pollUser, hu, hp]
      | some m =>
        right
        have e : c.poll f = (.ready (.item m), { c with flag := false, user := us }) := by
          simp only [Selecting.poll, Selecting.pollOne, hf, Bool.not_true, if_true, Selecting.pollUser, hu]
        rw [e]
        exact ⟨m, rfl, first { c with flag := false, user := us } rfl ho h⟩

/-! ## Samples -/

/-- A user who says hello, pings, and leaves. -/
example : typedMessages 5 [ascii " hello\n", ascii "/ping\n", ascii "/close\n", ascii "too late\n"] =
    ([.text (ascii "hello"), .ping (ascii "PING"), .close none], true) := by decide +kernel

/-- After the last line the thread goes on. -/
example : typedMessages 3 [ascii "hi\n"] = ([.text (ascii "hi"), .text [], .text []], false) := by decide +kernel

/-- A whole run: the peer says nothing and leaves, the user says hi and closes. -/
example (keys : Nat → Key4) (extra : Nat) : ∃ w' bs,
    chatForward pingOnly keys extra none ⟨false, false, Framed.fromParts (MsgCodec.newWithLimits .client 125 1000) [], [],
      [none, some (.text (ascii "hi")), none, some (.close none)], true⟩ (FramedWrite.new false) ⟨[], [.accept 3, .error .wouldBlock]⟩ =
        (some .returned, w') ∧ w'.wire = bs ∧ Says true [.text (ascii "hi"), .close] bs := by
  obtain ⟨ms, x, us, zs, bs, r, w', h1, h2, h3, h4, h5, h6⟩ := C64_any_input .client 125 1000 keys extra false [] []
    [none, some (.text (ascii "hi")), none, some (.close none)] true
    (by
      intro m hm
      simp only [List.mem_cons, Option.some.injEq, reduceCtorEq, false_or, List.not_mem_nil, or_false] at hm
      rcases hm with rfl | rfl
      · exact ⟨isUtf8_ascii (by decide), by decide⟩
      · exact sendable_close _)
    (FramedWrite.new false) (by show (0:Nat) ≤ 8192; decide) rfl ⟨[], [.accept 3, .error .wouldBlock]⟩
    (by intro e he
        simp only [List.mem_cons, List.not_mem_nil, or_false] at he
        rcases he with rfl | rfl
        · exact .inr ⟨3, by decide, rfl⟩
        · exact .inl rfl)
  obtain ⟨rfl, rfl⟩ := drained_unique h1 (ns := []) (y := .done) ⟨by decide +kernel, by simp⟩
  rcases h6 with ⟨-, rfl, rfl, h6⟩ | ⟨e, h, -⟩
  · cases h4 with
    | right h4 => cases h4 with
      | right h4 =>
        cases h4
        exact ⟨w', bs, h2, by simpa using h6, h5⟩
  · cases h

/-- A pong after a Close, in a merge. -/
example : Merge ([.ping [7]].filterMap Message.pongFor) [.text [], .close] [.text [], .close, .pong [7]] :=
  .right (.right (.left .nil))

/-- A poll that finds the user's message and a ping: the stream goes first, then the user. -/
example : let c : Selecting := ⟨false, false, Framed.fromParts (MsgCodec.newWithLimits .client 125 1000) [],
      [.chunk [0x89, 1, 7, 0x89, 1, 8]], [some (.text [])], true⟩
    (c.poll pingOnly).1 = .ready (.item (.pong [7])) ∧ ((c.poll pingOnly).2.poll pingOnly).1 = .ready (.item (.text [])) ∧
      (((c.poll pingOnly).2.poll pingOnly).2.poll pingOnly).1 = .ready (.item (.pong [8])) ∧ ((((c.poll pingOnly).2.poll pingOnly).2.poll pingOnly).2.poll pingOnly).1 = .ready .done := by decide +kernel

/-! Concrete cases of the theorems above. -/

theorem sampleUser_sendable : ∀ m, some m ∈ [none, some (OwnedMsg.text (ascii "hi")), none, some (.close none)] → m.spec.Sendable isizeMax := by
  intro m hm
  simp only [List.mem_cons, Option.some.injEq, reduceCtorEq, false_or, List.not_mem_nil, or_false] at hm
  rcases hm with rfl | rfl
  · exact ⟨isUtf8_ascii (by decide), by decide⟩
  · exact sendable_close _
example := fun keys extra => C64_traffic .client 125 1000 _ _ _ (exDelivers _ (by decide)).2 (by decide) _ [0x82] exWire
  (exByte_truncated _) [0x01, 1] [.chunk [72, 0x89], .error .wouldBlock, .chunk [1, 7, 0x80, 1, 105, 0x82]] (by simp [Src.Ready]) rfl keys extra false
  [none, some (.text (ascii "hi")), none, some (.close none)] true sampleUser_sendable (FramedWrite.new false)
  (Nat.zero_le _) rfl ⟨[], [.accept 1, .error .wouldBlock]⟩ (Sink.patient_of rfl)
example := C64_typed_sendable 5 [ascii " hello\n", ascii "/close\n"] (by
  intro l hl
  simp only [List.mem_cons, List.not_mem_nil, or_false] at hl
  rcases hl with rfl | rfl <;> exact ⟨(utf8Valid_iff _).mp (by decide +kernel), by decide⟩)
example := C64_no_data_after_close 5 [ascii " hello\n", ascii "/close\n", ascii "late\n"] [.ping [7]] [.text (ascii "hello"), .close] [.text (ascii "hello"), .close, .pong [7]]
  ⟨[], by
    rw [show (typedMessages 5 [ascii " hello\n", ascii "/close\n", ascii "late\n"]).1 = [.text (ascii "hello"), .close none] by decide +kernel]; rfl⟩
  (.right (.right (.left .nil))) [.text (ascii "hello")] [.pong [7]] rfl
example := C64_close_only_from_user [.ping [7], .close] [.text []] [.text [], .pong [7]] (.right (.left .nil)) (by decide +kernel)
example := C64_user_not_starved pingOnly ⟨false, false, Framed.fromParts (MsgCodec.newWithLimits .client 125 1000) [],
  [.chunk [0x89, 1, 7, 0x89, 1, 8]], [some (.text [])], true⟩ (.text []) [] rfl

end WS
