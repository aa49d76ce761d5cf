import Verif.Model.Cases
import Verif.Model.Chat
/-!
# The async chat clients

examples/async-client.rs and examples/ssl-client.rs: a thread reads lines and puts messages into a channel; one task merges them with the answers to the
peer's pings and forwards everything to the sink. The conventions are those of Model/Echo. The program is modelled from the
connected client on; connecting is Model/Builder.
-/

namespace WS

/-- The message a trimmed line stands for, and whether it is the last, examples/async-client.rs:39-43 and
examples/ssl-client.rs:31-35. -/
def asyncLine (line : Bytes) : Bool × OwnedMsg :=
  if line = ascii "/close" then (true, .close none)
  else if line = ascii "/ping" then (false, .ping (ascii "PING"))
  else (false, .text line)

/-- What at most `n` turns of the thread's loop put into the channel, and whether the loop has ended (and the sending end with
it), examples/async-client.rs:31-52 and examples/ssl-client.rs:26-44. `read_line` as in Model/Chat: after the last line it leaves the empty string. -/
def typedMessages : Nat → List Bytes → List OwnedMsg × Bool
  | 0, _ => ([], false)
  | n + 1, lines => match asyncLine (trim (lines.headD [])) with
    | (true, m) => ([m], true)
    | (false, m) => (m :: (typedMessages n lines.tail).1, (typedMessages n lines.tail).2)

/-- The `filter_map` closure, examples/async-client.rs:64-71; `println!` is left out. -/
def pingOnly : OwnedMsg → Option OwnedMsg
  | .ping d => some (.pong d)
  | _ => none

/-- The `filter_map` closure, examples/ssl-client.rs:53-60; `println!` is left out. -/
def pingOrClose : OwnedMsg → Option OwnedMsg
  | .close e => some (.close e)
  | .ping d => some (.pong d)
  | _ => none

/-- `FilterMap::poll` (futures 0.1, a trusted dependency model): the stream is polled until an item passes the
closure `f`. -/
def filterPoll (f : OwnedMsg → Option OwnedMsg) (fr : Framed MsgCodec) (s : Src) : Poll OwnedMsg × Framed MsgCodec × Src :=
  match h : fr.poll msgDecoder s with
  | (.ready (.item m), fr', s') => match f m with
    | some a => (.ready (.item a), fr', s')
    | none => filterPoll f fr' s'
  | (x, fr', s') => (x, fr', s')
termination_by fr.measure s
decreasing_by exact Framed.poll_item_lt h

/-- `Select` over the filtered stream and the channel. -/
structure Selecting where
  /-- the channel goes first at the next poll -/
  flag : Bool
  /-- `Fuse`: the stream has ended -/
  over : Bool
  read : Framed MsgCodec
  input : Src
  /-- what polls of the channel find: a message, or nothing yet -/
  user : List (Option OwnedMsg)
  /-- after `user` the sending end is gone; otherwise nothing more comes, ever -/
  gone : Bool

/-- A poll of the filtered stream, fused (futures 0.1, `Fuse::poll`). -/
def Selecting.pollStream (f : OwnedMsg → Option OwnedMsg) (c : Selecting) : Poll OwnedMsg × Selecting :=
  if c.over then (.ready .done, c)
  else match filterPoll f c.read c.input with
    | (.ready .done, fr, s) => (.ready .done, { c with over := true, read := fr, input := s })
    | (x, fr, s) => (x, { c with read := fr, input := s })

/-- A poll of the channel (futures 0.1, `mpsc::Receiver::poll`). -/
def Selecting.pollUser (c : Selecting) : Poll OwnedMsg × Selecting :=
  match c.user with
  | [] => (if c.gone then .ready .done else .notReady, c)
  | none :: us => (.notReady, { c with user := us })
  | some m :: us => (.ready (.item m), { c with user := us })

/-- The stream whose turn it is, or the other one. -/
def Selecting.pollOne (f : OwnedMsg → Option OwnedMsg) (c : Selecting) (user : Bool) : Poll OwnedMsg × Selecting :=
  if user then c.pollUser else c.pollStream f

/-- `Select::poll` (futures 0.1, src/stream/select.rs; a trusted dependency model): the two streams take turns in going first; an
error of either is returned at once; the end comes when both have ended. -/
def Selecting.poll (f : OwnedMsg → Option OwnedMsg) (c : Selecting) : Poll OwnedMsg × Selecting :=
  match ({ c with flag := !c.flag } : Selecting).pollOne f c.flag with
  | (.ready .done, c') => c'.pollOne f (!c.flag)
  | (.notReady, c') => match c'.pollOne f (!c.flag) with
    | (.ready (.item m), c'') => (.ready (.item m), { c'' with flag := !c''.flag })
    | (.ready .done, c'') => (.notReady, c'')
    | (x, c'') => (x, c'')
  | (x, c') => (x, c')

/-- What is left for polls to find. -/
def Selecting.measure (c : Selecting) : Nat := (if c.over then 0 else c.read.measure c.input) + c.user.length

/-- Nothing more comes from either side, and the channel is not closed: the task is never woken again. -/
def Selecting.quiet (c : Selecting) : Bool := c.over && c.user.isEmpty && !c.gone

theorem filterPoll_measure (f : OwnedMsg → Option OwnedMsg) (fr : Framed MsgCodec) (s : Src) :
    (filterPoll f fr s).1.moved → (filterPoll f fr s).2.1.measure (filterPoll f fr s).2.2 < fr.measure s := by
  fun_induction filterPoll f fr s with
  | case1 fr s m fr' s' h a ha => exact fun _ => Framed.poll_item_lt h
  | case2 fr s m fr' s' h ha ih => exact fun g => Nat.lt_trans (ih g) (Framed.poll_item_lt h)
  | case3 fr s x fr' s' hne h =>
    have := Framed.poll_measure msgDecoder_shrinking s fr
    rw [h] at this
    exact this

/-- A poll of the stream that moved has consumed something; the end counts as nothing left. -/
theorem Selecting.pollStream_measure (f : OwnedMsg → Option OwnedMsg) (c : Selecting) :
    ((c.pollStream f).1.moved → (c.pollStream f).2.measure < c.measure) ∧ (c.pollStream f).2.user = c.user ∧ (c.pollStream f).2.gone = c.gone ∧
    ((c.pollStream f).1 = .ready .done → (c.pollStream f).2.measure ≤ c.measure ∧ (c.pollStream f).2.over = true) := by
  unfold Selecting.pollStream
  split
  · next ho => exact ⟨fun h => h.elim, rfl, rfl, fun _ => ⟨Nat.le_refl _, ho⟩⟩
  · next ho =>
    have := filterPoll_measure f c.read c.input
    split
    · exact ⟨fun h => h.elim, rfl, rfl, fun _ => ⟨by simp only [Selecting.measure, if_true]; omega, rfl⟩⟩
    · next x fr s hne h =>
      rw [h] at this
      refine ⟨fun g => ?_, rfl, rfl, fun g => (hne g).elim⟩
      have := this g
      simp only [Selecting.measure, if_neg ho] at this ⊢
      omega

/-- A poll of the channel consumes something, or finds it closed, or silent for good. -/
theorem Selecting.pollUser_measure (c : Selecting) :
    c.pollUser.2.measure ≤ c.measure ∧ c.pollUser.2.over = c.over ∧ c.pollUser.2.gone = c.gone ∧
    (c.pollUser.1.moved → c.pollUser.2.measure < c.measure ∨ (c.pollUser.1 = .notReady ∧ c.user = [] ∧ c.gone = false ∧ c.pollUser.2 = c)) := by
  unfold Selecting.pollUser
  split <;> rename_i hu
  · refine ⟨Nat.le_refl _, rfl, rfl, ?_⟩
    cases hg : c.gone with
    | true => exact fun h => h.elim
    | false => exact fun _ => .inr ⟨rfl, hu, rfl, rfl⟩
  · simp only [Selecting.measure, hu, List.length_cons]
    exact ⟨by omega, trivial, trivial, fun _ => .inl (by omega)⟩
  · simp only [Selecting.measure, hu, List.length_cons]
    exact ⟨by omega, trivial, trivial, fun _ => .inl (by omega)⟩

/-- A poll that moved has consumed something, unless nothing will ever come. -/
theorem Selecting.poll_measure (f : OwnedMsg → Option OwnedMsg) (c : Selecting) :
    (c.poll f).1.moved → (c.poll f).2.measure < c.measure ∨ ((c.poll f).1 = .notReady ∧ (c.poll f).2.quiet = true) := by
  unfold Selecting.poll
  cases hf : c.flag with
  | true =>
    simp only [Selecting.pollOne, if_true, Bool.not_true, Bool.false_eq_true, if_false]
    have h1 := Selecting.pollUser_measure { c with flag := false }
    have e : ({ c with flag := false } : Selecting).measure = c.measure := rfl
    rw [e] at h1
    split <;> rename_i q <;> rw [q] at h1
    · next c1 =>
      have h2 := Selecting.pollStream_measure f c1
      intro g
      exact .inl (Nat.lt_of_lt_of_le (h2.1 g) h1.1)
    · next c1 =>
      have h2 := Selecting.pollStream_measure f c1
      split <;> rename_i q2 <;> rw [q2] at h2
      · intro g
        exact .inl (Nat.lt_of_lt_of_le (h2.1 trivial) h1.1)
      · intro g
        rcases h1.2.2.2 trivial with h | ⟨-, h3, h4, h5⟩
        · exact .inl (Nat.lt_of_le_of_lt (h2.2.2.2 rfl).1 h)
        · simp only at h2 h5
          subst h5
          refine .inr ⟨rfl, ?_⟩
          have h3 : c.user = [] := h3
          have h4 : c.gone = false := h4
          simp only [Selecting.quiet, (h2.2.2.2 trivial).2, h2.2.1, h2.2.2.1, h3, h4]
          rfl
      · intro g
        exact .inl (Nat.lt_of_lt_of_le (h2.1 g) h1.1)
    · intro g
      rcases h1.2.2.2 g with h | ⟨h, -⟩
      · exact .inl h
      · next hne => exact (hne h).elim
  | false =>
    simp only [Selecting.pollOne, if_true, Bool.not_false, Bool.false_eq_true, if_false]
    have h1 := Selecting.pollStream_measure f { c with flag := true }
    have e : ({ c with flag := true } : Selecting).measure = c.measure := rfl
    rw [e] at h1
    split <;> rename_i q <;> rw [q] at h1
    · next c1 =>
      have h2 := Selecting.pollUser_measure c1
      intro g
      rcases h2.2.2.2 g with h | ⟨h3, h4, h5, h6⟩
      · exact .inl (Nat.lt_of_lt_of_le h (h1.2.2.2 rfl).1)
      · refine .inr ⟨h3, ?_⟩
        have h7 : c1.over = true := (h1.2.2.2 rfl).2
        rw [h6]
        simp only [Selecting.quiet, h7, h4, h5]
        rfl
    · next c1 =>
      have h2 := Selecting.pollUser_measure c1
      have h1 := h1.1 trivial
      split <;> rename_i q2 <;> rw [q2] at h2
      · intro _
        exact .inl (Nat.lt_of_le_of_lt h2.1 h1)
      · intro _
        exact .inl (Nat.lt_of_le_of_lt h2.1 h1)
      · intro _
        exact .inl (Nat.lt_of_le_of_lt h2.1 h1)
    · intro g
      exact .inl (h1.1 g)

/-- `.forward(sink)`, examples/async-client.rs:75 and examples/ssl-client.rs:62, driven to its end; `Forward` as in `forwardLoop` (Model/Echo). The caller's
`unwrap()` turns a failure into a panic of `main`. `none`: it waits forever, with everything flushed. -/
def chatForward (f : OwnedMsg → Option OwnedMsg) (keys : Nat → Key4) (extra : Nat) (buffered : Option OwnedMsg) (c : Selecting) (fw : FramedWrite) (w : Sink) :
    Option Ending × Sink :=
  match buffered with
  | some m => match h : fw.startSend m.view (keys 0) extra w with
    | (.ready, fw', w') => chatForward f (fun n => keys (n + 1)) extra none c fw' w'
    | (.notReady, fw', w') => chatForward f keys extra (some m) c fw' w'
    | (.err e, _, w') => (some (.failed e), w')
    | (.panic _, _, w') => (some .panicked, w')
  | none => match h : c.poll f with
    | (.notReady, c') =>
      if c'.quiet then match fw.drain w with
        | (.ready, _, w') => (none, w')
        | (.err e, _, w') => (some (.failed e), w')
        | (_, _, w') => (some .panicked, w')
      else match h' : fw.pollComplete w with
      | (.err e, _, w') => (some (.failed e), w')
      | (.panic _, _, w') => (some .panicked, w')
      | (_, fw', w') => chatForward f keys extra none c' fw' w'
    | (.ready (.item m), c') => chatForward f keys extra (some m) c' fw w
    | (.ready .done, _) => match fw.drain w with
      | (.ready, _, w') => (some .returned, w')
      | (.err e, _, w') => (some (.failed e), w')
      | (_, _, w') => (some .panicked, w')
    | (.ready (.err e), _) => (some (.failed e), w)
    | (.ready (.panic _), _) => (some .panicked, w)
termination_by 2 * c.measure + (if buffered.isSome then 1 else 0) + w.script.length
decreasing_by
  · have := startSend_script_le h
    simp; omega
  · have := startSend_script h
    omega
  · have := Selecting.poll_measure f c
    rw [h] at this
    have : c'.measure < c.measure := (this trivial).resolve_right fun g => absurd g.2 (by assumption)
    have := (pollComplete_script fw w).1
    rw [h'] at this
    simp at this ⊢; omega
  · have := Selecting.poll_measure f c
    rw [h] at this
    have : c'.measure < c.measure := (this trivial).resolve_right fun g => by cases g.1
    simp; omega

/-- The task after connecting, examples/async-client.rs:59-76: nothing polled yet. -/
def asyncChat (keys : Nat → Key4) (extra : Nat) (c : AsyncClient) (user : List (Option OwnedMsg))
    (gone : Bool) : Option Ending × Sink :=
  chatForward pingOnly keys extra none ⟨false, false, c.read, c.stream.input, user, gone⟩ c.write c.stream.output

/-- The same for examples/ssl-client.rs:50-63; the TLS stream is a transport like any other. -/
def sslChat (keys : Nat → Key4) (extra : Nat) (c : AsyncClient) (user : List (Option OwnedMsg)) (gone : Bool) : Option Ending × Sink :=
  chatForward pingOrClose keys extra none ⟨false, false, c.read, c.stream.input, user, gone⟩ c.write c.stream.output

end WS
