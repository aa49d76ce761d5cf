import Verif.Model.Server
import Verif.Model.Builder
/-!
# Whole programs: connect or accept, then talk

A program as a user of the library writes it: it opens a connection (src/client/builder.rs:502-519 and
767-812; src/server/upgrade/sync.rs:185-206 and 84-97; src/server/upgrade/async.rs:235-265 and 105-131)
and then makes calls on the resulting client, in an order fixed beforehand. All functions called are
those of the other modules; nothing of the library is modelled here except `futures::sink::Send`.
-/

namespace WS

/-- What a program does next on its connection. -/
inductive Talk
  /-- `send_message` (src/client/sync.rs:162-167), or `sink.send(m)` awaited; `key` is what `gen_mask`
  returns, `extra` the allocator's generosity -/
  | say (m : OwnedMsg) (key : Key4) (extra : Nat)
  /-- `recv_message` (src/client/sync.rs:192-194), or the next item of the stream awaited -/
  | hear

/-- What a receiving call told the program. -/
inductive Heard
  | message (m : OwnedMsg)
  /-- `NoDataAvailable`, or the end of the stream -/
  | ended
  | failed
  deriving DecidableEq, Repr

def Heard.ofRes : Res OwnedMsg → Heard
  | .ok m => .message m
  | .err .noData => .ended
  | _ => .failed

def Heard.ofItem : Item OwnedMsg → Heard
  | .item m => .message m
  | .done => .ended
  | _ => .failed

/-- What became of a program. -/
structure Outcome where
  connected : Bool
  /-- everything written to the transport -/
  wire : Bytes
  heard : List Heard
  /-- whether the sends succeeded -/
  sent : List Bool

/-- A blocking program on its client. -/
def Client.talk : List Talk → Client → List Heard × List Bool × Client
  | [], c => ([], [], c)
  | .say m key _ :: ts, c =>
    match c.send m.view key with
    | (r, c') => match Client.talk ts c' with
      | (hs, ss, c'') => (hs, decide (r = .ok ()) :: ss, c'')
  | .hear :: ts, c =>
    match c.recvMessage with
    | (r, c') => match Client.talk ts c' with
      | (hs, ss, c'') => (.ofRes r :: hs, ss, c'')

theorem pollComplete_script (fw : FramedWrite) (w : Sink) :
    (fw.pollComplete w).2.2.script.length ≤ w.script.length ∧
      ((fw.pollComplete w).1 = .notReady → (fw.pollComplete w).2.2.script.length < w.script.length) := by
  fun_induction FramedWrite.pollComplete fw w with
  | case1 => simp
  | case2 => simp
  | case3 => simp
  | case4 => simp
  | case5 => simp
  | case6 fw _ wire n s h0 ih =>
    simp only [List.length_cons] at ih ⊢
    exact ⟨by omega, fun h => by have := ih.2 h; omega⟩

theorem pollComplete_empty (fw : FramedWrite) (w : Sink) :
    (fw.pollComplete w).1 = .ready → (fw.pollComplete w).2.1.buf.data = [] := by
  fun_induction FramedWrite.pollComplete fw w with
  | case1 fw w h => exact fun _ => h
  | case2 => exact fun _ => by simp [BytesMut.advance]
  | case3 => simp
  | case4 => simp
  | case5 => simp
  | case6 fw _ wire n s h0 ih => exact ih

theorem startSend_script {fw fw' : FramedWrite} {v : FrameView} {key : Key4} {extra : Nat} {w w' : Sink}
    (h : fw.startSend v key extra w = (.notReady, fw', w')) : w'.script.length < w.script.length := by
  have hp := pollComplete_script fw w
  have hr := pollComplete_empty fw w
  unfold FramedWrite.startSend at h
  simp only at h
  split at h
  · split at h
    · cases h
    · cases h
    · next r fw'' w'' h1 h2 hx =>
      split at h
      · next hl =>
        simp only [Prod.mk.injEq, true_and] at h
        obtain ⟨rfl, rfl⟩ := h
        rw [hx] at hp hr
        cases r with
        | ready => simp only at hr hl; rw [hr trivial] at hl; simp at hl
        | notReady => exact hp.2 rfl
        | err e => exact absurd rfl (h1 e)
        | panic e => exact absurd rfl (h2 e)
      · split at h <;> cases h
  · split at h <;> cases h

theorem startSend_script_le {fw fw' : FramedWrite} {v : FrameView} {key : Key4} {extra : Nat} {w w' : Sink} {r : SendRes}
    (h : fw.startSend v key extra w = (r, fw', w')) : w'.script.length ≤ w.script.length := by
  have hp := (pollComplete_script fw w).1
  unfold FramedWrite.startSend at h
  simp only at h
  split at h
  · split at h
    · next hx => cases h; rw [hx] at hp; exact hp
    · next hx => cases h; rw [hx] at hp; exact hp
    · next hx =>
      rw [hx] at hp
      split at h
      · cases h; exact hp
      · split at h <;> (cases h; exact hp)
  · split at h <;> (cases h; exact Nat.le_refl _)

/-- `sink.send(m)` awaited (`futures::sink::Send`, a trusted dependency model): `start_send` until it
takes the item, then `poll_complete` until the queue is empty. -/
def FramedWrite.sendAwait (fw : FramedWrite) (v : FrameView) (key : Key4) (extra : Nat) (w : Sink) :
    SendRes × FramedWrite × Sink :=
  match h : fw.startSend v key extra w with
  | (.notReady, fw', w') => FramedWrite.sendAwait fw' v key extra w'
  | (.ready, fw', w') => fw'.drain w'
  | (r, fw', w') => (r, fw', w')
termination_by w.script.length
decreasing_by exact startSend_script h

/-- An async program on its client, each call awaited before the next. -/
def AsyncClient.talk : List Talk → AsyncClient → List Heard × List Bool × AsyncClient
  | [], c => ([], [], c)
  | .say m key extra :: ts, c =>
    match c.write.sendAwait m.view key extra c.stream.output with
    | (r, fw, w) => match AsyncClient.talk ts { c with write := fw, stream := { c.stream with output := w } } with
      | (hs, ss, c') => (hs, decide (r = .ready) :: ss, c')
  | .hear :: ts, c =>
    match c.read.next msgDecoder c.stream.input with
    | (x, fr, s) => match AsyncClient.talk ts { c with read := fr, stream := { c.stream with input := s } } with
      | (hs, ss, c') => (.ofItem x :: hs, ss, c')

/-- A blocking client program: `connect_on`, then talk. -/
def clientProgram [B64] (p : ResParser) (fresh : WsKey) (b : Builder) (ts : List Talk) (d : Duplex) : Outcome :=
  match (b.connectOn p fresh d).1 with
  | .client c => match c.talk ts with
    | (hs, ss, c') => ⟨true, c'.stream.inner.output.wire, hs, ss⟩
  | .err (some d') _ => ⟨false, d'.output.wire, [], []⟩
  | _ => ⟨false, d.output.wire, [], []⟩

/-- An async client program: `async_connect_on`, then talk. -/
def asyncClientProgram [B64] (p : ResParser) (fresh : WsKey) (extra : Nat) (b : Builder) (ts : List Talk) (d : Duplex) : Outcome :=
  match b.asyncConnectOn p fresh extra d with
  | .client c => match c.talk ts with
    | (hs, ss, c') => ⟨true, c'.stream.output.wire, hs, ss⟩
  | .err (some d') _ => ⟨false, d'.output.wire, [], []⟩
  | _ => ⟨false, d.output.wire, [], []⟩

/-- A blocking server program: `into_ws`, some choices, `accept`, then talk. -/
def serverProgram [B64] (p : ReqParser) (choose : SyncUpgrade → SyncUpgrade) (custom : Option Headers) (maxDf maxMsg : Nat)
    (ts : List Talk) (d : Duplex) : Outcome :=
  match intoWs p d with
  | .error f => ⟨false, f.stream.output.wire, [], []⟩
  | .ok u => match (choose u).internalAcceptWithLimits custom maxDf maxMsg with
    | .client c => match c.talk ts with
      | (hs, ss, c') => ⟨true, c'.stream.inner.output.wire, hs, ss⟩
    | .err d' _ => ⟨false, d'.output.wire, [], []⟩
    | .panic _ => ⟨false, d.output.wire, [], []⟩

/-- An async server program: `into_ws`, some choices, `accept`, then talk. -/
def asyncServerProgram [B64] (p : ReqParser) (choose : AsyncUpgrade → AsyncUpgrade) (custom : Option Headers)
    (maxDf maxMsg extra : Nat) (ts : List Talk) (d : Duplex) : Outcome :=
  match asyncIntoWs p d with
  | .error f => ⟨false, f.stream.output.wire, [], []⟩
  | .ok u => match (choose u).internalAcceptWithLimits custom maxDf maxMsg extra with
    | .client c => match c.talk ts with
      | (hs, ss, c') => ⟨true, c'.stream.output.wire, hs, ss⟩
    | .err d' _ => ⟨false, d'.output.wire, [], []⟩
    | .panic _ => ⟨false, d.output.wire, [], []⟩

end WS
