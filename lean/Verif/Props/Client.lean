import Verif.Model.Client
import Verif.Lemmas.BufReader
import Verif.Lemmas.Retry
/-!
# C30: splitting a client
-/

namespace WS

/-- Is this a call on the reading half? -/
def ClientOp.isRead : ClientOp → Bool
  | .send _ _ => false
  | _ => true

/-- Is this an answer of the reading half? -/
def OpRes.isRead : OpRes → Bool
  | .sent _ => false
  | _ => true

/-- The halves a client consists of. -/
def halves (c : Client) : Reader × Writer :=
  (⟨⟨c.stream.inner.input, c.stream.buf, c.stream.pos, c.stream.cap⟩, c.receiver⟩, ⟨c.stream.inner.output, c.sender⟩)

theorem split_ok (c : Client) : c.split (.ok ()) = .ok (halves c) := rfl

theorem halves_src (c : Client) : (halves c).1.stream.src = c.stream.src := rfl

theorem halves_restore (b : BufReader Duplex) (s : Src) :
    (⟨(b.restore s).inner.input, (b.restore s).buf, (b.restore s).pos, (b.restore s).cap⟩ : BufReader Src) =
      BufReader.restore ⟨b.inner.input, b.buf, b.pos, b.cap⟩ s ∧
    (b.restore s).inner.output = b.inner.output := by
  unfold BufReader.restore
  have hw : (⟨b.inner.input, b.buf, b.pos, b.cap⟩ : BufReader Src).window = b.window := rfl
  have hg : HasSrc.get (⟨b.inner.input, b.buf, b.pos, b.cap⟩ : BufReader Src).inner = HasSrc.get b.inner := rfl
  rw [hw, hg]
  by_cases h : b.window = []
  · simp only [h, if_true]; exact ⟨rfl, rfl⟩
  · simp only [h, if_false]
    split
    · split <;> exact ⟨rfl, rfl⟩
    · exact ⟨rfl, rfl⟩

theorem step_halves (c : Client) (op : ClientOp) :
    pairStep (halves c) op = ((c.step op).1, halves (c.step op).2) := by
  cases op with
  | recvMessage =>
    have h := halves_restore c.stream (c.receiver.recvMessage c.stream.src).2.2
    simp only [pairStep, Client.step, Reader.recvMessage, Client.recvMessage, halves_src]
    simp only [halves] at *
    rw [h.2, ← h.1]
  | recvDataframe =>
    have h := halves_restore c.stream (c.receiver.recvDataframe c.stream.src).2
    simp only [pairStep, Client.step, Reader.recvDataframe, Client.recvDataframe, halves_src]
    simp only [halves] at *
    rw [h.2, ← h.1]
  | send v key => rfl

/-- After a split, every interleaving of calls on the two halves gives the results the same calls
give on the unsplit client, from every client state (buffered bytes, partial message, any transport
behaviour), and ends in the state a later split would give. -/
theorem C30_split_equivalent (c : Client) (p : Reader × Writer) (clone : Except IoKind Unit) (h : c.split clone = .ok p)
    (ops : List ClientOp) :
    (pairRun ops p).1 = (c.run ops).1 ∧ ((c.run ops).2).split (.ok ()) = .ok (pairRun ops p).2 := by
  cases clone with
  | error k => simp [Client.split, BufReader.intoParts, Duplex.split] at h
  | ok u =>
    cases u
    rw [split_ok] at h
    simp only [Except.ok.injEq] at h
    subst h
    induction ops generalizing c with
    | nil => exact ⟨rfl, rfl⟩
    | cons op ops ih =>
      have := ih (c.step op).2
      simp only [pairRun, Client.run, step_halves]
      exact ⟨by rw [this.1], this.2⟩

/-- The split hands over every buffered byte and the partially received message: the reader sees the
same future bytes and holds the same frames; the writer has the same output and masking. It fails
only if the operating system refuses to duplicate the handle. -/
theorem C30_split_state (c : Client) (clone : Except IoKind Unit) :
    (∃ k, clone = .error k ∧ c.split clone = .error k) ∨
    ∃ r w, c.split clone = .ok (r, w) ∧ r.stream.src = c.stream.src ∧ r.stream.window = c.stream.window ∧
      r.receiver = c.receiver ∧ w.stream = c.stream.inner.output ∧ w.sender = c.sender := by
  cases clone with
  | error k => exact Or.inl ⟨k, rfl, rfl⟩
  | ok u => exact Or.inr ⟨_, _, rfl, rfl, rfl, rfl, rfl, rfl⟩

/-- Reads are not influenced by writes: in any interleaving the reading half answers and ends up as
if only the reads had been made. -/
theorem C30_reads_independent (ops : List ClientOp) (p : Reader × Writer) (w : Writer) :
    (pairRun ops p).1.filter OpRes.isRead = (pairRun (ops.filter ClientOp.isRead) (p.1, w)).1 ∧
    (pairRun ops p).2.1 = (pairRun (ops.filter ClientOp.isRead) (p.1, w)).2.1 := by
  induction ops generalizing p with
  | nil => exact ⟨rfl, rfl⟩
  | cons op ops ih =>
    cases op with
    | recvMessage =>
      have := ih (p.1.recvMessage.2, p.2)
      simp only [pairRun, pairStep, List.filter_cons, OpRes.isRead, ClientOp.isRead, if_true]
      exact ⟨by rw [this.1], this.2⟩
    | recvDataframe =>
      have := ih (p.1.recvDataframe.2, p.2)
      simp only [pairRun, pairStep, List.filter_cons, OpRes.isRead, ClientOp.isRead, if_true]
      exact ⟨by rw [this.1], this.2⟩
    | send v key =>
      have := ih (p.1, (p.2.send v key).2)
      simp only [pairRun, pairStep, List.filter_cons, OpRes.isRead, ClientOp.isRead, Bool.false_eq_true, if_false]
      exact this

/-- Writes are not influenced by reads. -/
theorem C30_writes_independent (ops : List ClientOp) (p : Reader × Writer) (x : Reader) :
    (pairRun ops p).1.filter (fun r => !r.isRead) = (pairRun (ops.filter fun o => !o.isRead) (x, p.2)).1 ∧
    (pairRun ops p).2.2 = (pairRun (ops.filter fun o => !o.isRead) (x, p.2)).2.2 := by
  induction ops generalizing p with
  | nil => exact ⟨rfl, rfl⟩
  | cons op ops ih =>
    cases op with
    | recvMessage =>
      have := ih (p.1.recvMessage.2, p.2)
      simp only [pairRun, pairStep, List.filter_cons, OpRes.isRead, ClientOp.isRead, Bool.not_true, Bool.false_eq_true, if_false]
      exact this
    | recvDataframe =>
      have := ih (p.1.recvDataframe.2, p.2)
      simp only [pairRun, pairStep, List.filter_cons, OpRes.isRead, ClientOp.isRead, Bool.not_true, Bool.false_eq_true, if_false]
      exact this
    | send v key =>
      have := ih (p.1, (p.2.send v key).2)
      have e1 : ∀ r, (OpRes.sent r).isRead = false := fun _ => rfl
      have e2 : (ClientOp.send v key).isRead = false := rfl
      simp only [pairRun, pairStep, List.filter_cons, e1, e2, Bool.not_false, if_true]
      exact ⟨by rw [this.1], this.2⟩

/-- Reading through the client's buffer is reading the transport with the buffered bytes in front:
messages come out as from the plain receiver over that script, and exactly the rest stays. -/
theorem C30_recv_through_buffer (c : Client) (h : c.stream.WF) :
    (c.recvMessage).1 = (c.receiver.recvMessage c.stream.src).1 ∧
    (c.recvMessage).2.receiver = (c.receiver.recvMessage c.stream.src).2.1 ∧
    (c.recvMessage).2.stream.src = (c.receiver.recvMessage c.stream.src).2.2 ∧
    (c.recvMessage).2.stream.WF ∧ (c.recvMessage).2.stream.inner.output = c.stream.inner.output := by
  refine ⟨rfl, rfl, restore_src h (rem_recvMessage _ _), restore_wf h _, ?_⟩
  exact (halves_restore _ _).2

/-- `into_stream` hands back the transport and the unread bytes: a buffer built from the parts
continues with the same bytes. -/
theorem C30_into_stream (c : Client) :
    ∃ d buf pos cap, c.intoStream = (d, some (buf, pos, cap)) ∧
      (BufReader.fromParts d buf pos cap).src = c.stream.src ∧
      (buf.take cap).drop pos = c.stream.window ∧ d = c.stream.inner :=
  ⟨_, _, _, _, rfl, rfl, rfl, rfl⟩

/-- A client in the middle of a text message, with a buffered frame and more to come from the
transport. -/
def sampleClient : Client :=
  { headers := []
    stream := ⟨⟨[.chunk [0x80, 1], .chunk [0x63]], ⟨[], [.accept 1]⟩⟩, [0, 0x89, 0, 0, 0, 0], 1, 3⟩
    sender := ⟨false⟩
    receiver := { buffer := [⟨false, false, false, false, .text, [0x61]⟩], mask := false, maxDf := 100, maxMsg := 100 } }

/-- The hypotheses are met, with a non-trivial run: a ping from the buffer, then the rest of the text
from the transport. -/
example : sampleClient.stream.WF ∧ ∃ p, sampleClient.split (.ok ()) = .ok p ∧
    (pairRun [.recvMessage, .send (OwnedMsg.text [0x78]).view ⟨0, 0, 0, 0⟩, .recvMessage] p).1.length = 3 :=
  ⟨by unfold BufReader.WF; decide, _, rfl, rfl⟩
example : (sampleClient.recvMessage).1 = .ok (.ping []) ∧
    ((sampleClient.recvMessage).2.recvMessage).1 = .ok (.text [0x61, 0x63]) := by decide +kernel

example := C30_split_equivalent sampleClient _ (.ok ()) rfl
  [.recvMessage, .send (OwnedMsg.text [0x78]).view ⟨0, 0, 0, 0⟩, .recvMessage]
example := C30_recv_through_buffer sampleClient (by unfold BufReader.WF; decide)

end WS
