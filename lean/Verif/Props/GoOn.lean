import Verif.Lemmas.GoOn
import Verif.Lemmas.Text
/-!
# C72: a program that goes on receiving after an error
-/

namespace WS
open Spec (Report Tape Calls)

/-! ### What is reported -/

/-- Blocking: whatever wrong or right frames come, each receive call reports what the specification says, the fragments held are those it says, and the
reader stands at the end of a frame. -/
theorem C72_blocking (r : Receiver) (hr : r.maxDf < 2 ^ 63) (ht : Tail r.buffer) (frames left : List (Spec.Frame × Bool)) (reps : List Report)
    (held' : List Spec.Frame) (bs x : Bytes) (hw : Tape frames bs) (hl : ∀ f ∈ frames, f.1.payload.length ≤ r.maxDf)
    (hsz : Spec.load (specs r.buffer ++ frames.map Prod.fst) ≤ isizeMax)
    (h : Calls r.mask (Spec.OverBlocking r.maxMsg) (specs r.buffer) frames reps held' left) (s : Src) (hs : s.Clean) (hf : s.flat = bs ++ x) :
    ∃ res b' s' bs', r.recvMany reps.length s = (res, { r with buffer := b' }, s') ∧ res.map Res.report = reps.map some ∧ specs b' = held' ∧ Tail b' ∧
      Src.Clean s' ∧ Src.flat s' = bs' ++ x ∧ Tape left bs' := by
  obtain ⟨res, b', bs', h1, h2, h3, h4, h5⟩ := recvManyBytes_calls hr h rfl ht hl hsz hw x
  obtain ⟨s', g1, g2, g3⟩ := recvMany_clean reps.length r (by have : isizeMax = 2 ^ 63 - 1 := rfl; omega) s hs
  have e : { r with buffer := r.buffer } = r := rfl
  rw [e] at h1
  rw [hf, h1] at g2 g3
  exact ⟨res, b', s', bs', g2, h2, h3, h4, g1, g3, h5⟩

/-- Async: the same for the stream, on every transport that does not fail and however the bytes are cut, as long as no message limit is reported. -/
theorem C72_async (fr : Framed MsgCodec) (hc : fr.codec.df.maxDf ≤ u32Max) (ht : Tail fr.codec.buffer) (frames left : List (Spec.Frame × Bool))
    (reps : List Report) (held' : List Spec.Frame) (bs x : Bytes) (hw : Tape frames bs) (hl : ∀ f ∈ frames, f.1.payload.length ≤ fr.codec.df.maxDf)
    (hsz : Spec.load (specs fr.codec.buffer ++ frames.map Prod.fst) ≤ isizeMax)
    (h : Calls fr.codec.df.isServer (Spec.OverAsync fr.codec.maxMsg) (specs fr.codec.buffer) frames reps held' left)
    (hn : Report.refused (.protocol "Exceeded maximum WebSocket message size") ∉ reps)
    (s : Src) (hs : Live msgDecoder fr s) (hf : fr.buf ++ s.flat = bs ++ x) :
    ∃ its fr' s' b' bs', fr.nextMany msgDecoder reps.length s = (its, fr', s') ∧ its.map Item.report = reps.map some ∧
      fr'.codec = { fr.codec with buffer := b' } ∧ specs b' = held' ∧ Live msgDecoder fr' s' ∧ fr'.buf ++ Src.flat s' = bs' ++ x ∧ Tape left bs' := by
  obtain ⟨its, b', bs', h1, h2, h3, h4, h5, h6⟩ := decMany_calls hc h rfl ht hl hsz hw x
  obtain ⟨xs, fr', s', g1, g2, g3, g4⟩ := nextMany_spec msgDecoder_chunkable reps.length s fr hs hc (by rw [hf]; exact h6 hn)
  have e : { fr.codec with buffer := fr.codec.buffer } = fr.codec := rfl
  rw [e] at h1
  rw [hf, h1] at g4
  simp only [Prod.mk.injEq] at g4
  obtain ⟨rfl, g5, g6⟩ := g4
  exact ⟨its, fr', s', b', bs', g1, h2, g5.symm, h3, g2, g6.symm, h5⟩

/-- Async: one call of the decoder after the other on the bytes of a tape, limits included. -/
theorem C72_decoder (c : MsgCodec) (hc : c.df.maxDf ≤ u32Max) (ht : Tail c.buffer) (frames left : List (Spec.Frame × Bool))
    (reps : List Report) (held' : List Spec.Frame) (bs x : Bytes) (hw : Tape frames bs) (hl : ∀ f ∈ frames, f.1.payload.length ≤ c.df.maxDf)
    (hsz : Spec.load (specs c.buffer ++ frames.map Prod.fst) ≤ isizeMax)
    (h : Calls c.df.isServer (Spec.OverAsync c.maxMsg) (specs c.buffer) frames reps held' left) :
    ∃ its b' bs', decMany msgDecoder reps.length c (bs ++ x) = (its, { c with buffer := b' }, bs' ++ x) ∧ its.map Item.report = reps.map some ∧
      specs b' = held' ∧ Tape left bs' := by
  obtain ⟨its, b', bs', h1, h2, h3, h4, h5, -⟩ := decMany_calls hc h rfl ht hl hsz hw x
  exact ⟨its, b', bs', h1, h2, h3, h5⟩

/-- The specification says something about every tape until no frame is left that ends a call, and never two different things. -/
theorem C72_spec_total (masked : Bool) (over : List Spec.Frame → Nat → Prop) (frames : List (Spec.Frame × Bool)) :
    ∃ reps held left, Calls masked over [] frames reps held left ∧ ¬ ∃ rep h f, Spec.Call masked over held 0 left rep h f :=
  calls_total masked over frames.length frames (Nat.le_refl _) (by intro g hg; simp at hg)

theorem C72_spec_unique (masked : Bool) (over : List Spec.Frame → Nat → Prop) (held : List Spec.Frame) (frames : List (Spec.Frame × Bool))
    (hco : ∀ f ∈ frames, Spec.ControlOk f.1) (reps reps' : List Report) (held₁ held₂ : List Spec.Frame) (left₁ left₂ : List (Spec.Frame × Bool))
    (hlen : reps.length = reps'.length) (h : Calls masked over held frames reps held₁ left₁) (h' : Calls masked over held frames reps' held₂ left₂) :
    reps = reps' ∧ held₁ = held₂ ∧ left₁ = left₂ := by
  induction h generalizing reps' with
  | nil =>
    cases h' with
    | nil => exact ⟨rfl, rfl, rfl⟩
    | cons => simp at hlen
  | cons a ar ih =>
    cases h' with
    | nil => simp at hlen
    | cons b br =>
      obtain ⟨rfl, rfl, rfl⟩ := call_unique hco a b
      obtain ⟨t, -, rfl⟩ := call_rest a
      obtain ⟨rfl, rfl, rfl⟩ := ih (fun f hf => hco f (List.mem_append_right _ hf)) _ (by simpa using hlen) br
      exact ⟨rfl, rfl, rfl⟩

/-! ### The async stream does not get past a bad header -/

/-- Once the async stream has reported a bad header or a frame above the limit, it reports the same error for ever, takes nothing more from the transport and
delivers nothing more, whatever comes. -/
theorem C72_async_stuck (fr fr' : Framed MsgCodec) (hc : fr.codec.df.maxDf ≤ u32Max) (s s' : Src) (e : WsErr)
    (he : e = .dataFrame "Invalid data frame length" ∨ e = .dataFrame "Control frame length too long" ∨
      e = .protocol "Illegal fragmented control frame" ∨ e = .protocol "Exceeded maximum incoming DataFrame size")
    (h : fr.next msgDecoder s = (.err e, fr', s')) (n : Nat) (later : Src) :
    fr'.nextMany msgDecoder n later = (List.replicate n (.err e), fr', later) :=
  stuck_nextMany (next_stuck hc (by rcases he with rfl | rfl | rfl | rfl <;> decide) h) n later

/-! ### What goes wrong -/

/-- Refuted: "a message that is delivered was sent that way". A fragment with the wrong mask is reported and dropped, and the message is delivered without
it: to a server that goes on, the peer's `a`, `b`, `c` with an unmasked `b` is the text `ac`. The same holds for the async stream. -/
theorem C72_refuted_hole :
    let sent : Bytes := [0x01, 0x81, 0, 0, 0, 0, 97] ++ [0x00, 1, 98] ++ [0x80, 0x81, 0, 0, 0, 0, 99]
    ((Receiver.newWithLimits true 100 1000).recvMany 2 [.chunk sent]).1 =
      [.err (.dataFrame "Expected masked data frame"), .ok (.text [97, 99])] ∧
    ((Framed.new (MsgCodec.newWithLimits .server 100 1000)).nextMany msgDecoder 2 [.chunk sent]).1 =
      [.err (.dataFrame "Expected masked data frame"), .item (.text [97, 99])] := by decide +kernel

/-- Refuted for the blocking receiver: the payload of a frame that was refused for its length, or the bytes after a bad header, are read as frames. The peer's
one binary message of four bytes is the text `Hi`. -/
theorem C72_refuted_smuggled :
    Tape [(⟨true, false, false, false, 2, [0x81, 2, 72, 105]⟩, false)] [0x82, 4, 0x81, 2, 72, 105] ∧
    ((Receiver.newWithLimits false 3 1000).recvMany 2 [.chunk [0x82, 4, 0x81, 2, 72, 105]]).1 = [.err (.io .invalidData), .ok (.text [72, 105])] ∧
    ((Receiver.newWithLimits false 100 1000).recvMany 2 [.chunk [0x82, 126, 0, 4, 0x81, 2, 72, 105]]).1 =
      [.err (.dataFrame "Invalid data frame length"), .ok (.text [72, 105])] ∧
    ((Framed.new (MsgCodec.newWithLimits .client 3 1000)).nextMany msgDecoder 3 [.chunk [0x82, 4, 0x81, 2, 72, 105]]).1 =
      List.replicate 3 (.err (.protocol "Exceeded maximum incoming DataFrame size")) := by
  refine ⟨?_, by decide +kernel, by decide +kernel, by decide +kernel⟩
  refine .cons (rest := []) (key := none) (bs := [0x82, 4, 0x81, 2, 72, 105]) ?_ (by unfold Spec.ControlOk; decide) .nil
  exact ⟨0x82, 4, 4, [], [0x81, 2, 72, 105], rfl, by decide, by decide, by decide, .short (by decide), by simp, rfl⟩

/-! ### A case -/

/-- The frames of a peer of a client: the first part of `ac`, a text in between, a pong with reserved bits, a masked ping and the rest of `ac`. -/
def goFrames : List (Spec.Frame × Bool) :=
  [(⟨false, false, false, false, 1, [97]⟩, false), (⟨true, false, false, false, 1, [98]⟩, false), (⟨true, true, false, false, 10, []⟩, false),
    (⟨true, false, false, false, 9, []⟩, true), (⟨true, false, false, false, 0, [99]⟩, false)]

def goBytes : Bytes := [0x01, 1, 97, 0x81, 1, 98, 0xCA, 0, 0x89, 0x80, 0, 0, 0, 0, 0x80, 1, 99]

theorem goTape : Tape goFrames goBytes :=
  .cons (key := none) (bs := [0x01, 1, 97]) ⟨0x01, 1, 1, [], [97], rfl, by decide, by decide, by decide, .short (by decide), by simp, rfl⟩
    (by unfold Spec.ControlOk; decide)
  (.cons (key := none) (bs := [0x81, 1, 98]) ⟨0x81, 1, 1, [], [98], rfl, by decide, by decide, by decide, .short (by decide), by simp, rfl⟩
    (by unfold Spec.ControlOk; decide)
  (.cons (key := none) (bs := [0xCA, 0]) ⟨0xCA, 0, 0, [], [], rfl, by decide, by decide, by decide, .short (by decide), by simp, rfl⟩
    (by unfold Spec.ControlOk; decide)
  (.cons (key := some [0, 0, 0, 0]) (bs := [0x89, 0x80, 0, 0, 0, 0])
    ⟨0x89, 0x80, 0, [], [], rfl, by decide, by decide, by decide, .short (by decide), by simp, rfl, by simp⟩
    (by unfold Spec.ControlOk; decide)
  (.cons (key := none) (bs := [0x80, 1, 99]) (rest := []) ⟨0x80, 1, 1, [], [99], rfl, by decide, by decide, by decide, .short (by decide), by simp, rfl⟩
    (by unfold Spec.ControlOk; decide) .nil))))

def goReports : List Report :=
  [.refused (.protocol "Unexpected data frame opcode"), .refused (.protocol "Unsupported reserved bits received"),
    .refused (.dataFrame "Expected unmasked data frame"), .heard (.text [97, 99])]

theorem goCalls (over : List Spec.Frame → Nat → Prop) (ho : ¬ over [⟨false, false, false, false, 1, [97]⟩] 1) : Calls false over [] goFrames goReports [] [] :=
  .cons (.later ⟨rfl, .inl ⟨rfl, by decide, by decide⟩, rfl, by decide, ho⟩ (.now (.intruder (by simp) (by decide) (by decide))))
  (.cons (.now (.badControl (by decide) ⟨.reserved (f := ⟨10, true, []⟩) (by simp [Spec.Frame.fragment]) rfl, fun _ => rfl⟩))
  (.cons (.now (.wrongMask (by decide)))
  (.cons (.now (.final (.inr ⟨by simp, rfl⟩) rfl ⟨_, _, rfl, by decide, by decide, .text (isUtf8_ascii (by decide))⟩)) .nil)))

example : ∃ res b' s' bs', (Receiver.newWithLimits false 100 1000).recvMany 4 [.chunk (goBytes.take 5), .chunk (goBytes.drop 5)] =
      (res, { Receiver.newWithLimits false 100 1000 with buffer := b' }, s') ∧
    res.map Res.report = goReports.map some ∧ specs b' = [] ∧ Tail b' ∧ Src.Clean s' ∧ Src.flat s' = bs' ++ [] ∧ Tape [] bs' :=
  C72_blocking (Receiver.newWithLimits false 100 1000) (by decide) tail_nil goFrames [] goReports [] goBytes [] goTape (by decide) (by decide)
    (goCalls _ (by unfold Spec.OverBlocking; decide)) _ (by simp [Src.Clean, goBytes]) rfl

example : ∃ its fr' s' b' bs', (Framed.new (MsgCodec.newWithLimits .client 100 1000)).nextMany msgDecoder 4
      [.chunk (goBytes.take 5), .error .wouldBlock, .chunk (goBytes.drop 5)] = (its, fr', s') ∧
    its.map Item.report = goReports.map some ∧ fr'.codec = { MsgCodec.newWithLimits .client 100 1000 with buffer := b' } ∧ specs b' = [] ∧
    Live msgDecoder fr' s' ∧ fr'.buf ++ Src.flat s' = bs' ++ [] ∧ Tape [] bs' :=
  C72_async (Framed.new (MsgCodec.newWithLimits .client 100 1000)) (by decide) tail_nil goFrames [] goReports [] goBytes [] goTape (by decide) (by decide)
    (goCalls _ (by unfold Spec.OverAsync; decide)) (by decide) _ (live_new _ _ (by simp [Src.Ready, goBytes]) (by decide +kernel)) rfl

/-- A stream that gets stuck: after the first error nothing is read from the transport, and the text `Hi` that comes is not delivered. -/
example :
    let out := (Framed.new (MsgCodec.newWithLimits .client 100 1000)).next msgDecoder [.chunk [0x09, 0], .chunk [0x81, 2, 72, 105]]
    out.1 = .err (.protocol "Illegal fragmented control frame") ∧ out.2.2 = [.chunk [0x81, 2, 72, 105]] ∧
      (out.2.1.nextMany msgDecoder 5 out.2.2).1 = List.replicate 5 (.err (.protocol "Illegal fragmented control frame")) := by decide +kernel

example := C72_decoder (MsgCodec.newWithLimits .client 100 1000) (by decide) tail_nil goFrames [] goReports [] goBytes [9] goTape (by decide) (by decide)
  (goCalls _ (by unfold Spec.OverAsync; decide))
example := fun over ho => C72_spec_unique false over [] goFrames (by unfold Spec.ControlOk; decide) goReports goReports [] [] [] [] rfl (goCalls over ho) (goCalls over ho)
example := C72_async_stuck (Framed.new (MsgCodec.newWithLimits .client 100 1000)) _ (by decide) [.chunk [0x09, 0], .chunk [0x81, 2, 72, 105]] [.chunk [0x81, 2, 72, 105]]
  (.protocol "Illegal fragmented control frame") (.inr (.inr (.inl rfl))) (Prod.ext (by decide +kernel) (Prod.ext rfl (by decide +kernel)))

end WS
