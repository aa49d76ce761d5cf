import Verif.Lemmas.Handshake
import Verif.Lemmas.Send
import Verif.Lemmas.Sound
import Verif.Props.Keys
/-!
# Lemmas about heads as they are written
-/

namespace WS

open Spec

theorem fmt_wire (h : Headers) : h.fmt = h.wire.flatMap fun e => e.1 ++ ascii ": " ++ e.2 ++ ascii "\r\n" := by
  unfold Headers.fmt Headers.wire
  rw [List.flatMap_assoc]
  congr 1
  funext e
  rw [List.flatMap_map]
  rfl

theorem head_fmt {σ} (line : HttpVersion → σ → Bytes) (m : HttpHead σ) :
    m.fmt line = Head (line m.version m.subject) m.headers.wire := by
  unfold HttpHead.fmt Head
  rw [fmt_wire]
  rfl

theorem valuesOf_append (n : Bytes) (a b : List (Bytes × Bytes)) : valuesOf n (a ++ b) = valuesOf n a ++ valuesOf n b := by
  simp [valuesOf]

theorem valuesOf_entry (n : Bytes) (e : Bytes × HItem) :
    valuesOf n (e.2.lines.map fun l => (e.1, l)) = if eqIgnoreCase e.1 n then e.2.lines.map trimSpacesEnd else [] := by
  unfold valuesOf
  by_cases h : eqIgnoreCase e.1 n = true
  · rw [if_pos h, List.filter_eq_self.mpr, List.map_map]
    · rfl
    · intro x hx; rw [List.mem_map] at hx; obtain ⟨l, _, rfl⟩ := hx; exact h
  · rw [if_neg h, List.filter_eq_nil_iff.mpr]
    · rfl
    · intro x hx; rw [List.mem_map] at hx; obtain ⟨l, _, rfl⟩ := hx; exact h

theorem valuesOf_none {n : Bytes} {h : Headers} (hn : ∀ e ∈ h, eqIgnoreCase e.1 n = false) : valuesOf n h.wire = [] := by
  induction h with
  | nil => rfl
  | cons e h ih =>
    show valuesOf n ((e.2.lines.map fun l => (e.1, l)) ++ Headers.wire h) = []
    rw [valuesOf_append, valuesOf_entry, hn e (by simp), ih fun x hx => hn x (List.mem_cons_of_mem _ hx)]
    rfl

/-- The lines written under a name. -/
theorem valuesOf_wire {h : Headers} (hu : h.Unique) (n : Bytes) :
    valuesOf n h.wire = match h.item n with | some it => it.lines.map trimSpacesEnd | none => [] := by
  induction h with
  | nil => rfl
  | cons e h ih =>
    unfold Headers.Unique at hu
    rw [List.pairwise_cons] at hu
    show valuesOf n ((e.2.lines.map fun l => (e.1, l)) ++ Headers.wire h) = _
    rw [valuesOf_append, valuesOf_entry, item_cons]
    by_cases hc : eqIgnoreCase e.1 n = true
    · simp only [hc, if_true]
      rw [valuesOf_none, List.append_nil]
      intro x hx
      have := hu.1 x hx
      rw [eqIgnoreCase_congr hc] at this
      rw [eqIgnoreCase_comm]; exact this
    · simp only [hc]
      exact ih hu.2

theorem b64_last (b : Bytes) : (b64Encode b).getLast? ≠ some 32 := by
  intro h
  have := (b64Encode_visible (List.mem_of_getLast? h)).1
  exact absurd this (by decide)

theorem b64_one (b : Bytes) : oneLine (b64Encode b) = b64Encode b := by
  refine oneLine_id fun c hc => ?_
  have := (b64Encode_visible hc).1
  exact ⟨fun x => absurd (x ▸ this) (by decide), fun x => absurd (x ▸ this) (by decide)⟩

theorem httpEncode_data (head : Bytes) (extra : Nat) (dst : BytesMut) :
    (httpEncode head extra dst).data = dst.data ++ head ∧ (dst.WF → (httpEncode head extra dst).WF) := by
  have key : ∀ d : BytesMut, head.length ≤ d.remainingMut →
      (d.write head).2.data = d.data ++ head ∧ (d.WF → (d.write head).2.WF) := by
    intro d hd
    unfold BytesMut.write
    simp only [Nat.min_eq_right hd, List.take_length, true_and]
    intro hw
    unfold BytesMut.WF BytesMut.remainingMut at *
    simp only [List.length_append]
    omega
  unfold httpEncode
  simp only
  split
  · next hgt =>
    have h1 : (dst.reserve head.length extra).data = dst.data := by unfold BytesMut.reserve; split <;> rfl
    have h2 : head.length ≤ (dst.reserve head.length extra).remainingMut := by
      unfold BytesMut.reserve
      split
      · assumption
      · simp only [BytesMut.remainingMut]; omega
    rw [← h1]
    exact ⟨(key _ h2).1, fun hw => (key _ h2).2 (BytesMut.reserve_wf _ _ hw)⟩
  · next hle => exact key dst (by omega)

/-- Awaiting a flush: what was queued goes out in order; only the part not yet written stays queued. -/
theorem drain_spec (fw : FramedWrite) (w : Sink) (hw : fw.buf.WF) :
    (fw.drain w).2.2.wire ++ (fw.drain w).2.1.buf.data = w.wire ++ fw.buf.data ∧
      w.wire <+: (fw.drain w).2.2.wire ∧
      ((fw.drain w).1 = .ready → (fw.drain w).2.1.buf.data = []) ∧
      (fw.drain w).1 ≠ .notReady ∧ (∀ e, (fw.drain w).1 ≠ .panic e) ∧ (fw.drain w).2.1.buf.WF := by
  fun_induction FramedWrite.drain fw w with
  | case1 fw w fw' w' h ih =>
    have hi := pollComplete_inv fw w hw
    rw [h] at hi
    have := ih hi.2.1
    refine ⟨this.1.trans hi.1, hi.2.2.2.1.trans this.2.1, this.2.2⟩
  | case2 fw w r fw' w' hne h =>
    have hi := pollComplete_inv fw w hw
    rw [h] at hi
    exact ⟨hi.1, hi.2.2.2.1, hi.2.2.2.2.1, fun hc => hne (by simpa using hc), hi.2.2.2.2.2, hi.2.1⟩

/-- Sending a head: all of it, or a part of it and an error. -/
theorem httpSend_spec (head : Bytes) (extra : Nat) (w : Sink) :
    ((httpSend head extra w).1 = .ready ∧ (httpSend head extra w).2.2.wire = w.wire ++ head ∧
        (httpSend head extra w).2.1.buf.data = []) ∨
      (∃ e pre, (httpSend head extra w).1 = .err e ∧ pre <+: head ∧ (httpSend head extra w).2.2.wire = w.wire ++ pre) := by
  unfold httpSend
  have hwf : (FramedWrite.new true).buf.WF := by simp [FramedWrite.new, BytesMut.WF]
  have he := httpEncode_data head extra (FramedWrite.new true).buf
  have hd := drain_spec { FramedWrite.new true with buf := httpEncode head extra (FramedWrite.new true).buf } w (he.2 hwf)
  simp only [he.1] at hd
  have h0 : (FramedWrite.new true).buf.data = [] := rfl
  rw [h0, List.nil_append] at hd
  generalize FramedWrite.drain { FramedWrite.new true with buf := httpEncode head extra (FramedWrite.new true).buf } w = x at hd
  obtain ⟨r, fw, w'⟩ := x
  simp only at *
  cases r with
  | ready =>
    left
    have h1 := hd.2.2.1 rfl
    rw [h1, List.append_nil] at hd
    exact ⟨rfl, hd.1, h1⟩
  | notReady => exact absurd rfl hd.2.2.2.1
  | panic e => exact absurd rfl (hd.2.2.2.2.1 e)
  | err e =>
    right
    obtain ⟨pre, hp⟩ := hd.2.1
    refine ⟨e, pre, rfl, ?_, hp.symm⟩
    have h1 := hd.1
    rw [← hp, List.append_assoc] at h1
    exact ⟨fw.buf.data, List.append_cancel_left h1⟩

end WS
