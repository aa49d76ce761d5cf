import Verif.Spec.Raw
import Verif.Lemmas.Connection
import Verif.Props.Client
import Verif.Props.Receive
/-! Raw access to a stream, and shutting it down. -/

namespace WS

theorem rem_flat {s t : Src} (h : Rem s t) : ∃ x, s.flat = x ++ t.flat := by
  induction h with
  | refl => exact ⟨[], rfl⟩
  | @skip e s t h ih =>
    obtain ⟨x, hx⟩ := ih
    cases e with
    | chunk b => exact ⟨b ++ x, by simp [Src.flat, hx]⟩
    | error k => exact ⟨x, hx⟩
  | @part b s n hn => exact ⟨b.take n, by simp [Src.flat, ← List.append_assoc]⟩

theorem read1_parts (n : Nat) (s : Src) : match read1 n s with
    | (.ok bs, s') => s.flat = bs ++ s'.flat ∧ bs.length ≤ n
    | (.error _, s') => s.flat = s'.flat := by
  cases s with
  | nil => simp [read1]
  | cons e rest =>
    cases e with
    | error k => rfl
    | chunk b =>
      by_cases h : b.length ≤ n
      · simp only [read1, h, if_true]; exact ⟨rfl, trivial⟩
      · simp only [read1, h, if_false, Src.flat, List.length_take]
        exact ⟨by rw [← List.append_assoc, List.take_append_drop], by omega⟩

theorem readExact_flat (n : Nat) (s : Src) : match readExact n s with
    | (.ok bs, s') => s.flat = bs ++ s'.flat ∧ bs.length = n
    | (.error _, s') => ∃ x, s.flat = x ++ s'.flat ∧ x.length < n := by
  induction s generalizing n with
  | nil =>
    unfold readExact
    split <;> rename_i h
    · split at h <;> simp_all
    · split at h <;> simp_all; omega
  | cons e rest ih =>
    cases e with
    | error k =>
      unfold readExact
      by_cases hn : n = 0
      · simp [hn]
      · simp only [hn, if_false]
        by_cases hk : k = .interrupted
        · simp only [hk, if_true]; exact ih n
        · simp only [hk, if_false, Src.flat]; exact ⟨[], rfl, by simpa using Nat.pos_of_ne_zero hn⟩
    | chunk b =>
      unfold readExact
      by_cases hn : n = 0
      · simp [hn]
      · simp only [hn, if_false]
        by_cases hb : b = []
        · simp only [hb, if_true, Src.flat]; exact ⟨[], rfl, by simpa using Nat.pos_of_ne_zero hn⟩
        · simp only [hb, if_false]
          by_cases hl : b.length ≤ n
          · simp only [hl, if_true]
            have := ih (n - b.length)
            cases hr : readExact (n - b.length) rest with
            | mk r s' =>
              rw [hr] at this
              cases r with
              | ok bs => simp only [Src.flat, this.1, List.length_append, this.2]; exact ⟨by simp, by omega⟩
              | error k =>
                obtain ⟨x, h1, h2⟩ := this
                exact ⟨b ++ x, by simp [Src.flat, h1], by rw [List.length_append]; omega⟩
          · simp only [hl, if_false, Src.flat, List.length_take]
            exact ⟨by rw [← List.append_assoc, List.take_append_drop], by omega⟩

theorem rem_readExact (n : Nat) (s : Src) : Rem s (readExact n s).2 := by
  rw [readExact_eq_loop]; exact rem_exactLoop n s

theorem toEnd_flat (s : Src) : s.flat = (toEnd s).2.1 ++ (toEnd s).2.2.flat ∧ Rem s (toEnd s).2.2 := by
  fun_induction toEnd s with
  | case1 => exact ⟨rfl, .refl _⟩
  | case2 rest ih => exact ⟨ih.1, .skip ih.2⟩
  | case3 k rest h => exact ⟨rfl, .skip (.refl _)⟩
  | case4 rest => exact ⟨rfl, .skip (.refl _)⟩
  | case5 b rest h r bs s he ih =>
    rw [he] at ih
    exact ⟨by simp only [Src.flat, ih.1, List.append_assoc], .skip ih.2⟩

theorem toEnd_clean {s : Src} (h : s.Clean) : toEnd s = (.ok (), s.flat, []) := by
  induction s with
  | nil => rfl
  | cons e rest ih =>
    cases e with
    | error k => obtain ⟨rfl, h⟩ := h; simp only [toEnd, if_true, ih h, Src.flat]
    | chunk b => obtain ⟨hb, h⟩ := h; simp only [toEnd, hb, if_false, ih h, Src.flat]

/-- However many bytes each `read` asks for, `read_to_end` is `toEnd`. -/
theorem toEndLoop_any (size : Nat → Nat) (i : Nat) (s : Src) : toEndLoop size i s = toEnd s := by
  fun_induction toEndLoop size i s with
  | case1 i s s' h =>
    cases s with
    | nil => simp only [read1, Prod.mk.injEq] at h; rw [← h.2]; rfl
    | cons e rest =>
      cases e with
      | error k => simp [read1] at h
      | chunk b =>
        simp only [read1] at h
        split at h
        · simp only [Prod.mk.injEq, Except.ok.injEq] at h
          obtain ⟨rfl, rfl⟩ := h
          simp [toEnd]
        · next hl =>
          simp only [Prod.mk.injEq, Except.ok.injEq] at h
          have := congrArg List.length h.1
          simp only [List.length_take, List.length_nil] at this
          omega
  | case2 i s c cs s' h r more s'' he ih =>
    cases s with
    | nil => simp [read1] at h
    | cons e rest =>
      cases e with
      | error k => simp [read1] at h
      | chunk b =>
        simp only [read1] at h
        split at h
        · simp only [Prod.mk.injEq, Except.ok.injEq] at h
          obtain ⟨rfl, rfl⟩ := h
          rw [he] at ih
          simp only [toEnd, reduceCtorEq, if_false, ← ih]
        · next hl =>
          simp only [Prod.mk.injEq, Except.ok.injEq] at h
          obtain ⟨h1, rfl⟩ := h
          rw [he] at ih
          have hd : b.drop (size i + 1) ≠ [] := by
            intro h0
            have := congrArg List.length h0
            simp only [List.length_drop, List.length_nil] at this
            omega
          have hb : b ≠ [] := by rintro rfl; simp at h1
          simp only [toEnd, hd, if_false] at ih
          simp only [toEnd, hb, if_false]
          generalize toEnd rest = q at ih ⊢
          obtain ⟨q1, q2, q3⟩ := q
          simp only [Prod.mk.injEq] at ih ⊢
          obtain ⟨rfl, rfl, rfl⟩ := ih
          refine ⟨rfl, ?_, rfl⟩
          rw [← h1, ← List.append_assoc, List.take_append_drop]
  | case3 i s s' h ih =>
    cases s with
    | nil => simp [read1] at h
    | cons e rest =>
      cases e with
      | error k => simp only [read1, Prod.mk.injEq, Except.error.injEq] at h; obtain ⟨rfl, rfl⟩ := h; rw [ih]; simp [toEnd]
      | chunk b => simp only [read1] at h; split at h <;> simp at h
  | case4 i s k s' h hk =>
    cases s with
    | nil => simp [read1] at h
    | cons e rest =>
      cases e with
      | error k => simp only [read1, Prod.mk.injEq, Except.error.injEq] at h; obtain ⟨rfl, rfl⟩ := h; simp [toEnd, hk]
      | chunk b => simp only [read1] at h; split at h <;> simp at h

/-! ## Calls in turn -/

/-- The frame a client makes of `v`. -/
def Client.frame (c : Client) (v : FrameView) (key : Key4) : Option Bytes :=
  match v.encode (if c.sender.mask then some key else none) with
  | .ok bs => some bs
  | _ => none

theorem restore_output (b : BufReader Duplex) (s : Src) : (b.restore s).inner.output = b.inner.output := (halves_restore b s).2

theorem rawStep_spec (c : Client) (h : c.stream.WF) (o : RawOp) :
    ∃ i g, Spec.Took o (c.rawStep o).1 i ∧ Spec.Gave c.frame o (c.rawStep o).1 g ∧
      c.stream.src.flat = i ++ (c.rawStep o).2.stream.src.flat ∧
      (c.rawStep o).2.stream.inner.output.wire = c.stream.inner.output.wire ++ g ∧
      (c.rawStep o).2.stream.WF ∧ (c.rawStep o).2.sender = c.sender := by
  cases o with
  | op o =>
    cases o with
    | recvMessage =>
      have hr := rem_recvMessage c.receiver c.stream.src
      obtain ⟨x, hx⟩ := rem_flat hr
      have e : (c.rawStep (.op .recvMessage)).2.stream = c.stream.restore (c.receiver.recvMessage c.stream.src).2.2 := rfl
      refine ⟨x, [], .message, .message, ?_, ?_, ?_, rfl⟩
      · rw [e, restore_src h hr]; exact hx
      · rw [e, restore_output, List.append_nil]
      · rw [e]; exact restore_wf h _
    | recvDataframe =>
      have hr := rem_recvDataframe c.receiver c.stream.src
      obtain ⟨x, hx⟩ := rem_flat hr
      have e : (c.rawStep (.op .recvDataframe)).2.stream = c.stream.restore (c.receiver.recvDataframe c.stream.src).2 := rfl
      refine ⟨x, [], .dataframe, .dataframe, ?_, ?_, ?_, rfl⟩
      · rw [e, restore_src h hr]; exact hx
      · rw [e, restore_output, List.append_nil]
      · rw [e]; exact restore_wf h _
    | send v key =>
      obtain ⟨bs, w', h1, h2, h3⟩ | ⟨e, h1, h2⟩ | ⟨bs, pre, k, w', h1, h2, h3, h4⟩ := send_wire c.sender v key c.stream.inner.output
      · refine ⟨[], bs, ?_, ?_, ?_⟩ <;> simp only [Client.rawStep, Client.step, Client.send, h2]
        · exact .sent
        · exact .sent (by unfold Client.frame; rw [h1])
        · exact ⟨rfl, h3, h, trivial⟩
      · refine ⟨[], [], ?_, ?_, ?_⟩ <;> simp only [Client.rawStep, Client.step, Client.send, h2]
        · exact .sent
        · exact .refused (by unfold Client.frame; rw [h1])
        · exact ⟨rfl, (List.append_nil _).symm, h, trivial⟩
      · refine ⟨[], pre, ?_, ?_, ?_⟩ <;> simp only [Client.rawStep, Client.step, Client.send, h2]
        · exact .sent
        · exact .sentPart (bs := bs) (by unfold Client.frame; rw [h1]) h3
        · exact ⟨rfl, h4, h, trivial⟩
  | read n =>
    have hs := read1_parts n c.stream.src
    have hr := rem_read1 n c.stream.src
    have e := read_src h n
    simp only [Client.rawStep, Client.rawRead, e]
    cases hq : read1 n c.stream.src with
    | mk r s' =>
      rw [hq] at hs hr
      cases r with
      | ok bs =>
        refine ⟨bs, [], .read hs.2, .read, ?_, ?_, restore_wf h _, trivial⟩
        · rw [restore_src h hr]; exact hs.1
        · rw [restore_output, List.append_nil]
      | error k =>
        refine ⟨[], [], .readFailed, .read, ?_, ?_, restore_wf h _, trivial⟩
        · rw [restore_src h hr]; exact hs
        · rw [restore_output, List.append_nil]
  | readExact n =>
    have hs := readExact_flat n c.stream.src
    have hr := rem_readExact n c.stream.src
    simp only [Client.rawStep, Client.rawReadExact]
    cases hq : readExact n c.stream.src with
    | mk r s' =>
      rw [hq] at hs hr
      cases r with
      | ok bs =>
        refine ⟨bs, [], .exact hs.2, .exact, ?_, ?_, restore_wf h _, trivial⟩
        · rw [restore_src h hr]; exact hs.1
        · rw [restore_output, List.append_nil]
      | error k =>
        obtain ⟨x, h1, h2⟩ := hs
        refine ⟨x, [], .exactFailed h2, .exact, ?_, ?_, restore_wf h _, trivial⟩
        · rw [restore_src h hr]; exact h1
        · rw [restore_output, List.append_nil]
  | toEnd =>
    obtain ⟨hs, hr⟩ := toEnd_flat c.stream.src
    refine ⟨(toEnd c.stream.src).2.1, [], .toEnd, .toEnd, ?_, ?_, restore_wf h _, rfl⟩
    · show _ = _ ++ (c.stream.restore _).src.flat
      rw [restore_src h hr]; exact hs
    · show (c.stream.restore _).inner.output.wire = _
      rw [restore_output, List.append_nil]
  | write bs =>
    simp only [Client.rawStep, Client.rawWrite, Sink.write]
    cases hc : c.stream.inner.output.script with
    | nil => exact ⟨[], bs, .write, by simpa using Spec.Gave.write (frame := c.frame) (bs := bs) (Nat.le_refl _), rfl, rfl, h, rfl⟩
    | cons e s =>
      cases e with
      | error k => exact ⟨[], [], .write, .writeFailed, rfl, (List.append_nil _).symm, h, rfl⟩
      | accept n =>
        refine ⟨[], bs.take (min n bs.length), .write, .write (Nat.min_le_right _ _), rfl, ?_, h, rfl⟩
        show _ ++ bs.take n = _
        rw [← List.take_eq_take_min]
  | writeAll bs =>
    simp only [Client.rawStep, Client.rawWriteAll]
    cases hc : c.stream.inner.output.writeAll bs with
    | mk r w =>
      cases r with
      | ok u => exact ⟨[], bs, .writeAll, .writeAll, rfl, writeAll_ok hc, h, rfl⟩
      | error k =>
        obtain ⟨pre, h1, h2⟩ := writeAll_prefix bs c.stream.inner.output
        rw [hc] at h2
        exact ⟨[], pre, .writeAll, .writeAllFailed h1, rfl, h2, h, rfl⟩

theorem rawRun_spec (c : Client) (h : c.stream.WF) (ops : List RawOp) :
    ∃ is gs, Spec.InTurn c.frame ops (c.rawRun ops).1 is gs ∧
      c.stream.src.flat = is ++ (c.rawRun ops).2.stream.src.flat ∧
      (c.rawRun ops).2.stream.inner.output.wire = c.stream.inner.output.wire ++ gs ∧ (c.rawRun ops).2.stream.WF := by
  induction ops generalizing c with
  | nil => exact ⟨[], [], .nil, rfl, (List.append_nil _).symm, h⟩
  | cons o ops ih =>
    obtain ⟨i, g, h1, h2, h3, h4, h5, h6⟩ := rawStep_spec c h o
    obtain ⟨is, gs, k1, k2, k3, k4⟩ := ih _ h5
    have hf : (c.rawStep o).2.frame = c.frame := by unfold Client.frame; rw [h6]
    rw [hf] at k1
    refine ⟨i ++ is, g ++ gs, .cons h1 h2 k1, ?_, ?_, k4⟩
    · show _ = _ ++ ((c.rawStep o).2.rawRun ops).2.stream.src.flat
      rw [h3, k2, List.append_assoc]
    · show ((c.rawStep o).2.rawRun ops).2.stream.inner.output.wire = _
      rw [k3, h4, List.append_assoc]

/-! ## Receiving through a client -/

theorem run_recvMany (c : Client) (h : c.stream.WF) (n : Nat) :
    (c.run (List.replicate n .recvMessage)).1 = (c.receiver.recvMany n c.stream.src).1.map .message := by
  induction n generalizing c with
  | zero => rfl
  | succ n ih =>
    obtain ⟨h1, h2, h3, h4, -⟩ := C30_recv_through_buffer c h
    have := ih c.recvMessage.2 h4
    rw [List.replicate_succ]
    show OpRes.message c.recvMessage.1 :: (c.recvMessage.2.run _).1 = _
    rw [this, h1, h2, h3]
    rfl

/-- Cutting the input short: the answers up to some call are the same, from then on there is no data. -/
theorem recvManyBytes_short (n : Nat) (r : Receiver) (p x : Bytes) :
    ∃ k, k ≤ n ∧ (r.recvManyBytes n p).1 = (r.recvManyBytes n (p ++ x)).1.take k ++ List.replicate (n - k) (.err .noData) := by
  induction n generalizing r p with
  | zero => exact ⟨0, Nat.le_refl _, rfl⟩
  | succ n ih =>
    have ha := pLoop_append r.cfg r.buffer (heldLen r.buffer) p x
    cases hp : pLoop r.cfg r.buffer (heldLen r.buffer) p with
    | more b cur left =>
      refine ⟨0, Nat.zero_le _, ?_⟩
      have e : r.recvBytes p = (.err .noData, { r with buffer := b }, []) := by unfold Receiver.recvBytes; rw [hp]
      simp only [Receiver.recvManyBytes, e, recvManyBytes_end, List.take_zero, List.nil_append, Nat.sub_zero, List.replicate_succ]
    | msg fs b rest =>
      rw [hp] at ha
      have e : r.recvBytes p = (OwnedMsg.fromDataframes (fs.map DataFrame.view), { r with buffer := b }, rest) := by unfold Receiver.recvBytes; rw [hp]
      have e' : r.recvBytes (p ++ x) = (OwnedMsg.fromDataframes (fs.map DataFrame.view), { r with buffer := b }, rest ++ x) := by unfold Receiver.recvBytes; rw [ha]
      obtain ⟨k, h1, h2⟩ := ih { r with buffer := b } rest
      refine ⟨k + 1, by omega, ?_⟩
      simp only [Receiver.recvManyBytes, e, e', List.take_succ_cons, List.cons_append, h2, Nat.add_sub_add_right]
    | fail err b rest =>
      rw [hp] at ha
      have e : r.recvBytes p = (.err err, { r with buffer := b }, rest) := by unfold Receiver.recvBytes; rw [hp]
      have e' : r.recvBytes (p ++ x) = (.err err, { r with buffer := b }, rest ++ x) := by unfold Receiver.recvBytes; rw [ha]
      obtain ⟨k, h1, h2⟩ := ih { r with buffer := b } rest
      refine ⟨k + 1, by omega, ?_⟩
      simp only [Receiver.recvManyBytes, e, e', List.take_succ_cons, List.cons_append, h2, Nat.add_sub_add_right]
    | bad err b st rest =>
      rw [hp] at ha
      have e : r.recvBytes p = (.err err, { r with buffer := b }, rest) := by unfold Receiver.recvBytes; rw [hp]
      have e' : r.recvBytes (p ++ x) = (.err err, { r with buffer := b }, rest ++ x) := by unfold Receiver.recvBytes; rw [ha]
      obtain ⟨k, h1, h2⟩ := ih { r with buffer := b } rest
      refine ⟨k + 1, by omega, ?_⟩
      simp only [Receiver.recvManyBytes, e, e', List.take_succ_cons, List.cons_append, h2, Nat.add_sub_add_right]

/-! ## Shutting down -/

theorem shut_flat {s t : Src} (h : Src.Shut s t) : t.flat <+: s.flat := by
  induction h with
  | now => exact List.nil_prefix
  | within b rest n hn =>
    simp only [Src.flat, List.append_nil]
    exact (List.take_prefix n b).trans (List.prefix_append _ _)
  | @later e s t h ih =>
    cases e with
    | chunk b => exact (List.prefix_append_right_inj b).mpr ih
    | error k => exact ih

theorem shut_clean {s t : Src} (h : Src.Shut s t) (hs : s.Clean) : t.Clean := by
  induction h with
  | now => trivial
  | within b rest n hn =>
    refine ⟨fun h0 => ?_, trivial⟩
    have := congrArg List.length h0
    simp only [List.length_take, List.length_nil] at this
    have hb : b.length ≠ 0 := fun hb => hs.1 (List.length_eq_zero_iff.mp hb)
    omega
  | @later e s t h ih =>
    cases e with
    | chunk b => exact ⟨hs.1, ih hs.2⟩
    | error k => exact ⟨hs.1, ih hs.2⟩

theorem src_flat_parts (c : Client) : c.stream.src.flat = c.stream.window ++ c.stream.inner.input.flat := by
  unfold BufReader.src
  split
  · next h => rw [h]; rfl
  · rfl

theorem src_clean_of {c : Client} (h : c.stream.inner.input.Clean) : c.stream.src.Clean := by
  unfold BufReader.src
  split
  · exact h
  · next hw => exact ⟨hw, h⟩

theorem send_shut (x : Sender) (v : FrameView) (key : Key4) (w : Sink) (n : Nat) :
    (∃ e, (x.send v key (w.shut (n + 1))).1 = .err e) ∧ (x.send v key (w.shut (n + 1))).2.wire = w.wire ∧
    ∃ m, n ≤ m ∧ (x.send v key (w.shut (n + 1))).2 = w.shut m := by
  have hne : ∀ bs k, v.encode k = .ok bs → bs ≠ [] := by
    intro bs k hk
    rw [encode_eq] at hk
    unfold writeHeader at hk
    split at hk
    · simp [Res.bind] at hk
    · split at hk
      · simp [Res.bind] at hk
      · simp only [Res.bind, Res.ok.injEq] at hk
        rintro rfl
        simp at hk
  unfold Sender.send FrameView.writeTo
  generalize he : v.encode (if x.mask then some key else none) = q
  cases q with
  | ok bs =>
    have hb := hne _ _ he
    simp only [Sink.shut, List.replicate_succ, Sink.writeAll, hb, if_false, reduceCtorEq]
    exact ⟨⟨_, rfl⟩, trivial, n, Nat.le_refl _, rfl⟩
  | err e => exact ⟨⟨e, rfl⟩, rfl, n + 1, Nat.le_succ n, rfl⟩
  | panic m =>
    have := encode_not_panic (v := v) (if x.mask then some key else none)
    rw [he] at this; simp at this

end WS
