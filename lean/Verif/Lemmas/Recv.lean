import Verif.Lemmas.Sound
import Verif.Lemmas.DfCodec
import Verif.Model.MsgCodec
/-! Both receivers as one loop over byte strings with different per-frame steps. -/

namespace WS

/-! ### Stability of parsing under more input -/

/-- More input does not change an answer already given. -/
def Stable {α} (p : Ps α) : Prop :=
  ∀ bs x, (∀ a rest, p bs = .ok a rest → p (bs ++ x) = .ok a (rest ++ x)) ∧
    (∀ e rest, p bs = .err e rest → p (bs ++ x) = .err e (rest ++ x))

theorem stable_pure {α} (a : α) : Stable (pure a : Ps α) := by
  intro bs x; constructor
  · intro b rest h
    simp only [Ps.pure_apply, PRes.ok.injEq] at h ⊢
    obtain ⟨rfl, rfl⟩ := h; exact ⟨rfl, rfl⟩
  · intro e rest h; simp at h

theorem stable_fail {α} (e : WsErr) : Stable (Ps.fail e : Ps α) := by
  intro bs x; constructor
  · intro b rest h; simp at h
  · intro e' rest h
    simp only [Ps.fail_apply, PRes.err.injEq] at h ⊢
    obtain ⟨rfl, rfl⟩ := h; exact ⟨rfl, rfl⟩

theorem stable_take (n : Nat) : Stable (Ps.take n) := by
  intro bs x; constructor
  · intro a rest h
    obtain ⟨h1, rfl⟩ := Ps.take_ok_iff.mp h
    rw [List.append_assoc]
    exact Ps.take_append h1
  · intro e rest h; unfold Ps.take at h; split at h <;> simp at h

theorem stable_u8 : Stable Ps.u8 := by
  intro bs x; constructor
  · intro a rest h
    rw [Ps.u8_ok_iff] at h; subst h; rfl
  · intro e rest h; cases bs <;> simp at h

theorem stable_bind {α β} {m : Ps α} {f : α → Ps β} (hm : Stable m) (hf : ∀ a, Stable (f a)) :
    Stable (m >>= f) := by
  intro bs x
  obtain ⟨h1, h2⟩ := hm bs x
  simp only [Ps.bind_def]
  cases hmb : m bs with
  | ok a mid =>
    rw [h1 a mid hmb]
    exact hf a mid x
  | err e mid =>
    rw [h2 e mid hmb]
    constructor
    · intro b rest h; simp at h
    · intro e' rest h
      simp only [PRes.err.injEq] at h ⊢
      obtain ⟨rfl, rfl⟩ := h; exact ⟨rfl, rfl⟩
  | more => simp

theorem stable_ite {α} (c : Prop) [Decidable c] {p q : Ps α} (hp : Stable p) (hq : Stable q) :
    Stable (if c then p else q) := by split <;> assumption

theorem stable_header : Stable parseHeader := by
  unfold parseHeader parseLen parseMask
  refine stable_bind stable_u8 fun b0 => stable_bind stable_u8 fun b1 => stable_bind ?_ fun len => ?_
  · refine stable_ite _ (stable_pure _) (stable_ite _ ?_ ?_)
    · exact stable_bind (stable_bind (stable_take _) fun _ => stable_pure _) fun _ =>
        stable_ite _ (stable_fail _) (stable_pure _)
    · exact stable_bind (stable_bind (stable_take _) fun _ => stable_pure _) fun _ =>
        stable_ite _ (stable_fail _) (stable_pure _)
  · refine stable_ite _ (stable_fail _) (stable_ite _ (stable_fail _) ?_)
    refine stable_bind (stable_ite _ ?_ (stable_pure _)) fun _ => stable_pure _
    exact stable_bind stable_u8 fun _ => stable_bind stable_u8 fun _ => stable_bind stable_u8 fun _ =>
      stable_bind stable_u8 fun _ => stable_pure _

theorem stable_frame (m : Bool) (lim : Nat) (big : WsErr) : Stable (parseFrame m lim big) := by
  unfold parseFrame
  refine stable_bind stable_header fun h => stable_ite _ (stable_fail _) (stable_bind (stable_take _) fun d => ?_)
  intro bs x
  unfold bodyPs
  constructor
  · intro a rest h
    split at h <;> simp_all
  · intro e rest h
    split at h <;> simp_all

theorem parseFrame_lt {m : Bool} {lim : Nat} {big : WsErr} {bs rest : Bytes} {f : DataFrame}
    (h : parseFrame m lim big bs = .ok f rest) : rest.length + f.data.length < bs.length := by
  unfold parseFrame at h
  rw [Ps.bind_ok_iff] at h
  obtain ⟨hd, mid, hp, h2⟩ := h
  obtain ⟨pre, rfl, hpre, -⟩ := parseHeader_rest hp
  obtain ⟨b0, b1, ext, -, -, -, hfl, ho, -⟩ := parseHeader_ok_iff.mp hp
  split at h2
  · simp at h2
  · rw [Ps.bind_ok_iff] at h2
    obtain ⟨d, mid', ht, hb⟩ := h2
    obtain ⟨h1, rfl⟩ := Ps.take_ok_iff.mp ht
    unfold bodyPs at hb
    split at hb
    · next g hg =>
      have := masked_length ((body_ok_iff hd b0 hfl ho d _ _).mp hg).2.2
      simp only [PRes.ok.injEq] at hb
      obtain ⟨rfl, rfl⟩ := hb
      simp only [List.length_append]
      omega
    · simp at hb
    · simp at hb

/-! ### The loop -/

/-- What a receiver does with one frame. -/
inductive Step
  /-- deliver the message made of these frames -/
  | msg (fs : List DataFrame) (buffer : List DataFrame)
  | fail (e : WsErr) (buffer : List DataFrame)
  | next (buffer : List DataFrame) (cur : Nat)

/-- Per-frame step of the blocking receiver (src/receiver.rs:127-186). -/
def syncStep (maxMsg : Nat) (buffer : List DataFrame) (cur : Nat) (f : DataFrame) : Step :=
  if buffer = [] then
    if f.opcode = .continuation then .fail (.protocol "Unexpected continuation data frame opcode") buffer
    else if f.finished then .msg [f] []
    else .next [f] (cur + (f.data.length + overhead))
  else if f.opcode.toU8 = 0 then
    if f.finished then .msg (buffer ++ [f]) []
    else if (buffer ++ [f]).length ≥ maxFrames then
      .fail (.protocol "Exceeded count of data frames in one WebSocket message") (buffer ++ [f])
    else if cur + (f.data.length + overhead) ≥ maxMsg then
      .fail (.protocol "Exceeded maximum WebSocket message size") (buffer ++ [f])
    else .next (buffer ++ [f]) (cur + (f.data.length + overhead))
  else if f.opcode.toU8 ≥ 8 ∧ f.opcode.toU8 ≤ 15 then .msg [f] buffer
  else .fail (.protocol "Unexpected data frame opcode") buffer

/-- Per-frame step of the async codec (websocket-base/src/codec/ws.rs:281-322). -/
def asyncStep (maxMsg : Nat) (buffer : List DataFrame) (cur : Nat) (f : DataFrame) : Step :=
  if f.opcode.toU8 = 0 ∧ buffer = [] then .fail (.protocol "Unexpected continuation data frame opcode") buffer
  else if 8 ≤ f.opcode.toU8 ∧ f.opcode.toU8 ≤ 15 then .msg [f] buffer
  else if 1 ≤ f.opcode.toU8 ∧ f.opcode.toU8 ≤ 7 ∧ buffer ≠ [] then
    .fail (.protocol "Unexpected data frame opcode") buffer
  else if f.finished then .msg (buffer ++ [f]) []
  else if (buffer ++ [f]).length ≥ maxFrames then
    .fail (.protocol "Exceeded count of data frames in one WebSocket message") (buffer ++ [f])
  else if cur + (f.data.length + overhead) > maxMsg then
    .fail (.protocol "Exceeded maximum WebSocket message size") (buffer ++ [f])
  else .next (buffer ++ [f]) (cur + (f.data.length + overhead))

/-- Result of running a receiver on a byte string until something happens. -/
inductive POut
  | msg (fs : List DataFrame) (buffer : List DataFrame) (rest : Bytes)
  | fail (e : WsErr) (buffer : List DataFrame) (rest : Bytes)
  /-- the frame at `at` is bad; `rest` is the position where the reader stopped -/
  | bad (e : WsErr) (buffer : List DataFrame) (start rest : Bytes)
  /-- the input ended; `left` is the incomplete frame -/
  | more (buffer : List DataFrame) (cur : Nat) (left : Bytes)

structure Cfg where
  step : List DataFrame → Nat → DataFrame → Step
  masked : Bool
  lim : Nat
  big : WsErr

def pLoop (c : Cfg) (buffer : List DataFrame) (cur : Nat) (bs : Bytes) : POut :=
  match h : parseFrame c.masked c.lim c.big bs with
  | .ok f rest =>
    match c.step buffer cur f with
    | .msg fs b => .msg fs b rest
    | .fail e b => .fail e b rest
    | .next b cur' => pLoop c b cur' rest
  | .err e rest => .bad e buffer bs rest
  | .more => .more buffer cur bs
termination_by bs.length
decreasing_by have := parseFrame_lt h; omega

theorem pLoop_ok {c : Cfg} {buffer : List DataFrame} {cur : Nat} {bs rest : Bytes} {f : DataFrame}
    (h : parseFrame c.masked c.lim c.big bs = .ok f rest) :
    pLoop c buffer cur bs = match c.step buffer cur f with
    | .msg fs b => .msg fs b rest
    | .fail e b => .fail e b rest
    | .next b cur' => pLoop c b cur' rest := by
  rw [pLoop]
  split
  · next f' rest' h' => rw [h] at h'; cases h'; rfl
  · next h' => rw [h] at h'; cases h'
  · next h' => rw [h] at h'; cases h'

theorem pLoop_err {c : Cfg} {buffer : List DataFrame} {cur : Nat} {bs rest : Bytes} {e : WsErr}
    (h : parseFrame c.masked c.lim c.big bs = .err e rest) :
    pLoop c buffer cur bs = .bad e buffer bs rest := by
  rw [pLoop]
  split
  · next h' => rw [h] at h'; cases h'
  · next h' => rw [h] at h'; cases h'; rfl
  · next h' => rw [h] at h'; cases h'

theorem pLoop_more {c : Cfg} {buffer : List DataFrame} {cur : Nat} {bs : Bytes}
    (h : parseFrame c.masked c.lim c.big bs = .more) :
    pLoop c buffer cur bs = .more buffer cur bs := by
  rw [pLoop]
  split
  · next h' => rw [h] at h'; cases h'
  · next h' => rw [h] at h'; cases h'
  · rfl

/-- More input never changes what already happened; if the loop ran out of input it continues. -/
theorem pLoop_append (c : Cfg) (buffer : List DataFrame) (cur : Nat) (bs x : Bytes) :
    pLoop c buffer cur (bs ++ x) = match pLoop c buffer cur bs with
    | .msg fs b rest => .msg fs b (rest ++ x)
    | .fail e b rest => .fail e b (rest ++ x)
    | .bad e b start rest => .bad e b (start ++ x) (rest ++ x)
    | .more b cur' left => pLoop c b cur' (left ++ x) := by
  fun_induction pLoop c buffer cur bs with
  | case1 buffer cur bs f rest h fs b hs =>
    rw [pLoop_ok ((stable_frame _ _ _ bs x).1 _ _ h), hs]
  | case2 buffer cur bs f rest h e b hs =>
    rw [pLoop_ok ((stable_frame _ _ _ bs x).1 _ _ h), hs]
  | case3 buffer cur bs f rest h b cur' hs ih =>
    rw [pLoop_ok ((stable_frame _ _ _ bs x).1 _ _ h), hs]
    exact ih
  | case4 buffer cur bs e rest h =>
    rw [pLoop_err ((stable_frame _ _ _ bs x).2 _ _ h)]
  | case5 buffer cur bs h => rfl

/-! ### The async codec is this loop -/

def MsgCodec.cfg (c : MsgCodec) : Cfg := ⟨asyncStep c.maxMsg, c.df.isServer, c.df.maxDf, bigErr⟩

/-- Turn delivered frames into the result of an async decode call. -/
def asyncOut (fs : List DataFrame) : Res (Option OwnedMsg) := do
  let m ← OwnedMsg.fromDataframes (fs.map DataFrame.view); pure (some m)

theorem onFrame_eq (maxMsg : Nat) (buffer : List DataFrame) (cur : Nat) (f : DataFrame) :
    MsgCodec.onFrame maxMsg buffer cur f = match asyncStep maxMsg buffer cur f with
    | .msg fs b => .done (asyncOut fs) b
    | .fail e b => .done (.err e) b
    | .next b cur' => .next b cur' := by
  unfold MsgCodec.onFrame asyncStep
  simp only [decide_eq_true_eq, decide_eq_false_iff_not]
  repeat' split
  all_goals first
    | rfl
    | (simp_all [asyncOut]; done)
    | (rename_i heq; simp only [Step.msg.injEq] at heq; obtain ⟨rfl, rfl⟩ := heq; simp_all [asyncOut])

theorem MsgCodec.loop_eq (c : MsgCodec) (hc : c.df.maxDf ≤ u32Max) (cur : Nat) (src : Bytes) :
    c.loop cur src = match pLoop c.cfg c.buffer cur src with
    | .msg fs b rest => (asyncOut fs, { c with buffer := b }, rest)
    | .fail e b rest => (.err e, { c with buffer := b }, rest)
    | .bad e b start rest =>
      (.err e, { c with buffer := b }, if e = maskErr c.df.isServer then rest else start)
    | .more b _ left => (.ok none, { c with buffer := b }, left) := by
  fun_induction MsgCodec.loop c cur src with
  | case1 c cur src frame src' hd r buffer hf =>
    have hp := DfCodec.decode_eq c.df hc src
    cases hpf : parseFrame c.df.isServer c.df.maxDf bigErr src with
    | ok f rest =>
      rw [hpf] at hp
      rw [hp] at hd
      simp only [Prod.mk.injEq, Res.ok.injEq, Option.some.injEq] at hd
      obtain ⟨rfl, rfl⟩ := hd
      rw [pLoop_ok (c := c.cfg) hpf]
      rw [onFrame_eq] at hf
      show _ = match (match asyncStep c.maxMsg c.buffer cur f with
        | .msg fs b => POut.msg fs b rest
        | .fail e b => .fail e b rest
        | .next b cur' => pLoop c.cfg b cur' rest) with
        | .msg fs b rest => _
        | .fail e b rest => _
        | .bad e b start rest => _
        | .more b _ left => _
      cases hs : asyncStep c.maxMsg c.buffer cur f <;> rw [hs] at hf <;>
        simp only [FrameStep.done.injEq, reduceCtorEq] at hf <;> obtain ⟨rfl, rfl⟩ := hf <;> rfl
    | err e rest => rw [hpf] at hp; rw [hp] at hd; simp at hd
    | more => rw [hpf] at hp; rw [hp] at hd; simp at hd
  | case2 c cur src frame src' hd buffer cur' hf ih =>
    have hp := DfCodec.decode_eq c.df hc src
    cases hpf : parseFrame c.df.isServer c.df.maxDf bigErr src with
    | ok f rest =>
      rw [hpf] at hp
      rw [hp] at hd
      simp only [Prod.mk.injEq, Res.ok.injEq, Option.some.injEq] at hd
      obtain ⟨rfl, rfl⟩ := hd
      rw [pLoop_ok (c := c.cfg) hpf]
      rw [onFrame_eq] at hf
      have hs : asyncStep c.maxMsg c.buffer cur f = .next buffer cur' := by
        cases hs : asyncStep c.maxMsg c.buffer cur f <;> rw [hs] at hf <;>
          simp only [FrameStep.next.injEq, reduceCtorEq] at hf
        obtain ⟨rfl, rfl⟩ := hf; rfl
      have ih := ih hc
      have e : c.cfg.step = asyncStep c.maxMsg := rfl
      rw [e, hs]
      exact ih
    | err e rest => rw [hpf] at hp; rw [hp] at hd; simp at hd
    | more => rw [hpf] at hp; rw [hp] at hd; simp at hd
  | case3 c cur src src' hd =>
    have hp := DfCodec.decode_eq c.df hc src
    cases hpf : parseFrame c.df.isServer c.df.maxDf bigErr src with
    | ok f rest => rw [hpf] at hp; rw [hp] at hd; simp at hd
    | err e rest => rw [hpf] at hp; rw [hp] at hd; simp at hd
    | more =>
      rw [hpf] at hp; rw [hp] at hd
      simp only [Prod.mk.injEq, true_and] at hd; subst hd
      rw [pLoop_more (c := c.cfg) hpf]
  | case4 c cur src e src' hd =>
    have hp := DfCodec.decode_eq c.df hc src
    cases hpf : parseFrame c.df.isServer c.df.maxDf bigErr src with
    | ok f rest => rw [hpf] at hp; rw [hp] at hd; simp at hd
    | err e' rest =>
      rw [hpf] at hp; rw [hp] at hd
      simp only [Prod.mk.injEq, Res.err.injEq] at hd
      obtain ⟨rfl, rfl⟩ := hd
      rw [pLoop_err (c := c.cfg) hpf]
    | more => rw [hpf] at hp; rw [hp] at hd; simp at hd
  | case5 c cur src e src' hd =>
    have hp := DfCodec.decode_eq c.df hc src
    cases hpf : parseFrame c.df.isServer c.df.maxDf bigErr src with
    | ok f rest => rw [hpf] at hp; rw [hp] at hd; simp at hd
    | err e' rest => rw [hpf] at hp; rw [hp] at hd; simp at hd
    | more => rw [hpf] at hp; rw [hp] at hd; simp at hd

theorem MsgCodec.decode_eq (c : MsgCodec) (hc : c.df.maxDf ≤ u32Max) (src : Bytes) :
    c.decode src = match pLoop c.cfg c.buffer (heldLen c.buffer) src with
    | .msg fs b rest => (asyncOut fs, { c with buffer := b }, rest)
    | .fail e b rest => (.err e, { c with buffer := b }, rest)
    | .bad e b start rest =>
      (.err e, { c with buffer := b }, if e = maskErr c.df.isServer then rest else start)
    | .more b _ left => (.ok none, { c with buffer := b }, left) :=
  MsgCodec.loop_eq c hc _ src

/-! ### The blocking receiver on a clean transport is this loop -/

def Receiver.cfg (r : Receiver) : Cfg := ⟨syncStep r.maxMsg, r.mask, r.maxDf, .io .invalidData⟩

/-- The outcome of the loop as the result of `recv_message_dataframes`. -/
def syncOut (r : Receiver) : POut → Res (List DataFrame) × Receiver × Bytes
  | .msg fs b rest => (.ok fs, { r with buffer := b }, rest)
  | .fail e b rest => (.err e, { r with buffer := b }, rest)
  | .bad e b _ rest => (.err e, { r with buffer := b }, rest)
  | .more b _ _ => (.err .noData, { r with buffer := b }, [])

theorem recvLoop_clean (r : Receiver) (hr : r.maxDf ≤ isizeMax) (hb : r.buffer ≠ []) (cur : Nat) (s : Src)
    (hs : s.Clean) :
    ∃ s', Src.Clean s' ∧ (recvLoop r cur s).2.2 = s' ∧
      ((recvLoop r cur s).1, (recvLoop r cur s).2.1, s'.flat) = syncOut r (pLoop r.cfg r.buffer cur s.flat) := by
  fun_induction recvLoop r cur s with
  | case1 r cur s next s' h h0 r' hfin =>
    obtain ⟨s1, hs1, hp⟩ := refines_frame r.mask r.maxDf hr s hs
    have hread : readDataframeWithLimit r.mask r.maxDf s = (.ok next, s') := h
    rw [hread] at hp
    cases hpf : parseFrame r.mask r.maxDf (.io .invalidData) s.flat with
    | ok f rest =>
      rw [hpf] at hp
      simp only [Prod.mk.injEq, Res.ok.injEq] at hp
      obtain ⟨⟨rfl, rfl⟩, rfl⟩ := hp
      refine ⟨s', hs1, rfl, ?_⟩
      rw [pLoop_ok (c := r.cfg) hpf]
      show _ = syncOut r (match syncStep r.maxMsg r.buffer cur next with
        | .msg fs b => POut.msg fs b s'.flat
        | .fail e b => .fail e b s'.flat
        | .next b cur' => pLoop r.cfg b cur' s'.flat)
      unfold syncStep
      rw [if_neg hb, if_pos h0, if_pos hfin]
      rfl
    | err e rest => rw [hpf] at hp; simp at hp
    | more => rw [hpf] at hp; simp at hp
  | case2 r cur s next s' h h0 r' hfin hmax =>
    obtain ⟨s1, hs1, hp⟩ := refines_frame r.mask r.maxDf hr s hs
    have hread : readDataframeWithLimit r.mask r.maxDf s = (.ok next, s') := h
    rw [hread] at hp
    cases hpf : parseFrame r.mask r.maxDf (.io .invalidData) s.flat with
    | ok f rest =>
      rw [hpf] at hp
      simp only [Prod.mk.injEq, Res.ok.injEq] at hp
      obtain ⟨⟨rfl, rfl⟩, rfl⟩ := hp
      refine ⟨s', hs1, rfl, ?_⟩
      rw [pLoop_ok (c := r.cfg) hpf]
      show _ = syncOut r (match syncStep r.maxMsg r.buffer cur next with
        | .msg fs b => POut.msg fs b s'.flat
        | .fail e b => .fail e b s'.flat
        | .next b cur' => pLoop r.cfg b cur' s'.flat)
      unfold syncStep
      rw [if_neg hb, if_pos h0, if_neg hfin, if_pos hmax]
      rfl
    | err e rest => rw [hpf] at hp; simp at hp
    | more => rw [hpf] at hp; simp at hp
  | case3 r cur s next s' h h0 cur' r' hfin hmax hlen =>
    obtain ⟨s1, hs1, hp⟩ := refines_frame r.mask r.maxDf hr s hs
    have hread : readDataframeWithLimit r.mask r.maxDf s = (.ok next, s') := h
    rw [hread] at hp
    cases hpf : parseFrame r.mask r.maxDf (.io .invalidData) s.flat with
    | ok f rest =>
      rw [hpf] at hp
      simp only [Prod.mk.injEq, Res.ok.injEq] at hp
      obtain ⟨⟨rfl, rfl⟩, rfl⟩ := hp
      refine ⟨s', hs1, rfl, ?_⟩
      rw [pLoop_ok (c := r.cfg) hpf]
      show _ = syncOut r (match syncStep r.maxMsg r.buffer cur next with
        | .msg fs b => POut.msg fs b s'.flat
        | .fail e b => .fail e b s'.flat
        | .next b cur' => pLoop r.cfg b cur' s'.flat)
      unfold syncStep
      rw [if_neg hb, if_pos h0, if_neg hfin, if_neg hmax, if_pos hlen]
      rfl
    | err e rest => rw [hpf] at hp; simp at hp
    | more => rw [hpf] at hp; simp at hp
  | case4 r cur s next s' h h0 cur' r' hfin hmax hlen ih =>
    obtain ⟨s1, hs1, hp⟩ := refines_frame r.mask r.maxDf hr s hs
    have hread : readDataframeWithLimit r.mask r.maxDf s = (.ok next, s') := h
    rw [hread] at hp
    cases hpf : parseFrame r.mask r.maxDf (.io .invalidData) s.flat with
    | ok f rest =>
      rw [hpf] at hp
      simp only [Prod.mk.injEq, Res.ok.injEq] at hp
      obtain ⟨⟨rfl, rfl⟩, rfl⟩ := hp
      rw [pLoop_ok (c := r.cfg) hpf]
      have e : r.cfg.step r.buffer cur next = .next (r.buffer ++ [next]) cur' := by
        show syncStep r.maxMsg r.buffer cur next = _
        unfold syncStep
        rw [if_neg hb, if_pos h0, if_neg hfin, if_neg hmax, if_neg hlen]
      rw [e]
      exact ih hr (by simp [r']) hs1
    | err e rest => rw [hpf] at hp; simp at hp
    | more => rw [hpf] at hp; simp at hp
  | case5 r cur s next s' h h0 hctl =>
    obtain ⟨s1, hs1, hp⟩ := refines_frame r.mask r.maxDf hr s hs
    have hread : readDataframeWithLimit r.mask r.maxDf s = (.ok next, s') := h
    rw [hread] at hp
    cases hpf : parseFrame r.mask r.maxDf (.io .invalidData) s.flat with
    | ok f rest =>
      rw [hpf] at hp
      simp only [Prod.mk.injEq, Res.ok.injEq] at hp
      obtain ⟨⟨rfl, rfl⟩, rfl⟩ := hp
      refine ⟨s', hs1, rfl, ?_⟩
      rw [pLoop_ok (c := r.cfg) hpf]
      show _ = syncOut r (match syncStep r.maxMsg r.buffer cur next with
        | .msg fs b => POut.msg fs b s'.flat
        | .fail e b => .fail e b s'.flat
        | .next b cur' => pLoop r.cfg b cur' s'.flat)
      unfold syncStep
      rw [if_neg hb, if_neg h0, if_pos hctl]
      rfl
    | err e rest => rw [hpf] at hp; simp at hp
    | more => rw [hpf] at hp; simp at hp
  | case6 r cur s next s' h h0 hctl =>
    obtain ⟨s1, hs1, hp⟩ := refines_frame r.mask r.maxDf hr s hs
    have hread : readDataframeWithLimit r.mask r.maxDf s = (.ok next, s') := h
    rw [hread] at hp
    cases hpf : parseFrame r.mask r.maxDf (.io .invalidData) s.flat with
    | ok f rest =>
      rw [hpf] at hp
      simp only [Prod.mk.injEq, Res.ok.injEq] at hp
      obtain ⟨⟨rfl, rfl⟩, rfl⟩ := hp
      refine ⟨s', hs1, rfl, ?_⟩
      rw [pLoop_ok (c := r.cfg) hpf]
      show _ = syncOut r (match syncStep r.maxMsg r.buffer cur next with
        | .msg fs b => POut.msg fs b s'.flat
        | .fail e b => .fail e b s'.flat
        | .next b cur' => pLoop r.cfg b cur' s'.flat)
      unfold syncStep
      rw [if_neg hb, if_neg h0, if_neg hctl]
      rfl
    | err e rest => rw [hpf] at hp; simp at hp
    | more => rw [hpf] at hp; simp at hp
  | case7 r cur s e s' h =>
    obtain ⟨s1, hs1, hp⟩ := refines_frame r.mask r.maxDf hr s hs
    have hread : readDataframeWithLimit r.mask r.maxDf s = (.err e, s') := h
    rw [hread] at hp
    cases hpf : parseFrame r.mask r.maxDf (.io .invalidData) s.flat with
    | ok f rest => rw [hpf] at hp; simp at hp
    | err e' rest =>
      rw [hpf] at hp
      simp only [Prod.mk.injEq, Res.err.injEq] at hp
      obtain ⟨⟨rfl, rfl⟩, rfl⟩ := hp
      refine ⟨s', hs1, rfl, ?_⟩
      rw [pLoop_err (c := r.cfg) hpf]
      rfl
    | more =>
      rw [hpf] at hp
      simp only [Prod.mk.injEq, Res.err.injEq] at hp
      obtain ⟨⟨rfl, rfl⟩, hfl⟩ := hp
      refine ⟨s', hs1, rfl, ?_⟩
      rw [pLoop_more (c := r.cfg) hpf, hfl]
      rfl
  | case8 r cur s e s' h =>
    obtain ⟨s1, hs1, hp⟩ := refines_frame r.mask r.maxDf hr s hs
    have hread : readDataframeWithLimit r.mask r.maxDf s = (.panic e, s') := h
    rw [hread] at hp
    cases hpf : parseFrame r.mask r.maxDf (.io .invalidData) s.flat with
    | ok f rest => rw [hpf] at hp; simp at hp
    | err e' rest => rw [hpf] at hp; simp at hp
    | more => rw [hpf] at hp; simp at hp

theorem recvMessageDataframes_clean (r : Receiver) (hr : r.maxDf ≤ isizeMax) (s : Src) (hs : s.Clean) :
    ∃ s', Src.Clean s' ∧ (r.recvMessageDataframes s).2.2 = s' ∧
      ((r.recvMessageDataframes s).1, (r.recvMessageDataframes s).2.1, s'.flat) =
        syncOut r (pLoop r.cfg r.buffer (heldLen r.buffer) s.flat) := by
  unfold Receiver.recvMessageDataframes
  by_cases hb : r.buffer = []
  · simp only [hb, if_true]
    obtain ⟨s1, hs1, hp⟩ := refines_frame r.mask r.maxDf hr s hs
    have hread : r.recvDataframe s = readDataframeWithLimit r.mask r.maxDf s := rfl
    rw [hread]
    cases hpf : parseFrame r.mask r.maxDf (.io .invalidData) s.flat with
    | ok f rest =>
      rw [hpf] at hp
      obtain ⟨hp1, rfl⟩ := hp
      rw [hp1, pLoop_ok (c := r.cfg) hpf]
      have e : r.cfg.step [] (heldLen []) f = (if f.opcode = .continuation then
        Step.fail (.protocol "Unexpected continuation data frame opcode") []
        else if f.finished then .msg [f] []
        else .next [f] (heldLen [] + (f.data.length + overhead))) := rfl
      rw [e]
      simp only [List.nil_append]
      split
      · exact ⟨s1, hs1, rfl, by simp [syncOut, ← hb]⟩
      · split
        · exact ⟨s1, hs1, rfl, rfl⟩
        · exact recvLoop_clean { r with buffer := [f] } hr (by simp) _ s1 hs1
    | err e rest =>
      rw [hpf] at hp
      obtain ⟨hp1, rfl⟩ := hp
      rw [hp1, pLoop_err (c := r.cfg) hpf]
      exact ⟨s1, hs1, rfl, by simp [syncOut, ← hb]⟩
    | more =>
      rw [hpf] at hp
      obtain ⟨hp1, hfl⟩ := hp
      rw [hp1, pLoop_more (c := r.cfg) hpf]
      exact ⟨s1, hs1, rfl, by simp [syncOut, ← hb, hfl]⟩
  · simp only [hb, if_false]
    exact recvLoop_clean r hr hb _ s hs

/-- `recv_message` on a clean transport: a function of the bytes. -/
def Receiver.recvBytes (r : Receiver) (bs : Bytes) : Res OwnedMsg × Receiver × Bytes :=
  match pLoop r.cfg r.buffer (heldLen r.buffer) bs with
  | .msg fs b rest => (OwnedMsg.fromDataframes (fs.map DataFrame.view), { r with buffer := b }, rest)
  | .fail e b rest => (.err e, { r with buffer := b }, rest)
  | .bad e b _ rest => (.err e, { r with buffer := b }, rest)
  | .more b _ _ => (.err .noData, { r with buffer := b }, [])

theorem recvMessage_clean (r : Receiver) (hr : r.maxDf ≤ isizeMax) (s : Src) (hs : s.Clean) :
    ∃ s', Src.Clean s' ∧ r.recvMessage s = ((r.recvBytes s.flat).1, (r.recvBytes s.flat).2.1, s') ∧
      s'.flat = (r.recvBytes s.flat).2.2 := by
  obtain ⟨s', hs', h1, h2⟩ := recvMessageDataframes_clean r hr s hs
  refine ⟨s', hs', ?_⟩
  unfold Receiver.recvMessage Receiver.recvBytes
  cases hx : r.recvMessageDataframes s with
  | mk a b =>
    obtain ⟨r', s''⟩ := b
    rw [hx] at h1 h2
    simp only at h1 h2
    subst h1
    cases hp : pLoop r.cfg r.buffer (heldLen r.buffer) s.flat <;> rw [hp] at h2 <;>
      simp only [syncOut, Prod.mk.injEq] at h2 <;> obtain ⟨rfl, rfl, h⟩ := h2 <;> simp [h]

end WS
