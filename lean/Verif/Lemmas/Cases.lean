import Verif.Model.Cases
import Verif.Spec.Cases
import Verif.Lemmas.Echo
/-! The clients of the test suite. -/

namespace WS
open Spec (Says Number LastNumber placeValue)

/-! ### Numbers -/

theorem addDigit_iff {a : Nat} {c : UInt8} {n : Nat} :
    addDigit a c = some n ↔ (48 ≤ c.toNat ∧ c.toNat ≤ 57) ∧ n = a * 10 + (c.toNat - 48) ∧ n < 2 ^ 64 := by
  have h1 : (48 : UInt8) ≤ c ↔ 48 ≤ c.toNat := UInt8.le_iff_toNat_le
  have h2 : c ≤ (57 : UInt8) ↔ c.toNat ≤ 57 := UInt8.le_iff_toNat_le
  unfold addDigit usizeMax
  simp only [h1, h2]
  split
  · split
    · constructor
      · intro h; cases h
      · rintro ⟨-, rfl, h⟩; omega
    · split
      · constructor
        · intro h; cases h
        · rintro ⟨-, rfl, h⟩; omega
      · constructor
        · intro h; cases h; exact ⟨by assumption, rfl, by omega⟩
        · rintro ⟨-, rfl, h⟩; rfl
  · constructor
    · intro h; cases h
    · rintro ⟨h, -⟩; contradiction

theorem fold_iff (ds : Bytes) (a n : Nat) (ha : a < 2 ^ 64) :
    ds.foldlM addDigit a = some n ↔
      (∀ d ∈ ds, 48 ≤ d.toNat ∧ d.toNat ≤ 57) ∧ a * 10 ^ ds.length + placeValue ds = n ∧ n < 2 ^ 64 := by
  induction ds generalizing a with
  | nil =>
    simp only [List.foldlM_nil, placeValue, List.length_nil, Nat.pow_zero, Nat.mul_one, Nat.add_zero]
    constructor
    · intro h; cases h; exact ⟨by simp, rfl, ha⟩
    · rintro ⟨-, rfl, -⟩; rfl
  | cons d ds ih =>
    have e : ∀ b, (a * 10 + b) * 10 ^ ds.length + placeValue ds = a * 10 ^ (ds.length + 1) + (b * 10 ^ ds.length + placeValue ds) := by
      intro b
      rw [Nat.add_mul, Nat.pow_succ, Nat.mul_assoc, Nat.mul_comm 10, Nat.add_assoc]
    have hpos : 0 < 10 ^ ds.length := Nat.pow_pos (by decide)
    simp only [List.foldlM_cons, Option.bind_eq_bind, Option.bind_eq_some_iff, placeValue, List.length_cons, List.mem_cons,
      forall_eq_or_imp]
    constructor
    · rintro ⟨k, hk, h⟩
      obtain ⟨g1, rfl, g3⟩ := addDigit_iff.mp hk
      obtain ⟨i1, i2, i3⟩ := (ih _ g3).mp h
      exact ⟨⟨g1, i1⟩, by rw [← e]; exact i2, i3⟩
    · rintro ⟨⟨g1, i1⟩, i2, i3⟩
      rw [← e] at i2
      have hk : a * 10 + (d.toNat - 48) < 2 ^ 64 := by
        have := Nat.le_mul_of_pos_right (a * 10 + (d.toNat - 48)) hpos
        omega
      exact ⟨_, addDigit_iff.mpr ⟨g1, rfl, hk⟩, (ih _ hk).mpr ⟨i1, i2, i3⟩⟩

/-- The parser of the standard library, against place values. -/
theorem parseUsize_iff (bs : Bytes) (n : Nat) : parseUsize bs = some n ↔ Number bs n := by
  have plain : ∀ ds : Bytes, ds ≠ [] → (ds.foldlM addDigit 0 = some n ↔
      ds ≠ [] ∧ (∀ d ∈ ds, 48 ≤ d.toNat ∧ d.toNat ≤ 57) ∧ placeValue ds = n ∧ n < 2 ^ 64) := by
    intro ds hd
    rw [fold_iff ds 0 n (by decide)]
    simp [hd]
  have sign : ∀ {ds : Bytes}, (∀ d ∈ (43 : UInt8) :: ds, 48 ≤ d.toNat ∧ d.toNat ≤ 57) → False := by
    intro ds h
    have := (h 43 List.mem_cons_self).1
    exact absurd this (by decide)
  unfold parseUsize Number
  split
  · constructor
    · intro h; cases h
    · rintro ⟨ds, rfl | h, h1, -⟩
      · exact absurd rfl h1
      · cases h
  · next c =>
    have hf : addDigit 0 c = [c].foldlM addDigit 0 := by simp
    split
    · next hc =>
      constructor
      · intro h; cases h
      · rintro ⟨ds, rfl | h, h1, h2, -⟩
        · have := (h2 c List.mem_cons_self).1
          rcases hc with rfl | rfl <;> exact absurd this (by decide)
        · cases h; exact absurd rfl h1
    · next hc =>
      rw [hf, plain [c] (by simp)]
      constructor
      · exact fun h => ⟨[c], .inl rfl, h⟩
      · rintro ⟨ds, rfl | h, h1⟩
        · exact h1
        · cases h; exact absurd (.inl rfl) hc
  · next c d cs =>
    split
    · next hc =>
      subst hc
      rw [plain (d :: cs) (by simp)]
      constructor
      · exact fun h => ⟨d :: cs, .inr rfl, h⟩
      · rintro ⟨ds, rfl | h, h1⟩
        · exact (sign h1.2.1).elim
        · cases h; exact h1
    · next hc =>
      rw [plain (c :: d :: cs) (by simp)]
      constructor
      · exact fun h => ⟨_, .inl rfl, h⟩
      · rintro ⟨ds, rfl | h, h1⟩
        · exact h1
        · cases h; exact absurd rfl hc

theorem number_unique {bs : Bytes} {m n : Nat} (h : Number bs m) (h' : Number bs n) : m = n := by
  rw [← parseUsize_iff] at h h'
  rw [h] at h'
  exact Option.some.inj h'

/-! ### Blocking -/

theorem send_because_borrowed (w : Writer) (key : Key4) :
    w.send (Msg.closeBecause 1002 []).view key = w.send (OwnedMsg.close (some ⟨1002, []⟩)).view key := by
  have : ∀ k, (Msg.closeBecause 1002 []).view.encode k = (OwnedMsg.close (some ⟨1002, []⟩)).view.encode k :=
    fun k => (Msg.encode_toOwned (m := Msg.closeBecause 1002 []) rfl 125 ⟨isUtf8_ascii (by decide), by decide, by decide⟩ k).1.trans
      (congrArg (fun m : OwnedMsg => m.view.encode k) (by decide +kernel))
  unfold Writer.send Sender.send FrameView.writeTo
  rw [this]

/-- What the loops say last. -/
def farewell : Res OwnedMsg → List Spec.Message
  | .ok _ => [.close]
  | _ => [.closeWith 1002 []]

/-- The calls yield `ms`, no close among them, and then a text. -/
structure HearsText (r : Receiver) (s : Src) (ms : List OwnedMsg) (t : Bytes) : Prop where
  calls : (r.recvMany (ms.length + 1) s).1 = ms.map Res.ok ++ [.ok (.text t)]
  open_ : ∀ m ∈ ms, m.isClose = false

theorem HearsText.more {r r' : Receiver} {s s' : Src} {m : OwnedMsg} {ms : List OwnedMsg} {t : Bytes}
    (h : r.recvMessage s = (.ok m, r', s')) (hm : m.isClose = false) (hs : HearsText r' s' ms t) : HearsText r s (m :: ms) t := by
  refine ⟨?_, ?_⟩
  · have := hs.calls
    simp only [List.length_cons, Receiver.recvMany, h, List.map_cons, List.cons_append]
    simp only [Receiver.recvMany] at this
    exact congrArg _ this
  · intro a ha
    rcases List.mem_cons.mp ha with rfl | ha
    · exact hm
    · exact hs.open_ a ha

/-- The outcome of `caseCountLoop`. -/
def Counted (count : Nat) (r : Receiver) (s : Src) (w : Writer) (out : Option Nat × Writer) : Prop :=
  (∃ ms x n bs, Hears r s ms x ∧ LastNumber count (ms.map OwnedMsg.spec) n ∧ out.1 = some n ∧
    out.2.stream.wire = w.stream.wire ++ bs ∧
    Says w.sender.mask ((ms.map OwnedMsg.spec).filterMap Spec.Message.pongFor ++ farewell x) bs) ∨
  ∃ ms t k bs, HearsText r s ms t ∧ LastNumber count (ms.map OwnedMsg.spec) k ∧ (∀ n, ¬ Number t n) ∧ out.1 = none ∧
    out.2.stream.wire = w.stream.wire ++ bs ∧ Says w.sender.mask ((ms.map OwnedMsg.spec).filterMap Spec.Message.pongFor) bs

/-- One message that is not answered. -/
theorem Counted.quiet {count k : Nat} {r r' : Receiver} {s s' : Src} {w : Writer} {out : Option Nat × Writer} {m : OwnedMsg}
    (h : r.recvMessage s = (.ok m, r', s')) (hm : m.isClose = false) (ha : m.spec.pongFor = none)
    (hk : ∀ ms n, LastNumber k ms n → LastNumber count (m.spec :: ms) n) (ih : Counted k r' s' w out) : Counted count r s w out := by
  rcases ih with ⟨ms, x, n, bs, g1, g2, g3, g4, g5⟩ | ⟨ms, t, n, bs, g1, g2, g3, g4, g5, g6⟩
  · refine .inl ⟨m :: ms, x, n, bs, g1.more h hm, hk _ _ g2, g3, g4, ?_⟩
    rw [List.map_cons, List.filterMap_cons, ha]
    exact g5
  · refine .inr ⟨m :: ms, t, n, bs, g1.more h hm, hk _ _ g2, g3, g4, g5, ?_⟩
    rw [List.map_cons, List.filterMap_cons, ha]
    exact g6

/-- One ping. -/
theorem Counted.ping {count : Nat} {r r' : Receiver} {s s' : Src} {w w' : Writer} {out : Option Nat × Writer} {d : Bytes} {key : Key4}
    (hw : w.stream.Willing) (h : r.recvMessage s = (.ok (.ping d), r', s')) (hs : (OwnedMsg.pong d).spec.Sendable isizeMax)
    (hsend : w.send (OwnedMsg.pong d).view key = (.ok (), w')) (ih : w'.stream.Willing → Counted count r' s' w' out) :
    Counted count r s w out := by
  obtain ⟨b0, w1, h1, h2, h3, h4, h5⟩ := writer_send w hw isize_lt hs key
  rw [hsend] at h1
  cases h1
  have hk : ∀ ms n, LastNumber count ms n → LastNumber count ((OwnedMsg.ping d).spec :: ms) n :=
    fun ms n g => .other (by intro t e; cases e) g
  rcases ih h3 with ⟨ms, x, n, bs, g1, g2, g3, g4, g5⟩ | ⟨ms, t, n, bs, g1, g2, g3, g4, g5, g6⟩
  · refine .inl ⟨.ping d :: ms, x, n, b0 ++ bs, g1.more h rfl, hk _ _ g2, g3, by rw [g4, h4, List.append_assoc], ?_⟩
    rw [h2] at g5
    exact Says.append (ms := [(OwnedMsg.pong d).spec]) h5 g5
  · refine .inr ⟨.ping d :: ms, t, n, b0 ++ bs, g1.more h rfl, hk _ _ g2, g3, g4, by rw [g5, h4, List.append_assoc], ?_⟩
    rw [h2] at g6
    exact Says.append (ms := [(OwnedMsg.pong d).spec]) h5 g6

theorem case_count_loop (keys : Nat → Key4) (count : Nat) (r : Receiver) (s : Src) (w : Writer) (hf : Fit r) (hw : w.stream.Willing) :
    Counted count r s w (caseCountLoop keys count r s w) := by
  have hst := fit_step hf s
  fun_induction caseCountLoop keys count r s w with
  | case1 keys count r s w r' s' t h n hn _ ih =>
    rw [h] at hst
    have hf' := (hst.2 _ rfl).1
    exact .quiet h rfl rfl (fun ms k g => .text ((parseUsize_iff _ _).mp hn) g) (ih hf' hw (fit_step hf' _))
  | case2 keys count r s w r' s' t h hn =>
    refine .inr ⟨[], t, count, [], ⟨?_, by simp⟩, .none, ?_, rfl, by simp, says_nil _⟩
    · simp [Receiver.recvMany, h]
    · intro n hc
      rw [(parseUsize_iff _ _).mpr hc] at hn
      cases hn
  | case3 keys count r s w r' s' c h x w' hs =>
    rw [send_close_borrowed] at hs
    obtain ⟨bs, w1, h1, h2, h3, h4, h5⟩ := writer_send w hw isize_lt (sendable_close _) (keys 0)
    rw [hs] at h1
    cases h1
    exact .inl ⟨[], _, count, bs, .last (by rw [h]; intro m hm; cases hm; rfl), .none, rfl, h4, by rw [h]; exact h5⟩
  | case4 keys count r s w r' s' d h u w' hs _ ih =>
    rw [h] at hst
    obtain ⟨hf', hd⟩ := hst.2 _ rfl
    exact .ping hw h (sendable_pong hd) hs fun b => ih hf' b (fit_step hf' _)
  | case5 keys count r s w r' s' d h x w' hne hs =>
    rw [h] at hst
    exact absurd (send_never_fails hw (sendable_pong ((hst.2 _ rfl).2)) hs) (by rintro rfl; exact hne () rfl)
  | case6 keys count r s w r' s' b h _ ih =>
    rw [h] at hst
    have hf' := (hst.2 _ rfl).1
    exact .quiet h rfl rfl (fun ms k g => .other (by intro t e; cases e) g) (ih hf' hw (fit_step hf' _))
  | case7 keys count r s w r' s' b h _ ih =>
    rw [h] at hst
    have hf' := (hst.2 _ rfl).1
    exact .quiet h rfl rfl (fun ms k g => .other (by intro t e; cases e) g) (ih hf' hw (fit_step hf' _))
  | case8 keys count r s w e r' s' h x w' hs =>
    rw [send_because_borrowed] at hs
    obtain ⟨bs, w1, h1, h2, h3, h4, h5⟩ := writer_send (m := .close (some ⟨1002, []⟩)) w hw (lim := 125) (by decide)
      ⟨isUtf8_ascii (by decide), by decide, by decide⟩ (keys 0)
    rw [hs] at h1
    cases h1
    exact .inl ⟨[], _, count, bs, .last (by rw [h]; intro m hm; cases hm), .none, rfl, h4, by rw [h]; exact h5⟩
  | case9 keys count r s w e r' s' h => rw [h] at hst; cases hst.1

theorem reports_loop (keys : Nat → Key4) (r : Receiver) (s : Src) (w : Writer) (hf : Fit r) (hw : w.stream.Willing) :
    Echoed Spec.Message.pongFor r s w (reportsLoop keys r s w) fun _ => (.returned, [.close]) := by
  have hst := fit_step hf s
  fun_induction reportsLoop keys r s w with
  | case1 keys r s w r' s' c h x w' hs =>
    rw [send_close_borrowed] at hs
    exact .bye hw (by rw [h]; intro m hm; cases hm; rfl) hs rfl
  | case2 keys r s w r' s' d h u w' hs _ ih =>
    rw [h] at hst
    exact .more hf hw h rfl rfl (sendable_pong ((hst.2 _ rfl).2)) hs fun a b => ih a b (fit_step a _)
  | case3 keys r s w r' s' d h x w' hne hs =>
    rw [h] at hst
    exact absurd (send_never_fails hw (sendable_pong ((hst.2 _ rfl).2)) hs) (by rintro rfl; exact hne () rfl)
  | case4 keys r s w m r' s' h _ h1 h2 ih =>
    refine .quiet hf h ?_ ?_ fun a => ih a hw (fit_step a _)
    · cases m <;> first | rfl | exact (h1 _ h rfl HEq.rfl).elim
    · cases m <;> first | rfl | exact (h1 _ h rfl HEq.rfl).elim | exact (h2 _ h rfl HEq.rfl).elim
  | case5 keys r s w e r' s' h x w' hs =>
    rw [send_close_borrowed] at hs
    exact .bye hw (by rw [h]; intro m hm; cases hm) hs rfl
  | case6 keys r s w e r' s' h => rw [h] at hst; cases hst.1

/-! ### Async -/

/-- What the loop says last. -/
def asyncFarewell : Item OwnedMsg → List Spec.Message
  | .done => []
  | _ => [.close]

theorem next_good (s : Src) (fr : Framed MsgCodec) (h : FitAsync fr.codec) :
    (∀ p, (fr.next msgDecoder s).1 ≠ .panic p) ∧ ∀ m, (fr.next msgDecoder s).1 = .item m →
      m.spec.Sendable isizeMax ∧ FitAsync (fr.next msgDecoder s).2.1.codec := by
  fun_induction Framed.next msgDecoder fr s with
  | case1 fr s x fr1 s1 hp =>
    have := poll_good msgDecoder_good s fr h
    rw [hp] at this
    cases x with
    | item m => exact ⟨fun p e => (by cases e), fun m' e => by cases e; exact ⟨this.2, this.1⟩⟩
    | panic p => exact this.elim
    | _ => exact ⟨fun p e => (by cases e), fun m e => by cases e⟩
  | case2 fr s fr1 s1 hp ih =>
    have := poll_good msgDecoder_good s fr h
    rw [hp] at this
    exact ih this

theorem AHears.last' {fr : Framed MsgCodec} {s : Src} (hx : ∀ m, (fr.next msgDecoder s).1 = .item m → m.isClose = true) :
    AHears fr s [] (fr.next msgDecoder s).1 := by
  refine ⟨?_, by simp, hx⟩
  simp [Framed.nextMany]

theorem AHears.more' {fr fr' : Framed MsgCodec} {s s' : Src} {m : OwnedMsg} {ms : List OwnedMsg} {x : Item OwnedMsg}
    (h : fr.next msgDecoder s = (.item m, fr', s')) (hm : m.isClose = false) (hs : AHears fr' s' ms x) :
    AHears fr s (m :: ms) x := by
  refine ⟨?_, ?_, hs.stop⟩
  · have := hs.calls
    simp only [List.length_cons, Framed.nextMany, h, List.map_cons, List.cons_append]
    simp only [Framed.nextMany] at this
    exact congrArg _ this
  · intro a ha
    rcases List.mem_cons.mp ha with rfl | ha
    · exact hm
    · exact hs.open_ a ha

/-- Sending on a patient transport, nothing queued before. -/
theorem await_says {fw : FramedWrite} {w : Sink} (h : w.Patient) (hb : fw.buf.WF) (he : fw.buf.data = []) {m : OwnedMsg}
    (hm : m.spec.Sendable isizeMax) (key : Key4) (extra : Nat) :
    ∃ bs fw' w', fw.sendAwait m.view key extra w = (.ready, fw', w') ∧ w'.wire = w.wire ++ bs ∧ Says (!fw.isServer) [m.spec] bs ∧
      w'.Patient ∧ fw'.buf.WF ∧ fw'.buf.data = [] ∧ fw'.isServer = fw.isServer := by
  obtain ⟨bs, fw', w', h1, h2, h3, h4, h5, h6, h7⟩ := sendAwait_patient fw w h hb he hm key extra
  refine ⟨bs, fw', w', h2, h3, says_encode isize_lt hm _ key ?_, h4, h5, h6, h7⟩
  rw [← h1]
  cases fw.isServer <;> rfl

/-- Sending on any transport, nothing queued before: success means that the whole frame was written, failure that a part was. -/
theorem await_any {fw : FramedWrite} (w : Sink) (hb : fw.buf.WF) (he : fw.buf.data = []) {m : OwnedMsg}
    (hm : m.spec.Sendable isizeMax) (key : Key4) (extra : Nat) :
    ∃ bs, Says (!fw.isServer) [m.spec] bs ∧
      (((fw.sendAwait m.view key extra w).1 = .ready ∧ (fw.sendAwait m.view key extra w).2.2.wire = w.wire ++ bs) ∨
        (∃ e pre, (fw.sendAwait m.view key extra w).1 = .err e ∧ pre <+: bs ∧ (fw.sendAwait m.view key extra w).2.2.wire = w.wire ++ pre)) := by
  obtain ⟨bs, hbs⟩ := encode_sendable hm (if fw.isServer then none else some key)
  have hc := C07_encode_into_buffer fw.isServer m.view m.lawful key extra fw.buf hb
  rw [hbs] at hc
  obtain ⟨cap, h1, h2⟩ := hc
  have hss : fw.startSend m.view key extra w = (.ready, { fw with buf := ⟨fw.buf.data ++ bs, cap⟩ }, w) := by
    unfold FramedWrite.startSend
    simp only
    rw [if_neg (by rw [he]; decide)]
    split
    · next q => rw [h1] at q; cases q; rfl
    · next q => rw [h1] at q; cases q
    · next q => rw [h1] at q; cases q
  have hs := drain_spec { fw with buf := ⟨fw.buf.data ++ bs, cap⟩ } w h2
  have e : fw.sendAwait m.view key extra w = FramedWrite.drain { fw with buf := ⟨fw.buf.data ++ bs, cap⟩ } w := by
    rw [FramedWrite.sendAwait]
    split
    · next q => rw [hss] at q; cases q
    · next q => rw [hss] at q; cases q; rfl
    · next q1 q2 q => rw [hss] at q; cases q; exact absurd rfl q2
  refine ⟨bs, says_encode isize_lt hm _ key (by rw [← hbs]; cases fw.isServer <;> rfl), ?_⟩
  rw [e]
  obtain ⟨g1, ⟨t, g2⟩, g3, g4, g5, -⟩ := hs
  rw [he, List.nil_append] at *
  cases hr : (FramedWrite.drain { fw with buf := ⟨bs, cap⟩ } w).1 with
  | ready =>
    left
    rw [g3 hr, List.append_nil] at g1
    exact ⟨rfl, g1⟩
  | notReady => exact absurd hr g4
  | panic x => exact absurd hr (g5 x)
  | err x =>
    right
    refine ⟨x, t, rfl, ?_, g2.symm⟩
    rw [← g2, List.append_assoc] at g1
    exact ⟨_, List.append_cancel_left g1⟩

/-- The outcome of `asyncCaseLoop`. -/
def Ran (fr : Framed MsgCodec) (s : Src) (fw : FramedWrite) (w : Sink) (out : Ending × Sink) : Prop :=
  ∃ ms x bs, AHears fr s ms x ∧ (∀ p, x ≠ .panic p) ∧ out.1 = .returned ∧ out.2.wire = w.wire ++ bs ∧
    Says (!fw.isServer) ((ms.map OwnedMsg.spec).filterMap Spec.Message.reply ++ asyncFarewell x) bs

theorem Ran.more {fr fr' : Framed MsgCodec} {s s' : Src} {fw fw' : FramedWrite} {w w' : Sink} {out : Ending × Sink} {m a : OwnedMsg}
    {key : Key4} {extra : Nat} (hw : w.Patient) (hb : fw.buf.WF) (he : fw.buf.data = [])
    (h : fr.next msgDecoder s = (.item m, fr', s')) (hm : m.isClose = false) (ha : m.spec.reply = some a.spec)
    (hs : a.spec.Sendable isizeMax) (hsend : fw.sendAwait a.view key extra w = (.ready, fw', w'))
    (ih : w'.Patient → fw'.buf.WF → fw'.buf.data = [] → Ran fr' s' fw' w' out) : Ran fr s fw w out := by
  obtain ⟨b0, fw1, w1, h1, h2, h3, h4, h5, h6, h7⟩ := await_says hw hb he hs key extra
  rw [hsend] at h1
  cases h1
  obtain ⟨ms, x, bs, g1, g2, g3, g4, g5⟩ := ih h4 h5 h6
  refine ⟨m :: ms, x, b0 ++ bs, g1.more' h hm, g2, g3, by rw [g4, h2, List.append_assoc], ?_⟩
  rw [h7] at g5
  rw [List.map_cons, List.filterMap_cons_some ha]
  exact Says.append (ms := [a.spec]) h3 g5

theorem await_never_fails {fw fw' : FramedWrite} {w w' : Sink} {r : SendRes} (hw : w.Patient) (hb : fw.buf.WF) (he : fw.buf.data = [])
    {m : OwnedMsg} {key : Key4} {extra : Nat} (hs : m.spec.Sendable isizeMax) (h : fw.sendAwait m.view key extra w = (r, fw', w')) :
    r = .ready := by
  obtain ⟨b0, fw1, w1, h1, -⟩ := await_says hw hb he hs key extra
  rw [h] at h1
  cases h1
  rfl

theorem Ran.bye {fr : Framed MsgCodec} {s : Src} {fw fw' : FramedWrite} {w w' : Sink} {key : Key4} {extra : Nat}
    (hw : w.Patient) (hb : fw.buf.WF) (he : fw.buf.data = []) (hp : ∀ p, (fr.next msgDecoder s).1 ≠ .panic p)
    (h : ∀ m, (fr.next msgDecoder s).1 = .item m → m.isClose = true) (hl : asyncFarewell (fr.next msgDecoder s).1 = [.close])
    (hs : fw.sendAwait (OwnedMsg.close none).view key extra w = (.ready, fw', w')) : Ran fr s fw w (.returned, w') := by
  obtain ⟨b0, fw1, w1, h1, h2, h3, -⟩ := await_says hw hb he (sendable_close _) key extra
  rw [hs] at h1
  cases h1
  exact ⟨[], _, b0, .last' h, hp, rfl, h2, by rw [hl]; exact h3⟩

theorem async_case_loop (keys : Nat → Key4) (extra : Nat) (fr : Framed MsgCodec) (s : Src) (fw : FramedWrite) (w : Sink)
    (hf : FitAsync fr.codec) (hw : w.Patient) (hb : fw.buf.WF) (he : fw.buf.data = []) :
    Ran fr s fw w (asyncCaseLoop keys extra fr s fw w) := by
  have hst := next_good s fr hf
  fun_induction asyncCaseLoop keys extra fr s fw w with
  | case1 keys fr s fw w fr' s' t h fw' w' hs _ ih =>
    rw [h] at hst
    obtain ⟨hm, hf'⟩ := hst.2 _ rfl
    exact .more hw hb he h rfl rfl (id hm) hs fun a b c => ih hf' a b c (next_good _ _ hf')
  | case2 keys fr s fw w fr' s' t h e fw' w' hs =>
    rw [h] at hst
    cases await_never_fails hw hb he (id (hst.2 _ rfl).1) hs
  | case3 keys fr s fw w fr' s' t h r fw' w' hne _ hs =>
    rw [h] at hst
    exact absurd (await_never_fails hw hb he (id (hst.2 _ rfl).1) hs) hne
  | case4 keys fr s fw w fr' s' t h fw' w' hs _ ih =>
    rw [h] at hst
    obtain ⟨hm, hf'⟩ := hst.2 _ rfl
    exact .more hw hb he h rfl rfl (id hm) hs fun a b c => ih hf' a b c (next_good _ _ hf')
  | case5 keys fr s fw w fr' s' t h e fw' w' hs =>
    rw [h] at hst
    cases await_never_fails hw hb he (id (hst.2 _ rfl).1) hs
  | case6 keys fr s fw w fr' s' t h r fw' w' hne _ hs =>
    rw [h] at hst
    exact absurd (await_never_fails hw hb he (id (hst.2 _ rfl).1) hs) hne
  | case7 keys fr s fw w fr' s' t h fw' w' hs _ ih =>
    rw [h] at hst
    obtain ⟨hm, hf'⟩ := hst.2 _ rfl
    exact .more hw hb he h rfl rfl (sendable_pong hm) hs fun a b c => ih hf' a b c (next_good _ _ hf')
  | case8 keys fr s fw w fr' s' t h e fw' w' hs =>
    rw [h] at hst
    cases await_never_fails hw hb he (sendable_pong (hst.2 _ rfl).1) hs
  | case9 keys fr s fw w fr' s' t h r fw' w' hne _ hs =>
    rw [h] at hst
    exact absurd (await_never_fails hw hb he (sendable_pong (hst.2 _ rfl).1) hs) hne
  | case10 keys fr s fw w fr' s' c h fw' w' hs =>
    exact .bye hw hb he hst.1 (by rw [h]; intro m hm; cases hm; rfl) (by rw [h]; rfl) hs
  | case11 keys fr s fw w fr' s' c h e fw' w' hs => cases await_never_fails hw hb he (sendable_close _) hs
  | case12 keys fr s fw w fr' s' c h r fw' w' hne _ hs => exact absurd (await_never_fails hw hb he (sendable_close _) hs) hne
  | case13 keys fr s fw w fr' s' d h _ ih =>
    rw [h] at hst
    have hf' := (hst.2 _ rfl).2
    obtain ⟨ms, x, bs, g1, g2, g3, g4, g5⟩ := ih hf' hw hb he (next_good _ _ hf')
    exact ⟨.pong d :: ms, x, bs, g1.more' h rfl, g2, g3, g4, g5⟩
  | case14 keys fr s fw w fr' s' h =>
    refine ⟨[], _, [], .last' (by rw [h]; intro m hm; cases hm), hst.1, rfl, by simp, ?_⟩
    rw [h]
    exact says_nil _
  | case15 keys fr s fw w e0 fr' s' h fw' w' hs =>
    exact .bye hw hb he hst.1 (by rw [h]; intro m hm; cases hm) (by rw [h]; rfl) hs
  | case16 keys fr s fw w e0 fr' s' h e fw' w' hs => cases await_never_fails hw hb he (sendable_close _) hs
  | case17 keys fr s fw w e0 fr' s' h r fw' w' hne _ hs => exact absurd (await_never_fails hw hb he (sendable_close _) hs) hne
  | case18 keys fr s fw w p fr' s' h => exact absurd (by rw [h]) (hst.1 p)

end WS
