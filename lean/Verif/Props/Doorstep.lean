import Verif.Lemmas.Doorstep
import Verif.Props.Gate
import Verif.Props.Stranger
/-!
# C84: a program that opens its connection, and a peer that does as it likes

Whatever comes from the first byte on, in whatever pieces and at whatever times: whether the program gets its connection, what it has written, and everything that happens to it afterwards is decided by the bytes that
came.
-/

namespace WS
open Spec

section
variable [B64] {preq : ReqParser} {pres : ResParser} {B : Bytes} {how : Opening} {w : Sink} {before : Bytes} {mask : Bool} {hearing : Bytes → Nat → Heard} {ruling : Bytes → Ruling}

/-- C84: at any time, what has happened to the program is what it does when its receiving calls return what they would return if all bytes behind the peer's half of the handshake were there from the
beginning; and nothing has happened to it if the bytes do not begin with such a half. -/
theorem C84_heeds (h : AtDoor preq pres B how w before mask hearing ruling) (plan : Plan) (keys : Nat → Key4) (extra : Nat → Nat) (es : List Brings) (hp : came es <+: B)
    (hf : finished es = true → came es = B) :
    let v := (Visitor.start plan keys extra how w).endures preq pres es
    (∀ written rest, ruling B = .opens written rest → Heeds plan (hearing rest) v.past) ∧ ((∀ written rest, ruling B ≠ .opens written rest) → v.past = []) := by
  intro v
  obtain ⟨mind, R', -, -, hh, -, hs, -⟩ := door_run h plan keys extra es hp hf
  replace hs : DStage plan keys extra how w before mask mind ruling B v R' := hs
  generalize v = v at hs
  cases hs with
  | opening => exact ⟨fun _ _ _ => .start, fun _ => rfl⟩
  | failed => exact ⟨fun _ _ _ => .start, fun _ => rfl⟩
  | talking a written rest R hr he =>
    refine ⟨fun w' r' hr' => ?_, fun hn => absurd hr (hn _ _)⟩
    rw [hr] at hr'
    cases hr'
    rw [← hh _ _ hr]
    exact he.heeds

/-- C84: so two runs of a program against peers that send the same bytes agree as far as both have come: it does not matter how the bytes were cut, handshake and frames, when they came, when the
program had its turns, which masking keys it drew, what the allocator did or how the transport took what it wrote. -/
theorem C84_deterministic {how' : Opening} {w' : Sink} {before' : Bytes} {mask' : Bool} (h : AtDoor preq pres B how w before mask hearing ruling)
    (h' : AtDoor preq pres B how' w' before' mask' hearing ruling) (plan : Plan) (keys keys' : Nat → Key4) (extra extra' : Nat → Nat) (es es' : List Brings) (hp : came es <+: B)
    (hf : finished es = true → came es = B) (hp' : came es' <+: B) (hf' : finished es' = true → came es' = B) :
    Agree ((Visitor.start plan keys extra how w).endures preq pres es).past ((Visitor.start plan keys' extra' how' w').endures preq pres es').past := by
  have h1 := C84_heeds h plan keys extra es hp hf
  have h2 := C84_heeds h' plan keys' extra' es' hp' hf'
  cases hr : ruling B with
  | waits => rw [h1.2 (by rw [hr]; nofun), h2.2 (by rw [hr]; nofun)]; exact .inl (List.prefix_refl _)
  | refuses => rw [h1.2 (by rw [hr]; nofun), h2.2 (by rw [hr]; nofun)]; exact .inl (List.prefix_refl _)
  | opens written rest => exact heeds_agree (h1.1 _ _ hr) (h2.1 _ _ hr)

/-- C84: and the program has written nothing; or its request, if it is a client; or, if the bytes begin with the peer's half of the handshake, its own half and behind it exactly the frames of the
messages it sent with success. -/
theorem C84_writes (h : AtDoor preq pres B how w before mask hearing ruling) (plan : Plan) (keys : Nat → Key4) (extra : Nat → Nat) (es : List Brings) (hp : came es <+: B)
    (hf : finished es = true → came es = B) :
    let v := (Visitor.start plan keys extra how w).endures preq pres es
    (v.past = [] ∧ (v.agent.output.wire = [] ∨ v.agent.output.wire = before)) ∨
    ∃ written rest b, ruling B = .opens written rest ∧ v.agent.output.wire = written ++ b ∧
      (plan.Typed (hearing rest) → Says mask ((sentIn v.past).map OwnedMsg.spec) b) := by
  intro v
  obtain ⟨mind, R', -, -, hh, -, hs, -⟩ := door_run h plan keys extra es hp hf
  replace hs : DStage plan keys extra how w before mask mind ruling B v R' := hs
  generalize v = v at hs
  cases hs with
  | opening w' s ended R hw => exact .inl ⟨rfl, hw⟩
  | failed l R hw => exact .inl ⟨rfl, .inr hw⟩
  | talking a written rest R hr he =>
    obtain ⟨b, h1, h2⟩ := he.wire
    rw [hh _ _ hr] at h2
    exact .inr ⟨written, rest, b, hr, h1, h2⟩

/-- C84: while the bytes that have come may still become the peer's half of the handshake, the program waits. -/
theorem C84_waits (h : AtDoor preq pres B how w before mask hearing ruling) (plan : Plan) (keys : Nat → Key4) (extra : Nat → Nat) (es : List Brings) (hp : came es <+: B)
    (hf : finished es = false) (hr : ruling (came es) = .waits) : ∃ l, ((Visitor.start plan keys extra how w).endures preq pres es).agent = .opening l := by
  obtain ⟨h0, mind, hj, hc, -⟩ := door_judges h
  have := waiting (A := []) hj hc es (start_dstage (plan := plan) (keys := keys) (extra := extra) h0) rfl rfl rfl hp hf hr
  generalize (Visitor.start plan keys extra how w).endures preq pres es = v at this
  obtain ⟨_, _, _, _, agent⟩ := v
  cases agent with
  | opening l => exact ⟨l, rfl⟩
  | talking p => cases this
  | failed l => cases this

/-- C84: as soon as they are that, or cannot become it, or the end of the stream is there, the next turn settles it for good: from then on the program has its connection, or it has been told that it gets none,
as all the bytes say. -/
theorem C84_decides (h : AtDoor preq pres B how w before mask hearing ruling) (plan : Plan) (keys : Nat → Key4) (extra : Nat → Nat) (es fs : List Brings) (hp : came (es ++ .turn :: fs) <+: B)
    (hf : finished (es ++ .turn :: fs) = true → came (es ++ .turn :: fs) = B) (hd : ruling (came es) ≠ .waits ∨ finished es = true) :
    let v := (Visitor.start plan keys extra how w).endures preq pres (es ++ .turn :: fs)
    ((∃ written rest, ruling B = .opens written rest) ∧ ∃ p, v.agent = .talking p) ∨ ((∀ written rest, ruling B ≠ .opens written rest) ∧ ∃ l, v.agent = .failed l) := by
  intro v
  have hno : v.isOpening = false := by
    have hes : came es <+: B ∧ (finished es = true → came es = B) := by
      cases hx : finished es with
      | true =>
        obtain ⟨e1, e2⟩ := came_after es (.turn :: fs) hx
        exact ⟨by rw [← e1]; exact hp, fun _ => by rw [← e1]; exact hf e2⟩
      | false =>
        obtain ⟨e1, -⟩ := came_append es (.turn :: fs) hx
        exact ⟨(by rw [e1]; exact List.prefix_append _ _ : came es <+: came (es ++ .turn :: fs)).trans hp, nofun⟩
    obtain ⟨mind, R', hj, hc, -, h1, h2, h3⟩ := door_run h plan keys extra es hes.1 hes.2
    show (Visitor.endures preq pres (Visitor.start plan keys extra how w) (es ++ .turn :: fs)).isOpening = false
    rw [visitor_endures_append]
    obtain ⟨-, -, h4⟩ := turn_dstage hj hc h2
    exact not_opening_endures fs ((h4 _ h1).1 (hd.imp id fun hx => h3.trans hx))
  obtain ⟨mind, R', -, -, -, -, hs, -⟩ := door_run h plan keys extra (es ++ .turn :: fs) hp hf
  replace hs : DStage plan keys extra how w before mask mind ruling B v R' := hs
  generalize v = v at hs hno
  cases hs with
  | opening => cases hno
  | failed l R hw hr => exact .inr ⟨hr, l, rfl⟩
  | talking a written rest R hr he => exact .inl ⟨⟨_, _, hr⟩, _, rfl⟩

theorem actor_endures_visitor (es : List Brings) : ∀ a : Actor, a.visitor.endures preq pres es = (a.endures es).visitor := by
  induction es with
  | nil => exact fun _ => rfl
  | cons e es ih =>
    intro a
    show (a.visitor.meets preq pres e).endures preq pres es = _
    have : a.visitor.meets preq pres e = (a.meets e).visitor := by
      cases e with
      | turn => rfl
      | bytes b =>
        rw [meets_bytes, actor_meets_bytes]
        by_cases hc : a.party.ended = true ∨ b = []
        · rw [if_pos hc, if_pos (show a.visitor.agent.closed = true ∨ b = [] from hc)]
        · rw [if_neg hc, if_neg (show ¬ (a.visitor.agent.closed = true ∨ b = []) from hc)]; rfl
      | finish => rfl
    rw [this]
    exact ih _

/-- C84: when the end of the stream has come, no call waits any more: after one turn and `j` more the program has been told that it gets no connection, or it has ended, or `j` calls have returned. -/
theorem C84_goes_on (h : AtDoor preq pres B how w before mask hearing ruling) (plan : Plan) (keys : Nat → Key4) (extra : Nat → Nat) (es : List Brings) (hf : finished es = true)
    (hc : came es = B) (j : Nat) :
    let v := (Visitor.start plan keys extra how w).endures preq pres (es ++ List.replicate (j + 1) .turn)
    ((∀ written rest, ruling B ≠ .opens written rest) ∧ ∃ l, v.agent = .failed l) ∨
    (∃ written rest, ruling B = .opens written rest) ∧ (plan v.past = none ∨ j ≤ v.past.length) := by
  intro v
  obtain ⟨mind, R', hj, hcalm, -, h1, h2, h3⟩ := door_run h plan keys extra es (by rw [hc]; exact List.prefix_refl _) (fun _ => hc)
  obtain rfl : R' = [] := by
    have := congrArg List.length h1
    rw [hc, List.length_append] at this
    exact List.length_eq_zero_iff.mp (by omega)
  rw [hf] at h3
  obtain ⟨h4, h5, h6⟩ := turn_dstage hj hcalm h2
  have hv : v = (((Visitor.start plan keys extra how w).endures preq pres es).act preq pres).endures preq pres (List.replicate j .turn) := by
    show Visitor.endures preq pres _ _ = _
    rw [visitor_endures_append]; rfl
  have hno := (h6 B (List.append_nil _).symm).1 (.inr h3)
  rw [hv]
  clear hv
  rw [h3] at h5
  clear h6 h2 h3
  generalize ((Visitor.start plan keys extra how w).endures preq pres es).act preq pres = v' at h4 h5 hno
  cases h4 with
  | opening => cases hno
  | failed l R hw hr =>
    refine .inl ⟨hr, l, ?_⟩
    clear hno h5
    induction j with
    | zero => rfl
    | succ j ih => exact ih
  | talking a written rest R hr he =>
    refine .inr ⟨⟨_, _, hr⟩, ?_⟩
    rw [actor_endures_visitor]
    exact (ended_turns j he h5).2.imp id fun g => Nat.le_trans (Nat.le_add_left _ _) g

/-- C84: so everything that can happen does: if the bytes begin with the peer's half of the handshake, then whatever the program does when its receiving calls return what the bytes behind it say, it does within as
many turns as that has calls, and one. -/
theorem C84_everything_happens (h : AtDoor preq pres B how w before mask hearing ruling) (plan : Plan) (keys : Nat → Key4) (extra : Nat → Nat) (es : List Brings) (hf : finished es = true)
    (hc : came es = B) {written rest : Bytes} (hr : ruling B = .opens written rest) (past : List Event) (hpast : Heeds plan (hearing rest) past) (j : Nat) (hj : past.length ≤ j) :
    past <+: ((Visitor.start plan keys extra how w).endures preq pres (es ++ List.replicate (j + 1) .turn)).past := by
  obtain ⟨e1, e2⟩ := came_after es (List.replicate (j + 1) .turn) hf
  have h1 := (C84_heeds h plan keys extra (es ++ List.replicate (j + 1) .turn) (by rw [e1, hc]; exact List.prefix_refl _) (fun _ => by rw [e1, hc])).1 _ _ hr
  rcases heeds_agree hpast h1 with h2 | h2
  · exact h2
  · rcases C84_goes_on h plan keys extra es hf hc j with ⟨h3, -⟩ | ⟨-, h3 | h3⟩
    · exact absurd hr (h3 _ _)
    · rw [hpast.over h2 h3]; exact List.prefix_refl _
    · rw [h2.eq_of_length (by have := h2.length_le; omega)]; exact List.prefix_refl _

/-! ## Who is let in -/

theorem serverAnswer_iff (sops : List UpgradeOp) (custom : Option Headers) (m : Request) (written : Bytes) :
    serverAnswer sops custom m = some written ↔
      ∃ key, (∀ c ∈ mapConditions m.subject.method m.version m.headers, c.1) ∧ m.headers.getKey = some key ∧ written = head101 m.version (responseLines sops custom key) := by
  unfold serverAnswer
  constructor
  · intro h
    cases hv : validate m.subject.method m.version m.headers with
    | error e => rw [hv] at h; cases h
    | ok u =>
      rw [hv] at h
      obtain ⟨key, hk⟩ := validate_key hv
      rw [hk] at h
      cases h
      exact ⟨key, conditions_hold hv, hk, rfl⟩
  · rintro ⟨key, h1, h2, rfl⟩
    have := firstFailure_unique _ (C33_first_failure_map m.subject.method m.version m.headers) ((firstFailure_none _).mpr h1)
    rw [(validate_ok_iff _ _ _).mpr this, h2]
    rfl

/-- C84: a blocking server lets in exactly those whose first 2^19 bytes begin with a request that meets the conditions of C33, and then it has written the response to its key. -/
theorem C84_server_lets_in (preq : ReqParser) (sops : List UpgradeOp) (custom : Option Headers) (B written rest : Bytes) :
    headRuling preq (serverAnswer sops custom) B = .opens written rest ↔
      ∃ m n key, preq.parse (B.take (2 ^ 19)) = .complete m n ∧ (∀ c ∈ mapConditions m.subject.method m.version m.headers, c.1) ∧ m.headers.getKey = some key ∧
        written = head101 m.version (responseLines sops custom key) ∧ rest = B.drop n := by
  unfold headRuling
  constructor
  · intro h
    split at h
    · next m n hp =>
      cases ha : serverAnswer sops custom m with
      | none => rw [ha] at h; cases h
      | some w =>
        rw [ha] at h
        cases h
        obtain ⟨key, h1, h2, h3⟩ := (serverAnswer_iff sops custom m _).mp ha
        exact ⟨m, n, key, hp, h1, h2, h3, rfl⟩
    · cases h
    · split at h <;> cases h
  · rintro ⟨m, n, key, h1, h2, h3, h4, rfl⟩
    rw [h1]
    simp only
    rw [(serverAnswer_iff sops custom m written).mpr ⟨key, h2, h3, h4⟩]
    rfl

/-- C84: an async server looks at the bytes up to the first blank line. -/
theorem C84_async_server_lets_in (preq : ReqParser) (sops : List UpgradeOp) (custom : Option Headers) (B written rest : Bytes) :
    lineRuling preq (serverAnswer sops custom) B = .opens written rest ↔
      ∃ head m n key, FirstBlank B head rest ∧ preq.parse head = .complete m n ∧ (∀ c ∈ mapConditions m.subject.method m.version m.headers, c.1) ∧ m.headers.getKey = some key ∧
        written = head101 m.version (responseLines sops custom key) := by
  constructor
  · intro h
    obtain ⟨head, m, n, h1, h2, h3⟩ := lineRuling_opens _ _ h
    obtain ⟨key, h4, h5, h6⟩ := (serverAnswer_iff sops custom m written).mp h3
    exact ⟨head, m, n, key, splitOff_iff.mp h1, h2, h4, h5, h6⟩
  · rintro ⟨head, m, n, key, h1, h2, h3, h4, h5⟩
    unfold lineRuling
    rw [splitOff_iff.mpr h1]
    simp only [h2]
    rw [(serverAnswer_iff sops custom m written).mpr ⟨key, h3, h4, h5⟩]
    rfl

theorem clientAnswer_iff (url : Url) (ops : List BOp) (fresh key : WsKey) (hk : (((Builder.init url).run ops).buildRequest fresh).2.headers.getKey = some key) (v : HttpVersion) (code : Nat)
    (reason : Bytes) (lines : List (Bytes × Bytes)) (written : Bytes) :
    clientAnswer url ops fresh ⟨v, ⟨code, reason⟩, .fromRaw lines⟩ = some written ↔
      code = 101 ∧ AcceptRight key lines ∧ UpgradeRight lines ∧ written = Head (requestStart url) (requestLines url ops fresh) := by
  have hx := C34_accepts_exactly _ fresh key hk v code reason lines
  unfold clientAnswer
  cases hv : (((Builder.init url).run ops).buildRequest fresh).2.validate ⟨v, ⟨code, reason⟩, .fromRaw lines⟩ with
  | error e =>
    rw [hv] at hx
    constructor
    · nofun
    · rintro ⟨h1, h2, h3, -⟩; cases hx.mpr ⟨h1, h2, h3⟩
  | ok u =>
    obtain ⟨h1, h2, h3⟩ := hx.mp hv
    simp only [Option.some.injEq]
    exact ⟨fun h => ⟨h1, h2, h3, h.symm⟩, fun h => h.2.2.2.symm⟩

/-- C84: a blocking client connects only if the first 2^19 bytes begin with a response, and a response with these lines is taken exactly if its status is 101 and the lines answer the key of the request. -/
theorem C84_client_connects (pres : ResParser) (url : Url) (ops : List BOp) (fresh key : WsKey) (hk : (((Builder.init url).run ops).buildRequest fresh).2.headers.getKey = some key)
    (B written rest : Bytes) :
    (headRuling pres (clientAnswer url ops fresh) B = .opens written rest → ∃ m n, pres.parse (B.take (2 ^ 19)) = .complete m n) ∧
    ∀ v code reason lines n, pres.parse (B.take (2 ^ 19)) = .complete ⟨v, ⟨code, reason⟩, .fromRaw lines⟩ n →
      (headRuling pres (clientAnswer url ops fresh) B = .opens written rest ↔
        code = 101 ∧ AcceptRight key lines ∧ UpgradeRight lines ∧ written = Head (requestStart url) (requestLines url ops fresh) ∧ rest = B.drop n) := by
  constructor
  · intro h
    unfold headRuling at h
    split at h
    · next m n hp => exact ⟨m, n, hp⟩
    · cases h
    · split at h <;> cases h
  · intro v code reason lines n hp
    have hx := clientAnswer_iff url ops fresh key hk v code reason lines
    unfold headRuling
    rw [hp]
    simp only
    constructor
    · intro h
      cases ha : clientAnswer url ops fresh ⟨v, ⟨code, reason⟩, .fromRaw lines⟩ with
      | none => rw [ha] at h; cases h
      | some w =>
        rw [ha] at h
        cases h
        obtain ⟨h1, h2, h3, h4⟩ := (hx _).mp ha
        exact ⟨h1, h2, h3, h4, rfl⟩
    · rintro ⟨h1, h2, h3, h4, rfl⟩
      rw [(hx written).mpr ⟨h1, h2, h3, h4⟩]
      rfl

/-- C84: an async client looks at the bytes up to the first blank line. -/
theorem C84_async_client_connects (pres : ResParser) (url : Url) (ops : List BOp) (fresh key : WsKey) (hk : (((Builder.init url).run ops).buildRequest fresh).2.headers.getKey = some key)
    (B written rest : Bytes) :
    (lineRuling pres (clientAnswer url ops fresh) B = .opens written rest → ∃ head m n, FirstBlank B head rest ∧ pres.parse head = .complete m n) ∧
    ∀ head rest' v code reason lines n, FirstBlank B head rest' → pres.parse head = .complete ⟨v, ⟨code, reason⟩, .fromRaw lines⟩ n →
      (lineRuling pres (clientAnswer url ops fresh) B = .opens written rest ↔
        code = 101 ∧ AcceptRight key lines ∧ UpgradeRight lines ∧ written = Head (requestStart url) (requestLines url ops fresh) ∧ rest = rest') := by
  constructor
  · intro h
    obtain ⟨head, m, n, h1, h2, -⟩ := lineRuling_opens _ _ h
    exact ⟨head, m, n, splitOff_iff.mp h1, h2⟩
  · intro head rest' v code reason lines n hb hp
    have hx := clientAnswer_iff url ops fresh key hk v code reason lines
    unfold lineRuling
    rw [splitOff_iff.mpr hb]
    simp only [hp]
    constructor
    · intro h
      cases ha : clientAnswer url ops fresh ⟨v, ⟨code, reason⟩, .fromRaw lines⟩ with
      | none => rw [ha] at h; cases h
      | some w =>
        rw [ha] at h
        cases h
        obtain ⟨h1, h2, h3, h4⟩ := (hx _).mp ha
        exact ⟨h1, h2, h3, h4, rfl⟩
    · rintro ⟨h1, h2, h3, h4, rfl⟩
      rw [(hx written).mpr ⟨h1, h2, h3, h4⟩]
      rfl

end

/-- C84: for hyper's way of reading heads (`reqParser`, `resParser`) all that is asked of the bytes that an async program gets is that they do not begin with a line end. -/
theorem C84_clearcut (c : UInt8) (B : Bytes) (h1 : c ≠ 13) (h2 : c ≠ 10) : Clearcut reqParser (c :: B) ∧ Clearcut resParser (c :: B) := by
  have key : ∀ head rest, splitOffHttp (c :: B) = some (head, rest) → [13, 10, 13, 10] <:+ head ∧ ∃ x ∈ head, x ≠ 13 ∧ x ≠ 10 := by
    intro head rest h
    obtain ⟨g1, g2, -⟩ := splitOff_iff.mp h
    refine ⟨g2, c, ?_, h1, h2⟩
    cases head with
    | nil => have := g2.length_le; simp at this
    | cons x t =>
      simp only [List.cons_append, List.cons.injEq] at g1
      rw [g1.1]
      exact List.mem_cons_self
  exact ⟨fun head rest h => parseWith_blank _ (key _ _ h).1 (key _ _ h).2, fun head rest h => parseWith_blank _ (key _ _ h).1 (key _ _ h).2⟩

/-! ## The server of the example against anybody -/

section
variable [B64] {preq : ReqParser} {pres : ResParser} {B : Bytes} {how : Opening} {w : Sink} {before : Bytes} {mask : Bool} {hearing : Bytes → Nat → Heard} {ruling : Bytes → Ruling}

/-- C84: examples/server.rs:24-45 behind its handshake, against anybody: to somebody who is let in it has said "Hello" and answers, one each, to the messages that came, in order, and at most the last of them is not answered
yet; to anybody else nothing. -/
theorem C84_server_says (h : AtDoor preq pres B how w before mask hearing ruling) (keys : Nat → Key4) (extra : Nat → Nat) (es : List Brings) (hp : came es <+: B)
    (hf : finished es = true → came es = B) :
    let v := (Visitor.start serverPlan keys extra how w).endures preq pres es
    (v.past = [] ∧ (v.agent.output.wire = [] ∨ v.agent.output.wire = before)) ∨
    ∃ written rest, ruling B = .opens written rest ∧
      (∃ ms : List OwnedMsg, (∀ i, (hi : i < ms.length) → hearing rest i = .message ms[i]) ∧ (∀ m ∈ ms.dropLast, m.isClose = false) ∧
        saidIn v.past <+: .text (ascii "Hello") :: ms.map answerTo ∧ ms.length ≤ (saidIn v.past).length) ∧
      ∃ b, v.agent.output.wire = written ++ b ∧ Says mask ((saidIn v.past).map OwnedMsg.spec) b := by
  intro v
  rcases C84_writes h serverPlan keys extra es hp hf with h1 | ⟨written, rest, b, hr, h1, h2⟩
  · exact .inl h1
  · obtain ⟨p, hst⟩ := door_stands h hr
    have hh := (C84_heeds h serverPlan keys extra es hp hf).1 _ _ hr
    have ha := attends_of (told_fit hst) hh
    obtain ⟨g1, g2, g3, -, -⟩ := attends_got ha
    refine .inr ⟨written, rest, hr, ⟨gotIn v.past, g1, g2, g3, attends_count ha⟩, b, h1, ?_⟩
    have := h2 (attends_typed hst)
    rwa [attends_sent (told_fit hst) hh] at this

/-- C84: once the end of the stream has come, the server is done within twice as many turns as bytes came, and five: it has answered every message behind the request up to the first Close, or up to the place where its receiving
call failed or found the end; or it has refused the connection. -/
theorem C84_server_ends (h : AtDoor preq pres B how w before mask hearing ruling) (keys : Nat → Key4) (extra : Nat → Nat) (es : List Brings) (hf : finished es = true) (hc : came es = B)
    (j : Nat) (hj : 2 * B.length + 4 ≤ j) :
    let v := (Visitor.start serverPlan keys extra how w).endures preq pres (es ++ List.replicate (j + 1) .turn)
    ((∀ written rest, ruling B ≠ .opens written rest) ∧ ∃ l, v.agent = .failed l) ∨
    ∃ written rest, ruling B = .opens written rest ∧ serverPlan v.past = none ∧ ∃ ms : List OwnedMsg, (∀ i, (hi : i < ms.length) → hearing rest i = .message ms[i]) ∧
      (∀ m ∈ ms.dropLast, m.isClose = false) ∧ ((∃ g c, ms = g ++ [.close c]) ∨ ∀ m, hearing rest ms.length ≠ .message m) ∧ saidIn v.past = .text (ascii "Hello") :: ms.map answerTo := by
  intro v
  rcases C84_goes_on h serverPlan keys extra es hf hc j with h1 | ⟨⟨written, rest, hr⟩, h6⟩
  · exact .inl h1
  · obtain ⟨e1, e2⟩ := came_after es (List.replicate (j + 1) .turn) hf
    obtain ⟨p, hst⟩ := door_stands h hr
    have hh := (C84_heeds h serverPlan keys extra (es ++ List.replicate (j + 1) .turn) (by rw [e1, hc]; exact List.prefix_refl _) (fun _ => by rw [e1, hc])).1 _ _ hr
    obtain ⟨h1, h2, h3, h4, h5⟩ := attends_got (attends_of (told_fit hst) hh)
    have hnone : serverPlan v.past = none := by
      rcases h6 with h6 | h6
      · exact h6
      · exfalso
        obtain ⟨n, hn, hs⟩ := stands_stop hst
        have hlen : rest.length ≤ B.length := door_rest h hr
        have h7 : 2 * B.length + 4 ≤ 2 * (gotIn v.past).length + 2 := Nat.le_trans hj (Nat.le_trans h6 h4)
        exact hs _ (h1 n (by show n < (gotIn v.past).length; omega))
    obtain ⟨h6, h7⟩ := h5 hnone
    exact .inr ⟨written, rest, hr, hnone, gotIn v.past, h1, h2, h7, h6⟩

end

/-! ## What does not hold -/

def Agent.kind : Agent → Nat
  | .opening _ => 0
  | .talking _ => 1
  | .failed _ => 2

theorem talking_of {a : Agent} (h : a.kind = 1) : ∃ p, a = .talking p := by
  cases a with
  | talking p => exact ⟨p, rfl⟩
  | opening l => cases h
  | failed l => cases h

theorem failed_of {a : Agent} (h : a.kind = 2) : ∃ l, a = .failed l := by
  cases a with
  | failed p => exact ⟨p, rfl⟩
  | opening l => cases h
  | talking l => cases h

/-- Two line ends before a request. -/
def blankStart : Bytes := ascii "\r\n\r\n\r\n\r\nGET / HTTP/1.1\r\nConnection: Upgrade\r\nUpgrade: websocket\r\nSec-WebSocket-Version: 13\r\nSec-WebSocket-Key: dGhlIHNhbXBsZSBub25jZQ==\r\n\r\n"

def blankHost : Opening := .asyncServer id none 100 1000 0

/-- Without `Clearcut`: the same bytes, cut in two ways, and an async server that lets the one peer in and not the other. -/
theorem C84_refuted_blank_lines :
    ∃ es es' : List Brings, came es = came es' ∧ finished es = true ∧ finished es' = true ∧
      (∃ p, (@Visitor.endures B64.strict reqParser resParser (Visitor.start serverPlan (fun _ => ⟨0, 0, 0, 0⟩) (fun _ => 0) blankHost ⟨[], []⟩) es).agent = .talking p) ∧
      ∃ l, (@Visitor.endures B64.strict reqParser resParser (Visitor.start serverPlan (fun _ => ⟨0, 0, 0, 0⟩) (fun _ => 0) blankHost ⟨[], []⟩) es').agent = .failed l := by
  refine ⟨[.bytes (blankStart.take 4), .bytes (blankStart.drop 4 |>.take 4), .bytes (blankStart.drop 8), .finish, .turn], [.bytes blankStart, .finish, .turn], by decide +kernel, rfl, rfl, ?_, ?_⟩
  · refine talking_of ?_; decide +kernel
  · refine failed_of ?_; decide +kernel

/-! ## The theorems speak about something -/

/-- The first bytes of a request as nobody writes it, but right: there is an empty line in front of it, and the lines end in line feeds; … -/
def quaint1 : Bytes := ascii "\nGET /any HT"

/-- … the rest of it, and the first bytes of the odd ones of C83, a Ping, a reserved opcode, half a Pong; … -/
def quaint2 : Bytes := ascii "TP/1.1\nuPGRADE: h2c, WebSocket\nConnection: keep-alive, upgrade\nSec-WebSocket-Version: 13\nSec-WebSocket-Key:   dGhlIHNhbXBsZSBub25jZQ==\n\n" ++ oddBytes.take 3

/-- … and the rest of those. -/
def quaint3 : Bytes := oddBytes.drop 3

def quaintBytes : Bytes := quaint1 ++ (quaint2 ++ quaint3)

/-- In pieces, with turns in between. -/
def quaintly : List Brings := [.turn, .bytes quaint1, .turn, .bytes quaint2, .turn, .turn, .bytes quaint3, .turn, .finish]

def quaintAtOnce : List Brings := [.bytes quaintBytes, .finish]

theorem quaint_door : @AtDoor B64.strict reqParser resParser quaintBytes (.server (Upgrade.run · [.useProtocol (ascii "chat")]) none 100 100) ⟨[], [.accept 3, .error .interrupted]⟩ [] false
    (blockingHears true 100 100) (@headRuling ReqSubject reqLine okReq reqParser (@serverAnswer B64.strict [.useProtocol (ascii "chat")] none)) := by
  refine @AtDoor.server B64.strict _ _ _ _ _ _ _ _ ?_ ?_ rfl
  · intro c hc; cases hc
  · intro e he
    simp only [List.mem_cons, List.not_mem_nil, or_false] at he
    rcases he with rfl | rfl
    · exact .inr ⟨3, by decide, rfl⟩
    · exact .inl rfl

/-- What the server makes of it. -/
def quaintAnswer : Bytes := ascii "HTTP/1.1 101 Switching Protocols\r\nSec-WebSocket-Protocol: chat\r\nSec-WebSocket-Accept: s3pPLMBiTxaQ9kYGzzhZRbK+xOo=\r\nConnection: Upgrade\r\nUpgrade: websocket\r\n\r\n"

theorem quaint_ruling : @headRuling ReqSubject reqLine okReq reqParser (@serverAnswer B64.strict [.useProtocol (ascii "chat")] none) quaintBytes = .opens quaintAnswer oddBytes := by decide +kernel

/-- The hypotheses about what comes. -/
theorem quaint_came : came quaintly = quaintBytes ∧ finished quaintly = true ∧ came quaintAtOnce = quaintBytes ∧ finished quaintAtOnce = true := by
  simp [came, finished, quaintly, quaintAtOnce, quaintBytes]

theorem quaint_so_far (n : Nat) : came (quaintly.take n) <+: quaintBytes ∧ (finished (quaintly.take n) = true → came (quaintly.take n) = quaintBytes) := by
  match n with
  | 0 | 1 | 2 | 3 | 4 | 5 | 6 | 7 | 8 => simp [came, finished, quaintly, quaintBytes]
  | n + 9 => simp [came, finished, quaintly, quaintBytes]

theorem quaint_after (j : Nat) : came (quaintly ++ List.replicate j .turn) <+: quaintBytes ∧ (finished (quaintly ++ List.replicate j .turn) = true → came (quaintly ++ List.replicate j .turn) = quaintBytes) := by
  rw [(came_after quaintly _ rfl).1, quaint_came.1]
  exact ⟨List.prefix_refl _, fun _ => rfl⟩

theorem quaint_past : (@Visitor.endures B64.strict reqParser resParser (Visitor.start stubbornPlan (fun _ => ⟨1, 2, 3, 4⟩) (fun _ => 0) (.server (Upgrade.run · [.useProtocol (ascii "chat")]) none 100 100)
    ⟨[], [.accept 3, .error .interrupted]⟩) (quaintly ++ List.replicate 4 .turn)).past = oddPast ∧
    (@Visitor.endures B64.strict reqParser resParser (Visitor.start stubbornPlan (fun _ => ⟨1, 2, 3, 4⟩) (fun _ => 0) (.server (Upgrade.run · [.useProtocol (ascii "chat")]) none 100 100)
    ⟨[], [.accept 3, .error .interrupted]⟩) (quaintly ++ List.replicate 4 .turn)).agent.output.wire = quaintAnswer ++ [0x81, 5] ++ ascii "what?" := by decide +kernel

/-- What is said of it then holds of all other ways in which the bytes can come, … -/
example (keys : Nat → Key4) (extra : Nat → Nat) (j : Nat) (hj : 5 ≤ j) :
    oddPast <+: (@Visitor.endures B64.strict reqParser resParser (Visitor.start stubbornPlan keys extra (.server (Upgrade.run · [.useProtocol (ascii "chat")]) none 100 100)
      ⟨[], [.accept 3, .error .interrupted]⟩) (quaintAtOnce ++ List.replicate (j + 1) .turn)).past := by
  refine @C84_everything_happens B64.strict _ _ _ _ _ _ _ _ _ quaint_door stubbornPlan keys extra quaintAtOnce rfl quaint_came.2.2.1 _ _ quaint_ruling oddPast ?_ j hj
  have := (@C84_heeds B64.strict _ _ _ _ _ _ _ _ _ quaint_door stubbornPlan (fun _ => ⟨1, 2, 3, 4⟩) (fun _ => 0) (quaintly ++ List.replicate 4 .turn) (quaint_after 4).1 (quaint_after 4).2).1 _ _ quaint_ruling
  rw [quaint_past.1] at this
  exact this

example (keys keys' : Nat → Key4) (extra extra' : Nat → Nat) := @C84_deterministic B64.strict _ _ _ _ _ _ _ _ _ _ _ _ _ quaint_door quaint_door stubbornPlan keys keys' extra extra' (quaintly.take 7) quaintAtOnce
  (quaint_so_far 7).1 (quaint_so_far 7).2 (by rw [quaint_came.2.2.1]; exact List.prefix_refl _) (fun _ => quaint_came.2.2.1)

/-- … the answer and "what?" are on the wire, … -/
example := @C84_writes B64.strict _ _ _ _ _ _ _ _ _ quaint_door stubbornPlan (fun _ => ⟨1, 2, 3, 4⟩) (fun _ => 0) (quaintly ++ List.replicate 4 .turn) (quaint_after 4).1 (quaint_after 4).2

/-- … the server waits for the rest of the request, and decides when it has it. -/
example (keys : Nat → Key4) (extra : Nat → Nat) := @C84_waits B64.strict _ _ _ _ _ _ _ _ _ quaint_door stubbornPlan keys extra (quaintly.take 3) (quaint_so_far 3).1 rfl (by decide +kernel)

example (keys : Nat → Key4) (extra : Nat → Nat) := @C84_decides B64.strict _ _ _ _ _ _ _ _ _ quaint_door stubbornPlan keys extra (quaintly.take 4) (quaintly.drop 5) (quaint_so_far 9).1 (quaint_so_far 9).2
  (.inl (by decide +kernel))

example (keys : Nat → Key4) (extra : Nat → Nat) := @C84_server_says B64.strict _ _ _ _ _ _ _ _ _ quaint_door keys extra (quaintly.take 7) (quaint_so_far 7).1 (quaint_so_far 7).2

example (keys : Nat → Key4) (extra : Nat → Nat) := @C84_server_ends B64.strict _ _ _ _ _ _ _ _ _ quaint_door keys extra quaintly rfl quaint_came.1 500 (by decide +kernel)

/-- Somebody else is refused as soon as the method has come, and nothing is written. -/
def rudeBytes : Bytes := ascii "POST / HTTP/1.1\r\n\r\n" ++ oddBytes

theorem rude_door : @AtDoor B64.strict reqParser resParser rudeBytes (.server (Upgrade.run · []) none 100 100) ⟨[], []⟩ [] false
    (blockingHears true 100 100) (@headRuling ReqSubject reqLine okReq reqParser (@serverAnswer B64.strict [] none)) :=
  @AtDoor.server B64.strict _ _ _ _ _ _ _ _ (by intro c hc; cases hc) (by intro e he; cases he) rfl

example (keys : Nat → Key4) (extra : Nat → Nat) (fs : List Brings) (hp : came fs <+: oddBytes) (hf : finished fs = false) :
    ∃ l, (@Visitor.endures B64.strict reqParser resParser (Visitor.start serverPlan keys extra (.server (Upgrade.run · []) none 100 100) ⟨[], []⟩)
      ([.bytes (ascii "POST / HTTP/1.1\r\n\r\n")] ++ .turn :: fs)).agent = .failed l := by
  have hr : @headRuling ReqSubject reqLine okReq reqParser (@serverAnswer B64.strict [] none) rudeBytes = .refuses := by decide +kernel
  rcases @C84_decides B64.strict _ _ _ _ _ _ _ _ _ rude_door serverPlan keys extra [.bytes (ascii "POST / HTTP/1.1\r\n\r\n")] fs
    (by obtain ⟨z, hz⟩ := hp; exact ⟨z, by simp only [came, List.cons_append, List.nil_append, List.append_assoc, hz, rudeBytes]⟩)
    (fun hx => by rw [show finished ([.bytes (ascii "POST / HTTP/1.1\r\n\r\n")] ++ .turn :: fs) = finished fs from rfl, hf] at hx; cases hx)
    (.inl (by decide +kernel)) with ⟨⟨a, b, h⟩, -⟩ | ⟨-, h⟩
  · rw [hr] at h; cases h
  · exact h

/-- An async server, and a request that it can find, … -/
def plain1 : Bytes := ascii "GET / HTTP/1.1\r\nConnection: Upgr"

/-- … with the odd bytes behind it. -/
def plain2 : Bytes := ascii "ade\r\nUpgrade: websocket\r\nSec-WebSocket-Version: 13\r\nSec-WebSocket-Key: dGhlIHNhbXBsZSBub25jZQ==\r\n\r\n" ++ oddBytes

def plainBytes : Bytes := plain1 ++ plain2

def plainAnswer : Bytes := ascii "HTTP/1.1 101 Switching Protocols\r\nSec-WebSocket-Accept: s3pPLMBiTxaQ9kYGzzhZRbK+xOo=\r\nConnection: Upgrade\r\nUpgrade: websocket\r\n\r\n"

theorem plain_ruling : @lineRuling ReqSubject reqLine okReq reqParser (@serverAnswer B64.strict [] none) plainBytes = .opens plainAnswer oddBytes := by decide +kernel

theorem plain_door : @AtDoor B64.strict reqParser resParser plainBytes (.asyncServer (Upgrade.run · []) none 100 1000 0) ⟨[], [.error .wouldBlock, .accept 2]⟩ [] false
    (asyncHears .server 100 1000) (@lineRuling ReqSubject reqLine okReq reqParser (@serverAnswer B64.strict [] none)) := by
  refine @AtDoor.asyncServer B64.strict _ _ _ _ _ _ _ _ _ ?_ ?_ rfl ?_ ?_
  · intro c hc; cases hc
  · intro e he
    simp only [List.mem_cons, List.not_mem_nil, or_false] at he
    rcases he with rfl | rfl
    · exact .inl rfl
    · exact .inr ⟨2, by decide, rfl⟩
  · rw [show plainBytes = 71 :: plainBytes.tail by decide +kernel]
    exact (C84_clearcut 71 _ (by decide) (by decide)).1
  · intro a b hr n
    rw [plain_ruling, Ruling.opens.injEq] at hr
    rw [← hr.2]
    exact nextMany_calm (by decide) n

def plainly : List Brings := [.turn, .bytes plain1, .turn, .bytes plain2, .turn, .turn, .finish]

example (keys : Nat → Key4) (extra : Nat → Nat) := @C84_server_ends B64.strict _ _ _ _ _ _ _ _ _ plain_door keys extra plainly rfl (by simp [came, plainly, plainBytes]) 500 (by decide +kernel)

example : (@Visitor.endures B64.strict reqParser resParser (Visitor.start serverPlan (fun _ => ⟨1, 2, 3, 4⟩) (fun _ => 0) (.asyncServer (Upgrade.run · []) none 100 1000 0)
    ⟨[], [.error .wouldBlock, .accept 2]⟩) (plainly ++ List.replicate 3 .turn)).past =
    [.said (.text (ascii "Hello")) true, .heard (.message (.ping [7])), .said (.pong [7]) true, .heard .failed] := by decide +kernel

/-- A client, and a response with an empty frame and half of another behind it. -/
def reply1 : Bytes := ascii "HTTP/1.1 101 Switching Protocols\r\nSec-Web"

/-- See `reply1`. -/
def reply2 : Bytes := ascii "Socket-Accept: s3pPLMBiTxaQ9kYGzzhZRbK+xOo=\r\nConnection: Upgrade\r\nUpgrade: websocket\r\n\r\n" ++ [0x89, 0, 0x81, 5, 72]

def replyBytes : Bytes := reply1 ++ reply2

def plainUrl : Url := ⟨ascii "ws", some (ascii "example.com"), none, [], none, ascii "/", none, none⟩

/-- The key of RFC 6455, 1.3. -/
def plainRequest : Bytes := Head (requestStart plainUrl) (requestLines plainUrl [] sampleKey)

theorem reply_ruling : @headRuling ResSubject resLine okRes resParser (@clientAnswer B64.strict plainUrl [] sampleKey) replyBytes = .opens plainRequest [0x89, 0, 0x81, 5, 72] ∧
    @lineRuling ResSubject resLine okRes resParser (@clientAnswer B64.strict plainUrl [] sampleKey) replyBytes = .opens plainRequest [0x89, 0, 0x81, 5, 72] := by decide +kernel

theorem reply_door : @AtDoor B64.strict reqParser resParser replyBytes (.client ((Builder.init plainUrl).run []) sampleKey) ⟨[], []⟩ plainRequest true
    (blockingHears false (lastSet setsDf (100 * 2 ^ 20) []) (lastSet setsDf (100 * 2 ^ 20) [])) (@headRuling ResSubject resLine okRes resParser (@clientAnswer B64.strict plainUrl [] sampleKey)) :=
  @AtDoor.client B64.strict _ _ _ plainUrl [] sampleKey ⟨[], []⟩ (by intro op ho; cases ho) (by intro e he; cases he) rfl

theorem reply_async_door : @AtDoor B64.strict reqParser resParser replyBytes (.asyncClient ((Builder.init plainUrl).run []) sampleKey 0) ⟨[], []⟩ plainRequest true
    (asyncHears .client (lastSet setsDf (100 * 2 ^ 20) []) (lastSet setsMsg (200 * 2 ^ 20) [])) (@lineRuling ResSubject resLine okRes resParser (@clientAnswer B64.strict plainUrl [] sampleKey)) := by
  refine @AtDoor.asyncClient B64.strict _ _ _ plainUrl [] sampleKey 0 ⟨[], []⟩ (by intro op ho; cases ho) (by intro e he; cases he) rfl ?_ ?_
  · rw [show replyBytes = 72 :: replyBytes.tail by decide +kernel]
    exact (C84_clearcut 72 _ (by decide) (by decide)).2
  · intro a b hr n
    rw [reply_ruling.2, Ruling.opens.injEq] at hr
    rw [← hr.2]
    exact nextMany_calm (by decide) n

def replies84 : List Brings := [.turn, .bytes reply1, .turn, .bytes reply2, .finish]

example (keys : Nat → Key4) (extra : Nat → Nat) (j : Nat) := @C84_goes_on B64.strict _ _ _ _ _ _ _ _ _ reply_door stubbornPlan keys extra replies84 rfl (by simp [came, replies84, replyBytes]) j
example (keys : Nat → Key4) (extra : Nat → Nat) (j : Nat) := @C84_goes_on B64.strict _ _ _ _ _ _ _ _ _ reply_async_door stubbornPlan keys extra replies84 rfl (by simp [came, replies84, replyBytes]) j
example (keys : Nat → Key4) (extra : Nat → Nat) := @C84_waits B64.strict _ _ _ _ _ _ _ _ _ reply_async_door stubbornPlan keys extra (replies84.take 3) (by simp [came, replies84, replyBytes]) rfl (by decide +kernel)

/-- The client hears the Ping; its answer is too long; then the stream ends within a frame. -/
example : (@Visitor.endures B64.strict reqParser resParser (Visitor.start stubbornPlan (fun _ => ⟨1, 2, 3, 4⟩) (fun _ => 0) (.client ((Builder.init plainUrl).run []) sampleKey) ⟨[], []⟩)
    (replies84 ++ List.replicate 4 .turn)).past = [.heard (.message (.ping [])), .said (.ping (List.replicate 126 7)) false, .heard .ended] := by decide +kernel

/-- `C84_server_lets_in`, `C84_async_server_lets_in`. -/
example := (@C84_server_lets_in B64.strict reqParser _ _ _ _ _).mp quaint_ruling
example := (@C84_async_server_lets_in B64.strict reqParser _ _ _ _ _).mp plain_ruling

/-- `C84_client_connects`, `C84_async_client_connects`: the request has a key, and the bytes begin with a response. -/
theorem plain_key : (@Headers.getKey B64.strict (((Builder.init plainUrl).run []).buildRequest sampleKey).2.headers) = some sampleKey := by decide +kernel
example := (@C84_client_connects B64.strict resParser plainUrl [] sampleKey sampleKey plain_key replyBytes plainRequest _).1 reply_ruling.1
example := (@C84_async_client_connects B64.strict resParser plainUrl [] sampleKey sampleKey plain_key replyBytes plainRequest _).1 reply_ruling.2

end WS
