import Verif.Lemmas.Accept
import Verif.Props.Echo
/-!
# C49, C50: many connections
-/

namespace WS
open Spec

/-! ## C49: one connection's handshake does not concern another's -/

/-- The iterator over a blocking server never ends, and its n-th item is the result of the n-th call of `accept`, whatever
came before. -/
theorem C49_blocking_items [B64] (p : ReqParser) (cs : List Call) (n : Nat) :
    (serverItems p cs)[n]? = cs[n]?.map fun c => serverAccept p c.listener c.tls := by
  induction cs generalizing n with
  | nil => rfl
  | cons c cs ih => cases n with
    | zero => rfl
    | succ n => exact ih n

/-- In whatever order connections arrive and are polled, what the stream yields for a connection is what its own bytes
make of it. -/
theorem C49_async_isolated [B64] (p : ReqParser) (acts : List Act) (i : Nat) (r : Accepted)
    (h : (i, r) ∈ (Listening.new.run p acts).out) : ∃ a, (arrivals acts)[i]? = some a ∧ r = a.outcome p :=
  (tidy p acts).out (i, r) h

/-- Every connection that arrived is pending or has been yielded, not both, and never twice; nothing else is. -/
theorem C49_async_each_once [B64] (p : ReqParser) (acts : List Act) :
    ((Listening.new.run p acts).out.map Prod.fst).Nodup ∧
      ∀ i, ((∃ r, (i, r) ∈ (Listening.new.run p acts).out) ∨ ((Listening.new.run p acts).pending i).isSome ↔ i < (arrivals acts).length) ∧
        ¬ ((∃ r, (i, r) ∈ (Listening.new.run p acts).out) ∧ ((Listening.new.run p acts).pending i).isSome) := by
  have t := tidy p acts
  have hm : ∀ i, (∃ r, (i, r) ∈ (Listening.new.run p acts).out) ↔ i ∈ (Listening.new.run p acts).out.map Prod.fst := by
    intro i
    simp
  refine ⟨t.once, fun i => ⟨⟨?_, ?_⟩, ?_⟩⟩
  · rintro (h | h)
    · exact t.lt ((hm i).mp h)
    · obtain ⟨x, hx⟩ := Option.isSome_iff_exists.mp h
      obtain ⟨a, ha, -⟩ := t.pending i x hx
      exact (List.getElem?_eq_some_iff.mp ha).1
  · intro h
    rcases t.all i h with g | g
    · exact .inr g
    · exact .inl ((hm i).mpr g)
  · rintro ⟨h, g⟩
    exact t.apart i g ((hm i).mp h)

/-- What has been yielded is not taken back or reordered. -/
theorem C49_async_grows [B64] (p : ReqParser) (acts more : List Act) :
    (Listening.new.run p acts).out <+: (Listening.new.run p (acts ++ more)).out := by
  have : Listening.new.run p (acts ++ more) = (Listening.new.run p acts).run p more := List.foldl_append ..
  rw [this]
  exact out_prefix p _ more

/-- A connection that has arrived and is polled as often as its bytes need is yielded, whatever the other connections do
in the meantime. -/
theorem C49_async_served [B64] (p : ReqParser) (acts more : List Act) (i : Nat) (a : Arrival)
    (ha : (arrivals acts)[i]? = some a) (hp : a.polls ≤ wakes i more) :
    (i, a.outcome p) ∈ (Listening.new.run p (acts ++ more)).out := by
  have e : Listening.new.run p (acts ++ more) = (Listening.new.run p acts).run p more := List.foldl_append ..
  have b := able p acts
  have hi : i < (Listening.new.run p acts).count := by rw [b.count]; exact (List.getElem?_eq_some_iff.mp ha).1
  have hm : i ∈ (Listening.new.run p (acts ++ more)).out.map Prod.fst := by
    rw [e]
    refine run_done p more _ i hi ?_
    rcases b.all i a ha with g | ⟨x, g1, g2⟩
    · exact .inl g
    · exact .inr ⟨x, g1, by omega⟩
  obtain ⟨⟨j, r⟩, hx, rfl⟩ := List.mem_map.mp hm
  obtain ⟨a', h1, rfl⟩ := C49_async_isolated p (acts ++ more) j r hx
  rw [arrivals_append, List.getElem?_append_left (List.getElem?_eq_some_iff.mp ha).1, ha] at h1
  cases h1
  exact hx

/-- Two schedules of the same connections agree on every connection both have finished. -/
theorem C49_async_schedule_irrelevant [B64] (p : ReqParser) (acts acts' : List Act) (h : arrivals acts = arrivals acts')
    (i : Nat) (r r' : Accepted) (hr : (i, r) ∈ (Listening.new.run p acts).out) (hr' : (i, r') ∈ (Listening.new.run p acts').out) :
    r = r' := by
  obtain ⟨a, h1, rfl⟩ := C49_async_isolated p acts i r hr
  obtain ⟨a', h2, rfl⟩ := C49_async_isolated p acts' i r' hr'
  rw [h, h2] at h1
  cases h1
  rfl

/-! ## C50: the servers go on serving -/

/-- A client of autobahn-server.rs gets all its answers, whatever the connections before and after it do; and they get what
they would get without it. -/
theorem C50_autobahn_server_survives [B64] (p : ReqParser) (keys : Nat → Key4) (before after : List Call) (c : Call)
    (key : WsKey) (uri : Bytes) (lines : List (Bytes × Bytes)) (d : Duplex) (x : Bytes) (ht : c.transport = some d)
    (ha : Asks key lines) (hu : Target uri) (hs : Sendable lines) (hl : (Head (getLine uri) lines).length ≤ maxBufferSize)
    (hc : d.input.Chunks) (hf : d.input.flat = Head (getLine uri) lines ++ x) (hw : d.output.Willing) :
    ∃ out s ms y bs, autobahnMain p (.ok ()) keys (before ++ c :: after) =
        autobahnMain p (.ok ()) keys before ++ (.returned, out) :: autobahnMain p (.ok ()) keys after ∧
      s.Clean ∧ s.flat = x ∧ Hears (Receiver.newWithLimits true defaultMaxDataframe defaultMaxMessage) s ms y ∧
      out.wire = d.output.wire ++ head101 .http11 (responseLines [] none key) ++ bs ∧
      Says false ((ms.map OwnedMsg.spec).filterMap Message.reply ++ [.close]) bs := by
  obtain ⟨out, s, ms, y, bs, h1, h2⟩ := C48_program_autobahn p key uri lines d x ha hu hs hl hc hf hw keys
  refine ⟨out, s, ms, y, bs, ?_, h2⟩
  unfold autobahnServer at h1
  cases hx : intoWs p d with
  | error e => rw [hx] at h1; cases h1
  | ok u =>
    rw [hx] at h1
    simp only [Option.some.injEq] at h1
    have hr : resultOk (serverAccept p c.listener c.tls) = some u := by rw [serverAccept_transport p ht, hx]; rfl
    unfold autobahnMain
    rw [items_split p _ before after hr, h1]

/-- A client of server.rs that offers the protocol gets all its answers, whatever the connections before and after it do. -/
theorem C50_server_survives [B64] (p : ReqParser) (keys : Nat → Key4) (before after : List Call) (c : Call)
    (key : WsKey) (uri : Bytes) (lines : List (Bytes × Bytes)) (d : Duplex) (x : Bytes) (ht : c.transport = some d)
    (ha : Asks key lines) (hu : Target uri) (hs : Sendable lines) (hl : (Head (getLine uri) lines).length ≤ maxBufferSize)
    (hc : d.input.Chunks) (hf : d.input.flat = Head (getLine uri) lines ++ x) (hw : d.output.Willing)
    (hp : ascii "rust-websocket" ∈ (Headers.fromRaw lines).getProtocol.getD []) :
    ∃ fin out s ms y bs, exampleMain p (.ok ()) keys (before ++ c :: after) =
        exampleMain p (.ok ()) keys before ++ (fin, out) :: exampleMain p (.ok ()) keys after ∧
      s.Clean ∧ s.flat = x ∧ Hears (Receiver.newWithLimits true defaultMaxDataframe defaultMaxMessage) s ms y ∧
      out.wire = d.output.wire ++ head101 .http11 (responseLines [.useProtocol (ascii "rust-websocket")] none key) ++ bs ∧
      (((∃ m, y = .ok m) ∧ fin = .returned ∧
          Says false (.text (ascii "Hello") :: (ms.map OwnedMsg.spec).filterMap Message.reflect ++ [.close]) bs) ∨
       ((¬ ∃ m, y = .ok m) ∧ fin = .panicked ∧
          Says false (.text (ascii "Hello") :: (ms.map OwnedMsg.spec).filterMap Message.reflect) bs)) := by
  obtain ⟨fin, out, s, ms, y, bs, h1, h2⟩ := C48_program_server p key uri lines d x ha hu hs hl hc hf hw keys hp
  refine ⟨fin, out, s, ms, y, bs, ?_, h2⟩
  unfold exampleServer at h1
  cases hx : intoWs p d with
  | error e => rw [hx] at h1; cases h1
  | ok u =>
    rw [hx] at h1
    simp only [Option.some.injEq] at h1
    have hr : resultOk (serverAccept p c.listener c.tls) = some u := by rw [serverAccept_transport p ht, hx]; rfl
    unfold exampleMain
    rw [items_split p _ before after hr, h1]

/-- A connection that does not upgrade leaves no trace in either program. -/
theorem C50_bad_call_ignored [B64] (p : ReqParser) (clone : Except IoKind Unit) (keys : Nat → Key4) (before after : List Call) (c : Call)
    (e : InvalidConnection Buffer) (h : serverAccept p c.listener c.tls = .error e) :
    autobahnMain p clone keys (before ++ c :: after) = autobahnMain p clone keys (before ++ after) ∧
      exampleMain p clone keys (before ++ c :: after) = exampleMain p clone keys (before ++ after) := by
  have hr : resultOk (serverAccept p c.listener c.tls) = none := by rw [h]; rfl
  unfold autobahnMain exampleMain
  rw [items_drop p _ before after hr, items_drop p _ before after hr, serverItems_append, List.filterMap_append, List.map_append, List.map_append]
  exact ⟨rfl, rfl⟩

/-- The accept loop of async-server.rs never fails, and spawns a task for exactly those connections that upgrade. -/
theorem C50_async_server_goes_on [B64] (keys : Nat → Key4) (extra : Nat) (yields : List Accepted) :
    asyncExampleMain keys extra yields = ((yields.filterMap resultOk).map (serveAsyncExample keys extra), none) := by
  unfold asyncExampleMain
  rw [forEach_ignoreBad]

/-- A client of async-server.rs that offers the protocol gets all its answers, whatever other connections do and in whatever
order they are polled. -/
theorem C50_async_server_survives [B64] (p : ReqParser) (keys : Nat → Key4) (extra : Nat) (acts more : List Act) (i : Nat) (a : Arrival)
    (hi : (arrivals acts)[i]? = some a) (hq : a.polls ≤ wakes i more)
    (key : WsKey) (uri : Bytes) (lines : List (Bytes × Bytes)) (d : Duplex) (x : Bytes) (ht : a.transport = some d)
    (ha : Asks key lines) (hu : Target uri) (hs : Sendable lines)
    (hc : d.input.Ready) (hf : d.input.flat = Head (getLine uri) lines ++ x) (hw : d.output.Patient)
    (hp : ascii "rust-websocket" ∈ (Headers.fromRaw lines).getProtocol.getD []) :
    ∃ fin out buf s ms y hi bs,
      (fin, out) ∈ (asyncExampleMain keys extra ((Listening.new.run p (acts ++ more)).out.map Prod.snd)).1 ∧ s.Ready ∧ buf ++ s.flat = x ∧
      AHears (Framed.fromParts (MsgCodec.newWithLimits .server defaultMaxDataframe defaultMaxMessage) buf) s ms y ∧
      Says false [.text (ascii "Hello World!")] hi ∧ Says false ((ms.map OwnedMsg.spec).filterMap Message.reply) bs ∧
      match y with
      | .err e => fin = .failed e ∧ ∃ sent, sent <+: bs ∧
          out.wire = d.output.wire ++ head101 .http11 (responseLines [.useProtocol (ascii "rust-websocket")] none key) ++ hi ++ sent
      | .panic _ => False
      | _ => fin = .returned ∧ ∃ bye, Says false [.close] bye ∧
          out.wire = d.output.wire ++ head101 .http11 (responseLines [.useProtocol (ascii "rust-websocket")] none key) ++ hi ++ bs ++ bye := by
  obtain ⟨fin, out, buf, s, ms, y, hi', bs, h1, h2⟩ := C48_program_async_server p key uri lines d x ha hu hs hc hf hw keys extra hp
  refine ⟨fin, out, buf, s, ms, y, hi', bs, ?_, h2⟩
  rw [C50_async_server_goes_on]
  have hy := C49_async_served p acts more i a hi hq
  unfold asyncExampleServer at h1
  cases hx : asyncIntoWs p d with
  | error e => rw [hx] at h1; cases h1
  | ok u =>
    rw [hx] at h1
    simp only [Option.some.injEq] at h1
    rw [← h1]
    refine List.mem_map_of_mem (List.mem_filterMap.mpr ⟨a.outcome p, List.mem_map_of_mem hy, ?_⟩)
    rw [outcome_transport p ht, hx]; rfl

/-- The same for async-autobahn-server.rs, as long as every connection yielded so far has upgraded. What is missing is a
client that is served although another one's request was refused: `C50_async_autobahn_stops`. -/
theorem C50_async_autobahn_survives_partial [B64] (p : ReqParser) (keys : Nat → Key4) (extra : Nat) (acts more : List Act) (i : Nat) (a : Arrival)
    (hi : (arrivals acts)[i]? = some a) (hq : a.polls ≤ wakes i more)
    (key : WsKey) (uri : Bytes) (lines : List (Bytes × Bytes)) (d : Duplex) (x : Bytes) (ht : a.transport = some d)
    (ha : Asks key lines) (hu : Target uri) (hs : Sendable lines)
    (hc : d.input.Ready) (hf : d.input.flat = Head (getLine uri) lines ++ x) (hw : d.output.Patient)
    (hg : ∀ y ∈ (Listening.new.run p (acts ++ more)).out, ∃ u, y.2 = .ok u) :
    (asyncAutobahnMain keys extra ((Listening.new.run p (acts ++ more)).out.map Prod.snd)).2.isNone ∧ ∃ fin out buf s ms y bs,
      (fin, out) ∈ (asyncAutobahnMain keys extra ((Listening.new.run p (acts ++ more)).out.map Prod.snd)).1 ∧ s.Ready ∧ buf ++ s.flat = x ∧
      AHears (Framed.fromParts (MsgCodec.newWithLimits .server defaultMaxDataframe defaultMaxMessage) buf) s ms y ∧
      Says false ((ms.map OwnedMsg.spec).filterMap Message.reply) bs ∧
      match y with
      | .err e => fin = .failed e ∧ ∃ sent, sent <+: bs ∧ out.wire = d.output.wire ++ head101 .http11 (responseLines [] none key) ++ sent
      | .panic _ => False
      | _ => fin = .returned ∧ ∃ bye, Says false [.close] bye ∧
          out.wire = d.output.wire ++ head101 .http11 (responseLines [] none key) ++ bs ++ bye := by
  have hm : asyncAutobahnMain keys extra ((Listening.new.run p (acts ++ more)).out.map Prod.snd) =
      ((((Listening.new.run p (acts ++ more)).out.map Prod.snd).filterMap resultOk).map (serveAsyncAutobahn keys extra), none) := by
    unfold asyncAutobahnMain
    rw [forEach_ok]
    intro y hy
    obtain ⟨z, hz, rfl⟩ := List.mem_map.mp hy
    exact hg z hz
  rw [hm]
  refine ⟨rfl, ?_⟩
  obtain ⟨fin, out, buf, s, ms, y, bs, h1, h2⟩ := C48_program_async_autobahn p key uri lines d x ha hu hs hc hf hw keys extra
  refine ⟨fin, out, buf, s, ms, y, bs, ?_, h2⟩
  have hy := C49_async_served p acts more i a hi hq
  unfold asyncAutobahnServer at h1
  cases hx : asyncIntoWs p d with
  | error e => rw [hx] at h1; cases h1
  | ok u =>
    rw [hx] at h1
    simp only [Option.some.injEq] at h1
    rw [← h1]
    refine List.mem_map_of_mem (List.mem_filterMap.mpr ⟨a.outcome p, List.mem_map_of_mem hy, ?_⟩)
    rw [outcome_transport p ht, hx]; rfl

/-- The first refused request ends async-autobahn-server.rs: nothing yielded after it is served. -/
theorem C50_async_autobahn_stops [B64] (keys : Nat → Key4) (extra : Nat) (before after : List Accepted) (e : InvalidConnection Bytes)
    (h : ∀ y ∈ before, ∃ u, y = .ok u) :
    asyncAutobahnMain keys extra (before ++ .error e :: after) = ((before.filterMap resultOk).map (serveAsyncAutobahn keys extra), some e) := by
  unfold asyncAutobahnMain
  rw [forEach_bad before after e h]

def Accepted.isOk : Accepted → Bool
  | .ok _ => true
  | .error _ => false

/-- Not a request. -/
def noRequest : Duplex := ⟨[.chunk (ascii "hello\r\n\r\n")], ⟨[], []⟩⟩

/-- A bad connection, a good one that starts later and has to wait, and one that fails in TLS; the good one finishes first. -/
def busyActs : List Act :=
  [.arrive (.conn noRequest none), .arrive (.conn echoServerSide none), .arrive (.conn noRequest (some (1, .error ()))), .wake 2,
    .wake 0, .arrive (.refused .other), .wake 1, .wake 2, .wake 7]

/-- The same with the connections the other way round. -/
def calmActs : List Act :=
  [.arrive (.conn echoServerSide none), .wake 0, .arrive (.conn noRequest (some (1, .ok echoServerSide))), .wake 1, .wake 1]

example : ((@Listening.run B64.strict reqParser .new busyActs).out.map fun y => (y.1, y.2.isOk)) =
    [(0, false), (3, false), (1, true), (2, false)] := by
  decide +kernel

example : ((@Listening.run B64.strict reqParser .new calmActs).out.map fun y => (y.1, y.2.isOk)) = [(0, true), (1, true)] := by
  decide +kernel

/-- A client of async-autobahn-server.rs can be polled as often as it needs, be accepted, and not be served, because of
another client. -/
theorem C50_async_autobahn_refuted : ∃ (acts more : List Act) (i : Nat) (a : Arrival) (d : Duplex),
    (arrivals acts)[i]? = some a ∧ a.transport = some d ∧ a.polls ≤ wakes i more ∧
    ((@asyncIntoWs B64.strict reqParser d).isOk = true) ∧
    ∀ keys extra, (@asyncAutobahnMain B64.strict keys extra ((@Listening.run B64.strict reqParser .new (acts ++ more)).out.map Prod.snd)).1 = [] := by
  refine ⟨[.arrive (.conn noRequest none), .wake 0, .arrive (.conn echoServerSide none)],
    [.wake 1, .wake 1, .wake 1, .wake 1], 1, .conn echoServerSide none, echoServerSide, rfl, rfl, by decide, by decide +kernel, ?_⟩
  intro keys extra
  generalize ho : (@Listening.run B64.strict reqParser .new _).out = out
  have h : out.map (fun y => (y.1, y.2.isOk)) = [(0, false), (1, true)] := by
    rw [← ho]; decide +kernel
  cases out with
  | nil => cases h
  | cons y ys =>
    obtain ⟨j, r⟩ := y
    cases r with
    | ok u => simp [Accepted.isOk] at h
    | error e =>
      have := @C50_async_autobahn_stops B64.strict keys extra [] (ys.map Prod.snd) e (by simp)
      rw [show List.map Prod.snd ((j, Except.error e) :: ys) = [] ++ .error e :: ys.map Prod.snd from rfl, this]
      rfl

/-- A request that offers what server.rs and async-server.rs want. -/
example : ascii "rust-websocket" ∈
    (Headers.fromRaw (requestLines sampleUrl [.addProtocol (ascii "chat"), .addProtocol (ascii "rust-websocket")] sampleKey)).getProtocol.getD [] := by
  decide +kernel

/-- Calls that fail and calls that do not. -/
example : [(⟨.ok noRequest, none⟩ : Call), ⟨.error .other, none⟩, ⟨.ok noRequest, some (.error ())⟩, ⟨.ok echoServerSide, none⟩,
      ⟨.ok noRequest, some (.ok echoServerSide)⟩].map (fun c => (@serverAccept B64.strict reqParser c.listener c.tls).isOk) =
    [false, false, false, true, true] := by
  decide +kernel

/-! Concrete cases of the theorems above. -/

/-- `C49_async_isolated`, `C49_async_schedule_irrelevant`: of `busyActs` and of a shorter schedule of the same connections, the second connection comes out. -/
example : ∃ r r', (1, r) ∈ (@Listening.run B64.strict reqParser .new busyActs).out ∧
    (1, r') ∈ (@Listening.run B64.strict reqParser .new
      [.arrive (.conn noRequest none), .arrive (.conn echoServerSide none), .arrive (.conn noRequest (some (1, .error ()))), .arrive (.refused .other), .wake 1]).out ∧
    arrivals busyActs = arrivals
      [.arrive (.conn noRequest none), .arrive (.conn echoServerSide none), .arrive (.conn noRequest (some (1, .error ()))), .arrive (.refused .other), .wake 1] := by
  have key : ∀ {l : List (Nat × Accepted)}, (l.map Prod.fst).contains 1 = true → ∃ r, (1, r) ∈ l := by
    intro l h
    obtain ⟨p, hp, e⟩ := List.mem_map.mp (List.contains_iff_mem.mp h)
    exact ⟨p.2, by rw [← e]; exact hp⟩
  obtain ⟨r, hr⟩ := key (l := (@Listening.run B64.strict reqParser .new busyActs).out) (by decide +kernel)
  obtain ⟨r', hr'⟩ := key (l := (@Listening.run B64.strict reqParser .new
      [.arrive (.conn noRequest none), .arrive (.conn echoServerSide none), .arrive (.conn noRequest (some (1, .error ()))), .arrive (.refused .other), .wake 1]).out)
    (by decide +kernel)
  exact ⟨r, r', hr, hr', rfl⟩
example := @C49_async_served B64.strict reqParser [.arrive (.conn noRequest none), .wake 0, .arrive (.conn rustAsked none)] [.wake 1, .wake 0, .wake 1, .wake 1]
  1 (.conn rustAsked none) rfl (by decide)
example := fun keys => @C50_autobahn_server_survives B64.strict reqParser keys [⟨.ok noRequest, none⟩, ⟨.error .other, none⟩] [⟨.ok noRequest, some (.error ())⟩]
  ⟨.ok noRequest, some (.ok sampleAsked)⟩ sampleKey sampleUrl.resource (requestLines sampleUrl sampleOps sampleKey) sampleAsked [0x89, 0x80, 1, 2, 3, 4] rfl
  sampleAsks sampleTarget sampleSendable.1 (by decide +kernel) (Src.chunks_of (by decide +kernel)) (by decide +kernel) (Sink.willing_of rfl)
example := fun keys => @C50_server_survives B64.strict reqParser keys [⟨.ok noRequest, none⟩, ⟨.error .other, none⟩] [⟨.ok noRequest, some (.error ())⟩]
  ⟨.ok rustAsked, none⟩ sampleKey sampleUrl.resource (requestLines sampleUrl rustOps sampleKey) rustAsked [0x89, 0x80, 1, 2, 3, 4] rfl
  rustAsks sampleTarget rustSendable.1 (by decide +kernel) (Src.chunks_of (by decide +kernel)) (by decide +kernel) (Sink.willing_of rfl) (by decide +kernel)
/-- `C50_bad_call_ignored`: a call that fails. -/
example : ∃ e, @serverAccept B64.strict reqParser (.ok noRequest) none = .error e := error_of_isOk (by decide +kernel)
example := fun keys => @C50_async_server_survives B64.strict reqParser keys 0 [.arrive (.conn noRequest none), .wake 0, .arrive (.conn rustAsked none)]
  [.wake 1, .wake 0, .wake 1, .wake 1] 1 (.conn rustAsked none) rfl (by decide) sampleKey sampleUrl.resource (requestLines sampleUrl rustOps sampleKey) rustAsked
  [0x89, 0x80, 1, 2, 3, 4] rfl rustAsks sampleTarget rustSendable.1 (Src.ready_of (by decide +kernel)) (by decide +kernel) (Sink.patient_of rfl) (by decide +kernel)
example := fun keys => @C50_async_autobahn_survives_partial B64.strict reqParser keys 0 [.arrive (.conn noRequest (some (1, .ok echoServerSide))), .wake 0, .arrive (.conn rustAsked none)]
  [.wake 1, .wake 0, .wake 1, .wake 1] 1 (.conn rustAsked none) rfl (by decide) sampleKey sampleUrl.resource (requestLines sampleUrl rustOps sampleKey) rustAsked
  [0x89, 0x80, 1, 2, 3, 4] rfl rustAsks sampleTarget rustSendable.1 (Src.ready_of (by decide +kernel)) (by decide +kernel) (Sink.patient_of rfl)
  (by
    intro y hy
    have : ((@Listening.run B64.strict reqParser .new ([.arrive (.conn noRequest (some (1, .ok echoServerSide))), .wake 0, .arrive (.conn rustAsked none)] ++
      [.wake 1, .wake 0, .wake 1, .wake 1])).out.all fun y => y.2.isOk) = true := by decide +kernel
    have := List.all_eq_true.mp this y hy
    cases h : y.2 with
    | ok u => exact ⟨u, rfl⟩
    | error e => rw [h] at this; cases this)

end WS
