import Verif.Lemmas.Inject
import Verif.Props.Connection
import Verif.Props.Target
/-!
# C68: no text given as a header value adds a line to a request or a response

Everything a program passes to the builder or to an upgrade, be it a protocol, an extension, an origin,
a version or the value of a header of its own, ends up inside one line. Whoever cuts the head at CR LF
sees the start line, lines whose names the library or the program chose, and the empty line. The second
part says which programs produce heads that every parser understands, so that C35 and C47 apply.
-/

namespace WS
open Spec

/-- The names under which the client writes lines of its own. -/
def requestNames : List Bytes := [nHost, nAuthorization, nConnection, nUpgrade, nVersion, nKey, nProtocol, nExtensions, nOrigin]
/-- The names under which the server writes lines of its own. -/
def responseNames : List Bytes := [nAccept, nConnection, nUpgrade, nProtocol, nExtensions]

/-- The header names a call brings along. -/
def givenNames : BOp → List Bytes
  | .customHeaders h => h.map (·.1)
  | _ => []

/-- The header names a server program brings along. -/
def customNames (custom : Option Headers) : List Bytes := (custom.getD []).map (·.1)

/-- The lines of this text are `start`, one for each entry of `es`, and the empty line. -/
def HeadLines (s start : Bytes) (es : List (Bytes × Bytes)) : Prop :=
  LinesAre s (start :: (es.map fun e => e.1 ++ ascii ": " ++ e.2) ++ [[]])

/-- C68: a text has its lines in one way only. -/
theorem C68_lines_determined (s : Bytes) (a b : List Bytes) (ha : LinesAre s a) (hb : LinesAre s b) : a = b := linesAre_inj ha hb

theorem names_step {b : Builder} {ns : List Bytes} (hn : ∀ n ∈ requestNames, n ∈ ns) (hh : ∀ e ∈ b.headers, e.1 ∈ ns) (op : BOp)
    (ho : ∀ n ∈ givenNames op, n ∈ ns) : ∀ e ∈ (b.step op).headers, e.1 ∈ ns := by
  have hset : ∀ (n : Bytes) (v : HVal), n ∈ requestNames → ∀ e ∈ Headers.insert n (.typed v) b.headers, e.1 ∈ ns :=
    fun n v h => all_insert (P := fun e => e.1 ∈ ns) hh (hn n h)
  have hrem : ∀ n : Bytes, ∀ e ∈ Headers.remove n b.headers, e.1 ∈ ns := fun n => all_remove (P := fun e => e.1 ∈ ns) hh n
  have hp : nProtocol ∈ requestNames := by simp [requestNames]
  have he : nExtensions ∈ requestNames := by simp [requestNames]
  cases op with
  | addProtocol p => exact all_upsertProtocol (P := fun e => e.1 ∈ ns) hh (hn _ hp) fun _ _ => hn _ hp
  | addProtocols p => exact all_upsertProtocol (P := fun e => e.1 ∈ ns) hh (hn _ hp) fun _ _ => hn _ hp
  | addExtension p => exact all_upsertExtensions (P := fun e => e.1 ∈ ns) hh (hn _ he) fun _ _ => hn _ he
  | addExtensions p => exact all_upsertExtensions (P := fun e => e.1 ∈ ns) hh (hn _ he) fun _ _ => hn _ he
  | key k => exact hset _ _ (by simp [requestNames])
  | version v => exact hset _ _ (by simp [requestNames])
  | origin o => exact hset _ _ (by simp [requestNames])
  | customHeaders h =>
    refine all_extend (P := fun e => e.1 ∈ ns) hh fun e he => ?_
    exact ho e.1 (List.mem_map.mpr ⟨e, he, rfl⟩)
  | clearProtocols => exact hrem _
  | clearExtensions => exact hrem _
  | clearKey => exact hrem _
  | clearVersion => exact hrem _
  | clearOrigin => exact hrem _
  | clearHeader n => exact hrem _
  | maxDataframeSize n => exact hh
  | maxMessageSize n => exact hh

theorem names_run {ns : List Bytes} (hn : ∀ n ∈ requestNames, n ∈ ns) (ops : List BOp) (ho : ∀ op ∈ ops, ∀ n ∈ givenNames op, n ∈ ns) (b : Builder)
    (hh : ∀ e ∈ b.headers, e.1 ∈ ns) : ∀ e ∈ (b.run ops).headers, e.1 ∈ ns := by
  induction ops generalizing b with
  | nil => exact hh
  | cons op ops ih =>
    rw [run_cons]
    exact ih (fun o h => ho o (List.mem_cons_of_mem _ h)) _ (names_step hn hh op (ho op List.mem_cons_self))

theorem requestLines_names (url : Url) (ops : List BOp) (fresh : WsKey) :
    ∀ e ∈ requestLines url ops fresh, (e.1 ∈ requestNames ∨ ∃ op ∈ ops, e.1 ∈ givenNames op) ∧ Inline e.2 := by
  intro e he
  obtain ⟨it, h1, h2⟩ := mem_wire he
  refine ⟨?_, lines_inline it _ h2⟩
  have hn : ∀ n ∈ requestNames, n ∈ requestNames ++ ops.flatMap givenNames := fun n h => List.mem_append_left _ h
  have hr := names_run hn ops (fun op ho n h => List.mem_append_right _ (List.mem_flatMap.mpr ⟨op, ho, h⟩)) (Builder.init url) (by intro e he; cases he)
  have hb := build_induct (K := fun h => ∀ e ∈ h, e.1 ∈ requestNames ++ ops.flatMap givenNames) hr fresh
    (fun _ h hh => all_insert (P := fun e => e.1 ∈ requestNames ++ ops.flatMap givenNames) hh (hn _ (by simp [requestNames])))
    (fun h hh => all_insert (P := fun e => e.1 ∈ requestNames ++ ops.flatMap givenNames) hh (hn _ (by simp [requestNames])))
    (fun h hh => all_insert (P := fun e => e.1 ∈ requestNames ++ ops.flatMap givenNames) hh (hn _ (by simp [requestNames])))
    (fun h hh => all_insert (P := fun e => e.1 ∈ requestNames ++ ops.flatMap givenNames) hh (hn _ (by simp [requestNames])))
    (fun h hh => all_insert (P := fun e => e.1 ∈ requestNames ++ ops.flatMap givenNames) hh (hn _ (by simp [requestNames])))
    (fun h hh => all_insert (P := fun e => e.1 ∈ requestNames ++ ops.flatMap givenNames) hh (hn _ (by simp [requestNames])))
  rcases List.mem_append.mp (hb _ h1) with h | h
  · exact .inl h
  · exact .inr (List.mem_flatMap.mp h)

theorem requestNames_inline : ∀ n ∈ requestNames, Inline n := by decide +kernel
theorem responseNames_inline : ∀ n ∈ responseNames, Inline n := by decide +kernel

/-- C68, the request: whatever the values are, the lines of the request are the request line, lines called as the library or the program chose,
and the empty line. A name of its own is the program's responsibility, and so is the resource, which a URL keeps free of line breaks. -/
theorem C68_request_lines (url : Url) (ops : List BOp) (fresh : WsKey) (hu : Inline url.resource) (hn : ∀ op ∈ ops, ∀ n ∈ givenNames op, Inline n) :
    ∃ es, HeadLines (Head (requestStart url) (requestLines url ops fresh)) (requestStart url) es ∧
      ∀ e ∈ es, e.1 ∈ requestNames ∨ ∃ op ∈ ops, e.1 ∈ givenNames op := by
  have h := requestLines_names url ops fresh
  refine ⟨requestLines url ops fresh, head_linesAre ?_ fun e he => ⟨?_, (h e he).2⟩, fun e he => (h e he).1⟩
  · unfold requestStart
    exact inline_append (inline_append (by decide +kernel) hu) (by decide +kernel)
  · rcases (h e he).1 with h | ⟨op, ho, h⟩
    · exact requestNames_inline _ h
    · exact hn op ho _ h

/-- C68, what the blocking client puts on the wire. -/
theorem C68_request_sent [B64] (p : ResParser) (fresh : WsKey) (d : Duplex) (url : Url) (ops : List BOp) (hu : Inline url.resource)
    (hn : ∀ op ∈ ops, ∀ n ∈ givenNames op, Inline n) (hi : ¬ (((Builder.init url).run ops).connectOn p fresh d).1.ioError)
    (hp : ∀ why, (((Builder.init url).run ops).connectOn p fresh d).1 ≠ .panic why) :
    ∃ s es, (((Builder.init url).run ops).connectOn p fresh d).1.wire = some (d.output.wire ++ s) ∧ HeadLines s (requestStart url) es ∧
      ∀ e ∈ es, e.1 ∈ requestNames ∨ ∃ op ∈ ops, e.1 ∈ givenNames op := by
  obtain ⟨pre, h1, -, h2⟩ := C37_request_sent p fresh d url ops hp
  obtain ⟨es, h3, h4⟩ := C68_request_lines url ops fresh hu hn
  rw [← h2 hi] at h3
  exact ⟨pre, es, h1, h3, h4⟩

/-- C68, what the async client puts on the wire. -/
theorem C68_async_request_sent [B64] (p : ResParser) (fresh : WsKey) (extra : Nat) (d : Duplex) (url : Url) (ops : List BOp) (hu : Inline url.resource)
    (hn : ∀ op ∈ ops, ∀ n ∈ givenNames op, Inline n) (c : AsyncClient) (hc : ((Builder.init url).run ops).asyncConnectOn p fresh extra d = .client c) :
    ∃ s es, c.stream.output.wire = d.output.wire ++ s ∧ HeadLines s (requestStart url) es ∧
      ∀ e ∈ es, e.1 ∈ requestNames ∨ ∃ op ∈ ops, e.1 ∈ givenNames op := by
  obtain ⟨pre, h1, -, h2⟩ := C37_async_request_sent p fresh extra d url ops c.stream.output.wire (by rw [hc]; rfl)
  obtain ⟨es, h3, h4⟩ := C68_request_lines url ops fresh hu hn
  rw [← h2 c hc] at h3
  exact ⟨pre, es, h1, h3, h4⟩

/-! ## Responses -/

theorem names_upgrade {B} {ns : List Bytes} (hn : ∀ n ∈ responseNames, n ∈ ns) (ops : List UpgradeOp) (u : Upgrade B)
    (hh : ∀ e ∈ u.headers, e.1 ∈ ns) : ∀ e ∈ (u.run ops).headers, e.1 ∈ ns := by
  have hp : nProtocol ∈ responseNames := by simp [responseNames]
  have he : nExtensions ∈ responseNames := by simp [responseNames]
  unfold Upgrade.run
  induction ops generalizing u with
  | nil => exact hh
  | cons op ops ih =>
    refine ih _ ?_
    cases op with
    | useProtocol p => exact all_upsertProtocol (P := fun e => e.1 ∈ ns) hh (hn _ hp) fun _ _ => hn _ hp
    | useExtension e => exact all_upsertExtensions (P := fun e => e.1 ∈ ns) hh (hn _ he) fun _ _ => hn _ he
    | useExtensions e => exact all_upsertExtensions (P := fun e => e.1 ∈ ns) hh (hn _ he) fun _ _ => hn _ he

theorem names_rejected {B} (u : Upgrade B) (h0 : u.headers = []) (ops : List UpgradeOp) (custom : Option Headers) :
    ∀ e ∈ ((u.run ops).addCustom custom).headers, e.1 ∈ responseNames ++ customNames custom := by
  have h1 := names_upgrade (ns := responseNames ++ customNames custom) (fun n h => List.mem_append_left _ h) ops u (by rw [h0]; intro e he; cases he)
  cases custom with
  | none => exact h1
  | some c =>
    exact all_extend (P := fun e => e.1 ∈ responseNames ++ customNames (some c)) h1
      fun e he => List.mem_append_right _ (List.mem_map.mpr ⟨e, he, rfl⟩)

theorem names_accepted {B} (u : Upgrade B) (h0 : u.headers = []) (ops : List UpgradeOp) (custom : Option Headers) (key : WsKey) :
    ∀ e ∈ ((u.run ops).accepted custom key).headers, e.1 ∈ responseNames ++ customNames custom := by
  have h1 := names_rejected u h0 ops custom
  have hn : ∀ n ∈ responseNames, n ∈ responseNames ++ customNames custom := fun n h => List.mem_append_left _ h
  exact all_insert (P := fun e => e.1 ∈ responseNames ++ customNames custom)
    (all_insert (P := fun e => e.1 ∈ responseNames ++ customNames custom)
      (all_insert (P := fun e => e.1 ∈ responseNames ++ customNames custom) h1 (hn _ (by simp [responseNames])))
      (hn _ (by simp [responseNames]))) (hn _ (by simp [responseNames]))

theorem response_headLines {h : Headers} {custom : Option Headers} (hh : ∀ e ∈ h, e.1 ∈ responseNames ++ customNames custom)
    (hn : ∀ n ∈ customNames custom, Inline n) {start : Bytes} (hs : Inline start) :
    HeadLines (Head start h.wire) start h.wire ∧ ∀ e ∈ h.wire, e.1 ∈ responseNames ∨ e.1 ∈ customNames custom := by
  have key : ∀ e ∈ h.wire, (e.1 ∈ responseNames ∨ e.1 ∈ customNames custom) ∧ Inline e.2 := by
    intro e he
    obtain ⟨it, h1, h2⟩ := mem_wire he
    exact ⟨List.mem_append.mp (hh _ h1), lines_inline it _ h2⟩
  refine ⟨head_linesAre hs fun e he => ⟨?_, (key e he).2⟩, fun e he => (key e he).1⟩
  rcases (key e he).1 with h | h
  · exact responseNames_inline _ h
  · exact hn _ h

/-- The status line for a switch of protocols. -/
def line101 (v : HttpVersion) : Bytes := v.fmt ++ ascii " 101 Switching Protocols"
/-- The status line of a refusal. -/
def line400 (v : HttpVersion) : Bytes := v.fmt ++ ascii " 400 Bad Request"

theorem line101_inline (v : HttpVersion) : Inline (line101 v) := by cases v <;> decide +kernel
theorem line400_inline (v : HttpVersion) : Inline (line400 v) := by cases v <;> decide +kernel

/-- C68, the response of a blocking server that accepts. -/
theorem C68_accept_sent [B64] (p : ReqParser) (d : Duplex) (u : SyncUpgrade) (hu : intoWs p d = .ok u) (ops : List UpgradeOp) (custom : Option Headers)
    (hn : ∀ n ∈ customNames custom, Inline n) (maxDf maxMsg : Nat) (c : Client)
    (hc : SyncUpgrade.internalAcceptWithLimits (u.run ops) custom maxDf maxMsg = .client c) :
    ∃ s es, c.stream.inner.output.wire = d.output.wire ++ s ∧ HeadLines s (line101 u.request.version) es ∧
      ∀ e ∈ es, e.1 ∈ responseNames ∨ e.1 ∈ customNames custom := by
  obtain ⟨⟨key, hk⟩, h0⟩ := C45_upgrade_has_key p d u hu
  have hd : u.stream.output = d.output := by have := C45_into_ws_silent p d; rw [hu] at this; exact this
  obtain ⟨u', h1, h2⟩ := C45_accept u ops (by rw [h0]; exact List.Pairwise.nil) custom maxDf maxMsg key hk
  rw [hc] at h2
  have h3 : u' = (u.run ops).accepted custom key := by
    rw [prepare_some _ custom (by rw [(run_facts u ops (by rw [h0]; exact List.Pairwise.nil)).2.1]; exact hk)] at h1
    cases h1; rfl
  subst h3
  obtain ⟨h4, h5⟩ := response_headLines (names_accepted u h0 ops custom key) hn (line101_inline u.request.version)
  exact ⟨_, _, by rw [← hd]; exact h2.1, h4, h5⟩

/-- C68, the response of a blocking server that refuses. -/
theorem C68_reject_sent [B64] (p : ReqParser) (d : Duplex) (u : SyncUpgrade) (hu : intoWs p d = .ok u) (ops : List UpgradeOp) (custom : Option Headers)
    (hn : ∀ n ∈ customNames custom, Inline n) (x : Unit) (d' : Duplex) (hc : SyncUpgrade.internalReject (u.run ops) custom = (.ok x, d')) :
    ∃ s es, d'.output.wire = d.output.wire ++ s ∧ HeadLines s (line400 u.request.version) es ∧
      ∀ e ∈ es, e.1 ∈ responseNames ∨ e.1 ∈ customNames custom := by
  obtain ⟨-, h0⟩ := C45_upgrade_has_key p d u hu
  have hd : u.stream.output = d.output := by have := C45_into_ws_silent p d; rw [hu] at this; exact this
  obtain ⟨-, out, h1, -, -, h2, -⟩ := C45_reject u ops (by rw [h0]; exact List.Pairwise.nil) custom _ _ hc
  obtain ⟨h4, h5⟩ := response_headLines (names_rejected u h0 ops custom) hn (line400_inline u.request.version)
  exact ⟨_, _, by rw [← hd, h1, h2 ⟨x, rfl⟩]; rfl, h4, h5⟩

/-- C68, the response of an async server that accepts. -/
theorem C68_async_accept_sent [B64] (p : ReqParser) (d : Duplex) (u : AsyncUpgrade) (hu : asyncIntoWs p d = .ok u) (ops : List UpgradeOp)
    (custom : Option Headers) (hn : ∀ n ∈ customNames custom, Inline n) (maxDf maxMsg extra : Nat) (c : AsyncClient)
    (hc : AsyncUpgrade.internalAcceptWithLimits (u.run ops) custom maxDf maxMsg extra = .client c) :
    ∃ s es, c.stream.output.wire = d.output.wire ++ s ∧ HeadLines s (line101 u.request.version) es ∧
      ∀ e ∈ es, e.1 ∈ responseNames ∨ e.1 ∈ customNames custom := by
  obtain ⟨⟨key, hk⟩, h0⟩ := C45_async_upgrade_has_key p d u hu
  have hd : u.stream.output = d.output := by have := C45_async_into_ws_silent p d; rw [hu] at this; exact this
  obtain ⟨u', h1, h2⟩ := C45_async_accept u ops (by rw [h0]; exact List.Pairwise.nil) custom maxDf maxMsg extra key hk
  rw [hc] at h2
  have h3 : u' = (u.run ops).accepted custom key := by
    rw [prepare_some _ custom (by rw [(run_facts u ops (by rw [h0]; exact List.Pairwise.nil)).2.1]; exact hk)] at h1
    cases h1; rfl
  subst h3
  obtain ⟨h4, h5⟩ := response_headLines (names_accepted u h0 ops custom key) hn (line101_inline u.request.version)
  exact ⟨_, _, by rw [← hd]; exact h2.1, h4, h5⟩

/-- C68, the response of an async server that refuses. -/
theorem C68_async_reject_sent [B64] (p : ReqParser) (d : Duplex) (u : AsyncUpgrade) (hu : asyncIntoWs p d = .ok u) (ops : List UpgradeOp)
    (custom : Option Headers) (hn : ∀ n ∈ customNames custom, Inline n) (extra : Nat) (d' : Duplex) (fr : Framed Unit)
    (hc : AsyncUpgrade.internalReject (u.run ops) custom extra = (.ready, d', fr)) :
    ∃ s es, d'.output.wire = d.output.wire ++ s ∧ HeadLines s (line400 u.request.version) es ∧
      ∀ e ∈ es, e.1 ∈ responseNames ∨ e.1 ∈ customNames custom := by
  obtain ⟨-, h0⟩ := C45_async_upgrade_has_key p d u hu
  have hd : u.stream.output = d.output := by have := C45_async_into_ws_silent p d; rw [hu] at this; exact this
  obtain ⟨-, -, out, h1, -, -, h2⟩ := C45_async_reject u ops (by rw [h0]; exact List.Pairwise.nil) custom extra _ _ _ hc
  obtain ⟨h4, h5⟩ := response_headLines (names_rejected u h0 ops custom) hn (line400_inline u.request.version)
  rcases h2 with ⟨-, h2⟩ | ⟨e, h2⟩ | ⟨_, h2, -⟩
  · exact ⟨_, _, by rw [← hd, h1, h2]; rfl, h4, h5⟩
  · cases h2
  · cases h2

/-! ## Programs whose heads every parser understands -/

/-- A header name that can be sent. -/
def PlainName (n : Bytes) : Prop := n ≠ [] ∧ ∀ c ∈ n, isTchar c = true

/-- A header of the program's own: a name that can be sent, at least one line, plain values, and not one of the two lists the library extends itself. -/
def PlainEntry (e : Bytes × HItem) : Prop :=
  PlainName e.1 ∧ ¬ SameText e.1 (ascii "Sec-WebSocket-Protocol") ∧ ¬ SameText e.1 (ascii "Sec-WebSocket-Extensions") ∧
    match e.2 with
    | .raw ls => ls ≠ [] ∧ ∀ l ∈ ls, PlainValue l ∧ Spec.IsUtf8 l
    | .typed v => PlainValue v.fmt

/-- A call with plain texts. -/
def PlainOp : BOp → Prop
  | .addProtocol p => PlainItem p
  | .addProtocols ps => ∀ p ∈ ps, PlainItem p
  | .addExtension e => PlainItem e.fmt
  | .addExtensions es => ∀ e ∈ es, PlainItem e.fmt
  | .version v => PlainValue v.fmt
  | .origin o => PlainValue o
  | .customHeaders h => ∀ e ∈ h, PlainEntry e
  | _ => True

/-- The same for a server. -/
def PlainChoice : UpgradeOp → Prop
  | .useProtocol p => PlainItem p
  | .useExtension e => PlainItem e.fmt
  | .useExtensions es => ∀ e ∈ es, PlainItem e.fmt

/-- The number of header lines a call brings along. -/
def givenLines : BOp → Nat
  | .customHeaders h => h.wire.length
  | _ => 0

/-- What holds of every entry of a header map filled by such calls. -/
def Proper (e : Bytes × HItem) : Prop :=
  PlainName e.1 ∧ (∀ l ∈ e.2.lines, PlainValue l) ∧ e.2.lines ≠ [] ∧
    (eqIgnoreCase e.1 nProtocol = true → ∃ l, e.2 = .typed (.protocol l) ∧ ∀ x ∈ l, PlainItem x) ∧
    (eqIgnoreCase e.1 nExtensions = true → ∃ l, e.2 = .typed (.extensions l) ∧ ∀ x ∈ l, PlainItem x.fmt)

theorem plain_inline {v : Bytes} (h : PlainValue v) : Inline v :=
  ⟨fun hc => absurd (h.1 _ hc).1 (by decide), fun hc => absurd (h.1 _ hc).1 (by decide)⟩

theorem plain_oneLine {v : Bytes} (h : PlainValue v) : oneLine v = v := oneLine_inline (plain_inline h)

theorem plain_join {l : List Bytes} (h : ∀ x ∈ l, PlainItem x) : PlainValue (fmtCommaDelimited l) := by
  unfold fmtCommaDelimited
  have key : ∀ l : List Bytes, (∀ x ∈ l, PlainItem x) → l ≠ [] → PlainItem (joinWith [44, 32] l) := by
    intro l
    induction l with
    | nil => intro _ h; exact absurd rfl h
    | cons a t ih =>
      intro h _
      cases t with
      | nil => exact h a List.mem_cons_self
      | cons b t =>
        have e : joinWith [44, 32] (a :: b :: t) = a ++ ([44, 32] ++ joinWith [44, 32] (b :: t)) := by simp [joinWith]
        obtain ⟨i1, i2, i3, i4⟩ := ih (fun x hx => h x (List.mem_cons_of_mem _ hx)) (by simp)
        obtain ⟨a1, a2, a3, a4⟩ := h a List.mem_cons_self
        rw [e]
        refine ⟨by simp, ?_, ?_, ?_⟩
        · intro c hc
          simp only [List.mem_append, List.mem_cons, List.not_mem_nil, or_false] at hc
          rcases hc with hc | (rfl | rfl) | hc
          · exact a2 c hc
          · decide
          · decide
          · exact i2 c hc
        · cases a with
          | nil => exact absurd rfl a1
          | cons c a => exact a3
        · rw [List.getLast?_append, List.getLast?_append]
          cases hx : (joinWith [44, 32] (b :: t)).getLast? with
          | none => exact absurd (List.getLast?_eq_none_iff.mp hx) i1
          | some c => rw [hx] at i4; simpa using i4
  cases l with
  | nil =>
    refine ⟨fun c hc => ?_, ?_, ?_⟩
    · simp [joinWith] at hc
    · simp [joinWith]
    · simp [joinWith]
  | cons a t => exact (key _ h (by simp)).2

theorem proper_protocol {l : List Bytes} (h : ∀ x ∈ l, PlainItem x) : Proper (nProtocol, .typed (.protocol l)) := by
  have hp := plain_join h
  have h1 : PlainName nProtocol := by unfold PlainName; decide +kernel
  have h2 : eqIgnoreCase nProtocol nExtensions = false := by decide +kernel
  refine ⟨h1, ?_, by simp [HItem.lines], fun _ => ⟨l, rfl, h⟩, fun hc => by rw [show eqIgnoreCase _ _ = false from h2] at hc; cases hc⟩
  intro x hx
  rw [List.mem_singleton.mp hx]
  show PlainValue (oneLine (fmtCommaDelimited l))
  rw [plain_oneLine hp]; exact hp

theorem proper_extensions {l : List Ext} (h : ∀ x ∈ l, PlainItem x.fmt) : Proper (nExtensions, .typed (.extensions l)) := by
  have hp : PlainValue (fmtCommaDelimited (l.map Ext.fmt)) := plain_join (by
    intro x hx
    obtain ⟨e, he, rfl⟩ := List.mem_map.mp hx
    exact h e he)
  have h1 : PlainName nExtensions := by unfold PlainName; decide +kernel
  have h2 : eqIgnoreCase nExtensions nProtocol = false := by decide +kernel
  refine ⟨h1, ?_, by simp [HItem.lines], fun hc => (by rw [show eqIgnoreCase _ _ = false from h2] at hc; cases hc), fun _ => ⟨l, rfl, h⟩⟩
  intro x hx
  rw [List.mem_singleton.mp hx]
  show PlainValue (oneLine (fmtCommaDelimited (l.map Ext.fmt)))
  rw [plain_oneLine hp]; exact hp

theorem proper_value {n : Bytes} {v : HVal} (hn : PlainName n) (h1 : eqIgnoreCase n nProtocol = false) (h2 : eqIgnoreCase n nExtensions = false)
    (hv : PlainValue v.fmt) : Proper (n, .typed v) := by
  refine ⟨hn, ?_, by simp [HItem.lines], fun hc => (by rw [h1] at hc; cases hc), fun hc => (by rw [h2] at hc; cases hc)⟩
  intro x hx
  rw [List.mem_singleton.mp hx, plain_oneLine hv]
  exact hv

theorem proper_entry {e : Bytes × HItem} (h : PlainEntry e) : Proper e := by
  obtain ⟨n, it⟩ := e
  obtain ⟨h1, h2, h3, h4⟩ := h
  have g2 : eqIgnoreCase n nProtocol = false := by rw [sameText_iff] at h2; simpa [nProtocol] using h2
  have g3 : eqIgnoreCase n nExtensions = false := by rw [sameText_iff] at h3; simpa [nExtensions] using h3
  cases it with
  | typed v => exact proper_value h1 g2 g3 h4
  | raw ls =>
    refine ⟨h1, ?_, ?_, fun hc => (by rw [show eqIgnoreCase _ _ = false from g2] at hc; cases hc),
      fun hc => (by rw [show eqIgnoreCase _ _ = false from g3] at hc; cases hc)⟩
    · intro x hx
      obtain ⟨y, hy, rfl⟩ := List.mem_map.mp hx
      rw [plain_oneLine (h4.2 y hy).1]
      exact (h4.2 y hy).1
    · intro hc; exact h4.1 (List.map_eq_nil_iff.mp hc)

theorem proper_getProtocol {h : Headers} (hh : ∀ e ∈ h, Proper e) {l : List Bytes} (hl : h.getProtocol = some l) : ∀ x ∈ l, PlainItem x := by
  unfold Headers.getProtocol at hl
  cases hi : h.item nProtocol with
  | none => rw [hi] at hl; cases hl
  | some it =>
    obtain ⟨m, hm, he⟩ := item_entry hi
    obtain ⟨l', h1, h2⟩ := (hh _ hm).2.2.2.1 he
    simp only at h1
    subst h1
    rw [hi] at hl
    cases hl
    exact h2

theorem proper_getExtensions {h : Headers} (hh : ∀ e ∈ h, Proper e) {l : List Ext} (hl : h.getExtensions = some l) : ∀ x ∈ l, PlainItem x.fmt := by
  unfold Headers.getExtensions at hl
  cases hi : h.item nExtensions with
  | none => rw [hi] at hl; cases hl
  | some it =>
    obtain ⟨m, hm, he⟩ := item_entry hi
    obtain ⟨l', h1, h2⟩ := (hh _ hm).2.2.2.2 he
    simp only at h1
    subst h1
    rw [hi] at hl
    cases hl
    exact h2

theorem proper_upsertProtocol {h : Headers} (hh : ∀ e ∈ h, Proper e) {xs : List Bytes} (hx : ∀ x ∈ xs, PlainItem x) :
    ∀ e ∈ h.upsertProtocol xs, Proper e :=
  all_upsertProtocol hh (proper_protocol hx) fun l hl => proper_protocol fun x h' => by
    rcases List.mem_append.mp h' with h' | h'
    · exact proper_getProtocol hh hl x h'
    · exact hx x h'

theorem proper_upsertExtensions {h : Headers} (hh : ∀ e ∈ h, Proper e) {xs : List Ext} (hx : ∀ x ∈ xs, PlainItem x.fmt) :
    ∀ e ∈ h.upsertExtensions xs, Proper e :=
  all_upsertExtensions hh (proper_extensions hx) fun l hl => proper_extensions fun x h' => by
    rcases List.mem_append.mp h' with h' | h'
    · exact proper_getExtensions hh hl x h'
    · exact hx x h'

theorem b64_plain (b : Bytes) : PlainValue (b64Encode b) := by
  refine ⟨fun c hc => ?_, ?_, b64_last b⟩
  · obtain ⟨h1, h2, -⟩ := b64Encode_visible hc
    have h3 : 43 ≤ c.toNat := h1
    have h4 : c.toNat ≤ 122 := h2
    refine ⟨?_, ?_⟩
    · show 32 ≤ c.toNat; omega
    · rintro rfl; exact absurd h4 (by decide)
  · intro h
    cases hx : b64Encode b with
    | nil => rw [hx] at h; cases h
    | cons c t =>
      rw [hx] at h
      have : c ∈ b64Encode b := by rw [hx]; exact List.mem_cons_self
      simp only [List.head?_cons, Option.some.injEq] at h
      rw [h] at this
      exact absurd (b64Encode_visible this).1 (by decide)

theorem proper_step {b : Builder} (hh : ∀ e ∈ b.headers, Proper e) {op : BOp} (ho : PlainOp op) : ∀ e ∈ (b.step op).headers, Proper e := by
  have hrem : ∀ n : Bytes, ∀ e ∈ Headers.remove n b.headers, Proper e := fun n => all_remove hh n
  cases op with
  | addProtocol p => exact proper_upsertProtocol hh (by intro x hx; rw [List.mem_singleton.mp hx]; exact ho)
  | addProtocols p => exact proper_upsertProtocol hh ho
  | addExtension p => exact proper_upsertExtensions hh (by intro x hx; rw [List.mem_singleton.mp hx]; exact ho)
  | addExtensions p => exact proper_upsertExtensions hh ho
  | key k => exact all_insert hh (proper_value (by unfold PlainName; decide +kernel) (by decide +kernel) (by decide +kernel) (b64_plain _))
  | version v => exact all_insert hh (proper_value (by unfold PlainName; decide +kernel) (by decide +kernel) (by decide +kernel) ho)
  | origin o => exact all_insert hh (proper_value (by unfold PlainName; decide +kernel) (by decide +kernel) (by decide +kernel) ho)
  | customHeaders h => exact all_extend hh fun e he => proper_entry (ho e he)
  | clearProtocols => exact hrem _
  | clearExtensions => exact hrem _
  | clearKey => exact hrem _
  | clearVersion => exact hrem _
  | clearOrigin => exact hrem _
  | clearHeader n => exact hrem _
  | maxDataframeSize n => exact hh
  | maxMessageSize n => exact hh

theorem proper_run (ops : List BOp) (ho : ∀ op ∈ ops, PlainOp op) (b : Builder) (hh : ∀ e ∈ b.headers, Proper e) :
    ∀ e ∈ (b.run ops).headers, Proper e := by
  induction ops generalizing b with
  | nil => exact hh
  | cons op ops ih => exact ih (fun o h => ho o (List.mem_cons_of_mem _ h)) _ (proper_step hh (ho op List.mem_cons_self))

theorem requestNames_distinct : requestNames.Pairwise fun a b => eqIgnoreCase a b = false := by decide +kernel
theorem responseNames_distinct : responseNames.Pairwise fun a b => eqIgnoreCase a b = false := by decide +kernel

theorem proper_lines {h : Headers} (hh : ∀ e ∈ h, Proper e) : ∀ e ∈ h, e.2.lines ≠ [] := fun e he => (hh e he).2.2.1

theorem bounded_step {k : Nat} {b : Builder} (hb : Bounded requestNames k b.headers) {op : BOp} (ho : PlainOp op) :
    Bounded requestNames (k + givenLines op) (b.step op).headers := by
  have hrem : ∀ n : Bytes, Bounded requestNames k (Headers.remove n b.headers) := fun n => hb.remove requestNames_distinct n
  cases op with
  | addProtocol p => exact hb.upsertProtocol (by simp [requestNames]) _
  | addProtocols p => exact hb.upsertProtocol (by simp [requestNames]) _
  | addExtension p => exact hb.upsertExtensions (by simp [requestNames]) _
  | addExtensions p => exact hb.upsertExtensions (by simp [requestNames]) _
  | key k => exact hb.set (by simp [requestNames]) _
  | version v => exact hb.set (by simp [requestNames]) _
  | origin o => exact hb.set (by simp [requestNames]) _
  | customHeaders h => exact hb.extend h fun e he => (proper_entry (ho e he)).2.2.1
  | clearProtocols => exact hrem _
  | clearExtensions => exact hrem _
  | clearKey => exact hrem _
  | clearVersion => exact hrem _
  | clearOrigin => exact hrem _
  | clearHeader n => exact hrem _
  | maxDataframeSize n => exact hb
  | maxMessageSize n => exact hb

theorem bounded_run (ops : List BOp) (ho : ∀ op ∈ ops, PlainOp op) {k : Nat} (b : Builder) (hb : Bounded requestNames k b.headers) :
    Bounded requestNames (k + (ops.map givenLines).sum) (b.run ops).headers := by
  induction ops generalizing b k with
  | nil => exact hb
  | cons op ops ih =>
    have := ih (fun o h => ho o (List.mem_cons_of_mem _ h)) _ (bounded_step hb (ho op List.mem_cons_self))
    rw [List.map_cons, List.sum_cons, ← Nat.add_assoc]
    exact this

theorem plain_host {url : Url} (h : ∀ host, url.host = some host → PlainValue host) (hn : url.host ≠ none) : PlainValue url.hostHeader := by
  unfold Url.hostHeader
  cases hx : url.host with
  | none => exact absurd hx hn
  | some host =>
    have hp := h host hx
    simp only
    cases hq : url.port with
    | none => exact hp
    | some p =>
      simp only
      split
      · exact hp
      · obtain ⟨d, hd, he⟩ := decimal_last (decimal_spec p)
        refine ⟨fun c hc => ?_, ?_, ?_⟩
        · simp only [List.mem_append, List.mem_cons] at hc
          rcases hc with hc | rfl | hc
          · exact hp.1 c hc
          · decide
          · exact decimal_plain (decimal_spec p) c hc
        · cases host with
          | nil => simp
          | cons c t => exact hp.2.1
        · rw [List.getLast?_append, List.getLast?_cons, he]
          simp only [Option.getD_some, Option.some_or, ne_eq, Option.some.injEq]
          exact digit_not_blank hd

theorem plain_text {h : Headers} (hh : ∀ e ∈ h, PlainEntry e) : TextHeaders h := by
  intro e he ls hl l hm
  have := (hh e he).2.2.2
  rw [hl] at this
  exact (this.2 l hm).2

theorem plain_gives {ops : List BOp} (ho : ∀ op ∈ ops, PlainOp op) : ∀ op ∈ ops, GivesText op := by
  intro op h
  have := ho op h
  cases op with
  | customHeaders h => exact plain_text this
  | _ => trivial

/-- C68: calls with plain texts and not too many headers of one's own make a request that every parser understands. -/
theorem C68_plain_request (url : Url) (ops : List BOp) (fresh : WsKey) (hh : ∀ host, url.host = some host → PlainValue host)
    (ho : ∀ op ∈ ops, PlainOp op) (hc : (ops.map givenLines).sum ≤ 91) : SendableRequest url ops fresh := by
  refine ⟨?_, plain_gives ho⟩
  have hpn : ∀ n ∈ requestNames, PlainName n := by unfold PlainName; decide +kernel
  have hp1 : ∀ n ∈ [nHost, nAuthorization, nConnection, nUpgrade, nVersion, nKey], eqIgnoreCase n nProtocol = false ∧ eqIgnoreCase n nExtensions = false := by
    decide +kernel
  have hprop : ∀ e ∈ (((Builder.init url).run ops).buildRequest fresh).2.headers, Proper e := by
    have hset : ∀ (n : Bytes) (v : HVal), n ∈ [nHost, nAuthorization, nConnection, nUpgrade, nVersion, nKey] → PlainValue v.fmt →
        ∀ h : Headers, (∀ e ∈ h, Proper e) → ∀ e ∈ Headers.insert n (.typed v) h, Proper e := by
      intro n v hn hv h hh
      refine all_insert hh (proper_value (hpn n ?_) (hp1 n hn).1 (hp1 n hn).2 hv)
      simp only [requestNames, List.mem_cons, List.not_mem_nil, or_false] at hn ⊢
      rcases hn with h | h | h | h | h | h <;> simp [h]
    have e : ((Builder.init url).run ops).url = url := (run_fixed (Builder.init url) ops).1
    refine build_induct (K := fun h => ∀ e ∈ h, Proper e) (proper_run ops ho (Builder.init url) (by intro e he; cases he)) fresh ?_ ?_ ?_ ?_ ?_ ?_
    · rw [e]; exact fun hn => hset _ _ (by simp) (plain_host hh hn)
    · rw [e]
      refine hset _ _ (by simp) ?_
      have hb := b64_plain (url.username ++ 58 :: url.password.getD [])
      refine ⟨?_, ?_, basic_last url.username (58 :: url.password.getD []) (by simp)⟩
      · intro c hc
        rcases List.mem_append.mp hc with hc | hc
        · have : ∀ c ∈ ascii "Basic ", 32 ≤ c ∧ c ≠ 127 := by decide
          exact this c hc
        · exact hb.1 c hc
      · show (ascii "Basic " ++ _).head? ≠ _
        have : ascii "Basic " = 66 :: [97, 115, 105, 99, 32] := by decide
        rw [this]; simp
    · exact hset _ _ (by simp) (by unfold PlainValue; decide +kernel)
    · exact hset _ _ (by simp) (by unfold PlainValue; decide +kernel)
    · exact hset _ _ (by simp) (by unfold PlainValue; decide +kernel)
    · exact hset _ _ (by simp) (b64_plain _)
  constructor
  · intro e he
    obtain ⟨it, h1, h2⟩ := mem_wire he
    obtain ⟨⟨g1, g2⟩, g3, -⟩ := hprop _ h1
    obtain ⟨v1, v2, v3⟩ := g3 _ h2
    exact ⟨g1, g2, v1, fun c hc hx => v2 (by rw [hc, hx]), fun c hc hx => v3 (by rw [hc, hx])⟩
  · have hb := bounded_run ops ho (Builder.init url) (k := 0) (Bounded.init _)
    have hf := build_induct (K := Bounded requestNames (0 + (ops.map givenLines).sum)) hb fresh
      (fun _ h hh => hh.set (by simp [requestNames]) _) (fun h hh => hh.set (by simp [requestNames]) _)
      (fun h hh => hh.set (by simp [requestNames]) _) (fun h hh => hh.set (by simp [requestNames]) _)
      (fun h hh => hh.set (by simp [requestNames]) _) (fun h hh => hh.set (by simp [requestNames]) _)
    have h3 := present_le requestNames (((Builder.init url).run ops).buildRequest fresh).2.headers
    have h4 := hf.2.2
    have h5 : requestNames.length = 9 := rfl
    unfold requestLines maxHeaders
    omega

/-- C68: the same for a response. -/
theorem C68_plain_response (sops : List UpgradeOp) (custom : Option Headers) (key : WsKey) (ho : ∀ op ∈ sops, PlainChoice op)
    (hh : ∀ c, custom = some c → (∀ e ∈ c, PlainEntry e) ∧ c.wire.length ≤ 95) : SendableResponse sops custom key := by
  refine ⟨?_, fun c hc => plain_text (hh c hc).1⟩
  have hb64 : ∀ n ∈ [nAccept, nConnection, nUpgrade], PlainName n ∧ eqIgnoreCase n nProtocol = false ∧ eqIgnoreCase n nExtensions = false := by
    unfold PlainName; decide +kernel
  have hrun : ∀ (u : Upgrade Unit), (∀ e ∈ u.headers, Proper e) → Bounded responseNames 0 u.headers →
      (∀ e ∈ (u.run sops).headers, Proper e) ∧ Bounded responseNames 0 (u.run sops).headers := by
    unfold Upgrade.run
    induction sops with
    | nil => exact fun u h1 h2 => ⟨h1, h2⟩
    | cons op sops ih =>
      intro u h1 h2
      have hop := ho op List.mem_cons_self
      refine ih (fun o h => ho o (List.mem_cons_of_mem _ h)) _ ?_ ?_
      · cases op with
        | useProtocol p => exact proper_upsertProtocol h1 (by intro x hx; rw [List.mem_singleton.mp hx]; exact hop)
        | useExtension p => exact proper_upsertExtensions h1 (by intro x hx; rw [List.mem_singleton.mp hx]; exact hop)
        | useExtensions p => exact proper_upsertExtensions h1 hop
      · cases op with
        | useProtocol p => exact h2.upsertProtocol (by simp [responseNames]) _
        | useExtension p => exact h2.upsertExtensions (by simp [responseNames]) _
        | useExtensions p => exact h2.upsertExtensions (by simp [responseNames]) _
  obtain ⟨h1, h2⟩ := hrun ⟨[], ⟨[], ⟨[], []⟩⟩, ⟨.http11, ⟨.get, []⟩, []⟩, ()⟩ (by intro e he; cases he) (Bounded.init _)
  unfold responseLines Upgrade.accepted
  simp only
  generalize (⟨[], ⟨[], ⟨[], []⟩⟩, ⟨.http11, ⟨.get, []⟩, []⟩, ()⟩ : Upgrade Unit).run sops = u at h1 h2 ⊢
  have h3 : (∀ e ∈ (u.addCustom custom).headers, Proper e) ∧ Bounded responseNames 95 (u.addCustom custom).headers := by
    cases custom with
    | none => exact ⟨h1, h2.mono (by omega)⟩
    | some c =>
      obtain ⟨g1, g2⟩ := hh c rfl
      exact ⟨all_extend h1 fun e he => proper_entry (g1 e he),
        (h2.extend c fun e he => (proper_entry (g1 e he)).2.2.1).mono (by omega)⟩
  obtain ⟨h3, h4⟩ := h3
  have hset : ∀ (n : Bytes) (v : HVal), n ∈ [nAccept, nConnection, nUpgrade] → PlainValue v.fmt →
      ∀ h : Headers, (∀ e ∈ h, Proper e) → ∀ e ∈ Headers.insert n (.typed v) h, Proper e := by
    intro n v hn hv h hh
    obtain ⟨a, b, c⟩ := hb64 n hn
    exact all_insert hh (proper_value a b c hv)
  have hprop := hset nUpgrade (.upgrade [⟨.websocket, none⟩]) (by simp) (by unfold PlainValue; decide +kernel) _
    (hset nConnection (.connection [ConnOpt.header (ascii "Upgrade")]) (by simp) (by unfold PlainValue; decide +kernel) _
      (hset nAccept (.accept (WsAccept.new key)) (by simp) (b64_plain _) _ h3))
  have hbound := ((h4.set (n := nAccept) (by simp [responseNames]) (.accept (WsAccept.new key))).set (n := nConnection) (by simp [responseNames])
    (.connection [ConnOpt.header (ascii "Upgrade")])).set (n := nUpgrade) (by simp [responseNames]) (.upgrade [⟨.websocket, none⟩])
  constructor
  · intro e he
    obtain ⟨it, h1, h2⟩ := mem_wire he
    obtain ⟨⟨g1, g2⟩, g3, -⟩ := hprop _ h1
    obtain ⟨v1, v2, v3⟩ := g3 _ h2
    exact ⟨g1, g2, v1, fun c hc hx => v2 (by rw [hc, hx]), fun c hc hx => v3 (by rw [hc, hx])⟩
  · have h6 := hbound.2.2
    have h7 := present_le responseNames (Headers.insert nUpgrade (.typed (.upgrade [⟨.websocket, none⟩]))
      (Headers.insert nConnection (.typed (.connection [ConnOpt.header (ascii "Upgrade")]))
        (Headers.insert nAccept (.typed (.accept (WsAccept.new key))) (u.addCustom custom).headers)))
    have h5 : responseNames.length = 5 := rfl
    unfold maxHeaders
    exact Nat.le_trans h6 (by omega)

/-- C68: two programs with plain texts, the client leaving key and version alone, can hold any conversation they have (C47), whatever else they choose. -/
theorem C68_plain_conversation [B64] (preq : ReqParser) (pres : ResParser) (url : Url) (ops : List BOp) (fresh : WsKey)
    (sops : List UpgradeOp) (custom : Option Headers) (maxDf maxMsg : Nat) (cts sts : List Talk) (cd sd : Duplex)
    (hkv : ∀ op ∈ ops, (∀ k, op ≠ .key k) ∧ ∀ v, op ≠ .version v) (hu : Target url.resource)
    (hh : ∀ host, url.host = some host → PlainValue host) (ho : ∀ op ∈ ops, PlainOp op) (hn : (ops.map givenLines).sum ≤ 91)
    (hso : ∀ op ∈ sops, PlainChoice op) (hsh : ∀ c, custom = some c → (∀ e ∈ c, PlainEntry e) ∧ c.wire.length ≤ 95)
    (hl : (Head (requestStart url) (requestLines url ops fresh)).length ≤ maxBufferSize)
    (hl' : (head101 .http11 (responseLines sops custom fresh)).length ≤ maxBufferSize)
    (hc : ∀ p ∈ said cts, p.1.spec.Sendable (min maxDf u32Max))
    (hsm : ∀ p ∈ said sts, p.1.spec.Sendable (min (lastSet setsDf (100 * 2 ^ 20) ops) u32Max))
    (hcw : cd.output.Willing) (hsw : sd.output.Willing) (hc0 : cd.output.wire = []) (hs0 : sd.output.wire = [])
    (hci : cd.input.Chunks) (hsi : sd.input.Chunks)
    (hcs : sd.input.flat = (clientProgram pres fresh ((Builder.init url).run ops) cts cd).wire)
    (hsc : cd.input.flat = (serverProgram preq (Upgrade.run · sops) custom maxDf maxMsg sts sd).wire) :
    Converse cts sts (clientProgram pres fresh ((Builder.init url).run ops) cts cd)
      (serverProgram preq (Upgrade.run · sops) custom maxDf maxMsg sts sd) :=
  C47_blocking_blocking preq pres url ops fresh fresh sops custom maxDf maxMsg cts sts cd sd (C35_request_asks url ops fresh hkv).1
    (C35_request_asks url ops fresh hkv).2 hu (C68_plain_request url ops fresh hh ho hn) hl (C68_plain_response sops custom fresh hso hsh) hl'
    hc hsm hcw hsw hc0 hs0 hci hsi hcs hsc

/-! ## The hypotheses are met; an attack on the values fails, one on the names does not -/

instance (v : Bytes) : Decidable (PlainValue v) := inferInstanceAs (Decidable (_ ∧ _ ∧ _))
instance (v : Bytes) : Decidable (PlainItem v) := inferInstanceAs (Decidable (_ ∧ _))
instance (n : Bytes) : Decidable (PlainName n) := inferInstanceAs (Decidable (_ ∧ _))

/-- A program that passes on a protocol, an origin and a header value from an attacker. -/
def attacked : List BOp :=
  [.addProtocol (ascii "chat\r\nX-Evil: 1"), .origin (ascii "a\r\n\r\nGET / HTTP/1.1"), .customHeaders [(ascii "X-A", .raw [ascii "b\nX-Evil: 1"])]]

example : Inline sampleUrl.resource ∧ ∀ op ∈ attacked, ∀ n ∈ givenNames op, Inline n := by decide +kernel

/-- Nothing comes of it. -/
example : ¬ ascii "\r\nX-Evil: 1" <:+: Head (requestStart sampleUrl) (requestLines sampleUrl attacked sampleKey) ∧
    (requestLines sampleUrl attacked sampleKey).length = 8 := by decide +kernel

/-- C68: names are written as they are; a program must not take them from others. -/
theorem C68_names_unprotected :
    ascii "\r\nX-Evil: 1\r\n" <:+:
      Head (requestStart sampleUrl) (requestLines sampleUrl [.customHeaders [(ascii "X-A: b\r\nX-Evil", .raw [ascii "1"])]] sampleKey) := by
  decide +kernel

theorem samplePlain : (∀ host, sampleUrl.host = some host → PlainValue host) ∧ (∀ op ∈ sampleOps, PlainOp op) ∧ (sampleOps.map givenLines).sum ≤ 91 := by
  refine ⟨?_, ?_, by decide +kernel⟩
  · intro host h; cases h; decide +kernel
  · intro op ho
    simp only [sampleOps, List.mem_cons, List.not_mem_nil, or_false] at ho
    rcases ho with rfl | rfl | rfl
    · show PlainItem _; decide +kernel
    · show PlainItem _; decide +kernel
    · intro e he
      simp only [List.mem_cons, List.not_mem_nil, or_false] at he
      subst he
      refine ⟨by decide +kernel, ?_, ?_, by simp, ?_⟩
      · rw [sameText_iff]; decide +kernel
      · rw [sameText_iff]; decide +kernel
      · intro l hl
        rw [List.mem_singleton.mp hl]
        exact ⟨by decide +kernel, isUtf8_ascii (by decide +kernel)⟩

example := C68_plain_request sampleUrl sampleOps sampleKey samplePlain.1 samplePlain.2.1 samplePlain.2.2
example := C68_plain_response [.useProtocol (ascii "chat"), .useExtension ⟨ascii "x-deflate", [⟨ascii "fast", none⟩]⟩] (some [(ascii "Server", .raw [ascii "demo"])]) sampleKey
  (by
    intro op ho
    simp only [List.mem_cons, List.not_mem_nil, or_false] at ho
    rcases ho with rfl | rfl <;> (show PlainItem _; decide +kernel))
  (by
    intro c hc
    cases hc
    refine ⟨?_, by decide +kernel⟩
    intro e he
    simp only [List.mem_cons, List.not_mem_nil, or_false] at he
    subst he
    refine ⟨by decide +kernel, ?_, ?_, by simp, ?_⟩
    · rw [sameText_iff]; decide +kernel
    · rw [sameText_iff]; decide +kernel
    · intro l hl
      rw [List.mem_singleton.mp hl]
      exact ⟨by decide +kernel, isUtf8_ascii (by decide +kernel)⟩)
example : [ascii "A", ascii "B"] = [ascii "A", ascii "B"] := C68_lines_determined (ascii "A\r\nB\r\n") _ _
  ⟨by decide +kernel, by decide +kernel⟩ ⟨by decide +kernel, by decide +kernel⟩
example := @C68_request_lines sampleUrl attacked sampleKey (by decide +kernel) (by decide +kernel)
/-- `C68_request_sent`, `C68_async_request_sent`, `C68_accept_sent`, `C68_async_accept_sent`: connections that come about. -/
example : (∃ c, (@Builder.connectOn B64.strict resParser exNonce exAnswered (exBuilder.run attacked)).1 = .client c) ∧
    (∃ c, @Builder.asyncConnectOn B64.strict resParser exNonce 0 exAnswered (exBuilder.run attacked) = .client c) ∧
    (∃ u, @intoWs B64.strict reqParser exServed = .ok u) ∧ ∃ u, @asyncIntoWs B64.strict reqParser exServed = .ok u :=
  ⟨ConnectRes.exists_client (by decide +kernel), AsyncConnectRes.exists_client (by decide +kernel), ok_of_isOk (by decide +kernel), ok_of_isOk (by decide +kernel)⟩
/-- `C68_reject_sent`, `C68_async_reject_sent`: a rejection that is written. -/
example : (∃ d', SyncUpgrade.internalReject sampleTaken (some [(ascii "X-A", .raw [ascii "b\nX-Evil: 1"])]) = (.ok (), d')) ∧
    (∀ n ∈ customNames (some [(ascii "X-A", .raw [ascii "b\nX-Evil: 1"])]), Inline n) := by
  refine ⟨?_, by decide +kernel⟩
  have h : (match (SyncUpgrade.internalReject sampleTaken (some [(ascii "X-A", .raw [ascii "b\nX-Evil: 1"])])).1 with
      | .ok _ => true | _ => false) = true := by decide +kernel
  split at h
  · next x hx => exact ⟨_, Prod.ext hx rfl⟩
  · cases h

end WS
