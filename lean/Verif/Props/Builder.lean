import Verif.Lemmas.Sample
import Verif.Lemmas.Builder
import Verif.Props.Keys
import Verif.Props.Headers
import Verif.Props.Connect
/-!
# C37, C38: the client request, for every history of builder calls
-/

namespace WS

open Spec

/-- The header lines of the request. -/
def requestLines (url : Url) (ops : List BOp) (fresh : WsKey) : List (Bytes × Bytes) :=
  (((Builder.init url).run ops).buildRequest fresh).2.headers.wire

/-- The start line of the request. -/
def requestStart (url : Url) : Bytes := ascii "GET " ++ url.resource ++ ascii " HTTP/1.1"

/-- The generic header calls `clear_header` and `custom_headers` keep away from the header called `name`. -/
def KeepsOff (name : Bytes) : BOp → Prop
  | .clearHeader n => ¬ SameText n name
  | .customHeaders h => ∀ e ∈ h, ¬ SameText e.1 name
  | _ => True

theorem run_fixed (b : Builder) (ops : List BOp) : (b.run ops).url = b.url ∧ (b.run ops).version = b.version := by
  induction ops generalizing b with
  | nil => exact ⟨rfl, rfl⟩
  | cons op ops ih =>
    rw [run_cons]
    obtain ⟨h1, h2⟩ := ih (b.step op)
    rw [h1, h2]
    cases op <;> exact ⟨rfl, rfl⟩

/-- What a connect attempt wrote. -/
def ConnectRes.wire : ConnectRes → Option Bytes
  | .client c => some c.stream.inner.output.wire
  | .err (some d) _ => some d.output.wire
  | .err none _ => none
  | .panic _ => none

/-- The attempt ended because writing failed, or it was not told to write. -/
def ConnectRes.ioError : ConnectRes → Prop
  | .err _ (.io _) => True
  | _ => False

/-- The blocking client writes the request and nothing else; all of it unless writing fails. (`C69_connect_panics` says when it
panics instead.) -/
theorem C37_request_sent [B64] (p : ResParser) (fresh : WsKey) (d : Duplex) (url : Url) (ops : List BOp)
    (hn : ∀ why, (((Builder.init url).run ops).connectOn p fresh d).1 ≠ .panic why) :
    ∃ pre, (((Builder.init url).run ops).connectOn p fresh d).1.wire = some (d.output.wire ++ pre) ∧
      pre <+: Head (requestStart url) (requestLines url ops fresh) ∧
      (¬ (((Builder.init url).run ops).connectOn p fresh d).1.ioError →
        pre = Head (requestStart url) (requestLines url ops fresh)) := by
  obtain ⟨hu, hv⟩ := run_fixed (Builder.init url) ops
  have hdata : ∀ b' : Builder, b' = (((Builder.init url).run ops).buildRequest fresh).2 →
      ascii "GET " ++ (((Builder.init url).run ops).buildRequest fresh).1 ++ [32] ++ b'.version.fmt ++ crlf ++ b'.headers.fmt ++ crlf =
      Head (requestStart url) (requestLines url ops fresh) := by
    intro b' hb
    subst hb
    obtain ⟨_, _, k3, k4⟩ := build_keeps ((Builder.init url).run ops) fresh
    rw [k3, k4, hu, hv]
    unfold Head requestStart requestLines
    rw [← fmt_wire]
    have e : ascii " HTTP/1.1" = [32] ++ (HttpVersion.http11).fmt := by decide +kernel
    rw [e]
    have e3 : ascii "\r\n" = crlf := by decide +kernel
    rw [e3]
    simp only [List.append_assoc]
    rfl
  rcases connect_or p fresh d ((Builder.init url).run ops) with ⟨-, he⟩ | ⟨-, he⟩
  · exact absurd (by rw [he]) (hn formatPanic)
  rw [he]
  unfold Builder.connectText
  cases hb : ((Builder.init url).run ops).buildRequest fresh with
  | mk resource b =>
    have hd := hdata b (by rw [hb])
    rw [hb] at hd
    simp only at hd ⊢
    rw [hd]
    cases hw : Sink.writeAll (Head (requestStart url) (requestLines url ops fresh)) d.output with
    | mk r w =>
      cases r with
      | error k =>
        obtain ⟨pre, h1, h2⟩ := writeAll_prefix (Head (requestStart url) (requestLines url ops fresh)) d.output
        rw [hw] at h2
        exact ⟨pre, by simp only [ConnectRes.wire]; rw [h2], h1, fun h => absurd trivial h⟩
      | ok u =>
        have h2 := writeAll_ok hw
        refine ⟨_, ?_, List.prefix_rfl, fun _ => rfl⟩
        simp only
        obtain ⟨s, hs⟩ := parseHead_inner p (BufReader.new { d with output := w })
        cases hx : parseHead p (BufReader.new { d with output := w }) with
        | mk r reader =>
          rw [hx] at hs
          have ho : reader.inner.output = w := by simp only at hs; rw [hs]; rfl
          cases r with
          | error e => simp only [ConnectRes.wire]; rw [ho, h2]
          | ok response =>
            simp only
            cases b.validate response with
            | error e => simp only [ConnectRes.wire]; rw [ho, h2]
            | ok u =>
              simp only [ConnectRes.wire, Client.uncheckedWithLimits]
              rw [ho, h2]

/-- What an async connect attempt wrote. -/
def AsyncConnectRes.wire : AsyncConnectRes → Option Bytes
  | .client c => some c.stream.output.wire
  | .err (some d) _ => some d.output.wire
  | _ => none

/-- The async client: the same bytes. A client only comes out if all of them were written. -/
theorem C37_async_request_sent [B64] (p : ResParser) (fresh : WsKey) (extra : Nat) (d : Duplex) (url : Url) (ops : List BOp)
    (w : Bytes) (hw : (((Builder.init url).run ops).asyncConnectOn p fresh extra d).wire = some w) :
    ∃ pre, w = d.output.wire ++ pre ∧
      pre <+: Head (requestStart url) (requestLines url ops fresh) ∧
      (∀ c, ((Builder.init url).run ops).asyncConnectOn p fresh extra d = .client c →
        pre = Head (requestStart url) (requestLines url ops fresh)) := by
  obtain ⟨hu, hv⟩ := run_fixed (Builder.init url) ops
  rcases asyncConnect_or p fresh extra d ((Builder.init url).run ops) with ⟨-, he⟩ | ⟨-, he⟩
  · rw [he] at hw; cases hw
  rw [he] at hw ⊢
  unfold Builder.asyncConnectText at hw ⊢
  cases hb : ((Builder.init url).run ops).buildRequest fresh with
  | mk resource b =>
    have hd : HttpHead.fmt reqLine (⟨b.version, ⟨.get, resource⟩, b.headers⟩ : Request) =
        Head (requestStart url) (requestLines url ops fresh) := by
      obtain ⟨_, _, k3, k4⟩ := build_keeps ((Builder.init url).run ops) fresh
      rw [hb] at k3 k4
      simp only at k3 k4
      rw [head_fmt]
      unfold requestLines requestStart reqLine
      simp only
      rw [hb, k3, k4, hu, hv]
      have e : ascii " HTTP/1.1" = [32] ++ (HttpVersion.http11).fmt := by decide +kernel
      have e2 : ascii "GET " = Method.get.fmt ++ [32] := by decide +kernel
      rw [e, e2]
      simp [Builder.init]
    rw [hb] at hw
    simp only at hw ⊢
    rw [hd] at hw ⊢
    have hs := httpSend_spec (Head (requestStart url) (requestLines url ops fresh)) extra d.output
    cases hx : httpSend (Head (requestStart url) (requestLines url ops fresh)) extra d.output with
    | mk r q =>
      obtain ⟨fw, w'⟩ := q
      rw [hx] at hw hs
      simp only at hs
      rcases hs with ⟨h1, h2, h3⟩ | ⟨e, pre, h1, h2, h3⟩
      · subst h1
        simp only at hw ⊢
        refine ⟨Head (requestStart url) (requestLines url ops fresh), ?_, List.prefix_rfl, fun _ _ => rfl⟩
        rw [← h2]
        cases hn : (Framed.new ()).next (httpDecoder p) d.input with
        | mk x y =>
          obtain ⟨fr, s⟩ := y
          rw [hn] at hw
          cases x with
          | item message =>
            simp only at hw
            cases hv : b.validate message with
            | ok u => rw [hv] at hw; simp only [AsyncConnectRes.wire, Option.some.injEq] at hw; exact hw.symm
            | error e => rw [hv] at hw; simp only [AsyncConnectRes.wire, Option.some.injEq] at hw; exact hw.symm
          | done => simp only [AsyncConnectRes.wire, Option.some.injEq] at hw; exact hw.symm
          | err e => simp only [AsyncConnectRes.wire, Option.some.injEq] at hw; exact hw.symm
          | panic e => simp [AsyncConnectRes.wire] at hw
      · subst h1
        simp only [AsyncConnectRes.wire, Option.some.injEq] at hw ⊢
        exact ⟨pre, by rw [← hw, h3], h2, by intro c hc; simp at hc⟩

/-- The request always asks for the upgrade, whatever calls were made. -/
theorem C37_upgrade_lines (url : Url) (ops : List BOp) (fresh : WsKey) :
    Values (ascii "Connection") (requestLines url ops fresh) [ascii "Upgrade"] ∧
      Values (ascii "Upgrade") (requestLines url ops fresh) [ascii "websocket"] := by
  have hu := unique_build (unique_init url ops) fresh
  have h1 := values_of_item hu (build_conn ((Builder.init url).run ops) fresh)
  have h2 := values_of_item hu (build_upgrade ((Builder.init url).run ops) fresh)
  exact ⟨h1, h2⟩

/-- The host of the URL, if it has one, is named by the one Host line. -/
theorem C37_host_line (url : Url) (ops : List BOp) (fresh : WsKey) (h : url.host ≠ none) (hl : url.hostHeader.getLast? ≠ some 32) (hi : Inline url.hostHeader) :
    Values (ascii "Host") (requestLines url ops fresh) [url.hostHeader] := by
  have hu := unique_build (unique_init url ops) fresh
  have e : ((Builder.init url).run ops).url = url := (run_fixed (Builder.init url) ops).1
  have h1 := values_of_item hu (build_host ((Builder.init url).run ops) fresh (by rw [e]; exact h))
  rw [e] at h1
  simp [HItem.lines, HVal.fmt, oneLine_inline hi, trimSpacesEnd_id hl] at h1
  exact h1

/-- No `key` call since the last `clear_key`, or none at all: exactly one key line, the fresh key,
whatever else was called. -/
theorem C37_fresh_key (url : Url) (pre post : List BOp) (fresh : WsKey) (hpre : pre = [] ∨ ∃ p, pre = p ++ [.clearKey])
    (hpost : ∀ op ∈ post, ∀ k, op ≠ .key k) :
    ∃ v, Values (ascii "Sec-WebSocket-Key") (requestLines url (pre ++ post) fresh) [v] ∧
      chars v = base64 (fresh.bytes.map UInt8.toNat) := by
  have hu := unique_build (unique_init url (pre ++ post)) fresh
  have hk := build_key ((Builder.init url).run (pre ++ post)) fresh
  have hf : ((Builder.init url).run (pre ++ post)).keySet = false := by
    rw [run_append]
    refine run_keySet_false ?_ hpost
    rcases hpre with rfl | ⟨p, rfl⟩
    · rfl
    · rw [run_append]; rfl
  rw [hf] at hk
  have h1 := values_of_item hu hk
  refine ⟨fresh.serialize, ?_, (C31_key_text fresh).1⟩
  simp [HItem.lines, HVal.fmt, WsKey.serialize, b64_one, trimSpacesEnd_id (b64_last _)] at h1
  exact h1

theorem touches_key {op : BOp} (hl : KeepsOff nKey op) (h1 : ∀ k, op ≠ .key k) (h2 : op ≠ .clearKey) : op.touches nKey = false := by
  cases op with
  | key k => exact absurd rfl (h1 k)
  | clearKey => exact absurd rfl h2
  | customHeaders h =>
    simp only [BOp.touches, List.any_eq_false]
    intro e he
    have := hl e he
    rwa [sameText_iff] at this
  | clearHeader n =>
    have : ¬ SameText n nKey := hl
    rw [sameText_iff] at this
    simpa [BOp.touches] using this
  | _ => simp only [BOp.touches] <;> decide +kernel

theorem touches_version {op : BOp} (hl : KeepsOff nVersion op) (h1 : ∀ k, op ≠ .version k) (h2 : op ≠ .clearVersion) :
    op.touches nVersion = false := by
  cases op with
  | version k => exact absurd rfl (h1 k)
  | clearVersion => exact absurd rfl h2
  | customHeaders h =>
    simp only [BOp.touches, List.any_eq_false]
    intro e he
    have := hl e he
    rwa [sameText_iff] at this
  | clearHeader n =>
    have : ¬ SameText n nVersion := hl
    rw [sameText_iff] at this
    simpa [BOp.touches] using this
  | _ => simp only [BOp.touches] <;> decide +kernel

/-- After the last `key` call: exactly one key line, that key. Missing for the full property:
histories in which `clear_header` or `custom_headers` is called for the key header after `key`
(see `C37_refuted_key`). -/
theorem C37_user_key_partial (url : Url) (pre post : List BOp) (k fresh : WsKey)
    (h1 : ∀ op ∈ post, ∀ k, op ≠ .key k) (h2 : ∀ op ∈ post, op ≠ .clearKey) (h3 : ∀ op ∈ post, KeepsOff (ascii "Sec-WebSocket-Key") op) :
    ∃ v, Values (ascii "Sec-WebSocket-Key") (requestLines url (pre ++ .key k :: post) fresh) [v] ∧
      chars v = base64 (k.bytes.map UInt8.toNat) := by
  have hu := unique_build (unique_init url (pre ++ .key k :: post)) fresh
  have hk := build_key ((Builder.init url).run (pre ++ .key k :: post)) fresh
  have hf : ((Builder.init url).run (pre ++ .key k :: post)).keySet = true := by
    rw [run_append, run_cons, run_keySet _ h1 h2]; rfl
  have hi : ((Builder.init url).run (pre ++ .key k :: post)).headers.item nKey = some (.typed (.key k)) := by
    rw [run_append, run_cons, run_item (unique_step (unique_init url pre) _)
      (fun op ho => touches_key (h3 op ho) (h1 op ho) (h2 op ho))]
    exact item_insert_same _ _ _
  rw [hf, if_pos rfl, hi] at hk
  have h4 := values_of_item hu hk
  refine ⟨k.serialize, ?_, (C31_key_text k).1⟩
  simp [HItem.lines, HVal.fmt, WsKey.serialize, b64_one, trimSpacesEnd_id (b64_last _)] at h4
  exact h4

/-- No `version` call since the last `clear_version`, or none at all: version 13. -/
theorem C37_default_version (url : Url) (pre post : List BOp) (fresh : WsKey) (hpre : pre = [] ∨ ∃ p, pre = p ++ [.clearVersion])
    (hpost : ∀ op ∈ post, ∀ v, op ≠ .version v) :
    Values (ascii "Sec-WebSocket-Version") (requestLines url (pre ++ post) fresh) [ascii "13"] := by
  have hu := unique_build (unique_init url (pre ++ post)) fresh
  have hk := build_version ((Builder.init url).run (pre ++ post)) fresh
  have hf : ((Builder.init url).run (pre ++ post)).versionSet = false := by
    rw [run_append]
    refine run_versionSet_false ?_ hpost
    rcases hpre with rfl | ⟨p, rfl⟩
    · rfl
    · rw [run_append]; rfl
  rw [hf] at hk
  exact values_of_item hu hk

/-- After the last `version` call: that version, if it does not end in blanks and has no line break. Missing: as for the key. -/
theorem C37_user_version_partial (url : Url) (pre post : List BOp) (v : WsVersion) (fresh : WsKey) (text : Bytes)
    (hv : v = .ws13 ∧ text = ascii "13" ∨ v = .unknown text) (ht : text.getLast? ≠ some 32) (hn : Inline text)
    (h1 : ∀ op ∈ post, ∀ k, op ≠ .version k) (h2 : ∀ op ∈ post, op ≠ .clearVersion)
    (h3 : ∀ op ∈ post, KeepsOff (ascii "Sec-WebSocket-Version") op) :
    Values (ascii "Sec-WebSocket-Version") (requestLines url (pre ++ .version v :: post) fresh) [text] := by
  have hu := unique_build (unique_init url (pre ++ .version v :: post)) fresh
  have hk := build_version ((Builder.init url).run (pre ++ .version v :: post)) fresh
  have hf : ((Builder.init url).run (pre ++ .version v :: post)).versionSet = true := by
    rw [run_append, run_cons, run_versionSet _ h1 h2]; rfl
  have hi : ((Builder.init url).run (pre ++ .version v :: post)).headers.item nVersion = some (.typed (.version v)) := by
    rw [run_append, run_cons, run_item (unique_step (unique_init url pre) _)
      (fun op ho => touches_version (h3 op ho) (h1 op ho) (h2 op ho))]
    exact item_insert_same _ _ _
  rw [hf, if_pos rfl, hi] at hk
  have h4 := values_of_item hu hk
  have e : v.fmt = text := by rcases hv with ⟨rfl, rfl⟩ | rfl <;> rfl
  simp [HItem.lines, HVal.fmt, e, oneLine_inline hn, trimSpacesEnd_id ht] at h4
  exact h4

/-- The property as stated fails: after `key`, `clear_header::<WebSocketKey>` leaves a request
without any key. -/
theorem C37_refuted_key (fresh : WsKey) :
    Values (ascii "Sec-WebSocket-Key") (requestLines sampleUrl [.key sampleKey, .clearHeader nKey] fresh) [] := by
  have hu := unique_build (unique_init sampleUrl [.key sampleKey, .clearHeader nKey]) fresh
  refine values_of_none hu ?_
  show Headers.item nKey _ = none
  rw [build_key, if_pos (by decide +kernel)]
  decide +kernel

/-- The same for the version. -/
theorem C37_refuted_version (fresh : WsKey) :
    Values (ascii "Sec-WebSocket-Version") (requestLines sampleUrl [.version .ws13, .clearHeader nVersion] fresh) [] := by
  have hu := unique_build (unique_init sampleUrl [.version .ws13, .clearHeader nVersion]) fresh
  refine values_of_none hu ?_
  show Headers.item nVersion _ = none
  rw [build_version, if_pos (by decide +kernel)]
  decide +kernel

/-- The hypotheses are met, and the bytes are those expected. -/
example : (requestLines sampleUrl [.origin (ascii "x"), .addProtocol (ascii "chat"), .addProtocol (ascii "superchat")] sampleKey) =
    [(ascii "Origin", ascii "x"), (ascii "Sec-WebSocket-Protocol", ascii "chat, superchat"), (ascii "Host", ascii "example.com"),
     (ascii "Connection", ascii "Upgrade"), (ascii "Upgrade", ascii "websocket"), (ascii "Sec-WebSocket-Version", ascii "13"),
     (ascii "Sec-WebSocket-Key", ascii "dGhlIHNhbXBsZSBub25jZQ==")] := by decide +kernel
example : ∀ op ∈ [BOp.clearHeader (ascii "Origin"), .addProtocol (ascii "chat")], KeepsOff (ascii "Sec-WebSocket-Key") op := by
  intro op ho
  rcases List.mem_cons.mp ho with rfl | ho
  · show ¬ SameText _ _
    rw [sameText_iff]; decide +kernel
  · rcases List.mem_cons.mp ho with rfl | ho
    · trivial
    · cases ho

/-! ## C38: offered protocols and extensions -/

/-- The protocols a call adds. -/
def addedProtocols : BOp → List Bytes
  | .addProtocol p => [p]
  | .addProtocols ps => ps
  | _ => []

/-- The call adds protocols (perhaps an empty list). -/
def AddsProtocols (op : BOp) : Prop := (∃ p, op = .addProtocol p) ∨ ∃ ps, op = .addProtocols ps

/-- The call clears the offered protocols. -/
def ClearsProtocols (op : BOp) : Prop :=
  op = .clearProtocols ∨ ∃ n, op = .clearHeader n ∧ SameText n (ascii "Sec-WebSocket-Protocol")

/-- The extensions a call adds. -/
def addedExtensions : BOp → List Ext
  | .addExtension p => [p]
  | .addExtensions ps => ps
  | _ => []

/-- The call adds extensions. -/
def AddsExtensions (op : BOp) : Prop := (∃ p, op = .addExtension p) ∨ ∃ ps, op = .addExtensions ps

/-- The call clears the offered extensions. -/
def ClearsExtensions (op : BOp) : Prop :=
  op = .clearExtensions ∨ ∃ n, op = .clearHeader n ∧ SameText n (ascii "Sec-WebSocket-Extensions")

theorem touches_protocol {op : BOp} (hl : KeepsOff nProtocol op) (h1 : ¬ AddsProtocols op) (h2 : op ≠ .clearProtocols) :
    op.touches nProtocol = false := by
  cases op with
  | addProtocol p => exact absurd (Or.inl ⟨p, rfl⟩) h1
  | addProtocols p => exact absurd (Or.inr ⟨p, rfl⟩) h1
  | clearProtocols => exact absurd rfl h2
  | customHeaders h =>
    simp only [BOp.touches, List.any_eq_false]
    intro e he
    have := hl e he
    rwa [sameText_iff] at this
  | clearHeader n =>
    have : ¬ SameText n nProtocol := hl
    rw [sameText_iff] at this
    simpa [BOp.touches] using this
  | _ => simp only [BOp.touches] <;> decide +kernel

theorem touches_extensions {op : BOp} (hl : KeepsOff nExtensions op) (h1 : ¬ AddsExtensions op) (h2 : op ≠ .clearExtensions) :
    op.touches nExtensions = false := by
  cases op with
  | addExtension p => exact absurd (Or.inl ⟨p, rfl⟩) h1
  | addExtensions p => exact absurd (Or.inr ⟨p, rfl⟩) h1
  | clearExtensions => exact absurd rfl h2
  | customHeaders h =>
    simp only [BOp.touches, List.any_eq_false]
    intro e he
    have := hl e he
    rwa [sameText_iff] at this
  | clearHeader n =>
    have : ¬ SameText n nExtensions := hl
    rw [sameText_iff] at this
    simpa [BOp.touches] using this
  | _ => simp only [BOp.touches] <;> decide +kernel

theorem added_none {op : BOp} (h : ¬ AddsProtocols op) : addedProtocols op = [] := by
  cases op <;> first | rfl | exact absurd (Or.inl ⟨_, rfl⟩) h | exact absurd (Or.inr ⟨_, rfl⟩) h

theorem addedExt_none {op : BOp} (h : ¬ AddsExtensions op) : addedExtensions op = [] := by
  cases op <;> first | rfl | exact absurd (Or.inl ⟨_, rfl⟩) h | exact absurd (Or.inr ⟨_, rfl⟩) h

theorem upsertProtocol_get {h : Headers} {l : List Bytes} (hg : h.getProtocol = some l) (xs : List Bytes) :
    (h.upsertProtocol xs).item nProtocol = some (.typed (.protocol (l ++ xs))) := by
  have hh : h.has nProtocol = true := by
    unfold Headers.has
    unfold Headers.getProtocol at hg
    cases hi : h.item nProtocol with
    | none => rw [hi] at hg; cases hg
    | some x => rfl
  unfold Headers.upsertProtocol
  rw [if_pos hh, hg]
  exact item_insert_same _ _ _

theorem upsertExtensions_get {h : Headers} {l : List Ext} (hg : h.getExtensions = some l) (xs : List Ext) :
    (h.upsertExtensions xs).item nExtensions = some (.typed (.extensions (l ++ xs))) := by
  have hh : h.has nExtensions = true := by
    unfold Headers.has
    unfold Headers.getExtensions at hg
    cases hi : h.item nExtensions with
    | none => rw [hi] at hg; cases hg
    | some x => rfl
  unfold Headers.upsertExtensions
  rw [if_pos hh, hg]
  exact item_insert_same _ _ _

/-- The two states a header goes through between clears: absent, or a typed list. -/
theorem protocols_typed {b : Builder} (hu : b.headers.Unique) (l : List Bytes) (ops : List BOp)
    (h : ∀ op ∈ ops, KeepsOff nProtocol op ∧ op ≠ .clearProtocols)
    (hi : b.headers.item nProtocol = some (.typed (.protocol l))) :
    (b.run ops).headers.item nProtocol = some (.typed (.protocol (l ++ ops.flatMap addedProtocols))) := by
  induction ops generalizing b l with
  | nil => simpa [Builder.run] using hi
  | cons op ops ih =>
    rw [run_cons, List.flatMap_cons, ← List.append_assoc]
    refine ih (unique_step hu op) _ (fun o ho => h o (by simp [ho])) ?_
    by_cases ha : AddsProtocols op
    · rcases ha with ⟨p, rfl⟩ | ⟨ps, rfl⟩
      · exact item_upsertProtocol_some [p] l hi
      · exact item_upsertProtocol_some ps l hi
    · rw [step_item hu (touches_protocol (h op (by simp)).1 ha (h op (by simp)).2), hi, added_none ha, List.append_nil]

theorem protocols_absent {b : Builder} (hu : b.headers.Unique) (ops : List BOp)
    (h : ∀ op ∈ ops, KeepsOff nProtocol op ∧ op ≠ .clearProtocols) (hi : b.headers.item nProtocol = none) :
    ((∀ op ∈ ops, ¬ AddsProtocols op) ∧ (b.run ops).headers.item nProtocol = none) ∨
    ((∃ op ∈ ops, AddsProtocols op) ∧
      (b.run ops).headers.item nProtocol = some (.typed (.protocol (ops.flatMap addedProtocols)))) := by
  induction ops generalizing b with
  | nil => left; exact ⟨by simp, hi⟩
  | cons op ops ih =>
    rw [run_cons, List.flatMap_cons]
    by_cases ha : AddsProtocols op
    · right
      refine ⟨⟨op, by simp, ha⟩, ?_⟩
      refine protocols_typed (unique_step hu op) _ ops (fun o ho => h o (by simp [ho])) ?_
      rcases ha with ⟨p, rfl⟩ | ⟨ps, rfl⟩
      · exact item_upsertProtocol_none [p] hi
      · exact item_upsertProtocol_none ps hi
    · have hi' : (b.step op).headers.item nProtocol = none := by
        rw [step_item hu (touches_protocol (h op (by simp)).1 ha (h op (by simp)).2), hi]
      rcases ih (unique_step hu op) (fun o ho => h o (by simp [ho])) hi' with ⟨h1, h2⟩ | ⟨⟨o, ho, h1⟩, h2⟩
      · left
        refine ⟨?_, h2⟩
        intro o ho
        rcases List.mem_cons.mp ho with rfl | ho
        · exact ha
        · exact h1 o ho
      · right
        exact ⟨⟨o, by simp [ho], h1⟩, by rw [h2, added_none ha]; rfl⟩

theorem extensions_typed {b : Builder} (hu : b.headers.Unique) (l : List Ext) (ops : List BOp)
    (h : ∀ op ∈ ops, KeepsOff nExtensions op ∧ op ≠ .clearExtensions)
    (hi : b.headers.item nExtensions = some (.typed (.extensions l))) :
    (b.run ops).headers.item nExtensions = some (.typed (.extensions (l ++ ops.flatMap addedExtensions))) := by
  induction ops generalizing b l with
  | nil => simpa [Builder.run] using hi
  | cons op ops ih =>
    rw [run_cons, List.flatMap_cons, ← List.append_assoc]
    refine ih (unique_step hu op) _ (fun o ho => h o (by simp [ho])) ?_
    by_cases ha : AddsExtensions op
    · rcases ha with ⟨p, rfl⟩ | ⟨ps, rfl⟩
      · exact item_upsertExtensions_some [p] l hi
      · exact item_upsertExtensions_some ps l hi
    · rw [step_item hu (touches_extensions (h op (by simp)).1 ha (h op (by simp)).2), hi, addedExt_none ha, List.append_nil]

theorem extensions_absent {b : Builder} (hu : b.headers.Unique) (ops : List BOp)
    (h : ∀ op ∈ ops, KeepsOff nExtensions op ∧ op ≠ .clearExtensions) (hi : b.headers.item nExtensions = none) :
    ((∀ op ∈ ops, ¬ AddsExtensions op) ∧ (b.run ops).headers.item nExtensions = none) ∨
    ((∃ op ∈ ops, AddsExtensions op) ∧
      (b.run ops).headers.item nExtensions = some (.typed (.extensions (ops.flatMap addedExtensions)))) := by
  induction ops generalizing b with
  | nil => left; exact ⟨by simp, hi⟩
  | cons op ops ih =>
    rw [run_cons, List.flatMap_cons]
    by_cases ha : AddsExtensions op
    · right
      refine ⟨⟨op, by simp, ha⟩, ?_⟩
      refine extensions_typed (unique_step hu op) _ ops (fun o ho => h o (by simp [ho])) ?_
      rcases ha with ⟨p, rfl⟩ | ⟨ps, rfl⟩
      · exact item_upsertExtensions_none [p] hi
      · exact item_upsertExtensions_none ps hi
    · have hi' : (b.step op).headers.item nExtensions = none := by
        rw [step_item hu (touches_extensions (h op (by simp)).1 ha (h op (by simp)).2), hi]
      rcases ih (unique_step hu op) (fun o ho => h o (by simp [ho])) hi' with ⟨h1, h2⟩ | ⟨⟨o, ho, h1⟩, h2⟩
      · left
        refine ⟨?_, h2⟩
        intro o ho
        rcases List.mem_cons.mp ho with rfl | ho
        · exact ha
        · exact h1 o ho
      · right
        exact ⟨⟨o, by simp [ho], h1⟩, by rw [h2, addedExt_none ha]; rfl⟩

theorem built_protocol : ∀ m ∈ builtNames, eqIgnoreCase m nProtocol = false := by decide +kernel
theorem built_extensions : ∀ m ∈ builtNames, eqIgnoreCase m nExtensions = false := by decide +kernel

theorem cleared_protocols (url : Url) (pre : List BOp) (hpre : pre = [] ∨ ∃ p op, pre = p ++ [op] ∧ ClearsProtocols op) :
    ((Builder.init url).run pre).headers.item nProtocol = none := by
  rcases hpre with rfl | ⟨p, op, rfl, hc⟩
  · rfl
  · rw [run_append, run_cons]
    have hu := unique_init url p
    rcases hc with rfl | ⟨n, rfl, hn⟩
    · show (Headers.remove nProtocol _).item nProtocol = none
      rw [item_remove hu, if_pos (eqIgnoreCase_refl _)]
    · show (Headers.remove n _).item nProtocol = none
      have hn' : eqIgnoreCase n nProtocol = true := (sameText_iff _ _).mp hn
      rw [item_remove hu, if_pos hn']

theorem cleared_extensions (url : Url) (pre : List BOp) (hpre : pre = [] ∨ ∃ p op, pre = p ++ [op] ∧ ClearsExtensions op) :
    ((Builder.init url).run pre).headers.item nExtensions = none := by
  rcases hpre with rfl | ⟨p, op, rfl, hc⟩
  · rfl
  · rw [run_append, run_cons]
    have hu := unique_init url p
    rcases hc with rfl | ⟨n, rfl, hn⟩
    · show (Headers.remove nExtensions _).item nExtensions = none
      rw [item_remove hu, if_pos (eqIgnoreCase_refl _)]
    · show (Headers.remove n _).item nExtensions = none
      have hn' : eqIgnoreCase n nExtensions = true := (sameText_iff _ _).mp hn
      rw [item_remove hu, if_pos hn']

/-- After the last clear (or from the start): the header of the request is absent if nothing was
added since, otherwise its list is what was added since, in call order. -/
theorem C38_protocols_partial (url : Url) (pre post : List BOp) (fresh : WsKey)
    (hpre : pre = [] ∨ ∃ p op, pre = p ++ [op] ∧ ClearsProtocols op)
    (hpost : ∀ op ∈ post, ¬ ClearsProtocols op ∧ KeepsOff (ascii "Sec-WebSocket-Protocol") op) :
    let h := (((Builder.init url).run (pre ++ post)).buildRequest fresh).2.headers
    ((∀ op ∈ post, ¬ AddsProtocols op) ∧ h.getProtocol = none) ∨
      ((∃ op ∈ post, AddsProtocols op) ∧ h.getProtocol = some (post.flatMap addedProtocols)) := by
  intro h
  have h0 := protocols_absent (unique_init url pre) post
    (fun op ho => ⟨(hpost op ho).2, fun e => (hpost op ho).1 (Or.inl e)⟩) (cleared_protocols url pre hpre)
  rw [← run_append] at h0
  have hb : h.item nProtocol = _ := build_item built_protocol fresh
  rcases h0 with ⟨h1, h2⟩ | ⟨h1, h2⟩
  · left; refine ⟨h1, ?_⟩; unfold Headers.getProtocol; rw [hb, h2]
  · right; refine ⟨h1, ?_⟩; unfold Headers.getProtocol; rw [hb, h2]

/-- The same for extensions. -/
theorem C38_extensions_partial (url : Url) (pre post : List BOp) (fresh : WsKey)
    (hpre : pre = [] ∨ ∃ p op, pre = p ++ [op] ∧ ClearsExtensions op)
    (hpost : ∀ op ∈ post, ¬ ClearsExtensions op ∧ KeepsOff (ascii "Sec-WebSocket-Extensions") op) :
    let h := (((Builder.init url).run (pre ++ post)).buildRequest fresh).2.headers
    ((∀ op ∈ post, ¬ AddsExtensions op) ∧ h.getExtensions = none) ∨
      ((∃ op ∈ post, AddsExtensions op) ∧ h.getExtensions = some (post.flatMap addedExtensions)) := by
  intro h
  have h0 := extensions_absent (unique_init url pre) post
    (fun op ho => ⟨(hpost op ho).2, fun e => (hpost op ho).1 (Or.inl e)⟩) (cleared_extensions url pre hpre)
  rw [← run_append] at h0
  have hb : h.item nExtensions = _ := build_item built_extensions fresh
  rcases h0 with ⟨h1, h2⟩ | ⟨h1, h2⟩
  · left; refine ⟨h1, ?_⟩; unfold Headers.getExtensions; rw [hb, h2]
  · right; refine ⟨h1, ?_⟩; unfold Headers.getExtensions; rw [hb, h2]

theorem joinWith_last (l : List Bytes) (h : ∀ x ∈ l, ListItem x) : (fmtCommaDelimited l).getLast? ≠ some 32 := by
  unfold fmtCommaDelimited
  induction l with
  | nil => simp [joinWith]
  | cons x t ih =>
    cases t with
    | nil =>
      rw [joinWith]
      intro hl
      have ht := (h x (by simp)).2.2.1
      rw [trimmed_iff] at ht
      refine (ht [32] (by decide +kernel)).2 ?_
      obtain ⟨ys, rfl⟩ := List.getLast?_eq_some_iff.mp hl
      exact ⟨ys, rfl⟩
    | cons y t =>
      rw [joinWith]
      have hi := ih (fun z hz => h z (by simp [hz]))
      have hne : joinWith [44, 32] (y :: t) ≠ [] := by
        cases t with
        | nil => rw [joinWith]; exact (h y (by simp)).1
        | cons z t => rw [joinWith]; simp
      rw [List.getLast?_append]
      cases hj : (joinWith [44, 32] (y :: t)).getLast? with
      | none => exact absurd (List.getLast?_eq_none_iff.mp hj) hne
      | some c => rw [hj] at hi; simpa using hi

/-- A header line made of list items reads as the list. -/
theorem line_reads (l : List Bytes) (h : ∀ x ∈ l, ListItem x) : CommaList (fmtCommaDelimited l) l := by
  have h1 := C44_round_trip l h
  rw [C44_parse_spec] at h1
  obtain ⟨_, items, hl, hz, he⟩ := h1
  cases items with
  | nil => simp at hl
  | cons a t =>
    cases t with
    | cons b t => simp at hl
    | nil =>
      have := hz (fmtCommaDelimited l, a) (by simp [HVal.fmt])
      simp only [List.flatten_cons, List.flatten_nil, List.append_nil] at he
      rw [he] at this ⊢
      exact this

theorem inline_fmts {l : List Ext} (h : ∀ e ∈ l, Inline e.fmt) : Inline (fmtCommaDelimited (l.map Ext.fmt)) := by
  refine inline_join fun y hy => ?_
  rw [List.mem_map] at hy
  obtain ⟨e, he, rfl⟩ := hy
  exact h e he

/-- On the wire: at most one line, which lists exactly what was added since the last clear; no line
only if nothing was added. -/
theorem C38_protocols_sent_partial (url : Url) (pre post : List BOp) (fresh : WsKey)
    (hpre : pre = [] ∨ ∃ p op, pre = p ++ [op] ∧ ClearsProtocols op)
    (hpost : ∀ op ∈ post, ¬ ClearsProtocols op ∧ KeepsOff (ascii "Sec-WebSocket-Protocol") op)
    (hl : ∀ x ∈ post.flatMap addedProtocols, ListItem x ∧ Inline x) :
    (Values (ascii "Sec-WebSocket-Protocol") (requestLines url (pre ++ post) fresh) [] ∧ ∀ op ∈ post, ¬ AddsProtocols op) ∨
    ∃ line, Values (ascii "Sec-WebSocket-Protocol") (requestLines url (pre ++ post) fresh) [line] ∧
      CommaList line (post.flatMap addedProtocols) := by
  have h0 := protocols_absent (unique_init url pre) post
    (fun op ho => ⟨(hpost op ho).2, fun e => (hpost op ho).1 (Or.inl e)⟩) (cleared_protocols url pre hpre)
  rw [← run_append] at h0
  have hb := build_item (b := (Builder.init url).run (pre ++ post)) built_protocol fresh
  have hu := unique_build (unique_init url (pre ++ post)) fresh
  rcases h0 with ⟨h1, h2⟩ | ⟨h1, h2⟩
  · left; rw [h2] at hb; exact ⟨values_of_none hu hb, h1⟩
  · right
    rw [h2] at hb
    have hv := values_of_item hu hb
    refine ⟨_, ?_, line_reads _ fun x hx => (hl x hx).1⟩
    have hn : Inline (fmtCommaDelimited (post.flatMap addedProtocols)) := inline_join fun x hx => (hl x hx).2
    have ht := trimSpacesEnd_id (joinWith_last (post.flatMap addedProtocols) fun x hx => (hl x hx).1)
    simp [HItem.lines, HVal.fmt, oneLine_inline hn, ht] at hv
    exact hv

/-- On the wire, extensions: the elements of the line are the texts of the extensions. -/
theorem C38_extensions_sent_partial (url : Url) (pre post : List BOp) (fresh : WsKey)
    (hpre : pre = [] ∨ ∃ p op, pre = p ++ [op] ∧ ClearsExtensions op)
    (hpost : ∀ op ∈ post, ¬ ClearsExtensions op ∧ KeepsOff (ascii "Sec-WebSocket-Extensions") op)
    (hl : ∀ x ∈ post.flatMap addedExtensions, LegalExt x ∧ Inline x.fmt) :
    (Values (ascii "Sec-WebSocket-Extensions") (requestLines url (pre ++ post) fresh) [] ∧ ∀ op ∈ post, ¬ AddsExtensions op) ∨
    ∃ line, Values (ascii "Sec-WebSocket-Extensions") (requestLines url (pre ++ post) fresh) [line] ∧
      CommaList line ((post.flatMap addedExtensions).map Ext.fmt) := by
  have h0 := extensions_absent (unique_init url pre) post
    (fun op ho => ⟨(hpost op ho).2, fun e => (hpost op ho).1 (Or.inl e)⟩) (cleared_extensions url pre hpre)
  rw [← run_append] at h0
  have hb := build_item (b := (Builder.init url).run (pre ++ post)) built_extensions fresh
  have hu := unique_build (unique_init url (pre ++ post)) fresh
  have hi : ∀ x ∈ (post.flatMap addedExtensions).map Ext.fmt, ListItem x := by
    intro x hx
    rw [List.mem_map] at hx
    obtain ⟨e, he, rfl⟩ := hx
    rw [extFmt_eq]
    refine joinWith_tok ?_
    intro y hy
    rcases List.mem_cons.mp hy with rfl | hy
    · exact (hl e he).1.tok.1
    · rw [List.mem_map] at hy
      obtain ⟨p, hp, rfl⟩ := hy
      exact (hl e he).1.tok.2 p hp
  rcases h0 with ⟨h1, h2⟩ | ⟨h1, h2⟩
  · left; rw [h2] at hb; exact ⟨values_of_none hu hb, h1⟩
  · right
    rw [h2] at hb
    have hv := values_of_item hu hb
    refine ⟨_, ?_, line_reads _ hi⟩
    simp [HItem.lines, HVal.fmt, oneLine_inline (inline_fmts fun x hx => (hl x hx).2), trimSpacesEnd_id (joinWith_last _ hi)] at hv
    exact hv

/-- A custom header set that carries a readable protocol header counts as a clear followed by
adding its list. -/
theorem C38_custom_protocols (url : Url) (pre post : List BOp) (fresh : WsKey) (c : Headers) (hc : c.Unique) (l : List Bytes)
    (hl : c.getProtocol = some l) (hpost : ∀ op ∈ post, ¬ ClearsProtocols op ∧ KeepsOff (ascii "Sec-WebSocket-Protocol") op) :
    (((Builder.init url).run (pre ++ .customHeaders c :: post)).buildRequest fresh).2.headers.getProtocol =
      some (l ++ post.flatMap addedProtocols) := by
  have key : ∀ (b : Builder), b.headers.Unique → ∀ l, b.headers.getProtocol = some l →
      (b.run post).headers.getProtocol = some (l ++ post.flatMap addedProtocols) := by
    induction post with
    | nil => intro b _ l h; simpa [Builder.run] using h
    | cons op ops ih =>
      intro b hu l hg
      rw [run_cons, List.flatMap_cons, ← List.append_assoc]
      refine ih (fun o ho => hpost o (by simp [ho])) _ (unique_step hu op) _ ?_
      have hop := hpost op (by simp)
      by_cases ha : AddsProtocols op
      · have : (b.step op).headers.item nProtocol = some (.typed (.protocol (l ++ addedProtocols op))) := by
          rcases ha with ⟨p, rfl⟩ | ⟨ps, rfl⟩ <;> exact upsertProtocol_get hg _
        unfold Headers.getProtocol; rw [this]
      · have := step_item hu (touches_protocol hop.2 ha (fun e => hop.1 (Or.inl e)))
        unfold Headers.getProtocol at hg ⊢
        rw [this, added_none ha, List.append_nil]; exact hg
  have hb := build_item (b := (Builder.init url).run (pre ++ .customHeaders c :: post)) built_protocol fresh
  have hi : ∃ it, c.item nProtocol = some it := by
    unfold Headers.getProtocol at hl
    cases hh : c.item nProtocol with
    | none => rw [hh] at hl; cases hl
    | some x => exact ⟨x, rfl⟩
  obtain ⟨it, hi⟩ := hi
  have h1 : (((Builder.init url).run pre).step (.customHeaders c)).headers.item nProtocol = c.item nProtocol := by
    show (Headers.extend _ c).item nProtocol = _
    rw [item_extend, item_reverse hc, hi]; rfl
  have h2 : (((Builder.init url).run pre).step (.customHeaders c)).headers.getProtocol = some l := by
    unfold Headers.getProtocol at hl ⊢; rw [h1]; exact hl
  have h3 := key _ (unique_step (unique_init url pre) _) l h2
  rw [← run_cons, ← run_append] at h3
  unfold Headers.getProtocol at h3 ⊢
  rw [hb]; exact h3

/-- The property as stated fails after a custom protocol header that is not UTF-8: the next
`add_protocol` is silently ignored. -/
theorem C38_refuted_unreadable (fresh : WsKey) :
    Values (ascii "Sec-WebSocket-Protocol")
      (requestLines sampleUrl [.customHeaders [(nProtocol, .raw [[0xff]])], .addProtocol (ascii "chat")] fresh) [[0xff]] := by
  have hu := unique_build (unique_init sampleUrl [.customHeaders [(nProtocol, .raw [[0xff]])], .addProtocol (ascii "chat")]) fresh
  have hb := build_item (b := (Builder.init sampleUrl).run [.customHeaders [(nProtocol, .raw [[0xff]])], .addProtocol (ascii "chat")])
    built_protocol fresh
  have e : ((Builder.init sampleUrl).run [.customHeaders [(nProtocol, .raw [[0xff]])], .addProtocol (ascii "chat")]).headers.item nProtocol =
    some (.raw [[0xff]]) := by decide +kernel
  rw [e] at hb
  exact values_of_item hu hb

/-- The hypotheses are met. -/
example : ((((Builder.init sampleUrl).run ([.addProtocol (ascii "a"), .clearProtocols] ++ [.addProtocol (ascii "chat"), .origin [],
    .addProtocols [ascii "b", ascii "c"]])).buildRequest sampleKey).2.headers.getProtocol) =
    some [ascii "chat", ascii "b", ascii "c"] := by decide +kernel
example : ∃ p op, [BOp.addProtocol (ascii "a"), .clearProtocols] = p ++ [op] ∧ ClearsProtocols op :=
  ⟨[.addProtocol (ascii "a")], .clearProtocols, rfl, Or.inl rfl⟩
example : ∀ op ∈ [BOp.addProtocol (ascii "chat"), .origin []], ¬ ClearsProtocols op ∧ KeepsOff (ascii "Sec-WebSocket-Protocol") op := by
  intro op ho
  simp only [List.mem_cons, List.not_mem_nil, or_false] at ho
  rcases ho with rfl | rfl <;> exact ⟨(by rintro (h | ⟨n, h, _⟩) <;> cases h), trivial⟩

/-! ## The theorems above on concrete calls -/

/-- Calls made after the key, the version, the protocols and the extensions are set. -/
def exCalls : List BOp := [.clearHeader (ascii "Origin"), .addProtocol (ascii "chat"), .addExtension ⟨ascii "mux", []⟩]

theorem exCalls_off (n : Bytes) (h : eqIgnoreCase (ascii "Origin") n = false) : ∀ op ∈ exCalls, KeepsOff n op := by
  intro op ho
  simp only [exCalls, List.mem_cons, List.not_mem_nil, or_false] at ho
  rcases ho with rfl | rfl | rfl
  · show ¬ SameText _ _
    rw [sameText_iff, h]; decide
  · trivial
  · trivial

example := @C37_request_sent B64.strict resParser sampleKey ⟨[], ⟨[], [.accept 3, .error .connectionReset]⟩⟩ sampleUrl exCalls
  (@connect_calm B64.strict _ _ _ _ _ (by simp [exCalls, GivesText]))
/-- `C37_async_request_sent`: the client connects, so it has written something. -/
example : (∃ w, (@Builder.asyncConnectOn B64.strict resParser sampleKey 0 sampleAnswer ((Builder.init sampleUrl).run exCalls)).wire = some w) ∧
    ∃ c, @Builder.asyncConnectOn B64.strict resParser sampleKey 0 sampleAnswer ((Builder.init sampleUrl).run exCalls) = .client c :=
  ⟨some_of_isSome (by decide +kernel), AsyncConnectRes.exists_client (by decide +kernel)⟩
example := C37_host_line sampleUrl exCalls sampleKey (by decide) (by decide +kernel) (by unfold Inline; decide +kernel)
example := C37_fresh_key sampleUrl [.key ⟨ascii "another nonce 16", by decide⟩, .clearKey] exCalls sampleKey
  (.inr ⟨[.key ⟨ascii "another nonce 16", by decide⟩], rfl⟩) (by simp [exCalls])
example := C37_user_key_partial sampleUrl [.addProtocol (ascii "a")] exCalls ⟨ascii "another nonce 16", by decide⟩ sampleKey
  (by simp [exCalls]) (by simp [exCalls]) (exCalls_off _ (by decide +kernel))
example := C37_default_version sampleUrl [.version .ws13, .clearVersion] exCalls sampleKey (.inr ⟨[.version .ws13], rfl⟩) (by simp [exCalls])
example := C37_user_version_partial sampleUrl [] exCalls (.unknown (ascii "8")) sampleKey (ascii "8") (.inr rfl) (by decide)
  (by unfold Inline; decide) (by simp [exCalls]) (by simp [exCalls]) (exCalls_off _ (by decide +kernel))

theorem exCalls_protocols : ∀ op ∈ exCalls, ¬ ClearsProtocols op ∧ KeepsOff (ascii "Sec-WebSocket-Protocol") op := by
  intro op ho
  refine ⟨?_, exCalls_off _ (by decide +kernel) op ho⟩
  simp only [exCalls, List.mem_cons, List.not_mem_nil, or_false] at ho
  rcases ho with rfl | rfl | rfl
  · rintro (h | ⟨n, h, hs⟩)
    · cases h
    · cases h; rw [sameText_iff] at hs; revert hs; decide +kernel
  · rintro (h | ⟨n, h, _⟩) <;> cases h
  · rintro (h | ⟨n, h, _⟩) <;> cases h
theorem exCalls_extensions : ∀ op ∈ exCalls, ¬ ClearsExtensions op ∧ KeepsOff (ascii "Sec-WebSocket-Extensions") op := by
  intro op ho
  refine ⟨?_, exCalls_off _ (by decide +kernel) op ho⟩
  simp only [exCalls, List.mem_cons, List.not_mem_nil, or_false] at ho
  rcases ho with rfl | rfl | rfl
  · rintro (h | ⟨n, h, hs⟩)
    · cases h
    · cases h; rw [sameText_iff] at hs; revert hs; decide +kernel
  · rintro (h | ⟨n, h, _⟩) <;> cases h
  · rintro (h | ⟨n, h, _⟩) <;> cases h

example := C38_protocols_partial sampleUrl [.addProtocol (ascii "a"), .clearProtocols] exCalls sampleKey
  (.inr ⟨[.addProtocol (ascii "a")], .clearProtocols, rfl, Or.inl rfl⟩) exCalls_protocols
example := C38_extensions_partial sampleUrl [] exCalls sampleKey (.inl rfl) exCalls_extensions
example := C38_protocols_sent_partial sampleUrl [.addProtocol (ascii "a"), .clearProtocols] exCalls sampleKey
  (.inr ⟨[.addProtocol (ascii "a")], .clearProtocols, rfl, Or.inl rfl⟩) exCalls_protocols (by
    intro x hx
    have : x = ascii "chat" := by simpa [exCalls, addedProtocols] using hx
    subst this
    exact ⟨listItem_of (by decide +kernel), by unfold Inline; decide⟩)
example := C38_extensions_sent_partial sampleUrl [] exCalls sampleKey (.inl rfl) exCalls_extensions (by
    intro x hx
    have : x = ⟨ascii "mux", []⟩ := by simpa [exCalls, addedExtensions] using hx
    subst this
    exact ⟨⟨listItem_of (by decide +kernel), by decide, by simp⟩, by unfold Inline; decide⟩)
example := C38_custom_protocols sampleUrl [.addProtocol (ascii "lost")] exCalls sampleKey [(nProtocol, .raw [ascii "a,b"])]
  (by simp [Headers.Unique]) [ascii "a", ascii "b"] (by decide +kernel) exCalls_protocols

end WS
