import Verif.Lemmas.Each
import Verif.Lemmas.Utf8
/-!
# The handshakes once their heads are formatted

`format!` panics on headers that cannot be written. These are the calls without that check, and that they are the calls if the
headers can be written, or if the call did not panic.
-/

namespace WS

def Builder.connectText [B64] (p : ResParser) (fresh : WsKey) (stream : Duplex) (b : Builder) : ConnectRes × Builder :=
  match b.buildRequest fresh with
  | (resource, b) =>
    let data := ascii "GET " ++ resource ++ [32] ++ b.version.fmt ++ crlf ++ b.headers.fmt ++ crlf
    match Sink.writeAll data stream.output with
    | (.error k, w) => (.err (some { stream with output := w }) (.io k), b)
    | (.ok (), w) =>
      match parseHead p (BufReader.new { stream with output := w }) with
      | (.error e, reader) => (.err (some reader.inner) (.http e), b)
      | (.ok response, reader) =>
        match b.validate response with
        | .error e => (.err (some reader.inner) e, b)
        | .ok () => (.client (Client.uncheckedWithLimits reader response.headers true false b.maxDf b.maxDf), b)

theorem connect_panics [B64] (p : ResParser) (fresh : WsKey) (stream : Duplex) (b : Builder)
    (h : (b.buildRequest fresh).2.headers.writable = false) : b.connectOn p fresh stream = (.panic formatPanic, (b.buildRequest fresh).2) := by
  unfold Builder.connectOn; simp only [h, if_pos]

theorem connect_text [B64] (p : ResParser) (fresh : WsKey) (stream : Duplex) (b : Builder)
    (h : (b.buildRequest fresh).2.headers.writable = true) : b.connectOn p fresh stream = b.connectText p fresh stream := by
  unfold Builder.connectOn Builder.connectText; simp only [h, Bool.true_eq_false, if_false]; rfl

theorem connect_or [B64] (p : ResParser) (fresh : WsKey) (stream : Duplex) (b : Builder) :
    ((b.buildRequest fresh).2.headers.writable = false ∧ b.connectOn p fresh stream = (.panic formatPanic, (b.buildRequest fresh).2)) ∨
    ((b.buildRequest fresh).2.headers.writable = true ∧ b.connectOn p fresh stream = b.connectText p fresh stream) := by
  cases h : (b.buildRequest fresh).2.headers.writable with
  | false => exact .inl ⟨rfl, connect_panics p fresh stream b h⟩
  | true => exact .inr ⟨rfl, connect_text p fresh stream b h⟩

theorem connect_client [B64] {p : ResParser} {fresh : WsKey} {stream : Duplex} {b b' : Builder} {c : Client}
    (h : b.connectOn p fresh stream = (.client c, b')) : b.connectText p fresh stream = (.client c, b') := by
  rcases connect_or p fresh stream b with ⟨-, e⟩ | ⟨-, e⟩
  · rw [e] at h; cases h
  · rw [← e]; exact h

theorem connect_client' [B64] {p : ResParser} {fresh : WsKey} {stream : Duplex} {b : Builder} {c : Client}
    (h : (b.connectOn p fresh stream).1 = .client c) : (b.connectText p fresh stream).1 = .client c := by
  rcases connect_or p fresh stream b with ⟨-, e⟩ | ⟨-, e⟩
  · rw [e] at h; cases h
  · rw [← e]; exact h

theorem connect_writes [B64] {p : ResParser} {fresh : WsKey} {stream : Duplex} {b : Builder} {c : Client}
    (h : (b.connectOn p fresh stream).1 = .client c) : (b.buildRequest fresh).2.headers.writable = true := by
  rcases connect_or p fresh stream b with ⟨-, e⟩ | ⟨hw, -⟩
  · rw [e] at h; cases h
  · exact hw

def Builder.asyncConnectText [B64] (p : ResParser) (fresh : WsKey) (extra : Nat) (stream : Duplex) (b : Builder) : AsyncConnectRes :=
  match b.buildRequest fresh with
  | (resource, b) =>
    let request : Request := ⟨b.version, ⟨.get, resource⟩, b.headers⟩
    match httpSend (request.fmt reqLine) extra stream.output with
    | (.ready, fw, w) =>
      match (Framed.new ()).next (httpDecoder p) stream.input with
      | (x, fr, s) =>
        let io : Duplex := ⟨s, w⟩
        match x with
        | .item message =>
          match b.validate message with
          | .ok () => .client ⟨message.headers, io,
              updateFramedCodec (MsgCodec.newWithLimits .client b.maxDf b.maxMsg) fr, { fw with isServer := false }⟩
          | .error e => .err (some io) e
        | .done => .err (some io) .closed
        | .err e => .err (some io) (.ofCodec e)
        | .panic why => .panic why
    | (.notReady, _, w) => .err (some { stream with output := w }) (.io .wouldBlock)
    | (.err e, _, w) => .err (some { stream with output := w }) (.ofCodec e)
    | (.panic why, _, _) => .panic why

theorem asyncConnect_panics [B64] (p : ResParser) (fresh : WsKey) (extra : Nat) (stream : Duplex) (b : Builder)
    (h : (b.buildRequest fresh).2.headers.writable = false) : b.asyncConnectOn p fresh extra stream = .panic formatPanic := by
  unfold Builder.asyncConnectOn; simp only [h, if_pos]

theorem asyncConnect_text [B64] (p : ResParser) (fresh : WsKey) (extra : Nat) (stream : Duplex) (b : Builder)
    (h : (b.buildRequest fresh).2.headers.writable = true) : b.asyncConnectOn p fresh extra stream = b.asyncConnectText p fresh extra stream := by
  unfold Builder.asyncConnectOn Builder.asyncConnectText; simp only [h, Bool.true_eq_false, if_false]; rfl

theorem asyncConnect_or [B64] (p : ResParser) (fresh : WsKey) (extra : Nat) (stream : Duplex) (b : Builder) :
    ((b.buildRequest fresh).2.headers.writable = false ∧ b.asyncConnectOn p fresh extra stream = .panic formatPanic) ∨
    ((b.buildRequest fresh).2.headers.writable = true ∧ b.asyncConnectOn p fresh extra stream = b.asyncConnectText p fresh extra stream) := by
  cases h : (b.buildRequest fresh).2.headers.writable with
  | false => exact .inl ⟨rfl, asyncConnect_panics p fresh extra stream b h⟩
  | true => exact .inr ⟨rfl, asyncConnect_text p fresh extra stream b h⟩

theorem asyncConnect_client [B64] {p : ResParser} {fresh : WsKey} {extra : Nat} {stream : Duplex} {b : Builder} {c : AsyncClient}
    (h : b.asyncConnectOn p fresh extra stream = .client c) : b.asyncConnectText p fresh extra stream = .client c := by
  rcases asyncConnect_or p fresh extra stream b with ⟨-, e⟩ | ⟨-, e⟩
  · rw [e] at h; cases h
  · rw [← e]; exact h

theorem asyncConnect_writes [B64] {p : ResParser} {fresh : WsKey} {extra : Nat} {stream : Duplex} {b : Builder} {c : AsyncClient}
    (h : b.asyncConnectOn p fresh extra stream = .client c) : (b.buildRequest fresh).2.headers.writable = true := by
  rcases asyncConnect_or p fresh extra stream b with ⟨-, e⟩ | ⟨hw, -⟩
  · rw [e] at h; cases h
  · exact hw

section
variable {B : Type}

/-- What `send` does with a response that can be written. -/
def Upgrade.sendText (u : Upgrade B) (status : ResSubject) : Except IoKind Unit × Upgrade B :=
  match Sink.writeAll ((u.response status).fmt resLine) u.stream.output with
  | (r, w) => (r, { u with stream := { u.stream with output := w } })

def Sent.of : Except IoKind Unit → Sent
  | .ok u => .ok u
  | .error k => .error k

theorem send_text (u : Upgrade B) (status : ResSubject) (h : u.headers.writable = true) :
    u.send status = (.of (u.sendText status).1, (u.sendText status).2) := by
  unfold Upgrade.send Upgrade.sendText
  simp only [h, Bool.true_eq_false, if_false]
  cases Sink.writeAll ((u.response status).fmt resLine) u.stream.output with
  | mk r w => cases r <;> rfl

theorem send_panics (u : Upgrade B) (status : ResSubject) (h : u.headers.writable = false) : u.send status = (.panic formatPanic, u) := by
  unfold Upgrade.send; simp only [h, if_pos]

end

def SyncUpgrade.acceptText [B64] (u : SyncUpgrade) (custom : Option Headers) (maxDf maxMsg : Nat) : AcceptRes :=
  match u.prepareHeaders custom with
  | .ok (status, u) =>
    match u.sendText status with
    | (.error k, u) => .err u.stream k
    | (.ok (), u) =>
      let stream := match u.buffer with
        | some ⟨buf, pos, cap⟩ => BufReader.fromParts u.stream buf pos cap
        | none => BufReader.new u.stream
      .client (Client.uncheckedWithLimits stream u.headers false true maxDf maxMsg)
  | .err _ => .panic "unreachable"
  | .panic why => .panic why

/-- The headers of the response can be written. -/
def Upgrade.Writes [B64] {B : Type} (u : Upgrade B) (custom : Option Headers) : Prop :=
  ∀ status u', u.prepareHeaders custom = .ok (status, u') → u'.headers.writable = true

theorem accept_text [B64] (u : SyncUpgrade) (custom : Option Headers) (maxDf maxMsg : Nat) (h : u.Writes custom) :
    u.internalAcceptWithLimits custom maxDf maxMsg = u.acceptText custom maxDf maxMsg := by
  unfold SyncUpgrade.internalAcceptWithLimits SyncUpgrade.acceptText
  cases hp : u.prepareHeaders custom with
  | err e => rfl
  | panic e => rfl
  | ok x =>
    obtain ⟨status, u'⟩ := x
    simp only
    rw [send_text u' status (h status u' hp)]
    cases u'.sendText status with
    | mk r w => cases r <;> rfl

theorem accept_panics [B64] (u : SyncUpgrade) (custom : Option Headers) (maxDf maxMsg : Nat) (h : ¬ u.Writes custom) :
    u.internalAcceptWithLimits custom maxDf maxMsg = .panic formatPanic := by
  unfold SyncUpgrade.internalAcceptWithLimits
  cases hp : u.prepareHeaders custom with
  | err e => exact absurd (fun _ _ h => by rw [hp] at h; cases h) h
  | panic e => exact absurd (fun _ _ h => by rw [hp] at h; cases h) h
  | ok x =>
    obtain ⟨status, u'⟩ := x
    simp only
    cases hw : u'.headers.writable with
    | false => rw [send_panics u' status hw]
    | true => exact absurd (fun _ _ h => by rw [hp] at h; cases h; exact hw) h

theorem accept_or [B64] (u : SyncUpgrade) (custom : Option Headers) (maxDf maxMsg : Nat) :
    (¬ u.Writes custom ∧ u.internalAcceptWithLimits custom maxDf maxMsg = .panic formatPanic) ∨
    (u.Writes custom ∧ u.internalAcceptWithLimits custom maxDf maxMsg = u.acceptText custom maxDf maxMsg) := by
  by_cases h : u.Writes custom
  · exact .inr ⟨h, accept_text u custom maxDf maxMsg h⟩
  · exact .inl ⟨h, accept_panics u custom maxDf maxMsg h⟩

theorem accept_client [B64] {u : SyncUpgrade} {custom : Option Headers} {maxDf maxMsg : Nat} {c : Client}
    (h : u.internalAcceptWithLimits custom maxDf maxMsg = .client c) : u.acceptText custom maxDf maxMsg = .client c := by
  rcases accept_or u custom maxDf maxMsg with ⟨-, e⟩ | ⟨-, e⟩
  · rw [e] at h; cases h
  · rw [← e]; exact h

theorem accept_writes [B64] {u : SyncUpgrade} {custom : Option Headers} {maxDf maxMsg : Nat} {c : Client}
    (h : u.internalAcceptWithLimits custom maxDf maxMsg = .client c) : u.Writes custom := by
  rcases accept_or u custom maxDf maxMsg with ⟨-, e⟩ | ⟨hw, -⟩
  · rw [e] at h; cases h
  · exact hw

def AsyncUpgrade.acceptText [B64] (u : AsyncUpgrade) (custom : Option Headers) (maxDf maxMsg extra : Nat) : AsyncRes :=
  match u.prepareHeaders custom with
  | .ok (status, u) =>
    let duplex := Framed.fromParts () u.buffer
    match httpSend ((u.response status).fmt resLine) extra u.stream.output with
    | (.ready, fw, w) =>
      .client ⟨u.headers, { u.stream with output := w },
        updateFramedCodec (MsgCodec.newWithLimits .server maxDf maxMsg) duplex, { fw with isServer := true }⟩
    | (.notReady, _, w) => .err { u.stream with output := w } (.io .wouldBlock)
    | (.err e, _, w) => .err { u.stream with output := w } e
    | (.panic why, _, _) => .panic why
  | .err _ => .panic "unreachable"
  | .panic why => .panic why

theorem asyncAccept_text [B64] (u : AsyncUpgrade) (custom : Option Headers) (maxDf maxMsg extra : Nat) (h : u.Writes custom) :
    u.internalAcceptWithLimits custom maxDf maxMsg extra = u.acceptText custom maxDf maxMsg extra := by
  unfold AsyncUpgrade.internalAcceptWithLimits AsyncUpgrade.acceptText
  cases hp : u.prepareHeaders custom with
  | err e => rfl
  | panic e => rfl
  | ok x =>
    obtain ⟨status, u'⟩ := x
    simp only [h status u' hp, Bool.true_eq_false, if_false]
    rfl

theorem asyncAccept_panics [B64] (u : AsyncUpgrade) (custom : Option Headers) (maxDf maxMsg extra : Nat) (h : ¬ u.Writes custom) :
    u.internalAcceptWithLimits custom maxDf maxMsg extra = .panic formatPanic := by
  unfold AsyncUpgrade.internalAcceptWithLimits
  cases hp : u.prepareHeaders custom with
  | err e => exact absurd (fun _ _ h => by rw [hp] at h; cases h) h
  | panic e => exact absurd (fun _ _ h => by rw [hp] at h; cases h) h
  | ok x =>
    obtain ⟨status, u'⟩ := x
    simp only
    cases hw : u'.headers.writable with
    | false => simp only [if_pos]
    | true => exact absurd (fun _ _ h => by rw [hp] at h; cases h; exact hw) h

theorem asyncAccept_or [B64] (u : AsyncUpgrade) (custom : Option Headers) (maxDf maxMsg extra : Nat) :
    (¬ u.Writes custom ∧ u.internalAcceptWithLimits custom maxDf maxMsg extra = .panic formatPanic) ∨
    (u.Writes custom ∧ u.internalAcceptWithLimits custom maxDf maxMsg extra = u.acceptText custom maxDf maxMsg extra) := by
  by_cases h : u.Writes custom
  · exact .inr ⟨h, asyncAccept_text u custom maxDf maxMsg extra h⟩
  · exact .inl ⟨h, asyncAccept_panics u custom maxDf maxMsg extra h⟩

theorem asyncAccept_client [B64] {u : AsyncUpgrade} {custom : Option Headers} {maxDf maxMsg extra : Nat} {c : AsyncClient}
    (h : u.internalAcceptWithLimits custom maxDf maxMsg extra = .client c) : u.acceptText custom maxDf maxMsg extra = .client c := by
  rcases asyncAccept_or u custom maxDf maxMsg extra with ⟨-, e⟩ | ⟨-, e⟩
  · rw [e] at h; cases h
  · rw [← e]; exact h

theorem asyncAccept_writes [B64] {u : AsyncUpgrade} {custom : Option Headers} {maxDf maxMsg extra : Nat} {c : AsyncClient}
    (h : u.internalAcceptWithLimits custom maxDf maxMsg extra = .client c) : u.Writes custom := by
  rcases asyncAccept_or u custom maxDf maxMsg extra with ⟨-, e⟩ | ⟨hw, -⟩
  · rw [e] at h; cases h
  · exact hw

def SyncUpgrade.rejectText (u : SyncUpgrade) (custom : Option Headers) : Except IoKind Unit × Duplex :=
  match (u.addCustom custom).sendText badRequest with
  | (r, u) => (r, u.stream)

theorem reject_text (u : SyncUpgrade) (custom : Option Headers) (h : (u.addCustom custom).headers.writable = true) :
    u.internalReject custom = (.of (u.rejectText custom).1, (u.rejectText custom).2) := by
  unfold SyncUpgrade.internalReject SyncUpgrade.rejectText
  rw [send_text _ _ h]

theorem reject_panics (u : SyncUpgrade) (custom : Option Headers) (h : (u.addCustom custom).headers.writable = false) :
    u.internalReject custom = (.panic formatPanic, u.stream) := by
  have : (u.addCustom custom).stream = u.stream := by unfold Upgrade.addCustom; split <;> rfl
  unfold SyncUpgrade.internalReject
  rw [send_panics _ _ h]
  simp only [this]

def AsyncUpgrade.rejectText (u : AsyncUpgrade) (custom : Option Headers) (extra : Nat) : SendRes × Duplex × Framed Unit :=
  let u := u.addCustom custom
  let duplex := Framed.fromParts () u.buffer
  match httpSend ((u.response badRequest).fmt resLine) extra u.stream.output with
  | (r, _, w) => (r, { u.stream with output := w }, duplex)

theorem asyncReject_text (u : AsyncUpgrade) (custom : Option Headers) (extra : Nat) (h : (u.addCustom custom).headers.writable = true) :
    u.internalReject custom extra = u.rejectText custom extra := by
  unfold AsyncUpgrade.internalReject AsyncUpgrade.rejectText
  simp only [h, Bool.true_eq_false, if_false]

theorem asyncReject_panics (u : AsyncUpgrade) (custom : Option Headers) (extra : Nat) (h : (u.addCustom custom).headers.writable = false) :
    u.internalReject custom extra = (.panic formatPanic, (u.addCustom custom).stream, Framed.fromParts () (u.addCustom custom).buffer) := by
  unfold AsyncUpgrade.internalReject
  simp only [h, if_pos]

/-! ## When headers can be written -/

/-- The raw lines among the headers are text: UTF-8. (The typed ones are made of `String`s.) -/
def TextHeaders (h : Headers) : Prop := ∀ e ∈ h, ∀ ls, e.2 = .raw ls → ∀ l ∈ ls, Spec.IsUtf8 l

/-- The same of the headers a call brings along. -/
def GivesText : BOp → Prop
  | .customHeaders h => TextHeaders h
  | _ => True

/-- The same of the headers given to `accept_with` and the like. -/
def TextCustom (custom : Option Headers) : Prop := ∀ c, custom = some c → TextHeaders c

theorem writable_iff {h : Headers} : h.writable = true ↔ TextHeaders h := by
  unfold Headers.writable TextHeaders
  rw [List.all_eq_true]
  constructor
  · intro hh e he ls hl l hm
    have := hh e he
    rw [hl] at this
    exact (utf8Valid_iff l).mp (List.all_eq_true.mp this l hm)
  · intro hh e he
    cases hx : e.2 with
    | typed v => rfl
    | raw ls => exact List.all_eq_true.mpr fun l hm => (utf8Valid_iff l).mpr (hh e he ls hx l hm)

theorem not_writable_iff {h : Headers} : h.writable = false ↔ ¬ TextHeaders h := by
  rw [← writable_iff]; simp

/-- The headers a call brings along can be written. -/
def BOp.writable : BOp → Bool
  | .customHeaders h => h.writable
  | _ => true

theorem givesText_of {ops : List BOp} (h : ops.all BOp.writable = true) : ∀ op ∈ ops, GivesText op := by
  intro op ho
  have := List.all_eq_true.mp h op ho
  cases op with
  | customHeaders h => exact writable_iff.mp this
  | _ => trivial

theorem textCustom_none : TextCustom none := fun _ h => by cases h

theorem textCustom_some {c : Headers} (h : c.writable = true) : TextCustom (some c) := fun _ e => by cases e; exact writable_iff.mp h

/-- `NewlineReplacer` on one byte. -/
def noBreak (c : UInt8) : UInt8 := if c = 13 ∨ c = 10 then 32 else c

theorem noBreak_width (c : UInt8) : charWidth (noBreak c) = charWidth c := by
  unfold noBreak; split
  · next h => rcases h with rfl | rfl <;> decide
  · rfl

theorem noBreak_cont (c : UInt8) : isCont (noBreak c) = isCont c := by
  unfold noBreak; split
  · next h => rcases h with rfl | rfl <;> decide
  · rfl

theorem noBreak_second3 (a b : UInt8) (ha : charWidth a = 3) : second3 (noBreak a) (noBreak b) = second3 a b := by
  have e : noBreak a = a := by
    unfold noBreak; split
    · next h => rcases h with rfl | rfl <;> revert ha <;> decide
    · rfl
  rw [e]
  unfold noBreak; split
  · next h => rcases h with rfl | rfl <;> simp [second3]
  · rfl

theorem noBreak_second4 (a b : UInt8) (ha : charWidth a = 4) : second4 (noBreak a) (noBreak b) = second4 a b := by
  have e : noBreak a = a := by
    unfold noBreak; split
    · next h => rcases h with rfl | rfl <;> revert ha <;> decide
    · rfl
  rw [e]
  unfold noBreak; split
  · next h => rcases h with rfl | rfl <;> simp [second4]
  · rfl

theorem noBreak_step (a : UInt8) (rest : Bytes) : utf8Step (noBreak a) (rest.map noBreak) = utf8Step a rest := by
  unfold utf8Step
  simp only [noBreak_width]
  split
  · rfl
  split
  · cases rest with
    | nil => rfl
    | cons b rest => simp only [List.map_cons, noBreak_cont]
  split
  · next h3 =>
    cases rest with
    | nil => rfl
    | cons b rest =>
      simp only [List.map_cons, noBreak_second3 a b h3]
      cases rest with
      | nil => rfl
      | cons c rest => simp only [List.map_cons, noBreak_cont]
  split
  · next h4 =>
    cases rest with
    | nil => rfl
    | cons b rest =>
      simp only [List.map_cons, noBreak_second4 a b h4]
      cases rest with
      | nil => rfl
      | cons c rest =>
        simp only [List.map_cons, noBreak_cont]
        cases rest with
        | nil => rfl
        | cons d rest => simp only [List.map_cons, noBreak_cont]
  · rfl

theorem oneLine_valid (l : Bytes) : utf8Valid (oneLine l) = utf8Valid l := by
  show utf8Valid (l.map noBreak) = _
  fun_induction utf8Valid l with
  | case1 => rw [List.map_nil, utf8Valid]
  | case2 a rest st ih =>
    rw [List.map_cons, utf8Valid]
    simp only [noBreak_step, ← List.map_drop]
    rw [ih]

/-- The values of header lines are text. -/
def TextLines (lines : List (Bytes × Bytes)) : Prop := ∀ e ∈ lines, Spec.IsUtf8 e.2

theorem text_of_wire {h : Headers} (ht : TextLines h.wire) : TextHeaders h := by
  intro e he ls hl l hm
  have := ht (e.1, oneLine l) (List.mem_flatMap.mpr ⟨e, he, List.mem_map.mpr ⟨oneLine l, by rw [hl]; exact List.mem_map.mpr ⟨l, hm, rfl⟩, rfl⟩⟩)
  exact (utf8Valid_iff l).mp (by rw [← oneLine_valid]; exact (utf8Valid_iff _).mpr this)

theorem writable_of_wire {h : Headers} (ht : TextLines h.wire) : h.writable = true := writable_iff.mpr (text_of_wire ht)

theorem text_nil : TextHeaders [] := by intro e he; cases he

theorem text_set {h : Headers} (hh : TextHeaders h) (n : Bytes) (v : HVal) : TextHeaders (Headers.insert n (.typed v) h) :=
  all_insert (P := fun e => ∀ ls, e.2 = .raw ls → ∀ l ∈ ls, Spec.IsUtf8 l) hh (fun _ h => by cases h)

theorem text_extend {h c : Headers} (hh : TextHeaders h) (hc : TextHeaders c) : TextHeaders (h.extend c) :=
  all_extend (P := fun e => ∀ ls, e.2 = .raw ls → ∀ l ∈ ls, Spec.IsUtf8 l) hh hc

theorem text_protocol {h : Headers} (hh : TextHeaders h) (xs : List Bytes) : TextHeaders (h.upsertProtocol xs) :=
  all_upsertProtocol (P := fun e => ∀ ls, e.2 = .raw ls → ∀ l ∈ ls, Spec.IsUtf8 l) hh (fun _ h => by cases h) (fun _ _ _ h => by cases h)

theorem text_extensions {h : Headers} (hh : TextHeaders h) (xs : List Ext) : TextHeaders (h.upsertExtensions xs) :=
  all_upsertExtensions (P := fun e => ∀ ls, e.2 = .raw ls → ∀ l ∈ ls, Spec.IsUtf8 l) hh (fun _ h => by cases h) (fun _ _ _ h => by cases h)

theorem text_remove {h : Headers} (hh : TextHeaders h) (n : Bytes) : TextHeaders (Headers.remove n h) :=
  all_remove (P := fun e => ∀ ls, e.2 = .raw ls → ∀ l ∈ ls, Spec.IsUtf8 l) hh n

theorem text_step {b : Builder} (hh : TextHeaders b.headers) (op : BOp) (ho : GivesText op) : TextHeaders (b.step op).headers := by
  cases op with
  | addProtocol p => exact text_protocol hh _
  | addProtocols p => exact text_protocol hh _
  | addExtension p => exact text_extensions hh _
  | addExtensions p => exact text_extensions hh _
  | key k => exact text_set hh _ _
  | version v => exact text_set hh _ _
  | origin o => exact text_set hh _ _
  | customHeaders h => exact text_extend hh ho
  | clearProtocols => exact text_remove hh _
  | clearExtensions => exact text_remove hh _
  | clearKey => exact text_remove hh _
  | clearVersion => exact text_remove hh _
  | clearOrigin => exact text_remove hh _
  | clearHeader n => exact text_remove hh _
  | maxDataframeSize n => exact hh
  | maxMessageSize n => exact hh

theorem text_run (ops : List BOp) (ho : ∀ op ∈ ops, GivesText op) {b : Builder} (hh : TextHeaders b.headers) : TextHeaders (b.run ops).headers := by
  unfold Builder.run
  induction ops generalizing b with
  | nil => exact hh
  | cons op ops ih => exact ih (fun o h => ho o (List.mem_cons_of_mem _ h)) (text_step hh op (ho op List.mem_cons_self))

theorem text_build {b : Builder} (hh : TextHeaders b.headers) (fresh : WsKey) : TextHeaders (b.buildRequest fresh).2.headers :=
  build_induct (K := TextHeaders) hh fresh (fun _ _ h => text_set h _ _) (fun _ h => text_set h _ _) (fun _ h => text_set h _ _)
    (fun _ h => text_set h _ _) (fun _ h => text_set h _ _) (fun _ h => text_set h _ _)

theorem writable_request (url : Url) (ops : List BOp) (ho : ∀ op ∈ ops, GivesText op) (fresh : WsKey) :
    (((Builder.init url).run ops).buildRequest fresh).2.headers.writable = true :=
  writable_iff.mpr (text_build (text_run ops ho text_nil) fresh)

theorem connectText_calm [B64] (p : ResParser) (fresh : WsKey) (stream : Duplex) (b : Builder) (why : String) :
    (b.connectText p fresh stream).1 ≠ .panic why := by
  unfold Builder.connectText
  cases b.buildRequest fresh with
  | mk resource b =>
    simp only
    cases Sink.writeAll _ stream.output with
    | mk r w =>
      cases r with
      | error k => intro h; cases h
      | ok u =>
        simp only
        cases parseHead p (BufReader.new { stream with output := w }) with
        | mk r reader =>
          cases r with
          | error e => intro h; cases h
          | ok m =>
            simp only
            cases b.validate m <;> intro h <;> cases h

theorem connect_calm [B64] (p : ResParser) (fresh : WsKey) (stream : Duplex) (url : Url) (ops : List BOp) (ho : ∀ op ∈ ops, GivesText op)
    (why : String) : (((Builder.init url).run ops).connectOn p fresh stream).1 ≠ .panic why := by
  rw [connect_text p fresh stream _ (writable_request url ops ho fresh)]
  exact connectText_calm p fresh stream _ why

theorem text_custom {B : Type} {u : Upgrade B} (hu : TextHeaders u.headers) {custom : Option Headers} (hc : TextCustom custom) :
    TextHeaders (u.addCustom custom).headers := by
  unfold Upgrade.addCustom
  cases custom with
  | none => exact hu
  | some c => exact text_extend hu (hc c rfl)

theorem text_prepare [B64] {B : Type} {u : Upgrade B} (hu : TextHeaders u.headers) {custom : Option Headers} (hc : TextCustom custom) :
    u.Writes custom := by
  intro status u' h
  unfold Upgrade.prepareHeaders at h
  simp only at h
  split at h
  · cases h
  · cases h
    exact writable_iff.mpr (text_set (text_set (text_set (text_custom hu hc) _ _) _ _) _ _)

end WS
