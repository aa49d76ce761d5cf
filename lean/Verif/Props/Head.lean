import Verif.Lemmas.Sample
import Verif.Lemmas.Head
import Verif.Model.Httparse
import Verif.Props.Connect
import Verif.Props.Response
/-!
# C41, C42: reading a head

`Spec.FirstBlank s head rest` is the notion of a head in a byte stream; `flat` is all the bytes a
transport will ever deliver.
-/

namespace WS
open Spec

/-! ## C42: the async codec -/

/-- The codec takes exactly the bytes through the first blank line, and its answer depends on those
bytes only. -/
theorem C42_takes_head {σ line ok} (p : HeadParser σ line ok) {src head rest : Bytes} (h : FirstBlank src head rest) :
    (httpDecoder p () src).2.2 = rest ∧
      match p.parse head with
      | .complete m _ => (httpDecoder p () src).1 = .ok (some m)
      | .error => (httpDecoder p () src).1 = .err .other
      | .part => (httpDecoder p () src).1 = .ok none := by
  rw [decode_head p (splitOff_iff.mpr h)]
  refine ⟨rfl, ?_⟩
  unfold headAnswer
  cases p.parse head <;> rfl

/-- Without a blank line the codec takes nothing and answers nothing. -/
theorem C42_waits {σ line ok} (p : HeadParser σ line ok) {src : Bytes} (h : ¬ [13, 10, 13, 10] <:+: src) :
    httpDecoder p () src = (.ok none, (), src) := decode_none p (splitOff_none.mpr h)

theorem splitOff_empty : splitOffHttp [] = none := rfl

/-- A stream without a blank line never gives a head, and all its bytes stay available. -/
theorem C42_no_head {σ line ok} (p : HeadParser σ line ok) (s : Src) (h : ¬ [13, 10, 13, 10] <:+: s.flat) :
    (∀ m, ((Framed.new ()).next (httpDecoder p) s).1 ≠ .item m) ∧
      ((Framed.new ()).next (httpDecoder p) s).2.1.buf ++ ((Framed.new ()).next (httpDecoder p) s).2.2.flat = s.flat := by
  obtain ⟨h1, h2, _⟩ := next_none p s (Framed.new ()) (by simpa [Framed.new] using h) rfl
  refine ⟨?_, by rw [h2]; rfl⟩
  intro m hm
  rcases h1 with h1 | ⟨e, h1⟩ <;> rw [h1] at hm <;> cases hm

/-- Over any transport, failing or not: either the head is read and exactly the bytes after it are
left, or nothing was read and every byte is left; the latter only if the transport failed.
Partial: a blank line after which the parser still asks for more is left out. -/
theorem C42_any_transport_partial {σ line ok} (p : HeadParser σ line ok) (s : Src) {head rest : Bytes}
    (h : FirstBlank s.flat head rest) (hp : p.parse head ≠ .part) :
    let r := (Framed.new ()).next (httpDecoder p) s
    (r.1 = (match p.parse head with | .complete m _ => .item m | _ => .err .other) ∧ r.2.1.buf ++ r.2.2.flat = rest) ∨
      ((∀ m, r.1 ≠ .item m) ∧ r.2.1.buf ++ r.2.2.flat = head ++ rest ∧ ∃ e ∈ s, e.fails) := by
  intro r
  have ha : headAnswer p head ≠ .ok none := by
    unfold headAnswer
    cases hh : p.parse head with
    | part => exact absurd hh hp
    | complete m n => simp
    | error => simp
  rcases next_head p s (Framed.new ()) (by simpa [Framed.new] using h) rfl rfl ha with ⟨h1, h2, _⟩ | ⟨h1, h2, _, h3⟩
  · refine Or.inl ⟨?_, h2⟩
    unfold headAnswer answerItem at h1
    cases hh : p.parse head with
    | part => exact absurd hh hp
    | complete m n => rw [hh] at h1; simpa using h1
    | error => rw [hh] at h1; simpa using h1
  · refine Or.inr ⟨?_, h2, h3⟩
    intro m hm
    rcases h1 with h1 | ⟨e, h1⟩ <;> simp only [r] at hm <;> rw [h1] at hm <;> cases hm

/-- However the bytes are cut up, the answer is the same and the same bytes are left. Partial in the
same way. -/
theorem C42_any_chunking_partial {σ line ok} (p : HeadParser σ line ok) (s t : Src) {head rest : Bytes}
    (hst : s.flat = t.flat) (hs : ∀ e ∈ s, ¬ e.fails) (ht : ∀ e ∈ t, ¬ e.fails)
    (h : FirstBlank s.flat head rest) (hp : p.parse head ≠ .part) :
    let r := (Framed.new ()).next (httpDecoder p) s
    let r' := (Framed.new ()).next (httpDecoder p) t
    r.1 = r'.1 ∧ r.2.1.buf ++ r.2.2.flat = rest ∧ r'.2.1.buf ++ r'.2.2.flat = rest := by
  rcases C42_any_transport_partial p s h hp with ⟨h1, h2⟩ | ⟨_, _, e, he, hf⟩
  · rcases C42_any_transport_partial p t (hst ▸ h) hp with ⟨h3, h4⟩ | ⟨_, _, e, he, hf⟩
    · exact ⟨h1.trans h3.symm, h2, h4⟩
    · exact absurd hf (ht e he)
  · exact absurd hf (hs e he)

/-! With the parser of Model/Httparse the gap is exactly heads made of line ends alone. -/

theorem headLines_blank {cur b : Bytes} (h : [13, 10, 13, 10] <:+: b) : headLines cur b ≠ none := by
  fun_induction headLines cur b with
  | case1 t => simp
  | case2 cur t hc ih =>
    have : headLines [] t ≠ none := by
      rcases List.infix_cons_iff.mp h with h1 | h1
      · obtain ⟨u, hu⟩ := h1
        simp only [List.cons_append, List.cons.injEq, true_and, List.nil_append] at hu
        rw [← hu, headLines]; simp
      · rcases List.infix_cons_iff.mp h1 with h2 | h2
        · obtain ⟨u, hu⟩ := h2; simp at hu
        · exact ih h2
    cases hh : headLines [] t with
    | none => exact absurd hh this
    | some r => simp
  | case3 t => simp
  | case4 cur t hc ih =>
    have : headLines [] t ≠ none := by
      rcases List.infix_cons_iff.mp h with h1 | h1
      · obtain ⟨u, hu⟩ := h1; simp at hu
      · exact ih h1
    cases hh : headLines [] t with
    | none => exact absurd hh this
    | some r => simp
  | case5 cur c t hx hy ih =>
    have : headLines (c :: cur) t ≠ none := by
      rcases List.infix_cons_iff.mp h with h1 | h1
      · obtain ⟨u, hu⟩ := h1
        simp only [List.cons_append, List.cons.injEq, List.nil_append] at hu
        exact absurd hu.2.symm (fun ht => hx _ hu.1.symm ht)
      · exact ih h1
    cases hh : headLines (c :: cur) t with
    | none => exact absurd hh this
    | some r => simp
  | case6 => simp at h

theorem skipNl_blank {b : Bytes} (h : [13, 10, 13, 10] <:+ b) (hc : ∃ c ∈ b, c ≠ 13 ∧ c ≠ 10) : [13, 10, 13, 10] <:+ skipNl b := by
  fun_induction skipNl b with
  | case1 t ih =>
    refine ih ?_ (by obtain ⟨c, h1, h2, h3⟩ := hc; exact ⟨c, by simpa [h2, h3] using h1, h2, h3⟩)
    rcases List.suffix_cons_iff.mp h with h1 | h1
    · simp only [List.cons.injEq, true_and] at h1
      subst h1
      obtain ⟨c, h1, h2, h3⟩ := hc
      simp [h2, h3] at h1
    · rcases List.suffix_cons_iff.mp h1 with h2 | h2
      · simp at h2
      · exact h2
  | case2 t ih =>
    refine ih ?_ (by obtain ⟨c, h1, h2, h3⟩ := hc; exact ⟨c, by simpa [h3] using h1, h2, h3⟩)
    rcases List.suffix_cons_iff.mp h with h1 | h1
    · simp at h1
    · exact h1
  | case3 b h1 h2 => exact h

theorem parseWith_blank {σ} (start : Bytes → Option (HttpVersion × σ)) {b : Bytes} (h : [13, 10, 13, 10] <:+ b)
    (hc : ∃ c ∈ b, c ≠ 13 ∧ c ≠ 10) : parseWith start b ≠ .part := by
  have hl := headLines_blank (cur := []) (skipNl_blank h hc).isInfix
  unfold parseWith
  simp only
  split
  · next h1 => exact absurd h1 hl
  · simp
  · split
    · split <;> simp
    · simp

/-- For the concrete parser: any head with something in it, any chunking. -/
theorem C42_concrete_chunking (s t : Src) {head rest : Bytes}
    (hst : s.flat = t.flat) (hs : ∀ e ∈ s, ¬ e.fails) (ht : ∀ e ∈ t, ¬ e.fails)
    (h : FirstBlank s.flat head rest) (hc : ∃ c ∈ head, c ≠ 13 ∧ c ≠ 10) :
    let r := (Framed.new ()).next (httpDecoder reqParser) s
    let r' := (Framed.new ()).next (httpDecoder reqParser) t
    r.1 = r'.1 ∧ r.2.1.buf ++ r.2.2.flat = rest ∧ r'.2.1.buf ++ r'.2.2.flat = rest :=
  C42_any_chunking_partial reqParser s t hst hs ht h (parseWith_blank parseReqLine h.2.1 hc)

/-- Two line ends. -/
def crlf2 : Bytes := [13, 10, 13, 10]

/-- Whether a poll gave an item. -/
def itemHead {α} : Item α → Bool
  | .item _ => true
  | _ => false

instance : DecidablePred Ev.fails := fun e => by unfold Ev.fails; split <;> infer_instance

/-- The property as stated fails for heads of line ends alone: httparse skips them and asks for more,
and `decode` has then already dropped them. So a request after two blank lines is found or not
depending on how the bytes arrive. -/
theorem C42_refuted_blank_lines :
    ∃ s t : Src, s.flat = t.flat ∧ (∀ e ∈ s, ¬ e.fails) ∧ (∀ e ∈ t, ¬ e.fails) ∧
      (∃ m, ((Framed.new ()).next (httpDecoder reqParser) s).1 = .item m) ∧
      (∀ m, ((Framed.new ()).next (httpDecoder reqParser) t).1 ≠ .item m) := by
  refine ⟨[.chunk crlf2, .chunk crlf2, .chunk (ascii "GET / HTTP/1.1\r\n\r\n")],
    [.chunk (crlf2 ++ crlf2 ++ ascii "GET / HTTP/1.1\r\n\r\n")], by decide +kernel, by decide +kernel, by decide +kernel, ?_, ?_⟩
  · have h : itemHead ((Framed.new ()).next (httpDecoder reqParser)
        [.chunk crlf2, .chunk crlf2, .chunk (ascii "GET / HTTP/1.1\r\n\r\n")]).1 = true := by decide +kernel
    revert h
    generalize ((Framed.new ()).next (httpDecoder reqParser) _).1 = x
    cases x <;> simp [itemHead]
  · have h : itemHead ((Framed.new ()).next (httpDecoder reqParser)
        [.chunk (crlf2 ++ crlf2 ++ ascii "GET / HTTP/1.1\r\n\r\n")]).1 = false := by decide +kernel
    revert h
    generalize ((Framed.new ()).next (httpDecoder reqParser) _).1 = x
    cases x <;> simp [itemHead]

/-- The hypotheses are met: a request in three pieces with a wait between them, and a frame behind. -/
example : FirstBlank (Src.flat [.chunk (ascii "GET / HT"), .error .wouldBlock, .chunk (ascii "TP/1.1\r\n\r"), .chunk [10, 0x81, 1, 65]])
      (ascii "GET / HTTP/1.1\r\n\r\n") [0x81, 1, 65] ∧
    reqParser.parse (ascii "GET / HTTP/1.1\r\n\r\n") ≠ .part :=
  ⟨splitOff_iff.mp (by decide +kernel), parseWith_blank (b := ascii "GET / HTTP/1.1\r\n\r\n") parseReqLine ⟨ascii "GET / HTTP/1.1", by decide +kernel⟩ (by decide +kernel)⟩

/-! ## C41: blocking server -/

/-- The unread bytes of a returned `Buffer`: `buf[pos..cap]`. -/
def unread : Option Buffer → Bytes
  | some b => (b.buf.take b.cap).drop b.pos
  | none => []

/-- The bytes a blocking client will read next. -/
def Client.pending (c : Client) : Bytes := c.stream.window ++ c.stream.inner.input.flat

/-- Those are the bytes its reads see. -/
theorem C41_pending_read (c : Client) : c.stream.src.flat = c.pending := by
  unfold BufReader.src Client.pending
  split
  · next h => rw [h]; rfl
  · rfl

/-- `into_ws`, any transport: a request takes exactly its own bytes; without a request every byte is
handed back. Both when it succeeds and when it fails. -/
theorem C41_into_ws [B64] (p : ReqParser) (d : Duplex) :
    match intoWs p d with
    | .ok u => ∃ n, p.parse d.input.flat = .complete u.request n ∧ unread u.buffer ++ u.stream.input.flat = d.input.flat.drop n
    | .error f => match f.request with
      | some r => ∃ n, p.parse d.input.flat = .complete r n ∧ unread f.buffer ++ f.stream.input.flat = d.input.flat.drop n
      | none => unread f.buffer ++ f.stream.input.flat = d.input.flat := by
  have hc := parseHead_conserves p (BufReader.new d) (new_wf d)
  rw [new_window] at hc
  unfold intoWs
  cases hp : parseHead p (BufReader.new d) with
  | mk r reader =>
    rw [hp] at hc
    simp only [BufReader.intoParts]
    cases r with
    | error e => exact hc.2
    | ok m =>
      obtain ⟨_, n, h1, h2⟩ := hc
      simp only
      cases validate m.subject.method m.version m.headers with
      | ok _ => exact ⟨n, h1, h2⟩
      | error e => exact ⟨n, h1, h2⟩

/-- Accepting, with any headers and limits: what was unread is what the new client reads first. -/
theorem C41_accept [B64] (u : SyncUpgrade) (custom : Option Headers) (maxDf maxMsg : Nat) (c : Client)
    (h : u.internalAcceptWithLimits custom maxDf maxMsg = .client c) :
    c.pending = unread u.buffer ++ u.stream.input.flat := by
  replace h := accept_client h
  unfold SyncUpgrade.acceptText Upgrade.prepareHeaders at h
  have h1 : (u.addCustom custom).buffer = u.buffer ∧ (u.addCustom custom).stream = u.stream := by
    unfold Upgrade.addCustom; split <;> exact ⟨rfl, rfl⟩
  simp only at h
  cases hk : (u.addCustom custom).request.headers.getKey with
  | none => rw [hk] at h; simp at h
  | some key =>
    rw [hk] at h
    simp only [Upgrade.sendText] at h
    split at h
    · cases h
    · next hs =>
      simp only [Prod.mk.injEq] at hs
      obtain ⟨_, rfl⟩ := hs
      simp only [AcceptRes.client.injEq] at h
      subst h
      unfold Client.pending Client.uncheckedWithLimits
      simp only [h1.1, h1.2]
      cases u.buffer with
      | none => rw [show (BufReader.new _).window = [] from new_window _]; rfl
      | some b => rfl

theorem into_ws_wf [B64] (p : ReqParser) (d : Duplex) (u : SyncUpgrade) (h : intoWs p d = .ok u) :
    ∀ b, u.buffer = some b → b.pos ≤ b.cap ∧ b.cap ≤ b.buf.length := by
  have hc := (parseHead_conserves p (BufReader.new d) (new_wf d)).1
  unfold intoWs at h
  cases hp : parseHead p (BufReader.new d) with
  | mk r reader =>
    rw [hp] at hc h
    simp only [BufReader.intoParts] at h
    cases r with
    | error e => cases h
    | ok m =>
      simp only at h
      split at h
      · cases h
        intro b hb
        cases hb
        exact hc
      · cases h

theorem accept_wf [B64] (u : SyncUpgrade) (custom : Option Headers) (maxDf maxMsg : Nat) (c : Client)
    (h : u.internalAcceptWithLimits custom maxDf maxMsg = .client c)
    (hb : ∀ b, u.buffer = some b → b.pos ≤ b.cap ∧ b.cap ≤ b.buf.length) : c.stream.WF := by
  replace h := accept_client h
  unfold SyncUpgrade.acceptText Upgrade.prepareHeaders at h
  have h1 : (u.addCustom custom).buffer = u.buffer := by unfold Upgrade.addCustom; split <;> rfl
  simp only at h
  cases hk : (u.addCustom custom).request.headers.getKey with
  | none => rw [hk] at h; simp at h
  | some key =>
    rw [hk] at h
    simp only [Upgrade.sendText] at h
    split at h
    · cases h
    · next hs =>
      simp only [Prod.mk.injEq] at hs
      obtain ⟨_, rfl⟩ := hs
      simp only [AcceptRes.client.injEq] at h
      subst h
      unfold Client.uncheckedWithLimits
      simp only [h1]
      cases hu : u.buffer with
      | none => exact new_wf _
      | some b => exact hb b hu

/-- From the first byte to the accepted client: any transport, any calls in between, any custom
headers and limits. -/
theorem C41_server [B64] (p : ReqParser) (d : Duplex) (u : SyncUpgrade) (h : intoWs p d = .ok u) (ops : List UpgradeOp)
    (custom : Option Headers) (maxDf maxMsg : Nat) (c : Client)
    (ha : SyncUpgrade.internalAcceptWithLimits (u.run ops) custom maxDf maxMsg = .client c) :
    c.stream.WF ∧ ∃ n, p.parse d.input.flat = .complete u.request n ∧ c.pending = d.input.flat.drop n := by
  have hi := C41_into_ws p d
  rw [h] at hi
  obtain ⟨n, h1, h2⟩ := hi
  have hu : u.headers = [] := by
    unfold intoWs at h
    simp only at h
    split at h
    · cases h
    · split at h <;> cases h
      rfl
  obtain ⟨_, _, r1, r2⟩ := run_facts u ops (by rw [hu]; simp [Headers.Unique])
  refine ⟨accept_wf (u.run ops) custom maxDf maxMsg c ha (by rw [r2]; exact into_ws_wf p d u h), n, h1, ?_⟩
  rw [C41_accept (u.run ops) custom maxDf maxMsg c ha, r1, r2, h2]

/-! ## C41: blocking client -/

/-- `connect_on`: the client reads on exactly behind the response it was given. -/
theorem C41_client [B64] (p : ResParser) (fresh : WsKey) (d : Duplex) (b : Builder) (c : Client)
    (h : (b.connectOn p fresh d).1 = .client c) :
    c.stream.WF ∧ ∃ m n, p.parse d.input.flat = .complete m n ∧ c.headers = m.headers ∧ c.pending = d.input.flat.drop n := by
  replace h := connect_client' h
  unfold Builder.connectText at h
  simp only at h
  split at h
  · cases h
  · next w hw =>
    have hc := parseHead_conserves p (BufReader.new { d with output := w }) (new_wf _)
    rw [new_window] at hc
    cases hp : parseHead p (BufReader.new { d with output := w }) with
    | mk r reader =>
      rw [hp] at hc h
      cases r with
      | error e => cases h
      | ok m =>
        simp only at h
        split at h
        · cases h
        · simp only [ConnectRes.client.injEq] at h
          subst h
          obtain ⟨hwf, n, h1, h2⟩ := hc
          exact ⟨hwf, m, n, h1, rfl, h2⟩

/-! ## C41: async -/

/-- `into_ws` of an async stream, any transport. Partial: a head the parser ends before its first blank
line, or not even there, is left out (see `C41_refuted_bare_lf`). -/
theorem C41_async_into_ws_partial [B64] (p : ReqParser) (d : Duplex) {head rest : Bytes} (h : FirstBlank d.input.flat head rest)
    (hp : p.parse head ≠ .part) :
    match asyncIntoWs p d with
    | .ok u => (∃ n, p.parse head = .complete u.request n) ∧ u.buffer ++ u.stream.input.flat = rest
    | .error f => match f.request with
      | some r => (∃ n, p.parse head = .complete r n) ∧ f.buffer ++ f.stream.input.flat = rest
      | none => f.buffer ++ f.stream.input.flat = head ++ rest ∨
          (p.parse head = .error ∧ f.buffer ++ f.stream.input.flat = rest) := by
  have ht := C42_any_transport_partial p d.input h hp
  unfold asyncIntoWs
  revert ht
  cases (Framed.new ()).next (httpDecoder p) d.input with
  | mk x y =>
    obtain ⟨fr, s⟩ := y
    intro ht
    rcases ht with ⟨h1, h2⟩ | ⟨h1, h2, _⟩
    · simp only at h1 h2
      cases hh : p.parse head with
      | part => exact absurd hh hp
      | error => rw [hh] at h1; subst h1; exact Or.inr ⟨rfl, h2⟩
      | complete m n =>
        rw [hh] at h1; subst h1
        simp only
        cases validate m.subject.method m.version m.headers with
        | ok _ => exact ⟨⟨n, rfl⟩, h2⟩
        | error e => exact ⟨⟨n, rfl⟩, h2⟩
    · simp only at h1 h2
      cases x with
      | item m => exact absurd rfl (h1 m)
      | done => exact Or.inl h2
      | err e => exact Or.inl h2
      | panic w => exact Or.inl h2

/-- Without a blank line nothing is lost either. -/
theorem C41_async_no_head [B64] (p : ReqParser) (d : Duplex) (h : ¬ [13, 10, 13, 10] <:+: d.input.flat) :
    ∃ f, asyncIntoWs p d = .error f ∧ f.request = none ∧ f.buffer ++ f.stream.input.flat = d.input.flat := by
  have ht := C42_no_head p d.input h
  unfold asyncIntoWs
  revert ht
  cases (Framed.new ()).next (httpDecoder p) d.input with
  | mk x y =>
    obtain ⟨fr, s⟩ := y
    intro ⟨h1, h2⟩
    cases x with
    | item m => exact absurd rfl (h1 m)
    | done => exact ⟨_, rfl, rfl, h2⟩
    | err e => exact ⟨_, rfl, rfl, h2⟩
    | panic w => exact ⟨_, rfl, rfl, h2⟩

/-- Accepting keeps the bytes: the message stream starts with them, and will look at them before
asking the transport. -/
theorem C41_async_accept [B64] (u : AsyncUpgrade) (custom : Option Headers) (maxDf maxMsg extra : Nat) (c : AsyncClient)
    (h : u.internalAcceptWithLimits custom maxDf maxMsg extra = .client c) :
    c.read.buf = u.buffer ∧ c.stream.input = u.stream.input ∧ (c.read.readable = true ↔ u.buffer ≠ []) ∧ c.read.eof = false := by
  replace h := asyncAccept_client h
  unfold AsyncUpgrade.acceptText Upgrade.prepareHeaders at h
  have h1 : (u.addCustom custom).buffer = u.buffer ∧ (u.addCustom custom).stream = u.stream := by
    unfold Upgrade.addCustom; split <;> exact ⟨rfl, rfl⟩
  simp only at h
  cases hk : (u.addCustom custom).request.headers.getKey with
  | none => rw [hk] at h; simp at h
  | some key =>
    rw [hk] at h
    simp only at h
    split at h
    · simp only [AsyncRes.client.injEq] at h
      subst h
      simp only [updateFramedCodec, Framed.fromParts, h1.1, h1.2, decide_eq_true_eq]
      simp
    · cases h
    · cases h
    · cases h

/-- Rejecting an async upgrade hands the bytes back. -/
theorem C41_async_reject (u : AsyncUpgrade) (custom : Option Headers) (extra : Nat) :
    (u.internalReject custom extra).2.2.buf = u.buffer ∧ (u.internalReject custom extra).2.1.input = u.stream.input := by
  unfold AsyncUpgrade.internalReject
  have h1 : (u.addCustom custom).buffer = u.buffer ∧ (u.addCustom custom).stream = u.stream := by
    unfold Upgrade.addCustom; split <;> exact ⟨rfl, rfl⟩
  simp only
  split <;> simp only [Framed.fromParts, h1.1, h1.2] <;> exact ⟨trivial, trivial⟩

/-- `async_connect_on`: the client reads on exactly behind the response head. Partial as above. -/
theorem C41_async_client_partial [B64] (p : ResParser) (fresh : WsKey) (extra : Nat) (d : Duplex) (b : Builder) (c : AsyncClient)
    {head rest : Bytes} (hf : FirstBlank d.input.flat head rest) (hp : p.parse head ≠ .part)
    (h : b.asyncConnectOn p fresh extra d = .client c) :
    ∃ m n, p.parse head = .complete m n ∧ c.headers = m.headers ∧ c.read.buf ++ c.stream.input.flat = rest ∧
      (c.read.readable = true ↔ c.read.buf ≠ []) ∧ c.read.eof = false := by
  have ht := C42_any_transport_partial p d.input hf hp
  replace h := asyncConnect_client h
  unfold Builder.asyncConnectText at h
  simp only at h
  split at h
  · revert ht h
    cases (Framed.new ()).next (httpDecoder p) d.input with
    | mk x y =>
      obtain ⟨fr, s⟩ := y
      intro ht h
      simp only at h
      cases x with
      | done => cases h
      | err e => cases h
      | panic w => cases h
      | item m =>
        simp only at h
        split at h
        · simp only [AsyncConnectRes.client.injEq] at h
          subst h
          rcases ht with ⟨h1, h2⟩ | ⟨h1, _⟩
          · simp only at h1 h2
            cases hh : p.parse head with
            | part => exact absurd hh hp
            | error => rw [hh] at h1; cases h1
            | complete m' n =>
              rw [hh] at h1
              simp only [Item.item.injEq] at h1
              subst h1
              refine ⟨m, n, rfl, rfl, h2, ?_, rfl⟩
              simp [updateFramedCodec, Framed.fromParts]
          · exact absurd rfl (h1 m)
        · cases h
  · cases h
  · cases h
  · cases h

/-! ## What is lost -/

/-- A handshake request with these line ends. -/
def sampleRequest (nl : Bytes) : Bytes :=
  ascii "GET / HTTP/1.1" ++ nl ++ ascii "Host: a" ++ nl ++ ascii "Upgrade: websocket" ++ nl ++ ascii "Connection: Upgrade" ++ nl ++
    ascii "Sec-WebSocket-Key: dGhlIHNhbXBsZSBub25jZQ==" ++ nl ++ ascii "Sec-WebSocket-Version: 13" ++ nl ++ nl

/-- A transport that delivers these bytes at once and refuses every write after the listed ones. -/
def sampleWire (b : Bytes) (w : List WEv) : Duplex := ⟨[.chunk b], ⟨[], w⟩⟩

/-- The unread bytes of an upgrade, and what the stream returned by `reject` will deliver. -/
def rejectView (r : Except (IntoWsFail (Option Buffer)) SyncUpgrade) : Option (Bytes × Bytes) :=
  match r with
  | .ok u => some (unread u.buffer ++ u.stream.input.flat, u.reject.2.input.flat)
  | .error _ => none

/-- The same for a failing `accept`. -/
def acceptView [B64] (r : Except (IntoWsFail (Option Buffer)) SyncUpgrade) : Option (Bytes × Bytes) :=
  match r with
  | .ok u => match u.accept with
    | .err s _ => some (unread u.buffer ++ u.stream.input.flat, s.input.flat)
    | _ => none
  | .error _ => none

/-- The property fails for `reject` (src/server/upgrade/sync.rs:110-118): the stream comes back without the
bytes read ahead. Here the peer sent a frame with its request. -/
theorem C41_refuted_reject :
    ∃ (d : Duplex) (u : SyncUpgrade), @intoWs B64.strict reqParser d = .ok u ∧
      unread u.buffer ++ u.stream.input.flat = [0x81, 1, 65] ∧ u.reject.2.input.flat = [] := by
  have h : rejectView (@intoWs B64.strict reqParser (sampleWire (sampleRequest crlf ++ [0x81, 1, 65]) [])) =
      some ([0x81, 1, 65], []) := by decide +kernel
  refine ⟨sampleWire (sampleRequest crlf ++ [0x81, 1, 65]) [], ?_⟩
  revert h
  cases @intoWs B64.strict reqParser (sampleWire (sampleRequest crlf ++ [0x81, 1, 65]) []) with
  | error f => intro h; cases h
  | ok u =>
    intro h
    simp only [rejectView, Option.some.injEq, Prod.mk.injEq] at h
    exact ⟨u, rfl, h.1, h.2⟩

/-- It fails for an `accept` whose response cannot be written, in the same way
(src/server/upgrade/sync.rs:84-90). -/
theorem C41_refuted_failed_accept :
    ∃ (d : Duplex) (u : SyncUpgrade) (s : Duplex) (k : IoKind), @intoWs B64.strict reqParser d = .ok u ∧
      unread u.buffer ++ u.stream.input.flat = [0x81, 1, 65] ∧ @SyncUpgrade.accept B64.strict u = .err s k ∧ s.input.flat = [] := by
  have h : @acceptView B64.strict (@intoWs B64.strict reqParser (sampleWire (sampleRequest crlf ++ [0x81, 1, 65]) [.error .other])) =
      some ([0x81, 1, 65], []) := by decide +kernel
  refine ⟨sampleWire (sampleRequest crlf ++ [0x81, 1, 65]) [.error .other], ?_⟩
  revert h
  cases @intoWs B64.strict reqParser (sampleWire (sampleRequest crlf ++ [0x81, 1, 65]) [.error .other]) with
  | error f => intro h; cases h
  | ok u =>
    intro h
    simp only [acceptView] at h
    cases ha : @SyncUpgrade.accept B64.strict u with
    | err s k =>
      rw [ha] at h
      simp only [Option.some.injEq, Prod.mk.injEq] at h
      exact ⟨u, s, k, rfl, h.1, ha, h.2⟩
    | client c => rw [ha] at h; cases h
    | panic w => rw [ha] at h; cases h

/-- What is unread after an async `into_ws`, and the request. -/
def asyncView (r : Except (IntoWsFail Bytes) AsyncUpgrade) : Option Bytes :=
  match r with
  | .ok u => some (u.buffer ++ u.stream.input.flat)
  | .error _ => none

/-- It fails for an async server whose peer ends lines with LF alone: the codec looks for CR LF CR LF,
finds it in the bytes after the request, and drops everything up to there. The blocking server
keeps them. -/
theorem C41_refuted_bare_lf :
    let d := sampleWire (sampleRequest [10] ++ [0x82, 4, 13, 10, 13, 10]) []
    (∃ u, @intoWs B64.strict reqParser d = .ok u ∧ unread u.buffer ++ u.stream.input.flat = [0x82, 4, 13, 10, 13, 10]) ∧
      ∃ u, @asyncIntoWs B64.strict reqParser d = .ok u ∧ u.buffer ++ u.stream.input.flat = [] := by
  intro d
  constructor
  · have h : (rejectView (@intoWs B64.strict reqParser (sampleWire (sampleRequest [10] ++ [0x82, 4, 13, 10, 13, 10]) []))).map Prod.fst =
        some [0x82, 4, 13, 10, 13, 10] := by decide +kernel
    revert h
    simp only [d]
    cases @intoWs B64.strict reqParser (sampleWire (sampleRequest [10] ++ [0x82, 4, 13, 10, 13, 10]) []) with
    | error f => intro h; cases h
    | ok u =>
      intro h
      simp only [rejectView, Option.map_some, Option.some.injEq] at h
      exact ⟨u, rfl, h⟩
  · have h : asyncView (@asyncIntoWs B64.strict reqParser (sampleWire (sampleRequest [10] ++ [0x82, 4, 13, 10, 13, 10]) [])) =
        some [] := by decide +kernel
    revert h
    simp only [d]
    cases @asyncIntoWs B64.strict reqParser (sampleWire (sampleRequest [10] ++ [0x82, 4, 13, 10, 13, 10]) []) with
    | error f => intro h; cases h
    | ok u =>
      intro h
      simp only [asyncView, Option.some.injEq] at h
      exact ⟨u, rfl, h⟩

/-- The hypotheses are met: a request with a frame behind it is upgraded, by both servers, and accepted. -/
example : (rejectView (@intoWs B64.strict reqParser (sampleWire (sampleRequest crlf ++ [0x81, 1, 65]) []))).map Prod.fst =
      some [0x81, 1, 65] ∧
    asyncView (@asyncIntoWs B64.strict reqParser (sampleWire (sampleRequest crlf ++ [0x81, 1, 65]) [])) = some [0x81, 1, 65] ∧
    FirstBlank (sampleWire (sampleRequest crlf ++ [0x81, 1, 65]) []).input.flat (sampleRequest crlf) [0x81, 1, 65] :=
  ⟨by decide +kernel, by decide +kernel, splitOff_iff.mp (by decide +kernel)⟩

/-! ## The theorems above on concrete wires -/

/-- A head in three pieces with a frame behind it. -/
def exHead : Src := [.chunk (ascii "GET / HT"), .error .wouldBlock, .chunk (ascii "TP/1.1\r\n\r"), .chunk [10, 0x81, 1, 65]]
theorem exHead_blank : FirstBlank exHead.flat (ascii "GET / HTTP/1.1\r\n\r\n") [0x81, 1, 65] := splitOff_iff.mp (by decide +kernel)
theorem exHead_parse : reqParser.parse (ascii "GET / HTTP/1.1\r\n\r\n") ≠ .part :=
  parseWith_blank (b := ascii "GET / HTTP/1.1\r\n\r\n") parseReqLine ⟨ascii "GET / HTTP/1.1", by decide +kernel⟩ (by decide +kernel)

example := C42_takes_head reqParser exHead_blank
example := C42_waits reqParser (src := ascii "GET / HTTP/1.1\r\n\r") (by decide +kernel)
example := C42_no_head reqParser [.chunk (ascii "GET / HT"), .chunk (ascii "TP/1.1\r\n\r")] (by decide +kernel)
example := C42_any_transport_partial reqParser exHead exHead_blank exHead_parse
example := C42_any_chunking_partial reqParser exHead [.chunk exHead.flat] (by decide +kernel) (by decide) (by decide) exHead_blank exHead_parse
example := C42_concrete_chunking exHead [.chunk exHead.flat] (by decide +kernel) (by decide) (by decide) exHead_blank (by decide +kernel)

/-- A request with a frame behind it. -/
def exServed : Duplex := sampleWire (sampleRequest crlf ++ [0x81, 1, 65]) []

/-- `C41_accept`, `C41_server`: the request is taken and the handshake accepted. -/
example : ∃ u c, @intoWs B64.strict reqParser exServed = .ok u ∧
    @SyncUpgrade.internalAcceptWithLimits B64.strict (u.run [.useProtocol (ascii "chat")]) none 100 100 = .client c := by
  obtain ⟨u, hu⟩ := ok_of_isOk (x := @intoWs B64.strict reqParser exServed) (by decide +kernel)
  have : ((@intoWs B64.strict reqParser exServed).toOption.bind fun u =>
      (@SyncUpgrade.internalAcceptWithLimits B64.strict (u.run [.useProtocol (ascii "chat")]) none 100 100).client?).isSome = true := by
    decide +kernel
  rw [hu] at this
  obtain ⟨c, hc⟩ := AcceptRes.exists_client this
  exact ⟨u, c, hu, hc⟩
/-- `C41_async_accept`: the same for an async server. -/
example : ∃ u c, @asyncIntoWs B64.strict reqParser exServed = .ok u ∧
    @AsyncUpgrade.internalAcceptWithLimits B64.strict (u.run [.useProtocol (ascii "chat")]) none 100 100 0 = .client c := by
  obtain ⟨u, hu⟩ := ok_of_isOk (x := @asyncIntoWs B64.strict reqParser exServed) (by decide +kernel)
  have : ((@asyncIntoWs B64.strict reqParser exServed).toOption.bind fun u =>
      (@AsyncUpgrade.internalAcceptWithLimits B64.strict (u.run [.useProtocol (ascii "chat")]) none 100 100 0).client?).isSome = true := by
    decide +kernel
  rw [hu] at this
  obtain ⟨c, hc⟩ := AsyncRes.exists_client this
  exact ⟨u, c, hu, hc⟩

theorem exServed_blank : FirstBlank exServed.input.flat (sampleRequest crlf) [0x81, 1, 65] := splitOff_iff.mp (by decide +kernel)
theorem exServed_parse : reqParser.parse (sampleRequest crlf) ≠ .part := by
  generalize hr : sampleRequest crlf = r
  exact parseWith_blank (b := r) parseReqLine (by rw [← hr]; decide +kernel) ⟨71, by rw [← hr]; decide +kernel, by decide⟩
example := @C41_async_into_ws_partial B64.strict reqParser exServed _ _ exServed_blank exServed_parse
example := @C41_async_no_head B64.strict reqParser (sampleWire (ascii "GET / HTTP/1.1\r\n\r") []) (by decide +kernel)

/-- The answer to a request with the sample key, with a frame behind it. -/
def exAnswered : Duplex := sampleWire (ascii "HTTP/1.1 101 Switching Protocols\r\nUpgrade: websocket\r\nConnection: Upgrade\r\nSec-WebSocket-Accept: s3pPLMBiTxaQ9kYGzzhZRbK+xOo=\r\n\r\n" ++ [0x81, 1, 65]) []
def exNonce : WsKey := ⟨ascii "the sample nonce", by decide⟩
def exBuilder : Builder := Builder.init ⟨ascii "ws", some (ascii "a"), none, [], none, ascii "/", none, none⟩
/-- `C41_client`: the client connects. -/
example : ∃ c, (@Builder.connectOn B64.strict resParser exNonce exAnswered exBuilder).1 = .client c :=
  ConnectRes.exists_client (by decide +kernel)
/-- `C41_async_client_partial`: so does the async client, and the head is what the theorem asks for. -/
example : (∃ c, @Builder.asyncConnectOn B64.strict resParser exNonce 0 exAnswered exBuilder = .client c) ∧
    (splitOffHttp exAnswered.input.flat).map Prod.snd = some [0x81, 1, 65] :=
  ⟨AsyncConnectRes.exists_client (by decide +kernel), by decide +kernel⟩

end WS
