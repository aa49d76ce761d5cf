import Verif.Lemmas.Sample
import Verif.Props.Handshake
/-!
# C33, C34: nobody gets past the checks

Props/Server and Props/Validate say what the two checks decide. Here: whatever arrives and however, the calls that open a
connection (`into_ws`, `connect_on`, `async_connect_on`) hand one out exactly if the checks allow it.
-/

namespace WS

open Spec

/-! ## The client -/

/-- What has to become of a response with this status and these lines: the error to report, or `none`. -/
inductive Verdict [B64] (key : WsKey) (code : Nat) (lines : List (Bytes × Bytes)) : Option ConnectErr → Prop
  | redirect {vs loc} (h1 : 300 ≤ code) (h2 : code ≤ 399) (h3 : Values (ascii "Location") lines vs) (h4 : OneLine vs loc) :
      Verdict key code lines (some (.redirect code loc))
  | status {vs} (h1 : code ≠ 101) (h2 : Values (ascii "Location") lines vs) (h3 : code < 300 ∨ 399 < code ∨ ∀ loc, ¬ OneLine vs loc) :
      Verdict key code lines (some (.status code))
  | accept (h1 : code = 101) (h2 : ¬ AcceptRight key lines) : Verdict key code lines (some .accept)
  | upgrade (h1 : code = 101) (h2 : AcceptRight key lines) (h3 : ¬ UpgradeRight lines) : Verdict key code lines (some .upgrade)
  | good (h1 : code = 101) (h2 : AcceptRight key lines) (h3 : UpgradeRight lines) : Verdict key code lines none

theorem validate_verdict [B64] (b : Builder) (fresh key : WsKey) (hk : (b.buildRequest fresh).2.headers.getKey = some key)
    (v : HttpVersion) (code : Nat) (reason : Bytes) (lines : List (Bytes × Bytes)) :
    Verdict key code lines (failure ((b.buildRequest fresh).2.validate ⟨v, ⟨code, reason⟩, .fromRaw lines⟩)) := by
  by_cases hc : code = 101
  · subst hc
    have h := C34_first_failure b fresh key hk v reason lines
    simp only [FirstFailure] at h
    rcases h with ⟨h1, ⟨h2, h3⟩ | ⟨h2, h3⟩⟩ | ⟨h1, h3⟩
    · rw [h3]; exact .good rfl h1 h2
    · rw [h3]; exact .upgrade rfl h1 h2
    · rw [h3]; exact .accept rfl h1
  · have hv := values_iff.mpr (rfl : valuesOf (ascii "Location") lines = valuesOf (ascii "Location") lines)
    obtain ⟨h1, h2⟩ := C34_status_reported (b.buildRequest fresh).2 v code hc reason lines _ hv
    by_cases hr : code < 300 ∨ 399 < code ∨ ∀ loc, ¬ OneLine (valuesOf (ascii "Location") lines) loc
    · rw [h2 hr]; exact .status hc hv hr
    · have hl : ∃ loc, OneLine (valuesOf (ascii "Location") lines) loc := by
        apply Classical.byContradiction; intro hn
        exact hr (.inr (.inr fun loc h => hn ⟨loc, h⟩))
      obtain ⟨loc, hl⟩ := hl
      have g1 : 300 ≤ code := by omega
      have g2 : code ≤ 399 := by omega
      rw [h1 loc g1 g2 hl]; exact .redirect g1 g2 hv hl

/-- The error of a connect attempt. -/
def ConnectRes.failure : ConnectRes → Option (Option ConnectErr)
  | .client _ => some none
  | .err _ e => some (some e)
  | .panic _ => none

def AsyncConnectRes.failure : AsyncConnectRes → Option (Option ConnectErr)
  | .client _ => some none
  | .err _ e => some (some e)
  | .panic _ => none

/-- C34, the blocking client: whatever response arrives, in any segments and with anything behind it, unless the request could not be written
`connect_on` reports what the rules say about it, and gives a client exactly if they have nothing against it. -/
theorem C34_connect_reports [B64] (p : ResParser) (key fresh : WsKey) (url : Url) (ops : List BOp) (v : HttpVersion) (code : Nat) (reason : Bytes)
    (lines : List (Bytes × Bytes)) (d : Duplex) (y : Bytes) (ht : ∀ op ∈ ops, GivesText op) (hok : okRes v ⟨code, reason⟩) (hs : Sendable lines)
    (hk : (((Builder.init url).run ops).buildRequest fresh).2.headers.getKey = some key)
    (hl : (Head (resLine v ⟨code, reason⟩) lines).length ≤ maxBufferSize) (hc : d.input.Chunks)
    (hf : d.input.flat = Head (resLine v ⟨code, reason⟩) lines ++ y) :
    (∃ k, (Sink.writeAll (Head (requestStart url) (requestLines url ops fresh)) d.output).1 = .error k ∧
        (((Builder.init url).run ops).connectOn p fresh d).1.failure = some (some (.io k))) ∨
      ∃ r, (((Builder.init url).run ops).connectOn p fresh d).1.failure = some r ∧ Verdict key code lines r := by
  have hp := parse_lines p v ⟨code, reason⟩ hok hs
  have hval := validate_verdict ((Builder.init url).run ops) fresh key hk v code reason lines
  have hdata := request_data url ops fresh
  rw [connect_text p fresh d _ (writable_request url ops ht fresh)]
  unfold Builder.connectText
  cases hb : ((Builder.init url).run ops).buildRequest fresh with
  | mk resource b =>
    rw [hb] at hval hdata
    simp only at hval hdata ⊢
    rw [hdata]
    cases hw : Sink.writeAll (Head (requestStart url) (requestLines url ops fresh)) d.output with
    | mk r w =>
      cases r with
      | error k => exact Or.inl ⟨k, rfl, rfl⟩
      | ok _ =>
        right
        have h := parseHead_finds p (BufReader.new ({ d with output := w } : Duplex)) (new_wf _) rfl new_buf hc _ y _ hp hl
          (by rw [new_window]; exact hf)
        cases hx : parseHead p (BufReader.new ({ d with output := w } : Duplex)) with
        | mk r reader =>
          rw [hx] at h
          simp only at h
          obtain ⟨rfl, -⟩ := h
          simp only [hx]
          revert hval
          cases b.validate ⟨v, ⟨code, reason⟩, Headers.fromRaw lines⟩ with
          | error e => intro h; exact ⟨_, rfl, h⟩
          | ok _ => intro h; exact ⟨_, rfl, h⟩

/-- C34, the async client. -/
theorem C34_async_connect_reports [B64] (p : ResParser) (key fresh : WsKey) (url : Url) (ops : List BOp) (v : HttpVersion) (code : Nat)
    (reason : Bytes) (lines : List (Bytes × Bytes)) (extra : Nat) (d : Duplex) (y : Bytes) (ht : ∀ op ∈ ops, GivesText op) (hok : okRes v ⟨code, reason⟩) (hs : Sendable lines)
    (hk : (((Builder.init url).run ops).buildRequest fresh).2.headers.getKey = some key)
    (hc : ∀ e ∈ d.input, ¬ e.fails) (hf : d.input.flat = Head (resLine v ⟨code, reason⟩) lines ++ y) :
    (∃ e, (httpSend (Head (requestStart url) (requestLines url ops fresh)) extra d.output).1 = .err e ∧
        (((Builder.init url).run ops).asyncConnectOn p fresh extra d).failure = some (some (.ofCodec e))) ∨
      ∃ r, (((Builder.init url).run ops).asyncConnectOn p fresh extra d).failure = some r ∧ Verdict key code lines r := by
  have hp := parse_lines p v ⟨code, reason⟩ hok hs
  have hb : FirstBlank d.input.flat (Head (resLine v ⟨code, reason⟩) lines) y := by
    rw [hf]
    refine firstBlank_head (resLine_ok _ _ hok).2.1 ?_ hs.1 y
    exact fun h => absurd ((resLine_ok _ _ hok).2.2 _ h) (by decide)
  have hval := validate_verdict ((Builder.init url).run ops) fresh key hk v code reason lines
  have hfmt := request_fmt url ops fresh
  have hat := C42_any_transport_partial p d.input hb (by rw [hp]; simp)
  have hsp := httpSend_spec (Head (requestStart url) (requestLines url ops fresh)) extra d.output
  rw [asyncConnect_text p fresh extra d _ (writable_request url ops ht fresh)]
  unfold Builder.asyncConnectText
  cases hb : ((Builder.init url).run ops).buildRequest fresh with
  | mk resource b =>
    rw [hb] at hval hfmt
    simp only at hval hfmt ⊢
    rw [hfmt]
    cases hw : httpSend (Head (requestStart url) (requestLines url ops fresh)) extra d.output with
    | mk r rest =>
      obtain ⟨fw, w⟩ := rest
      rw [hw] at hsp
      rcases hsp with ⟨h0, h1, h2⟩ | ⟨e, pre, h0, _⟩
      · simp only at h0 h1 h2
        subst h0
        right
        revert hat
        cases (Framed.new ()).next (httpDecoder p) d.input with
        | mk x z =>
          obtain ⟨fr, s⟩ := z
          intro hat
          rcases hat with ⟨g1, g2⟩ | ⟨_, _, e, he, hfe⟩
          · simp only [hp] at g1 g2
            subst g1
            simp only
            revert hval
            cases b.validate ⟨v, ⟨code, reason⟩, Headers.fromRaw lines⟩ with
            | error e => intro h; exact ⟨_, rfl, h⟩
            | ok _ => intro h; exact ⟨_, rfl, h⟩
          · exact absurd hfe (hc e he)
      · simp only at h0
        subst h0
        exact Or.inl ⟨e, rfl, rfl⟩

theorem validate_ok [B64] {b : Builder} {fresh key : WsKey} (hk : (b.buildRequest fresh).2.headers.getKey = some key) {m : Response}
    (h : (b.buildRequest fresh).2.validate m = .ok ()) :
    m.subject.code = 101 ∧ ∀ lines, m.headers = .fromRaw lines → AcceptRight key lines ∧ UpgradeRight lines := by
  have hc : m.subject.code = 101 := by
    apply Classical.byContradiction; intro hn
    unfold Builder.validate at h
    rw [if_pos hn] at h
    split at h
    · split at h <;> cases h
    · cases h
  refine ⟨hc, fun lines hl => ?_⟩
  have := C34_accepts_exactly b fresh key hk m.version m.subject.code m.subject.reason lines
  rw [← hl] at this
  exact (this.mp h).2

/-- C34, any bytes at all: a client of `connect_on` stands at the beginning of the bytes after a response with status 101 whose lines
answer the key. -/
theorem C34_connected_only_if_valid [B64] (p : ResParser) (key fresh : WsKey) (url : Url) (ops : List BOp) (d : Duplex) (c : Client)
    (hk : (((Builder.init url).run ops).buildRequest fresh).2.headers.getKey = some key)
    (h : (((Builder.init url).run ops).connectOn p fresh d).1 = .client c) :
    ∃ m n, p.parse d.input.flat = .complete m n ∧ c.headers = m.headers ∧ c.pending = d.input.flat.drop n ∧ m.subject.code = 101 ∧
      ∀ lines, m.headers = .fromRaw lines → AcceptRight key lines ∧ UpgradeRight lines := by
  have hv := @validate_ok _ ((Builder.init url).run ops) fresh key hk
  replace h := connect_client' h
  unfold Builder.connectText at h
  cases hb : ((Builder.init url).run ops).buildRequest fresh with
  | mk resource b =>
    rw [hb] at h hv
    simp only at h hv
    split at h
    · cases h
    · next w hw =>
      have hcs := parseHead_conserves p (BufReader.new ({ d with output := w } : Duplex)) (new_wf _)
      cases hx : parseHead p (BufReader.new ({ d with output := w } : Duplex)) with
      | mk r reader =>
        rw [hx] at h hcs
        cases r with
        | error e => cases h
        | ok m =>
          simp only at h hcs
          split at h
          · cases h
          · next hval =>
            simp only [ConnectRes.client.injEq] at h
            subst h
            obtain ⟨-, n, q1, q2⟩ := hcs
            rw [new_window] at q1 q2
            exact ⟨m, n, q1, rfl, q2, hv hval⟩

/-! ### Async: any bytes -/

/-- Items come from a piece of what was buffered and what arrived. -/
def FromPiece {σ line ok} (p : HeadParser σ line ok) (all : Bytes) (m : HttpHead σ) : Prop :=
  ∃ head n, head <:+: all ∧ p.parse head = .complete m n

theorem decode_piece {σ line ok} (p : HeadParser σ line ok) (b : Bytes) :
    (httpDecoder p () b).2.2 <:+ b ∧ ∀ m, (httpDecoder p () b).1 = .ok (some m) → FromPiece p b m := by
  cases h : splitOffHttp b with
  | none => rw [decode_none p h]; exact ⟨List.suffix_rfl, fun m hm => by cases hm⟩
  | some x =>
    obtain ⟨head, rest⟩ := x
    rw [decode_head p h]
    have hb := (splitOff_iff.mp h).1
    refine ⟨⟨head, hb.symm⟩, fun m hm => ?_⟩
    unfold headAnswer at hm
    cases hp : p.parse head with
    | complete m' n =>
      rw [hp] at hm
      simp only [Res.ok.injEq, Option.some.injEq] at hm
      subst hm
      exact ⟨head, n, by rw [hb]; exact (List.prefix_append _ _).isInfix, hp⟩
    | error => rw [hp] at hm; cases hm
    | part => rw [hp] at hm; cases hm

theorem FromPiece.mono {σ line ok} {p : HeadParser σ line ok} {a b : Bytes} {m : HttpHead σ} (h : FromPiece p a m) (hab : a <:+: b) : FromPiece p b m := by
  obtain ⟨head, n, h1, h2⟩ := h
  exact ⟨head, n, h1.trans hab, h2⟩

theorem pollEof_piece {σ line ok} (p : HeadParser σ line ok) (fr : Framed Unit) :
    ∀ m, (fr.pollEof (httpDecoder p)).1 = .item m → FromPiece p fr.buf m := by
  intro m h
  obtain ⟨-, h2⟩ := decode_piece p fr.buf
  unfold Framed.pollEof at h
  cases hd : httpDecoder p fr.codec fr.buf with
  | mk r z =>
    obtain ⟨c, b⟩ := z
    have hd' : httpDecoder p () fr.buf = (r, c, b) := hd
    rw [hd'] at h2
    rw [hd] at h
    simp only at h h2
    split at h
    · next heq => cases heq; simp only [Item.item.injEq] at h; subst h; exact h2 _ rfl
    · simp only at h; split at h <;> cases h
    · cases h
    · cases h

theorem pollRead_piece {σ line ok} (p : HeadParser σ line ok) (s : Src) (fr : Framed Unit) :
    (∀ m, (fr.pollRead (httpDecoder p) s).1 = .ready (.item m) → FromPiece p (fr.buf ++ s.flat) m) ∧
    ∀ fr' s', fr.pollRead (httpDecoder p) s = (.notReady, fr', s') → fr'.buf ++ s'.flat <:+ fr.buf ++ s.flat := by
  induction s generalizing fr with
  | nil =>
    have := pollEof_piece p { fr with eof := true, readable := true }
    unfold Framed.pollRead
    refine ⟨fun m h => ?_, fun fr' s' h => (by cases h)⟩
    simp only [Poll.ready.injEq] at h
    simpa [Src.flat] using this m h
  | cons e rest ih =>
    cases e with
    | error k =>
      unfold Framed.pollRead
      split
      · refine ⟨fun m h => (by cases h), fun fr' s' h => ?_⟩
        cases h; exact List.suffix_rfl
      · exact ⟨fun m h => (by cases h), fun fr' s' h => (by cases h)⟩
    | chunk b =>
      unfold Framed.pollRead
      split
      · next hb =>
        have := pollEof_piece p { fr with eof := true, readable := true }
        refine ⟨fun m h => ?_, fun fr' s' h => (by cases h)⟩
        simp only [Poll.ready.injEq] at h
        exact (this m h).mono (List.prefix_append _ _).isInfix
      · obtain ⟨g1, g2⟩ := decode_piece p (fr.buf ++ b)
        have hpre : fr.buf ++ b <:+: fr.buf ++ Src.flat (.chunk b :: rest) := by
          simp only [Src.flat, ← List.append_assoc]; exact (List.prefix_append _ _).isInfix
        cases hd : httpDecoder p fr.codec (fr.buf ++ b) with
        | mk r z =>
          obtain ⟨c, b'⟩ := z
          have hd' : httpDecoder p () (fr.buf ++ b) = (r, c, b') := hd
          rw [hd'] at g1 g2
          simp only at g1 g2
          cases r with
          | ok o =>
            cases o with
            | some a =>
              refine ⟨fun m h => ?_, fun fr' s' h => (by cases h)⟩
              simp only [Poll.ready.injEq, Item.item.injEq] at h
              subst h
              exact (g2 _ rfl).mono hpre
            | none =>
              have := ih { fr with codec := c, buf := b', readable := false }
              have hsuf : b' ++ Src.flat rest <:+ fr.buf ++ Src.flat (.chunk b :: rest) := by
                obtain ⟨x, hx⟩ := g1
                exact ⟨x, by simp only [Src.flat]; rw [← List.append_assoc, hx, List.append_assoc]⟩
              exact ⟨fun m h => (this.1 m h).mono hsuf.isInfix, fun fr' s' h => (this.2 fr' s' h).trans hsuf⟩
          | err e => exact ⟨fun m h => (by cases h), fun fr' s' h => (by cases h)⟩
          | panic w => exact ⟨fun m h => (by cases h), fun fr' s' h => (by cases h)⟩

theorem poll_piece {σ line ok} (p : HeadParser σ line ok) (s : Src) (fr : Framed Unit) :
    (∀ m, (fr.poll (httpDecoder p) s).1 = .ready (.item m) → FromPiece p (fr.buf ++ s.flat) m) ∧
    ∀ fr' s', fr.poll (httpDecoder p) s = (.notReady, fr', s') → fr'.buf ++ s'.flat <:+ fr.buf ++ s.flat := by
  unfold Framed.poll
  split
  · split
    · have := pollEof_piece p fr
      refine ⟨fun m h => ?_, fun fr' s' h => (by cases h)⟩
      simp only [Poll.ready.injEq] at h
      exact (this m h).mono (List.prefix_append _ _).isInfix
    · obtain ⟨g1, g2⟩ := decode_piece p fr.buf
      cases hd : httpDecoder p fr.codec fr.buf with
      | mk r z =>
        obtain ⟨c, b'⟩ := z
        have hd' : httpDecoder p () fr.buf = (r, c, b') := hd
        rw [hd'] at g1 g2
        simp only at g1 g2
        cases r with
        | ok o =>
          cases o with
          | some a =>
            refine ⟨fun m h => ?_, fun fr' s' h => (by cases h)⟩
            simp only [Poll.ready.injEq, Item.item.injEq] at h
            subst h
            exact (g2 _ rfl).mono (List.prefix_append _ _).isInfix
          | none =>
            have := pollRead_piece p s { fr with codec := c, buf := b', readable := false }
            have hsuf : b' ++ Src.flat s <:+ fr.buf ++ Src.flat s := by
              obtain ⟨x, hx⟩ := g1
              exact ⟨x, by rw [← List.append_assoc, hx]⟩
            exact ⟨fun m h => (this.1 m h).mono hsuf.isInfix, fun fr' s' h => (this.2 fr' s' h).trans hsuf⟩
        | err e => exact ⟨fun m h => (by cases h), fun fr' s' h => (by cases h)⟩
        | panic w => exact ⟨fun m h => (by cases h), fun fr' s' h => (by cases h)⟩
  · exact pollRead_piece p s fr

theorem next_piece {σ line ok} (p : HeadParser σ line ok) (s : Src) (fr : Framed Unit) (m : HttpHead σ)
    (h : (fr.next (httpDecoder p) s).1 = .item m) : FromPiece p (fr.buf ++ s.flat) m := by
  generalize hlen : s.length = n
  induction n using Nat.strongRecOn generalizing s fr with
  | ind n ih =>
    obtain ⟨g1, g2⟩ := poll_piece p s fr
    rw [Framed.next] at h
    split at h
    · next x fr' s' hp =>
      simp only at h
      subst h
      rw [hp] at g1
      exact g1 m rfl
    · next fr' s' hp =>
      have := ih s'.length (by rw [← hlen]; exact Framed.poll_lt hp) s' fr' h rfl
      exact this.mono (g2 fr' s' hp).isInfix

/-- C34, any bytes at all, async: a client of `async_connect_on` has seen a response with status 101 whose lines answer the key; it is in the
bytes that arrived. -/
theorem C34_async_connected_only_if_valid [B64] (p : ResParser) (key fresh : WsKey) (url : Url) (ops : List BOp) (extra : Nat) (d : Duplex)
    (c : AsyncClient) (hk : (((Builder.init url).run ops).buildRequest fresh).2.headers.getKey = some key)
    (h : ((Builder.init url).run ops).asyncConnectOn p fresh extra d = .client c) :
    ∃ m head n, head <:+: d.input.flat ∧ p.parse head = .complete m n ∧ c.headers = m.headers ∧ m.subject.code = 101 ∧
      ∀ lines, m.headers = .fromRaw lines → AcceptRight key lines ∧ UpgradeRight lines := by
  have hv := @validate_ok _ ((Builder.init url).run ops) fresh key hk
  replace h := asyncConnect_client h
  unfold Builder.asyncConnectText at h
  cases hb : ((Builder.init url).run ops).buildRequest fresh with
  | mk resource b =>
    rw [hb] at h hv
    simp only at h hv
    split at h
    · next fw w hw =>
      have hn := next_piece p d.input (Framed.new ())
      cases hx : (Framed.new ()).next (httpDecoder p) d.input with
      | mk x z =>
        obtain ⟨fr, s⟩ := z
        rw [hx] at h hn
        cases x with
        | item m =>
          simp only at h
          split at h
          · next hval =>
            simp only [AsyncConnectRes.client.injEq] at h
            subst h
            obtain ⟨head, n, q1, q2⟩ := hn m rfl
            exact ⟨m, head, n, q1, q2, rfl, hv hval⟩
          · cases h
        | done => cases h
        | err e => cases h
        | panic w => cases h
    · cases h
    · cases h
    · cases h

/-! ## The server -/

/-- What a server makes of a request: the error, if any. -/
def refusal {B} : Except (IntoWsFail B) (Upgrade B) → Option IntoWsErr
  | .ok _ => none
  | .error f => some f.error

/-- C33, blocking: whatever GET request arrives, in any segments and with anything behind it, `into_ws` reports the first condition it fails, and hands
out an upgrade exactly if it fails none. -/
theorem C33_into_ws_reports [B64] (p : ReqParser) (v : HttpVersion) (uri : Bytes) (lines : List (Bytes × Bytes)) (d : Duplex) (x : Bytes)
    (hok : okReq v ⟨.get, uri⟩) (hs : Sendable lines) (hl : (Head (reqLine v ⟨.get, uri⟩) lines).length ≤ maxBufferSize)
    (hc : d.input.Chunks) (hf : d.input.flat = Head (reqLine v ⟨.get, uri⟩) lines ++ x) :
    FirstFailure (lineConditions .get v lines) (refusal (intoWs p d)) := by
  have hp := parse_lines p v ⟨.get, uri⟩ hok hs
  have hv := C33_first_failure .get v lines
  have h := parseHead_finds p (BufReader.new d) (new_wf d) rfl new_buf
    hc _ x _ hp hl (by rw [new_window]; exact hf)
  unfold intoWs
  cases hx : parseHead p (BufReader.new d) with
  | mk r reader =>
    rw [hx] at h
    simp only at h
    obtain ⟨rfl, -⟩ := h
    simp only [BufReader.intoParts]
    revert hv
    cases validate .get v (Headers.fromRaw lines) with
    | error e => exact id
    | ok _ => exact id

/-- C33, async. -/
theorem C33_async_into_ws_reports [B64] (p : ReqParser) (v : HttpVersion) (uri : Bytes) (lines : List (Bytes × Bytes)) (d : Duplex) (x : Bytes)
    (hok : okReq v ⟨.get, uri⟩) (hs : Sendable lines)
    (hc : ∀ e ∈ d.input, ¬ e.fails) (hf : d.input.flat = Head (reqLine v ⟨.get, uri⟩) lines ++ x) :
    FirstFailure (lineConditions .get v lines) (refusal (asyncIntoWs p d)) := by
  have hp := parse_lines p v ⟨.get, uri⟩ hok hs
  have hv := C33_first_failure .get v lines
  have hb : FirstBlank d.input.flat (Head (reqLine v ⟨.get, uri⟩) lines) x := by
    rw [hf]
    refine firstBlank_head (reqLine_ok _ _ hok).2.1 ?_ hs.1 x
    exact fun h => absurd ((reqLine_ok _ _ hok).2.2 _ h) (by decide)
  have ht := C42_any_transport_partial p d.input hb (by rw [hp]; simp)
  unfold asyncIntoWs
  revert ht
  cases (Framed.new ()).next (httpDecoder p) d.input with
  | mk r y =>
    obtain ⟨fr, s⟩ := y
    intro ht
    rcases ht with ⟨g1, g2⟩ | ⟨_, _, e, he, hfe⟩
    · simp only [hp] at g1 g2
      subst g1
      simp only
      revert hv
      cases validate .get v (Headers.fromRaw lines) with
      | error e => exact id
      | ok _ => exact id
    · exact absurd hfe (hc e he)

theorem conditions_hold [B64] {m : Method} {v : HttpVersion} {h : Headers} (hv : validate m v h = .ok ()) : ∀ c ∈ mapConditions m v h, c.1 := by
  have := C33_first_failure_map m v h
  rw [hv] at this
  exact (firstFailure_none _).mp this

/-- C33, any bytes at all: an upgrade has a request that stands at the beginning of the bytes and meets every condition. -/
theorem C33_upgraded_only_if_valid [B64] (p : ReqParser) (d : Duplex) (u : SyncUpgrade) (h : intoWs p d = .ok u) :
    ∃ n, p.parse d.input.flat = .complete u.request n ∧ unread u.buffer ++ u.stream.input.flat = d.input.flat.drop n ∧
      ∀ c ∈ mapConditions u.request.subject.method u.request.version u.request.headers, c.1 := by
  have h1 := C41_into_ws p d
  rw [h] at h1
  obtain ⟨n, q1, q2⟩ := h1
  refine ⟨n, q1, q2, conditions_hold ?_⟩
  unfold intoWs at h
  cases hx : parseHead p (BufReader.new d) with
  | mk request reader =>
    rw [hx] at h
    simp only [BufReader.intoParts] at h
    cases request with
    | error e => cases h
    | ok m =>
      simp only at h
      split at h
      · next hv => cases h; exact hv
      · cases h

/-- C33, any bytes at all, async. -/
theorem C33_async_upgraded_only_if_valid [B64] (p : ReqParser) (d : Duplex) (u : AsyncUpgrade) (h : asyncIntoWs p d = .ok u) :
    ∃ head n, head <:+: d.input.flat ∧ p.parse head = .complete u.request n ∧
      ∀ c ∈ mapConditions u.request.subject.method u.request.version u.request.headers, c.1 := by
  have hn := next_piece p d.input (Framed.new ())
  unfold asyncIntoWs at h
  cases hx : (Framed.new ()).next (httpDecoder p) d.input with
  | mk x z =>
    obtain ⟨fr, s⟩ := z
    rw [hx] at h hn
    cases x with
    | item m =>
      simp only at h
      split at h
      · next hv =>
        obtain ⟨head, n, q1, q2⟩ := hn m rfl
        cases h
        exact ⟨head, n, q1, q2, conditions_hold hv⟩
      · cases h
    | done => cases h
    | err e => cases h
    | panic w => cases h

/-- C33, requests parsed by hyper. -/
theorem C33_parsed_only_if_valid [B64] (d : Duplex) (request : Request) (buffer : Option Buffer) :
    FirstFailure (mapConditions request.subject.method request.version request.headers)
      (match intoWsParsed d request buffer with | .ok _ => none | .error e => some e.2.2) := by
  have := C33_first_failure_map request.subject.method request.version request.headers
  unfold intoWsParsed
  revert this
  cases validate request.subject.method request.version request.headers with
  | ok _ => exact id
  | error e => exact id

/-! ## Cases -/

/-- A redirection in two pieces with something behind it. -/
def redirection : Bytes := Head (resLine .http11 ⟨302, ascii "Found"⟩) [(ascii "Location", ascii "http://b/")] ++ [1, 2]

def redirectedPeer : Duplex := ⟨[.chunk (redirection.take 25), .chunk (redirection.drop 25)], ⟨[], []⟩⟩

theorem redirection_sendable : Sendable [(ascii "Location", ascii "http://b/")] := by
  refine ⟨fun e he => legalLine_of ?_, by decide +kernel⟩
  revert e
  decide +kernel

example : okRes .http11 ⟨302, ascii "Found"⟩ ∧ redirectedPeer.input.Chunks ∧ (∀ e ∈ redirectedPeer.input, ¬ e.fails) ∧
    redirectedPeer.input.flat = Head (resLine .http11 ⟨302, ascii "Found"⟩) [(ascii "Location", ascii "http://b/")] ++ [1, 2] := by
  refine ⟨⟨.inr rfl, by decide, by decide, by decide +kernel⟩, ?_, ?_, by decide +kernel⟩
  · intro e he
    simp only [redirectedPeer, List.mem_cons, List.not_mem_nil, or_false] at he
    rcases he with rfl | rfl
    · exact ⟨_, rfl, by decide +kernel⟩
    · exact ⟨_, rfl, by decide +kernel⟩
  · intro e he
    simp only [redirectedPeer, List.mem_cons, List.not_mem_nil, or_false] at he
    rcases he with rfl | rfl
    · simp only [Ev.fails]; decide +kernel
    · simp only [Ev.fails]; decide +kernel

/-- What `C34_connect_reports` says of it, run. -/
example : (match (@Builder.connectOn B64.strict resParser sampleKey redirectedPeer ((Builder.init sampleUrl).run sampleOps)).1.failure with
    | some (some (.redirect c loc)) => decide (c = 302 ∧ loc = ascii "http://b/") | _ => false) = true := by decide +kernel

example : @Verdict B64.strict sampleKey 302 [(ascii "Location", ascii "http://b/")] (some (.redirect 302 (ascii "http://b/"))) :=
  @Verdict.redirect B64.strict _ _ _ _ _ (by decide) (by decide)
    (Values.hit (v := ascii "http://b/") (k := 0) ((sameText_iff _ _).mpr (by decide +kernel)) (by decide +kernel) .nil) ⟨rfl, by decide +kernel, isUtf8_ascii (by decide +kernel)⟩

/-- A response whose accept value belongs to another key is refused, though everything else is right. -/
example : @Verdict B64.strict sampleKey 101 [(ascii "Upgrade", ascii "websocket"), (ascii "Connection", ascii "Upgrade"),
    (ascii "Sec-WebSocket-Accept", ascii "AAAAAAAAAAAAAAAAAAAAAAAAAAA=")] (some .accept) := by
  refine @Verdict.accept B64.strict _ _ _ rfl ?_
  rw [← @accept_iff B64.strict]
  decide +kernel

/-- A request that asks for version 12 is refused for that. -/
example : (match refusal (@intoWs B64.strict reqParser
      ⟨[.chunk (Head (reqLine .http11 ⟨.get, ascii "/"⟩) [(ascii "Host", ascii "h"), (ascii "Connection", ascii "Upgrade"), (ascii "Upgrade", ascii "websocket"),
        (ascii "Sec-WebSocket-Version", ascii "12"), (ascii "Sec-WebSocket-Key", ascii "AAAAAAAAAAAAAAAAAAAAAA==")])], ⟨[], []⟩⟩) with
    | some .unsupportedWebsocketVersion => true | _ => false) = true := by decide +kernel

example := @C34_connect_reports B64.strict resParser sampleKey sampleKey sampleUrl sampleOps .http11 302 (ascii "Found")
  [(ascii "Location", ascii "http://b/")] redirectedPeer [1, 2] sampleSendable.2 ⟨.inr rfl, by decide, by decide, by decide +kernel⟩ redirection_sendable
  (@sampleHasKey B64.strict) (by decide +kernel) (Src.chunks_of (by decide +kernel)) (by decide +kernel)
example := @C34_async_connect_reports B64.strict resParser sampleKey sampleKey sampleUrl sampleOps .http11 302 (ascii "Found")
  [(ascii "Location", ascii "http://b/")] 0 redirectedPeer [1, 2] sampleSendable.2 ⟨.inr rfl, by decide, by decide, by decide +kernel⟩ redirection_sendable
  (@sampleHasKey B64.strict) (Src.not_fails_of (by decide +kernel)) (by decide +kernel)
/-- `C34_connected_only_if_valid`, `C34_async_connected_only_if_valid`: this client does connect, blocking and async. -/
example : (∃ c, (@Builder.connectOn B64.strict resParser sampleKey sampleAnswered ((Builder.init sampleUrl).run sampleOps)).1 = .client c) ∧
    ∃ c, @Builder.asyncConnectOn B64.strict resParser sampleKey 0 sampleAnswered ((Builder.init sampleUrl).run sampleOps) = .client c :=
  ⟨ConnectRes.exists_client (by decide +kernel), AsyncConnectRes.exists_client (by decide +kernel)⟩

/-- Version 12 is asked for. -/
def versionTwelve : List (Bytes × Bytes) := [(ascii "Host", ascii "h"), (ascii "Connection", ascii "Upgrade"), (ascii "Upgrade", ascii "websocket"),
  (ascii "Sec-WebSocket-Version", ascii "12"), (ascii "Sec-WebSocket-Key", ascii "AAAAAAAAAAAAAAAAAAAAAA==")]
theorem versionTwelve_sendable : Sendable versionTwelve := by
  refine ⟨fun e he => legalLine_of ?_, by decide +kernel⟩
  revert e
  decide +kernel
def versionTwelvePeer : Duplex := ⟨[.chunk (Head (reqLine .http11 ⟨.get, ascii "/"⟩) versionTwelve), .chunk [1]], ⟨[], []⟩⟩
example := @C33_into_ws_reports B64.strict reqParser .http11 (ascii "/") versionTwelve versionTwelvePeer [1]
  ⟨.inr rfl, by decide, by decide +kernel⟩ versionTwelve_sendable (by decide +kernel) (Src.chunks_of (by decide +kernel)) (by decide +kernel)
example := @C33_async_into_ws_reports B64.strict reqParser .http11 (ascii "/") versionTwelve versionTwelvePeer [1]
  ⟨.inr rfl, by decide, by decide +kernel⟩ versionTwelve_sendable (Src.not_fails_of (by decide +kernel)) (by decide +kernel)
/-- `C33_upgraded_only_if_valid`, `C33_async_upgraded_only_if_valid`: a valid request is upgraded by both servers. -/
example : (∃ u, @intoWs B64.strict reqParser sampleAsked = .ok u) ∧ ∃ u, @asyncIntoWs B64.strict reqParser sampleAsked = .ok u :=
  ⟨ok_of_isOk (by decide +kernel), ok_of_isOk (by decide +kernel)⟩

end WS
