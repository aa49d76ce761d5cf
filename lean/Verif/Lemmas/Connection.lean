import Verif.Lemmas.Talk
import Verif.Props.Handshake
/-!
# The four ends of a connection

One lemma per kind of end: if the transport delivers the other side's half of the handshake followed by
anything, the program connects, writes its half followed by the frames of what it says, and hears what
those bytes carry.
-/

namespace WS
open Spec

theorem clean_of_chunks {s : Src} (h : s.Chunks) : s.Clean := by
  induction s with
  | nil => trivial
  | cons e s ih =>
    obtain ⟨b, rfl, hb⟩ := h e List.mem_cons_self
    exact ⟨hb, ih fun e he => h e (List.mem_cons_of_mem _ he)⟩

theorem src_clean {b : BufReader Duplex} (h : b.inner.input.Chunks) : b.src.Clean := by
  unfold BufReader.src
  split
  · exact clean_of_chunks h
  · next hw => exact ⟨hw, clean_of_chunks h⟩

theorem ready_iff {s : Src} : s.Ready ↔ ∀ e ∈ s, ¬ e.fails := by
  induction s with
  | nil => simp [Src.Ready]
  | cons e s ih => cases e <;> simp [Src.Ready, Ev.fails, ih]

theorem receiver_eq {r : Receiver} {a b : Nat} {m : Bool} (h : HasLimits r a b) (hm : r.mask = m) :
    r = Receiver.newWithLimits m a b := by
  obtain ⟨h1, h2, h3⟩ := h
  cases r
  simp only at h1 h2 h3 hm
  subst h1 h2 h3 hm
  rfl

theorem codec_eq {c : MsgCodec} {a b : Nat} {ctx : Context} (h : HasAsyncLimits c a b) (hm : c.df.isServer = decide (ctx = .server)) :
    c = MsgCodec.newWithLimits ctx a b := by
  obtain ⟨h1, h2, h3⟩ := h
  obtain ⟨w, ⟨x, y⟩, z⟩ := c
  simp only at h1 h2 h3 hm
  subst h1 h2 h3 hm
  rfl

/-! ## Where the transport stands -/

theorem writeAll_suffix (bs : Bytes) (w : Sink) : (w.writeAll bs).2.script <:+ w.script := by
  fun_induction Sink.writeAll bs w with
  | case1 w => exact List.suffix_rfl
  | case2 => exact List.suffix_rfl
  | case3 bs _ wire s ih => exact ih.trans (List.suffix_cons _ _)
  | case4 => exact List.suffix_cons _ _
  | case5 => exact List.suffix_cons _ _
  | case6 bs _ wire n s h0 ih => exact ih.trans (List.suffix_cons _ _)

theorem pollComplete_suffix (fw : FramedWrite) (w : Sink) : (fw.pollComplete w).2.2.script <:+ w.script := by
  fun_induction FramedWrite.pollComplete fw w with
  | case1 => exact List.suffix_rfl
  | case2 => exact List.suffix_rfl
  | case3 => exact List.suffix_cons _ _
  | case4 => exact List.suffix_cons _ _
  | case5 => exact List.suffix_cons _ _
  | case6 fw _ wire n s h0 ih => exact ih.trans (List.suffix_cons _ _)

theorem drain_suffix (fw : FramedWrite) (w : Sink) : (fw.drain w).2.2.script <:+ w.script := by
  fun_induction FramedWrite.drain fw w with
  | case1 fw w fw' w' hp ih => have := pollComplete_suffix fw w; rw [hp] at this; exact ih.trans this
  | case2 fw w r fw' w' hne hp => have := pollComplete_suffix fw w; rw [hp] at this; exact this

theorem Sink.Willing.suffix {w w' : Sink} (h : w.Willing) (hs : w'.script <:+ w.script) : w'.Willing :=
  fun e he => h e (hs.mem he)

theorem Sink.Patient.suffix {w w' : Sink} (h : w.Patient) (hs : w'.script <:+ w.script) : w'.Patient :=
  fun e he => h e (hs.mem he)

theorem intoWs_chunks [B64] (p : ReqParser) (d : Duplex) (head x : Bytes) (m : Request) (hp : p.parse head = .complete m head.length)
    (hl : head.length ≤ maxBufferSize) (hc : d.input.Chunks) (hf : d.input.flat = head ++ x) (u : SyncUpgrade)
    (h : intoWs p d = .ok u) : u.stream.input.Chunks := by
  have hh := parseHead_finds p (BufReader.new d) (new_wf d) rfl new_buf hc _ x _ hp hl (by rw [new_window]; exact hf)
  unfold intoWs at h
  cases hx : parseHead p (BufReader.new d) with
  | mk r reader =>
    rw [hx] at hh h
    simp only at hh
    obtain ⟨rfl, h2, h3, h4⟩ := hh
    simp only [BufReader.intoParts] at h
    split at h
    · cases h; exact h3
    · cases h

theorem accept_input [B64] (u : SyncUpgrade) (custom : Option Headers) (maxDf maxMsg : Nat) (c : Client)
    (h : u.internalAcceptWithLimits custom maxDf maxMsg = .client c) :
    c.stream.inner.input = u.stream.input ∧ c.stream.inner.output.script <:+ u.stream.output.script := by
  have h1 : (u.addCustom custom).stream = u.stream := by
    unfold Upgrade.addCustom; split <;> rfl
  replace h := accept_client h
  unfold SyncUpgrade.acceptText Upgrade.prepareHeaders at h
  simp only at h
  cases hk : (u.addCustom custom).request.headers.getKey with
  | none => rw [hk] at h; cases h
  | some key =>
    rw [hk] at h
    simp only [Upgrade.sendText] at h
    split at h
    · cases h
    · next hs =>
      simp only [Prod.mk.injEq] at hs
      obtain ⟨hs1, rfl⟩ := hs
      simp only [AcceptRes.client.injEq] at h
      subst h
      simp only [Client.uncheckedWithLimits, h1]
      cases (u.addCustom custom).buffer <;> exact ⟨rfl, writeAll_suffix _ _⟩

theorem connectOn_chunks [B64] (p : ResParser) (fresh : WsKey) (b : Builder) (d : Duplex) (head y : Bytes) (m : Response)
    (hp : p.parse head = .complete m head.length) (hl : head.length ≤ maxBufferSize) (hc : d.input.Chunks)
    (hf : d.input.flat = head ++ y) (c : Client) (h : (b.connectOn p fresh d).1 = .client c) :
    c.stream.inner.input.Chunks ∧ c.stream.inner.output.script <:+ d.output.script := by
  replace h := connect_client' h
  unfold Builder.connectText at h
  simp only at h
  split at h
  · cases h
  · next w hw =>
    have hh := parseHead_finds p (BufReader.new ({ d with output := w } : Duplex)) (new_wf _) rfl new_buf hc _ y _ hp hl
      (by rw [new_window]; exact hf)
    have hin := parseHead_inner p (BufReader.new ({ d with output := w } : Duplex))
    split at h
    · cases h
    · next response reader hx =>
      rw [hx] at hh hin
      split at h
      · cases h
      · cases h
        refine ⟨hh.2.2.1, ?_⟩
        obtain ⟨s, hs⟩ := hin
        simp only at hs
        show reader.inner.output.script <:+ _
        rw [hs]
        have := writeAll_suffix (ascii "GET " ++ (b.buildRequest fresh).1 ++ [32] ++ (b.buildRequest fresh).2.version.fmt ++ crlf ++
          (b.buildRequest fresh).2.headers.fmt ++ crlf) d.output
        rw [hw] at this
        exact this

theorem next_suffix {σ α} (dec : Decoder σ α) (fr : Framed σ) (s : Src) : (fr.next dec s).2.2 <:+ s := by
  have hr : ∀ (s : Src) (fr : Framed σ), (fr.pollRead dec s).2.2 <:+ s := by
    intro s
    induction s with
    | nil => intro fr; exact List.suffix_rfl
    | cons e s ih =>
      intro fr
      cases e with
      | error k => unfold Framed.pollRead; split <;> exact List.suffix_cons _ _
      | chunk b =>
        unfold Framed.pollRead
        split
        · exact List.suffix_cons _ _
        · split
          · exact List.suffix_cons _ _
          · exact (ih _).trans (List.suffix_cons _ _)
          · exact List.suffix_cons _ _
          · exact List.suffix_cons _ _
  have hp : ∀ (fr : Framed σ) (s : Src), (fr.poll dec s).2.2 <:+ s := by
    intro fr s
    unfold Framed.poll
    split
    · split
      · exact List.suffix_rfl
      · split
        · exact List.suffix_rfl
        · exact hr _ _
        · exact List.suffix_rfl
        · exact List.suffix_rfl
    · exact hr _ _
  fun_induction Framed.next dec fr s with
  | case1 fr s x fr' s' h => have := hp fr s; rw [h] at this; exact this
  | case2 fr s fr' s' h ih => have := hp fr s; rw [h] at this; exact ih.trans this

theorem asyncIntoWs_input [B64] (p : ReqParser) (d : Duplex) (u : AsyncUpgrade) (h : asyncIntoWs p d = .ok u) :
    u.stream.input <:+ d.input := by
  have hs := next_suffix (httpDecoder p) (Framed.new ()) d.input
  unfold asyncIntoWs at h
  split at h
  next x fr s hx =>
    rw [hx] at hs
    split at h
    · split at h
      · cases h; exact hs
      · cases h
    · cases h
    · cases h
    · cases h

theorem httpSend_keeps (head : Bytes) (extra : Nat) (w : Sink) :
    (httpSend head extra w).2.2.script <:+ w.script ∧ (httpSend head extra w).2.1.buf.WF := by
  unfold httpSend
  refine ⟨drain_suffix _ _, ?_⟩
  have hwf : (FramedWrite.new true).buf.WF := by simp [FramedWrite.new, BytesMut.WF]
  exact (drain_spec _ w ((httpEncode_data head extra _).2 hwf)).2.2.2.2.2

theorem httpSend_eq_keeps {head : Bytes} {extra : Nat} {w w' : Sink} {r : SendRes} {fw : FramedWrite}
    (h : httpSend head extra w = (r, fw, w')) : w'.script <:+ w.script ∧ fw.buf.WF := by
  have := httpSend_keeps head extra w
  rw [h] at this
  exact this

theorem httpSend_patient (head : Bytes) (extra : Nat) (w : Sink) (h : w.Patient) : (httpSend head extra w).1 = .ready :=
  (drain_patient _ w h).1

theorem asyncAccept_keeps [B64] (u : AsyncUpgrade) (custom : Option Headers) (maxDf maxMsg extra : Nat) (c : AsyncClient)
    (h : u.internalAcceptWithLimits custom maxDf maxMsg extra = .client c) :
    c.stream.input = u.stream.input ∧ c.stream.output.script <:+ u.stream.output.script ∧ c.write.buf.WF ∧
      ∃ codec, c.read = Framed.fromParts codec c.read.buf := by
  have h1 : (u.addCustom custom).stream = u.stream := by
    unfold Upgrade.addCustom; split <;> rfl
  replace h := asyncAccept_client h
  unfold AsyncUpgrade.acceptText Upgrade.prepareHeaders at h
  simp only at h
  cases hk : (u.addCustom custom).request.headers.getKey with
  | none => rw [hk] at h; cases h
  | some key =>
    rw [hk] at h
    simp only at h
    split at h
    · next fw w hs =>
      have := httpSend_eq_keeps hs
      cases h
      rw [h1] at this
      refine ⟨by rw [h1], this.1, this.2, _, rfl⟩
    · cases h
    · cases h
    · cases h

theorem asyncConnectOn_keeps [B64] (p : ResParser) (fresh : WsKey) (extra : Nat) (b : Builder) (d : Duplex) (c : AsyncClient)
    (h : b.asyncConnectOn p fresh extra d = .client c) :
    c.stream.input <:+ d.input ∧ c.stream.output.script <:+ d.output.script ∧ c.write.buf.WF ∧
      ∃ codec, c.read = Framed.fromParts codec c.read.buf := by
  have hn := next_suffix (httpDecoder p) (Framed.new ()) d.input
  replace h := asyncConnect_client h
  unfold Builder.asyncConnectText at h
  simp only at h
  split at h
  · next fw w hs =>
    have := httpSend_eq_keeps hs
    split at h
    · split at h
      · cases h
        exact ⟨hn, this.1, this.2, _, rfl⟩
      · cases h
    · cases h
    · cases h
    · cases h
  · cases h
  · cases h
  · cases h

/-! ## The ends -/

/-- What one end does, given the half of the handshake it writes, and whether it masks. -/
structure End (o : Outcome) (before hello : Bytes) (masks : Bool) (ts : List Talk) : Prop where
  connected : o.connected = true
  sent : o.sent = (said ts).map fun _ => true
  wire : ∃ bs, o.wire = before ++ hello ++ bs ∧ Wire masks ((said ts).map fun p => p.1.view.spec) bs

theorem talk_sent (ts : List Talk) (c : Client) (hw : c.stream.WF) (hp : c.stream.inner.output.Willing) {lim : Nat}
    (hlim : lim < 2 ^ 63) (h : ∀ p ∈ said ts, p.1.spec.Sendable lim) :
    (c.talk ts).2.1 = (said ts).map (fun _ => true) ∧
      ∃ bs, (c.talk ts).2.2.stream.inner.output.wire = c.stream.inner.output.wire ++ bs ∧
        Wire c.sender.mask ((said ts).map fun p => p.1.view.spec) bs := by
  obtain ⟨-, h2, h3⟩ := talk_run ts c hw
  have hs := C26_sends_succeed c.sender (said ts) lim h c.stream.inner.output hp
  refine ⟨?_, ?_⟩
  · rw [h2, hs]; simp
  · rw [h3]
    refine sendMany_wire hlim c.sender (said ts) h _ ?_
    rw [hs]
    intro r hr
    simp only [List.mem_map] at hr
    obtain ⟨_, _, rfl⟩ := hr
    rfl

/-- A blocking server. -/
theorem server_end [B64] (p : ReqParser) (key : WsKey) (uri : Bytes) (lines : List (Bytes × Bytes)) (d : Duplex) (x : Bytes)
    {custom : Option Headers} (htx : TextCustom custom) (ha : Asks key lines) (hu : Target uri) (hs : Sendable lines) (hl : (Head (getLine uri) lines).length ≤ maxBufferSize)
    (hc : d.input.Chunks) (hf : d.input.flat = Head (getLine uri) lines ++ x) (hw : d.output.Willing)
    (sops : List UpgradeOp) (maxDf maxMsg : Nat) (ts : List Talk) {lim : Nat} (hlim : lim < 2 ^ 63)
    (ht : ∀ p ∈ said ts, p.1.spec.Sendable lim) :
    End (serverProgram p (Upgrade.run · sops) custom maxDf maxMsg ts d) d.output.wire
        (head101 .http11 (responseLines sops custom key)) false ts ∧
      ∀ ms : List OwnedMsg, (∀ m ∈ ms, m.spec.Sendable (min maxDf u32Max)) → Wire true (ms.map fun m => m.view.spec) x →
        (serverProgram p (Upgrade.run · sops) custom maxDf maxMsg ts d).heard = expected ms (hears ts) := by
  obtain ⟨u, h1, h2, h3, h4, h5, h6⟩ := C35_server_takes p key uri lines d x ha hu hs hl hc hf
  have hok : okReq .http11 ⟨.get, uri⟩ := ⟨Or.inr rfl, hu.1, hu.2, rfl⟩
  have hp := parse_lines p .http11 ⟨.get, uri⟩ hok hs
  rw [← getLine_eq] at hp
  have hch := intoWs_chunks p d _ x _ hp hl hc hf u h1
  obtain ⟨-, h8⟩ := C35_server_answers u key sops custom maxDf maxMsg h4 h3 htx
  rw [h5, h2] at h8
  have hwa := writeAll_willing (head101 .http11 (responseLines sops custom key)) d.output hw
  rcases h8 with ⟨k, hk, _⟩ | ⟨c, g1, g2, g3, g4, g5⟩
  · rw [hwa.1] at hk; cases hk
  · have hlm := C39_server_limits (u.run sops) custom maxDf maxMsg c g1
    have hwf := (C41_server p d u h1 sops custom maxDf maxMsg c g1).1
    have hin := accept_input (u.run sops) custom maxDf maxMsg c g1
    rw [(run_facts u sops (by rw [h4]; simp [Headers.Unique])).2.2.1, h5] at hin
    have hwill : c.stream.inner.output.Willing := hw.suffix hin.2
    have hprog : serverProgram p (Upgrade.run · sops) custom maxDf maxMsg ts d =
        ⟨true, (c.talk ts).2.2.stream.inner.output.wire, (c.talk ts).1, (c.talk ts).2.1⟩ := by
      unfold serverProgram; rw [h1]; simp only [g1]
    obtain ⟨t1, bs, t2, t3⟩ := talk_sent ts c hwf hwill hlim ht
    rw [hprog]
    refine ⟨⟨rfl, t1, bs, ?_, ?_⟩, ?_⟩
    · rw [t2, g2]
    · rw [← g5]; exact t3
    · intro ms hm hwx
      rw [(talk_run ts c hwf).1, receiver_eq hlm.1 g4]
      refine hear_blocking true maxDf maxMsg ms hm hwx _ (src_clean (by rw [hin.1]; exact hch)) ?_ _
      rw [C41_pending_read, g3, h6]

/-- A blocking client. -/
theorem client_end [B64] (p : ResParser) (key fresh : WsKey) (url : Url) (ops : List BOp) (lines : List (Bytes × Bytes))
    (d : Duplex) (y : Bytes) (htx : ∀ op ∈ ops, GivesText op) (ha : Answers key lines) (hs : Sendable lines)
    (hk : (((Builder.init url).run ops).buildRequest fresh).2.headers.getKey = some key)
    (hl : (head101 .http11 lines).length ≤ maxBufferSize) (hc : d.input.Chunks) (hf : d.input.flat = head101 .http11 lines ++ y)
    (hw : d.output.Willing) (ts : List Talk) {lim : Nat} (hlim : lim < 2 ^ 63) (ht : ∀ p ∈ said ts, p.1.spec.Sendable lim) :
    End (clientProgram p fresh ((Builder.init url).run ops) ts d) d.output.wire
        (Head (requestStart url) (requestLines url ops fresh)) true ts ∧
      ∀ ms : List OwnedMsg, (∀ m ∈ ms, m.spec.Sendable (min (lastSet setsDf (100 * 2 ^ 20) ops) u32Max)) →
        Wire false (ms.map fun m => m.view.spec) y →
        (clientProgram p fresh ((Builder.init url).run ops) ts d).heard = expected ms (hears ts) := by
  have hp := parse_lines p .http11 ⟨101, ascii "Switching Protocols"⟩ okRes101 hs
  rw [← resStart] at hp
  have hwa := writeAll_willing (Head (requestStart url) (requestLines url ops fresh)) d.output hw
  rcases C35_client_takes p key fresh url ops lines d y htx ha hs hk hl hc hf with ⟨k, hk', _⟩ | ⟨c, g1, g2, g3, g4, g5, g6⟩
  · rw [hwa.1] at hk'; cases hk'
  · have hlm := C39_client_limits_partial p fresh d url ops c g1
    have hwf := (C41_client p fresh d _ c g1).1
    have hin := connectOn_chunks p fresh _ d _ y _ hp hl hc hf c g1
    have hwill : c.stream.inner.output.Willing := hw.suffix hin.2
    have hprog : clientProgram p fresh ((Builder.init url).run ops) ts d =
        ⟨true, (c.talk ts).2.2.stream.inner.output.wire, (c.talk ts).1, (c.talk ts).2.1⟩ := by
      unfold clientProgram; rw [g1]
    obtain ⟨t1, bs, t2, t3⟩ := talk_sent ts c hwf hwill hlim ht
    rw [hprog]
    refine ⟨⟨rfl, t1, bs, ?_, ?_⟩, ?_⟩
    · rw [t2, g2]
    · rw [← g6]; exact t3
    · intro ms hm hwx
      rw [(talk_run ts c hwf).1, receiver_eq hlm.1 g5]
      refine hear_blocking false _ _ ms hm hwx _ (src_clean hin.1) ?_ _
      rw [C41_pending_read, g4]

/-- An async server. -/
theorem async_server_end [B64] (p : ReqParser) (key : WsKey) (uri : Bytes) (lines : List (Bytes × Bytes)) (d : Duplex) (x : Bytes)
    {custom : Option Headers} (htx : TextCustom custom) (ha : Asks key lines) (hu : Target uri) (hs : Sendable lines)
    (hc : d.input.Ready) (hf : d.input.flat = Head (getLine uri) lines ++ x) (hw : d.output.Patient)
    (sops : List UpgradeOp) (maxDf maxMsg extra : Nat) (ts : List Talk) {lim : Nat} (hlim : lim < 2 ^ 63)
    (ht : ∀ p ∈ said ts, p.1.spec.Sendable lim) :
    End (asyncServerProgram p (Upgrade.run · sops) custom maxDf maxMsg extra ts d) d.output.wire
        (head101 .http11 (responseLines sops custom key)) false ts ∧
      ∀ ms : List OwnedMsg, (∀ m ∈ ms, m.spec.Sendable (min maxDf u32Max)) → Wire true (ms.map fun m => m.view.spec) x →
        (asyncServerProgram p (Upgrade.run · sops) custom maxDf maxMsg extra ts d).heard = expected ms (hears ts) := by
  obtain ⟨u, h1, h2, h3, h4, h5, h6⟩ := C35_async_server_takes p key uri lines d x ha hu hs (ready_iff.mp hc) hf
  have hin := asyncIntoWs_input p d u h1
  obtain ⟨-, h8⟩ := C35_async_server_answers u key sops custom maxDf maxMsg extra h4 h3 htx
  rw [h5, h2] at h8
  have hwa := httpSend_patient (head101 .http11 (responseLines sops custom key)) extra d.output hw
  rcases h8 with ⟨k, hk, _⟩ | ⟨c, g1, g2, g3, g4, g5, g6⟩
  · rw [hwa] at hk; cases hk
  · have hlm := C39_async_server_limits (u.run sops) custom maxDf maxMsg extra c g1
    obtain ⟨k1, k2, k3, codec, k4⟩ := asyncAccept_keeps (u.run sops) custom maxDf maxMsg extra c g1
    rw [(run_facts u sops (by rw [h4]; simp [Headers.Unique])).2.2.1] at k1 k2
    rw [h5] at k2
    have hprog : asyncServerProgram p (Upgrade.run · sops) custom maxDf maxMsg extra ts d =
        ⟨true, (c.talk ts).2.2.stream.output.wire, (c.talk ts).1, (c.talk ts).2.1⟩ := by
      unfold asyncServerProgram; rw [h1]; simp only [g1]
    obtain ⟨t1, bs, t2, t3⟩ := async_talk_sent ts c (hw.suffix k2) k3 g3 hlim ht
    rw [hprog]
    refine ⟨⟨rfl, t1, bs, ?_, ?_⟩, ?_⟩
    · rw [t2, g2]
    · rw [g6] at t3; exact t3
    · intro ms hm hwx
      have hcod : codec = MsgCodec.newWithLimits .server maxDf maxMsg := by
        have : c.read.codec = codec := by rw [k4]; rfl
        rw [← this]; exact codec_eq hlm.1 hlm.2.1
      rw [async_talk_heard, k4, hcod]
      refine hear_async .server maxDf maxMsg ms hm hwx _ _ ?_ ?_ _
      · rw [k1]; exact ready_iff.mpr fun e he => ready_iff.mp hc e (hin.mem he)
      · rw [g4, h6]

/-- An async client. -/
theorem async_client_end [B64] (p : ResParser) (key fresh : WsKey) (url : Url) (ops : List BOp) (lines : List (Bytes × Bytes))
    (extra : Nat) (d : Duplex) (y : Bytes) (htx : ∀ op ∈ ops, GivesText op) (ha : Answers key lines) (hs : Sendable lines)
    (hk : (((Builder.init url).run ops).buildRequest fresh).2.headers.getKey = some key)
    (hc : d.input.Ready) (hf : d.input.flat = head101 .http11 lines ++ y)
    (hw : d.output.Patient) (ts : List Talk) {lim : Nat} (hlim : lim < 2 ^ 63) (ht : ∀ p ∈ said ts, p.1.spec.Sendable lim) :
    End (asyncClientProgram p fresh extra ((Builder.init url).run ops) ts d) d.output.wire
        (Head (requestStart url) (requestLines url ops fresh)) true ts ∧
      ∀ ms : List OwnedMsg, (∀ m ∈ ms, m.spec.Sendable (min (lastSet setsDf (100 * 2 ^ 20) ops) u32Max)) →
        Wire false (ms.map fun m => m.view.spec) y →
        (asyncClientProgram p fresh extra ((Builder.init url).run ops) ts d).heard = expected ms (hears ts) := by
  have hwa := httpSend_patient (Head (requestStart url) (requestLines url ops fresh)) extra d.output hw
  rcases C35_async_client_takes p key fresh url ops lines extra d y htx ha hs hk (ready_iff.mp hc) hf with
    ⟨k, hk', _⟩ | ⟨c, g1, g2, g3, g4, g5, g6, g7⟩
  · rw [hwa] at hk'; cases hk'
  · have hlm := C39_async_client_limits p fresh extra d url ops c g1
    obtain ⟨k1, k2, k3, codec, k4⟩ := asyncConnectOn_keeps p fresh extra _ d c g1
    have hprog : asyncClientProgram p fresh extra ((Builder.init url).run ops) ts d =
        ⟨true, (c.talk ts).2.2.stream.output.wire, (c.talk ts).1, (c.talk ts).2.1⟩ := by
      unfold asyncClientProgram; rw [g1]
    obtain ⟨t1, bs, t2, t3⟩ := async_talk_sent ts c (hw.suffix k2) k3 g3 hlim ht
    rw [hprog]
    refine ⟨⟨rfl, t1, bs, ?_, ?_⟩, ?_⟩
    · rw [t2, g2]
    · rw [g7] at t3; exact t3
    · intro ms hm hwx
      have hcod : codec = MsgCodec.newWithLimits .client (lastSet setsDf (100 * 2 ^ 20) ops) (lastSet setsMsg (200 * 2 ^ 20) ops) := by
        have : c.read.codec = codec := by rw [k4]; rfl
        rw [← this]; exact codec_eq hlm.1 hlm.2.1
      rw [async_talk_heard, k4, hcod]
      refine hear_async .client _ _ ms hm hwx _ _ ?_ ?_ _
      · exact ready_iff.mpr fun e he => ready_iff.mp hc e (k1.mem he)
      · rw [g5]

/-! ## Both ends -/

theorem compose {cts sts : List Talk} {c s : Outcome} {req res : Bytes} {cl sl : Nat}
    (hask : ∃ z, c.wire = req ++ z)
    (hserver : ∀ x, c.wire = req ++ x → End s [] res false sts ∧
      ∀ ms : List OwnedMsg, (∀ m ∈ ms, m.spec.Sendable sl) → Wire true (ms.map fun m => m.view.spec) x →
        s.heard = expected ms (hears sts))
    (hclient : ∀ y, s.wire = res ++ y → End c [] req true cts ∧
      ∀ ms : List OwnedMsg, (∀ m ∈ ms, m.spec.Sendable cl) → Wire false (ms.map fun m => m.view.spec) y →
        c.heard = expected ms (hears cts))
    (hc : ∀ p ∈ said cts, p.1.spec.Sendable sl) (hs : ∀ p ∈ said sts, p.1.spec.Sendable cl) : Converse cts sts c s := by
  obtain ⟨z, hz⟩ := hask
  obtain ⟨⟨s1, s2, bs, s3, s4⟩, s5⟩ := hserver z hz
  obtain ⟨⟨c1, c2, bc, c3, c4⟩, c5⟩ := hclient bs (by simpa using s3)
  have hzz : z = bc := by
    rw [hz] at c3
    simpa using c3
  subst hzz
  refine ⟨⟨c1, s1⟩, c2, s2, c5 _ ?_ (by simpa [Function.comp_def] using s4), s5 _ ?_ (by simpa [Function.comp_def] using c4)⟩
  · intro m hm; obtain ⟨p, hp, rfl⟩ := List.mem_map.mp hm; exact hs p hp
  · intro m hm; obtain ⟨p, hp, rfl⟩ := List.mem_map.mp hm; exact hc p hp

theorem client_asks [B64] (p : ResParser) (fresh : WsKey) (url : Url) (ops : List BOp) (ts : List Talk) (d : Duplex)
    (htx : ∀ op ∈ ops, GivesText op) (hw : d.output.Willing) {lim : Nat} (hlim : lim < 2 ^ 63) (ht : ∀ p ∈ said ts, p.1.spec.Sendable lim) :
    ∃ z, (clientProgram p fresh ((Builder.init url).run ops) ts d).wire =
      d.output.wire ++ Head (requestStart url) (requestLines url ops fresh) ++ z := by
  have hwa := writeAll_willing (Head (requestStart url) (requestLines url ops fresh)) d.output hw
  cases hx : Sink.writeAll (Head (requestStart url) (requestLines url ops fresh)) d.output with
  | mk r w =>
    rw [hx] at hwa
    simp only at hwa
    obtain ⟨rfl, hwill⟩ := hwa
    have hwire := writeAll_ok hx
    have key : ∀ r, (((Builder.init url).run ops).connectOn p fresh d).1 = r →
        (∃ d' e, r = .err (some d') e ∧ d'.output = w) ∨ ∃ c, r = .client c ∧ c.stream.inner.output = w := by
      intro r hr
      have hin := parseHead_inner p (BufReader.new ({ d with output := w } : Duplex))
      have hd := request_data url ops fresh
      rw [connect_text p fresh d _ (writable_request url ops htx fresh)] at hr
      unfold Builder.connectText at hr
      simp only [hd, hx] at hr
      split at hr
      · cases hr
        next reader hp =>
        rw [hp] at hin
        obtain ⟨s, hs⟩ := hin
        exact .inl ⟨_, _, rfl, by simp only at hs; rw [hs]; rfl⟩
      · next reader hp =>
        rw [hp] at hin
        obtain ⟨s, hs⟩ := hin
        simp only at hs
        split at hr
        · cases hr; exact .inl ⟨_, _, rfl, by rw [hs]; rfl⟩
        · cases hr
          refine .inr ⟨_, rfl, ?_⟩
          show reader.inner.output = w
          rw [hs]; rfl
    unfold clientProgram
    rcases key _ rfl with ⟨d', e, h1, h2⟩ | ⟨c, h1, h2⟩
    · rw [h1]; exact ⟨[], by simp only [h2, hwire, List.append_nil]⟩
    · rw [h1]
      have hwf := (C41_client p fresh d _ c h1).1
      obtain ⟨-, bs, t2, -⟩ := talk_sent ts c hwf (by rw [h2]; exact hwill) hlim ht
      exact ⟨bs, by simp only [t2, h2, hwire]⟩

theorem next_no_panic {σ α} (dec : Decoder σ α) (hd : ∀ c b w, (dec c b).1 ≠ .panic w) (fr : Framed σ) (s : Src) (w : String) :
    (fr.next dec s).1 ≠ .panic w := by
  have he : ∀ fr : Framed σ, (fr.pollEof dec).1 ≠ .panic w := by
    intro fr
    unfold Framed.pollEof
    have := hd fr.codec fr.buf w
    split
    · simp
    · split <;> simp
    · simp
    · next h => rw [h] at this; intro hc; cases hc; exact this rfl
  have hr : ∀ (s : Src) (fr : Framed σ), (fr.pollRead dec s).1 ≠ .ready (.panic w) := by
    intro s
    induction s with
    | nil => intro fr h; simp only [Framed.pollRead, Poll.ready.injEq] at h; exact he _ h
    | cons e s ih =>
      intro fr
      cases e with
      | error k => unfold Framed.pollRead; split <;> simp
      | chunk b =>
        unfold Framed.pollRead
        split
        · intro h; simp only [Poll.ready.injEq] at h; exact he _ h
        · have := hd fr.codec (fr.buf ++ b) w
          split
          · simp
          · exact ih _
          · simp
          · next h => rw [h] at this; intro hc; cases hc; exact this rfl
  have hp : ∀ (fr : Framed σ) (s : Src), (fr.poll dec s).1 ≠ .ready (.panic w) := by
    intro fr s
    unfold Framed.poll
    split
    · split
      · intro h; simp only [Poll.ready.injEq] at h; exact he _ h
      · have := hd fr.codec fr.buf w
        split
        · simp
        · exact hr _ _
        · simp
        · next h => rw [h] at this; intro hc; cases hc; exact this rfl
    · exact hr _ _
  fun_induction Framed.next dec fr s with
  | case1 fr s x fr' s' h => have := hp fr s; rw [h] at this; intro hc; exact this (by simp only at hc; rw [hc])
  | case2 fr s fr' s' h ih => exact ih

theorem httpDecoder_no_panic {σ line ok} (p : HeadParser σ line ok) (c : Unit) (b : Bytes) (w : String) :
    (httpDecoder p c b).1 ≠ .panic w := by
  unfold httpDecoder
  repeat' split
  all_goals simp

theorem async_client_asks [B64] (p : ResParser) (fresh : WsKey) (extra : Nat) (url : Url) (ops : List BOp) (ts : List Talk) (d : Duplex)
    (htx : ∀ op ∈ ops, GivesText op) (hw : d.output.Patient) {lim : Nat} (hlim : lim < 2 ^ 63) (ht : ∀ p ∈ said ts, p.1.spec.Sendable lim) :
    ∃ z, (asyncClientProgram p fresh extra ((Builder.init url).run ops) ts d).wire =
      d.output.wire ++ Head (requestStart url) (requestLines url ops fresh) ++ z := by
  have hwa := httpSend_patient (Head (requestStart url) (requestLines url ops fresh)) extra d.output hw
  have hsp := httpSend_spec (Head (requestStart url) (requestLines url ops fresh)) extra d.output
  have hsk := httpSend_keeps (Head (requestStart url) (requestLines url ops fresh)) extra d.output
  have hfmt := request_fmt url ops fresh
  cases hx : httpSend (Head (requestStart url) (requestLines url ops fresh)) extra d.output with
  | mk r q =>
    obtain ⟨fw, w⟩ := q
    rw [hx] at hwa hsp hsk
    simp only at hwa hsp hsk
    subst hwa
    rcases hsp with ⟨-, hwire, hempty⟩ | ⟨e, pre, h, _⟩
    · have key : ∀ r, ((Builder.init url).run ops).asyncConnectOn p fresh extra d = r →
          (∃ d' e, r = .err (some d') e ∧ d'.output = w) ∨
          ∃ c, r = .client c ∧ c.stream.output = w ∧ c.write.buf = fw.buf := by
        intro r hr
        have hnp := next_no_panic (httpDecoder p) (httpDecoder_no_panic p) (Framed.new ()) d.input
        rw [asyncConnect_text p fresh extra d _ (writable_request url ops htx fresh)] at hr
        unfold Builder.asyncConnectText at hr
        simp only [hfmt, hx] at hr
        split at hr
        · split at hr
          · cases hr; exact .inr ⟨_, rfl, rfl, rfl⟩
          · cases hr; exact .inl ⟨_, _, rfl, rfl⟩
        · cases hr; exact .inl ⟨_, _, rfl, rfl⟩
        · cases hr; exact .inl ⟨_, _, rfl, rfl⟩
        · next h => exact absurd h (hnp _)
      unfold asyncClientProgram
      rcases key _ rfl with ⟨d', e, h1, h2⟩ | ⟨c, h1, h2, h3⟩
      · rw [h1]; exact ⟨[], by simp only [h2, hwire, List.append_nil]⟩
      · rw [h1]
        obtain ⟨-, bs, t2, -⟩ := async_talk_sent ts c (by rw [h2]; exact hw.suffix hsk.1) (by rw [h3]; exact hsk.2)
          (by rw [h3]; exact hempty) hlim ht
        exact ⟨bs, by simp only [t2, h2, hwire]⟩
    · cases h

end WS
