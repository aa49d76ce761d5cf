import Verif.Lemmas.Connection
import Verif.Lemmas.Dialogue
import Verif.Props.Prompt
import Verif.Model.Meeting
/-!
# The calls that open a connection: when they wait and when they return
-/

namespace WS
open Spec

theorem chunks_nil_of_flat {s : Src} (h : s.Chunks) (hf : s.flat = []) : s = [] := by
  cases s with
  | nil => rfl
  | cons e s =>
    obtain ⟨b, rfl, hb⟩ := h e List.mem_cons_self
    rw [Src.flat] at hf
    exact absurd (List.append_eq_nil_iff.mp hf).1 hb

theorem chunks_no_mark {s : Src} (h : s.Chunks) : mark ∉ s := by
  intro hm
  obtain ⟨b, hb, -⟩ := h _ hm
  cases hb

theorem left_append (s t : Src) : Src.left (s ++ t) = s.left ++ t.left := List.filter_append ..

theorem left_mark : Src.left [mark] = [] := by decide

/-- What is behind the bytes: nothing, or the mark. -/
def Marked (t : Src) : Prop := t = [] ∨ t = [mark]

theorem left_tail {s t : Src} (h : s.Chunks) (ht : Marked t) : Src.left (s ++ t) = s := by
  rw [left_append, left_chunks h]
  rcases ht with rfl | rfl
  · simp [Src.left]
  · rw [left_mark, List.append_nil]

theorem flat_tail {s t : Src} (ht : Marked t) : Src.flat (s ++ t) = s.flat := by
  induction s with
  | nil => rcases ht with rfl | rfl <;> rfl
  | cons e s ih => cases e <;> simp [Src.flat, ih]

/-! ## Waiting -/

/-- Reading a head of which a part has arrived gets to the mark. -/
theorem parseHead_waits {R} [HasSrc R] {σ line ok} (p : HeadParser σ line ok) {head : Bytes} {m : HttpHead σ} (hp : p.parse head = .complete m head.length)
    (hmax : head.length ≤ maxBufferSize) (n : Nat) : ∀ (b : BufReader R), (HasSrc.get b.inner).measure ≤ n → b.WF → b.pos = 0 → 0 < b.buf.length →
    (HasSrc.get b.inner).Chunks → (∃ z, z ≠ [] ∧ b.window ++ (HasSrc.get b.inner).flat ++ z = head) →
    ∃ e, (parseHead p (b.later [mark])).1 = .error e ∧ HasSrc.get (parseHead p (b.later [mark])).2.inner = [] := by
  induction n using Nat.strongRecOn with
  | ind n ih =>
    intro b hn hw hpos hbuf hc hz
    obtain ⟨z, hz0, hz⟩ := hz
    have hzl : 0 < z.length := List.length_pos_iff.mpr hz0
    have hlen := congrArg List.length hz
    simp only [List.length_append] at hlen
    have hpart : p.parse b.window = .part := by
      cases hx : p.parse b.window with
      | part => rfl
      | error =>
        have := p.error_mono _ ((HasSrc.get b.inner).flat ++ z) hx
        rw [← List.append_assoc, hz, hp] at this
        cases this
      | complete m' k =>
        have h2 := p.complete_len _ _ _ hx
        have := p.complete_mono _ _ _ ((HasSrc.get b.inner).flat ++ z) hx
        rw [← List.append_assoc, hz, hp] at this
        simp only [Parsed.complete.injEq] at this
        omega
    by_cases hne : (HasSrc.get b.inner).flat = []
    · have hs := chunks_nil_of_flat hc hne
      have hwl := window_length hw
      obtain ⟨m1, m3, m4, m5, m6, m7⟩ := maybeReserve_spec hw
      have hroom := m7 hbuf (by omega)
      have hr : (b.later [mark]).readIntoBuf = (.error .wouldBlock, { b.maybeReserve.later [mark] with inner := HasSrc.set (b.maybeReserve.later [mark]).inner [] }) := by
        unfold BufReader.readIntoBuf
        simp only [later_reserve]
        rw [if_pos (show (b.maybeReserve.later [mark]).cap < (b.maybeReserve.later [mark]).buf.length by
          show b.maybeReserve.cap < b.maybeReserve.buf.length; omega)]
        have : HasSrc.get (b.maybeReserve.later [mark]).inner = [mark] := by
          unfold BufReader.later
          rw [HasSrc.get_set, maybeReserve_inner, hs]; rfl
        rw [this]
        rfl
      rw [parseHead.eq_def, show (b.later [mark]).window = b.window from rfl, hpart]
      simp only
      split
      · next k b' h => rw [hr] at h; cases h; exact ⟨_, rfl, HasSrc.get_set _ _⟩
      · next k b' h => rw [hr] at h; cases h
    · obtain ⟨k, b', h1, h2, h3⟩ := readIntoBuf_progress hw hpos hbuf (by omega) hc hne
      have hs := readIntoBuf_spec hw
      rw [h1] at hs
      simp only at hs
      have hb' := readIntoBuf_prompt b b' [mark] _ h1 (by intro h; cases h; exact h2 rfl)
      have hm := readIntoBuf_measure h1 h2
      rw [parseHead.eq_def, show (b.later [mark]).window = b.window from rfl, hpart]
      simp only
      split
      · next k' b2 h => rw [hb'] at h; cases h
      · next k' b2 h =>
        rw [hb'] at h
        cases h
        rw [dif_neg h2]
        exact ih _ (by omega) b' (Nat.le_refl _) hs.1 (hs.2.1.trans hpos) (by omega) h3 ⟨z, hz0, by rw [hs.2.2.2.2]; exact hz⟩

theorem new_later (s : Src) (w : Sink) (t : Src) : BufReader.new (⟨s ++ t, w⟩ : Duplex) = (BufReader.new (⟨s, w⟩ : Duplex)).later t := rfl

/-- The same for the codec. -/
theorem next_waits {σ line ok} (p : HeadParser σ line ok) {head : Bytes} (hh : ∀ a z : Bytes, z ≠ [] → a ++ z = head → splitOffHttp a = none)
    (s : Src) (hc : s.Chunks) : ∀ (fr : Framed Unit), fr.readable = false → (∃ z, z ≠ [] ∧ fr.buf ++ s.flat ++ z = head) →
    (fr.next (httpDecoder p) (s ++ [mark])).2.2 = [] := by
  have key : ∀ (s : Src), s.Chunks → ∀ (fr : Framed Unit), (∃ z, z ≠ [] ∧ fr.buf ++ s.flat ++ z = head) →
      ∃ fr', fr.pollRead (httpDecoder p) (s ++ [mark]) = (.notReady, fr', []) := by
    intro s
    induction s with
    | nil => intro _ fr _; exact ⟨fr, rfl⟩
    | cons e s ih =>
      intro hc fr hz
      obtain ⟨b, rfl, hb⟩ := hc e List.mem_cons_self
      obtain ⟨z, hz0, hz⟩ := hz
      rw [Src.flat] at hz
      have hn : splitOffHttp (fr.buf ++ b) = none := hh _ (Src.flat s ++ z) (by simp [hz0]) (by rw [← hz]; simp)
      rw [List.cons_append, Framed.pollRead, if_neg hb, decode_none p hn]
      exact ih (fun e he => hc e (List.mem_cons_of_mem _ he)) _ ⟨z, hz0, by rw [← hz]; simp⟩
  intro fr hr hz
  obtain ⟨fr', h⟩ := key s hc fr hz
  have hpoll : fr.poll (httpDecoder p) (s ++ [mark]) = (.notReady, fr', []) := by
    unfold Framed.poll; rw [if_neg (by rw [hr]; decide)]; exact h
  rw [Framed.next]
  split
  · next h => rw [hpoll] at h; cases h
  · next h =>
    rw [hpoll] at h
    cases h
    exact List.suffix_nil.mp (next_suffix (httpDecoder p) _ [])

/-- Nothing shorter than a head has a blank line. -/
theorem cut_none {head : Bytes} (h : FirstBlank (head ++ []) head []) (a z : Bytes) (hz : z ≠ []) (ha : a ++ z = head) : splitOffHttp a = none := by
  rw [List.append_nil, ← ha] at h
  have h' : FirstBlank (a ++ z) head [] := by rw [← ha]; exact h
  rcases splitOff_prefix h' with ⟨r, h1, h2, h3⟩ | h3
  · have := congrArg List.length h1
    have := congrArg List.length ha
    have := List.length_pos_iff.mpr hz
    simp only [List.length_append] at *
    omega
  · exact h3

/-! ## The calls -/

/-- A call that opens a connection, on a transport whose output is `first`: it waits for `awaited`, having written `before`; when that has
arrived in full, it returns with a connection that hears what comes behind it, and by then it has written `after`. -/
structure Opens [B64] (preq : ReqParser) (pres : ResParser) (how : Opening) (first : Sink) (before after awaited : Bytes) (mask : Bool) (lim : Nat) : Prop where
  waits : ∀ (s : Src) (z : Bytes), s.Chunks → z ≠ [] → s.flat ++ z = awaited →
    (how.attempt preq pres ⟨s ++ [mark], first⟩).rest = [] ∧ (how.attempt preq pres ⟨s ++ [mark], first⟩).wrote.wire = before
  opens : ∀ (s t : Src) (y : Bytes), s.Chunks → s.flat = awaited ++ y → Marked t →
    (t = [mark] → mark ∈ (how.attempt preq pres ⟨s ++ t, first⟩).rest) ∧
    ∃ c, (how.attempt preq pres ⟨s ++ t, first⟩).line = some c ∧ c.ear.Good mask lim c.arrived ∧ c.ear.deaf = false ∧ c.ear.buf ++ c.arrived.flat = y ∧
      c.output.wire = after ∧ c.voice.Good (!mask) c.output

theorem src_left {b : BufReader Duplex} {s t : Src} (hi : b.inner.input = s ++ t) (hs : s.Chunks) (ht : Marked t) :
    b.src.left.Clean ∧ b.src.left.flat = b.window ++ s.flat := by
  unfold BufReader.src
  have hg : HasSrc.get b.inner = s ++ t := hi
  rw [hg]
  split
  · next h => rw [left_tail hs ht, h]; exact ⟨clean_of_chunks hs, rfl⟩
  · next h =>
    have : Src.left (.chunk b.window :: (s ++ t)) = .chunk b.window :: s := by
      rw [show (Ev.chunk b.window :: (s ++ t)) = [Ev.chunk b.window] ++ (s ++ t) from rfl, left_append, left_tail hs ht]
      rfl
    rw [this]
    exact ⟨⟨h, clean_of_chunks hs⟩, rfl⟩

/-- A blocking server. -/
theorem opens_server [B64] (preq : ReqParser) (pres : ResParser) (key : WsKey) (uri : Bytes) (lines : List (Bytes × Bytes))
    {custom : Option Headers} (htx : TextCustom custom) (ha : Asks key lines) (hu : Target uri) (hs : Sendable lines) (hl : (Head (getLine uri) lines).length ≤ maxBufferSize)
    (w : Sink) (hw : w.Willing) (h0 : w.wire = []) (sops : List UpgradeOp) (maxDf maxMsg : Nat) :
    Opens preq pres (.server (Upgrade.run · sops) custom maxDf maxMsg) w [] (head101 .http11 (responseLines sops custom key)) (Head (getLine uri) lines) true
      (min maxDf u32Max) := by
  have hok : okReq .http11 ⟨.get, uri⟩ := ⟨Or.inr rfl, hu.1, hu.2, rfl⟩
  have hp := parse_lines preq .http11 ⟨.get, uri⟩ hok hs
  rw [← getLine_eq] at hp
  refine ⟨fun s z hc hz hf => ?_, fun s t x hc hf ht => ?_⟩
  · have hwait := parseHead_waits preq hp hl _ (BufReader.new (⟨s, w⟩ : Duplex)) (Nat.le_refl _) (new_wf _) rfl new_buf hc ⟨z, hz, by rw [new_window]; exact hf⟩
    rw [← new_later] at hwait
    have hin := parseHead_inner preq (BufReader.new (⟨s ++ [mark], w⟩ : Duplex))
    unfold Opening.attempt intoWs
    cases hx : parseHead preq (BufReader.new (⟨s ++ [mark], w⟩ : Duplex)) with
    | mk r reader =>
      rw [hx] at hwait hin
      obtain ⟨e, rfl, h2⟩ := hwait
      obtain ⟨s', h3⟩ := hin
      simp only at h3
      simp only [BufReader.intoParts]
      refine ⟨h2, ?_⟩
      rw [h3]
      exact h0
  · obtain ⟨u, h1, h2, h3, h4, h5, h6⟩ := C35_server_takes preq key uri lines ⟨s, w⟩ x ha hu hs hl hc hf
    have hch := intoWs_chunks preq ⟨s, w⟩ _ x _ hp hl hc hf u h1
    have h1' := (C52_server_answers_at_once preq ⟨s, w⟩ t).1 u h1
    obtain ⟨-, h8⟩ := C35_server_answers { u with stream := u.stream.later t } key sops custom maxDf maxMsg h4 h3 htx
    have hv : u.request.version = .http11 := by rw [h2]
    simp only at h8
    rw [hv, show (u.stream.later t).output = w from h5] at h8
    have hwa := writeAll_willing (head101 .http11 (responseLines sops custom key)) w hw
    unfold Opening.attempt
    rw [show (⟨s ++ t, w⟩ : Duplex) = Duplex.later t ⟨s, w⟩ from rfl, h1']
    simp only
    refine ⟨fun h => by subst h; simp [Duplex.later], ?_⟩
    rcases h8 with ⟨k, hk, _⟩ | ⟨c, g1, g2, g3, g4, g5⟩
    · rw [hwa.1] at hk; cases hk
    · have hlm := C39_server_limits _ custom maxDf maxMsg c g1
      have hin := accept_input _ custom maxDf maxMsg c g1
      rw [(run_facts _ sops (by show Headers.Unique u.headers; rw [h4]; simp [Headers.Unique])).2.2.1] at hin
      have hin1 : c.stream.inner.input = u.stream.input ++ t := hin.1
      have hin2 : c.stream.inner.output.script <:+ w.script := by
        have e : u.stream.output = w := h5
        rw [← e]; exact hin.2
      rw [g1]
      obtain ⟨k1, k2⟩ := src_left hin1 hch ht
      refine ⟨_, rfl, ⟨⟨maxDf, maxMsg, receiver_eq hlm.1 g4, rfl⟩, k1⟩, rfl, ?_, ?_, g5, hw.suffix hin2⟩
      · show [] ++ c.stream.src.left.flat = x
        rw [List.nil_append, k2]
        have : c.pending = x := by
          rw [g3, show (u.stream.later t).input = u.stream.input ++ t from rfl, flat_tail ht]
          exact h6
        unfold Client.pending at this
        rw [hin1, flat_tail ht] at this
        exact this
      · show c.stream.inner.output.wire = _
        rw [g2, h0]; rfl

/-- A blocking client. -/
theorem opens_client [B64] (preq : ReqParser) (pres : ResParser) (key fresh : WsKey) (url : Url) (ops : List BOp) (lines : List (Bytes × Bytes))
    (htx : ∀ op ∈ ops, GivesText op) (ha : Answers key lines) (hs : Sendable lines) (hk : (((Builder.init url).run ops).buildRequest fresh).2.headers.getKey = some key)
    (hl : (head101 .http11 lines).length ≤ maxBufferSize) (w : Sink) (hw : w.Willing) (h0 : w.wire = []) :
    Opens preq pres (.client ((Builder.init url).run ops) fresh) w (Head (requestStart url) (requestLines url ops fresh))
      (Head (requestStart url) (requestLines url ops fresh)) (head101 .http11 lines) false (min (lastSet setsDf (100 * 2 ^ 20) ops) u32Max) := by
  have hp := parse_lines pres .http11 ⟨101, ascii "Switching Protocols"⟩ okRes101 hs
  rw [← resStart] at hp
  have hwa := writeAll_willing (Head (requestStart url) (requestLines url ops fresh)) w hw
  refine ⟨fun s z hc hz hf => ?_, fun s t y hc hf ht => ?_⟩
  · cases hx : Sink.writeAll (Head (requestStart url) (requestLines url ops fresh)) w with
    | mk r w' =>
      rw [hx] at hwa
      simp only at hwa
      obtain ⟨rfl, hwill⟩ := hwa
      have hwire := writeAll_ok hx
      have hwait := parseHead_waits pres hp hl _ (BufReader.new (⟨s, w'⟩ : Duplex)) (Nat.le_refl _) (new_wf _) rfl new_buf hc
        ⟨z, hz, by rw [new_window]; exact hf⟩
      rw [← new_later] at hwait
      have hin := parseHead_inner pres (BufReader.new (⟨s ++ [mark], w'⟩ : Duplex))
      have hd := request_data url ops fresh
      unfold Opening.attempt
      simp only [connect_text pres fresh _ _ (writable_request url ops htx fresh)]
      unfold Builder.connectText
      simp only [hd, hx]
      cases hy : parseHead pres (BufReader.new (⟨s ++ [mark], w'⟩ : Duplex)) with
      | mk r reader =>
        rw [hy] at hwait hin
        obtain ⟨e, rfl, h2⟩ := hwait
        obtain ⟨s', h3⟩ := hin
        simp only at h3
        simp only
        refine ⟨h2, ?_⟩
        rw [h3]
        show w'.wire = _
        rw [hwire, h0, List.nil_append]
  · rcases C35_client_takes pres key fresh url ops lines ⟨s, w⟩ y htx ha hs hk hl hc hf with ⟨k, hk', _⟩ | ⟨c, g1, g2, g3, g4, g5, g6⟩
    · rw [hwa.1] at hk'; cases hk'
    · have hlm := C39_client_limits_partial pres fresh ⟨s, w⟩ url ops c g1
      have hin := connectOn_chunks pres fresh _ ⟨s, w⟩ _ y _ hp hl hc hf c g1
      have h1 := C52_client_answers_at_once pres fresh ⟨s, w⟩ ((Builder.init url).run ops) t c _ (Prod.ext g1 rfl)
      unfold Opening.attempt
      rw [show (⟨s ++ t, w⟩ : Duplex) = Duplex.later t ⟨s, w⟩ from rfl]
      simp only [h1]
      have hin1 : (c.stream.later t).inner.input = c.stream.inner.input ++ t := rfl
      obtain ⟨k1, k2⟩ := src_left hin1 hin.1 ht
      refine ⟨fun h => by rw [hin1, h]; simp, _, rfl, ⟨⟨_, _, receiver_eq hlm.1 g5, rfl⟩, k1⟩, rfl, ?_, ?_, g6, hw.suffix hin.2⟩
      · show [] ++ (c.stream.later t).src.left.flat = y
        rw [List.nil_append, k2, ← g4]; rfl
      · show c.stream.inner.output.wire = _
        rw [g2, h0]; rfl

/-- An async server. -/
theorem opens_async_server [B64] (preq : ReqParser) (pres : ResParser) (key : WsKey) (uri : Bytes) (lines : List (Bytes × Bytes))
    {custom : Option Headers} (htx : TextCustom custom) (ha : Asks key lines) (hu : Target uri) (hs : Sendable lines)
    (w : Sink) (hw : w.Patient) (h0 : w.wire = []) (sops : List UpgradeOp) (maxDf maxMsg extra : Nat) :
    Opens preq pres (.asyncServer (Upgrade.run · sops) custom maxDf maxMsg extra) w [] (head101 .http11 (responseLines sops custom key)) (Head (getLine uri) lines) true
      (min maxDf u32Max) := by
  have hok : okReq .http11 ⟨.get, uri⟩ := ⟨Or.inr rfl, hu.1, hu.2, rfl⟩
  have hp := parse_lines preq .http11 ⟨.get, uri⟩ hok hs
  rw [← getLine_eq] at hp
  have hb : ∀ x, FirstBlank (Head (getLine uri) lines ++ x) (Head (getLine uri) lines) x := by
    refine firstBlank_head (by rw [getLine_eq]; exact (reqLine_ok _ _ hok).2.1) ?_ hs.1
    rw [getLine_eq]
    exact fun h => absurd ((reqLine_ok _ _ hok).2.2 _ h) (by decide)
  refine ⟨fun s z hc hz hf => ?_, fun s t x hc hf ht => ?_⟩
  · have hwait := next_waits preq (cut_none (hb [])) s hc (Framed.new ()) rfl ⟨z, hz, hf⟩
    unfold Opening.attempt asyncIntoWs
    revert hwait
    cases (Framed.new ()).next (httpDecoder preq) (s ++ [mark]) with
    | mk r q =>
      obtain ⟨fr, s'⟩ := q
      intro hwait
      simp only at hwait
      subst hwait
      cases r with
      | item msg =>
        simp only
        cases validate msg.subject.method msg.version msg.headers <;> exact ⟨rfl, h0⟩
      | done => exact ⟨rfl, h0⟩
      | err e => exact ⟨rfl, h0⟩
      | panic e => exact ⟨rfl, h0⟩
  · have hnf : ∀ e ∈ s, ¬ e.fails := by
      intro e he
      obtain ⟨b, rfl, hb⟩ := hc e he
      exact hb
    obtain ⟨u, h1, h2, h3, h4, h5, h6⟩ := C35_async_server_takes preq key uri lines ⟨s, w⟩ x ha hu hs hnf hf
    have hch := asyncIntoWs_input preq ⟨s, w⟩ u h1
    have hch' : u.stream.input.Chunks := fun e he => hc e (hch.mem he)
    have h1' := C52_async_server_answers_at_once_partial preq ⟨s, w⟩ t (head := Head (getLine uri) lines) (rest := x) hnf (by rw [hf]; exact hb x) (by rw [hp]; simp)
    rw [h1] at h1'
    simp only at h1'
    obtain ⟨-, h8⟩ := C35_async_server_answers { u with stream := u.stream.later t } key sops custom maxDf maxMsg extra h4 h3 htx
    have hv : u.request.version = .http11 := by rw [h2]
    simp only at h8
    rw [hv, show (u.stream.later t).output = w from h5] at h8
    have hwa := httpSend_patient (head101 .http11 (responseLines sops custom key)) extra w hw
    unfold Opening.attempt
    rw [show (⟨s ++ t, w⟩ : Duplex) = Duplex.later t ⟨s, w⟩ from rfl, h1']
    simp only
    refine ⟨fun h => by subst h; simp [Duplex.later], ?_⟩
    rcases h8 with ⟨k, hk, _⟩ | ⟨c, g1, g2, g3, g4, g5, g6⟩
    · rw [hwa] at hk; cases hk
    · have hlm := C39_async_server_limits _ custom maxDf maxMsg extra c g1
      obtain ⟨k1, k2, k3, codec, k4⟩ := asyncAccept_keeps _ custom maxDf maxMsg extra c g1
      rw [(run_facts _ sops (by show Headers.Unique u.headers; rw [h4]; simp [Headers.Unique])).2.2.1] at k1 k2
      have hin1 : c.stream.input = u.stream.input ++ t := k1
      have hin2 : c.stream.output.script <:+ w.script := by
        have e : u.stream.output = w := h5
        rw [← e]; exact k2
      have hcod : c.read.codec = MsgCodec.newWithLimits .server maxDf maxMsg := codec_eq hlm.1 hlm.2.1
      rw [g1]
      have har : c.stream.input.left = u.stream.input := by rw [hin1, left_tail hch' ht]
      refine ⟨_, rfl, ⟨⟨.server, maxDf, maxMsg, hcod, rfl, rfl⟩, ?_, ?_, ?_⟩, ?_, ?_, ?_, g6, hw.suffix hin2, k3, g3⟩
      · show c.stream.input.left.Chunks
        rw [har]; exact hch'
      · intro h
        have hbuf : c.read.buf = [] := by
          rw [k4] at h
          simpa [Framed.fromParts] using h
        rw [hbuf, hcod]
        exact decode_truncated _ _ _ (truncated_nil _ _)
      · rw [k4]; intro h; cases h
      · show c.read.eof = false
        rw [k4]; rfl
      · show c.read.buf ++ c.stream.input.left.flat = x
        rw [har]
        rw [hin1, flat_tail ht, show (u.stream.later t).input = u.stream.input ++ t from rfl, flat_tail ht] at g4
        rw [g4]; exact h6
      · show c.stream.output.wire = _
        rw [g2, h0]; rfl

/-- An async client. -/
theorem opens_async_client [B64] (preq : ReqParser) (pres : ResParser) (key fresh : WsKey) (url : Url) (ops : List BOp) (lines : List (Bytes × Bytes)) (extra : Nat)
    (htx : ∀ op ∈ ops, GivesText op) (ha : Answers key lines) (hs : Sendable lines) (hk : (((Builder.init url).run ops).buildRequest fresh).2.headers.getKey = some key)
    (w : Sink) (hw : w.Patient) (h0 : w.wire = []) :
    Opens preq pres (.asyncClient ((Builder.init url).run ops) fresh extra) w (Head (requestStart url) (requestLines url ops fresh))
      (Head (requestStart url) (requestLines url ops fresh)) (head101 .http11 lines) false (min (lastSet setsDf (100 * 2 ^ 20) ops) u32Max) := by
  have hp := parse_lines pres .http11 ⟨101, ascii "Switching Protocols"⟩ okRes101 hs
  have hb : ∀ x, FirstBlank (head101 .http11 lines ++ x) (head101 .http11 lines) x := by
    unfold head101
    rw [resStart]
    refine firstBlank_head (resLine_ok _ _ okRes101).2.1 ?_ hs.1
    exact fun h => absurd ((resLine_ok _ _ okRes101).2.2 _ h) (by decide)
  have hp' : pres.parse (head101 .http11 lines) =
      .complete ⟨.http11, ⟨101, ascii "Switching Protocols"⟩, .fromRaw lines⟩ (head101 .http11 lines).length := by
    unfold head101; rw [resStart]; exact hp
  have hwa := httpSend_patient (Head (requestStart url) (requestLines url ops fresh)) extra w hw
  refine ⟨fun s z hc hz hf => ?_, fun s t y hc hf ht => ?_⟩
  · have hwait := next_waits pres (cut_none (hb [])) s hc (Framed.new ()) rfl ⟨z, hz, hf⟩
    have hsp := httpSend_spec (Head (requestStart url) (requestLines url ops fresh)) extra w
    have hfmt := request_fmt url ops fresh
    cases hx : httpSend (Head (requestStart url) (requestLines url ops fresh)) extra w with
    | mk r q =>
      obtain ⟨fw, w'⟩ := q
      rw [hx] at hwa hsp
      simp only at hwa hsp
      subst hwa
      rcases hsp with ⟨-, hwire, hempty⟩ | ⟨e, pre, h, _⟩
      · have hw' : w'.wire = Head (requestStart url) (requestLines url ops fresh) := by rw [hwire, h0, List.nil_append]
        have hnp := next_no_panic (httpDecoder pres) (httpDecoder_no_panic pres) (Framed.new ()) (s ++ [mark])
        unfold Opening.attempt
        simp only [asyncConnect_text pres fresh extra _ _ (writable_request url ops htx fresh)]
        unfold Builder.asyncConnectText
        simp only [hfmt, hx]
        cases hy : (Framed.new ()).next (httpDecoder pres) (s ++ [mark]) with
        | mk r q =>
          obtain ⟨fr, s'⟩ := q
          rw [hy] at hwait hnp
          simp only at hwait hnp
          subst hwait
          cases r with
          | item msg =>
            simp only
            cases (((Builder.init url).run ops).buildRequest fresh).2.validate msg <;> exact ⟨rfl, hw'⟩
          | done => exact ⟨rfl, hw'⟩
          | err e => exact ⟨rfl, hw'⟩
          | panic e => exact absurd rfl (hnp e)
      · cases h
  · have hnf : ∀ e ∈ s, ¬ e.fails := by
      intro e he
      obtain ⟨b, rfl, hb⟩ := hc e he
      exact hb
    rcases C35_async_client_takes pres key fresh url ops lines extra ⟨s, w⟩ y htx ha hs hk hnf hf with
      ⟨k, hk', _⟩ | ⟨c, g1, g2, g3, g4, g5, g6, g7⟩
    · rw [hwa] at hk'; cases hk'
    · have hlm := C39_async_client_limits pres fresh extra ⟨s, w⟩ url ops c g1
      obtain ⟨k1, k2, k3, codec, k4⟩ := asyncConnectOn_keeps pres fresh extra _ ⟨s, w⟩ c g1
      have h1 := C52_async_client_answers_at_once_partial pres fresh extra ⟨s, w⟩ ((Builder.init url).run ops) t
        (head := head101 .http11 lines) (rest := y) hnf (by rw [hf]; exact hb y) (by rw [hp']; simp) c g1
      have hch : c.stream.input.Chunks := fun e he => hc e (k1.mem he)
      have hcod : c.read.codec = MsgCodec.newWithLimits .client (lastSet setsDf (100 * 2 ^ 20) ops) (lastSet setsMsg (200 * 2 ^ 20) ops) :=
        codec_eq hlm.1 hlm.2.1
      unfold Opening.attempt
      rw [show (⟨s ++ t, w⟩ : Duplex) = Duplex.later t ⟨s, w⟩ from rfl]
      simp only [h1]
      have har : (c.stream.later t).input.left = c.stream.input := left_tail hch ht
      refine ⟨fun h => by subst h; simp [Duplex.later], _, rfl, ⟨⟨.client, _, _, hcod, rfl, rfl⟩, ?_, ?_, ?_⟩, ?_, ?_, ?_, g7, hw.suffix k2, k3, g3⟩
      · show (c.stream.later t).input.left.Chunks
        rw [har]; exact hch
      · intro h
        have hbuf : c.read.buf = [] := by
          rw [k4] at h
          simpa [Framed.fromParts] using h
        rw [hbuf, hcod]
        exact decode_truncated _ _ _ (truncated_nil _ _)
      · rw [k4]; intro h; cases h
      · show c.read.eof = false
        rw [k4]; rfl
      · show c.read.buf ++ (c.stream.later t).input.left.flat = y
        rw [har, g5]
      · show c.stream.output.wire = _
        rw [g2, h0]; rfl

end WS
