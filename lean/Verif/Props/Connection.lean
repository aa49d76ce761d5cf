import Verif.Lemmas.Sample
import Verif.Lemmas.Connection
/-!
# C47: a whole connection, from the request to the last message

A client program and a server program, each blocking or async, joined by two byte streams: what one
writes is what the other reads, cut into pieces in any way. No byte is assumed about either stream
beyond that. The theorems say nothing about who waits for whom: the scripts are what the transports
had delivered by the time the programs were done, and the end of a script is the end of the stream.
-/

namespace WS
open Spec

/-- Blocking client, blocking server. -/
theorem C47_blocking_blocking [B64] (preq : ReqParser) (pres : ResParser) (url : Url) (ops : List BOp) (fresh key : WsKey)
    (sops : List UpgradeOp) (custom : Option Headers) (maxDf maxMsg : Nat) (cts sts : List Talk) (cd sd : Duplex)
    (ha : Asks key (requestLines url ops fresh))
    (hk : (((Builder.init url).run ops).buildRequest fresh).2.headers.getKey = some key)
    (hu : Target url.resource) (hs : SendableRequest url ops fresh)
    (hl : (Head (requestStart url) (requestLines url ops fresh)).length ≤ maxBufferSize)
    (hs' : SendableResponse sops custom key) (hl' : (head101 .http11 (responseLines sops custom key)).length ≤ maxBufferSize)
    (hc : ∀ p ∈ said cts, p.1.spec.Sendable (min maxDf u32Max))
    (hsm : ∀ p ∈ said sts, p.1.spec.Sendable (min (lastSet setsDf (100 * 2 ^ 20) ops) u32Max))
    (hcw : cd.output.Willing) (hsw : sd.output.Willing) (hc0 : cd.output.wire = []) (hs0 : sd.output.wire = [])
    (hci : cd.input.Chunks) (hsi : sd.input.Chunks)
    (hcs : sd.input.flat = (clientProgram pres fresh ((Builder.init url).run ops) cts cd).wire)
    (hsc : cd.input.flat = (serverProgram preq (Upgrade.run · sops) custom maxDf maxMsg sts sd).wire) :
    Converse cts sts (clientProgram pres fresh ((Builder.init url).run ops) cts cd)
      (serverProgram preq (Upgrade.run · sops) custom maxDf maxMsg sts sd) := by
  have hlc : min maxDf u32Max < 2 ^ 63 := Nat.lt_of_le_of_lt (Nat.min_le_right _ _) (by decide)
  have hls : min (lastSet setsDf (100 * 2 ^ 20) ops) u32Max < 2 ^ 63 := Nat.lt_of_le_of_lt (Nat.min_le_right _ _) (by decide)
  refine compose (req := Head (requestStart url) (requestLines url ops fresh)) (res := head101 .http11 (responseLines sops custom key))
    ?_ ?_ ?_ hc hsm
  · have := client_asks pres fresh url ops cts cd hs.2 hcw hlc hc
    rwa [hc0] at this
  · intro x hx
    have := server_end preq key url.resource (requestLines url ops fresh) sd x hs'.2 ha hu hs.1 hl hsi (by rw [hcs, hx]; rfl) hsw sops
      maxDf maxMsg sts hls hsm
    rwa [hs0] at this
  · intro y hy
    have := client_end pres key fresh url ops _ cd y hs.2 (response_answers sops custom key) hs'.1 hk hl' hci (by rw [hsc, hy]) hcw cts hlc hc
    rwa [hc0] at this

/-- Blocking client, async server. -/
theorem C47_blocking_async [B64] (preq : ReqParser) (pres : ResParser) (url : Url) (ops : List BOp) (fresh key : WsKey)
    (sops : List UpgradeOp) (custom : Option Headers) (maxDf maxMsg sextra : Nat) (cts sts : List Talk) (cd sd : Duplex)
    (ha : Asks key (requestLines url ops fresh))
    (hk : (((Builder.init url).run ops).buildRequest fresh).2.headers.getKey = some key)
    (hu : Target url.resource) (hs : SendableRequest url ops fresh)
    (hs' : SendableResponse sops custom key) (hl' : (head101 .http11 (responseLines sops custom key)).length ≤ maxBufferSize)
    (hc : ∀ p ∈ said cts, p.1.spec.Sendable (min maxDf u32Max))
    (hsm : ∀ p ∈ said sts, p.1.spec.Sendable (min (lastSet setsDf (100 * 2 ^ 20) ops) u32Max))
    (hcw : cd.output.Willing) (hsw : sd.output.Patient) (hc0 : cd.output.wire = []) (hs0 : sd.output.wire = [])
    (hci : cd.input.Chunks) (hsi : sd.input.Ready)
    (hcs : sd.input.flat = (clientProgram pres fresh ((Builder.init url).run ops) cts cd).wire)
    (hsc : cd.input.flat = (asyncServerProgram preq (Upgrade.run · sops) custom maxDf maxMsg sextra sts sd).wire) :
    Converse cts sts (clientProgram pres fresh ((Builder.init url).run ops) cts cd)
      (asyncServerProgram preq (Upgrade.run · sops) custom maxDf maxMsg sextra sts sd) := by
  have hlc : min maxDf u32Max < 2 ^ 63 := Nat.lt_of_le_of_lt (Nat.min_le_right _ _) (by decide)
  have hls : min (lastSet setsDf (100 * 2 ^ 20) ops) u32Max < 2 ^ 63 := Nat.lt_of_le_of_lt (Nat.min_le_right _ _) (by decide)
  refine compose (req := Head (requestStart url) (requestLines url ops fresh)) (res := head101 .http11 (responseLines sops custom key))
    ?_ ?_ ?_ hc hsm
  · have := client_asks pres fresh url ops cts cd hs.2 hcw hlc hc
    rwa [hc0] at this
  · intro x hx
    have := async_server_end preq key url.resource (requestLines url ops fresh) sd x hs'.2 ha hu hs.1 hsi (by rw [hcs, hx]; rfl) hsw sops
      maxDf maxMsg sextra sts hls hsm
    rwa [hs0] at this
  · intro y hy
    have := client_end pres key fresh url ops _ cd y hs.2 (response_answers sops custom key) hs'.1 hk hl' hci (by rw [hsc, hy]) hcw cts hlc hc
    rwa [hc0] at this

/-- Async client, blocking server. -/
theorem C47_async_blocking [B64] (preq : ReqParser) (pres : ResParser) (url : Url) (ops : List BOp) (fresh key : WsKey)
    (sops : List UpgradeOp) (custom : Option Headers) (maxDf maxMsg cextra : Nat) (cts sts : List Talk) (cd sd : Duplex)
    (ha : Asks key (requestLines url ops fresh))
    (hk : (((Builder.init url).run ops).buildRequest fresh).2.headers.getKey = some key)
    (hu : Target url.resource) (hs : SendableRequest url ops fresh)
    (hl : (Head (requestStart url) (requestLines url ops fresh)).length ≤ maxBufferSize)
    (hs' : SendableResponse sops custom key)
    (hc : ∀ p ∈ said cts, p.1.spec.Sendable (min maxDf u32Max))
    (hsm : ∀ p ∈ said sts, p.1.spec.Sendable (min (lastSet setsDf (100 * 2 ^ 20) ops) u32Max))
    (hcw : cd.output.Patient) (hsw : sd.output.Willing) (hc0 : cd.output.wire = []) (hs0 : sd.output.wire = [])
    (hci : cd.input.Ready) (hsi : sd.input.Chunks)
    (hcs : sd.input.flat = (asyncClientProgram pres fresh cextra ((Builder.init url).run ops) cts cd).wire)
    (hsc : cd.input.flat = (serverProgram preq (Upgrade.run · sops) custom maxDf maxMsg sts sd).wire) :
    Converse cts sts (asyncClientProgram pres fresh cextra ((Builder.init url).run ops) cts cd)
      (serverProgram preq (Upgrade.run · sops) custom maxDf maxMsg sts sd) := by
  have hlc : min maxDf u32Max < 2 ^ 63 := Nat.lt_of_le_of_lt (Nat.min_le_right _ _) (by decide)
  have hls : min (lastSet setsDf (100 * 2 ^ 20) ops) u32Max < 2 ^ 63 := Nat.lt_of_le_of_lt (Nat.min_le_right _ _) (by decide)
  refine compose (req := Head (requestStart url) (requestLines url ops fresh)) (res := head101 .http11 (responseLines sops custom key))
    ?_ ?_ ?_ hc hsm
  · have := async_client_asks pres fresh cextra url ops cts cd hs.2 hcw hlc hc
    rwa [hc0] at this
  · intro x hx
    have := server_end preq key url.resource (requestLines url ops fresh) sd x hs'.2 ha hu hs.1 hl hsi (by rw [hcs, hx]; rfl) hsw sops
      maxDf maxMsg sts hls hsm
    rwa [hs0] at this
  · intro y hy
    have := async_client_end pres key fresh url ops _ cextra cd y hs.2 (response_answers sops custom key) hs'.1 hk hci (by rw [hsc, hy]) hcw cts hlc hc
    rwa [hc0] at this

/-- Async client, async server. -/
theorem C47_async_async [B64] (preq : ReqParser) (pres : ResParser) (url : Url) (ops : List BOp) (fresh key : WsKey)
    (sops : List UpgradeOp) (custom : Option Headers) (maxDf maxMsg cextra sextra : Nat) (cts sts : List Talk) (cd sd : Duplex)
    (ha : Asks key (requestLines url ops fresh))
    (hk : (((Builder.init url).run ops).buildRequest fresh).2.headers.getKey = some key)
    (hu : Target url.resource) (hs : SendableRequest url ops fresh)
    (hs' : SendableResponse sops custom key)
    (hc : ∀ p ∈ said cts, p.1.spec.Sendable (min maxDf u32Max))
    (hsm : ∀ p ∈ said sts, p.1.spec.Sendable (min (lastSet setsDf (100 * 2 ^ 20) ops) u32Max))
    (hcw : cd.output.Patient) (hsw : sd.output.Patient) (hc0 : cd.output.wire = []) (hs0 : sd.output.wire = [])
    (hci : cd.input.Ready) (hsi : sd.input.Ready)
    (hcs : sd.input.flat = (asyncClientProgram pres fresh cextra ((Builder.init url).run ops) cts cd).wire)
    (hsc : cd.input.flat = (asyncServerProgram preq (Upgrade.run · sops) custom maxDf maxMsg sextra sts sd).wire) :
    Converse cts sts (asyncClientProgram pres fresh cextra ((Builder.init url).run ops) cts cd)
      (asyncServerProgram preq (Upgrade.run · sops) custom maxDf maxMsg sextra sts sd) := by
  have hlc : min maxDf u32Max < 2 ^ 63 := Nat.lt_of_le_of_lt (Nat.min_le_right _ _) (by decide)
  have hls : min (lastSet setsDf (100 * 2 ^ 20) ops) u32Max < 2 ^ 63 := Nat.lt_of_le_of_lt (Nat.min_le_right _ _) (by decide)
  refine compose (req := Head (requestStart url) (requestLines url ops fresh)) (res := head101 .http11 (responseLines sops custom key))
    ?_ ?_ ?_ hc hsm
  · have := async_client_asks pres fresh cextra url ops cts cd hs.2 hcw hlc hc
    rwa [hc0] at this
  · intro x hx
    have := async_server_end preq key url.resource (requestLines url ops fresh) sd x hs'.2 ha hu hs.1 hsi (by rw [hcs, hx]; rfl) hsw sops
      maxDf maxMsg sextra sts hls hsm
    rwa [hs0] at this
  · intro y hy
    have := async_client_end pres key fresh url ops _ cextra cd y hs.2 (response_answers sops custom key) hs'.1 hk hci (by rw [hsc, hy]) hcw cts hlc hc
    rwa [hc0] at this

/-! ## The hypotheses are met -/

/-- The client pings, listens twice and says goodbye; the server listens, answers and listens twice. -/
def sampleClientTalk : List Talk :=
  [.say (.ping [7]) ⟨1, 2, 3, 4⟩ 0, .hear, .hear, .say (.close (some ⟨1000, [98, 121, 101]⟩)) ⟨5, 6, 7, 8⟩ 0]
def sampleServerTalk : List Talk :=
  [.hear, .say (.pong [7]) ⟨0, 0, 0, 0⟩ 0, .say (.text [72, 105]) ⟨0, 0, 0, 0⟩ 0, .hear, .hear]

/-- What the server reads: the request and two masked frames, in three pieces. -/
def sampleServerSide : Duplex :=
  let bs := Head (requestStart sampleUrl) (requestLines sampleUrl sampleOps sampleKey) ++
    [0x89, 0x81, 1, 2, 3, 4, 6] ++ [0x88, 0x85, 5, 6, 7, 8, 6, 0xee, 0x65, 0x71, 0x60]
  ⟨[.chunk (bs.take 40), .chunk ((bs.drop 40).take 150), .chunk ((bs.drop 40).drop 150)], ⟨[], [.accept 10, .error .interrupted]⟩⟩

/-- What the client reads: the answer and two frames, in two pieces. -/
def sampleClientSide : Duplex :=
  let bs := head101 .http11 (responseLines [.useProtocol (ascii "chat")] none sampleKey) ++ [0x8a, 1, 7, 0x81, 2, 72, 105]
  ⟨[.chunk (bs.take 30), .chunk (bs.drop 30)], ⟨[], [.accept 1]⟩⟩

theorem sampleResponse : SendableResponse [.useProtocol (ascii "chat")] none sampleKey := by
  refine ⟨⟨fun e he => legalLine_of ?_, by decide +kernel⟩, textCustom_none⟩
  revert e
  decide +kernel

/-- Two concrete programs whose streams fit together; what they hear is computed. -/
example : let c := @clientProgram B64.strict resParser sampleKey ((Builder.init sampleUrl).run sampleOps) sampleClientTalk sampleClientSide
    let s := @serverProgram B64.strict reqParser (Upgrade.run · [.useProtocol (ascii "chat")]) none 125 1000 sampleServerTalk sampleServerSide
    sampleServerSide.input.flat = c.wire ∧ sampleClientSide.input.flat = s.wire ∧
      c.heard = [.message (.pong [7]), .message (.text [72, 105])] ∧
      s.heard = [.message (.ping [7]), .message (.close (some ⟨1000, [98, 121, 101]⟩)), .ended] := by
  decide +kernel

example : (∀ p ∈ said sampleClientTalk, p.1.spec.Sendable (min 125 u32Max)) ∧ (∀ p ∈ said sampleServerTalk, p.1.spec.Sendable 125) := by
  refine ⟨?_, ?_⟩ <;> intro p hp <;> simp only [sampleClientTalk, sampleServerTalk, said, List.mem_cons, List.not_mem_nil, or_false] at hp
  · rcases hp with rfl | rfl
    · exact ⟨by decide, by decide⟩
    · exact ⟨(utf8Valid_iff _).mp (by decide +kernel), by decide, by decide⟩
  · rcases hp with rfl | rfl
    · exact ⟨by decide, by decide⟩
    · exact ⟨(utf8Valid_iff _).mp (by decide +kernel), by decide⟩

theorem sampleClientTalk_sendable : ∀ p ∈ said sampleClientTalk, p.1.spec.Sendable (min 125 u32Max) := by
  intro p hp
  simp only [sampleClientTalk, said, List.mem_cons, List.not_mem_nil, or_false] at hp
  rcases hp with rfl | rfl
  · exact ⟨by decide, by decide⟩
  · exact ⟨(utf8Valid_iff _).mp (by decide +kernel), by decide, by decide⟩
theorem sampleServerTalk_sendable : ∀ p ∈ said sampleServerTalk, p.1.spec.Sendable (min (lastSet setsDf (100 * 2 ^ 20) sampleOps) u32Max) := by
  intro p hp
  simp only [sampleServerTalk, said, List.mem_cons, List.not_mem_nil, or_false] at hp
  rcases hp with rfl | rfl
  · exact ⟨by decide, by decide⟩
  · exact ⟨(utf8Valid_iff _).mp (by decide +kernel), by decide⟩

/-- The same two programs over transports that an async end can use. -/
def sampleServerSide' : Duplex := ⟨.error .wouldBlock :: sampleServerSide.input, ⟨[], [.accept 10, .error .wouldBlock]⟩⟩
def sampleClientSide' : Duplex := ⟨.error .wouldBlock :: sampleClientSide.input, ⟨[], [.accept 1, .error .wouldBlock]⟩⟩

example := @C47_blocking_blocking B64.strict reqParser resParser sampleUrl sampleOps sampleKey sampleKey [.useProtocol (ascii "chat")] none 125 1000
  sampleClientTalk sampleServerTalk sampleClientSide sampleServerSide sampleAsks (@sampleHasKey B64.strict) sampleTarget sampleSendable (by decide +kernel)
  sampleResponse (by decide +kernel) sampleClientTalk_sendable sampleServerTalk_sendable (Sink.willing_of rfl) (Sink.willing_of rfl) rfl rfl
  (Src.chunks_of (by decide +kernel)) (Src.chunks_of (by decide +kernel)) (by decide +kernel) (by decide +kernel)
example := @C47_blocking_async B64.strict reqParser resParser sampleUrl sampleOps sampleKey sampleKey [.useProtocol (ascii "chat")] none 125 1000 0
  sampleClientTalk sampleServerTalk sampleClientSide sampleServerSide' sampleAsks (@sampleHasKey B64.strict) sampleTarget sampleSendable
  sampleResponse (by decide +kernel) sampleClientTalk_sendable sampleServerTalk_sendable (Sink.willing_of rfl) (Sink.patient_of rfl) rfl rfl
  (Src.chunks_of (by decide +kernel)) (Src.ready_of (by decide +kernel)) (by decide +kernel) (by decide +kernel)
example := @C47_async_blocking B64.strict reqParser resParser sampleUrl sampleOps sampleKey sampleKey [.useProtocol (ascii "chat")] none 125 1000 0
  sampleClientTalk sampleServerTalk sampleClientSide' sampleServerSide sampleAsks (@sampleHasKey B64.strict) sampleTarget sampleSendable (by decide +kernel)
  sampleResponse sampleClientTalk_sendable sampleServerTalk_sendable (Sink.patient_of rfl) (Sink.willing_of rfl) rfl rfl
  (Src.ready_of (by decide +kernel)) (Src.chunks_of (by decide +kernel)) (by decide +kernel) (by decide +kernel)
example := @C47_async_async B64.strict reqParser resParser sampleUrl sampleOps sampleKey sampleKey [.useProtocol (ascii "chat")] none 125 1000 0 0
  sampleClientTalk sampleServerTalk sampleClientSide' sampleServerSide' sampleAsks (@sampleHasKey B64.strict) sampleTarget sampleSendable
  sampleResponse sampleClientTalk_sendable sampleServerTalk_sendable (Sink.patient_of rfl) (Sink.patient_of rfl) rfl rfl
  (Src.ready_of (by decide +kernel)) (Src.ready_of (by decide +kernel)) (by decide +kernel) (by decide +kernel)

end WS
