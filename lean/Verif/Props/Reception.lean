import Verif.Lemmas.Reception
import Verif.Props.Whole
import Verif.Props.Doorstep
/-!
# C85: examples/server.rs, whoever calls

Whatever comes from the first byte of a connection on, in whatever pieces and at whatever times: what examples/server.rs writes, and whether and why it hangs up, is decided by the bytes that came.
-/

namespace WS
open Spec

section
variable [B64] {preq : ReqParser} {g : Given}

/-- C85: at any time the server has written no more than it owes: nothing if the bytes are no opening handshake; a 400 and nothing behind it if they are one that does not offer the protocol
`rust-websocket`; and else a 101 that selects it, the greeting, and the answers to the first messages that are heard in the bytes behind the request. -/
theorem C85_written (hg : g.server.wire = []) (hgw : g.server.Willing) (es : List Brings) :
    let h := (Host.start g).endures preq g es
    match reception preq (came es) with
    | .waits => h.wire = []
    | .drops => h.wire = []
    | .rejects x => h.wire = [] ∨ h.wire = x
    | .serves written rest => h.wire = [] ∨ h.wire = written ∨
        ∃ ms out, Course (hostHears rest) ms ∧ h.wire = written ++ out ∧ Says false (screen (ms.map OwnedMsg.spec)) out := by
  intro h
  have hs : HStage preq g (came es) h [] (finished es) := host_run hg hgw es
  generalize finished es = fin at hs
  generalize h = h at hs
  cases hs with
  | reading s w _ _ hc hf hl hw =>
    show match reception preq (came es) with
    | .waits => w.wire = []
    | .drops => w.wire = []
    | .rejects x => w.wire = [] ∨ w.wire = x
    | .serves written rest => _
    split
    · exact hw
    · exact hw
    · exact .inl hw
    · exact .inl hw
  | asked u _ _ key rest hh ho hk hr hc hi hl =>
    have hw : (Host.asked u fin).wire = [] := by show u.stream.output.wire = []; rw [ho, hg]
    split
    · exact hw
    · exact hw
    · exact .inl hw
    · exact .inl hw
  | serving t _ _ written rest hr h =>
    rw [hr]
    rcases h.says with ⟨-, -, -, h1⟩ | ⟨-, out, h1, h2⟩
    · exact .inr (.inl h1)
    · exact .inr (.inr ⟨_, out, h.course, h1, h2⟩)
  | dropped w _ _ hl h =>
    rcases h with ⟨hr, -, hw⟩ | ⟨hr, hw⟩ | ⟨x, hr, hw⟩
    · rw [hr]; exact hw
    · rw [hr]; exact hw
    · rw [hr]; exact .inr hw

/-- C85: and it does not hang up without reason. If it is gone, then the stream had ended before a request was there; or the bytes are no opening handshake; or the 400 has been written in full; or the
101, the greeting and the answers to what was heard have been, up to a Close, whose answer is the last thing written, or up to something that is no message, or up to the end of the stream. -/
theorem C85_gone (hg : g.server.wire = []) (hgw : g.server.Willing) (es : List Brings) :
    let h := (Host.start g).endures preq g es
    h.gone = true →
    match reception preq (came es) with
    | .waits => finished es = true ∧ h.wire = []
    | .drops => h.wire = []
    | .rejects x => h.wire = x
    | .serves written rest => ∃ ms out, Course (hostHears rest) ms ∧ h.wire = written ++ out ∧ Says false (screen (ms.map OwnedMsg.spec)) out ∧
        (Parted ms ∨ hostHears rest ms.length = .failed ∨ (hostHears rest ms.length = .ended ∧ finished es = true)) := by
  intro h hgone
  have hs : HStage preq g (came es) h [] (finished es) := host_run hg hgw es
  generalize finished es = fin at hs ⊢
  generalize h = h at hs hgone
  cases hs with
  | reading s w _ _ hc hf hl hw => cases hgone
  | asked u _ _ key rest hh ho hk hr hc hi hl => cases hgone
  | serving t _ _ written rest hr h =>
    rw [hr]
    change t.ending.isSome = true at hgone
    rcases h.says with ⟨-, -, h0, h1⟩ | ⟨-, out, h1, h2⟩
    · rw [h0] at hgone; cases hgone
    · refine ⟨_, out, h.course, h1, h2, ?_⟩
      rcases Option.eq_none_or_eq_some t.ending with he | ⟨e, he⟩
      · rw [he] at hgone; cases hgone
      · by_cases hn : e = .returned
        · exact .inl (h.returned (hn ▸ he))
        · exact .inr (h.panicked e he hn).2
  | dropped w _ _ hl h =>
    rcases h with ⟨hr, hf, hw⟩ | ⟨hr, hw⟩ | ⟨x, hr, hw⟩
    · rw [hr]; exact ⟨hf, hw⟩
    · rw [hr]; exact hw
    · rw [hr]; exact hw

/-- C85: and it does all that it owes. When it has had turns enough behind what has come, then: as long as the request is not whole it waits, and hangs up if the stream has ended; what is no opening
handshake makes it hang up; a request without the protocol gets its 400; and else the 101, the greeting and the answer to every message in the bytes behind the request have been written, up to the first
Close or to where there is no further message. The connection is then kept open only if no Close and nothing that is no message has been met and the stream has not ended. -/
theorem C85_does (hg : g.server.wire = []) (hgw : g.server.Willing) (es : List Brings) : ∃ N, ∀ n, N ≤ n →
    let h := (Host.start g).endures preq g (es ++ List.replicate n .turn)
    match reception preq (came es) with
    | .waits => h.wire = [] ∧ h.gone = finished es
    | .drops => h.wire = [] ∧ h.gone = true
    | .rejects x => h.wire = x ∧ h.gone = true
    | .serves written rest => ∃ ms out, Course (hostHears rest) ms ∧ Exhausted (hostHears rest) ms ∧ h.wire = written ++ out ∧ Says false (screen (ms.map OwnedMsg.spec)) out ∧
        (h.gone = false ↔ ¬ Parted ms ∧ hostHears rest ms.length = .ended ∧ finished es = false) := by
  have hs : HStage preq g (came es) _ [] (finished es) := host_run hg hgw es
  obtain ⟨N, h', h1, h2, h3⟩ := host_rests hg hgw hs
  refine ⟨N, fun n hn => ?_⟩
  have hend : (Host.start g).endures preq g (es ++ List.replicate n .turn) = h' := by
    rw [endures_turns, show n = N + (n - N) by omega, turns_add, h1, turns_fixed h2]
  intro h
  have hh : h = h' := hend
  rw [hh]
  clear hh hend h h1 h2 hs
  generalize finished es = fin at h3 ⊢
  cases h3 with
  | waits s w hr hf hw => rw [hr, hf]; exact ⟨hw, rfl⟩
  | dropped w h =>
    rcases h with ⟨hr, hf, hw⟩ | ⟨hr, hw⟩ | ⟨x, hr, hw⟩
    · rw [hr, hf]; exact ⟨hw, rfl⟩
    · rw [hr]; exact ⟨hw, rfl⟩
    · rw [hr]; exact ⟨hw, rfl⟩
  | serving t written rest hr h he =>
    rw [hr]
    rcases he with he | ⟨h0, h4, h5, h6⟩
    · rcases h.says with ⟨-, -, h0, -⟩ | ⟨-, out, k1, k2⟩
      · rw [h0] at he; cases he
      · obtain ⟨e, hx⟩ := Option.isSome_iff_exists.mp he
        refine ⟨_, out, h.course, ?_, k1, k2, ?_⟩
        · by_cases hn : e = .returned
          · exact .inl (h.returned (hn ▸ hx))
          · right
            rcases (h.panicked e hx hn).2 with hy | ⟨hy, -⟩ <;> rw [hy] <;> nofun
        · show t.ending.isSome = false ↔ _
          rw [he]
          refine ⟨nofun, fun ⟨a, b, c⟩ => ?_⟩
          exfalso
          by_cases hn : e = .returned
          · exact a (h.returned (hn ▸ hx))
          · rcases (h.panicked e hx hn).2 with hy | ⟨-, hy⟩
            · rw [hy] at b; cases b
            · rw [hy] at c; cases c
    · rcases h.says with ⟨hx, -⟩ | ⟨-, out, k1, k2⟩
      · rw [h4] at hx; cases hx
      · refine ⟨_, out, h.course, .inr (by rw [h6]; nofun), k1, k2, ?_⟩
        show t.ending.isSome = false ↔ _
        rw [h0]
        exact ⟨fun _ => ⟨(h.goes h0).2.2, h6, h.ended ▸ h5⟩, fun _ => rfl⟩

/-- C85: so two runs of the server with peers that send the same bytes, both ending the stream or both not, come to the same: in the end they have written the same bytes and both hung up, or neither. It
does not matter how the bytes were cut, when they came, when the server had its turns, and how the transport took what it wrote. -/
theorem C85_deterministic {g' : Given} (hg : g.server.wire = []) (hgw : g.server.Willing) (hg' : g'.server.wire = []) (hgw' : g'.server.Willing) (es es' : List Brings)
    (hb : came es = came es') (hf : finished es = finished es') : ∃ N, ∀ n n', N ≤ n → N ≤ n' →
    let h := (Host.start g).endures preq g (es ++ List.replicate n .turn)
    let h' := (Host.start g').endures preq g' (es' ++ List.replicate n' .turn)
    h.wire = h'.wire ∧ h.gone = h'.gone := by
  obtain ⟨N, h⟩ := C85_does (preq := preq) hg hgw es
  obtain ⟨N', h'⟩ := C85_does (preq := preq) hg' hgw' es'
  refine ⟨N + N', fun n n' hn hn' => ?_⟩
  replace h := h n (by omega)
  replace h' := h' n' (by omega)
  rw [← hb, ← hf] at h'
  simp only at h h' ⊢
  generalize (Host.start g).endures preq g (es ++ List.replicate n .turn) = x at h ⊢
  generalize (Host.start g').endures preq g' (es' ++ List.replicate n' .turn) = y at h' ⊢
  cases hr : reception preq (came es) with
  | waits => rw [hr] at h h'; exact ⟨h.1.trans h'.1.symm, h.2.trans h'.2.symm⟩
  | drops => rw [hr] at h h'; exact ⟨h.1.trans h'.1.symm, h.2.trans h'.2.symm⟩
  | rejects z => rw [hr] at h h'; exact ⟨h.1.trans h'.1.symm, h.2.trans h'.2.symm⟩
  | serves written rest =>
    rw [hr] at h h'
    obtain ⟨ms, out, h1, h2, h3, h4, h5⟩ := h
    obtain ⟨ms', out', k1, k2, k3, k4, k5⟩ := h'
    obtain rfl := course_once h1 k1 h2 k2
    obtain rfl := says_once h4 k4
    refine ⟨h3.trans k3.symm, ?_⟩
    rw [← k5] at h5
    cases hx : x.gone <;> cases hy : y.gone <;> simp_all

theorem answer400 (v : HttpVersion) : head400 v [] = v.fmt ++ ascii " 400 Bad Request\r\n\r\n" := by
  have a : ascii " 400 Bad Request\r\n\r\n" = ascii " 400 Bad Request" ++ ascii "\r\n" ++ ascii "\r\n" := by decide +kernel
  rw [a]
  simp [head400, Head]

theorem answer101 (v : HttpVersion) (k : WsKey) : head101 v (responseLines [.useProtocol rustWebsocket] none k) =
    v.fmt ++ ascii " 101 Switching Protocols\r\nSec-WebSocket-Protocol: rust-websocket\r\nSec-WebSocket-Accept: " ++ (WsAccept.new k).serialize ++
      ascii "\r\nConnection: Upgrade\r\nUpgrade: websocket\r\n\r\n" := by
  have a : ascii " 101 Switching Protocols" ++ ascii "\r\n" ++ (nProtocol ++ ascii ": " ++ rustWebsocket ++ ascii "\r\n") ++ (nAccept ++ ascii ": ") =
      ascii " 101 Switching Protocols\r\nSec-WebSocket-Protocol: rust-websocket\r\nSec-WebSocket-Accept: " := by decide +kernel
  have b : ascii "\r\n" ++ (nConnection ++ ascii ": " ++ ascii "Upgrade" ++ ascii "\r\n") ++ (nUpgrade ++ ascii ": " ++ ascii "websocket" ++ ascii "\r\n") ++ ascii "\r\n" =
      ascii "\r\nConnection: Upgrade\r\nUpgrade: websocket\r\n\r\n" := by decide +kernel
  unfold head101
  rw [wholeAnswer_lines, ← a, ← b]
  generalize (WsAccept.new k).serialize = z
  simp only [Head, List.flatMap_cons, List.flatMap_nil, List.append_nil, List.append_assoc]

/-- C85: which bytes are answered, and how, byte for byte. The bytes begin with a head that is an opening handshake, and it does not offer `rust-websocket`: a 400 without header lines. It does: a 101
with this protocol, `Sec-WebSocket-Accept` for its key and the two lines that say the connection is upgraded; the talk begins with the byte behind the head. -/
theorem C85_answers (B x : Bytes) :
    (reception preq B = .rejects x ↔ ∃ m n, preq.parse (B.take (2 ^ 19)) = .complete m n ∧ (∀ c ∈ mapConditions m.subject.method m.version m.headers, c.1) ∧
      ascii "rust-websocket" ∉ m.headers.getProtocol.getD [] ∧ x = m.version.fmt ++ ascii " 400 Bad Request\r\n\r\n") ∧
    ∀ rest, reception preq B = .serves x rest ↔ ∃ m n key accept, preq.parse (B.take (2 ^ 19)) = .complete m n ∧ (∀ c ∈ mapConditions m.subject.method m.version m.headers, c.1) ∧
      m.headers.getKey = some key ∧ ascii "rust-websocket" ∈ m.headers.getProtocol.getD [] ∧ rest = B.drop n ∧ chars accept = acceptText (key.bytes.map UInt8.toNat) ∧
      x = m.version.fmt ++ ascii " 101 Switching Protocols\r\nSec-WebSocket-Protocol: rust-websocket\r\nSec-WebSocket-Accept: " ++ accept ++
        ascii "\r\nConnection: Upgrade\r\nUpgrade: websocket\r\n\r\n" := by
  have hrw : ascii "rust-websocket" = rustWebsocket := rfl
  rw [hrw]
  unfold reception
  split
  · next hp => exact ⟨⟨nofun, fun ⟨m, n, h, _⟩ => by rw [hp] at h; cases h⟩, fun rest => ⟨nofun, fun ⟨m, n, _, _, h, _⟩ => by rw [hp] at h; cases h⟩⟩
  · next hp =>
    refine ⟨⟨fun h => ?_, fun ⟨m, n, h, _⟩ => by rw [hp] at h; cases h⟩, fun rest => ⟨fun h => ?_, fun ⟨m, n, _, _, h, _⟩ => by rw [hp] at h; cases h⟩⟩ <;> split at h <;> cases h
  · next m n hp =>
    have hone : ∀ m' n', preq.parse (B.take (2 ^ 19)) = .complete m' n' → m' = m ∧ n' = n := by
      intro m' n' h; rw [hp] at h; cases h; exact ⟨rfl, rfl⟩
    split
    · next key hv hk =>
      have hc := conditions_hold hv
      split
      · next hin =>
        refine ⟨⟨nofun, ?_⟩, fun rest => ⟨fun h => ?_, ?_⟩⟩
        · rintro ⟨m', n', h1, -, h2, -⟩
          obtain ⟨rfl, rfl⟩ := hone m' n' h1
          exact absurd hin h2
        · rw [Reception.serves.injEq] at h
          exact ⟨m, n, key, (WsAccept.new key).serialize, hp, hc, hk, hin, h.2.symm, (whole_heads key).2.2, by rw [← h.1, answer101]⟩
        · rintro ⟨m', n', key', accept, h1, -, h2, -, h3, h4, h5⟩
          obtain ⟨rfl, rfl⟩ := hone m' n' h1
          rw [hk] at h2
          obtain rfl := Option.some.inj h2
          have : accept = (WsAccept.new key).serialize := chars_inj (h4.trans (whole_heads key).2.2.symm)
          rw [answer101, h3, h5, this]
      · next hin =>
        refine ⟨⟨fun h => ?_, ?_⟩, fun rest => ⟨nofun, ?_⟩⟩
        · rw [Reception.rejects.injEq] at h
          exact ⟨m, n, hp, hc, hin, by rw [← h, answer400]⟩
        · rintro ⟨m', n', h1, -, h2, h3⟩
          obtain ⟨rfl, rfl⟩ := hone m' n' h1
          rw [answer400, h3]
        · rintro ⟨m', n', key', accept, h1, -, -, h2, -⟩
          obtain ⟨rfl, rfl⟩ := hone m' n' h1
          exact absurd h2 hin
    · next hno =>
      have hbad : ¬ ∀ c ∈ mapConditions m.subject.method m.version m.headers, c.1 := by
        intro h
        have := firstFailure_unique _ (C33_first_failure_map m.subject.method m.version m.headers) ((firstFailure_none _).mpr h)
        have hv := (validate_ok_iff _ _ _).mpr this
        obtain ⟨key, hk⟩ := validate_key hv
        exact hno key hv hk
      refine ⟨⟨nofun, ?_⟩, fun rest => ⟨nofun, ?_⟩⟩
      · rintro ⟨m', n', h1, h2, -⟩
        obtain ⟨rfl, rfl⟩ := hone m' n' h1
        exact absurd h2 hbad
      · rintro ⟨m', n', key', accept, h1, h2, -⟩
        obtain ⟨rfl, rfl⟩ := hone m' n' h1
        exact absurd h2 hbad

end

/-! ## Concrete cases -/

/-- A caller that nobody here wrote: names in small letters, `rust-websocket` among others, … -/
def caller1 : Bytes := ascii "GET / HTTP/1.1\r\nupgrade: websocket\r\nconnection: upgrade\r\nsec-webso"
/-- See `caller1`. -/
def caller2 : Bytes := ascii "cket-version: 13\r\nsec-websocket-protocol: soap, rust-websocket\r\nsec-websocket-key: dGhlIHNhbXBsZSBub25jZQ==\r\n\r\n"
/-- … then a Ping, a text in two frames with a Pong in between, and a Close; … -/
def caller3 : Bytes := [0x89, 0x81, 1, 1, 1, 1, 6, 0x01, 0x81, 0, 0, 0, 0, 104, 0x8a, 0x80, 9]
/-- … and something behind it. -/
def caller4 : Bytes := [9, 9, 9, 0x80, 0x81, 0, 0, 0, 0, 105, 0x88, 0x82, 0, 0, 0, 0, 3, 0xe8, 0x81, 0x00]

def callerBytes : Bytes := caller1 ++ caller2 ++ caller3 ++ caller4

/-- The bytes come in pieces, and the server has a turn now and then. -/
def calls85 : List Brings := [.turn, .bytes caller1, .turn, .turn, .bytes caller2, .bytes caller3, .turn, .turn, .turn, .bytes caller4, .turn]

/-- They come all at once. -/
def call85 : List Brings := [.bytes callerBytes]

theorem caller_came : came calls85 = callerBytes ∧ came call85 = callerBytes := by
  constructor <;> simp [came, calls85, call85, callerBytes]

/-- What the caller is owed. -/
def callerAnswer : Bytes :=
  ascii "HTTP/1.1 101 Switching Protocols\r\nSec-WebSocket-Protocol: rust-websocket\r\nSec-WebSocket-Accept: s3pPLMBiTxaQ9kYGzzhZRbK+xOo=\r\nConnection: Upgrade\r\nUpgrade: websocket\r\n\r\n"

theorem caller_reception : @reception B64.strict reqParser callerBytes = .serves callerAnswer (caller3 ++ caller4) := by decide +kernel

theorem given_server : wholeGiven.server.wire = [] ∧ wholeGiven.server.Willing := ⟨rfl, Sink.willing_of rfl⟩

example : (@Host.endures B64.strict reqParser wholeGiven (Host.start wholeGiven) calls85).wire = [] ∨ (@Host.endures B64.strict reqParser wholeGiven (Host.start wholeGiven) calls85).wire = callerAnswer ∨
    ∃ ms out, Course (hostHears (caller3 ++ caller4)) ms ∧ (@Host.endures B64.strict reqParser wholeGiven (Host.start wholeGiven) calls85).wire = callerAnswer ++ out ∧
      Says false (screen (ms.map OwnedMsg.spec)) out := by
  have key := fun es => @C85_written B64.strict reqParser _ given_server.1 given_server.2 es
  generalize hes : calls85 = es
  have := key es
  rw [← hes, caller_came.1, caller_reception] at this
  rw [← hes]
  exact this

example : ∃ N, ∀ n, N ≤ n → ∃ ms out, Course (hostHears (caller3 ++ caller4)) ms ∧ Exhausted (hostHears (caller3 ++ caller4)) ms ∧
    (@Host.endures B64.strict reqParser wholeGiven (Host.start wholeGiven) (calls85 ++ List.replicate n .turn)).wire = callerAnswer ++ out ∧ Says false (screen (ms.map OwnedMsg.spec)) out := by
  have key : ∀ es, came es = callerBytes → _ := fun es _ => @C85_does B64.strict reqParser _ given_server.1 given_server.2 es
  generalize hes : calls85 = es
  have hc : came es = callerBytes := by rw [← hes]; exact caller_came.1
  obtain ⟨N, h⟩ := key es hc
  refine ⟨N, fun n hn => ?_⟩
  have := h n hn
  rw [hc, caller_reception] at this
  obtain ⟨ms, out, h1, h2, h3, h4, -⟩ := this
  exact ⟨ms, out, h1, h2, h3, h4⟩

example := @C85_deterministic B64.strict reqParser _ _ given_server.1 given_server.2 given_server.1 given_server.2 calls85 call85 (caller_came.1.trans caller_came.2.symm) rfl
example := ((@C85_answers B64.strict reqParser callerBytes callerAnswer).2 _).mp caller_reception

/-- The greeting, the Pong, the Pong that is sent back, the text, the Close; and what is behind the Close is not looked at. -/
def callerHears : Bytes := [0x81, 5] ++ ascii "Hello" ++ [0x8a, 1, 7, 0x8a, 0, 0x81, 2, 104, 105, 0x88, 0]

theorem caller_end : (let h := @Host.endures B64.strict reqParser wholeGiven (Host.start wholeGiven) (calls85 ++ List.replicate 4 .turn); (h.wire, h.gone)) = (callerAnswer ++ callerHears, true) := by
  decide +kernel

example : (let h := @Host.endures B64.strict reqParser wholeGiven (Host.start wholeGiven) (call85 ++ List.replicate 9 .turn); (h.wire, h.gone)) = (callerAnswer ++ callerHears, true) := by decide +kernel

theorem caller_gone : (@Host.endures B64.strict reqParser wholeGiven (Host.start wholeGiven) (calls85 ++ List.replicate 4 .turn)).gone = true := congrArg Prod.snd caller_end

example : ∃ ms, Course (hostHears (caller3 ++ caller4)) ms ∧ Says false (screen (ms.map OwnedMsg.spec)) callerHears ∧
    (Parted ms ∨ hostHears (caller3 ++ caller4) ms.length = .failed ∨ (hostHears (caller3 ++ caller4) ms.length = .ended ∧ finished (calls85 ++ List.replicate 4 .turn) = true)) := by
  have := @C85_gone B64.strict reqParser _ given_server.1 given_server.2 (calls85 ++ List.replicate 4 .turn) caller_gone
  rw [show came (calls85 ++ List.replicate 4 .turn) = callerBytes by simp [came, calls85, callerBytes, List.replicate], caller_reception] at this
  obtain ⟨ms, out, h1, h2, h3, h4⟩ := this
  rw [show (@Host.endures B64.strict reqParser wholeGiven (Host.start wholeGiven) (calls85 ++ List.replicate 4 .turn)).wire = _ from congrArg Prod.fst caller_end] at h2
  rw [List.append_cancel_left h2]
  exact ⟨ms, h1, h3, h4⟩

/-- Another caller does not offer the protocol: it is turned down, however much it talks. -/
def soap1 : Bytes := ascii "cket-version: 13\r\nsec-websocket-protocol: soap\r\nsec-websocket-key: dGhlIHNhbXBsZSBub25jZQ==\r\n\r\n"

theorem soap_reception : @reception B64.strict reqParser (caller1 ++ soap1 ++ caller3) = .rejects (ascii "HTTP/1.1 400 Bad Request\r\n\r\n") := by decide +kernel

example : (let h := @Host.endures B64.strict reqParser wholeGiven (Host.start wholeGiven) [.bytes caller1, .turn, .bytes soap1, .turn, .turn, .bytes caller3, .turn]; (h.wire, h.gone)) =
    (ascii "HTTP/1.1 400 Bad Request\r\n\r\n", true) := by decide +kernel

example := (@C85_answers B64.strict reqParser _ _).1.mp soap_reception

/-- A third sends something else, and a fourth does not come to the point. -/
example : @reception B64.strict reqParser rudeBytes = .drops ∧ @reception B64.strict reqParser caller1 = .waits := by
  constructor <;> decide +kernel

example : (let h := @Host.endures B64.strict reqParser wholeGiven (Host.start wholeGiven) [.bytes caller1, .turn, .finish, .turn]; (h.wire, h.gone)) = ([], true) ∧
    (let h := @Host.endures B64.strict reqParser wholeGiven (Host.start wholeGiven) [.bytes caller1, .turn, .turn]; (h.wire, h.gone)) = ([], false) := by
  constructor <;> decide +kernel

end WS
