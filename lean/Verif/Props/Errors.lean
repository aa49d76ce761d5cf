import Verif.Model.Errors
import Verif.Props.Target
import Verif.Props.Blame
/-!
# C66: an error tells what went wrong

Somebody who gets an error sees its text and the texts along its causes (`source`), and can match on its value. No conversion between
the error types may lose what was there to be seen. The texts of other crates and the table of reason phrases are left open.
-/

namespace WS
open Spec

/-- Everything about an error that is printed: its text, and its causes. -/
structure Shown where
  text : Bytes
  causes : List Cause
  deriving DecidableEq

/-- What is printed of a `WebSocketError`. -/
def WsError.shown (reason : Nat → Bytes) (e : WsError) : Shown := ⟨e.fmt reason, e.sources⟩

/-! ## A refused upgrade -/

/-- The text of a refused upgrade ends the text of what it is converted to, the causes stay the same, and the value can be got back. -/
theorem C66_upgrade_kept (reason : Nat → Bytes) :
    (∀ e : UpgradeError, (∃ pre, (towse .ofUpgrade e).fmt reason = pre ++ e.fmt) ∧ (towse .ofUpgrade e).sources = e.sources) ∧
    ∀ e e' : UpgradeError, towse .ofUpgrade e = towse .ofUpgrade e' → e = e' := by
  constructor
  · intro e
    refine ⟨?_, by cases e <;> rfl⟩
    have hp : ∀ m : Bytes, ∃ pre, ascii "WebSocketError: " ++ (OtherError.protocol m).fmt reason = pre ++ m :=
      fun m => ⟨ascii "WebSocketError: " ++ ascii "WebSocketError: ", by simp only [OtherError.fmt, List.append_assoc]⟩
    cases e with
    | io e => exact ⟨ascii "WebSocketError: " ++ ascii "WebSocket I/O error: ",
        by simp only [towse, WsError.ofOther, WsError.fmt, OtherError.ofUpgrade, OtherError.fmt, UpgradeError.fmt, List.append_assoc]⟩
    | parsing e => exact ⟨ascii "WebSocketError: " ++ ascii "WebSocket HTTP error: ",
        by simp only [towse, WsError.ofOther, WsError.fmt, OtherError.ofUpgrade, OtherError.fmt, UpgradeError.fmt, List.append_assoc]⟩
    | _ => exact hp _
  · intro e e' h
    simp only [towse, WsError.ofOther, WsError.other.injEq] at h
    cases e <;> cases e' <;> first
      | rfl
      | (simp only [OtherError.ofUpgrade, OtherError.io.injEq] at h; rw [h])
      | (simp only [OtherError.ofUpgrade, OtherError.http.injEq] at h; rw [h])
      | (exfalso; first | exact absurd (OtherError.protocol.inj h) (by decide +kernel) | cases h)

/-- The checks of the server's handshake that failed are told apart by their texts, and by the texts of what they are converted to. -/
theorem C66_refusals_distinct (reason : Nat → Bytes) (e e' : UpgradeError) (he : e.sources = []) (he' : e'.sources = [])
    (h : e.fmt = e'.fmt ∨ (towse .ofUpgrade e).fmt reason = (towse .ofUpgrade e').fmt reason) : e = e' := by
  have : e.fmt = e'.fmt := by
    refine h.elim id fun h => ?_
    cases e <;> cases e' <;> first | exact absurd he (List.cons_ne_nil _ _) | exact absurd he' (List.cons_ne_nil _ _) | exact (List.append_cancel_left (List.append_cancel_left h))
  clear h
  cases e <;> cases e' <;> first | rfl | exact absurd he (List.cons_ne_nil _ _) | exact absurd he' (List.cons_ne_nil _ _) | exact absurd this (by decide +kernel)

/-- The errors of the HTTP codec: text and causes are kept by the conversion for servers; the one for clients puts a heading before the
text; going through either keeps the value. -/
theorem C66_codec_kept (reason : Nat → Bytes) (e : CodecError) :
    (UpgradeError.ofCodec e).fmt = e.fmt ∧ (UpgradeError.ofCodec e).sources = e.sources ∧
    (∃ pre, (towse .ofCodec e).fmt reason = pre ++ e.fmt) ∧ (towse .ofCodec e).sources = e.sources ∧
    towse .ofUpgrade (.ofCodec e) = towse .ofCodec e ∧ ∀ e', towse .ofCodec e = towse .ofCodec e' → e = e' := by
  refine ⟨by cases e <;> rfl, by cases e <;> rfl, ?_, by cases e <;> rfl, by cases e <;> rfl, ?_⟩
  · cases e with
    | io e => exact ⟨ascii "WebSocketError: " ++ ascii "WebSocket I/O error: ",
        by simp only [towse, WsError.ofOther, WsError.fmt, OtherError.ofCodec, OtherError.fmt, CodecError.fmt, List.append_assoc]⟩
    | http e => exact ⟨ascii "WebSocketError: " ++ ascii "WebSocket HTTP error: ",
        by simp only [towse, WsError.ofOther, WsError.fmt, OtherError.ofCodec, OtherError.fmt, CodecError.fmt, List.append_assoc]⟩
  · intro e' h
    simp only [towse, WsError.ofOther, WsError.other.injEq] at h
    cases e <;> cases e' <;> simp only [OtherError.ofCodec, OtherError.io.injEq, OtherError.http.injEq, reduceCtorEq] at h <;> rw [h]

/-! ## Errors of other crates -/

/-- An error of the transport, of the HTTP parser, of the URL parser or of TLS is the first cause of what it is converted to, followed by
its own causes. Missing: the end of the stream, and the failure of a TLS handshake (refuted below). -/
theorem C66_foreign_found_partial (io : IoError) (f : Foreign) (k : UrlErrorKind) :
    (io.kind ≠ .unexpectedEof → (WsError.ofIo io).sources = ⟨.io io.kind, io.text⟩ :: io.causes) ∧
    (WsError.ofUtf8 f).sources = ⟨.utf8, f.text⟩ :: f.causes ∧
    (towse .ofHttp f).sources = ⟨.hyper, f.text⟩ :: f.causes ∧
    (towse .ofUrl f).sources = ⟨.url, f.text⟩ :: f.causes ∧
    (towse .ofTls f).sources = ⟨.tls, f.text⟩ :: f.causes ∧
    (towse .ofWsUrl k).sources = [⟨.wsUrl, k.fmt⟩] ∧
    (towse .ofUpgrade (.ofIo io)).sources = ⟨.io io.kind, io.text⟩ :: io.causes ∧
    (towse .ofUpgrade (.ofHyper f)).sources = ⟨.hyper, f.text⟩ :: f.causes := by
  refine ⟨fun h => ?_, rfl, rfl, rfl, rfl, rfl, rfl, rfl⟩
  unfold WsError.ofIo
  rw [if_neg h]
  rfl

/-- What the end of the stream is reported as says nothing about the error it came from, and neither does the failure of a TLS handshake. -/
theorem C66_refuted_foreign_found :
    (∀ io : IoError, io.kind = .unexpectedEof → WsError.ofIo io = .noData) ∧ (WsError.noData).sources = [] ∧
    ∀ f, towse .ofTlsHandshake (.failure f) = .other .tlsFailure ∧ (towse .ofTlsHandshake (.failure f)).sources = [] :=
  ⟨fun io h => by unfold WsError.ofIo; rw [if_pos h], rfl, fun _ => ⟨rfl, rfl⟩⟩

/-- The errors about a URL are told apart by their text, by themselves and as `WebSocketError`. -/
theorem C66_url_text (reason : Nat → Bytes) (k k' : UrlErrorKind)
    (h : k.fmt = k'.fmt ∨ (towse .ofWsUrl k).fmt reason = (towse .ofWsUrl k').fmt reason) : k = k' := by
  have : k.fmt = k'.fmt := h.elim id fun h => List.append_cancel_left h
  cases k <;> cases k' <;> first | rfl | exact absurd this (by decide +kernel)

/-- The conversion of I/O errors is the one that the models of the receiver and the sender use. -/
theorem C66_plain_io (name : Bytes → String) (io : IoError) : (WsError.ofIo io).plain name = WsErr.ofIo io.kind := by
  unfold WsError.ofIo
  split
  · next h => rw [h]; rfl
  · next h =>
    unfold WsErr.ofIo
    cases hk : io.kind <;> first | exact absurd hk h | (show WsErr.io io.kind = _; rw [hk])

/-! ## A client that was refused -/

theorem decimal_digits {n : Nat} {ds : Bytes} (h : Decimal n ds) : (32 : UInt8) ∉ ds := by
  induction h with
  | one h => intro m; exact digit_not_blank h (List.mem_singleton.mp m).symm
  | more hn hd h ih =>
    intro m
    exact (List.mem_append.mp m).elim ih fun m => digit_not_blank hd (List.mem_singleton.mp m).symm

theorem cut_inj {a : UInt8} : ∀ {x y x' y' : Bytes}, a ∉ x → a ∉ x' → x ++ a :: y = x' ++ a :: y' → x = x' ∧ y = y'
  | [], _, [], _, _, _, h => ⟨rfl, (List.cons.inj h).2⟩
  | [], _, b :: _, _, _, h', h => absurd (List.mem_cons.mpr (.inl (List.cons.inj h).1)) h'
  | b :: _, _, [], _, h, _, e => absurd (List.mem_cons.mpr (.inl (List.cons.inj e).1.symm)) h
  | b :: x, _, b' :: x', _, h, h', e => by
    obtain ⟨rfl, e2⟩ := List.cons.inj (show b :: (x ++ _) = b' :: (x' ++ _) from e)
    obtain ⟨h1, h2⟩ := cut_inj (fun m => h (List.mem_cons_of_mem _ m)) (fun m => h' (List.mem_cons_of_mem _ m)) e2
    exact ⟨by rw [h1], h2⟩

/-- The number and what follows the reason can be read off a printed status. -/
theorem status_inj (reason : Nat → Bytes) (s s' : Status) (x x' : Bytes) (h : s.fmt reason ++ x = s'.fmt reason ++ x') : s = s' ∧ x = x' := by
  unfold Status.fmt at h
  simp only [List.append_assoc, List.cons_append, List.nil_append] at h
  obtain ⟨h1, h2⟩ := cut_inj (decimal_digits (decimal_spec _)) (decimal_digits (decimal_spec _)) h
  have e : s = s' := by
    obtain ⟨c⟩ := s; obtain ⟨c'⟩ := s'
    have hc : Decimal c (decimal c') := h1 ▸ decimal_spec c
    rw [decimal_inj hc (decimal_spec c')]
  subst e
  exact ⟨rfl, List.append_cancel_left h2⟩

/-- The beginning of the text of each failure. -/
def ConnectErr.label : ConnectErr → Bytes
  | .closed => ascii "WebSocketError: WebSocket protocol error"
  | .request => ascii "WebSocketError: WebSocket request error: Re"
  | .accept => ascii "WebSocketError: WebSocket response error: S"
  | .upgrade => ascii "WebSocketError: WebSocket response error: U"
  | .connection => ascii "WebSocketError: WebSocket response error: C"
  | .status _ => ascii "WebSocketError: WebSocketError: Received un"
  | .redirect _ _ => ascii "WebSocketError: WebSocketError: Redirected "
  | .noHost => ascii "WebSocketError: WebSocket Url Error: WebSoc"
  | .http _ | .io _ | .tls => []

theorem report_label (reason : Nat → Bytes) (e : ConnectErr) (r : WsError) (hr : e.report = some r) : (r.fmt reason).take 43 = e.label := by
  have key : ∀ a b c l : Bytes, 43 ≤ (a ++ b).length → (a ++ b).take 43 = l → (a ++ (b ++ c)).take 43 = l := by
    intro a b c l h1 h2
    rw [← List.append_assoc, List.take_append_of_le_length h1, h2]
  cases e with
  | http _ => cases hr
  | io _ => cases hr
  | tls => cases hr
  | status c =>
    cases hr
    simp only [towse, WsError.ofOther, WsError.fmt, OtherError.fmt, id, List.append_assoc]
    exact key _ _ _ _ (by decide +kernel) (by simp only [ConnectErr.label]; decide +kernel)
  | redirect c l =>
    cases hr
    simp only [towse, WsError.ofOther, WsError.fmt, OtherError.fmt, id, List.append_assoc]
    exact key _ _ _ _ (by decide +kernel) (by simp only [ConnectErr.label]; decide +kernel)
  | _ =>
    cases hr
    simp only [towse, WsError.ofOther, WsError.fmt, OtherError.fmt, id]
    decide +kernel

/-- The text of a failed client handshake says which check failed: the texts of different failures differ, and those of a refused status
and of a redirection name the status and the location. -/
theorem C66_connect_text (reason : Nat → Bytes) (e e' : ConnectErr) (r r' : WsError) (hr : e.report = some r) (hr' : e'.report = some r')
    (h : r.fmt reason = r'.fmt reason) : e = e' := by
  have hl : e.label = e'.label := by
    rw [← report_label reason e r hr, ← report_label reason e' r' hr', h]
  have tail : ∀ s s' : Status, ∀ a x x' : Bytes, a ++ (s.fmt reason ++ x) = a ++ (s'.fmt reason ++ x') → s = s' ∧ x = x' :=
    fun s s' a x x' h => status_inj reason s s' x x' (List.append_cancel_left h)
  cases e <;> cases e' <;> first
    | rfl
    | (cases hr; done)
    | (cases hr'; done)
    | exact absurd hl (by simp only [ConnectErr.label]; decide +kernel)
    | skip
  · cases hr; cases hr'
    have h := List.append_cancel_left h
    simp only [OtherError.fmt, id, List.append_assoc] at h
    rw [(Status.mk.inj (tail _ _ _ _ _ h).1)]
  · cases hr; cases hr'
    have h := List.append_cancel_left h
    simp only [OtherError.fmt, id, List.append_assoc] at h
    obtain ⟨h1, h2⟩ := tail _ _ _ _ _ h
    rw [Status.mk.inj h1, List.append_cancel_left h2]

/-- The failures of the handshake have texts; those of a failed check come from the response alone. -/
example : ConnectErr.report (.redirect 302 (ascii "ws://b/")) = some (.other (.redirect ⟨302⟩ (ascii "ws://b/"))) ∧
    (WsError.other (.redirect ⟨302⟩ (ascii "ws://b/"))).fmt (fun _ => ascii "Found") =
      ascii "WebSocketError: WebSocketError: Redirected (302 Found) to ws://b/" := by decide +kernel

/-! ## What a receiver reports -/

/-- An error in the peer's frames, as a receiver reports it: the model's `WsErr` with its message. -/
inductive ReportedAs : WsErr → WsError → Prop
  | protocol (m : String) : ReportedAs (.protocol m) (.protocol (ascii m))
  | dataFrame (m : String) : ReportedAs (.dataFrame m) (.dataFrame (ascii m))
  | noData : ReportedAs .noData .noData
  | io (e : IoError) : ReportedAs (.io e.kind) (.io e)
  | utf8 (e : Foreign) : ReportedAs .utf8 (.utf8 e)

/-- The kinds of errors of a receiver can be told apart by their texts. -/
theorem C66_receive_kind (reason : Nat → Bytes) (e e' : WsErr) (r r' : WsError) (h : ReportedAs e r) (h' : ReportedAs e' r')
    (ht : r.fmt reason = r'.fmt reason) :
    (e = .noData ↔ e' = .noData) ∧ (e = .utf8 ↔ e' = .utf8) ∧ ((∃ k, e = .io k) ↔ ∃ k, e' = .io k) ∧
    ((∃ m, e = .protocol m) ↔ ∃ m, e' = .protocol m) ∧ ((∃ m, e = .dataFrame m) ↔ ∃ m, e' = .dataFrame m) := by
  cases h <;> cases h' <;> first
    | (simp; done)
    | exact absurd (List.append_cancel_left ht) (by simp only []; decide +kernel)

/-- But which rule of the protocol the peer broke is not shown: a mask where none is due and a control frame that is too long are
different errors of the receiver, and what is printed of them, causes included, is the same. -/
theorem C66_refuted_receive_text (reason : Nat → Bytes) : ∃ (s s' : Src) (e e' : WsErr) (r r' : WsError), s.Ready ∧ s'.Ready ∧
    ((Receiver.new false).recvMessage s).1 = .err e ∧ ((Receiver.new false).recvMessage s').1 = .err e' ∧ e ≠ e' ∧
    ReportedAs e r ∧ ReportedAs e' r' ∧ r.shown reason = r'.shown reason := by
  refine ⟨[.chunk [0x81, 0x80, 0, 0, 0, 0]], [.chunk [0x89, 126, 0, 126]], _, _, _, _, ⟨by simp, trivial⟩, ⟨by simp, trivial⟩,
    (by decide +kernel : _ = Res.err (.dataFrame "Expected unmasked data frame")),
    (by decide +kernel : _ = Res.err (.dataFrame "Control frame length too long")), by decide, .dataFrame _, .dataFrame _, ?_⟩
  rfl

/-! Concrete cases of the theorems above. -/

example := fun reason => C66_receive_kind reason (.protocol "a") (.protocol "a") _ _ (.protocol "a") (.protocol "a") rfl
example := fun reason => C66_refusals_distinct reason .methodNotGet .methodNotGet rfl rfl (.inl rfl)

/-- `C66_url_text`: two texts that are the same. -/
example := C66_url_text (fun _ => []) .noHostName .noHostName (.inl rfl)

end WS
