import Verif.Lemmas.Sample
import Verif.Lemmas.Format
import Verif.Props.Frame
import Verif.Model.Httparse
import Verif.Lemmas.Base64
/-!
# C39 (limits reach the connection) and C40 (where the client connects to)
-/

namespace WS

/-! ## C40 -/

namespace Spec

/-- A scheme that asks for TLS (RFC 6455 section 3, RFC 7230 section 2.7.2). -/
def Secure (scheme : List UInt8) : Prop := scheme = ascii "wss" ∨ scheme = ascii "https"

/-- The port a URL of the four schemes designates. -/
def DesignatedPort (scheme : List UInt8) (explicit : Option Nat) (port : Nat) : Prop :=
  explicit = some port ∨
  (explicit = none ∧ Secure scheme ∧ port = 443) ∨
  (explicit = none ∧ (scheme = ascii "ws" ∨ scheme = ascii "http") ∧ port = 80)

/-- A scheme one can expect in a websocket URL. -/
def Known (scheme : List UInt8) : Prop := Secure scheme ∨ scheme = ascii "ws" ∨ scheme = ascii "http"

end Spec

open Spec

/-- What a successful connection attempt looks like: the log of network calls and the stream that
came out. `host` is resolved with the designated port, one of the addresses dialled, and the stream
is wrapped in TLS for that host exactly if `tls`. -/
structure Reached (net : Net) (host : Bytes) (port : Nat) (tls : Bool) (d : Duplex) (calls : List NetCall) : Prop where
  mk :: (steps : ∃ addrs addr dials tcp, net.resolve host port = .ok addrs ∧ addr ∈ addrs ∧ net.dial addr = .ok tcp ∧
    (∀ c ∈ dials, ∃ a ∈ addrs, c = .dial a) ∧
    (tls = false → d = tcp ∧ calls = .resolve host port :: dials) ∧
    (tls = true → net.tls host tcp = .ok d ∧ calls = .resolve host port :: (dials ++ [.tls host])))

theorem dialAny_ok {net : Net} {addrs : List Nat} {d : Duplex} {calls : List NetCall}
    (h : dialAny net addrs = (.ok d, calls)) :
    (∃ a ∈ addrs, net.dial a = .ok d) ∧ ∀ c ∈ calls, ∃ a ∈ addrs, c = .dial a := by
  induction addrs generalizing calls with
  | nil => simp [dialAny] at h
  | cons a rest ih =>
    cases rest with
    | nil =>
      simp only [dialAny, Prod.mk.injEq] at h
      obtain ⟨h1, rfl⟩ := h
      exact ⟨⟨a, by simp, h1⟩, by simp⟩
    | cons a' rest =>
      unfold dialAny at h
      cases hd : net.dial a with
      | ok d' =>
        rw [hd] at h
        simp only [Prod.mk.injEq, Except.ok.injEq] at h
        obtain ⟨rfl, rfl⟩ := h
        exact ⟨⟨a, by simp, hd⟩, by simp⟩
      | error k =>
        rw [hd] at h
        cases hx : dialAny net (a' :: rest) with
        | mk r calls' =>
          rw [hx] at h
          simp only [Prod.mk.injEq] at h
          obtain ⟨rfl, rfl⟩ := h
          obtain ⟨⟨b, hb, hb2⟩, h2⟩ := ih hx
          refine ⟨⟨b, List.mem_cons_of_mem _ hb, hb2⟩, ?_⟩
          intro c hc
          rcases List.mem_cons.mp hc with rfl | hc
          · exact ⟨a, by simp, rfl⟩
          · obtain ⟨b', hb', rfl⟩ := h2 c hc
            exact ⟨b', List.mem_cons_of_mem _ hb', rfl⟩

theorem extract_ok {b : Builder} {secure : Option Bool} {host : Bytes} {port : Nat}
    (h : b.extractHostPort secure = .ok (host, port)) :
    b.url.host = some host ∧ (Known b.url.scheme → DesignatedPort b.url.scheme b.url.port port) := by
  unfold Builder.extractHostPort Url.portOrKnownDefault at h
  unfold DesignatedPort Known Secure
  cases hh : b.url.host with
  | none => rw [hh] at h; cases h
  | some h' =>
    rw [hh] at h
    cases hp : b.url.port with
    | some p => rw [hp] at h; cases h; exact ⟨rfl, fun _ => .inl rfl⟩
    | none =>
      rw [hp] at h
      simp only at h
      by_cases h1 : b.url.scheme = ascii "http" ∨ b.url.scheme = ascii "ws"
      · rw [if_pos h1] at h; cases h
        exact ⟨rfl, fun _ => .inr (.inr ⟨rfl, h1.symm, rfl⟩)⟩
      · rw [if_neg h1] at h
        by_cases h2 : b.url.scheme = ascii "https" ∨ b.url.scheme = ascii "wss"
        · rw [if_pos h2] at h; cases h
          exact ⟨rfl, fun _ => .inr (.inl ⟨rfl, h2.symm, rfl⟩)⟩
        · refine ⟨?_, fun hk => ?_⟩
          · split at h <;> cases h <;> rfl
          · rcases hk with hk | hk
            · exact absurd hk.symm h2
            · exact absurd hk.symm h1

/-- Whether TLS is to be used: by the scheme for `connect`, by name for the other two. -/
def WantsTls (v : Variant) (scheme : Bytes) : Prop :=
  match v with
  | .auto => Secure scheme
  | .insecure => False
  | .secure => True

theorem usesTls_iff (b : Builder) (v : Variant) : v.usesTls b = true ↔ WantsTls v b.url.scheme := by
  cases v <;> simp [Variant.usesTls, WantsTls, Builder.isSecureUrl, Secure]

/-- Blocking: the stream a handshake runs on was reached at the URL's host and designated port, over
TLS for that host exactly if wanted. -/
theorem C40_reached (b : Builder) (net : Net) (v : Variant) (d : Duplex) (calls : List NetCall)
    (h : b.openStream net v = (.ok d, calls)) :
    ∃ host port tls, b.url.host = some host ∧ (Known b.url.scheme → DesignatedPort b.url.scheme b.url.port port) ∧
      (tls = true ↔ WantsTls v b.url.scheme) ∧ Reached net host port tls d calls := by
  unfold Builder.openStream Builder.establishTcp at h
  cases he : b.extractHostPort v.hint with
  | error e => rw [he] at h; cases h
  | ok hp =>
    obtain ⟨host, port⟩ := hp
    obtain ⟨hh, hk⟩ := extract_ok he
    rw [he] at h
    simp only at h
    cases hr : net.resolve host port with
    | error k => rw [hr] at h; cases h
    | ok addrs =>
      rw [hr] at h
      simp only at h
      cases hd : dialAny net addrs with
      | mk r dials =>
        rw [hd] at h
        cases r with
        | error k => cases h
        | ok tcp =>
          obtain ⟨⟨a, ha, ha2⟩, hds⟩ := dialAny_ok hd
          refine ⟨host, port, v.usesTls b, hh, hk, usesTls_iff b v, ⟨addrs, a, dials, tcp, hr, ha, ha2, hds, ?_, ?_⟩⟩
          · intro ht
            simp only [ht, Bool.false_eq_true, if_false, Prod.mk.injEq, Except.ok.injEq] at h
            exact ⟨h.1.symm, h.2.symm⟩
          · intro ht
            simp only [ht, if_true] at h
            unfold Builder.wrapSsl at h
            rw [hh] at h
            simp only at h
            by_cases hc : net.connector
            · simp only [hc, Bool.not_true, Bool.false_eq_true, if_false] at h
              cases htls : net.tls host tcp with
              | error e => rw [htls] at h; cases h
              | ok s =>
                rw [htls] at h
                simp only [Prod.mk.injEq, Except.ok.injEq] at h
                obtain ⟨rfl, rfl⟩ := h
                exact ⟨rfl, rfl⟩
            · simp [hc] at h

/-- The same for the async client. -/
theorem C40_async_reached (b : Builder) (net : Net) (v : Variant) (d : Duplex) (calls : List NetCall)
    (h : b.asyncOpenStream net v = (.ok d, calls)) :
    ∃ host port tls, b.url.host = some host ∧ (Known b.url.scheme → DesignatedPort b.url.scheme b.url.port port) ∧
      (tls = true ↔ WantsTls v b.url.scheme) ∧ Reached net host port tls d calls := by
  unfold Builder.asyncOpenStream Builder.asyncTcp at h
  cases he : b.extractHostPort v.hint with
  | error e =>
    rw [he] at h
    simp only at h
    split at h
    · split at h
      · cases h
      · split at h <;> cases h
    · cases h
  | ok hp =>
    obtain ⟨host, port⟩ := hp
    obtain ⟨hh, hk⟩ := extract_ok he
    rw [he] at h
    simp only [hh] at h
    cases hr : net.resolve host port with
    | error k =>
      rw [hr] at h
      simp only at h
      split at h
      · split at h <;> cases h
      · cases h
    | ok addrs =>
      rw [hr] at h
      cases addrs with
      | nil =>
        simp only at h
        split at h
        · split at h <;> cases h
        · cases h
      | cons a rest =>
        simp only at h
        cases hd : net.dial a with
        | error k =>
          rw [hd] at h
          simp only at h
          split at h
          · split at h <;> cases h
          · cases h
        | ok tcp =>
          rw [hd] at h
          simp only at h
          refine ⟨host, port, v.usesTls b, hh, hk, usesTls_iff b v,
            ⟨a :: rest, a, [.dial a], tcp, hr, by simp, hd, by simp, ?_, ?_⟩⟩
          · intro ht
            simp only [ht, Bool.false_eq_true, if_false, Prod.mk.injEq, Except.ok.injEq] at h
            exact ⟨h.1.symm, h.2.symm⟩
          · intro ht
            simp only [ht, if_true] at h
            by_cases hc : net.connector
            · simp only [hc, Bool.not_true, Bool.false_eq_true, if_false] at h
              cases htls : net.tls host tcp with
              | error e => rw [htls] at h; cases h
              | ok s =>
                rw [htls] at h
                simp only [Prod.mk.injEq, Except.ok.injEq] at h
                obtain ⟨rfl, rfl⟩ := h
                exact ⟨rfl, rfl⟩
            · simp [hc] at h

/-- The port asked for, whatever the scheme: the designated one for the four known schemes; the URL crate knows the ports of `ftp` and `gopher`; for any
other scheme the call decides. -/
def PortAsked (v : Variant) (scheme : Bytes) (explicit : Option Nat) (port : Nat) : Prop :=
  (explicit = none → ¬ Known scheme →
    (scheme = ascii "ftp" ∧ port = 21) ∨ (scheme = ascii "gopher" ∧ port = 70) ∨
    (scheme ≠ ascii "ftp" ∧ scheme ≠ ascii "gopher" ∧ (v = .secure ∧ port = 443 ∨ v ≠ .secure ∧ port = 80))) ∧
  (explicit ≠ none ∨ Known scheme → DesignatedPort scheme explicit port)

theorem extract_asked {b : Builder} {v : Variant} {host : Bytes} (hh : b.url.host = some host) :
    ∃ port, b.extractHostPort v.hint = .ok (host, port) ∧ PortAsked v b.url.scheme b.url.port port := by
  cases he : b.extractHostPort v.hint with
  | error e =>
    unfold Builder.extractHostPort at he
    rw [hh] at he
    simp only at he
    split at he <;> cases he
  | ok x =>
    obtain ⟨h', port⟩ := x
    obtain ⟨g1, g2⟩ := extract_ok he
    rw [hh] at g1
    cases g1
    refine ⟨port, rfl, fun hn hk => ?_, fun hk => ?_⟩
    · unfold Builder.extractHostPort Url.portOrKnownDefault at he
      unfold Known Secure at hk
      rw [hh, hn] at he
      simp only at he
      rw [if_neg (by grind), if_neg (by grind)] at he
      by_cases hf : b.url.scheme = ascii "ftp"
      · rw [if_pos hf] at he
        simp only [Except.ok.injEq, Prod.mk.injEq, true_and] at he
        exact .inl ⟨hf, he.symm⟩
      · rw [if_neg hf] at he
        by_cases hg : b.url.scheme = ascii "gopher"
        · rw [if_pos hg] at he
          simp only [Except.ok.injEq, Prod.mk.injEq, true_and] at he
          exact .inr (.inl ⟨hg, he.symm⟩)
        · rw [if_neg hg] at he
          refine .inr (.inr ⟨hf, hg, ?_⟩)
          have hw : b.url.scheme ≠ ascii "wss" := by grind
          cases v <;> simp only [Variant.hint, if_neg hw, Except.ok.injEq, Prod.mk.injEq, true_and] at he <;> simp [he]
    · rcases hk with hk | hk
      · cases hx : b.url.port with
        | none => exact absurd hx hk
        | some q =>
          unfold Builder.extractHostPort Url.portOrKnownDefault at he
          rw [hh, hx] at he
          simp only [Except.ok.injEq, Prod.mk.injEq, true_and] at he
          exact .inl (by rw [he])
      · exact g2 hk

theorem dialAny_calls (net : Net) (addrs : List Nat) : ∀ c ∈ (dialAny net addrs).2, ∃ a ∈ addrs, c = .dial a := by
  induction addrs with
  | nil => simp [dialAny]
  | cons a rest ih =>
    cases rest with
    | nil => simp [dialAny]
    | cons a' rest =>
      unfold dialAny
      split
      · simp
      · intro c hc
        rcases List.mem_cons.mp hc with rfl | hc
        · exact ⟨a, by simp, rfl⟩
        · obtain ⟨b', hb', rfl⟩ := ih c hc
          exact ⟨b', List.mem_cons_of_mem _ hb', rfl⟩

/-- Every attempt, failed or not: the one name looked up is the URL's host, at the port asked for, and that comes first; only addresses it resolved
to are dialled; TLS is spoken for that host only, and only if wanted. -/
theorem C40_every_call (b : Builder) (net : Net) (v : Variant) (host : Bytes) (hh : b.url.host = some host) (calls : List NetCall)
    (hcalls : calls = (b.openStream net v).2 ∨ calls = (b.asyncOpenStream net v).2) :
    ∃ port rest, calls = .resolve host port :: rest ∧ PortAsked v b.url.scheme b.url.port port ∧
      ∀ c ∈ rest, (∃ addrs, net.resolve host port = .ok addrs ∧ ∃ a ∈ addrs, c = .dial a) ∨ (c = .tls host ∧ WantsTls v b.url.scheme) := by
  obtain ⟨port, he, hp⟩ := extract_asked (v := v) hh
  have ht := usesTls_iff b v
  refine ⟨port, calls.tail, ?_⟩
  suffices h : calls = .resolve host port :: calls.tail ∧ ∀ c ∈ calls.tail,
      (∃ addrs, net.resolve host port = .ok addrs ∧ ∃ a ∈ addrs, c = .dial a) ∨ (c = .tls host ∧ WantsTls v b.url.scheme) from ⟨h.1, hp, h.2⟩
  have hw : ∀ tcp, ∀ c ∈ (b.wrapSsl net tcp).2, c = .tls host := by
    intro tcp c hc
    unfold Builder.wrapSsl at hc
    rw [hh] at hc
    simp only at hc
    split at hc
    · cases hc
    · split at hc <;> simpa using hc
  rcases hcalls with rfl | rfl
  · unfold Builder.openStream Builder.establishTcp
    rw [he]
    simp only
    cases hr : net.resolve host port with
    | error k => exact ⟨rfl, by simp⟩
    | ok addrs =>
      simp only
      have hd := dialAny_calls net addrs
      cases hx : dialAny net addrs with
      | mk r dials =>
        rw [hx] at hd
        simp only at hd
        cases r with
        | error k => exact ⟨rfl, fun c hc => .inl ⟨addrs, rfl, hd c hc⟩⟩
        | ok tcp =>
          simp only
          split
          · next hu =>
            refine ⟨rfl, fun c hc => ?_⟩
            simp only [List.cons_append, List.tail_cons, List.mem_append] at hc
            rcases hc with hc | hc
            · exact .inl ⟨addrs, rfl, hd c hc⟩
            · exact .inr ⟨hw tcp c hc, ht.mp hu⟩
          · exact ⟨rfl, fun c hc => .inl ⟨addrs, rfl, hd c hc⟩⟩
  · unfold Builder.asyncOpenStream Builder.asyncTcp
    rw [he]
    simp only [hh]
    cases hr : net.resolve host port with
    | error k =>
      simp only
      split
      · split <;> exact ⟨rfl, by simp⟩
      · exact ⟨rfl, by simp⟩
    | ok addrs =>
      cases addrs with
      | nil =>
        simp only
        split
        · split <;> exact ⟨rfl, by simp⟩
        · exact ⟨rfl, by simp⟩
      | cons a rest =>
        simp only
        cases hd : net.dial a with
        | error k =>
          simp only
          split
          · split <;> exact ⟨rfl, by simp⟩
          · exact ⟨rfl, by simp⟩
        | ok tcp =>
          simp only
          split
          · next hu =>
            split
            · exact ⟨rfl, by simp⟩
            · split <;> exact ⟨rfl, by simp [ht.mp hu]⟩
          · exact ⟨rfl, by simp⟩

/-- A URL without host is refused, with no call into the network; nothing is written anywhere. -/
theorem C40_no_host [B64] (p : ResParser) (net : Net) (v : Variant) (fresh : WsKey) (extra : Nat) (b : Builder)
    (h : b.url.host = none) :
    b.connect p net v fresh = (.err none .noHost, b, []) ∧ b.asyncConnect p net v fresh extra = (.err none .noHost, []) := by
  have he : b.extractHostPort v.hint = .error .noHost := by unfold Builder.extractHostPort; rw [h]
  constructor
  · unfold Builder.connect Builder.openStream Builder.establishTcp
    rw [he]
  · unfold Builder.asyncConnect Builder.asyncOpenStream Builder.asyncTcp
    rw [he]
    simp only [h]
    split <;> (next hx => split at hx <;> simp_all)

/-- A plain stream is never used for a `wss` URL by `connect`, whatever fails: there is a client only
if TLS succeeded, and whenever TLS does not, nothing is written and the error is returned. -/
theorem C40_no_downgrade [B64] (p : ResParser) (net : Net) (fresh : WsKey) (b : Builder) (hs : Secure b.url.scheme)
    (htls : ∀ host d, net.tls host d = .error ()) :
    ∃ e calls, b.connect p net .auto fresh = (.err none e, b, calls) := by
  unfold Builder.connect
  cases ho : b.openStream net .auto with
  | mk r calls =>
    cases r with
    | error e => exact ⟨e, calls, rfl⟩
    | ok d =>
      obtain ⟨host, port, tls, -, -, ht, ⟨_, _, _, tcp, -, -, -, -, -, h2⟩⟩ := C40_reached b net .auto d calls ho
      have := (h2 (ht.mpr hs)).1
      rw [htls] at this; cases this

/-- A URL and a network that meet the hypotheses. -/
def sampleUrl : Url := ⟨ascii "wss", some (ascii "example.com"), none, [], none, ascii "/chat", some (ascii "x=1"), some (ascii "top")⟩
/-- See `sampleUrl`. -/
def sampleNet : Net :=
  ⟨fun _ _ => .ok [7, 8], fun a => if a = 8 then .ok ⟨[], ⟨[], []⟩⟩ else .error .timedOut, true, fun _ d => .ok d⟩

example : ((Builder.init sampleUrl).openStream sampleNet .auto).2 =
    [.resolve (ascii "example.com") 443, .dial 7, .dial 8, .tls (ascii "example.com")] := by decide +kernel
example : ((Builder.init sampleUrl).openStream sampleNet .auto).1 = .ok ⟨[], ⟨[], []⟩⟩ := rfl
/-- `connect_secure` to a scheme nobody knows goes to port 443, `connect` to port 80. -/
example : ((Builder.init { sampleUrl with scheme := ascii "wsx" }).openStream sampleNet .secure).2.head? =
    some (.resolve (ascii "example.com") 443) ∧
    ((Builder.init { sampleUrl with scheme := ascii "wsx" }).openStream sampleNet .auto).2.head? =
    some (.resolve (ascii "example.com") 80) := by decide +kernel
example : ((Builder.init sampleUrl).openStream sampleNet .insecure).2 =
    [.resolve (ascii "example.com") 443, .dial 7, .dial 8] := by decide +kernel
/-- The async client gives up after the first address. -/
example : ((Builder.init sampleUrl).asyncOpenStream sampleNet .auto).2 =
    [.resolve (ascii "example.com") 443, .dial 7] := by decide +kernel
/-- `connect_secure` on a `ws` URL speaks TLS to port 80. -/
example : ((Builder.init { sampleUrl with scheme := ascii "ws" }).openStream sampleNet .secure).2 =
    [.resolve (ascii "example.com") 80, .dial 7, .dial 8, .tls (ascii "example.com")] := by decide +kernel
example : Known sampleUrl.scheme ∧ DesignatedPort sampleUrl.scheme sampleUrl.port 443 := by
  unfold Known DesignatedPort Secure sampleUrl; simp

/-! ## C39 -/

/-- The value of the last call that sets something, or the default. -/
def lastSet (get : BOp → Option Nat) (dflt : Nat) (ops : List BOp) : Nat := ((ops.filterMap get).getLast?).getD dflt

/-- The data frame limit a call sets. -/
def setsDf : BOp → Option Nat
  | .maxDataframeSize n => some n
  | _ => none

/-- The message limit a call sets. -/
def setsMsg : BOp → Option Nat
  | .maxMessageSize n => some n
  | _ => none

theorem lastSet_snoc (get : BOp → Option Nat) (d : Nat) (ops : List BOp) (op : BOp) :
    lastSet get d (ops ++ [op]) = (get op).getD (lastSet get d ops) := by
  unfold lastSet
  rw [List.filterMap_append]
  cases h : get op with
  | none => simp [h]
  | some n => simp [h]

theorem run_snoc (b : Builder) (ops : List BOp) (op : BOp) : b.run (ops ++ [op]) = (b.run ops).step op := by
  simp [Builder.run]

theorem snocInd {α} {P : List α → Prop} (h0 : P []) (h1 : ∀ l a, P l → P (l ++ [a])) : ∀ l, P l := by
  intro l
  have : ∀ n (l : List α), l.length = n → P l := by
    intro n
    induction n with
    | zero => intro l hl; rw [List.length_eq_zero_iff.mp hl]; exact h0
    | succ n ih =>
      intro l hl
      have hne : l ≠ [] := by intro h; subst h; simp at hl
      rw [← List.dropLast_concat_getLast hne]
      exact h1 _ _ (ih _ (by simp [hl]))
  exact this _ l rfl

theorem builder_limits (url : Url) (ops : List BOp) :
    ((Builder.init url).run ops).maxDf = lastSet setsDf (100 * 2 ^ 20) ops ∧
      ((Builder.init url).run ops).maxMsg = lastSet setsMsg (200 * 2 ^ 20) ops := by
  induction ops using snocInd with
  | h0 => exact ⟨rfl, rfl⟩
  | h1 ops op ih =>
    rw [run_snoc, lastSet_snoc, lastSet_snoc]
    cases op <;> exact ⟨by first | exact ih.1 | rfl, by first | exact ih.2 | rfl⟩

theorem build_keeps (b : Builder) (fresh : WsKey) :
    (b.buildRequest fresh).2.maxDf = b.maxDf ∧ (b.buildRequest fresh).2.maxMsg = b.maxMsg ∧
      (b.buildRequest fresh).2.version = b.version ∧ (b.buildRequest fresh).1 = b.url.resource := ⟨rfl, rfl, rfl, rfl⟩

/-- Limits of a blocking client: capped at `u32::MAX`, nothing held yet. -/
def HasLimits (r : Receiver) (maxDf maxMsg : Nat) : Prop :=
  r.maxDf = min maxDf (2 ^ 32 - 1) ∧ r.maxMsg = min maxMsg (2 ^ 32 - 1) ∧ r.buffer = []

/-- The same for an async client. -/
def HasAsyncLimits (c : MsgCodec) (maxDf maxMsg : Nat) : Prop :=
  c.df.maxDf = min maxDf (2 ^ 32 - 1) ∧ c.maxMsg = min maxMsg (2 ^ 32 - 1) ∧ c.buffer = []

/-- Server, blocking: the limits given to `accept_with_limits` (or the defaults) are those of the
client, which unmasks what it reads and does not mask what it writes. -/
theorem C39_server_limits [B64] (u : SyncUpgrade) (custom : Option Headers) (maxDf maxMsg : Nat) (c : Client)
    (h : u.internalAcceptWithLimits custom maxDf maxMsg = .client c) :
    HasLimits c.receiver maxDf maxMsg ∧ c.receiver.mask = true ∧ c.sender.mask = false := by
  replace h := accept_client h
  unfold SyncUpgrade.acceptText at h
  split at h
  · split at h
    · cases h
    · cases h; exact ⟨⟨rfl, rfl, rfl⟩, rfl, rfl⟩
  · cases h
  · cases h

/-- `accept` and `accept_with` use 100 MiB and 200 MiB. -/
theorem C39_server_defaults [B64] (u : SyncUpgrade) (custom : Headers) (c : Client)
    (h : u.accept = .client c ∨ u.acceptWith custom = .client c) :
    HasLimits c.receiver (100 * 2 ^ 20) (200 * 2 ^ 20) := by
  rcases h with h | h <;> exact (C39_server_limits u _ _ _ c h).1

/-- Server, async. -/
theorem C39_async_server_limits [B64] (u : AsyncUpgrade) (custom : Option Headers) (maxDf maxMsg extra : Nat) (c : AsyncClient)
    (h : u.internalAcceptWithLimits custom maxDf maxMsg extra = .client c) :
    HasAsyncLimits c.read.codec maxDf maxMsg ∧ c.read.codec.df.isServer = true ∧ c.write.isServer = true := by
  replace h := asyncAccept_client h
  unfold AsyncUpgrade.acceptText at h
  split at h
  · simp only at h
    split at h <;> cases h
    exact ⟨⟨rfl, rfl, rfl⟩, rfl, rfl⟩
  · cases h
  · cases h

/-- `accept` and `accept_with` of the async server use 100 MiB and 200 MiB. -/
theorem C39_async_server_defaults [B64] (u : AsyncUpgrade) (custom : Headers) (extra : Nat) (c : AsyncClient)
    (h : u.accept extra = .client c ∨ u.acceptWith custom extra = .client c) :
    HasAsyncLimits c.read.codec (100 * 2 ^ 20) (200 * 2 ^ 20) := by
  rcases h with h | h <;> exact (C39_async_server_limits u _ _ _ _ c h).1

/-- Client, async: the limits last set on the builder, or the defaults. -/
theorem C39_async_client_limits [B64] (p : ResParser) (fresh : WsKey) (extra : Nat) (d : Duplex) (url : Url) (ops : List BOp)
    (c : AsyncClient) (h : ((Builder.init url).run ops).asyncConnectOn p fresh extra d = .client c) :
    HasAsyncLimits c.read.codec (lastSet setsDf (100 * 2 ^ 20) ops) (lastSet setsMsg (200 * 2 ^ 20) ops) ∧
      c.read.codec.df.isServer = false ∧ c.write.isServer = false := by
  have hb := builder_limits url ops
  replace h := asyncConnect_client h
  unfold Builder.asyncConnectText at h
  have hk := build_keeps ((Builder.init url).run ops) fresh
  cases hx : ((Builder.init url).run ops).buildRequest fresh with
  | mk res b' =>
    rw [hx] at h hk
    simp only at h hk
    rw [hk.1, hk.2.1, hb.1, hb.2] at h
    split at h
    · split at h
      · split at h
        · cases h; exact ⟨⟨rfl, rfl, rfl⟩, rfl, rfl⟩
        · cases h
      all_goals cases h
    all_goals cases h

/-- Client, blocking: the data frame limit is the one last set, but it is also used as the message
limit (src/client/builder.rs:518). Missing: the message limit. -/
theorem C39_client_limits_partial [B64] (p : ResParser) (fresh : WsKey) (d : Duplex) (url : Url) (ops : List BOp)
    (c : Client) (h : (((Builder.init url).run ops).connectOn p fresh d).1 = .client c) :
    HasLimits c.receiver (lastSet setsDf (100 * 2 ^ 20) ops) (lastSet setsDf (100 * 2 ^ 20) ops) ∧
      c.receiver.mask = false ∧ c.sender.mask = true := by
  have hb := builder_limits url ops
  replace h := connect_client' h
  unfold Builder.connectText at h
  have hk := build_keeps ((Builder.init url).run ops) fresh
  cases hx : ((Builder.init url).run ops).buildRequest fresh with
  | mk res b' =>
    rw [hx] at h hk
    simp only at h hk
    rw [hk.1, hb.1] at h
    split at h
    · cases h
    · split at h
      · cases h
      · split at h
        · cases h
        · cases h; exact ⟨⟨rfl, rfl, rfl⟩, rfl, rfl⟩

/-- The sample key of RFC 6455 section 1.3. -/
def sampleKey : WsKey := ⟨ascii "the sample nonce", by decide⟩

/-- The answer of a server to the sample key, in two segments, with a frame right behind it. -/
def sampleAnswer : Duplex :=
  ⟨[.chunk (ascii "HTTP/1.1 101 Switching Pro"),
    .chunk (ascii "tocols\r\nUpgrade: websocket\r\nConnection: Upgrade\r\nSec-WebSocket-Accept: s3pPLMBiTxaQ9kYGzzhZRbK+xOo=\r\n\r\n" ++ [0x81, 1, 65])],
   ⟨[], []⟩⟩

/-- The limits of the client that came out. -/
def limitsOf : ConnectRes → Option (Nat × Nat)
  | .client c => some (c.receiver.maxDf, c.receiver.maxMsg)
  | _ => none

/-- The same for the async client. -/
def asyncLimitsOf : AsyncConnectRes → Option (Nat × Nat)
  | .client c => some (c.read.codec.df.maxDf, c.read.codec.maxMsg)
  | _ => none

/-- The property fails for the blocking client: a message limit of 10 is not enforced, the data
frame limit takes its place (src/client/builder.rs:518). The async client gets it right. -/
theorem C39_refuted_blocking_client : ∃ (p : ResParser) (fresh : WsKey) (d : Duplex) (b : Builder),
    b.maxDf = 1000 ∧ b.maxMsg = 10 ∧
    limitsOf (@Builder.connectOn B64.strict p fresh d b).1 = some (1000, 1000) ∧
    asyncLimitsOf (@Builder.asyncConnectOn B64.strict p fresh 0 d b) = some (1000, 10) :=
  ⟨resParser, sampleKey, sampleAnswer, ((Builder.init sampleUrl).run [.maxDataframeSize 1000, .maxMessageSize 10]),
    rfl, rfl, by decide +kernel, by decide +kernel⟩

/-! ## The theorems above on concrete cases -/

example := C40_reached (Builder.init sampleUrl) sampleNet .auto ⟨[], ⟨[], []⟩⟩
  [.resolve (ascii "example.com") 443, .dial 7, .dial 8, .tls (ascii "example.com")]
  (Prod.ext rfl (by decide +kernel))
/-- The async client tries the first address only, so give it a network where that one answers. -/
example := C40_async_reached (Builder.init sampleUrl) { sampleNet with dial := fun _ => .ok ⟨[], ⟨[], []⟩⟩ } .secure ⟨[], ⟨[], []⟩⟩
  [.resolve (ascii "example.com") 443, .dial 7, .tls (ascii "example.com")] (Prod.ext rfl (by decide +kernel))
example := C40_every_call (Builder.init sampleUrl) sampleNet .insecure (ascii "example.com") rfl _ (.inr rfl)
example := @C40_no_host B64.strict resParser sampleNet .auto sampleKey 0 (Builder.init { sampleUrl with host := none }) rfl

/-- An upgrade for a request with the sample key, and what an async server makes of it. -/
def exUpgrade : SyncUpgrade :=
  ⟨[], ⟨[], ⟨[], [.accept 3]⟩⟩, ⟨.http11, ⟨.get, ascii "/chat"⟩, [(nKey, .raw [ascii "dGhlIHNhbXBsZSBub25jZQ=="])]⟩, none⟩
def exAsyncUpgrade : AsyncUpgrade := ⟨[], exUpgrade.stream, exUpgrade.request, [0x81]⟩

/-- `C39_server_limits`, `C39_server_defaults`: accepting succeeds, with and without limits and headers of one's own. -/
example : (∃ c, @SyncUpgrade.internalAcceptWithLimits B64.strict exUpgrade none 10 20 = .client c) ∧
    (∃ c, @SyncUpgrade.accept B64.strict exUpgrade = .client c) ∧
    ∃ c, @SyncUpgrade.acceptWith B64.strict exUpgrade [(ascii "Server", .raw [ascii "x"])] = .client c :=
  ⟨AcceptRes.exists_client (by decide +kernel), AcceptRes.exists_client (by decide +kernel), AcceptRes.exists_client (by decide +kernel)⟩
/-- `C39_async_server_limits`, `C39_async_server_defaults`: and for an async server. -/
example : (∃ c, @AsyncUpgrade.internalAcceptWithLimits B64.strict exAsyncUpgrade none 10 20 0 = .client c) ∧
    (∃ c, @AsyncUpgrade.accept B64.strict exAsyncUpgrade 0 = .client c) ∧
    ∃ c, @AsyncUpgrade.acceptWith B64.strict exAsyncUpgrade [(ascii "Server", .raw [ascii "x"])] 0 = .client c :=
  ⟨AsyncRes.exists_client (by decide +kernel), AsyncRes.exists_client (by decide +kernel), AsyncRes.exists_client (by decide +kernel)⟩
/-- `C39_client_limits_partial`, `C39_async_client_limits`: a client that sets both limits connects. -/
example : (∃ c, (@Builder.connectOn B64.strict resParser sampleKey sampleAnswer
      ((Builder.init sampleUrl).run [.maxDataframeSize 10, .maxMessageSize 20])).1 = .client c) ∧
    ∃ c, @Builder.asyncConnectOn B64.strict resParser sampleKey 0 sampleAnswer
      ((Builder.init sampleUrl).run [.maxDataframeSize 10, .maxMessageSize 20]) = .client c :=
  ⟨ConnectRes.exists_client (by decide +kernel), AsyncConnectRes.exists_client (by decide +kernel)⟩

end WS
