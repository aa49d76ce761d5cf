import Verif.Model.Doorstep
import Verif.Spec.Stranger
import Verif.Props.Connect
import Verif.Props.Handshake
import Verif.Lemmas.Format
/-!
# What is to come of the bytes that a peer sends

A `Ruling` is made on all bytes at once; it knows nothing of cuts, turns or buffers.
-/

namespace WS
open Spec

/-- What the peer's half of the handshake comes to: it is not complete, or it is none, or this is what has been written when it has been answered, and
this is what comes behind it. -/
inductive Ruling
  | waits
  | refuses
  | opens (written rest : Bytes)
  deriving DecidableEq

/-- What a blocking program makes of these bytes if no more come: it reads the head that stands at the beginning of the first 2^19 of them. -/
def headRuling {σ line ok} (p : HeadParser σ line ok) (answer : HttpHead σ → Option Bytes) (B : Bytes) : Ruling :=
  match p.parse (B.take (2 ^ 19)) with
  | .complete m n => (answer m).elim .refuses fun written => .opens written (B.drop n)
  | .error => .refuses
  | .part => if 2 ^ 19 ≤ B.length then .refuses else .waits

/-- What an async program makes of these bytes: it reads the head that ends with their first blank line. -/
def lineRuling {σ line ok} (p : HeadParser σ line ok) (answer : HttpHead σ → Option Bytes) (B : Bytes) : Ruling :=
  match splitOffHttp B with
  | none => .waits
  | some (head, rest) =>
    match p.parse head with
    | .complete m _ => (answer m).elim .refuses fun written => .opens written rest
    | _ => .refuses

/-- What comes up to the first blank line, if there is one, is a head or cannot be one (C42, C52: otherwise it depends on how the bytes are cut what an async program makes of them). -/
def Clearcut {σ line ok} (p : HeadParser σ line ok) (B : Bytes) : Prop := ∀ head rest, splitOffHttp B = some (head, rest) → p.parse head ≠ .part

/-- What a server has written when it has answered this request with success. -/
def serverAnswer [B64] (sops : List UpgradeOp) (custom : Option Headers) (m : Request) : Option Bytes :=
  match validate m.subject.method m.version m.headers with
  | .ok () => m.headers.getKey.map fun key => head101 m.version (responseLines sops custom key)
  | .error _ => none

/-- What a client has written when it has taken this response. -/
def clientAnswer [B64] (url : Url) (ops : List BOp) (fresh : WsKey) (m : Response) : Option Bytes :=
  match (((Builder.init url).run ops).buildRequest fresh).2.validate m with
  | .ok () => some (Head (requestStart url) (requestLines url ops fresh))
  | .error _ => none

/-- A program before it opens its connection, that will get the bytes `B`, on a transport that takes what it is given: how it opens it, the output, what it has written while it waits for the
peer's half of the handshake, whether it masks, what its receiving calls say when certain bytes come behind the handshake, and what is to come of the bytes. Async: `Clearcut`, and the message limit must not be
reported (see `Stands`). -/
inductive AtDoor [B64] (preq : ReqParser) (pres : ResParser) (B : Bytes) : Opening → Sink → Bytes → Bool → (Bytes → Nat → Heard) → (Bytes → Ruling) → Prop
  | server (sops : List UpgradeOp) (custom : Option Headers) (maxDf maxMsg : Nat) (w : Sink) (htx : TextCustom custom) (hw : w.Willing) (h0 : w.wire = []) :
    AtDoor preq pres B (.server (Upgrade.run · sops) custom maxDf maxMsg) w [] false (blockingHears true maxDf maxMsg) (headRuling preq (serverAnswer sops custom))
  | client (url : Url) (ops : List BOp) (fresh : WsKey) (w : Sink) (htx : ∀ op ∈ ops, GivesText op) (hw : w.Willing) (h0 : w.wire = []) :
    AtDoor preq pres B (.client ((Builder.init url).run ops) fresh) w (Head (requestStart url) (requestLines url ops fresh)) true
      (blockingHears false (lastSet setsDf (100 * 2 ^ 20) ops) (lastSet setsDf (100 * 2 ^ 20) ops)) (headRuling pres (clientAnswer url ops fresh))
  | asyncServer (sops : List UpgradeOp) (custom : Option Headers) (maxDf maxMsg extra : Nat) (w : Sink) (htx : TextCustom custom) (hw : w.Patient) (h0 : w.wire = []) (hB : Clearcut preq B)
    (hl : ∀ written rest, lineRuling preq (serverAnswer sops custom) B = .opens written rest →
      ∀ n, .err msgLimitErr ∉ ((Framed.new (MsgCodec.newWithLimits .server maxDf maxMsg)).nextMany msgDecoder n (allOf rest)).1) :
    AtDoor preq pres B (.asyncServer (Upgrade.run · sops) custom maxDf maxMsg extra) w [] false (asyncHears .server maxDf maxMsg) (lineRuling preq (serverAnswer sops custom))
  | asyncClient (url : Url) (ops : List BOp) (fresh : WsKey) (extra : Nat) (w : Sink) (htx : ∀ op ∈ ops, GivesText op) (hw : w.Patient) (h0 : w.wire = []) (hB : Clearcut pres B)
    (hl : ∀ written rest, lineRuling pres (clientAnswer url ops fresh) B = .opens written rest →
      ∀ n, .err msgLimitErr ∉ ((Framed.new (MsgCodec.newWithLimits .client (lastSet setsDf (100 * 2 ^ 20) ops) (lastSet setsMsg (200 * 2 ^ 20) ops))).nextMany msgDecoder n (allOf rest)).1) :
    AtDoor preq pres B (.asyncClient ((Builder.init url).run ops) fresh extra) w (Head (requestStart url) (requestLines url ops fresh)) true
      (asyncHears .client (lastSet setsDf (100 * 2 ^ 20) ops) (lastSet setsMsg (200 * 2 ^ 20) ops)) (lineRuling pres (clientAnswer url ops fresh))

end WS
