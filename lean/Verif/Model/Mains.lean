import Verif.Model.AsyncChat
import Verif.Model.Suite
/-!
# The chat clients, from the network on

`main` of examples/client.rs, examples/async-client.rs and examples/ssl-client.rs with the connection they make. The loops are those
of Model/Chat and Model/AsyncChat. Parsing the URLs, which are literals, succeeds; the parsed URL is given. Building the runtime
(`tokio::runtime::current_thread::Builder`) succeeds, `println!` is left out, and so is the thread that reads the lines in
the two async programs: what comes out of its channel, and when, is an argument (see Model/AsyncChat).
-/

namespace WS

/-- `CONNECTION`, examples/client.rs:10, examples/async-client.rs:14. -/
def chatUrl : Url :=
  { scheme := ascii "ws", host := some (ascii "127.0.0.1"), port := some 2794, username := [], password := none,
    path := ascii "/", query := none, fragment := none }

/-- `CONNECTION`, examples/ssl-client.rs:14. -/
def sslUrl : Url :=
  { scheme := ascii "wss", host := some (ascii "echo.websocket.org"), port := none, username := [], password := none,
    path := ascii "/", query := none, fragment := none }

/-- `main` of examples/client.rs, 12-134, up to some point of its run. If an `unwrap()` panicked before the loops began: what the
transport has taken, if one was opened. -/
def chatMain [B64] (p : ResParser) (t : Trip) (lines : List Bytes) (ts : List Thread) : Except (Option Bytes) Chat × List NetCall :=
  match ((Builder.init chatUrl).run chatOps).connect p t.net .insecure t.fresh with
  | (.client c, _, calls) => match c.split t.clone with
    | .ok (r, w) => (.ok ((Chat.start lines r.receiver r.stream.src w t.keys).run ts), calls)
    | .error _ => (.error (some c.stream.inner.output.wire), calls)
  | (.err d _, _, calls) => (.error (d.map (·.output.wire)), calls)
  | (.panic _, _, calls) => (.error none, calls)

/-- `runtime.block_on(runner).unwrap()`. -/
def Ending.unwrapped : Ending → Ending
  | .failed _ => .panicked
  | e => e

/-- `main` of examples/async-client.rs, 17-78. No ending: it waits for the user. -/
def asyncChatMain [B64] (p : ResParser) (t : Trip) (user : List (Option OwnedMsg)) (gone : Bool) : Option Ending × Visit :=
  match ((Builder.init chatUrl).run chatOps).asyncConnect p t.net .insecure t.fresh t.extra with
  | (.client c, calls) => match asyncChat t.keys t.extra c user gone with
    | (r, w) => (r.map Ending.unwrapped, ⟨chatUrl, calls, some w.wire⟩)
  | (.err d _, calls) => (some .panicked, ⟨chatUrl, calls, d.map (·.output.wire)⟩)
  | (.panic _, calls) => (some .panicked, ⟨chatUrl, calls, none⟩)

/-- `main` of examples/ssl-client.rs, 16-65. -/
def sslChatMain [B64] (p : ResParser) (t : Trip) (user : List (Option OwnedMsg)) (gone : Bool) : Option Ending × Visit :=
  match (Builder.init sslUrl).asyncConnect p t.net .secure t.fresh t.extra with
  | (.client c, calls) => match sslChat t.keys t.extra c user gone with
    | (r, w) => (r.map Ending.unwrapped, ⟨sslUrl, calls, some w.wire⟩)
  | (.err d _, calls) => (some .panicked, ⟨sslUrl, calls, d.map (·.output.wire)⟩)
  | (.panic _, calls) => (some .panicked, ⟨sslUrl, calls, none⟩)

end WS
