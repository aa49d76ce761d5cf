import Verif.Model.Base64
/-!
# What examples/server.rs answers to examples/client.rs
-/

namespace WS.Spec

/-- The answer of the example server to the example client, whole, with the text that accepts the key. -/
def chatAnswer (accept : List UInt8) : List UInt8 :=
  ascii "HTTP/1.1 101 Switching Protocols\r\nSec-WebSocket-Protocol: rust-websocket\r\nSec-WebSocket-Accept: " ++ accept ++
    ascii "\r\nConnection: Upgrade\r\nUpgrade: websocket\r\n\r\n"

end WS.Spec
