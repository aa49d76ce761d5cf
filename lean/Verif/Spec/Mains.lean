import Verif.Model.Base64
/-!
# What the chat clients ask for
-/

namespace WS.Spec

/-- The request of the chat clients for the local server, whole, with the text of the key. -/
def chatRequest (key : List UInt8) : List UInt8 :=
  ascii "GET / HTTP/1.1\r\nSec-WebSocket-Protocol: rust-websocket\r\nHost: 127.0.0.1:2794\r\nConnection: Upgrade\r\nUpgrade: websocket\r\nSec-WebSocket-Version: 13\r\nSec-WebSocket-Key: " ++
    key ++ ascii "\r\n\r\n"

/-- That of the one for the public echo server. -/
def sslRequest (key : List UInt8) : List UInt8 :=
  ascii "GET / HTTP/1.1\r\nHost: echo.websocket.org\r\nConnection: Upgrade\r\nUpgrade: websocket\r\nSec-WebSocket-Version: 13\r\nSec-WebSocket-Key: " ++
    key ++ ascii "\r\n\r\n"

end WS.Spec
