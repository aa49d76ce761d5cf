import Verif.Model.Talk
/-!
# What a conversation is
-/

namespace WS

/-- What a program says, with the keys. -/
def said : List Talk → List (OwnedMsg × Key4)
  | [] => []
  | .say m key _ :: ts => (m, key) :: said ts
  | .hear :: ts => said ts

/-- How often it listens. -/
def hears : List Talk → Nat
  | [] => 0
  | .say _ _ _ :: ts => hears ts
  | .hear :: ts => hears ts + 1

/-- What `k` receiving calls tell a program whose peer says `ms` and then nothing: the first
messages in order, and then that there is no more. -/
def expected (ms : List OwnedMsg) (k : Nat) : List Heard :=
  (ms.take k).map Heard.message ++ List.replicate (k - ms.length) Heard.ended

/-- The two programs understand each other: both connect, every send succeeds, and each hears exactly
what the other says, in order, once, and then that there is no more. -/
structure Converse (cts sts : List Talk) (client server : Outcome) : Prop where
  connected : client.connected = true ∧ server.connected = true
  client_sent : client.sent = (said cts).map fun _ => true
  server_sent : server.sent = (said sts).map fun _ => true
  client_hears : client.heard = expected ((said sts).map Prod.fst) (hears cts)
  server_hears : server.heard = expected ((said cts).map Prod.fst) (hears sts)

end WS
