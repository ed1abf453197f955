import Verif.Base
/-
  A forwarded connection: a client, the server, and a host to which the server is
  connected on behalf of the client.  Nothing here refers to the model.
-/
namespace Lukko.Spec

inductive RelayEntry
  /-- the host sent these bytes (they have arrived at the server) -/
  | host (bs : Bytes)
  /-- the host will send nothing more (but may go on receiving) -/
  | hostEnds
  /-- the host aborted the connection -/
  | resets
  /-- the client sent these bytes -/
  | client (bs : Bytes)
  /-- the client will send nothing more (but may go on receiving) -/
  | clientEnds
  /-- the client closed the channel -/
  | clientCloses
  /-- the client sent more than it was allowed to, or something meaningless -/
  | clientBreaks
  /-- the server passed these bytes on to the host -/
  | toHost (bs : Bytes)
  /-- the server told the host that nothing more will come -/
  | endToHost
  /-- the server passed these bytes on to the client -/
  | toClient (bs : Bytes)
  /-- the server closed the channel -/
  | closes
  /-- the server closed the whole connection of the client, with all other channels -/
  | dies
  /-- an internal check of the server failed -/
  | crashes
  deriving DecidableEq, Repr

def RelayEntry.hostPart : RelayEntry → Bytes
  | .host bs => bs
  | _ => []

def RelayEntry.clientPart : RelayEntry → Bytes
  | .client bs => bs
  | _ => []

def RelayEntry.toHostPart : RelayEntry → Bytes
  | .toHost bs => bs
  | _ => []

def RelayEntry.toClientPart : RelayEntry → Bytes
  | .toClient bs => bs
  | _ => []

/-- All bytes sent by the host, sent by the client, received by the host, received by the client. -/
def hostSaid (log : List RelayEntry) : Bytes := log.flatMap RelayEntry.hostPart
def clientSaid (log : List RelayEntry) : Bytes := log.flatMap RelayEntry.clientPart
def hostHeard (log : List RelayEntry) : Bytes := log.flatMap RelayEntry.toHostPart
def clientHeard (log : List RelayEntry) : Bytes := log.flatMap RelayEntry.toClientPart

end Lukko.Spec
