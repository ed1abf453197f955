import Verif.Model.Kex
import Verif.Spec.Pair
/-
  Two programs built from this code which talk to each other: a client
  (/repo/src/OutgoingConnection.cxx, used by a proxying lukko) and a server (/repo/src/Connection.cxx), connected by a network which loses, reorders and alters nothing.
  Both sides are the connection of Kex.lean.
-/
namespace Lukko.Model
open Lukko.Spec (inFlight isPlain)

/-- A client and a server. -/
structure Pair where
  client : KxSys := .init .client
  server : KxSys := .init .server
  deriving DecidableEq, Repr

/-- What can happen to the pair. -/
inductive PairEvent
  /-- the identification string of the other side arrives here -/
  | version (at_ : Role)
  /-- the next packet of the other side arrives here; `handled`: a registered handler takes it -/
  | deliver (at_ : Role) (handled : Bool)
  /-- the application sends a packet -/
  | send (at_ : Role) (packet : Bytes)
  | authenticated (at_ : Role)
  | rekeyTimer (at_ : Role)
  | writable (at_ : Role) (more : Bool)
  deriving DecidableEq, Repr

/-- What the registered handlers do with a packet; they do not touch DISCONNECT and the packets of the
key exchange, Connection.cxx:748-781, and do not refuse anything here. -/
def pairClaim (packet : Bytes) (handled : Bool) : Claim := bif handled && isPlain packet then .claimed else .unclaimed

/-- `SendPacket`, Connection.cxx:139-173, called by the application on an encrypted connection. -/
def KxSys.sendPlain (y : KxSys) (packet : Bytes) : KxSys :=
  bif isPlain packet && y.kx.outputEncrypted && y.stop.isNone then { y with kx := y.kx.emit (.sent packet) } else y

/-- What happens to one side; `other` is the other side and `v` its identification string. -/
def KxSys.pairStep (e : KexEnv) (v : Bytes) (y other : KxSys) : PairEvent → KxSys
  | .version _ => y.step e (.version v)
  | .deliver _ handled =>
    match inFlight other.kx.log y.kx.log with
    | [] => y
    | packet :: _ => y.step e (.packet packet (pairClaim packet handled))
  | .send _ packet => y.sendPlain packet
  | .authenticated _ => y.step e .authenticated
  | .rekeyTimer _ => y.step e .rekeyTimer
  | .writable _ more => y.step e (.writable more)

/-- Where an event happens. -/
def PairEvent.place : PairEvent → Role
  | .version r | .deliver r _ | .send r _ | .authenticated r | .rekeyTimer r | .writable r _ => r

/-- One event; `c` and `s` are the environments of client and server. -/
def Pair.step (c s : KexEnv) (p : Pair) (ev : PairEvent) : Pair :=
  match ev.place with
  | .client => { p with client := p.client.pairStep c s.ownVersion p.server ev }
  | .server => { p with server := p.server.pairStep s c.ownVersion p.client ev }

def Pair.run (c s : KexEnv) (p : Pair) (evs : List PairEvent) : Pair := evs.foldl (Pair.step c s) p

end Lukko.Model
