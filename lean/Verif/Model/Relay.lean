import Verif.Model.SocketChannel
import Verif.Spec.Relay
/-
  A forwarded connection as a whole: the channel of Model/SocketChannel together with
  the socket of the kernel, and with the bytes themselves.

  The socket is represented by what has arrived and was not read (`inbox`), whether the host
  has ended its direction (`fin`, then `recv()` returns 0 when everything was read) and
  whether it has aborted the connection (`broken`).  `EPOLLIN` is reported only if there is
  something to read, `EPOLLHUP` only after `fin` or `broken`, `EPOLLERR` only if
  `broken`; `send()` fails (other than `EAGAIN`) only if `broken`.  How much `recv()` and
  `send()` transfer is a parameter.
-/
namespace Lukko.Model
open Lukko.Spec (RelayEntry BufEntry IoEntry)

structure Relay where
  ch : SockCh
  inbox : Bytes := []
  fin : Bool := false
  broken : Bool := false
  log : List RelayEntry := []
  deriving DecidableEq, Repr

def Relay.note (y : Relay) (e : RelayEntry) : Relay := { y with log := y.log ++ [e] }

/-- What the input buffer did. -/
def relayOfBuf : BufEntry → RelayEntry
  | .recv bs => .client bs
  | .recvEof => .clientEnds
  | .took bs => .toHost bs
  | .sawEof => .endToHost

/-- What was sent: `Channel::SendData`, Channel.cxx:109-120, with what `ReadNoWait` has
read (SocketChannel.cxx:114, 126); `CloseChannel`, CSupport.cxx:178-202. -/
def Relay.send (y : Relay) : IoEntry → Relay
  | .tx (.data n) => { y.note (.toClient (y.inbox.take n)) with inbox := y.inbox.drop n }
  | .tx .close => y.note .closes
  | _ => y

def Relay.sends (y : Relay) (es : List IoEntry) : Relay := es.foldl Relay.send y

def IoStop.relay : IoStop → List RelayEntry
  | .connection => [.dies]
  | .channel => []
  | .ub => [.crashes]

/-- Record what the channel has done. -/
def Relay.absorb (y : Relay) (c : SockCh) : Relay :=
  let z := { y with ch := c, log := y.log ++ (c.buf.log.drop y.ch.buf.log.length).map relayOfBuf }
  let z := z.sends (c.sock.log.drop y.ch.sock.log.length)
  { z with log := z.log ++ (c.stop.map IoStop.relay).getD [] }

inductive RelayEvent
  | hostSends (bs : Bytes)
  | hostEnds
  | hostResets
  | clientData (bs : Bytes) (k : Wrote)
  | clientExt (n : Nat)
  | clientEof
  | clientAdjust (n : Nat)
  | clientClose
  | blocked | unblocked
  | error
  /-- the socket is ready: for writing, with the sizes of the pieces of the queue and what `send()` returns;
  for reading, and `recv()` leaves out so many bytes which it could have returned; hang-up -/
  | ready (write : Option (List (Nat × Wrote))) (read : Bool) (short : Nat) (hup : Bool)
  deriving DecidableEq, Repr

/-- `send()` fails only if the connection was aborted. -/
def Wrote.real (broken : Bool) : Wrote → Wrote
  | .failed => bif broken then .failed else .wouldBlock
  | k => k

/-- What `send()` returns in the turns of `ReadBuffer`; at last nothing more is accepted. -/
def Relay.writes (y : Relay) (ks : List (Nat × Wrote)) : List (Nat × Wrote) :=
  ks.map (fun x => (x.1, x.2.real y.broken)) ++ [(0, .wouldBlock)]

/-- What `recv()` returns; `none`: there is nothing to read, and no `EPOLLIN`. -/
def Relay.reads (y : Relay) (short : Nat) : Option ReadResult :=
  if y.inbox = [] then bif y.fin || y.broken then some none else none
  else some (some (y.inbox.length - 1 - short))

/-- Does the message of the client break the rules, CSupport.cxx:410-411, 422-423, 434-435? -/
def Relay.breaks (y : Relay) : RelayEvent → Bool
  | .clientData bs _ => decide (bs.length > y.ch.sock.recvWin)
  | .clientExt n => decide (n > y.ch.sock.recvWin)
  | .clientAdjust n => n == 0
  | _ => false

/-- The event as the channel sees it. -/
def Relay.event (y : Relay) : RelayEvent → Option SockEvent
  | .clientData bs k => some (.recvData bs (k.real y.broken))
  | .clientExt n => some (.recvExt n)
  | .clientEof => some .recvEof
  | .clientAdjust n => some (.recvAdjust n)
  | .blocked => some .blocked
  | .unblocked => some .unblocked
  | .error => bif y.broken then some .error else none
  | .ready w r short hup =>
    some (.ready (w.map y.writes) (bif r then y.reads short else none) (hup && (y.fin || y.broken)))
  | _ => none

/-- What is known before the channel acts. -/
def Relay.before (y : Relay) (ev : RelayEvent) : Relay :=
  match ev with
  | .hostSends bs => bif y.fin || y.broken then y else { y.note (.host bs) with inbox := y.inbox ++ bs }
  | .hostEnds => { y.note .hostEnds with fin := true }
  | .hostResets => { y.note .resets with broken := true }
  | .clientClose => y.note .clientCloses
  | ev => bif y.breaks ev then y.note .clientBreaks else y

/-- What the channel does: `HandleChannelClose`, CSupport.cxx:450-460, or one of the events of Model/SocketChannel. -/
def Relay.act (nd : Bool) (y : Relay) (ev : RelayEvent) : SockCh :=
  match ev with
  | .clientClose => y.ch.close
  | ev =>
    match y.event ev with
    | none => y.ch
    | some e => y.ch.handle nd e

def Relay.step (nd : Bool) (y : Relay) (ev : RelayEvent) : Relay :=
  match y.ch.stop with
  | some _ => y
  | none => (y.before ev).absorb (y.act nd ev)

def Relay.run (nd : Bool) (y : Relay) (evs : List RelayEvent) : Relay := evs.foldl (Relay.step nd) y

/-- The connection to the host is established, SocketChannel.cxx:11-19; the client grants `w` bytes. -/
def Relay.init (w : Nat) : Relay := { ch := SockCh.init w }

end Lukko.Model
