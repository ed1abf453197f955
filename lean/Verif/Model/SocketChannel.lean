import Verif.Model.BufferedChannel
import Verif.Spec.ChannelIo
/-
  /repo/src/SocketChannel.cxx: a channel connected to a socket.

  `SocketEvent` (libcommon) is represented by the two flags `rd` and `wr`: which
  events are scheduled.  It calls `OnSocketReady` with a subset of the scheduled
  events (and errors and hang-up).  What the system calls return is a parameter.
  Whether assertions are compiled in is a parameter too (`ndebug`).
-/
namespace Lukko.Model
open Lukko.Spec (IoEntry ChMsg)

/-- SocketChannel.hxx:20 and SessionChannel.hxx:27. -/
abbrev RECEIVE_WINDOW : Nat := 1048576

inductive IoStop
  /-- an exception that closes the connection -/
  | connection
  /-- `Close()`: CHANNEL_CLOSE was sent and the object is gone -/
  | channel
  | ub
  deriving DecidableEq, Repr

structure Sock where
  sendWin : Nat
  recvWin : Nat := RECEIVE_WINDOW
  rd : Bool := true
  wr : Bool := false
  shutWr : Bool := false
  log : List IoEntry := []
  deriving DecidableEq, Repr

def Sock.emit (s : Sock) (e : IoEntry) : Sock := { s with log := s.log ++ [e] }

/-- Result of a non-blocking `send()`. -/
inductive Wrote
  | wrote (n : Nat) | wouldBlock | failed
  deriving DecidableEq, Repr

/-- `Channel::ConsumeReceiveWindow`, Channel.cxx:90-96, `SendWindowAdjust`,
Channel.cxx:98-107, as used in SocketChannel.cxx:62-63. -/
def Sock.consume (s : Sock) (n : Nat) : Option Sock :=
  if n ≤ s.recvWin then
    if s.recvWin - n < RECEIVE_WINDOW / 2 then
      some { s.emit (.tx (.adjust (RECEIVE_WINDOW - (s.recvWin - n)))) with recvWin := RECEIVE_WINDOW }
    else some { s with recvWin := s.recvWin - n }
  else none

/-- `OnBufferedData`, SocketChannel.cxx:37-66; `OnBufferedEof`,
SocketChannel.cxx:68-72. -/
def Sock.ops : BufOps Sock Wrote where
  data s payload k :=
    match k with
    | .wouldBlock => ({ s with wr := true }, .ok 0)
    | .failed => (s, .error .throws)
    | .wrote m =>
      let n := min m payload.length
      let s := { s with wr := s.wr || decide (n < payload.length) }
      match s.consume n with
      | none => (s, .error .ub)
      | some s => (s, .ok n)
  eof s := { s with shutWr := true }

/-- The channel with its buffer. -/
structure SockCh where
  sock : Sock
  buf : Buf := {}
  stop : Option IoStop := none
  deriving DecidableEq, Repr

/-- The constructor, SocketChannel.cxx:11-19, with the initial window granted by the
peer. -/
def SockCh.init (w : Nat) : SockCh := { sock := { sendWin := w } }

def BufStop.toIo : BufStop → IoStop
  | .throws => .connection
  | .ub => .ub

def SockCh.ofBuf : Sock × Buf × Option BufStop → SockCh
  | (s, b, st) => ⟨s, b, st.map BufStop.toIo⟩

/-- `Close()`. -/
def SockCh.close (y : SockCh) : SockCh := { y with sock := y.sock.emit (.tx .close), stop := some .channel }

/-- Result of a non-blocking `recv()`: `none`: an error or end-of-file. -/
abbrev ReadResult := Option Nat

/-- The READ part of `OnSocketReady`, SocketChannel.cxx:105-134; the second result is
`empty`.  A positive number of bytes, at most the size of the buffer, is read. -/
def SockCh.onRead (ndebug : Bool) (y : SockCh) (r : ReadResult) : SockCh × Bool :=
  let size := min 4096 y.sock.sendWin
  if size = 0 then
    (bif ndebug then y.close else { y with stop := some .ub }, false)
  else
    match r with
    | none => (y.close, false)
    | some m =>
      let n := min (m + 1) size
      let s := { y.sock.emit (.tx (.data n)) with sendWin := y.sock.sendWin - n }
      ({ y with sock := { s with rd := s.rd && s.sendWin != 0 } }, decide (n < size))

/-- The WRITE part of `OnSocketReady`, SocketChannel.cxx:97-100, with what the
following `send()` calls return. -/
def SockCh.onWrite (y : SockCh) : Option (List (Nat × Wrote)) → SockCh
  | none => y
  | some ks => SockCh.ofBuf (y.buf.read Sock.ops { y.sock with wr := false } ks)

def SockCh.maybeRead (ndebug : Bool) (y : SockCh) : Option ReadResult → SockCh × Bool
  | none => (y, false)
  | some r => y.onRead ndebug r

/-- The HANGUP part of `OnSocketReady`, SocketChannel.cxx:136-141. -/
def SockCh.onHup (hup : Bool) : SockCh × Bool → SockCh
  | (y, empty) =>
    match y.stop with
    | some _ => y
    | none => bif hup && empty then y.close else y

/-- `OnSocketReady`, SocketChannel.cxx:88-144, for any combination of `WRITE`, `READ`
and `HANGUP`. -/
def SockCh.onReady (ndebug : Bool) (y : SockCh) (w : Option (List (Nat × Wrote))) (r : Option ReadResult) (hup : Bool) :
    SockCh :=
  match (y.onWrite w).stop with
  | some _ => y.onWrite w
  | none => SockCh.onHup hup ((y.onWrite w).maybeRead ndebug r)

inductive SockEvent
  | recvData (bs : Bytes) (k : Wrote)
  | recvExt (n : Nat)
  | recvEof
  | recvAdjust (n : Nat)
  | blocked | unblocked
  | error
  | ready (w : Option (List (Nat × Wrote))) (r : Option ReadResult) (hup : Bool)
  deriving DecidableEq, Repr

/-- One event.  `blocked` and `unblocked` are the notifications at our KEXINIT and our
NEWKEYS (C18).  Data is first checked by `HandleChannelData`, CSupport.cxx:417-426; extended
data is dropped by `Channel::OnExtendedData`, Channel.cxx:253-258;
window adjustment: `OnWindowAdjust`, SocketChannel.cxx:26-35. -/
def SockCh.handle (ndebug : Bool) (y : SockCh) : SockEvent → SockCh
  | .recvData bs k =>
    if bs.length > y.sock.recvWin then { y with stop := some .connection }
    else SockCh.ofBuf (y.buf.onData Sock.ops (y.sock.emit (.rx (.data bs.length))) bs k)
  | .recvExt n =>
    if n > y.sock.recvWin then { y with stop := some .connection }
    else { y with sock := { y.sock.emit (.rx (.ext n)) with recvWin := y.sock.recvWin - n } }
  | .recvEof => SockCh.ofBuf (y.buf.onEof Sock.ops (y.sock.emit (.rx .eof)))
  | .recvAdjust n =>
    if n = 0 then { y with stop := some .connection }
    else
      let s := { y.sock with rd := y.sock.rd || y.sock.sendWin == 0 }
      { y with sock := { s.emit (.rx (.adjust n)) with sendWin := s.sendWin + n } }
  | .blocked =>
    let s := y.sock.emit .kexinit
    { y with sock := { s with rd := s.rd && !(decide (0 < s.sendWin)) } }
  | .unblocked =>
    let s := y.sock.emit .newkeys
    { y with sock := { s with rd := s.rd || decide (0 < s.sendWin) } }
  | .error => bif y.sock.rd || y.sock.wr then y.close else y
  | .ready w r hup =>
    y.onReady ndebug (bif y.sock.wr then w else none) (bif y.sock.rd then r else none) hup

def SockCh.step (ndebug : Bool) (y : SockCh) (ev : SockEvent) : SockCh :=
  match y.stop with
  | some _ => y
  | none => y.handle ndebug ev

def SockCh.run (ndebug : Bool) (y : SockCh) (evs : List SockEvent) : SockCh := evs.foldl (SockCh.step ndebug) y

end Lukko.Model
