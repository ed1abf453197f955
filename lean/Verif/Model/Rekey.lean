import Verif.Model.Pair
import Verif.Spec.Renewal
/-
  When keys are renewed, /repo/src/ssh/Connection.cxx: `rekey_timer` and
  `encrypted_bytes_since_kex`.  They accompany the key exchange of Kex.lean: every entry of
  its history stands for a place in the code, and `Ry.note` tells what this place
  does with the timer and with the counter.
-/
namespace Lukko.Model
open Lukko.Spec

/-- `REKEY_BYTES`, Connection.hxx:39-43. -/
abbrev rekeyBytes : Nat := 1073741824

/-- `REKEY_INTERVAL` in seconds, Connection.hxx:44. -/
abbrev rekeyInterval : Nat := 3600

structure RyEnv where
  kex : KexEnv
  /-- `src.size() + cipher->GetAuthSize()`, Connection.cxx:155: the size of a packet with padding and MAC -/
  size : Bytes × Bytes → Bytes → Nat

/-- A connection with a clock. -/
structure Ry where
  sys : KxSys
  /-- the clock, in seconds -/
  now : Nat := 0
  /-- `rekey_timer`: when it will fire -/
  timer : Option Nat := none
  /-- `output.GetCipher()` -/
  cipher : Option (Bytes × Bytes) := none
  /-- `encrypted_bytes_since_kex` -/
  bytes : Nat := 0
  /-- `kex_flags.IsIdle()`, also in the middle of an event (`idle_flags` in Proof/Rekey.lean shows
  that it agrees with `Kx.flags`) -/
  idle : Bool := true
  /-- the history with times -/
  book : Book := []
  deriving DecidableEq, Repr

/-- `SendPacket`, Connection.cxx:139-163.  (`SendKexInit` sets `kexinit_sent` before, Connection.cxx:284-289.) -/
def Ry.sent (e : RyEnv) (y : Ry) (p : Bytes) : Ry :=
  let y := { y with idle := y.idle && !isMsg MSG_KEXINIT p }
  match y.cipher with
  | none => y
  | some c =>
    let y := { y with bytes := y.bytes + e.size c p }
    bif y.sys.kx.authenticated && decide (rekeyBytes ≤ y.bytes) && y.idle then { y with timer := some y.now } else y

/-- `HandleKexInit`, Connection.cxx:459-475 and `HandleNewKeys`, Connection.cxx:547: both cancel the timer
first. -/
def Ry.recv (y : Ry) (p : Bytes) : Ry :=
  bif isMsg MSG_KEXINIT p then { y with idle := false, timer := none }
  else bif isMsg MSG_NEWKEYS p then { y with timer := none }
  else y

/-- What one place in the code does.  `installOut`: `SendNewKeys`, Connection.cxx:385-413 (the exchange is not complete
then, the peer's NEWKEYS was not yet received).  `installIn`: `HandleNewKeys`, Connection.cxx:587-591 (the
exchange is complete, NEWKEYS was sent). -/
def Ry.effect (e : RyEnv) (y : Ry) : Entry → Ry
  | .sent p => y.sent e p
  | .recv p => y.recv p
  | .installOut enc mac _ => { y with cipher := some (enc, mac), bytes := 0, timer := none }
  | .installIn .. => { y with idle := true, timer := some (y.now + rekeyInterval) }
  | _ => y

def Ry.note (e : RyEnv) (y : Ry) (x : Entry) : Ry :=
  { y.effect e x with book := y.book ++ [(y.now, .entry x)] }

/-- The connection went on to `sys`: follow what happened on the way.  `DoDisconnect`, Connection.cxx:200, and
the destructor cancel the timer. -/
def Ry.absorb (e : RyEnv) (y : Ry) (sys : KxSys) : Ry :=
  let y := { (sys.kx.log.drop y.sys.kx.log.length).foldl (Ry.note e) y with sys := sys }
  bif sys.stop.isNone then y else { y with timer := none }

/-- What can happen. -/
inductive RyEvent
  /-- something of the key exchange (the timer has an event of its own) -/
  | kx (ev : KxEvent)
  /-- the application sends a packet -/
  | send (p : Bytes)
  /-- the event loop finds that `rekey_timer` is due -/
  | timer
  /-- a second passes -/
  | tick
  deriving DecidableEq, Repr

/-- Is `rekey_timer` due? -/
def Ry.due (y : Ry) : Bool :=
  match y.timer with
  | none => false
  | some d => decide (d ≤ y.now)

/-- `SetAuthenticated`, Connection.cxx:105-116. -/
def Ry.login (e : RyEnv) (y : Ry) : Ry :=
  bif y.sys.kx.isEncrypted && !y.sys.kx.authenticated then
    { y with sys := y.sys.step e.kex .authenticated, timer := some (y.now + rekeyInterval),
             book := y.book ++ [(y.now, .login)] }
  else y

/-- `OnRekeyTimer`, Connection.cxx:131-137. -/
def Ry.fire (e : RyEnv) (y : Ry) : Ry :=
  bif y.due then { y with timer := none }.absorb e (.finish (y.sys.kx.initiateRekey e.kex)) else y

/-- One event.  Timers are punctual: no second passes while the timer is due. -/
def Ry.step (e : RyEnv) (y : Ry) (ev : RyEvent) : Ry :=
  match y.sys.stop with
  | some _ => y
  | none =>
    match ev with
    | .kx .authenticated => y.login e
    | .kx .rekeyTimer => y
    | .kx ev => y.absorb e (y.sys.step e.kex ev)
    | .send p => y.absorb e (y.sys.sendPlain p)
    | .timer => y.fire e
    | .tick => bif y.due then y else { y with now := y.now + 1 }

def Ry.run (e : RyEnv) (y : Ry) (evs : List RyEvent) : Ry := evs.foldl (Ry.step e) y

/-- A new connection. -/
def Ry.init (role : Role) : Ry := { sys := .init role }

end Lukko.Model
