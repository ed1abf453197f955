import Verif.Model.Messages
/-
  The first bytes which are sent on a connection, and connections that are turned away:
  /repo/src/ssh/IdentificationString.hxx, /repo/src/ssh/EarlyDisconnect.cxx.
-/
namespace Lukko.Model

/-- `IDENTIFICATION_STRING`, ssh/IdentificationString.hxx:14; `version` comes from the build
system.  It is the first thing a connection sends, ssh/Connection.cxx:74. -/
def identificationString (version : Bytes) : Bytes := ascii "SSH-2.0-Lukko_" ++ version ++ ascii " CM4all" ++ [13, 10]

/-- `IDENTIFICATION_STRING` without the last two bytes, as used for the exchange hash,
ssh/Connection.cxx:344-345 and 663-664. -/
def ownVersion (version : Bytes) : Bytes :=
  (identificationString version).take ((identificationString version).length - 2)

/-- `SendEarlyDisconnect`, ssh/EarlyDisconnect.cxx:14-29: what is sent. -/
def sendEarlyDisconnect (version : Bytes) (reason : Nat) (msg : Bytes) (rnd : Nat → Bytes) : Except SerError Bytes := do
  let s ← makeDisconnect reason msg
  let p ← s.finishPacket 8 false rnd
  pure (identificationString version ++ p)

/-- ssh/Protocol.hxx:125 -/
abbrev TOO_MANY_CONNECTIONS : Nat := 12

/-- A client is turned away (`rejected` in Model/Accounting), Listener.cxx:232-234. -/
def turnAway (version : Bytes) (rnd : Nat → Bytes) : Except SerError Bytes :=
  sendEarlyDisconnect version TOO_MANY_CONNECTIONS (ascii "Too many connections") rnd

end Lukko.Model
