import Verif.Spec.Census
/-
  /repo/src/Listener.cxx, /repo/src/DelayedConnection.cxx and the parts of
  /repo/src/Connection.cxx and /repo/src/ssh/Connection.cxx about the beginning and the end of
  connections: statistics and log lines.

  Whether a connection is admitted is the business of Model/Accounting (C46); why it ends, of Model/Server (C85).
  Here both are parameters.
-/
namespace Lukko.Model
open Lukko.Spec (CensusEntry CensusCounter EndLine)

inductive CensusPhase
  /-- a `DelayedConnection` -/
  | waiting
  /-- a `Connection` -/
  | live
  /-- a `Connection` whose DISCONNECT is waiting to be sent, ssh/Connection.cxx:193-208 -/
  | dead
  deriving DecidableEq, Repr

structure CensusConn where
  id : Nat
  phase : CensusPhase
  /-- `log_disconnect`, Connection.hxx:114 -/
  logDisconnect : Bool := true
  deriving DecidableEq, Repr

/-- `Listener::connections`, `Listener::delayed_connections` (of all listeners) and what was counted and logged. -/
structure Census where
  next : Nat := 0
  conns : List CensusConn := []
  log : List CensusEntry := []
  deriving DecidableEq, Repr

/-- What `OnAccept()` decides. -/
inductive CensusVerdict
  | refused | waits | starts | fails
  deriving DecidableEq, Repr

inductive CensusEvent
  | accept (v : CensusVerdict)
  /-- the delay is over; can the connection be set up? -/
  | timer (id : Nat) (ok : Bool)
  /-- the client disconnects while waiting -/
  | leave (id : Nat)
  /-- `DoDisconnect()`; is the output encrypted? -/
  | disconnect (id reason : Nat) (encrypted : Bool)
  /-- the client sends DISCONNECT -/
  | clientDisconnect (id : Nat)
  /-- an error, end of the stream, hang-up, or (if dead) the output was flushed -/
  | drop (id : Nat)
  /-- `OnAuthTimeout()` -/
  | timeout (id : Nat) (encrypted : Bool)
  | wrongService (id : Nat) (encrypted : Bool)
  | badKey (id : Nat)
  /-- the connection to the proxy target is being closed by us, or by the target -/
  | outgoingDisconnecting (id : Nat) | outgoingDisconnected (id : Nat)
  /-- TERMINATE_CHILDREN applies to these connections; is the output encrypted? -/
  | terminate (ids : List (Nat × Bool))
  /-- the server exits -/
  | exit
  deriving DecidableEq, Repr

def Census.say (y : Census) (es : List CensusEntry) : Census := { y with log := y.log ++ es }

def Census.find (y : Census) (id : Nat) : Option CensusConn := y.conns.find? (·.id == id)

/-- A `Connection` which was not deleted. -/
def Census.served (y : Census) (id : Nat) : Option CensusConn := (y.find id).filter (·.phase != .waiting)

/-- A `Connection` which is not dead. -/
def Census.active (y : Census) (id : Nat) : Option CensusConn := (y.find id).filter (·.phase == .live)

def Census.update (y : Census) (id : Nat) (f : CensusConn → CensusConn) : Census :=
  { y with conns := y.conns.map fun c => bif c.id == id then f c else c }

def Census.remove (y : Census) (id : Nat) : Census := { y with conns := y.conns.filter (·.id != id) }

/-- `if (log_disconnect) { log_disconnect = false; …(line) }`, Connection.cxx:219-222, 1274-1277, 1310-1313,
1326-1329, 1439-1442, 1453-1456. -/
def Census.logEnd (y : Census) (c : CensusConn) (l : EndLine) : Census :=
  bif c.logDisconnect then (y.update c.id fun c => { c with logDisconnect := false }).say [.line c.id l] else y

/-- `Listener::Dispose()`, Listener.cxx:207-212, with the destructor, Connection.cxx:208-214. -/
def Census.dispose (y : Census) (c : CensusConn) : Census :=
  (y.remove c.id).say ((bif c.logDisconnect then [.line c.id .disconnected] else []) ++ [.ended c.id])

/-- The counters in `Connection::OnDisconnecting`, Connection.cxx:1279-1303. -/
def reasonCounter (id reason : Nat) : List CensusEntry :=
  if reason = 2 ∨ reason = 3 ∨ reason = 5 ∨ reason = 6 ∨ reason = 8 ∨ reason = 15 then [.count id .protocol]
  else if reason = 1 ∨ reason = 12 then [.count id .rejected]
  else []

/-- `DoDisconnect()`, ssh/Connection.cxx:183-227, with `OnDisconnecting`, Connection.cxx:1260-1304. -/
def Census.disconnect (y : Census) (id reason : Nat) (encrypted : Bool) : Census :=
  match y.active id with
  | none => y
  | some c =>
    let y := (y.logEnd c .disconnecting).say (.goodbye id reason :: reasonCounter id reason)
    bif encrypted then y.update id fun c => { c with phase := .dead }
    else y.dispose { c with logDisconnect := false }

/-- `Connection::Terminate()`, Connection.cxx:216-228: dead connections are still in the list. -/
def Census.terminate (y : Census) (x : Nat × Bool) : Census :=
  match y.served x.1 with
  | none => y
  | some c => ((y.logEnd c .terminating).say [.order x.1, .count x.1 .terminated]).disconnect x.1 10 x.2

/-- `OnAccept()`, Listener.cxx:214-257: the counters, and the outcome. -/
def Census.accept (y : Census) (v : CensusVerdict) : Census :=
  let id := y.next
  let y := { y.say [.accepted id, .count id .accepted] with next := id + 1 }
  match v with
  | .refused => y.say [.refused id, .count id .rejected]
  | .waits => { y.say [.waits id] with conns := y.conns ++ [{ id, phase := .waiting }] }
  | .starts => { y.say [.started id] with conns := y.conns ++ [{ id, phase := .live }] }
  | .fails => y.say [.failed id]

/-- The destruction of what is left when the server exits: `listeners.clear()`, Instance.cxx:127-145, with
`~Listener()`, Listener.cxx:148-151. -/
def Census.clear (y : Census) (c : CensusConn) : Census :=
  match c.phase with
  | .waiting => (y.remove c.id).say [.left c.id]
  | _ => y.dispose c

def Census.step (y : Census) (ev : CensusEvent) : Census :=
  match ev with
  | .accept v => y.accept v
  /- DelayedConnection.cxx:35-51 -/
  | .timer id ok =>
    match (y.find id).filter (·.phase == .waiting) with
    | none => y
    | some _ =>
      bif ok then (y.update id fun c => { c with phase := .live }).say [.started id]
      else (y.remove id).say [.failed id]
  /- DelayedConnection.cxx:53-58 -/
  | .leave id =>
    match (y.find id).filter (·.phase == .waiting) with
    | none => y
    | some _ => (y.remove id).say [.left id]
  | .disconnect id reason encrypted => y.disconnect id reason encrypted
  /- ssh/Connection.cxx:446-454, Connection.cxx:1306-1314 -/
  | .clientDisconnect id =>
    match y.active id with
    | none => y
    | some c => (y.logEnd c .clientDisconnected).dispose { c with logDisconnect := false }
  /- ssh/Connection.cxx:803-822, 827-830, 838-841, 877-881, 901-913; Connection.cxx:1316-1321 -/
  | .drop id =>
    match y.served id with
    | none => y
    | some c => y.dispose c
  /- Connection.cxx:1323-1334 -/
  | .timeout id encrypted =>
    match y.active id with
    | none => y
    | some c => (y.logEnd c .authTimeout).disconnect id 10 encrypted
  /- Connection.cxx:774-778, ssh/UserAuthServer.cxx:36-42 -/
  | .wrongService id encrypted =>
    match y.active id with
    | none => y
    | some _ => (y.say [.wrongService id, .count id .unsupportedService]).disconnect id 7 encrypted
  /- Connection.cxx:989-997, 1063-1071 -/
  | .badKey id =>
    match y.active id with
    | none => y
    | some _ => y.say [.badKey id, .count id .protocol]
  /- Connection.cxx:1434-1447 -/
  | .outgoingDisconnecting id =>
    match y.served id with
    | none => y
    | some c => y.logEnd c .outgoingDisconnecting
  /- Connection.cxx:1449-1457 -/
  | .outgoingDisconnected id =>
    match y.served id with
    | none => y
    | some c => y.logEnd c .outgoingDisconnected
  /- Listener.cxx:267-279 -/
  | .terminate ids => ids.foldl Census.terminate y
  | .exit => y.conns.foldl Census.clear y

def Census.run (y : Census) (evs : List CensusEvent) : Census := evs.foldl Census.step y

/-- "connections_active": `Listener::GetStats()`, Listener.hxx:193-197, Instance.cxx:193-195. -/
def Census.activeGauge (y : Census) : Nat := (y.conns.filter (·.phase != .waiting)).length

def Census.waitingCount (y : Census) : Nat := (y.conns.filter (·.phase == .waiting)).length

end Lukko.Model
