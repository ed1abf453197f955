import Verif.Model.Accounting
import Verif.Model.Tally
import Verif.Spec.Guard
/-
  A listener (Model/Accounting.lean) with its connections (Model/Auth.lean, Model/Tally.lean) and the clock: requests
  are delayed (Connection.cxx:801-823), failures are sent not before 100 milliseconds have passed
  (Connection.cxx:804-806), and the client is charged.
-/
namespace Lukko.Model
open Lukko.Spec (AuthEntry AcctEntry GuardEntry Tally)

/-- A `Connection`; `asked`: when the request being processed was received; `wake`: when its delay is over. -/
structure GuardConn where
  id : Nat
  client : Option Bytes
  auth : Auth := {}
  asked : Nat := 0
  wake : Nat := 0

structure Guard where
  acct : Acct := {}
  conns : List GuardConn := []
  log : List GuardEntry := []

inductive GuardEv where
  /-- connections are accepted, closed, …; time passes -/
  | acct (ev : AcctEv)
  /-- something happens on a connection -/
  | conn (id : Nat) (ev : AuthEv)

/-- `AccountedClientConnection::GetDelay()`, ClientAccounting.cxx:24-30. -/
def Acct.delayOf (s : Acct) : Option Bytes → Nat
  | none => 0
  | some a => match s.find a with
    | none => 0
    | some e => e.throttle.delay

/-- Timers do not expire early: `Co::Sleep`, Connection.cxx:822, and `Co::LazySleep`, Connection.cxx:807 (libcommon). -/
def GuardConn.due (c : GuardConn) (now : Nat) (ev : AuthEv) : Bool :=
  match ev with
  | .timer =>
    match c.auth.task with
    | some (.tarpit _) => decide (c.wake ≤ now)
    | some (.failSleep _) => decide (c.asked + 100000000 ≤ now)
    | _ => true
  | _ => true

/-- Whether a request is delayed depends on the accounting, Connection.cxx:819. -/
def AuthEv.delayedBy (d : Nat) : AuthEv → AuthEv
  | .packet m p _ => .packet m p (decide (0 < d))
  | ev => ev

/-- A request for authentication which will be processed, Connection.cxx:789-807. -/
def GuardConn.asks (c : GuardConn) : AuthEv → Bool
  | .packet m _ _ => m == 50 && c.auth.task.isNone
  | _ => false

/-- All `UpdateTokenBucket()` of one event. -/
def Acct.chargeAll (cfg : AcctCfg) (s : Acct) (id : Nat) (ts : List Tally) : Acct :=
  ts.foldl (fun s t => match t with | .tokens n => s.step cfg (.charge id n) | .count _ => s) s

/-- The connection afterwards. -/
def GuardConn.after (cfg : AuthCfg) (c : GuardConn) (now delay : Nat) (ev : AuthEv) : GuardConn :=
  let c' := bif c.asks ev then { c with asked := now, wake := now + delay } else c
  { c' with auth := c.auth.step cfg ev }

/-- An event on a connection. -/
def Guard.serve (acfg : AcctCfg) (cfg : AuthCfg) (g : Guard) (c : GuardConn) (ev : AuthEv) : Guard :=
  let c' := c.after cfg g.acct.now (g.acct.delayOf c.client) ev
  let acct := g.acct.chargeAll acfg c.id (c.auth.tally cfg ev)
  { acct
    conns := g.conns.map fun x => bif x.id == c.id then c' else x
    log := g.log ++ ((c'.auth.log.drop c.auth.log.length).map (.on c.id c.client g.acct.now) ++
      (acct.log.drop g.acct.log.length).map .acct) }

/-- An event of the listener: `Listener::OnAccept()`, `DelayedConnection::OnTimer()`, … -/
def Guard.listener (acfg : AcctCfg) (g : Guard) (ev : AcctEv) : Guard :=
  let acct := g.acct.step acfg ev
  { acct
    conns := (g.conns.filter fun x => acct.conns.any fun c => c.id == x.id) ++
      (acct.conns.filter fun c => !c.delayed && decide (g.acct.nextId ≤ c.id)).map fun c => { id := c.id, client := c.client }
    log := g.log ++ (acct.log.drop g.acct.log.length).map .acct }

def Guard.step (acfg : AcctCfg) (cfg : Nat → AuthCfg) (g : Guard) : GuardEv → Guard
  | .acct (.charge _ _) => g
  | .acct ev => g.listener acfg ev
  | .conn id ev =>
    match g.conns.find? (·.id == id) with
    | none => g
    | some c =>
      bif c.due g.acct.now ev then g.serve acfg (cfg c.id) c (ev.delayedBy (g.acct.delayOf c.client)) else g

def Guard.run (acfg : AcctCfg) (cfg : Nat → AuthCfg) (g : Guard) (evs : List GuardEv) : Guard :=
  evs.foldl (Guard.step acfg cfg) g

end Lukko.Model
