import Verif.Model.Auth
import Verif.Spec.Deadline
/-
  The authentication timer of a connection: the connection of Model/Auth with a clock.
  Timers expire when they are due (the event loop is not modelled).
-/
namespace Lukko.Model
open Lukko.Spec

/-- Connection.cxx:202 -/
abbrev AUTH_TIMEOUT_FIRST : Nat := 10 * 1000

/-- Connection.cxx:800 -/
abbrev AUTH_TIMEOUT_LATER : Nat := 2 * 60 * 1000

/-- `class Connection`: `deadline` is `auth_timeout` (`none`: not scheduled), `gotRequest` is
`got_userauth_request`; `now` and `hist` are not in the code. -/
structure Timed where
  y : Auth := {}
  now : Nat := 0
  deadline : Option Nat := some AUTH_TIMEOUT_FIRST
  gotRequest : Bool := false
  hist : Timeline := []
  deriving DecidableEq, Repr

/-- Whether this packet makes `UserAuthServer` call `OnUserAuthRequest`: no other handler
takes it (ssh/Connection.cxx:724-750), and it passes the checks in UserAuthServer.cxx:61-142. -/
def Auth.takesRequest (y : Auth) : AuthEv → Bool
  | .packet msg payload _ =>
    (y.laterHandlers msg payload).isNone && y.userAuth && y.task.isNone && (msg == MSG_USERAUTH_REQUEST) &&
      !y.authenticated && y.haveService
  | _ => false

/-- The connection goes from one state to the next: what happened gets a time stamp. -/
def Timed.goto (s : Timed) (y : Auth) : Timed :=
  { s with y := y, hist := s.hist ++ (y.log.drop s.y.log.length).map fun e => (s.now, e) }

/-- `OnAuthTimeout`, Connection.cxx:1323-1334; `DoDisconnect` cancels the timer (1268). -/
def Timed.expire (s : Timed) (due : Nat) : Timed :=
  { s with now := due, deadline := none }.goto (s.y.disconnect 10)

/-- Time passes. -/
def Timed.wait (s : Timed) (t : Nat) : Timed :=
  match s.deadline with
  | none => { s with now := max s.now t }
  | some due =>
    if due ≤ t then { s.expire due with now := max s.now t } else { s with now := max s.now t }

/-- Connection.cxx:796-801 -/
def Timed.request (s : Timed) (ev : AuthEv) : Timed :=
  bif !s.y.stop && s.y.takesRequest ev && !s.gotRequest then
    { s with gotRequest := true, deadline := some (s.now + AUTH_TIMEOUT_LATER) }
  else s

/-- The timer is cancelled by authentication (Connection.cxx:1147), by `DoDisconnect` (1268)
and by the destructor. -/
def Timed.cancel (s : Timed) : Timed :=
  bif s.y.stop || s.y.authenticated then { s with deadline := none } else s

/-- Something happens at the time `t`. -/
def Timed.step (cfg : AuthCfg) (s : Timed) (t : Nat) (ev : AuthEv) : Timed :=
  let s := (s.wait t).request ev
  (s.goto (s.y.step cfg ev)).cancel

/-- An event with its time; `none`: only time passes.  (The timer decides by itself when it
expires, hence `authTimeout` is not an event here.) -/
abbrev TimedEv := Nat × Option AuthEv

def Timed.next (cfg : AuthCfg) (s : Timed) (e : TimedEv) : Timed :=
  match e.2 with
  | none => s.wait e.1
  | some .authTimeout => s.wait e.1
  | some ev => s.step cfg e.1 ev

def Timed.run (cfg : AuthCfg) (evs : List TimedEv) : Timed := evs.foldl (Timed.next cfg) {}

end Lukko.Model
