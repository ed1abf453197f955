import Verif.Model.Session
import Verif.Spec.Agent
/-
  `class AgentForward`, /repo/src/AgentForward.cxx, together with the session channel to
  which it belongs.  The channels are in Model/ChannelSupport.
-/
namespace Lukko.Model
open Lukko.Spec

/-- A session channel; `waiting`: the `factories` of its `agent_forward`.  `conn`: for
numbering only. -/
structure AgSess where
  ch : SessCh
  conn : Nat := 0
  waiting : List Nat := []
  log : List AgentEntry := []

def AgSess.say (s : AgSess) (e : AgentEntry) : AgSess := { s with log := s.log ++ [e] }

/-- `~AgentForward`, AgentForward.cxx:112-116, `~Factory`, 38-43. -/
def AgSess.clear (s : AgSess) : AgSess := { s with waiting := [], log := s.log ++ s.waiting.map .dropped }

/-- `PrepareAgentForward` (SessionChannel.cxx:257) is going to replace an `AgentForward`; only
possible if assertions are disabled (SessionChannel.cxx:287). -/
def AgSess.replaces (cfg : SessCfg) (s : AgSess) : SessEvent → Bool
  | .enqueued id r =>
    match s.ch.s.tasks.lookup id, r with
    | some (.exec _), .prepareFails _ _ => false
    | some (.exec _), _ => cfg.ndebug && s.ch.s.agent && s.ch.s.agentReq
    | _, _ => false
  | _ => false

/-- Everything in Model/Session.  When the channel is destroyed, so is its `agent_forward`. -/
def AgSess.session (cfg : SessCfg) (s : AgSess) (ev : SessEvent) : AgSess :=
  let s := bif s.replaces cfg ev then s.clear else s
  let ch := s.ch.step cfg ev
  let s := { s with ch := ch, log := s.log ++ (ch.s.log.drop s.ch.s.log.length).map .session }
  bif ch.stop.isSome then s.clear.say .ended else s

/-- `OnAccept`, AgentForward.cxx:118-131; `room`: `OpenChannel` does not throw. -/
def AgSess.accept (s : AgSess) (room : Bool) : AgSess :=
  bif s.ch.s.agent then
    let c := s.conn
    let s := { s with conn := c + 1 }.say (.connected c)
    bif room then { s with waiting := s.waiting ++ [c] }.say (.offered c) else s.say (.dropped c)
  else s

/-- `OnAgentForwardError`, SessionChannel.cxx:993-999. -/
def AgSess.acceptError (s : AgSess) : AgSess :=
  bif s.ch.s.agent then { s with ch := { s.ch with s := { s.ch.s with agent := false } } }.clear else s

/-- The connection stops waiting. -/
def AgSess.resolve (s : AgSess) (c : Nat) (e : AgentEntry) : AgSess :=
  bif s.waiting.contains c then { s with waiting := s.waiting.filter (· != c) }.say e else s

inductive AgEv
  | session (ev : SessEvent)
  | accept (room : Bool)
  | acceptError
  /-- `CreateChannel`, AgentForward.cxx:71-81 -/
  | confirmed (c : Nat)
  /-- `OnChannelOpenFailure`, `OnChannelCancel`, `OnSocketReady` (the process has closed the
  connection), AgentForward.cxx:60-62, 83-105; the defect described in C23 is not modelled
  here -/
  | refused (c : Nat)
  deriving DecidableEq, Repr

def AgSess.handle (cfg : SessCfg) (s : AgSess) : AgEv → AgSess
  | .session ev => s.session cfg ev
  | .accept room => s.accept room
  | .acceptError => s.acceptError
  | .confirmed c => s.resolve c (.joined c)
  | .refused c => s.resolve c (.dropped c)

def AgSess.step (cfg : SessCfg) (s : AgSess) (ev : AgEv) : AgSess :=
  bif s.ch.stop.isSome then s else s.handle cfg ev

/-- A new session channel. -/
def AgSess.init (r : Restrictions) (w : Nat) : AgSess := { ch := SessCh.init r w }

def AgSess.run (cfg : SessCfg) (s : AgSess) (evs : List AgEv) : AgSess := evs.foldl (AgSess.step cfg) s

end Lukko.Model
