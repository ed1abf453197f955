import Verif.Model.Requests
import Verif.Spec.Channels
/-
  The channel table: /repo/src/ssh/CSupport.cxx, CSupport.hxx, and the base class
  of all channels, Channel.cxx.

  Messages are events with parsed fields (parsing: Model/Messages.lean); data is
  represented by its size.  Channel implementations (`SessionChannel`,
  `SocketChannel`, …) are represented by what they do through the interface of
  class `Channel`: any action at any time (`ChEvent.act`).  What `CreateChannel()`
  does is a parameter of the event.  `log` is a record of what happened.
-/
namespace Lukko.Model
open Lukko.Spec (ChEntry ChMsg Outcome)

/-- The fields of class `Channel`, Channel.hxx:38-66. -/
structure Chan where
  peer : Nat
  recvWin : Nat
  sendWin : Nat
  reqs : Reqs := {}
  deriving DecidableEq, Repr

/-- An element of `ChannelSupport::channels`; the first, second and last are
`RequestedChannel`, CSupport.cxx:47-106, `OpeningChannel`, CSupport.cxx:159-169, and
`TombstoneChannel`, CSupport.cxx:143-146. -/
inductive Slot
  | requested (fac : Nat) (canceled : Bool)
  | opening (peer win : Nat)
  | live (c : Chan)
  | tomb (c : Chan)
  deriving DecidableEq, Repr

/-- Ways to leave.  `closed`: an exception that closes the connection; `disconnect`:
`Connection::Disconnect`; `ub`: undefined behaviour or a failed assertion. -/
inductive ChStop
  | closed | disconnect | ub
  deriving DecidableEq, Repr

/-- `ChannelSupport`, CSupport.hxx:57-64. -/
structure Cs where
  slots : List (Option Slot) := List.replicate 64 none
  log : List ChEntry := []
  deriving DecidableEq, Repr

def Cs.get (s : Cs) (i : Nat) : Option Slot := (s.slots[i]?).join
def Cs.put (s : Cs) (i : Nat) (x : Option Slot) : Cs := { s with slots := s.slots.set i x }
def Cs.emit (s : Cs) (e : ChEntry) : Cs := { s with log := s.log ++ [e] }

/-- `AllocateChannelIndex`, CSupport.cxx:203-214; `none`: throws. -/
def Cs.alloc (s : Cs) : Option Nat := s.slots.findIdx? (·.isNone)

/-- What `ChannelHandler::CreateChannel()` does: return a channel (with that receive
window), throw `ChannelOpenFailure`, throw something else (`Disconnect` if true),
return `nullptr` having started an asynchronous operation, return `nullptr` after
`AsyncChannelOpenFailure()`. -/
inductive OpenResult
  | made (recvWin : Nat)
  | refused
  | throws (disconnect : Bool)
  | pending
  | failedNow
  deriving DecidableEq, Repr

/-- `AsyncChannelOpenFailure`, CSupport.cxx:287-303, and the `catch` block in
`HandleChannelOpen`, CSupport.cxx:327-335. -/
def Cs.openFailure (s : Cs) (i p : Nat) : Cs := (s.put i none).emit (.sent i p .failure)

/-- `HandleChannelOpen`, CSupport.cxx:305-357. -/
def Cs.handleOpen (s : Cs) (p w : Nat) (res : OpenResult) : Cs × Option ChStop :=
  match s.alloc with
  | none => (s, some .closed)
  | some i =>
    let s := (s.put i (some (.opening p w))).emit (.recvOpen i p w)
    match res with
    | .refused | .failedNow => (s.openFailure i p, none)
    | .throws d => (s, some (bif d then .disconnect else .closed))
    | .pending => (s, none)
    | .made rw => ((s.emit (.sent i p .confirm)).put i (some (.live ⟨p, rw, w, {}⟩)), none)

/-- `AsyncChannelOpenSuccess` (with the receive window of the new channel),
CSupport.cxx:264-285, and `AsyncChannelOpenFailure`.  The asynchronous operation
exists only as long as the placeholder does, CSupport.cxx:164-168. -/
def Cs.asyncOpened (s : Cs) (i : Nat) (res : Option Nat) : Cs × Option ChStop :=
  match s.get i with
  | some (.opening p w) =>
    match res with
    | some rw => ((s.emit (.sent i p .confirm)).put i (some (.live ⟨p, rw, w, {}⟩)), none)
    | none => (s.openFailure i p, none)
  | _ => (s, none)

/-- `OpenChannel`, CSupport.cxx:114-137; nothing happens if there is no free number
(the caller catches the exception, AgentForward.cxx:121-128). -/
def Cs.openChannel (s : Cs) (f : Nat) : Cs × Option ChStop :=
  match s.alloc with
  | none => (s, none)
  | some i => ((s.emit (.sentOpen i f)).put i (some (.requested f false)), none)

/-- The component that requested a channel is destroyed and cancels the request
(`RequestedChannel::Cancel`, CSupport.cxx:102-105). -/
def Cs.cancel (s : Cs) (f : Nat) : Cs × Option ChStop :=
  match s.slots.findIdx? (· == some (.requested f false)) with
  | some i => ((s.put i (some (.requested f true))).emit (.dropped f), none)
  | none => (s, none)

/-- `HandleChannelOpenConfirmation`, CSupport.cxx:367-394, `PopRequestedChannel`,
CSupport.cxx:232-245, and `RequestedChannel::OnChannelOpenConfirmation`,
CSupport.cxx:70-86.  `rw` is the receive window of the channel that is created. -/
def Cs.handleConfirm (s : Cs) (i p w rw : Nat) : Cs × Option ChStop :=
  match s.get i with
  | some (.requested f canceled) =>
    let s := s.emit (.recvConfirm i p w)
    bif canceled then
      ((s.emit (.sent i p .close)).put i (some (.tomb ⟨p, w, w, {}⟩)), none)
    else
      ((s.emit (.told f .created)).put i (some (.live ⟨p, rw, w, {}⟩)), none)
  | _ => (s, some .disconnect)

/-- `HandleChannelOpenFailure`, CSupport.cxx:396-403, and
`RequestedChannel::OnChannelOpenFailure`, CSupport.cxx:88-98: unless it was
canceled, `delete this` runs the destructor (CSupport.cxx:65-68), which tells the
factory that the request was canceled, upon which the factory deletes itself
(AgentForward.cxx:99-105, SocketForwardListener.cxx); then a method of the deleted
factory is called. -/
def Cs.handleFailure (s : Cs) (i : Nat) : Cs × Option ChStop :=
  match s.get i with
  | some (.requested f canceled) =>
    let s := (s.emit (.recv i .failure)).put i none
    bif canceled then (s, none)
    else (s.emit (.told f .cancelled), some .ub)
  | _ => (s, some .disconnect)

/-- `GetChannel`, CSupport.cxx:216-230: the channel, and whether it is a
tombstone. -/
def Cs.getChannel (s : Cs) (i : Nat) : Option (Chan × Bool) :=
  match s.get i with
  | some (.live c) => some (c, false)
  | some (.tomb c) => some (c, true)
  | _ => none

/-- Update a channel in place. -/
def mkSlot (c : Chan) (tomb : Bool) : Slot := bif tomb then .tomb c else .live c

/-- `HandleChannelWindowAdjust`, CSupport.cxx:405-415, and `Channel::OnWindowAdjust`,
Channel.cxx:241-245. -/
def Cs.handleAdjust (s : Cs) (i n : Nat) : Cs × Option ChStop :=
  if n = 0 then (s, some .closed)
  else
    match s.getChannel i with
    | none => (s, some .disconnect)
    | some (c, t) =>
      ((s.emit (.recv i (.adjust n))).put i (some (mkSlot { c with sendWin := c.sendWin + n } t)), none)

/-- `HandleChannelData`, `HandleChannelExtendedData`, CSupport.cxx:417-439.
`Channel::OnExtendedData`, Channel.cxx:253-258, is not overridden; `Channel::OnData`,
Channel.cxx:247-251, is used by tombstones (other channels override it; what they
consume is an action of theirs). -/
def Cs.handleData (s : Cs) (i n : Nat) (m : ChMsg) : Cs × Option ChStop :=
  match s.getChannel i with
  | none => (s, some .disconnect)
  | some (c, t) =>
    if n > c.recvWin then (s, some .closed)
    else
      let c := bif t || m == .ext n then { c with recvWin := c.recvWin - n } else c
      ((s.emit (.recv i m)).put i (some (mkSlot c t)), none)

/-- `HandleChannelEof`, CSupport.cxx:441-448; `HandleChannelSuccess`,
`HandleChannelFailure`, CSupport.cxx:472-488. -/
def Cs.handleOther (s : Cs) (i : Nat) (m : ChMsg) : Cs × Option ChStop :=
  match s.getChannel i with
  | none => (s, some .disconnect)
  | some _ => (s.emit (.recv i m), none)

/-- `HandleChannelClose`, CSupport.cxx:450-461. -/
def Cs.handleClose (s : Cs) (i : Nat) : Cs × Option ChStop :=
  match s.getChannel i with
  | none => (s, some .disconnect)
  | some (c, t) =>
    let s := s.emit (.recv i .close)
    let s := bif t then s else s.emit (.sent i c.peer .close)
    (s.put i none, none)

def ReqStop.toCh : ReqStop → ChStop
  | .closed => .closed
  | .disconnect => .disconnect
  | .ub => .ub

/-- The packets sent by `SubmitRequestResponses`, Channel.cxx:205-213: one for each
reply that was added to the record of the request list. -/
def Cs.emitReplies (s : Cs) (i : Nat) (c : Chan) (r : Reqs) : Cs :=
  { s with log := s.log ++
      ((Spec.replies r.log).drop (Spec.replies c.reqs.log).length).map fun b => .sent i c.peer (.reply b) }

/-- `HandleChannelRequest`, CSupport.cxx:463-470, and `Channel::HandleRequest`; a
tombstone uses `Channel::OnRequest`, Channel.cxx:260-265, which finishes at once
with `false`. -/
def Cs.handleRequest (syncDone : Bool) (s : Cs) (i : Nat) (want : Bool) (ans : Ans) : Cs × Option ChStop :=
  match s.getChannel i with
  | none => (s, some .disconnect)
  | some (c, t) =>
    let (r, stop) := c.reqs.handle syncDone none want (bif t then .done false else ans)
    (((s.emit (.recv i (.request want))).emitReplies i c r).put i (some (mkSlot { c with reqs := r } t)),
      stop.map ReqStop.toCh)

/-- A suspended request handler of a channel goes on. -/
def Cs.complete (s : Cs) (i id : Nat) (res : Option Bool) : Cs × Option ChStop :=
  match s.get i with
  | some (.live c) =>
    let (r, stop) := c.reqs.complete id res
    ((s.emitReplies i c r).put i (some (.live { c with reqs := r })), stop.map ReqStop.toCh)
  | _ => (s, none)

/-- What a channel implementation can do through the interface of `Channel`. -/
inductive ChAct
  | data (n : Nat) | ext (n : Nat) | eof | request
  | consume (n : Nat) | adjust (n : Nat) | close
  deriving DecidableEq, Repr

/-- `SendData`, `SendExtendedData`, `SendEof`, `SendExitStatus`/`SendExitSignal`,
`ConsumeReceiveWindow`, `SendWindowAdjust`, Channel.cxx:89-167, and `CloseChannel`,
CSupport.cxx:178-201. -/
def Cs.act (s : Cs) (i : Nat) (a : ChAct) : Cs × Option ChStop :=
  match s.get i with
  | some (.live c) =>
    match a with
    | .data n =>
      if n ≤ c.sendWin then
        ((s.emit (.sent i c.peer (.data n))).put i (some (.live { c with sendWin := c.sendWin - n })), none)
      else (s, some .ub)
    | .ext n =>
      if n ≤ c.sendWin then
        ((s.emit (.sent i c.peer (.ext n))).put i (some (.live { c with sendWin := c.sendWin - n })), none)
      else (s, some .ub)
    | .eof => (s.emit (.sent i c.peer .eof), none)
    | .request => (s.emit (.sent i c.peer (.request false)), none)
    | .consume n =>
      if n ≤ c.recvWin then (s.put i (some (.live { c with recvWin := c.recvWin - n })), none)
      else (s, some .ub)
    | .adjust n =>
      if n = 0 then (s, some .ub)
      else ((s.emit (.sent i c.peer (.adjust n))).put i (some (.live { c with recvWin := c.recvWin + n })), none)
    | .close => ((s.emit (.sent i c.peer .close)).put i (some (.tomb { c with reqs := {} })), none)
  | _ => (s, none)

/-- `~RequestedChannel`, CSupport.cxx:65-68. -/
def cancelNote : Option Slot → Option ChEntry
  | some (.requested f false) => some (.told f .cancelled)
  | _ => none

/-- `~ChannelSupport`, CSupport.cxx:31-35, `OnDisconnecting`, CSupport.cxx:563-572:
all channels are deleted; the destructor of a requested channel calls
`OnChannelCancel()`, CSupport.cxx:65-68. -/
def Cs.teardown (s : Cs) : Cs :=
  { slots := List.replicate 64 none
    log := s.log ++ s.slots.filterMap cancelNote }

inductive ChEvent
  | recvOpen (p w : Nat) (res : OpenResult)
  | recvConfirm (i p w rw : Nat)
  | recvFailure (i : Nat)
  | recvAdjust (i n : Nat)
  | recvData (i n : Nat)
  | recvExt (i n : Nat)
  | recvEof (i : Nat)
  | recvClose (i : Nat)
  | recvRequest (i : Nat) (want : Bool) (ans : Ans)
  | recvReply (i : Nat) (ok : Bool)
  | openChannel (f : Nat)
  | cancel (f : Nat)
  | asyncOpened (i : Nat) (res : Option Nat)
  | complete (i id : Nat) (res : Option Bool)
  | act (i : Nat) (a : ChAct)
  | shutdown
  deriving DecidableEq, Repr

/-- One event; packets: `ChannelSupport::HandlePacket`, CSupport.cxx:490-545. -/
def Cs.handle (sd : Bool) (s : Cs) : ChEvent → Cs × Option ChStop
  | .recvOpen p w res => s.handleOpen p w res
  | .recvConfirm i p w rw => s.handleConfirm i p w rw
  | .recvFailure i => s.handleFailure i
  | .recvAdjust i n => s.handleAdjust i n
  | .recvData i n => s.handleData i n (.data n)
  | .recvExt i n => s.handleData i n (.ext n)
  | .recvEof i => s.handleOther i .eof
  | .recvClose i => s.handleClose i
  | .recvRequest i want ans => s.handleRequest sd i want ans
  | .recvReply i ok => s.handleOther i (.reply ok)
  | .openChannel f => s.openChannel f
  | .cancel f => s.cancel f
  | .asyncOpened i res => s.asyncOpened i res
  | .complete i id res => s.complete i id res
  | .act i a => s.act i a
  | .shutdown => (s, some .closed)

structure CsSys where
  cs : Cs := {}
  stop : Option ChStop := none
  deriving DecidableEq, Repr

/-- After `closed` or `disconnect`, all channels are deleted. -/
def CsSys.finish : Cs × Option ChStop → CsSys
  | (s, none) => ⟨s, none⟩
  | (s, some .ub) => ⟨s, some .ub⟩
  | (s, some st) => ⟨s.teardown, some st⟩

def CsSys.step (sd : Bool) (y : CsSys) (ev : ChEvent) : CsSys :=
  match y.stop with
  | some _ => y
  | none => CsSys.finish (y.cs.handle sd ev)

def CsSys.run (sd : Bool) (y : CsSys) (evs : List ChEvent) : CsSys := evs.foldl (CsSys.step sd) y

end Lukko.Model
