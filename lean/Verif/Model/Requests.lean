import Verif.Base
import Verif.Spec.Requests
/-
  Pending requests: /repo/src/ssh/Channel.cxx (channel requests) and GSupport.cxx
  (global requests).  Both are the same algorithm; only global requests are
  limited in number.

  The coroutines that handle requests are represented by what they do: they finish
  at once, throw at once, or are suspended and finish (or throw) at some later
  time.  `log` is a record of what happened.
-/
namespace Lukko.Model
open Lukko.Spec (ReqEntry)

/-- `PendingRequest`, Channel.cxx:21-71; `PendingGlobalRequest`, GSupport.cxx:20-65.
`result` is `none` while the coroutine is running (`IsDone()` is false).  `id` is
not in the code, it identifies the object. -/
structure PReq where
  id : Nat
  want : Bool
  result : Option Bool
  deriving DecidableEq, Repr

/-- What the eager coroutine returned by `OnRequest()` has done when it returns. -/
inductive Ans
  | done (ok : Bool)
  | suspend
  | throws
  deriving DecidableEq, Repr

/-- Ways to leave. `closed`: exception or `CloseError()`; `disconnect`:
`Connection::Disconnect`; `ub`: a failed assertion. -/
inductive ReqStop
  | closed | disconnect | ub
  deriving DecidableEq, Repr

/-- `SubmitRequestResponses`, Channel.cxx:191-215;
`SubmitGlobalRequestResponses`, GSupport.cxx:80-98: the replies sent and the
remaining list, `none` if the assertion fails. -/
def submitResponses : List PReq → Option (List Bool × List PReq)
  | [] => some ([], [])
  | r :: rs =>
    match r.result with
    | none => some ([], r :: rs)
    | some b =>
      bif r.want then
        match submitResponses rs with
        | some (bs, q) => some (b :: bs, q)
        | none => none
      else none

/-- One object with pending requests.  `next` numbers them. -/
structure Reqs where
  pending : List PReq := []
  next : Nat := 0
  log : List ReqEntry := []
  deriving DecidableEq, Repr

/-- Send the replies that can be sent. -/
def Reqs.submit (r : Reqs) : Reqs × Option ReqStop :=
  match submitResponses r.pending with
  | some (bs, q) => ({ r with pending := q, log := r.log ++ bs.map .replied }, none)
  | none => (r, some .ub)

/-- Note the result of a request. -/
def setResult (id : Nat) (ok : Bool) (q : List PReq) : List PReq :=
  q.map fun r => bif r.id == id then { r with result := some ok } else r

/-- `OnRequestDone`, Channel.cxx:217-239; `OnGlobalRequestDone`, GSupport.cxx:100-120,
without error (an error closes the connection). -/
def Reqs.done (r : Reqs) (id : Nat) (want ok : Bool) : Reqs × Option ReqStop :=
  let q := setResult id ok r.pending
  Reqs.submit { r with
    pending := bif want then q else q.filter fun x => x.id != id
    log := r.log ++ [.finished id ok] }

/-- The check at the beginning of `HandleGlobalRequest`, GSupport.cxx:131-135. -/
def tooMany : Option Nat → Nat → Bool
  | some limit, n => decide (limit ≤ n)
  | none, _ => false

/-- `Channel::HandleRequest`, Channel.cxx:175-189 (`limit = none`);
`GlobalRequestSupport::HandleGlobalRequest`, GSupport.cxx:129-153 (`limit = some 16`).

`syncDone` says how the library's `EagerInvokeTask` behaves if the coroutine has
finished before the object is constructed: with `true` the object is empty at once,
so that `IsDone()` is true; with `false`, `Start()` invokes the completion
callback. -/
def Reqs.handle (syncDone : Bool) (limit : Option Nat) (r : Reqs) (want : Bool) (ans : Ans) : Reqs × Option ReqStop :=
  bif tooMany limit r.pending.length then (r, some .disconnect)
  else
    let id := r.next
    let r := { r with next := id + 1, log := r.log ++ [.asked id want] }
    match ans with
    | .throws => (r, some .closed)
    | .suspend => ({ r with pending := r.pending ++ [⟨id, want, none⟩] }, none)
    | .done ok =>
      bif syncDone then
        Reqs.submit { r with
          pending := r.pending ++ [⟨id, want, some ok⟩]
          log := r.log ++ [.finished id ok] }
      else
        Reqs.done { r with pending := r.pending ++ [⟨id, want, none⟩] } id want ok

/-- A suspended coroutine goes on: finishes with a result, or throws
(`OnCompletion`, Channel.cxx:64-70, GSupport.cxx:59-64).  Nothing happens if there
is no such coroutine. -/
def Reqs.complete (r : Reqs) (id : Nat) (res : Option Bool) : Reqs × Option ReqStop :=
  match r.pending.find? (fun x => x.id == id) with
  | none => (r, none)
  | some x =>
    match x.result with
    | some _ => (r, none)
    | none =>
      match res with
      | none => (r, some .closed)
      | some ok => r.done id x.want ok

inductive ReqEvent
  | request (want : Bool) (ans : Ans)
  | complete (id : Nat) (res : Option Bool)
  deriving DecidableEq, Repr

structure ReqSys where
  reqs : Reqs := {}
  stop : Option ReqStop := none
  deriving DecidableEq, Repr

def ReqSys.step (syncDone : Bool) (limit : Option Nat) (y : ReqSys) (ev : ReqEvent) : ReqSys :=
  match y.stop with
  | some _ => y
  | none =>
    let (r, stop) := match ev with
      | .request want ans => y.reqs.handle syncDone limit want ans
      | .complete id res => y.reqs.complete id res
    ⟨r, stop⟩

def ReqSys.run (syncDone : Bool) (limit : Option Nat) (y : ReqSys) (evs : List ReqEvent) : ReqSys :=
  evs.foldl (ReqSys.step syncDone limit) y

end Lukko.Model
