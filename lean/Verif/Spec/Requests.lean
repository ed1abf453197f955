import Verif.Base
/-
  Requests that may ask for a reply, and their replies: vocabulary of observable
  events and what it means that replies match requests.  Nothing here refers to
  the model.
-/
namespace Lukko.Spec

/-- What happens on one channel (channel requests) or on one connection (global
requests).  Requests are numbered by the observer in the order of arrival. -/
inductive ReqEntry
  /-- request number `id` arrived; does the peer want a reply? -/
  | asked (id : Nat) (want : Bool)
  /-- the handler of request `id` came to this result -/
  | finished (id : Nat) (ok : Bool)
  /-- a SUCCESS (`true`) or FAILURE (`false`) message was sent -/
  | replied (ok : Bool)
  deriving DecidableEq, Repr

/-- The replies sent so far. -/
def replies : List ReqEntry → List Bool
  | [] => []
  | .replied b :: l => b :: replies l
  | _ :: l => replies l

/-- All requests in the order of arrival, and whether they want a reply. -/
def requests : List ReqEntry → List (Nat × Bool)
  | [] => []
  | .asked id want :: l => (id, want) :: requests l
  | _ :: l => requests l

/-- The requests that want a reply, in the order of arrival. -/
def wanting (log : List ReqEntry) : List Nat := ((requests log).filter (·.2)).map (·.1)

/-- The result of request `id`, if it has one. -/
def resultOf (id : Nat) : List ReqEntry → Option Bool
  | [] => none
  | .finished id' b :: l => if id' = id then some b else resultOf id l
  | _ :: l => resultOf id l

/-- The replies that are due: those of the finished requests up to the first
unfinished one. -/
def due (log : List ReqEntry) : List (Nat × Bool) → List Bool
  | [] => []
  | (id, want) :: rest =>
    match resultOf id log with
    | some b => if want then b :: due log rest else due log rest
    | none => []

/-- Requests that were not yet answered (or have not yet finished, if they want no
reply). -/
def outstanding (log : List ReqEntry) : Nat :=
  ((wanting log).length - (replies log).length) +
  ((requests log).filter fun x => !x.2 && (resultOf x.1 log).isNone).length

end Lukko.Spec
