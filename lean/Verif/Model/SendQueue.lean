import Verif.Base
/-
  Model of `SendQueue` (/repo/src/ssh/Queue.hxx).
-/
namespace Lukko.Model

/-- `class SendQueue`, Queue.hxx:17-23. -/
structure SendQueue where
  queue : List Bytes := []
  consumed : Nat := 0
  deriving DecidableEq, Repr

/-- `SendQueue::Push`, Queue.hxx:30-36. -/
def SendQueue.push (q : SendQueue) (b : Bytes) : SendQueue := { q with queue := q.queue ++ [b] }

/-- `SendQueue::MoveFrom`, Queue.hxx:38-40 (the source list becomes empty). -/
def SendQueue.moveFrom (q : SendQueue) (src : List Bytes) : SendQueue :=
  { q with queue := q.queue ++ src }

/-- The loop of `SendQueue::Prepare`, Queue.hxx:60-69: `room` is the number of
free entries in the iovec array, never zero on entry to the loop body.  `none` = `assert(i.size() > skip)` failed. -/
def SendQueue.prepareLoop (skip : Nat) : List Bytes → Nat → Option (List Bytes)
  | [], _ => some []
  | i :: rest, room =>
    if ¬ (i.length > skip) then none
    else
      if room ≤ 1 then some [i.drop skip]
      else (SendQueue.prepareLoop 0 rest (room - 1)).map (i.drop skip :: ·)

/-- `SendQueue::Prepare`, Queue.hxx:54-71, for an array of `room` > 0 entries:
the buffers offered to the socket. -/
def SendQueue.prepare (q : SendQueue) (room : Nat) : Option (List Bytes) :=
  if room = 0 then none else SendQueue.prepareLoop q.consumed q.queue room

/-- `SendQueue::Consume`, Queue.hxx:73-88.  `none` = `assert(nbytes == 0)` at the end failed. -/
def SendQueue.consumeLoop : List Bytes → Nat → Nat → Option SendQueue
  | [], consumed, nbytes => if nbytes = 0 then some { queue := [], consumed } else none
  | b :: rest, consumed, nbytes =>
    let remaining := b.length - consumed
    if nbytes < remaining then some { queue := b :: rest, consumed := consumed + nbytes }
    else SendQueue.consumeLoop rest 0 (nbytes - remaining)

def SendQueue.consume (q : SendQueue) (nbytes : Nat) : Option SendQueue :=
  SendQueue.consumeLoop q.queue q.consumed nbytes

end Lukko.Model
