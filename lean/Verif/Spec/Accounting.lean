import Verif.Base
/-
  Specification: per-client throttling and connection limits (C45, C46).
  All times are in nanoseconds, costs in billionths of a token.
-/
namespace Lukko.Spec

/-- What can be observed of a listener with client accounting. -/
inductive AcctEntry where
  /-- the client was charged for something at some time -/
  | charged (client : Bytes) (time cost : Nat)
  /-- a new connection was admitted, to be served after a delay -/
  | opened (id : Nat) (client : Option Bytes) (delay : Nat)
  /-- a new connection was turned away -/
  | rejected (client : Bytes)
  /-- setting up a new connection has failed -/
  | failed (client : Option Bytes)
  /-- the delay is over, now the connection is served (under a new identifier) -/
  | promoted (old new : Nat)
  | closed (id : Nat) (client : Option Bytes) (time : Nat)
  /-- everything about this client was forgotten -/
  | discarded (client : Bytes) (time : Nat)
  deriving DecidableEq, Repr

/-- The connections which exist, with the accounted client. -/
def liveStep (live : List (Nat × Option Bytes)) : AcctEntry → List (Nat × Option Bytes)
  | .opened id client _ => live ++ [(id, client)]
  | .promoted old new =>
    live.filter (fun c => c.1 ≠ old) ++ (live.filter (fun c => c.1 = old)).map (fun c => (new, c.2))
  | .closed id _ _ => live.filter fun c => c.1 ≠ id
  | _ => live

def live (log : List AcctEntry) : List (Nat × Option Bytes) := log.foldl liveStep []

/-- The number of existing connections of a client. -/
def liveCount (log : List AcctEntry) (client : Bytes) : Nat := (live log).countP (·.2 = some client)

/-- The charges since the client was last forgotten: time and cost. -/
def chargesStep (client : Bytes) (h : List (Nat × Nat)) : AcctEntry → List (Nat × Nat)
  | .charged c t cost => if c = client then h ++ [(t, cost)] else h
  | .discarded c _ => if c = client then [] else h
  | _ => h

def chargesOf (log : List AcctEntry) (client : Bytes) : List (Nat × Nat) := log.foldl (chargesStep client) []

/-! ### Throttling -/

abbrev tokenBurst : Nat := 10 * 1000000000
abbrev oneMinute : Nat := 60 * 1000000000
abbrev delayUnit : Nat := 100 * 1000000

def totalCost (h : List (Nat × Nat)) : Nat := (h.map (·.2)).sum

def lastTime (h : List (Nat × Nat)) : Nat := (h.getLast?.map (·.1)).getD 0

/-- The client has exceeded its budget: in some period until now it was charged more than ten
tokens plus one token per second (or, since time zero, more than one token per second). -/
def OverBudget (h : List (Nat × Nat)) : Prop :=
  (∃ a t c b, h = a ++ (t, c) :: b ∧ tokenBurst + (lastTime h - t) < totalCost ((t, c) :: b)) ∨
  lastTime h < totalCost h

/-- Time does not go backwards. -/
def Chronological (h : List (Nat × Nat)) : Prop := h.Pairwise (·.1 ≤ ·.1)

end Lukko.Spec
