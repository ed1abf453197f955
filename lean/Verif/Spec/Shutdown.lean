/-
  Specification of the end of a connection.  Nothing here refers to the model.
-/
namespace Lukko.Spec

/-- What happens on a connection. -/
inductive EndEntry
  /-- a message is queued for the peer -/
  | sent (msg : UInt8)
  /-- DISCONNECT is queued for the peer -/
  | disconnect
  /-- the connection is closed and all its data released -/
  | destroyed
  /-- an internal check fails -/
  | checkFailed
  deriving DecidableEq, Repr

/-- DISCONNECT is the last message, the end of the connection is the last thing that happens,
and no internal check fails. -/
def EndsProperly (log : List EndEntry) : Prop :=
  .checkFailed ∉ log ∧
  (∀ a b, log = a ++ .disconnect :: b → ∀ e ∈ b, e = .destroyed) ∧
  ∀ a b, log = a ++ .destroyed :: b → b = []

end Lukko.Spec
