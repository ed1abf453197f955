import Verif.Base
/-
  Specification of remote port forwarding (RFC 4254 section 7): the client asks the server to
  listen on a port, and the connections which arrive there are offered to the client.
  Nothing here refers to the model.
-/
namespace Lukko.Spec

/-- What happens; `n` is the number of a request, `c` that of a connection which has arrived. -/
inductive FwEntry
  /-- the client asks for a forwarding, and may do so -/
  | asked (n : Nat) (host : Bytes) (port : Nat)
  | granted (n : Nat) (host : Bytes) (port : Nat)
  | failed (n : Nat)
  /-- the client asks for the end of a forwarding; `ok`: the answer -/
  | cancel (host : Bytes) (port : Nat) (ok : Bool)
  /-- a connection arrives at a port of the server -/
  | arrived (c : Nat) (port : Nat)
  /-- … and the client is told, with this address and port -/
  | offered (c : Nat) (host : Bytes) (port : Nat)
  /-- … and accepts; data is transported -/
  | joined (c : Nat)
  /-- … or it is closed without having been accepted -/
  | dropped (c : Nat)
  /-- the connection to the client ends -/
  | ended
  deriving DecidableEq, Repr

/-- The effect on the list of forwardings. -/
def forwardings₁ (l : List (Bytes × Nat)) : FwEntry → List (Bytes × Nat)
  | .granted _ host port => l ++ [(host, port)]
  | .cancel host port true => l.filter (· ≠ (host, port))
  | .ended => []
  | _ => l

/-- The forwardings in effect: granted, and not cancelled since then. -/
def forwardings (log : List FwEntry) : List (Bytes × Nat) := log.foldl forwardings₁ []

/-- A request for this forwarding has not been answered yet. -/
def Unanswered (log : List FwEntry) (host : Bytes) (port : Nat) : Prop :=
  ∃ n, .asked n host port ∈ log ∧ .failed n ∉ log ∧ ∀ h p, .granted n h p ∉ log

/-- After this, connections to that port are the client's business only if it asks again. -/
def CancelWorks (log : List FwEntry) : Prop :=
  ∀ a host port ok b, log = a ++ .cancel host port ok :: b → (∀ n, .asked n host port ∉ b) →
    ∀ c, .offered c host port ∉ b

end Lukko.Spec
