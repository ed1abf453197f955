import Verif.Spec.Ending
/-
  Specification: what a client learns from a failed login.  Nothing here refers to the
  model.
-/
namespace Lukko.Spec

/-- The client sees this. -/
def AuthEntry.isVisible : AuthEntry → Bool
  | .serviceAccepted _ | .failure _ | .keyOk .. | .success | .unimplemented | .disconnected _ | .closed => true
  | _ => false

/-- What the client sees. -/
def view (log : List AuthEntry) : List AuthEntry := log.filter (·.isVisible)

/-- Not merely the processing of a failed login: another message arrives, a key is known, the login succeeds,
the connection is lost or takes too long. -/
def AuthEntry.isOther : AuthEntry → Bool
  | .received .. | .keyOk .. | .loggedIn _ | .closed => true
  | .disconnected n => n == 10
  | _ => false

/-- The client may send authentication requests: it has asked for the service, and is neither logged in nor waiting
for an answer. -/
structure MayAsk (log : List AuthEntry) : Prop where
  encrypted : .encrypted ∈ log
  service : .serviceAccepted (ascii "ssh-userauth") ∈ log
  noLogin : ∀ l, .loggedIn l ∉ log
  notWaiting : ¬ Waiting log

/-- `reply` is what happened after the request `p` as long as only that was processed. -/
structure ReplyTo (log : List AuthEntry) (p : Bytes) (reply : List AuthEntry) : Prop where
  split : ∃ before, log = before ++ .received 50 p :: reply ∧ MayAsk before
  only : ∀ e ∈ reply, e.isOther = false

/-- A request with these fields; for the methods which a server without account service knows, the
remaining fields are well-formed. -/
def ProperRequest (user service p : Bytes) : Prop :=
  ∃ method fields, Short user ∧ Short service ∧ Short method ∧
    p = str user ++ (str service ++ (str method ++ fields)) ∧
    (method = ascii "publickey" → PublicKeyFields fields) ∧
    (method = ascii "hostbased" → HostBasedFields fields)

/-- The answer to a failed login which depends only on what the client has sent, and on whether the
server knows trusted hosts. -/
def LocalAnswer (hosts : Bool) (user service : Bytes) (e : AuthEntry) : Prop :=
  (service ≠ ascii "ssh-connection" ∧ e = .failure []) ∨
  (service = ascii "ssh-connection" ∧ ¬ ValidUser user ∧ e = .disconnected 15) ∨
  (service = ascii "ssh-connection" ∧ ValidUser user ∧
    e = .failure (if hosts then ascii "publickey,hostbased" else ascii "publickey"))

end Lukko.Spec
