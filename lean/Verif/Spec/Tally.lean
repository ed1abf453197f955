import Verif.Spec.Accounting
import Verif.Spec.Auth
/-
  Specification: what login attempts cost a client, and how they are counted.
-/
namespace Lukko.Spec

/-- The statistics about logins. -/
inductive Counter where
  /-- "userauth_received" -/
  | received
  /-- "tarpit" -/
  | tarpit
  /-- "userauth_accepted" -/
  | passwordAccepted | publickeyAccepted | hostbasedAccepted
  /-- "userauth_failed" -/
  | passwordFailed | publickeyFailed | hostbasedFailed | unsupportedFailed | unknownFailed
  /-- "translation_errors" -/
  | translationError
  /-- "connections_closed" with reason "unsupported_service" -/
  | unsupportedService
  /-- "connections_closed" with reason "protocol" -/
  | protocolError
  /-- not published -/
  | unsupported | timeout
  deriving DecidableEq, Repr

/-- What is done with the books. -/
inductive Tally where
  /-- a counter is incremented -/
  | count (c : Counter)
  /-- the client is charged, in billionths of a token -/
  | tokens (cost : Nat)
  deriving DecidableEq, Repr

/-- How often a counter was incremented. -/
def counted (c : Counter) (ts : List Tally) : Nat := ts.countP fun t => t == .count c

/-- The sum of the counters "userauth_failed". -/
def countedFailed (ts : List Tally) : Nat :=
  counted .passwordFailed ts + counted .publickeyFailed ts + counted .hostbasedFailed ts +
  counted .unsupportedFailed ts + counted .unknownFailed ts

/-- The sum of the counters "userauth_accepted". -/
def countedAccepted (ts : List Tally) : Nat :=
  counted .passwordAccepted ts + counted .publickeyAccepted ts + counted .hostbasedAccepted ts

/-- The successful logins with this method. -/
def loginsBy (method : Bytes) (log : List AuthEntry) : Nat :=
  log.countP fun e => match e with | .loggedIn l => l.method == method | _ => false

/-- All successful logins. -/
def loginCount (log : List AuthEntry) : Nat :=
  log.countP fun e => match e with | .loggedIn _ => true | _ => false

/-- Requests which were answered with "failure". -/
def failures (log : List AuthEntry) : Nat :=
  log.countP fun e => match e with | .failure _ => true | _ => false

/-- Requests which were answered: success, failure, or "this key would be acceptable". -/
def answered (log : List AuthEntry) : Nat :=
  log.countP fun e => match e with | .loggedIn _ | .failure _ | .keyOk .. => true | _ => false

/-- Requests to log in. -/
def loginRequests (log : List AuthEntry) : Nat :=
  log.countP fun e => match e with | .received m _ => m == 50 | _ => false

/-- The connection was closed because the client violated the protocol. -/
def protocolErrors (log : List AuthEntry) : Nat :=
  log.countP fun e => match e with | .disconnected reason => [2, 3, 5, 6, 8, 15].contains reason | _ => false

/-- Answers about accounts, for requests with a password. -/
def verdicts (log : List AuthEntry) : Nat :=
  log.countP fun e => match e with | .account _ p _ => !p.isEmpty | _ => false

/-- … which say that the password is wrong (or there is no such account) -/
def wrongPasswords (log : List AuthEntry) : Nat :=
  log.countP fun e => match e with | .account _ p a => !p.isEmpty && !a.ok | _ => false

/-- All tokens paid. -/
def paid (ts : List Tally) : Nat := (ts.map fun t => match t with | .tokens n => n | _ => 0).sum

abbrev oneToken : Nat := 1000000000

/-- A request whose failure is not counted: for another service, with the method "none", or for changing
the password. -/
def UncountedRequest (payload : Bytes) : Prop :=
  ∃ user service method rest, payload = str user ++ (str service ++ (str method ++ rest)) ∧
    (service ≠ ascii "ssh-connection" ∨ method = ascii "none" ∨
      (method = ascii "password" ∧ ∃ b password, b ≠ 0 ∧ rest = b :: str password))

/-- No account can be used without a password. -/
def PasswordsNeeded (log : List AuthEntry) : Prop := ∀ u p a, .account u p a ∈ log → a.noPassword = none

open Classical in
/-- How many of those there were. -/
noncomputable def uncountedRequests (log : List AuthEntry) : Nat :=
  log.countP fun e => match e with | .received m p => m == 50 && decide (UncountedRequest p) | _ => false

end Lukko.Spec
