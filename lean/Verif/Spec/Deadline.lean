import Verif.Spec.Auth
/-
  Specification of the time a client has for logging in.  What happened on a connection
  is recorded with the time (in milliseconds since the connection was accepted).
  Nothing here refers to the model.
-/
namespace Lukko.Spec

abbrev Timeline := List (Nat × AuthEntry)

/-- When the client asked for a login for the first time, after the login service was
granted (`granted`: it has been granted before). -/
def firstRequestFrom (granted : Bool) : Timeline → Option Nat
  | [] => none
  | (_, .serviceAccepted _) :: rest => firstRequestFrom true rest
  | (t, .received msg _) :: rest =>
    if granted = true ∧ msg = 50 then some t else firstRequestFrom granted rest
  | _ :: rest => firstRequestFrom granted rest

def firstRequest (h : Timeline) : Option Nat := firstRequestFrom false h

/-- The time limit: 10 seconds until the first request, and then 2 minutes. -/
def loginLimit : Option Nat → Nat
  | none => 10 * 1000
  | some t => t + 2 * 60 * 1000

/-- A login has been granted. -/
def LoggedIn (h : Timeline) : Prop := ∃ t l, (t, AuthEntry.loggedIn l) ∈ h

/-- The connection ended at or before `limit`. -/
def EndedBy (limit : Nat) (h : Timeline) : Prop :=
  ∃ t ≤ limit, (t, AuthEntry.closed) ∈ h ∨ ∃ reason, (t, AuthEntry.disconnected reason) ∈ h

end Lukko.Spec
