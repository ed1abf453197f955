import Verif.Spec.Tally
/-
  Specification: guessing passwords (C100).  All times are in nanoseconds, costs in billionths of a token.
-/
namespace Lukko.Spec

/-- What can be observed of a listener and its connections. -/
inductive GuardEntry where
  /-- about clients and connections as such -/
  | acct (e : AcctEntry)
  /-- on a connection of a client (if it is known), at some time -/
  | on (id : Nat) (client : Option Bytes) (time : Nat) (e : AuthEntry)
  deriving DecidableEq, Repr

/-- Only connections and charges. -/
def acctPart (log : List GuardEntry) : List AcctEntry :=
  log.filterMap fun x => match x with | .acct e => some e | _ => none

/-- What happened on one connection, and when. -/
def timedOn (id : Nat) (log : List GuardEntry) : List (Nat × AuthEntry) :=
  log.filterMap fun x => match x with | .on i _ t e => if i = id then some (t, e) else none | _ => none

def onConnection (id : Nat) (log : List GuardEntry) : List AuthEntry := (timedOn id log).map (·.2)

/-- Everything a client was ever charged. -/
def spent (log : List GuardEntry) (client : Bytes) : Nat :=
  (log.map fun x => match x with | .acct (.charged c _ cost) => if c = client then cost else 0 | _ => 0).sum

/-- The connections which a client attempted to make. -/
def attempted (log : List GuardEntry) (client : Bytes) : Nat :=
  log.countP fun x => match x with
    | .acct (.opened _ c _) | .acct (.failed c) => c == some client
    | .acct (.rejected c) => c == client
    | _ => false

/-- A password was checked. -/
def Verdict : AuthEntry → Bool
  | .account _ p _ => !p.isEmpty
  | _ => false

/-- … and was wrong -/
def WrongVerdict : AuthEntry → Bool
  | .account _ p a => !p.isEmpty && !a.ok
  | _ => false

/-- The passwords of a client which were checked. -/
def guesses (log : List GuardEntry) (client : Bytes) : Nat :=
  log.countP fun x => match x with | .on _ c _ e => c == some client && Verdict e | _ => false

/-- … and were wrong -/
def wrongGuesses (log : List GuardEntry) (client : Bytes) : Nat :=
  log.countP fun x => match x with | .on _ c _ e => c == some client && WrongVerdict e | _ => false

/-- With each of the last `k` charges the budget was exceeded. -/
def Exceeded (k : Nat) (h : List (Nat × Nat)) : Prop :=
  ∃ h0 h1, h = h0 ++ h1 ∧ h1.length = k ∧ ∀ p q, h1 = p ++ q → p ≠ [] → OverBudget (h0 ++ p)

/-- In `a`, connection `id` has received a request for authentication at `t0`, when `a1` had happened; and since then no
password was checked. -/
def RequestedAt (a : List GuardEntry) (id : Nat) (client : Option Bytes) (a1 : List GuardEntry) (t0 : Nat) : Prop :=
  ∃ payload a2, a = a1 ++ .on id client t0 (.received 50 payload) :: a2 ∧ ∀ e ∈ onConnection id a2, Verdict e = false

end Lukko.Spec
