import Verif.Spec.Kex
/-
  How long, and for how many bytes, the same keys are used.  A history with
  times, independent of the model.
-/
namespace Lukko.Spec

/-- What a history with times is made of: what happened on the connection, and the moment at which
the user was logged in. -/
inductive Event
  | entry (x : Entry)
  | login
  deriving DecidableEq, Repr

/-- Happenings with the second in which they happened, the oldest first. -/
abbrev Book := List (Nat × Event)

def Event.entry? : Event → Option Entry
  | .entry x => some x
  | .login => none

/-- The history without the times. -/
def entriesOf (book : Book) : List Entry := book.filterMap fun m => m.2.entry?

def loggedIn (book : Book) : Bool := book.any fun m => m.2 == .login

/-- One more happening: is a key exchange under way? -/
def exchangeStep (b : Bool) : Entry → Bool
  | .sent p => b || isMsg 20 p
  | .recv p => b || isMsg 20 p
  | .installIn .. => false
  | _ => b

/-- A key exchange is under way: KEXINIT was sent or received, and the new keys are not yet used in
both directions. -/
def exchanging (log : List Entry) : Bool := log.foldl exchangeStep false

/-- The algorithms with which packets are protected, and the bytes sent so far with these keys. -/
def volumeStep (size : Bytes × Bytes → Bytes → Nat) (st : Option (Bytes × Bytes) × Nat) : Entry →
    Option (Bytes × Bytes) × Nat
  | .installOut enc mac _ => (some (enc, mac), 0)
  | .sent p =>
    match st.1 with
    | none => st
    | some c => (some c, st.2 + size c p)
  | _ => st

def sending (size : Bytes × Bytes → Bytes → Nat) (log : List Entry) : Option (Bytes × Bytes) × Nat :=
  log.foldl (volumeStep size) (none, 0)

/-- Bytes sent with the newest keys; `size` says how many bytes a packet makes with these
algorithms. -/
def volume (size : Bytes × Bytes → Bytes → Nat) (log : List Entry) : Nat := (sending size log).2

/-- The second in which the user was logged in or the last key exchange was completed, whatever was later. -/
def renewedStep (t : Nat) (m : Nat × Event) : Nat :=
  match m.2 with
  | .login => m.1
  | .entry (.installIn ..) => m.1
  | _ => t

def renewed (book : Book) : Nat := book.foldl renewedStep 0

/-- A key exchange begins (we or the peer send KEXINIT), or the connection is closed. -/
def begins : Event → Bool
  | .entry (.sent p) => isMsg 20 p || isMsg 1 p
  | .entry (.recv p) => isMsg 20 p
  | _ => false

end Lukko.Spec
