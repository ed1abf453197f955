import Verif.Spec.Channels
/-
  What happens on one channel, and key exchanges of the connection.  Nothing here
  refers to the model.
-/
namespace Lukko.Spec

inductive IoEntry
  /-- a message about the channel was sent -/
  | tx (m : ChMsg)
  /-- a message about the channel was received and accepted -/
  | rx (m : ChMsg)
  /-- our KEXINIT was sent -/
  | kexinit
  /-- our NEWKEYS was sent -/
  | newkeys
  deriving DecidableEq, Repr

/-- Is a key exchange in progress in our direction: our KEXINIT was sent, our
NEWKEYS was not? -/
def inKexStep (_ : Bool) : IoEntry → Option Bool
  | .kexinit => some true
  | .newkeys => some false
  | _ => none

def inKex (log : List IoEntry) : Bool := log.foldl (fun b e => (inKexStep b e).getD b) false

/-- Bytes of data sent. -/
def IoEntry.sentBytes : IoEntry → Nat
  | .tx (.data n) => n
  | .tx (.ext n) => n
  | _ => 0

/-- Bytes the peer granted after the channel was opened. -/
def IoEntry.granted : IoEntry → Nat
  | .rx (.adjust n) => n
  | _ => 0

/-- Bytes we granted after the channel was opened. -/
def IoEntry.weGranted : IoEntry → Nat
  | .tx (.adjust n) => n
  | _ => 0

/-- Bytes of data received. -/
def IoEntry.gotBytes : IoEntry → Nat
  | .rx (.data n) => n
  | .rx (.ext n) => n
  | _ => 0

def total (f : IoEntry → Nat) (log : List IoEntry) : Nat := (log.map f).sum

end Lukko.Spec
