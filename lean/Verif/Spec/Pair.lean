import Verif.Spec.ExtInfo
/-
  Two connected programs: what they agreed on, which keys they installed, and
  what is on its way between them.
-/
namespace Lukko.Spec

/-- The key agreements of one side, oldest first. -/
def agreements (log : List Entry) : List Transcript := log.filterMap fun | .agreed t => some t | _ => none

/-- The ciphers (algorithms and keys) one side installed for what it sends, oldest first. -/
def outCiphers (log : List Entry) : List (Bytes × Bytes × Keys) :=
  log.filterMap fun | .installOut enc mac keys => some (enc, mac, keys) | _ => none

/-- The ciphers one side installed for what it receives, oldest first. -/
def inCiphers (log : List Entry) : List (Bytes × Bytes × Keys) :=
  log.filterMap fun | .installIn enc mac keys => some (enc, mac, keys) | _ => none

/-- What one side sent, each packet with the cipher (`none`: none yet) it was encrypted with. -/
def sentUnder : Option (Bytes × Bytes × Keys) → List Entry → List (Option (Bytes × Bytes × Keys) × Bytes)
  | _, [] => []
  | cur, .sent p :: l => (cur, p) :: sentUnder cur l
  | _, .installOut enc mac keys :: l => sentUnder (some (enc, mac, keys)) l
  | cur, _ :: l => sentUnder cur l

/-- What one side received, each packet with the cipher it was decrypted with. -/
def receivedUnder : Option (Bytes × Bytes × Keys) → List Entry → List (Option (Bytes × Bytes × Keys) × Bytes)
  | _, [] => []
  | cur, .recv p :: l => (cur, p) :: receivedUnder cur l
  | _, .installIn enc mac keys :: l => receivedUnder (some (enc, mac, keys)) l
  | cur, _ :: l => receivedUnder cur l

/-- What one side sent and the other side has not received yet, on a network which loses, reorders and
alters nothing. -/
def inFlight (sender receiver : List Entry) : List Bytes := (sentPackets sender).drop (received receiver).length

/-- The number of KEXINIT packets among these. -/
def kexInits (packets : List Bytes) : Nat := packets.countP (isMsg 20)

/-- A packet of an application: anything but DISCONNECT and the packets of the key exchange. -/
def isPlain (p : Bytes) : Bool := !p.isEmpty && !isMsg 1 p && !isMsg 20 p && !isMsg 21 p && !isMsg 30 p && !isMsg 31 p

end Lukko.Spec
