import Verif.Spec.Kex
import Verif.Spec.Auth
/-
  What two ends of a connection know about each other after a key exchange.
  Nothing here refers to the model.
-/
namespace Lukko.Spec

/-- All exchanges. -/
def exchanges (log : List Entry) : List Transcript := log.filterMap fun | .agreed t => some t | _ => none

/-- Number of bytes which are transferred. -/
def Entry.size : Entry → Nat
  | .version v => v.length
  | .recv p => p.length
  | .sent p => p.length
  | _ => 0

/-- No packet is so large that its length would not fit into 32 bits. -/
def Sized (log : List Entry) : Prop := ∀ x ∈ log, x.size < 2 ^ 32

/-- The two ends have the same view of an exchange: each received the identification and the
KEXINIT which the other one sent, and the server received the client's ephemeral key. -/
structure Mirrored (client server : List Entry) (clientVersion serverVersion : Bytes) : Prop where
  serverId : peerVersion client = some serverVersion
  clientId : peerVersion server = some clientVersion
  clientKexinit : ∃ k, lastSent 20 client = some k ∧ lastRecv 20 server = some k
  serverKexinit : ∃ k, lastSent 20 server = some k ∧ lastRecv 20 client = some k
  clientEph : ∃ k, lastSent 30 client = some k ∧ lastRecv 30 server = some k

/-- Two different exchanges with the same hash. -/
def Collision (digest : Bytes → Bytes) (t t' : Transcript) : Prop :=
  hashInput t ≠ hashInput t' ∧ digest (hashInput t) = digest (hashInput t')

/-- A signature which verifies with this host key, although the holder of the key signed no
exchange with this hash. -/
def Forgery (verify : Bytes → Bytes → Bytes → Bool) (digest : Bytes → Bytes) (signed : Transcript → Prop)
    (hostKey : Bytes) : Prop :=
  ∃ h sig, verify hostKey h sig = true ∧ ∀ t, signed t → t.hostKey = hostKey → digest (hashInput t) ≠ h

/-- RFC 4252 sections 7 and 9: the fields of a request (before the signature) for a login with
this key. -/
def RequestFor (method fields key : Bytes) : Prop :=
  (method = ascii "publickey" ∧ ∃ b alg, fields = b :: (str alg ++ str key)) ∨
  (method = ascii "hostbased" ∧ ∃ alg host user, fields = str alg ++ (str key ++ (str host ++ str user)))

/-- A signature which verifies with this key, although the holder of the key did not sign the
message.  What the holder signs are requests on connections of their own, as a client:
`consents t r` if `t` is the first exchange on such a connection; and, if it is the key of a host,
hashes of exchanges with anybody, as a server. -/
def UserForgery (verify : Bytes → Bytes → Prop) (digest : Bytes → Bytes) (consents : Transcript → Bytes → Prop) : Prop :=
  ∃ message sig, verify message sig ∧ (∀ t r, consents t r → message ≠ signedBytes (digest (hashInput t)) r) ∧
    ∀ m, message ≠ digest m

end Lukko.Spec
