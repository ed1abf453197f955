import Verif.Spec.Server
import Verif.Spec.Algorithms
/-
  The connections of somebody who holds the secret key of a user (or of a trusted host), seen from their own
  side.  Nothing here refers to the model.
-/
namespace Lukko.Spec

/-- A KEXINIT (without its message number) of a client which announces strict key exchange: the marker is in its
first name-list. -/
def AnnouncesStrict (kexinit : Bytes) : Prop :=
  ∃ cookie names rest, cookie.length = 16 ∧ (nameList names).length < 2 ^ 32 ∧
    kexinit = cookie ++ (str (nameList names) ++ rest) ∧ ascii "kex-strict-c-v00@openssh.com" ∈ names

/-- A connection as a client, with any implementation of the protocol and with any server. -/
structure ClientSide where
  /-- the first key exchange -/
  first : Transcript
  /-- the ephemeral public keys whose secret halves were chosen for this connection -/
  ephemeral : Bytes → Prop
  /-- the requests which were signed with a key on this connection -/
  signs : (key request : Bytes) → Prop
  /-- the packets sent with given keys, numbered from zero -/
  sent : (enc mac : Bytes) → Keys → List Bytes

/-- What is assumed about the client: it chooses its ephemeral keys itself, and it announces strict key
exchange. -/
structure ClientSide.Proper (c : ClientSide) : Prop where
  encodable : Transcript.Encodable c.first
  own : c.ephemeral c.first.clientEph
  later : ∀ enc mac keys e, 30 :: str e ∈ c.sent enc mac keys → c.ephemeral e
  strict : AnnouncesStrict c.first.clientKexinit

end Lukko.Spec
