import Verif.Model.Kex
import Verif.Spec.Secret
/-
  The key exchange method ecdh-sha2-nistp256, /repo/src/ssh/KexECDH.cxx (for curve25519-sha256 see Kex.lean), and the object which is
  chosen, /repo/src/ssh/KexFactory.cxx.
-/
namespace Lukko.Model

/-- `EVP_PKEY_derive(Serializer &, EVP_PKEY_CTX &)`, KexECDH.cxx:23-37: `BeginWriteN` throws if there is no room; then OpenSSL
stores the number there (`raw`), and `CommitBignum2`. -/
def Ser.derive (raw : Bytes) (s : Ser) : Except SerError Ser :=
  if raw.length > BUFFER_SIZE - s.size then .error .packetTooLarge else s.commitBignum2 raw

/-- `ECDHKex::GenerateSharedSecret`, KexECDH.cxx:46-70.  `product`: `DeserializeECPublic` and `EVP_PKEY_derive` with our secret key:
the X coordinate with leading zeros; `none`: `SslError` (e.g. it is not a point of the curve). -/
def ecdhSecret (product : Bytes → Option Bytes) (peerEph : Bytes) : Option Bytes :=
  match product peerEph with
  | none => none
  | some k =>
    match Ser.withLength (Ser.derive k) Ser.empty with
    | .ok s => some s.buf
    | .error _ => none

/-- `GenerateSharedSecret` of the object made by `MakeKex`, KexFactory.cxx:17-31. -/
def sharedSecret : KexMethod → (Bytes → Option Bytes) → Bytes → Option Bytes
  | .curve25519 => curve25519Secret
  | .ecdhNistp256 => ecdhSecret

/-- The parts of `KexEnv` which belong to the key exchange objects; `sk`: the secret key of the `n`-th object. -/
def KexEnv.uses {S : Type} (e : KexEnv) (d : KexMethod → Spec.DiffieHellman S) (sk : KexMethod → Nat → S) : Prop :=
  (∀ m n, e.ephPub m n = (d m).pub (sk m n)) ∧ ∀ m n eph, e.shared m n eph = sharedSecret m ((d m).product (sk m n)) eph

end Lukko.Model
