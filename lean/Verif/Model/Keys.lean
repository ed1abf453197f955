import Verif.Model.Messages
import Verif.Model.Rsa
import Verif.Spec.Keys
/-
  Public and secret keys, signatures: /repo/src/key/{Ed25519Key,RSAKey,ECDSAKey,
  Parser}.cxx, /repo/src/openssl/{Sign,Verify,SerializeBN,DeserializeBN,
  DeserializeRSA,DeserializeEC,SerializeEVP}.cxx, /repo/src/ssh/KexSignature.cxx.

  A `BIGNUM` is a natural number.  The primitives of libsodium and OpenSSL are
  the fields of `Crypto`.  Both `std::invalid_argument` and `MalformedPacket`
  (which the callers of these functions treat alike) are `none`/`thrown`.
  `PubKey` is `Ed25519Key::public_key` or the public parameters of the `EVP_PKEY`
  in an `RSAKey`/`ECDSAKey`; `Hash` is `DigestAlgorithm` (Digest.hxx:12-21)
  without SHA384, which is used for no signature.
-/
namespace Lukko.Model
open Lukko.Spec (PubKey Hash)

/-- A secret key. -/
inductive SecKey
  | ed25519 (pk sk : Bytes)
  | rsa (params : RsaParams)
  | ecdsa (q : Bytes) (d : Nat)
  deriving DecidableEq

/-- The `PublicKey` base class of a secret key (Key.hxx): its public half. -/
def SecKey.pub : SecKey → PubKey
  | .ed25519 pk _ => .ed25519 pk
  | .rsa p => .rsa p.e p.n
  | .ecdsa q _ => .ecdsa q

/-- libsodium and OpenSSL.  `edSign`/`edVerify`: `crypto_sign_ed25519_detached`
and `…_verify_detached`; `rsaVerify`/`ecVerify`: `EVP_PKEY_verify` (`none`:
an error is thrown) on a digest, the latter for the two numbers of an ECDSA
signature (`i2d_ECDSA_SIG` and the decoding inside OpenSSL); `rsaSign`/`ecSign`:
`EVP_PKEY_sign` (DER for ECDSA, decoded by `derDecode` = `d2i_ECDSA_SIG`);
`rsaPublic`, `ecPublic`, `rsaSecret`, `ecSecret`: `EVP_PKEY_fromdata`, where the
EC ones return the point as `OSSL_PKEY_PARAM_PUB_KEY` will return it.  `libmd`:
`HAVE_LIBMD`. -/
structure Crypto where
  libmd : Bool
  digest : Hash → Bytes → Bytes
  edSign : Bytes → Bytes → Bytes
  edVerify : Bytes → Bytes → Bytes → Bool
  rsaPublic : Nat → Nat → Bool
  rsaSecret : RsaParams → Bool
  rsaSign : RsaParams → Hash → Bytes → Option Bytes
  rsaVerify : Nat → Nat → Hash → Bytes → Bytes → Option Bool
  ecPublic : Bytes → Option Bytes
  ecSecret : Bytes → Nat → Option Bytes
  ecSign : Bytes → Nat → Bytes → Option Bytes
  derDecode : Bytes → Option (Nat × Nat)
  ecVerify : Bytes → Bytes → Nat → Nat → Option Bool

/-- Outcome of a function that cannot return: an exception or a failing
assertion. -/
inductive KeyError
  | thrown | assertFailed
  deriving DecidableEq, Repr

/-- A serializer call inside a key function. -/
def liftSer {α} : Except SerError α → Except KeyError α
  | .ok a => .ok a
  | .error .assertFailed => .error .assertFailed
  | .error _ => .error .thrown

/-- A throwing OpenSSL call. -/
def orThrow {α} : Option α → Except KeyError α
  | some a => .ok a
  | none => .error .thrown

/-- `PrepareLength(); …; CommitLength()` around a throwing function. -/
def Ser.keyLength (w : Ser → Except KeyError Ser) (s : Ser) : Except KeyError Ser := do
  let (pos, s) ← liftSer s.prepareLength
  let s ← w s
  pure (s.commitLength pos)

/-- `BN_bn2bin`: the shortest big-endian representation. -/
def bn2bin (n : Nat) : Bytes :=
  if n = 0 then [] else bn2bin (n / 256) ++ [UInt8.ofNat (n % 256)]

/-- `BN_bin2bn`. -/
def bin2bn (src : Bytes) : Nat := src.foldl (fun n b => n * 256 + b.toNat) 0

/-- `Serialize(s, bn)`, openssl/SerializeBN.cxx:14-26. -/
def Ser.writeBN (n : Nat) (s : Ser) : Except KeyError Ser :=
  match serializeBN s (bn2bin n) with
  | none => .error .thrown
  | some r => liftSer r

/-- `GetType`: Ed25519Key.cxx:38-42, RSAKey.cxx:23-27, ECDSAKey.cxx:20-24. -/
def pubKeyType : PubKey → Bytes
  | .ed25519 _ => ascii "ssh-ed25519"
  | .rsa .. => ascii "ssh-rsa"
  | .ecdsa _ => ascii "ecdsa-sha2-nistp256"

/-- `GetAlgorithms` split at the commas: Ed25519Key.cxx:44-48, RSAKey.cxx:29-33,
ECDSAKey.cxx:26-30. -/
def pubKeyAlgorithms : PubKey → List Bytes
  | .ed25519 _ => [ascii "ssh-ed25519"]
  | .rsa .. => [ascii "rsa-sha2-256", ascii "rsa-sha2-512", ascii "ssh-rsa"]
  | .ecdsa _ => [ascii "ecdsa-sha2-nistp256"]

/-- `SerializePublic`: Ed25519Key.cxx:50-58, RSAKey.cxx:35-47, ECDSAKey.cxx:32-43
with openssl/SerializeEVP.cxx:11-34. -/
def pubKeySerialize : PubKey → Ser → Except KeyError Ser
  | .ed25519 pk, s => do
    let s ← liftSer (s.writeString (ascii "ssh-ed25519"))
    s.keyLength (fun s => liftSer (s.writeN pk))
  | .rsa e n, s => do
    let s ← liftSer (s.writeString (ascii "ssh-rsa"))
    let s ← s.keyLength (Ser.writeBN e)
    s.keyLength (Ser.writeBN n)
  | .ecdsa q, s => do
    let s ← liftSer (s.writeString (ascii "ecdsa-sha2-nistp256"))
    let s ← liftSer (s.writeString (ascii "nistp256"))
    s.keyLength (fun s => liftSer (s.writeN q))

/-- `DeserializeRSAPublic`, DeserializeRSA.cxx:33-60. -/
def deserializeRsaPublic (c : Crypto) (e n : Bytes) : Option PubKey := do
  let e ← deserializeBIGNUM bin2bn e
  let n ← deserializeBIGNUM bin2bn n
  if c.rsaPublic e n then some (.rsa e n) else none

/-- A throwing call while parsing. -/
def Parser.lift {α} (o : Option α) : Parser α := fun s => o.map (·, s)

/-- The fields after the algorithm name. -/
def parsePublicFields (c : Crypto) (alg : Bytes) : Parser PubKey :=
  if alg = ascii "ssh-ed25519" then do
    let pk ← readString
    if pk.length ≠ 32 then Parser.fail else pure (.ed25519 pk)
  else if alg = ascii "ssh-rsa" then do
    let e ← readString
    let n ← readString
    Parser.lift (deserializeRsaPublic c e n)
  else if alg = ascii "ecdsa-sha2-nistp256" then do
    let curve ← readString
    if curve ≠ ascii "nistp256" then Parser.fail
    else do
      let q ← readString
      let q ← Parser.lift (c.ecPublic q)
      pure (.ecdsa q)
  else Parser.fail

/-- `ParsePublicKeyBlob`, key/Parser.cxx:141-177 (data after the key is ignored). -/
def parsePublicKeyBlob (c : Crypto) (src : Bytes) : Option PubKey :=
  (do
    let alg ← readString
    parsePublicFields c alg : Parser PubKey).parse src

/-- `GetHashorithmRSA`, RSAKey.cxx:49-62. -/
def digestRsa (c : Crypto) (alg : Bytes) : Option Hash :=
  if alg = ascii "rsa-sha2-256" then some .sha256
  else if alg = ascii "rsa-sha2-512" then some .sha512
  else if c.libmd ∧ alg = ascii "ssh-rsa" then some .sha1
  else none

/-- `GetHashorithmECDSA`, ECDSAKey.cxx:45-52. -/
def digestEcdsa (alg : Bytes) : Option Hash :=
  if alg = ascii "ecdsa-sha2-nistp256" then some .sha256 else none

/-- `DeserializeECDSA_SIG`, openssl/Verify.cxx:65-73. -/
def parseEcdsaSig : Parser (Nat × Nat) := do
  let r ← readString
  let r ← Parser.lift (deserializeBIGNUM bin2bn r)
  let s ← readString
  let s ← Parser.lift (deserializeBIGNUM bin2bn s)
  pure (r, s)

/-- The signature blob: algorithm and signature (RSAKey.cxx:68-71 etc.). -/
def parseSigBlob : Parser (Bytes × Bytes) := do
  let alg ← readString
  let raw ← readString
  pure (alg, raw)

/-- `Verify`; `none`: an exception. -/
def pubKeyVerify (c : Crypto) (k : PubKey) (message signature : Bytes) : Option Bool := do
  let (alg, raw) ← parseSigBlob.parse signature
  match k with
  -- Ed25519Key.cxx:60-77
  | .ed25519 pk =>
    if alg ≠ ascii "ssh-ed25519" then none
    else if raw.length ≠ 64 then none
    else some (c.edVerify pk message raw)
  -- RSAKey.cxx:64-74, VerifyGeneric
  | .rsa e n => do
    let h ← digestRsa c alg
    c.rsaVerify e n h (c.digest h message) raw
  -- ECDSAKey.cxx:54-64, VerifyECDSA
  | .ecdsa q => do
    let h ← digestEcdsa alg
    let (r, s) ← parseEcdsaSig.parse raw
    c.ecVerify q (c.digest h message) r s

/-- `SignDigestOpenSSL`, openssl/Sign.cxx:19-37: the signature is stored in the
serializer. -/
def Ser.writeSig (sig : Option Bytes) (s : Ser) : Except KeyError Ser := do
  let sig ← orThrow sig
  liftSer (s.writeN sig)

/-- `SignGeneric`, openssl/Sign.cxx:74-85. -/
def signGeneric (c : Crypto) (p : RsaParams) (h : Hash) (alg message : Bytes) (s : Ser) : Except KeyError Ser := do
  let s ← liftSer (s.writeString alg)
  s.keyLength (Ser.writeSig (c.rsaSign p h (c.digest h message)))

/-- The second half of `SignECDSA`, openssl/Sign.cxx:109-120. -/
def writeEcdsaSig (r t : Nat) (s : Ser) : Except KeyError Ser := do
  let s ← liftSer (s.writeString (ascii "ecdsa-sha2-nistp256"))
  s.keyLength fun s => do
    let s ← s.keyLength (Ser.writeBN r)
    s.keyLength (Ser.writeBN t)

/-- `SignECDSA`, openssl/Sign.cxx:87-121. -/
def signEcdsa (c : Crypto) (q : Bytes) (d : Nat) (h : Hash) (message : Bytes) (s : Ser) : Except KeyError Ser := do
  let mark := s.size
  let s ← s.writeSig (c.ecSign q d (c.digest h message))
  let der := s.since mark
  let s := s.rewind mark
  let (r, t) ← orThrow (c.derDecode der)
  writeEcdsaSig r t s

/-- `Sign`: Ed25519Key.cxx:79-96, RSAKey.cxx:76-81, ECDSAKey.cxx:66-71. -/
def SecKey.sign (c : Crypto) (k : SecKey) (message alg : Bytes) (s : Ser) : Except KeyError Ser :=
  match k with
  | .ed25519 _ sk =>
    if alg ≠ ascii "ssh-ed25519" then .error .assertFailed
    else do
      let s ← liftSer (s.writeString alg)
      let s ← liftSer (s.writeU32 64)
      liftSer (s.writeN (c.edSign sk message))
  | .rsa p =>
    match digestRsa c alg with
    | none => .error .thrown
    | some h => signGeneric c p h alg message s
  | .ecdsa q d =>
    match digestEcdsa alg with
    | none => .error .thrown
    | some h => signEcdsa c q d h message s

/-- `VerifyKexSignature`, ssh/KexSignature.cxx:11-18; also what
Connection.cxx:973-1019 and 1050-1075 do with the blob of a request. -/
def verifyBlob (c : Crypto) (blob message signature : Bytes) : Option Bool := do
  let k ← parsePublicKeyBlob c blob
  pubKeyVerify c k message signature

end Lukko.Model
