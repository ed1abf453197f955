import Verif.Base
/-
  The interface `SSH::Cipher` (src/cipher/Cipher.hxx:27-125) as a record of
  functions.  A value of `σ` is one cipher object together with its mutable
  state (AES counter, GCM IV, HMAC state); `none` means that the call throws.
-/
namespace Lukko

structure CipherOps (σ : Type) where
  /-- `GetBlockSize`, Cipher.hxx:49-51 -/
  blockSize : σ → Nat
  /-- `GetAuthSize`, Cipher.hxx:64-66 -/
  authSize : σ → Nat
  /-- `IsHeaderExcludedFromPadding`, Cipher.hxx:72-74 -/
  padWithoutHeader : σ → Bool
  /-- `DecryptHeader(seqnr, src)`, Cipher.hxx:91-93 -/
  decryptHeader : σ → Nat → Bytes → Option (Bytes × σ)
  /-- `DecryptPayload(seqnr, src)`, Cipher.hxx:107-109 -/
  decryptPayload : σ → Nat → Bytes → Option (Bytes × σ)
  /-- `Encrypt(seqnr, src)`, Cipher.hxx:122-124 -/
  encrypt : σ → Nat → Bytes → Option (Bytes × σ)

/-- The contract between a sending and a receiving cipher object: whatever
packet the sender encrypts for sequence number `seq`, the receiver recovers its
length field and then the rest, and both objects match again afterwards. -/
structure Contract {σ} (ops : CipherOps σ) (Matched : σ → σ → Prop) : Prop where
  roundtrip : ∀ tx rx seq pkt e tx', Matched tx rx → 4 ≤ pkt.length →
    ops.encrypt tx seq pkt = some (e, tx') →
    e.length = pkt.length + ops.authSize rx ∧
    ∃ rx₁ rx', ops.decryptHeader rx seq (e.take 4) = some (pkt.take 4, rx₁) ∧
      ops.authSize rx₁ = ops.authSize rx ∧
      ops.decryptPayload rx₁ seq e = some (pkt.drop 4, rx') ∧
      ops.authSize rx' = ops.authSize rx ∧ Matched tx' rx'

end Lukko
