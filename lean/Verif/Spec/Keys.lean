import Verif.Spec.Wire
/-
  Independent specification of SSH public keys and signatures: RFC 4253 section
  6.6, RFC 5656 section 3.1, RFC 8332, RFC 8709.  Nothing here refers to the
  model.
-/
namespace Lukko.Spec

/-- A public key. -/
inductive PubKey
  | ed25519 (pk : Bytes)
  | rsa (e n : Nat)
  | ecdsa (q : Bytes)
  deriving DecidableEq, Repr

/-- The hash functions of the signature algorithms. -/
inductive Hash
  | sha1 | sha256 | sha512
  deriving DecidableEq, Repr

/-- The encoding of a public key, RFC 4253 section 6.6 ("ssh-rsa"), RFC 8709
section 4, RFC 5656 section 3.1. -/
inductive IsKeyBlob : PubKey → Bytes → Prop
  | ed25519 {pk : Bytes} (h : pk.length = 32) :
    IsKeyBlob (.ed25519 pk) (str (ascii "ssh-ed25519") ++ str pk)
  | rsa {e n : Nat} {be bn : Bytes} (he : IsMpint be e) (hn : IsMpint bn n) :
    IsKeyBlob (.rsa e n) (str (ascii "ssh-rsa") ++ (str be ++ str bn))
  | ecdsa {q : Bytes} :
    IsKeyBlob (.ecdsa q) (str (ascii "ecdsa-sha2-nistp256") ++ (str (ascii "nistp256") ++ str q))

/-- A non-negative number with superfluous leading zeros allowed. -/
def LaxMpint (bs : Bytes) (n : Nat) : Prop :=
  beValue bs = n ∧ ∀ b, bs.head? = some b → b.toNat < 128

/-- When is a raw signature of a message good? -/
structure Schemes where
  ed25519 : Bytes → Bytes → Bytes → Prop
  rsa : Nat → Nat → Hash → Bytes → Bytes → Prop
  ecdsa : Bytes → Hash → Bytes → Nat → Nat → Prop

/-- RFC 8332 section 3, RFC 4253 section 6.6: the hash of an RSA algorithm. -/
inductive RsaAlgorithm : Bytes → Hash → Prop
  | sha256 : RsaAlgorithm (ascii "rsa-sha2-256") .sha256
  | sha512 : RsaAlgorithm (ascii "rsa-sha2-512") .sha512
  | sha1 : RsaAlgorithm (ascii "ssh-rsa") .sha1

/-- `sig` is a good signature of `msg` under key `k` made with the algorithm
`alg`; `num` is the encoding of numbers. -/
inductive GoodSignature (num : Bytes → Nat → Prop) (P : Schemes) (msg : Bytes) : PubKey → Bytes → Bytes → Prop
  | ed25519 {pk raw : Bytes} (hl : raw.length = 64) (h : P.ed25519 pk msg raw) :
    GoodSignature num P msg (.ed25519 pk) (ascii "ssh-ed25519") (str (ascii "ssh-ed25519") ++ str raw)
  | rsa {e n : Nat} {hash : Hash} {alg raw : Bytes} (ha : RsaAlgorithm alg hash) (h : P.rsa e n hash msg raw) :
    GoodSignature num P msg (.rsa e n) alg (str alg ++ str raw)
  | ecdsa {q br bs rest : Bytes} {r s : Nat} (hr : num br r) (hs : num bs s) (h : P.ecdsa q .sha256 msg r s) :
    GoodSignature num P msg (.ecdsa q) (ascii "ecdsa-sha2-nistp256")
      (str (ascii "ecdsa-sha2-nistp256") ++ str (str br ++ (str bs ++ rest)))

end Lukko.Spec
