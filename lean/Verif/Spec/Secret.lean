import Verif.Spec.Wire
/-
  The shared secret of a key exchange as RFC 8731 section 3.1 and RFC 5656 section 4 want it, and what a Diffie-Hellman
  function is.
-/
namespace Lukko.Spec

/-- `secret` is the number `n` as an `mpint`, with its length in front of it. -/
def IsSecret (secret : Bytes) (n : Nat) : Prop := ∃ bs, IsMpint bs n ∧ secret = str bs

/-- Public keys and what is computed from the own secret key and the public key of the other side (`none`: refused); `S`: secret keys. -/
structure DiffieHellman (S : Type) where
  pub : S → Bytes
  product : S → Bytes → Option Bytes

/-- Both sides compute the same. -/
def DiffieHellman.Agrees {S : Type} (d : DiffieHellman S) : Prop := ∀ a b, d.product a (d.pub b) = d.product b (d.pub a)

end Lukko.Spec
