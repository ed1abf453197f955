import Verif.Base
/-
  Loading an RSA private key: /repo/src/openssl/DeserializeRSA.cxx.  A `BIGNUM`
  is a natural number; allocation failures are not modelled.
-/
namespace Lukko.Model

/-- `CalcFactorExponent(factor, d, ctx)`, DeserializeRSA.cxx:62-67; `none`:
`BN_mod` fails (division by zero). -/
def calcFactorExponent (factor d : Nat) : Option Nat :=
  let tmp := factor - 1
  if tmp = 0 then none else some (d % tmp)

/-- The parameters passed to `EVP_PKEY_fromdata`. -/
structure RsaParams where
  n : Nat
  e : Nat
  d : Nat
  iqmp : Nat
  p : Nat
  q : Nat
  dmp : Nat
  dmq : Nat
  deriving DecidableEq

/-- `ToParam`, DeserializeRSA.cxx:97-112, with the names of lines 69-88. -/
def rsaParams (n e d iqmp p q : Nat) : Option RsaParams :=
  match calcFactorExponent d p, calcFactorExponent d q with
  | some dmp, some dmq => some ⟨n, e, d, iqmp, p, q, dmp, dmq⟩
  | _, _ => none

end Lukko.Model
