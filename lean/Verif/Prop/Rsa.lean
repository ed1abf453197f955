import Verif.Model.Rsa
/-
  C53: the CRT exponents of RSA host keys.
-/
namespace Lukko.Spec

/-- RFC 8017 section 3.2: the CRT exponents of a private key. -/
def CrtExponents (d p q dP dQ : Nat) : Prop := dP = d % (p - 1) ∧ dQ = d % (q - 1)

/-- A consistent RSA private key: for a modulus of two different factors, the
private exponent inverts the public one modulo both `p - 1` and `q - 1`. -/
structure RsaKey (n e d p q : Nat) : Prop where
  modulus : n = p * q
  factors : 2 < p ∧ 2 < q ∧ p ≠ q
  inverse : e * d % (p - 1) = 1 ∧ e * d % (q - 1) = 1

end Lukko.Spec

namespace Lukko
open Spec Model

/-- **C53** fails: the arguments of `CalcFactorExponent` are swapped
(DeserializeRSA.cxx:108-109), so the exponents are wrong.  The key is the
textbook example with the factors 61 and 53. -/
theorem C53_exponents_violated :
    ∃ n e d iqmp p q params, RsaKey n e d p q ∧ iqmp * q % p = 1 ∧ rsaParams n e d iqmp p q = some params ∧
      ¬ CrtExponents d p q params.dmp params.dmq :=
  ⟨3233, 17, 2753, 38, 61, 53, _, ⟨by decide, by decide, by decide⟩, by decide, rfl, by unfold CrtExponents; decide⟩

/-- **C53** fails for *every* key of practical size: as soon as the private
exponent is larger than the factors, the values computed are the factors
themselves, which are never the CRT exponents. -/
theorem C53_never_violated {n e d iqmp p q : Nat} (hk : RsaKey n e d p q) (hp : p + 1 < d) (hq : q + 1 < d) :
    ∃ params, rsaParams n e d iqmp p q = some params ∧ params.dmp = p ∧ params.dmq = q ∧
      ¬ CrtExponents d p q params.dmp params.dmq := by
  have h0 : d - 1 ≠ 0 := by omega
  refine ⟨⟨n, e, d, iqmp, p, q, p % (d - 1), q % (d - 1)⟩, ?_, ?_, ?_, ?_⟩
  · simp only [rsaParams, calcFactorExponent, if_neg h0]
  · exact Nat.mod_eq_of_lt (by omega)
  · exact Nat.mod_eq_of_lt (by omega)
  · rintro ⟨h, _⟩
    simp only at h
    rw [Nat.mod_eq_of_lt (by omega : p < d - 1)] at h
    have := Nat.mod_lt d (by have := hk.factors.1; omega : 0 < p - 1)
    omega

example : RsaKey 3233 17 2753 61 53 ∧ 61 + 1 < 2753 := ⟨⟨by decide, by decide, by decide⟩, by decide⟩

/-- **C53** (partial: the function alone).  With its arguments in the declared
order, `CalcFactorExponent` computes a CRT exponent. -/
theorem C53_function_partial {d p q dP dQ : Nat} (hp : calcFactorExponent p d = some dP)
    (hq : calcFactorExponent q d = some dQ) : CrtExponents d p q dP dQ := by
  simp only [calcFactorExponent] at hp hq
  split at hp
  · cases hp
  · split at hq
    · cases hq
    · simp only [Option.some.injEq] at hp hq
      exact ⟨hp.symm, hq.symm⟩

example : calcFactorExponent 61 2753 = some 53 ∧ calcFactorExponent 53 2753 = some 49 := by decide

end Lukko
