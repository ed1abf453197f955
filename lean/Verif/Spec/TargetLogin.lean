import Verif.Spec.Auth
import Verif.Spec.Keys
/-
  Independent specification of the login of a proxy at the host behind it: RFC
  4252, with host based authentication (section 9).
-/
namespace Lukko.Spec

/-- What happens on the connection to the target, from outside. -/
inductive TargetEntry
  | received (msg : UInt8) (payload : Bytes)
  | sent (msg : UInt8) (payload : Bytes)
  /-- the login is taken to have succeeded -/
  | loggedIn
  /-- the login is taken to have failed -/
  | refused
  deriving DecidableEq, Repr

/-- The packets sent so far. -/
def sentTo : List TargetEntry → List (UInt8 × Bytes)
  | [] => []
  | .sent m p :: l => (m, p) :: sentTo l
  | _ :: l => sentTo l

/-- The SERVICE_REQUEST. -/
def serviceRequest : UInt8 × Bytes := (5, str (ascii "ssh-userauth"))

/-- A host based request, RFC 4252 section 9: `k` is the host's key, `alg` the
signature algorithm, `host` and `clientUser` are what the host says about the
client. -/
def IsHostRequest (P : Schemes) (sessionId : Bytes) (k : PubKey) (alg user host clientUser : Bytes) (p : Bytes) : Prop :=
  ∃ blob sig, IsKeyBlob k blob ∧
    p = authRequest user (ascii "hostbased") (str alg ++ (str blob ++ (str host ++ (str clientUser ++ str sig)))) ∧
    GoodSignature IsMpint P (signedBytes sessionId (authRequest user (ascii "hostbased")
      (str alg ++ (str blob ++ (str host ++ str clientUser))))) k alg sig

/-- May this happen after `a`? -/
def ProperNext (request : Bytes → Prop) (a : List TargetEntry) : TargetEntry → Prop
  | .received _ _ => True
  | .sent m p =>
    -- first the service is requested
    ((m, p) = serviceRequest ∧ sentTo a = []) ∨
    -- then, when it was accepted, a login
    (m = 50 ∧ request p ∧ sentTo a = [serviceRequest] ∧ a.getLast? = some (.received 6 (str (ascii "ssh-userauth"))))
  | .loggedIn =>
    (∃ r, sentTo a = [serviceRequest, (50, r)]) ∧ (∃ p, a.getLast? = some (.received 52 p)) ∧
      .loggedIn ∉ a ∧ .refused ∉ a
  | .refused =>
    (∃ r, sentTo a = [serviceRequest, (50, r)]) ∧ (∃ p, a.getLast? = some (.received 51 p)) ∧
      .loggedIn ∉ a ∧ .refused ∉ a

/-- The whole history is proper. -/
def ProperLogin (request : Bytes → Prop) (log : List TargetEntry) : Prop :=
  ∀ a x b, log = a ++ x :: b → ProperNext request a x

end Lukko.Spec
