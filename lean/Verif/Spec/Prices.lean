import Verif.Spec.Tally
/-
  Specification: what a login attempt costs if it fails (C101).  Costs in billionths of a token.
-/
namespace Lukko.Spec

/-- RFC 4252 section 5: a request to log in. -/
def anyAuthRequest (user service method rest : Bytes) : Bytes := str user ++ (str service ++ (str method ++ rest))

/-- The price list: a request (the payload of the packet) and what the client has to pay if it does not lead to a
login. -/
inductive Price (world : AuthWorld) : Bytes → Nat → Prop where
  /-- for a service which does not exist -/
  | service {user service method rest} (h : service ≠ ascii "ssh-connection") :
      Price world (anyAuthRequest user service method rest) 0
  /-- for a user who does not exist -/
  | user {user service method rest} (h1 : world.translation = false) (h2 : world.knownUser user = false) :
      Price world (anyAuthRequest user service method rest) 0
  /-- with a public key: 0.2 -/
  | key {user rest} : Price world (anyAuthRequest user (ascii "ssh-connection") (ascii "publickey") rest) 200000000
  /-- without anything: 0.1 -/
  | none {user rest} : Price world (anyAuthRequest user (ascii "ssh-connection") (ascii "none") rest) 100000000
  /-- with the key of a trusted host (but not its signature) -/
  | host {user alg blob rest} (h : world.hostKey blob ≠ .none) :
      Price world (anyAuthRequest user (ascii "ssh-connection") (ascii "hostbased") (str alg ++ (str blob ++ rest))) 0
  /-- with any other host key: 8 -/
  | unknownHost {user rest} (h : ∀ alg blob rest', rest = str alg ++ (str blob ++ rest') → world.hostKey blob = .none) :
      Price world (anyAuthRequest user (ascii "ssh-connection") (ascii "hostbased") rest) 8000000000
  /-- the attempt to change the password -/
  | change {user b rest} (h : world.translation = true) (hb : b ≠ 0) :
      Price world (anyAuthRequest user (ascii "ssh-connection") (ascii "password") (b :: rest)) 0
  /-- with the empty password: 10 -/
  | empty {user} (h : world.translation = true) :
      Price world (anyAuthRequest user (ascii "ssh-connection") (ascii "password") (0 :: str [])) 10000000000
  /-- with any other password: 9 -/
  | password {user password} (h : world.translation = true) (hp : password ≠ []) :
      Price world (anyAuthRequest user (ascii "ssh-connection") (ascii "password") (0 :: str password)) 9000000000
  /-- with a password if nobody is there to check it: 5 -/
  | noPassword {user rest} (h : world.translation = false) :
      Price world (anyAuthRequest user (ascii "ssh-connection") (ascii "password") rest) 5000000000
  /-- with any other method: 5 -/
  | other {user method rest} (h1 : method ≠ ascii "publickey") (h2 : method ≠ ascii "none")
      (h3 : method ≠ ascii "hostbased") (h4 : method ≠ ascii "password") :
      Price world (anyAuthRequest user (ascii "ssh-connection") method rest) 5000000000

/-- The last request, and what was owed up to now. -/
def owedStep (price : Bytes → Nat) (s : Bytes × Nat) : AuthEntry → Bytes × Nat
  | .received m p => if m = 50 then (p, s.2) else s
  | .failure _ | .keyOk .. => (s.1, s.2 + price s.1)
  | _ => s

/-- What has to be paid for all answers on a connection which were not "success": "failure" and "this key would be
acceptable". -/
def owed (price : Bytes → Nat) (log : List AuthEntry) : Nat := (log.foldl (owedStep price) ([], 0)).2

/-- No request is more expensive than on the price list (if it is there twice, than the lower price). -/
def Listed (world : AuthWorld) (price : Bytes → Nat) : Prop := ∀ request n, Price world request n → price request ≤ n

end Lukko.Spec
