import Verif.Spec.Kex
import Verif.Spec.Algorithms
/-
  Extension negotiation (RFC 8308).  Nothing here refers to the model.
-/
namespace Lukko.Spec

/-- All packets sent. -/
def sentPackets (log : List Entry) : List Bytes := log.filterMap fun | .sent p => some p | _ => none

/-- The signature algorithms which the server announces. -/
def announcedAlgorithms : List Bytes :=
  [ascii "ssh-ed25519", ascii "ecdsa-sha2-nistp256", ascii "rsa-sha2-256", ascii "rsa-sha2-512", ascii "ssh-rsa"]

/-- EXT_INFO (RFC 8308 section 2.3): the number of extensions, their names and values. -/
def extInfo (extensions : List (Bytes × Bytes)) : Bytes :=
  7 :: (u32 extensions.length ++ extensions.flatMap fun x => str x.1 ++ str x.2)

/-- What the server announces. -/
def serverExtInfo : Bytes :=
  extInfo [(ascii "server-sig-algs", nameList announcedAlgorithms), (ascii "agent-forward", ascii "0")]

/-- A KEXINIT (without its message number) which asks for EXT_INFO: the marker of clients
(RFC 8308 section 2.1) is in its first name-list. -/
def AsksExtInfo (kexinit : Bytes) : Prop :=
  ∃ cookie names rest, cookie.length = 16 ∧ (nameList names).length < 2 ^ 32 ∧
    kexinit = cookie ++ (str (nameList names) ++ rest) ∧ ascii "ext-info-c" ∈ names

end Lukko.Spec
