import Verif.Base
/-
  Algorithm negotiation as RFC 4253 section 7.1 describes it.
-/
namespace Lukko.Spec

/-- An algorithm name: not empty, contains no comma. -/
def IsName (n : Bytes) : Prop := n ≠ [] ∧ (44 : UInt8) ∉ n

/-- A name-list as transmitted: names separated by commas. -/
def nameList : List Bytes → Bytes
  | [] => []
  | [n] => n
  | n :: ns => n ++ 44 :: nameList ns

/-- "The first algorithm on the client's list that is also on the server's list." -/
def firstCommon (client server : List Bytes) : Option Bytes :=
  client.find? fun n => n ∈ server

end Lukko.Spec
