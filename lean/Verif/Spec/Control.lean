import Verif.Base
/-
  Runtime control, as seen by an administrator.

  What the control socket can influence: the log level, which listeners are
  announced with zeroconf, and which connections go on.
-/
namespace Lukko.Spec

/-- An account is labelled with a list of tags; the translation server separates
them with NUL bytes. -/
def nulFields : Bytes → List Bytes
  | [] => [[]]
  | c :: rest =>
    if c = 0 then [] :: nulFields rest
    else match nulFields rest with
      | [] => [[c]]
      | f :: fs => (c :: f) :: fs

/-- What an observer sees of the running server. -/
structure ServerView where
  logLevel : Nat
  /-- one flag per listener: is it announced? -/
  announced : List Bool
  /-- one flag per connection of each listener: does it go on? -/
  running : List (List Bool)
deriving DecidableEq, Repr

end Lukko.Spec
