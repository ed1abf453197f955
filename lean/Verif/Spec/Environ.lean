import Verif.Spec.Session
/-
  Specification of environments of processes.  Nothing here refers to the model.
-/
namespace Lukko.Spec

/-- The entry for a variable. -/
def envEntry (name value : Bytes) : Bytes := name ++ 61 :: value

/-- The value which an entry gives to the variable `name`. -/
def entryValue (name entry : Bytes) : Option Bytes :=
  if (name ++ [61]).isPrefixOf entry then some (entry.drop (name.length + 1)) else none

/-- `getenv()`: the first entry with this name. -/
def getenv (env : List Bytes) (name : Bytes) : Option Bytes := env.findSome? (entryValue name)

/-- The same for a program which takes the last entry, like `bash`. -/
def lastenv (env : List Bytes) (name : Bytes) : Option Bytes := getenv env.reverse name

/-- The entries for these variables, as C strings. -/
def envEntries (vars : List (Bytes × Bytes)) : List Bytes := vars.map fun v => upToNul (envEntry v.1 v.2)

/-- The last part of a path. -/
inductive LastPart : (path part : Bytes) → Prop
  | noSlash {p} : 47 ∉ p → LastPart p p
  | of {dir p} : 47 ∉ p → p ≠ [] → LastPart (dir ++ 47 :: p) p
  /-- nothing behind the last slash: the whole path is used -/
  | dir {d} : LastPart (d ++ [47]) (d ++ [47])

/-- What the server knows about the connection and the account. -/
structure EnvFacts where
  user : Bytes
  shell : Bytes
  peerHost : Bytes
  peerPort : Nat
  localHost : Bytes
  localPort : Nat

/-- The variables of shells and commands which the server decides about. -/
def serverVars : List Bytes := [ascii "USER", ascii "LOGNAME", ascii "SHELL", ascii "SSH_CLIENT", ascii "SSH_CONNECTION",
  ascii "HOME", ascii "SSH_AUTH_SOCK", ascii "SSH_ORIGINAL_COMMAND"]

/-- It is a command line for the shell, or a login shell. -/
def Program.usesShell : Program → Bool
  | .loginShell => true
  | .command _ => true
  | _ => false

/-- Variables which tell a program about the connection. -/
def EnvFacts.client (f : EnvFacts) : Bytes :=
  f.peerHost ++ 32 :: (ascii (toString f.peerPort) ++ 32 :: ascii (toString f.localPort))

def EnvFacts.connection (f : EnvFacts) : Bytes :=
  f.peerHost ++ 32 :: (ascii (toString f.peerPort) ++ 32 :: (f.localHost ++ 32 :: ascii (toString f.localPort)))

end Lukko.Spec
