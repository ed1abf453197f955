import Verif.Spec.Config
/-
  C109: what a starting server does, and with which keys.
-/
namespace Lukko.Spec

/-- What can be said about a file which is expected to contain a secret key. -/
inductive KeyFileView (K : Type)
  /-- there is no such file -/
  | absent
  /-- a file with this key -/
  | key (k : K)
  /-- there is something, but no key can be obtained from it (no permission, malformed, …) -/
  | unusable
  deriving DecidableEq

/-- The keys in these files. -/
def keysIn {K : Type} (files : List (KeyFileView K)) : List K :=
  files.filterMap fun
    | .key k => some k
    | _ => none

/-- The keys of a host with these key files: those in the files; only if there are no files at
all, fresh keys. -/
structure IsIdentity {K : Type} (files : List (KeyFileView K)) (fresh : Option (List K)) (keys : List K) : Prop where
  usable : .unusable ∉ files
  kept : (∃ f ∈ files, f ≠ .absent) → keys = keysIn files
  generated : (∀ f ∈ files, f = .absent) → fresh = some keys

/-- What a starting server does to its surroundings. -/
inductive StartDeed (A : Type)
  /-- the process which runs programs on behalf of users has been started -/
  | spawner
  | control (n : Nat)
  | exporter (n : Nat)
  /-- the sockets to which clients may connect -/
  | listen (a : A)
  /-- all privileges have been given up -/
  | unprivileged
  /-- the service manager has been told that the server is ready -/
  | ready
  deriving DecidableEq, Repr

/-- … if nothing goes wrong. -/
def startPlan {A : Type} (controls exporters : Nat) (listeners : List A) : List (StartDeed A) :=
  .spawner :: ((List.range controls).map .control ++ ((List.range exporters).map .exporter ++
    (listeners.map .listen ++ [.unprivileged, .ready])))

/-- How it ends. -/
inductive StartEnd (S : Type)
  /-- the process has exited with this code -/
  | exited (code : Nat)
  /-- connections are being accepted -/
  | running (s : S)
  deriving DecidableEq

end Lukko.Spec
