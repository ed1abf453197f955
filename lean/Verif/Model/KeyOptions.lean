import Verif.Model.Messages
import Verif.Spec.KeyFile
/-
  Model of /repo/src/key/Options.{hxx,cxx} and /repo/src/OptionsRequest.cxx
-/
namespace Lukko.Model

/-- `struct AuthorizedKeyOptions`, Options.hxx:12-24. -/
structure KeyOptions where
  command : Bytes := []
  noPortForwarding : Bool := false
  noPty : Bool := false
  homeReadOnly : Bool := false
  deriving DecidableEq, Repr

/-- The restrictions expressed by these fields (not in the code). -/
def KeyOptions.restrictions (o : KeyOptions) : Spec.Restrictions where
  command := if o.command = [] then none else some o.command
  noForwarding := o.noPortForwarding
  noTerminal := o.noPty
  readOnlyHome := o.homeReadOnly

/-- `AuthorizedKeyOptions::Set`, Options.cxx:9-63; `none`: returns false (with the
options unchanged). -/
def KeyOptions.set (o : KeyOptions) (name value : Bytes) : Option KeyOptions :=
  if name = ascii "command" then
    if value = [] then none else some { o with command := value }
  else if name = ascii "port-forwarding" then
    if value ≠ [] then none else some { o with noPortForwarding := false }
  else if name = ascii "no-port-forwarding" then
    if value ≠ [] then none else some { o with noPortForwarding := true }
  else if name = ascii "pty" then
    if value ≠ [] then none else some { o with noPty := false }
  else if name = ascii "no-pty" then
    if value ≠ [] then none else some { o with noPty := true }
  else if name = ascii "restrict" then
    if value ≠ [] then none else some { o with noPortForwarding := true, noPty := true }
  else if name = ascii "user-rc" ∨ name = ascii "no-user-rc" then some o
  else if name = ascii "agent-forwarding" ∨ name = ascii "no-agent-forwarding" ∨
      name = ascii "X11-forwarding" ∨ name = ascii "no-X11-forwarding" then some o
  else if name = ascii "home-read-only" then some { o with homeReadOnly := true }
  else none

/-- `AuthorizedKeyOptions::Restrict`, Options.cxx:65-80: the new options and the
return value. -/
def KeyOptions.restrict (o other : KeyOptions) : KeyOptions × Bool :=
  if other.command ≠ [] ∧ o.command ≠ [] ∧ o.command ≠ other.command then (o, false)
  else
    ({ command := if other.command ≠ [] ∧ o.command = [] then other.command else o.command,
       noPortForwarding := o.noPortForwarding || other.noPortForwarding,
       noPty := o.noPty || other.noPty,
       homeReadOnly := o.homeReadOnly || other.homeReadOnly }, true)

/-- `SerializeOption`, OptionsRequest.cxx:14-20. -/
def serializeOption (s : Ser) (name value : Bytes) : Except SerError Ser := do
  let s ← s.writeString name
  s.writeString value

/-- `if (c) SerializeOption(…)` -/
def serializeOptionIf (c : Bool) (name value : Bytes) (s : Ser) : Except SerError Ser :=
  bif c then serializeOption s name value else .ok s

/-- `SerializeAuthorizedKeyOptions`, OptionsRequest.cxx:22-37. -/
def serializeKeyOptions (s : Ser) (o : KeyOptions) : Except SerError Ser := do
  let s ← serializeOptionIf (!o.command.isEmpty) (ascii "command") o.command s
  let s ← serializeOptionIf o.noPortForwarding (ascii "no-port-forwarding") [] s
  let s ← serializeOptionIf o.noPty (ascii "no-pty") [] s
  serializeOptionIf o.homeReadOnly (ascii "home-read-only") [] s

/-- What `DeserializeAuthorizedKeyOptions` throws. -/
inductive OptionsError
  /-- `MalformedPacket` -/
  | malformed
  /-- `std::invalid_argument`: "Unsupported authorized_keys option" -/
  | unsupported
  deriving DecidableEq, Repr

theorem readString_shorter {s v r} (h : readString s = some (v, r)) : r.length < s.length := by
  simp only [readString, bind] at h
  split at h
  · simp at h
  · rename_i n s' h1
    simp only [readU32] at h1
    split at h1
    · rename_i a b c d rest h2
      simp only [readN] at h2 h
      split at h2
      · simp at h2
      · rename_i hl
        split at h
        · simp at h
        · simp only [Option.some.injEq, Prod.mk.injEq] at h h1 h2
          obtain ⟨_, rfl⟩ := h
          obtain ⟨_, rfl⟩ := h1
          obtain ⟨_, rfl⟩ := h2
          simp only [List.length_drop]
          omega
    · simp at h1

/-- `DeserializeAuthorizedKeyOptions`, OptionsRequest.cxx:39-53. -/
def deserializeKeyOptions (o : KeyOptions) (d : Bytes) : Except OptionsError KeyOptions :=
  if d = [] then .ok o
  else
    match h1 : readString d with
    | none => .error .malformed
    | some (name, d1) =>
      match h2 : readString d1 with
      | none => .error .malformed
      | some (value, d2) =>
        match o.set name value with
        | none => .error .unsupported
        | some o => deserializeKeyOptions o d2
termination_by d.length
decreasing_by
  have := readString_shorter h1
  have := readString_shorter h2
  omega

end Lukko.Model
