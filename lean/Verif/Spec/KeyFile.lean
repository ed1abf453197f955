import Verif.Base
/-
  Specification of authorized_keys files (sshd(8), "AUTHORIZED_KEYS FILE FORMAT") as
  far as Lukko supports them, and of the restrictions a key carries. Nothing here
  refers to the model.
-/
namespace Lukko.Spec

/-! ### Restrictions -/

/-- What a login with this key may not do. -/
structure Restrictions where
  /-- only this command may be executed -/
  command : Option Bytes := none
  noForwarding : Bool := false
  noTerminal : Bool := false
  readOnlyHome : Bool := false
  deriving DecidableEq, Repr

/-- `b` forbids everything that `a` forbids. -/
def Restrictions.le (a b : Restrictions) : Prop :=
  (∀ c, a.command = some c → b.command = some c) ∧
  (a.noForwarding = true → b.noForwarding = true) ∧
  (a.noTerminal = true → b.noTerminal = true) ∧
  (a.readOnlyHome = true → b.readOnlyHome = true)

/-! ### Options -/

/-- Options without value (later ones override earlier ones). -/
def flagOptions : List (String × (Restrictions → Restrictions)) :=
  [("port-forwarding", fun r => { r with noForwarding := false }),
   ("no-port-forwarding", fun r => { r with noForwarding := true }),
   ("pty", fun r => { r with noTerminal := false }),
   ("no-pty", fun r => { r with noTerminal := true }),
   ("restrict", fun r => { r with noForwarding := true, noTerminal := true })]

/-- Options which are known, but have no effect here. -/
def ignoredOptions : List String :=
  ["user-rc", "no-user-rc", "agent-forwarding", "no-agent-forwarding", "X11-forwarding", "no-X11-forwarding"]

/-- The effect of one option; `none`: unknown or malformed. -/
def applyOption (r : Restrictions) (o : Bytes × Bytes) : Option Restrictions :=
  if o.1 = ascii "command" then
    if o.2 = [] then none else some { r with command := some o.2 }
  else if o.1 = ascii "home-read-only" then some { r with readOnlyHome := true }
  else if o.1 ∈ ignoredOptions.map ascii then some r
  else if o.2 ≠ [] then none
  else (flagOptions.find? fun e => o.1 == ascii e.1).map fun e => e.2 r

/-- The effect of all options of a line, in order. -/
def applyOptions (r : Restrictions) : List (Bytes × Bytes) → Option Restrictions
  | [] => some r
  | o :: os => (applyOption r o).bind fun r => applyOptions r os

/-! ### Syntax -/

/-- An option name: lower case letters and dashes. -/
def IsOptionName (n : Bytes) : Prop :=
  ∃ c t, n = c :: t ∧ (97 ≤ c ∧ c ≤ 122) ∧ ∀ x ∈ t, (97 ≤ x ∧ x ≤ 122) ∨ x = 45

/-- `QuotedText s v`: `s` is `v` in quotes (without the quotes themselves), where
backslashes protect the following character. -/
inductive QuotedText : Bytes → Bytes → Prop
  | nil : QuotedText [] []
  | plain {c s v} : c ≠ 34 → c ≠ 92 → QuotedText s v → QuotedText (c :: s) (c :: v)
  | escaped {c s v} : QuotedText s v → QuotedText (92 :: c :: s) (c :: v)

/-- One option: a name, `name=value`, or `name="value"`. -/
inductive OptionText : Bytes → Bytes × Bytes → Prop
  | bare {n} : IsOptionName n → OptionText n (n, [])
  | plain {n v} : IsOptionName n → (∀ x ∈ v, x ≠ 44 ∧ x ≠ 32) → v.head? ≠ some 34 →
      OptionText (n ++ 61 :: v) (n, v)
  | quoted {n s v} : IsOptionName n → QuotedText s v → OptionText (n ++ 61 :: 34 :: (s ++ [34])) (n, v)

/-- A comma-separated list of options. -/
inductive OptionsText : Bytes → List (Bytes × Bytes) → Prop
  | one {s o} : OptionText s o → OptionsText s [o]
  | more {s o t os} : OptionText s o → OptionsText t os → OptionsText (s ++ 44 :: t) (o :: os)

/-- Names of key types begin like this. -/
def IsKeyType (t : Bytes) : Prop := ascii "ssh-" <+: t ∨ ascii "ecdsa-" <+: t

def IsBlank (s : Bytes) : Prop := ∀ c ∈ s, c ≤ 32

/-- Up to the first space. -/
def firstWord (s : Bytes) : Bytes := s.takeWhile (· != 32)

/-- key type, key, optional comment -/
structure KeyText (s b64 : Bytes) : Prop where
  ex : ∃ ty tail, s = ty ++ 32 :: (b64 ++ tail) ∧ 32 ∉ ty ∧ (∃ c t, ty = c :: t ∧ 32 < c) ∧
    (tail = [] ∨ ∃ t, tail = 32 :: t)
  nospace : 32 ∉ b64
  nonempty : b64 ≠ []

/-- A line with this key (in base64) and these options. -/
inductive KeyLine : Bytes → Bytes → List (Bytes × Bytes) → Prop
  | plain {blanks s b64} : IsBlank blanks → KeyText s b64 → IsKeyType (firstWord s) →
      KeyLine (blanks ++ s) b64 []
  | withOptions {blanks o os blanks' s b64} : IsBlank blanks → OptionsText o os → IsBlank blanks' →
      KeyText s b64 → ¬ IsKeyType (firstWord (o ++ [32])) →
      KeyLine (blanks ++ (o ++ 32 :: (blanks' ++ s))) b64 os

/-- The line grants access to the owner of this key, with these restrictions. -/
def Grants (decode : Bytes → Option Bytes) (line key : Bytes) (r : Restrictions) : Prop :=
  ∃ b64 os, KeyLine line b64 os ∧ decode b64 = some key ∧ applyOptions {} os = some r

/-- The lines of a text. -/
structure LinesOf (text : Bytes) (ls : List Bytes) : Prop where
  join : List.intercalate [10] ls = text
  noNewline : ∀ l ∈ ls, 10 ∉ l
  nonempty : ls ≠ []

end Lukko.Spec
