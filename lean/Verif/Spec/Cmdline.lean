import Verif.Base
/-
  How rsync and git clients quote what they send.  Nothing here refers to the model.
-/
namespace Lukko.Spec

/-- `Escaped w t`: `t` is the word `w`, in which some characters are preceded by a
backslash; all blanks and backslashes are. -/
inductive Escaped : Bytes → Bytes → Prop
  | nil : Escaped [] []
  | plain {w t : Bytes} (c : UInt8) (h1 : c ≠ 32) (h2 : c ≠ 92) (h : Escaped w t) : Escaped (c :: w) (c :: t)
  | escaped {w t : Bytes} (c : UInt8) (h : Escaped w t) : Escaped (c :: w) (92 :: c :: t)

/-- `Joined ws t`: `t` consists of the nonempty words `ws`, escaped, separated by at
least one blank each; there may be more blanks before and after. -/
inductive Joined : List Bytes → Bytes → Prop
  | nil : Joined [] []
  | blank {ws : List Bytes} {t : Bytes} (h : Joined ws t) : Joined ws (32 :: t)
  | last {w t : Bytes} (h1 : w ≠ []) (h : Escaped w t) : Joined [w] t
  | cons {w t : Bytes} {ws : List Bytes} {rest : Bytes} (h1 : w ≠ []) (h : Escaped w t) (hr : Joined ws rest) :
      Joined (w :: ws) (t ++ 32 :: rest)

/-- A backslash at the end has nothing to escape. -/
def dangling : Bytes → Bool
  | [] => false
  | [92] => true
  | 92 :: _ :: r => dangling r
  | _ :: r => dangling r

/-- What rsync clients do with an argument: escape these characters. -/
def escapeWord (special : UInt8 → Bool) (w : Bytes) : Bytes :=
  w.flatMap fun c => if special c ∨ c = 32 ∨ c = 92 then [92, c] else [c]

/-- The words, escaped, with a blank after each. -/
def joinWords (special : UInt8 → Bool) (ws : List Bytes) : Bytes :=
  ws.flatMap fun w => escapeWord special w ++ [32]

/-- `ShellWord v t`: for a POSIX shell, `t` is one word with the value `v`, written with
single quotes and backslashes.  `Quoted`: the rest, inside of quotes. -/
inductive ShellWord : Bool → Bytes → Bytes → Prop
  | nil : ShellWord false [] []
  | plain {v t : Bytes} (c : UInt8) (h1 : c ≠ 39) (h2 : c ≠ 92) (h : ShellWord false v t) : ShellWord false (c :: v) (c :: t)
  | escaped {v t : Bytes} (c : UInt8) (h : ShellWord false v t) : ShellWord false (c :: v) (92 :: c :: t)
  | openQuote {v t : Bytes} (h : ShellWord true v t) : ShellWord false v (39 :: t)
  | inQuotes {v t : Bytes} (c : UInt8) (h1 : c ≠ 39) (h : ShellWord true v t) : ShellWord true (c :: v) (c :: t)
  | closeQuote {v t : Bytes} (h : ShellWord false v t) : ShellWord true v (39 :: t)

/-- What git clients do with the name of the repository (`sq_quote_buf`). -/
def gitQuote (v : Bytes) : Bytes :=
  39 :: v.flatMap (fun c => if c = 39 ∨ c = 33 then [39, 92, c, 39] else [c]) ++ [39]

end Lukko.Spec
