import Verif.Base
/-
  The protocol version exchange, RFC 4253 section 4.2.  Nothing here refers to
  the model.
-/
namespace Lukko.Spec

/-- The first line of a stream (without line feed) and what follows it. -/
def FirstLine (stream line rest : Bytes) : Prop := stream = line ++ [10] ++ rest ∧ (10 : UInt8) ∉ line

/-- The identification string: the line without a trailing carriage return. -/
def identification (line : Bytes) : Bytes := if line.getLast? = some 13 then line.dropLast else line

/-- The line is an SSH identification. -/
def IsSshLine (line : Bytes) : Prop := ∃ t, line = ascii "SSH-" ++ t

end Lukko.Spec
