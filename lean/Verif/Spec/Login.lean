import Verif.Base
/-
  Requests to the translation server.  A request is a sequence of packets: two
  16-bit numbers in the byte order of the (little-endian) machine, payload size
  and command, followed by the payload.  Nothing here refers to the model.
-/
namespace Lukko.Spec

/-- The commands used here. -/
inductive TrCommand
  | begin_ | end_ | login | service | listenerTag | user | password | peek
  deriving DecidableEq, Repr

/-- Decode a request: the list of commands (as numbers) and payloads; `none` if
the last packet is incomplete. -/
def decodeRequest : Nat → Bytes → Option (List (Nat × Bytes))
  | 0, _ => none
  | _ + 1, [] => some []
  | fuel + 1, l₀ :: l₁ :: c₀ :: c₁ :: rest =>
    let length := l₀.toNat + 256 * l₁.toNat
    if rest.length < length then none
    else (decodeRequest fuel (rest.drop length)).map ((c₀.toNat + 256 * c₁.toNat, rest.take length) :: ·)
  | _ + 1, _ => none

/-- The packets of a login request. -/
def loginPackets (service : Bytes) (tag : Option Bytes) (user : Bytes) (password : Option Bytes) (peek : Bool) :
    List (TrCommand × Bytes) :=
  [(.begin_, []), (.login, []), (.service, service)] ++
  (match tag with | some t => [(.listenerTag, t)] | none => []) ++
  [(.user, user)] ++
  (match password with | some p => [(.password, p)] | none => []) ++
  (if peek then [(.peek, [])] else []) ++
  [(.end_, [])]

end Lukko.Spec
