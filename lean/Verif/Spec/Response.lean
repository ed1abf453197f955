import Verif.Base
/-
  The answer of the translation server: a sequence of packets - two 16-bit numbers
  in the byte order of the (little-endian) machine, payload size and command,
  followed by the payload.  What a packet does to the answer, and which packet is
  the last one, is a parameter.  Nothing here refers to the model.
-/
namespace Lukko.Spec

/-- The effect of one packet (command and payload) on the answer: `none` if the packet
is refused, otherwise the answer and whether it is complete. -/
abbrev PacketEffect (R : Type) := R → Nat → Bytes → Option (R × Bool)

/-- What a sequence of bytes is. -/
inductive Answer (R : Type)
  /-- the beginning of an answer -/
  | incomplete
  /-- an answer, followed by other bytes -/
  | complete (r : R) (rest : Bytes)
  /-- one of its packets is refused -/
  | refused
  deriving DecidableEq, Repr

/-- The first packet of a sequence of bytes: command, payload, and what follows. -/
def firstPacket : Bytes → Option (Nat × Bytes × Bytes)
  | l₀ :: l₁ :: c₀ :: c₁ :: rest =>
    let length := l₀.toNat + 256 * l₁.toNat
    if rest.length < length then none
    else some (c₀.toNat + 256 * c₁.toNat, rest.take length, rest.drop length)
  | _ => none

theorem firstPacket_shorter {s : Bytes} {c : Nat} {p t : Bytes} (h : firstPacket s = some (c, p, t)) :
    t.length < s.length := by
  unfold firstPacket at h
  split at h
  · simp only at h
    split at h
    · cases h
    · simp only [Option.some.injEq, Prod.mk.injEq] at h
      obtain ⟨_, _, rfl⟩ := h
      simp
      omega
  · cases h

/-- Reading an answer: packet by packet. -/
def readAnswer {R : Type} (f : PacketEffect R) (r : R) (s : Bytes) : Answer R :=
  match _h : firstPacket s with
  | none => .incomplete
  | some (c, p, t) =>
    match f r c p with
    | none => .refused
    | some (r, true) => .complete r t
    | some (r, false) => readAnswer f r t
termination_by s.length
decreasing_by exact firstPacket_shorter _h

end Lukko.Spec
