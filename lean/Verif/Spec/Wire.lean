import Verif.Base
/-
  Independent specification of the SSH wire format (RFC 4251 section 5,
  RFC 4253 section 6).  Nothing here refers to the model.
-/
namespace Lukko.Spec

/-- Big-endian value of a byte string. -/
def beValue (bs : Bytes) : Nat := bs.foldl (fun n b => 256 * n + b.toNat) 0

/-- RFC 4251 `uint32`: four bytes, most significant first. -/
def IsU32 (bs : Bytes) (n : Nat) : Prop := bs.length = 4 ∧ beValue bs = n

/-- RFC 4251 `uint32` as a function. -/
def u32 (n : Nat) : Bytes :=
  [UInt8.ofNat (n / 2 ^ 24 % 256), UInt8.ofNat (n / 2 ^ 16 % 256),
   UInt8.ofNat (n / 2 ^ 8 % 256), UInt8.ofNat (n % 256)]

/-- RFC 4251 `string`: length, then the bytes. -/
def str (s : Bytes) : Bytes := u32 s.length ++ s

/-- RFC 4251 `boolean`. -/
def bool (b : Bool) : Bytes := [if b then 1 else 0]

/-- RFC 4251 `mpint` contents for a non-negative number: value `n`, shortest
form, most significant bit clear. -/
structure IsMpint (bs : Bytes) (n : Nat) : Prop where
  value : beValue bs = n
  notNegative : ∀ b, bs.head? = some b → b.toNat < 128
  shortest : ∀ b c t, bs = b :: c :: t → b = 0 → 128 ≤ c.toNat
  zeroEmpty : n = 0 → bs = []

/-- RFC 4253 section 6: `pkt` is a well-formed binary packet carrying
`payload`, padded for `blockSize`; `aad` is the number of leading bytes that
are not subject to the padding rule (4 for ciphers that handle the length
field separately, else 0). -/
structure IsPacket (pkt payload : Bytes) (blockSize aad : Nat) : Prop where
  layout : ∃ pad : Bytes, pkt = u32 (1 + payload.length + pad.length)
      ++ [UInt8.ofNat pad.length] ++ payload ++ pad
      ∧ 4 ≤ pad.length ∧ pad.length ≤ 255
  aligned : blockSize ∣ pkt.length - aad
  minSize : 16 ≤ pkt.length

end Lukko.Spec
