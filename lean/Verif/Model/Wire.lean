import Verif.Base
/-
  Model of the packet (de)serializer:
    /repo/src/ssh/Serializer.hxx, Deserializer.hxx, PacketSerializer.hxx,
    Protocol.hxx (Padding), Sizes.hxx
-/
namespace Lukko.Model

/-- src/ssh/Sizes.hxx:15 -/
abbrev MAX_PACKET_SIZE : Nat := 35000
/-- src/ssh/Sizes.hxx:17 (`RoundUpToPowerOfTwo(35000)`) -/
abbrev BUFFER_SIZE : Nat := 65536
/-- src/ssh/Sizes.hxx:13; `sizeof(PacketHeader)`, Protocol.hxx:15-17 -/
abbrev HEADER_SIZE : Nat := 4
/-- src/ssh/Sizes.hxx:19 -/
abbrev KEX_COOKIE_SIZE : Nat := 16
/-- src/ssh/Protocol.hxx:19 -/
abbrev MIN_PACKET_SIZE : Nat := 16
/-- src/ssh/Protocol.hxx:20 -/
abbrev MIN_PADDING : Nat := 4

/-! ## Serializer -/

/-- Ways a serializer call can go wrong.  `packetTooLarge` is the C++
exception; `terminate` is what happens when that exception leaves a
`noexcept` function; `assertFailed` is a violated `assert()` (undefined
behaviour in a release build). -/
inductive SerError
  | packetTooLarge | terminate | assertFailed
  deriving DecidableEq, Repr

/-- A serializer holding the bytes written so far
(`buffer.first(position)`, Serializer.hxx:21-31). -/
structure Ser where
  buf : Bytes
  deriving DecidableEq, Repr

/-- `Serializer::Serializer()`, Serializer.cxx:13-19. -/
def Ser.empty : Ser := ⟨[]⟩

/-- `size()` / `Mark()`, Serializer.hxx:29-31,154-156. -/
abbrev Ser.size (s : Ser) : Nat := s.buf.length

/-- `WriteN(span)`, Serializer.hxx:44-65,84-87: `BeginWriteN` throws
`PacketTooLarge` if the data does not fit into the rest of the buffer. -/
def Ser.writeN (s : Ser) (src : Bytes) : Except SerError Ser :=
  if src.length > BUFFER_SIZE - s.size then .error .packetTooLarge
  else .ok ⟨s.buf ++ src⟩

/-- `WriteU8`, Serializer.hxx:99-101. -/
def Ser.writeU8 (s : Ser) (v : UInt8) : Except SerError Ser := s.writeN [v]

/-- The four bytes stored by `WriteU32`/`CommitLength`/`PackedBE32`
(Serializer.hxx:109-115): each assignment to a `uint8_t` keeps the low
eight bits of the shifted value. -/
def u32Bytes (v : Nat) : Bytes :=
  [UInt8.ofNat (v >>> 24), UInt8.ofNat (v >>> 16), UInt8.ofNat (v >>> 8), UInt8.ofNat v]

/-- `WriteU32`, Serializer.hxx:109-115. -/
def Ser.writeU32 (s : Ser) (v : Nat) : Except SerError Ser := s.writeN (u32Bytes v)

/-- `WriteBool`, Serializer.hxx:117-119. -/
def Ser.writeBool (s : Ser) (b : Bool) : Except SerError Ser :=
  s.writeU8 (if b then 1 else 0)

/-- `WriteString` / `WriteLengthEncoded`, Serializer.hxx:121-129. -/
def Ser.writeString (s : Ser) (v : Bytes) : Except SerError Ser := do
  let s ← s.writeU32 v.length
  s.writeN v

/-- The loop `while (!src.empty() && src.front() == 0) src = src.subspan(1)`
(Serializer.hxx:138-139, openssl/DeserializeBN.cxx:18-24). -/
def stripZeros : Bytes → Bytes
  | [] => []
  | b :: t => if b = 0 then stripZeros t else b :: t

/-- `(src.front() & 0x80) != 0` on a possibly empty span
(Serializer.hxx:141-142, DeserializeBN.cxx:12-16). -/
def msbSet : Bytes → Bool
  | [] => false
  | b :: _ => b &&& 0x80 != 0

/-- `WriteBignum2`, Serializer.hxx:136-149. -/
def Ser.writeBignum2 (s : Ser) (src : Bytes) : Except SerError Ser := do
  let src := stripZeros src
  let s ← if msbSet src then s.writeU8 0 else pure s
  s.writeN src

/-- `PrepareLength`, Serializer.hxx:177-181: returns the position and the
serializer with a four-byte placeholder. -/
def Ser.prepareLength (s : Ser) : Except SerError (Nat × Ser) := do
  let pos := s.size
  let s ← s.writeU32 0
  pure (pos, s)

/-- Overwrite `new.length` bytes at offset `at_`. -/
def patch (buf : Bytes) (at_ : Nat) (new : Bytes) : Bytes :=
  buf.take at_ ++ new ++ buf.drop (at_ + new.length)

/-- `CommitLength`, Serializer.hxx:183-190. -/
def Ser.commitLength (s : Ser) (at_ : Nat) : Ser :=
  ⟨patch s.buf at_ (u32Bytes (s.size - at_ - 4))⟩

/-- `Since`, Serializer.hxx:171-175. -/
def Ser.since (s : Ser) (mark : Nat) : Bytes := s.buf.drop mark

/-- `Rewind`, Serializer.hxx:162-166. -/
def Ser.rewind (s : Ser) (mark : Nat) : Ser := ⟨s.buf.take mark⟩

/-- `InsertNullByte`, Serializer.hxx:196-205. -/
def Ser.insertNullByte (s : Ser) (back : Nat) : Except SerError Ser :=
  if s.size < back then .error .assertFailed
  else if s.size ≥ BUFFER_SIZE then .error .packetTooLarge
  else .ok ⟨s.buf.take (s.size - back) ++ [0] ++ s.buf.drop (s.size - back)⟩

/-- `StripLeadingNullBytes`, Serializer.hxx:241-247: number of leading zero
bytes (the bytes are moved to the front by `std::copy`). -/
def leadingZeros : Bytes → Nat
  | [] => 0
  | b :: t => if b = 0 then leadingZeros t + 1 else 0

/-- `CommitBignum2`, Serializer.hxx:214-226.  `raw` are the `size` bytes which
the caller has stored in the span returned by `BeginWriteN(size)`; storing
them and `CommitWriteN(size)` are merged here (`CommitWriteN` asserts that
they fit). -/
def Ser.commitBignum2 (s : Ser) (raw : Bytes) : Except SerError Ser :=
  if raw.length > BUFFER_SIZE - s.size then .error .assertFailed
  else
    let stripped := leadingZeros raw
    let s' : Ser := ⟨s.buf ++ raw.drop stripped⟩
    let size := raw.length - stripped
    -- `buffer[position - size] & 0x80`
    if size > 0 ∧ msbSet (s'.buf.drop (s'.size - size)) then s'.insertNullByte size
    else .ok s'

/-! ## BIGNUM conversion -/

/-- openssl/SerializeBN.cxx:12, DeserializeBN.cxx:10 -/
abbrev MAX_BIGNUM : Nat := 2048

/-- `Serialize(Serializer&, const BIGNUM&)`, openssl/SerializeBN.cxx:14-26.
`raw` is what `BN_bn2bin` stores (the big-endian bytes of the number);
`none` is the "Invalid BN size" exception. -/
def serializeBN (s : Ser) (raw : Bytes) : Option (Except SerError Ser) :=
  if raw.length > MAX_BIGNUM then none
  else if raw.length > BUFFER_SIZE - s.size then some (.error .packetTooLarge)
  else some (s.commitBignum2 raw)

/-- `DeserializeBIGNUM`, openssl/DeserializeBN.cxx:26-38; `bin2bn` stands for
`BN_bin2bn`, `none` for `std::invalid_argument`. -/
def deserializeBIGNUM {N : Type} (bin2bn : Bytes → N) (src : Bytes) : Option N :=
  if msbSet src then none
  else
    let src := stripZeros src
    if src.length > MAX_BIGNUM then none
    else some (bin2bn src)

/-! ## PacketSerializer -/

/-- `Padding`, Protocol.hxx:22-32 (`&` with `block_size - 1` as in the code). -/
def padding (size blockSize : Nat) : Nat :=
  if size ≤ MIN_PACKET_SIZE - MIN_PADDING then MIN_PACKET_SIZE - size
  else MIN_PADDING + (blockSize - 1) - ((size + MIN_PADDING - 1) &&& (blockSize - 1))

/-- `PacketSerializer(MessageNumber)`, PacketSerializer.hxx:16-19: four header
bytes and the padding length byte are reserved (uninitialised in the code;
zero here, they are overwritten by `finish`), then the message number. -/
def PacketSer.begin (msg : UInt8) : Ser := ⟨[0, 0, 0, 0, 0, msg]⟩

/-- `PacketSerializer::Finish`, PacketSerializer.hxx:21-40, together with
`Pad` and `WriteRandom` (Serializer.cxx:27-37).  `rnd n` are the `n` bytes
produced by the random generator.  `Finish` is `noexcept`, so a
`PacketTooLarge` thrown by `WriteRandom` terminates the process. -/
def Ser.finishPacket (s : Ser) (blockSize : Nat) (withoutHeader : Bool)
    (rnd : Nat → Bytes) : Except SerError Bytes :=
  let exclude := if withoutHeader then HEADER_SIZE else 0
  let paddingLength := padding (s.size - exclude) blockSize
  match s.writeN (rnd paddingLength) with
  | .error _ => .error .terminate
  | .ok s =>
    let buf := patch s.buf HEADER_SIZE [UInt8.ofNat paddingLength]
    .ok (patch buf 0 (u32Bytes (buf.length - HEADER_SIZE)))

/-! ## Deserializer -/

/-- A deserializer call: consumes a prefix of the input or throws
`MalformedPacket` (`none`).  Deserializer.hxx:17-24. -/
def Parser (α : Type) := Bytes → Option (α × Bytes)

instance : Monad Parser where
  pure a := fun s => some (a, s)
  bind p f := fun s => match p s with
    | none => none
    | some (a, s') => f a s'

/-- `throw MalformedPacket{}`. -/
def Parser.fail {α} : Parser α := fun _ => none

/-- `ReadN`, Deserializer.hxx:24-30. -/
def readN (size : Nat) : Parser Bytes := fun src =>
  if src.length < size then none else some (src.take size, src.drop size)

/-- `ReadBool`, Deserializer.hxx:32-35. -/
def readBool : Parser Bool := fun src =>
  match readN 1 src with
  | some ([b], rest) => some (b != 0, rest)
  | _ => none

/-- `ReadU8`, Deserializer.hxx:37-40. -/
def readU8 : Parser UInt8 := fun src =>
  match readN 1 src with
  | some ([b], rest) => some (b, rest)
  | _ => none

/-- `ReadU32`, Deserializer.hxx:42-48. -/
def readU32 : Parser Nat := fun src =>
  match readN 4 src with
  | some ([a, b, c, d], rest) =>
    some ((a.toNat <<< 24) ||| (b.toNat <<< 16) ||| (c.toNat <<< 8) ||| d.toNat, rest)
  | _ => none

/-- `ReadLengthEncoded` / `ReadString`, Deserializer.hxx:50-56. -/
def readString : Parser Bytes := do
  let n ← readU32
  readN n

/-- `GetRest`, Deserializer.hxx:58-60 (does not consume). -/
def getRest : Parser Bytes := fun src => some (src, src)

/-- `ExpectEnd`, Deserializer.hxx:62-65. -/
def expectEnd : Parser Unit := fun src => if src.isEmpty then some ((), src) else none

/-- Run a parser on a whole packet and drop the unread rest (which is what the
`Parse…` functions do when they return). -/
def Parser.parse {α} (p : Parser α) (raw : Bytes) : Option α := (p raw).map (·.1)

end Lukko.Model
