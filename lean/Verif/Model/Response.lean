import Verif.Spec.Response
/-
  `ReceiveResponse`: /repo/src/translation/LoginClient.cxx:157-214, with
  `CoSocketEvent` (116-154).

  `TranslateParser` is part of libcommon, which is not in the repository. Assumed here:
  `Feed` takes the next piece of one packet out of the bytes it is given - a header only
  if it is complete, of a payload whatever is there -, and `Process` does nothing unless
  the packet is complete. What a complete packet does is a parameter.
-/
namespace Lukko.Model
open Lukko.Spec (PacketEffect)

/-- The packet being read by the parser: `part`: `need` more bytes of the payload. -/
inductive PacketReader
  | header
  | part (command : Nat) (need : Nat) (got : Bytes)
  | packet (command : Nat) (payload : Bytes)
  deriving DecidableEq, Repr

/-- Reading the payload: what is there, but no more than is needed. -/
def PacketReader.payload (command need : Nat) (got src : Bytes) : Nat × PacketReader :=
  let n := min need src.length
  bif n == need then (n, .packet command (got ++ src.take n))
  else (n, .part command (need - n) (got ++ src.take n))

/-- Reading a packet from its beginning. -/
def PacketReader.start : Bytes → Nat × PacketReader
  | l₀ :: l₁ :: c₀ :: c₁ :: rest =>
    let (n, p) := PacketReader.payload (c₀.toNat + 256 * c₁.toNat) (l₀.toNat + 256 * l₁.toNat) [] rest
    (4 + n, p)
  | _ => (0, .header)

/-- `TranslateParser::Feed`: how many bytes are consumed. -/
def PacketReader.feed : PacketReader → Bytes → Nat × PacketReader
  | .part c need got, src => PacketReader.payload c need got src
  | _, src => PacketReader.start src

/-- `TranslateParser::Process`: `none`: an exception; `true`: `DONE`, `false`: `MORE`. -/
def PacketReader.process {R : Type} (f : PacketEffect R) (r : R) : PacketReader → Option (R × Bool)
  | .packet c p => f r c p
  | _ => some (r, false)

/-- The variables of `ReceiveResponse`, LoginClient.cxx:161-164. -/
structure Receiver (R : Type) where
  response : R
  parser : PacketReader := .header
  buffer : Bytes := []
  deriving DecidableEq, Repr

/-- `StaticFifoBuffer<std::byte, 8192>`, LoginClient.cxx:164. -/
abbrev RESPONSE_BUFFER : Nat := 8192

/-- How `ReceiveResponse` stands: waiting for more, or finished with `co_return` or one
of its exceptions (`full`: line 172, `socketError`: 182, `hungUp`: 186, `excess`: 207,
`refused`: out of the parser). -/
inductive Received (R : Type)
  | waiting (x : Receiver R)
  | answer (r : R)
  | full | socketError | hungUp | excess | refused
  deriving DecidableEq, Repr

/-- The inner loop, LoginClient.cxx:190-212. -/
def Receiver.drain {R : Type} (f : PacketEffect R) (x : Receiver R) : Received R :=
  bif x.buffer.isEmpty then .waiting x
  else if _h : (x.parser.feed x.buffer).1 = 0 ∨ x.buffer = [] then
    .waiting { x with parser := (x.parser.feed x.buffer).2 }
  else
    match (x.parser.feed x.buffer).2.process f x.response with
    | none => .refused
    | some (r, true) =>
      bif (x.buffer.drop (x.parser.feed x.buffer).1).isEmpty then .answer r else .excess
    | some (r, false) =>
      Receiver.drain f ⟨r, (x.parser.feed x.buffer).2, x.buffer.drop (x.parser.feed x.buffer).1⟩
termination_by x.buffer.length
decreasing_by
  simp only [List.length_drop]
  have : x.buffer ≠ [] := fun e => _h (Or.inr e)
  have := List.length_pos_iff.2 this
  omega

/-- What `recv` returns, LoginClient.cxx:175-186: `data`: at least one byte. -/
inductive RecvResult
  | data (bytes : Bytes)
  | wouldBlock | error | eof
  deriving DecidableEq, Repr

/-- One iteration of the outer loop, LoginClient.cxx:169-213. `recv` gets the free space
of the buffer (`StaticFifoBuffer::Write` moves the contents to the beginning) and returns
no more than that. -/
def Receiver.receive {R : Type} (f : PacketEffect R) (x : Receiver R) : RecvResult → Received R
  | e =>
    bif decide (RESPONSE_BUFFER ≤ x.buffer.length) then .full
    else
      match e with
      | .data bytes => Receiver.drain f { x with buffer := x.buffer ++ bytes }
      | .wouldBlock => .waiting x
      | .error => .socketError
      | .eof => .hungUp

/-- Everything that happens until `ReceiveResponse` is finished. -/
def Received.step {R : Type} (f : PacketEffect R) : Received R → RecvResult → Received R
  | .waiting x, e => x.receive f e
  | y, _ => y

/-- `ReceiveResponse`. -/
def receiveResponse {R : Type} (f : PacketEffect R) (r : R) (es : List RecvResult) : Received R :=
  es.foldl (Received.step f) (.waiting { response := r })

end Lukko.Model
