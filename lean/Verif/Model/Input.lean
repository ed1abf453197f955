import Verif.Cipher
import Verif.Model.Messages
/-
  Model of `SSH::Input` (/repo/src/ssh/Input.cxx, Input.hxx), including the
  hand-over between the event thread and the worker thread.
-/
namespace Lukko.Model

/-- Why reading a packet fails: `protocol` = `SocketProtocolError` or an
exception thrown by the cipher, `assertFailed` = a violated `assert()`. -/
inductive InputError
  | protocol | assertFailed
  deriving DecidableEq, Repr

/-- Where the worker thread is inside `Input::Run()`: not running; in the loop
(Input.cxx:241-269) with the local `unprotected_list` and `found_newkeys`; or
behind the loop, about to enter the second critical section. -/
inductive Worker
  | idle
  | loop (list : List Bytes)
  | finish (list : List Bytes) (foundNewkeys : Bool)
  deriving DecidableEq, Repr

/-- `class Input`, Input.hxx:30-103.  `read_seq` is an `Int` because of the
intermediate value -1 (Input.cxx:56). -/
structure Input (σ : Type) where
  readSeq : Int := 0
  decryptSeq : Nat := 0
  packetLength : Nat := 0
  cipher : Option σ := none
  rawBuffer : Bytes := []
  unprotectedBuffer : Bytes := []
  decryptedList : List Bytes := []
  error : Bool := false
  encrypted : Bool := false
  waitingForNewCipher : Bool := false
  consumedEncrypted : Bool := false
  autoResetSeq : Bool := false

/-- `Input::SetCipher`, Input.cxx:33-67. -/
def Input.setCipher {σ} (i : Input σ) (c : σ) : Except InputError (Input σ) :=
  if ¬ i.waitingForNewCipher then .error .assertFailed
  else if i.packetLength ≠ 0 then .error .assertFailed
  else
    let i := if ¬ i.encrypted then
        { i with encrypted := true, decryptSeq := (i.readSeq + 1).toNat } else i
    let i := if i.autoResetSeq then { i with decryptSeq := 0, readSeq := -1 } else i
    .ok { i with waitingForNewCipher := false, cipher := some c }

/-- `Input::AutoResetSeq`, Input.hxx:124-126. -/
def Input.setAutoResetSeq {σ} (i : Input σ) : Input σ := { i with autoResetSeq := true }

/-- The value of a `PackedBE32` header (Protocol.hxx:15-17). -/
def headerLength (hdr : Bytes) : Nat :=
  match hdr with
  | [a, b, c, d] => (a.toNat <<< 24) ||| (b.toNat <<< 16) ||| (c.toNat <<< 8) ||| d.toNat
  | _ => 0

/-- `Input::ParseHeader`, Input.cxx:69-83 (returns the new `packet_length`). -/
def parseHeader (hdr : Bytes) : Except InputError Nat :=
  let n := headerLength hdr
  if n < 2 then .error .protocol
  else if n > MAX_PACKET_SIZE then .error .protocol
  else .ok n

/-- `Input::Feed`, Input.cxx:85-107: `chunk` are the bytes which
`MoveFromAllowBothNull` moves into `raw_buffer` (as many as fit).  Scheduling
the worker job / calling `OnInputReady()` is left to the environment. -/
def Input.feed {σ} (i : Input σ) (chunk : Bytes) : Input σ :=
  { i with rawBuffer := i.rawBuffer ++ chunk }

/-- `Input::ReadUnencryptedPacket`, Input.cxx:143-181; `none` = need more data. -/
def Input.readUnencryptedPacket {σ} (i : Input σ) : Except InputError (Option Bytes × Input σ) :=
  if i.waitingForNewCipher then .error .assertFailed
  else do
    let i? ← (if i.packetLength = 0 then
        if i.rawBuffer.length < HEADER_SIZE then pure none
        else do
          let n ← parseHeader (i.rawBuffer.take HEADER_SIZE)
          pure (some { i with rawBuffer := i.rawBuffer.drop HEADER_SIZE, packetLength := n })
      else pure (some i) : Except InputError (Option (Input σ)))
    match i? with
    | none => pure (none, i)
    | some i =>
      let r := i.rawBuffer
      if r.length < i.packetLength then pure (none, i)
      else match r with
      | [] => .error .assertFailed
      | front :: _ =>
        let paddingLength := front.toNat
        if paddingLength > i.packetLength - 2 then .error .protocol
        else
          let payload := (r.drop 1).take (i.packetLength - paddingLength - 1)
          let i := { i with rawBuffer := r.drop i.packetLength, packetLength := 0 }
          match payload with
          | [] => .error .assertFailed
          | msg :: _ =>
            if msg = MSG_NEWKEYS then pure (some payload, { i with waitingForNewCipher := true })
            else pure (some payload, i)

/-- `Input::ReadDecryptedPacket`, Input.cxx:183-202. -/
def Input.readDecryptedPacket {σ} (i : Input σ) : Except InputError (Option Bytes) :=
  if i.error then .error .protocol
  else match i.decryptedList with
  | [] => if i.waitingForNewCipher then .error .assertFailed else .ok none
  | p :: _ => .ok (some (p.drop 1))

/-- `Input::ReadPacket`, Input.cxx:204-213. -/
def Input.readPacket {σ} (i : Input σ) : Except InputError (Option Bytes × Input σ) :=
  if i.encrypted then do
    let i := { i with consumedEncrypted := true }
    let p ← i.readDecryptedPacket
    pure (p, i)
  else i.readUnencryptedPacket

/-- `Input::ConsumePacket`, Input.cxx:215-225. -/
def Input.consumePacket {σ} (i : Input σ) : Except InputError (Input σ) :=
  let i := { i with readSeq := i.readSeq + 1 }
  if i.consumedEncrypted then
    match i.decryptedList with
    | [] => .error .assertFailed
    | _ :: t => .ok { i with decryptedList := t }
  else .ok i

/-- `Input::DecryptPacket`, Input.cxx:109-141.  `none` = need more data. -/
def Input.decryptPacket {σ} (ops : CipherOps σ) (i : Input σ) :
    Except InputError (Option Bytes × Input σ) :=
  match i.cipher with
  | none => .error .assertFailed
  | some c =>
    let needSrc := HEADER_SIZE + i.packetLength + ops.authSize c
    if i.unprotectedBuffer.length < needSrc then .ok (none, i)
    else match ops.decryptPayload c i.decryptSeq (i.unprotectedBuffer.take needSrc) with
    | none => .error .protocol
    | some (result, c) =>
      if result.length ≠ i.packetLength then .error .assertFailed
      else match result with
      | [] => .error .assertFailed
      | front :: _ =>
        let paddingLength := front.toNat
        if paddingLength > i.packetLength - 2 then .error .protocol
        else .ok (some (result.take (i.packetLength - paddingLength)),
          { i with cipher := some c, packetLength := 0,
                   unprotectedBuffer := i.unprotectedBuffer.drop needSrc })

/-- First critical section of `Input::Run`, Input.cxx:230-236.  `k` bytes are
moved (as many as fit into the other buffer). -/
def Input.runBegin {σ} (i : Input σ) (k : Nat) : Input σ × Worker :=
  if i.error ∨ i.waitingForNewCipher then (i, .idle)
  else ({ i with unprotectedBuffer := i.unprotectedBuffer ++ i.rawBuffer.take k,
                 rawBuffer := i.rawBuffer.drop k }, .loop [])

/-- One iteration of the loop in `Input::Run`, Input.cxx:241-269. -/
def Input.runLoop {σ} (ops : CipherOps σ) (i : Input σ) (list : List Bytes) :
    Except InputError (Input σ × Worker) := do
  let i? ← (if i.packetLength = 0 then
      if i.unprotectedBuffer.length < HEADER_SIZE then pure none
      else match i.cipher with
        | none => .error .assertFailed
        | some c =>
          match ops.decryptHeader c i.decryptSeq (i.unprotectedBuffer.take HEADER_SIZE) with
          | none => .error .protocol
          | some (hdr, c) => do
            let n ← parseHeader hdr
            pure (some { i with cipher := some c, packetLength := n })
    else pure (some i) : Except InputError (Option (Input σ)))
  match i? with
  | none => pure (i, .finish list false)
  | some i =>
    let (decrypted, i) ← i.decryptPacket ops
    match decrypted with
    | none => pure (i, .finish list false)
    | some d =>
      let i := { i with decryptSeq := i.decryptSeq + 1 }
      match d with
      | _ :: msg :: _ =>
        if msg = MSG_NEWKEYS then pure (i, .finish (list ++ [d]) true)
        else pure (i, .loop (list ++ [d]))
      | _ => .error .assertFailed

/-- Second critical section of `Input::Run`, Input.cxx:271-282. -/
def Input.runEnd {σ} (i : Input σ) (list : List Bytes) (found : Bool) (k : Nat) :
    Except InputError (Input σ) :=
  if i.waitingForNewCipher then .error .assertFailed
  else .ok { i with decryptedList := i.decryptedList ++ list, waitingForNewCipher := found,
                    unprotectedBuffer := i.unprotectedBuffer ++ i.rawBuffer.take k,
                    rawBuffer := i.rawBuffer.drop k }

/-! ## The two threads together -/

/-- What can happen.  The event thread: data arrives; the connection asks for
the next packet (`Connection::OnInputReady`, Connection.cxx:931), handles it –
which may install a cipher or switch on `AutoResetSeq` – and then marks it as
consumed (Connection.cxx:943).  The worker thread: one of its three stages. -/
inductive InputEvent (σ : Type)
  | feed (chunk : Bytes)
  | read
  | setCipher (c : σ)
  | autoResetSeq
  | consume
  | runBegin (k : Nat)
  | runLoop
  | runEnd (k : Nat)

/-- Input object, worker, the packet being handled (and whether `SetCipher` has
been called while handling it), and a log for the
specification: bytes fed, ciphers installed, packets delivered (with the value
of `GetSeq()`).  `dead`: an exception was reported to the event thread, which
closes the connection. -/
structure InputSys (σ : Type) where
  input : Input σ := {}
  worker : Worker := .idle
  handling : Option Bytes := none
  installed : Bool := false
  dead : Bool := false
  fed : Bytes := []
  installs : List (σ × Bool) := []
  delivered : List (Nat × Bytes) := []

/-- One step; `none` = a violated `assert()`.  Events that cannot occur in the
current state (e.g. consuming without reading) leave it unchanged. -/
def InputSys.step {σ} (ops : CipherOps σ) (s : InputSys σ) (e : InputEvent σ) :
    Option (InputSys σ) :=
  match e with
  | .feed chunk =>
    if s.dead ∨ s.handling.isSome then some s
    else some { s with input := s.input.feed chunk, fed := s.fed ++ chunk }
  | .read =>
    if s.dead ∨ s.handling.isSome then some s
    else match s.input.readPacket with
    | .error .assertFailed => none
    | .error .protocol => some { s with dead := true }
    | .ok (none, i) => some { s with input := i }
    | .ok (some p, i) =>
      some { s with input := i, handling := some p, installed := false,
                    delivered := s.delivered ++ [(i.readSeq.toNat, p)] }
  | .setCipher c =>
    -- called once for each NEWKEYS (Connection.cxx:570-590)
    match s.handling with
    | none => some s
    | some p =>
      if p.head? = some MSG_NEWKEYS ∧ ¬ s.installed then
        match s.input.setCipher c with
        | .error _ => none
        | .ok i => some { s with input := i, installed := true,
                                 installs := s.installs ++ [(c, s.input.autoResetSeq)] }
      else some s
  | .autoResetSeq => some { s with input := s.input.setAutoResetSeq }
  | .consume =>
    match s.handling with
    | none => some s
    | some p =>
      -- `HandleNewKeys` either installs a cipher or throws
      if p.head? = some MSG_NEWKEYS ∧ ¬ s.installed then some s
      else match s.input.consumePacket with
      | .error _ => none
      | .ok i => some { s with input := i, handling := none }
  | .runBegin k =>
    match s.worker with
    | .idle => if s.input.encrypted then
        let (i, w) := s.input.runBegin k
        some { s with input := i, worker := w }
      else some s
    | _ => some s
  | .runLoop =>
    match s.worker with
    | .loop list =>
      match s.input.runLoop ops list with
      | .error .assertFailed => none
      | .error .protocol => some { s with input := { s.input with error := true }, worker := .idle }
      | .ok (i, w) => some { s with input := i, worker := w }
    | _ => some s
  | .runEnd k =>
    match s.worker with
    | .finish list found =>
      match s.input.runEnd list found k with
      | .error _ => none
      | .ok i => some { s with input := i, worker := .idle }
    | _ => some s

/-- A whole history. -/
def InputSys.run {σ} (ops : CipherOps σ) : InputSys σ → List (InputEvent σ) → Option (InputSys σ)
  | s, [] => some s
  | s, e :: es => (s.step ops e).bind fun s' => s'.run ops es

end Lukko.Model
