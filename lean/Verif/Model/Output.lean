import Verif.Model.SendQueue
import Verif.Model.Wire
import Verif.Spec.Stream
/-
  Model of `SSH::Output` (/repo/src/ssh/Output.cxx, Output.hxx), including the
  hand-over between the event thread and the worker thread, and of the part of
  `SSH::Connection` that drives it when disconnecting.
-/
namespace Lukko.Model
open Spec (Submit)

/-- Where the worker thread is inside `Output::Run()`: not running, or between
the two critical sections with the local lists `src` and `dest`
(Output.cxx:122, 138-142). -/
inductive OutWorker
  | idle
  | body (src dest : List Bytes)
  deriving DecidableEq, Repr

/-- `class Output`, Output.hxx:26-89.  `pushCipher` stands for the pointer
`push_cipher`; only its constant properties (block size …) are ever used. -/
structure Output (σ : Type) where
  seq : Nat := 0
  cipher : Option σ := none
  nextCipher : Option σ := none
  pushCipher : Option σ := none
  pending : SendQueue := {}
  plain : List Bytes := []
  nextPlain : List Bytes := []
  encryptedQueue : List Bytes := []
  error : Bool := false
  autoReset : Bool := false

/-- `Output::IsEncrypted`, Output.hxx:96-98. -/
abbrev Output.isEncrypted {σ} (o : Output σ) : Bool := o.pushCipher.isSome

/-- `Output::IsEmpty`, Output.hxx:100-105. -/
def Output.isEmpty {σ} (o : Output σ) : Bool :=
  o.pending.queue.isEmpty && o.plain.isEmpty && o.nextPlain.isEmpty && o.encryptedQueue.isEmpty

/-- `Output::SetCipher`, Output.hxx:111-116. -/
def Output.setCipher {σ} (o : Output σ) (c : σ) : Output σ :=
  { o with nextCipher := some c, pushCipher := some c }

/-- `Output::AutoResetSeq`, Output.hxx:118-120. -/
def Output.setAutoReset {σ} (o : Output σ) : Output σ := { o with autoReset := true }

/-- `Output::Push`, Output.cxx:45-70 (adding the job to the thread queue and
`DeferWrite()` are left to the environment). -/
def Output.push {σ} (o : Output σ) (src : Bytes) : Output σ :=
  bif o.isEncrypted then
    match o.nextCipher with
    | some _ => { o with nextPlain := o.nextPlain ++ [src] }
    | none => { o with plain := o.plain ++ [src] }
  else { o with pending := o.pending.push src, seq := o.seq + 1 }

/-- What `BufferedSocket::WriteV` reports (libcommon): the number of bytes
accepted, `WRITE_BLOCKING`, `WRITE_DESTROYED`, or an error. -/
inductive WriteResult
  | accepted (n : Nat)
  | blocking
  | destroyed
  | failed
  deriving DecidableEq, Repr

/-- Outcome of `Output::Flush`; `threw` = it throws, `assertFailed` = undefined. -/
inductive FlushResult
  | done | more | destroyed | threw | assertFailed
  deriving DecidableEq, Repr

/-- Number of iovecs passed to one `WriteV` call, Output.cxx:84. -/
abbrev FLUSH_IOVECS : Nat := 32

/-- `Output::Flush`, Output.cxx:72-117.  Also returns the bytes handed to the
kernel.  `w` is the result of `WriteV` (not called if there is nothing to
write); the kernel cannot accept more than it was offered. -/
def Output.flush {σ} (o : Output σ) (w : WriteResult) : FlushResult × Output σ × Bytes :=
  if o.isEncrypted && o.error then (.threw, o, [])
  else
    let o := bif o.isEncrypted then
        { o with pending := o.pending.moveFrom o.encryptedQueue, encryptedQueue := [] } else o
    match o.pending.prepare FLUSH_IOVECS with
    | none => (.assertFailed, o, [])
    | some [] => (.done, o, [])
    | some v =>
      match w with
      | .blocking => (.more, o, [])
      | .destroyed => (.destroyed, o, [])
      | .failed => (.threw, o, [])
      | .accepted n =>
        let n := min n v.flatten.length
        match o.pending.consume n with
        | none => (.assertFailed, o, v.flatten.take n)
        | some q =>
          (if q.queue.isEmpty then .done else .more, { o with pending := q }, v.flatten.take n)

/-- First critical section of `Output::Run`, Output.cxx:124-136. -/
def Output.runBegin {σ} (o : Output σ) : Output σ × OutWorker :=
  let o := match o.plain, o.nextCipher with
    | [], some c => { o with cipher := some c, nextCipher := none, plain := o.nextPlain,
                             nextPlain := [],
                             seq := if o.autoReset then 0 else o.seq }
    | _, _ => o
  ({ o with plain := [] }, .body o.plain [])

/-- One iteration of the loop in `Output::Run`, Output.cxx:138-142, with
`EncryptPacket`, Output.cxx:32-43.  A throwing cipher sets `error`
(Output.cxx:151-154); the local lists are lost.  `none` = `assert(cipher)` failed. -/
def Output.runEncrypt {σ} (ops : CipherOps σ) (o : Output σ) (p : Bytes) (src dest : List Bytes) :
    Option (Output σ × OutWorker) :=
  match o.cipher with
  | none => none
  | some c =>
    match ops.encrypt c o.seq p with
    | none => some ({ o with error := true }, .idle)
    | some (e, c) => some ({ o with cipher := some c, seq := o.seq + 1 }, .body src (dest ++ [e]))

/-- Second critical section of `Output::Run`, Output.cxx:144-150 (the `again`
flag is left to the environment). -/
def Output.runEnd {σ} (o : Output σ) (dest : List Bytes) : Output σ × OutWorker :=
  ({ o with encryptedQueue := o.encryptedQueue ++ dest }, .idle)

/-- What can happen to an `Output`.  The three `run…` events are the worker
thread's; they may come at any time. -/
inductive OutEvent (σ : Type)
  | push (pkt : Bytes)
  | setCipher (c : σ)
  | autoReset
  | flush (w : WriteResult)
  | runBegin
  | runEncrypt
  | runEnd

/-- The output side with its history: everything submitted so far, and all
bytes which the kernel has accepted. -/
structure OutSys (σ : Type) where
  output : Output σ := {}
  worker : OutWorker := .idle
  submitted : List (Submit σ) := []
  written : Bytes := []

/-- One event; `none` = an `assert()` failed.  Worker events that do not apply change nothing. -/
def OutSys.step {σ} (ops : CipherOps σ) (s : OutSys σ) : OutEvent σ → Option (OutSys σ)
  | .push p => some { s with output := s.output.push p, submitted := s.submitted ++ [.packet p] }
  | .setCipher c => some
      { s with
        output := s.output.setCipher c
        submitted := s.submitted ++ [.rekey c s.output.autoReset] }
  | .autoReset => some { s with output := s.output.setAutoReset }
  | .flush w =>
    match s.output.flush w with
    | (.assertFailed, _, _) => none
    | (_, o, b) => some { s with output := o, written := s.written ++ b }
  | .runBegin =>
    match s.worker with
    | .idle => some { s with output := s.output.runBegin.1, worker := s.output.runBegin.2 }
    | .body _ _ => some s
  | .runEncrypt =>
    match s.worker with
    | .body (p :: src) dest =>
      match s.output.runEncrypt ops p src dest with
      | none => none
      | some (o, w) => some { s with output := o, worker := w }
    | _ => some s
  | .runEnd =>
    match s.worker with
    | .body [] dest =>
      some { s with output := (s.output.runEnd dest).1, worker := (s.output.runEnd dest).2 }
    | _ => some s

/-- A sequence of events. -/
def OutSys.run {σ} (ops : CipherOps σ) : OutSys σ → List (OutEvent σ) → Option (OutSys σ)
  | s, [] => some s
  | s, e :: es => match s.step ops e with
    | none => none
    | some s => OutSys.run ops s es

/-- How `SSH::Connection` uses its `Output`: it never queues an empty packet
(every packet has at least a header), enables the sequence number reset only
before the first cipher is installed or again after it was enabled
(Connection.cxx:501-510, `HandleKexInit` refuses to run after NEWKEYS was sent). -/
def OutSys.callerOk {σ} (s : OutSys σ) : OutEvent σ → Prop
  | .push p => p ≠ []
  | .autoReset => s.output.isEncrypted = false ∨ s.output.autoReset = true
  | _ => True

/-- A new cipher is installed only after the worker thread has switched to the
previous one. -/
def OutSys.rekeyOk {σ} (s : OutSys σ) : OutEvent σ → Prop
  | .setCipher _ => s.output.nextCipher = none
  | _ => True

/-- A condition holds at every event of a run. -/
def OutSys.Always {σ} (ops : CipherOps σ) (P : OutSys σ → OutEvent σ → Prop) :
    OutSys σ → List (OutEvent σ) → Prop
  | _, [] => True
  | s, e :: es => P s e ∧ ∀ s', s.step ops e = some s' → OutSys.Always ops P s' es

/-- Why the connection object was disposed: `OnBufferedWrite` found everything
flushed (Connection.cxx:878-881), `DoDisconnect` on an unencrypted connection
(Connection.cxx:226), or a socket error. -/
inductive CloseReason
  | flushed | immediate | socketError
  deriving DecidableEq, Repr

/-- The output side of a `SSH::Connection`: its `Output`, the flag `dead`, and
whether (and why) it has been disposed. -/
structure ConnOut (σ : Type) where
  sys : OutSys σ := {}
  dead : Bool := false
  closed : Option CloseReason := none

/-- Events of the event thread and of the worker thread. -/
inductive ConnOutEvent (σ : Type)
  | send (pkt : Bytes)
  | setCipher (c : σ)
  | autoReset
  | disconnect (pkt : Bytes) (w : WriteResult)
  | writable (w : WriteResult)
  | runBegin
  | runEncrypt
  | runEnd

/-- The result of `Flush()` after an `OutSys` step. -/
def OutSys.flushed {σ} (s : OutSys σ) (w : WriteResult) : FlushResult := (s.output.flush w).1

/-- One event of a connection that is not disposed.  `none` = not possible
(an assertion failed, or the event does not occur in that state):
`SendPacket` (Connection.cxx:139-163, asserts that the connection is not dead),
`SetCipher`/`AutoResetSeq` from the key exchange (packets are not read when
dead, Connection.cxx:917; restricted as in `rekeyOk`/`callerOk`),
`DoDisconnect` (Connection.cxx:183-227; `w` is the socket's answer to the
immediate flush of an unencrypted connection),
`OnBufferedWrite` (Connection.cxx:868-899). -/
def ConnOut.step {σ} (ops : CipherOps σ) (s : ConnOut σ) (e : ConnOutEvent σ) : Option (ConnOut σ) :=
  if s.closed.isSome then none
  else match e with
  | .send p => if s.dead ∨ p = [] then none else (s.sys.step ops (.push p)).map ({ s with sys := · })
  | .setCipher c =>
    if s.dead ∨ s.sys.output.nextCipher.isSome then none
    else (s.sys.step ops (.setCipher c)).map ({ s with sys := · })
  | .autoReset =>
    if s.dead ∨ (s.sys.output.isEncrypted = true ∧ s.sys.output.autoReset = false) then none
    else (s.sys.step ops .autoReset).map ({ s with sys := · })
  | .disconnect p w =>
    if p = [] then none
    else if s.dead then some s
    else match s.sys.step ops (.push p) with
      | none => none
      | some t =>
        if t.output.isEncrypted then some { s with sys := t, dead := true }
        else match t.step ops (.flush w) with
          | none => none
          | some t => some { s with sys := t, dead := true, closed := some .immediate }
  | .writable w =>
    match s.sys.step ops (.flush w) with
    | none => none
    | some t =>
      match s.sys.flushed w with
      | .done => some
          { s with
            sys := t
            closed := if s.dead ∧ t.output.isEmpty then some .flushed else none }
      | .more => some { s with sys := t }
      | _ => some { s with sys := t, closed := some .socketError }
  | .runBegin => (s.sys.step ops .runBegin).map ({ s with sys := · })
  | .runEncrypt => (s.sys.step ops .runEncrypt).map ({ s with sys := · })
  | .runEnd => (s.sys.step ops .runEnd).map ({ s with sys := · })

def ConnOut.run {σ} (ops : CipherOps σ) : ConnOut σ → List (ConnOutEvent σ) → Option (ConnOut σ)
  | s, [] => some s
  | s, e :: es => match s.step ops e with
    | none => none
    | some s => ConnOut.run ops s es

end Lukko.Model
