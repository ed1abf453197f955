import Verif.Spec.Buffered
/-
  /repo/src/ssh/BufferedChannel.cxx.

  `BufferQueue` is part of libcommon and not in the repository: it is a byte queue
  whose `Read()` returns any non-empty part of the front.  How much that is and what
  the consumer does with it are parameters.
-/
namespace Lukko.Model
open Lukko.Spec (BufEntry)

/-- An exception, or undefined behaviour (a failed assertion). -/
inductive BufStop
  | throws | ub
  deriving DecidableEq, Repr

/-- The virtual methods `OnBufferedData()` and `OnBufferedEof()`,
BufferedChannel.hxx:40-42.  `γ` is the state of the rest of the object, `κ` what the
environment does.  The former returns the number of bytes consumed. -/
structure BufOps (γ κ : Type) where
  data : γ → Bytes → κ → γ × Except BufStop Nat
  eof : γ → γ

/-- The fields of `BufferedChannel`, BufferedChannel.hxx:17-19, and a record. -/
structure Buf where
  queue : Bytes := []
  eofPending : Bool := false
  log : List BufEntry := []
  deriving DecidableEq, Repr

def Buf.emit (b : Buf) (e : BufEntry) : Buf := { b with log := b.log ++ [e] }

variable {γ κ : Type} (ops : BufOps γ κ)

/-- `OnData`, BufferedChannel.cxx:9-22. -/
def Buf.onData (g : γ) (b : Buf) (payload : Bytes) (k : κ) : γ × Buf × Option BufStop :=
  let b := b.emit (.recv payload)
  bif b.eofPending then (g, b, some .ub)
  else if b.queue ≠ [] then (g, { b with queue := b.queue ++ payload }, none)
  else
    match ops.data g payload k with
    | (g, .error e) => (g, b, some e)
    | (g, .ok n) => (g, { b.emit (.took (payload.take n)) with queue := payload.drop n }, none)

/-- `OnEof`, BufferedChannel.cxx:24-33. -/
def Buf.onEof (g : γ) (b : Buf) : γ × Buf × Option BufStop :=
  let b := b.emit .recvEof
  bif b.eofPending then (g, b, some .ub)
  else if b.queue = [] then (ops.eof g, b.emit .sawEof, none)
  else (g, { b with eofPending := true }, none)

/-- The end of `ReadBuffer`, BufferedChannel.cxx:47-50. -/
def Buf.finish (g : γ) (b : Buf) : γ × Buf × Option BufStop :=
  bif b.eofPending then (ops.eof g, { b.emit .sawEof with eofPending := false }, none)
  else (g, b, none)

/-- `ReadBuffer`, BufferedChannel.cxx:35-51.  Each element of the list is one turn
of the loop: the size of the part of the queue less one, and what the environment
does; if the list is too short, the consumer takes nothing. -/
def Buf.read (g : γ) (b : Buf) : List (Nat × κ) → γ × Buf × Option BufStop
  | [] => if b.queue = [] then b.finish ops g else (g, b, none)
  | (len, k) :: rest =>
    if b.queue = [] then b.finish ops g
    else
      let chunk := b.queue.take (len + 1)
      match ops.data g chunk k with
      | (g, .error e) => (g, b, some e)
      | (g, .ok n) =>
        let b := { b.emit (.took (chunk.take n)) with queue := b.queue.drop (chunk.take n).length }
        if n < chunk.length then (g, b, none) else b.read g rest

/-- The most general consumer: each call does what the environment says. -/
def anyConsumer : BufOps Unit (Except BufStop Nat) where
  data g _ k := (g, k)
  eof g := g

inductive BufEvent
  | data (bs : Bytes) (k : Except BufStop Nat)
  | eof
  | read (ks : List (Nat × Except BufStop Nat))

structure BufSys where
  buf : Buf := {}
  stop : Option BufStop := none
  deriving DecidableEq, Repr

def BufSys.of : Unit × Buf × Option BufStop → BufSys
  | (_, b, st) => ⟨b, st⟩

def BufSys.step (y : BufSys) (ev : BufEvent) : BufSys :=
  match y.stop with
  | some _ => y
  | none =>
    match ev with
    | .data bs k => BufSys.of (y.buf.onData anyConsumer () bs k)
    | .eof => BufSys.of (y.buf.onEof anyConsumer ())
    | .read ks => BufSys.of (y.buf.read anyConsumer () ks)

def BufSys.run (y : BufSys) (evs : List BufEvent) : BufSys := evs.foldl BufSys.step y

end Lukko.Model
