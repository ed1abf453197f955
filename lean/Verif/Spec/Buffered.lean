import Verif.Base
/-
  Input of a channel: what the peer sends and what the consumer sees.  The
  specification is a pipe.  Nothing here refers to the model.
-/
namespace Lukko.Spec

inductive BufEntry
  /-- the peer sent data -/
  | recv (bs : Bytes)
  /-- the peer sent end-of-file -/
  | recvEof
  /-- the consumer took these bytes -/
  | took (bs : Bytes)
  /-- the consumer was told about end-of-file -/
  | sawEof
  deriving DecidableEq, Repr

/-- All bytes the peer sent, and all the consumer took. -/
def bufBytes (log : List BufEntry) : Bytes :=
  log.flatMap fun e => match e with | .recv bs => bs | _ => []
def taken (log : List BufEntry) : Bytes :=
  log.flatMap fun e => match e with | .took bs => bs | _ => []

/-- A pipe: bytes in it, whether the writer has closed it, whether the reader has
been told. -/
structure Pipe where
  content : Bytes := []
  eof : Bool := false
  told : Bool := false
  deriving DecidableEq, Repr

/-- What a pipe permits. -/
def Pipe.next (p : Pipe) : BufEntry → Option Pipe
  | .recv bs => if p.eof then none else some { p with content := p.content ++ bs }
  | .recvEof => if p.eof then none else some { p with eof := true }
  | .took bs => if bs.isPrefixOf p.content ∧ p.told = false then some { p with content := p.content.drop bs.length } else none
  | .sawEof => if p.eof ∧ p.told = false ∧ p.content = [] then some { p with told := true } else none

def pipeStep (p : Option Pipe) (e : BufEntry) : Option Pipe := p.bind fun p => p.next e

/-- The pipe after `log`; `none` if something happened that a pipe does not permit. -/
def pipe (log : List BufEntry) : Option Pipe := log.foldl pipeStep (some {})

end Lukko.Spec
