import Verif.Base
/-
  The version exchange: `Connection::OnBufferedData`, ssh/Connection.cxx:824-866.
-/
namespace Lukko.Model

/-- The part of `SSH::Connection` used here: the socket's input buffer,
`version_exchanged`/`peer_version`, what was passed on to `Input` so far,
whether the connection was disposed, and whether `SendKexInit` was called. -/
structure VersionSys where
  buffer : Bytes := []
  peerVersion : Option Bytes := none
  fed : Bytes := []
  disposed : Bool := false
  kexInit : Bool := false
  deriving DecidableEq

/-- `OnBufferedData` is called after `chunk` was received into the buffer;
`taken` is the number of bytes `Input::Feed` moves out of it
(`MoveFromAllowBothNull`, Input.cxx:93,103 – limited by the room in
`raw_buffer`). -/
structure VersionEvent where
  chunk : Bytes
  taken : Nat
  deriving DecidableEq

/-- `input.Feed(socket.GetInputBuffer())`, ssh/Connection.cxx:859-860. -/
def VersionSys.feed (s : VersionSys) (taken : Nat) : VersionSys :=
  { s with fed := s.fed ++ s.buffer.take taken, buffer := s.buffer.drop taken }

/-- ssh/Connection.cxx:824-866.  The bytes which `s` (a view into the buffer)
refers to are still valid after `KeepConsumed`, because that moves only the
read position. -/
def VersionSys.onBufferedData (client : Bool) (s : VersionSys) (e : VersionEvent) : VersionSys :=
  if s.disposed then s
  else
    let r := s.buffer ++ e.chunk
    match s.peerVersion with
    | some _ => VersionSys.feed { s with buffer := r } e.taken
    | none =>
      if ¬ r.contains 10 then
        if 255 ≤ r.length then { s with buffer := r, disposed := true } else { s with buffer := r }
      else
        let line := r.takeWhile (· != 10)
        let rest := r.drop (line.length + 1)
        if ¬ (ascii "SSH-").isPrefixOf line then { s with buffer := rest, disposed := true }
        else
          let version := if line.getLast? = some 13 then line.dropLast else line
          VersionSys.feed { s with buffer := rest, peerVersion := some version, kexInit := client } e.taken

def VersionSys.run (client : Bool) (s : VersionSys) (es : List VersionEvent) : VersionSys :=
  es.foldl (VersionSys.onBufferedData client) s

end Lukko.Model
