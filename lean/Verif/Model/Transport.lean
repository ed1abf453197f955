import Verif.Model.Input
import Verif.Model.Output
import Verif.Model.Kex
import Verif.Spec.Channel
/-
  `SSH::Connection` as a whole (/repo/src/ssh/Connection.cxx): the input side
  (Input.lean), the key exchange (Kex.lean) and the output side (Output.lean)
  connected with each other, with both worker threads.
-/
namespace Lukko.Model
open Spec (Outgoing Entry Keys)

/-- What the connection uses. -/
structure TransEnv (σ : Type) where
  kex : KexEnv
  ops : CipherOps σ
  /-- `MakeCipher`, cipher/Factory.cxx (which algorithms there are is modelled in Kex.lean) -/
  makeCipher : Direction → Bytes → Bytes → Keys → σ
  /-- `PacketSerializer::Finish` (modelled in Wire.lean) for the `n`-th packet (its padding is random) with
  a block size and `IsHeaderExcludedFromPadding` -/
  frame : Nat → Nat → Bool → Bytes → Bytes

/-- A connection and its history: `posts` is what was sent, `rushed` whether an outgoing cipher was replaced
before the worker thread began to use it. -/
structure Trans (σ : Type) where
  inp : InputSys σ := {}
  kx : KxSys
  out : OutSys σ := {}
  /-- it was closed because of an error of the socket or of the cipher -/
  closed : Bool := false
  posts : List Outgoing := []
  rushed : Bool := false

/-- A call of a method of `input`; `none` = an `assert()` failed. -/
def Trans.input {σ} (x : TransEnv σ) (t : Trans σ) (ev : InputEvent σ) : Option (Trans σ) :=
  (t.inp.step x.ops ev).map fun i => { t with inp := i }

/-- A call of a method of `output`. -/
def Trans.output {σ} (x : TransEnv σ) (t : Trans σ) (ev : OutEvent σ) : Option (Trans σ) :=
  (t.out.step x.ops ev).map fun o => { t with out := o }

/-- The call of `Finish` in `SendPacket(PacketSerializer &&)`, Connection.cxx:168-172. -/
def TransEnv.framed {σ} (x : TransEnv σ) (n : Nat) (cipher : Option σ) (payload : Bytes) : Bytes :=
  match cipher with
  | none => x.frame n 8 false payload
  | some c => x.frame n (x.ops.blockSize c) (x.ops.padWithoutHeader c) payload

/-- `SendPacket(PacketSerializer &&)`, Connection.cxx:165-173; the cipher is `output.GetCipher()`. -/
def Trans.sendPacket {σ} (x : TransEnv σ) (t : Trans σ) (payload : Bytes) : Option (Trans σ) :=
  ({ t with posts := t.posts ++ [Outgoing.packet payload] }).output x
    (.push (x.framed t.posts.length t.out.output.pushCipher payload))

/-- `output.SetCipher(MakeCipher(…))`, Connection.cxx:400-412. -/
def Trans.setOutCipher {σ} (x : TransEnv σ) (t : Trans σ) (enc mac : Bytes) (keys : Keys) : Option (Trans σ) :=
  ({ t with
    posts := t.posts ++ [Outgoing.keys enc mac keys t.out.output.autoReset]
    rushed := t.rushed || t.out.output.nextCipher.isSome }).output x (.setCipher (x.makeCipher .outgoing enc mac keys))

/-- What the code of the key exchange does to the two sides, event by event. -/
def Trans.effect {σ} (x : TransEnv σ) (t : Trans σ) : Entry → Option (Trans σ)
  | .sent p => t.sendPacket x p
  | .installOut enc mac keys => t.setOutCipher x enc mac keys
  | .installIn enc mac keys => t.input x (.setCipher (x.makeCipher .incoming enc mac keys))
  | _ => some t

def Trans.effects {σ} (x : TransEnv σ) : Trans σ → List Entry → Option (Trans σ)
  | t, [] => some t
  | t, e :: es => (t.effect x e).bind fun t => t.effects x es

/-- `input.AutoResetSeq()`, `output.AutoResetSeq()`, Connection.cxx:509-510. -/
def Trans.autoReset {σ} (x : TransEnv σ) (t : Trans σ) (on : Bool) : Option (Trans σ) :=
  bif on then (t.input x .autoResetSeq).bind fun t => t.output x .autoReset else some t

/-- Everything that follows from an event of the key exchange.  (`AutoResetSeq` is called while a KEXINIT is
handled, before anything is sent.) -/
def Trans.absorb {σ} (x : TransEnv σ) (t : Trans σ) (ev : KxEvent) : Option (Trans σ) :=
  let kx := t.kx.step x.kex ev
  if kx.stop = some .assertFailed then none
  else (t.autoReset x kx.kx.inReset).bind fun t₁ =>
    ({ t₁ with kx := kx }).effects x (kx.kx.log.drop t.kx.kx.log.length)

/-- What can happen to a connection. -/
inductive TransEvent
  /-- the peer's identification line -/
  | version (v : Bytes)
  /-- data arrives, `OnBufferedData`, Connection.cxx:858-865 -/
  | feed (chunk : Bytes)
  /-- one iteration of the loop of `OnInputReady`, Connection.cxx:920-945, and what the handlers do with
  the packet.  (What they send can be sent afterwards as well.) -/
  | ready (claim : Bytes → Claim)
  /-- somebody sends a packet -/
  | send (payload : Bytes)
  | authenticated
  | rekeyTimer
  /-- the socket is writable, `OnBufferedWrite`, Connection.cxx:868-899 -/
  | writable (w : WriteResult)
  /-- the stages of the worker threads -/
  | inBegin (k : Nat) | inLoop | inEnd (k : Nat)
  | outBegin | outEncrypt | outEnd

/-- Neither closed nor `IsDead()`. -/
def Trans.live {σ} (t : Trans σ) : Bool := !t.closed && t.kx.stop.isNone

/-- The part of `OnInputReady`, Connection.cxx:931-943, after `ReadPacket`. -/
def Trans.handle {σ} (x : TransEnv σ) (t : Trans σ) (claim : Bytes → Claim) : Option (Trans σ) :=
  bif t.inp.dead then some { t with closed := true }
  else match t.inp.handling with
    | none => some t
    | some p => (t.absorb x (.packet p (claim p))).bind fun t =>
      bif t.kx.stop.isNone then t.input x .consume else some t

/-- `OnBufferedWrite`: an exception or `DESTROYED` closes the connection. -/
def Trans.flush {σ} (x : TransEnv σ) (t : Trans σ) (w : WriteResult) : Option (Trans σ) :=
  (t.absorb x (.writable (t.out.flushed w == .more))).bind fun t₁ =>
  (t₁.output x (.flush w)).map fun t₂ =>
    { t₂ with closed := match t.out.flushed w with
        | .done => false
        | .more => false
        | _ => true }

/-- One event; `none` = an `assert()` failed.  Nothing is received after the end, but what was submitted
may still be written (also after a `DISCONNECT` without encryption, when the code closes the socket after
one attempt, Connection.cxx:209-226; see ConnOut in Output.lean). -/
def Trans.step {σ} (x : TransEnv σ) (t : Trans σ) : TransEvent → Option (Trans σ)
  | .version v => bif t.live then t.absorb x (.version v) else some t
  | .feed chunk => bif t.live && t.kx.kx.versionExchanged then t.input x (.feed chunk) else some t
  | .ready claim =>
    bif t.live && t.kx.kx.versionExchanged then (t.input x .read).bind fun t => t.handle x claim else some t
  | .send p => bif t.live then t.sendPacket x p else some t
  | .authenticated => bif t.live then t.absorb x .authenticated else some t
  | .rekeyTimer => bif t.live then t.absorb x .rekeyTimer else some t
  | .writable w => bif t.closed then some t else t.flush x w
  | .inBegin k => t.input x (.runBegin k)
  | .inLoop => t.input x .runLoop
  | .inEnd k => t.input x (.runEnd k)
  | .outBegin => t.output x .runBegin
  | .outEncrypt => t.output x .runEncrypt
  | .outEnd => t.output x .runEnd

def Trans.run {σ} (x : TransEnv σ) : Trans σ → List TransEvent → Option (Trans σ)
  | t, [] => some t
  | t, ev :: evs => (t.step x ev).bind fun t => t.run x evs

/-- A new connection. -/
def Trans.init {σ} (role : Role) : Trans σ := { kx := KxSys.init role }

end Lukko.Model
