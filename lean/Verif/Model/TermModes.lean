import Verif.Spec.TermModes
/-
  `ParseTerminalModes`: /repo/src/ssh/TerminalMode.cxx.

  `cfsetispeed`/`cfsetospeed` are taken to set the speeds only (they also store
  them in `c_cflag`).  A speed constant `B1200` is written 1200.
-/
namespace Lukko.Model
open Lukko.Spec (Termios)

/-- `BaudToSpeed`, ssh/TerminalMode.cxx:73-118. -/
def baudToSpeed : Nat → Nat
  | 0 => 0
  | 50 => 50
  | 75 => 75
  | 110 => 110
  | 134 => 134
  | 150 => 150
  | 200 => 200
  | 300 => 300
  | 600 => 600
  | 1200 => 1200
  | 1800 => 1800
  | 2400 => 2400
  | 4800 => 4800
  | 9600 => 9600
  | 19200 => 19200
  | 38400 => 38400
  | 57600 => 57600
  | 115200 => 115200
  | 230400 => 230400
  | _ => 9600

/-- `ApplyBit`, ssh/TerminalMode.cxx:120-128. -/
def applyBit (dest bit : UInt32) (on : Bool) : UInt32 := if on then dest ||| bit else dest &&& ~~~bit

/-- The `switch` in `ParseTerminalModes`, ssh/TerminalMode.cxx:142-374. -/
def applyMode (t : Termios) (opcode arg : Nat) : Termios :=
  match opcode with
  | 1 => { t with cc := t.cc.set 0 (UInt8.ofNat arg) } -- VINTR
  | 2 => { t with cc := t.cc.set 1 (UInt8.ofNat arg) } -- VQUIT
  | 3 => { t with cc := t.cc.set 2 (UInt8.ofNat arg) } -- VERASE
  | 4 => { t with cc := t.cc.set 3 (UInt8.ofNat arg) } -- VKILL
  | 5 => { t with cc := t.cc.set 4 (UInt8.ofNat arg) } -- VEOF
  | 6 => { t with cc := t.cc.set 11 (UInt8.ofNat arg) } -- VEOL
  | 7 => { t with cc := t.cc.set 16 (UInt8.ofNat arg) } -- VEOL2
  | 8 => { t with cc := t.cc.set 8 (UInt8.ofNat arg) } -- VSTART
  | 9 => { t with cc := t.cc.set 9 (UInt8.ofNat arg) } -- VSTOP
  | 10 => { t with cc := t.cc.set 10 (UInt8.ofNat arg) } -- VSUSP
  | 11 => t -- VDSUSP: not defined on Linux
  | 12 => { t with cc := t.cc.set 12 (UInt8.ofNat arg) } -- VREPRINT
  | 13 => { t with cc := t.cc.set 14 (UInt8.ofNat arg) } -- VWERASE
  | 14 => { t with cc := t.cc.set 15 (UInt8.ofNat arg) } -- VLNEXT
  | 15 => t -- VFLUSH: not defined on Linux
  | 16 => t -- VSWTCH: not defined on Linux
  | 17 => t -- VSTATUS: not defined on Linux
  | 18 => { t with cc := t.cc.set 13 (UInt8.ofNat arg) } -- VDISCARD
  | 30 => { t with iflag := applyBit t.iflag 0x4 (arg != 0) } -- IGNPAR
  | 31 => { t with iflag := applyBit t.iflag 0x8 (arg != 0) } -- PARMRK
  | 32 => { t with iflag := applyBit t.iflag 0x10 (arg != 0) } -- INPCK
  | 33 => { t with iflag := applyBit t.iflag 0x20 (arg != 0) } -- ISTRIP
  | 34 => { t with iflag := applyBit t.iflag 0x40 (arg != 0) } -- INLCR
  | 35 => { t with iflag := applyBit t.iflag 0x80 (arg != 0) } -- IGNCR
  | 36 => { t with iflag := applyBit t.iflag 0x100 (arg != 0) } -- ICRNL
  | 37 => { t with iflag := applyBit t.iflag 0x200 (arg != 0) } -- IUCLC
  | 38 => { t with iflag := applyBit t.iflag 0x400 (arg != 0) } -- IXON
  | 39 => { t with iflag := applyBit t.iflag 0x800 (arg != 0) } -- IXANY
  | 40 => { t with iflag := applyBit t.iflag 0x1000 (arg != 0) } -- IXOFF
  | 41 => { t with iflag := applyBit t.iflag 0x2000 (arg != 0) } -- IMAXBEL
  | 50 => { t with lflag := applyBit t.lflag 0x1 (arg != 0) } -- ISIG
  | 51 => { t with lflag := applyBit t.lflag 0x2 (arg != 0) } -- ICANON
  | 52 => { t with lflag := applyBit t.lflag 0x4 (arg != 0) } -- XCASE
  | 53 => { t with lflag := applyBit t.lflag 0x8 (arg != 0) } -- ECHO
  | 54 => { t with lflag := applyBit t.lflag 0x10 (arg != 0) } -- ECHOE
  | 55 => { t with lflag := applyBit t.lflag 0x20 (arg != 0) } -- ECHOK
  | 56 => { t with lflag := applyBit t.lflag 0x40 (arg != 0) } -- ECHONL
  | 57 => { t with lflag := applyBit t.lflag 0x80 (arg != 0) } -- NOFLSH
  | 58 => { t with lflag := applyBit t.lflag 0x100 (arg != 0) } -- TOSTOP
  | 59 => { t with lflag := applyBit t.lflag 0x8000 (arg != 0) } -- IEXTEN
  | 60 => { t with lflag := applyBit t.lflag 0x200 (arg != 0) } -- ECHOCTL
  | 61 => { t with lflag := applyBit t.lflag 0x800 (arg != 0) } -- ECHOKE
  | 62 => { t with lflag := applyBit t.lflag 0x4000 (arg != 0) } -- PENDIN
  | 70 => { t with oflag := applyBit t.oflag 0x1 (arg != 0) } -- OPOST
  | 71 => { t with oflag := applyBit t.oflag 0x2 (arg != 0) } -- OLCUC
  | 72 => { t with oflag := applyBit t.oflag 0x4 (arg != 0) } -- ONLCR
  | 73 => { t with oflag := applyBit t.oflag 0x8 (arg != 0) } -- OCRNL
  | 74 => { t with oflag := applyBit t.oflag 0x10 (arg != 0) } -- ONOCR
  | 75 => { t with oflag := applyBit t.oflag 0x20 (arg != 0) } -- ONLRET
  | 90 => { t with cflag := applyBit t.cflag 0x20 (arg != 0) } -- CS7
  | 91 => { t with cflag := applyBit t.cflag 0x30 (arg != 0) } -- CS8
  | 92 => { t with cflag := applyBit t.cflag 0x100 (arg != 0) } -- PARENB
  | 93 => { t with cflag := applyBit t.cflag 0x200 (arg != 0) } -- PARODD
  | 128 => { t with ispeed := baudToSpeed arg }
  | 129 => { t with ospeed := baudToSpeed arg }
  | _ => t

/-- `ParseTerminalModes`, ssh/TerminalMode.cxx:130-376. -/
def parseTerminalModes (t : Termios) : Bytes → Termios
  | op :: a :: b :: c :: d :: rest =>
    if op = 0 ∨ 160 ≤ op.toNat then t
    else
      let arg := a.toNat <<< 24 ||| b.toNat <<< 16 ||| c.toNat <<< 8 ||| d.toNat
      parseTerminalModes (applyMode t op.toNat arg) rest
  | _ => t

end Lukko.Model
