import Verif.Spec.Wire
/-
  Encoded terminal modes, RFC 4254 section 8, and what they mean for a Linux
  terminal (`struct termios`, numbers from <asm-generic/termbits.h>).  Nothing
  here refers to the model.
-/
namespace Lukko.Spec

/-- `struct termios`: control characters, flags, line speeds (as baud rates). -/
structure Termios where
  cc : List UInt8
  iflag : UInt32 := 0
  oflag : UInt32 := 0
  cflag : UInt32 := 0
  lflag : UInt32 := 0
  ispeed : Nat := 0
  ospeed : Nat := 0
  deriving DecidableEq

/-- What an opcode is about. -/
inductive ModeEffect
  | char (index : Nat)
  | iflag (bit : UInt32)
  | oflag (bit : UInt32)
  | cflag (bit : UInt32)
  | lflag (bit : UInt32)
  | ispeed
  | ospeed
  deriving DecidableEq

/-- RFC 4254 section 8: opcode and meaning (octal constants of Linux written in
hexadecimal).  Opcodes without a Linux counterpart (VDSUSP, VFLUSH, VSWTCH,
VSTATUS) are missing. -/
def modeTable : List (Nat × ModeEffect) :=
  [(1, .char 0), (2, .char 1), (3, .char 2), (4, .char 3), (5, .char 4), (6, .char 11), (7, .char 16),
   (8, .char 8), (9, .char 9), (10, .char 10), (12, .char 12), (13, .char 14), (14, .char 15), (18, .char 13),
   (30, .iflag 0x4), (31, .iflag 0x8), (32, .iflag 0x10), (33, .iflag 0x20), (34, .iflag 0x40),
   (35, .iflag 0x80), (36, .iflag 0x100), (37, .iflag 0x200), (38, .iflag 0x400), (39, .iflag 0x800),
   (40, .iflag 0x1000), (41, .iflag 0x2000),
   (50, .lflag 0x1), (51, .lflag 0x2), (52, .lflag 0x4), (53, .lflag 0x8), (54, .lflag 0x10),
   (55, .lflag 0x20), (56, .lflag 0x40), (57, .lflag 0x80), (58, .lflag 0x100), (59, .lflag 0x8000),
   (60, .lflag 0x200), (61, .lflag 0x800), (62, .lflag 0x4000),
   (70, .oflag 0x1), (71, .oflag 0x2), (72, .oflag 0x4), (73, .oflag 0x8), (74, .oflag 0x10), (75, .oflag 0x20),
   (90, .cflag 0x20), (91, .cflag 0x30), (92, .cflag 0x100), (93, .cflag 0x200),
   (128, .ispeed), (129, .ospeed)]

/-- Baud rates a terminal supports; any other rate is treated as 9600. -/
def supportedBauds : List Nat :=
  [0, 50, 75, 110, 134, 150, 200, 300, 600, 1200, 1800, 2400, 4800, 9600, 19200, 38400, 57600, 115200, 230400]

def lineSpeed (baud : Nat) : Nat := if baud ∈ supportedBauds then baud else 9600

/-- Switch the bits of a flag on or off. -/
def setBits (flags bits : UInt32) (on : Bool) : UInt32 := if on then flags ||| bits else flags &&& ~~~bits

/-- The effect of one record (opcode, argument). -/
def applyRecord (t : Termios) (r : Nat × Nat) : Termios :=
  match modeTable.lookup r.1 with
  | none => t
  | some (.char i) => { t with cc := t.cc.set i (UInt8.ofNat r.2) }
  | some (.iflag b) => { t with iflag := setBits t.iflag b (r.2 ≠ 0) }
  | some (.oflag b) => { t with oflag := setBits t.oflag b (r.2 ≠ 0) }
  | some (.cflag b) => { t with cflag := setBits t.cflag b (r.2 ≠ 0) }
  | some (.lflag b) => { t with lflag := setBits t.lflag b (r.2 ≠ 0) }
  | some .ispeed => { t with ispeed := lineSpeed r.2 }
  | some .ospeed => { t with ospeed := lineSpeed r.2 }

/-- The encoding of records: opcode byte, `uint32` argument. -/
def encodeModes (rs : List (Nat × Nat)) : Bytes := (rs.map fun r => UInt8.ofNat r.1 :: u32 r.2).flatten

/-- A record with an argument: opcodes 1 to 159, arguments below 2^32. -/
def IsRecord (r : Nat × Nat) : Prop := 0 < r.1 ∧ r.1 < 160 ∧ r.2 < 2 ^ 32

/-- Decoding stops here: TTY_OP_END, an opcode from 160 on ("undefined, cause
parsing to stop"), or no complete record left. -/
def EndsModes (tail : Bytes) : Prop :=
  tail.length < 5 ∨ tail.head? = some 0 ∨ ∃ op, tail.head? = some op ∧ 160 ≤ op.toNat

end Lukko.Spec
