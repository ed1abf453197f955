import Verif.Spec.Channels
/-
  The window we grant to the peer, as RFC 4254 section 5.2 describes it: one account for
  each channel number.  Nothing here refers to the model.
-/
namespace Lukko.Spec

/-- An observable event, or a component consuming data of channel `i`. -/
inductive WinEntry
  | entry (e : ChEntry)
  | consumed (i n : Nat)
  deriving DecidableEq, Repr

/-- The account of one channel. -/
structure WinAcct where
  /-- the window we advertised when the channel was opened, and all adjustments since -/
  granted : Nat := 0
  /-- bytes of data received before we sent CHANNEL_CLOSE -/
  data : Nat := 0
  /-- bytes of extended data received (at any time) -/
  ext : Nat := 0
  /-- bytes of data received after we sent CHANNEL_CLOSE -/
  late : Nat := 0
  /-- bytes consumed by the component behind the channel -/
  used : Nat := 0
  /-- we sent CHANNEL_CLOSE -/
  closed : Bool := false
  deriving DecidableEq, Repr

/-- All bytes received. -/
def WinAcct.received (a : WinAcct) : Nat := a.data + a.ext + a.late

/-- Bytes that are gone: consumed, or thrown away at once. -/
def WinAcct.gone (a : WinAcct) : Nat := a.used + a.ext + a.late

/-- Effect of a message on the account of its channel. -/
def WinAcct.receive (a : WinAcct) : ChMsg → WinAcct
  | .data n => bif a.closed then { a with late := a.late + n } else { a with data := a.data + n }
  | .ext n => { a with ext := a.ext + n }
  | _ => a

def WinAcct.send (a : WinAcct) : ChMsg → WinAcct
  | .adjust n => { a with granted := a.granted + n }
  | .close => { a with closed := true }
  | _ => a

/-- Effect of an event on the account of channel number `i`; `W` is the window we
advertise for a new channel. -/
def WinAcct.next (W i : Nat) (a : WinAcct) : WinEntry → WinAcct
  | .entry (.recvOpen j _ _) => if j = i then { granted := W } else a
  | .entry (.sentOpen j _) => if j = i then { granted := W } else a
  | .entry (.recv j m) => if j = i then a.receive m else a
  | .entry (.sent j _ m) => if j = i then a.send m else a
  | .entry (.recvConfirm _ _ _) => a
  | .entry (.told _ _) => a
  | .entry (.dropped _) => a
  | .consumed j n => if j = i then { a with used := a.used + n } else a

/-- The account of channel number `i` after `tr`. -/
def account (W i : Nat) (tr : List WinEntry) : WinAcct := tr.foldl (WinAcct.next W i) {}

/-- Components consume only what was received for them. -/
def ConsumesReceived (W : Nat) (tr : List WinEntry) : Prop :=
  ∀ pre, pre <+: tr → ∀ i, (account W i pre).used ≤ (account W i pre).data

end Lukko.Spec
