import Verif.Base
/-
  Channels: vocabulary of observable events, and the life of one channel number
  as RFC 4254 section 5 describes it.  Nothing here refers to the model.
-/
namespace Lukko.Spec

/-- Channel messages, without the addressee; data is represented by its size. -/
inductive ChMsg
  | confirm | failure
  | adjust (n : Nat) | data (n : Nat) | ext (n : Nat)
  | eof | close
  | request (want : Bool) | reply (ok : Bool)
  deriving DecidableEq, Repr

/-- What becomes of a channel requested by a local component. -/
inductive Outcome
  | created | failed | cancelled
  deriving DecidableEq, Repr

/-- One observable event.  `i` is our number of the channel, `p` the peer's. -/
inductive ChEntry
  /-- the peer asked for a channel, granting `win` bytes; we assigned the number `i` -/
  | recvOpen (i p win : Nat)
  /-- local component `f` asked for a channel; CHANNEL_OPEN was sent with our number `i` -/
  | sentOpen (i f : Nat)
  /-- CHANNEL_OPEN_CONFIRMATION for our channel `i`, which has number `p` at the peer -/
  | recvConfirm (i p win : Nat)
  /-- any other message concerning channel `i` was received and accepted -/
  | recv (i : Nat) (m : ChMsg)
  /-- a message concerning channel `i` was sent to the peer's channel `p` -/
  | sent (i p : Nat) (m : ChMsg)
  /-- local component `f` was told what became of its channel -/
  | told (f : Nat) (o : Outcome)
  /-- local component `f` lost interest -/
  | dropped (f : Nat)
  deriving DecidableEq, Repr

/-- The life of a channel number. -/
inductive Life
  | free
  /-- we asked for a channel -/
  | requested
  /-- the peer asked for a channel (with number `p` at the peer and window `w`) -/
  | opening (p w : Nat)
  /-- open; the peer has granted `w` more bytes -/
  | opened (p w : Nat)
  /-- we sent CHANNEL_CLOSE and wait for the peer's; after that we received `r`
  requests that want a reply and were not answered -/
  | closing (p r : Nat)
  /-- we received CHANNEL_CLOSE and have not answered -/
  | peerClosed (p : Nat)
  deriving DecidableEq, Repr

/-- A message is sent.  `lenient`: allow CHANNEL_FAILURE after CHANNEL_CLOSE, to answer
a request that was received after it. -/
def Life.send (lenient : Bool) : Life → Nat → ChMsg → Option Life
  | .opening p w, p', .confirm => if p = p' then some (.opened p w) else none
  | .opening p _, p', .failure => if p = p' then some .free else none
  | .opened p w, p', m =>
    if p = p' then
      match m with
      | .data n | .ext n => if n ≤ w then some (.opened p (w - n)) else none
      | .adjust _ | .eof | .request _ | .reply _ => some (.opened p w)
      | .close => some (.closing p 0)
      | .confirm | .failure => none
    else none
  | .peerClosed p, p', .close => if p = p' then some .free else none
  | .closing p (r + 1), p', .reply false => if p = p' ∧ lenient = true then some (.closing p r) else none
  | _, _, _ => none

/-- A message (other than CHANNEL_OPEN and its confirmation) is received. -/
def Life.receive : Life → ChMsg → Option Life
  | .requested, .failure => some .free
  | .opened p w, m =>
    match m with
    | .adjust n => some (.opened p (w + n))
    | .close => some (.peerClosed p)
    | .confirm | .failure => none
    | _ => some (.opened p w)
  | .closing p r, m =>
    match m with
    | .close => some .free
    | .confirm | .failure => none
    | .request true => some (.closing p (r + 1))
    | _ => some (.closing p r)
  | _, _ => none

/-- Effect of an event on the life of channel number `i`; `none`: not permitted. -/
def Life.next (lenient : Bool) (i : Nat) (l : Life) : ChEntry → Option Life
  | .recvOpen j p w => if j = i then (if l = .free then some (.opening p w) else none) else some l
  | .sentOpen j _ => if j = i then (if l = .free then some .requested else none) else some l
  | .recvConfirm j p w => if j = i then (if l = .requested then some (.opened p w) else none) else some l
  | .recv j m => if j = i then l.receive m else some l
  | .sent j p m => if j = i then l.send lenient p m else some l
  | .told _ _ | .dropped _ => some l

def lifeStep (lenient : Bool) (i : Nat) (l : Option Life) (e : ChEntry) : Option Life :=
  l.bind fun x => x.next lenient i e

/-- The life of channel number `i` after `log`; `none` if something happened that
is not permitted. -/
def life (lenient : Bool) (i : Nat) (log : List ChEntry) : Option Life :=
  log.foldl (lifeStep lenient i) (some .free)

/-- The number of CHANNEL_OPENs from the peer that were assigned number `i`. -/
def opens (i : Nat) (log : List ChEntry) : Nat :=
  log.countP fun e => match e with | .recvOpen j _ _ => j == i | _ => false

/-- The number of answers to these. -/
def answers (i : Nat) (log : List ChEntry) : Nat :=
  log.countP fun e => match e with | .sent j _ .confirm => j == i | .sent j _ .failure => j == i | _ => false

/-- What component `f` was told. -/
def outcomes (f : Nat) (log : List ChEntry) : List Outcome :=
  log.filterMap fun e => match e with | .told g o => if g = f then some o else none | _ => none

/-- The number `i` is assigned to a new channel. -/
def assigns (i : Nat) : ChEntry → Bool
  | .recvOpen j _ _ => j == i
  | .sentOpen j _ => j == i
  | _ => false

/-- Bytes of data sent on channel number `i`. -/
def bytesSent (i : Nat) (log : List ChEntry) : Nat :=
  (log.map fun e => match e with
    | .sent j _ (.data n) => if j = i then n else 0
    | .sent j _ (.ext n) => if j = i then n else 0
    | _ => 0).sum

/-- Bytes granted by the peer for channel number `i`: initially and later. -/
def bytesGranted (i : Nat) (log : List ChEntry) : Nat :=
  (log.map fun e => match e with
    | .recvOpen j _ w => if j = i then w else 0
    | .recvConfirm j _ w => if j = i then w else 0
    | .recv j (.adjust n) => if j = i then n else 0
    | _ => 0).sum

/-- How often component `f` asked for a channel, and how often it lost interest. -/
def asks (f : Nat) (log : List ChEntry) : Nat :=
  log.countP fun e => match e with | .sentOpen _ g => g == f | _ => false

def drops (f : Nat) (log : List ChEntry) : Nat :=
  log.countP fun e => match e with | .dropped g => g == f | _ => false

end Lukko.Spec
