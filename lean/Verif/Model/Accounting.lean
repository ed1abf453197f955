import Verif.Spec.Accounting
/-
  Model of the per-client accounting: src/net/ClientAccounting.cxx, src/net/ClientAccounting.hxx,
  src/Listener.cxx (OnAccept), src/DelayedConnection.cxx.

  Times are nanoseconds of the steady clock.  The token bucket is part of libcommon, which is
  not in the source tree; it is modelled as a linear token bucket which can be overdrawn.  The
  model uses exact numbers where the program uses `double`.  The rest of a connection is left
  out: it is created (which may fail), charges its client, and is destroyed.
-/
namespace Lukko.Model
open Lukko.Spec

/-- libcommon's `TokenBucket` (assumed): the time at which the bucket would have been empty. -/
structure Bucket where
  zero : Int := 0
  deriving DecidableEq, Repr

/-- `TokenBucketConfig{.rate = 1, .burst = 10}`, ClientAccounting.cxx:81, in billionths. -/
abbrev bucketBurst : Int := 10000000000

/-- `TokenBucket::Update()` (libcommon, assumed): refill with the rate one token per second up to
the burst, take `cost`; the result may be negative. -/
def Bucket.available (b : Bucket) (now cost : Nat) : Int := min (now - b.zero) bucketBurst - cost

/-- See `Bucket.available`. -/
def Bucket.update (b : Bucket) (now cost : Nat) : Bucket := { zero := now - b.available now cost }

/-- The throttling state of `PerClientAccounting`, ClientAccounting.hxx:74-85. -/
structure Throttle where
  tarpitUntil : Nat := 0
  delay : Nat := 0
  bucket : Bucket := {}
  deriving DecidableEq, Repr

/-- ClientAccounting.cxx:82. -/
abbrev tarpitFor : Nat := 60000000000
/-- ClientAccounting.cxx:83. -/
abbrev maxDelay : Nat := 60000000000
/-- ClientAccounting.cxx:84. -/
abbrev delayStep : Nat := 100000000

/-- `PerClientAccounting::UpdateTokenBucket()`, ClientAccounting.cxx:86-97, for any result of the
token bucket. -/
def Throttle.after (s : Throttle) (now : Nat) (available : Int) : Throttle :=
  if available < 0 then
    { s with tarpitUntil := now + tarpitFor, delay := if s.delay < maxDelay then s.delay + delayStep else s.delay }
  else if now < s.tarpitUntil then
    { s with delay := if delayStep < s.delay then s.delay - delayStep else s.delay }
  else
    { s with delay := 0 }

/-- `PerClientAccounting::UpdateTokenBucket()`, ClientAccounting.cxx:75-98, with tarpit. -/
def Throttle.update (s : Throttle) (now cost : Nat) : Throttle :=
  { s.after now (s.bucket.available now cost) with bucket := s.bucket.update now cost }

/-- A sequence of calls. -/
def Throttle.run (s : Throttle) (h : List (Nat × Nat)) : Throttle := h.foldl (fun s x => s.update x.1 x.2) s

/-- `PerClientAccounting`, ClientAccounting.hxx:46-85. -/
structure PerClient where
  addr : Bytes
  /-- the elements of the list `connections` -/
  conns : List Nat := []
  expires : Nat := 0
  throttle : Throttle := {}
  deriving DecidableEq, Repr

/-- An `AccountedClientConnection` inside a `Connection` or a `DelayedConnection`; `client` is the
address of the `PerClientAccounting` referred to by `per_client`. -/
structure AcctConn where
  id : Nat
  client : Option Bytes
  delayed : Bool
  deriving DecidableEq, Repr

/-- `ListenerConfig::max_connections_per_ip`, `tarpit`. -/
structure AcctCfg where
  maxConnections : Nat := 0
  tarpit : Bool := false
  deriving DecidableEq, Repr

/-- `ClientAccountingMap` and the lists of connections of its `Listener`. -/
structure Acct where
  entries : List PerClient := []
  /-- the time when the cleanup timer is due, if it is pending -/
  cleanup : Option Nat := none
  conns : List AcctConn := []
  now : Nat := 0
  nextId : Nat := 0
  /-- an object was used after it was freed -/
  crashed : Bool := false
  log : List AcctEntry := []
  deriving DecidableEq, Repr

def Acct.say (s : Acct) (e : AcctEntry) : Acct := { s with log := s.log ++ [e] }

def Acct.find (s : Acct) (a : Bytes) : Option PerClient := s.entries.find? (·.addr == a)

/-- Change the entry of one client. -/
def Acct.modify (s : Acct) (a : Bytes) (f : PerClient → PerClient) : Acct :=
  { s with entries := s.entries.map fun e => bif e.addr == a then f e else e }

/-- `ClientAccountingMap::Get()`, ClientAccounting.cxx:100-115. -/
def Acct.get (s : Acct) (a : Bytes) : Acct :=
  bif s.entries.any (·.addr == a) then s else { s with entries := s.entries ++ [{ addr := a }] }

/-- `ClientAccountingMap::ScheduleCleanup()`, ClientAccounting.cxx:117-122. -/
def Acct.scheduleCleanup (s : Acct) : Acct :=
  match s.cleanup with
  | some _ => s
  | none => { s with cleanup := some (s.now + 60000000000) }

/-- `PerClientAccounting::Check()`, ClientAccounting.cxx:45-50. -/
def PerClient.check (cfg : AcctCfg) (e : PerClient) : Bool :=
  cfg.maxConnections == 0 || decide (e.conns.length < cfg.maxConnections)

/-- `PerClientAccounting::UpdateTokenBucket()`, ClientAccounting.cxx:75-98. -/
def Acct.charge (cfg : AcctCfg) (s : Acct) (a : Bytes) (cost : Nat) : Acct :=
  let s := s.say (.charged a s.now cost)
  bif cfg.tarpit then s.modify a fun e => { e with throttle := e.throttle.update s.now cost } else s

/-- `PerClientAccounting::AddConnection()`, ClientAccounting.cxx:52-59. -/
def Acct.addConnection (s : Acct) (a : Bytes) (id : Nat) : Acct :=
  s.modify a fun e => { e with conns := e.conns ++ [id] }

/-- The part of `PerClientAccounting::RemoveConnection()` which changes the entry,
ClientAccounting.cxx:66-69. -/
def PerClient.remove (e : PerClient) (id now : Nat) : PerClient :=
  { e with conns := e.conns.filter (· ≠ id), expires := now + 300000000000 }

/-- `PerClientAccounting::RemoveConnection()`, ClientAccounting.cxx:61-73. -/
def Acct.removeConnection (s : Acct) (a : Bytes) (id : Nat) : Acct :=
  match s.find a with
  | none => { s with crashed := true }
  | some e =>
    let s' := s.modify a fun e => e.remove id s.now
    bif (e.remove id s.now).conns.isEmpty then s'.scheduleCleanup else s'

/-- `~AccountedClientConnection()`, ClientAccounting.cxx:11-15, as part of the destructor of
a `Connection` or `DelayedConnection`. -/
def Acct.destroy (s : Acct) (c : AcctConn) : Acct :=
  let s := { s with conns := s.conns.filter (·.id ≠ c.id) }
  match c.client with
  | none => s
  | some a => s.removeConnection a c.id

/-- A new object which is accounted for, Connection.cxx:204-205, DelayedConnection.cxx:22,
ClientAccounting.cxx:52-59. -/
def Acct.create (s : Acct) (client : Option Bytes) (delayed : Bool) : Acct :=
  let s := { s with conns := s.conns ++ [{ id := s.nextId, client, delayed }], nextId := s.nextId + 1 }
  match client with
  | none => s
  | some a => s.addConnection a (s.nextId - 1)

/-- `new Connection(…)`, Listener.cxx:249-256.  The constructor may fail (in the base class, before
`AddConnection()`). -/
def Acct.construct (s : Acct) (client : Option Bytes) (ok : Bool) : Acct :=
  bif ok then (s.create client false).say (.opened s.nextId client 0) else s.say (.failed client)

/-- The delay and the admission of a known client, Listener.cxx:227-246. -/
def Acct.admit (cfg : AcctCfg) (s : Acct) (a : Bytes) (e : PerClient) (ok : Bool) : Acct :=
  bif !e.check cfg then s.say (.rejected a)
  else bif decide (0 < e.throttle.delay) then
    (s.create (some a) true).say (.opened s.nextId (some a) e.throttle.delay)
  else s.construct (some a) ok

/-- `Listener::OnAccept()`, Listener.cxx:215-257; the map exists only if there is something to do
(Listener.cxx:142-145), and only for IP addresses (ClientAccounting.cxx:103-105). -/
def Acct.accept (cfg : AcctCfg) (s : Acct) (address : Option Bytes) (ok : Bool) : Acct :=
  match (bif decide (0 < cfg.maxConnections) || cfg.tarpit then address else none) with
  | none => s.construct none ok
  | some a =>
    let s := (s.get a).charge cfg a 1000000000
    match s.find a with
    | none => { s with crashed := true }
    | some e => s.admit cfg a e ok

/-- `DelayedConnection::OnTimer()`, DelayedConnection.cxx:36-51. -/
def Acct.expire (s : Acct) (c : AcctConn) (ok : Bool) : Acct :=
  bif ok then ((s.create c.client false).destroy c).say (.promoted c.id s.nextId)
  else (s.destroy c).say (.closed c.id c.client s.now)

/-- May the cleanup forget this client?  ClientAccounting.cxx:132-140. -/
def PerClient.stale (e : PerClient) (now : Nat) : Bool := e.conns.isEmpty && decide (e.expires ≤ now)

/-- `ClientAccountingMap::OnCleanupTimer()`, ClientAccounting.cxx:124-145. -/
def Acct.onCleanup (s : Acct) : Acct :=
  let s' := { s with
    cleanup := none
    entries := s.entries.filter fun e => !e.stale s.now
    log := s.log ++ (s.entries.filter (·.stale s.now)).map fun e => .discarded e.addr s.now }
  bif s'.entries.any (·.conns.isEmpty) then s'.scheduleCleanup else s'

inductive AcctEv where
  /-- a connection was accepted by the kernel; can it be set up? -/
  | accept (address : Option Bytes) (ok : Bool)
  /-- the timer of a delayed connection -/
  | expire (id : Nat) (ok : Bool)
  /-- a connection (delayed or not) is destroyed: disconnect, error, timeout -/
  | close (id : Nat)
  /-- a connection charges its client -/
  | charge (id : Nat) (cost : Nat)
  | cleanup
  | tick (d : Nat)
  deriving DecidableEq, Repr

def Acct.conn (s : Acct) (id : Nat) : Option AcctConn := s.conns.find? (·.id == id)

def Acct.step (cfg : AcctCfg) (s : Acct) : AcctEv → Acct
  | .accept address ok => s.accept cfg address ok
  | .expire id ok =>
    match s.conn id with
    | none => s
    | some c => bif c.delayed then s.expire c ok else s
  | .close id =>
    match s.conn id with
    | none => s
    | some c => (s.destroy c).say (.closed c.id c.client s.now)
  /- `AccountedClientConnection::UpdateTokenBucket()`, ClientAccounting.cxx:17-22 -/
  | .charge id cost =>
    match s.conn id with
    | none => s
    | some c =>
      match c.client with
      | none => s
      | some a => bif s.entries.any (·.addr == a) then s.charge cfg a cost else { s with crashed := true }
  | .cleanup =>
    match s.cleanup with
    | none => s
    | some t => bif decide (t ≤ s.now) then s.onCleanup else s
  | .tick d => { s with now := s.now + d }

def Acct.run (cfg : AcctCfg) (s : Acct) (evs : List AcctEv) : Acct := evs.foldl (Acct.step cfg) s

end Lukko.Model
