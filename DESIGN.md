# Formal model of CM4all/lukko in Lean 4 — design

## 1. Layout

| path | contents |
|---|---|
| `lean/Verif/Base.lean` | bytes |
| `lean/Verif/Model/*.lean` | the model: one definition per C++ function, each citing file and lines in `/repo` |
| `lean/Verif/Spec/*.lean` | small specifications that do not mention the model (RFC encodings, "first common element", byte streams, permission order, …) |
| `lean/Verif/Proof/*.lean` | helper lemmas |
| `lean/Verif/Prop/*.lean` | the property theorems (`C01_…`, `C02_…`), each followed by a non-vacuity `example`; nothing else |
| `properties.jsonl`, `MANIFEST.json` | list of properties, and their status |
| `seeded/LOG.jsonl` | log of the mutation tests of the model |

Style: total computable functions over `List`, `Nat`, `UInt8`, `Option`, `Except`; stateful classes become
`structure State` + `step : State → Event → …`, and "for every history" is an induction over the list of
events.  Everything the adversary or the environment decides (incoming packets, chunking, short writes,
completion order of coroutines, thread interleaving, timer expiry, results of cryptography, contents of files,
answers of the translation server) is an argument of the model and therefore universally quantified.

**Undefined behaviour is an outcome.**  A violated `assert()` (the release build compiles it out, so it is a
precondition whose violation is UB), a throw out of a `noexcept` function, a use after free, are constructors of
the result type of the model (`assertFailed`, `terminate`, `useAfterFree`), never assumed away.  Properties then
either say that the outcome is unreachable, or – when it is reachable – give the reaching history as a witness.

**When the code violates a property.**  The model follows the code.  The negation of the full property is proved
with a concrete witness (theorem named `Cxx_…_violated`), and the strongest true part is proved under the name
`Cxx_…_partial`.  Section 4 collects these findings.

## 2. Trusted base

* The Lean 4.33.0 kernel.  Axioms used: at most `propext`, `Classical.choice`, `Quot.sound` (checked with
  `#print axioms`).  No `sorry`, no own axioms, no `native_decide`, no `bv_decide`.
* The reading of the C++ code: the model is written by hand; nothing is compiled or run.
* `libcommon` is an empty submodule in `/repo`.  The following of its classes are *assumed* to behave as their
  names and their uses in lukko say: `IntrusiveList`, `std::list`-like `BufferList`, `AllocatedArray`,
  `DefaultFifoBuffer::MoveFrom*` (moves a prefix of the source, order preserved), `ThreadQueue` (a job's `Run` is
  executed by at most one worker at a time; `again`/`Add` cause another `Run` later; `Done` runs in the event
  thread after `Run`), `BufferedSocket`, `StringListContains`, `Split`, `IterableSplitString`, `SocketEvent`,
  timers, `Co::*` coroutines (a coroutine runs until its first suspension inside the call that starts it; a
  completion callback is invoked once), `TokenBucket`, `BindMethod`, `CancellablePointer`.
* Cryptographic primitives (SHA-256, HMAC, AES, ChaCha20, Poly1305, X25519, Ed25519, RSA, ECDSA), the random
  generators, the kernel's sockets, processes and files are parameters; where a property needs them to be
  correct, that is a hypothesis of the theorem (e.g. "decrypt inverts encrypt"), named in the theorem statement.
* Wrap-around of 64-bit counters (sequence numbers, byte counters) is not modelled (they are `Nat`), except where
  a property is about wrap-around.  `std::size_t` arithmetic is `Nat` arithmetic; where the C++ code subtracts,
  the model uses the same expression and the proofs show that no underflow occurs, or the guard is explicit.

Not modelled at all: logging, Prometheus, pond, process spawning internals (namespaces, cgroups), the contents of
the translation protocol parser (libcommon), configuration file tokenizer (libcommon), `Main.cxx` and the
construction of `Instance`, memory allocation (`AllocatorPtr`, `fb_pool`) and its failure, the OpenSSL calls of
`Digest.cxx` and `KexECDH.cxx` (parameters), `key/Fingerprint.cxx` (only used in log messages), the coroutine glue
used by test programs (`Awaitable*`, `SimpleHostKey*`).

## 3. Properties: what is modelled and how it is proved

Shape: R = round-trip/algebraic law, I = invariant by induction over events, F = refinement to an abstract spec,
D = decision logic.

| id | modelled code | shape / plan |
|---|---|---|
| C01 | `Padding`, `PacketSerializer` | R; `IsPacket` of RFC 4253 §6 for every payload; arithmetic on `&&& (2^k-1)` |
| C02 | `Input` unencrypted path + `PacketSerializer` | F; the reader, fed arbitrary chunks, refines a whole-stream decoder; decoder∘framing = id |
| C03 | same | I/D; every delivered payload satisfies the limits; bad header ⇒ error |
| C04 | `Serializer`, `Deserializer` | R; `Reads p enc v` = "p reads v off enc and leaves the rest"; composition lemma; proper prefixes fail |
| C05 | `MakePacket.hxx`, `ParsePacket.hxx` | R; composition of C04 |
| C06 | `WriteBignum2`, `CommitBignum2`, `DeserializeBIGNUM` | R; against `IsMpint` (RFC 4251) |
| C07 | `Input::Run/DecryptPacket`, `Output::EncryptPacket` | F; abstract stateful cipher with contract; chunk independence; tamper ⇒ stop |
| C08 | `Input`/`Output` sequence counters | I; product of sender and receiver; induction over packet/key-change history |
| C09 | `Output` incl. worker thread interleaving | F; ghost log of submitted packets with cipher epoch; invariant "written ++ pending ++ encrypted ++ in-flight ++ plain ++ next = log" |
| C10 | `SendQueue` | F to byte string; induction over writes |
| C11 | `KexStrings.hxx` | D/F; first element of client list in server list; symmetric roles |
| C12 | `Connection.cxx` key exchange handlers | I; state machine of flags with UB outcome; all packet sequences |
| C13 | same, client role | I over trace: NEWKEYS sent ⇒ verified reply immediately before |
| C14 | `KexState::DeriveKeys` + handlers | I |
| C15 | `KexState::DeriveKey(s)`, `MakeCipher` | R; symmetric roles; fixed-size hash parameter |
| C16 | `CalcKexHash` | R; injectivity from C04 |
| C17 | `HandlePacket` gate; counter resets (`AutoResetSeq` on both sides) | I/D; fails for the `first_kex_packet_follows` path; resets by invariant |
| C18 | `write_blocked`/`IsRekeying` notifications | I; last notification = (write_blocked ∨ rekeying) |
| C19 | `SocketChannel`/`SessionChannel` read scheduling × rekey | I; expected to fail (window adjust while blocked) |
| C20–C22 | `CSupport.cxx` | I over table of 64 slots with trace of sent messages |
| C23 | `RequestedChannel` + factories | I; expected to fail on the refusal path |
| C24 | `Channel` send window, `SocketChannel`, `SessionChannel` | I; sent ≤ initial + adjusts |
| C25 | `HandleChannelData`, `BufferedChannel` | I; expected to fail (per-packet check only) |
| C26 | `BufferedChannel` | F to byte stream |
| C27 | `Channel::HandleRequest/OnRequestDone/SubmitRequestResponses` | F to "reply in request order" |
| C28 | `GSupport` | F, same, with bound 16 |
| C29 | gates in `CSupport`, `GSupport`, `UserAuthServer`, `Connection` | I |
| C30 | `OnUserAuthRequest` | D; full decision function with environment parameters, `iff` against a declarative spec |
| C31 | to-be-signed strings | R; injectivity from C04 |
| C32, C33 | connection state across attempts | I; C33 expected to fail |
| C34 | `AuthorizedKeyOptions::Restrict` | R; lattice laws |
| C35 | `OptionsRequest.cxx`, `HandleGlobalRequest` | R + I |
| C36 | `ProxyCheck`, `ProxyConnectionHandler` | D + F (order) |
| C37, C38 | `key/TextFile.cxx`, `Options::Set`, `PublicKeySet` | F to a declarative grammar; base64 decoder is a parameter |
| C39 | forwarding gates | D; expected to fail for `direct-streamlocal` |
| C40–C42 | `SessionChannel` requests | D/I; C40, C42 expected to fail |
| C43 | `SetEnv` | I |
| C44 | `SplitCmdline`, `ShellUnescapeOneSingleQuoted` | R; second half expected to fail for backslashes |
| C45, C46 | `ClientAccounting`, `Listener::OnAccept`, `DelayedConnection` | I; time is `Nat` ms, bucket level abstract |
| C47 | cipher constructions | R over abstract primitives |
| C48 | `cipher/Factory.cxx` | D |
| C49 | `SecretKeyList`, `ChooseHostKey` | D |
| C50 | `KexCurve25519` | D |
| C51 | `OnBufferedData` version exchange | F, chunk independence |
| C52 | `ParseTerminalModes` | F |
| C53 | `DeserializeRSA.cxx` | D; expected to fail (swapped arguments) |
| C54 | `SendTranslateLogin` | R + bound |
| C55 | `ZeroconfCluster::Pick` | I; score function abstract |
| C56 | `OnControlPacket` | D; expected to fail for two commands |
| C57 | no-more-sessions | I |
| C58 | stdin of session channels | I; expected to fail (EOF before spawn) |
| C59 | `SocketChannel` | I; expected to fail |
| C60 | `DoDisconnect`, `Output::IsEmpty` | I; expected to fail |
| C61 | `SendECDHKexInitReply`, `HandleECDHKexInit`, `CalcKexHash` | I; with C16 |
| C62 | `SocketChannel` + `BufferedChannel` + `Channel` | I; UB outcome unreachable; expected to fail for extended data and data after EOF |
| C63 | `SessionChannel::PrepareChildProcess` | D |
| C64 | `On{Stdout,Stderr,Tty}Ready`, `MaybeSendEofAndClose` | F to byte streams of the process |
| C65 | stdin scheduling | I; expected to fail (terminal after exit) |
| C66 | `GetAuthMethods` | D |
| C67 | `OnRequest`, `Exec` | I over the log of spawned processes |
| C68 | `OnBufferedData` + `BufferedChannel` | F |
| C69 | `SessionChannel` assertions | I; expected to fail |
| C70 | `ProxyConnectionHandler` over two Kex connections, `BlockRead`/`UnblockRead`/`OnInputReady` | I over both connections, using C18; stall expected (witness + closure under all events) |
| C71 | `key/*Key.cxx`, `ParsePublicKeyBlob`, `SerializeBN`/`DeserializeBN`, `Digest` | D; sign/verify over arbitrary primitives with the correctness of raw signatures as hypothesis; composed with C31; name mismatch expected to fail |
| C72 | `key/LoadFile.cxx`, `key/Parser.cxx` (secret keys, OpenSSH v1 format, armour) | D both directions (loads / only loads); consistency expected to fail |
| C73 | `UserAuthClient`, `OutgoingConnection`, `OnOutgoingUserauthService` | I over the history; request bytes by composition of writers; acceptance composed from C30, C71 |
| C74 | the connection of C29–C36 with a clock; `auth_timeout` | I over the timed history; frame lemmas for the login coroutine; negation for the proxied case |
| C75 | `DoDisconnect`, `OnDisconnecting` and all sources of activity; handlers do arbitrary things while the connection is alive | I (alive / dying / over); negation with a witness |
| C76 | `HandleGlobalRequest` ("tcpip-forward", "cancel-tcpip-forward"), `SocketForwardListener`, on top of Model/Auth | I over the log; negations with witnesses |
| C77 | `LukkoConfigParser` (all sections except "spawn"), `Config::Check`, `LoadProxyHostKeys` | F; acceptance iff documented; meaning by induction over lines; negations with witnesses |
| C78 | the receive windows in `ChannelSupport` and `Channel`, including tombstones | I over the table with an account for each number; negation with witnesses |
| C79 | `RConnect`, `RBind`, `Delegate`, `OpenInHome` and the functions choosing child options, on top of the authentication and session machines | I over authentication (the answer of the translation server covers the permissions and is about the user), C; negations with witnesses |
| C80 | `AgentForward` on top of the session channel (Model/Agent): socket, connections, answers, end | I over runs of the session machine extended by connections; bookkeeping invariant over the log |
| C81 | `IDENTIFICATION_STRING`, `SendEarlyDisconnect` (Model/Greeting), with the version exchange and `Input` as receiver | C; composition of C01, C02, C05 and C51 |
| C82 | `SendExtInfo`, `peer_wants_ext_info` (Model/Kex), `pubKeyVerify` (Model/Keys) | B, on top of the invariant of the key exchange; B for signatures (C71) |
| C83 | key exchange in both roles (Model/Kex) | B; reduction to forgery or collision; composition of C13, C15, C16, C61 |
| C84 | key exchange (Model/Kex) and authentication (Model/Auth) | B; reduction, composition of C14, C16, C30, C31 |
| C85 | UserAuthServer, Connection (Model/Auth) | B, D; invariant of the connection; three violations with witnesses |
| C86 | Connection::OnUserAuthRequest (Model/Auth) | B, D; progress of one request as an invariant, two executions compared; two violations with witnesses |
| C87 | SSH::Connection as a whole: Input, Output, key exchange (Model/Transport) | A, B; composition of the invariants of the parts; violation with witness |
| C88 | SSH::Connection as a whole (Model/Transport) | A, B; from C87, C83, C12, C17; ideal cipher as a hypothesis; violation with witness |
| C89 | SessionChannel, SocketChannel (existing models) | B; violation with witness |
| C90 | OnChildProcessExit, SendExitStatus, SendExitSignal (Model/Exit, Model/Session) | A, B; violation for all signals |
| C91 | HandlePacket, Input::GetSeq (Model/Kex, Model/Transport) | A: history of the connection against Spec/Stream |
| C92 | Connection as a whole (Model/Transport) | A for the ratio; violation for any number of packets |
| C93 | class Connection of the server (Model/Server: Model/Transport composed with Model/Auth) | A: invariant over both layers |
| C94 | the server as a whole (Model/Server), any client (Spec/Holder) | A, B; from C84, C93, C12, C88; induction over the key changes |
| C95 | `ReceiveResponse` (Model/Response); packet framing of libcommon assumed | A, B; the meaning of a state is invariant under the inner loop |
| C96 | `ChannelSupport` with any number of sessions on top of Server (Model/Host); other channel kinds only as occupied numbers | A; per-session invariant relating the session's log to the connection's log |
| C97 | `PrepareExec`, `PrepareHome`, `PrepareAddressEnv`, `PrepareSftpServer`, `SpawnChildProcess`, `LoginShellName` (Model/Environ) on top of the session model | A; the first entry with a name decides; invariant: new variables of the client are put in front of its older ones |
| C98 | two connections of Model/Kex, client and server, and the packets between them (Model/Pair) | I; invariant: five stages of an exchange, each with exactly the packets of the key exchange which are in flight; data packets anywhere behind NEWKEYS; a measure which every delivery decreases |
| C99 | the counters and charges beside Model/Auth, function by function (Model/Tally) | I; per function: difference of counters = difference of log entries; sum over the run |
| C100 | Model/Accounting with any number of Model/Auth + Model/Tally connections and the clock (Model/Guard) | I; per event: tokens paid >= verdicts and pending passwords; the delay at the time of the request; splits of the log |
| C101 | Model/Auth + Model/Tally | I: price of all answers + price of the one to come <= tokens paid |
| C102 | Model/Rekey.lean: `rekey_timer`, `encrypted_bytes_since_kex` and a clock beside the key exchange of Model/Kex.lean | invariant with the phases of the key exchange: the timer is armed while idle, and due as soon as the volume is reached |
| C103 | Model/Relay.lean: Model/SocketChannel.lean together with the socket of the kernel and with the bytes themselves | invariant: what the host has sent = what the client has received ++ what is in the socket; what the client has sent = what the host has received ++ what is in the buffer; progress by induction over what is in the socket |
| C104 | Model/Census.lean: the lists of connections and waiting connections of the listeners, the flag `log_disconnect`, the counters | invariants over the log: balance of each block of entries, numbers distinct, line written iff flag cleared; induction over all events |
| C105 | Model/Tunnel.lean: the forwarded connections (`Relay`, C103) on top of the whole connection (`Server`, C93/C94); the meaning of messages is Spec/Tunnel.lean | invariant of each forwarded connection relative to the record of the connection since it was opened and since it was confirmed; product with the invariant of the server; holder by C94 |
| C106 | Model/Caller.lean: `OutgoingConnection` with the transport layer (client role) and the login (TargetLogin.lean) | product of the invariants of both layers (as for the server, C93), with the exact sequence of messages above the transport layer |
| C107 | Model/Gateway.lean: the connection of the client (Server.lean) and that to the target (Caller.lean), connected by ProxyConnectionHandler and the OnOutgoing… methods | both halves are runs of their own models; invariant which relates the entries of the log of the client's connection to what the other one was given and has heard |
| C108 | the composition of Model/Gateway.lean (proxy) with Model/Server.lean (target) | the connection of a proxy to its target is one of the connections of C94; the first keys of both ends are the same (C83), so what is sent with them is what C107 describes |
| C109 | Model/Startup.lean: `main` until the main loop, as the list of what it does and how it ends | case distinction over the first failing step; the key files by induction over the list of names |
| C110 | Model/Reverse.lean: the connections which arrive at listeners (`Rfw`, C76) as channels (`Tunnel`/`Relay`, C103) on top of the whole connection (`Server`, C93/C94); messages: Spec/Reverse.lean | invariant of each connection relative to the record of the connection since it was confirmed and to the record of the listeners; product with the invariants of C76 and of the server; holder by C94 |
| C111 | Model/Secret.lean: `GenerateSharedSecret` of both methods; Spec/Secret.lean: Diffie-Hellman functions, the encoding | direct, on top of C06; in all histories by the invariant of the key exchange |
| C112 | Model/House.lean: one connection with sessions, connections to hosts and listeners, sharing the numbers | every run contains a run of Host.lean, of Tunnel.lean and of Reverse.lean (refinement), as an event changes one kind only; then C96, C105, C110 |
| C113 | Model/Strict.lean: the connection of House.lean, with the exceptions: which messages are refused, and that an exception in a channel closes the connection | refinement: every run is a run of House.lean; invariant: no open channel has thrown while the connection lives; the first number of each message decides |
| C114 | Model/Farewell.lean: the destruction of all channels at the end of the connection of Strict.lean | two phases: before the end, the run is one of Strict.lean; after it, no event changes anything; the number of running processes is that of the invariant of the session |
| C115 | no new definitions: House.lean, Strict.lean, Farewell.lean; Spec/Ledger.lean says which message belongs to which bytes | an account, by induction over the events: how often a message was sent, and how often the channels, the target and the agent channels have had it to send; each kind of channel by itself, from how its record grows |
| C116 | no new definitions: House.lean, Strict.lean, Farewell.lean; Spec/Allowance.lean says what a message allows, and how much data another one has | the windows of each kind of channel by itself (C24), what the record of a channel says about adjustments against what the client has sent (C110, C111), and the account of C115 |
| C117 | no new definitions; Spec/Allowance.lean says how much a client has sent on a channel | the receive window of each kind of channel by itself, what the record of a channel says about data against what the client has sent (C110, C111), and the account of C115, which now covers window adjustments too |

### Assumptions made by single parts of the model

* **Key exchange** (`Model/Kex`): the agreement, hash (32 bytes), signatures, random cookies are functions of an
  environment record; the exchange hash is over the exact byte strings of the code.  The contents of DISCONNECT
  are left out.  `UNIMPLEMENTED` carries the number of the
  packet (`Input::GetSeq`), computed from the history; `C91_counted` shows that this is what `Input` counts.  The rekey timer may expire at any
  time when armed.
* **The server** (`Model/Server`): what channels and global requests send is any sequence of packets, once there are
  channels.  The contents of DISCONNECT are left out.  After an exception of a handler the connection is closed in the
  code; the transport layer of the model may still write what was submitted before.
* **Exit reports** (`Model/Exit`): the wait status is that of Linux, and the descriptions of signals are those of
  glibc.
* **Requests** (`Model/Requests`): whether `Co::EagerInvokeTask` is already empty when its coroutine finished
  synchronously is a parameter (`syncDone`); theorems hold for both values unless they name one.
* **Channels** (`Model/ChannelSupport`): a channel implementation is any sequence of calls of the base class's
  methods; `CreateChannel` of a factory does not throw (its failure is an answer); an asynchronous open does not
  complete synchronously.
* **Buffers**: `BufferQueue` is a queue of bytes whose `Read()` returns any non-empty prefix.
* **Events**: `SocketEvent`/`PipeEvent` call back only for scheduled events (a terminal's hang-up is always
  reported); `PipeEvent::Open` asserts that it is not open.  Whether assertions are compiled in is the parameter
  `ndebug` where it matters.  Events of the model that do not fit the state (e.g. an answer to a question that was
  not asked) are ignored.
* **Forwarded sockets** (`Model/Relay`): `EPOLLIN` only if there is something to read (data, the end, or an abort),
  `EPOLLHUP` only after the host has ended or aborted, `EPOLLERR` only after an abort; `send()` fails other than with
  `EAGAIN` only after an abort; `recv()` returns a non-empty beginning of what has arrived.
* **Session channels**: kernel pipes and terminals are byte queues with a count of writers.  `CoEnqueueSpawner`
  does not throw.
* **Authentication** (`Model/Auth`): `getpwnam` is constant during a connection; reading the home directory's
  `authorized_keys` is always a suspension; base64 decoding and signature verification are functions; the rate
  limiter's delay is an event.  `StripLeft` strips bytes ≤ 0x20, `BufferedReader::ReadLine` strips CR and cuts at
  NUL (libcommon).  The limits on channel numbers and pending global requests are those of the respective models.
* **Accounting**: `TokenBucket` is linear, may be overdrawn, and uses exact arithmetic (`double` in the code); the
  clock is monotonic; coarse timers fire on time.
* **Ciphers**: primitives are arbitrary functions (key streams, MACs with fixed tag sizes); OpenSSL's GCM with
  generated IVs uses the current IV and increments its last eight bytes.
* **Clusters**: `RendezvousHashing::Node::Compare` is any strict weak order, `std::sort` any sorting function.
* **Keys** (`Model/Keys`, `Model/SecretFile`): raw signatures, DER decoding and OpenSSL's acceptance of key
  parameters are functions (`Crypto`); that a raw signature verifies under the matching key is a hypothesis
  (`KeyPair`).  `BN_bn2bin` returns the minimal big-endian form.  The base64 decoder is a function; `Strip` strips
  bytes ≤ 0x20.
* **Terminal modes**: Linux's `termios` constants; `cfset*speed` stores the speed only.
* **Configuration** (`Model/Config`): all compile-time features are enabled and the debug mode is off; the file is
  given as lines of tokens (the tokenizer, `NestedConfigParser`, `SocketConfig::Fixup` and the settings of "spawn" are
  in libcommon); addresses, numbers, files and Zeroconf settings are functions of an environment record.
* **Identity** (`Model/Identity`): `ChildOptions::CopyTo` copies all settings of the account to the child;
  `ToContainerPath` is a function; a datagram which does not fit is cut off.  Supplementary groups do not exist in
  the code.  Whether an attempt succeeds is up to the operating system.
* **Translation requests**: command numbers are parameters; little-endian host.
* **Sessions of a connection** (`Model/Host`): channel numbers are given out arbitrarily among the free ones (the code takes the
  lowest free one); channels of other kinds only take up numbers.  An exception in a session stops this session; that it also
  closes the connection is left out, as is the disconnect after a message for a channel which does not exist.  Both only add
  behaviours.  Confirmations and answers to requests are sent by the arbitrary `send` of `Model/Server`.
* **Environments** (`Model/Environ`): `PutEnv` and `SetEnv` of `PreparedChildProcess` (libcommon) append an entry, `HasEnv` looks
  for one, `ChildOptions::CopyTo` appends the variables of the account; whether the home directory can be seen, and whether the
  agent is forwarded, are inputs.  `HostToString` (libcommon) is an input.
* **Translation answers** (`Model/Response`): `TranslateParser::Feed` (libcommon) takes the next piece of one packet,
  the header only if it is complete; what a complete packet does, and which one is the last, is a parameter.

## 4. Findings (code violates the stated property)

Each is proved as a theorem about the model with a concrete witness.

| # | finding | where | theorem |
|---|---|---|---|
| 1 | When the peer refuses a channel we requested, `RequestedChannel` is used after it was deleted. | ssh/CSupport.cxx | `C23_failure_violated` |
| 2 | The 65th simultaneous channel open is not refused; an exception outside the `try` closes the connection. | ssh/CSupport.cxx | `C21_no_number_violated` |
| 3 | Incoming data is checked against the window per packet only; the window is decremented on consumption. A peer can make the server buffer without bound. | ssh/CSupport.cxx, ssh/BufferedChannel.cxx | `C25_unbounded_violated`, `C25_session_violated` |
| 4 | A forwarded channel whose peer grants an initial window of 0 is closed (or asserts) as soon as the socket is readable. | SocketChannel.cxx | `C59_zero_window_violated` |
| 5 | Channel data (and other messages) can be sent between our KEXINIT and NEWKEYS: a window adjustment, or the start of a process, schedules reads again. | SocketChannel.cxx, SessionChannel.cxx | `C19_adjust_violated`, `C19_data_violated`, `C19_session_violated` |
| 6 | After CHANNEL_CLOSE, a tombstone still answers requests with CHANNEL_FAILURE. | ssh/CSupport.cxx | `C22_failure_after_close_violated` |
| 7 | A forced `command=` does not apply to the sftp subsystem, nor to the rsync and git exceptions; the client's environment variables are not filtered, so a forced command run by a shell can be subverted. | SessionChannel.cxx | `C40_sftp_violated`, `C40_rsync_violated`, `C40_environment_violated` |
| 8 | `no-port-forwarding` does not forbid `direct-streamlocal`. | Connection.cxx | `C39_violated` |
| 9 | End-of-file sent before the process is started is lost if nothing else is queued; a process on a terminal never sees end-of-file. | SessionChannel.cxx | `C58_early_violated`, `C58_terminal_violated` |
| 10 | Two exec/shell/subsystem requests in a row both start a process while the first waits for the spawner; the second one hits an assertion or replaces the first one's pipes. | SessionChannel.cxx | `C42_violated`, `C42_assertion_violated` |
| 11 | With strict key exchange, the packet dropped because of `first_kex_packet_follows` may be of any type. | ssh/Connection.cxx | `C17_strict_violated` |
| 12 | The output can be considered empty while packets are being encrypted, so that DISCONNECT is not sent. | ssh/Output.hxx | `C60_disconnect_lost_violated` |
| 13 | A second key change while the first is pending in the output overwrites the cipher. | ssh/Output.cxx | `C09_second_rekey_violated` |
| 14 | Depending on the coroutine library, a request that finishes at once is answered although no answer was wanted. | ssh/Channel.cxx, ssh/GSupport.cxx | `C27_unwanted_reply_violated` |
| 15 | Restrictions from an authentication attempt that failed apply to the successful one; a cached refusal of the translation server is used as an acceptance of the method. | Connection.cxx | `C33_violated`, `C33_failed_answer_violated` |
| 16 | RSA keys: the arguments of `CalcFactorExponent` are swapped, the CRT exponents are wrong. | openssl/DeserializeRSA.cxx | `C53_exponents_violated`, `C53_never_violated` |
| 17 | Control socket: `TERMINATE_CHILDREN` and `RELOAD_STATE` are obeyed without the privilege check; `TERMINATE_CHILDREN` misses accounts whose options are attached to single services. | Control.cxx, Connection.cxx | `C56_terminate_violated`, `C56_reload_violated`, `C56_service_tag_violated` |
| 18 | If a connection's constructor throws, the client's accounting entry is never cleaned up. | Listener.cxx, net/ClientAccounting.cxx | `C46_forgotten_violated` |
| 19 | rsync/git command lines: a backslash inside single quotes is treated as an escape; empty arguments cannot be represented. | SessionChannel.cxx | `C44_backslash_violated`, `C44_empty_argument_violated` |
| 20 | Data after end-of-file, a second end-of-file, and extended data run into assertions; extended data is deducted from the window and never granted again. | ssh/BufferedChannel.cxx, ssh/Channel.cxx | `C26_*_violated`, `C62_*_violated`, `C69_*_violated` |
| 21 | Subsystem `sftp` followed by `pty-req` while waiting for the spawner hits an assertion. | SessionChannel.cxx | `C69_sftp_terminal_violated` |
| 22 | The length field of a received packet reaches an alignment assertion of the ciphers unchecked. | cipher/OsslCipher.cxx | `C47_alignment_violated` |
| 23 | chacha20-poly1305 uses the 64-bit packet counter as nonce without reducing it to 32 bits. | cipher/ChaCha20Poly1305Cipher.cxx | `C47_sequence_wrap_violated` |
| 24 | A terminal's hang-up while reading is suspended discards output that was not read yet. | SessionChannel.cxx | `C64_terminal_violated` |
| 25 | If starting the process fails, the error message is sent after end-of-file. | SessionChannel.cxx | `C64_message_after_eof_violated` |
| 26 | `home-read-only` has no effect on accounts without mounts. | SessionChannel.cxx | `C63_no_mounts_violated` |
| 27 | A terminal requested after a process exited, with input still queued, never gets this input. | SessionChannel.cxx | `C65_violated` |
| 28 | USERAUTH_FAILURE has an empty list of methods when the account was refused by the translation server, or another service is requested. | Connection.cxx | `C66_empty_violated` |
| 29 | An identification line of 255 bytes or more is accepted or dropped depending on how it arrives. | ssh/Connection.cxx | `C51_long_line_violated` |
| 30 | Terminal modes: the value 255 ("none") is installed as a character; CS7 on with CS8 off yields 5 bits. | ssh/TerminalMode.cxx | `C52_disabled_violated`, `C52_seven_bit_violated` |
| 31 | Proxied sessions: if the (hourly) key exchange is in progress on both connections at once, each connection holds back the other's key exchange packets and the session stalls for ever. Both timers are started within milliseconds of each other. | ProxyConnectionHandler.cxx, ssh/Connection.cxx | `C70_deadlock_violated` |
| 32 | Public key login: the algorithm named in the request is not compared with the one in the signature, so an `ssh-rsa` (SHA-1) signature is accepted in a request that names `rsa-sha2-512`. | Connection.cxx, key/RSAKey.cxx | `C71_algorithm_violated` |
| 33 | Built without libmd, an RSA host key is still offered for `ssh-rsa`, and the key exchange then fails. | key/RSAKey.cxx | `C71_offered_violated` |
| 34 | Key files: the public half (and the embedded public key) is not compared with the secret one; such a host key produces signatures nobody accepts. | key/Parser.cxx | `C72_consistent_violated` |
| 35 | A proxied login has no time limit: `auth_timeout` is cancelled when the client is authenticated, then the connection waits for the target; after the TCP connection is established nothing limits how long the target may stay silent, and the client is left without an answer | `src/Connection.cxx:1147-1169`, `src/OutgoingConnection.cxx` | `C74_proxied_violated` |
| 36 | `DoDisconnect` on an encrypted connection waits for DISCONNECT to be written, and stops everything but the outgoing connection of a proxied session; if the target grants the login in that time, `AddHandler` and `SendPacket` are called on a dead connection (`assert(!IsDead())`), and the client gets USERAUTH_SUCCESS and the target's messages after DISCONNECT | `src/Connection.cxx:1260-1276`, `src/Connection.cxx:1403-1419`, `src/ssh/Connection.cxx:87,142` | `C75_violated` |
| 37 | A "cancel-tcpip-forward" which arrives while the "tcpip-forward" for the same address is still resolving or binding is answered with failure, and the listener comes into existence afterwards | `src/Connection.cxx:1201-1223` | `C76_violated`, `C76_cancelled_partial` |
| 38 | With port 0 the reply does not contain the port, and the "forwarded-tcpip" channels are opened with port 0; RFC 4254 section 7 requires the actual port in both (a TODO in the code). All forwardings of an address with port 0 are cancelled together | `src/Connection.cxx:1198-1209`, `src/SocketForwardListener.cxx:75-82` | `C76_port_violated`, `C76_port_partial` |
| 39 | `LukkoConfigParser::ParseLine2` has no branch for "target_host" (the class `TargetHost` exists, but is never instantiated), so each file with this documented section is refused, and `proxy_to` can never be used | `src/Config.cxx:451-491`, `doc/index.rst:172` | `C77_target_violated` |
| 40 | `ack_timeout` is multiplied with 1000 in 32 bits; 4294968 seconds become 704 ms (if `NextPositiveInteger` returns `unsigned`; libcommon is not in the repository) | `src/Config.cxx:272-274` | `C77_ack_violated` |
| 41 | After a request for a channel was cancelled, `HandleChannelOpenConfirmation` creates the tombstone with `p.initial_window_size` as *receive* window, i.e. the window the peer granted to us instead of the one we granted; an obedient peer with a smaller window is disconnected ("Receive window exceeded"), a peer with a larger window may send more than granted | `src/ssh/CSupport.cxx:388-389` | `C78_cancelled_violated`, `C78_limit_violated` |
| 42 | Without a translation server, connections and listeners requested by a client are made by the daemon itself, with its own rights (privileged ports) and network, instead of the user's | `src/RConnect.cxx:199`, `src/RBind.cxx:234` | `C79_tcp_violated` |
| 43 | Host names of forwardings are cut at a NUL byte; a name starting with NUL makes the server listen on all addresses ("*") | `src/RBind.cxx:68-86` | `C79_address_violated` |
| 44 | If the SFTP settings have no EXECUTE and /usr/lib/cm4all/openssh/libexec/sftp-server cannot be opened, the general settings are used for SFTP; if there are none, a null pointer is dereferenced (assertion) | `src/SessionChannel.cxx:633-661` | `C79_sftp_violated`, `C79_sftp_settings_violated` |
| 45 | `CheckTranslateResponse` checks uid/gid/home only in the general settings; service settings (SFTP, rsync, git) without uid/gid are accepted | `src/Connection.cxx:160-168` | `C79_service_user_violated` |
| 46 | `DelegateOpen` looks for `.ssh/authorized_keys` in the configured working directory (CHDIR) instead of the home directory | `src/Delegate.cxx:96-98` | `C79_keys_violated` |
| 47 | `HandleECDHKexInit` sends EXT_INFO after every key exchange in which the KEXINIT of the client has `ext-info-c`; RFC 8308 section 2.4 allows it only after the first NEWKEYS | `src/ssh/Connection.cxx:616-622` | `C82_again_violated` |
| 48 | A client which sends the next authentication request (RFC 4252 section 5.1 allows that), DEBUG or anything else but key exchange while one is being processed is disconnected with PROTOCOL_ERROR instead of the message being processed afterwards | `src/ssh/UserAuthServer.cxx:97-128` | `C85_pipelining_violated`, `C85_debug_violated` |
| 49 | A request to change the password is treated as malformed and ends the connection: `ExpectEnd()` is called before the check which is supposed to answer USERAUTH_FAILURE (the new password follows) | `src/Connection.cxx:857-866` | `C85_password_change_violated` |
| 50 | Whether an account exists is checked before the rest of the authentication request is read: a request which ends after the method name is answered with USERAUTH_FAILURE if there is no such account, and with DISCONNECT if there is (as in CVE-2018-15473) | `src/Connection.cxx:951-970` | `C86_malformed_violated` |
| 51 | With a translation server, a failed login lists no methods if the account does not exist, and all methods if it does: accounts can be enumerated | `src/Connection.cxx:880-908` | `C86_service_violated` |
| 52 | A second key exchange which is completed before the worker thread has run makes the server encrypt packets of the first keys with the second ones; the peer cannot decrypt them (now shown for a complete connection) | `src/ssh/Connection.cxx:400-412`, `src/ssh/Output.cxx:45-70` | `C87_written_violated` |
| 53 | Clients without strict key exchange are accepted: an attacker can remove the first packets after NEWKEYS (Terrapin, CVE-2023-48795; inherent in the old protocol) | `src/ssh/Connection.cxx:501-510` | `C88_terrapin_violated` |
| 54 | The peer's maximum packet size is parsed and ignored: a client which accepts only packets smaller than 4096 bytes gets larger ones | `src/ssh/CSupport.cxx`, `src/SessionChannel.cxx:891,926,950`, `src/SocketChannel.cxx:106` | `C89_violated` |
| 55 | The end of a process by a signal is reported with a description ("Killed") instead of the name in RFC 4254 ("KILL"), for every signal | `src/SessionChannel.cxx:977-982` | `C90_signal_violated` |
| 56 | There is no limit for packets that wait to be written, and reading goes on while the output is blocked: a peer that sends unknown messages and does not read makes the server store any number of replies, before authentication until its timeout of ten seconds, and without limit afterwards | `src/ssh/Connection.cxx:920-947`, `src/ssh/Output.cxx:45-70` | `C92_violated` |
| 57 | Whether bytes behind the answer of the translation server are an error depends on their timing | `src/translation/LoginClient.cxx:203-209` | `C95_excess_violated` |
| 58 | the client's variables are appended to the environment without removing those of the same name; `USER`, `HOME` etc. have two entries, and `bash` uses the last | `src/SessionChannel.cxx:326-327` | `C97_unique_violated` |
| 59 | with a forced command, a client which asks for a shell can set `SSH_ORIGINAL_COMMAND` itself | `src/SessionChannel.cxx:550-556` | `C97_original_violated` |
| 60 | Accounts which need no password are counted as "password accepted" when the account is looked up, before the key is checked: a failed publickey login is counted as accepted password, a successful one is counted twice. | `Connection.cxx:944-945` | `C99_accepted_violated` |
| 61 | Requests to change the password fail without being counted and without costing tokens. | `Connection.cxx:862-867` | `C99_failed_violated` |
| 62 | An authorized key which cannot be parsed increments the counter of connections closed because of protocol errors, but the connection stays open. | `Connection.cxx:991, 1065` | `C99_closed_violated` |
| 63 | The delay for exceeding the budget is per connection, and without a limit for connections per client it does not limit guesses on parallel connections. | `Connection.cxx:819-823`, `Listener.cxx` | `C100_limit_parallel` |
| 64 | The attempt to change a password is refused for free (and fast), while all other refusals of passwords cost 9 or 10 tokens. | `Connection.cxx:862-866` | `Price.change` in `C101_prices` |
| 65 | A peer that begins a key exchange and withholds NEWKEYS (or answers nothing at all) suspends key renewal for ever: `kex_flags.IsIdle()` stays false, so neither the volume nor the timer starts another exchange, and there is no time limit for a key exchange | `ssh/Connection.cxx:118-129,152-162` | `C102_stalled_violated` |
| 66 | The rekey timer is started at the end of the first key exchange although nobody is logged in; after an hour `assert(authenticated)` fails in `InitiateRekey`. Incoming connections are closed by the login timeout before that, but an `OutgoingConnection` to a proxy target which does not answer the login request is not | `ssh/Connection.cxx:118-129,590-591` | `C102_unattended_violated` |
| 67 | The end of the data of the host (`recv()` returns 0) closes the whole channel instead of sending CHANNEL_EOF: a host that ends only its own direction (`shutdown(SHUT_WR)`) loses what the client has sent and what it is still sending | `SocketChannel.cxx:121-124` | `C103_half_close_violated` |
| 68 | A `send()` that fails in a forwarded connection (e.g. ECONNRESET) throws out of `OnBufferedData`, and this closes the SSH connection with all its channels instead of this channel; a host can cause that by aborting its connection while data of the client is on its way | `SocketChannel.cxx:50-57,142-144` | `C103_isolation_violated` |
| 69 | `lukko_connections_closed{reason="protocol"}` is incremented for each public key that cannot be parsed, although the connection stays open: one connection can be counted any number of times | `Connection.cxx:989-997, 1063-1071` | `C104_protocol_violated` |
| 70 | A connection which is only waiting for its DISCONNECT to be sent is still in the list: TERMINATE_CHILDREN counts it again as terminated | `Connection.cxx:216-228`, `Listener.cxx:267-279` | `C104_terminated_violated` |
| 71 | Connections which end by hang-up, error, timeout or DISCONNECT of the client are counted under no reason of `lukko_connections_closed` (`n_userauth_timeouts` is counted but not exported); the HELP texts of `lukko_bytes_received` and `lukko_packets_received` say "sent" | `Connection.cxx:1296-1303, 1331`, `Instance.cxx:247-256` | `C104_uncounted_violated` |
| 72 | if `authorized_keys` next to the configuration exists but cannot be opened (e.g. no permission), the server starts without these keys and without a message; for key files, only `ENOENT` is accepted | `Main.cxx:99-101` | `C109_authorized_silent` |

Observations that are not (yet) theorems: `PacketSerializer::Finish` is `noexcept` but may throw near 65536 bytes
(the model's `terminate`, excluded by C01's size hypothesis);
`OnWindowAdjust` does not check for an overflow of the window;
`PrepareExec`/`PrepareSftpServer` are `noexcept` and call functions that throw (`SessStop.crash`); the sftp
fallback dereferences null execute options when the account has only sftp settings; `SSH::Connection`'s
constructor leaks if it throws; bytes behind the fields of key and signature blobs are ignored; authorized_keys
lines with unsupported options (`X11-forwarding`) grant nothing, as intended; a proxied client can itself send
the request that carries restrictions, which only tightens them.
