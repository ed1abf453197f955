{"id": "C01", "title": "Every packet put on the wire satisfies the SSH padding rules", "statement": "For every payload and every negotiated cipher, the finished packet has a correct length field, a padding length between 4 and 255 that is correctly recorded in the packet, a total size that is a multiple of the cipher's block size (not counting the length field for ciphers that encrypt it separately), and at least 16 bytes.", "quantifier": "all payloads that fit a packet, all power-of-two block sizes 8..128, both header-padding modes", "why_tests_cant": "the padding formula has boundary cases at each residue of the payload size and at the minimum size; a unit test samples a few sizes for one cipher", "anchors": ["src/ssh/Protocol.hxx:Padding", "src/ssh/PacketSerializer.hxx:PacketSerializer::Finish", "src/ssh/Connection.cxx:SendPacket"]}
{"id": "C02", "title": "A framed packet is received as exactly the payload that was sent, however the byte stream is cut", "statement": "If a peer frames any sequence of payloads as unencrypted SSH packets and the resulting byte stream reaches us in arbitrary pieces, we deliver exactly that sequence of payloads, in order, with no byte added, lost or altered, and leave exactly the unread tail in the buffer.", "quantifier": "all payload sequences, all ways to split the stream into chunks", "why_tests_cant": "the number of splits is exponential in the stream length; header and body may be torn anywhere", "anchors": ["src/ssh/Input.cxx:ReadUnencryptedPacket", "src/ssh/Input.cxx:Run", "src/ssh/PacketSerializer.hxx"]}
{"id": "C03", "title": "Malformed packet framing is always refused", "statement": "A packet whose length field is below the minimum or above the 35000-byte limit, or whose padding length leaves no payload byte, aborts the connection; no payload is ever delivered from it, and every delivered payload is non-empty and within the limit.", "quantifier": "all byte streams", "why_tests_cant": "attacker controls every byte; tests try only a few malformed headers", "anchors": ["src/ssh/Input.cxx:ParseHeader", "src/ssh/Input.cxx:ReadUnencryptedPacket", "src/ssh/Input.cxx:DecryptPacket", "src/ssh/Sizes.hxx"]}
{"id": "C04", "title": "Wire primitives round-trip and are self-delimiting", "statement": "Every boolean, integer, string and byte-string written by the serializer is read back unchanged by the deserializer, which stops exactly at its end; two different value sequences of the same types never produce the same bytes; a truncated encoding is reported as malformed.", "quantifier": "all values, all following bytes, all truncation points", "why_tests_cant": "unbounded string contents and lengths, including embedded NULs and lengths near the limits", "anchors": ["src/ssh/Serializer.hxx", "src/ssh/Deserializer.hxx"]}
{"id": "C05", "title": "Every message the server can emit is parsed back to the same fields", "statement": "For each message type that has both a builder and a parser, parsing the built message yields the original fields; parsers that demand the end of the packet reject any trailing byte.", "quantifier": "all field values, all trailing garbage", "why_tests_cant": "builder and parser are separate hand-written code; field-order or width mismatches only appear for particular values", "anchors": ["src/ssh/MakePacket.hxx", "src/ssh/ParsePacket.hxx"]}
{"id": "C06", "title": "Multiple-precision integers are encoded canonically and without changing their value", "statement": "The mpint encoding of any unsigned big-endian number denotes the same number, has no redundant leading zero byte and never looks negative; the in-place variant produces the same bytes; decoding rejects negative numbers and returns the value that was encoded.", "quantifier": "all byte strings", "why_tests_cant": "the sign/leading-zero rule depends on arbitrary leading bytes; a missed case corrupts keys or the exchange hash only occasionally (about 1 in 256)", "anchors": ["src/ssh/Serializer.hxx:WriteBignum2", "src/ssh/Serializer.hxx:CommitBignum2", "src/openssl/DeserializeBN.cxx"]}
{"id": "C07", "title": "Encrypted packets are delivered intact, in order, whatever the chunking, and nothing is released without a valid authentication tag", "statement": "With a cipher whose decryption accepts only what encryption produced for the same sequence number, the receiver delivers exactly the sent payloads in order for any chunking of the stream; if any byte of a packet is changed so that authentication fails, that packet and everything after it is never delivered.", "quantifier": "all payload sequences, all chunkings, all tampered streams, all ciphers satisfying the stated contract", "why_tests_cant": "combinations of chunk boundary, sequence number and tampering position are unbounded", "anchors": ["src/ssh/Input.cxx:DecryptPacket", "src/ssh/Input.cxx:Run", "src/ssh/Output.cxx:Run"]}
{"id": "C08", "title": "Sender and receiver sequence numbers stay in step across key changes, including strict key exchange", "statement": "For every history of packets and key changes, the sequence number used to encrypt the n-th packet after a key change equals the one used to decrypt it, whether or not both sides reset the counter at NEWKEYS.", "quantifier": "all packet histories with any number of key changes, strict and non-strict", "why_tests_cant": "an off-by-one at a key switch only shows with a particular combination of strict mode, first/second key exchange and packets in flight", "anchors": ["src/ssh/Input.cxx:SetCipher", "src/ssh/Input.cxx:Run", "src/ssh/Output.cxx:Push", "src/ssh/Output.cxx:SetCipher", "src/ssh/Output.cxx:Run"]}
{"id": "C09", "title": "Outgoing packets reach the socket in submission order, each encrypted with the cipher in force when it was queued", "statement": "Under every interleaving of the event thread (queueing packets, installing ciphers, flushing) with the worker thread, and under arbitrary partial writes, the bytes written to the socket are a prefix of the concatenation of the packets in submission order, each encrypted exactly once with the cipher that was current when it was submitted.", "quantifier": "all interleavings, all partial-write sizes, all sequences of packets and cipher changes", "why_tests_cant": "thread schedules and short writes cannot be enumerated by tests", "anchors": ["src/ssh/Output.cxx", "src/ssh/Output.hxx", "src/ssh/Queue.hxx"]}
{"id": "C10", "title": "Partial socket writes never lose, duplicate or reorder bytes", "statement": "For any sequence of queued blocks and any sequence of partial write results, the bytes accepted by the socket are exactly a prefix of the concatenation of the queued blocks, and the queue holds exactly the remaining suffix.", "quantifier": "all block sequences, all write-result sequences", "why_tests_cant": "the scatter/gather bookkeeping must be right for every split position inside every block", "anchors": ["src/ssh/Queue.hxx:SendQueue"]}
{"id": "C11", "title": "Both peers negotiate the same algorithm, chosen by the client's preference", "statement": "Whenever client and server offers have a common algorithm, both sides compute the same one and it is the first entry of the client's list that the server also offers; if there is none, both sides fail.", "quantifier": "all algorithm lists", "why_tests_cant": "lists are attacker-controlled and arbitrary long; asymmetric roles make swapped-argument bugs likely", "anchors": ["src/ssh/KexStrings.hxx:FindCommonAlgorithm", "src/ssh/KexStrings.hxx:FindNegotiatedAlgorithm", "src/ssh/Connection.cxx:HandleKexInit"]}
{"id": "C12", "title": "The key exchange cannot be driven out of order by the peer", "statement": "For every sequence of incoming packets, in both roles: no internal precondition of the key exchange code is violated; an incoming cipher is installed only after KEXINIT was exchanged both ways, the shared secret was computed and our NEWKEYS was sent; each exchange installs each direction's cipher at most once; any out-of-order key exchange message disconnects.", "quantifier": "all finite sequences of incoming packets and local rekey triggers, both roles", "why_tests_cant": "an attacker can send key exchange messages in any order and repetition", "anchors": ["src/ssh/Connection.cxx:HandleKexInit", "src/ssh/Connection.cxx:HandleNewKeys", "src/ssh/Connection.cxx:HandleECDHKexInit", "src/ssh/Connection.cxx:SendNewKeys", "src/ssh/Connection.hxx:KexFlags"]}
{"id": "C13", "title": "A client connection never switches on encryption without an accepted host key and a valid signature over the exchange hash", "statement": "In the client role, our NEWKEYS is sent and an outgoing cipher installed only directly after a reply whose host key was accepted by the configured verifier and whose signature over this exchange's hash verified; this holds for the first and every later key exchange.", "quantifier": "all packet sequences from a malicious server, all verifier and signature behaviours", "why_tests_cant": "an attacker-controlled server chooses the packet order; tests only cover the honest order", "anchors": ["src/ssh/Connection.cxx:HandleECDHKexInitReply", "src/ssh/Connection.cxx:SendNewKeys"]}
{"id": "C14", "title": "The session identifier is fixed by the first key exchange", "statement": "Once set, the session identifier never changes during the life of the connection, equals the exchange hash of the first completed exchange, and is set before any cipher is installed.", "quantifier": "all packet histories with any number of rekeys", "why_tests_cant": "needs histories with several key exchanges", "anchors": ["src/ssh/KexState.cxx:DeriveKeys", "src/ssh/Connection.cxx:SendECDHKexInitReply", "src/ssh/Connection.cxx:HandleECDHKexInitReply"]}
{"id": "C15", "title": "Both sides derive mirrored keys of the required length", "statement": "Given the same shared secret, hash and session id, the key material one side uses for sending equals what the other uses for receiving, for IV, encryption key and MAC key; the six derived values come from six different hash inputs; every derived key has at least the requested length and its prefix does not depend on the requested length.", "quantifier": "all secrets, hashes, session ids, key lengths, all hash functions of fixed output size", "why_tests_cant": "key extension only starts beyond one hash block; a swapped direction works with itself", "anchors": ["src/ssh/KexState.cxx:DeriveKey", "src/ssh/KexState.cxx:DeriveKeys", "src/ssh/KexState.cxx:MakeCipher"]}
{"id": "C16", "title": "The exchange hash commits to every negotiated value", "statement": "Two key exchanges that differ in any of: client version, server version, client KEXINIT, server KEXINIT, host key, either ephemeral key, or shared secret, hash different byte strings.", "quantifier": "all pairs of transcripts", "why_tests_cant": "injectivity of an encoding quantifies over pairs of unbounded inputs", "anchors": ["src/ssh/KexHash.cxx:CalcKexHash"]}
{"id": "C17", "title": "Strict key exchange: nothing but key exchange messages is accepted during the first key exchange", "statement": "If the peer requested strict key exchange, then during the initial key exchange any packet other than those of the key exchange (or DISCONNECT) aborts the connection, and a connection whose first packet was not KEXINIT is aborted. Our own KEXINIT always announces strict key exchange; if the first KEXINIT of the peer did, too, the packet counters restart at zero with every key change in both directions (even if later KEXINITs do not repeat it), and otherwise they never restart.", "quantifier": "all packet sequences", "why_tests_cant": "the terrapin attack class inserts arbitrary packets at arbitrary places", "anchors": ["src/ssh/Connection.cxx:HandlePacket", "src/ssh/Connection.cxx:IsAllowedKexMessage", "src/ssh/Connection.cxx:HandleKexInit"]}
{"id": "C18", "title": "Write-blocked notifications are balanced and truthful", "statement": "Components told to stop writing are told so exactly once until told to resume: notifications alternate, and at every moment the last one was 'blocked' iff the socket is congested or a rekey is in progress.", "quantifier": "all interleavings of socket writability, packets, and rekeys", "why_tests_cant": "two independent causes (congestion, rekeying) overlap in any order", "anchors": ["src/ssh/Connection.cxx:OnBufferedWrite", "src/ssh/Connection.cxx:SendKexInit", "src/ssh/Connection.cxx:SendNewKeys"]}
{"id": "C19", "title": "No channel data is sent between our KEXINIT and our NEWKEYS", "statement": "After our KEXINIT and until our NEWKEYS, no connection-protocol packet (channel data, extended data, window adjust) is transmitted.", "quantifier": "all interleavings of channel I/O, incoming packets and rekeying", "why_tests_cant": "requires a window adjustment or readable child pipe to coincide with a rekey", "anchors": ["src/SocketChannel.cxx:OnWindowAdjust", "src/SessionChannel.cxx:OnWindowAdjust", "src/ssh/Connection.cxx:SendPacket"]}
{"id": "C20", "title": "Channel numbers are unique and bounded", "statement": "At any time at most 64 channels exist; each live local channel number denotes exactly one channel; a number is not reused until the channel it denoted was closed in both directions (or its opening failed); messages for a number that denotes no open channel disconnect the peer.", "quantifier": "all sequences of channel messages and local actions", "why_tests_cant": "needs arbitrary interleavings of open/close from both sides", "anchors": ["src/ssh/CSupport.cxx", "src/ssh/CSupport.hxx"]}
{"id": "C21", "title": "Every channel-open request from the peer is answered exactly once", "statement": "Each CHANNEL_OPEN from the peer is answered by exactly one CHANNEL_OPEN_CONFIRMATION or CHANNEL_OPEN_FAILURE (now or when the asynchronous open finishes), unless the connection is closed; running out of channel numbers yields a failure reply, not a disconnect.", "quantifier": "all sequences of opens, completions, cancellations", "why_tests_cant": "asynchronous completions interleave with other traffic in any order; the table-full case needs 65 opens", "anchors": ["src/ssh/CSupport.cxx:HandleChannelOpen", "src/ssh/CSupport.cxx:AsyncChannelOpenSuccess", "src/ssh/CSupport.cxx:AllocateChannelIndex"]}
{"id": "C22", "title": "Each channel sends exactly one CHANNEL_CLOSE and nothing after it", "statement": "For each channel, at most one CHANNEL_CLOSE is sent, one is sent before the channel number is released, and no other message for that channel is sent after it.", "quantifier": "all sequences of local and remote closes, requests, data", "why_tests_cant": "local and remote close race in any order", "anchors": ["src/ssh/CSupport.cxx:CloseChannel", "src/ssh/CSupport.cxx:HandleChannelClose", "src/ssh/CSupport.cxx:TombstoneChannel"]}
{"id": "C23", "title": "A locally requested channel produces exactly one outcome callback", "statement": "When we open a channel towards the peer, the requesting component receives exactly one of: created, failed, cancelled - and is never called again after it was destroyed.", "quantifier": "all sequences of confirmation, failure, local cancel, connection teardown", "why_tests_cant": "the order of destructor and callback matters only on the refusal path", "anchors": ["src/ssh/CSupport.cxx:RequestedChannel", "src/SocketForwardListener.cxx", "src/AgentForward.cxx"]}
{"id": "C24", "title": "The peer's receive window is never overrun", "statement": "The total number of data and extended-data bytes we send on a channel never exceeds the initial window plus all window adjustments received so far.", "quantifier": "all sequences of window adjustments, readable events and blocked/unblocked notifications", "why_tests_cant": "depends on every interleaving of reads and adjustments", "anchors": ["src/ssh/Channel.cxx:SendData", "src/ssh/Channel.cxx:OnWindowAdjust", "src/SocketChannel.cxx:OnSocketReady", "src/SessionChannel.cxx"]}
{"id": "C25", "title": "The peer cannot make us buffer more than the window we advertised", "statement": "At every moment the number of bytes accepted from the peer on a channel and not yet consumed is at most the advertised window; a packet exceeding the remaining window aborts the connection.", "quantifier": "all sequences of data packets and consumption", "why_tests_cant": "needs a peer that ignores flow control while our consumer is slow", "anchors": ["src/ssh/CSupport.cxx:HandleChannelData", "src/ssh/BufferedChannel.cxx:OnData", "src/ssh/Channel.cxx:ConsumeReceiveWindow"]}
{"id": "C26", "title": "Channel input reaches the consumer as the exact byte stream, with end-of-file last", "statement": "Whatever the consumer's partial consumption, it sees exactly the bytes of the CHANNEL_DATA packets in order, each once, and the end-of-file notification exactly once after the last byte.", "quantifier": "all packet sequences, all partial-consumption patterns", "why_tests_cant": "partial consumption at every byte position combined with queueing", "anchors": ["src/ssh/BufferedChannel.cxx"]}
{"id": "C27", "title": "Channel requests are answered once each, in order", "statement": "The k-th reply (CHANNEL_SUCCESS or CHANNEL_FAILURE) sent on a channel answers the k-th request that asked for a reply, with that request's own result, for any order in which the asynchronous handlers finish; requests without want_reply get no reply.", "quantifier": "all request sequences, all completion orders", "why_tests_cant": "asynchronous completions in any permutation", "anchors": ["src/ssh/Channel.cxx:HandleRequest", "src/ssh/Channel.cxx:SubmitRequestResponses", "src/ssh/Channel.cxx:OnRequestDone"]}
{"id": "C28", "title": "Global requests are answered once each, in order, with a bounded backlog", "statement": "The k-th REQUEST_SUCCESS/REQUEST_FAILURE answers the k-th global request with want_reply and carries its result, for any completion order; at most 16 requests are pending at any time, more disconnect the peer.", "quantifier": "all request sequences, all completion orders", "why_tests_cant": "asynchronous completions in any permutation", "anchors": ["src/ssh/GSupport.cxx"]}
{"id": "C29", "title": "Nothing but authentication is processed before authentication succeeded", "statement": "Before USERAUTH_SUCCESS no channel or global request message has any effect other than being refused; authentication requests are accepted only after the service was requested over an encrypted transport; after success further authentication requests have no effect.", "quantifier": "all packet sequences", "why_tests_cant": "an attacker may send any message at any time", "anchors": ["src/ssh/UserAuthServer.cxx", "src/ssh/CSupport.cxx:HandlePacket", "src/ssh/GSupport.cxx:HandlePacket", "src/Connection.cxx:OnUserAuthRequest", "src/Connection.cxx:OnEncrypted"]}
{"id": "C30", "title": "Authentication succeeds only with a proof the configuration accepts", "statement": "A login as a user succeeds only if the user name is well-formed, the account exists (or the translation server accepts it), and either an authorized key's signature over this session and this request verifies, or a configured host key's signature does, or the translation server accepted the non-empty password, or it explicitly waived the password; in every other case the reply is a failure or a disconnect.", "quantifier": "all request payloads, all translation responses, all key files", "why_tests_cant": "combination of methods, waivers and cached translation state across several attempts", "anchors": ["src/Connection.cxx:OnUserAuthRequest", "src/Connection.cxx:IsAcceptedPublicKey", "src/Connection.cxx:LazyTranslate", "src/Connection.cxx:IsValidUsername"]}
{"id": "C31", "title": "An authentication signature is bound to the session, the user, the service and the key", "statement": "The signed byte string determines the session identifier, the user name, service, method, algorithm and key blob (and, for hostbased, host and user name); so a signature for one session or user never verifies for another unless the signature scheme itself is broken.", "quantifier": "all pairs of requests and sessions", "why_tests_cant": "injectivity over unbounded inputs", "anchors": ["src/Connection.cxx:OnUserAuthRequest"]}
{"id": "C32", "title": "The restrictions in force after a public-key login are those of the key that was used", "statement": "After any sequence of failed or incomplete attempts, the options in force after a successful publickey login are exactly those on the matching authorized_keys line of the key that signed.", "quantifier": "all sequences of authentication attempts", "why_tests_cant": "state left behind by earlier attempts with other keys or users", "anchors": ["src/Connection.cxx:IsAcceptedPublicKey", "src/Connection.cxx:OnUserAuthRequest"]}
{"id": "C33", "title": "Login attempts that failed leave no trace in the session", "statement": "The permissions of a session depend only on the successful authentication request, not on earlier failed or incomplete attempts on the same connection.", "quantifier": "all sequences of authentication attempts", "why_tests_cant": "requires a history of attempts with different users/keys", "anchors": ["src/Connection.cxx:OnUserAuthRequest", "src/Connection.cxx:IsAcceptedPublicKey"]}
{"id": "C34", "title": "Restrictions can only be tightened after login", "statement": "Merging additional key options never lifts a restriction; the merge is the least restrictive combination that satisfies both, is order-independent and idempotent; conflicting forced commands are refused and leave the restrictions unchanged.", "quantifier": "all option sets and all sequences of merge requests", "why_tests_cant": "all combinations and histories of merges", "anchors": ["src/key/Options.cxx:Restrict", "src/Connection.cxx:HandleGlobalRequest"]}
{"id": "C35", "title": "A proxy hands the client's restrictions to the target completely", "statement": "The options request built by the proxy is parsed by the target to exactly the same options; the target refuses malformed or unknown options; any later forwarded request can only tighten them.", "quantifier": "all option values, all later request sequences by a malicious client", "why_tests_cant": "arbitrary command strings and subsequent client traffic", "anchors": ["src/OptionsRequest.cxx", "src/Connection.cxx:HandleGlobalRequest", "src/Connection.cxx:OnOutgoingUserauthSuccess"]}
{"id": "C36", "title": "The proxy forwards exactly the connection-protocol messages, unchanged and in order", "statement": "Once proxying, every global-request and channel message from either side is forwarded verbatim and in order to the other side, and no transport or authentication message ever is.", "quantifier": "all packet sequences", "why_tests_cant": "all message numbers and interleavings", "anchors": ["src/ProxyCheck.hxx:ShouldProxy", "src/ProxyConnectionHandler.cxx"]}
{"id": "C37", "title": "An authorized_keys line grants access only for its own key and never with an option dropped", "statement": "A key is accepted iff some line of the file carries exactly that key and all its options are well-formed and supported; the options returned are those of the first such line; a line with an unknown or malformed option never grants access.", "quantifier": "all file contents, all keys", "why_tests_cant": "arbitrary text with quoting and escapes", "anchors": ["src/key/TextFile.cxx", "src/key/Options.cxx:Set", "src/key/Set.cxx"]}
{"id": "C38", "title": "Looking a key up in a loaded key set is the same as searching the file", "statement": "Loading a key file into a set and looking a key up gives the same answer and options as searching the text for that key.", "quantifier": "all file contents, all keys", "why_tests_cant": "two separate implementations must agree on every text", "anchors": ["src/key/TextFile.cxx:LoadPublicKeysTextFile", "src/key/TextFile.cxx:PublicKeysTextFileContains", "src/key/Set.cxx"]}
{"id": "C39", "title": "Port and socket forwarding is refused to restricted accounts", "statement": "A connection whose key carries no-port-forwarding, or whose account may not execute arbitrary commands, can open no forwarding channel and bind no forwarded port; an account isolated in its own network namespace gets no TCP forwarding.", "quantifier": "all option and account combinations, all request payloads", "why_tests_cant": "combination of account flags, key options and request kinds", "anchors": ["src/Connection.cxx:IsForwardingAllowed", "src/Connection.cxx:IsLocalForwardingAllowed", "src/Connection.cxx:CreateChannel", "src/Connection.cxx:HandleGlobalRequest"]}
{"id": "C40", "title": "A forced command cannot be bypassed", "statement": "If the key used to log in carries a forced command, every process the session starts at the client's request is that command.", "quantifier": "all sequences of channel requests, all account configurations", "why_tests_cant": "several request kinds (shell, exec, subsystem, rsync, git) each with its own code path", "anchors": ["src/SessionChannel.cxx:OnRequest", "src/SessionChannel.cxx:Exec", "src/SessionChannel.cxx:StartSftpServer"]}
{"id": "C41", "title": "SFTP-only accounts cannot run arbitrary commands", "statement": "If an account may not execute arbitrary commands, no request makes the server run a client-chosen command line; only the fixed sftp, rsync and git services can run, each only if enabled for the account, and no terminal is allocated if the key forbids it.", "quantifier": "all request sequences and command strings", "why_tests_cant": "arbitrary command strings and account flags", "anchors": ["src/SessionChannel.cxx:Exec", "src/SessionChannel.cxx:OnRequest", "src/Connection.hxx"]}
{"id": "C42", "title": "At most one process is started per session channel", "statement": "Each session channel starts at most one process, whatever requests arrive while starting is in progress.", "quantifier": "all request sequences and suspension points", "why_tests_cant": "requires a second request during the asynchronous start of the first", "anchors": ["src/SessionChannel.cxx:OnRequest", "src/SessionChannel.hxx:WasStarted"]}
{"id": "C43", "title": "Resources a client can consume with environment variables are bounded", "statement": "The environment kept for a session never exceeds the 16 kB limit (plus nothing); an over-limit variable disconnects.", "quantifier": "all sequences of env requests", "why_tests_cant": "unbounded request sequences", "anchors": ["src/SessionChannel.cxx:SetEnv"]}
{"id": "C44", "title": "Command lines for rsync and git are split into exactly the arguments the client quoted", "statement": "Splitting a backslash-escaped command line recovers the argument list it was built from, and unquoting a single-quoted argument recovers the original path.", "quantifier": "all argument lists / all paths", "why_tests_cant": "arbitrary characters including blanks, quotes and backslashes", "anchors": ["src/SessionChannel.cxx:SplitCmdline", "src/SessionChannel.cxx:ShellUnescapeOneSingleQuoted"]}
{"id": "C45", "title": "Per-client throttling delays are bounded and decay", "statement": "Whatever the connection and authentication history, the delay imposed on a client is a multiple of 100 ms and at most one minute, grows by at most one step per event, and drops to zero once the client behaved for long enough.", "quantifier": "all histories of events with any costs and timestamps", "why_tests_cant": "unbounded histories with real-valued timing", "anchors": ["src/net/ClientAccounting.cxx:UpdateTokenBucket"]}
{"id": "C46", "title": "The per-address connection limit is enforced and accounting is exact", "statement": "The recorded number of connections of an address always equals its live (including delayed) connections; a new connection is admitted only below the limit; an address entry is never discarded while it has connections and is discarded some time after it became idle.", "quantifier": "all sequences of accepts, closes, timer expiries", "why_tests_cant": "interleaving of accept, delayed accept, close and cleanup timers", "anchors": ["src/net/ClientAccounting.cxx", "src/Listener.cxx:OnAccept", "src/DelayedConnection.cxx"]}
{"id": "C47", "title": "Packet protection ciphers decrypt what they encrypt and reject everything else", "statement": "For every key, sequence number and payload, each supported cipher construction decrypts its own output to the original; decryption returns a payload only if the authentication tag over exactly the received header and payload with the expected sequence number verifies.", "quantifier": "all keys, payloads, sequence numbers, tampered packets; primitives abstract", "why_tests_cant": "composition errors (wrong slice, wrong nonce, wrong order) appear only for particular sizes", "anchors": ["src/cipher/ChaCha20Poly1305Cipher.cxx", "src/cipher/HmacSHA256Cipher.cxx", "src/cipher/OsslCipher.cxx"]}
{"id": "C48", "title": "No unauthenticated cipher is ever installed", "statement": "Whatever algorithm names are negotiated, the cipher installed is either an AEAD or wrapped in a MAC; an unknown or unauthenticated combination yields a failed key exchange.", "quantifier": "all algorithm name pairs", "why_tests_cant": "names are negotiated independently for cipher and MAC", "anchors": ["src/cipher/Factory.cxx", "src/ssh/KexState.cxx:MakeCipher"]}
{"id": "C49", "title": "The host key offered matches the negotiated algorithm", "statement": "The server signs with a key it owns whose type supports the chosen algorithm, chosen as the first algorithm in the client's list that any of its keys supports; if there is none the exchange fails.", "quantifier": "all key sets, all client algorithm lists", "why_tests_cant": "arbitrary lists and key combinations", "anchors": ["src/key/List.cxx", "src/ssh/SimpleHostKeyChooser.cxx", "src/ssh/Connection.cxx:HandleKexInit"]}
{"id": "C50", "title": "Degenerate key-agreement values are refused", "statement": "A curve25519 public value of wrong length, or one that leads to the all-zero shared secret, aborts the key exchange.", "quantifier": "all peer values", "why_tests_cant": "attacker-chosen values", "anchors": ["src/ssh/KexCurve25519.cxx"]}
{"id": "C51", "title": "The version exchange accepts exactly one well-formed identification line", "statement": "Independent of how the bytes arrive, the peer's identification is the first line without its line terminator; streams whose first line does not start with SSH- or that exceed 255 bytes without a line end are dropped; bytes after the line are passed on unchanged.", "quantifier": "all byte streams and chunkings", "why_tests_cant": "arbitrary tearing of the line", "anchors": ["src/ssh/Connection.cxx:OnBufferedData"]}
{"id": "C52", "title": "Terminal modes are decoded safely from any byte string", "statement": "Decoding an encoded terminal mode list terminates for every byte string, applies exactly the complete records before the end marker in order, and ignores the rest.", "quantifier": "all byte strings", "why_tests_cant": "attacker-controlled encoded data", "anchors": ["src/ssh/TerminalMode.cxx"]}
{"id": "C53", "title": "RSA host keys are loaded with a correct private key", "statement": "The CRT parameters computed while loading an RSA key satisfy dP = d mod (p-1) and dQ = d mod (q-1).", "quantifier": "all RSA keys", "why_tests_cant": "OpenSSL silently falls back to the slow path when the CRT result is wrong, so signatures still verify in tests", "anchors": ["src/openssl/DeserializeRSA.cxx"]}
{"id": "C54", "title": "Requests to the translation server never overflow their buffer", "statement": "For every accepted user name, password, listener tag and service, the serialized login request fits its 1024-byte buffer, and every field's 16-bit length is exact.", "quantifier": "all field contents", "why_tests_cant": "sizes at the limits of several fields at once", "anchors": ["src/translation/LoginClient.cxx:SendTranslateLogin", "src/Config.cxx"]}
{"id": "C55", "title": "A zeroconf proxy target is always a current cluster member and sticky", "statement": "The picked target is a current member whenever the cluster is not empty, is the same for the same source while the membership is unchanged, and removing a member other than the picked one does not change the pick.", "quantifier": "all membership histories, all sources, all score functions", "why_tests_cant": "arbitrary histories of arrivals and departures", "anchors": ["src/ZeroconfCluster.cxx"]}
{"id": "C56", "title": "Only privileged control clients can change the server's behaviour", "statement": "A control datagram from an unprivileged sender has no effect on log level, zeroconf visibility or running connections.", "quantifier": "all control packets", "why_tests_cant": "needs the full table of commands", "anchors": ["src/Control.cxx:OnControlPacket"]}
{"id": "C57", "title": "After 'no more sessions' no further session can be opened", "statement": "Once the client has sent no-more-sessions, every later attempt to open a session channel disconnects it.", "quantifier": "all later request sequences", "why_tests_cant": "histories", "anchors": ["src/Connection.cxx:HandleGlobalRequest", "src/Connection.cxx:CreateChannel"]}
{"id": "C58", "title": "End-of-file from the client reaches the process", "statement": "If the client sends end-of-file on a session channel, the process started on the channel sees end-of-file on its standard input after all data, no matter whether EOF arrives before or after the process was started.", "quantifier": "all orders of data, EOF and process start", "why_tests_cant": "race between EOF and asynchronous process start", "anchors": ["src/SessionChannel.cxx:OnBufferedEof", "src/SessionChannel.cxx:OnBufferedData", "src/SessionChannel.cxx:SpawnChildProcess"]}
{"id": "C59", "title": "A forwarded connection is not torn down by an initially closed window", "statement": "If the peer opens a forwarding channel with an initial window of zero, no data is read or sent until the peer adjusts the window, and the channel is not closed because of it.", "quantifier": "all initial windows and event sequences", "why_tests_cant": "requires a peer starting with a zero window", "anchors": ["src/SocketChannel.cxx"]}
{"id": "C60", "title": "The server eventually gets the DISCONNECT message out before closing", "statement": "When the server disconnects a peer, the DISCONNECT packet is the last packet on the wire and the connection is not closed before it was written (unless the peer hangs up, errs or times out).", "quantifier": "all interleavings of the worker thread with socket writability", "why_tests_cant": "worker thread may hold the packet while the socket becomes writable", "anchors": ["src/ssh/Connection.cxx:DoDisconnect", "src/ssh/Connection.cxx:OnBufferedWrite", "src/ssh/Output.hxx:IsEmpty"]}
{"id": "C61", "title": "The server signs exactly the key exchange it takes part in", "statement": "A server sends NEWKEYS only directly after its reply to the client's key exchange packet, and the signature in that reply, made with the negotiated host key, covers the hash of exactly this exchange (both version lines, both KEXINIT payloads, the host key, both ephemeral keys and the shared secret).", "quantifier": "all sequences of incoming packets and events, including repeated key exchanges", "why_tests_cant": "a test cannot enumerate all message orders and rekeys", "anchors": ["src/ssh/Connection.cxx:SendECDHKexInitReply", "src/ssh/Connection.cxx:HandleECDHKexInit", "src/ssh/KexHash.cxx"]}
{"id": "C62", "title": "A peer cannot make a forwarded channel fail its own checks", "statement": "No sequence of channel messages from the peer makes a channel connected to a socket violate an internal check (which aborts the server process); bad messages are refused, ignored, or end the channel or the connection.", "quantifier": "all sequences of data, extended data, end-of-file, window adjustments and socket events", "why_tests_cant": "needs adversarial message orders combined with partial writes", "anchors": ["src/SocketChannel.cxx", "src/ssh/BufferedChannel.cxx", "src/ssh/Channel.cxx:ConsumeReceiveWindow"]}
{"id": "C63", "title": "A read-only home directory is read-only for every program the session starts", "statement": "While the key's restrictions demand a read-only home directory, no process that is started can write to any mounted file system containing the home directory; nothing else about the mounts changes.", "quantifier": "all accounts, restrictions (changing over time), and histories of requests", "why_tests_cant": "the restriction must reach each of several ways to start a process, and later changes of the restrictions must count", "anchors": ["src/SessionChannel.cxx:SpawnChildProcess", "src/SessionChannel.cxx:PrepareChildProcess"]}
{"id": "C64", "title": "All output of a process is delivered, in order, before end-of-file", "statement": "Everything the process writes to its standard output, standard error output or terminal is sent to the client unchanged and in order on the respective stream; end-of-file and close are sent only after everything has been sent; no data follows end-of-file.", "quantifier": "all interleavings of process output, window adjustments, key exchanges, exits and requests", "why_tests_cant": "loss depends on the interleaving of process exit, window exhaustion and hang-up", "anchors": ["src/SessionChannel.cxx:OnStdoutReady", "src/SessionChannel.cxx:OnStderrReady", "src/SessionChannel.cxx:OnTtyReady", "src/SessionChannel.hxx:MaybeSendEofAndClose"]}
{"id": "C65", "title": "Buffered input never gets stuck", "statement": "Whenever a session channel holds input for a running process which could accept it, the channel waits for the process to become ready for input; so input is delivered as soon as the process reads.", "quantifier": "all interleavings of data, process start, partial writes, exits", "why_tests_cant": "a lost wake-up shows up only in particular interleavings", "anchors": ["src/SessionChannel.cxx:OnBufferedData", "src/SessionChannel.hxx:EnableStdin", "src/ssh/BufferedChannel.cxx"]}
{"id": "C66", "title": "The offered authentication methods are those that can succeed", "statement": "The list of methods in a USERAUTH_FAILURE message contains publickey always, password exactly if a password can be checked, and hostbased exactly if host keys are configured; a method that is not offered is never accepted.", "quantifier": "all configurations and histories of authentication attempts", "why_tests_cant": "depends on configuration combined with the attempt history", "anchors": ["src/Connection.cxx:GetAuthMethods", "src/Connection.cxx:OnUserAuthRequest"]}
{"id": "C67", "title": "No process runs without the client's request, and it is the one asked for", "statement": "Every process that is started was asked for by the client on this channel before, runs the program that was asked for (or the forced command) with the arguments that were asked for, and has only variables that were asked for; conversely a granted request takes effect.", "quantifier": "all sequences of requests, with starting delayed arbitrarily", "why_tests_cant": "requests are suspended and resumed; state shared between them could be mixed up", "anchors": ["src/SessionChannel.cxx:OnRequest", "src/SessionChannel.cxx:Exec", "src/SessionChannel.cxx:SetEnv"]}
{"id": "C68", "title": "The process gets exactly the bytes the client sent", "statement": "What is written to the standard input (or terminal) of the process, or discarded because the process closed it, is at any time a prefix of the data the client sent on this channel, and what is missing is still buffered.", "quantifier": "all sizes and interleavings of data, partial writes, blocking and process start", "why_tests_cant": "duplication or reordering would need a specific partial-write pattern", "anchors": ["src/SessionChannel.cxx:OnBufferedData", "src/ssh/BufferedChannel.cxx"]}
{"id": "C69", "title": "A client cannot make a session channel fail its own checks", "statement": "No sequence of messages on a session channel violates an internal check (which aborts the server process).", "quantifier": "all sequences of requests, data, end-of-file, window adjustments, and process events", "why_tests_cant": "needs adversarial message orders combined with suspended requests", "anchors": ["src/SessionChannel.cxx", "src/ssh/BufferedChannel.cxx", "src/ssh/Channel.cxx:ConsumeReceiveWindow"]}
{"id": "C70", "title": "Backpressure in a proxied session is exact and never stalls it", "statement": "In a proxied session, packets from one peer are held back exactly while the connection to the other peer has a backlog or is exchanging keys; held packets are neither lost nor reordered and are handled as soon as the other connection can take them; a live session is never in a state in which no further packet will ever be handled on either connection.", "quantifier": "all interleavings of packets, key exchanges, rekey timers and socket backlogs on the two connections", "why_tests_cant": "stalls and lost wake-ups need particular interleavings of events on two connections, e.g. two hourly timers firing within one round trip", "anchors": ["src/ProxyConnectionHandler.cxx", "src/ssh/Connection.hxx:BlockRead", "src/ssh/Connection.hxx:UnblockRead", "src/ssh/Connection.cxx:OnInputReady", "src/ssh/Connection.cxx:SendKexInit"]}
{"id": "C71", "title": "Key blobs and signatures: what is written is read back, and only good signatures are accepted", "statement": "A public key is written in the standard wire format and the written form is read back as the same key; two different keys never have the same encoding. A signature made with a secret key is accepted by the matching public key for exactly the algorithms the key offers; an accepted signature names an algorithm of the key's type, the one named in the login request, and contains a raw signature of the message made with this algorithm's hash.", "quantifier": "all keys (Ed25519, RSA, ECDSA), messages, algorithm names and byte strings offered as keys or signatures; all behaviours of the crypto library", "why_tests_cant": "key and signature parsers see attacker-controlled bytes of unbounded variety; interplay of three algorithm names (request, key, signature)", "anchors": ["src/key/Ed25519Key.cxx", "src/key/RSAKey.cxx", "src/key/ECDSAKey.cxx", "src/key/Parser.cxx:ParsePublicKeyBlob", "src/openssl/SerializeBN.hxx", "src/openssl/DeserializeBN.cxx", "src/openssl/Digest.cxx"]}
{"id": "C72", "title": "Secret key files: what is in the file is what is loaded", "statement": "A well-formed unencrypted key file (PEM-armoured or not) loads as exactly the key described in it, whatever the comments and padding; anything that loads has this form; encrypted files are refused; public and secret part belong together.", "quantifier": "all byte strings as key files, all keys", "why_tests_cant": "file contents are arbitrary; only a handful of files can be tried by a test", "anchors": ["src/key/LoadFile.cxx", "src/key/Parser.cxx", "src/openssl/DeserializeRSA.cxx", "src/openssl/DeserializeEC.cxx"]}
{"id": "C73", "title": "Logging in at the host behind the proxy", "statement": "When a session is proxied, the proxy asks the target for the login service once, and when (and only when) it was granted sends exactly one host-based login request, which names the user and what is known about the client and is signed with the proxy's host key for this session; the session counts as established only if the target answers this request with success; anything else ends the connection and no behaviour of the target fails an internal check. A target running this server that knows the user and trusts the proxy's key accepts the request.", "quantifier": "all packets a target may send, in any order; all keys, names and session identifiers", "why_tests_cant": "the target may be compromised and send anything; acceptance relates two programs' encodings of signed data", "anchors": ["src/ssh/UserAuthClient.cxx", "src/OutgoingConnection.cxx", "src/Connection.cxx:OnOutgoingUserauthService", "src/Connection.cxx:OnUserAuthRequest"]}
{"id": "C74", "title": "Time limit for logging in", "statement": "A client that does not log in is disconnected: 10 seconds after the connection was accepted if it has not sent a login request by then, and otherwise two minutes after its first login request, no matter how many requests it sends; a client is never disconnected for lack of time earlier than that, nor after it has logged in. Every client learns the outcome of its login within a bounded time.", "quantifier": "all sequences of events with all times, and all configurations", "why_tests_cant": "the limit must hold for every interleaving of packets, delays, answers of other services and timers", "anchors": ["src/Connection.cxx:Connection", "src/Connection.cxx:OnUserAuthRequest", "src/Connection.cxx:OnAuthTimeout", "src/Connection.cxx:OnDisconnecting"]}
{"id": "C75", "title": "DISCONNECT is the last message", "statement": "Once DISCONNECT was queued for the client, nothing else is sent to it: no timer, process, listener, pending request, login in progress or target server can cause another message or a failed internal check; the connection ends as soon as the message has been written (or the peer is gone), it is sent at most once, and after the end nothing happens.", "quantifier": "all sequences of events from all sources, in all orders", "why_tests_cant": "it depends on every source of activity being stopped, and on events which arrive while the last message is being written", "anchors": ["src/ssh/Connection.cxx:DoDisconnect", "src/Connection.cxx:OnDisconnecting", "src/ssh/CSupport.cxx:OnDisconnecting", "src/ssh/GSupport.cxx:OnDisconnecting", "src/Connection.cxx:OnOutgoingUserauthSuccess"]}
{"id": "C76", "title": "Remote port forwarding", "statement": "A client gets connections from a port of the server only if it has asked for that address and port, was allowed to (logged in, may execute programs, port forwarding not forbidden, no network of its own) and has not cancelled the forwarding since; each connection is announced with the address which was asked for and the port at which it has arrived, and joined at most once; cancelling succeeds exactly if there is such a forwarding, also closes the connections not yet accepted by the client, and is effective even for a request which is still in progress; with the end of the client's connection all ports are closed.", "quantifier": "all sequences of requests, completions of binds, arriving connections, answers of the client and disconnects, in all orders", "why_tests_cant": "binding a port is asynchronous, so requests to forward and to cancel overlap with each other and with arriving connections and disconnects", "anchors": ["src/Connection.cxx:HandleGlobalRequest", "src/SocketForwardListener.cxx", "src/SocketForwardListener.hxx:IsBindAddress", "src/Connection.cxx:OnDisconnecting", "src/ssh/GSupport.cxx:OnDisconnecting"]}
{"id": "C77", "title": "The configuration file", "statement": "The server accepts exactly the configuration files which follow the documentation (known sections and settings, values of the right kind, mandatory settings present, names defined before they are referred to, at most one forwarding target, a file mode only for local sockets), and then does what the file says: every setting has the value given last or else its documented default, key files accumulate, the sections keep their order, without any listener a default listener is used, and a listener which forwards connections accepts only the host keys given for its target, of which there is at least one.", "quantifier": "all sequences of lines of tokens; all interpretations of addresses, numbers and files", "why_tests_cant": "the meaning depends on the combination and order of any number of settings and sections", "anchors": ["src/Config.cxx:LukkoConfigParser", "src/Config.cxx:Config::Check", "src/Config.hxx", "src/Listener.cxx:LoadProxyHostKeys", "doc/index.rst"]}
{"id": "C78", "title": "Flow control never harms an obedient peer", "statement": "A peer that sends no more on a channel than we granted is never disconnected because of that, even if we have closed the channel or cancelled our request for it meanwhile; and a peer that sends more is disconnected: what was consumed or thrown away never exceeds what we granted.", "quantifier": "all sequences of events of a channel table; all sizes of packets", "why_tests_cant": "depends on the order of data, adjustments, cancellations and close messages in flight in both directions", "anchors": ["src/ssh/CSupport.cxx:HandleChannelData", "src/ssh/CSupport.cxx:HandleChannelExtendedData", "src/ssh/CSupport.cxx:HandleChannelOpenConfirmation", "src/ssh/CSupport.cxx:CloseChannel", "src/ssh/Channel.cxx:OnData"]}
{"id": "C79", "title": "What is done for a client is done with the identity of its account", "statement": "Everything a client can make the server do after login (run programs, connect to hosts and local sockets, listen for connections) is done by processes with the user, group, network and other settings which the account of that client has for this purpose, at exactly the address or path the client sent; and the keys of a user are looked for in the home directory of that user's account.", "quantifier": "all configurations, accounts, histories of a connection and of its sessions; all addresses and paths", "why_tests_cant": "depends on which of several optional settings exist, on an earlier login phase, and on the file system; and the wrong identity is not visible in any answer", "anchors": ["src/RConnect.cxx:ResolveConnectTCP", "src/RBind.cxx:ResolveBindTCP", "src/Delegate.cxx:SpawnOpen", "src/Delegate.cxx:DelegateLocalConnect", "src/Connection.cxx:PrepareChildProcess", "src/Connection.cxx:GetExecuteOptions", "src/Connection.cxx:OpenInHome", "src/SessionChannel.cxx:PrepareSftpServer"]}
{"id": "C80", "title": "The agent of a client is used only where the client asked for it", "statement": "A process can reach the agent of the client (which holds the keys of the user) only in a session for which the client has asked for agent forwarding and for a shell or a command, and only if the account may execute programs. Each connection to the agent is offered to the client once and is joined at most once, only while the client has not yet answered and the session goes on. When the session ends, no connection is left waiting and nothing happens afterwards. If the client asked before any process was started, then shells and commands can use the agent as long as the session goes on and the socket has no error.", "quantifier": "all accounts, restrictions and histories of a session channel: requests, processes connecting at any time, answers of the client in any order, errors, and the end at any point", "why_tests_cant": "depends on the order of requests, connections, answers of the client and the end of the session", "anchors": ["src/AgentForward.cxx:AgentForward", "src/AgentForward.cxx:OnAccept", "src/SessionChannel.cxx:PrepareAgentForward", "src/SessionChannel.cxx:OnAgentForwardError", "src/SessionChannel.cxx:OnRequest"]}
{"id": "C81", "title": "The first words of a connection are understood", "statement": "The peer of a connection learns exactly the identification which this side uses in its exchange hash, in whatever pieces the bytes arrive. A client that is turned away because it has too many connections is sent a complete identification line and exactly one message, DISCONNECT with the reason and its description, and gets these in whatever pieces they arrive.", "quantifier": "all version numbers of the program that fit into the line, all paddings, all ways of cutting the byte stream", "why_tests_cant": "all ways of cutting the byte stream, random padding", "anchors": ["src/ssh/IdentificationString.hxx:IDENTIFICATION_STRING", "src/ssh/EarlyDisconnect.cxx:SendEarlyDisconnect", "src/Listener.cxx:OnAccept", "src/ssh/Connection.cxx:OnBufferedData"]}
{"id": "C82", "title": "Extensions are announced truthfully", "statement": "EXT_INFO is sent by the server directly after NEWKEYS (before anything else is sent or received) exactly to those clients which asked for it, and only after the first key exchange; the signature algorithms it lists are exactly those with which logins can succeed: every signature that is accepted was made with one of them, and each of them works with some type of key.", "quantifier": "all histories of a connection in either role, all keys, messages and signatures", "why_tests_cant": "depends on what was received during several key exchanges; all signatures", "anchors": ["src/ssh/Connection.cxx:SendExtInfo", "src/ssh/Connection.cxx:HandleECDHKexInit", "src/key/Algorithms.hxx:all_public_key_algorithms"]}
{"id": "C83", "title": "A client shares its connection with the holder of the host key, unaltered", "statement": "Whatever an attacker on the network does (drop, change, replay, invent or mix packets of any number of connections): when a client completes a key exchange, the holder of the host key which it accepted took part in an exchange with exactly the same transcript. If these are Lukko servers, then one of their connections mirrors the client's: each received the identification, the KEXINIT and the ephemeral key which the other one sent, so no negotiation was downgraded; both use the same algorithms (the first of their lists) and, if it was the first exchange of both, the same keys. The only exceptions are a forged signature or two exchanges with the same hash.", "quantifier": "all histories of the client, all histories of any number of servers, all behaviours of the network, every hash and signature function", "why_tests_cant": "an adversary controls all packets; any number of concurrent connections", "anchors": ["src/ssh/Connection.cxx:HandleECDHKexInitReply", "src/ssh/Connection.cxx:SendECDHKexInitReply", "src/ssh/KexHash.cxx:CalcKexHash"]}
{"id": "C84", "title": "Nobody can pass on somebody else's login", "statement": "A login with a public key or as a trusted host succeeds only if the holder of the key asked for exactly this login on a connection of their own whose first key exchange has the same transcript as the one of the server's connection (with this server's host key). A man in the middle, or a server to which the user logs in elsewhere, cannot use the signatures. The only exceptions are a forged signature or two exchanges with the same hash.", "quantifier": "all histories of the connection (key exchange and authentication), all messages the holder of the key ever signed on connections, every hash and signature function", "why_tests_cant": "quantifies over an adversary with connections to both sides", "anchors": ["src/Connection.cxx:OnUserAuthRequest", "src/ssh/Connection.hxx:GetSessionId", "src/ssh/KexState.cxx:DeriveKeys"]}
{"id": "C85", "title": "Who is disconnected, and why", "statement": "A client which follows the protocol is not disconnected because of a protocol error: DISCONNECT with PROTOCOL_ERROR is sent only immediately after a malformed message, an authentication request without the service, or a session after no-more-sessions; the other reason codes are sent only in their own situations. Messages which cannot be parsed do end the connection, so does the client's DISCONNECT; and nothing happens on a connection which has ended.", "quantifier": "all sequences of events (messages with arbitrary contents, timers, answers of the account service, of files and of other servers)", "why_tests_cant": "any message can arrive at any moment of a login, including while one is being processed", "anchors": ["src/Connection.cxx:OnUserAuthRequest", "src/ssh/UserAuthServer.cxx:HandlePacket", "src/ssh/Connection.cxx:HandleRawPacket", "src/ssh/Connection.cxx:HandlePacket"]}
{"id": "C86", "title": "Failed logins do not reveal which accounts exist", "statement": "What a client sees after a login request that fails depends only on the request, not on whether the account exists or which keys it has: the same request gets the same answer.", "quantifier": "all pairs of servers, all histories of the two connections, all requests", "why_tests_cant": "a relation between two executions with different account data; any difference for any request reveals accounts", "anchors": ["src/Connection.cxx:OnUserAuthRequest", "src/Connection.cxx:IsAcceptedPublicKey"]}
{"id": "C87", "title": "A connection as a whole: its parts fit together", "statement": "For every connection, client or server, whatever the peer sends and however the bytes are cut and the threads interleave: no assertion fails; the handlers see exactly the packets which a sequential reader finds in the bytes that arrived, with the keys that were agreed on; and the bytes written are a prefix of the packets sent, in that order, each protected with the keys in force when it was sent.", "quantifier": "all cipher implementations, all peers, all schedules of the event thread and the two worker threads, all partial reads and writes, any number of key exchanges", "why_tests_cant": "the composition of three concurrent state machines over unbounded histories", "anchors": ["src/ssh/Connection.cxx:OnInputReady", "src/ssh/Connection.cxx:HandleNewKeys", "src/ssh/Connection.cxx:SendPacket", "src/ssh/Input.cxx:Run", "src/ssh/Output.cxx:Run"]}
{"id": "C88", "title": "The encrypted connection is a secure channel", "statement": "An attacker who controls the network completely cannot change what a client receives from a Lukko server whose host key it accepts: with each set of keys, it receives a prefix of what that server has sent to it with these keys - nothing forged, dropped, repeated or reordered.", "quantifier": "all attackers and schedules, any number of servers and connections, any number of key exchanges; ideal ciphers, unforgeable signatures, collision-free hash", "why_tests_cant": "a claim about all attackers on the network", "anchors": ["src/ssh/Connection.cxx:HandleKexInit", "src/ssh/Connection.cxx:HandleNewKeys", "src/ssh/Input.cxx:SetCipher", "src/ssh/Output.cxx:SetCipher"]}
{"id": "C89", "title": "Data messages respect the peer's maximum packet size", "statement": "No message on a channel carries more data than the maximum packet size which the peer gave when the channel was opened.", "quantifier": "all sessions and forwarded connections, all maximum packet sizes, all outputs of processes and sockets, all schedules", "why_tests_cant": "sizes depend on the sizes of reads, windows and their history", "anchors": ["src/SessionChannel.cxx:OnStdoutReady", "src/SocketChannel.cxx:OnSocketReady", "src/ssh/ParsePacket.hxx:ParseChannelOpen"]}
{"id": "C90", "title": "The client learns how its process ended", "statement": "When the process of a session ends, the client is told at once and exactly once: with the code, or with the name of the signal (as specified in RFC 4254) and whether there is a core dump. It is never told so otherwise.", "quantifier": "all sessions, all ways to end, all schedules, any number of processes", "why_tests_cant": "a claim about all histories of a channel, and all codes and signals", "anchors": ["src/SessionChannel.cxx:OnChildProcessExit", "src/ssh/Channel.cxx:SendExitStatus", "src/ssh/Channel.cxx:SendExitSignal"]}
{"id": "C91", "title": "UNIMPLEMENTED names the rejected packet", "statement": "Each UNIMPLEMENTED message directly follows the packet which is rejected, and carries the number which this packet has in the stream of the peer (also when the numbers restart because of strict key exchange). An unknown message which nobody handles has no other effect.", "quantifier": "all histories of a connection, all cuts of the stream into pieces, all interleavings of the threads, all keys", "why_tests_cant": "the number depends on the whole history, including resets, while two threads count packets", "anchors": ["src/ssh/Connection.cxx:HandlePacket", "src/ssh/Input.hxx:GetSeq", "src/ssh/MakePacket.hxx:MakeUnimplemented"]}
{"id": "C92", "title": "A peer that does not read cannot fill the memory", "statement": "The number of packets which the server stores for a peer that does not read is limited. In particular the transport layer sends only a limited number of packets for each one it receives.", "quantifier": "all histories of a connection, any number of packets", "why_tests_cant": "a bound over histories of any length", "anchors": ["src/ssh/Connection.cxx:OnInputReady", "src/ssh/Connection.cxx:HandlePacket", "src/ssh/Output.cxx:Push"]}
{"id": "C93", "title": "The server as a whole: only encrypted requests, no answer in clear", "statement": "The authentication and connection layers act upon exactly the packets which were received encrypted, in their order. A login is justified by these packets, with signatures over the hash of the first key exchange of this connection. Nothing but transport messages is ever sent unencrypted; before a login, no message with number 80 or above and no USERAUTH_SUCCESS is sent at all; all answers of the authentication are sent, in order, while the connection exists. None of the assertions which the layers make about each other fails.", "quantifier": "all histories of a connection: bytes of the peer, cuts, threads, timers, answers of the translation server, requests of channels", "why_tests_cant": "the layers are glued together by callbacks and flags; the claim concerns all interleavings of their events", "anchors": ["src/Connection.cxx:OnEncrypted", "src/Connection.cxx:HandlePacket", "src/ssh/Connection.cxx:OnInputReady", "src/ssh/Connection.cxx:SetAuthenticated", "src/ssh/UserAuthServer.cxx"]}
{"id": "C94", "title": "After a login with a signature, the holder of the key is on the other end", "statement": "After a public key or host based login, all messages upon which the server has acted and acts on this connection, before and after the login and across all key changes, were sent by the holder of that key on one of their own connections, in this order, with nothing forged, dropped, repeated or reordered. The first key exchange of that connection was exactly the one the server took part in, including the host key, and the holder signed exactly this login. The only exceptions: a forged signature, or a known collision of the hash.", "quantifier": "all attackers on the network, all numbers of connections of the holder with any servers, all histories of the server connection, all key changes", "why_tests_cant": "it is a statement about everything an attacker could do, over any number of key exchanges", "anchors": ["src/Connection.cxx:HandleUserauthRequest", "src/ssh/Connection.cxx:HandleECDHKexInit", "src/ssh/KexState.cxx", "src/ssh/Input.cxx"]}
{"id": "C95", "title": "The answer of the translation server is understood however it arrives", "statement": "What becomes of the translation server's answer to a login depends only on its bytes, not on how the socket delivers them: a complete answer is used, an incomplete one is waited for, one with a bad packet is refused, one with something behind it is refused. Nothing is used that the server did not completely send, and the receive buffer never overflows.", "quantifier": "all answers of any size, all ways of cutting them into pieces, all socket events", "why_tests_cant": "the number of ways to cut a byte stream is unlimited; timing cannot be enumerated", "anchors": ["src/translation/LoginClient.cxx:ReceiveResponse", "src/translation/LoginClient.cxx:CoSocketEvent"]}
{"id": "C96", "title": "From the client's packets to its processes and back", "statement": "On a connection with any number of session channels: every session was opened by the client after the login; what a session is asked, told or sent is exactly what the client's messages since then mean to its channel number, in order, and nothing which is meant for another channel; the restrictions of the connection always apply to it. Every process was asked for on its own channel, under restrictions at least as tight as those of the login, and runs with the settings of the account of the user who logged in (with the exception of SFTP settings named in C79). Its input is what the client sent to this channel. The client is told everything that happens on the channel, under the number it gave to the channel, in order. After a login with a signature all of this was sent by the holder of the key.", "quantifier": "all interleavings of packets, timers, coroutines, process and socket events; all clients; any number of sessions, opened and closed in any order", "why_tests_cant": "the number of interleavings of several channels on one connection is unlimited, and the attacker chooses the packets", "anchors": ["src/ssh/CSupport.cxx:HandlePacket", "src/ssh/CSupport.cxx:HandleChannelOpen", "src/ssh/CSupport.cxx:GetChannel", "src/Connection.cxx:CreateChannel", "src/SessionChannel.cxx:OnRequest"]}
{"id": "C97", "title": "The environment of processes belongs to the server first", "statement": "A shell or command finds in its environment who logged in, from where, and which shell the account has, whatever the client asks for; variables which the server or the account's settings define are not affected by the client; HOME is the account's, else the home directory if the process can see it, else the client's; with a forced command, what the client asked for is in SSH_ORIGINAL_COMMAND; everything else comes from the account or the client. A variable granted to the client has the value asked for last in all processes started later. There is one entry for each variable. A login shell's name begins with a dash.", "quantifier": "all accounts, settings, addresses, processes; all sequences of requests of the client", "why_tests_cant": "the client chooses names and values of variables freely, in any order and number, with any bytes", "anchors": ["src/SessionChannel.cxx:SetEnv", "src/SessionChannel.cxx:PrepareExec", "src/SessionChannel.cxx:PrepareHome", "src/SessionChannel.cxx:PrepareAddressEnv", "src/SessionChannel.cxx:SpawnChildProcess", "src/SessionChannel.cxx:LoginShellName"]}
{"id": "C98", "title": "A client and a server of this program understand each other", "statement": "A client and a server of this program with matching configuration, connected by a reliable network, never give up the connection by themselves, in whatever order identification strings and packets arrive, applications send and rekey timers fire, also on both sides at once. They make the same key agreements in the same order, the server being at most one ahead, and every packet is decrypted with exactly the algorithms and keys it was encrypted with. When everything has arrived, both are encrypted and idle with the same keys, after one KEXINIT of each side per agreement. This always happens after a bounded number of deliveries.", "quantifier": "all interleavings of deliveries, packets of both applications, authentication, rekey timers on both sides, congestion; all compatible environments", "why_tests_cant": "key exchange has four messages in each direction, which can cross each other and interleave with data at any point", "anchors": ["src/ssh/Connection.cxx:HandleKexInit", "src/ssh/Connection.cxx:HandleECDHKexInit", "src/ssh/Connection.cxx:HandleECDHKexInitReply", "src/ssh/Connection.cxx:HandleNewKeys", "src/ssh/Connection.cxx:SendKexInit", "src/ssh/Connection.cxx:InitiateRekey"]}
{"id": "C99", "title": "The login statistics tell what happened", "statement": "The counters which the server publishes agree with what happens on a connection: logins with a key or of a trusted host are counted exactly once each under their method, every login is counted, every counted failure is announced to the client, every answered request was counted as received, and no request is counted that was not received. Connections closed because of a protocol error are counted.", "quantifier": "all configurations, clients, accounts, and all sequences of events on a connection", "why_tests_cant": "the counters are incremented at some thirty places in a coroutine with four suspension points; a forgotten or doubled increment shows up only for one combination of method, account and outcome", "anchors": ["src/Connection.cxx:OnUserAuthRequest", "src/Connection.cxx:OnDisconnecting", "src/Instance.hxx:counters", "src/Instance.cxx:OnPrometheusExporterRequest"]}
{"id": "C100", "title": "Guessing passwords is slow and has to be paid for", "statement": "With the tarpit enabled: each password which is checked for a client costs a token, a wrong one costs eight more, and each attempt to connect costs one; so whoever stays within the budget of a token per second can check at most one wrong password in nine seconds. Each password is checked only for a request of its own, and if the client had exceeded its budget with each of its last k charges when that request arrived, not before k tenths of a second (at most a minute) have passed. A wrong password is answered not before a tenth of a second after the request.", "quantifier": "all configurations of listener and connections, any number of clients and connections, all interleavings of their events, of time, and of forgetting idle clients", "why_tests_cant": "charges of one connection delay the requests of others; the bound must hold for every interleaving of connections, timers and answers about accounts, over any number of attempts", "anchors": ["src/Connection.cxx:OnUserAuthRequest", "src/net/ClientAccounting.cxx:AccountedClientConnection::GetDelay", "src/net/ClientAccounting.cxx:PerClientAccounting::UpdateTokenBucket", "src/Listener.cxx:OnAccept"]}
{"id": "C101", "title": "What a failed login costs depends on how it was attempted", "statement": "Every request to log in which is not answered with success has been paid for, at least as the price list says: 9 tokens for a password which the service rejects and 10 for the empty one, 8 for the key of an unknown host, 5 for unsupported methods, 0.2 for a public key (or asking about one), 0.1 for method none; nothing for unknown services, for the attempt to change the password, for the key of a trusted host without a valid signature, and, without a translation server, for unknown users. Every password which the service rejects is counted as a failed password.", "quantifier": "all configurations, all sequences of packets, timers and answers about accounts and keys", "why_tests_cant": "the charge happens up to three suspensions before the answer; requests interleave with timers, service answers, and packets received meanwhile", "anchors": ["src/Connection.cxx:OnUserAuthRequest", "src/Connection.cxx:LazyTranslate", "src/net/ClientAccounting.cxx:PerClientAccounting::UpdateTokenBucket"]}
{"id": "C102", "title": "Keys are renewed", "statement": "On an authenticated connection, a packet which brings the volume sent with the current outgoing keys to 2^30 bytes or more is followed by a new key exchange in the same second (unless one is under way), and while no key exchange is under way, the last completed one (or the login) is at most an hour ago. Both hold for every history of the connection, provided that timers are punctual.", "quantifier": "all environments and packet sizes; both roles; all sequences of packets of the peer, packets of the application, timers and seconds that pass", "why_tests_cant": "a test would have to send gigabytes or wait for hours, and only for one schedule", "anchors": ["src/ssh/Connection.cxx: SendPacket, OnRekeyTimer, InitiateRekey, SetAuthenticated, SendNewKeys, HandleNewKeys, HandleKexInit", "src/ssh/Connection.hxx: REKEY_BYTES, REKEY_INTERVAL"]}
{"id": "C103", "title": "A forwarded connection carries the bytes of both sides", "statement": "On a TCP or local connection forwarded through a channel, each side receives exactly a beginning of what the other side has sent, in order, whatever sizes the reads and writes have; the end of the client's data is passed on to the host only after all of the data; the server closes the channel only after everything the host has sent was passed on, unless the client closed the channel or the host aborted the connection; nothing gets stuck once the socket is ready and the window suffices. A failing forwarded connection closes only its own channel.", "quantifier": "both settings of assertions; all initial windows; all sequences of data, end-of-file, window adjustments and close of the client, data, end and abort of the host, key exchanges, and readiness of the socket, with all results of recv() and send()", "why_tests_cant": "a test sees one interleaving and one set of sizes; the interesting ones (partial writes, end-of-file with queued data, windows running out) depend on the kernel and the peer", "anchors": ["src/SocketChannel.cxx: OnSocketReady, OnBufferedData, OnBufferedEof, OnWindowAdjust, OnWriteBlocked, OnWriteUnblocked", "src/ssh/BufferedChannel.cxx: OnData, OnEof, ReadBuffer", "src/ssh/Channel.cxx: SendData, ConsumeReceiveWindow", "src/ssh/CSupport.cxx: HandleChannelData, HandleChannelClose, CloseChannel"]}
{"id": "C104", "title": "The statistics and the log tell what became of every connection", "statement": "At any time each accepted connection was turned away, could not be set up, left while waiting, is waiting, is being served, or has ended; the published number of active connections and the published counters agree with that; every connection that has ended has exactly one log line about its end; when the server exits, nothing is left. Each closed connection is counted once, under its reason.", "quantifier": "all sequences of accepted connections and decisions about them, delays, good-byes with all reasons, disconnects and hang-ups of the client, timeouts, requests for strange services, unparsable keys, events of the outgoing connection, orders to terminate any set of connections, and the exit; all numbers of connections", "why_tests_cant": "the paths on which a connection can end are many (a dozen places, some of them after each other for the same connection), and it is their combinations that lose or double a count or a log line", "anchors": ["src/Listener.cxx: OnAccept, Dispose, TerminateChildren, ~Listener", "src/DelayedConnection.cxx: OnTimer, OnSocketReady", "src/Connection.cxx: OnDisconnecting, OnDisconnected, OnAuthTimeout, Terminate, OnUnsupportedService, ~Connection", "src/ssh/Connection.cxx: DoDisconnect", "src/Instance.cxx: OnPrometheusExporterRequest, OnExit"]}
{"id": "C105", "title": "From the client's packets to the forwarded host and back", "statement": "On a whole connection (packets, encryption, login, channels), every connection which the server makes for a client was asked for by that client with exactly this target, after a login which allows it; what the host receives is a beginning of what the client has sent to this channel and to no other; the client is sent the confirmation and then exactly what was read from the host, with the client's channel number, in order; the end of either side is passed on only after everything before it; after a login with a signature all of this comes from the holder of the key.", "quantifier": "all sequences of events of the network, packets, keys, logins, channel numbers, channels opened and closed, connections established or failed, data and ends of both sides, partial writes and reads, windows; any number of forwarded connections on any number of simultaneous channels", "why_tests_cant": "each layer can be right for itself and bytes still end up at the wrong host or are lost between two layers; which channel a message belongs to depends on the whole history of the connection", "anchors": ["src/Connection.cxx: CreateChannel, ResolveSocketChannelOperation, LocalConnectSocketChannelOperation", "src/ssh/CSupport.cxx: HandleChannelOpen, AsyncChannelOpenSuccess, AsyncChannelOpenFailure, GetChannel, HandleChannelData, HandleChannelEof", "src/SocketChannel.cxx", "src/ssh/Channel.cxx", "src/ssh/BufferedChannel.cxx"]}
{"id": "C106", "title": "The connection to a target: login only after its key was verified, then exactly what the proxy has to send", "statement": "On the connection which a proxy makes to a target host, no assertion fails, whatever the target sends; nothing but messages of the transport layer is sent unencrypted; the login takes place only when the target has proved to have an accepted host key, is signed for this connection and no other, and follows the protocol; it acts only upon packets received encrypted, in the order of their arrival; above the transport layer exactly the messages of the login and then what the proxy has to send are sent, in this order, and nothing of the latter before the target has granted the login.", "quantifier": "all sequences of events of the network, packets of the target (also before and during key exchanges), keys, data the proxy wants to send at any time", "why_tests_cant": "what each layer may do depends on what happened in the other; an exchange of keys may take place at any time during or after the login", "anchors": ["src/OutgoingConnection.cxx: OnEncrypted, OnUserAuthService, OnUserAuthSuccess, OnUserAuthFailure", "src/ssh/UserAuthClient.cxx: Start, HandlePacket", "src/ssh/Connection.cxx: HandlePacket, OnInputReady, SetAuthenticated, SendPacket", "src/Connection.cxx: OnOutgoingUserauthService"]}
{"id": "C107", "title": "A proxied connection passes on exactly what client and target say, for the same user and with the restrictions first", "statement": "When the connection of a client is passed on to a target: no assertion fails and nothing is sent on a connection which has come to its end, whatever happens on the two connections in whatever order; nothing is done at the target before the client has logged in, and the login there is for the same user, at a host which has proved to have an accepted key; what the proxy sends to the target in the name of the client are the restrictions which are in effect, and then the messages of the connection protocol which the client has sent since then, unchanged and in their order - all of them as long as the connection to the target exists; what the client gets are the messages of the connection protocol which the target has sent since it granted the login, unchanged and in their order - all of them as long as the connection of the client exists.", "quantifier": "all interleavings of events on both connections (packets, key exchanges, errors, ends, timers), all packets of client and target, all keys", "why_tests_cant": "each half depends on the state of the other one; either may come to its end or exchange keys at any moment", "anchors": ["src/ProxyConnectionHandler.cxx: HandlePacket", "src/Connection.cxx: OnOutgoingUserauthService, OnOutgoingUserauthSuccess, OnOutgoingUserauthFailure, OnOutgoingDisconnecting, OnOutgoingDisconnected, OnOutgoingError", "src/OutgoingConnection.cxx: OnUserAuthSuccess, OnDisconnecting, OnDisconnected, OnBufferedError", "src/ssh/Connection.cxx: SendPacket, IsDead"]}
{"id": "C108", "title": "A server behind a proxy acts only for the proxy's client, as the same user, with its restrictions announced", "statement": "A login at a server with the key of a host was made by one of the proxies which have this key, on its own connection with exactly this server; the proxy acts for a client which has logged in at the proxy as the same user, and every message of the connection protocol on which the server acts is either the proxy's announcement of the restrictions in effect for that client or was sent by that client to the proxy afterwards - unless a signature was forged or a collision of the hash is known; the signatures with which a host proves its identity to its own clients are no use for such a login. As long as the keys have not been changed, the server acts on the announcement first and then on what the client has sent, in order and with nothing missing in between. If the client has logged in with a key, all of it was sent by the holder of that key.", "quantifier": "all numbers of proxies, all schedules and packets on all of their connections and on the server's, all keys and adversaries between proxy and server", "why_tests_cant": "the claim relates three parties and an adversary; the same host key is used for proving the identity of a server and for logins", "anchors": ["src/Connection.cxx: OnUserAuthRequest, OnOutgoingUserauthService, OnOutgoingUserauthSuccess", "src/ProxyConnectionHandler.cxx: HandlePacket", "src/OutgoingConnection.cxx: SendUserauthRequestHostbased, HandlePacket", "src/ssh/Connection.cxx: HandleNewKeys, SendNewKeys"]}
{"id": "C109", "title": "A server starts completely or not at all, and with the keys of the key files", "statement": "A started server has the host keys in the files host_ed25519_key, host_ecdsa_key and host_rsa_key next to its configuration, in this order; only if none of these files exists, it has fresh keys. A file which exists but cannot be opened or read, is not a regular file, is too large or contains no key keeps the server from starting, before it has any socket: it never runs with another identity instead, and as long as there are files the identity is the same after each start. Each listener has the keys of its own section, or else those of the host. Connections are accepted and the service manager is told of readiness only after all sockets have been created and all privileges have been given up; if anything fails, the process exits with an error, without having done any of this. An error in the configuration is reported with the exit code for configuration errors, which means nothing else, and with nothing done. The global list of authorized keys is that of the file, or empty if the file cannot be opened.", "quantifier": "all configurations, command lines, contents and states of files, and all points of failure", "why_tests_cant": "which of the steps fails, and the state of the files, are not under the control of a test", "anchors": ["src/Main.cxx: main, LoadHostKeys, LoadOptionalKeyFile, LoadGlobalAuthorizedKeys", "src/CommandLine.cxx: ParseCommandLine", "src/Instance.cxx: Instance::Instance, AddListener", "src/Listener.cxx: Listener::Listener", "src/key/LoadFile.cxx: LoadKeyFile"]}
{"id": "C110", "title": "From the client's request to listen to the connections which arrive, and back", "statement": "On a whole connection (packets, encryption, login, requests, channels), every connection which the server offers to a client has arrived at a forwarding in effect, which this client has asked for with a message that names this address, after a login which allows it; the client is told address and origin; data is transported only after the client has confirmed this connection, while the forwarding had not been ended and the connection had not been closed; what the connection receives is a beginning of what the client has sent to this channel since then and to no other, and the client is sent exactly what has arrived, with its own channel number, in order; when the client's connection ends, the server stops listening and closes what waits; after a login with a signature, all requests, confirmations and data come from the holder of the key.", "quantifier": "all sequences of events of the network, packets, keys, logins, requests, results of binding, connections which arrive and hang up, confirmations, refusals and cancellations in any order, data and ends of both sides, partial writes and reads, windows, channel numbers; any number of forwardings and connections", "why_tests_cant": "the client's confirmation races with the end of the forwarding, with the end of the connection which has arrived and with the end of the client's connection; each layer can be right for itself and a connection still be joined to the wrong channel", "anchors": ["src/Connection.cxx: HandleGlobalRequest, OnDisconnecting, ~Connection", "src/SocketForwardListener.cxx: Factory, OnAccept, ~SocketForwardListener", "src/ssh/CSupport.cxx: RequestedChannel, OpenChannel, PopRequestedChannel, HandleChannelOpenConfirmation, HandleChannelOpenFailure", "src/SocketChannel.cxx", "src/ssh/GSupport.cxx"]}
{"id": "C111", "title": "Both sides of a key exchange compute the same secret, whatever its value", "statement": "For both key exchange methods, the shared secret exists exactly if the other side's key is acceptable, and then it is the product of the Diffie-Hellman function as a number in the form which the RFCs prescribe, also if this number begins with zeros or its first bit is set; so both sides derive the same keys, or both refuse; different numbers give different secrets.", "quantifier": "all secret keys, all keys sent by the other side, all values of the product; both roles and all histories of the key exchange", "why_tests_cant": "a secret with a leading zero byte occurs once in 256 exchanges; if it is encoded wrongly, one of 256 connections fails (or works only between programs with the same mistake)", "anchors": ["src/ssh/KexECDH.cxx: ECDHKex", "src/ssh/KexCurve25519.cxx: Curve25519Kex", "src/ssh/Serializer.hxx: WriteBignum2, CommitBignum2", "src/ssh/KexFactory.cxx: MakeKex"]}
{"id": "C112", "title": "Channels of different kinds share a connection without disturbing each other", "statement": "With sessions, connections to hosts and connections which arrive at listeners on one connection at the same time: no assertion fails; no two open channels have the same number, and there are never more than 64; whatever happens changes channels of one kind only; and each of them behaves, in both directions, as if the other kinds did not exist, so everything stated for each kind applies.", "quantifier": "all orders of all events: messages of the client, progress of the network, of processes, of hosts and of listeners, any choice of free channel numbers", "why_tests_cant": "tests use one kind of channel at a time; which messages reach which channel depends on the interleaving of openings, closings and reused numbers over the whole history", "anchors": ["src/ssh/CSupport.cxx: AllocateChannelIndex, GetChannel, HandleChannelOpen, HandleChannelOpenConfirmation, HandleChannelData, HandleChannelClose", "src/ssh/CSupport.hxx: channels", "src/Connection.cxx: OpenChannel", "src/SocketForwardListener.cxx: OnAccept"]}
{"id": "C113", "title": "A message for a channel which is not open ends the connection; otherwise open channels hear everything", "statement": "After a message for a channel which was never opened, is closed, or is not yet confirmed, after an unasked confirmation, a malformed message about a channel, or a window adjustment by zero, the connection is at its end; the first kinds have no effect on any channel, and the last thing the client is told is the reason. While the connection exists, no exception has occurred in any open channel, and every session and every forwarded connection which neither side has closed has been told everything the client has sent to it, in order, with nothing left out. Well-formed messages for open channels never end the connection by themselves.", "quantifier": "all orders of all events: messages of the client (also malformed or for any number), progress of the network, of processes, of hosts and of listeners", "why_tests_cant": "which numbers are open depends on the whole history of openings, confirmations and closings; tests cover a few orders only", "anchors": ["src/ssh/CSupport.cxx: GetChannel, PopRequestedChannel, HandlePacket, HandleChannelWindowAdjust, HandleChannelData", "src/ssh/Connection.cxx: HandleRawPacket, OnInputReady, DoDisconnect"]}
{"id": "C114", "title": "Nothing outlives its connection", "statement": "When the connection of a client has ended, for whichever reason, no process which was started in a session on it runs any more, no channel is open, every connection which was forwarded for it is closed, and nothing is listened on for it, or going to be. Processes which still ran at the end are killed, connections which still existed are closed, and nothing more is sent to the client for that; processes which had ended by themselves are not killed. Whatever happens afterwards, the connection does not come back, nothing is sent, nothing is started, and nothing is forwarded. A session which the server has closed has no process, either, while the connection goes on.", "quantifier": "all orders of all events before, at and after the end of the connection: messages of the client (also malformed), progress of the network, of processes, of hosts and of listeners", "why_tests_cant": "the end can come at every moment, between any two events of any channel; tests can stop at a few of them only", "anchors": ["src/ssh/CSupport.cxx: OnDisconnecting, ~ChannelSupport", "src/ssh/Connection.cxx: OnDisconnecting, OnBufferedClosed, OnBufferedError", "src/SessionChannel.cxx: ~SessionChannel, CloseIfInactive", "src/SocketChannel.cxx: ~SocketChannel"]}
{"id": "C115", "title": "Data comes from the channel under whose number it is sent", "statement": "Every message with data which is sent to the client carries bytes which the channel with this number has passed on: the output of the process of a session (its standard error marked as such) or a message of the session for the user, or the bytes which came from the other end of a forwarded connection. Nothing is invented, nothing is sent twice, and nothing which belongs to one channel is sent under the number of another one; as long as the connection exists, nothing is lost, either: each message is sent exactly as often as the channels have passed these bytes on. When the connection is passed on as a whole to another server, the data is what this server has sent.", "quantifier": "all orders of all events of a connection with any number of channels of all kinds, before and after its end; all data", "why_tests_cant": "the data of many channels is mixed on one connection, in an order which depends on the processes, the hosts, the client and the network; tests see a few orders", "anchors": ["src/ssh/Channel.cxx: SendData, SendExtendedData", "src/ssh/CSupport.cxx: HandleChannelOpen, HandleChannelOpenConfirmation", "src/SessionChannel.cxx: OnTtyReady, OnStdoutReady, OnStderrReady", "src/SocketChannel.cxx: OnSocketReady", "src/ProxyConnectionHandler.cxx: HandlePacket"]}
{"id": "C116", "title": "The client is never sent more data than it has allowed", "statement": "The bytes of data which the client is sent under the number of a channel are, at every moment of a connection with any number of channels of all kinds, no more than what it has allowed on its channels of this number: the window with which it has opened the channel (or has confirmed that the server opens it), and what it has added since with window adjustments for the number which this channel has at the server. Output of processes, messages for the user, extended data and bytes from forwarded connections all count; adjustments for another channel do not.", "quantifier": "all orders of all events of a connection with any number of channels of all kinds, before and after its end; all windows and adjustments; all numbers", "why_tests_cant": "how much has been sent when an adjustment arrives depends on the processes, the hosts and the network, and all channels share the connection; tests see a few orders", "anchors": ["src/ssh/Channel.cxx: SendData, SendExtendedData, OnWindowAdjust", "src/ssh/CSupport.cxx: HandleChannelWindowAdjust", "src/SessionChannel.cxx: OnTtyReady, OnStdoutReady, OnStderrReady", "src/SocketChannel.cxx: OnSocketReady, OnWindowAdjust"]}
{"id": "C117", "title": "The server allows the client to send only what replaces what it has sent", "statement": "All window adjustments which the client is sent under the number of a channel amount, at every moment of a connection with any number of channels of all kinds, to no more than the data which the client has sent on its channels of this number since it has opened them (or has confirmed that the server opens them). So what the client may still send on a channel never exceeds the window with which it was opened.", "quantifier": "all orders of all events of a connection with any number of channels of all kinds, before and after its end; all sizes of data; all numbers", "why_tests_cant": "an adjustment is due only after half a megabyte, depends on how much a process or host accepts at a time, and all channels share the connection; tests see a few orders", "anchors": ["src/ssh/Channel.cxx: ConsumeReceiveWindow, SendWindowAdjust", "src/SocketChannel.cxx: OnBufferedData", "src/SessionChannel.cxx: OnBufferedData", "src/ssh/BufferedChannel.cxx: OnData"]}
