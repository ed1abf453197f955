{
 "claims": [
  {
   "property": "C01",
   "status": "proved",
   "theorems": [
    "Lukko.C01_unencrypted",
    "Lukko.C01_packet_wellformed",
    "Lukko.C01_terminates_only_near_limit"
   ],
   "note": "Block sizes 8 and 16 (all ciphers of the factory); payloads up to 65512 bytes, beyond that Finish() terminates the process (shown as the only other outcome)."
  },
  {
   "property": "C02",
   "status": "proved",
   "theorems": [
    "Lukko.C02_unencrypted_framing",
    "Lukko.C02_chunking_irrelevant"
   ],
   "note": "Every chunking and every interleaving of event thread and worker; completeness is stated for quiescent states (that the thread pool eventually runs a queued job is not modelled)."
  },
  {
   "property": "C03",
   "status": "proved",
   "theorems": [
    "Lukko.C03_malformed_unencrypted",
    "Lukko.C03_delivered_size"
   ],
   "note": ""
  },
  {
   "property": "C04",
   "status": "proved",
   "theorems": [
    "Lukko.C04_roundtrip",
    "Lukko.C04_injective",
    "Lukko.C04_truncated",
    "Lukko.C04_overflow"
   ],
   "note": ""
  },
  {
   "property": "C05",
   "status": "proved",
   "theorems": [
    "Lukko.C05_disconnect",
    "Lukko.C05_service_request",
    "Lukko.C05_service_accept",
    "Lukko.C05_ecdh_init",
    "Lukko.C05_ecdh_reply",
    "Lukko.C05_channel_open_failure",
    "Lukko.C05_window_adjust",
    "Lukko.C05_channel_data",
    "Lukko.C05_channel_extended_data",
    "Lukko.C05_channel_eof",
    "Lukko.C05_channel_close",
    "Lukko.C05_channel_open_confirmation",
    "Lukko.C05_channel_open",
    "Lukko.C05_channel_request",
    "Lukko.C05_exit_status",
    "Lukko.C05_exit_signal",
    "Lukko.C05_channel_response",
    "Lukko.C05_global_request",
    "Lukko.C05_kexinit"
   ],
   "note": "All message types that have both a builder and a parser; layouts compared with the RFC bodies in Spec/Messages."
  },
  {
   "property": "C06",
   "status": "proved",
   "theorems": [
    "Lukko.C06_write_canonical",
    "Lukko.C06_commit_same",
    "Lukko.C06_unique",
    "Lukko.C06_negative_rejected",
    "Lukko.C06_decode_encode",
    "Lukko.C06_decode_value"
   ],
   "note": "BN_bin2bn/BN_bn2bin are taken as big-endian conversion."
  },
  {
   "property": "C07",
   "status": "proved",
   "theorems": [
    "Lukko.C07_no_assertion_fails",
    "Lukko.C07_encrypted_delivery",
    "Lukko.C07_tampering_never_delivered",
    "Lukko.C07_error_is_final"
   ],
   "note": "For an arbitrary cipher satisfying Contract (round trip) and, for the tamper theorem, Authentic (ideal authenticity, a hypothesis about the primitives)."
  },
  {
   "property": "C08",
   "status": "proved",
   "theorems": [
    "Lukko.C08_sequence_numbers",
    "Lukko.C08_numbers_without_reset",
    "Lukko.C08_numbers_with_reset"
   ],
   "note": ""
  },
  {
   "property": "C09",
   "status": "partial",
   "theorems": [
    "Lukko.C09_from_first_byte_partial",
    "Lukko.C09_no_assertion_fails",
    "Lukko.C09_submission_order_partial",
    "Lukko.C09_nothing_lost_partial",
    "Lukko.C09_end_to_end_partial",
    "Lukko.C09_second_rekey_violated"
   ],
   "note": "False in general: a second SetCipher before the worker switched to the first re-labels packets (C09_second_rekey_violated). Proved for all interleavings and partial writes where this does not happen, including end-to-end delivery."
  },
  {
   "property": "C10",
   "status": "proved",
   "theorems": [
    "Lukko.C10_partial_writes",
    "Lukko.C10_offers_something"
   ],
   "note": "Blocks are non-empty, which every caller guarantees (packets have a header)."
  },
  {
   "property": "C11",
   "status": "proved",
   "theorems": [
    "Lukko.C11_same_cipher",
    "Lukko.C11_server_choice",
    "Lukko.C11_client_choice",
    "Lukko.C11_kex_method"
   ],
   "note": "All lists in the RFC 4251 name-list form of both sides; both roles agree."
  },
  {
   "property": "C12",
   "status": "proved",
   "theorems": [
    "Lukko.C12_no_assertion",
    "Lukko.C12_order",
    "Lukko.C12_incoming_cipher",
    "Lukko.C12_outgoing_cipher",
    "Lukko.C12_out_of_order"
   ],
   "note": "Every sequence of packets, writability, timer and application events in both roles; application handlers are assumed never to claim kex messages (EventOk); rekey timer only after authentication."
  },
  {
   "property": "C13",
   "status": "proved",
   "theorems": [
    "Lukko.C13_newkeys",
    "Lukko.C13_cipher"
   ],
   "note": "Signature verification and host key acceptance are parameters; the theorem fixes which bytes are verified and that acceptance precedes NEWKEYS."
  },
  {
   "property": "C14",
   "status": "proved",
   "theorems": [
    "Lukko.C14_first_hash",
    "Lukko.C14_fixed",
    "Lukko.C14_before_ciphers"
   ],
   "note": "For every event sequence, including rekeys."
  },
  {
   "property": "C15",
   "status": "proved",
   "theorems": [
    "Lukko.C15_derived",
    "Lukko.C15_length",
    "Lukko.C15_prefix",
    "Lukko.C15_inputs_differ",
    "Lukko.C15_mirrored",
    "Lukko.C15_installed",
    "Lukko.C15_both_ends"
   ],
   "note": "Hash is a parameter with 32-byte output; exchange of directions proved for the installed keys of both ends."
  },
  {
   "property": "C16",
   "status": "proved",
   "theorems": [
    "Lukko.C16_injective"
   ],
   "note": "Injectivity of the hashed encoding (collision resistance of SHA-256 is not a theorem)."
  },
  {
   "property": "C17",
   "status": "partial",
   "theorems": [
    "Lukko.C17_strict_partial",
    "Lukko.C17_strict_violated",
    "Lukko.C17_reset",
    "Lukko.C17_reset_none",
    "Lukko.C17_announced"
   ],
   "note": "False: the packet after a wrong-guess KEXINIT is dropped before the strict check (C17_strict_violated); everything else is proved (C17_strict_partial)."
  },
  {
   "property": "C18",
   "status": "proved",
   "theorems": [
    "Lukko.C18_notifications",
    "Lukko.C18_alternate"
   ],
   "note": "Every event sequence; rekeying means our KEXINIT was sent and our NEWKEYS was not."
  },
  {
   "property": "C19",
   "status": "partial",
   "theorems": [
    "Lukko.C19_data_violated",
    "Lukko.C19_adjust_violated",
    "Lukko.C19_socket_partial",
    "Lukko.C19_resumes_partial",
    "Lukko.C19_session_partial",
    "Lukko.C19_session_violated"
   ],
   "note": "False for data after a window adjustment (C19_data_violated) and for window adjustments (C19_adjust_violated); proved for socket channels under the condition that an exhausted window is not adjusted during our key exchange."
  },
  {
   "property": "C20",
   "status": "proved",
   "theorems": [
    "Lukko.C20_in_range",
    "Lukko.C20_assigned_free",
    "Lukko.C20_not_reused",
    "Lukko.C20_unknown_refused",
    "Lukko.C20_unasked_refused"
   ],
   "note": "Every event sequence; channel implementations are arbitrary."
  },
  {
   "property": "C21",
   "status": "partial",
   "theorems": [
    "Lukko.C21_answered_once",
    "Lukko.C21_open_partial",
    "Lukko.C21_async_partial",
    "Lukko.C21_no_number_violated"
   ],
   "note": "False when all 64 numbers are in use (C21_no_number_violated); otherwise proved."
  },
  {
   "property": "C22",
   "status": "partial",
   "theorems": [
    "Lukko.C22_released",
    "Lukko.C22_after_close_partial",
    "Lukko.C22_failure_after_close_violated"
   ],
   "note": "False: CHANNEL_FAILURE is sent after CHANNEL_CLOSE (C22_failure_after_close_violated); C22_after_close_partial shows that nothing else is."
  },
  {
   "property": "C23",
   "status": "partial",
   "theorems": [
    "Lukko.C23_told_once_partial",
    "Lukko.C23_none_left_partial",
    "Lukko.C23_at_most_once_partial",
    "Lukko.C23_failure_violated"
   ],
   "note": "False: refusal by the peer makes the code call a destroyed object (C23_failure_violated). Counting is proved for all runs."
  },
  {
   "property": "C24",
   "status": "proved",
   "theorems": [
    "Lukko.C24_socket",
    "Lukko.C24_send_window",
    "Lukko.C24_session"
   ],
   "note": "Every event sequence; a channel implementation that sends more than its window fails an assertion (outcome ub), see the channel models. C24_socket: the same for the socket channel implementation."
  },
  {
   "property": "C25",
   "status": "partial",
   "theorems": [
    "Lukko.C25_unbounded_violated",
    "Lukko.C25_large_packet_partial",
    "Lukko.C25_honest_partial",
    "Lukko.C25_grant_partial",
    "Lukko.C25_session_violated",
    "Lukko.C25_session_large_packet_partial",
    "Lukko.C25_session_grant_partial",
    "Lukko.C25_session_honest_partial"
   ],
   "note": "False: unbounded buffering (C25_unbounded_violated). Proved: honest peers stay within the window, oversized single packets end the connection, grants only replace consumed bytes. The same for session channels (C25_session_*)."
  },
  {
   "property": "C26",
   "status": "partial",
   "theorems": [
    "Lukko.C26_pipe_partial",
    "Lukko.C26_prefix_partial",
    "Lukko.C26_rest_partial",
    "Lukko.C26_eof_last_partial",
    "Lukko.C26_eof_told_partial",
    "Lukko.C26_drained_partial",
    "Lukko.C26_data_after_eof_violated",
    "Lukko.C26_eof_twice_violated"
   ],
   "note": "Proved for peers that send nothing after end-of-file; false otherwise (C26_data_after_eof_violated, C26_eof_twice_violated)."
  },
  {
   "property": "C27",
   "status": "partial",
   "theorems": [
    "Lukko.C27_replies_partial",
    "Lukko.C27_kth_partial",
    "Lukko.C27_all_answered_partial",
    "Lukko.C27_unwanted_reply_violated"
   ],
   "note": "Depends on how libcommon's EagerInvokeTask reports synchronous completion (parameter syncDone); the bad case is C27_unwanted_reply_violated."
  },
  {
   "property": "C28",
   "status": "partial",
   "theorems": [
    "Lukko.C28_bounded",
    "Lukko.C28_limit",
    "Lukko.C28_kth_partial"
   ],
   "note": "Limit of 16 unfinished global requests."
  },
  {
   "property": "C29",
   "status": "proved",
   "theorems": [
    "Lukko.C29_effects",
    "Lukko.C29_refused",
    "Lukko.C29_login",
    "Lukko.C29_no_service",
    "Lukko.C29_after"
   ],
   "note": "Arbitrary event sequences, coroutine suspensions included; effects, refusal before success, service precondition, single login, no effect of later requests."
  },
  {
   "property": "C30",
   "status": "proved",
   "theorems": [
    "Lukko.C30_sound",
    "Lukko.C30_success",
    "Lukko.C30_publickey_complete",
    "Lukko.C30_hostbased_complete",
    "Lukko.C30_password_complete"
   ],
   "note": "Soundness for arbitrary histories (Justified, Spec/Auth); completeness for the first request of each method. Signature verification, key parsing, base64 and the translation server are parameters; the rate limiter's delay is an event parameter."
  },
  {
   "property": "C31",
   "status": "proved",
   "theorems": [
    "Lukko.C31_publickey",
    "Lukko.C31_hostbased",
    "Lukko.C31_methods",
    "Lukko.C31_verified"
   ],
   "note": "Injectivity of the signed bytes for both methods, their separation, and that exactly these bytes are what is verified."
  },
  {
   "property": "C32",
   "status": "proved",
   "theorems": [
    "Lukko.C32_restrictions",
    "Lukko.C32_unique",
    "Lukko.C32_enforced"
   ],
   "note": "Restrictions of the login entry, their uniqueness, and that the enforced state equals them (or what they were tightened to)."
  },
  {
   "property": "C33",
   "status": "partial",
   "theorems": [
    "Lukko.C33_violated",
    "Lukko.C33_failed_answer_violated",
    "Lukko.C33_partial"
   ],
   "note": "False: options of a key that was only queried stay in force for a later password login (C33_violated), and a cached negative answer blocks later key logins (C33_failed_answer_violated). Proved: earlier attempts can only remove permissions; the first attempt gives exactly the account's."
  },
  {
   "property": "C34",
   "status": "proved",
   "theorems": [
    "Lukko.C34_connection",
    "Lukko.C34_never_looser",
    "Lukko.C34_least",
    "Lukko.C34_refused",
    "Lukko.C34_commutative",
    "Lukko.C34_idempotent",
    "Lukko.C34_only_tightened",
    "Lukko.C34_all"
   ],
   "note": "Merge is the least upper bound of the restrictions; every sequence of requests. Connection-level version in Prop/Auth."
  },
  {
   "property": "C35",
   "status": "proved",
   "theorems": [
    "Lukko.C35_first",
    "Lukko.C35_roundtrip",
    "Lukko.C35_accepted"
   ],
   "note": "Round trip and acceptance; connection level in Prop/Auth."
  },
  {
   "property": "C36",
   "status": "proved",
   "theorems": [
    "Lukko.C36_forward",
    "Lukko.C36_stays",
    "Lukko.C36_only_connection_messages"
   ],
   "note": "Both directions, for arbitrary continuations after forwarding began; the rest of C36 (peer's channel numbers etc.) is untouched because payloads are verbatim."
  },
  {
   "property": "C37",
   "status": "proved",
   "theorems": [
    "Lukko.C37_line",
    "Lukko.C37_bad_option",
    "Lukko.C37_text",
    "Lukko.C37_every_text_has_lines"
   ],
   "note": "Parser equals a separate grammar of authorized_keys lines; base64 decoding is a parameter."
  },
  {
   "property": "C38",
   "status": "proved",
   "theorems": [
    "Lukko.C38_load_find",
    "Lukko.C38_text"
   ],
   "note": "Same answer for the file; for a text without carriage returns and null bytes."
  },
  {
   "property": "C39",
   "status": "partial",
   "theorems": [
    "Lukko.C39_violated",
    "Lukko.C39_tcp_partial",
    "Lukko.C39_local_partial"
   ],
   "note": "False: no-port-forwarding does not stop direct-streamlocal (C39_violated). Proved for TCP forwarding and binding, and exec permission for local sockets."
  },
  {
   "property": "C40",
   "status": "partial",
   "theorems": [
    "Lukko.C40_partial",
    "Lukko.C40_services_partial",
    "Lukko.C40_sftp_violated",
    "Lukko.C40_rsync_violated",
    "Lukko.C40_environment_violated"
   ],
   "note": "False: a forced command does not apply to the SFTP subsystem, nor to rsync and git on restricted accounts, and the client's environment variables (e.g. BASH_ENV) are passed to it (the _violated theorems). Proved: for accounts with exec and without sftp, every process is the forced command; in general the command or one of those services."
  },
  {
   "property": "C41",
   "status": "proved",
   "theorems": [
    "Lukko.C41_services",
    "Lukko.C41_terminal",
    "Lukko.C41_terminal_process"
   ],
   "note": "Which programs, with which settings, and terminals; for all histories."
  },
  {
   "property": "C42",
   "status": "partial",
   "theorems": [
    "Lukko.C42_violated",
    "Lukko.C42_assertion_violated",
    "Lukko.C42_count_partial",
    "Lukko.C42_running_partial",
    "Lukko.C42_late_partial"
   ],
   "note": "False: requests that arrive while the first one is suspended all start a process (C42_violated), or the server aborts (C42_assertion_violated). Proved: never more processes than requests, at most one running, none asked for while one is running."
  },
  {
   "property": "C43",
   "status": "proved",
   "theorems": [
    "Lukko.C43_bound",
    "Lukko.C43_disconnect"
   ],
   "note": "Bound for all histories, and that going over it disconnects."
  },
  {
   "property": "C44",
   "status": "partial",
   "theorems": [
    "Lukko.C44_split",
    "Lukko.C44_split_converse",
    "Lukko.C44_join",
    "Lukko.C44_empty_argument_violated",
    "Lukko.C44_rsync",
    "Lukko.C44_unquote_partial",
    "Lukko.C44_git_quote_partial",
    "Lukko.C44_backslash_violated",
    "Lukko.C44_git_partial"
   ],
   "note": "Splitting is inverse to quoting for all non-empty arguments. Empty arguments cannot be expressed (C44_empty_argument_violated); a backslash inside of single quotes is dropped (C44_backslash_violated), so unquoting is proved without them."
  },
  {
   "property": "C45",
   "status": "proved",
   "theorems": [
    "Lukko.C45_bounded",
    "Lukko.C45_bounded_always",
    "Lukko.C45_one_step",
    "Lukko.C45_grows",
    "Lukko.C45_deserved",
    "Lukko.C45_recovers"
   ],
   "note": "libcommon's TokenBucket is not in the tree; it is modelled as an exact linear bucket which can be overdrawn (C45_one_step and the bounds hold for arbitrary answers of the bucket). Doubles are idealised as exact numbers."
  },
  {
   "property": "C46",
   "status": "partial",
   "theorems": [
    "Lukko.C46_exact",
    "Lukko.C46_admitted",
    "Lukko.C46_unlimited",
    "Lukko.C46_limit",
    "Lukko.C46_kept",
    "Lukko.C46_forgotten_partial",
    "Lukko.C46_forgotten_violated"
   ],
   "note": "Limit, exact counting, no use after free and no early discarding are proved for all histories. False part: if the connection constructor throws for a new client, no cleanup is ever scheduled (C46_forgotten_violated); proved otherwise (C46_forgotten_partial)."
  },
  {
   "property": "C47",
   "status": "partial",
   "theorems": [
    "Lukko.C47_sealed_partial",
    "Lukko.C47_constructible",
    "Lukko.C47_opened_partial",
    "Lukko.C47_exact",
    "Lukko.C47_tag_verified",
    "Lukko.C47_interface",
    "Lukko.C47_delivery",
    "Lukko.C47_sequence_wrap_violated",
    "Lukko.C47_alignment_violated",
    "Lukko.C47_padded"
   ],
   "note": "For arbitrary primitives: opening is exactly the inverse of sealing for every state and sequence number (C47_exact), tags cover exactly the received bytes, the ciphers meet the contract assumed by the packet layer. Byte-for-byte agreement with the published constructions holds below sequence number 2^32 (C47_sealed_partial, C47_opened_partial); it is false at 2^32 for chacha20-poly1305 (C47_sequence_wrap_violated). Debug assertions about alignment can be triggered by unauthenticated data (C47_alignment_violated)."
  },
  {
   "property": "C48",
   "status": "proved",
   "theorems": [
    "Lukko.C48_always_authenticated",
    "Lukko.C48_unknown_refused"
   ],
   "note": "Exhaustive over the names the factory accepts."
  },
  {
   "property": "C49",
   "status": "proved",
   "theorems": [
    "Lukko.C49_host_key_choice"
   ],
   "note": ""
  },
  {
   "property": "C50",
   "status": "proved",
   "theorems": [
    "Lukko.C50_degenerate",
    "Lukko.C50_secret",
    "Lukko.C50_server",
    "Lukko.C50_client",
    "Lukko.C50_abort"
   ],
   "note": "X25519 itself is a parameter."
  },
  {
   "property": "C51",
   "status": "partial",
   "theorems": [
    "Lukko.C51_first_line",
    "Lukko.C51_nothing_before",
    "Lukko.C51_kexinit",
    "Lukko.C51_accepted_partial",
    "Lukko.C51_no_line",
    "Lukko.C51_long_line_violated"
   ],
   "note": "The identification is the first line, must start with SSH-, and what follows is passed on in order, for every chunking; lines of at most 254 bytes are accepted exactly if they start with SSH- (C51_accepted_partial). For longer lines the outcome depends on how the bytes arrive (C51_long_line_violated)."
  },
  {
   "property": "C52",
   "status": "proved",
   "theorems": [
    "Lukko.C52_decoded",
    "Lukko.C52_last_wins",
    "Lukko.C52_disabled_violated",
    "Lukko.C52_seven_bit_violated"
   ],
   "note": "For every byte string the complete records before the end marker are applied in order (C52_decoded), so the last occurrence of an opcode wins. Two deviations from RFC 4254 in what a record means are also proved: the value 255 is installed as a character (C52_disabled_violated), and CS7 on with CS8 off yields 5-bit characters (C52_seven_bit_violated)."
  },
  {
   "property": "C53",
   "status": "partial",
   "theorems": [
    "Lukko.C53_exponents_violated",
    "Lukko.C53_never_violated",
    "Lukko.C53_function_partial"
   ],
   "note": "False: for every RSA key with d > p+1, q+1 the loaded exponents are not the CRT exponents, the arguments being swapped at the call (C53_exponents_violated, C53_never_violated). C53_function_partial: the helper, called in its declared order, would compute them."
  },
  {
   "property": "C54",
   "status": "proved",
   "theorems": [
    "Lukko.C54_login_request"
   ],
   "note": "For every listener tag the configuration accepts: a request is refused exactly for names or passwords over 256 bytes, otherwise fits 1024 bytes and decodes to the intended packets. Command numbers are parameters; little-endian host."
  },
  {
   "property": "C55",
   "status": "proved",
   "theorems": [
    "Lukko.C55_current_member",
    "Lukko.C55_sticky",
    "Lukko.C55_removal",
    "Lukko.C55_addition",
    "Lukko.C55_listener"
   ],
   "note": "For every sorting function, every strict weak order and every history of announcements. The rendezvous rank itself (libcommon) is a parameter; stickiness assumes ranks without ties."
  },
  {
   "property": "C56",
   "status": "partial",
   "theorems": [
    "Lukko.C56_unprivileged_partial",
    "Lukko.C56_terminate_violated",
    "Lukko.C56_reload_violated",
    "Lukko.C56_frame",
    "Lukko.C56_terminate",
    "Lukko.C56_service_tag_violated"
   ],
   "note": "False as stated for RELOAD_STATE and TERMINATE_CHILDREN (C56_reload_violated, C56_terminate_violated); proved for all other commands. C56_frame and C56_terminate give the exact effects. TERMINATE_CHILDREN misses tags attached to single services (C56_service_tag_violated)."
  },
  {
   "property": "C57",
   "status": "proved",
   "theorems": [
    "Lukko.C57_no_more",
    "Lukko.C57_disconnect"
   ],
   "note": "Arbitrary histories; the attempt disconnects."
  },
  {
   "property": "C58",
   "status": "partial",
   "theorems": [
    "Lukko.C58_partial",
    "Lukko.C58_only",
    "Lukko.C58_early_violated",
    "Lukko.C58_terminal_violated"
   ],
   "note": "Proved for processes without a terminal unless end-of-file arrives before the process is started and no data is left (C58_partial), and that the standard input is closed only for a reason (C58_only). False in the two excluded cases (C58_early_violated, C58_terminal_violated)."
  },
  {
   "property": "C59",
   "status": "partial",
   "theorems": [
    "Lukko.C59_zero_window_violated",
    "Lukko.C59_later_zero_partial",
    "Lukko.C59_session",
    "Lukko.C59_session_terminal"
   ],
   "note": "False (C59_zero_window_violated); proved for windows exhausted later."
  },
  {
   "property": "C60",
   "status": "partial",
   "theorems": [
    "Lukko.C60_disconnect_written_partial",
    "Lukko.C60_disconnect_last_partial",
    "Lukko.C60_disconnect_lost_violated"
   ],
   "note": "False: Output::IsEmpty ignores packets held by the worker thread (C60_disconnect_lost_violated). Proved when the worker is not inside Run at the moment of disposal."
  },
  {
   "property": "C61",
   "status": "proved",
   "theorems": [
    "Lukko.C61_server_signs"
   ],
   "note": "Host key signing is a parameter; the signed bytes are the digest of this exchange's transcript."
  },
  {
   "property": "C62",
   "status": "partial",
   "theorems": [
    "Lukko.C62_socket_partial",
    "Lukko.C62_data_after_eof_violated",
    "Lukko.C62_extended_data_violated"
   ],
   "note": "False: data after a pending end-of-file and extended data reach failing assertions; proved for peers sending neither, with a positive initial window."
  },
  {
   "property": "C63",
   "status": "partial",
   "theorems": [
    "Lukko.C63_partial",
    "Lukko.C63_unchanged",
    "Lukko.C63_no_mounts_violated"
   ],
   "note": "False for accounts without mounts (C63_no_mounts_violated). Proved: no mounted part containing the home directory is writable; nothing else changes."
  },
  {
   "property": "C64",
   "status": "partial",
   "theorems": [
    "Lukko.C64_exact_partial",
    "Lukko.C64_before_end_partial",
    "Lukko.C64_after_eof_partial",
    "Lukko.C64_terminal_partial",
    "Lukko.C64_message_after_eof_violated",
    "Lukko.C64_terminal_violated"
   ],
   "note": "Standard output and standard error: proved for clients which ask for one process and without messages by the server (exact, before end-of-file, nothing after end-of-file). Terminals: initial part. Refuted: message after end-of-file when a process can not be executed; lost terminal output at hang-up with exhausted window."
  },
  {
   "property": "C65",
   "status": "partial",
   "theorems": [
    "Lukko.C65_waits_partial",
    "Lukko.C65_delivered_partial",
    "Lukko.C65_violated"
   ],
   "note": "Proved for clients which ask for one process only and for a terminal only before it (C65_waits_partial, C65_delivered_partial); false otherwise (C65_violated)."
  },
  {
   "property": "C66",
   "status": "partial",
   "theorems": [
    "Lukko.C66_offered_partial",
    "Lukko.C66_only_offered",
    "Lukko.C66_empty_violated"
   ],
   "note": "False as stated: after a negative answer of the translation server (e.g. a wrong password) or a request for another service the list is empty (C66_empty_violated). Proved: every other failure lists exactly the usable methods, and only usable methods (or accounts needing no password) succeed."
  },
  {
   "property": "C67",
   "status": "proved",
   "theorems": [
    "Lukko.C67_program",
    "Lukko.C67_env",
    "Lukko.C67_env_granted",
    "Lukko.C67_exec_runs"
   ],
   "note": "Program, arguments, variables; and that granted requests take effect. Arguments of rsync: unless the command line ends in a lone backslash; git: see C44."
  },
  {
   "property": "C68",
   "status": "proved",
   "theorems": [
    "Lukko.C68_prefix",
    "Lukko.C68_rest"
   ],
   "note": "Proved for every sequence of events."
  },
  {
   "property": "C69",
   "status": "partial",
   "theorems": [
    "Lukko.C69_partial",
    "Lukko.C69_data_after_eof_violated",
    "Lukko.C69_eof_twice_violated",
    "Lukko.C69_extended_data_violated",
    "Lukko.C69_sftp_terminal_violated"
   ],
   "note": "Proved for clients which ask for one process, send nothing after end-of-file and no extended data; false otherwise (four witnesses; see also C42_assertion_violated)."
  },
  {
   "property": "C70",
   "status": "partial",
   "theorems": [
    "Lukko.C70_held",
    "Lukko.C70_order",
    "Lukko.C70_resumed",
    "Lukko.C70_progress_partial",
    "Lukko.C70_deadlock_violated"
   ],
   "note": "Exactness, order and absence of lost wake-ups are proved. The session stalls for ever if both connections are exchanging keys at the same time (C70_deadlock_violated); C70_progress_partial excludes stalls otherwise."
  },
  {
   "property": "C71",
   "status": "partial",
   "theorems": [
    "Lukko.C71_encode",
    "Lukko.C71_decode",
    "Lukko.C71_decode_sound",
    "Lukko.C71_injective",
    "Lukko.C71_sign",
    "Lukko.C71_signs",
    "Lukko.C71_verify",
    "Lukko.C71_login",
    "Lukko.C71_algorithm_violated",
    "Lukko.C71_offered_violated"
   ],
   "note": "False in two clauses: the algorithm named in the login request is not compared with the one in the signature (C71_algorithm_violated), and without libmd an RSA key offers ssh-rsa but cannot sign with it (C71_offered_violated). All others are proved. The primitives of the crypto library are parameters."
  },
  {
   "property": "C72",
   "status": "partial",
   "theorems": [
    "Lukko.C72_loads",
    "Lukko.C72_armored",
    "Lukko.C72_sound",
    "Lukko.C72_encrypted",
    "Lukko.C72_file",
    "Lukko.C72_consistent_violated"
   ],
   "note": "False in the last clause: public and secret part are not compared (C72_consistent_violated). All others are proved. The crypto library and the base64 decoder are parameters."
  },
  {
   "property": "C73",
   "status": "proved",
   "theorems": [
    "Lukko.C73_request",
    "Lukko.C73_public_key_request",
    "Lukko.C73_request_built",
    "Lukko.C73_accepted",
    "Lukko.C73_proper",
    "Lukko.C73_no_assertion",
    "Lukko.C73_authenticated",
    "Lukko.C73_early",
    "Lukko.C73_complete"
   ],
   "note": ""
  },
  {
   "property": "C74",
   "status": "partial",
   "theorems": [
    "Lukko.C74_limit",
    "Lukko.C74_bound",
    "Lukko.C74_not_early",
    "Lukko.C74_logged_in",
    "Lukko.C74_proxied_violated"
   ],
   "note": "The last sentence is false when the session is proxied (C74_proxied_violated): the timer is cancelled before the target is contacted, and nothing limits how long the target may take. The rest is proved. Timers are assumed to expire when they are due."
  },
  {
   "property": "C75",
   "status": "partial",
   "theorems": [
    "Lukko.C75_proper_partial",
    "Lukko.C75_violated",
    "Lukko.C75_once",
    "Lukko.C75_released",
    "Lukko.C75_quiet_partial"
   ],
   "note": "False while a login at the target of a proxied session is in progress (C75_violated): its success is not prevented by DoDisconnect. Proved for all histories in which no target login succeeds after DISCONNECT. What handlers do while the connection is alive is an arbitrary sequence of operations."
  },
  {
   "property": "C76",
   "status": "partial",
   "theorems": [
    "Lukko.C76_offered",
    "Lukko.C76_granted",
    "Lukko.C76_permitted",
    "Lukko.C76_cancel",
    "Lukko.C76_joined",
    "Lukko.C76_ended",
    "Lukko.C76_stopped",
    "Lukko.C76_violated",
    "Lukko.C76_cancelled_partial",
    "Lukko.C76_port_violated",
    "Lukko.C76_port_partial"
   ],
   "note": "Two parts are false: a cancel request has no effect on a forwarding whose port is still being bound (C76_violated; C76_cancelled_partial: nothing is offered after a cancel request if no request for it is unanswered), and with port 0 the client is not told the port (C76_port_violated; C76_port_partial: correct for other ports). The rest is proved for all histories, composed with the model of logins and requests (Model/Auth)."
  },
  {
   "property": "C77",
   "status": "partial",
   "theorems": [
    "Lukko.C77_accepted_partial",
    "Lukko.C77_meaning_partial",
    "Lukko.C77_loaded_partial",
    "Lukko.C77_keys",
    "Lukko.C77_forward",
    "Lukko.C77_target_violated",
    "Lukko.C77_ack_violated"
   ],
   "note": "Two parts are false: files with the documented section target_host are refused (C77_target_violated), and ack_timeout overflows at 4294968 seconds (C77_ack_violated). The _partial theorems cover all other files (exact characterisation of acceptance, and meaning). The tokenizer and the nested parser of libcommon are not in the repository: the model starts from lines of tokens."
  },
  {
   "property": "C78",
   "status": "partial",
   "theorems": [
    "Lukko.C78_exact_partial",
    "Lukko.C78_obedient_partial",
    "Lukko.C78_limit_partial",
    "Lukko.C78_cancelled_violated",
    "Lukko.C78_limit_violated"
   ],
   "note": "False for requests cancelled before they were confirmed: the tombstone uses the window of the peer instead of ours (C78_cancelled_violated, C78_limit_violated). Proved for all other histories (and if the peer's window happens to be the same)."
  },
  {
   "property": "C79",
   "status": "partial",
   "theorems": [
    "Lukko.C79_account",
    "Lukko.C79_tcp_partial",
    "Lukko.C79_tcp_violated",
    "Lukko.C79_address_partial",
    "Lukko.C79_address_violated",
    "Lukko.C79_local",
    "Lukko.C79_program_partial",
    "Lukko.C79_sftp_violated",
    "Lukko.C79_sftp_settings_violated",
    "Lukko.C79_service_user_violated",
    "Lukko.C79_keys_partial",
    "Lukko.C79_keys_violated"
   ],
   "note": "Proved: the account is that of the logged-in user (C79_account); TCP with a translation server, local sockets, programs (if SFTP settings name a program or the default one is installed), the key file. False without a translation server for TCP (C79_tcp_violated), for SFTP settings without a program (C79_sftp_violated, C79_sftp_settings_violated), for service settings without a user (C79_service_user_violated), for names with NUL bytes (C79_address_violated) and for accounts with a working directory (C79_keys_violated)."
  },
  {
   "property": "C80",
   "status": "proved",
   "theorems": [
    "Lukko.C80_asked",
    "Lukko.C80_offered",
    "Lukko.C80_joined",
    "Lukko.C80_dropped",
    "Lukko.C80_ended",
    "Lukko.C80_over",
    "Lukko.C80_answered",
    "Lukko.C80_available"
   ],
   "note": "The option no-agent-forwarding of authorized keys is ignored by the server on purpose (documented); it is not part of the property. Failure to create the socket (libcommon) terminates the server, like other failures in PrepareExec."
  },
  {
   "property": "C81",
   "status": "proved",
   "theorems": [
    "Lukko.C81_identification",
    "Lukko.C81_turned_away"
   ],
   "note": "The socket is assumed to take the message as a whole (it is new, its buffer is empty). What the kernel does with it when the client has already sent something (the socket is closed with unread input) is not modelled."
  },
  {
   "property": "C82",
   "status": "partial",
   "theorems": [
    "Lukko.C82_only_asked",
    "Lukko.C82_announced",
    "Lukko.C82_complete",
    "Lukko.C82_usable",
    "Lukko.C82_again_violated"
   ],
   "note": "False in one clause: EXT_INFO is sent also after later key exchanges if the client asks for it again (C82_again_violated; RFC 8308 section 2.4 allows it only after the first NEWKEYS). The rest is proved; each announced algorithm is usable, ssh-rsa if the server was built with libmd."
  },
  {
   "property": "C83",
   "status": "proved",
   "theorems": [
    "Lukko.C83_any_server",
    "Lukko.C83_authentic",
    "Lukko.C83_protected"
   ],
   "note": "Stated as a reduction: agreement, or an explicit forgery (a signature which verifies over a hash which the holder never signed), or an explicit collision of the hash. The hash, the signature scheme and the network are parameters. Packets are assumed to be shorter than 2^32 bytes (they are: C03). A client's first exchange may coincide with a later exchange of a server's connection (a relay inside an encrypted connection); then the session identifiers and hence the keys differ."
  },
  {
   "property": "C84",
   "status": "proved",
   "theorems": [
    "Lukko.C84_end_to_end"
   ],
   "note": "Composition of the key exchange (session identifier, C14), the exchange hash (C16) and authentication (C30, C31); the same kind of reduction as C83."
  },
  {
   "property": "C85",
   "status": "partial",
   "theorems": [
    "Lukko.C85_last",
    "Lukko.C85_reason_partial",
    "Lukko.C85_disconnect",
    "Lukko.C85_bad_request",
    "Lukko.C85_bad_open",
    "Lukko.C85_bad_login",
    "Lukko.C85_pipelining_violated",
    "Lukko.C85_debug_violated",
    "Lukko.C85_password_change_violated"
   ],
   "note": "The claim as stated is false (C85_pipelining_violated, C85_debug_violated, C85_password_change_violated): this server does not tolerate other messages while a login is being processed, nor requests to change the password. C85_reason_partial says that these are the only two exceptions. Messages of open channels are in C22 and others; the transport layer's messages in C60."
  },
  {
   "property": "C86",
   "status": "partial",
   "theorems": [
    "Lukko.C86_answer_partial",
    "Lukko.C86_alike_partial",
    "Lukko.C86_malformed_violated",
    "Lukko.C86_service_violated"
   ],
   "note": "The claim as stated is false: malformed requests tell (C86_malformed_violated), and so does the list of methods if there is an account service (C86_service_violated). Proved without account service for requests whose fields are well-formed (C86_answer_partial, C86_alike_partial). Timing is not part of the model."
  },
  {
   "property": "C87",
   "status": "partial",
   "theorems": [
    "Lukko.C87_no_assertion_fails",
    "Lukko.C87_received",
    "Lukko.C87_sent",
    "Lukko.C87_written_partial",
    "Lukko.C87_written_violated"
   ],
   "note": "C87_no_assertion_fails, C87_received and C87_sent are complete. The order on the wire is false if two key exchanges are completed before the worker thread runs (C87_written_violated); proved otherwise (C87_written_partial)."
  },
  {
   "property": "C88",
   "status": "partial",
   "theorems": [
    "Lukko.C88_epoch",
    "Lukko.C88_end_to_end",
    "Lukko.C88_terrapin_violated"
   ],
   "note": "C88_end_to_end: a client of Lukko servers, every set of keys, ideal cipher (AcceptsOnly, a hypothesis about the sender's numbering only). C88_epoch: any peer, in terms of the receiver's numbering. False for a server whose client does not know the strict key exchange (C88_terrapin_violated); a server cannot know who the client is before the login (see C84)."
  },
  {
   "property": "C89",
   "status": "partial",
   "theorems": [
    "Lukko.C89_session_partial",
    "Lukko.C89_socket_partial",
    "Lukko.C89_violated"
   ],
   "note": "Proved if the maximum is at least 4096, the size of the buffers. False otherwise: the value is parsed and ignored (C89_violated)."
  },
  {
   "property": "C90",
   "status": "partial",
   "theorems": [
    "Lukko.C90_reported",
    "Lukko.C90_code",
    "Lukko.C90_signal_partial",
    "Lukko.C90_signal_violated"
   ],
   "note": "C90_reported and C90_code are complete. False for signals: descriptions such as 'Killed' are sent instead of the names of RFC 4254 such as 'KILL', for every signal of its list (C90_signal_violated); everything else in this message is correct (C90_signal_partial)."
  },
  {
   "property": "C91",
   "status": "proved",
   "theorems": [
    "Lukko.C91_named",
    "Lukko.C91_counted",
    "Lukko.C91_answered"
   ],
   "note": "The number is the one that a sequential reader (Spec/Stream) assigns to the packet; modulo 2^32 on the wire."
  },
  {
   "property": "C92",
   "status": "partial",
   "theorems": [
    "Lukko.C92_replies_partial",
    "Lukko.C92_violated"
   ],
   "note": "Proved: at most four packets for each received one (C92_replies_partial). The limit itself does not exist (C92_violated): reading goes on while the output is blocked, so a peer which sends unknown messages makes the server store any number of replies, even before authentication (until its timeout)."
  },
  {
   "property": "C93",
   "status": "proved",
   "theorems": [
    "Lukko.C93_no_assertion_fails",
    "Lukko.C93_requests",
    "Lukko.C93_clear",
    "Lukko.C93_answers",
    "Lukko.C93_before_login",
    "Lukko.C93_login"
   ],
   "note": "Composition of the transport model (C87-C92) with the authentication model (C29-C39). Answers to channel and global requests are arbitrary packets here (their contents are C38, C40-C43, C56). Messages which do not fit into 64 kB are excluded from C93_answers (they abort the process; those of the authentication are shorter than the request)."
  },
  {
   "property": "C94",
   "status": "proved",
   "theorems": [
    "Lukko.C94_holder"
   ],
   "note": "Hypotheses in the statement: the client announces strict key exchange and chooses its own ephemeral keys; ideal cipher: with keys from an exchange with one of its ephemeral keys, only its own packets are accepted. Without strict key exchange see C88_terrapin_violated."
  },
  {
   "property": "C95",
   "status": "partial",
   "theorems": [
    "Lukko.C95_answer_sound",
    "Lukko.C95_answer_partial",
    "Lukko.C95_excess_violated"
   ],
   "note": "C95_answer_sound and C95_answer_partial hold for all answers and all pieces. False: bytes behind the answer are noticed only if they arrive together with its end (C95_excess_violated). The packet parser of libcommon is not in the repository; its way of taking pieces of packets is assumed."
  },
  {
   "property": "C96",
   "status": "proved",
   "theorems": [
    "Lukko.C96_no_assertion_fails",
    "Lukko.C96_connection",
    "Lukko.C96_said",
    "Lukko.C96_distinct",
    "Lukko.C96_restrictions",
    "Lukko.C96_process",
    "Lukko.C96_input",
    "Lukko.C96_output",
    "Lukko.C96_holder"
   ],
   "note": "Composition of C93/C94 (connection), C66-C68 (session) and C79 (identity). Channels of other kinds only take up numbers; that an exception in a session closes the connection is left out (more behaviours than the program has)."
  },
  {
   "property": "C97",
   "status": "partial",
   "theorems": [
    "Lukko.C97_server_first",
    "Lukko.C97_identity_partial",
    "Lukko.C97_sftp",
    "Lukko.C97_home",
    "Lukko.C97_original_partial",
    "Lukko.C97_agent",
    "Lukko.C97_others",
    "Lukko.C97_services",
    "Lukko.C97_no_client",
    "Lukko.C97_granted",
    "Lukko.C97_login_shell",
    "Lukko.C97_unique_violated",
    "Lukko.C97_original_violated"
   ],
   "note": "False of the code in two points: a variable may have several entries, so programs which use the last one see the client's value (C97_unique_violated); with a forced command and a request for a shell the client sets SSH_ORIGINAL_COMMAND itself (C97_original_violated). Everything else is proved."
  },
  {
   "property": "C98",
   "status": "proved",
   "theorems": [
    "Lukko.C98_no_failure",
    "Lukko.C98_agreement",
    "Lukko.C98_keys",
    "Lukko.C98_same_cipher",
    "Lukko.C98_settled",
    "Lukko.C98_ends",
    "Lukko.C98_settles"
   ],
   "note": "Hypothesis `Compatible`: same hash (32 bytes), cookies of 16 bytes, messages of the key exchange fit into packets, the server has a host key which the client accepts and whose signatures verify, both sides compute the same Diffie-Hellman secret. The applications do not send DISCONNECT or packets of the key exchange and their handlers do not throw."
  },
  {
   "property": "C99",
   "status": "partial",
   "theorems": [
    "Lukko.C99_accepted",
    "Lukko.C99_accepted_partial",
    "Lukko.C99_accepted_violated",
    "Lukko.C99_failed",
    "Lukko.C99_failed_partial",
    "Lukko.C99_failed_violated",
    "Lukko.C99_received",
    "Lukko.C99_closed_partial",
    "Lukko.C99_closed_violated"
   ],
   "note": "False of the code in three ways, each with a witness: an account with NO_PASSWORD is counted as accepted password even if the request fails, or in addition to the key; failures of requests for another service, for the method none and for changing the password are not counted; a key that cannot be parsed is counted as a closed connection which is not closed. The partial theorems say that these are the only exceptions."
  },
  {
   "property": "C100",
   "status": "proved",
   "theorems": [
    "Lukko.C100_charged",
    "Lukko.C100_delayed",
    "Lukko.C100_slow",
    "Lukko.C100_rate",
    "Lukko.C100_limit_parallel",
    "Lukko.C100_limit_free"
   ],
   "note": "C100_limit_parallel and C100_limit_free state what the property does not promise: the delay is per connection, so parallel connections check passwords at the same time; requests to change the password are never charged."
  },
  {
   "property": "C101",
   "status": "proved",
   "theorems": [
    "Lukko.C101_prices",
    "Lukko.C101_counted"
   ],
   "note": "The price list is the inductive relation Spec.Price; C101_prices holds for every function below it."
  },
  {
   "property": "C102",
   "status": "partial",
   "theorems": [
    "Lukko.C102_volume",
    "Lukko.C102_interval",
    "Lukko.C102_history",
    "Lukko.C102_unattended_violated",
    "Lukko.C102_asserts_partial",
    "Lukko.C102_stalled_violated"
   ],
   "note": "C102_volume and C102_interval hold as stated. A key exchange that the peer does not finish (NEWKEYS withheld) suspends both limits for ever: C102_stalled_violated. The timer is also started before the login, and an hour without login fails assert(authenticated): C102_unattended_violated (an incoming connection is closed by the login timeout before, a connection to a proxy target is not); C102_asserts_partial shows that this is the only failing assertion. C102_history ties the times to the history of the connection. Timers are assumed to be punctual (libcommon)."
  },
  {
   "property": "C103",
   "status": "partial",
   "theorems": [
    "Lukko.C103_to_client",
    "Lukko.C103_to_host",
    "Lukko.C103_end_to_host",
    "Lukko.C103_complete",
    "Lukko.C103_flow",
    "Lukko.C103_drain",
    "Lukko.C103_half_close_violated",
    "Lukko.C103_isolation_violated",
    "Lukko.C103_isolation_partial"
   ],
   "note": "C103_to_client, C103_to_host, C103_end_to_host, C103_complete, C103_flow and C103_drain hold as stated (C103_complete assumes that recv() fills the buffer when the peer has hung up, as the code does). False of the code: when the host ends only its own direction, the channel is closed and data of the client is lost (C103_half_close_violated); a host that aborts its connection can take down the whole SSH connection with the other channels (C103_isolation_violated; C103_isolation_partial: besides this only a client that breaks the rules does)."
  },
  {
   "property": "C104",
   "status": "partial",
   "theorems": [
    "Lukko.C104_conservation",
    "Lukko.C104_counters",
    "Lukko.C104_one_line",
    "Lukko.C104_exit",
    "Lukko.C104_counted_partial",
    "Lukko.C104_protocol_violated",
    "Lukko.C104_terminated_violated",
    "Lukko.C104_uncounted_violated"
   ],
   "note": "C104_conservation, C104_counters, C104_one_line and C104_exit hold as stated. That each closed connection is counted once is false: each unparsable key counts as a closed connection although the connection goes on (C104_protocol_violated), connections whose good-bye is still being sent are counted again by further orders (C104_terminated_violated), and hang-ups, timeouts and disconnects are counted under no reason (C104_uncounted_violated). C104_counted_partial: at most one count besides those for unparsable keys and for orders. Why connections are admitted (C46) and why they end (C85) are parameters here."
  },
  {
   "property": "C105",
   "status": "proved",
   "theorems": [
    "Lukko.C105_no_assertion_fails",
    "Lukko.C105_connection",
    "Lukko.C105_asked",
    "Lukko.C105_distinct",
    "Lukko.C105_to_host",
    "Lukko.C105_to_client",
    "Lukko.C105_complete",
    "Lukko.C105_holder"
   ],
   "note": "For channels for which the client has granted a window (0 < window, as in C105). Other kinds of channels only occupy numbers. What is left out: that a channel which throws closes the connection (its own record stops), and messages to channels which are not yet connected."
  },
  {
   "property": "C106",
   "status": "proved",
   "theorems": [
    "Lukko.C106_no_assertion_fails",
    "Lukko.C106_messages",
    "Lukko.C106_clear",
    "Lukko.C106_login",
    "Lukko.C106_sent"
   ],
   "note": "The proxy's host key must be a good one (C73). What the proxy sends, and when, is C107."
  },
  {
   "property": "C107",
   "status": "proved",
   "theorems": [
    "Lukko.C107_no_assertion_fails",
    "Lukko.C107_halves",
    "Lukko.C107_user",
    "Lukko.C107_to_target",
    "Lukko.C107_to_client"
   ],
   "note": "The two connections are those of C93/C94 and C106 (C107_halves). The destruction of objects during a callback is C75's subject and not part of this model; what happens on the connection to the target after the client's has ended is not followed."
  },
  {
   "property": "C108",
   "status": "proved",
   "theorems": [
    "Lukko.C108_behind",
    "Lukko.C108_order",
    "Lukko.C108_origin"
   ],
   "note": "Signatures, the hash and the cipher are parameters: the conclusions are alternatives to a forgery or a collision; the cipher is assumed to be ideal, as in C94. The order across changes of keys is stated for each set of keys (C94), not as a whole."
  },
  {
   "property": "C109",
   "status": "proved",
   "theorems": [
    "Lukko.C109_starts",
    "Lukko.C109_running",
    "Lukko.C109_fails",
    "Lukko.C109_config",
    "Lukko.C109_config_nothing",
    "Lukko.C109_command_line",
    "Lukko.C109_unusable",
    "Lukko.C109_stable",
    "Lukko.C109_authorized_silent",
    "Lukko.C109_authorized"
   ],
   "note": "A list of authorized keys which exists but may not be opened counts as empty, silently (C109_authorized_silent). SetupProcess, LaunchSpawnServer, SocketConfig::Create and CapabilityState::Install (libcommon) may succeed or fail."
  },
  {
   "property": "C110",
   "status": "proved",
   "theorems": [
    "Lukko.C110_no_assertion_fails",
    "Lukko.C110_connection",
    "Lukko.C110_offered",
    "Lukko.C110_told",
    "Lukko.C110_distinct",
    "Lukko.C110_joined",
    "Lukko.C110_to_host",
    "Lukko.C110_to_client",
    "Lukko.C110_complete",
    "Lukko.C110_ended",
    "Lukko.C110_listens",
    "Lukko.C110_holder"
   ],
   "note": "Transport theorems are for channels for which the client has granted a window (0 < window, as in C105). Other kinds of channels only occupy numbers. What is left out: that a channel which throws closes the connection (its own record stops), messages to channels which are not yet confirmed, and the use after free when the client refuses a connection (C23), which is taken to close the connection."
  },
  {
   "property": "C111",
   "status": "proved",
   "theorems": [
    "Lukko.C111_secret",
    "Lukko.C111_distinct",
    "Lukko.C111_same",
    "Lukko.C111_server",
    "Lukko.C111_client",
    "Lukko.C111_pair"
   ],
   "note": "The Diffie-Hellman functions (libsodium, OpenSSL) are parameters: their commutativity is a hypothesis, and that OpenSSL refuses what is not a point of the curve is part of the function."
  },
  {
   "property": "C112",
   "status": "proved",
   "theorems": [
    "Lukko.C112_no_assertion_fails",
    "Lukko.C112_sessions",
    "Lukko.C112_tunnels",
    "Lukko.C112_listeners",
    "Lukko.C112_distinct",
    "Lukko.C112_at_most_64",
    "Lukko.C112_one_kind",
    "Lukko.C112_input",
    "Lukko.C112_output",
    "Lukko.C112_to_host",
    "Lukko.C112_to_client"
   ],
   "note": "The theorems hold for the model without further hypotheses. Not included: channels for the agent, the disconnect after a message for a channel which does not exist or when a channel throws (as in C96, C105, C110)."
  },
  {
   "property": "C113",
   "status": "proved",
   "theorems": [
    "Lukko.C113_no_assertion_fails",
    "Lukko.C113_house",
    "Lukko.C113_no_such_channel",
    "Lukko.C113_told",
    "Lukko.C113_no_exception",
    "Lukko.C113_session_heard",
    "Lukko.C113_host_heard",
    "Lukko.C113_caller_heard",
    "Lukko.C113_otherwise",
    "Lukko.C113_adjust_zero"
   ],
   "note": "The theorems hold for the model without further hypotheses, on a connection without channels for the agent. A channel which was closed by the server but not by the client ignores further messages; that their sizes are checked against the window is not included."
  },
  {
   "property": "C114",
   "status": "proved",
   "theorems": [
    "Lukko.C114_no_assertion_fails",
    "Lukko.C114_before",
    "Lukko.C114_nothing_left",
    "Lukko.C114_the_end",
    "Lukko.C114_forever",
    "Lukko.C114_closed_session"
   ],
   "note": "The theorems hold for the model without further hypotheses, on a connection without channels for the agent. That destroying a process handle kills the process is assumed (libcommon, SpawnService)."
  },
  {
   "property": "C115",
   "status": "proved",
   "theorems": [
    "Lukko.C115_nothing_invented",
    "Lukko.C115_nothing_lost",
    "Lukko.C115_origin"
   ],
   "note": "The theorems hold for the model without further hypotheses. Data of agent channels is an event there, and appears as such in the statements. Messages which do not fit into a packet are not sent (then an exception is thrown, C05); in C115_nothing_lost this is a hypothesis."
  },
  {
   "property": "C116",
   "status": "proved",
   "theorems": [
    "Lukko.C116_allowed",
    "Lukko.C116_one_channel"
   ],
   "note": "The theorems hold for the model without further hypotheses. What the server to which the connection is passed on as a whole sends, and what agent channels send (an event in this model; see C24 for their windows), is counted separately in C116_allowed, and is absent by hypothesis in C116_one_channel."
  },
  {
   "property": "C117",
   "status": "proved",
   "theorems": [
    "Lukko.C117_returned",
    "Lukko.C117_one_channel"
   ],
   "note": "What the server to which the connection is passed on as a whole sends, and what agent channels send (an event in this model), is counted separately in C117_returned, and is absent by hypothesis in C117_one_channel. The theorems bound the adjustments by the data received; the last sentence of the statement is the same inequality, with the initial window added on both sides. The concrete whole-connection run beside the theorem receives data but not the half megabyte which makes an adjustment due; an adjustment is shown for a channel by itself."
  }
 ]
}