import Verif.Proof.Messages
/-
  Property C05: every message is laid out as the RFC says, parses back to the
  same fields, and parsers demanding the end of the packet reject trailing
  bytes and truncation.
-/
namespace Lukko
open Model

/-- What a builder does: the message if it fits into the 64 kB buffer, else the
given error. -/
def Builds (made : Except SerError Ser) (number : UInt8) (body : Bytes) (onError : SerError) : Prop :=
  made = if 6 + body.length ≤ BUFFER_SIZE then .ok ⟨[0, 0, 0, 0, 0, number] ++ body⟩
    else .error onError

/-- **C05** DISCONNECT. -/
theorem C05_disconnect (reason : Nat) (msg : Bytes)
    (hr : reason < 2 ^ 32) (hm : msg.length < 2 ^ 32) :
    Builds (makeDisconnect reason msg) MSG_DISCONNECT
      (Spec.disconnectBody reason msg (ascii "en")) .terminate ∧
    Exact parseDisconnect (Spec.disconnectBody reason msg (ascii "en")) ⟨reason, msg⟩ :=
  ⟨Writes.noexcept_begin ((Writes.u32 _).bind ((Writes.str _).bind ((Writes.str _)))) MSG_DISCONNECT,
   Exact.bind (readU32_reads hr) (readU32_prefix _) (Exact.bind (readString_reads hm) (readString_prefix hm) (Exact.last (readString_reads (s := ascii "en") (by decide)) (readString_prefix (s := ascii "en") (by decide)) (Exact.endPure _)))⟩

example := C05_disconnect 11 (ascii "bye") (by decide) (by decide)

/-- **C05** SERVICE_REQUEST. -/
theorem C05_service_request (service : Bytes)
    (hm : service.length < 2 ^ 32) :
    Builds (makeServiceRequest service) MSG_SERVICE_REQUEST
      (Spec.serviceBody service) .terminate ∧
    Exact parseServiceRequest (Spec.serviceBody service) service :=
  ⟨Writes.noexcept_begin ((Writes.str _)) MSG_SERVICE_REQUEST,
   Exact.last (readString_reads hm) (readString_prefix hm) (Exact.endPure _)⟩

example := C05_service_request (ascii "ssh-userauth") (by decide)

/-- **C05** SERVICE_ACCEPT. -/
theorem C05_service_accept (service : Bytes)
    (hm : service.length < 2 ^ 32) :
    Builds (makeServiceAccept service) MSG_SERVICE_ACCEPT
      (Spec.serviceBody service) .terminate ∧
    Exact parseServiceAccept (Spec.serviceBody service) service :=
  ⟨Writes.noexcept_begin ((Writes.str _)) MSG_SERVICE_ACCEPT,
   Exact.last (readString_reads hm) (readString_prefix hm) (Exact.endPure _)⟩

example := C05_service_accept (ascii "ssh-userauth") (by decide)

/-- **C05** ECDH_KEX_INIT. -/
theorem C05_ecdh_init (eph : Bytes)
    (hm : eph.length < 2 ^ 32) :
    Builds (makeECDHKexInit eph) MSG_ECDH_KEX_INIT
      (Spec.ecdhInitBody eph) .packetTooLarge ∧
    Exact parseECDHKexInit (Spec.ecdhInitBody eph) eph :=
  ⟨Writes.begin (((Writes.writeN _).withLength)) MSG_ECDH_KEX_INIT,
   Exact.last (readString_reads hm) (readString_prefix hm) (Exact.endPure _)⟩

example := C05_ecdh_init [1, 2, 3] (by decide)

/-- **C05** ECDH_KEX_INIT_REPLY. -/
theorem C05_ecdh_reply (key eph sig : Bytes)
    (hk : key.length < 2 ^ 32) (he : eph.length < 2 ^ 32) (hs : sig.length < 2 ^ 32) :
    Builds (makeECDHKexInitReply key eph sig) MSG_ECDH_KEX_INIT_REPLY
      (Spec.ecdhReplyBody key eph sig) .packetTooLarge ∧
    Exact parseECDHKexInitReply (Spec.ecdhReplyBody key eph sig) ⟨key, eph, sig⟩ :=
  ⟨Writes.begin (((Writes.writeN _).withLength).bind (((Writes.writeN _).withLength).bind (((Writes.writeN _).withLength)))) MSG_ECDH_KEX_INIT_REPLY,
   Exact.bind (readString_reads hk) (readString_prefix hk) (Exact.bind (readString_reads he) (readString_prefix he) (Exact.last (readString_reads hs) (readString_prefix hs) (Exact.endPure _)))⟩

example := C05_ecdh_reply [1, 2, 3] [4] [] (by decide) (by decide) (by decide)

/-- **C05** CHANNEL_OPEN_FAILURE. -/
theorem C05_channel_open_failure (recipient reason : Nat) (description : Bytes)
    (h1 : recipient < 2 ^ 32) (h2 : reason < 2 ^ 32) (h3 : description.length < 2 ^ 32) :
    Builds (makeChannelOpenFailure recipient reason description) MSG_CHANNEL_OPEN_FAILURE
      (Spec.channelOpenFailureBody recipient reason description (ascii "en")) .terminate ∧
    Exact parseChannelOpenFailure (Spec.channelOpenFailureBody recipient reason description (ascii "en")) ⟨recipient, reason, description⟩ :=
  ⟨Writes.noexcept_begin ((Writes.u32 _).bind ((Writes.u32 _).bind ((Writes.str _).bind ((Writes.str _))))) MSG_CHANNEL_OPEN_FAILURE,
   Exact.bind (readU32_reads h1) (readU32_prefix _) (Exact.bind (readU32_reads h2) (readU32_prefix _) (Exact.bind (readString_reads h3) (readString_prefix h3) (Exact.last (readString_reads (s := ascii "en") (by decide)) (readString_prefix (s := ascii "en") (by decide)) (Exact.endPure _))))⟩

example := C05_channel_open_failure 7 1 (ascii "no") (by decide) (by decide) (by decide)

/-- **C05** CHANNEL_WINDOW_ADJUST. -/
theorem C05_window_adjust (recipient n : Nat)
    (h1 : recipient < 2 ^ 32) (h2 : n < 2 ^ 32) :
    Builds (makeChannelWindowAdjust recipient n) MSG_CHANNEL_WINDOW_ADJUST
      (Spec.windowAdjustBody recipient n) .terminate ∧
    Exact parseChannelWindowAdjust (Spec.windowAdjustBody recipient n) ⟨recipient, n⟩ :=
  ⟨Writes.noexcept_begin ((Writes.u32 _).bind ((Writes.u32 _))) MSG_CHANNEL_WINDOW_ADJUST,
   Exact.bind (readU32_reads h1) (readU32_prefix _) (Exact.last (readU32_reads h2) (readU32_prefix _) (Exact.endPure _))⟩

example := C05_window_adjust 7 4294967295 (by decide) (by decide)

/-- **C05** CHANNEL_DATA. -/
theorem C05_channel_data (recipient : Nat) (data : Bytes)
    (h1 : recipient < 2 ^ 32) (h2 : data.length < 2 ^ 32) :
    Builds (makeChannelData recipient data) MSG_CHANNEL_DATA
      (Spec.channelDataBody recipient data) .packetTooLarge ∧
    Exact parseChannelData (Spec.channelDataBody recipient data) ⟨recipient, data⟩ :=
  ⟨Writes.begin ((Writes.u32 _).bind ((Writes.str _))) MSG_CHANNEL_DATA,
   Exact.bind (readU32_reads h1) (readU32_prefix _) (Exact.last (readString_reads h2) (readString_prefix h2) (Exact.endPure _))⟩

example := C05_channel_data 7 [1, 2] (by decide) (by decide)

/-- **C05** CHANNEL_EXTENDED_DATA. -/
theorem C05_channel_extended_data (recipient type : Nat) (data : Bytes)
    (h1 : recipient < 2 ^ 32) (h3 : type < 2 ^ 32) (h2 : data.length < 2 ^ 32) :
    Builds (makeChannelExtendedData recipient type data) MSG_CHANNEL_EXTENDED_DATA
      (Spec.channelExtendedDataBody recipient type data) .packetTooLarge ∧
    Exact parseChannelExtendedData (Spec.channelExtendedDataBody recipient type data) ⟨recipient, type, data⟩ :=
  ⟨Writes.begin ((Writes.u32 _).bind ((Writes.u32 _).bind ((Writes.str _)))) MSG_CHANNEL_EXTENDED_DATA,
   Exact.bind (readU32_reads h1) (readU32_prefix _) (Exact.bind (readU32_reads h3) (readU32_prefix _) (Exact.last (readString_reads h2) (readString_prefix h2) (Exact.endPure _)))⟩

example := C05_channel_extended_data 7 1 [1, 2] (by decide) (by decide) (by decide)

/-- **C05** CHANNEL_EOF. -/
theorem C05_channel_eof (recipient : Nat)
    (h1 : recipient < 2 ^ 32) :
    Builds (makeChannelEof recipient) MSG_CHANNEL_EOF
      (Spec.channelBody recipient) .terminate ∧
    Exact parseChannelEof (Spec.channelBody recipient) recipient :=
  ⟨Writes.noexcept_begin ((Writes.u32 _)) MSG_CHANNEL_EOF,
   Exact.last (readU32_reads h1) (readU32_prefix _) (Exact.endPure _)⟩

example := C05_channel_eof 9 (by decide)

/-- **C05** CHANNEL_CLOSE. -/
theorem C05_channel_close (recipient : Nat)
    (h1 : recipient < 2 ^ 32) :
    Builds (makeChannelClose recipient) MSG_CHANNEL_CLOSE
      (Spec.channelBody recipient) .terminate ∧
    Exact parseChannelClose (Spec.channelBody recipient) recipient :=
  ⟨Writes.noexcept_begin ((Writes.u32 _)) MSG_CHANNEL_CLOSE,
   Exact.last (readU32_reads h1) (readU32_prefix _) (Exact.endPure _)⟩

example := C05_channel_close 9 (by decide)

/-- **C05** CHANNEL_OPEN_CONFIRMATION (the type specific tail is passed on). -/
theorem C05_channel_open_confirmation (recipient sender window maxPacket : Nat) (rest : Bytes)
    (h1 : recipient < 2 ^ 32) (h2 : sender < 2 ^ 32) (h3 : window < 2 ^ 32) (h4 : maxPacket < 2 ^ 32) :
    Builds (makeChannelOpenConfirmation recipient sender window maxPacket) MSG_CHANNEL_OPEN_CONFIRMATION
      (Spec.channelOpenConfirmationBody recipient sender window maxPacket []) .terminate ∧
    parseChannelOpenConfirmation.parse
      (Spec.channelOpenConfirmationBody recipient sender window maxPacket rest)
      = some ⟨recipient, sender, window, maxPacket, rest⟩ := by
  constructor
  · have := Writes.noexcept_begin ((Writes.u32 recipient).bind ((Writes.u32 sender).bind
      ((Writes.u32 window).bind (Writes.u32 maxPacket)))) MSG_CHANNEL_OPEN_CONFIRMATION
    simpa [Builds, Spec.channelOpenConfirmationBody, makeChannelOpenConfirmation] using this
  · simp only [Parser.parse, parseChannelOpenConfirmation, Spec.channelOpenConfirmationBody,
      bind_apply, readU32_reads h1 _, readU32_reads h2 _, readU32_reads h3 _, readU32_reads h4 _]
    rfl

example := C05_channel_open_confirmation 1 2 3 4 [5] (by decide) (by decide) (by decide) (by decide)

/-- **C05** CHANNEL_OPEN. -/
theorem C05_channel_open (type : Bytes) (sender window maxPacket : Nat) (rest : Bytes)
    (h1 : type.length < 2 ^ 32) (h2 : sender < 2 ^ 32) (h3 : window < 2 ^ 32) (h4 : maxPacket < 2 ^ 32) :
    Builds (makeChannelOpen type sender window maxPacket rest) MSG_CHANNEL_OPEN
      (Spec.channelOpenBody type sender window maxPacket rest) .packetTooLarge ∧
    parseChannelOpen.parse (Spec.channelOpenBody type sender window maxPacket rest)
      = some ⟨type, sender, window, maxPacket, rest⟩ := by
  constructor
  · exact Writes.begin ((Writes.str type).bind ((Writes.u32 sender).bind ((Writes.u32 window).bind
      ((Writes.u32 maxPacket).bind (Writes.writeN rest))))) MSG_CHANNEL_OPEN
  · simp only [Parser.parse, parseChannelOpen, Spec.channelOpenBody, bind_apply,
      readString_reads h1 _, readU32_reads h2 _, readU32_reads h3 _, readU32_reads h4 _]
    rfl

example := C05_channel_open (ascii "session") 2 3 4 [5] (by decide) (by decide) (by decide) (by decide)

/-- **C05** CHANNEL_REQUEST (the request specific tail is passed on). -/
theorem C05_channel_request (recipient : Nat) (type : Bytes) (wantReply : Bool) (rest : Bytes)
    (h1 : recipient < 2 ^ 32) (h2 : type.length < 2 ^ 32) :
    Builds (makeChannelRequest recipient type wantReply) MSG_CHANNEL_REQUEST
      (Spec.channelRequestBody recipient type wantReply []) .terminate ∧
    parseChannelRequest.parse (Spec.channelRequestBody recipient type wantReply rest)
      = some ⟨recipient, type, wantReply, rest⟩ := by
  constructor
  · have := Writes.noexcept_begin ((Writes.u32 recipient).bind ((Writes.str type).bind
      (Writes.bool wantReply))) MSG_CHANNEL_REQUEST
    simpa [Builds, Spec.channelRequestBody, makeChannelRequest] using this
  · simp only [Parser.parse, parseChannelRequest, Spec.channelRequestBody, bind_apply,
      readU32_reads h1 _, readString_reads h2 _, readBool_reads wantReply _]
    rfl

example := C05_channel_request 1 (ascii "env") true [5] (by decide) (by decide)

/-- **C05** the exit-status request is RFC 4254 section 6.10 and parses back. -/
theorem C05_exit_status (recipient status : Nat) (h1 : recipient < 2 ^ 32) :
    makeExitStatus recipient status
      = .ok ⟨[0, 0, 0, 0, 0, MSG_CHANNEL_REQUEST] ++ Spec.exitStatusBody recipient status⟩ ∧
    parseChannelRequest.parse (Spec.exitStatusBody recipient status)
      = some ⟨recipient, ascii "exit-status", false, Spec.u32 status⟩ := by
  obtain ⟨hb, hp⟩ := C05_channel_request recipient (ascii "exit-status") false (Spec.u32 status) h1
    (by decide)
  refine ⟨?_, hp⟩
  have hl : (Spec.channelRequestBody recipient (ascii "exit-status") false []).length = 20 := by
    simp [Spec.channelRequestBody, Spec.str, Spec.bool]; decide
  rw [Builds, if_pos (by rw [hl]; decide)] at hb
  simp only [makeExitStatus, hb, bind, Except.bind]
  rw [writeU32_fits (by simp only [List.length_append, hl]; decide)]
  simp [noexcept, Spec.exitStatusBody, Spec.channelRequestBody]

example := C05_exit_status 1 255 (by decide)

/-- **C05** the exit-signal request. -/
theorem C05_exit_signal (recipient : Nat) (signal message : Bytes) (core : Bool)
    (h1 : recipient < 2 ^ 32) (hl : signal.length + message.length ≤ 60000) :
    makeExitSignal recipient signal core message
      = .ok ⟨[0, 0, 0, 0, 0, MSG_CHANNEL_REQUEST]
          ++ Spec.exitSignalBody recipient signal core message (ascii "en")⟩ ∧
    parseChannelRequest.parse (Spec.exitSignalBody recipient signal core message (ascii "en"))
      = some ⟨recipient, ascii "exit-signal", false,
          Spec.str signal ++ (Spec.bool core ++ (Spec.str message ++ Spec.str (ascii "en")))⟩ := by
  obtain ⟨hb, hp⟩ := C05_channel_request recipient (ascii "exit-signal") false
    (Spec.str signal ++ (Spec.bool core ++ (Spec.str message ++ Spec.str (ascii "en")))) h1 (by decide)
  refine ⟨?_, hp⟩
  have hl2 : (Spec.channelRequestBody recipient (ascii "exit-signal") false []).length = 20 := by
    simp [Spec.channelRequestBody, Spec.str, Spec.bool]; decide
  have hen : (ascii "en").length = 2 := by decide
  rw [Builds, if_pos (by rw [hl2]; decide)] at hb
  simp only [makeExitSignal, hb]
  show ((Ser.writeString _ signal) >>= fun s => s.writeBool core >>= fun s => s.writeString message >>=
    fun s => s.writeString (ascii "en")) = _
  have hw := ((Writes.str signal).bind ((Writes.bool core).bind ((Writes.str message).bind
    (Writes.str (ascii "en")))))
  rw [Writes.ok (s := ⟨[0, 0, 0, 0, 0, MSG_CHANNEL_REQUEST] ++ Spec.channelRequestBody recipient
    (ascii "exit-signal") false []⟩) hw]
  · simp [Spec.exitSignalBody, Spec.channelRequestBody]
  · simp only [List.length_append, hl2, Spec.str, Spec.bool, u32_length, List.length_cons,
      List.length_nil, hen, BUFFER_SIZE]; omega

example := C05_exit_signal 1 (ascii "KILL") [] true (by decide) (by decide)

/-- **C05** CHANNEL_SUCCESS / CHANNEL_FAILURE (the parser ignores trailing data,
so only round trip and truncation are claimed). -/
theorem C05_channel_response (recipient : Nat) (success : Bool) (h1 : recipient < 2 ^ 32) :
    Builds (makeChannelResponse recipient success)
      (if success then MSG_CHANNEL_SUCCESS else MSG_CHANNEL_FAILURE)
      (Spec.channelBody recipient) .terminate ∧
    Reads parseChannelResponse (Spec.channelBody recipient) recipient ∧
    FailsOnPrefix parseChannelResponse (Spec.channelBody recipient) := by
  refine ⟨Writes.noexcept_begin (Writes.u32 _) _, ?_, ?_⟩
  · intro rest
    simp only [parseChannelResponse, Spec.channelBody, readU32_reads h1 _]
  · intro e' he
    simp only [parseChannelResponse, readU32_prefix recipient e' he]

example := C05_channel_response 3 true (by decide)

/-- **C05** GLOBAL_REQUEST. -/
theorem C05_global_request (name : Bytes) (wantReply : Bool) (rest : Bytes)
    (h2 : name.length < 2 ^ 32) :
    Builds (makeGlobalRequest name wantReply) MSG_GLOBAL_REQUEST
      (Spec.globalRequestBody name wantReply []) .terminate ∧
    parseGlobalRequest.parse (Spec.globalRequestBody name wantReply rest)
      = some ⟨name, wantReply, rest⟩ := by
  constructor
  · have := Writes.noexcept_begin ((Writes.str name).bind (Writes.bool wantReply)) MSG_GLOBAL_REQUEST
    simpa [Builds, Spec.globalRequestBody, makeGlobalRequest] using this
  · simp only [Parser.parse, parseGlobalRequest, Spec.globalRequestBody, bind_apply,
      readString_reads h2 _, readBool_reads wantReply _]
    rfl

example := C05_global_request (ascii "keepalive@openssh.com") true [] (by decide)

/-- **C05** KEXINIT. -/
theorem C05_kexinit (cookie : Bytes) (p : KexProposal) (hc : cookie.length = 16)
    (h1 : p.kex.length < 2 ^ 32) (h2 : p.hostKey.length < 2 ^ 32)
    (h3 : p.encC2S.length < 2 ^ 32) (h4 : p.encS2C.length < 2 ^ 32)
    (h5 : p.macC2S.length < 2 ^ 32) (h6 : p.macS2C.length < 2 ^ 32)
    (h7 : p.compC2S.length < 2 ^ 32) (h8 : p.compS2C.length < 2 ^ 32)
    (h9 : p.langC2S.length < 2 ^ 32) (h10 : p.langS2C.length < 2 ^ 32) :
    Builds (makeKexInit cookie p) MSG_KEXINIT
      (Spec.kexInitBody cookie [p.kex, p.hostKey, p.encC2S, p.encS2C, p.macC2S, p.macS2C,
        p.compC2S, p.compS2C, p.langC2S, p.langS2C] false) .packetTooLarge ∧
    Exact parseKexInit
      (Spec.kexInitBody cookie [p.kex, p.hostKey, p.encC2S, p.encS2C, p.macC2S, p.macS2C,
        p.compC2S, p.compS2C, p.langC2S, p.langS2C] false)
      ⟨p.kex, p.hostKey, p.encC2S, p.encS2C, p.macC2S, p.macS2C, false⟩ := by
  constructor
  · have hw := (Writes.writeN cookie).bind
      (((Writes.str p.kex).bind ((Writes.str p.hostKey).bind ((Writes.str p.encC2S).bind
        ((Writes.str p.encS2C).bind ((Writes.str p.macC2S).bind ((Writes.str p.macS2C).bind
        ((Writes.str p.compC2S).bind ((Writes.str p.compS2C).bind ((Writes.str p.langC2S).bind
        (Writes.str p.langS2C)))))))))).bind ((Writes.bool false).bind (Writes.u32 0)))
    have := Writes.begin hw MSG_KEXINIT
    simpa [Builds, Spec.kexInitBody, makeKexInit, serializeProposal] using this
  · have e : Spec.kexInitBody cookie [p.kex, p.hostKey, p.encC2S, p.encS2C, p.macC2S, p.macS2C,
        p.compC2S, p.compS2C, p.langC2S, p.langS2C] false
        = cookie ++ (Spec.str p.kex ++ (Spec.str p.hostKey ++ (Spec.str p.encC2S ++
          (Spec.str p.encS2C ++ (Spec.str p.macC2S ++ (Spec.str p.macS2C ++ (Spec.str p.compC2S ++
          (Spec.str p.compS2C ++ (Spec.str p.langC2S ++ (Spec.str p.langS2C ++
          (Spec.bool false ++ Spec.u32 0))))))))))) := by
      simp [Spec.kexInitBody]
    rw [e]
    exact Exact.bind (readN_reads' hc) (readN_prefix hc)
      (Exact.bind (readString_reads h1) (readString_prefix h1)
      (Exact.bind (readString_reads h2) (readString_prefix h2)
      (Exact.bind (readString_reads h3) (readString_prefix h3)
      (Exact.bind (readString_reads h4) (readString_prefix h4)
      (Exact.bind (readString_reads h5) (readString_prefix h5)
      (Exact.bind (readString_reads h6) (readString_prefix h6)
      (Exact.bind (readString_reads h7) (readString_prefix h7)
      (Exact.bind (readString_reads h8) (readString_prefix h8)
      (Exact.bind (readString_reads h9) (readString_prefix h9)
      (Exact.bind (readString_reads h10) (readString_prefix h10)
      (Exact.bind (readBool_reads false) (readBool_prefix false)
      (Exact.last (readU32_reads (n := 0) (by decide)) (readU32_prefix 0)
      (Exact.endPure (⟨p.kex, p.hostKey, p.encC2S, p.encS2C, p.macC2S, p.macS2C, false⟩ : PKexInit))))))))))))))

example := C05_kexinit (List.replicate 16 9) ⟨[1], [2], [3], [4], [5], [6], [7], [8], [], []⟩ rfl
  (by decide) (by decide) (by decide) (by decide) (by decide) (by decide) (by decide) (by decide)
  (by decide) (by decide)

end Lukko
