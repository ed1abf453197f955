import Verif.Spec.Auth
/-
  Specification of how a connection ends (RFC 4253 section 11.1, RFC 4252, RFC 4254):
  which clients are disconnected because of a protocol error.  Nothing here refers to
  the model.
-/
namespace Lukko.Spec

/-- The last thing that happens on a connection. -/
def AuthEntry.isEnd : AuthEntry → Bool
  | .disconnected _ | .closed => true
  | _ => false

/-- The connection has ended. -/
def Ended (log : List AuthEntry) : Prop := ∃ a e, log = a ++ [e] ∧ e.isEnd = true

/-- Answers to an authentication request. -/
def AuthEntry.isAnswer : AuthEntry → Bool
  | .failure _ | .keyOk .. | .success => true
  | _ => false

/-- There is an authentication request which has not been answered (or rejected with
UNIMPLEMENTED right away). -/
def Waiting (log : List AuthEntry) : Prop :=
  ∃ a p b, log = a ++ .received 50 p :: b ∧ (∀ e ∈ b, e.isAnswer = false) ∧ b.head? ≠ some .unimplemented

/-! ### Well-formed messages (without the message number) -/

/-- The length of a string fits in its length field. -/
def Short (s : Bytes) : Prop := s.length < 2 ^ 32

instance : DecidablePred Short := fun _ => inferInstanceAs (Decidable (_ < _))

/-- RFC 4253 section 10. -/
def IsServiceRequest (p : Bytes) : Prop := ∃ name, Short name ∧ p = str name

/-- RFC 4254 section 4. -/
def IsGlobalRequest (p : Bytes) : Prop :=
  ∃ name wantReply data, Short name ∧ p = str name ++ wantReply :: data

/-- RFC 4254 section 7.2, and the PROTOCOL document of OpenSSH, section 2.4. -/
def OpenData (type data : Bytes) : Prop :=
  (type = ascii "direct-tcpip" → ∃ host port origin originPort, Short host ∧ port < 2 ^ 32 ∧ Short origin ∧
    originPort < 2 ^ 32 ∧ data = str host ++ (u32 port ++ (str origin ++ u32 originPort))) ∧
  (type = ascii "direct-streamlocal@openssh.com" → ∃ path rest, Short path ∧ data = str path ++ rest)

/-- RFC 4254 section 5.1: a request to open a channel of this type, with these data at the end. -/
def OpenHead (type data p : Bytes) : Prop :=
  ∃ channel window packetSize, Short type ∧ channel < 2 ^ 32 ∧ window < 2 ^ 32 ∧ packetSize < 2 ^ 32 ∧
    p = str type ++ (u32 channel ++ (u32 window ++ (u32 packetSize ++ data)))

/-- The data fit the type. -/
def IsChannelOpen (type p : Bytes) : Prop := ∃ data, OpenHead type data p ∧ OpenData type data

/-- RFC 4252 section 7. -/
def PublicKeyFields (f : Bytes) : Prop :=
  ∃ alg key, Short alg ∧ Short key ∧
    (f = 0 :: (str alg ++ str key) ∨ ∃ b sig, b ≠ 0 ∧ Short sig ∧ f = b :: (str alg ++ (str key ++ str sig)))

/-- RFC 4252 section 9. -/
def HostBasedFields (f : Bytes) : Prop :=
  ∃ alg key host user sig, Short alg ∧ Short key ∧ Short host ∧ Short user ∧ Short sig ∧
    f = str alg ++ (str key ++ (str host ++ (str user ++ str sig)))

/-- RFC 4252 section 8: a request to change the password. -/
def PasswordChangeFields (f : Bytes) : Prop :=
  ∃ b old new, b ≠ 0 ∧ Short old ∧ Short new ∧ f = b :: (str old ++ str new)

/-- RFC 4252 section 8. -/
def PasswordFields (f : Bytes) : Prop :=
  (∃ password, Short password ∧ f = 0 :: str password) ∨ PasswordChangeFields f

/-- RFC 4252 section 5: an authentication request with this method and these fields. -/
def IsAuthRequest (method fields p : Bytes) : Prop :=
  ∃ user service, Short user ∧ Short service ∧ Short method ∧ p = str user ++ (str service ++ (str method ++ fields))

def WellFormedAuth (p : Bytes) : Prop :=
  ∃ method fields, IsAuthRequest method fields p ∧
    (method = ascii "publickey" → PublicKeyFields fields) ∧
    (method = ascii "hostbased" → HostBasedFields fields) ∧
    (method = ascii "password" → PasswordFields fields)

/-- After `before`, sending message number `msg` with contents `p` is a violation of the
protocol by the client. -/
inductive Breach (before : List AuthEntry) : UInt8 → Bytes → Prop
  | service {p} : ¬ IsServiceRequest p → Breach before 5 p
  | auth {p} : ¬ WellFormedAuth p → Breach before 50 p
  /-- the service was not requested -/
  | noService {p} : .serviceAccepted (ascii "ssh-userauth") ∉ before → Breach before 50 p
  | request {p} : ¬ IsGlobalRequest p → Breach before 80 p
  | channel {p} : (∀ type, ¬ IsChannelOpen type p) → Breach before 90 p
  /-- a session after "no-more-sessions@openssh.com" -/
  | session {p} : .noMoreSessions ∈ before → IsChannelOpen (ascii "session") p → Breach before 90 p

/-- What the server also calls a protocol error: anything but DISCONNECT, IGNORE, number 8 and
messages for key exchange while an authentication request is waiting for its answer; a request to
change the password. -/
def Strictness (before : List AuthEntry) (msg : UInt8) (p : Bytes) : Prop :=
  (Waiting before ∧ msg ∉ [1, 2, 8, 20, 21, 30, 31]) ∨
  (msg = 50 ∧ ∃ f, PasswordChangeFields f ∧ IsAuthRequest (ascii "password") f p)

/-- Why the connection is ended with this reason code (RFC 4253 section 11.1). -/
def Reason (a : List AuthEntry) (code : Nat) : Prop :=
  match code with
  /- SSH_DISCONNECT_PROTOCOL_ERROR -/
  | 2 => ∃ before m p, a = before ++ [.received m p] ∧ (Breach before m p ∨ Strictness before m p)
  /- SSH_DISCONNECT_SERVICE_NOT_AVAILABLE: unknown service, or the account is unavailable -/
  | 7 => (∃ before name, a = before ++ [.received 5 (str name)] ∧ Short name ∧ name ≠ ascii "ssh-userauth") ∨ Waiting a
  /- SSH_DISCONNECT_CONNECTION_LOST -/
  | 10 => True
  /- SSH_DISCONNECT_ILLEGAL_USER_NAME -/
  | 15 => ∃ u rest, lastRequest a = some (str u ++ rest) ∧ Short u ∧ ¬ ValidUser u
  | _ => False

end Lukko.Spec
