import Verif.Spec.Server
import Verif.Spec.Relay
import Verif.Spec.Messages
/-
  Specification of forwarded connections on a connection of the server: what the client's messages mean
  to them, and how the client is told what the host has sent.  Nothing here refers to the model.
-/
namespace Lukko.Spec

/-- A CHANNEL_OPEN message of this type, with this data at its end, asks the server to connect to this
(RFC 4254 section 7.2; OpenSSH's PROTOCOL, section 2.4). -/
inductive Asks : Bytes → Bytes → AuthEntry → Prop
  | tcp {host : Bytes} {port : Nat} {originator : Bytes} {originPort : Nat} :
      Asks (ascii "direct-tcpip") (str host ++ (u32 port ++ (str originator ++ u32 originPort))) (.connectTcp host port)
  | unix {path reserved : Bytes} : Asks (ascii "direct-streamlocal@openssh.com") (str path ++ reserved) (.connectLocal path)

/-- To the forwarded connection with the number `n`, this message of the client means this
(RFC 4254 sections 5.2, 5.3). -/
inductive Passed (n : Nat) : Bytes → RelayEntry → Prop
  | data {bs : Bytes} : bs.length < 2 ^ 32 → Passed n (94 :: channelDataBody n bs) (.client bs)
  | eof : Passed n (96 :: channelBody n) .clientEnds

/-- What all these messages of the client mean to the forwarded connection with the number `n`. -/
inductive Forwarded (n : Nat) : List Bytes → List RelayEntry → Prop
  | nil : Forwarded n [] []
  | passed {ms es m e} : Forwarded n ms es → Passed n m e → Forwarded n (ms ++ [m]) (es ++ [e])
  | other {ms es m} : Forwarded n ms es → (∀ e, ¬ Passed n m e) → Forwarded n (ms ++ [m]) es

/-- An entry about a message of the client. -/
def RelayEntry.byClient : RelayEntry → Bool
  | .client _ | .clientEnds => true
  | _ => false

/-- The message which tells the client about it; `peer` is the client's number for the channel. -/
def RelayEntry.message? (peer : Nat) : RelayEntry → Option Bytes
  | .toClient bs => some (94 :: channelDataBody peer bs)
  | .closes => some (97 :: channelBody peer)
  | _ => none

end Lukko.Spec
