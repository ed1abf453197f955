import Verif.Spec.Tunnel
import Verif.Spec.Listeners
/-
  C110: remote forwarding as a whole (RFC 4254 section 7.1 and 7.2): the messages.
  Nothing here refers to the model.
-/
namespace Lukko.Spec

/-- This GLOBAL_REQUEST asks the server to listen on an address, or to end that. -/
inductive AsksBind : Bytes → AuthEntry → Prop
  | bind {wantReply : UInt8} {host : Bytes} {port : Nat} :
      AsksBind (str (ascii "tcpip-forward") ++ (wantReply :: (str host ++ u32 port))) (.bindTcp host port)
  | unbind {wantReply : UInt8} {host : Bytes} {port : Nat} :
      AsksBind (str (ascii "cancel-tcpip-forward") ++ (wantReply :: (str host ++ u32 port))) (.unbindTcp host port)

/-- The message with which the server tells the client of a connection which has arrived at this address, from there. -/
def forwardedTcpip (number window maxPacket : Nat) (host : Bytes) (port : Nat) (origin : Bytes) (originPort : Nat) : Bytes :=
  90 :: channelOpenBody (ascii "forwarded-tcpip") number window maxPacket
    (str host ++ (u32 port ++ (str origin ++ u32 originPort)))

end Lukko.Spec
