import Verif.Spec.Messages
import Verif.Spec.Server
/-
  Specification of the bytes which a client allows to be sent to it, and of those which are sent.  Nothing here refers to the model.
-/
namespace Lukko.Spec

/-- A number in network byte order. -/
def bigEndian (bs : Bytes) : Nat := bs.foldl (fun a b => a * 256 + b.toNat) 0

/-- The bytes which the sender of this message allows to be sent to it on the channel which has the number `n` at the receiver of this
message: with CHANNEL_WINDOW_ADJUST (RFC 4254 section 5.2). -/
def allowedBy (n : Nat) (m : Bytes) : Nat :=
  if m.take 5 = 93 :: u32 n ∧ m.length = 9 then bigEndian (m.drop 5) else 0

/-- …with all these messages. -/
def allowed (n : Nat) (ms : List Bytes) : Nat := (ms.map (allowedBy n)).sum

/-- The bytes of data in this message, if it is for the channel which has the number `n` at its receiver: CHANNEL_DATA or
CHANNEL_EXTENDED_DATA. -/
def dataIn (n : Nat) (p : Bytes) : Nat :=
  if p.take 5 = 94 :: u32 n then p.length - 9 else if p.take 5 = 95 :: u32 n then p.length - 13 else 0

/-- …in all these messages. -/
def dataTotal (n : Nat) (ps : List Bytes) : Nat := (ps.map (dataIn n)).sum

/-- The client allows altogether `k` bytes to be sent on a channel which has the number `peer` at the client and `n` at the server: it has
opened the channel (or confirmed that the server opens it), which allows some bytes; and since then it has allowed others. -/
inductive Grant (log : List AuthEntry) (peer n : Nat) : Nat → Prop
  | opened {pre post : List AuthEntry} {type : Bytes} {window size : Nat} {rest : Bytes} :
      log = pre ++ .received 90 (channelOpenBody type peer window size rest) :: post →
      Grant log peer n (window + allowed n (clientMessages post))
  | confirmed {pre post : List AuthEntry} {window size : Nat} {rest : Bytes} :
      log = pre ++ .received 91 (channelOpenConfirmationBody n peer window size rest) :: post →
      Grant log peer n (window + allowed n (clientMessages post))

/-- On such a channel, the client has sent `k` bytes of data since then. -/
inductive Given (log : List AuthEntry) (peer n : Nat) : Nat → Prop
  | opened {pre post : List AuthEntry} {type : Bytes} {window size : Nat} {rest : Bytes} :
      log = pre ++ .received 90 (channelOpenBody type peer window size rest) :: post →
      Given log peer n (dataTotal n (clientMessages post))
  | confirmed {pre post : List AuthEntry} {window size : Nat} {rest : Bytes} :
      log = pre ++ .received 91 (channelOpenConfirmationBody n peer window size rest) :: post →
      Given log peer n (dataTotal n (clientMessages post))

end Lukko.Spec
