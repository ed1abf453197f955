import Verif.Spec.Server
import Verif.Spec.Session
import Verif.Spec.Messages
/-
  Specification of a server connection with the session channels on it: what the client's messages
  mean to a channel, and how the client is told what happens on it.  Nothing here refers to the model.
-/
namespace Lukko.Spec

/-- To the session channel with the number `n`, this message of the client means this
(RFC 4254 sections 5.2, 5.3, 5.4). -/
inductive Heard (n : Nat) : Bytes → SessEntry → Prop
  | request {type : Bytes} {wantReply : UInt8} {data : Bytes} : type.length < 2 ^ 32 →
      Heard n (98 :: (u32 n ++ (str type ++ wantReply :: data))) (.asked type data)
  | data {bs : Bytes} : bs.length < 2 ^ 32 → Heard n (94 :: channelDataBody n bs) (.data bs)
  | ext {t : Nat} {bs : Bytes} : t < 2 ^ 32 → bs.length < 2 ^ 32 →
      Heard n (95 :: channelExtendedDataBody n t bs) (.io (.rx (.ext bs.length)))
  | eof : Heard n (96 :: channelBody n) (.io (.rx .eof))
  | adjust {k : Nat} : k < 2 ^ 32 → Heard n (93 :: windowAdjustBody n k) (.io (.rx (.adjust k)))

/-- An entry about a message of the client. -/
def SessEntry.byClient : SessEntry → Bool
  | .asked _ _ | .data _ | .io (.rx _) => true
  | _ => false

/-- What all these messages of the client mean to the session channel with the number `n`. -/
inductive Meaning (n : Nat) : List Bytes → List SessEntry → Prop
  | nil : Meaning n [] []
  | heard {ms es m e} : Meaning n ms es → Heard n m e → Meaning n (ms ++ [m]) (es ++ [e])
  | other {ms es m} : Meaning n ms es → (∀ e, ¬ Heard n m e) → Meaning n (ms ++ [m]) es

/-- The message which tells the client about it; `peer` is the client's number for the channel. -/
def SessEntry.message? (peer : Nat) : SessEntry → Option Bytes
  | .sent .stderr bs => some (95 :: channelExtendedDataBody peer 1 bs)
  | .sent _ bs => some (94 :: channelDataBody peer bs)
  | .io (.tx .eof) => some (96 :: channelBody peer)
  | .io (.tx .close) => some (97 :: channelBody peer)
  | .io (.tx (.adjust k)) => some (93 :: windowAdjustBody peer k)
  | _ => none

end Lukko.Spec
