import Verif.Spec.Messages
/-
  Specification of messages about channels: which ones are well-formed.  Nothing here refers to the model.
-/
namespace Lukko.Spec

/-- A well-formed message for the channel with this number (RFC 4254 sections 5.2, 5.3, 5.4). -/
inductive ToChannel (n : Nat) : UInt8 → Bytes → Prop
  | adjust {k : Nat} : 0 < k → k < 2 ^ 32 → ToChannel n 93 (windowAdjustBody n k)
  | data {bs : Bytes} : bs.length < 2 ^ 32 → ToChannel n 94 (channelDataBody n bs)
  | ext {t : Nat} {bs : Bytes} : t < 2 ^ 32 → bs.length < 2 ^ 32 → ToChannel n 95 (channelExtendedDataBody n t bs)
  | eof : ToChannel n 96 (channelBody n)
  | close : ToChannel n 97 (channelBody n)
  | request {type : Bytes} {wantReply : UInt8} {rest : Bytes} : type.length < 2 ^ 32 →
      ToChannel n 98 (u32 n ++ (str type ++ wantReply :: rest))
  | success : ToChannel n 99 (channelBody n)
  | failure : ToChannel n 100 (channelBody n)

/-- The message with which a server says why it ends the connection (RFC 4253 section 11.1). -/
def disconnectMessage (reason : Nat) (text : Bytes) : Bytes := 1 :: (u32 reason ++ (str text ++ str (ascii "en")))

end Lukko.Spec
