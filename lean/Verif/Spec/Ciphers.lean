import Verif.Primitives
import Verif.Spec.Wire
/-
  How a binary packet is protected, according to
  * PROTOCOL.chacha20poly1305 (OpenSSH),
  * RFC 5647 with the modification of PROTOCOL section 1.6 (OpenSSH): the
    length field is associated data, not encrypted,
  * RFC 4253 sections 6.3 and 6.4 with RFC 4344 (counter mode) and RFC 6668
    (HMAC-SHA-256).
  Nothing here refers to the model.
-/
namespace Lukko.Spec

/-- RFC 4251 `uint64`. -/
def u64 (n : Nat) : Bytes := u32 (n / 2 ^ 32) ++ u32 n

/-- A negotiated protection with its keys. -/
inductive Protection
  /-- `chacha20-poly1305@openssh.com`: K_2 (payload) and K_1 (length field) -/
  | chacha20Poly1305 (k2 k1 : Bytes)
  /-- `aes*-gcm@openssh.com`: key, 12-byte initial nonce -/
  | aesGcm (key iv : Bytes)
  /-- `aes*-ctr` with `hmac-sha2-256`: key, initial counter block, MAC key -/
  | aesCtrHmac (key iv macKey : Bytes)
  deriving DecidableEq

/-- The protected form of the packet `pkt` (length field, padding length,
payload, padding) with sequence number `seq`, when `before` are the packets
protected earlier with the same keys.  Sequence numbers are counted modulo
2^32. -/
def sealPacket (P : Primitives) (prot : Protection) (before : List Bytes) (seq : Nat) (pkt : Bytes) : Bytes :=
  match prot with
  | .chacha20Poly1305 k2 k1 =>
    let nonce := u64 (seq % 2 ^ 32)
    let length := xorStream (P.chacha k1 nonce) 0 (pkt.take 4)
    let rest := xorStream (P.chacha k2 nonce) 64 (pkt.drop 4)
    let tagKey := (List.range 32).map (P.chacha k2 nonce)
    length ++ rest ++ P.poly1305 tagKey (length ++ rest)
  | .aesGcm key iv =>
    let nonce := iv.take 4 ++ u64 (beValue (iv.drop 4) + before.length)
    let rest := xorStream (P.gcmStream key nonce) 0 (pkt.drop 4)
    pkt.take 4 ++ rest ++ P.gcmTag key nonce (pkt.take 4) rest
  | .aesCtrHmac key iv macKey =>
    xorStream (P.aesCtr key iv) before.flatten.length pkt ++ P.hmac macKey (u32 seq ++ pkt)

/-- A sequence of packets, each with its sequence number. -/
def sealAll (P : Primitives) (prot : Protection) : List Bytes → List (Nat × Bytes) → List (Nat × Bytes)
  | _, [] => []
  | before, (seq, pkt) :: ps => (seq, sealPacket P prot before seq pkt) :: sealAll P prot (before ++ [pkt]) ps

/-- The size of the authentication tag. -/
def tagSize : Protection → Nat
  | .chacha20Poly1305 .. => 16
  | .aesGcm .. => 16
  | .aesCtrHmac .. => 32

/-- The block size to which packets are padded, and the number of leading bytes (the
length field) which do not count for that: RFC 4253 section 6 with RFC 4344; PROTOCOL
section 1.6 (OpenSSH) and RFC 5647 section 7.2; PROTOCOL.chacha20poly1305. -/
def Protection.padding : Protection → Nat × Nat
  | .chacha20Poly1305 .. => (8, 4)
  | .aesGcm .. => (16, 4)
  | .aesCtrHmac .. => (16, 0)

/-- Which protection a pair of algorithm names stands for, with keys derived
according to RFC 4253 section 7.2 (of which each algorithm takes the first
bytes). -/
def protectionNamed (cipher mac key iv macKey : Bytes) : Option Protection :=
  let ctr (n : Nat) : Option Protection :=
    if mac = ascii "hmac-sha2-256" then some (.aesCtrHmac (key.take n) (iv.take 16) (macKey.take 32)) else none
  if cipher = ascii "chacha20-poly1305@openssh.com" then
    some (.chacha20Poly1305 (key.take 32) ((key.drop 32).take 32))
  else if cipher = ascii "aes128-gcm@openssh.com" then some (.aesGcm (key.take 16) (iv.take 12))
  else if cipher = ascii "aes256-gcm@openssh.com" then some (.aesGcm (key.take 32) (iv.take 12))
  else if cipher = ascii "aes128-ctr" then ctr 16
  else if cipher = ascii "aes192-ctr" then ctr 24
  else if cipher = ascii "aes256-ctr" then ctr 32
  else none

end Lukko.Spec
