import Verif.Base
/-
  The cryptographic primitives (libsodium, OpenSSL) as parameters.  Stream
  ciphers are given by their key streams: byte number `i` of the stream for a
  key and a nonce.
-/
namespace Lukko

structure Primitives where
  /-- ChaCha20 (original variant, 8-byte nonce): key, nonce, position.  Block
  `b` of the stream starts at position `64 * b`. -/
  chacha : Bytes → Bytes → Nat → UInt8
  /-- Poly1305: one-time key, message. -/
  poly1305 : Bytes → Bytes → Bytes
  /-- HMAC-SHA-256: key, message. -/
  hmac : Bytes → Bytes → Bytes
  /-- AES in counter mode: key, initial counter block, position. -/
  aesCtr : Bytes → Bytes → Nat → UInt8
  /-- AES-GCM, encryption: key, nonce, position. -/
  gcmStream : Bytes → Bytes → Nat → UInt8
  /-- AES-GCM, authentication tag: key, nonce, associated data, ciphertext. -/
  gcmTag : Bytes → Bytes → Bytes → Bytes → Bytes

/-- The sizes of the authentication tags. -/
structure Primitives.Sizes (P : Primitives) : Prop where
  poly1305 : ∀ k m, (P.poly1305 k m).length = 16
  hmac : ∀ k m, (P.hmac k m).length = 32
  gcmTag : ∀ k n a c, (P.gcmTag k n a c).length = 16

/-- XOR `bs` with a key stream from position `pos` on. -/
def xorStream (ks : Nat → UInt8) : Nat → Bytes → Bytes
  | _, [] => []
  | pos, b :: bs => (b ^^^ ks pos) :: xorStream ks (pos + 1) bs

end Lukko
