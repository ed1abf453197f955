import Verif.Primitives
import Verif.Cipher
import Verif.Model.Wire
import Verif.Model.Algorithms
/-
  The implementations of `SSH::Cipher`: /repo/src/cipher/
  ChaCha20Poly1305Cipher.cxx, OsslCipher.cxx, HmacSHA256Cipher.cxx, and the
  factory Factory.cxx.

  Input that violates an assertion about the minimum size gives `none`
  (no caller does that); the assertions about alignment are
  `CipherObj.alignmentOk`.  Errors of OpenSSL other than a wrong tag
  (`EVP_CipherUpdate() failed` etc.) are not modelled.
-/
namespace Lukko.Model

/-- A cipher object with its mutable state. -/
inductive CipherObj
  /-- ChaCha20Poly1305Cipher.hxx: `payload_key`, `header_key` -/
  | chacha (payloadKey headerKey : Bytes)
  /-- OsslCipher without authentication (`EVP_aes_*_ctr`): key, initial
  counter block, number of bytes processed so far -/
  | ctr (key iv : Bytes) (pos : Nat)
  /-- OsslCipher with authentication (`EVP_aes_*_gcm`): key, next nonce -/
  | gcm (key iv : Bytes)
  /-- HmacSHA256Cipher.hxx: `next`, `key`, and `state` as the bytes hashed so
  far -/
  | hmac (next : CipherObj) (key state : Bytes)
  deriving DecidableEq

/-- `PackedBE64` -/
def u64Bytes (n : Nat) : Bytes :=
  [UInt8.ofNat (n >>> 56), UInt8.ofNat (n >>> 48), UInt8.ofNat (n >>> 40), UInt8.ofNat (n >>> 32),
   UInt8.ofNat (n >>> 24), UInt8.ofNat (n >>> 16), UInt8.ofNat (n >>> 8), UInt8.ofNat n]

/-- `GetBlockSize()`: ChaCha20Poly1305Cipher.cxx:41, Factory.cxx:31-55,
HmacSHA256Cipher.cxx:19. -/
def CipherObj.blockSize : CipherObj → Nat
  | .chacha .. => 8
  | .ctr .. => 16
  | .gcm .. => 16
  | .hmac next .. => next.blockSize

/-- `GetAuthSize()`: ChaCha20Poly1305Cipher.cxx:41, Factory.cxx:31-55,
HmacSHA256Cipher.cxx:20. -/
def CipherObj.authSize : CipherObj → Nat
  | .chacha .. => 16
  | .ctr .. => 0
  | .gcm .. => 16
  | .hmac next .. => next.authSize + 32

/-- `IsHeaderExcludedFromPadding()`: ChaCha20Poly1305Cipher.cxx:41,
OsslCipher.cxx:46, HmacSHA256Cipher.cxx:21. -/
def CipherObj.padWithoutHeader : CipherObj → Bool
  | .chacha .. => true
  | .ctr .. => false
  | .gcm .. => true
  | .hmac next .. => next.padWithoutHeader

/-- `ChaCha20Poly1305Key`, ChaCha20Poly1305Cipher.cxx:20-36: the encryption of
32 zero bytes. -/
def polyKey (P : Primitives) (nonce key : Bytes) : Bytes :=
  xorStream (P.chacha key nonce) 0 (List.replicate 32 0)

/-- `IncrementIV`, OsslCipher.cxx:76-84: OpenSSL uses the current nonce for the
next operation and increments its last eight bytes (64 bits, wrapping). -/
def nextIv (iv : Bytes) : Bytes :=
  iv.take 4 ++ u64Bytes ((iv.drop 4).foldl (fun n b => n * 256 + b.toNat) 0 + 1)

/-- `DecryptHeader`: ChaCha20Poly1305Cipher.cxx:59-68, OsslCipher.cxx:86-100,
HmacSHA256Cipher.cxx:51-63. -/
def CipherObj.decryptHeader (P : Primitives) : CipherObj → Nat → Bytes → Option (Bytes × CipherObj)
  | .chacha pk hk, seq, src => some (xorStream (P.chacha hk (u64Bytes seq)) 0 src, .chacha pk hk)
  | .ctr key iv pos, _, src => some (xorStream (P.aesCtr key iv) pos src, .ctr key iv (pos + src.length))
  | .gcm key iv, _, src => some (src, .gcm key iv)
  | .hmac next key _, seq, src =>
    match next.decryptHeader P seq src with
    | none => none
    | some (d, next') => some (d, .hmac next' key (u32Bytes seq ++ d))

/-- `DecryptPayload`: ChaCha20Poly1305Cipher.cxx:70-91, OsslCipher.cxx:102-145,
HmacSHA256Cipher.cxx:65-92. -/
def CipherObj.decryptPayload (P : Primitives) : CipherObj → Nat → Bytes → Option (Bytes × CipherObj)
  | .chacha pk hk, seq, src =>
    if src.length ≤ 4 + 16 then none
    else
      let auth := src.drop (src.length - 16)
      let body := src.take (src.length - 16)
      let key := polyKey P (u64Bytes seq) pk
      if P.poly1305 key body ≠ auth then none
      else some (xorStream (P.chacha pk (u64Bytes seq)) 64 (body.drop 4), .chacha pk hk)
  | .ctr key iv pos, _, src =>
    if src.length < 4 then none
    else
      let body := src.drop 4
      some (xorStream (P.aesCtr key iv) pos body, .ctr key iv (pos + body.length))
  | .gcm key iv, _, src =>
    if src.length < 4 + 16 then none
    else
      let tag := src.drop (src.length - 16)
      let body := src.take (src.length - 16)
      if P.gcmTag key iv (body.take 4) (body.drop 4) ≠ tag then none
      else some (xorStream (P.gcmStream key iv) 0 (body.drop 4), .gcm key (nextIv iv))
  | .hmac next key state, seq, src =>
    if src.length < 4 + 32 then none
    else
      let received := src.drop (src.length - 32)
      match next.decryptPayload P seq (src.take (src.length - 32)) with
      | none => none
      | some (d, next') =>
        if P.hmac key (state ++ d) ≠ received then none
        else some (d, .hmac next' key (state ++ d))

/-- `Encrypt`: ChaCha20Poly1305Cipher.cxx:93-122, OsslCipher.cxx:147-192,
HmacSHA256Cipher.cxx:94-114. -/
def CipherObj.encrypt (P : Primitives) : CipherObj → Nat → Bytes → Option (Bytes × CipherObj)
  | .chacha pk hk, seq, src =>
    if src.length ≤ 4 then none
    else
      let dest := xorStream (P.chacha hk (u64Bytes seq)) 0 (src.take 4) ++
        xorStream (P.chacha pk (u64Bytes seq)) 64 (src.drop 4)
      some (dest ++ P.poly1305 (polyKey P (u64Bytes seq) pk) dest, .chacha pk hk)
  | .ctr key iv pos, _, src =>
    if src.length < 4 then none
    else some (xorStream (P.aesCtr key iv) pos src, .ctr key iv (pos + src.length))
  | .gcm key iv, _, src =>
    if src.length < 4 then none
    else
      let body := xorStream (P.gcmStream key iv) 0 (src.drop 4)
      some (src.take 4 ++ body ++ P.gcmTag key iv (src.take 4) body, .gcm key (nextIv iv))
  | .hmac next key _, seq, src =>
    if src.length < 4 then none
    else match next.encrypt P seq src with
      | none => none
      | some (dest, next') =>
        some (dest ++ P.hmac key (u32Bytes seq ++ src), .hmac next' key (u32Bytes seq ++ src))

/-- The assertions about alignment in `DecryptPayload`, OsslCipher.cxx:127,131;
`src` is the argument, including the tag. -/
def CipherObj.alignmentOk : CipherObj → Bytes → Bool
  | .chacha .., _ => true
  | .ctr .., src => src.length % 16 == 0
  | .gcm .., src => (src.length - 16 - 4) % 16 == 0
  | .hmac next .., src => next.alignmentOk (src.take (src.length - 32))

/-- The assertions about alignment in `Encrypt`, OsslCipher.cxx:153,171 (called by
HmacSHA256Cipher.cxx:107). -/
def CipherObj.encAlignmentOk : CipherObj → Bytes → Bool
  | .chacha .., _ => true
  | .ctr .., src => src.length % 16 == 0
  | .gcm .., src => (src.length - 4) % 16 == 0
  | .hmac next .., src => next.encAlignmentOk src

/-- The packet passed to `Output::Push` by `SendPacket(PacketSerializer &&)`,
Connection.cxx:165-173; `c` is `Output::GetCipher()`. -/
def finishFor (c : Option CipherObj) (s : Ser) (rnd : Nat → Bytes) : Except SerError Bytes :=
  match c with
  | none => s.finishPacket 8 false rnd
  | some c => s.finishPacket c.blockSize c.padWithoutHeader rnd

/-- The interface used by `Input` and `Output`. -/
def cipherOps (P : Primitives) : CipherOps CipherObj where
  blockSize := CipherObj.blockSize
  authSize := CipherObj.authSize
  padWithoutHeader := CipherObj.padWithoutHeader
  decryptHeader := CipherObj.decryptHeader P
  decryptPayload := CipherObj.decryptPayload P
  encrypt := CipherObj.encrypt P

/-- The constructors: ChaCha20Poly1305Cipher.cxx:40-51, OsslCipher.cxx:40-72
called from Factory.cxx:31-55, HmacSHA256Cipher.cxx:17-30.  `none`: throws, or
undefined (`span::first` beyond the end). -/
def newCipher : CipherKind → (key iv macKey : Bytes) → Option CipherObj
  | .chacha20poly1305, key, _, _ =>
    if key.length ≠ 64 then none else some (.chacha (key.take 32) (key.drop (key.length - 32)))
  | .aesCtr n, key, iv, _ =>
    if key.length < n ∨ iv.length < 16 then none else some (.ctr (key.take n) (iv.take 16) 0)
  | .aesGcm n, key, iv, _ =>
    if key.length < n ∨ iv.length < 12 then none else some (.gcm (key.take n) (iv.take 12))
  | .hmacSha256 next, key, iv, macKey =>
    match newCipher next key iv macKey with
    | none => none
    | some next => if macKey.length < 32 then none else some (.hmac next (macKey.take 32) [])

/-- `MakeCipher`, Factory.cxx:74-90, with the keys. -/
def makeCipherObj (cipherAlgorithms macAlgorithms key iv macKey : Bytes) : Option CipherObj :=
  match makeCipher cipherAlgorithms macAlgorithms with
  | none => none
  | some kind => newCipher kind key iv macKey

/-- `Encrypt` called for a sequence of packets. -/
def encryptAll (P : Primitives) : CipherObj → List (Nat × Bytes) → Option (List (Nat × Bytes))
  | _, [] => some []
  | c, (seq, pkt) :: ps =>
    match c.encrypt P seq pkt with
    | none => none
    | some (e, c') => (encryptAll P c' ps).map ((seq, e) :: ·)

/-- `DecryptHeader` and `DecryptPayload` as `Input` calls them for one packet. -/
def CipherObj.openPacket (P : Primitives) (c : CipherObj) (seq : Nat) (e : Bytes) : Option (Bytes × CipherObj) :=
  match c.decryptHeader P seq (e.take 4) with
  | none => none
  | some (h, c₁) =>
    match c₁.decryptPayload P seq e with
    | none => none
    | some (d, c₂) => some (h ++ d, c₂)

/-- The same for a sequence of packets. -/
def openAll (P : Primitives) : CipherObj → List (Nat × Bytes) → Option (List (Nat × Bytes))
  | _, [] => some []
  | c, (seq, e) :: es =>
    match c.openPacket P seq e with
    | none => none
    | some (pkt, c') => (openAll P c' es).map ((seq, pkt) :: ·)

end Lukko.Model
