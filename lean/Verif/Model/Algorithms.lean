import Verif.Base
/-
  Algorithm names and their negotiation: /repo/src/ssh/KexStrings.hxx,
  StringList.hxx, KexFactory.cxx, /repo/src/cipher/Factory.cxx,
  /repo/src/key/List.cxx.  OpenSSL support (`HAVE_OPENSSL`) is taken as enabled.
-/
namespace Lukko.Model

/-- `Role`, KexEnums.hxx:12-15. -/
inductive Role
  | server | client
  deriving DecidableEq, Repr

/-- `Direction`, KexEnums.hxx:17-20. -/
inductive Direction
  | incoming | outgoing
  deriving DecidableEq, Repr

abbrev COMMA : UInt8 := 44

/-- `IterableSplitString(s, ',')` (libcommon): the items of a comma-separated
list; the empty string has one empty item.  (A null `string_view` has no item;
none of the callers can tell the difference because no algorithm has an empty name.) -/
def splitComma : Bytes → List Bytes
  | [] => [[]]
  | c :: rest =>
    if c = COMMA then [] :: splitComma rest
    else match splitComma rest with
      | [] => [[c]]
      | item :: items => (c :: item) :: items

/-- `StringListContains`, StringList.hxx:12-17 (libcommon's, with ','). -/
def stringListContains (haystack needle : Bytes) : Bool := (splitComma haystack).contains needle

/-- `FirstStringListItem`, StringList.hxx:19-23. -/
def firstStringListItem (list : Bytes) : Bytes := (splitComma list).headD []

/-- `FindCommonAlgorithm`, KexStrings.hxx:13-21; the empty string if there is none. -/
def findCommonAlgorithm (preferred supported : Bytes) : Bytes :=
  let rec go : List Bytes → Bytes
    | [] => []
    | i :: rest => if stringListContains supported i then i else go rest
  go (splitComma preferred)

/-- `GetPeerAlgorithms`, KexStrings.hxx:23-41. -/
def getPeerAlgorithms (role : Role) (direction : Direction) (peerC2S peerS2C : Bytes) : Bytes :=
  match direction with
  | .incoming => if role = .server then peerC2S else peerS2C
  | .outgoing => if role = .server then peerS2C else peerC2S

/-- `FindNegotiatedAlgorithm`, KexStrings.hxx:43-57. -/
def findNegotiatedAlgorithm (role : Role) (direction : Direction) (localAlgorithms peerC2S peerS2C : Bytes) : Bytes :=
  let peer := getPeerAlgorithms role direction peerC2S peerS2C
  if role = .server then findCommonAlgorithm peer localAlgorithms
  else findCommonAlgorithm localAlgorithms peer

/-- KexFactory.hxx:16-21 -/
def allServerKexAlgorithms : Bytes :=
  ascii "curve25519-sha256,ecdh-sha2-nistp256,kex-strict-s-v00@openssh.com"

/-- KexFactory.hxx:23-28 -/
def allClientKexAlgorithms : Bytes :=
  ascii "curve25519-sha256,ecdh-sha2-nistp256,kex-strict-c-v00@openssh.com"

/-- cipher/Factory.hxx:16-22 -/
def allEncryptionAlgorithms : Bytes :=
  ascii "chacha20-poly1305@openssh.com,aes128-ctr,aes192-ctr,aes256-ctr,aes128-gcm@openssh.com,aes256-gcm@openssh.com"

/-- cipher/Factory.hxx:24-26 -/
def allMacAlgorithms : Bytes := ascii "hmac-sha2-256"

/-- key/Algorithms.hxx:11-17 -/
def allPublicKeyAlgorithms : Bytes :=
  ascii "ssh-ed25519,ecdsa-sha2-nistp256,rsa-sha2-256,rsa-sha2-512,ssh-rsa"

/-- The key agreement methods, KexFactory.cxx:20-28. -/
inductive KexMethod
  | curve25519 | ecdhNistp256
  deriving DecidableEq, Repr

/-- `MakeKex`, KexFactory.cxx:17-30. -/
def makeKex (algorithms : Bytes) : Option KexMethod :=
  let rec go : List Bytes → Option KexMethod
    | [] => none
    | a :: rest =>
      if a = ascii "curve25519-sha256" then some .curve25519
      else if a = ascii "ecdh-sha2-nistp256" then some .ecdhNistp256
      else go rest
  go (splitComma algorithms)

/-- Which cipher object is constructed. -/
inductive CipherKind
  | chacha20poly1305
  | aesCtr (keySize : Nat)
  | aesGcm (keySize : Nat)
  | hmacSha256 (next : CipherKind)
  deriving DecidableEq, Repr

/-- `Cipher::GetAuthSize` of these objects: ChaCha20Poly1305Cipher.cxx:40-41,
Factory.cxx:31-55, HmacSHA256Cipher.cxx:17-23. -/
def CipherKind.authSize : CipherKind → Nat
  | .chacha20poly1305 => 16
  | .aesCtr _ => 0
  | .aesGcm _ => 16
  | .hmacSha256 next => next.authSize + 32

/-- `MakeEncryptionCipher`, Factory.cxx:21-59. -/
def makeEncryptionCipher (algorithms : Bytes) : Option CipherKind :=
  let rec go : List Bytes → Option CipherKind
    | [] => none
    | a :: rest =>
      if a = ascii "chacha20-poly1305@openssh.com" then some .chacha20poly1305
      else if a = ascii "aes128-ctr" then some (.aesCtr 16)
      else if a = ascii "aes192-ctr" then some (.aesCtr 24)
      else if a = ascii "aes256-ctr" then some (.aesCtr 32)
      else if a = ascii "aes128-gcm@openssh.com" then some (.aesGcm 16)
      else if a = ascii "aes256-gcm@openssh.com" then some (.aesGcm 32)
      else go rest
  go (splitComma algorithms)

/-- `MakeMacCipher`, Factory.cxx:61-72. -/
def makeMacCipher (algorithms : Bytes) (next : CipherKind) : Option CipherKind :=
  let rec go : List Bytes → Option CipherKind
    | [] => none
    | a :: rest => if a = ascii "hmac-sha2-256" then some (.hmacSha256 next) else go rest
  go (splitComma algorithms)

/-- `MakeCipher`, Factory.cxx:74-90. -/
def makeCipher (cipherAlgorithms macAlgorithms : Bytes) : Option CipherKind :=
  match makeEncryptionCipher cipherAlgorithms with
  | none => none
  | some cipher => if cipher.authSize = 0 then makeMacCipher macAlgorithms cipher else some cipher

/-- A host key as far as choosing is concerned: an identity and
`SecretKey::GetAlgorithms()`. -/
structure HostKey where
  id : Nat
  algorithms : Bytes
  deriving DecidableEq, Repr

/-- `SecretKeyList`, key/List.hxx:14-19. -/
structure SecretKeyList where
  keys : List HostKey := []
  algorithmToKey : List (Bytes × HostKey) := []
  algorithms : Bytes := []
  deriving DecidableEq, Repr

/-- `SecretKeyList::Add`, key/List.cxx:14-30. -/
def SecretKeyList.add (l : SecretKeyList) (key : HostKey) : SecretKeyList :=
  let rec go : List Bytes → SecretKeyList → SecretKeyList
    | [], l => l
    | a :: rest, l =>
      match l.algorithmToKey.lookup a with
      | some _ => go rest l
      | none => go rest { l with
          algorithmToKey := l.algorithmToKey ++ [(a, key)]
          algorithms := (if l.algorithms = [] then [] else l.algorithms ++ [COMMA]) ++ a }
  go (splitComma key.algorithms) { l with keys := key :: l.keys }

/-- `SecretKeyList::Choose`, key/List.cxx:32-45. -/
def SecretKeyList.choose (l : SecretKeyList) (peerAlgorithms : Bytes) : Option (HostKey × Bytes) :=
  let rec go : List Bytes → Option (HostKey × Bytes)
    | [] => none
    | a :: rest =>
      if a = [] then go rest
      else match l.algorithmToKey.lookup a with
        | some k => some (k, a)
        | none => go rest
  go (splitComma peerAlgorithms)

end Lukko.Model
