import Verif.Spec.Login
/-
  `SendTranslateLogin`: /repo/src/translation/LoginClient.cxx:20-114, and the
  limit of the listener's tag, /repo/src/Config.cxx:290-297.

  The numeric values of `TranslationCommand` are those of libcommon, which is
  not part of the repository: a parameter.
-/
namespace Lukko.Model
open Lukko.Spec (TrCommand)

/-- `userTooLong`/`passwordTooLong` are the `std::runtime_error`s; `overflow` is
undefined behaviour: a write behind the end of `buffer`. -/
inductive LoginError
  | userTooLong | passwordTooLong | overflow
  deriving DecidableEq, Repr

/-- `std::byte buffer[1024]`, LoginClient.cxx:93. -/
abbrev LOGIN_BUFFER : Nat := 1024

/-- `Write`, LoginClient.cxx:24-28: copy to the pointer without a check. -/
def loginWrite (buf src : Bytes) : Except LoginError Bytes :=
  if LOGIN_BUFFER < buf.length + src.length then .error .overflow else .ok (buf ++ src)

/-- `WriteHeader`, LoginClient.cxx:37-45: the size is truncated to 16 bits. -/
def loginHeader (code : TrCommand → Nat) (buf : Bytes) (cmd : TrCommand) (size : Nat) : Except LoginError Bytes :=
  loginWrite buf [UInt8.ofNat size, UInt8.ofNat (size >>> 8), UInt8.ofNat (code cmd), UInt8.ofNat (code cmd >>> 8)]

/-- `WritePacket`, LoginClient.cxx:47-66. -/
def loginPacket (code : TrCommand → Nat) (buf : Bytes) (cmd : TrCommand) (payload : Bytes) : Except LoginError Bytes :=
  match loginHeader code buf cmd payload.length with
  | .error e => .error e
  | .ok buf => loginWrite buf payload

/-- A string_view that may be null. -/
def loginOptional (code : TrCommand → Nat) (buf : Bytes) (cmd : TrCommand) : Option Bytes → Except LoginError Bytes
  | none => .ok buf
  | some payload => loginPacket code buf cmd payload

/-- `SendTranslateLogin`, LoginClient.cxx:79-114: the bytes sent. -/
def sendTranslateLogin (code : TrCommand → Nat) (service : Bytes) (tag : Option Bytes) (user : Bytes)
    (password : Option Bytes) (peek : Bool) : Except LoginError Bytes :=
  if user.length > 256 then .error .userTooLong
  else if (password.getD []).length > 256 then .error .passwordTooLong
  else do
    let p ← loginPacket code [] .begin_ []
    let p ← loginPacket code p .login []
    let p ← loginPacket code p .service service
    let p ← loginOptional code p .listenerTag tag
    let p ← loginPacket code p .user user
    let p ← loginOptional code p .password password
    let p ← if peek then loginPacket code p .peek [] else .ok p
    loginPacket code p .end_ []

/-- Parsing `tag` in a listener section, Config.cxx:290-297; with Listener.cxx:112
(an empty tag is the null string_view). `none`: configuration error. -/
def listenerTag (value : Bytes) : Option (Option Bytes) :=
  if value.length > 256 then none else some (if value = [] then none else some value)

end Lukko.Model
