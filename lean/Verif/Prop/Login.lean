import Verif.Model.Login
/-
  C54: requests to the translation server.
-/
namespace Lukko
open Spec Model

/-- One packet as bytes. -/
def rawPacket (code : TrCommand → Nat) (p : TrCommand × Bytes) : Bytes :=
  [UInt8.ofNat p.2.length, UInt8.ofNat (p.2.length >>> 8), UInt8.ofNat (code p.1), UInt8.ofNat (code p.1 >>> 8)] ++ p.2

theorem loginPacket_ok {code : TrCommand → Nat} {buf : Bytes} {cmd : TrCommand} {payload : Bytes}
    (h : buf.length + 4 + payload.length ≤ 1024) :
    loginPacket code buf cmd payload = .ok (buf ++ rawPacket code (cmd, payload)) := by
  simp only [loginPacket, loginHeader, loginWrite]
  rw [if_neg (by simp [LOGIN_BUFFER]; omega)]
  simp only
  rw [if_neg (by simp [LOGIN_BUFFER]; omega)]
  simp [rawPacket]

def rawPackets (code : TrCommand → Nat) (ps : List (TrCommand × Bytes)) : Bytes := (ps.map (rawPacket code)).flatten

theorem rawPacket_length (code : TrCommand → Nat) (p : TrCommand × Bytes) :
    (rawPacket code p).length = 4 + p.2.length := by simp [rawPacket]; omega

theorem login_ok {code : TrCommand → Nat} {service : Bytes} {tag : Option Bytes} {user : Bytes}
    {password : Option Bytes} {peek : Bool} (hs : service.length ≤ 128) (ht : (tag.getD []).length ≤ 256)
    (hu : user.length ≤ 256) (hp : (password.getD []).length ≤ 256) :
    sendTranslateLogin code service tag user password peek =
      .ok (rawPackets code (loginPackets service tag user password peek)) := by
  unfold sendTranslateLogin
  rw [if_neg (by omega), if_neg (by omega)]
  have opt : ∀ (buf : Bytes) cmd (o : Option Bytes), buf.length + 4 + (o.getD []).length ≤ 1024 →
      loginOptional code buf cmd o = .ok (buf ++ match o with | some p => rawPacket code (cmd, p) | none => []) := by
    intro buf cmd o h
    cases o with
    | none => simp [loginOptional]
    | some p => exact loginPacket_ok h
  rw [loginPacket_ok (by simp)]
  simp only [bind, Except.bind]
  rw [loginPacket_ok (by simp [rawPacket])]
  simp only
  rw [loginPacket_ok (by simp [rawPacket_length]; omega)]
  simp only
  rw [opt _ _ _ (by simp [rawPacket_length]; omega)]
  simp only
  have l1 : ∀ cmd (o : Option Bytes),
      (match o with | some p => rawPacket code (cmd, p) | none => []).length ≤ 4 + (o.getD []).length := by
    intro cmd o; cases o <;> simp [rawPacket_length]
  have ht' := l1 .listenerTag tag
  have hp' := l1 .password password
  rw [loginPacket_ok (by simp only [List.length_append, List.length_nil, rawPacket_length]; omega)]
  simp only
  rw [opt _ _ _ (by simp only [List.length_append, List.length_nil, rawPacket_length]; omega)]
  simp only
  cases peek with
  | false =>
    simp only [Bool.false_eq_true, if_false]
    rw [loginPacket_ok (by simp only [List.length_append, List.length_nil, rawPacket_length]; omega)]
    cases tag <;> cases password <;> simp [rawPackets, loginPackets]
  | true =>
    simp only [if_true]
    rw [loginPacket_ok (by simp only [List.length_append, List.length_nil, rawPacket_length]; omega)]
    simp only
    rw [loginPacket_ok (by simp only [List.length_append, List.length_nil, rawPacket_length]; omega)]
    cases tag <;> cases password <;> simp [rawPackets, loginPackets]

theorem decode_raw {code : TrCommand → Nat} (hc : ∀ c, code c < 2 ^ 16) (ps : List (TrCommand × Bytes))
    (hps : ∀ p ∈ ps, p.2.length < 2 ^ 16) {fuel : Nat} (hf : ps.length < fuel) :
    decodeRequest fuel (rawPackets code ps) = some (ps.map fun p => (code p.1, p.2)) := by
  induction ps generalizing fuel with
  | nil => obtain ⟨f, rfl⟩ : ∃ f, fuel = f + 1 := ⟨fuel - 1, by simp at hf; omega⟩; rfl
  | cons p ps ih =>
    obtain ⟨f, rfl⟩ : ∃ f, fuel = f + 1 := ⟨fuel - 1, by simp at hf; omega⟩
    obtain ⟨cmd, b⟩ := p
    have hl : b.length < 2 ^ 16 := hps _ List.mem_cons_self
    have hcc := hc cmd
    have n16 : ∀ n : Nat, n < 2 ^ 16 → (UInt8.ofNat n).toNat + 256 * (UInt8.ofNat (n >>> 8)).toNat = n := by
      intro n hn
      simp only [UInt8.toNat_ofNat', Nat.shiftRight_eq_div_pow]
      omega
    have he : rawPackets code ((cmd, b) :: ps) =
        UInt8.ofNat b.length :: UInt8.ofNat (b.length >>> 8) :: UInt8.ofNat (code cmd) ::
          UInt8.ofNat (code cmd >>> 8) :: (b ++ rawPackets code ps) := by simp [rawPackets, rawPacket]
    rw [he]
    simp only [decodeRequest, n16 _ hl, n16 _ hcc]
    rw [if_neg (by simp), List.drop_left, List.take_left,
      ih (fun q hq => hps q (List.mem_cons_of_mem _ hq)) (by simp at hf; omega)]
    rfl

/-- **C54.** For every configured listener tag, every user name and password:
the request is either refused (a name or password of more than 256 bytes) or it
fits the 1024-byte buffer and decodes to exactly the intended packets. -/
theorem C54_login_request {code : TrCommand → Nat} (hc : ∀ c, code c < 2 ^ 16) {tagValue : Bytes} {tag : Option Bytes}
    (ht : listenerTag tagValue = some tag) (user : Bytes) (password : Option Bytes) (peek : Bool) :
    match sendTranslateLogin code (ascii "ssh") tag user password peek with
    | .ok bytes => bytes.length ≤ 1024 ∧ user.length ≤ 256 ∧ (password.getD []).length ≤ 256 ∧
        decodeRequest 1024 bytes =
          some ((loginPackets (ascii "ssh") tag user password peek).map fun p => (code p.1, p.2))
    | .error .userTooLong => 256 < user.length
    | .error .passwordTooLong => 256 < (password.getD []).length
    | .error .overflow => False := by
  have htl : (tag.getD []).length ≤ 256 := by
    unfold listenerTag at ht
    split at ht
    · cases ht
    · simp only [Option.some.injEq] at ht
      subst ht
      split
      · simp
      · simp; omega
  by_cases hu : user.length ≤ 256
  · by_cases hp : (password.getD []).length ≤ 256
    · rw [login_ok (by decide) htl hu hp]
      simp only
      have hmem : ∀ p ∈ loginPackets (ascii "ssh") tag user password peek, p.2.length ≤ 256 := by
        have h3 : (ascii "ssh").length = 3 := by decide
        unfold loginPackets
        cases tag <;> cases password <;> cases peek <;> simp at htl hp <;> simp [h3, hu, htl, hp]
      have hcount : (loginPackets (ascii "ssh") tag user password peek).length < 1024 := by
        unfold loginPackets
        cases tag <;> cases password <;> cases peek <;> simp
      refine ⟨?_, hu, hp, decode_raw hc _ (fun p hm => Nat.lt_of_le_of_lt (hmem p hm) (by decide)) hcount⟩
      have h3 : (ascii "ssh").length = 3 := by decide
      cases tag <;> cases password <;> cases peek <;>
        simp [rawPackets, loginPackets, rawPacket_length, h3] <;> simp at htl hp <;> omega
    · have : sendTranslateLogin code (ascii "ssh") tag user password peek = .error .passwordTooLong := by
        unfold sendTranslateLogin
        rw [if_neg (by omega), if_pos (by omega)]
      rw [this]
      simp only
      omega
  · have : sendTranslateLogin code (ascii "ssh") tag user password peek = .error .userTooLong := by
      unfold sendTranslateLogin
      rw [if_pos (by omega)]
    rw [this]
    simp only
    omega

example : listenerTag (ascii "internal") = some (some (ascii "internal")) ∧
    (sendTranslateLogin (fun _ => 77) (ascii "ssh") (some (ascii "internal")) (ascii "joe") none true).toOption.map
      List.length = some 42 := by decide +kernel

end Lukko
