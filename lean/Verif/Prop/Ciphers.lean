import Verif.Proof.Ciphers
import Verif.Prop.Input
import Verif.Prop.Wire
/-
  C47: packet protection.

  The primitives (ChaCha20, Poly1305, AES, HMAC) are arbitrary functions `P`;
  the theorems are about how the code composes them.
-/
namespace Lukko
open Spec Model

/-- Primitives for the examples: they depend on all their arguments. -/
def toySum (bs : Bytes) : UInt8 := bs.foldl (fun a b => a * 3 + b + 1) 7

def toyPrimitives : Primitives where
  chacha k n i := toySum k + toySum n * 5 + UInt8.ofNat i
  poly1305 k m := List.replicate 16 (toySum (k ++ m))
  hmac k m := List.replicate 32 (toySum (k ++ m))
  aesCtr k n i := toySum k * 7 + toySum n + UInt8.ofNat i
  gcmStream k n i := toySum k + toySum n * 11 + UInt8.ofNat i
  gcmTag k n a c := List.replicate 16 (toySum (k ++ n ++ a ++ c))

theorem toyPrimitives_sizes : toyPrimitives.Sizes := by
  constructor <;> intros <;> exact List.length_replicate

def toyKey : Bytes := (List.range 64).map UInt8.ofNat

/-- **C47** (partial: sequence numbers below 2^32, see
`C47_sequence_wrap_violated`).  An object constructed for a pair of negotiated
algorithm names protects every sequence of packets exactly as the definition of
these algorithms demands. -/
theorem C47_sealed_partial (P : Primitives) {cipher mac key iv macKey : Bytes}
    (hc : COMMA ∉ cipher) (hm : COMMA ∉ mac) {c : CipherObj}
    (h : makeCipherObj cipher mac key iv macKey = some c) :
    ∃ prot, protectionNamed cipher mac key iv macKey = some prot ∧
      ∀ ps : List (Nat × Bytes), (∀ p ∈ ps, p.1 < 2 ^ 32 ∧ 4 < p.2.length) →
        encryptAll P c ps = some (sealAll P prot [] ps) := by
  obtain ⟨prot, h1, h2⟩ := newCipher_tracks hc hm h
  exact ⟨prot, h1, fun ps hps => encryptAll_sealAll ps hps h2⟩

/-- **C47.** Keys of the size which the key derivation produces are accepted for
every supported pair of names. -/
theorem C47_constructible {cipher mac key iv macKey : Bytes} (hc : COMMA ∉ cipher) (hm : COMMA ∉ mac)
    (hk : key.length = 64) (hi : iv.length = 64) (hmk : macKey.length = 64)
    {prot : Protection} (h : protectionNamed cipher mac key iv macKey = some prot) :
    ∃ c, makeCipherObj cipher mac key iv macKey = some c :=
  makeCipherObj_some hc hm hk hi hmk h

example : COMMA ∉ ascii "aes256-ctr" ∧ COMMA ∉ ascii "hmac-sha2-256" ∧ toyKey.length = 64 ∧
    (makeCipherObj (ascii "aes256-ctr") (ascii "hmac-sha2-256") toyKey toyKey toyKey).isSome ∧
    (makeCipherObj (ascii "aes128-gcm@openssh.com") [] toyKey toyKey toyKey).isSome ∧
    (makeCipherObj (ascii "chacha20-poly1305@openssh.com") [] toyKey toyKey toyKey).isSome := by
  decide +kernel

/-- **C47** (partial: as above).  A receiver's object for the same names and keys
returns packets for a sequence of byte strings if and only if these are, in
this order and with these sequence numbers, the protected forms of the packets.
(`4 < …`: a length field alone is never processed as a packet, C03.) -/
theorem C47_opened_partial {P : Primitives} (hP : P.Sizes) {cipher mac key iv macKey : Bytes}
    (hc : COMMA ∉ cipher) (hm : COMMA ∉ mac) {c : CipherObj}
    (h : makeCipherObj cipher mac key iv macKey = some c) :
    ∃ prot, protectionNamed cipher mac key iv macKey = some prot ∧
      ∀ es ps : List (Nat × Bytes), (∀ e ∈ es, e.1 < 2 ^ 32 ∧ 4 + tagSize prot < e.2.length) →
        (openAll P c es = some ps ↔ es = sealAll P prot [] ps ∧ ∀ p ∈ ps, 4 < p.2.length) := by
  obtain ⟨prot, h1, h2⟩ := newCipher_tracks hc hm h
  exact ⟨prot, h1, fun es ps hes => openAll_iff hP es ps hes h2⟩

/- Two packets with each algorithm: the second uses another nonce, another
position of the key stream. -/
example : ∀ cipher ∈ [ascii "aes256-ctr", ascii "aes256-gcm@openssh.com", ascii "chacha20-poly1305@openssh.com"],
    ∃ c, makeCipherObj cipher (ascii "hmac-sha2-256") toyKey toyKey toyKey = some c ∧
      ∃ e₁ e₂, encryptAll toyPrimitives c [(7, [0, 0, 0, 2, 1, 9]), (8, [0, 0, 0, 2, 1, 9])] = some [(7, e₁), (8, e₂)] ∧
        e₁ ≠ e₂ ∧ openAll toyPrimitives c [(7, e₁), (8, e₂)] = some [(7, [0, 0, 0, 2, 1, 9]), (8, [0, 0, 0, 2, 1, 9])] ∧
        openAll toyPrimitives c [(7, e₂)] = none := by
  intro cipher hc
  simp only [List.mem_cons, List.not_mem_nil, or_false] at hc
  rcases hc with rfl | rfl | rfl
  · exact ⟨_, rfl, _, _, rfl, by decide +kernel, by decide +kernel, by decide +kernel⟩
  · exact ⟨_, rfl, _, _, rfl, by decide +kernel, by decide +kernel, by decide +kernel⟩
  · exact ⟨_, rfl, _, _, rfl, by decide +kernel, by decide +kernel, by decide +kernel⟩

/-- **C47.** For any object in any state and any sequence number: opening `e`
yields the packet `pkt` if and only if encrypting `pkt` in the same state yields
`e`; and both directions are in the same state afterwards. -/
theorem C47_exact {P : Primitives} (hP : P.Sizes) {c : CipherObj} {seq : Nat} {pkt e : Bytes} {c' : CipherObj}
    (he : 4 + c.authSize < e.length) :
    c.openPacket P seq e = some (pkt, c') ↔ c.encrypt P seq pkt = some (e, c') :=
  open_iff hP he

/-- An object in the middle of a connection. -/
def toyCipher : CipherObj := .hmac (.ctr [1] [2] 160) [3] [9, 9]

example : ∃ e c', toyCipher.encrypt toyPrimitives 5 [0, 0, 0, 2, 1, 9] = some (e, c') ∧
    4 + toyCipher.authSize < e.length ∧ c' ≠ toyCipher ∧
    toyCipher.openPacket toyPrimitives 5 e = some ([0, 0, 0, 2, 1, 9], c') ∧
    toyCipher.openPacket toyPrimitives 6 e = none := by
  refine ⟨_, _, rfl, ?_, ?_, ?_, ?_⟩ <;> decide +kernel

/-- **C47.** Whatever a receiver accepts carries a tag that verifies over
exactly the bytes received (or the packet returned, for encrypt-and-MAC) with
the sequence number or nonce of this packet. -/
theorem C47_tag_verified {P : Primitives} (hP : P.Sizes) {seq : Nat} {e pkt : Bytes} {c' : CipherObj} :
    (∀ k2 k1, 20 < e.length → CipherObj.openPacket P (.chacha k2 k1) seq e = some (pkt, c') →
      e.drop (e.length - 16) = P.poly1305 ((List.range 32).map (P.chacha k2 (u64 seq))) (e.take (e.length - 16))) ∧
    (∀ key iv, 20 < e.length → CipherObj.openPacket P (.gcm key iv) seq e = some (pkt, c') →
      e.drop (e.length - 16) = P.gcmTag key iv (e.take 4) ((e.take (e.length - 16)).drop 4)) ∧
    (∀ next key st, 36 + next.authSize < e.length → CipherObj.openPacket P (.hmac next key st) seq e = some (pkt, c') →
      e.drop (e.length - 32) = P.hmac key (u32 seq ++ pkt)) := by
  refine ⟨fun k2 k1 hl h => ?_, fun key iv hl h => ?_, fun next key st hl h => ?_⟩
  · have := open_only_sealed (by simp only [CipherObj.authSize]; omega) h
    simp only [CipherObj.encrypt] at this
    split at this
    · cases this
    · simp only [Option.some.injEq, Prod.mk.injEq] at this
      obtain ⟨rfl, _⟩ := this
      rw [drop_len_sub (hP.poly1305 _ _), take_len_sub (hP.poly1305 _ _), polyKey_eq, u64Bytes_eq]
  · have := open_only_sealed (by simp only [CipherObj.authSize]; omega) h
    simp only [CipherObj.encrypt] at this
    split at this
    · cases this
    next h4 =>
      simp only [Option.some.injEq, Prod.mk.injEq] at this
      obtain ⟨rfl, _⟩ := this
      have hl4 : (pkt.take 4).length = 4 := by simp; omega
      have hdd : ∀ (a b : Bytes), a.length = 4 → (a ++ b).drop 4 = b := fun a b h => by rw [← h, List.drop_left]
      have htt : ∀ (a b : Bytes), a.length = 4 → (a ++ b).take 4 = a := fun a b h => by rw [← h, List.take_left]
      rw [drop_len_sub (hP.gcmTag _ _ _ _), take_len_sub (hP.gcmTag _ _ _ _), hdd _ _ hl4, List.append_assoc,
        htt _ _ hl4]
  · have := open_only_sealed (by simp only [CipherObj.authSize]; omega) h
    simp only [CipherObj.encrypt] at this
    split at this
    · cases this
    · split at this
      · cases this
      · simp only [Option.some.injEq, Prod.mk.injEq] at this
        obtain ⟨rfl, _⟩ := this
        rw [drop_len_sub (hP.hmac _ _), u32Bytes_eq]

example : ∃ e pkt c', 36 < e.length ∧ toyCipher.openPacket toyPrimitives 5 e = some (pkt, c') ∧
    (∃ e pkt c', 20 < e.length ∧ CipherObj.openPacket toyPrimitives (.gcm [1] (List.replicate 12 3)) 5 e = some (pkt, c')) ∧
    (∃ e pkt c', 20 < e.length ∧ CipherObj.openPacket toyPrimitives (.chacha [1] [2]) 5 e = some (pkt, c')) := by
  have w (c : CipherObj) : (∃ e c', c.encrypt toyPrimitives 5 [0, 0, 0, 2, 1, 9] = some (e, c') ∧
      4 + c.authSize < e.length) → ∃ e pkt c', 4 + c.authSize < e.length ∧ c.openPacket toyPrimitives 5 e = some (pkt, c') :=
    fun ⟨e, c', h, hl⟩ => ⟨e, _, c', hl, (C47_exact toyPrimitives_sizes hl).mpr h⟩
  obtain ⟨e, p, c', h1, h2⟩ := w toyCipher ⟨_, _, rfl, by decide +kernel⟩
  exact ⟨e, p, c', h1, h2, w (.gcm [1] (List.replicate 12 3)) ⟨_, _, rfl, by decide +kernel⟩,
    w (.chacha [1] [2]) ⟨_, _, rfl, by decide +kernel⟩⟩

/-- **C47.** The ciphers meet the contract which the theorems about the packet
layer (C02, C03, C07, C08, C09) assume. -/
theorem C47_interface {P : Primitives} (hP : P.Sizes) :
    Contract (cipherOps P) Eq ∧ Sane (cipherOps P) ∧ EncNonempty (cipherOps P) :=
  ⟨cipherOps_contract hP, cipherOps_sane P, cipherOps_nonempty hP⟩

example : toyPrimitives.Sizes := toyPrimitives_sizes

/-- **C47.** A whole connection with the actual ciphers: for every chunking and
interleaving, the receiver delivers a prefix of the packets sent, and all of
them when it is quiet. -/
theorem C47_delivery {P : Primitives} (hP : P.Sizes)
    (xs : List (Sent CipherObj)) (hL : Legal Eq xs) {S : Bytes} (hS : transmit (cipherOps P) none 0 xs = some S)
    (es : List (InputEvent CipherObj)) {s : InputSys CipherObj}
    (hrun : ({} : InputSys CipherObj).run (cipherOps P) es = some s)
    (hi : ∃ cs, s.installs ++ cs = installsOf xs) (hfed : ∃ t, s.fed ++ t = S) :
    s.delivered.map (·.2) <+: xs.map (·.payload) ∧
    (s.fed = S → s.installs = installsOf xs → Quiet (cipherOps P) s →
      s.delivered.map (·.2) = xs.map (·.payload)) :=
  C07_encrypted_delivery (cipherOps_sane P) (cipherOps_contract hP) xs hL hS es hrun hi hfed

def toySent : List (Sent CipherObj) :=
  [⟨[0, 0, 0, 12, 10, 21, 0, 0, 0, 0, 0, 0, 0, 0, 0, 0], [21], some (toyCipher, toyCipher, false)⟩,
   ⟨[0, 0, 0, 12, 9, 5, 7, 1, 2, 3, 4, 5, 6, 7, 8, 9], [5, 7], none⟩]

example : Legal Eq toySent ∧ (transmit (cipherOps toyPrimitives) none 0 toySent).map List.length = some 64 := by
  refine ⟨⟨?_, ?_, ?_⟩, by decide +kernel⟩
  · intro x hx
    simp only [toySent, List.mem_cons, List.not_mem_nil, or_false] at hx
    rcases hx with rfl | rfl
    · exact ⟨by decide, by decide, 8, 0, ⟨List.replicate 10 0, by decide, by decide, by decide⟩, by decide, by decide⟩
    · exact ⟨by decide, by decide, 8, 0, ⟨[1, 2, 3, 4, 5, 6, 7, 8, 9], by decide, by decide, by decide⟩, by decide, by decide⟩
  · decide
  · intro x hx tx rx reset h
    simp only [toySent, List.mem_cons, List.not_mem_nil, or_false] at hx
    rcases hx with rfl | rfl
    · cases h; rfl
    · cases h

/-- **C47** fails for packet number 2^32 under one key with
`chacha20-poly1305@openssh.com`: sequence numbers are modulo 2^32, but the nonce
is made from a 64-bit counter (ChaCha20Poly1305Cipher.cxx:64,77,100). -/
theorem C47_sequence_wrap_violated :
    ∃ (c : CipherObj) (prot : Protection) (pkt : Bytes),
      makeCipherObj (ascii "chacha20-poly1305@openssh.com") [] toyKey toyKey toyKey = some c ∧
      protectionNamed (ascii "chacha20-poly1305@openssh.com") [] toyKey toyKey toyKey = some prot ∧
      4 < pkt.length ∧
      encryptAll toyPrimitives c [(2 ^ 32, pkt)] ≠ some (sealAll toyPrimitives prot [] [(2 ^ 32, pkt)]) :=
  ⟨_, _, [0, 0, 0, 2, 1, 9], rfl, rfl, by decide, by decide +kernel⟩

/-- The alignment assertions (OsslCipher.cxx:127,131) are about data that was
not authenticated yet: a length field which `Input` accepts makes them fail. -/
theorem C47_alignment_violated :
    ∃ (c : CipherObj) (e hdr : Bytes) (c₁ : CipherObj) (len : Nat),
      makeCipherObj (ascii "aes128-gcm@openssh.com") [] toyKey toyKey toyKey = some c ∧
      c.decryptHeader toyPrimitives 3 (e.take 4) = some (hdr, c₁) ∧ parseHeader hdr = .ok len ∧
      e.length = 4 + len + c.authSize ∧ c₁.alignmentOk e = false :=
  ⟨_, [0, 0, 0, 5] ++ List.replicate 21 0, _, _, 5, rfl, rfl, rfl, rfl, rfl⟩

/-- **C47, C01.** Packets are padded as the negotiated algorithms demand, and the
assertions about alignment hold for everything we send. -/
theorem C47_padded {cipher mac key iv macKey : Bytes} (hc : COMMA ∉ cipher) (hm : COMMA ∉ mac) {c : CipherObj}
    (h : makeCipherObj cipher mac key iv macKey = some c) (hdr payload : Bytes) (hh : hdr.length = 5)
    (rnd : Nat → Bytes) (hrnd : ∀ n, (rnd n).length = n) (hfit : payload.length ≤ 65512) :
    ∃ prot pkt, protectionNamed cipher mac key iv macKey = some prot ∧
      finishFor (some c) ⟨hdr ++ payload⟩ rnd = .ok pkt ∧
      IsPacket pkt payload prot.padding.1 prot.padding.2 ∧ c.encAlignmentOk pkt = true := by
  obtain ⟨prot, h1, h2⟩ := newCipher_tracks hc hm h
  have key : ∀ bs wh, bs = 8 ∨ bs = 16 → ∃ pkt, Ser.finishPacket ⟨hdr ++ payload⟩ bs wh rnd = .ok pkt ∧
      IsPacket pkt payload bs (if wh = true then 4 else 0) :=
    fun bs wh hb => C01_packet_wellformed hdr payload hh bs hb wh rnd hrnd hfit
  cases prot with
  | chacha20Poly1305 k2 k1 =>
    cases h2
    obtain ⟨pkt, h3, h4⟩ := key 8 true (.inl rfl)
    exact ⟨_, pkt, h1, h3, h4, rfl⟩
  | aesGcm k i =>
    obtain ⟨-, rfl⟩ := h2
    obtain ⟨pkt, h3, h4⟩ := key 16 true (.inr rfl)
    refine ⟨_, pkt, h1, h3, h4, ?_⟩
    obtain ⟨k, hk⟩ := h4.aligned
    simp only [if_true] at hk
    simp only [CipherObj.encAlignmentOk, hk, Nat.mul_mod_right, beq_self_eq_true]
  | aesCtrHmac k i mk =>
    obtain ⟨st, rfl⟩ := h2
    obtain ⟨pkt, h3, h4⟩ := key 16 false (.inr rfl)
    refine ⟨_, pkt, h1, h3, h4, ?_⟩
    obtain ⟨k, hk⟩ := h4.aligned
    simp only [Bool.false_eq_true, if_false, Nat.sub_zero] at hk
    simp only [CipherObj.encAlignmentOk, hk, Nat.mul_mod_right, beq_self_eq_true]

example : ∃ c, makeCipherObj (ascii "aes192-ctr") (ascii "hmac-sha2-256") toyKey toyKey toyKey = some c ∧
    (finishFor (some c) ⟨[0, 0, 0, 0, 0] ++ [21, 7, 7]⟩ (fun n => List.replicate n 7)).toOption.map List.length = some 16 := by
  exact ⟨_, rfl, by decide +kernel⟩

/-- Before the first key exchange is finished, packets are padded to eight bytes. -/
theorem C01_unencrypted (hdr payload : Bytes) (hh : hdr.length = 5)
    (rnd : Nat → Bytes) (hrnd : ∀ n, (rnd n).length = n) (hfit : payload.length ≤ 65512) :
    ∃ pkt, finishFor none ⟨hdr ++ payload⟩ rnd = .ok pkt ∧ IsPacket pkt payload 8 0 :=
  C01_packet_wellformed hdr payload hh 8 (.inl rfl) false rnd hrnd hfit

example : ∃ pkt, finishFor none ⟨[0, 0, 0, 0, 0] ++ [21]⟩ (fun n => List.replicate n 7) = .ok pkt ∧ IsPacket pkt [21] 8 0 :=
  C01_unencrypted _ [21] rfl _ (by simp) (by decide)

end Lukko
