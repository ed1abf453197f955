import Verif.Model.Ciphers
import Verif.Spec.Ciphers
import Verif.Proof.Input
import Verif.Proof.Output
/-
  Lemmas about the cipher implementations.
-/
namespace Lukko
open Spec Model

/-! ### Key streams -/

@[simp] theorem xorStream_length (ks : Nat → UInt8) (pos : Nat) (bs : Bytes) :
    (xorStream ks pos bs).length = bs.length := by
  induction bs generalizing pos with
  | nil => rfl
  | cons b bs ih => simp [xorStream, ih]

theorem xorStream_xor (ks : Nat → UInt8) (pos : Nat) (bs : Bytes) :
    xorStream ks pos (xorStream ks pos bs) = bs := by
  induction bs generalizing pos with
  | nil => rfl
  | cons b bs ih => simp [xorStream, ih, UInt8.xor_assoc]

theorem xorStream_append (ks : Nat → UInt8) (pos : Nat) (a b : Bytes) :
    xorStream ks pos (a ++ b) = xorStream ks pos a ++ xorStream ks (pos + a.length) b := by
  induction a generalizing pos with
  | nil => simp [xorStream]
  | cons x a ih => simp [xorStream, ih, Nat.add_comm, Nat.add_left_comm]

theorem xorStream_zeros (ks : Nat → UInt8) (pos n : Nat) :
    xorStream ks pos (List.replicate n 0) = (List.range n).map fun i => ks (pos + i) := by
  induction n generalizing pos with
  | zero => rfl
  | succ n ih =>
    rw [List.replicate_succ, xorStream, ih, List.range_succ_eq_map, List.map_cons, List.map_map]
    simp only [UInt8.zero_xor, Nat.add_zero, List.cons.injEq, true_and]
    apply List.map_congr_left
    intro i _
    simp [Nat.add_comm, Nat.add_left_comm]

theorem polyKey_eq (P : Primitives) (nonce key : Bytes) :
    polyKey P nonce key = (List.range 32).map (P.chacha key nonce) := by
  unfold polyKey
  rw [xorStream_zeros]
  simp only [Nat.zero_add]

/-! ### Numbers -/

theorem u64Bytes_eq (n : Nat) : u64Bytes n = u64 n := by
  simp only [u64Bytes, u64, u32, List.cons_append, List.nil_append, Nat.shiftRight_eq_div_pow,
    List.cons.injEq, and_true]
  refine ⟨?_, ?_, ?_, ?_, ?_, ?_, ?_, ?_⟩ <;>
  · apply UInt8.toNat_inj.mp
    simp only [UInt8.toNat_ofNat']
    omega

theorem foldl_be (bs : Bytes) (n : Nat) :
    bs.foldl (fun n b => n * 256 + b.toNat) n = bs.foldl (fun n b => 256 * n + b.toNat) n := by
  induction bs generalizing n with
  | nil => rfl
  | cons b bs ih => simp only [List.foldl_cons, ih, Nat.mul_comm]

theorem u64_length (n : Nat) : (u64 n).length = 8 := by simp [u64, u32]

theorem u64_mod {a b : Nat} (h : a % 2 ^ 64 = b % 2 ^ 64) : u64 a = u64 b := by
  simp only [u64, u32, List.cons_append, List.nil_append, List.cons.injEq, and_true]
  refine ⟨?_, ?_, ?_, ?_, ?_, ?_, ?_, ?_⟩ <;>
  · apply UInt8.toNat_inj.mp
    simp only [UInt8.toNat_ofNat']
    omega

theorem beValue_u64 (n : Nat) : beValue (u64 n) = n % 2 ^ 64 := by
  simp only [u64, u32, List.cons_append, List.nil_append, beValue, List.foldl_cons, List.foldl_nil,
    UInt8.toNat_ofNat']
  omega

theorem u64_beValue {bs : Bytes} (h : bs.length = 8) : u64 (beValue bs) = bs := by
  apply beValue_inj
  · rw [u64_length, h]
  · rw [beValue_u64]
    have := beValue_lt bs
    rw [h] at this
    omega

theorem nextIv_eq (iv : Bytes) (n : Nat) :
    nextIv (iv.take 4 ++ u64 (beValue (iv.drop 4) + n)) = iv.take 4 ++ u64 (beValue (iv.drop 4) + (n + 1)) ∨
      iv.length < 4 := by
  by_cases h : iv.length < 4
  · exact Or.inr h
  left
  have hl : (iv.take 4).length = 4 := by simp; omega
  unfold nextIv
  have hdd : ∀ (a b : Bytes), a.length = 4 → (a ++ b).drop 4 = b := fun a b h => by rw [← h, List.drop_left]
  have htt : ∀ (a b : Bytes), a.length = 4 → (a ++ b).take 4 = a := fun a b h => by rw [← h, List.take_left]
  rw [htt _ _ hl, hdd _ _ hl, foldl_be]
  change iv.take 4 ++ u64Bytes (beValue (u64 _) + 1) = _
  rw [u64Bytes_eq, beValue_u64]
  congr 1
  apply u64_mod
  omega

/-! ### Sizes -/

theorem CipherObj_header_length {P : Primitives} {c : CipherObj} {seq : Nat} {s h : Bytes} {c' : CipherObj}
    (hd : c.decryptHeader P seq s = some (h, c')) : h.length = s.length ∧ c'.authSize = c.authSize := by
  induction c generalizing h c' with
  | chacha => simp only [CipherObj.decryptHeader, Option.some.injEq, Prod.mk.injEq] at hd; obtain ⟨rfl, rfl⟩ := hd; simp [CipherObj.authSize]
  | ctr => simp only [CipherObj.decryptHeader, Option.some.injEq, Prod.mk.injEq] at hd; obtain ⟨rfl, rfl⟩ := hd; simp [CipherObj.authSize]
  | gcm => simp only [CipherObj.decryptHeader, Option.some.injEq, Prod.mk.injEq] at hd; obtain ⟨rfl, rfl⟩ := hd; simp [CipherObj.authSize]
  | hmac next key st ih =>
    simp only [CipherObj.decryptHeader] at hd
    split at hd
    · cases hd
    next d n' hn =>
      simp only [Option.some.injEq, Prod.mk.injEq] at hd
      obtain ⟨rfl, rfl⟩ := hd
      have := ih hn
      simp [CipherObj.authSize, this]

theorem CipherObj_payload_length {P : Primitives} {c : CipherObj} {seq : Nat} {s r : Bytes} {c' : CipherObj}
    (hd : c.decryptPayload P seq s = some (r, c')) :
    r.length = s.length - 4 - c.authSize ∧ c'.authSize = c.authSize := by
  induction c generalizing s r c' with
  | chacha =>
    simp only [CipherObj.decryptPayload] at hd
    split at hd
    · cases hd
    · split at hd
      · cases hd
      · simp only [Option.some.injEq, Prod.mk.injEq] at hd
        obtain ⟨rfl, rfl⟩ := hd
        simp [CipherObj.authSize]; omega
  | ctr =>
    simp only [CipherObj.decryptPayload] at hd
    split at hd
    · cases hd
    · simp only [Option.some.injEq, Prod.mk.injEq] at hd
      obtain ⟨rfl, rfl⟩ := hd
      simp [CipherObj.authSize]
  | gcm =>
    simp only [CipherObj.decryptPayload] at hd
    split at hd
    · cases hd
    · split at hd
      · cases hd
      · simp only [Option.some.injEq, Prod.mk.injEq] at hd
        obtain ⟨rfl, rfl⟩ := hd
        simp [CipherObj.authSize]; omega
  | hmac next key st ih =>
    simp only [CipherObj.decryptPayload] at hd
    split at hd
    · cases hd
    · split at hd
      · cases hd
      next d n' hn =>
        split at hd
        · cases hd
        · simp only [Option.some.injEq, Prod.mk.injEq] at hd
          obtain ⟨rfl, rfl⟩ := hd
          have := ih hn
          simp only [List.length_take] at this
          simp only [CipherObj.authSize, this, and_true]
          omega

theorem CipherObj_encrypt_length {P : Primitives} (hP : P.Sizes) {c : CipherObj} {seq : Nat} {s e : Bytes}
    {c' : CipherObj} (h : c.encrypt P seq s = some (e, c')) :
    e.length = s.length + c.authSize ∧ c'.authSize = c.authSize ∧ 4 ≤ s.length := by
  induction c generalizing e c' with
  | chacha =>
    simp only [CipherObj.encrypt] at h
    split at h
    · cases h
    · simp only [Option.some.injEq, Prod.mk.injEq] at h
      obtain ⟨rfl, rfl⟩ := h
      simp [CipherObj.authSize, hP.poly1305]; omega
  | ctr =>
    simp only [CipherObj.encrypt] at h
    split at h
    · cases h
    · simp only [Option.some.injEq, Prod.mk.injEq] at h
      obtain ⟨rfl, rfl⟩ := h
      simp [CipherObj.authSize]; omega
  | gcm =>
    simp only [CipherObj.encrypt] at h
    split at h
    · cases h
    · simp only [Option.some.injEq, Prod.mk.injEq] at h
      obtain ⟨rfl, rfl⟩ := h
      simp [CipherObj.authSize, hP.gcmTag]; omega
  | hmac next key st ih =>
    simp only [CipherObj.encrypt] at h
    split at h
    · cases h
    · split at h
      · cases h
      next d n' hn =>
        simp only [Option.some.injEq, Prod.mk.injEq] at h
        obtain ⟨rfl, rfl⟩ := h
        have := ih hn
        simp [CipherObj.authSize, this, hP.hmac]; omega

/-! ### Opening what was sealed, and nothing else -/

theorem open_some {P : Primitives} {c : CipherObj} {seq : Nat} {e pkt : Bytes} {c' : CipherObj} :
    c.openPacket P seq e = some (pkt, c') ↔
      ∃ h c₁ d, c.decryptHeader P seq (e.take 4) = some (h, c₁) ∧
        c₁.decryptPayload P seq e = some (d, c') ∧ pkt = h ++ d := by
  unfold CipherObj.openPacket
  constructor
  · intro h
    split at h
    · cases h
    next hd c₁ h1 =>
      split at h
      · cases h
      next d c₂ h2 =>
        simp only [Option.some.injEq, Prod.mk.injEq] at h
        obtain ⟨rfl, rfl⟩ := h
        exact ⟨_, _, _, h1, h2, rfl⟩
  · rintro ⟨h, c₁, d, h1, h2, rfl⟩
    rw [h1]; simp only [h2]

theorem take_len_sub {a b : Bytes} {n : Nat} (h : b.length = n) : (a ++ b).take ((a ++ b).length - n) = a := by
  rw [List.length_append, show a.length + b.length - n = a.length by omega, List.take_left]

theorem drop_len_sub {a b : Bytes} {n : Nat} (h : b.length = n) : (a ++ b).drop ((a ++ b).length - n) = b := by
  rw [List.length_append, show a.length + b.length - n = a.length by omega, List.drop_left]

/-- What a cipher object encrypts, an object in the same state opens again, and
both are in the same state afterwards. -/
theorem open_sealed {P : Primitives} (hP : P.Sizes) {c : CipherObj} {seq : Nat} {pkt e : Bytes} {c' : CipherObj}
    (h : c.encrypt P seq pkt = some (e, c')) :
    ∃ c₁, c.decryptHeader P seq (e.take 4) = some (pkt.take 4, c₁) ∧
      c₁.decryptPayload P seq e = some (pkt.drop 4, c') := by
  induction c generalizing e c' with
  | chacha pk hk =>
    simp only [CipherObj.encrypt] at h
    split at h
    · cases h
    next hl =>
      simp only [Option.some.injEq, Prod.mk.injEq] at h
      obtain ⟨rfl, rfl⟩ := h
      refine ⟨.chacha pk hk, ?_, ?_⟩
      · simp only [CipherObj.decryptHeader, Option.some.injEq, Prod.mk.injEq, and_true]
        rw [List.append_assoc, List.take_append_of_le_length (by simp; omega),
          List.take_of_length_le (by simp; omega), xorStream_xor]
      · simp only [CipherObj.decryptPayload]
        rw [if_neg (by simp [hP.poly1305]; omega), take_len_sub (hP.poly1305 _ _), drop_len_sub (hP.poly1305 _ _),
          if_neg (by simp)]
        simp only [Option.some.injEq, Prod.mk.injEq, and_true]
        have hl4 : (xorStream (P.chacha hk (u64Bytes seq)) 0 (pkt.take 4)).length = 4 := by simp; omega
        have : ∀ (a b : Bytes), a.length = 4 → (a ++ b).drop 4 = b := fun a b h => by rw [← h, List.drop_left]
        rw [this _ _ hl4, xorStream_xor]
  | ctr key iv pos =>
    simp only [CipherObj.encrypt] at h
    split at h
    · cases h
    next hl =>
      simp only [Option.some.injEq, Prod.mk.injEq] at h
      obtain ⟨rfl, rfl⟩ := h
      have h4 : (pkt.take 4).length = 4 := by simp; omega
      have hs : xorStream (P.aesCtr key iv) pos pkt = xorStream (P.aesCtr key iv) pos (pkt.take 4) ++
          xorStream (P.aesCtr key iv) (pos + 4) (pkt.drop 4) := by
        conv => lhs; rw [← List.take_append_drop 4 pkt, xorStream_append, h4]
      have ht : (xorStream (P.aesCtr key iv) pos pkt).take 4 = xorStream (P.aesCtr key iv) pos (pkt.take 4) := by
        rw [hs, List.take_append_of_le_length (by simp; omega), List.take_of_length_le (by simp; omega)]
      have hd : (xorStream (P.aesCtr key iv) pos pkt).drop 4 = xorStream (P.aesCtr key iv) (pos + 4) (pkt.drop 4) := by
        rw [hs]
        have : ∀ (a b : Bytes), a.length = 4 → (a ++ b).drop 4 = b := fun a b h => by rw [← h, List.drop_left]
        exact this _ _ (by simp; omega)
      refine ⟨.ctr key iv (pos + 4), ?_, ?_⟩
      · simp only [CipherObj.decryptHeader, ht, xorStream_xor, xorStream_length, h4]
      · simp only [CipherObj.decryptPayload]
        rw [if_neg (by simp; omega), hd, xorStream_xor]
        simp only [xorStream_length, List.length_drop]
        rw [show pos + 4 + (pkt.length - 4) = pos + pkt.length by omega]
  | gcm key iv =>
    simp only [CipherObj.encrypt] at h
    split at h
    · cases h
    next hl =>
      simp only [Option.some.injEq, Prod.mk.injEq] at h
      obtain ⟨rfl, rfl⟩ := h
      have h4 : (pkt.take 4).length = 4 := by simp; omega
      refine ⟨.gcm key iv, ?_, ?_⟩
      · simp only [CipherObj.decryptHeader, Option.some.injEq, Prod.mk.injEq, and_true]
        rw [List.append_assoc, List.take_append_of_le_length (by omega), List.take_of_length_le (by omega)]
      · simp only [CipherObj.decryptPayload]
        have hdd : ∀ (a b : Bytes), a.length = 4 → (a ++ b).drop 4 = b := fun a b h => by rw [← h, List.drop_left]
        have htt : ∀ (a b : Bytes), a.length = 4 → (a ++ b).take 4 = a := fun a b h => by rw [← h, List.take_left]
        rw [if_neg (by simp [hP.gcmTag]; omega), take_len_sub (hP.gcmTag _ _ _ _), drop_len_sub (hP.gcmTag _ _ _ _),
          htt _ _ h4, hdd _ _ h4, if_neg (by simp), xorStream_xor]
  | hmac next key st ih =>
    simp only [CipherObj.encrypt] at h
    split at h
    · cases h
    next hl =>
      split at h
      · cases h
      next d n' hn =>
        simp only [Option.some.injEq, Prod.mk.injEq] at h
        obtain ⟨rfl, rfl⟩ := h
        obtain ⟨n₁, h1, h2⟩ := ih hn
        have hlen := CipherObj_encrypt_length hP hn
        refine ⟨.hmac n₁ key (u32Bytes seq ++ pkt.take 4), ?_, ?_⟩
        · simp only [CipherObj.decryptHeader]
          rw [List.take_append_of_le_length (by omega), h1]
        · simp only [CipherObj.decryptPayload]
          rw [if_neg (by simp [hP.hmac]; omega), take_len_sub (hP.hmac _ _), drop_len_sub (hP.hmac _ _), h2]
          simp only
          rw [if_neg (by simp)]
          simp

theorem split_tag (e : Bytes) (n : Nat) : e.take (e.length - n) ++ e.drop (e.length - n) = e :=
  List.take_append_drop _ _

/-- A cipher object opens nothing but what an object in the same state would
have produced for the packet. -/
theorem open_only_sealed {P : Primitives} {c : CipherObj} {seq : Nat} {pkt e : Bytes} {c' : CipherObj}
    (he : 4 + c.authSize < e.length) (h : c.openPacket P seq e = some (pkt, c')) :
    c.encrypt P seq pkt = some (e, c') := by
  obtain ⟨hd, c₁, d, h1, h2, rfl⟩ := open_some.mp h
  clear h
  induction c generalizing e hd c₁ d c' with
  | chacha pk hk =>
    simp only [CipherObj.decryptHeader, Option.some.injEq, Prod.mk.injEq] at h1
    obtain ⟨rfl, rfl⟩ := h1
    simp only [CipherObj.authSize] at he
    simp only [CipherObj.decryptPayload] at h2
    split at h2
    · cases h2
    · split at h2
      · cases h2
      next hv =>
        simp only [Option.some.injEq, Prod.mk.injEq] at h2
        obtain ⟨rfl, rfl⟩ := h2
        have hv : P.poly1305 (polyKey P (u64Bytes seq) pk) (e.take (e.length - 16)) = e.drop (e.length - 16) := by
          simpa using hv
        have h4 : (xorStream (P.chacha hk (u64Bytes seq)) 0 (e.take 4)).length = 4 := by simp; omega
        have hdd : ∀ (a b : Bytes), a.length = 4 → (a ++ b).drop 4 = b := fun a b h => by rw [← h, List.drop_left]
        have htt : ∀ (a b : Bytes), a.length = 4 → (a ++ b).take 4 = a := fun a b h => by rw [← h, List.take_left]
        have hb : e.take 4 ++ (e.take (e.length - 16)).drop 4 = e.take (e.length - 16) := by
          conv => rhs; rw [← List.take_append_drop 4 (e.take (e.length - 16))]
          rw [List.take_take, Nat.min_eq_left (by omega)]
        simp only [CipherObj.encrypt]
        rw [if_neg (by simp; omega), htt _ _ h4, hdd _ _ h4, xorStream_xor, xorStream_xor, hb, hv, split_tag]
  | ctr key iv pos =>
    simp only [CipherObj.decryptHeader, Option.some.injEq, Prod.mk.injEq] at h1
    obtain ⟨rfl, rfl⟩ := h1
    simp only [CipherObj.authSize] at he
    simp only [CipherObj.decryptPayload] at h2
    split at h2
    · cases h2
    · simp only [Option.some.injEq, Prod.mk.injEq] at h2
      obtain ⟨rfl, rfl⟩ := h2
      have h4 : (e.take 4).length = 4 := by simp; omega
      have : xorStream (P.aesCtr key iv) pos (e.take 4) ++ xorStream (P.aesCtr key iv) (pos + 4) (e.drop 4) =
          xorStream (P.aesCtr key iv) pos e := by
        conv => rhs; rw [← List.take_append_drop 4 e, xorStream_append, h4]
      simp only [CipherObj.encrypt]
      rw [h4, this, if_neg (by simp; omega), xorStream_xor]
      simp only [xorStream_length, List.length_drop]
      rw [show pos + 4 + (e.length - 4) = pos + e.length by omega]
  | gcm key iv =>
    simp only [CipherObj.decryptHeader, Option.some.injEq, Prod.mk.injEq] at h1
    obtain ⟨rfl, rfl⟩ := h1
    simp only [CipherObj.authSize] at he
    simp only [CipherObj.decryptPayload] at h2
    split at h2
    · cases h2
    · split at h2
      · cases h2
      next hv =>
        simp only [Option.some.injEq, Prod.mk.injEq] at h2
        obtain ⟨rfl, rfl⟩ := h2
        have h4 : (e.take 4).length = 4 := by simp; omega
        have htk : (e.take (e.length - 16)).take 4 = e.take 4 := by
          rw [List.take_take, Nat.min_eq_left (by omega)]
        have hv : P.gcmTag key iv (e.take 4) ((e.take (e.length - 16)).drop 4) = e.drop (e.length - 16) := by
          rw [htk] at hv; simpa using hv
        have hdd : ∀ (a b : Bytes), a.length = 4 → (a ++ b).drop 4 = b := fun a b h => by rw [← h, List.drop_left]
        have htt : ∀ (a b : Bytes), a.length = 4 → (a ++ b).take 4 = a := fun a b h => by rw [← h, List.take_left]
        have hb : e.take 4 ++ (e.take (e.length - 16)).drop 4 = e.take (e.length - 16) := by
          conv => rhs; rw [← List.take_append_drop 4 (e.take (e.length - 16))]
          rw [htk]
        simp only [CipherObj.encrypt]
        rw [if_neg (by simp; omega), htt _ _ h4, hdd _ _ h4, xorStream_xor, hb, hv, split_tag]
  | hmac next key st ih =>
    simp only [CipherObj.decryptHeader] at h1
    split at h1
    · cases h1
    next d' n₁ hn =>
      simp only [Option.some.injEq, Prod.mk.injEq] at h1
      obtain ⟨rfl, rfl⟩ := h1
      simp only [CipherObj.authSize] at he
      simp only [CipherObj.decryptPayload] at h2
      split at h2
      · cases h2
      · split at h2
        · cases h2
        next d n' hp =>
          split at h2
          · cases h2
          next hv =>
            simp only [Option.some.injEq, Prod.mk.injEq] at h2
            obtain ⟨rfl, rfl⟩ := h2
            have htk : (e.take (e.length - 32)).take 4 = e.take 4 := by
              rw [List.take_take, Nat.min_eq_left (by omega)]
            rw [← htk] at hn
            have hl := (CipherObj_header_length hn).1
            have hl2 := CipherObj_payload_length hp
            have := ih (by simp; omega) _ _ _ hn hp
            simp only [CipherObj.encrypt]
            rw [if_neg (by rw [List.length_append, hl]; simp; omega), this]
            simp only
            have hv : P.hmac key (u32Bytes seq ++ (d' ++ d)) = e.drop (e.length - 32) := by
              rw [← List.append_assoc]; simpa using hv
            rw [hv, split_tag, List.append_assoc]

theorem open_iff {P : Primitives} (hP : P.Sizes) {c : CipherObj} {seq : Nat} {pkt e : Bytes} {c' : CipherObj}
    (he : 4 + c.authSize < e.length) :
    c.openPacket P seq e = some (pkt, c') ↔ c.encrypt P seq pkt = some (e, c') := by
  constructor
  · exact open_only_sealed he
  · intro h
    obtain ⟨c₁, h1, h2⟩ := open_sealed hP h
    exact open_some.mpr ⟨_, _, _, h1, h2, (List.take_append_drop 4 pkt).symm⟩

/-! ### Against the specification -/

/-- The object that protects the packets after `before`. -/
def Tracks (prot : Protection) (before : List Bytes) (c : CipherObj) : Prop :=
  match prot with
  | .chacha20Poly1305 k2 k1 => c = .chacha k2 k1
  | .aesGcm key iv => iv.length = 12 ∧ c = .gcm key (iv.take 4 ++ u64 (beValue (iv.drop 4) + before.length))
  | .aesCtrHmac key iv macKey => ∃ st, c = .hmac (.ctr key iv before.flatten.length) macKey st

theorem tracks_auth {prot : Protection} {before : List Bytes} {c : CipherObj} (h : Tracks prot before c) :
    c.authSize = tagSize prot := by
  cases prot with
  | chacha20Poly1305 => cases h; rfl
  | aesGcm => obtain ⟨_, rfl⟩ := h; rfl
  | aesCtrHmac => obtain ⟨st, rfl⟩ := h; rfl

theorem tracks_step {P : Primitives} {prot : Protection} {before : List Bytes} {c : CipherObj}
    (h : Tracks prot before c) {seq : Nat} (hs : seq < 2 ^ 32) {pkt : Bytes} (hp : 4 < pkt.length) :
    ∃ c', c.encrypt P seq pkt = some (sealPacket P prot before seq pkt, c') ∧ Tracks prot (before ++ [pkt]) c' := by
  cases prot with
  | chacha20Poly1305 k2 k1 =>
    cases h
    refine ⟨.chacha k2 k1, ?_, rfl⟩
    simp only [CipherObj.encrypt, sealPacket]
    rw [if_neg (by omega), polyKey_eq, u64Bytes_eq, Nat.mod_eq_of_lt hs]
  | aesGcm key iv =>
    obtain ⟨hiv, rfl⟩ := h
    refine ⟨.gcm key (iv.take 4 ++ u64 (beValue (iv.drop 4) + (before.length + 1))), ?_, hiv, ?_⟩
    · simp only [CipherObj.encrypt, sealPacket]
      rw [if_neg (by omega), (nextIv_eq iv before.length).resolve_right (by omega)]
    · simp
  | aesCtrHmac key iv macKey =>
    obtain ⟨st, rfl⟩ := h
    refine ⟨.hmac (.ctr key iv (before ++ [pkt]).flatten.length) macKey (u32Bytes seq ++ pkt), ?_, _, rfl⟩
    simp only [CipherObj.encrypt, sealPacket]
    rw [if_neg (by omega), if_neg (by omega)]
    simp only [u32Bytes_eq, List.flatten_append, List.length_append, List.flatten_singleton]

theorem encryptAll_sealAll {P : Primitives} {prot : Protection} (ps : List (Nat × Bytes))
    (hps : ∀ p ∈ ps, p.1 < 2 ^ 32 ∧ 4 < p.2.length) {before : List Bytes} {c : CipherObj}
    (h : Tracks prot before c) : encryptAll P c ps = some (sealAll P prot before ps) := by
  induction ps generalizing before c with
  | nil => rfl
  | cons p ps ih =>
    obtain ⟨seq, pkt⟩ := p
    have hp := hps _ List.mem_cons_self
    obtain ⟨c', h1, h2⟩ := tracks_step (P := P) h hp.1 hp.2
    simp only [encryptAll, h1, sealAll, ih (fun q hq => hps q (List.mem_cons_of_mem _ hq)) h2, Option.map_some]

theorem openAll_iff {P : Primitives} (hP : P.Sizes) {prot : Protection} (es ps : List (Nat × Bytes))
    (hes : ∀ e ∈ es, e.1 < 2 ^ 32 ∧ 4 + tagSize prot < e.2.length) {before : List Bytes} {c : CipherObj}
    (h : Tracks prot before c) :
    openAll P c es = some ps ↔ es = sealAll P prot before ps ∧ ∀ p ∈ ps, 4 < p.2.length := by
  induction es generalizing before c ps with
  | nil =>
    cases ps with
    | nil => simp [openAll, sealAll]
    | cons p ps => obtain ⟨a, b⟩ := p; simp [openAll, sealAll]
  | cons e es ih =>
    obtain ⟨seq, e⟩ := e
    have he := hes _ List.mem_cons_self
    simp only at he
    have hes' := fun q hq => hes q (List.mem_cons_of_mem _ hq)
    have hauth := tracks_auth h
    constructor
    · intro ho
      simp only [openAll] at ho
      split at ho
      · cases ho
      next pkt c' h1 =>
        rw [open_iff hP (by omega)] at h1
        have hlen := CipherObj_encrypt_length hP h1
        have hpl : 4 < pkt.length := by omega
        obtain ⟨c'', h2, h3⟩ := tracks_step (P := P) h he.1 hpl
        rw [h1] at h2
        simp only [Option.some.injEq, Prod.mk.injEq] at h2
        obtain ⟨rfl, rfl⟩ := h2
        cases hr : openAll P c' es with
        | none => rw [hr] at ho; simp at ho
        | some ps' =>
          rw [hr] at ho
          simp only [Option.map_some, Option.some.injEq] at ho
          subst ho
          obtain ⟨h4, h5⟩ := (ih ps' hes' h3).mp hr
          refine ⟨by simp only [sealAll]; rw [← h4], ?_⟩
          intro p hp
          rcases List.mem_cons.mp hp with rfl | hp
          · exact hpl
          · exact h5 p hp
    · rintro ⟨heq, hps⟩
      cases ps with
      | nil => cases heq
      | cons p ps =>
        obtain ⟨seq', pkt⟩ := p
        simp only [sealAll, List.cons.injEq, Prod.mk.injEq] at heq
        obtain ⟨⟨rfl, rfl⟩, hrest⟩ := heq
        have hpl : 4 < pkt.length := hps _ List.mem_cons_self
        obtain ⟨c', h2, h3⟩ := tracks_step (P := P) h he.1 hpl
        have h1 := (open_iff hP (by omega)).mpr h2
        simp only [openAll, h1]
        rw [(ih ps hes' h3).mpr ⟨hrest, fun p hp => hps p (List.mem_cons_of_mem _ hp)⟩]
        rfl

/-! ### The factory -/

theorem splitComma_single {a : Bytes} (h : COMMA ∉ a) : splitComma a = [a] := by
  induction a with
  | nil => rfl
  | cons c a ih =>
    simp only [List.mem_cons, not_or] at h
    simp only [splitComma, if_neg (Ne.symm h.1), ih h.2]

theorem newCipher_ctr {n : Nat} {key iv macKey : Bytes} {c : CipherObj}
    (h : newCipher (.hmacSha256 (.aesCtr n)) key iv macKey = some c) :
    Tracks (.aesCtrHmac (key.take n) (iv.take 16) (macKey.take 32)) [] c := by
  simp only [newCipher] at h
  split at h
  · cases h
  next nx hn =>
    split at hn
    · cases hn
    · cases hn
      split at h
      · cases h
      · cases h
        exact ⟨[], rfl⟩

theorem newCipher_gcm {n : Nat} {key iv macKey : Bytes} {c : CipherObj}
    (h : newCipher (.aesGcm n) key iv macKey = some c) :
    Tracks (.aesGcm (key.take n) (iv.take 12)) [] c := by
  simp only [newCipher] at h
  split at h
  · cases h
  next hl =>
    cases h
    have h12 : (iv.take 12).length = 12 := by simp; omega
    refine ⟨h12, ?_⟩
    simp only [List.length_nil, Nat.add_zero]
    rw [u64_beValue (by rw [List.length_drop, h12]), List.take_append_drop]

theorem newCipher_tracks {cipher mac key iv macKey : Bytes} (hc : COMMA ∉ cipher) (hm : COMMA ∉ mac)
    {c : CipherObj} (h : makeCipherObj cipher mac key iv macKey = some c) :
    ∃ prot, protectionNamed cipher mac key iv macKey = some prot ∧ Tracks prot [] c := by
  unfold makeCipherObj at h
  split at h
  · cases h
  next kind hk =>
    unfold makeCipher makeEncryptionCipher makeMacCipher at hk
    rw [splitComma_single hc, splitComma_single hm] at hk
    simp only [makeEncryptionCipher.go, makeMacCipher.go] at hk
    unfold protectionNamed
    by_cases h1 : cipher = ascii "chacha20-poly1305@openssh.com"
    · subst h1
      simp only [if_true, CipherKind.authSize] at hk ⊢
      cases hk
      simp only [newCipher] at h
      split at h
      · cases h
      next hl =>
        cases h
        refine ⟨_, rfl, ?_⟩
        have : key.length = 64 := by simpa using hl
        have h32 : (key.drop 32).take 32 = key.drop 32 := List.take_of_length_le (by rw [List.length_drop]; omega)
        simp only [Tracks, this, h32, Nat.reduceSub]
    by_cases h2 : cipher = ascii "aes128-gcm@openssh.com"
    · subst h2
      simp (decide := true) only [if_true, if_false] at hk ⊢
      cases hk
      exact ⟨_, rfl, newCipher_gcm h⟩
    by_cases h3 : cipher = ascii "aes256-gcm@openssh.com"
    · subst h3
      simp (decide := true) only [if_true, if_false] at hk ⊢
      cases hk
      exact ⟨_, rfl, newCipher_gcm h⟩
    by_cases h4 : cipher = ascii "aes128-ctr"
    · subst h4
      simp (decide := true) only [if_true, if_false, CipherKind.authSize] at hk ⊢
      split at hk
      next hmac =>
        cases hk
        rw [if_pos hmac]
        exact ⟨_, rfl, newCipher_ctr h⟩
      · cases hk
    by_cases h5 : cipher = ascii "aes192-ctr"
    · subst h5
      simp (decide := true) only [if_true, if_false, CipherKind.authSize] at hk ⊢
      split at hk
      next hmac =>
        cases hk
        rw [if_pos hmac]
        exact ⟨_, rfl, newCipher_ctr h⟩
      · cases hk
    by_cases h6 : cipher = ascii "aes256-ctr"
    · subst h6
      simp (decide := true) only [if_true, if_false, CipherKind.authSize] at hk ⊢
      split at hk
      next hmac =>
        cases hk
        rw [if_pos hmac]
        exact ⟨_, rfl, newCipher_ctr h⟩
      · cases hk
    simp only [if_neg h1, if_neg h2, if_neg h3, if_neg h4, if_neg h5, if_neg h6] at hk
    cases hk

/-- With keys of the size the key derivation produces, every named protection
can be constructed. -/
theorem makeCipherObj_some {cipher mac key iv macKey : Bytes} (hc : COMMA ∉ cipher) (hm : COMMA ∉ mac)
    (hk : key.length = 64) (hi : iv.length = 64) (hmk : macKey.length = 64)
    {prot : Protection} (h : protectionNamed cipher mac key iv macKey = some prot) :
    ∃ c, makeCipherObj cipher mac key iv macKey = some c := by
  unfold protectionNamed at h
  unfold makeCipherObj makeCipher makeEncryptionCipher makeMacCipher
  rw [splitComma_single hc, splitComma_single hm]
  simp only [makeEncryptionCipher.go, makeMacCipher.go]
  by_cases h1 : cipher = ascii "chacha20-poly1305@openssh.com"
  · subst h1
    simp (decide := true) [CipherKind.authSize, newCipher, hk]
  by_cases h2 : cipher = ascii "aes128-gcm@openssh.com"
  · subst h2
    simp (decide := true) [CipherKind.authSize, newCipher, hk, hi]
  by_cases h3 : cipher = ascii "aes256-gcm@openssh.com"
  · subst h3
    simp (decide := true) [CipherKind.authSize, newCipher, hk, hi]
  simp only [if_neg h1, if_neg h2, if_neg h3] at h ⊢
  by_cases hmac : mac = ascii "hmac-sha2-256"
  · subst hmac
    by_cases h4 : cipher = ascii "aes128-ctr"
    · subst h4
      simp (decide := true) [CipherKind.authSize, newCipher, hk, hi, hmk]
    by_cases h5 : cipher = ascii "aes192-ctr"
    · subst h5
      simp (decide := true) [CipherKind.authSize, newCipher, hk, hi, hmk]
    by_cases h6 : cipher = ascii "aes256-ctr"
    · subst h6
      simp (decide := true) [CipherKind.authSize, newCipher, hk, hi, hmk]
    simp [if_neg h4, if_neg h5, if_neg h6] at h
  · simp [hmac] at h

/-! ### The interface used by the packet layer -/

theorem cipherOps_contract {P : Primitives} (hP : P.Sizes) : Contract (cipherOps P) Eq where
  roundtrip := by
    rintro tx _ seq pkt e tx' rfl _ he
    obtain ⟨c₁, h1, h2⟩ := open_sealed hP he
    have hl := CipherObj_encrypt_length hP he
    have a1 := (CipherObj_header_length h1).2
    exact ⟨hl.1, c₁, tx', h1, a1, h2, hl.2.1, rfl⟩

theorem cipherOps_sane (P : Primitives) : Sane (cipherOps P) where
  header := fun _ _ _ _ _ h => (CipherObj_header_length h).1
  payload := fun _ _ _ _ _ h => (CipherObj_payload_length h).1

theorem cipherOps_nonempty {P : Primitives} (hP : P.Sizes) : EncNonempty (cipherOps P) := by
  intro c seq p e c' hp h he
  have hl := CipherObj_encrypt_length hP h
  subst he
  simp at hl
  omega

end Lukko
