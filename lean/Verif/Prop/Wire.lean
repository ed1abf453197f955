import Verif.Proof.WireSeq
/-
  Properties C01, C04, C06.
-/
namespace Lukko
open Model

/-! ## C01 -/

/-- **C01.**  For every payload that leaves room for the padding, every block
size used by a cipher (8 or 16) and both padding modes, whatever the
uninitialised header bytes and the random generator are, the finished packet
is a well-formed RFC 4253 binary packet carrying exactly that payload. -/
theorem C01_packet_wellformed (hdr payload : Bytes) (hh : hdr.length = 5)
    (blockSize : Nat) (hb : blockSize = 8 ∨ blockSize = 16) (withoutHeader : Bool)
    (rnd : Nat → Bytes) (hrnd : ∀ n, (rnd n).length = n)
    (hfit : payload.length ≤ 65512) :
    ∃ pkt, Ser.finishPacket ⟨hdr ++ payload⟩ blockSize withoutHeader rnd = .ok pkt ∧
      Spec.IsPacket pkt payload blockSize (if withoutHeader then 4 else 0) := by
  have hk : ∃ k, (k = 3 ∨ k = 4) ∧ blockSize = 2 ^ k := by
    rcases hb with rfl | rfl
    · exact ⟨3, .inl rfl, rfl⟩
    · exact ⟨4, .inr rfl, rfl⟩
  obtain ⟨k, hk, rfl⟩ := hk
  refine finishPacket_ok hdr hh payload k (by omega) withoutHeader rnd hrnd ?_
  have := padding_le (5 + payload.length - if withoutHeader = true then 4 else 0) k
  have h2 : 2 ^ k ≤ 16 := by rcases hk with rfl | rfl <;> decide
  simp only [BUFFER_SIZE]; omega

example : ∃ pkt, Ser.finishPacket ⟨[0, 0, 0, 0, 0] ++ [21]⟩ 16 true (fun n => List.replicate n 7) = .ok pkt ∧
    Spec.IsPacket pkt [21] 16 4 :=
  C01_packet_wellformed _ [21] rfl 16 (.inr rfl) true _ (by simp) (by decide)

/-- **C01**, error branch: `Finish` has no other outcome than a packet or the
termination of the process, and the latter needs a payload above 65512 bytes. -/
theorem C01_terminates_only_near_limit (hdr payload : Bytes) (hh : hdr.length = 5)
    (blockSize : Nat) (hb : blockSize = 8 ∨ blockSize = 16) (withoutHeader : Bool)
    (rnd : Nat → Bytes) (hrnd : ∀ n, (rnd n).length = n) (e : SerError)
    (h : Ser.finishPacket ⟨hdr ++ payload⟩ blockSize withoutHeader rnd = .error e) :
    e = .terminate ∧ 65512 < payload.length := by
  constructor
  · simp only [Ser.finishPacket] at h
    split at h
    · simpa using h.symm
    · simp at h
  · by_cases hfit : payload.length ≤ 65512
    · obtain ⟨pkt, hp, _⟩ := C01_packet_wellformed hdr payload hh blockSize hb withoutHeader rnd hrnd hfit
      rw [hp] at h; simp at h
    · omega

/-- The termination outcome does exist (any contents that just fill the buffer). -/
example (b : Bytes) (hb : b.length = 65536) :
    Ser.finishPacket ⟨b⟩ 8 false (fun n => List.replicate n 0) = .error .terminate := by
  have hp : padding (65536 - if false = true then HEADER_SIZE else 0) 8 = 8 := by decide
  have hw : Ser.writeN ⟨b⟩ (List.replicate 8 0) = .error .packetTooLarge := by
    rw [Ser.writeN, if_pos (by simp only [Ser.size, hb]; decide)]
  simp only [Ser.finishPacket, Ser.size, hb, hp, hw]

/-! ## C04 -/

/-- **C04**, round trip: whatever typed values are written to a serializer with
arbitrary earlier contents, reading values of these types back from the written
bytes (followed by anything) gives the same values and stops exactly behind
them. -/
theorem C04_roundtrip (vs : List Spec.Val) (hr : ∀ v ∈ vs, v.InRange) (s s' : Ser)
    (hs : s.size ≤ BUFFER_SIZE) (h : writeVals vs s = .ok s') (rest : Bytes) :
    readTys (vs.map (·.ty)) (s'.since s.size ++ rest) = some (vs, rest) := by
  have hw := writes_vals vs s hs
  rw [h] at hw
  split at hw
  · rename_i hfit
    simp only [Except.ok.injEq] at hw
    subst hw
    simp only [Ser.since, Ser.size, List.drop_left]
    exact reads_vals hr (by simp only [BUFFER_SIZE] at hfit; omega) rest
  · simp at hw

example : writeVals [.u32 4000000000, .str (ascii "abc"), .bool true, .u8 255, .raw [1, 2]] Ser.empty
    = .ok ⟨[238, 107, 40, 0, 0, 0, 0, 3, 97, 98, 99, 1, 255, 1, 2]⟩ := by rfl

/-- **C04**, injectivity: two different value sequences of the same types never
produce the same bytes – not even when followed by other data. -/
theorem C04_injective (vs ws : List Spec.Val) (hv : ∀ v ∈ vs, v.InRange) (hw : ∀ v ∈ ws, v.InRange)
    (hty : vs.map (·.ty) = ws.map (·.ty)) (s s' t t' : Ser)
    (hs : s.size ≤ BUFFER_SIZE) (ht : t.size ≤ BUFFER_SIZE)
    (h₁ : writeVals vs s = .ok s') (h₂ : writeVals ws t = .ok t') (r₁ r₂ : Bytes)
    (heq : s'.since s.size ++ r₁ = t'.since t.size ++ r₂) : vs = ws ∧ r₁ = r₂ := by
  have a := C04_roundtrip vs hv s s' hs h₁ r₁
  have b := C04_roundtrip ws hw t t' ht h₂ r₂
  rw [heq, hty, b] at a
  simpa [eq_comm] using a

example : writeVals [.str [1], .str []] Ser.empty ≠ writeVals [.str [], .str [1]] Ser.empty := by decide

/-- **C04**, truncation: every proper prefix of the written bytes is reported as
malformed. -/
theorem C04_truncated (vs : List Spec.Val) (hr : ∀ v ∈ vs, v.InRange) (s s' : Ser)
    (hs : s.size ≤ BUFFER_SIZE) (h : writeVals vs s = .ok s') (cut : Bytes)
    (hcut : ProperPrefix cut (s'.since s.size)) : readTys (vs.map (·.ty)) cut = none := by
  have hw := writes_vals vs s hs
  rw [h] at hw
  split at hw
  · rename_i hfit
    simp only [Except.ok.injEq] at hw
    subst hw
    simp only [Ser.since, Ser.size, List.drop_left] at hcut
    exact fails_vals hr (by simp only [BUFFER_SIZE] at hfit; omega) cut hcut
  · simp at hw

example : ProperPrefix [0, 0, 0, 3, 97] [0, 0, 0, 3, 97, 98, 99] := ⟨[98, 99], by decide, rfl⟩

/-- **C04**, no silent loss: writing either appends or throws `PacketTooLarge`,
and it throws only if the buffer would overflow. -/
theorem C04_overflow (vs : List Spec.Val) (s : Ser) (hs : s.size ≤ BUFFER_SIZE) :
    (∃ s', writeVals vs s = .ok s' ∧ s.buf <+: s'.buf ∧ s'.size ≤ BUFFER_SIZE) ∨
      writeVals vs s = .error .packetTooLarge := by
  have hw := writes_vals vs s hs
  split at hw
  · left; exact ⟨_, hw, ⟨_, rfl⟩, by simpa [Ser.size] using ‹_ ≤ BUFFER_SIZE›⟩
  · right; exact hw

example (b : Bytes) (hb : b.length = 65531) :
    writeVals [.str [1, 2]] ⟨b⟩ = .error .packetTooLarge := by
  rw [writes_vals [.str [1, 2]] ⟨b⟩ (by simp only [hb]; decide)]
  rw [if_neg (by simp only [hb]; decide)]

/-! ## C06 -/

/-- **C06**: the bytes `WriteBignum2` appends are the canonical RFC 4251 mpint of
the number denoted by its argument. -/
theorem C06_write_canonical (s s' : Ser) (src : Bytes) (h : s.writeBignum2 src = .ok s') :
    ∃ m, s'.buf = s.buf ++ m ∧ Spec.IsMpint m (Spec.beValue src) :=
  ⟨_, writeBignum2_ok h, mpint_canonical src⟩

example : Ser.empty.writeBignum2 [0, 0, 0x80, 1] = .ok ⟨[0, 0x80, 1]⟩ := by decide

/-- **C06**: the in-place variant produces the same bytes. -/
theorem C06_commit_same (s s₁ s₂ : Ser) (raw : Bytes) (h₁ : s.writeBignum2 raw = .ok s₁)
    (h₂ : s.commitBignum2 raw = .ok s₂) : s₁ = s₂ := by
  have a := writeBignum2_ok h₁; have b := commitBignum2_ok h₂
  cases s₁; cases s₂; simp_all

example : Ser.empty.commitBignum2 [0, 0, 0x80, 1] = .ok ⟨[0, 0x80, 1]⟩ := by decide

/-- **C06**: canonical encodings are unique – one number, one byte string. -/
theorem C06_unique (a b : Bytes) (n : Nat) (ha : Spec.IsMpint a n) (hb : Spec.IsMpint b n) : a = b :=
  isMpint_unique ha hb

example : Spec.IsMpint [0, 0x80] 128 := mpint_canonical [0x80]

/-- **C06**: a negative encoding (most significant bit set) is rejected. -/
theorem C06_negative_rejected {N : Type} (bin2bn : Bytes → N) (b : UInt8) (t : Bytes)
    (h : 128 ≤ b.toNat) : deserializeBIGNUM bin2bn (b :: t) = none := by
  have : msbSet (b :: t) = true := by simp [msbSet, msb_iff, h]
  simp [deserializeBIGNUM, this]

example : deserializeBIGNUM Spec.beValue [0x80] = none := by decide

/-- **C06**: decoding what was encoded gives the number back, for all numbers of
up to 2048 bytes (with `BN_bin2bn` = big-endian value). -/
theorem C06_decode_encode (raw : Bytes) (hl : raw.length ≤ MAX_BIGNUM) (s s' : Ser)
    (h : serializeBN s raw = some (.ok s')) :
    deserializeBIGNUM Spec.beValue (s'.since s.size) = some (Spec.beValue raw) := by
  have hs : s.commitBignum2 raw = .ok s' := by
    simp only [serializeBN] at h
    split at h
    · simp at h
    · split at h
      · simp at h
      · simpa using h
  have hb := commitBignum2_ok hs
  simp only [Ser.since, hb, Ser.size, List.drop_left]
  exact deserialize_mpint hl

example : serializeBN Ser.empty [0xff, 1] = some (.ok ⟨[0, 0xff, 1]⟩) := by decide

/-- **C06**: whatever is accepted denotes the value of the received bytes, and is
at most 2048 significant bytes long. -/
theorem C06_decode_value (src : Bytes) (n : Nat) (h : deserializeBIGNUM Spec.beValue src = some n) :
    n = Spec.beValue src ∧ n < 256 ^ MAX_BIGNUM ∧ ∀ b, src.head? = some b → b.toNat < 128 := by
  simp only [deserializeBIGNUM] at h
  split at h
  · simp at h
  · rename_i hm
    split at h
    · simp at h
    · rename_i hl
      simp only [Option.some.injEq] at h
      refine ⟨by rw [← h, beValue_stripZeros], ?_, ?_⟩
      · rw [← h]
        exact Nat.lt_of_lt_of_le (beValue_lt _) (Nat.pow_le_pow_right (by decide) (Nat.le_of_not_lt hl))
      · intro b hb
        cases src with
        | nil => simp at hb
        | cons c t =>
          simp only [List.head?_cons, Option.some.injEq] at hb; subst hb
          simpa [msbSet, msb_iff] using hm

example : deserializeBIGNUM Spec.beValue [0, 0, 1, 0] = some 256 := by decide

end Lukko
