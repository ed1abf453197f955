import Verif.Proof.Messages
/-
  What a successful parse says about the input.
-/
namespace Lukko
open Model

theorem readN_inv {n s v r} (h : readN n s = some (v, r)) : s = v ++ r ∧ v.length = n := by
  simp only [readN] at h
  split at h
  · simp at h
  · rename_i hl
    simp only [Option.some.injEq, Prod.mk.injEq] at h
    obtain ⟨rfl, rfl⟩ := h
    simp; omega

theorem readU32_inv {s n r} (h : readU32 s = some (n, r)) : s = Spec.u32 n ++ r ∧ n < 2 ^ 32 := by
  refine ⟨?_, readU32_lt h⟩
  simp only [readU32] at h
  split at h
  · rename_i a b c d rest heq
    obtain ⟨hs, _⟩ := readN_inv heq
    simp only [Option.some.injEq, Prod.mk.injEq] at h
    obtain ⟨h, rfl⟩ := h
    rw [hs]; congr 1
    rw [or_shift] at h
    subst h
    simp only [Spec.u32]
    have ha := a.toNat_lt; have hb := b.toNat_lt; have hc := c.toNat_lt; have hd := d.toNat_lt
    congr 1
    · rw [← UInt8.toNat_inj]; simp only [UInt8.toNat_ofNat']; omega
    congr 1
    · rw [← UInt8.toNat_inj]; simp only [UInt8.toNat_ofNat']; omega
    congr 1
    · rw [← UInt8.toNat_inj]; simp only [UInt8.toNat_ofNat']; omega
    congr 1
    · rw [← UInt8.toNat_inj]; simp only [UInt8.toNat_ofNat']; omega
  · simp at h

theorem bind_inv {α β} {p : Parser α} {f : α → Parser β} {s w r} (h : (p >>= f) s = some (w, r)) :
    ∃ v r', p s = some (v, r') ∧ f v r' = some (w, r) := by
  rw [bind_apply] at h
  split at h
  · simp at h
  · rename_i v r' hv; exact ⟨v, r', hv, h⟩

theorem readString_inv {s v r} (h : readString s = some (v, r)) : s = Spec.str v ++ r ∧ v.length < 2 ^ 32 := by
  obtain ⟨n, r', h1, h2⟩ := bind_inv h
  obtain ⟨rfl, hn⟩ := readU32_inv h1
  obtain ⟨rfl, rfl⟩ := readN_inv h2
  simp [Spec.str]; exact hn

theorem expectEnd_inv {s v r} (h : expectEnd s = some (v, r)) : s = [] ∧ r = [] := by
  simp only [expectEnd] at h
  split at h
  · rename_i he; simp at h he; subst he; simp [h]
  · simp at h

theorem parse_inv {α} {p : Parser α} {s v} (h : p.parse s = some v) : ∃ r, p s = some (v, r) := by
  simp only [Parser.parse, Option.map_eq_some_iff] at h
  obtain ⟨⟨v', r⟩, h1, rfl⟩ := h
  exact ⟨r, h1⟩

theorem parseECDHKexInit_inv {s eph} (h : parseECDHKexInit.parse s = some eph) :
    s = Spec.ecdhInitBody eph := by
  obtain ⟨r, h⟩ := parse_inv h
  obtain ⟨v, r1, h1, h⟩ := bind_inv h
  obtain ⟨_, r2, h2, h⟩ := bind_inv h
  rw [pure_apply] at h
  simp only [Option.some.injEq, Prod.mk.injEq] at h
  obtain ⟨rfl, rfl⟩ := h
  obtain ⟨rfl, _⟩ := readString_inv h1
  obtain ⟨rfl, rfl⟩ := expectEnd_inv h2
  simp [Spec.ecdhInitBody]

theorem parseECDHKexInitReply_inv {s p} (h : parseECDHKexInitReply.parse s = some p) :
    s = Spec.ecdhReplyBody p.hostKeyBlob p.eph p.signature := by
  obtain ⟨r, h⟩ := parse_inv h
  obtain ⟨v1, r1, h1, h⟩ := bind_inv h
  obtain ⟨v2, r2, h2, h⟩ := bind_inv h
  obtain ⟨v3, r3, h3, h⟩ := bind_inv h
  obtain ⟨_, r4, h4, h⟩ := bind_inv h
  rw [pure_apply] at h
  simp only [Option.some.injEq, Prod.mk.injEq] at h
  obtain ⟨rfl, rfl⟩ := h
  obtain ⟨rfl, _⟩ := readString_inv h1
  obtain ⟨rfl, _⟩ := readString_inv h2
  obtain ⟨rfl, _⟩ := readString_inv h3
  obtain ⟨rfl, rfl⟩ := expectEnd_inv h4
  simp [Spec.ecdhReplyBody]

theorem sinceBegin {w e ser} (h : Writes w e) (n : UInt8) (hs : w (PacketSer.begin n) = .ok ser) :
    ser.since 5 = n :: e ∧ ser.since 6 = e := by
  rw [Writes.begin h] at hs
  split at hs
  · simp at hs; subst hs; simp [Ser.since]
  · simp at hs

theorem makeECDHKexInit_payload {eph ser} (h : makeECDHKexInit eph = .ok ser) :
    ser.since 5 = 30 :: Spec.ecdhInitBody eph :=
  (sinceBegin ((Writes.writeN eph).withLength) MSG_ECDH_KEX_INIT h).1

theorem makeECDHKexInitReply_payload {blob eph sig ser} (h : makeECDHKexInitReply blob eph sig = .ok ser) :
    ser.since 5 = 31 :: Spec.ecdhReplyBody blob eph sig :=
  (sinceBegin (((Writes.writeN blob).withLength).bind (((Writes.writeN eph).withLength).bind
    ((Writes.writeN sig).withLength))) MSG_ECDH_KEX_INIT_REPLY h).1

theorem makeKexInit_payload {cookie p ser} (h : makeKexInit cookie p = .ok ser) :
    ser.since 5 = 20 :: ser.since 6 ∧
    ser.since 6 = Spec.kexInitBody cookie [p.kex, p.hostKey, p.encC2S, p.encS2C, p.macC2S, p.macS2C,
        p.compC2S, p.compS2C, p.langC2S, p.langS2C] false := by
  have hw := (Writes.writeN cookie).bind
      (((Writes.str p.kex).bind ((Writes.str p.hostKey).bind ((Writes.str p.encC2S).bind
        ((Writes.str p.encS2C).bind ((Writes.str p.macC2S).bind ((Writes.str p.macS2C).bind
        ((Writes.str p.compC2S).bind ((Writes.str p.compS2C).bind ((Writes.str p.langC2S).bind
        (Writes.str p.langS2C)))))))))).bind ((Writes.bool false).bind (Writes.u32 0)))
  have hh := sinceBegin hw MSG_KEXINIT (ser := ser) (by
    simpa [makeKexInit, serializeProposal] using h)
  refine ⟨by rw [hh.1, hh.2], by rw [hh.2]; simp [Spec.kexInitBody]⟩

end Lukko
