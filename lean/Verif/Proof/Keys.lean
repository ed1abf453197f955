import Verif.Proof.Messages
import Verif.Proof.Parse
import Verif.Model.Keys
/-
  Helper lemmas for keys and signatures.
-/
namespace Lukko
open Model Spec

/-! ### numbers -/

theorem bin2bn_eq : bin2bn = Spec.beValue := by
  funext src
  simp only [bin2bn, Spec.beValue]
  congr 1
  funext n b; omega

theorem beValue_snoc (bs : Bytes) (b : UInt8) : Spec.beValue (bs ++ [b]) = 256 * Spec.beValue bs + b.toNat := by
  simp [Spec.beValue]

theorem beValue_bn2bin (n : Nat) : Spec.beValue (bn2bin n) = n := by
  fun_induction bn2bin n with
  | case1 => rfl
  | case2 n h ih =>
    rw [beValue_snoc, ih, UInt8.toNat_ofNat']
    omega

theorem bn2bin_head (n : Nat) : ∀ b t, bn2bin n = b :: t → b ≠ 0 := by
  fun_induction bn2bin n with
  | case1 => intro b t h; cases h
  | case2 n h ih =>
    intro b t hb
    rcases hn : bn2bin (n / 256) with _ | ⟨c, u⟩
    · rw [hn] at hb
      simp only [List.nil_append, List.cons.injEq] at hb
      obtain ⟨rfl, -⟩ := hb
      have h0 := beValue_bn2bin (n / 256)
      rw [hn] at h0
      simp only [beValue_nil] at h0
      intro hz
      have := congrArg UInt8.toNat hz
      rw [UInt8.toNat_ofNat'] at this
      simp at this
      omega
    · rw [hn] at hb
      simp only [List.cons_append, List.cons.injEq] at hb
      obtain ⟨rfl, -⟩ := hb
      exact ih _ _ hn

theorem bn2bin_length_le {n k : Nat} (h : n < 256 ^ k) : (bn2bin n).length ≤ k := by
  induction k generalizing n with
  | zero =>
    have : n = 0 := by simpa using h
    subst this; unfold bn2bin; simp
  | succ k ih =>
    unfold bn2bin
    split
    · simp
    · have : n / 256 < 256 ^ k := by rw [Nat.div_lt_iff_lt_mul (by decide)]; rwa [Nat.pow_succ] at h
      have := ih this
      simp; omega

theorem stripZeros_bn2bin (n : Nat) : stripZeros (bn2bin n) = bn2bin n := by
  rcases h : bn2bin n with _ | ⟨b, t⟩
  · rfl
  · simp [stripZeros, bn2bin_head n b t h]

theorem leadingZeros_bn2bin (n : Nat) : leadingZeros (bn2bin n) = 0 := by
  rcases h : bn2bin n with _ | ⟨b, t⟩
  · rfl
  · simp [leadingZeros, bn2bin_head n b t h]

/-- The canonical encoding of a number. -/
def mpintOf (n : Nat) : Bytes := mpintBytes (bn2bin n)

theorem isMpint_of (n : Nat) : Spec.IsMpint (mpintOf n) n := by
  have := mpint_canonical (bn2bin n)
  rwa [beValue_bn2bin] at this

theorem isMpint_eq {bs n} (h : Spec.IsMpint bs n) : bs = mpintOf n := isMpint_unique h (isMpint_of n)

theorem mpintOf_length (n : Nat) : (mpintOf n).length = (bn2bin n).length + (if msbSet (bn2bin n) then 1 else 0) := by
  simp only [mpintOf, mpintBytes, stripZeros_bn2bin]
  split <;> simp

theorem mpintOf_read {n : Nat} (h : n < 256 ^ MAX_BIGNUM) : deserializeBIGNUM bin2bn (mpintOf n) = some n := by
  rw [bin2bn_eq, mpintOf, deserialize_mpint (bn2bin_length_le h), beValue_bn2bin]

theorem deserialize_inv {src : Bytes} {n : Nat} (h : deserializeBIGNUM bin2bn src = some n) : LaxMpint src n := by
  rw [bin2bn_eq] at h
  simp only [deserializeBIGNUM] at h
  split at h
  · cases h
  · rename_i hm
    split at h
    · cases h
    · simp only [Option.some.injEq] at h
      rw [beValue_stripZeros] at h
      refine ⟨h, ?_⟩
      intro b hb
      rcases src with _ | ⟨c, t⟩
      · cases hb
      · simp only [List.head?_cons, Option.some.injEq] at hb
        subst hb
        simp only [msbSet, msb_iff, decide_eq_true_eq, Bool.not_eq_true] at hm
        omega

theorem deserialize_lt {src : Bytes} {n : Nat} (h : deserializeBIGNUM bin2bn src = some n) : n < 256 ^ MAX_BIGNUM := by
  rw [bin2bn_eq] at h
  simp only [deserializeBIGNUM] at h
  split at h
  · cases h
  · split at h
    · cases h
    · rename_i hl
      simp only [Option.some.injEq] at h
      rw [← h]
      exact Nat.lt_of_lt_of_le (beValue_lt _) (Nat.pow_le_pow_right (by decide) (by omega))

/-! ### writing -/

/-- `w` appends `e` if it fits, and throws otherwise. -/
def KWrites (w : Ser → Except KeyError Ser) (e : Bytes) : Prop :=
  ∀ s, s.buf.length ≤ BUFFER_SIZE →
    w s = if s.buf.length + e.length ≤ BUFFER_SIZE then .ok ⟨s.buf ++ e⟩ else .error .thrown

theorem Writes.key {w e} (h : Writes w e) : KWrites (fun s => liftSer (w s)) e := by
  intro s hs
  simp only [h s hs]
  split <;> rfl

theorem KWrites.bind {w₁ w₂ e₁ e₂} (h₁ : KWrites w₁ e₁) (h₂ : KWrites w₂ e₂) :
    KWrites (fun s => w₁ s >>= fun s => w₂ s) (e₁ ++ e₂) := by
  intro s hs
  simp only [h₁ s hs]
  by_cases h : s.buf.length + e₁.length ≤ BUFFER_SIZE
  · rw [if_pos h]
    show w₂ ⟨s.buf ++ e₁⟩ = _
    rw [h₂ _ (by simpa using h)]
    simp [Nat.add_assoc]
  · rw [if_neg h, if_neg (by simp only [List.length_append]; omega)]; rfl

theorem KWrites.keyLength {w e} (h : KWrites w e) : KWrites (Ser.keyLength w) (Spec.str e) := by
  intro s hs
  simp only [Ser.keyLength, Ser.prepareLength]
  have h0 : s.writeU32 0 = _ := Writes.u32 0 s hs
  rw [h0]
  have hl : (Spec.str e).length = 4 + e.length := by simp [Spec.str]
  by_cases h4 : s.buf.length + (Spec.u32 0).length ≤ BUFFER_SIZE
  · rw [if_pos h4]
    show (w ⟨s.buf ++ Spec.u32 0⟩ >>= fun s₁ => Pure.pure (s₁.commitLength s.size)) = _
    rw [h _ (by simpa using h4)]
    by_cases h5 : s.buf.length + (Spec.str e).length ≤ BUFFER_SIZE
    · rw [if_pos h5, if_pos (by simp; omega)]
      show Except.ok (Ser.commitLength _ s.buf.length) = _
      have := commitLength_eq s.buf e
      congr 1
      cases hc : Ser.commitLength ⟨s.buf ++ Spec.u32 0 ++ e⟩ s.buf.length
      rw [hc] at this; exact congrArg Ser.mk this
    · rw [if_neg h5, if_neg (by simp; omega)]; rfl
  · rw [if_neg h4, if_neg (by simp at h4; omega)]; rfl

theorem KWrites.bn {n : Nat} (h : n < 256 ^ MAX_BIGNUM) : KWrites (Ser.writeBN n) (mpintOf n) := by
  intro s hs
  have hlen := bn2bin_length_le h
  have hm := mpintOf_length n
  simp only [Ser.writeBN, serializeBN, if_neg (Nat.not_lt.mpr hlen)]
  by_cases h1 : (bn2bin n).length > BUFFER_SIZE - s.size
  · rw [if_pos h1, if_neg (by simp only [Ser.size] at h1; omega)]; rfl
  · rw [if_neg h1]
    simp only [Ser.commitBignum2, if_neg h1, leadingZeros_bn2bin, List.drop_zero, Nat.sub_zero]
    have hd : (s.buf ++ bn2bin n).drop (Ser.size ⟨s.buf ++ bn2bin n⟩ - (bn2bin n).length) = bn2bin n := by
      simp [Ser.size]
    simp only [hd]
    cases hb : msbSet (bn2bin n)
    · simp only [hb, Bool.false_eq_true, and_false, if_false] at hm ⊢
      rw [if_pos (by simp only [Ser.size] at h1; omega)]
      simp [mpintOf, mpintBytes, stripZeros_bn2bin, hb, liftSer]
    · have hpos : (bn2bin n).length > 0 := by
        rcases hx : bn2bin n with _ | ⟨b, t⟩
        · rw [hx] at hb; cases hb
        · simp
      simp only [hb, if_true] at hm
      rw [if_pos ⟨hpos, rfl⟩]
      simp only [Ser.insertNullByte, Ser.size, List.length_append]
      rw [if_neg (by omega)]
      by_cases h2 : s.buf.length + (bn2bin n).length ≥ BUFFER_SIZE
      · rw [if_pos h2, if_neg (by omega)]; rfl
      · rw [if_neg h2, if_pos (by omega)]
        simp [mpintOf, mpintBytes, stripZeros_bn2bin, hb, liftSer]

theorem writeBN_large {n : Nat} (h : 256 ^ MAX_BIGNUM ≤ n) (s : Ser) : Ser.writeBN n s = .error .thrown := by
  have : MAX_BIGNUM < (bn2bin n).length := by
    refine Nat.lt_of_not_le fun hle => ?_
    have h1 := beValue_lt (bn2bin n)
    rw [beValue_bn2bin] at h1
    have := Nat.pow_le_pow_right (n := 256) (by decide) hle
    omega
  simp only [Ser.writeBN, serializeBN, if_pos this]

/-- The encoding written for a key. -/
def pubBlob : PubKey → Bytes
  | .ed25519 pk => str (ascii "ssh-ed25519") ++ str pk
  | .rsa e n => str (ascii "ssh-rsa") ++ (str (mpintOf e) ++ str (mpintOf n))
  | .ecdsa q => str (ascii "ecdsa-sha2-nistp256") ++ (str (ascii "nistp256") ++ str q)

/-- Numbers which fit into the buffer of `Serialize`/`DeserializeBIGNUM`. -/
def SmallKey : PubKey → Prop
  | .rsa e n => e < 256 ^ MAX_BIGNUM ∧ n < 256 ^ MAX_BIGNUM
  | _ => True

theorem KWrites.pub {k : PubKey} (h : SmallKey k) : KWrites (pubKeySerialize k) (pubBlob k) := by
  cases k with
  | ed25519 pk => exact (Writes.str _).key.bind (Writes.writeN pk).key.keyLength
  | rsa e n => exact (Writes.str _).key.bind ((KWrites.bn h.1).keyLength.bind (KWrites.bn h.2).keyLength)
  | ecdsa q => exact (Writes.str _).key.bind ((Writes.str _).key.bind (Writes.writeN q).key.keyLength)

theorem isKeyBlob_eq {k b} (h : IsKeyBlob k b) : b = pubBlob k := by
  cases h with
  | ed25519 => rfl
  | rsa he hn => simp only [pubBlob, isMpint_eq he, isMpint_eq hn]
  | ecdsa => rfl

/-- A key with the size of its type. -/
def SizedKey : PubKey → Prop
  | .ed25519 pk => pk.length = 32
  | _ => True

theorem isKeyBlob_pub {k : PubKey} (h : SizedKey k) : IsKeyBlob k (pubBlob k) := by
  cases k with
  | ed25519 pk => exact .ed25519 h
  | rsa e n => exact .rsa (isMpint_of e) (isMpint_of n)
  | ecdsa q => exact .ecdsa

theorem kwrites_ok {w e s s'} (h : KWrites w e) (hs : s.buf.length ≤ BUFFER_SIZE) (hw : w s = .ok s') :
    s'.buf = s.buf ++ e ∧ s'.buf.length ≤ BUFFER_SIZE := by
  rw [h s hs] at hw
  split at hw
  · cases hw; simp; omega
  · cases hw

/-! ### reading -/

theorem readString_append {v : Bytes} (h : v.length < 2 ^ 32) (rest : Bytes) :
    readString (str v ++ rest) = some (v, rest) := readString_reads h rest

theorem parseSigBlob_append {alg raw : Bytes} (ha : alg.length < 2 ^ 32) (hr : raw.length < 2 ^ 32) (rest : Bytes) :
    parseSigBlob.parse (str alg ++ (str raw ++ rest)) = some (alg, raw) := by
  simp only [parseSigBlob, Parser.parse, bind_apply, readString_append ha, readString_append hr, pure_apply]
  rfl

theorem parseSigBlob_inv {s alg raw} (h : parseSigBlob.parse s = some (alg, raw)) :
    ∃ rest, s = str alg ++ (str raw ++ rest) := by
  obtain ⟨r, h⟩ := parse_inv h
  obtain ⟨v1, r1, h1, h⟩ := bind_inv h
  obtain ⟨v2, r2, h2, h⟩ := bind_inv h
  rw [pure_apply] at h
  simp only [Option.some.injEq, Prod.mk.injEq] at h
  obtain ⟨⟨rfl, rfl⟩, rfl⟩ := h
  obtain ⟨rfl, -⟩ := readString_inv h1
  obtain ⟨rfl, -⟩ := readString_inv h2
  exact ⟨_, rfl⟩

theorem lift_apply {α} (o : Option α) (s : Bytes) : Parser.lift o s = o.map (·, s) := rfl

theorem lift_inv {α} {o : Option α} {s v r} (h : Parser.lift o s = some (v, r)) : o = some v ∧ r = s := by
  simp only [lift_apply, Option.map_eq_some_iff, Prod.mk.injEq] at h
  obtain ⟨a, rfl, rfl, rfl⟩ := h
  exact ⟨rfl, rfl⟩

theorem parseEcdsaSig_inv {x r s} (h : parseEcdsaSig.parse x = some (r, s)) :
    ∃ br bs rest, x = str br ++ (str bs ++ rest) ∧ LaxMpint br r ∧ LaxMpint bs s := by
  obtain ⟨rest, h⟩ := parse_inv h
  obtain ⟨br, r1, h1, h⟩ := bind_inv h
  obtain ⟨r', r2, h2, h⟩ := bind_inv h
  obtain ⟨bs, r3, h3, h⟩ := bind_inv h
  obtain ⟨s', r4, h4, h⟩ := bind_inv h
  rw [pure_apply] at h
  simp only [Option.some.injEq, Prod.mk.injEq] at h
  obtain ⟨⟨rfl, rfl⟩, rfl⟩ := h
  obtain ⟨g2, rfl⟩ := lift_inv h2
  obtain ⟨g4, rfl⟩ := lift_inv h4
  obtain ⟨rfl, -⟩ := readString_inv h1
  obtain ⟨rfl, -⟩ := readString_inv h3
  exact ⟨br, bs, _, rfl, deserialize_inv g2, deserialize_inv g4⟩

theorem mpintOf_lt {n : Nat} (h : n < 256 ^ MAX_BIGNUM) : (mpintOf n).length ≤ MAX_BIGNUM + 1 := by
  have := bn2bin_length_le h
  have := mpintOf_length n
  split at this <;> omega

theorem parseEcdsaSig_write {r s : Nat} (hr : r < 256 ^ MAX_BIGNUM) (hs : s < 256 ^ MAX_BIGNUM) (rest : Bytes) :
    parseEcdsaSig.parse (str (mpintOf r) ++ (str (mpintOf s) ++ rest)) = some (r, s) := by
  have h1 := mpintOf_lt hr
  have h2 := mpintOf_lt hs
  simp only [MAX_BIGNUM] at h1 h2
  simp only [parseEcdsaSig, Parser.parse, bind_apply, readString_append (v := mpintOf r) (by omega),
    readString_append (v := mpintOf s) (by omega), lift_apply, mpintOf_read hr, mpintOf_read hs, Option.map_some,
    pure_apply]

/-! ### signing -/

theorem KWrites.ecdsaSig {r t : Nat} (hr : r < 256 ^ MAX_BIGNUM) (ht : t < 256 ^ MAX_BIGNUM) :
    KWrites (writeEcdsaSig r t) (str (ascii "ecdsa-sha2-nistp256") ++ str (str (mpintOf r) ++ str (mpintOf t))) :=
  (Writes.str _).key.bind (KWrites.keyLength ((KWrites.bn hr).keyLength.bind (KWrites.bn ht).keyLength))

theorem KWrites.generic {c : Crypto} {p : RsaParams} {h : Hash} {alg msg sig : Bytes}
    (hg : c.rsaSign p h (c.digest h msg) = some sig) :
    KWrites (signGeneric c p h alg msg) (str alg ++ str sig) := by
  unfold signGeneric
  rw [hg]
  exact (Writes.str _).key.bind (KWrites.keyLength (Writes.writeN sig).key)

theorem signGeneric_none {c : Crypto} {p : RsaParams} {h : Hash} {alg msg : Bytes} {s s' : Ser}
    (hg : c.rsaSign p h (c.digest h msg) = none) : signGeneric c p h alg msg s ≠ .ok s' := by
  unfold signGeneric
  rw [hg]
  intro h
  rcases h1 : liftSer (s.writeString alg) with _ | s1
  · rw [h1] at h; cases h
  · rw [h1] at h
    have h : Ser.keyLength (Ser.writeSig none) s1 = .ok s' := h
    unfold Ser.keyLength at h
    rcases h2 : liftSer s1.prepareLength with _ | ⟨pos, s2⟩
    · rw [h2] at h; cases h
    · rw [h2] at h; cases h

theorem signEcdsa_eq {c : Crypto} {q : Bytes} {d : Nat} {h : Hash} {msg der : Bytes} {r t : Nat} {s : Ser}
    (hs : s.buf.length ≤ BUFFER_SIZE) (hg : c.ecSign q d (c.digest h msg) = some der)
    (hd : c.derDecode der = some (r, t)) :
    signEcdsa c q d h msg s =
      if s.buf.length + der.length ≤ BUFFER_SIZE then writeEcdsaSig r t s else .error .thrown := by
  unfold signEcdsa
  have hsig : Ser.writeSig (some der) s = _ := (Writes.writeN der).key s hs
  rw [hg]
  simp only [hsig]
  by_cases hfit : s.buf.length + der.length ≤ BUFFER_SIZE
  · rw [if_pos hfit, if_pos hfit]
    have hrew : (Ser.rewind ⟨s.buf ++ der⟩ s.size) = s := by cases s; simp [Ser.rewind, Ser.size]
    have hsince : (Ser.since ⟨s.buf ++ der⟩ s.size) = der := by simp [Ser.since, Ser.size]
    show (orThrow (c.derDecode (Ser.since ⟨s.buf ++ der⟩ s.size)) >>= fun x => _) = _
    rw [hsince, hd]
    show writeEcdsaSig r t (Ser.rewind ⟨s.buf ++ der⟩ s.size) = _
    rw [hrew]
  · rw [if_neg hfit, if_neg hfit]; rfl

theorem digestRsa_inv {c : Crypto} {alg : Bytes} {hash : Hash} (hd : digestRsa c alg = some hash) :
    RsaAlgorithm alg hash := by
  simp only [digestRsa] at hd
  split at hd
  · next e => cases hd; subst e; exact .sha256
  · split at hd
    · next e => cases hd; subst e; exact .sha512
    · split at hd
      · next e => cases hd; obtain ⟨-, rfl⟩ := e; exact .sha1
      · cases hd

theorem digestEcdsa_inv {alg : Bytes} {hash : Hash} (hd : digestEcdsa alg = some hash) :
    alg = ascii "ecdsa-sha2-nistp256" ∧ hash = .sha256 := by
  simp only [digestEcdsa] at hd
  split at hd
  · next e => cases hd; exact ⟨e, rfl⟩
  · cases hd

end Lukko
