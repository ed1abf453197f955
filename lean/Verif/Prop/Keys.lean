import Verif.Proof.Keys
import Verif.Prop.Auth
/-
  C71: public keys and signatures.
-/
namespace Lukko
open Model Spec

/-- What it means for a raw signature to be good, in terms of the libraries. -/
def Model.Crypto.schemes (c : Crypto) : Schemes where
  ed25519 pk msg raw := c.edVerify pk msg raw = true
  rsa e n h msg raw := c.rsaVerify e n h (c.digest h msg) raw = some true
  ecdsa q h msg r s := c.ecVerify q (c.digest h msg) r s = some true

/-- The library accepts a key read from the wire and returns it unchanged. -/
def Usable (c : Crypto) : PubKey → Prop
  | .ed25519 pk => pk.length = 32
  | .rsa e n => e < 256 ^ 2048 ∧ n < 256 ^ 2048 ∧ c.rsaPublic e n = true
  | .ecdsa q => q.length < 2 ^ 32 ∧ c.ecPublic q = some q

/-- The two halves of the key belong together: what the library signs with the
secret half is good for the public half. -/
def KeyPair (c : Crypto) : SecKey → Prop
  | .ed25519 pk sk => ∀ m, (c.edSign sk m).length = 64 ∧ c.edVerify pk m (c.edSign sk m) = true
  | .rsa p => ∀ h d sig, c.rsaSign p h d = some sig → c.rsaVerify p.e p.n h d sig = some true
  | .ecdsa q d => ∀ x der, c.ecSign q d x = some der → ∃ r s, c.derDecode der = some (r, s) ∧
      r < 256 ^ 2048 ∧ s < 256 ^ 2048 ∧ c.ecVerify q x r s = some true

/-- The library can sign with this key, and the signature is not huge. -/
def CanSign (c : Crypto) : SecKey → Prop
  | .ed25519 .. => True
  | .rsa p => ∀ h d, ∃ sig, c.rsaSign p h d = some sig ∧ sig.length ≤ 2048
  | .ecdsa q d => ∀ x, ∃ der, c.ecSign q d x = some der ∧ der.length ≤ 2048

/-! ## Examples -/

/-- Toy primitives: everything is "signed" by copying it. -/
def demoCrypto : Crypto where
  libmd := true
  digest h m := (match h with | .sha1 => 1 | .sha256 => 2 | .sha512 => 3) :: m
  edSign sk m := (sk ++ m ++ List.replicate 64 0).take 64
  edVerify pk m s := s == (pk ++ m ++ List.replicate 64 0).take 64
  rsaPublic e n := e % 2 == 1 && n % 2 == 1
  rsaSecret _ := true
  rsaSign _ _ d := some (d.take 2048)
  rsaVerify _ _ _ d s := some (s == d.take 2048)
  ecPublic q := if q.length = 65 then some q else none
  ecSecret q _ := if q.length = 65 then some q else none
  ecSign _ _ d := some [d.headD 0, 200]
  derDecode der := match der with | [a, b] => some (a.toNat, b.toNat) | _ => none
  ecVerify _ d r s := some (r == (d.headD 0).toNat && s == 200)

def demoRsa : SecKey := .rsa ⟨3233, 17, 2753, 38, 61, 53, 61, 53⟩
def demoEd : SecKey := .ed25519 (List.replicate 32 5) (List.replicate 32 5)
def demoEc : SecKey := .ecdsa (4 :: List.replicate 64 9) 77

/-! ## Public keys -/

/-- **C71.** A public key is written in the format of the RFCs, or (only if there is no
room for it) not at all; the key must have the size of its type and numbers of at most
16384 bits. -/
theorem C71_encode {k : PubKey} {b : Bytes} (s : Ser) (hs : s.buf.length ≤ 65536) (hk : IsKeyBlob k b)
    (hsm : ∀ e n, k = .rsa e n → e < 256 ^ 2048 ∧ n < 256 ^ 2048) :
    pubKeySerialize k s = if s.buf.length + b.length ≤ 65536 then .ok ⟨s.buf ++ b⟩ else .error .thrown := by
  have hsmall : SmallKey k := by
    cases k with
    | rsa e n => exact hsm e n rfl
    | ed25519 => trivial
    | ecdsa => trivial
  rw [isKeyBlob_eq hk]
  exact KWrites.pub hsmall s hs

example : ∃ b, IsKeyBlob demoRsa.pub b ∧ IsKeyBlob demoEd.pub (pubBlob demoEd.pub) ∧
    IsKeyBlob demoEc.pub (pubBlob demoEc.pub) ∧ b = ascii "\x00\x00\x00\x07ssh-rsa\x00\x00\x00\x01\x11\x00\x00\x00\x02\x0c\xa1" :=
  ⟨_, isKeyBlob_pub trivial, isKeyBlob_pub (k := demoEd.pub) (show (List.replicate 32 (5 : UInt8)).length = 32 by decide), isKeyBlob_pub trivial, by decide +kernel⟩

/-- **C71.** Every encoding of a usable key is read as that key, also if something follows it. -/
theorem C71_decode {c : Crypto} {k : PubKey} {b : Bytes} (hk : IsKeyBlob k b) (hu : Usable c k) (rest : Bytes) :
    parsePublicKeyBlob c (b ++ rest) = some k := by
  cases hk with
  | @ed25519 pk h =>
    simp only [parsePublicKeyBlob, Parser.parse, bind_apply, List.append_assoc,
      readString_append (v := ascii "ssh-ed25519") (by decide), parsePublicFields, if_true,
      readString_append (v := pk) (by omega), h, ne_eq, not_true_eq_false, if_false, pure_apply]
    rfl
  | @rsa e n be bn he hn =>
    obtain ⟨h1, h2, h3⟩ := hu
    rw [isMpint_eq he, isMpint_eq hn]
    have l1 := mpintOf_lt h1
    have l2 := mpintOf_lt h2
    simp only [MAX_BIGNUM] at l1 l2
    have hne : ascii "ssh-rsa" ≠ ascii "ssh-ed25519" := by decide
    simp only [parsePublicKeyBlob, Parser.parse, bind_apply, List.append_assoc,
      readString_append (v := ascii "ssh-rsa") (by decide), parsePublicFields, if_neg hne, if_true,
      readString_append (v := mpintOf e) (by omega), readString_append (v := mpintOf n) (by omega),
      lift_apply, deserializeRsaPublic, mpintOf_read h1, mpintOf_read h2, h3, Option.bind_eq_bind, Option.bind_some,
      Option.map_some]
  | @ecdsa q =>
    have hne : ascii "ecdsa-sha2-nistp256" ≠ ascii "ssh-ed25519" := by decide
    have hne' : ascii "ecdsa-sha2-nistp256" ≠ ascii "ssh-rsa" := by decide
    simp only [parsePublicKeyBlob, Parser.parse, bind_apply, List.append_assoc,
      readString_append (v := ascii "ecdsa-sha2-nistp256") (by decide), parsePublicFields, if_neg hne, if_neg hne',
      readString_append (v := ascii "nistp256") (by decide), ne_eq, not_true_eq_false, if_true, if_false,
      readString_append (v := q) hu.1, lift_apply, hu.2, Option.map_some, pure_apply]

example : Usable demoCrypto demoRsa.pub ∧ Usable demoCrypto demoEd.pub ∧ Usable demoCrypto demoEc.pub := by
  have hb : ∀ x, x < 256 ^ 2 → x < 256 ^ 2048 := fun x hx =>
    Nat.lt_of_lt_of_le hx (Nat.pow_le_pow_right (by decide) (by decide))
  exact ⟨⟨hb _ (by decide), hb _ (by decide), by decide⟩, show (List.replicate 32 (5 : UInt8)).length = 32 by decide, by decide, by decide⟩

/-- **C71.** Conversely, whatever is read as a key begins with an encoding of it; only
superfluous zeros in front of the numbers and another representation of the same point are
tolerated. -/
theorem C71_decode_sound {c : Crypto} {k : PubKey} {b : Bytes} (h : parsePublicKeyBlob c b = some k) :
    ∃ rest, match k with
      | .ed25519 pk => b = str (ascii "ssh-ed25519") ++ (str pk ++ rest) ∧ pk.length = 32
      | .rsa e n => ∃ be bn, b = str (ascii "ssh-rsa") ++ (str be ++ (str bn ++ rest)) ∧ LaxMpint be e ∧ LaxMpint bn n ∧
        c.rsaPublic e n = true
      | .ecdsa q => ∃ q', b = str (ascii "ecdsa-sha2-nistp256") ++ (str (ascii "nistp256") ++ (str q' ++ rest)) ∧
        c.ecPublic q' = some q := by
  replace h := parse_inv h
  obtain ⟨rest, h⟩ := h
  replace h := bind_inv h
  obtain ⟨alg, r1, h1, h⟩ := h
  obtain ⟨rfl, -⟩ := readString_inv h1
  refine ⟨rest, ?_⟩
  unfold parsePublicFields at h
  split at h
  · next e =>
    subst e
    replace h := bind_inv h
    obtain ⟨pk, r2, h2, h⟩ := h
    obtain ⟨rfl, -⟩ := readString_inv h2
    split at h
    · cases h
    · next hl =>
      rw [pure_apply] at h
      cases h
      exact ⟨rfl, Decidable.not_not.mp hl⟩
  · split at h
    · next e =>
      subst e
      replace h := bind_inv h
      obtain ⟨be, r2, h2, h⟩ := h
      replace h := bind_inv h
      obtain ⟨bn, r3, h3, h⟩ := h
      obtain ⟨rfl, -⟩ := readString_inv h2
      obtain ⟨rfl, -⟩ := readString_inv h3
      replace h := lift_inv h
      obtain ⟨h, rfl⟩ := h
      simp only [deserializeRsaPublic, Option.bind_eq_bind, Option.bind_eq_some_iff] at h
      obtain ⟨e, he, n, hn, h⟩ := h
      split at h
      · next hp =>
        cases h
        exact ⟨be, bn, rfl, deserialize_inv he, deserialize_inv hn, hp⟩
      · cases h
    · split at h
      · next e =>
        subst e
        replace h := bind_inv h
        obtain ⟨curve, r2, h2, h⟩ := h
        obtain ⟨rfl, -⟩ := readString_inv h2
        split at h
        · cases h
        · next hc =>
          have hc : curve = ascii "nistp256" := Decidable.not_not.mp hc
          subst hc
          replace h := bind_inv h
          obtain ⟨q', r3, h3, h⟩ := h
          replace h := bind_inv h
          obtain ⟨q, r4, h4, h⟩ := h
          obtain ⟨rfl, -⟩ := readString_inv h3
          obtain ⟨g4, rfl⟩ := lift_inv h4
          rw [pure_apply] at h
          cases h
          exact ⟨q', rfl, g4⟩
      · cases h

example : parsePublicKeyBlob demoCrypto (pubBlob demoRsa.pub) = some (.rsa 17 3233) := by decide +kernel

/-- **C71.** Two keys never have the same encoding, so that a list of authorized encodings
is a list of authorized keys. -/
theorem C71_injective {k k' : PubKey} {b : Bytes} (h : IsKeyBlob k b) (h' : IsKeyBlob k' b) (hb : b.length < 2 ^ 32) :
    k = k' := by
  have l1 : (ascii "ssh-ed25519").length < 2 ^ 32 := by decide
  have l2 : (ascii "ssh-rsa").length < 2 ^ 32 := by decide
  have l3 : (ascii "ecdsa-sha2-nistp256").length < 2 ^ 32 := by decide
  have l4 : (ascii "nistp256").length < 2 ^ 32 := by decide
  have hlen := hb
  rw [isKeyBlob_eq h] at hlen h'
  have h' := isKeyBlob_eq h'
  have hlen' := hlen
  rw [h'] at hlen'
  cases k <;> cases k' <;> simp only [pubBlob] at h' hlen hlen' <;>
    simp only [List.length_append, str, u32_length] at hlen hlen'
  · obtain ⟨-, h⟩ := (readString_reads l1).unique (readString_reads l1) h'
    have h : str _ ++ [] = str _ ++ [] := congrArg (· ++ []) h
    obtain ⟨rfl, -⟩ := (readString_reads (by omega)).unique (readString_reads (by omega)) h
    rfl
  · exact absurd ((readString_reads l1).unique (readString_reads l2) h').1 (by decide)
  · exact absurd ((readString_reads l1).unique (readString_reads l3) h').1 (by decide)
  · exact absurd ((readString_reads l2).unique (readString_reads l1) h').1 (by decide)
  · obtain ⟨-, h⟩ := (readString_reads l2).unique (readString_reads l2) h'
    obtain ⟨he, h⟩ := (readString_reads (by omega)).unique (readString_reads (by omega)) h
    have h : str _ ++ [] = str _ ++ [] := congrArg (· ++ []) h
    obtain ⟨hn, -⟩ := (readString_reads (by omega)).unique (readString_reads (by omega)) h
    have a1 := (isMpint_of _).value.symm.trans ((congrArg beValue he).trans (isMpint_of _).value)
    have a2 := (isMpint_of _).value.symm.trans ((congrArg beValue hn).trans (isMpint_of _).value)
    rw [a1, a2]
  · exact absurd ((readString_reads l2).unique (readString_reads l3) h').1 (by decide)
  · exact absurd ((readString_reads l3).unique (readString_reads l1) h').1 (by decide)
  · exact absurd ((readString_reads l3).unique (readString_reads l2) h').1 (by decide)
  · obtain ⟨-, h⟩ := (readString_reads l3).unique (readString_reads l3) h'
    obtain ⟨-, h⟩ := (readString_reads l4).unique (readString_reads l4) h
    have h : str _ ++ [] = str _ ++ [] := congrArg (· ++ []) h
    obtain ⟨rfl, -⟩ := (readString_reads (by omega)).unique (readString_reads (by omega)) h
    rfl

example : (pubBlob demoRsa.pub).length < 2 ^ 32 := by decide +kernel

/-! ## Signatures -/

/-- **C71.** What a key signs is a good signature of the message, made with the requested
algorithm, in the format of the RFCs; whoever has the public key verifies it successfully. -/
theorem C71_sign {c : Crypto} {k : SecKey} {msg alg : Bytes} {s s' : Ser} (hk : KeyPair c k)
    (hs : s.buf.length ≤ 65536) (h : k.sign c msg alg s = .ok s') :
    ∃ sig, s'.buf = s.buf ++ sig ∧ s'.buf.length ≤ 65536 ∧ GoodSignature IsMpint c.schemes msg k.pub alg sig ∧
      ∀ rest, pubKeyVerify c k.pub msg (sig ++ rest) = some true := by
  cases k with
  | ed25519 pk sk =>
    simp only [SecKey.sign] at h
    split at h
    · cases h
    · rename_i ha
      have ha : alg = ascii "ssh-ed25519" := Decidable.not_not.mp ha
      subst ha
      obtain ⟨hl, hv⟩ := hk msg
      have hw : KWrites (fun s => liftSer (s.writeString (ascii "ssh-ed25519")) >>= fun s =>
          liftSer (s.writeU32 64) >>= fun s => liftSer (s.writeN (c.edSign sk msg)))
          (str (ascii "ssh-ed25519") ++ (u32 64 ++ c.edSign sk msg)) :=
        (Writes.str _).key.bind ((Writes.u32 64).key.bind (Writes.writeN _).key)
      obtain ⟨he, hlen⟩ := kwrites_ok hw hs h
      have hstr : u32 64 ++ c.edSign sk msg = str (c.edSign sk msg) := by rw [str, hl]
      rw [hstr] at he
      refine ⟨_, he, hlen, .ed25519 hl hv, fun rest => ?_⟩
      simp only [pubKeyVerify, SecKey.pub, List.append_assoc]
      rw [parseSigBlob_append (by decide) (by omega)]
      simp [hl, hv]
  | rsa p =>
    simp only [SecKey.sign] at h
    rcases hd : digestRsa c alg with _ | hash
    · rw [hd] at h; cases h
    · rw [hd] at h
      rcases hg : c.rsaSign p hash (c.digest hash msg) with _ | sig
      · exact absurd h (signGeneric_none hg)
      · obtain ⟨he, hlen⟩ := kwrites_ok (KWrites.generic hg) hs h
        have hv := hk _ _ _ hg
        have hlen' := hlen
        rw [he] at hlen
        simp only [List.length_append, str, u32_length, BUFFER_SIZE] at hlen
        refine ⟨_, he, hlen', .rsa (digestRsa_inv hd) hv, fun rest => ?_⟩
        simp only [pubKeyVerify, SecKey.pub, List.append_assoc]
        rw [parseSigBlob_append (by omega) (by omega)]
        simp [hd, hv]
  | ecdsa q d =>
    simp only [SecKey.sign] at h
    rcases hd : digestEcdsa alg with _ | hash
    · rw [hd] at h; cases h
    · obtain ⟨rfl, rfl⟩ := digestEcdsa_inv hd
      rw [hd] at h
      rcases hg : c.ecSign q d (c.digest .sha256 msg) with _ | der
      · simp only [signEcdsa, hg] at h; cases h
      · obtain ⟨r, t, hder, hr, ht, hv⟩ := hk _ _ hg
        have h : signEcdsa c q d .sha256 msg s = .ok s' := h
        rw [signEcdsa_eq hs hg hder] at h
        split at h
        · obtain ⟨he, hlen⟩ := kwrites_ok (KWrites.ecdsaSig hr ht) hs h
          have l1 := mpintOf_lt hr
          have l2 := mpintOf_lt ht
          simp only [MAX_BIGNUM] at l1 l2
          have hgood : GoodSignature IsMpint c.schemes msg (SecKey.ecdsa q d).pub (ascii "ecdsa-sha2-nistp256")
              (str (ascii "ecdsa-sha2-nistp256") ++ str (str (mpintOf r) ++ (str (mpintOf t) ++ []))) :=
            .ecdsa (isMpint_of r) (isMpint_of t) hv
          rw [List.append_nil] at hgood
          refine ⟨_, he, hlen, hgood, fun rest => ?_⟩
          simp only [pubKeyVerify, SecKey.pub, List.append_assoc]
          rw [parseSigBlob_append (by decide) (by simp only [List.length_append, str, u32_length]; omega)]
          have hp := parseEcdsaSig_write hr ht []
          rw [List.append_nil] at hp
          simp [hd, hp, hv]
        · cases h

/-- **C71.** With an algorithm the key offers, and room for the signature, signing succeeds
and never fails an assertion (provided that `ssh-rsa` is supported at all, see
`C71_offered_violated`). -/
theorem C71_signs {c : Crypto} {k : SecKey} {msg alg : Bytes} {s : Ser} (hk : KeyPair c k) (hc : CanSign c k)
    (ha : alg ∈ pubKeyAlgorithms k.pub) (hl : alg = ascii "ssh-rsa" → c.libmd = true)
    (hs : s.buf.length + 4200 ≤ 65536) : ∃ s', k.sign c msg alg s = .ok s' := by
  have hs' : s.buf.length ≤ BUFFER_SIZE := by simp only [BUFFER_SIZE]; omega
  cases k with
  | ed25519 pk sk =>
    simp only [SecKey.pub, pubKeyAlgorithms, List.mem_singleton] at ha
    subst ha
    obtain ⟨hl, hv⟩ := hk msg
    have hw : KWrites (fun s => liftSer (s.writeString (ascii "ssh-ed25519")) >>= fun s =>
        liftSer (s.writeU32 64) >>= fun s => liftSer (s.writeN (c.edSign sk msg)))
        (str (ascii "ssh-ed25519") ++ (u32 64 ++ c.edSign sk msg)) :=
      (Writes.str _).key.bind ((Writes.u32 64).key.bind (Writes.writeN _).key)
    have hlen : (str (ascii "ssh-ed25519")).length = 15 := by decide
    have := hw s hs'
    rw [if_pos (by simp only [List.length_append, hlen, u32_length, hl, BUFFER_SIZE]; omega)] at this
    exact ⟨_, this⟩
  | rsa p =>
    have hd : ∃ h, digestRsa c alg = some h := by
      simp only [SecKey.pub, pubKeyAlgorithms, List.mem_cons, List.not_mem_nil, or_false] at ha
      rcases ha with rfl | rfl | rfl
      · exact ⟨.sha256, by simp only [digestRsa, if_true]⟩
      · exact ⟨_, by rw [digestRsa, if_neg (by decide), if_pos rfl]⟩
      · exact ⟨_, by rw [digestRsa, if_neg (by decide), if_neg (by decide), if_pos ⟨hl rfl, rfl⟩]⟩
    obtain ⟨h, hd⟩ := hd
    obtain ⟨sig, hg, hsl⟩ := hc h (c.digest h msg)
    have hal : alg.length ≤ 12 := by
      simp only [SecKey.pub, pubKeyAlgorithms, List.mem_cons, List.not_mem_nil, or_false] at ha
      rcases ha with rfl | rfl | rfl <;> decide
    have := KWrites.generic (alg := alg) hg s hs'
    rw [if_pos (by simp only [List.length_append, str, u32_length, BUFFER_SIZE]; omega)] at this
    exact ⟨_, by simp only [SecKey.sign, hd]; exact this⟩
  | ecdsa q d =>
    simp only [SecKey.pub, pubKeyAlgorithms, List.mem_singleton] at ha
    subst ha
    obtain ⟨der, hg, hdl⟩ := hc (c.digest .sha256 msg)
    obtain ⟨r, t, hder, hr, ht, hv⟩ := hk _ _ hg
    have l1 := mpintOf_lt hr
    have l2 := mpintOf_lt ht
    simp only [MAX_BIGNUM] at l1 l2
    have hal : (ascii "ecdsa-sha2-nistp256").length = 19 := by decide
    have hde : digestEcdsa (ascii "ecdsa-sha2-nistp256") = some .sha256 := by simp only [digestEcdsa, if_true]
    have := KWrites.ecdsaSig hr ht s hs'
    rw [if_pos (by simp only [List.length_append, str, u32_length, BUFFER_SIZE]; omega)] at this
    have h2 := signEcdsa_eq hs' hg hder
    rw [if_pos (by simp only [BUFFER_SIZE]; omega)] at h2
    exact ⟨_, by simp only [SecKey.sign, hde]; exact h2.trans this⟩

theorem demoPairs : KeyPair demoCrypto demoRsa ∧ KeyPair demoCrypto demoEd ∧ KeyPair demoCrypto demoEc := by
  refine ⟨?_, ?_, ?_⟩
  · intro h d sig hs
    cases hs
    show some (_ == _) = _
    rw [beq_self_eq_true]
  · intro m
    refine ⟨?_, ?_⟩
    · simp [demoCrypto]
    · show (_ == _) = true
      exact beq_self_eq_true _
  · intro x der hs
    cases hs
    have hb : ∀ b : UInt8, b.toNat < 256 ^ 2048 := fun b =>
      Nat.lt_of_lt_of_le b.toNat_lt (Nat.pow_le_pow_right (n := 256) (i := 1) (j := 2048) (by decide) (by decide))
    refine ⟨_, _, rfl, hb _, hb _, ?_⟩
    show some (_ == _ && _ == _) = _
    rw [beq_self_eq_true]; rfl

theorem demoSigners : CanSign demoCrypto demoRsa ∧ CanSign demoCrypto demoEd ∧ CanSign demoCrypto demoEc :=
  ⟨fun _ d => ⟨d.take 2048, rfl, by rw [List.length_take]; omega⟩, trivial, fun d => ⟨[d.headD 0, 200], rfl, by simp⟩⟩

example : (demoEc.sign demoCrypto [1, 2] (ascii "ecdsa-sha2-nistp256") ⟨[7]⟩).toOption.map (·.buf) =
    some (7 :: (str (ascii "ecdsa-sha2-nistp256") ++ str (str [2] ++ str [0, 200]))) := by decide +kernel

/-- **C71.** Only good signatures are accepted: an accepted signature names an algorithm of
the key's type, and the raw signature in it is good for the message with the hash of this
algorithm.  (Bytes after it are ignored.) -/
theorem C71_verify {c : Crypto} {k : PubKey} {msg sig : Bytes} (h : pubKeyVerify c k msg sig = some true) :
    ∃ alg sig' rest, sig = sig' ++ rest ∧ GoodSignature LaxMpint c.schemes msg k alg sig' ∧
      alg ∈ pubKeyAlgorithms k := by
  simp only [pubKeyVerify] at h
  rcases hp : parseSigBlob.parse sig with _ | ⟨alg, raw⟩
  · rw [hp] at h; cases h
  · rw [hp] at h
    obtain ⟨rest, rfl⟩ := parseSigBlob_inv hp
    rw [← List.append_assoc]
    simp only [Option.bind_eq_bind, Option.bind_some] at h
    cases k with
    | ed25519 pk =>
      simp only at h
      split at h
      · cases h
      · rename_i ha
        have ha : alg = ascii "ssh-ed25519" := Decidable.not_not.mp ha
        subst ha
        split at h
        · cases h
        · rename_i hl
          simp only [Option.some.injEq] at h
          exact ⟨_, _, rest, rfl, .ed25519 (Decidable.not_not.mp hl) h, List.mem_singleton.mpr rfl⟩
    | rsa e n =>
      simp only [Option.bind_eq_some_iff] at h
      obtain ⟨hash, hd, hv⟩ := h
      have hra := digestRsa_inv hd
      refine ⟨alg, _, rest, rfl, .rsa hra hv, ?_⟩
      cases hra <;> simp [pubKeyAlgorithms]
    | ecdsa q =>
      simp only [Option.bind_eq_some_iff] at h
      obtain ⟨hash, hd, ⟨r, s⟩, hx, hv⟩ := h
      obtain ⟨rfl, rfl⟩ := digestEcdsa_inv hd
      obtain ⟨br, bs, rest', rfl, h1, h2⟩ := parseEcdsaSig_inv hx
      exact ⟨_, _, rest, rfl, .ecdsa h1 h2 hv, List.mem_singleton.mpr rfl⟩

example : pubKeyVerify demoCrypto demoRsa.pub [9] (str (ascii "rsa-sha2-512") ++ str [3, 9]) = some true ∧
    pubKeyVerify demoCrypto demoRsa.pub [9] (str (ascii "rsa-sha2-256") ++ str [3, 9]) = some false ∧
    pubKeyVerify demoCrypto demoEd.pub [9] (str (ascii "rsa-sha2-256") ++ str [3, 9]) = none := by decide +kernel

/-- A server whose keys and signatures are those of this model. -/
def Model.AuthCfg.Uses (cfg : AuthCfg) (c : Crypto) : Prop :=
  cfg.parseKey = (fun b => (parsePublicKeyBlob c b).isSome) ∧ cfg.verify = verifyBlob c

/-- **C71.** So, if somebody is logged in with a public key, the blob in the request is a
key, and its secret half has signed this session's request with one of the algorithms of
this key type. -/
theorem C71_login {c : Crypto} (cfg : AuthCfg) (hc : cfg.Uses c) (evs : List AuthEv) {a b : List AuthEntry} {l : Login}
    (h : (Auth.run cfg {} evs).log = a ++ .loggedIn l :: b) (hm : l.method = ascii "publickey") :
    ∃ f name blob sig k alg sig' rest,
      lastRequest a = some (authRequest l.user l.method (f :: (str name ++ (str blob ++ str sig)))) ∧
      parsePublicKeyBlob c blob = some k ∧ sig = sig' ++ rest ∧ alg ∈ pubKeyAlgorithms k ∧
      GoodSignature LaxMpint c.schemes
        (signedBytes cfg.sessionId (authRequest l.user l.method (f :: (str name ++ str blob)))) k alg sig' := by
  obtain ⟨f, name, blob, sig, h1, h2⟩ := C31_verified cfg evs h hm
  rw [hc.2] at h2
  simp only [verifyBlob, Option.bind_eq_bind, Option.bind_eq_some_iff] at h2
  obtain ⟨k, hk, hv⟩ := h2
  obtain ⟨alg, sig', rest, hs, hg, ha⟩ := C71_verify hv
  exact ⟨f, name, blob, sig, k, alg, sig', rest, h1, hk, hs, ha, hg⟩

/-- The demo server with real key formats. -/
def demoKeyCfg : AuthCfg where
  decode := some
  parseKey b := (parsePublicKeyBlob demoCrypto b).isSome
  verify := verifyBlob demoCrypto
  sessionId := [1]
  globalKeys := [(pubBlob demoRsa.pub, {})]

/-- A login which names `rsa-sha2-512` and signs with `alg`. -/
def demoRsaLogin (alg : String) (h : Hash) : List AuthEv :=
  let fields := 1 :: (str (ascii "rsa-sha2-512") ++ str (pubBlob demoRsa.pub))
  let sig := str (ascii alg) ++
    str (demoCrypto.digest h (signedBytes [1] (authRequest (ascii "joe") (ascii "publickey") fields)))
  demoGreeting ++ [.packet 50 (authRequest (ascii "joe") (ascii "publickey") (fields ++ str sig)) false, .translated (some {})]

example : demoKeyCfg.Uses demoCrypto ∧
    (logins (Auth.run demoKeyCfg {} (demoRsaLogin "rsa-sha2-512" .sha512)).log).map (·.method) = [ascii "publickey"] :=
  ⟨⟨rfl, rfl⟩, by decide +kernel⟩

/-- **C71** fails for the algorithm named in the request: a client which announces
`rsa-sha2-512` is logged in with a SHA-1 signature (RFC 8332 section 3.2 requires both to be the
same).  `C71_login` is what holds. -/
theorem C71_algorithm_violated : ∃ (c : Crypto) (cfg : AuthCfg) (evs : List AuthEv) (user blob raw : Bytes),
    cfg.Uses c ∧
    (∃ l, .loggedIn l ∈ (Auth.run cfg {} evs).log ∧ l.method = ascii "publickey") ∧
    lastRequest (Auth.run cfg {} evs).log = some (authRequest user (ascii "publickey")
      (1 :: (str (ascii "rsa-sha2-512") ++ (str blob ++ str (str (ascii "ssh-rsa") ++ str raw))))) :=
  ⟨demoCrypto, demoKeyCfg, demoRsaLogin "ssh-rsa" .sha1, ascii "joe", pubBlob demoRsa.pub,
    demoCrypto.digest .sha1 (signedBytes [1] (authRequest (ascii "joe") (ascii "publickey")
      (1 :: (str (ascii "rsa-sha2-512") ++ str (pubBlob demoRsa.pub))))),
    ⟨rfl, rfl⟩,
    ⟨{ user := ascii "joe", method := ascii "publickey", restrictions := {}, exec := true, sftp := true, sftpOnly := false },
      by decide +kernel, rfl⟩, by decide +kernel⟩

/-- **C71** fails for the offered algorithms: an RSA host key offers `ssh-rsa` also in a
program built without libmd (RSAKey.cxx:29-33), which then throws when it is chosen. -/
theorem C71_offered_violated : ∃ (c : Crypto) (k : SecKey), KeyPair c k ∧ CanSign c k ∧
    ∃ alg ∈ pubKeyAlgorithms k.pub, ∀ msg s, k.sign c msg alg s = .error .thrown :=
  ⟨{ demoCrypto with libmd := false }, demoRsa, demoPairs.1, demoSigners.1, ascii "ssh-rsa", by decide,
    fun _ _ => rfl⟩

end Lukko
