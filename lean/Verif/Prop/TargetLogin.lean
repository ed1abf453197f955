import Verif.Model.TargetLogin
import Verif.Prop.Keys
/-
  C73: logging in to the host a connection is proxied to.
-/
namespace Lukko
open Model Spec

/-! ## The requests -/

theorem keyLength_inv {w : Ser → Except KeyError Ser} {s s' : Ser} (hs : s.buf.length ≤ BUFFER_SIZE)
    (h : s.keyLength w = .ok s') : ∃ t', (s.buf ++ u32 0).length ≤ BUFFER_SIZE ∧ w ⟨s.buf ++ u32 0⟩ = .ok t' ∧
      s' = t'.commitLength s.buf.length := by
  simp only [Ser.keyLength, Ser.prepareLength] at h
  have h0 : s.writeU32 0 = _ := Writes.u32 0 s hs
  rw [h0] at h
  by_cases h4 : s.buf.length + (Spec.u32 0).length ≤ BUFFER_SIZE
  · rw [if_pos h4] at h
    change (w ⟨s.buf ++ Spec.u32 0⟩ >>= fun s₁ => Pure.pure (s₁.commitLength s.size)) = _ at h
    cases hw : w ⟨s.buf ++ Spec.u32 0⟩ with
    | error e => rw [hw] at h; cases h
    | ok t' =>
      rw [hw] at h
      cases h
      exact ⟨t', by simpa using h4, rfl, rfl⟩
  · rw [if_neg h4] at h; cases h

theorem keyLength_fits {w : Ser → Except KeyError Ser} {s t' : Ser} (hs : s.buf.length + 4 ≤ BUFFER_SIZE)
    (h : w ⟨s.buf ++ u32 0⟩ = .ok t') : s.keyLength w = .ok (t'.commitLength s.buf.length) := by
  simp only [Ser.keyLength, Ser.prepareLength]
  have h0 : s.writeU32 0 = _ := Writes.u32 0 s (by omega)
  rw [h0, if_pos (by simpa using hs)]
  show (w ⟨s.buf ++ Spec.u32 0⟩ >>= fun s₁ => Pure.pure (s₁.commitLength s.size)) = _
  rw [h]
  rfl

theorem clientSignedData_eq (sid part : Bytes) : clientSignedData sid part = signedData sid part := rfl

theorem KWrites.hostHead {k : SecKey} {blob : Bytes} (hk : IsKeyBlob k.pub blob) (hsm : SmallKey k.pub)
    (alg user host cu : Bytes) :
    KWrites (hostRequestHead k alg user host cu)
      (authRequest user (ascii "hostbased") (str alg ++ (str blob ++ (str host ++ str cu)))) := by
  rw [isKeyBlob_eq hk]
  exact (Writes.str _).key.bind ((Writes.str _).key.bind ((Writes.str _).key.bind ((Writes.str _).key.bind
    ((KWrites.pub hsm).keyLength.bind ((Writes.str _).key.bind (Writes.str _).key)))))

theorem KWrites.publicKeyHead {k : SecKey} {blob : Bytes} (hk : IsKeyBlob k.pub blob) (hsm : SmallKey k.pub)
    (alg user : Bytes) :
    KWrites (publicKeyRequestHead k alg user)
      (authRequest user (ascii "publickey") (1 :: (str alg ++ str blob))) := by
  rw [isKeyBlob_eq hk]
  exact (Writes.str _).key.bind ((Writes.str _).key.bind ((Writes.str _).key.bind ((Writes.bool true).key.bind
    ((Writes.str _).key.bind (KWrites.pub hsm).keyLength))))

theorem signedData_cases (sid part : Bytes) :
    (signedData sid part = .ok (signedBytes sid part) ∧ (signedBytes sid part).length ≤ 65536) ∨
    signedData sid part = .error .packetTooLarge := by
  have hw : Writes (fun s => s.writeString sid >>= fun s => s.writeU8 MSG_USERAUTH_REQUEST >>= fun s => s.writeN part)
      (signedBytes sid part) := (Writes.str _).bind ((Writes.u8 _).bind (Writes.writeN _))
  have hf : signedData sid part = (do
      let s ← (Ser.empty.writeString sid >>= fun s => s.writeU8 MSG_USERAUTH_REQUEST >>= fun s => s.writeN part)
      pure s.buf) := by simp only [signedData, bind_assoc]
  have he := hw Ser.empty (by decide)
  simp only at he
  rw [hf, he]
  split
  · rename_i hle
    exact .inl ⟨rfl, by simpa [Ser.empty] using hle⟩
  · exact .inr rfl

theorem signedData_length {sid part m : Bytes} (h : signedData sid part = .ok m) : m.length ≤ 65536 := by
  rcases signedData_cases sid part with ⟨h1, h2⟩ | h1
  · rw [h1] at h; cases h; exact h2
  · rw [h1] at h; cases h

theorem signedData_noAssert {sid part : Bytes} (h : signedData sid part = .error .assertFailed) : False := by
  rcases signedData_cases sid part with ⟨h1, h2⟩ | h1
  · rw [h1] at h; cases h
  · rw [h1] at h; cases h

/-- A request consists of the head and a signature of it. -/
theorem signedRequest_ok {c : Crypto} {sid : Bytes} {k : SecKey} {alg e : Bytes} {head : Ser → Except KeyError Ser}
    {s : Ser} (hk : KeyPair c k) (hw : KWrites head e) (h : signedRequest c sid k alg head = .ok s) :
    ∃ sig, s.buf = [0, 0, 0, 0, 0, 50] ++ (e ++ str sig) ∧
      GoodSignature IsMpint c.schemes (signedBytes sid e) k.pub alg sig ∧ (e ++ str sig).length ≤ 65536 ∧
      pubKeyVerify c k.pub (signedBytes sid e) sig = some true ∧ (signedBytes sid e).length ≤ 65536 := by
  simp only [signedRequest, bind, Except.bind] at h
  cases h1 : head (PacketSer.begin MSG_USERAUTH_REQUEST) with
  | error x => rw [h1] at h; cases h
  | ok s1 =>
    obtain ⟨e1, l1⟩ := kwrites_ok hw (by decide) h1
    have hd : s1.since (PacketSer.begin MSG_USERAUTH_REQUEST).size = e := by
      simp only [Ser.since, e1, Ser.size]
      exact List.drop_left
    rw [h1] at h
    simp only [hd, clientSignedData_eq] at h
    cases h2 : signedData sid e with
    | error x => rw [h2] at h; cases x <;> cases h
    | ok m =>
      rw [h2] at h
      have := signedData_ok h2
      subst this
      simp only [liftSer] at h
      obtain ⟨t', l2, h3, rfl⟩ := keyLength_inv l1 h
      obtain ⟨sig, h4, l4, h5, h6⟩ := C71_sign hk l2 h3
      have h6 := h6 []
      rw [List.append_nil] at h6
      refine ⟨sig, ?_, h5, ?_, h6, signedData_length h2⟩
      rotate_left
      · rw [h4, e1] at l4
        simp only [List.length_append, str, u32_length] at l4 ⊢
        omega
      have := commitLength_eq s1.buf sig
      cases t' with
      | mk b =>
        simp only at h4
        subst h4
        rw [this, e1]
        simp [PacketSer.begin, MSG_USERAUTH_REQUEST]

/-- A request is built if there is room for it. -/
theorem signedRequest_fits {c : Crypto} {sid : Bytes} {k : SecKey} {alg e : Bytes} {head : Ser → Except KeyError Ser}
    (hk : KeyPair c k) (hc : CanSign c k) (ha : alg ∈ pubKeyAlgorithms k.pub) (hl : alg = ascii "ssh-rsa" → c.libmd = true)
    (hw : KWrites head e) (hs : sid.length + e.length + 4210 ≤ 65536) :
    ∃ s, signedRequest c sid k alg head = .ok s := by
  have hb : (PacketSer.begin MSG_USERAUTH_REQUEST).buf.length = 6 := rfl
  have h1 := hw (PacketSer.begin MSG_USERAUTH_REQUEST) (by decide)
  rw [if_pos (by rw [hb]; simp only [BUFFER_SIZE]; omega)] at h1
  have hd : Ser.since ⟨(PacketSer.begin MSG_USERAUTH_REQUEST).buf ++ e⟩ (PacketSer.begin MSG_USERAUTH_REQUEST).size = e := by
    simp only [Ser.since, Ser.size]
    exact List.drop_left
  simp only [signedRequest, bind, Except.bind, h1, hd, clientSignedData_eq]
  rw [signedData_fits (by simp only [signedBytes, str, List.length_append, List.length_cons, u32_length, BUFFER_SIZE]; omega)]
  simp only [liftSer]
  obtain ⟨s', hs'⟩ := C71_signs (c := c) (k := k) (msg := signedBytes sid e) (alg := alg)
    (s := ⟨(PacketSer.begin MSG_USERAUTH_REQUEST).buf ++ e ++ u32 0⟩) hk hc ha hl
    (by simp only [List.length_append, hb, u32_length]; omega)
  exact ⟨_, keyLength_fits (by simp only [List.length_append, hb, BUFFER_SIZE]; omega) hs'⟩

theorem keyLength_noAssert {w : Ser → Except KeyError Ser} {s : Ser} (hs : s.buf.length ≤ BUFFER_SIZE)
    (hw : ∀ t : Ser, t.buf.length ≤ BUFFER_SIZE → w t ≠ .error .assertFailed) : s.keyLength w ≠ .error .assertFailed := by
  simp only [Ser.keyLength, Ser.prepareLength]
  have h0 : s.writeU32 0 = _ := Writes.u32 0 s hs
  rw [h0]
  split
  · rename_i h4
    change (w ⟨s.buf ++ Spec.u32 0⟩ >>= fun s₁ => Pure.pure (s₁.commitLength s.size)) ≠ _
    have := hw ⟨s.buf ++ u32 0⟩ (by simpa using h4)
    cases hx : w ⟨s.buf ++ u32 0⟩ with
    | error e =>
      rw [hx] at this
      intro h
      exact this h
    | ok t => intro h; cases h
  · intro h; cases h

theorem KWrites.noAssert {w e s} (h : KWrites w e) (hs : s.buf.length ≤ BUFFER_SIZE) : w s ≠ .error .assertFailed := by
  rw [h s hs]
  split <;> intro h <;> cases h

theorem writeBN_noAssert (n : Nat) (s : Ser) (hs : s.buf.length ≤ BUFFER_SIZE) : Ser.writeBN n s ≠ .error .assertFailed := by
  by_cases h : n < 256 ^ MAX_BIGNUM
  · exact (KWrites.bn h).noAssert hs
  · rw [writeBN_large (Nat.le_of_not_lt h)]; intro h; cases h

/-- Signing with an algorithm of the key fails no assertion. -/
theorem sign_noAssert {c : Crypto} {k : SecKey} {msg alg : Bytes} (ha : alg ∈ pubKeyAlgorithms k.pub) (s : Ser)
    (hs : s.buf.length ≤ BUFFER_SIZE) : k.sign c msg alg s ≠ .error .assertFailed := by
  cases k with
  | ed25519 pk sk =>
    simp only [SecKey.pub, pubKeyAlgorithms, List.mem_singleton] at ha
    subst ha
    simp only [SecKey.sign, ne_eq, not_true_eq_false, if_false]
    exact KWrites.noAssert ((Writes.str _).key.bind ((Writes.u32 64).key.bind (Writes.writeN _).key)) hs
  | rsa p =>
    simp only [SecKey.sign]
    split
    · intro h; cases h
    · rename_i h _
      unfold signGeneric
      have h1 := (Writes.str alg).key s hs
      simp only at h1
      rw [h1]
      split
      · rename_i hfit
        refine keyLength_noAssert (by simpa using hfit) fun t ht => ?_
        unfold Ser.writeSig
        cases c.rsaSign p h (c.digest h msg) with
        | none => intro h; cases h
        | some sig => exact (Writes.writeN sig).key.noAssert ht
      · intro h; cases h
  | ecdsa q d =>
    simp only [SecKey.sign]
    split
    · intro h; cases h
    · rename_i h _
      cases hg : c.ecSign q d (c.digest h msg) with
      | none => simp only [signEcdsa, hg]; intro h; cases h
      | some der =>
        cases hd : c.derDecode der with
        | none =>
          unfold signEcdsa
          have hsig : Ser.writeSig (some der) s = _ := (Writes.writeN der).key s hs
          rw [hg]
          simp only [hsig]
          split
          · have hsince : (Ser.since ⟨s.buf ++ der⟩ s.size) = der := by simp [Ser.since, Ser.size]
            show (orThrow (c.derDecode (Ser.since ⟨s.buf ++ der⟩ s.size)) >>= fun x => _) ≠ _
            rw [hsince, hd]
            intro h; cases h
          · intro h; cases h
        | some rt =>
          obtain ⟨r, t⟩ := rt
          rw [signEcdsa_eq hs hg hd]
          split
          · unfold writeEcdsaSig
            have h1 := (Writes.str (ascii "ecdsa-sha2-nistp256")).key s hs
            simp only at h1
            rw [h1]
            split
            · rename_i hfit
              simp only [bind, Except.bind]
              refine keyLength_noAssert (s := ⟨s.buf ++ str (ascii "ecdsa-sha2-nistp256")⟩) (by simpa using hfit) fun x hx => ?_
              cases h2 : Ser.keyLength (Ser.writeBN r) x with
              | error e =>
                intro h
                rw [show e = .assertFailed by cases h; rfl] at h2
                exact keyLength_noAssert hx (writeBN_noAssert r) h2
              | ok y =>
                refine keyLength_noAssert ?_ (writeBN_noAssert t)
                by_cases hr : r < 256 ^ MAX_BIGNUM
                · exact (kwrites_ok (KWrites.bn hr).keyLength hx h2).2
                · obtain ⟨t', -, h3, -⟩ := keyLength_inv hx h2
                  rw [writeBN_large (Nat.le_of_not_lt hr)] at h3
                  cases h3
            · intro h; cases h
          · intro h; cases h

theorem signedRequest_noAssert {c : Crypto} {sid : Bytes} {k : SecKey} {alg e : Bytes} {head : Ser → Except KeyError Ser}
    (ha : alg ∈ pubKeyAlgorithms k.pub) (hw : KWrites head e) :
    signedRequest c sid k alg head ≠ .error .assertFailed := by
  have h0 : (PacketSer.begin MSG_USERAUTH_REQUEST).buf.length ≤ BUFFER_SIZE := by decide
  simp only [signedRequest, bind, Except.bind]
  cases h1 : head (PacketSer.begin MSG_USERAUTH_REQUEST) with
  | error x => intro h; cases h; exact hw.noAssert h0 h1
  | ok s1 =>
    obtain ⟨e1, l1⟩ := kwrites_ok hw h0 h1
    simp only [clientSignedData_eq]
    generalize s1.since _ = part
    cases h2 : signedData sid part with
    | error x =>
      have hx : x ≠ .assertFailed := by
        rintro rfl
        exact signedData_noAssert h2
      cases x with
      | assertFailed => exact absurd rfl hx
      | _ => intro h; cases h
    | ok m => exact keyLength_noAssert l1 (fun t ht => sign_noAssert ha t ht)

/-- The keys which the theorems are about: the halves belong together, and numbers have at
most 16384 bits. -/
structure GoodKey (c : Crypto) (k : SecKey) : Prop where
  pair : KeyPair c k
  small : ∀ e n, k.pub = .rsa e n → e < 256 ^ 2048 ∧ n < 256 ^ 2048

theorem GoodKey.smallKey {c k} (h : GoodKey c k) : SmallKey k.pub := by
  have := h.small
  cases hk : k.pub with
  | rsa e n => exact this e n hk
  | ed25519 => trivial
  | ecdsa => trivial

/-- **C73.** A host based request that is built has the format of RFC 4252 section 9: it names the
user, the key and what is known about the client, and contains a good signature of all of that and
the session. -/
theorem C73_request {c : Crypto} {sid : Bytes} {k : SecKey} {alg user host cu blob : Bytes} {s : Ser} (hk : GoodKey c k)
    (hb : IsKeyBlob k.pub blob)
    (h : signedRequest c sid k alg (hostRequestHead k alg user host cu) = .ok s) :
    ∃ p, s.buf = [0, 0, 0, 0, 0, 50] ++ p ∧ IsHostRequest c.schemes sid k.pub alg user host cu p := by
  obtain ⟨sig, h1, h2, -⟩ := signedRequest_ok hk.pair (KWrites.hostHead hb hk.smallKey alg user host cu) h
  exact ⟨_, h1, blob, sig, hb, by simp [authRequest], h2⟩

/-- **C73.** The same for public key requests (section 7). -/
theorem C73_public_key_request {c : Crypto} {sid : Bytes} {k : SecKey} {alg user blob : Bytes} {s : Ser} (hk : GoodKey c k)
    (hb : IsKeyBlob k.pub blob)
    (h : signedRequest c sid k alg (publicKeyRequestHead k alg user) = .ok s) :
    ∃ sig, s.buf = [0, 0, 0, 0, 0, 50] ++ authRequest user (ascii "publickey") (1 :: (str alg ++ (str blob ++ str sig))) ∧
      GoodSignature IsMpint c.schemes (signedBytes sid (authRequest user (ascii "publickey") (1 :: (str alg ++ str blob))))
        k.pub alg sig := by
  obtain ⟨sig, h1, h2, -⟩ := signedRequest_ok hk.pair (KWrites.publicKeyHead hb hk.smallKey alg user) h
  exact ⟨sig, by rw [h1]; simp [authRequest], h2⟩

/-- **C73.** With an algorithm of the key and texts of sensible size, the request is built. -/
theorem C73_request_built {c : Crypto} {sid : Bytes} {k : SecKey} {alg user host cu blob : Bytes} (hk : GoodKey c k)
    (hc : CanSign c k) (hb : IsKeyBlob k.pub blob)
    (ha : alg ∈ pubKeyAlgorithms k.pub) (hl : alg = ascii "ssh-rsa" → c.libmd = true)
    (hs : sid.length + user.length + alg.length + blob.length + host.length + cu.length ≤ 60000) :
    ∃ s, signedRequest c sid k alg (hostRequestHead k alg user host cu) = .ok s := by
  refine signedRequest_fits hk.pair hc ha hl (KWrites.hostHead hb hk.smallKey alg user host cu) ?_
  have e1 : (ascii "ssh-connection").length = 14 := by decide
  have e2 : (ascii "hostbased").length = 9 := by decide
  simp only [authRequest, str, List.length_append, u32_length, e1, e2]
  omega

theorem demoEdKey : GoodKey demoCrypto demoEd := ⟨demoPairs.2.1, fun e n h => by cases h⟩
theorem demoRsaKey : GoodKey demoCrypto demoRsa :=
  ⟨demoPairs.1, fun e n h => by
    cases h
    exact ⟨Nat.lt_of_lt_of_le (by decide : 17 < 256 ^ 2) (Nat.pow_le_pow_right (by decide) (by decide)),
      Nat.lt_of_lt_of_le (by decide : 3233 < 256 ^ 2) (Nat.pow_le_pow_right (by decide) (by decide))⟩⟩

example : ∃ s, signedRequest demoCrypto [1] demoEd (ascii "ssh-ed25519")
    (hostRequestHead demoEd (ascii "ssh-ed25519") (ascii "joe") (ascii "localhost") (ascii "unknown")) = .ok s :=
  C73_request_built demoEdKey demoSigners.2.1 (.ed25519 (by decide)) (by decide) (by decide) (by decide +kernel)

example : ∃ s, signedRequest demoCrypto [1] demoRsa (ascii "rsa-sha2-512")
    (hostRequestHead demoRsa (ascii "rsa-sha2-512") (ascii "joe") (ascii "localhost") (ascii "unknown")) = .ok s :=
  C73_request_built demoRsaKey demoSigners.1 (isKeyBlob_pub (by trivial)) (by decide) (by decide) (by decide +kernel)

/-- **C73.** The target lets the proxy in: if it knows the user and trusts the proxy's key,
the request is accepted by a server like this one on the same session, with the restrictions
the key has there. -/
theorem C73_accepted {c : Crypto} {k : SecKey} {alg user host cu blob p : Bytes} {s : Ser} (cfg : AuthCfg)
    (hu : cfg.Uses c) (hk : GoodKey c k) (hb : IsKeyBlob k.pub blob) (hus : Usable c k.pub)
    (h : signedRequest c cfg.sessionId k alg (hostRequestHead k alg user host cu) = .ok s)
    (hp : s.buf = [0, 0, 0, 0, 0, 50] ++ p)
    (hval : ValidUser user) {acct : Account} {R : Restrictions}
    (hok : cfg.translation = true → acct.ok = true ∧ (acct.shell = true → acct.shellValid = true))
    (hpw : cfg.translation = false → cfg.getpwnam user = true)
    (hg : cfg.world.hostKey blob = some R) (d delay : Bool) (home : Option Bytes) :
    ∃ l, .loggedIn l ∈ (Auth.run cfg {} [.encrypted, .packet 5 (str (ascii "ssh-userauth")) d, .packet 50 p delay,
        .timer, .translated (some acct), .home home]).log ∧
      l.user = user ∧ l.method = ascii "hostbased" ∧ l.restrictions = R := by
  obtain ⟨sig, h1, h2, hl, hv, hm⟩ := signedRequest_ok hk.pair (KWrites.hostHead hb hk.smallKey alg user host cu) h
  rw [hp] at h1
  replace h1 := List.append_cancel_left h1
  have h1 : p = authRequest user (ascii "hostbased") (str alg ++ (str blob ++ (str host ++ (str cu ++ str sig)))) := by
    rw [h1]; simp [authRequest]
  simp only [authRequest, str, List.length_append, u32_length] at hl
  have hdec : parsePublicKeyBlob c blob = some k.pub := by simpa using C71_decode hb hus []
  rw [h1]
  obtain ⟨l, g1, g2, g3, g4, -⟩ := C30_hostbased_complete cfg (acct := acct) (u := user) (alg := alg) (key := blob)
    (host := host) (cu := cu) (sig := sig) (R := R) hval (by omega) (by omega) (by omega) (by omega) (by omega) hm
    (by show cfg.parseKey blob = true; rw [hu.1]; simp [hdec])
    (by show cfg.verify _ _ _ = some true; rw [hu.2]; simp [verifyBlob, hdec, hv]) hok hpw hg d delay home
  exact ⟨l, g1, g2, g3, g4⟩

/-! ## The dialogue -/

theorem sentTo_append (a b : List TargetEntry) : sentTo (a ++ b) = sentTo a ++ sentTo b := by
  induction a with
  | nil => rfl
  | cons x a ih => cases x <;> simp [sentTo, ih]

theorem Spec.ProperLogin.snoc {req log e} (h : ProperLogin req log) (he : ProperNext req log e) : ProperLogin req (log ++ [e]) := by
  intro a x b hab
  rcases Aux.snoc_split hab with ⟨rfl, rfl, rfl⟩ | ⟨b', rfl, h'⟩
  · exact he
  · exact h _ _ _ h'

/-- The requests the machine may send. -/
def Model.TargetCfg.IsRequest (cfg : TargetCfg) (p : Bytes) : Prop :=
  ∃ k alg, cfg.hostKey = some (k, alg) ∧
    IsHostRequest cfg.c.schemes cfg.sessionId k.pub alg cfg.user (ascii "localhost") cfg.clientUser p

/-- The host key is a good one, and the chosen algorithm one of its own. -/
structure Model.TargetCfg.Good (cfg : TargetCfg) : Prop where
  key : ∀ k alg, cfg.hostKey = some (k, alg) → GoodKey cfg.c k
  sized : ∀ k alg, cfg.hostKey = some (k, alg) → ∃ blob, IsKeyBlob k.pub blob
  alg : ∀ k alg, cfg.hostKey = some (k, alg) → alg ∈ pubKeyAlgorithms k.pub

/-- Where the login is. -/
structure TargetInv (cfg : TargetCfg) (t : Target) : Prop where
  proper : ProperLogin cfg.IsRequest t.log
  sane : t.fault = false
  before : t.encrypted = false → t.auth = none ∧ sentTo t.log = [] ∧ t.authenticated = false
  init : t.auth ≠ some .init ∧ t.auth ≠ some .success
  asked : t.auth = some .serviceRequest → sentTo t.log = [serviceRequest]
  service : t.auth = some .service → t.over = true
  waiting : t.auth = some .request → ∃ r, sentTo t.log = [serviceRequest, (50, r)]
  result : (t.encrypted = false ∨ t.auth ≠ none) → .loggedIn ∉ t.log ∧ .refused ∉ t.log
  known : t.authenticated = true ↔ .loggedIn ∈ t.log
  after : .loggedIn ∈ t.log → t.auth = none
  live : t.encrypted = true → t.auth = none → .loggedIn ∈ t.log ∨ t.over = true

theorem TargetInv.start (cfg : TargetCfg) : TargetInv cfg {} where
  proper := by intro a x b h; simp at h
  sane := rfl
  before := fun _ => ⟨rfl, rfl, rfl⟩
  init := ⟨by simp, by simp⟩
  asked := by simp
  service := by simp
  waiting := by simp
  result := by simp
  known := by simp
  after := by simp
  live := by simp

theorem TargetInv.received {cfg t} (h : TargetInv cfg t) (msg : UInt8) (p : Bytes) :
    TargetInv cfg (t.say (.received msg p)) where
  proper := h.proper.snoc trivial
  sane := h.sane
  before := by simpa [Target.say, sentTo_append, sentTo] using h.before
  init := h.init
  asked := by simpa [Target.say, sentTo_append, sentTo] using h.asked
  service := h.service
  waiting := by simpa [Target.say, sentTo_append, sentTo] using h.waiting
  result := by simpa [Target.say] using h.result
  known := by simpa [Target.say] using h.known
  after := by simpa [Target.say] using h.after
  live := by simpa [Target.say] using h.live

theorem TargetInv.close {cfg t} (h : TargetInv cfg t) : TargetInv cfg { t with over := true } :=
  { h with service := fun _ => rfl, live := fun _ _ => .inr rfl }

theorem TargetInv.encrypt {cfg t} (h : TargetInv cfg t) (he : t.encrypted = false) : TargetInv cfg t.onEncrypted := by
  obtain ⟨b1, b2, b3⟩ := h.before he
  obtain ⟨r1, r2⟩ := h.result (.inl he)
  have hm : makeServiceRequest (ascii "ssh-userauth") =
    .ok ⟨[0, 0, 0, 0, 0, 5] ++ str (ascii "ssh-userauth")⟩ := by decide
  simp only [Target.onEncrypted, b1, hm, Option.isSome_none, Bool.false_eq_true, if_false]
  exact {
    proper := h.proper.snoc (.inl ⟨rfl, b2⟩)
    sane := h.sane
    before := by simp [Target.send, Target.say]
    init := ⟨by simp, by simp⟩
    asked := fun _ => by
      simp only [Target.send, Target.say, sentTo_append, b2, sentTo]
      rfl
    service := by simp
    waiting := by simp
    result := fun _ => by simpa [Target.send, Target.say] using ⟨r1, r2⟩
    known := by simpa [Target.send, Target.say] using h.known
    after := by simpa [Target.send, Target.say] using r1
    live := by simp }

theorem TargetInv.closeService {cfg t} (h : TargetInv cfg t) (ha : t.auth = some .serviceRequest) :
    TargetInv cfg { t with auth := some .service, over := true } where
  proper := h.proper
  sane := h.sane
  before := fun he => by rw [(h.before he).1] at ha; cases ha
  init := ⟨by simp, by simp⟩
  asked := by simp
  service := fun _ => rfl
  waiting := by simp
  result := fun _ => h.result (.inr (by rw [ha]; simp))
  known := h.known
  after := fun hl => by rw [h.after hl] at ha; cases ha
  live := by simp

theorem TargetInv.host {cfg t k alg} (hc : cfg.Good) (h : TargetInv cfg t) (ha : t.auth = some .serviceRequest)
    (hk : cfg.hostKey = some (k, alg))
    (hl : t.log.getLast? = some (.received 6 (str (ascii "ssh-userauth")))) :
    TargetInv cfg ({ t with auth := some .service }.sendHostRequest cfg k alg (ascii "localhost")) := by
  have hs := h.asked ha
  have he : t.encrypted = true := by
    cases he : t.encrypted with
    | true => rfl
    | false => rw [(h.before he).1] at ha; cases ha
  obtain ⟨r1, r2⟩ := h.result (.inr (by rw [ha]; simp))
  simp only [Target.sendHostRequest]
  rw [if_neg (by simp)]
  obtain ⟨blob, hb⟩ := hc.sized k alg hk
  have hw := KWrites.hostHead hb (hc.key k alg hk).smallKey alg cfg.user (ascii "localhost") cfg.clientUser
  split
  · exact h.closeService ha
  · rename_i hf
    exact absurd hf (signedRequest_noAssert (hc.alg k alg hk) hw)
  · rename_i s hr
    obtain ⟨p, hp, hreq⟩ := C73_request (hc.key k alg hk) hb hr
    have hd : s.buf.drop 6 = p := by rw [hp]; rfl
    simp only [Target.send, Target.say, hd]
    exact {
      proper := h.proper.snoc (.inr ⟨rfl, ⟨k, alg, hk, hreq⟩, hs, hl⟩)
      sane := h.sane
      before := by simp [he]
      init := ⟨by simp, by simp⟩
      asked := by simp
      service := by simp
      waiting := fun _ => ⟨p, by simp only [sentTo_append, hs, sentTo]; rfl⟩
      result := fun _ => by simpa using ⟨r1, r2⟩
      known := by simpa using h.known
      after := by simpa using r1
      live := by simp }

theorem parseServiceAccept_inv {p name : Bytes} (h : parseServiceAccept.parse p = some name) : p = str name := by
  obtain ⟨r, h⟩ := parse_inv h
  obtain ⟨v1, r1, h1, h⟩ := bind_inv h
  obtain ⟨v2, r2, h2, h⟩ := bind_inv h
  rw [pure_apply] at h
  cases h
  obtain ⟨rfl, -⟩ := readString_inv h1
  obtain ⟨rfl, rfl⟩ := expectEnd_inv h2
  simp

theorem TargetInv.packet {cfg t st} (hc : cfg.Good) (h : TargetInv cfg t) (ha : t.auth = some st)
    {msg : UInt8} {p : Bytes} (hl : t.log.getLast? = some (.received msg p)) :
    TargetInv cfg (t.authPacket cfg st msg p) := by
  have he : t.encrypted = true := by
    cases he : t.encrypted with
    | true => rfl
    | false => rw [(h.before he).1] at ha; cases ha
  obtain ⟨r1, r2⟩ := h.result (.inr (by rw [ha]; simp))
  have hau : t.authenticated = false := by
    have := h.known
    cases hb : t.authenticated with
    | false => rfl
    | true => rw [hb] at this; exact absurd (this.mp rfl) r1
  unfold Target.authPacket
  rw [if_neg (by simp [he])]
  split
  · -- SERVICE_ACCEPT
    rename_i hm
    subst hm
    unfold Target.serviceAccept
    split
    · exact h.close
    · rename_i name hp
      split
      · rename_i hst
        obtain ⟨rfl, rfl⟩ := hst
        have hp' : p = str (ascii "ssh-userauth") := parseServiceAccept_inv hp
        subst hp'
        unfold Target.onService
        split
        · exact h.closeService ha
        · exact h.host hc ha ‹_› hl
      · exact h.close
  · split
    · rename_i hm
      subst hm
      split
      · exact h.close
      · rename_i hst
        have hst : st = .request := Decidable.not_not.mp hst
        subst hst
        exact {
          proper := h.proper.snoc ⟨h.waiting ha, ⟨p, hl⟩, r1, r2⟩
          sane := h.sane
          before := by simp [Target.say, he]
          init := ⟨by simp, by simp⟩
          asked := by simp
          service := by simp
          waiting := by simp
          result := by simp [Target.say, he]
          known := by simpa [Target.say] using h.known
          after := by simp
          live := by simp }
    · split
      · rename_i hm
        subst hm
        split
        · exact h.close
        · rename_i hst
          have hst : st = .request := Decidable.not_not.mp hst
          subst hst
          exact {
            proper := h.proper.snoc ⟨h.waiting ha, ⟨p, hl⟩, r1, r2⟩
            sane := h.sane
            before := by simp [Target.say, he]
            init := ⟨by simp, by simp⟩
            asked := by simp
            service := by simp
            waiting := by simp
            result := by simp [Target.say, he]
            known := by simp [Target.say]
            after := by simp
            live := by simp [Target.say] }
      · split
        · split
          · exact h.close
          · exact h
        · exact h

theorem TargetInv.step {cfg t} (hc : cfg.Good) (h : TargetInv cfg t) (ev : TargetEv) : TargetInv cfg (t.step cfg ev) := by
  unfold Target.step
  split
  · exact h
  · rename_i hn
    have ho : t.over = false := by cases ho : t.over <;> simp_all
    cases ev with
    | encrypted =>
      simp only
      split
      · exact h
      · exact h.encrypt (by simp_all)
    | packet msg p =>
      simp only
      split
      · exact h.received msg p
      · exact (h.received msg p).packet hc ‹_› (by simp [Target.say])
    | lost => exact h.close

theorem TargetInv.run {cfg} (hc : cfg.Good) (evs : List TargetEv) : TargetInv cfg (Target.run cfg {} evs) := by
  unfold Target.run
  suffices ∀ t, TargetInv cfg t → TargetInv cfg (evs.foldl (Target.step cfg) t) from this _ (TargetInv.start cfg)
  induction evs with
  | nil => exact fun t h => h
  | cons ev evs ih => exact fun t h => ih _ (h.step hc ev)

/-- **C73.** Whatever the target does, the login follows the protocol: first the service is requested,
once; when it was accepted, and only then, one host based request is sent, signed with the proxy's
host key for this session; the login is taken as successful only if the target says so after this
request, and as failed only if it refuses it. -/
theorem C73_proper {cfg : TargetCfg} (hc : cfg.Good) (evs : List TargetEv) :
    ProperLogin cfg.IsRequest (Target.run cfg {} evs).log := (TargetInv.run hc evs).proper

/-- **C73.** No assertion fails, whatever the target sends and whenever. -/
theorem C73_no_assertion {cfg : TargetCfg} (hc : cfg.Good) (evs : List TargetEv) :
    (Target.run cfg {} evs).fault = false := (TargetInv.run hc evs).sane

/-- **C73.** The session is given to the target (the connection counts as authenticated) exactly
if the login was successful. -/
theorem C73_authenticated {cfg : TargetCfg} (hc : cfg.Good) (evs : List TargetEv) :
    (Target.run cfg {} evs).authenticated = true ↔ .loggedIn ∈ (Target.run cfg {} evs).log := (TargetInv.run hc evs).known

theorem connection_range (msg : UInt8) (h1 : 90 ≤ msg) (h2 : msg ≤ 100) : isConnectionMessage msg = true := by
  have h1 := UInt8.le_iff_toNat_le.mp h1
  have h2 := UInt8.le_iff_toNat_le.mp h2
  have : ∀ n : Fin 256, 90 ≤ n.val → n.val ≤ 100 → isConnectionMessage (UInt8.ofNat n.val) = true := by decide +kernel
  have := this ⟨msg.toNat, msg.toNat_lt⟩ h1 h2
  simpa using this

/-- **C73.** Messages of the connection protocol which arrive before the login is done end the
connection; so do answers to what was not asked. -/
theorem C73_early {cfg : TargetCfg} (hc : cfg.Good) (evs : List TargetEv) (msg : UInt8) (p : Bytes)
    (he : (Target.run cfg {} evs).encrypted = true) (hn : .loggedIn ∉ (Target.run cfg {} evs).log)
    (hm : (msg ∈ [80, 81, 82] ∨ (90 ≤ msg ∧ msg ≤ 100)) ∨
      (msg ∈ [51, 52] ∧ ∀ r, (50, r) ∉ sentTo (Target.run cfg {} evs).log)) :
    (Target.run cfg {} (evs ++ [.packet msg p])).over = true := by
  have h := TargetInv.run hc evs
  have hrun : Target.run cfg {} (evs ++ [.packet msg p]) = (Target.run cfg {} evs).step cfg (.packet msg p) := by
    simp [Target.run]
  rw [hrun]
  generalize Target.run cfg {} evs = t at *
  unfold Target.step
  split
  · have := h.sane
    simp_all
  · rename_i ho
    have ho : t.over = false := by cases ho : t.over <;> simp_all
    have hne : t.auth ≠ none := fun hn' => by
      rcases h.live he hn' with h' | h'
      · exact hn h'
      · rw [ho] at h'; cases h'
    obtain ⟨st, hst⟩ := Option.ne_none_iff_exists'.mp hne
    simp only [hst]
    have hen : (t.say (.received msg p)).encrypted = true := he
    unfold Target.authPacket
    rw [if_neg (by simp [hen])]
    rcases hm with hm | ⟨hm, hr⟩
    · have h1 : msg ≠ 6 ∧ msg ≠ 51 ∧ msg ≠ 52 := by
        rcases hm with hm | ⟨h1, h2⟩
        · simp only [List.mem_cons, List.not_mem_nil, or_false] at hm
          rcases hm with rfl | rfl | rfl <;> decide
        · refine ⟨?_, ?_, ?_⟩ <;> rintro rfl <;> exact absurd h1 (by decide)
      have h2 : isConnectionMessage msg = true := by
        rcases hm with hm | ⟨h1, h2⟩
        · simp only [List.mem_cons, List.not_mem_nil, or_false] at hm
          rcases hm with rfl | rfl | rfl <;> decide
        · exact connection_range msg h1 h2
      rw [if_neg h1.1, if_neg h1.2.1, if_neg h1.2.2, if_pos h2, if_pos]
      rintro rfl
      exact h.init.2 hst
    · have hs : st ≠ .request := by
        rintro rfl
        obtain ⟨r, hr'⟩ := h.waiting hst
        exact hr r (by rw [hr']; simp)
      simp only [List.mem_cons, List.not_mem_nil, or_false] at hm
      rcases hm with rfl | rfl
      · rw [if_neg (by decide), if_pos rfl, if_pos hs]
      · rw [if_neg (by decide), if_neg (by decide), if_pos rfl, if_pos hs]

/-- **C73.** With a target that accepts the service and the request, the login succeeds. -/
theorem C73_complete {cfg : TargetCfg} {k : SecKey} {alg : Bytes} (hc : cfg.Good) (hk : cfg.hostKey = some (k, alg))
    (hs : ∃ s, signedRequest cfg.c cfg.sessionId k alg (hostRequestHead k alg cfg.user (ascii "localhost") cfg.clientUser)
      = .ok s) :
    ∃ r, cfg.IsRequest r ∧ ∀ p, (Target.run cfg {} [.encrypted, .packet 6 (str (ascii "ssh-userauth")), .packet 52 p]).log =
      [.sent 5 (str (ascii "ssh-userauth")), .received 6 (str (ascii "ssh-userauth")), .sent 50 r, .received 52 p, .loggedIn] ∧
      (Target.run cfg {} [.encrypted, .packet 6 (str (ascii "ssh-userauth")), .packet 52 p]).over = false := by
  obtain ⟨s, hs⟩ := hs
  obtain ⟨blob, hb⟩ := hc.sized k alg hk
  obtain ⟨r, hr, hreq⟩ := C73_request (hc.key k alg hk) hb hs
  have hd : s.buf.drop 6 = r := by rw [hr]; rfl
  have hm : makeServiceRequest (ascii "ssh-userauth") =
    .ok ⟨[0, 0, 0, 0, 0, 5] ++ str (ascii "ssh-userauth")⟩ := by decide
  have hp : parseServiceAccept.parse (str (ascii "ssh-userauth")) = some (ascii "ssh-userauth") := by decide
  have h1 : (52 : UInt8) ≠ MSG_SERVICE_ACCEPT := by decide
  have h2 : (52 : UInt8) ≠ MSG_USERAUTH_FAILURE := by decide
  refine ⟨r, ⟨k, alg, hk, hreq⟩, fun p => ?_⟩
  simp [Target.run, Target.step, Target.onEncrypted, hm, Target.send, Target.say, Target.authPacket, Target.serviceAccept, hp,
    Target.onService, hk, Target.sendHostRequest, hs, hd, h1, h2]

/-- A proxy with the demo key. -/
def demoTarget : TargetCfg := ⟨demoCrypto, [1], some (demoEd, ascii "ssh-ed25519"), ascii "joe", ascii "unknown"⟩

theorem demoTarget_good : demoTarget.Good where
  key := by rintro k alg h; cases h; exact demoEdKey
  sized := by rintro k alg h; cases h; exact ⟨_, .ed25519 (by decide)⟩
  alg := by rintro k alg h; cases h; decide

/-- A target which trusts the demo key. -/
def demoTargetServer : AuthCfg where
  decode := some
  parseKey b := (parsePublicKeyBlob demoCrypto b).isSome
  verify := verifyBlob demoCrypto
  sessionId := [1]
  hostKeys := [(pubBlob demoEd.pub, {})]

example : ∃ r, demoTarget.IsRequest r ∧ ∀ p,
    (Target.run demoTarget {} [.encrypted, .packet 6 (str (ascii "ssh-userauth")), .packet 52 p]).log =
      [.sent 5 (str (ascii "ssh-userauth")), .received 6 (str (ascii "ssh-userauth")), .sent 50 r, .received 52 p, .loggedIn] ∧
    (Target.run demoTarget {} [.encrypted, .packet 6 (str (ascii "ssh-userauth")), .packet 52 p]).over = false :=
  C73_complete demoTarget_good rfl
    (C73_request_built demoEdKey demoSigners.2.1 (.ed25519 (by decide)) (by decide) (by decide) (by decide +kernel))

example : (Target.run demoTarget {} [.encrypted, .packet 52 []]).over = true :=
  C73_early demoTarget_good [.encrypted] 52 [] (by decide +kernel) (by decide +kernel)
    (.inr ⟨by decide, fun r => by
      have : sentTo (Target.run demoTarget {} [.encrypted]).log = [serviceRequest] := by decide +kernel
      rw [this]; simp [serviceRequest]⟩)

example : ∃ l, .loggedIn l ∈ (Auth.run demoTargetServer {} [.encrypted, .packet 5 (str (ascii "ssh-userauth")) false,
    .packet 50 ((match signedRequest demoCrypto [1] demoEd (ascii "ssh-ed25519")
      (hostRequestHead demoEd (ascii "ssh-ed25519") (ascii "joe") (ascii "localhost") (ascii "unknown")) with
      | .ok s => s.buf | .error _ => []).drop 6) false,
    .timer, .translated (some {}), .home none]).log ∧ l.method = ascii "hostbased" :=
  ⟨{ user := ascii "joe", method := ascii "hostbased", restrictions := {}, exec := true, sftp := true, sftpOnly := false },
    by decide +kernel, rfl⟩

end Lukko
