import Verif.Model.Secret
import Verif.Prop.KexKeys
import Verif.Prop.Wire
import Verif.Proof.PairSide
/-
  C111: the shared secret.
-/
namespace Lukko
open Model Spec

theorem stripZeros_length (k : Bytes) : (stripZeros k).length ≤ k.length := by rw [stripZeros_eq_drop]; simp

theorem writeBignum2_fits {s : Ser} {k : Bytes} (h : s.buf.length + k.length < BUFFER_SIZE) : ∃ s', s.writeBignum2 k = .ok s' := by
  have hl := stripZeros_length k
  simp only [Ser.writeBignum2, bind, Except.bind, pure, Except.pure]
  by_cases hm : msbSet (stripZeros k) = true
  · rw [if_pos hm, Ser.writeU8, writeN_fits (by simp; omega)]
    exact ⟨_, writeN_fits (by simp; omega)⟩
  · rw [if_neg hm]
    exact ⟨_, writeN_fits (by omega)⟩

theorem commitBignum2_fits {s : Ser} {k : Bytes} (h : s.buf.length + k.length < BUFFER_SIZE) : ∃ s', s.commitBignum2 k = .ok s' := by
  simp only [Ser.commitBignum2, Ser.size]
  rw [if_neg (by omega)]
  split
  · simp only [Ser.insertNullByte, Ser.size]
    rw [if_neg (by simp), if_neg (by simp only [List.length_append, List.length_drop]; omega)]
    exact ⟨_, rfl⟩
  · exact ⟨_, rfl⟩

/-- Both ways to write a number write it, if there is room. -/
theorem withLength_mpint {w : Ser → Except SerError Ser} {k : Bytes} {s : Ser}
    (h1 : w ⟨u32 0⟩ = .ok s) (h2 : s.buf = u32 0 ++ mpintBytes k) :
    Ser.withLength w Ser.empty = .ok ⟨str (mpintBytes k)⟩ := by
  have h0 : Ser.empty.writeU32 0 = .ok ⟨u32 0⟩ := by decide
  simp only [Ser.withLength, Ser.prepareLength, h0, bind, Except.bind, pure, Except.pure, h1]
  have := commitLength_eq [] (mpintBytes k)
  simp only [List.nil_append] at this
  obtain ⟨b⟩ := s
  cases h2
  exact congrArg (fun b => Except.ok (Ser.mk b)) this

theorem curve_some (f : Bytes → Option Bytes) (eph k : Bytes) (hl : eph.length = 32) (hf : f eph = some k) (hz : ∃ b ∈ k, b ≠ 0)
    (hk : k.length ≤ 65000) : curve25519Secret f eph = some (str (mpintBytes k)) := by
  obtain ⟨s, hs⟩ := writeBignum2_fits (s := ⟨u32 0⟩) (k := k) (by simp only [BUFFER_SIZE, u32_length]; omega)
  have hz' : ¬ (k.all (· == 0)) = true := by simpa using hz
  have hne : ¬ eph.length ≠ 32 := by omega
  simp only [curve25519Secret, if_neg hne, hf, if_neg hz', withLength_mpint (w := (·.writeBignum2 k)) hs (writeBignum2_ok hs)]

theorem ecdh_some (f : Bytes → Option Bytes) (eph k : Bytes) (hf : f eph = some k) (hk : k.length ≤ 65000) :
    ecdhSecret f eph = some (str (mpintBytes k)) := by
  obtain ⟨s, hs⟩ := commitBignum2_fits (s := ⟨u32 0⟩) (k := k) (by simp only [BUFFER_SIZE, u32_length]; omega)
  have hd : Ser.derive k ⟨u32 0⟩ = .ok s := by
    have : ¬ k.length > BUFFER_SIZE - (Ser.mk (u32 0)).size := by simp only [Ser.size, u32_length, BUFFER_SIZE]; omega
    rw [Ser.derive, if_neg this, hs]
  simp only [ecdhSecret, hf, withLength_mpint (w := Ser.derive k) hd (commitBignum2_ok hs)]

/-- What a method refuses: curve25519-sha256 accepts only keys of 32 bytes, and not the product zero. -/
def Acceptable : KexMethod → Bytes → Bytes → Prop
  | .curve25519, eph, k => eph.length = 32 ∧ beValue k ≠ 0
  | .ecdhNistp256, _, _ => True

theorem beValue_zero_iff (k : Bytes) : beValue k ≠ 0 ↔ ∃ b ∈ k, b ≠ 0 := by
  induction k with
  | nil => simp [beValue]
  | cons b t ih =>
    rw [beValue_cons]
    have hp : 0 < 256 ^ t.length := Nat.pow_pos (by decide)
    constructor
    · intro h
      by_cases hb : b = 0
      · subst hb
        obtain ⟨c, h1, h2⟩ := ih.mp (by simpa using h)
        exact ⟨c, List.mem_cons_of_mem _ h1, h2⟩
      · exact ⟨b, List.mem_cons_self, hb⟩
    · rintro ⟨c, h1, h2⟩
      rcases List.mem_cons.mp h1 with rfl | h1
      · have : 0 < c.toNat := by
          rcases Nat.eq_zero_or_pos c.toNat with h | h
          · exact absurd (UInt8.toNat_inj.mp (by simpa using h)) h2
          · exact h
        have := Nat.mul_pos this hp
        omega
      · have := ih.mpr ⟨c, h1, h2⟩
        omega

theorem sharedSecret_eq (m : KexMethod) (f : Bytes → Option Bytes) (eph k : Bytes) (hf : f eph = some k) (hk : k.length ≤ 65000)
    (ha : Acceptable m eph k) : sharedSecret m f eph = some (str (mpintBytes k)) := by
  cases m with
  | curve25519 => exact curve_some f eph k ha.1 hf ((beValue_zero_iff k).mp ha.2) hk
  | ecdhNistp256 => exact ecdh_some f eph k hf hk

/-- **C111.** For both methods: there is a shared secret exactly if the other side's key is acceptable and there is a product with it,
and then the secret is this number as an `mpint`, with its length in front of it – no matter how many zeros the number
begins with, or whether its first bit is set. -/
theorem C111_secret (m : KexMethod) (f : Bytes → Option Bytes) (hf : ∀ e k, f e = some k → k.length ≤ 65000) (eph secret : Bytes) :
    sharedSecret m f eph = some secret ↔ ∃ k, f eph = some k ∧ Acceptable m eph k ∧ IsSecret secret (beValue k) := by
  have uniq : ∀ k, IsSecret secret (beValue k) → secret = str (mpintBytes k) := by
    rintro k ⟨bs, h1, rfl⟩
    rw [C06_unique _ _ _ h1 (mpint_canonical k)]
  constructor
  · intro h
    have hk : ∃ k, f eph = some k ∧ Acceptable m eph k := by
      cases m with
      | curve25519 =>
        obtain ⟨h1, k, h2, h3⟩ := C50_secret f eph secret h
        exact ⟨k, h2, h1, (beValue_zero_iff k).mpr h3⟩
      | ecdhNistp256 =>
        cases hfe : f eph with
        | none => simp [sharedSecret, ecdhSecret, hfe] at h
        | some k => exact ⟨k, rfl, trivial⟩
    obtain ⟨k, h1, h2⟩ := hk
    rw [sharedSecret_eq m f eph k h1 (hf _ _ h1) h2] at h
    cases h
    exact ⟨k, h1, h2, _, mpint_canonical k, rfl⟩
  · rintro ⟨k, h1, h2, h3⟩
    rw [sharedSecret_eq m f eph k h1 (hf _ _ h1) h2, uniq k h3]

/-- A product with leading zeros, one with the first bit set, and one with both. -/
example : sharedSecret .ecdhNistp256 some [0, 0, 5, 6] = some [0, 0, 0, 2, 5, 6] ∧
    sharedSecret .ecdhNistp256 some [200, 1] = some [0, 0, 0, 3, 0, 200, 1] ∧
    sharedSecret .ecdhNistp256 some [0, 200, 1] = some [0, 0, 0, 3, 0, 200, 1] ∧
    sharedSecret .curve25519 some (List.replicate 31 0 ++ [200]) = some [0, 0, 0, 2, 0, 200] ∧
    sharedSecret .curve25519 some (List.replicate 32 0) = none := by decide

/-- **C111.** Different numbers have different secrets, and the same number has only one: who computes the same number derives the
same keys. -/
theorem C111_distinct {s s' : Bytes} {n n' : Nat} (h : IsSecret s n) (h' : IsSecret s' n') (hl : s.length < 2 ^ 32) :
    s = s' ↔ n = n' := by
  obtain ⟨b, h1, rfl⟩ := h
  obtain ⟨b', h1', rfl⟩ := h'
  constructor
  · intro he
    have hb : b = b' := by
      have : (str b).length = (str b').length := by rw [he]
      simp only [str, List.length_append, u32_length] at this
      exact (List.append_inj he (by simp)).2
    rw [← h1.value, ← h1'.value, hb]
  · rintro rfl
    rw [C06_unique _ _ _ h1 h1']

/-- **C111.** Both sides of an exchange compute the same secret, or both refuse it. -/
theorem C111_same {S : Type} (m : KexMethod) (d : DiffieHellman S) (hd : d.Agrees) (a b : S)
    (hl : m = .curve25519 → (d.pub a).length = 32 ∧ (d.pub b).length = 32) :
    sharedSecret m (d.product a) (d.pub b) = sharedSecret m (d.product b) (d.pub a) := by
  cases m with
  | curve25519 =>
    obtain ⟨h1, h2⟩ := hl rfl
    simp only [sharedSecret, curve25519Secret, h1, h2, hd a b]
  | ecdhNistp256 => simp only [sharedSecret, ecdhSecret, hd a b]

/-- A function of this kind. -/
def demoCurve : DiffieHellman UInt8 where
  pub a := List.replicate 32 (a ||| 1)
  product a e := some (e.map (· ||| (a ||| 1)))

theorem demoCurve_agrees : demoCurve.Agrees := fun a b => by
  simp only [demoCurve, List.map_replicate, UInt8.or_comm (a ||| 1)]

example : sharedSecret .curve25519 (demoCurve.product 6) (demoCurve.pub 40) = sharedSecret .curve25519 (demoCurve.product 40) (demoCurve.pub 6) :=
  C111_same .curve25519 demoCurve demoCurve_agrees 6 40 (fun _ => ⟨rfl, rfl⟩)

example : (sharedSecret .curve25519 (demoCurve.product 6) (demoCurve.pub 40)).isSome = true := by decide

/-- **C111.** A server which completes a key exchange has computed the secret from its own secret key and what the client has sent, and
this secret is written as the RFCs want it. -/
theorem C111_server {S : Type} {e : KexEnv} {evs : List KxEvent} {d : KexMethod → DiffieHellman S} {sk : KexMethod → Nat → S}
    (hu : e.uses d sk) (hp : ∀ m a eph k, (d m).product a eph = some k → k.length ≤ 65000)
    (hd : ∀ x, (e.digest x).length = 32) (hev : ∀ ev ∈ evs, EventOk ev) {pre t post}
    (hl : ((KxSys.init .server).run e evs).kx.log = pre ++ .agreed t :: post) :
    ∃ m n k, t.serverEph = (d m).pub (sk m n) ∧ (d m).product (sk m n) t.clientEph = some k ∧ Acceptable m t.clientEph k ∧
      IsSecret t.secret (beValue k) := by
  have hs := run_safe (role := .server) hd hev
  obtain ⟨pre', sig, hk, alg, p, _, _, _, _, _, _, _, _, _, m, n, h9, h10, _⟩ := hs.every pre _ post hl
  rw [hu.2] at h10
  obtain ⟨k, h1, h2, h3⟩ := (C111_secret m _ (hp m _) _ _).mp h10
  exact ⟨m, n, k, by rw [← h9, hu.1], h1, h2, h3⟩

/-- **C111.** So has a client. -/
theorem C111_client {S : Type} {e : KexEnv} {evs : List KxEvent} {d : KexMethod → DiffieHellman S} {sk : KexMethod → Nat → S}
    (hu : e.uses d sk) (hp : ∀ m a eph k, (d m).product a eph = some k → k.length ≤ 65000)
    (hd : ∀ x, (e.digest x).length = 32) (hev : ∀ ev ∈ evs, EventOk ev) {pre t post}
    (hl : ((KxSys.init .client).run e evs).kx.log = pre ++ .agreed t :: post) :
    ∃ m n k, t.clientEph = (d m).pub (sk m n) ∧ (d m).product (sk m n) t.serverEph = some k ∧ Acceptable m t.serverEph k ∧
      IsSecret t.secret (beValue k) := by
  have hs := run_safe (role := .client) hd hev
  obtain ⟨pre', sig, _, _, _, _, _, _, _, _, m, n, p, h9, h10, _⟩ := hs.every pre _ post hl
  rw [hu.2] at h10
  obtain ⟨k, h1, h2, h3⟩ := (C111_secret m _ (hp m _) _ _).mp h10
  exact ⟨m, n, k, by rw [← h9, hu.1], h1, h2, h3⟩

/-- **C111.** A client and a server of this program, whose Diffie-Hellman functions are the same and never give zero for each other's keys,
compute the same secret: the assumption about secrets made in C98. -/
theorem C111_pair {S : Type} {c s : KexEnv} {d : KexMethod → DiffieHellman S} {skc sks : KexMethod → Nat → S}
    (hc : c.uses d skc) (hs : s.uses d sks) (hd : (d .curve25519).Agrees) (hl : ∀ a, ((d .curve25519).pub a).length = 32)
    (hp : ∀ a b, ∃ k, (d .curve25519).product a ((d .curve25519).pub b) = some k ∧ k.length = 32 ∧ beValue k ≠ 0) (n m : Nat) :
    ∃ secret, c.shared .curve25519 n (s.ephPub .curve25519 m) = some secret ∧
      s.shared .curve25519 m (c.ephPub .curve25519 n) = some secret := by
  rw [hc.2, hs.2, hs.1, hc.1, C111_same .curve25519 _ hd (sks .curve25519 m) _ (fun _ => ⟨hl _, hl _⟩)]
  obtain ⟨k, h1, h2, h3⟩ := hp (skc .curve25519 n) (sks .curve25519 m)
  exact ⟨_, sharedSecret_eq .curve25519 _ _ k h1 (by omega) ⟨hl _, h3⟩, sharedSecret_eq .curve25519 _ _ k h1 (by omega) ⟨hl _, h3⟩⟩

/-! ### Non-vacuity -/

/-- The environment with these functions; every signature is accepted. -/
def demoSeaport : KexEnv := { demoEnv with
  ephPub := fun _ n => demoCurve.pub (UInt8.ofNat n)
  shared := fun m n => sharedSecret m (demoCurve.product (UInt8.ofNat n))
  verify := fun _ _ _ => true }

example : demoSeaport.uses (fun _ => demoCurve) (fun _ n => UInt8.ofNat n) := ⟨fun _ _ => rfl, fun _ _ _ => rfl⟩

/-- Two exchanges of a server with the one method, and one of a client with the other. -/
example : (agreements ((KxSys.init .server).run demoSeaport demoRekeyEvents).kx.log).map (·.secret) =
    [str (List.replicate 32 9), str (List.replicate 32 9)] := by decide +kernel

example : (agreements ((KxSys.init .client).run demoSeaport
      [.version (ascii "SSH-2.0-demo"), .packet (demoKexInit (ascii "ecdh-sha2-nistp256") false) .unclaimed,
       .packet (31 :: ecdhReplyBody (ascii "host key") [0, 0, 200] []) .unclaimed]).kx.log).map (·.secret) = [str [1, 1, 201]] := by
  decide +kernel

example (n m : Nat) : ∃ secret, demoSeaport.shared .curve25519 n (demoSeaport.ephPub .curve25519 m) = some secret ∧
    demoSeaport.shared .curve25519 m (demoSeaport.ephPub .curve25519 n) = some secret := by
  refine C111_pair (d := fun _ => demoCurve) (skc := fun _ n => UInt8.ofNat n) (sks := fun _ n => UInt8.ofNat n)
    ⟨fun _ _ => rfl, fun _ _ _ => rfl⟩ ⟨fun _ _ => rfl, fun _ _ _ => rfl⟩ demoCurve_agrees (fun a => by simp [demoCurve]) ?_ n m
  intro a b
  refine ⟨List.replicate 32 ((b ||| 1) ||| (a ||| 1)), by simp [demoCurve], by simp, (beValue_zero_iff _).mpr
    ⟨(b ||| 1) ||| (a ||| 1), by simp, fun h => ?_⟩⟩
  have : ∀ x : Fin 256, UInt8.ofNat x.val ||| 1 ≠ 0 := by decide +kernel
  rw [← UInt8.or_assoc] at h
  have h1 := this ⟨((b ||| 1) ||| a).toNat, UInt8.toNat_lt _⟩
  rw [UInt8.ofNat_toNat] at h1
  exact h1 h

end Lukko
