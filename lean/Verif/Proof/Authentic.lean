import Verif.Prop.KexKeys
import Verif.Spec.Authentic
/-
  Lemmas for C83.
-/
namespace Lukko
open Spec Model

variable {e : KexEnv} {role : Role} {evs : List KxEvent}

/-- Since an agreement, while its exchange lasts, no KEXINIT is accepted or sent. -/
theorem since_agreed : ∀ {log φ}, phaseOf log = some φ → φ.refused = false → φ.secret = true →
    ∃ a t b, log = a ++ .agreed t :: b ∧ lastAgreed log = some t ∧ firstAgreed log = firstAgreed (a ++ [.agreed t]) ∧
      lastRecv 20 log = lastRecv 20 a ∧ lastSent 20 log = lastSent 20 a ∧ φ.kexSent = true ∧ φ.kexRecv = true := by
  intro log
  induction log using snocInd with
  | nil =>
    intro φ h _ h2
    simp only [phaseOf, List.foldlM_nil, Option.pure_def, Option.some.injEq] at h
    subst h; simp at h2
  | snoc l x ih =>
    intro φ h h1 h2
    rw [phaseOf_snoc] at h
    cases hl : phaseOf l with
    | none => rw [hl] at h; simp at h
    | some φ0 =>
      rw [hl, Option.bind_some] at h
      by_cases hx : ∃ t, x = .agreed t
      · obtain ⟨t, rfl⟩ := hx
        refine ⟨l, t, [], rfl, ?_, rfl, ?_, ?_, ?_⟩
        · rw [lastAgreed_snoc]
        · rw [lastRecv_snoc]
        · rw [lastSent_snoc]
        · simp only [Phase.next] at h
          split at h
          · rename_i hc
            simp only [Option.some.injEq] at h; subst h
            simp only [Bool.and_eq_true] at hc
            exact ⟨hc.1.1.1.1, hc.1.1.1.2⟩
          · simp at h
      · have h0 : φ0.refused = false ∧ φ0.secret = true := by
          cases x with
          | agreed t => exact absurd ⟨t, rfl⟩ hx
          | sent p =>
            simp only [Phase.next] at h
            repeat' split at h
            all_goals simp_all
            all_goals (subst h; simp_all)
          | recv p =>
            simp only [Phase.next] at h
            repeat' split at h
            all_goals simp_all
            all_goals (subst h; simp_all)
          | installOut a b c =>
            simp only [Phase.next] at h
            split at h
            · simp only [Option.some.injEq] at h; subst h; simp_all
            · simp at h
          | installIn a b c =>
            simp only [Phase.next] at h
            split at h
            · simp only [Option.some.injEq] at h; subst h; simp_all
            · simp at h
          | _ => simp only [Phase.next, Option.some.injEq] at h; subst h; exact ⟨h1, h2⟩
        obtain ⟨a, t, b, r1, r2, r3, r4, r5, r6, r7⟩ := ih hl h0.1 h0.2
        have hm : (∀ p, x = .sent p → isMsg 20 p = false) ∧ (∀ p, x = .recv p → isMsg 20 p = false) ∧
            φ.kexSent = true ∧ φ.kexRecv = true := by
          cases x with
          | agreed t => exact absurd ⟨t, rfl⟩ hx
          | sent p =>
            simp only [Phase.next] at h
            repeat' split at h
            all_goals simp_all
            all_goals (subst h; simp_all)
          | recv p =>
            simp only [Phase.next] at h
            repeat' split at h
            all_goals simp_all
            all_goals (subst h; simp_all)
          | installOut a b c =>
            simp only [Phase.next] at h
            split at h
            · simp only [Option.some.injEq] at h; subst h; simp_all
            · simp at h
          | installIn a b c =>
            simp only [Phase.next] at h
            split at h
            · simp only [Option.some.injEq] at h; subst h; simp_all
            · simp at h
          | _ => simp only [Phase.next, Option.some.injEq] at h; subst h; exact ⟨by simp, by simp, r6, r7⟩
        obtain ⟨m1, m2, m3, m4⟩ := hm
        refine ⟨a, t, b ++ [x], ?_, ?_, ?_, ?_, ?_, m3, m4⟩
        · rw [r1]; simp
        · rw [lastAgreed_snoc]; cases x <;> simp_all
        · rw [firstAgreed_snoc, r3, firstAgreed_snoc]; cases firstAgreed a <;> rfl
        · rw [lastRecv_snoc, ← r4]; cases x <;> simp_all
        · rw [lastSent_snoc, ← r5]; cases x <;> simp_all

theorem lastSent_mem {n : UInt8} {k : Bytes} : ∀ {log : List Entry}, lastSent n log = some k →
    ∃ p, .sent p ∈ log ∧ isMsg n p = true ∧ p.tail = k := by
  intro log
  induction log using snocInd with
  | nil => intro h; simp [lastSent] at h
  | snoc l x ih =>
    intro h
    rw [lastSent_snoc] at h
    cases x with
    | sent p =>
      simp only at h
      split at h
      · rename_i hp
        simp only [Option.some.injEq] at h
        exact ⟨p, by simp, hp, h⟩
      · obtain ⟨q, h1, h2⟩ := ih h; exact ⟨q, by simp [h1], h2⟩
    | _ => obtain ⟨q, h1, h2⟩ := ih h; exact ⟨q, by simp [h1], h2⟩

theorem lastRecv_mem {n : UInt8} {k : Bytes} : ∀ {log : List Entry}, lastRecv n log = some k →
    ∃ p, .recv p ∈ log ∧ isMsg n p = true ∧ p.tail = k := by
  intro log
  induction log using snocInd with
  | nil => intro h; simp [lastRecv] at h
  | snoc l x ih =>
    intro h
    rw [lastRecv_snoc] at h
    cases x with
    | recv p =>
      simp only at h
      split at h
      · rename_i hp
        simp only [Option.some.injEq] at h
        exact ⟨p, by simp, hp, h⟩
      · obtain ⟨q, h1, h2⟩ := ih h; exact ⟨q, by simp [h1], h2⟩
    | _ => obtain ⟨q, h1, h2⟩ := ih h; exact ⟨q, by simp [h1], h2⟩

theorem peerVersion_mem {v : Bytes} : ∀ {log : List Entry}, Spec.peerVersion log = some v → .version v ∈ log := by
  intro log
  induction log using snocInd with
  | nil => intro h; simp [Spec.peerVersion] at h
  | snoc l x ih =>
    intro h
    rw [peerVersion_snoc] at h
    cases x with
    | version w => simp only [Option.some.injEq] at h; subst h; simp
    | _ => exact List.mem_append_left _ (ih h)

theorem msg_length {n : UInt8} {p k : Bytes} (h : isMsg n p = true) (hk : p.tail = k) : p.length = k.length + 1 := by
  cases p with
  | nil => simp [isMsg] at h
  | cons a b => simp only [List.tail_cons] at hk; subst hk; simp

theorem Spec.Sized.prefix {a b : List Entry} (h : Sized (a ++ b)) : Sized a :=
  fun x hx => h x (List.mem_append_left _ hx)

theorem Spec.Sized.lastSent {log : List Entry} (h : Sized log) {n : UInt8} {k : Bytes} (hk : Spec.lastSent n log = some k) :
    k.length + 1 < 2 ^ 32 := by
  obtain ⟨p, h1, h2, h3⟩ := lastSent_mem hk
  have := h _ h1
  rw [← msg_length h2 h3]; exact this

theorem Spec.Sized.lastRecv {log : List Entry} (h : Sized log) {n : UInt8} {k : Bytes} (hk : Spec.lastRecv n log = some k) :
    k.length + 1 < 2 ^ 32 := by
  obtain ⟨p, h1, h2, h3⟩ := lastRecv_mem hk
  have := h _ h1
  rw [← msg_length h2 h3]; exact this

theorem str_length (s : Bytes) : (str s).length = 4 + s.length := by simp [str, Spec.u32]; omega

theorem reply_sizes {hk eph sig : Bytes} (h : (31 :: ecdhReplyBody hk eph sig).length < 2 ^ 32) :
    hk.length < 2 ^ 32 ∧ eph.length < 2 ^ 32 := by
  simp only [ecdhReplyBody, List.length_cons, List.length_append, str_length] at h
  omega

theorem ClientAgreed.encodable {pre t} (h : ClientAgreed e pre t) (hz : Sized pre) (hv : e.ownVersion.length < 2 ^ 32) :
    Transcript.Encodable t := by
  obtain ⟨pre', sig, rfl, _, _, h4, h5, h6, h7, h8, _⟩ := h
  have hz' := hz.prefix
  have h31 := reply_sizes (hz (.recv (31 :: ecdhReplyBody t.hostKey t.serverEph sig)) (by simp))
  have h30 := hz'.lastSent h8
  rw [ecdhInitBody, str_length] at h30
  exact ⟨by rw [h4]; exact hv, hz' _ (peerVersion_mem h5), hz'.lastSent h6, hz'.lastRecv h7, h31.1, by omega, h31.2⟩

theorem ServerAgreed.encodable {pre t} (h : ServerAgreed e pre t) (hz : Sized pre) (hv : e.ownVersion.length < 2 ^ 32) :
    Transcript.Encodable t := by
  obtain ⟨pre', sig, hk, alg, p, rfl, _, _, _, _, h4, h5, h6, h7, _⟩ := h
  have hz' := hz.prefix
  have h31 := reply_sizes (hz (.sent (31 :: ecdhReplyBody t.hostKey t.serverEph sig)) (by simp))
  have h30 : (30 :: ecdhInitBody t.clientEph).length < 2 ^ 32 := hz (.recv (30 :: ecdhInitBody t.clientEph)) (by simp)
  rw [ecdhInitBody, List.length_cons, str_length] at h30
  exact ⟨hz' _ (peerVersion_mem h5), by rw [h4]; exact hv, hz'.lastRecv h7, hz'.lastSent h6, h31.1, by omega, h31.2⟩

/-- The KEXINIT of a Lukko. -/
theorem own_kexinit (hd : ∀ x, (e.digest x).length = 32) (hev : ∀ ev ∈ evs, EventOk ev)
    (hc : ∀ n, (e.cookie n).length = 16) {pre post k}
    (hl : ((KxSys.init role).run e evs).kx.log = pre ++ post) (hz : Sized pre) (hk : lastSent 20 pre = some k) :
    ∃ p, parseKexInit.parse k = some p ∧ p.encC2S = allEncryptionAlgorithms ∧ p.encS2C = allEncryptionAlgorithms ∧
      p.macC2S = allMacAlgorithms ∧ p.macS2C = allMacAlgorithms := by
  have hs := run_safe (role := role) hd hev
  have hlen := hz.lastSent hk
  obtain ⟨p, h1, h2, h3⟩ := lastSent_mem hk
  obtain ⟨a, b, hab⟩ := List.append_of_mem h1
  obtain ⟨i, ser, hser, hp⟩ := (hs.every a (.sent p) (b ++ post) (by rw [hl, hab]; simp)).2 h2
  obtain ⟨p1, p2⟩ := makeKexInit_payload hser
  have hkk : k = ser.since 6 := by rw [← h3, hp, p1]; rfl
  rw [hkk] at hlen ⊢
  rw [p2] at hlen ⊢
  simp only [Spec.kexInitBody, List.map_cons, List.flatten_cons, List.length_append, str_length] at hlen
  have := (C05_kexinit (e.cookie i) (e.proposal role) (hc i)
    (by omega) (by omega) (by omega) (by omega) (by omega) (by omega) (by omega) (by omega) (by omega) (by omega)).2
  exact ⟨_, by rw [Parser.parse, this.1]; rfl, rfl, rfl, rfl, rfl⟩

theorem first_choice : ∀ role dir,
    findNegotiatedAlgorithm role dir allEncryptionAlgorithms allEncryptionAlgorithms allEncryptionAlgorithms =
      ascii "chacha20-poly1305@openssh.com" ∧
    findNegotiatedAlgorithm role dir allMacAlgorithms allMacAlgorithms allMacAlgorithms = ascii "hmac-sha2-256" := by
  intro role dir
  cases role <;> cases dir <;> decide +kernel

/-- A cipher was installed. -/
inductive Fits (enc mac : Bytes) (keys : Keys) : Direction → Entry → Prop
  | out : Fits enc mac keys .outgoing (.installOut enc mac keys)
  | inn : Fits enc mac keys .incoming (.installIn enc mac keys)

/-- The agreement from which an installed cipher comes. -/
theorem install_origin (hd : ∀ x, (e.digest x).length = 32) (hev : ∀ ev ∈ evs, EventOk ev) {dir x pre post enc mac keys}
    (hx : Fits enc mac keys dir x) (hl : ((KxSys.init role).run e evs).kx.log = pre ++ x :: post) :
    Installed e role dir pre enc mac keys ∧
    ∃ a t b, pre = a ++ .agreed t :: b ∧ lastAgreed pre = some t ∧ lastRecv 20 pre = lastRecv 20 a := by
  have hs := run_safe (role := role) hd hev
  cases hx with
  | out =>
    obtain ⟨h1, p1, rfl⟩ := hs.every pre (.installOut enc mac keys) post hl
    refine ⟨h1, ?_⟩
    obtain ⟨p2, t, rfl⟩ := (hs.every p1 (.sent [21]) (.installOut enc mac keys :: post) (by rw [hl]; simp)).1 rfl
    refine ⟨p2, t, [.sent [21]], by simp, ?_, ?_⟩
    · rw [lastAgreed_snoc, lastAgreed_snoc]
    · rw [lastRecv_snoc, lastRecv_snoc]
  | inn =>
    obtain ⟨h1, _⟩ := hs.every pre (.installIn enc mac keys) post hl
    refine ⟨h1, ?_⟩
    obtain ⟨φ, hφ⟩ := hs.phase
    rw [hl] at hφ
    obtain ⟨φ0, φ1, g0, g1⟩ := phaseOf_prefix hφ
    simp only [Phase.next] at g1
    split at g1
    · rename_i hc
      simp only [Bool.and_eq_true, Bool.not_eq_true'] at hc
      obtain ⟨a, t, b, r1, r2, _, r4, _⟩ := since_agreed g0 hc.2 hc.1.1.1.1.2
      exact ⟨a, t, b, r1, r2, r4⟩
    · simp at g1

theorem install_first (hd : ∀ x, (e.digest x).length = 32) (hev : ∀ ev ∈ evs, EventOk ev) {dir x pre post enc mac keys t}
    (hx : Fits enc mac keys dir x) (hl : ((KxSys.init role).run e evs).kx.log = pre ++ x :: post)
    (ht : lastAgreed pre = some t)
    (hk : ∃ p, parseKexInit.parse (if role = .client then t.serverKexinit else t.clientKexinit) = some p ∧
      p.encC2S = allEncryptionAlgorithms ∧ p.encS2C = allEncryptionAlgorithms ∧
      p.macC2S = allMacAlgorithms ∧ p.macS2C = allMacAlgorithms) :
    enc = ascii "chacha20-poly1305@openssh.com" ∧ mac = ascii "hmac-sha2-256" := by
  have hs := run_safe (role := role) hd hev
  obtain ⟨⟨t', _, _, _, k, q, h1, h2, h3, h4⟩, a, t'', b, rfl, r2, r3⟩ := install_origin hd hev hx hl
  rw [ht] at r2; cases r2
  have hg := hs.every a (.agreed t) (b ++ x :: post) (by rw [hl]; simp)
  have hkk : k = if role = .client then t.serverKexinit else t.clientKexinit := by
    rw [r3] at h1
    cases role with
    | client =>
      obtain ⟨pre', sig, rfl, _, _, _, _, _, g, _⟩ := hg
      rw [lastRecv_snoc] at h1
      exact Option.some.inj (h1.symm.trans g)
    | server =>
      obtain ⟨pre', sig, hk, alg, p, rfl, _, _, _, _, _, _, _, g, _⟩ := hg
      rw [show ∀ (l : List Entry) x y, l ++ [x, y] = l ++ [x] ++ [y] by simp, lastRecv_snoc, lastRecv_snoc] at h1
      exact Option.some.inj (h1.symm.trans g)
  obtain ⟨p, k1, k2, k3, k4, k5⟩ := hk
  rw [← hkk, h2] at k1; cases k1
  rw [h3, h4, k2, k3, k4, k5]
  exact first_choice role dir

end Lukko
