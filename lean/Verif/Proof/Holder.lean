import Verif.Spec.Holder
import Verif.Proof.KexExt
import Verif.Proof.ServerRun
import Verif.Prop.Transport
import Verif.Prop.Authentic
/-
  All keys of a connection come from exchanges with the same client.
-/
namespace Lukko
open Spec Model

variable {σ : Type} {x : TransEnv σ}

theorem Fit.safe {role : Role} (hx : EnvOk x) {t : Trans σ} (h : Fit x role t) : Safe x.kex role t.kx.kx := by
  obtain ⟨evs, h1, h2⟩ := h.kx
  rw [h2]
  exact run_safe hx.digest h1

/-- The only one. -/
theorem one_agreed {b : List Entry} (h : b.countP (fun | .agreed _ => true | _ => false) = 1) :
    ∃ b₁ tr b₂, b = b₁ ++ .agreed tr :: b₂ ∧ (∀ u, .agreed u ∉ b₁) ∧ ∀ u, .agreed u ∉ b₂ := by
  have : 0 < b.countP (fun | .agreed _ => true | _ => false) := by omega
  rw [List.countP_pos_iff] at this
  obtain ⟨z, hz1, hz2⟩ := this
  cases z <;> simp only at hz2 <;> first | cases hz2 | skip
  rename_i tr
  obtain ⟨b₁, b₂, rfl⟩ := List.append_of_mem hz1
  rw [List.countP_append, List.countP_cons] at h
  simp only [if_true] at h
  refine ⟨b₁, tr, b₂, rfl, ?_, ?_⟩
  · intro u hu
    have : 0 < b₁.countP (fun | .agreed _ => true | _ => false) := List.countP_pos_iff.mpr ⟨_, hu, rfl⟩
    omega
  · intro u hu
    have : 0 < b₂.countP (fun | .agreed _ => true | _ => false) := List.countP_pos_iff.mpr ⟨_, hu, rfl⟩
    omega

theorem firstAgreed_after {a b : List Entry} {tr : Transcript} (h : ∀ u, .agreed u ∉ a) : firstAgreed (a ++ .agreed tr :: b) = some tr := by
  have h' : firstAgreed a = none := by
    rw [firstAgreed, List.findSome?_eq_none_iff]
    intro z hz
    cases z <;> first | rfl | exact absurd hz (h _)
  rw [firstAgreed, List.findSome?_append]
  change (firstAgreed a).or _ = _
  rw [h']; rfl

theorem epoch_received {b post : List Entry} {enc mac keys} (hb : hasIn b = false) :
    receivedOfEpoch (b ++ .installIn enc mac keys :: post) = received b := by
  rw [receivedOfEpoch, List.takeWhile_append_of_pos, List.takeWhile_cons_of_neg (by simp [Entry.isInstallIn]), List.append_nil]
  intro z hz
  cases z <;> first | rfl | skip
  rename_i e m k
  have : hasIn b = true := List.any_eq_true.mpr ⟨_, hz, rfl⟩
  rw [hb] at this; cases this

/-- The keys are those of an exchange since the last change of keys. -/
theorem Fit.exchange (hx : EnvOk x) {t : Trans σ} (hf : Fit x .server t) {pre enc mac keys post}
    (hl : t.kx.kx.log = pre ++ .installIn enc mac keys :: post) :
    ∃ a b₁ tr b₂, pre = a ++ (b₁ ++ .agreed tr :: b₂) ∧ (a = [] ∨ ∃ a' enc mac k, a = a' ++ [.installIn enc mac k]) ∧
      hasIn (b₁ ++ .agreed tr :: b₂) = false ∧ (∀ u, .agreed u ∉ b₁) ∧ lastAgreed pre = some tr ∧
      ServerAgreed x.kex (a ++ b₁) tr := by
  obtain ⟨evs, h1, h2⟩ := hf.kx
  have hl' := hl
  rw [h2] at hl'
  obtain ⟨a, b, rfl, ha, hb, _, _, hc, _⟩ := C12_incoming_cipher hx.digest h1 hl'
  obtain ⟨b₁, tr, b₂, rfl, h3, h4⟩ := one_agreed hc
  refine ⟨a, b₁, tr, b₂, rfl, ha, hb, h3, ?_, ?_⟩
  · rw [← List.append_assoc, List.append_cons, lastAgreed_later h4, lastAgreed_snoc]
  · exact (hf.safe hx).every (a ++ b₁) (.agreed tr) (b₂ ++ .installIn enc mac keys :: post) (by rw [hl]; simp)

/-- The number of the first packet. -/
theorem Fit.strict (hx : EnvOk x) {t : Trans σ} (hf : Fit x .server t) (hin : hasIn t.kx.kx.log = true) {c : ClientSide}
    (hc : c.Proper) (h0 : firstAgreed t.kx.kx.log = some c.first) : t.kx.kx.inReset = true := by
  obtain ⟨pre₀, e₀, m₀, k₀, post₀, h0', h0''⟩ := installIn_prefix hin
  obtain ⟨a, b₁, tr, b₂, h1, ha, _, h3, _, h5⟩ := hf.exchange hx h0'
  have ha' : a = [] := by
    rcases ha with ha | ⟨a', e, m, k, rfl⟩
    · exact ha
    · rw [h1] at h0''
      simp [hasIn] at h0''
  subst ha'
  rw [List.nil_append] at h1 h5
  have htr : tr = c.first := by
    have := firstAgreed_after (b := b₂ ++ .installIn e₀ m₀ k₀ :: post₀) (tr := tr) h3
    rw [show b₁ ++ Entry.agreed tr :: (b₂ ++ .installIn e₀ m₀ k₀ :: post₀) = t.kx.kx.log from by rw [h0', h1]; simp, h0] at this
    exact (Option.some.inj this).symm
  subst htr
  obtain ⟨pre', sig, hk, alg, p, hb₁, _, _, _, _, _, _, _, h20, _⟩ := h5
  obtain ⟨q, q1, q2, q3⟩ := lastRecv_mem h20
  obtain ⟨evs, he, hk⟩ := hf.kx
  have hin' := hin
  rw [hk] at hin'
  obtain ⟨l, k', p, rest, r1, r2, r3, r4⟩ := reset_known hx.digest he hin'
  obtain ⟨φ, hφ⟩ := (hf.safe hx).phase
  rw [h0'] at hφ
  have hcount := count_kexinit_before hφ
  have hno : pre₀.filterMap Entry.in? = [] := noIn_iff.mp (by
    intro e m k hm
    have : hasIn pre₀ = true := by
      simp only [hasIn, List.any_eq_true]
      exact ⟨_, hm, rfl⟩
    rw [h0''] at this
    cases this)
  rw [hno, List.length_nil, Nat.zero_add] at hcount
  have hq : q ∈ received pre₀ := mem_received (by rw [h1, hb₁]; simp [q1])
  have hkk : k' = c.first.clientKexinit := by
    rw [← hk, h0'] at r1
    simp only [received, List.filterMap_append] at r1
    rcases first_kexinit r1 r2 (q := q) hq q2 hcount with h | h
    · rw [← q3, ← h]; rfl
    · rw [h, q3]
  subst hkk
  rw [← hk] at r4
  rw [r4]
  exact (kexinit_name_iff r3 (by decide)).mp hc.strict

/-- What the client needs to have for the ciphers to be ideal. -/
def IdealFor (x : TransEnv σ) (log : List Entry) (c : ClientSide) : Prop :=
  ∀ pre enc mac keys post tr, log = pre ++ .installIn enc mac keys :: post → lastAgreed pre = some tr →
    c.ephemeral tr.clientEph → AcceptsOnly x.ops (x.makeCipher .incoming enc mac keys) 0 (c.sent enc mac keys)

/-- All exchanges are with the client of the first one. -/
theorem Fit.same_client (hx : EnvOk x) {t : Trans σ} (hf : Fit x .server t) {c : ClientSide}
    (hc : c.Proper) (h0 : firstAgreed t.kx.kx.log = some c.first) (hA : IdealFor x t.kx.kx.log c) (hr : t.kx.kx.inReset = true) :
    ∀ (n : Nat) {pre enc mac keys post tr}, pre.length < n → t.kx.kx.log = pre ++ .installIn enc mac keys :: post →
      lastAgreed pre = some tr → c.ephemeral tr.clientEph := by
  intro n
  induction n with
  | zero => intro pre _ _ _ _ _ h; exact absurd h (Nat.not_lt_zero _)
  | succ n ih =>
    intro pre enc mac keys post tr hn hl ht
    obtain ⟨a, b₁, tr', b₂, h1, ha, hb, h3, h4, h5⟩ := hf.exchange hx hl
    rw [ht] at h4
    cases h4
    rcases ha with rfl | ⟨a', e₁, m₁, k₁, rfl⟩
    · have := firstAgreed_after (b := b₂ ++ .installIn enc mac keys :: post) (tr := tr) h3
      rw [show b₁ ++ Entry.agreed tr :: (b₂ ++ .installIn enc mac keys :: post) = t.kx.kx.log from by rw [hl, h1]; simp, h0] at this
      rw [← Option.some.inj this]
      exact hc.own
    · obtain ⟨pre', sig, hk, alg, p, hb₁, _⟩ := h5
      -- the packet came after the last change of keys
      have hmem : .recv (30 :: ecdhInitBody tr.clientEph) ∈ b₁ := by
        rcases Aux.snoc_cases b₁ with rfl | ⟨b₃, z, rfl⟩
        · have := congrArg List.getLast? hb₁
          simp at this
        · rw [← List.append_assoc, show pre' ++ [Entry.recv (30 :: ecdhInitBody tr.clientEph), .sent (31 :: ecdhReplyBody tr.hostKey tr.serverEph sig)] =
            (pre' ++ [.recv (30 :: ecdhInitBody tr.clientEph)]) ++ [.sent (31 :: ecdhReplyBody tr.hostKey tr.serverEph sig)] from by simp] at hb₁
          have hb₁ := (List.append_inj' hb₁ rfl).1
          rcases Aux.snoc_cases b₃ with rfl | ⟨b₄, z', rfl⟩
          · have := congrArg List.getLast? hb₁
            simp at this
          · rw [← List.append_assoc] at hb₁
            have := (List.append_inj' hb₁ rfl).2
            simp only [List.cons.injEq, and_true] at this
            rw [this]; simp
      have hl₁ : t.kx.kx.log = a' ++ .installIn e₁ m₁ k₁ :: ((b₁ ++ .agreed tr :: b₂) ++ .installIn enc mac keys :: post) := by
        rw [hl, h1]; simp
      obtain ⟨_, _, tr₁, _, _, _, _, _, h7, _⟩ := hf.exchange hx hl₁
      have hown := ih (by rw [h1] at hn; simp at hn; omega) hl₁ h7
      have hep := hf.epoch hx hl₁ (xs := c.sent e₁ m₁ k₁) (by rw [hr]; exact hA _ _ _ _ _ _ hl₁ h7 hown)
      rw [epoch_received hb] at hep
      exact hc.later e₁ m₁ k₁ tr.clientEph (hep.subset (mem_received (List.mem_append_left _ hmem)))

theorem Fit.all_epochs (hx : EnvOk x) {t : Trans σ} (hf : Fit x .server t) {c : ClientSide}
    (hc : c.Proper) (h0 : firstAgreed t.kx.kx.log = some c.first) (hA : IdealFor x t.kx.kx.log c)
    {pre enc mac keys post} (hl : t.kx.kx.log = pre ++ .installIn enc mac keys :: post) :
    receivedOfEpoch post <+: c.sent enc mac keys := by
  have hr := hf.strict hx (by rw [hl]; simp [hasIn]) hc h0
  obtain ⟨_, _, tr, _, _, _, _, _, h7, _⟩ := hf.exchange hx hl
  exact hf.epoch hx hl (by rw [hr]; exact hA _ _ _ _ _ _ hl h7 (hf.same_client hx hc h0 hA hr _ (Nat.lt_succ_self _) hl h7))

theorem received_after {p : Bytes} : ∀ (log : List Entry) (enc mac : Bytes) (keys : Keys), p ∈ received log →
    ∃ pre enc' mac' keys' post, Entry.installIn enc mac keys :: log = pre ++ .installIn enc' mac' keys' :: post ∧ p ∈ receivedOfEpoch post
  | [], _, _, _, h => by cases h
  | z :: log, enc, mac, keys, h => by
    cases hz : z.isInstallIn with
    | true =>
      cases z <;> first | cases hz | skip
      rename_i e m k
      obtain ⟨pre, e', m', k', post, h1, h2⟩ := received_after log e m k (by simpa [received] using h)
      exact ⟨.installIn enc mac keys :: pre, e', m', k', post, by rw [h1]; rfl, h2⟩
    | false =>
      by_cases hl : p ∈ received log
      · obtain ⟨pre, e', m', k', post, h1, h2⟩ := received_after log enc mac keys hl
        cases pre with
        | nil =>
          rw [List.nil_append, List.cons.injEq] at h1
          refine ⟨[], enc, mac, keys, z :: log, rfl, ?_⟩
          rw [receivedOfEpoch, List.takeWhile_cons_of_pos (by rw [hz]; rfl), ← List.singleton_append, received_append, h1.2]
          exact List.mem_append_right _ h2
        | cons y pre =>
          rw [List.cons_append, List.cons.injEq] at h1
          exact ⟨.installIn enc mac keys :: z :: pre, e', m', k', post, by rw [h1.2]; rfl, h2⟩
      · refine ⟨[], enc, mac, keys, z :: log, rfl, ?_⟩
        rw [receivedOfEpoch, List.takeWhile_cons_of_pos (by rw [hz]; rfl), ← List.singleton_append, received_append]
        rw [← List.singleton_append, received_append, List.mem_append] at h
        exact List.mem_append_left _ (h.resolve_right hl)

/-- Each packet received encrypted belongs to some keys. -/
theorem received_in_epoch {p : Bytes} {log : List Entry} (h : p ∈ receivedEncrypted log) :
    ∃ pre enc mac keys post, log = pre ++ .installIn enc mac keys :: post ∧ p ∈ receivedOfEpoch post := by
  have hs : log = log.takeWhile (!·.isInstallIn) ++ log.dropWhile (!·.isInstallIn) := List.takeWhile_append_dropWhile.symm
  rw [receivedEncrypted] at h
  cases hd : log.dropWhile (!·.isInstallIn) with
  | nil => rw [hd] at h; cases h
  | cons z rest =>
    rw [hd] at h hs
    have hz : z.isInstallIn = true := by
      have := List.head?_dropWhile_not (fun z : Entry => !z.isInstallIn) log
      rw [hd] at this
      simpa using this
    cases z <;> first | cases hz | skip
    rename_i e m k
    obtain ⟨pre, e', m', k', post, h1, h2⟩ := received_after rest e m k h
    exact ⟨_ ++ pre, e', m', k', post, by rw [List.append_assoc, ← h1]; exact hs, h2⟩

end Lukko
