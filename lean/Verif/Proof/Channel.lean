import Verif.Proof.TransportRun
import Verif.Proof.Stream
/-
  Packets and the keys they belong to.
-/
namespace Lukko
open Spec Model

variable {σ : Type} {ops : CipherOps σ}

theorem next_some {rx : σ} {seq s p rx' n} (h : next ops (some rx) seq s = .packet p rx' n) : ∃ rx₁, rx' = some rx₁ := by
  simp only [next] at h
  split at h
  · cases h
  · split at h
    · cases h
    · split at h
      · cases h
      · split at h
        · cases h
        · split at h
          · cases h
          · split at h
            · cases h
            · cases h; exact ⟨_, rfl⟩

/-- Nothing but the genuine packets until the keys change. -/
theorem decode_accepts : ∀ (d : List (Nat × Bytes)) {rx : σ} {seq : Nat} {xs : List Bytes} {cs : List (σ × Bool)} {s : Bytes},
    AcceptsOnly ops rx seq xs → (∀ q ∈ d.dropLast, isNewKeys q.2 = false) → d.map some <+: decode ops cs (some rx) seq s →
    d.map (·.2) <+: xs := by
  intro d
  induction d with
  | nil => intros; exact List.nil_prefix
  | cons q d ih =>
    intro rx seq xs cs s hA hq hp
    cases hn : next ops (some rx) seq s with
    | needMore => rw [decode_needMore hn] at hp; simp at hp
    | bad => rw [decode_bad hn] at hp; simp at hp
    | packet p rx' n =>
      obtain ⟨rx₁, rfl⟩ := next_some hn
      have hxs : ∃ xs', xs = p :: xs' ∧ AcceptsOnly ops rx₁ (seq + 1) xs' := by
        cases xs with
        | nil => exact absurd hn (hA s p _ n)
        | cons x xs' =>
          obtain ⟨rfl, h2⟩ := hA s p _ n hn
          exact ⟨xs', rfl, h2 rx₁ rfl⟩
      obtain ⟨xs', rfl, hA'⟩ := hxs
      cases hk : isNewKeys p with
      | false =>
        rw [decode_packet hn hk, List.map_cons, List.cons_prefix_cons] at hp
        obtain ⟨hq0, hp⟩ := hp
        obtain rfl := Option.some.inj hq0
        rw [List.map_cons, List.cons_prefix_cons]
        refine ⟨rfl, ih hA' ?_ hp⟩
        intro z hz
        cases d with
        | nil => cases hz
        | cons b d => exact hq z (by rw [List.dropLast_cons_cons]; exact List.mem_cons_of_mem _ hz)
      | true =>
        rw [decode_newkeys hn hk, List.map_cons, List.cons_prefix_cons] at hp
        obtain ⟨hq0, hp⟩ := hp
        obtain rfl := Option.some.inj hq0
        cases d with
        | nil => simp
        | cons b d =>
          have := hq (seq, p) (by rw [List.dropLast_cons_cons]; exact List.mem_cons_self ..)
          rw [hk] at this; cases this

/-- What comes after the `k`-th change of keys. -/
theorem decode_after : ∀ (a : List (Nat × Bytes)) {k : Nat} {d : List (Nat × Bytes)} {c : Option σ} {seq : Nat}
    {cs : List (σ × Bool)} {s : Bytes} {rx : σ} {r : Bool},
    (∃ q a', a = a' ++ [q] ∧ isNewKeys q.2 = true) → a.countP (fun q => isNewKeys q.2) = k + 1 → cs[k]? = some (rx, r) →
    (∀ z ∈ cs, z.2 = r) → (a ++ d).map some <+: decode ops cs c seq s →
    ∃ s', d.map some <+: decode ops (cs.drop (k + 1)) (some rx) (if r then 0 else seq + a.length) s' := by
  intro a
  induction a with
  | nil => intro k d c seq cs s rx r h; obtain ⟨q, a', h, -⟩ := h; simp at h
  | cons q a ih =>
    intro k d c seq cs s rx r hlast hcount hcs hr hp
    cases hn : next ops c seq s with
    | needMore => rw [decode_needMore hn] at hp; simp at hp
    | bad => rw [decode_bad hn] at hp; simp at hp
    | packet p c' n =>
      have hlast' : a ≠ [] → ∃ q a', a = a' ++ [q] ∧ isNewKeys q.2 = true := by
        intro ha
        obtain ⟨q', a', h1, h2⟩ := hlast
        rcases Aux.snoc_cases a with rfl | ⟨b, z, rfl⟩
        · exact absurd rfl ha
        · refine ⟨z, b, rfl, ?_⟩
          rw [← List.cons_append] at h1
          have := (List.append_inj' h1 rfl).2
          simp only [List.cons.injEq, and_true] at this
          rw [this]; exact h2
      cases hk : isNewKeys p with
      | false =>
        rw [decode_packet hn hk, List.cons_append, List.map_cons, List.cons_prefix_cons] at hp
        obtain ⟨hq0, hp⟩ := hp
        obtain rfl := Option.some.inj hq0
        have hc' : a.countP (fun q => isNewKeys q.2) = k + 1 := by
          rw [List.countP_cons] at hcount
          simpa [hk] using hcount
        have ha : a ≠ [] := by rintro rfl; simp at hc'
        obtain ⟨s', h⟩ := ih (hlast' ha) hc' hcs hr hp
        refine ⟨s', ?_⟩
        rw [show seq + ((seq, p) :: a).length = seq + 1 + a.length by simp; omega]
        exact h
      | true =>
        rw [decode_newkeys hn hk, List.cons_append, List.map_cons, List.cons_prefix_cons] at hp
        obtain ⟨hq0, hp⟩ := hp
        obtain rfl := Option.some.inj hq0
        rw [List.countP_cons] at hcount
        simp only [hk, if_true, Nat.add_right_cancel_iff] at hcount
        cases cs with
        | nil => simp at hcs
        | cons z cs =>
          obtain ⟨rx₀, r₀⟩ := z
          obtain rfl : r₀ = r := hr (rx₀, r₀) (List.mem_cons_self ..)
          simp only [resume] at hp
          cases k with
          | zero =>
            have ha : a = [] := by
              rcases Aux.snoc_cases a with h | ⟨b, z, h⟩
              · exact h
              · obtain ⟨q', a', h1, h2⟩ := hlast' (by rw [h]; simp)
                rw [List.countP_eq_zero] at hcount
                exact absurd h2 (hcount q' (by rw [h1]; simp))
            subst ha
            simp only [List.getElem?_cons_zero, Option.some.injEq, Prod.mk.injEq] at hcs
            obtain ⟨rfl, -⟩ := hcs
            exact ⟨s.drop n, by simpa using hp⟩
          | succ k =>
            have ha : a ≠ [] := by rintro rfl; simp at hcount
            rw [List.getElem?_cons_succ] at hcs
            obtain ⟨s', h⟩ := ih (hlast' ha) hcount hcs (fun z hz => hr z (List.mem_cons_of_mem _ hz)) hp
            refine ⟨s', ?_⟩
            have : (if r₀ = true then 0 else (if r₀ = true then 0 else seq + 1) + a.length) =
                (if r₀ = true then 0 else seq + ((seq, p) :: a).length) := by
              cases r₀ <;> simp <;> omega
            rw [this] at h
            simpa using h

/-- Each NEWKEYS belongs to one new cipher. -/
theorem count_newkeys : ∀ {log : List Entry} {φ : Phase}, phaseOf log = some φ → φ.refused = false →
    (received log).countP isNewKeys = (log.filterMap Entry.in?).length + φ.newRecv.toNat := by
  intro log
  induction log using Aux.snoc_ind with
  | h0 => intro φ h _; cases h; rfl
  | h1 log z ih =>
    intro φ h hr
    rw [phaseOf_snoc] at h
    cases hψ : phaseOf log with
    | none => rw [hψ] at h; cases h
    | some ψ =>
      rw [hψ, Option.bind_some] at h
      rw [received_append, List.countP_append, List.filterMap_append, List.length_append]
      have keep : ψ.refused = false → ψ.newRecv = φ.newRecv → (received [z]).countP isNewKeys = 0 → ([z].filterMap Entry.in?).length = 0 →
          (received log).countP isNewKeys + (received [z]).countP isNewKeys =
            (log.filterMap Entry.in?).length + ([z].filterMap Entry.in?).length + φ.newRecv.toNat := by
        intro h1 h2 h3 h4
        rw [ih hψ h1, h2, h3, h4]; omega
      cases z with
      | sent p =>
        simp only [Phase.next] at h
        split at h
        · cases h; cases hr
        · split at h
          · cases h
          · rename_i hrf
            have hrf' : ψ.refused = false := by simpa using hrf
            split at h
            · cases h
            · split at h
              · split at h <;> cases h
                exact keep hrf' rfl rfl rfl
              · split at h
                · split at h <;> cases h
                  exact keep hrf' rfl rfl rfl
                · cases h; exact keep hrf' rfl rfl rfl
      | recv p =>
        simp only [Phase.next] at h
        split at h
        · cases h
        · rename_i hc
          simp only [Bool.or_eq_true, not_or, Bool.not_eq_true] at hc
          have h21 : ∀ b, isNewKeys p = b → (received [.recv p]).countP isNewKeys = b.toNat := by
            intro b hb
            simp only [received, List.filterMap_cons, List.filterMap_nil, List.countP_cons, List.countP_nil, hb]
            cases b <;> rfl
          split at h
          · rename_i h20
            have : isNewKeys p = false := by
              simp only [isMsg, beq_iff_eq] at h20
              simp [isNewKeys, h20]
            split at h <;> cases h
            · exact keep hc.1.1 rfl (h21 _ this) rfl
            · cases hr
          · split at h
            · rename_i h2
              have : isNewKeys p = true := h2
              split at h <;> cases h
              · rw [ih hψ hc.1.1, h21 _ this, hc.2]; rfl
              · cases hr
            · rename_i h2
              cases h
              have : isNewKeys p = false := Bool.eq_false_iff.mpr h2
              exact keep hc.1.1 rfl (h21 _ this) rfl
      | agreed t =>
        simp only [Phase.next] at h
        split at h <;> cases h
        exact keep hr rfl rfl rfl
      | installOut e m k =>
        simp only [Phase.next] at h
        split at h <;> cases h
        exact keep hr rfl rfl rfl
      | installIn e m k =>
        simp only [Phase.next] at h
        split at h
        · rename_i hc
          simp only [Bool.and_eq_true, Bool.not_eq_true'] at hc
          cases h
          rw [ih hψ hc.2, hc.1.2]; rfl
        · cases h
      | version v => cases h; exact keep hr rfl rfl rfl
      | encrypted => cases h; exact keep hr rfl rfl rfl
      | blocked => cases h; exact keep hr rfl rfl rfl
      | unblocked => cases h; exact keep hr rfl rfl rfl

theorem count_before_in {pre post : List Entry} {e m k} {φ : Phase} (h : phaseOf (pre ++ .installIn e m k :: post) = some φ) :
    (received pre).countP isNewKeys = (pre.filterMap Entry.in?).length + 1 := by
  rw [phaseOf, List.foldlM_append] at h
  cases hψ : pre.foldlM Phase.next {} with
  | none => rw [hψ] at h; cases h
  | some ψ =>
    rw [hψ] at h
    simp only [bind, Option.bind, List.foldlM_cons, Phase.next] at h
    split at h
    · cases h
    · rename_i _ _ h'
      split at h'
      · rename_i hc
        simp only [Bool.and_eq_true, Bool.not_eq_true'] at hc
        have := count_newkeys (log := pre) hψ hc.2
        rw [this, hc.1.2]; rfl
      · cases h'

/-- Nothing is received between NEWKEYS (or the end) and the new cipher. -/
theorem received_stuck : ∀ {l : List Entry} {φ ψ : Phase}, (φ.newRecv = true ∨ φ.refused = true) → l.foldlM Phase.next φ = some ψ →
    l.filterMap Entry.in? = [] → received l = [] := by
  intro l
  induction l with
  | nil => intros; rfl
  | cons z l ih =>
    intro φ ψ hs h hno
    rw [List.foldlM_cons] at h
    cases hz : φ.next z with
    | none => rw [hz] at h; cases h
    | some φ' =>
      rw [hz] at h
      have hno' : l.filterMap Entry.in? = [] := by
        rw [List.filterMap_cons] at hno
        split at hno
        · exact hno
        · cases hno
      have go : (φ'.newRecv = true ∨ φ'.refused = true) → received l = [] := fun hs' => ih hs' h hno'
      cases z with
      | recv p =>
        simp only [Phase.next] at hz
        rw [if_pos (by rcases hs with hs | hs <;> simp [hs])] at hz
        cases hz
      | installIn e m k => simp [Entry.in?] at hno
      | sent p =>
        refine go ?_
        simp only [Phase.next] at hz
        split at hz
        · cases hz; exact .inr rfl
        · split at hz
          · cases hz
          · rename_i hr
            split at hz
            · cases hz
            · rename_i hc
              simp only [Bool.or_eq_true, not_or, Bool.not_eq_true] at hc hr
              rcases hs with hs | hs
              · rw [hs] at hc; cases hc.2
              · rw [hs] at hr; cases hr
      | agreed t =>
        refine go ?_
        simp only [Phase.next] at hz
        split at hz <;> cases hz
        exact hs
      | installOut e m k =>
        refine go ?_
        simp only [Phase.next] at hz
        split at hz <;> cases hz
        exact hs
      | version v => cases hz; exact go hs
      | encrypted => cases hz; exact go hs
      | blocked => cases hz; exact go hs
      | unblocked => cases hz; exact go hs

/-- With given keys, NEWKEYS is the last packet which is received. -/
theorem newkeys_last : ∀ {b : List Entry} {φ ψ : Phase}, b.foldlM Phase.next φ = some ψ → b.filterMap Entry.in? = [] →
    ∀ q ∈ (received b).dropLast, isNewKeys q = false := by
  intro b
  induction b with
  | nil => intro φ ψ _ _ q hq; cases hq
  | cons z b ih =>
    intro φ ψ h hno q hq
    rw [List.foldlM_cons] at h
    cases hz : φ.next z with
    | none => rw [hz] at h; cases h
    | some φ' =>
      rw [hz] at h
      have hno' : b.filterMap Entry.in? = [] := by
        rw [List.filterMap_cons] at hno
        split at hno
        · exact hno
        · cases hno
      have go : q ∈ (received b).dropLast → isNewKeys q = false := ih h hno' q
      cases z with
      | recv p =>
        have hr : received (.recv p :: b) = p :: received b := rfl
        rw [hr] at hq
        cases hb : received b with
        | nil => rw [hb] at hq; cases hq
        | cons r rs =>
          rw [hb, List.dropLast_cons_cons] at hq
          rw [hb] at go
          rcases List.mem_cons.mp hq with rfl | hq
          · cases hk : isNewKeys q with
            | false => rfl
            | true =>
              exfalso
              have hst : φ'.newRecv = true ∨ φ'.refused = true := by
                simp only [Phase.next] at hz
                have h21 : isMsg 21 q = true := hk
                have h20 : isMsg 20 q = false := by
                  simp only [isMsg, beq_iff_eq] at h21
                  simp [isMsg, h21]
                split at hz
                · cases hz
                · rw [h20] at hz
                  simp only [Bool.false_eq_true, if_false] at hz
                  split at hz <;> cases hz
                  · exact .inl rfl
                  · exact .inr rfl
              have := received_stuck hst h hno'
              rw [hb] at this; cases this
          · exact go hq
      | installIn e m k => simp [Entry.in?] at hno
      | sent p => exact go hq
      | agreed t => exact go hq
      | installOut e m k => exact go hq
      | version v => exact go hq
      | encrypted => exact go hq
      | blocked => exact go hq
      | unblocked => exact go hq

theorem takeWhile_noIn (l : List Entry) : (l.takeWhile (!·.isInstallIn)).filterMap Entry.in? = [] := by
  rw [List.filterMap_eq_nil_iff]
  intro z hz
  have := List.all_takeWhile (p := fun z : Entry => !z.isInstallIn) (l := l)
  have := List.all_eq_true.mp this z hz
  cases z <;> first | rfl | simp [Entry.isInstallIn] at this

variable {x : TransEnv σ} {role : Role}

/-- What a connection receives with given keys. -/
theorem Fit.epoch (hx : EnvOk x) {t : Trans σ} (h : Fit x role t) {pre enc mac keys post}
    (hl : t.kx.kx.log = pre ++ .installIn enc mac keys :: post) {xs : List Bytes}
    (hA : AcceptsOnly x.ops (x.makeCipher .incoming enc mac keys) (if t.kx.kx.inReset then 0 else (received pre).length) xs) :
    receivedOfEpoch post <+: xs := by
  have hsafe : Safe x.kex role t.kx.kx := by
    have hinv := h.inv hx
    unfold SysInv at hinv
    split at hinv
    · obtain ⟨φ, hinv⟩ := hinv; exact hinv.safe
    · exact hinv.1
  obtain ⟨φ, hph⟩ := hsafe.phase
  obtain ⟨-, pre', body, hpre⟩ := hsafe.every pre (.installIn enc mac keys) post hl
  rw [hl] at hph
  have hcount := count_before_in hph
  have hsplit : post = post.takeWhile (!·.isInstallIn) ++ post.dropWhile (!·.isInstallIn) := (List.takeWhile_append_dropWhile).symm
  have hphb : ∃ φ₁ ψ, (post.takeWhile (!·.isInstallIn)).foldlM Phase.next φ₁ = some ψ := by
    rw [phaseOf, List.foldlM_append] at hph
    cases h1 : pre.foldlM Phase.next {} with
    | none => rw [h1] at hph; cases hph
    | some φ₀ =>
      rw [h1] at hph
      change (Entry.installIn enc mac keys :: post).foldlM Phase.next φ₀ = some φ at hph
      rw [List.foldlM_cons] at hph
      cases h2 : φ₀.next (.installIn enc mac keys) with
      | none => rw [h2] at hph; cases hph
      | some φ₁ =>
        rw [h2] at hph
        change post.foldlM Phase.next φ₁ = some φ at hph
        rw [hsplit, List.foldlM_append] at hph
        cases h3 : (post.takeWhile (!·.isInstallIn)).foldlM Phase.next φ₁ with
        | none => rw [h3] at hph; cases hph
        | some ψ => exact ⟨φ₁, ψ, h3⟩
  obtain ⟨φ₁, ψ, hphb⟩ := hphb
  have hlast := newkeys_last hphb (takeWhile_noIn post)
  -- the packets
  have hrec : received t.kx.kx.log = received pre ++ (receivedOfEpoch post ++ received (post.dropWhile (!·.isInstallIn))) := by
    rw [hl, received_append]
    congr 1
    change received post = _
    rw [receivedOfEpoch, ← received_append, ← hsplit]
  have hdel : ∃ a d rest, t.inp.delivered = a ++ (d ++ rest) ∧ a.map (·.2) = received pre ∧ d.map (·.2) = receivedOfEpoch post := by
    have := h.recv
    rw [hrec] at this
    obtain ⟨a, b, h1, h2, h3⟩ := List.map_eq_append_iff.mp this
    obtain ⟨d, rest, h4, h5, -⟩ := List.map_eq_append_iff.mp h3
    exact ⟨a, d, rest, by rw [h1, h4], h2, h5⟩
  obtain ⟨a, d, rest, hdel, ha, hd⟩ := hdel
  have hdec := inv_delivered_ext h.inp.inv [] []
  rw [List.append_nil, List.append_nil, hdel, ← List.append_assoc, List.map_append] at hdec
  have hdec' : (a ++ d).map some <+: decode x.ops t.inp.installs none 0 t.inp.fed := (List.prefix_append _ _).trans hdec
  have hk : t.inp.installs[(pre.filterMap Entry.in?).length]? = some (x.makeCipher .incoming enc mac keys, t.kx.kx.inReset) := by
    rw [h.installs, hl, List.filterMap_append, List.map_append, List.getElem?_append_right (by simp)]
    simp [Entry.in?]
  have g1 : ∃ q a', a = a' ++ [q] ∧ isNewKeys q.2 = true := by
    have hrp : received pre = received pre' ++ [21 :: body] := by rw [hpre, received_append]; rfl
    rw [hrp] at ha
    obtain ⟨a1, a2, h1, -, h3⟩ := List.map_eq_append_iff.mp ha
    obtain ⟨q, rfl, hq⟩ := List.map_eq_singleton_iff.mp h3
    exact ⟨q, a1, h1, by rw [hq]; rfl⟩
  have g2 : a.countP (fun q => isNewKeys q.2) = (pre.filterMap Entry.in?).length + 1 := by
    have : (a.map (·.2)).countP isNewKeys = (pre.filterMap Entry.in?).length + 1 := by rw [ha, hcount]
    rw [List.countP_map] at this
    exact this
  have g3 : ∀ z ∈ t.inp.installs, z.2 = t.kx.kx.inReset := by
    intro z hz
    rw [h.installs, List.mem_map] at hz
    obtain ⟨⟨e, m, k⟩, -, rfl⟩ := hz
    rfl
  obtain ⟨s', hs'⟩ := decode_after a g1 g2 hk g3 hdec'
  rw [← hd]
  refine decode_accepts d hA ?_ (cs := t.inp.installs.drop ((pre.filterMap Entry.in?).length + 1)) (s := s') ?_
  · intro q hq
    have : q.2 ∈ (receivedOfEpoch post).dropLast := by
      rw [← hd, ← List.map_dropLast]
      exact List.mem_map_of_mem hq
    exact hlast q.2 this
  · have hlen : a.length = (received pre).length := by rw [← ha, List.length_map]
    rw [Nat.zero_add, hlen] at hs'
    exact hs'

end Lukko
