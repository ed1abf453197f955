import Verif.Proof.TransportFit
import Verif.Prop.KexKeys
/-
  Every event preserves the invariant of a connection, and no assertion fails.
-/
namespace Lukko
open Spec Model

variable {σ : Type} {x : TransEnv σ} {role : Role}

theorem hasOut_iff {l : List Entry} : hasOut l = false ↔ l.filterMap Entry.out? = [] := by
  induction l with
  | nil => simp [hasOut]
  | cons a l ih =>
    simp only [hasOut, List.any_cons, Bool.or_eq_false_iff] at ih ⊢
    cases a <;> simp [Entry.out?, ih]

theorem hasIn_iff {l : List Entry} : hasIn l = false ↔ l.filterMap Entry.in? = [] := by
  induction l with
  | nil => simp [hasIn]
  | cons a l ih =>
    simp only [hasIn, List.any_cons, Bool.or_eq_false_iff] at ih ⊢
    cases a <;> simp [Entry.in?, ih]

theorem noIn_iff {l : List Entry} : (∀ e m k, .installIn e m k ∉ l) ↔ l.filterMap Entry.in? = [] := by
  constructor
  · intro h
    rw [List.filterMap_eq_nil_iff]
    intro z hz
    cases z <;> first | rfl | exact absurd hz (h _ _ _)
  · intro h e m k hm
    exact absurd (List.filterMap_eq_nil_iff.mp h _ hm) (by simp [Entry.in?])

theorem lastCipher_none {make : Bytes → Bytes → Keys → σ} {ps : List Outgoing} (h : ps.filterMap Outgoing.keys? = []) :
    lastCipher make ps = none := by
  induction ps using Aux.snoc_ind with
  | h0 => rfl
  | h1 ps p ih =>
    simp only [List.filterMap_append, List.append_eq_nil_iff] at h
    cases p with
    | packet p => rw [lastCipher_packet]; exact ih h.1
    | keys enc mac k r => simp [Outgoing.keys?] at h

/-- Between two events there are no ciphers unless an exchange is at or behind its NEWKEYS. -/
theorem calmed_run {e : KexEnv} {evs : List KxEvent} (hd : ∀ m, (e.digest m).length = 32) (hev : ∀ ev ∈ evs, EventOk ev)
    (hs : ((KxSys.init role).run e evs).stop = none) : Calmed ((KxSys.init role).run e evs).kx := by
  obtain ⟨φ, h⟩ := run_rest hd hev hs
  have hr := run_reset hd hev hs
  have h12 : ((KxSys.init role).run e evs).kx.inReset = ((KxSys.init role).run e evs).kx.peerWantsStrict ∧
      ((KxSys.init role).run e evs).kx.outReset = ((KxSys.init role).run e evs).kx.peerWantsStrict := by
    rcases hr with ⟨-, a, b, c⟩ | ⟨l, k, p, rest, -, -, -, -, b, c⟩
    · rw [a, b, c]; exact ⟨rfl, rfl⟩
    · exact ⟨b, c⟩
  refine ⟨h12.1, h12.2, ?_⟩
  intro hn hi
  have hout : ((KxSys.init role).run e evs).kx.outputEncrypted = false := by
    cases ho : ((KxSys.init role).run e evs).kx.outputEncrypted with
    | false => rfl
    | true =>
      have hi' : ((KxSys.init role).run e evs).kx.inputEncrypted = false := by
        rw [Kx.isEncrypted, ho, Bool.and_true] at hi; exact hi
      obtain ⟨a, b, hseg⟩ := segment_of_phase _ h.phase
      have hos : φ.outSet = false := by rw [h.outNew, ← h.fNewSent, hn]
      have hc := hseg.outSet
      rw [hos] at hc
      rw [h.outEnc, hseg.split] at ho
      rw [h.inEnc, hseg.split] at hi'
      rcases hseg.fresh with rfl | ⟨a', enc, mac, k, rfl⟩
      · rw [List.nil_append, hasOut] at ho
        rw [Bool.toNat_false, List.countP_eq_zero] at hc
        obtain ⟨z, hz, hz'⟩ := List.any_eq_true.mp ho
        exact absurd hz' (hc z hz)
      · simp [hasIn] at hi'
  refine ⟨?_, hout⟩
  cases hie : ((KxSys.init role).run e evs).kx.inputEncrypted with
  | false => rfl
  | true => have := h.inOut hie; rw [hout] at this; cases this

/-- What an event adds. -/
structure Adds (y y' : KxSys) (ext : List Entry) : Prop where
  log : y'.kx.log = y.kx.log ++ ext
  reset : (y'.kx.inReset = y.kx.inReset ∧ y'.kx.outReset = y.kx.outReset) ∨
    (y'.kx.inReset = true ∧ y'.kx.outReset = true ∧ y.kx.inputEncrypted = false ∧ y.kx.outputEncrypted = false)

theorem postsFrom_append (r : Bool) (a b : List Entry) : postsFrom r (a ++ b) = postsFrom r a ++ postsFrom r b := by
  simp [postsFrom]

theorem postsFrom_noOut {l : List Entry} (h : l.filterMap Entry.out? = []) (r r' : Bool) : postsFrom r l = postsFrom r' l := by
  induction l with
  | nil => rfl
  | cons a l ih =>
    cases a <;> simp_all [postsFrom, Entry.out?, Entry.post?, List.filterMap_cons]

theorem postsFrom_keys (r : Bool) (l : List Entry) :
    (postsFrom r l).filterMap Outgoing.keys? = (l.filterMap Entry.out?).map fun (enc, mac, k) => (enc, mac, k, r) := by
  induction l with
  | nil => rfl
  | cons a l ih =>
    simp only [postsFrom] at ih ⊢
    cases a <;> simp [Entry.post?, Entry.out?, Outgoing.keys?, List.filterMap_cons, ih]

theorem Fit.inv (hx : EnvOk x) {t : Trans σ} (h : Fit x role t) : SysInv x.kex role t.kx := by
  obtain ⟨evs, h1, h2⟩ := h.kx
  rw [h2]
  exact run_inv hx.digest h1

/-- While there is no cipher, there are no keys. -/
theorem Fit.none_yet (hx : EnvOk x) {t : Trans σ} (h : Fit x role t) (hs : t.kx.stop = none) :
    (t.kx.kx.inputEncrypted = false → t.kx.kx.log.filterMap Entry.in? = []) ∧
    (t.kx.kx.outputEncrypted = false → t.kx.kx.log.filterMap Entry.out? = []) := by
  have hi := h.inv hx
  unfold SysInv at hi
  rw [hs] at hi
  obtain ⟨φ, hi⟩ := hi
  rw [hi.inEnc, hi.outEnc]
  exact ⟨hasIn_iff.mp, hasOut_iff.mp⟩

theorem Fit.assemble (hx : EnvOk x) {t : Trans σ} (h : Fit x role t) {ev : KxEvent} (hev : EventOk ev) {ext : List Entry}
    (ha : Adds t.kx (t.kx.step x.kex ev) ext) (hs : t.kx.stop = none ∨ t.kx.step x.kex ev = t.kx)
    {t' : Trans σ} (hkx : t'.kx = t.kx.step x.kex ev)
    (hi : InReach x.ops t'.inp) (hd : t'.inp.delivered.map (·.2) = received t.kx.kx.log ++ received ext)
    (hauto : t'.inp.input.autoResetSeq = (t.kx.step x.kex ev).kx.inReset)
    (hins : t'.inp.installs = t.inp.installs ++ (ext.filterMap Entry.in?).map fun (enc, mac, k) =>
      (x.makeCipher .incoming enc mac k, (t.kx.step x.kex ev).kx.inReset))
    (hp : t'.posts = t.posts ++ postsFrom (t.kx.step x.kex ev).kx.outReset ext)
    (ho : OutPart x t'.out t'.posts t'.rushed (t.kx.step x.kex ev).kx.outReset)
    (hrest : t'.live = true → t'.inp.handling = none) : Fit x role t' := by
  obtain ⟨evs, h1, h2⟩ := h.kx
  have hkeep : (t.kx.step x.kex ev).kx.inReset = t.kx.kx.inReset ∧ (t.kx.step x.kex ev).kx.outReset = t.kx.kx.outReset ∨
      t.kx.kx.log.filterMap Entry.in? = [] ∧ t.kx.kx.log.filterMap Entry.out? = [] := by
    rcases ha.reset with hr | ⟨-, -, hr1, hr2⟩
    · exact .inl hr
    · rcases hs with hs | hs
      · exact .inr ⟨(h.none_yet hx hs).1 hr1, (h.none_yet hx hs).2 hr2⟩
      · rw [hs]; exact .inl ⟨rfl, rfl⟩
  constructor
  · refine ⟨evs ++ [ev], ?_, ?_⟩
    · intro z hz
      rcases List.mem_append.mp hz with hz | hz
      · exact h1 z hz
      · rw [List.mem_singleton.mp hz]; exact hev
    · rw [run_snoc, ← h2]; exact hkx
  · exact hi
  · rw [hkx]; exact ho
  · rw [hkx, ha.log, received_append]; exact hd
  · rw [hkx]; exact hauto
  · rw [hkx]
    rcases ha.reset with ⟨a, b⟩ | ⟨a, b, -⟩
    · rw [a, b]; exact h.same
    · rw [a, b]
  · rw [hkx, ha.log, hins, h.installs, List.filterMap_append, List.map_append]
    rcases hkeep with ⟨a, -⟩ | ⟨a, -⟩
    · rw [a]
    · rw [a]; rfl
  · rw [hkx, ha.log, hp, postsFrom_append]
    refine List.Sublist.append ?_ (List.Sublist.refl _)
    have := h.posts
    rcases hkeep with ⟨-, b⟩ | ⟨-, b⟩
    · rw [b]; exact this
    · rw [postsFrom_noOut b _ t.kx.kx.outReset]; exact this
  · rw [hkx, ha.log, hp, List.filterMap_append, postsFrom_keys, h.keys, List.filterMap_append, List.map_append]
    rcases hkeep with ⟨-, b⟩ | ⟨-, b⟩
    · rw [b]
    · rw [b]; rfl
  · exact hrest

theorem autoReset_ok (hx : EnvOk x) {t : Trans σ} {r : Bool} (hi : InReach x.ops t.inp) (ho : OutPart x t.out t.posts t.rushed r) (on : Bool)
    (hc : on = true → lastCipher (x.makeCipher .outgoing) t.posts = none ∨ r = true) :
    ∃ i o, t.autoReset x on = some { t with inp := i, out := o } ∧ InReach x.ops i ∧ OutPart x o t.posts t.rushed (r || on) ∧
      i.delivered = t.inp.delivered ∧ i.installs = t.inp.installs ∧ i.handling = t.inp.handling ∧
      i.installed = t.inp.installed ∧ i.input.autoResetSeq = (t.inp.input.autoResetSeq || on) := by
  cases on with
  | false => exact ⟨t.inp, t.out, rfl, hi, by simpa using ho, rfl, rfl, rfl, rfl, by simp⟩
  | true =>
    obtain ⟨i, h1, h2⟩ := hi.step hx.sane .autoResetSeq
    obtain ⟨o, h3, h4⟩ := ho.reset hx (hc rfl)
    refine ⟨i, o, ?_, h2, by simpa using h4, ?_⟩
    · simp only [Trans.autoReset, cond_true, Trans.input, h1, Option.map_some, Option.bind_some, Trans.output, h3]
    · cases h1
      exact ⟨rfl, rfl, rfl, rfl, by simp [Input.setAutoResetSeq]⟩

/-- The flags after an event. -/
theorem Fit.reset_ok (hx : EnvOk x) {t : Trans σ} (h : Fit x role t) {y : KxSys} {ext : List Entry} (ha : Adds t.kx y ext)
    (hs : t.kx.stop = none ∨ y = t.kx) :
    (y.kx.inReset = true → lastCipher (x.makeCipher .outgoing) t.posts = none ∨ t.kx.kx.outReset = true) ∧
    (t.kx.kx.outReset || y.kx.inReset) = y.kx.outReset ∧ (t.kx.kx.inReset || y.kx.inReset) = y.kx.inReset := by
  rcases ha.reset with ⟨a, b⟩ | ⟨a, b, c, d⟩
  · rw [a, b, h.same]
    exact ⟨.inr, by simp, by simp⟩
  · rw [a, b]
    refine ⟨fun _ => ?_, by simp, by simp⟩
    rcases hs with hs | hs
    · left
      apply lastCipher_none
      rw [h.keys, (h.none_yet hx hs).2 d]; rfl
    · right
      rw [hs] at b; exact b

theorem not_assert (hx : EnvOk x) {t : Trans σ} (h : Fit x role t) {ev : KxEvent} (hev : EventOk ev) :
    (t.kx.step x.kex ev).stop ≠ some .assertFailed := by
  have := (h.inv hx).step hx.digest hev
  unfold SysInv at this
  intro hc
  rw [hc] at this
  exact this.2 rfl

theorem stop_back {e : KexEnv} {y : KxSys} {ev : KxEvent} (h : (y.step e ev).stop = none) : y.stop = none := by
  cases hs : y.stop with
  | none => rfl
  | some z => rw [step_stopped (by rw [hs]; simp), hs] at h; cases h

/-- Events other than packets. -/
theorem Fit.other (hx : EnvOk x) {t : Trans σ} (h : Fit x role t) {ev : KxEvent} (hn : ∀ raw claim, ev ≠ .packet raw claim) :
    ∃ t', t.absorb x ev = some t' ∧ Fit x role t' ∧ t'.closed = t.closed := by
  have hev : EventOk ev := by cases ev <;> first | trivial | exact absurd rfl (hn _ _)
  obtain ⟨⟨ext, hl, hr⟩, h1, h2⟩ := other_still (e := x.kex) (y := t.kx) hn
  have ha : Adds t.kx (t.kx.step x.kex ev) ext := ⟨hl, .inl ⟨h1, h2⟩⟩
  have hs : t.kx.stop = none ∨ t.kx.step x.kex ev = t.kx := by
    cases hs : t.kx.stop with
    | none => exact .inl rfl
    | some z => exact .inr (step_stopped (by rw [hs]; simp))
  have hno : ∀ e m k, .installIn e m k ∉ ext := by
    intro e m k hm
    obtain ⟨a, b, rfl⟩ := List.append_of_mem hm
    have hinv := (h.inv hx).step hx.digest hev
    have hsafe : Safe x.kex role (t.kx.step x.kex ev).kx := by
      unfold SysInv at hinv
      split at hinv
      · obtain ⟨φ, hinv⟩ := hinv; exact hinv.safe
      · exact hinv.1
    obtain ⟨-, pre', body, hpre⟩ := hsafe.every (t.kx.kx.log ++ a) (.installIn e m k) b (by rw [hl]; simp)
    rcases Aux.snoc_cases a with rfl | ⟨a', z, rfl⟩
    · rw [List.append_nil] at hpre
      rcases hs with hs | hs
      · have hi := h.inv hx
        unfold SysInv at hi
        rw [hs] at hi
        obtain ⟨φ, hi⟩ := hi
        have hp := hi.phase
        rw [hpre, phaseOf_snoc] at hp
        cases hq : phaseOf pre' with
        | none => rw [hq] at hp; cases hp
        | some ψ =>
          rw [hq, Option.bind_some] at hp
          simp only [Phase.next, isMsg, List.head?_cons] at hp
          have hnr := hi.noNewRecv
          have hal := hi.alive
          split at hp
          · cases hp
          have e1 : (some (21 : UInt8) == some 20) = false := by decide
          have e2 : (some (21 : UInt8) == some 21) = true := by decide
          simp only [e1, e2, Bool.false_eq_true, if_false, if_true] at hp
          split at hp
          · cases hp; cases hnr
          · cases hp; cases hal
      · rw [hs] at hl
        have := congrArg List.length hl
        simp at this
    · have : z = .recv (21 :: body) := by
        rw [← List.append_assoc] at hpre
        have := (List.append_inj' hpre rfl).2
        simpa using this
      subst this
      exact hr (21 :: body) (by simp)
  obtain ⟨hc, hro, hri⟩ := h.reset_ok hx ha hs
  obtain ⟨i, o, e1, e2, e3, e4, e5, e6, e7, e8⟩ := autoReset_ok hx h.inp h.out _ hc
  rw [hro] at e3
  obtain ⟨o', q, f1, f2⟩ := effects_out hx hno (t := { t with inp := i, out := o, kx := t.kx.step x.kex ev }) e3
  refine ⟨{ t with inp := i, out := o', kx := t.kx.step x.kex ev, posts := t.posts ++ postsFrom (t.kx.step x.kex ev).kx.outReset ext, rushed := q }, ?_, ?_, rfl⟩
  · simp only [Trans.absorb, if_neg (not_assert hx h hev), e1, Option.bind_some]
    rw [hl, List.drop_left]
    exact f1
  · refine h.assemble hx hev ha hs rfl e2 ?_ ?_ ?_ rfl f2 ?_
    · have : received ext = [] := by
        simp only [received, List.filterMap_eq_nil_iff]
        intro z hz
        cases z <;> first | rfl | exact absurd hz (hr _)
      rw [this, List.append_nil, ← h.recv]
      simp only [e4]
    · simp only [e8, h.inR, hri]
    · simp only [e5, noIn_iff.mp hno, List.map_nil, List.append_nil]
    · intro hlive
      simp only [e6]
      apply h.rest
      simp only [Trans.live, Bool.and_eq_true, Bool.not_eq_true', Option.isNone_iff_eq_none] at hlive ⊢
      exact ⟨hlive.1, stop_back hlive.2⟩

theorem consume_same {ops : CipherOps σ} {i i' : InputSys σ} {p : Bytes} (h : i.step ops .consume = some i') (hp : i.handling = some p)
    (hn : p.head? ≠ some MSG_NEWKEYS ∨ i.installed = true) :
    i'.delivered = i.delivered ∧ i'.installs = i.installs ∧ i'.handling = none ∧ i'.input.autoResetSeq = i.input.autoResetSeq := by
  simp only [InputSys.step, hp] at h
  rw [if_neg (by rcases hn with hn | hn <;> simp [hn])] at h
  split at h
  · cases h
  · rename_i i₁ hc
    cases h
    refine ⟨rfl, rfl, rfl, ?_⟩
    unfold Input.consumePacket at hc
    simp only at hc
    split at hc
    · split at hc <;> cases hc
      rfl
    · cases hc; rfl

theorem setCipher_same {ops : CipherOps σ} {i i' : InputSys σ} {c : σ} {body : Bytes} (h : i.step ops (.setCipher c) = some i')
    (hp : i.handling = some (21 :: body)) (hn : i.installed = false) :
    i'.delivered = i.delivered ∧ i'.installs = i.installs ++ [(c, i.input.autoResetSeq)] ∧ i'.handling = i.handling ∧
    i'.installed = true ∧ i'.input.autoResetSeq = i.input.autoResetSeq := by
  simp only [InputSys.step, hp] at h
  rw [if_pos (by rw [hn]; exact ⟨rfl, by decide⟩)] at h
  split at h
  · cases h
  · rename_i i₁ hc
    cases h
    refine ⟨rfl, rfl, hp.symm ▸ rfl, rfl, ?_⟩
    unfold Input.setCipher at hc
    split at hc
    · cases hc
    · split at hc
      · cases hc
      · cases hc
        simp only
        split <;> (split <;> rfl)

/-- What the handling of a packet adds: at most one cipher, directly after NEWKEYS. -/
theorem packet_adds (hx : EnvOk x) {t : Trans σ} (h : Fit x role t) (hs : t.kx.stop = none) (hv : t.kx.kx.versionExchanged = true)
    {p : Bytes} {claim : Claim} (hc : ClaimOk p claim) :
    ∃ ext, Adds t.kx (t.kx.step x.kex (.packet p claim)) (.recv p :: ext) ∧ received ext = [] ∧
      ((ext.filterMap Entry.in? = [] ∧ ((t.kx.step x.kex (.packet p claim)).stop = none → p.head? ≠ some MSG_NEWKEYS)) ∨
       ∃ body enc mac k ext', p = 21 :: body ∧ ext = .installIn enc mac k :: ext' ∧ ext'.filterMap Entry.in? = []) := by
  obtain ⟨evs, h1, h2⟩ := h.kx
  have hcalm : Calmed t.kx.kx := by
    rw [h2]; exact calmed_run hx.digest h1 (by rw [← h2]; exact hs)
  obtain ⟨ext, hl, hr, hreset⟩ := packet_moves (e := x.kex) (claim := claim) (raw := p) hcalm hs hv
  have hinv := (h.inv hx).step hx.digest (ev := .packet p claim) hc
  have hsafe : Safe x.kex role (t.kx.step x.kex (.packet p claim)).kx := by
    unfold SysInv at hinv
    split at hinv
    · obtain ⟨φ, hinv⟩ := hinv; exact hinv.safe
    · exact hinv.1
  have hrec : received ext = [] := by
    simp only [received, List.filterMap_eq_nil_iff]
    intro z hz
    cases z <;> first | rfl | exact absurd hz (hr _)
  -- a cipher comes directly after NEWKEYS
  have hfirst : ∀ a e m k b, ext = a ++ .installIn e m k :: b → a = [] ∧ ∃ body, p = 21 :: body := by
    intro a e m k b he
    obtain ⟨-, pre', body, hpre⟩ := hsafe.every (t.kx.kx.log ++ .recv p :: a) (.installIn e m k) b (by rw [hl, he]; simp)
    rcases Aux.snoc_cases a with rfl | ⟨a', z, rfl⟩
    · have := (List.append_inj' hpre rfl).2
      simp only [List.cons.injEq, Entry.recv.injEq, and_true] at this
      exact ⟨rfl, body, this⟩
    · have : z = .recv (21 :: body) := by
        rw [← List.cons_append, ← List.append_assoc] at hpre
        have := (List.append_inj' hpre rfl).2
        simpa using this
      subst this
      exact absurd (by rw [he]; simp) (hr (21 :: body))
  refine ⟨ext, ⟨hl, hreset⟩, hrec, ?_⟩
  by_cases hno : ∀ e m k, Entry.installIn e m k ∉ ext
  · refine .inl ⟨noIn_iff.mp hno, ?_⟩
    intro hst hp
    cases p with
    | nil => cases hp
    | cons msg body =>
      have : msg = 21 := by simpa [MSG_NEWKEYS] using hp
      subst this
      obtain ⟨enc, mac, k, ext', hl'⟩ := newkeys_installs (e := x.kex) hs hv hc hst
      rw [hl] at hl'
      have := List.append_cancel_left hl'
      simp only [List.cons.injEq, true_and] at this
      exact hno enc mac k (by rw [this]; exact List.mem_cons_self ..)
  · right
    have : ∃ e m k, Entry.installIn e m k ∈ ext := by
      simpa only [Classical.not_forall, Classical.not_not] using hno
    obtain ⟨enc, mac, k, hm⟩ := this
    obtain ⟨a, b, he⟩ := List.append_of_mem hm
    obtain ⟨rfl, body, rfl⟩ := hfirst a enc mac k b he
    refine ⟨body, enc, mac, k, b, rfl, he, noIn_iff.mp ?_⟩
    intro e' m' k' hm'
    obtain ⟨a', b', rfl⟩ := List.append_of_mem hm'
    have := (hfirst (.installIn enc mac k :: a') e' m' k' b' (by rw [he]; rfl)).1
    cases this

/-- A packet which has been read is handled. -/
theorem Fit.packet (hx : EnvOk x) {t : Trans σ} (h : Fit x role t) (hs : t.kx.stop = none) (hv : t.kx.kx.versionExchanged = true)
    {p : Bytes} {claim : Claim} (hc : ClaimOk p claim) {i : InputSys σ} (hi : InReach x.ops i)
    (hd : i.delivered.map (·.2) = t.inp.delivered.map (·.2) ++ [p]) (hins : i.installs = t.inp.installs)
    (ha : i.input.autoResetSeq = t.inp.input.autoResetSeq) (hh : i.handling = some p) (hb : i.installed = false) :
    ∃ t', (({ t with inp := i } : Trans σ).absorb x (.packet p claim)).bind (fun t =>
      bif t.kx.stop.isNone then t.input x .consume else some t) = some t' ∧ Fit x role t' ∧ t'.closed = t.closed := by
  obtain ⟨ext, hadd, hrec, hcase⟩ := packet_adds hx h hs hv hc
  generalize hy : t.kx.step x.kex (.packet p claim) = y at hadd hcase
  have hev : EventOk (.packet p claim) := hc
  have hna := not_assert hx h hev
  rw [hy] at hna
  obtain ⟨hcc, hro, hri⟩ := h.reset_ok hx hadd (.inl hs)
  obtain ⟨i₁, o, e1, e2, e3, e4, e5, e6, e7, e8⟩ := autoReset_ok (t := { t with inp := i }) hx hi h.out _ hcc
  rw [hro] at e3
  simp only [hh, hb, ha, h.inR, hri, hins] at e4 e5 e6 e7 e8
  have hd1 : i₁.delivered.map (·.2) = received t.kx.kx.log ++ received (.recv p :: ext) := by
    have : received (.recv p :: ext) = p :: received ext := rfl
    rw [e4, hd, h.recv, this, hrec]
  have habs : ({ t with inp := i } : Trans σ).absorb x (.packet p claim) =
      ({ t with inp := i₁, out := o, kx := y } : Trans σ).effects x (.recv p :: ext) := by
    simp only [Trans.absorb, hy, if_neg hna, e1, Option.bind_some]
    rw [hadd.log, List.drop_left]
  have hrecv : ∀ u : Trans σ, u.effects x (.recv p :: ext) = u.effects x ext := fun u => rfl
  have hpost : postsFrom y.kx.outReset (.recv p :: ext) = postsFrom y.kx.outReset ext := rfl
  have hinr : (Entry.recv p :: ext).filterMap Entry.in? = ext.filterMap Entry.in? := rfl
  -- how it ends
  have fin : ∀ {i₂ : InputSys σ} {o₂ : OutSys σ} {q : Bool}, InReach x.ops i₂ → OutPart x o₂ (t.posts ++ postsFrom y.kx.outReset ext) q y.kx.outReset →
      i₂.delivered.map (·.2) = received t.kx.kx.log ++ received (.recv p :: ext) → i₂.input.autoResetSeq = y.kx.inReset →
      i₂.installs = t.inp.installs ++ (ext.filterMap Entry.in?).map (fun (enc, mac, k) =>
        (x.makeCipher .incoming enc mac k, y.kx.inReset)) → i₂.handling = some p →
      (y.stop = none → p.head? ≠ some MSG_NEWKEYS ∨ i₂.installed = true) →
      ∃ t', (fun t : Trans σ => bif t.kx.stop.isNone then t.input x .consume else some t)
        ({ t with inp := i₂, out := o₂, kx := y, posts := t.posts ++ postsFrom y.kx.outReset ext, rushed := q } : Trans σ) = some t' ∧
        Fit x role t' ∧ t'.closed = t.closed := by
    intro i₂ o₂ q f1 f2 f3 f4 f5 f6 f7
    simp only
    cases hst : y.stop with
    | some z =>
      refine ⟨_, rfl, ?_, rfl⟩
      refine h.assemble hx hev (by rw [hy]; exact hadd) (.inl hs) (hy ▸ rfl) f1 f3 (by rw [hy]; exact f4) (by rw [hy, hinr]; exact f5)
        (by rw [hy, hpost]) (by rw [hy]; exact f2) ?_
      intro hl
      simp [Trans.live, hst] at hl
    | none =>
      simp only [Option.isNone_none, cond_true, Trans.input]
      obtain ⟨i₃, g1, g2⟩ := f1.step hx.sane .consume
      obtain ⟨k1, k2, k3, k4⟩ := consume_same g1 f6 (f7 hst)
      refine ⟨{ t with inp := i₃, out := o₂, kx := y, posts := t.posts ++ postsFrom y.kx.outReset ext, rushed := q }, by rw [g1]; rfl, ?_, rfl⟩
      refine h.assemble hx hev (by rw [hy]; exact hadd) (.inl hs) (hy ▸ rfl) g2 (by rw [k1]; exact f3) (by rw [hy, k4]; exact f4)
        (by rw [hy, hinr, k2]; exact f5) (by rw [hy, hpost]) (by rw [hy]; exact f2) (fun _ => k3)
  rw [habs, hrecv]
  rcases hcase with ⟨hno, hnk⟩ | ⟨body, enc, mac, k, ext', rfl, rfl, hno⟩
  · obtain ⟨o', q, f1, f2⟩ := effects_out hx (noIn_iff.mpr hno) (t := { t with inp := i₁, out := o, kx := y }) e3
    rw [f1, Option.bind_some]
    exact fin e2 f2 hd1 e8 (by rw [e5, hno]; simp) e6 (fun hst => .inl (hnk hst))
  · obtain ⟨i₂, g1, g2⟩ := e2.step hx.sane (.setCipher (x.makeCipher .incoming enc mac k))
    obtain ⟨k1, k2, k3, k4, k5⟩ := setCipher_same g1 e6 e7
    obtain ⟨o', q, f1, f2⟩ := effects_out hx (noIn_iff.mpr hno) (t := { t with inp := i₂, out := o, kx := y }) e3
    have heff : ({ t with inp := i₁, out := o, kx := y } : Trans σ).effects x (.installIn enc mac k :: ext') =
        ({ t with inp := i₂, out := o, kx := y } : Trans σ).effects x ext' := by
      simp only [Trans.effects, Trans.effect, Trans.input, g1, Option.map_some, Option.bind_some]
    rw [heff, f1, Option.bind_some]
    refine fin g2 f2 (by rw [k1]; exact hd1) (by rw [k5]; exact e8) ?_ (by rw [k3]; exact e6) (fun _ => .inr k4)
    rw [k2, e5, e8]
    simp [Entry.in?, hno]

/-- Events whose contents come from outside. -/
def TransEventOk : TransEvent → Prop
  | .ready claim => ∀ raw, ClaimOk raw (claim raw)
  | _ => True

/-- A step which concerns only the input side. -/
theorem Fit.quietIn (hx : EnvOk x) {t : Trans σ} (h : Fit x role t) {e : InputEvent σ} (hq : Lukko.quietIn e = true) :
    ∃ t', t.input x e = some t' ∧ Fit x role t' := by
  obtain ⟨i, h1, h2⟩ := h.inp.step hx.sane e
  have hs := sameIn_step hq h1
  refine ⟨{ t with inp := i }, by simp only [Trans.input, h1, Option.map_some], ?_⟩
  exact ⟨h.kx, h2, h.out, by simp only [hs.delivered]; exact h.recv, by simp only [hs.auto]; exact h.inR, h.same,
    by simp only [hs.installs]; exact h.installs, h.posts, h.keys, fun hl => by simp only [hs.handling]; exact h.rest hl⟩

theorem Fit.quietOut (hx : EnvOk x) {t : Trans σ} (h : Fit x role t) {e : OutEvent σ} (hq : Lukko.quietOut e = true) :
    ∃ t', t.output x e = some t' ∧ Fit x role t' ∧ t'.closed = t.closed := by
  obtain ⟨o, h1, h2⟩ := h.out.quiet hx hq
  refine ⟨{ t with out := o }, by simp only [Trans.output, h1, Option.map_some], ?_, rfl⟩
  exact ⟨h.kx, h.inp, h2, h.recv, h.inR, h.same, h.installs, h.posts, h.keys, h.rest⟩

theorem Fit.close {t : Trans σ} (h : Fit x role t) : Fit x role { t with closed := true } :=
  ⟨h.kx, h.inp, h.out, h.recv, h.inR, h.same, h.installs, h.posts, h.keys, fun hl => by simp [Trans.live] at hl⟩

theorem Fit.ready (hx : EnvOk x) {t : Trans σ} (h : Fit x role t) (hl : t.live = true) (hv : t.kx.kx.versionExchanged = true)
    {claim : Bytes → Claim} (hc : ∀ raw, ClaimOk raw (claim raw)) :
    ∃ t', ((t.input x .read).bind fun t => t.handle x claim) = some t' ∧ Fit x role t' := by
  have hs : t.kx.stop = none := by
    simp only [Trans.live, Bool.and_eq_true, Option.isNone_iff_eq_none] at hl
    exact hl.2
  have hh := h.rest hl
  obtain ⟨i, h1, h2⟩ := h.inp.step hx.sane .read
  simp only [Trans.input, h1, Option.map_some, Option.bind_some]
  simp only [InputSys.step] at h1
  split at h1
  · cases h1
    simp only [Trans.handle, hh]
    cases t.inp.dead with
    | true => exact ⟨_, rfl, h.close⟩
    | false => exact ⟨_, rfl, h⟩
  · rename_i hdead
    have hdead' : t.inp.dead = false := by
      cases hd : t.inp.dead with
      | false => rfl
      | true => exact absurd (.inl hd) hdead
    split at h1
    · cases h1
    · cases h1
      refine ⟨{ t with inp := { t.inp with dead := true }, closed := true }, by simp [Trans.handle], ?_⟩
      exact ⟨h.kx, h2, h.out, h.recv, h.inR, h.same, h.installs, h.posts, h.keys, fun hl => by simp [Trans.live] at hl⟩
    · rename_i i₁ hr
      cases h1
      refine ⟨{ t with inp := { t.inp with input := i₁ } }, by simp [Trans.handle, hdead', hh], ?_⟩
      exact ⟨h.kx, h2, h.out, h.recv, by rw [← h.inR]; exact readPacket_auto hr, h.same, h.installs, h.posts, h.keys, h.rest⟩
    · rename_i p i₁ hr
      cases h1
      obtain ⟨t', e1, e2, -⟩ := h.packet hx hs hv (hc p) h2 (by simp) rfl (readPacket_auto hr) rfl rfl
      refine ⟨t', ?_, e2⟩
      rw [hdead'] at e1
      simp only [Trans.handle, hdead', cond_false]
      exact e1

/-- Every event is handled, and the parts still fit. -/
theorem Fit.step (hx : EnvOk x) {t : Trans σ} (h : Fit x role t) {ev : TransEvent} (hev : TransEventOk ev) :
    ∃ t', t.step x ev = some t' ∧ Fit x role t' := by
  have other : ∀ {ev : KxEvent}, (∀ raw claim, ev ≠ .packet raw claim) →
      ∃ t', (bif t.live then t.absorb x ev else some t) = some t' ∧ Fit x role t' := by
    intro ev hn
    cases t.live with
    | false => exact ⟨t, rfl, h⟩
    | true => obtain ⟨t', h1, h2, -⟩ := h.other hx hn; exact ⟨t', h1, h2⟩
  cases ev with
  | version v => exact other (by intros; simp)
  | authenticated => exact other (by intros; simp)
  | rekeyTimer => exact other (by intros; simp)
  | feed chunk =>
    simp only [Trans.step]
    cases t.live && t.kx.kx.versionExchanged with
    | false => exact ⟨t, rfl, h⟩
    | true => exact h.quietIn hx rfl
  | ready claim =>
    simp only [Trans.step]
    cases hl : t.live && t.kx.kx.versionExchanged with
    | false => exact ⟨t, rfl, h⟩
    | true =>
      rw [Bool.and_eq_true] at hl
      exact h.ready hx hl.1 hl.2 hev
  | send p =>
    simp only [Trans.step]
    cases t.live with
    | false => exact ⟨t, rfl, h⟩
    | true =>
      obtain ⟨o, h1, h2⟩ := h.out.send hx p
      refine ⟨_, h1, ?_⟩
      exact ⟨h.kx, h.inp, h2, h.recv, h.inR, h.same, h.installs, h.posts.trans (List.sublist_append_left ..),
        by simp only [List.filterMap_append]; rw [h.keys]; simp [Outgoing.keys?], h.rest⟩
  | writable w =>
    simp only [Trans.step]
    cases hcl : t.closed with
    | true => exact ⟨t, rfl, h⟩
    | false =>
      simp only [cond_false, Trans.flush]
      obtain ⟨t₁, h1, h2, -⟩ := h.other hx (ev := .writable (t.out.flushed w == .more)) (by intros; simp)
      obtain ⟨t₂, h3, h4, h5⟩ := h2.quietOut hx (e := .flush w) rfl
      rw [h1, Option.bind_some, h3, Option.map_some]
      refine ⟨_, rfl, ?_⟩
      have hcl2 : t₂.closed = false := by rw [h5]; obtain ⟨t₁', g1, -, g3⟩ := h.other hx (ev := .writable (t.out.flushed w == .more)) (by intros; simp); rw [h1] at g1; cases g1; rw [g3, hcl]
      have same : Fit x role { t₂ with closed := false } := by
        obtain ⟨a, b, c, d, e, f⟩ := t₂
        cases hcl2
        exact h4
      split
      · exact same
      · exact same
      · exact h4.close
  | inBegin k => exact h.quietIn hx rfl
  | inLoop => exact h.quietIn hx rfl
  | inEnd k => exact h.quietIn hx rfl
  | outBegin => obtain ⟨t', h1, h2, -⟩ := h.quietOut hx (e := .runBegin) rfl; exact ⟨t', h1, h2⟩
  | outEncrypt => obtain ⟨t', h1, h2, -⟩ := h.quietOut hx (e := .runEncrypt) rfl; exact ⟨t', h1, h2⟩
  | outEnd => obtain ⟨t', h1, h2, -⟩ := h.quietOut hx (e := .runEnd) rfl; exact ⟨t', h1, h2⟩

theorem Fit.run (hx : EnvOk x) {evs : List TransEvent} : ∀ {t : Trans σ}, Fit x role t → (∀ ev ∈ evs, TransEventOk ev) →
    ∃ t', t.run x evs = some t' ∧ Fit x role t' := by
  induction evs with
  | nil => intro t h _; exact ⟨t, rfl, h⟩
  | cons ev evs ih =>
    intro t h hok
    obtain ⟨t₁, h1, h2⟩ := h.step hx (hok ev (List.mem_cons_self ..))
    obtain ⟨t₂, h3, h4⟩ := ih h2 (fun z hz => hok z (List.mem_cons_of_mem _ hz))
    exact ⟨t₂, by simp only [Trans.run, h1, Option.bind_some, h3], h4⟩

end Lukko
