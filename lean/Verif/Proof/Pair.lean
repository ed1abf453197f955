import Verif.Proof.PairDeliver
/-
  The invariant of a pair.
-/
namespace Lukko
open Spec Model

variable {eC eS : KexEnv} {hk : Nat} {alg : Bytes} {c s : Kx} {qc qs : List Bytes}

/-! ### Events other than deliveries -/

theorem PState.versionClient (hE : Compatible eC eS hk alg) (h : PState eC eS hk alg c s qc qs) (hv : c.versionExchanged = false) :
    ∃ c' more, c.onVersion eC eS.ownVersion = (c', none) ∧ PState eC eS hk alg c' s (qc ++ more) qs := by
  obtain ⟨hcs, hss, hqc, hqs, kc, ks, hkc, hks, hst⟩ := h
  obtain ⟨hf, hag⟩ := hcs.quiet hv
  obtain ⟨c', more, hr, hside, hv', hf', hi, hrec, hsent, hag', hmore⟩ := onVersion_pair hE.fitsC hcs hv
  simp only [if_true] at hmore
  subst hmore
  rw [hf] at hf'
  refine ⟨c', _, hr, hside, hss, by rw [hsent, hqc, List.append_assoc], by rw [hqs, hrec], ?_⟩
  rw [hi]
  cases hst with
  | answered _ _ _ _ _ c1 => rw [hf] at c1; exact absurd c1 (by decide)
  | crossing c1 => rw [hf] at c1; exact absurd c1 (by decide)
  | serverDone _ c1 => rw [hf] at c1; exact absurd c1 (by decide)
  | clientDone cs c1 s1 ha => exact absurd (by rw [← ha, hag]) (hss.some_ (by rw [s1]))
  | hello cs cr ss sr n c1 s1 ha h1 h2 =>
    rw [hf] at c1
    simp only [KexFlags.mk.injEq] at c1
    obtain ⟨rfl, rfl, -, -⟩ := c1
    have : sr = false := by
      cases hsr : sr with
      | false => rfl
      | true => have := (h2 hsr).2.1; exact absurd this (by decide)
    subst this
    have hst' := Stage.hello (eC := eC) (eS := eS) (hk := hk) (c := c') (s := s) true false ss false n hf' s1 (by rw [hag', ha])
      (fun h => absurd h (by decide)) (fun h => absurd h (by decide))
    refine ⟨_, _, ?_, ?_, hst'⟩
    · simpa using hkc.pushKex (kexMsg20 c'.myKexinit)
    · simpa using hks

theorem PState.versionServer (hE : Compatible eC eS hk alg) (h : PState eC eS hk alg c s qc qs) (hv : s.versionExchanged = false) :
    ∃ s', s.onVersion eS eC.ownVersion = (s', none) ∧ PState eC eS hk alg c s' qc qs := by
  obtain ⟨hcs, hss, hqc, hqs, kc, ks, hkc, hks, hst⟩ := h
  obtain ⟨hf, hag⟩ := hss.quiet hv
  obtain ⟨s', more, hr, hside, hv', hf', hi, hrec, hsent, hag', hmore⟩ := onVersion_pair hE.fitsS hss hv
  simp only [show ¬(Role.server = Role.client) by decide, if_false] at hmore
  subst hmore
  rw [hf] at hf'
  refine ⟨s', hr, hcs, hside, by rw [hqc, hrec], by rw [hsent, hqs, List.append_nil], ?_⟩
  rw [hi]
  cases hst with
  | answered _ _ _ _ _ _ s1 => rw [hf] at s1; exact absurd s1 (by decide)
  | crossing _ s1 => rw [hf] at s1; exact absurd s1 (by decide)
  | clientDone _ _ s1 => rw [hf] at s1; exact absurd s1 (by decide)
  | serverDone ss c1 s1 ha => exact absurd (by rw [ha, hag]) (hcs.some_ (by rw [c1]))
  | hello cs cr ss sr n c1 s1 ha h1 h2 =>
    rw [hf] at s1
    simp only [KexFlags.mk.injEq] at s1
    obtain ⟨rfl, rfl, -, -⟩ := s1
    have : cr = false := by
      cases hcr : cr with
      | false => rfl
      | true => have := (h1 hcr).2.1; exact absurd this (by decide)
    subst this
    have hst' := Stage.hello (eC := eC) (eS := eS) (hk := hk) (c := c) (s := s') cs false false false n c1 hf' (by rw [hag', ha])
      (fun h => absurd h (by decide)) (fun h => absurd h (by decide))
    exact ⟨_, _, hkc, hks, hst'⟩

/-- Something which the other side does not see. -/
theorem PState.silent {c' s' : Kx} (h : PState eC eS hk alg c s qc qs) (hc : PairSide eC eS.ownVersion hk alg .client c')
    (hs : PairSide eS eC.ownVersion hk alg .server s') (sc : SameSide c c') (ss : SameSide s s')
    (r1 : received c'.log = received c.log) (r2 : received s'.log = received s.log)
    (p1 : sentPackets c'.log = sentPackets c.log) (p2 : sentPackets s'.log = sentPackets s.log) :
    PState eC eS hk alg c' s' qc qs := by
  obtain ⟨_, _, hqc, hqs, kc, ks, hkc, hks, hst⟩ := h
  exact ⟨hc, hs, by rw [p1, r2, hqc], by rw [p2, r1, hqs], kc, ks, by rw [ss.inEnc]; exact hkc, by rw [sc.inEnc]; exact hks,
    hst.congr sc ss⟩

theorem PState.sendClient (h : PState eC eS hk alg c s qc qs) {p : Bytes} (hp : isPlain p = true) (ho : c.outputEncrypted = true) :
    PState eC eS hk alg (c.emit (.sent p)) s (qc ++ [p]) qs := by
  obtain ⟨hcs, hss, hqc, hqs, kc, ks, hkc, hks, hst⟩ := h
  have h20 : isMsg 20 p = false := by simp [isPlain] at hp; exact hp.1.1.1.2
  have h21 : isMsg 21 p = false := by simp [isPlain] at hp; exact hp.1.1.2
  have hside := hcs.other (a := c.authenticated) (b := c.writeBlocked) (ext := [.sent p])
    ⟨rfl, rfl, rfl, by simp [kexInits, sentPackets, h20]⟩ (.quiet (by simp [quietEntry, h21])) hcs.auth
  refine ⟨hside, hss, ?_, ?_, kc, ks, hkc.pushPlain hp (hst.cleanC hcs hss ho), hks,
    hst.congr ⟨rfl, rfl, rfl, rfl, rfl, rfl, ?_⟩ .rfl'⟩
  · simp only [Kx.emit, sentPackets_app, hqc]; simp [sentPackets]
  · simp only [Kx.emit, received_app, hqs]; simp [received]
  · simp [Kx.emit, agreements]

theorem PState.sendServer (h : PState eC eS hk alg c s qc qs) {p : Bytes} (hp : isPlain p = true) (ho : s.outputEncrypted = true) :
    PState eC eS hk alg c (s.emit (.sent p)) qc (qs ++ [p]) := by
  obtain ⟨hcs, hss, hqc, hqs, kc, ks, hkc, hks, hst⟩ := h
  have h20 : isMsg 20 p = false := by simp [isPlain] at hp; exact hp.1.1.1.2
  have h21 : isMsg 21 p = false := by simp [isPlain] at hp; exact hp.1.1.2
  have hside := hss.other (a := s.authenticated) (b := s.writeBlocked) (ext := [.sent p])
    ⟨rfl, rfl, rfl, by simp [kexInits, sentPackets, h20]⟩ (.quiet (by simp [quietEntry, h21])) hss.auth
  refine ⟨hcs, hside, ?_, ?_, kc, ks, hkc, hks.pushPlain hp (hst.cleanS hcs hss ho),
    hst.congr .rfl' ⟨rfl, rfl, rfl, rfl, rfl, rfl, ?_⟩⟩
  · simp only [Kx.emit, received_app, hqc]; simp [received]
  · simp only [Kx.emit, sentPackets_app, hqs]; simp [sentPackets]
  · simp [Kx.emit, agreements]

theorem KexFlags.idle_eq {f : KexFlags} (h : f.isIdle = true) : f = {} := by
  cases f; simp [KexFlags.isIdle] at h; obtain ⟨⟨⟨rfl, rfl⟩, rfl⟩, rfl⟩ := h; rfl

theorem PairSide.authVx {e pv hk alg role s} (h : PairSide e pv hk alg role s) (ha : s.authenticated = true) :
    s.versionExchanged = true := by
  cases hv : s.versionExchanged with
  | true => rfl
  | false =>
    have h1 := h.auth ha
    obtain ⟨_, h2⟩ := h.quiet hv
    have h3 := h.outEnc
    simp only [Kx.isEncrypted, Bool.and_eq_true] at h1
    rw [h1.2, h2] at h3
    exact absurd h3 (by decide)

theorem PState.rekeyClient (hE : Compatible eC eS hk alg) (h : PState eC eS hk alg c s qc qs) (ha : c.authenticated = true) :
    ∃ c' more, c.initiateRekey eC = (c', none) ∧ PState eC eS hk alg c' s (qc ++ more) qs := by
  have h0 := h
  obtain ⟨hcs, hss, hqc, hqs, kc, ks, hkc, hks, hst⟩ := h
  unfold Kx.initiateRekey
  rw [show (!c.isEncrypted || !c.authenticated) = false by rw [hcs.auth ha, ha]; rfl, cond_false]
  cases hid : c.flags.isIdle with
  | false => exact ⟨c, [], rfl, by simpa using h0⟩
  | true =>
    have hf := KexFlags.idle_eq hid
    simp only [Bool.not_true, cond_false]
    obtain ⟨c', hr, hside, hf', hv', hi, hpk, hk', hsent, hrec, hag⟩ := hcs.initiate hE.fitsC (hcs.authVx ha) (by rw [hf]) (by rw [hf])
    rw [hf] at hf'
    refine ⟨c', _, hr, hside, hss, by rw [hsent, hqc, List.append_assoc], by rw [hqs, hrec], ?_⟩
    rw [hi]
    cases hst with
    | answered _ _ _ _ _ c1 => rw [hf] at c1; exact absurd c1 (by decide)
    | crossing c1 => rw [hf] at c1; exact absurd c1 (by decide)
    | serverDone _ c1 => rw [hf] at c1; exact absurd c1 (by decide)
    | clientDone cs c1 s1 hag' =>
      rw [hf] at c1
      simp only [KexFlags.mk.injEq] at c1
      obtain ⟨rfl, -⟩ := c1
      have hst' := Stage.clientDone (eC := eC) (eS := eS) (hk := hk) (c := c') (s := s) true hf' s1 (by rw [hag, hag'])
      exact ⟨_, _, by simpa using hkc.pushKex (kexMsg20 c'.myKexinit), hks, hst'⟩
    | hello cs cr ss sr n c1 s1 hag' h1 h2 =>
      rw [hf] at c1
      simp only [KexFlags.mk.injEq] at c1
      obtain ⟨rfl, rfl, -, -⟩ := c1
      have : sr = false := by
        cases hsr : sr with
        | false => rfl
        | true => have := (h2 hsr).2.1; exact absurd this (by decide)
      subst this
      have hst' := Stage.hello (eC := eC) (eS := eS) (hk := hk) (c := c') (s := s) true false ss false n hf' s1 (by rw [hag, hag'])
        (fun h => absurd h (by decide)) (fun h => absurd h (by decide))
      exact ⟨_, _, by simpa using hkc.pushKex (kexMsg20 c'.myKexinit), hks, hst'⟩

theorem PState.rekeyServer (hE : Compatible eC eS hk alg) (h : PState eC eS hk alg c s qc qs) (ha : s.authenticated = true) :
    ∃ s' more, s.initiateRekey eS = (s', none) ∧ PState eC eS hk alg c s' qc (qs ++ more) := by
  have h0 := h
  obtain ⟨hcs, hss, hqc, hqs, kc, ks, hkc, hks, hst⟩ := h
  unfold Kx.initiateRekey
  rw [show (!s.isEncrypted || !s.authenticated) = false by rw [hss.auth ha, ha]; rfl, cond_false]
  cases hid : s.flags.isIdle with
  | false => exact ⟨s, [], rfl, by simpa using h0⟩
  | true =>
    have hf := KexFlags.idle_eq hid
    simp only [Bool.not_true, cond_false]
    obtain ⟨s', hr, hside, hf', hv', hi, hpk, hk', hsent, hrec, hag⟩ := hss.initiate hE.fitsS (hss.authVx ha) (by rw [hf]) (by rw [hf])
    rw [hf] at hf'
    refine ⟨s', _, hr, hcs, hside, by rw [hqc, hrec], by rw [hsent, hqs, List.append_assoc], ?_⟩
    rw [hi]
    cases hst with
    | answered _ _ _ _ _ _ s1 => rw [hf] at s1; exact absurd s1 (by decide)
    | crossing _ s1 => rw [hf] at s1; exact absurd s1 (by decide)
    | clientDone _ _ s1 => rw [hf] at s1; exact absurd s1 (by decide)
    | serverDone ss c1 s1 hag' =>
      rw [hf] at s1
      simp only [KexFlags.mk.injEq] at s1
      obtain ⟨rfl, -⟩ := s1
      have hst' := Stage.serverDone (eC := eC) (eS := eS) (hk := hk) (c := c) (s := s') true c1 hf' (by rw [hag, hag'])
      exact ⟨_, _, hkc, by simpa using hks.pushKex (kexMsg20 s'.myKexinit), hst'⟩
    | hello cs cr ss sr n c1 s1 hag' h1 h2 =>
      rw [hf] at s1
      simp only [KexFlags.mk.injEq] at s1
      obtain ⟨rfl, rfl, -, -⟩ := s1
      have : cr = false := by
        cases hcr : cr with
        | false => rfl
        | true => have := (h1 hcr).2.1; exact absurd this (by decide)
      subst this
      have hst' := Stage.hello (eC := eC) (eS := eS) (hk := hk) (c := c) (s := s') cs false true false n c1 hf' (by rw [hag, hag'])
        (fun h => absurd h (by decide)) (fun h => absurd h (by decide))
      exact ⟨_, _, hkc, by simpa using hks.pushKex (kexMsg20 s'.myKexinit), hst'⟩

theorem PairSide.authed {e pv hk alg role s} (h : PairSide e pv hk alg role s) (he : s.isEncrypted = true) :
    PairSide e pv hk alg role { s with authenticated := true } ∧ SameSide s { s with authenticated := true } := by
  have := h.other (a := true) (b := s.writeBlocked) (ext := []) ⟨rfl, rfl, rfl, rfl⟩ .nil (fun _ => he)
  simp only [List.append_nil] at this
  exact ⟨this, ⟨rfl, rfl, rfl, rfl, rfl, rfl, rfl⟩⟩

/-! ### The whole pair -/

/-- Invariant of a pair. -/
structure PairInv (eC eS : KexEnv) (hk : Nat) (alg : Bytes) (p : Pair) : Prop where
  stopC : p.client.stop = none
  stopS : p.server.stop = none
  state : PState eC eS hk alg p.client.kx p.server.kx (inFlight p.client.kx.log p.server.kx.log)
    (inFlight p.server.kx.log p.client.kx.log)

theorem inFlight_eq {a b : List Entry} {q : List Bytes} (h : sentPackets a = received b ++ q) : inFlight a b = q := by
  simp [inFlight, h]

theorem PairInv.ofState {c s : KxSys} {qc qs} (hc : c.stop = none) (hs : s.stop = none) (h : PState eC eS hk alg c.kx s.kx qc qs) :
    PairInv eC eS hk alg ⟨c, s⟩ :=
  ⟨hc, hs, by
    show PState eC eS hk alg c.kx s.kx (inFlight c.kx.log s.kx.log) (inFlight s.kx.log c.kx.log)
    rw [inFlight_eq h.hqc, inFlight_eq h.hqs]; exact h⟩

theorem PairSide.init {e pv hk alg role} : PairSide e pv hk alg role { role := role } := by
  refine ⟨rfl, rfl, fun h => absurd h Bool.false_ne_true, fun h => absurd h Bool.false_ne_true, fun _ => ⟨rfl, rfl⟩, fun _ h => absurd h Bool.false_ne_true,
    fun h => absurd h Bool.false_ne_true, rfl, rfl, fun h => absurd h Bool.false_ne_true, fun h => absurd h Bool.false_ne_true, fun h => absurd h Bool.false_ne_true,
    fun h => absurd h Bool.false_ne_true, fun _ h => absurd h Bool.false_ne_true, rfl, rfl, fun h => absurd h Bool.false_ne_true, fun h => absurd h Bool.false_ne_true,
    rfl, fun _ _ h => absurd h Bool.false_ne_true, rfl, rfl, rfl, .nil⟩

theorem PairInv.init : PairInv eC eS hk alg {} := by
  refine PairInv.ofState rfl rfl (qc := []) (qs := []) ⟨PairSide.init, PairSide.init, rfl, rfl, _, _, ?_, ?_,
    Stage.hello false false false false 0 rfl rfl rfl (fun h => absurd h (by decide)) (fun h => absurd h (by decide))⟩
  all_goals exact ⟨rfl, by simp, by intro _ a x b h; simp at h⟩

theorem KxSys.step_live {e : KexEnv} {y : KxSys} (h : y.stop = none) (ev : KxEvent) : y.step e ev =
    match ev with
    | .version v => bif y.kx.versionExchanged then y else .finish (y.kx.onVersion e v)
    | .packet raw claim => bif y.kx.versionExchanged then .finish (y.kx.handleRawPacket e raw claim) else y
    | .authenticated => bif y.kx.isEncrypted && !y.kx.authenticated then .finish y.kx.setAuthenticated else y
    | .rekeyTimer => bif y.kx.authenticated then .finish (y.kx.initiateRekey e) else y
    | .writable more => ⟨y.kx.onBufferedWrite more, none⟩ := by
  unfold KxSys.step; rw [h]; rfl

theorem finish_none {x : Kx} : KxSys.finish (x, none) = ⟨x, none⟩ := rfl

theorem setAuthenticated_ok {x : Kx} (h : (x.isEncrypted && !x.authenticated) = true) :
    x.setAuthenticated = ({ x with authenticated := true }, none) := by
  simp only [Bool.and_eq_true, Bool.not_eq_true'] at h
  unfold Kx.setAuthenticated
  rw [show (!x.isEncrypted || x.authenticated) = false by rw [h.2, show x.isEncrypted = true by simp [Kx.isEncrypted, h.1.1, h.1.2]]; rfl]
  rfl

theorem PairInv.step (hE : Compatible eC eS hk alg) {p : Pair} (h : PairInv eC eS hk alg p) (ev : PairEvent) :
    PairInv eC eS hk alg (p.step eC eS ev) := by
  obtain ⟨⟨c, cstop⟩, ⟨s, sstop⟩⟩ := p
  obtain ⟨rfl, rfl, hst⟩ := h
  have hst : PState eC eS hk alg c s (inFlight c.log s.log) (inFlight s.log c.log) := hst
  have keep : PairInv eC eS hk alg ⟨⟨c, none⟩, ⟨s, none⟩⟩ := ⟨rfl, rfl, hst⟩
  unfold Pair.step
  cases ev with
  | version r =>
    cases r with
    | client =>
      simp only [PairEvent.place, KxSys.pairStep, KxSys.step_live]
      cases hv : c.versionExchanged with
      | true => exact keep
      | false =>
        obtain ⟨c', more, hr, hst'⟩ := hst.versionClient hE hv
        rw [hr]
        exact PairInv.ofState rfl rfl hst'
    | server =>
      simp only [PairEvent.place, KxSys.pairStep, KxSys.step_live]
      cases hv : s.versionExchanged with
      | true => exact keep
      | false =>
        obtain ⟨s', hr, hst'⟩ := hst.versionServer hE hv
        rw [hr]
        exact PairInv.ofState rfl rfl hst'
  | deliver r handled =>
    cases r with
    | client =>
      simp only [PairEvent.place, KxSys.pairStep]
      cases hq : inFlight s.log c.log with
      | nil => exact keep
      | cons x q =>
        simp only [KxSys.step_live]
        cases hv : c.versionExchanged with
        | false => exact keep
        | true =>
          rw [hq] at hst
          obtain ⟨c', more, hr, -, hst', _⟩ := hst.deliverClient hE hv handled
          rw [hr]
          exact PairInv.ofState rfl rfl hst'
    | server =>
      simp only [PairEvent.place, KxSys.pairStep]
      cases hq : inFlight c.log s.log with
      | nil => exact keep
      | cons x q =>
        simp only [KxSys.step_live]
        cases hv : s.versionExchanged with
        | false => exact keep
        | true =>
          rw [hq] at hst
          obtain ⟨s', more, hr, -, hst', _⟩ := hst.deliverServer hE hv handled
          rw [hr]
          exact PairInv.ofState rfl rfl hst'
  | send r x =>
    cases r with
    | client =>
      simp only [PairEvent.place, KxSys.pairStep, KxSys.sendPlain, Option.isNone_none, Bool.and_true]
      cases hx : (isPlain x && c.outputEncrypted) with
      | false => exact keep
      | true =>
        simp only [Bool.and_eq_true] at hx
        exact PairInv.ofState rfl rfl (hst.sendClient hx.1 hx.2)
    | server =>
      simp only [PairEvent.place, KxSys.pairStep, KxSys.sendPlain, Option.isNone_none, Bool.and_true]
      cases hx : (isPlain x && s.outputEncrypted) with
      | false => exact keep
      | true =>
        simp only [Bool.and_eq_true] at hx
        exact PairInv.ofState rfl rfl (hst.sendServer hx.1 hx.2)
  | authenticated r =>
    cases r with
    | client =>
      simp only [PairEvent.place, KxSys.pairStep, KxSys.step_live]
      cases ha : (c.isEncrypted && !c.authenticated) with
      | false => exact keep
      | true =>
        rw [setAuthenticated_ok ha]
        have he : c.isEncrypted = true := by rw [Bool.and_eq_true] at ha; exact ha.1
        obtain ⟨h1, h2⟩ := hst.client.authed he
        exact PairInv.ofState rfl rfl (hst.silent h1 hst.server h2 .rfl' rfl rfl rfl rfl)
    | server =>
      simp only [PairEvent.place, KxSys.pairStep, KxSys.step_live]
      cases ha : (s.isEncrypted && !s.authenticated) with
      | false => exact keep
      | true =>
        rw [setAuthenticated_ok ha]
        have he : s.isEncrypted = true := by rw [Bool.and_eq_true] at ha; exact ha.1
        obtain ⟨h1, h2⟩ := hst.server.authed he
        exact PairInv.ofState rfl rfl (hst.silent hst.client h1 .rfl' h2 rfl rfl rfl rfl)
  | rekeyTimer r =>
    cases r with
    | client =>
      simp only [PairEvent.place, KxSys.pairStep, KxSys.step_live]
      cases ha : c.authenticated with
      | false => exact keep
      | true =>
        obtain ⟨c', more, hr, hst'⟩ := hst.rekeyClient hE ha
        rw [hr]
        exact PairInv.ofState rfl rfl hst'
    | server =>
      simp only [PairEvent.place, KxSys.pairStep, KxSys.step_live]
      cases ha : s.authenticated with
      | false => exact keep
      | true =>
        obtain ⟨s', more, hr, hst'⟩ := hst.rekeyServer hE ha
        rw [hr]
        exact PairInv.ofState rfl rfl hst'
  | writable r more =>
    cases r with
    | client =>
      simp only [PairEvent.place, KxSys.pairStep, KxSys.step_live]
      obtain ⟨h1, h2, h3, h4⟩ := onBufferedWrite_pair hst.client more
      exact PairInv.ofState rfl rfl (hst.silent h1 hst.server h2 .rfl' h3 rfl h4 rfl)
    | server =>
      simp only [PairEvent.place, KxSys.pairStep, KxSys.step_live]
      obtain ⟨h1, h2, h3, h4⟩ := onBufferedWrite_pair hst.server more
      exact PairInv.ofState rfl rfl (hst.silent hst.client h1 .rfl' h2 rfl h3 rfl h4)

theorem PairInv.run (hE : Compatible eC eS hk alg) (evs : List PairEvent) : ∀ {p : Pair}, PairInv eC eS hk alg p →
    PairInv eC eS hk alg (p.run eC eS evs) := by
  induction evs with
  | nil => exact fun h => h
  | cons ev evs ih => exact fun h => ih (h.step hE ev)

/-- The work that is left in a pair. -/
def Pair.work (p : Pair) : Nat :=
  pairWork p.client.kx p.server.kx (inFlight p.client.kx.log p.server.kx.log) (inFlight p.server.kx.log p.client.kx.log)

theorem pair_work_eq {c s : KxSys} {qc qs} (h : PState eC eS hk alg c.kx s.kx qc qs) :
    Pair.work ⟨c, s⟩ = pairWork c.kx s.kx qc qs := by
  unfold Pair.work; simp only [inFlight_eq h.hqc, inFlight_eq h.hqs]

/-- A delivery gets closer to the end. -/
theorem PairInv.deliver (hE : Compatible eC eS hk alg) {p : Pair} (h : PairInv eC eS hk alg p) (r : Role) (handled : Bool)
    (hv : p.client.kx.versionExchanged = true ∧ p.server.kx.versionExchanged = true)
    (hq : match r with
      | .client => inFlight p.server.kx.log p.client.kx.log ≠ []
      | .server => inFlight p.client.kx.log p.server.kx.log ≠ []) :
    Pair.work (p.step eC eS (.deliver r handled)) < Pair.work p ∧
      (p.step eC eS (.deliver r handled)).client.kx.versionExchanged = true ∧
      (p.step eC eS (.deliver r handled)).server.kx.versionExchanged = true := by
  obtain ⟨⟨c, cstop⟩, ⟨s, sstop⟩⟩ := p
  obtain ⟨rfl, rfl, hst⟩ := h
  have hst : PState eC eS hk alg c s (inFlight c.log s.log) (inFlight s.log c.log) := hst
  obtain ⟨hvc, hvs⟩ := hv
  simp only at hvc hvs
  unfold Pair.step
  cases r with
  | client =>
    simp only [PairEvent.place, KxSys.pairStep]
    simp only at hq
    cases hq' : inFlight s.log c.log with
    | nil => exact absurd hq' hq
    | cons x q =>
      simp only [KxSys.step_live, hvc, cond_true]
      rw [hq'] at hst
      obtain ⟨c', more, hr, hv', hst', hlt⟩ := hst.deliverClient hE hvc handled
      rw [hr, finish_none, pair_work_eq (c := ⟨c', none⟩) (s := ⟨s, none⟩) hst', pair_work_eq (c := ⟨c, none⟩) (s := ⟨s, none⟩) hst]
      exact ⟨hlt, hv', hvs⟩
  | server =>
    simp only [PairEvent.place, KxSys.pairStep]
    simp only at hq
    cases hq' : inFlight c.log s.log with
    | nil => exact absurd hq' hq
    | cons x q =>
      simp only [KxSys.step_live, hvs, cond_true]
      rw [hq'] at hst
      obtain ⟨s', more, hr, hv', hst', hlt⟩ := hst.deliverServer hE hvs handled
      rw [hr, finish_none, pair_work_eq (c := ⟨c, none⟩) (s := ⟨s', none⟩) hst', pair_work_eq (c := ⟨c, none⟩) (s := ⟨s, none⟩) hst]
      exact ⟨hlt, hvc, hv'⟩

/-- When nothing is on its way, both sides are idle. -/
theorem PState.settled (h : PState eC eS hk alg c s [] []) : c.flags = {} ∧ s.flags = {} ∧ agreements c.log = agreements s.log := by
  obtain ⟨hcs, hss, hqc, hqs, kc, ks, hkc, hks, hst⟩ := h
  have h1 : kc = [] := by rw [← hkc.kex]; rfl
  have h2 : ks = [] := by rw [← hks.kex]; rfl
  generalize hk1 : kc = kc0 at hst
  generalize hk2 : ks = ks0 at hst
  cases hst with
  | answered => rw [h2] at hk2; exact absurd hk2 (by simp)
  | crossing => rw [h2] at hk2; exact absurd hk2 (by simp)
  | clientDone => rw [h1] at hk1; exact absurd hk1 (by simp)
  | serverDone => rw [h2] at hk2; exact absurd hk2 (by simp)
  | hello cs cr ss sr n c1 s1 ha h1' h2' =>
    rw [h1] at hk1
    rw [h2] at hk2
    have hcr : cr = false := by cases cr <;> simp at hk1 ⊢
    subst hcr
    have hss : ss = false := by cases ss <;> simp at hk2 ⊢
    subst hss
    have hsr : sr = false := by
      cases hh : sr with
      | false => rfl
      | true => have := (h2' hh).1; exact absurd this (by decide)
    subst hsr
    have hcs : cs = false := by cases cs <;> simp at hk1 ⊢
    subst hcs
    exact ⟨c1, s1, ha⟩

theorem PState.agree (h : PState eC eS hk alg c s qc qs) : agreements c.log = agreements s.log ∨
    (∃ t, agreements s.log = agreements c.log ++ [t]) ∧ c.flags.newkeysSent = false ∧ s.flags.newkeysSent = true := by
  obtain ⟨hcs, hss, hqc, hqs, kc, ks, hkc, hks, hst⟩ := h
  cases hst with
  | answered n m t sig sec c1 s1 ha => exact .inr ⟨⟨t, ha⟩, by rw [c1], by rw [s1]⟩
  | hello _ _ _ _ _ _ _ ha => exact .inl ha
  | crossing _ _ ha => exact .inl ha
  | clientDone _ _ _ ha => exact .inl ha
  | serverDone _ _ _ ha => exact .inl ha

end Lukko
