import Verif.Proof.Channel
import Verif.Prop.Authentic
/-
  Whether sequence numbers restart is settled before the first cipher.
-/
namespace Lukko
open Spec Model

variable {e : KexEnv} {role : Role}

theorem still_not20 {s : Kx} {msg body claim} (hm : msg ≠ 20) : Steady s (s.handlePacket e msg body claim).1 := by
  have h2 : ∀ a : Kx, Steady a (a.handlePacket₂ e msg body claim).1 := fun a => (Frame.handlePacket₂ (.inl hm)).still
  unfold Kx.handlePacket
  simp only [Bool.cond_eq_ite]
  split
  · exact h2 s
  · split
    · exact Steady.of_eq (h2 { s with firstPacketWasKexinit := s.firstPacketWasKexinit && msg == MSG_KEXINIT }) rfl rfl rfl
    · split
      · split
        · exact ⟨⟨[], by simp⟩, rfl, rfl⟩
        · exact Steady.of_eq (h2 { s with ignoreNextKexPacket := false }) rfl rfl rfl
      · split
        · exact Steady.rfl'
        · exact h2 s

/-- Only a KEXINIT changes it. -/
theorem packet_not20 {y : KxSys} {msg body claim} (hs : y.stop = none) (hv : y.kx.versionExchanged = true) (hm : msg ≠ 20) :
    (y.step e (.packet (msg :: body) claim)).kx.inReset = y.kx.inReset := by
  obtain ⟨s, stop⟩ := y
  cases hs
  simp only [KxSys.step]
  rw [hv, cond_true]
  have h1 : Steady (s.emit (.recv (msg :: body))) (s.handleRawPacket e (msg :: body) claim).1 := still_not20 hm
  have h2 : ∀ r : KRes, (KxSys.finish r).kx.inReset = r.1.inReset := by
    intro r
    obtain ⟨a, z⟩ := r
    unfold KxSys.finish
    cases z with
    | none => rfl
    | some z => cases z <;> rfl
  rw [h2, h1.inR]; rfl

/-- Each exchange has one KEXINIT of the peer. -/
theorem count_kexinit : ∀ {log : List Entry} {φ : Phase}, phaseOf log = some φ → φ.refused = false →
    (received log).countP (isMsg 20) = (log.filterMap Entry.in?).length + φ.kexRecv.toNat := by
  intro log
  induction log using Aux.snoc_ind with
  | h0 => intro φ h _; cases h; rfl
  | h1 log z ih =>
    intro φ h hr
    rw [phaseOf_snoc] at h
    cases hψ : phaseOf log with
    | none => rw [hψ] at h; cases h
    | some ψ =>
      rw [hψ, Option.bind_some] at h
      rw [received_append, List.countP_append, List.filterMap_append, List.length_append]
      have keep : ψ.refused = false → ψ.kexRecv = φ.kexRecv → (received [z]).countP (isMsg 20) = 0 → ([z].filterMap Entry.in?).length = 0 →
          (received log).countP (isMsg 20) + (received [z]).countP (isMsg 20) =
            (log.filterMap Entry.in?).length + ([z].filterMap Entry.in?).length + φ.kexRecv.toNat := by
        intro h1 h2 h3 h4
        rw [ih hψ h1, h2, h3, h4]; omega
      cases z with
      | sent p =>
        simp only [Phase.next] at h
        split at h
        · cases h; cases hr
        · split at h
          · cases h
          · rename_i hrf
            have hrf' : ψ.refused = false := by simpa using hrf
            split at h
            · cases h
            · split at h
              · split at h <;> cases h
                exact keep hrf' rfl rfl rfl
              · split at h
                · split at h <;> cases h
                  exact keep hrf' rfl rfl rfl
                · cases h; exact keep hrf' rfl rfl rfl
      | recv p =>
        simp only [Phase.next] at h
        split at h
        · cases h
        · rename_i hc
          simp only [Bool.or_eq_true, not_or, Bool.not_eq_true] at hc
          have h20 : ∀ b, isMsg 20 p = b → (received [.recv p]).countP (isMsg 20) = b.toNat := by
            intro b hb
            simp only [received, List.filterMap_cons, List.filterMap_nil, List.countP_cons, List.countP_nil, hb]
            cases b <;> rfl
          split at h
          · rename_i hm
            split at h <;> cases h
            · rename_i hk
              simp only [Bool.and_eq_true, Bool.not_eq_true'] at hk
              rw [ih hψ hc.1.1, h20 _ hm, hk.1]; rfl
            · cases hr
          · rename_i hm
            have hm' : isMsg 20 p = false := Bool.eq_false_iff.mpr hm
            split at h
            · split at h <;> cases h
              · exact keep hc.1.1 rfl (h20 _ hm') rfl
              · cases hr
            · cases h
              exact keep hc.1.1 rfl (h20 _ hm') rfl
      | agreed t =>
        simp only [Phase.next] at h
        split at h <;> cases h
        exact keep hr rfl rfl rfl
      | installOut e m k =>
        simp only [Phase.next] at h
        split at h <;> cases h
        exact keep hr rfl rfl rfl
      | installIn e m k =>
        simp only [Phase.next] at h
        split at h
        · rename_i hc
          simp only [Bool.and_eq_true, Bool.not_eq_true'] at hc
          cases h
          rw [ih hψ hc.2, hc.1.1.1.1.1.2]; rfl
        · cases h
      | version v => cases h; exact keep hr rfl rfl rfl
      | encrypted => cases h; exact keep hr rfl rfl rfl
      | blocked => cases h; exact keep hr rfl rfl rfl
      | unblocked => cases h; exact keep hr rfl rfl rfl

theorem count_kexinit_before {pre post : List Entry} {e m k} {φ : Phase} (h : phaseOf (pre ++ .installIn e m k :: post) = some φ) :
    (received pre).countP (isMsg 20) = (pre.filterMap Entry.in?).length + 1 := by
  obtain ⟨φ0, φ1, g0, g1⟩ := phaseOf_prefix h
  simp only [Phase.next] at g1
  split at g1
  · rename_i hc
    simp only [Bool.and_eq_true, Bool.not_eq_true'] at hc
    rw [count_kexinit g0 hc.2, hc.1.1.1.1.1.2]; rfl
  · cases g1

/-- An installed cipher comes directly after NEWKEYS, which is a packet. -/
theorem in_ext {e : KexEnv} {y : KxSys} (hi : SysInv e role y) (hcalm : Calmed y.kx) (hd : ∀ m, (e.digest m).length = 32) (hs : y.stop = none) {ev : KxEvent}
    (hev : EventOk ev) (ho : hasIn y.kx.log = false) (hn : hasIn (y.step e ev).kx.log = true) :
    ∃ body claim, ev = .packet (21 :: body) claim ∧ y.kx.versionExchanged = true := by
  have hinv := hi.step hd hev
  have hsafe : Safe e role (y.step e ev).kx := by
    unfold SysInv at hinv
    split at hinv
    · obtain ⟨φ, hinv⟩ := hinv; exact hinv.safe
    · exact hinv.1
  simp only [hasIn, List.any_eq_true] at hn
  obtain ⟨z, hz, hz'⟩ := hn
  cases z <;> simp at hz'
  rename_i enc mac k
  obtain ⟨pre, post, hl⟩ := List.append_of_mem hz
  obtain ⟨-, pre', body, rfl⟩ := hsafe.every pre (.installIn enc mac k) post hl
  -- the log before the event ends before the cipher
  have hi' := hi
  unfold SysInv at hi'
  rw [hs] at hi'
  obtain ⟨φ, hr⟩ := hi'
  have hnot : y.kx.log ≠ pre' ++ [.recv (21 :: body)] := by
    intro hc
    have hp := hr.phase
    rw [hc, phaseOf_snoc] at hp
    cases hq : phaseOf pre' with
    | none => rw [hq] at hp; cases hp
    | some ψ =>
      rw [hq, Option.bind_some] at hp
      simp only [Phase.next, isMsg, List.head?_cons] at hp
      have hnr := hr.noNewRecv
      have hal := hr.alive
      split at hp
      · cases hp
      have e1 : (some (21 : UInt8) == some 20) = false := by decide
      have e2 : (some (21 : UInt8) == some 21) = true := by decide
      simp only [e1, e2, Bool.false_eq_true, if_false, if_true] at hp
      split at hp
      · cases hp; cases hnr
      · cases hp; cases hal
  obtain ⟨ext, hext⟩ : ∃ ext, (y.step e ev).kx.log = y.kx.log ++ ext := by
    by_cases hp : ∃ raw claim, ev = .packet raw claim
    · obtain ⟨raw, claim, rfl⟩ := hp
      exact step_grow.1
    · exact (other_still (e := e) (y := y) (ev := ev) (fun raw claim h => hp ⟨raw, claim, h⟩)).log.imp fun _ h => h.1
  have hlen : ∃ c, ext = c ++ .recv (21 :: body) :: .installIn enc mac k :: post := by
    rw [hext] at hl
    have hl' : y.kx.log ++ ext = pre' ++ ([.recv (21 :: body)] ++ .installIn enc mac k :: post) := by rw [hl]; simp
    rcases List.append_eq_append_iff.mp hl' with ⟨c, h1, h2⟩ | ⟨c, h1, h2⟩
    · exact ⟨c, by rw [h2]; simp⟩
    · cases c with
      | nil => exact ⟨[], by simpa using h2.symm⟩
      | cons a c =>
        simp only [List.cons_append, List.nil_append, List.cons.injEq] at h2
        obtain ⟨rfl, h2⟩ := h2
        cases c with
        | nil => exact absurd h1 hnot
        | cons b c =>
          simp only [List.cons_append, List.cons.injEq] at h2
          obtain ⟨rfl, -⟩ := h2
          rw [h1] at ho
          simp [hasIn] at ho
  obtain ⟨c, rfl⟩ := hlen
  by_cases hp : ∃ raw claim, ev = .packet raw claim
  · obtain ⟨raw, claim, rfl⟩ := hp
    have hv : y.kx.versionExchanged = true := by
      cases hv : y.kx.versionExchanged with
      | true => rfl
      | false =>
        have : (y.step e (.packet raw claim)) = y := by
          obtain ⟨s, stop⟩ := y
          cases hs
          simp only at hv
          simp only [KxSys.step, hv, cond_false]
        rw [this] at hext
        have := congrArg List.length hext
        simp at this
    obtain ⟨ext', h1, h2, -⟩ := packet_moves (e := e) (claim := claim) (raw := raw) hcalm hs hv
    rw [hext] at h1
    have h3 := List.append_cancel_left h1
    cases c with
    | nil =>
      simp only [List.nil_append, List.cons.injEq, Entry.recv.injEq] at h3
      exact ⟨body, claim, by rw [← h3.1], hv⟩
    | cons a c =>
      simp only [List.cons_append, List.cons.injEq] at h3
      exact absurd (by rw [← h3.2]; simp) (h2 (21 :: body))
  · obtain ⟨ext', h1, h2⟩ := (other_still (e := e) (y := y) (ev := ev) (fun raw claim h => hp ⟨raw, claim, h⟩)).log
    rw [hext] at h1
    have := List.append_cancel_left h1
    exact absurd (by rw [← this]; simp) (h2 (21 :: body))

/-- The first KEXINIT of the peer decides whether sequence numbers restart. -/
theorem reset_known {evs : List KxEvent} (hd : ∀ m, (e.digest m).length = 32) (hev : ∀ ev ∈ evs, EventOk ev)
    (hin : hasIn ((KxSys.init role).run e evs).kx.log = true) :
    ∃ l k p rest, received ((KxSys.init role).run e evs).kx.log = l ++ (20 :: k) :: rest ∧ (∀ q ∈ l, isMsg 20 q = false) ∧
      parseKexInit.parse k = some p ∧
      ((KxSys.init role).run e evs).kx.inReset = stringListContains p.kex (strictMarker role) := by
  induction evs using Aux.snoc_ind with
  | h0 => cases hin
  | h1 evs ev ih =>
    have hev' : ∀ z ∈ evs, EventOk z := fun z hz => hev z (List.mem_append_left _ hz)
    have hok : EventOk ev := hev ev (by simp)
    rw [run_snoc] at hin ⊢
    cases hs : ((KxSys.init role).run e evs).stop with
    | some z =>
      rw [step_stopped (by rw [hs]; simp)] at hin ⊢
      exact ih hev' hin
    | none =>
      have hinv := run_inv (role := role) hd hev'
      have hcalm := calmed_run (role := role) hd hev' hs
      obtain ⟨φ, hr⟩ := run_rest (role := role) hd hev' hs
      cases hi : hasIn ((KxSys.init role).run e evs).kx.log with
      | true =>
        obtain ⟨l, k, p, rest, h1, h2, h3, h4⟩ := ih hev' hi
        have hie : ((KxSys.init role).run e evs).kx.inputEncrypted = true := by rw [hr.inEnc, hi]
        have hsame : (((KxSys.init role).run e evs).step e ev).kx.inReset = ((KxSys.init role).run e evs).kx.inReset := by
          by_cases hp : ∃ raw claim, ev = .packet raw claim
          · obtain ⟨raw, claim, rfl⟩ := hp
            cases hv : ((KxSys.init role).run e evs).kx.versionExchanged with
            | true =>
              obtain ⟨ext, -, -, h | h⟩ := packet_moves (e := e) (claim := claim) (raw := raw) hcalm hs hv
              · exact h.1
              · rw [hie] at h; cases h.2.2.1
            | false =>
              have hst : ∀ y : KxSys, y.stop = none → y.kx.versionExchanged = false → y.step e (.packet raw claim) = y := by
                intro y h1 h2
                obtain ⟨s, stop⟩ := y
                cases h1
                simp only at h2
                simp only [KxSys.step, h2, cond_false]
              rw [hst _ hs hv]
          · exact (other_still (fun raw claim h => hp ⟨raw, claim, h⟩)).inR
        obtain ⟨ext, hext⟩ := (step_grow (e := e) (y := (KxSys.init role).run e evs) (ev := ev)).1
        refine ⟨l, k, p, rest ++ received ext, ?_, h2, h3, by rw [hsame]; exact h4⟩
        rw [hext, received_append, h1]; simp
      | false =>
        obtain ⟨body, claim, rfl, hv⟩ := in_ext hinv hcalm hd hs hok hi hin
        have hsame := packet_not20 (e := e) (msg := 21) (body := body) (claim := claim) hs hv (by decide)
        obtain ⟨ext, hext, hno, -⟩ := packet_moves (e := e) (claim := claim) (raw := 21 :: body) hcalm hs hv
        have hrec : received (((KxSys.init role).run e evs).step e (.packet (21 :: body) claim)).kx.log =
            received ((KxSys.init role).run e evs).kx.log ++ [21 :: body] := by
          have : received ext = [] := by
            simp only [received, List.filterMap_eq_nil_iff]
            intro z hz
            cases z <;> first | rfl | exact absurd hz (hno _)
          rw [hext, received_append]
          congr 1
          change (21 :: body) :: received ext = _
          rw [this]
        rcases run_reset (role := role) hd hev' hs with ⟨h1, -⟩ | ⟨l, k, p, rest, h1, h2, h3, h4, h5, -⟩
        · obtain ⟨ψ, hψ⟩ := (run_safe (role := role) (e := e) (evs := evs ++ [.packet (21 :: body) claim]) hd hev).phase
          rw [run_snoc] at hψ
          obtain ⟨q, hq, hm⟩ := phase_kexRecv hψ (.inr hin)
          rw [hrec] at hq
          rcases List.mem_append.mp hq with hq | hq
          · rw [h1 q hq] at hm; cases hm
          · rw [List.mem_singleton.mp hq] at hm; exact absurd hm (by simp [isMsg])
        · refine ⟨l, k, p, rest ++ [21 :: body], by rw [hrec, h1]; simp, h2, h3, ?_⟩
          rw [hsame, h5, h4, hr.roleEq]

/-- The KEXINIT of a Lukko announces strict key exchange. -/
theorem own_strict {evs : List KxEvent} (hd : ∀ x, (e.digest x).length = 32) (hev : ∀ ev ∈ evs, EventOk ev)
    (hc : ∀ n, (e.cookie n).length = 16) {pre post k}
    (hl : ((KxSys.init .server).run e evs).kx.log = pre ++ post) (hz : Sized pre) (hk : lastSent 20 pre = some k) :
    ∃ p, parseKexInit.parse k = some p ∧ stringListContains p.kex (strictMarker .client) = true := by
  have hs := run_safe (role := .server) hd hev
  have hlen := hz.lastSent hk
  obtain ⟨p, h1, h2, h3⟩ := lastSent_mem hk
  obtain ⟨a, b, hab⟩ := List.append_of_mem h1
  obtain ⟨i, ser, hser, hp⟩ := (hs.every a (.sent p) (b ++ post) (by rw [hl, hab]; simp)).2 h2
  obtain ⟨p1, p2⟩ := makeKexInit_payload hser
  have hkk : k = ser.since 6 := by rw [← h3, hp, p1]; rfl
  rw [hkk] at hlen ⊢
  rw [p2] at hlen ⊢
  simp only [Spec.kexInitBody, List.map_cons, List.flatten_cons, List.length_append, str_length] at hlen
  have := (C05_kexinit (e.cookie i) (e.proposal .server) (hc i)
    (by omega) (by omega) (by omega) (by omega) (by omega) (by omega) (by omega) (by omega) (by omega) (by omega)).2
  exact ⟨_, by rw [Parser.parse, this.1]; rfl, C17_announced (e := e) .server⟩

/-- In the first exchange there is only one KEXINIT of the peer. -/
theorem one_kexinit {l rest : List Bytes} {k k' : Bytes} {q : Bytes} (hc : (l ++ (20 :: k) :: rest).countP (isMsg 20) = 1)
    (hq : q ∈ l ++ (20 :: k) :: rest) (hm : isMsg 20 q = true) (hk : q.tail = k') : k = k' := by
  rw [List.countP_append, List.countP_cons] at hc
  simp only [isMsg, List.head?_cons, beq_self_eq_true, if_true] at hc
  have h1 : l.countP (isMsg 20) = 0 := by simp only [isMsg] at *; omega
  have h2 : rest.countP (isMsg 20) = 0 := by simp only [isMsg] at *; omega
  rw [List.countP_eq_zero] at h1 h2
  rcases List.mem_append.mp hq with hq | hq
  · exact absurd hm (h1 q hq)
  · rcases List.mem_cons.mp hq with rfl | hq
    · exact hk
    · exact absurd hm (h2 q hq)

end Lukko
