import Verif.Proof.KexInv
/-
  What each function of the key exchange leaves alone, and the bookkeeping of
  strict key exchange.
-/
namespace Lukko
open Spec Model

@[simp] theorem inBytes_snoc (l : List Entry) (x : Entry) :
    received (l ++ [x]) = received l ++ (match x with | .recv p => [p] | _ => []) := by
  cases x <;> simp [received]

/-- Part of the state is left alone; nothing is taken from the network. -/
structure Frame (s s' : Kx) : Prop where
  log : ∃ ext, s'.log = s.log ++ ext ∧ received s'.log = received s.log
  strict : s'.peerWantsStrict = s.peerWantsStrict
  first : s'.firstPacketWasKexinit = s.firstPacketWasKexinit
  ignore : s'.ignoreNextKexPacket = s.ignoreNextKexPacket
  wb : s'.writeBlocked = s.writeBlocked
  role : s'.role = s.role
  mono : s.inputEncrypted = true → s'.inputEncrypted = true
  kex : s'.inputEncrypted = true ∨ s'.flags.kexinitReceived = s.flags.kexinitReceived
  reset : s'.inReset = s.inReset ∧ s'.outReset = s.outReset

theorem Frame.rfl' {s : Kx} : Frame s s := ⟨⟨[], by simp⟩, rfl, rfl, rfl, rfl, rfl, id, .inr rfl, rfl, rfl⟩

theorem Frame.trans {a b c : Kx} (h : Frame a b) (h' : Frame b c) : Frame a c := by
  obtain ⟨⟨x, e1, e2⟩, h1, h2, h3, h4, h5, h6, h7, h8⟩ := h
  obtain ⟨⟨x', e1', e2'⟩, h1', h2', h3', h4', h5', h6', h7', h8'⟩ := h'
  refine ⟨⟨x ++ x', by simp [e1', e1], e2'.trans e2⟩, h1'.trans h1, h2'.trans h2, h3'.trans h3, h4'.trans h4,
    h5'.trans h5, fun h => h6' (h6 h), ?_, h8'.1.trans h8.1, h8'.2.trans h8.2⟩
  rcases h7' with h7' | h7'
  · exact .inl h7'
  · rcases h7 with h7 | h7
    · exact .inl (h6' h7)
    · exact .inr (h7'.trans h7)

theorem Frame.emit {s : Kx} {x : Entry} (h : ∀ p, x ≠ .recv p) : Frame s (s.emit x) := by
  refine ⟨⟨[x], rfl, ?_⟩, rfl, rfl, rfl, rfl, rfl, id, .inr rfl, rfl, rfl⟩
  rw [emit_log, inBytes_snoc]; cases x <;> simp_all

theorem Frame.andThen {s : Kx} {r : KRes} {f : Kx → KRes} (h : Frame s r.1) (hf : ∀ x, Frame x (f x).1) :
    Frame s (r.andThen f).1 := by
  unfold KRes.andThen
  split
  · exact h.trans (hf _)
  · exact h

theorem Frame.sendSer {s : Kx} {p} : Frame s (s.sendSer p).1 := by
  unfold Kx.sendSer
  split
  · exact Frame.emit (by simp)
  · exact Frame.rfl'

theorem Frame.sendKexInit {e} {s : Kx} : Frame s (s.sendKexInit e).1 := by
  unfold Kx.sendKexInit
  rw [Bool.cond_eq_ite]
  split
  · exact Frame.rfl'
  · split
    · exact Frame.rfl'
    · simp only
      refine Frame.trans ?_ (Frame.emit (by simp))
      rw [Bool.cond_eq_ite]
      split
      · refine Frame.trans ?_ (Frame.emit (by simp))
        exact ⟨⟨[], by simp⟩, rfl, rfl, rfl, rfl, rfl, id, .inr rfl, rfl, rfl⟩
      · exact ⟨⟨[], by simp⟩, rfl, rfl, rfl, rfl, rfl, id, .inr rfl, rfl, rfl⟩

theorem Frame.ensureKexInit {e} {s : Kx} : Frame s (s.ensureKexInit e).1 := by
  unfold Kx.ensureKexInit
  rw [Bool.cond_eq_ite]
  split
  · exact Frame.rfl'
  · exact Frame.sendKexInit

theorem Frame.sendECDHKexInit {e} {s : Kx} : Frame s (s.sendECDHKexInit e).1 := by
  unfold Kx.sendECDHKexInit
  split
  · exact Frame.rfl'
  · rw [Bool.cond_eq_ite]
    split
    · exact Frame.rfl'
    · exact Frame.sendSer

theorem Frame.deriveKeys {e} {s : Kx} {t hash} : Frame s (s.deriveKeys e t hash).1 := by
  unfold Kx.deriveKeys
  split
  · exact Frame.rfl'
  · refine Frame.trans ?_ (Frame.emit (by simp))
    exact ⟨⟨[], by simp⟩, rfl, rfl, rfl, rfl, rfl, id, .inr rfl, rfl, rfl⟩

theorem Frame.sendReply {e} {s : Kx} {ceph} : Frame s (s.sendECDHKexInitReply e ceph).1 := by
  unfold Kx.sendECDHKexInitReply
  split
  · exact Frame.rfl'
  · exact Frame.rfl'
  · rw [Bool.cond_eq_ite]
    split
    · exact Frame.rfl'
    · simp only
      split
      · exact Frame.rfl'
      · split
        · exact Frame.rfl'
        · exact Frame.andThen Frame.sendSer (fun _ => Frame.deriveKeys)

theorem Frame.ite {s a b : Kx} {c : Bool} (h : Frame s a) (h' : Frame s b) : Frame s (bif c then a else b) := by
  cases c <;> assumption

theorem Frame.sendNewKeys {s : Kx} : Frame s s.sendNewKeys.1 := by
  unfold Kx.sendNewKeys
  rw [Bool.cond_eq_ite]
  split
  · exact Frame.rfl'
  · rename_i hg
    have hn : s.flags.newkeysReceived = false := by
      simp only [Bool.not_eq_true, Bool.or_eq_false_iff] at hg; exact hg.2
    have h1 : Frame s { s.emit (.sent [MSG_NEWKEYS]) with flags := { s.flags with newkeysSent := true } } :=
      (Frame.emit (x := .sent [MSG_NEWKEYS]) (by simp)).trans
        ⟨⟨[], by simp⟩, rfl, rfl, rfl, rfl, rfl, id, .inr rfl, rfl, rfl⟩
    simp only
    split
    · exact h1
    · have hr : (({ s.flags with newkeysSent := true } : KexFlags)).resetIfComplete = { s.flags with newkeysSent := true } := by
        simp [KexFlags.resetIfComplete, hn]
      simp only [Kx.emit] at h1 ⊢
      simp only [hr]
      clear h1
      simp only [Bool.cond_eq_ite]
      split <;> split <;>
        refine ⟨⟨_, by simp only [List.append_assoc]; rfl, ?_⟩, rfl, rfl, rfl, rfl, rfl, id, .inr rfl, rfl, rfl⟩
      all_goals simp [received]

theorem Frame.handleECDHKexInit {e} {s : Kx} {body} : Frame s (s.handleECDHKexInit e body).1 := by
  unfold Kx.handleECDHKexInit
  simp only [Bool.cond_eq_ite]
  split
  · exact Frame.rfl'
  split
  · exact Frame.rfl'
  split
  · exact Frame.rfl'
  · refine Frame.andThen (Frame.andThen Frame.sendReply (fun _ => Frame.sendNewKeys)) (fun x => ?_)
    split
    · exact Frame.sendSer
    · exact Frame.rfl'

theorem Frame.handleReply {e} {s : Kx} {body} : Frame s (s.handleECDHKexInitReply e body).1 := by
  unfold Kx.handleECDHKexInitReply
  simp only [Bool.cond_eq_ite]
  split
  · exact Frame.rfl'
  split
  · exact Frame.rfl'
  split
  · exact Frame.rfl'
  · exact Frame.rfl'
  · exact Frame.rfl'
  · split
    · exact Frame.rfl'
    · split
      · exact Frame.rfl'
      · split
        · exact Frame.rfl'
        · exact Frame.andThen Frame.deriveKeys (fun _ => Frame.sendNewKeys)

theorem Frame.handleNewKeys {s : Kx} : Frame s s.handleNewKeys.1 := by
  unfold Kx.handleNewKeys
  rw [Bool.cond_eq_ite]
  split
  · exact Frame.rfl'
  · simp only [Bool.cond_eq_ite]
    split
    · exact ⟨⟨[], by simp⟩, rfl, rfl, rfl, rfl, rfl, id, .inr rfl, rfl, rfl⟩
    · split
      · exact ⟨⟨[], by simp⟩, rfl, rfl, rfl, rfl, rfl, id, .inr rfl, rfl, rfl⟩
      · simp only
        split <;>
          refine ⟨⟨_, by simp only [Kx.emit, List.append_assoc]; rfl, ?_⟩, rfl, rfl, rfl, rfl, rfl, fun _ => rfl, .inl rfl, rfl, rfl⟩
        all_goals simp [received, Kx.emit]

/-- Every message but KEXINIT. -/
theorem Frame.handlePacket₂ {e} {s : Kx} {msg body claim} (h : msg ≠ 20 ∨ claim ≠ .unclaimed) :
    Frame s (s.handlePacket₂ e msg body claim).1 := by
  unfold Kx.handlePacket₂
  split
  · exact Frame.rfl'
  · exact Frame.rfl'
  · have h20 : msg ≠ 20 := by rcases h with h | h <;> first | exact h | exact absurd rfl h
    unfold Kx.dispatch
    split
    · split <;> exact Frame.rfl'
    split
    · exact Frame.rfl'
    split
    · exact Frame.rfl'
    split
    · exact Frame.handleNewKeys
    split
    · exact Frame.handleECDHKexInit
    split
    · exact Frame.handleReply
    · exact Frame.sendSer

/-! ### KEXINIT -/

/-- `HandleKexInit` leaves alone. -/
structure Grow (s s' : Kx) : Prop where
  log : ∃ ext, s'.log = s.log ++ ext
  wb : s'.writeBlocked = s.writeBlocked
  role : s'.role = s.role

theorem Frame.grow {s s' : Kx} (h : Frame s s') : Grow s s' := ⟨let ⟨x, h, _⟩ := h.log; ⟨x, h⟩, h.wb, h.role⟩

theorem Grow.rfl' {s : Kx} : Grow s s := ⟨⟨[], by simp⟩, rfl, rfl⟩

theorem Grow.trans {a b c : Kx} (h : Grow a b) (h' : Grow b c) : Grow a c := by
  obtain ⟨⟨x, e1⟩, h4, h5⟩ := h
  obtain ⟨⟨x', e1'⟩, h4', h5'⟩ := h'
  exact ⟨⟨x ++ x', by simp [e1', e1]⟩, h4'.trans h4, h5'.trans h5⟩

theorem Grow.andThen {s : Kx} {r : KRes} {f : Kx → KRes} (h : Grow s r.1) (hf : ∀ x, Grow x (f x).1) :
    Grow s (r.andThen f).1 := by
  unfold KRes.andThen
  split
  · exact h.trans (hf _)
  · exact h

theorem Grow.handleKexInit₂ {e} {s : Kx} {p neg} : Grow s (s.handleKexInit₂ e p neg).1 := by
  unfold Kx.handleKexInit₂
  simp only [Bool.cond_eq_ite]
  split
  · exact Grow.rfl'
  split
  · split
    · exact ⟨⟨[], by simp⟩, rfl, rfl⟩
    · rename_i hk alg _
      refine Grow.andThen (Grow.trans (b := { s with hostKey := some hk, hostKeyAlgorithm := alg }) ?_ Frame.ensureKexInit.grow) (fun x => ?_)
      · exact ⟨⟨[], by simp⟩, rfl, rfl⟩
      · exact ⟨⟨[], by simp⟩, rfl, rfl⟩
  · exact (Frame.andThen Frame.ensureKexInit (fun _ => Frame.sendECDHKexInit)).grow

theorem Grow.handleKexInit {e} {s : Kx} {body} : Grow s (s.handleKexInit e body).1 := by
  unfold Kx.handleKexInit
  simp only [Bool.cond_eq_ite]
  split
  · exact Grow.rfl'
  split
  · exact Grow.rfl'
  · split
    · exact ⟨⟨[], by simp⟩, rfl, rfl⟩
    · refine Grow.trans ?_ Grow.handleKexInit₂
      exact ⟨⟨[], by simp⟩, rfl, rfl⟩

theorem Grow.handlePacket₂ {e} {s : Kx} {msg body claim} : Grow s (s.handlePacket₂ e msg body claim).1 := by
  by_cases h : msg ≠ 20 ∨ claim ≠ .unclaimed
  · exact (Frame.handlePacket₂ h).grow
  · simp only [not_or, Decidable.not_not] at h
    obtain ⟨rfl, rfl⟩ := h
    exact Grow.handleKexInit

theorem Grow.handleRawPacket {e} {s : Kx} {raw claim} : Grow s (s.handleRawPacket e raw claim).1 := by
  have h0 : Grow s (s.emit (.recv raw)) := ⟨⟨_, rfl⟩, rfl, rfl⟩
  unfold Kx.handleRawPacket
  refine h0.trans ?_
  cases raw with
  | nil => exact Grow.rfl'
  | cons msg body =>
    generalize s.emit (.recv (msg :: body)) = s
    unfold Kx.handlePacket
    simp only [Bool.cond_eq_ite]
    split
    · exact Grow.handlePacket₂
    split
    · refine Grow.trans ?_ Grow.handlePacket₂
      exact ⟨⟨[], by simp⟩, rfl, rfl⟩
    split
    · split
      · exact ⟨⟨[], by simp⟩, rfl, rfl⟩
      · refine Grow.trans ?_ Grow.handlePacket₂
        exact ⟨⟨[], by simp⟩, rfl, rfl⟩
    split
    · exact Grow.rfl'
    · exact Grow.handlePacket₂

theorem Grow.finish {s : Kx} {r : KRes} (h : Grow s r.1) : Grow s (KxSys.finish r).kx := by
  unfold KxSys.finish
  split
  · exact h
  · exact h.trans ⟨⟨_, rfl⟩, rfl, rfl⟩
  · exact h

/-- What the event says about congestion. -/
def congestedAfter (b : Bool) : KxEvent → Bool
  | .writable more => more
  | _ => b

theorem onBufferedWrite_grow {s : Kx} {more} : (∃ ext, (s.onBufferedWrite more).log = s.log ++ ext) ∧
    (s.onBufferedWrite more).writeBlocked = more ∧ (s.onBufferedWrite more).role = s.role := by
  unfold Kx.onBufferedWrite
  simp only [Bool.cond_eq_ite]
  cases more with
  | false =>
    simp only [Bool.false_eq_true, if_false]
    split
    · exact ⟨⟨_, rfl⟩, rfl, rfl⟩
    · exact ⟨⟨[], by simp⟩, rfl, rfl⟩
  | true =>
    simp only [if_true]
    split <;> split
    · exact ⟨⟨_, by simp only [Kx.emit, List.append_assoc]; rfl⟩, rfl, rfl⟩
    · exact ⟨⟨_, rfl⟩, rfl, rfl⟩
    · exact ⟨⟨_, rfl⟩, rfl, rfl⟩
    · exact ⟨⟨[], by simp⟩, rfl, rfl⟩

theorem step_grow {e} {y : KxSys} {ev} : (∃ ext, (y.step e ev).kx.log = y.kx.log ++ ext) ∧
    (y.stop = none → (y.step e ev).kx.writeBlocked = congestedAfter y.kx.writeBlocked ev) := by
  obtain ⟨s, stop⟩ := y
  unfold KxSys.step
  have same : Grow s s := Grow.rfl'
  have of : ∀ {s'} {P : Prop}, Grow s s' → (∃ ext, s'.log = s.log ++ ext) ∧ (P → s'.writeBlocked = s.writeBlocked) :=
    fun h => ⟨h.log, fun _ => h.wb⟩
  cases stop with
  | some x => exact ⟨⟨[], by simp⟩, by simp⟩
  | none =>
    cases ev with
    | version v =>
      simp only [congestedAfter, Bool.cond_eq_ite]
      split
      · exact of same
      · refine of (Grow.finish ?_)
        unfold Kx.onVersion
        have h0 : Grow s ({ s with peerVersion := v, versionExchanged := true }.emit (.version v)) := ⟨⟨_, rfl⟩, rfl, rfl⟩
        simp only [Bool.cond_eq_ite]
        split
        · exact h0.trans Frame.sendKexInit.grow
        · exact h0
    | packet raw claim =>
      simp only [congestedAfter, Bool.cond_eq_ite]
      split
      · exact of (Grow.finish Grow.handleRawPacket)
      · exact of same
    | authenticated =>
      simp only [congestedAfter, Bool.cond_eq_ite]
      split
      · refine of (Grow.finish ?_)
        unfold Kx.setAuthenticated
        simp only [Bool.cond_eq_ite]
        split
        · exact same
        · exact ⟨⟨[], by simp⟩, rfl, rfl⟩
      · exact of same
    | rekeyTimer =>
      simp only [congestedAfter, Bool.cond_eq_ite]
      split
      · refine of (Grow.finish ?_)
        unfold Kx.initiateRekey
        simp only [Bool.cond_eq_ite]
        split
        · exact same
        split
        · exact same
        · exact Frame.sendKexInit.grow
      · exact of same
    | writable more =>
      have := onBufferedWrite_grow (s := s) (more := more)
      exact ⟨this.1, fun _ => this.2.1⟩

theorem run_snoc {e} {y : KxSys} {evs ev} : y.run e (evs ++ [ev]) = (y.run e evs).step e ev := by
  simp [KxSys.run]

theorem step_stopped {e} {y : KxSys} {ev} (h : y.stop ≠ none) : y.step e ev = y := by
  unfold KxSys.step; cases hy : y.stop with
  | none => exact absurd hy h
  | some x => rfl

/-- Histories only grow. -/
theorem run_grow {e} {y : KxSys} {evs} : ∃ ext, (y.run e evs).kx.log = y.kx.log ++ ext := by
  unfold KxSys.run
  induction evs generalizing y with
  | nil => exact ⟨[], by simp⟩
  | cons ev evs ih =>
    obtain ⟨x, hx⟩ := (step_grow (e := e) (y := y) (ev := ev)).1
    obtain ⟨x', hx'⟩ := ih (y := y.step e ev)
    exact ⟨x ++ x', by simp only [List.foldl_cons, hx', hx, List.append_assoc]⟩

theorem run_congested {e} {y : KxSys} {evs} (h : (y.run e evs).stop = none) :
    (y.run e evs).kx.writeBlocked = evs.foldl congestedAfter y.kx.writeBlocked := by
  unfold KxSys.run at h ⊢
  induction evs generalizing y with
  | nil => rfl
  | cons ev evs ih =>
    simp only [List.foldl_cons] at h ⊢
    rw [ih h]
    congr 1
    refine (step_grow (e := e) (y := y) (ev := ev)).2 ?_
    cases hy : y.stop with
    | none => rfl
    | some x =>
      have stuck : ∀ evs : List KxEvent, evs.foldl (KxSys.step e) y = y := by
        intro evs
        induction evs with
        | nil => rfl
        | cons a l ih => rw [List.foldl_cons, step_stopped (by rw [hy]; simp)]; exact ih
      rw [step_stopped (by rw [hy]; simp), stuck, hy] at h
      simp at h

end Lukko
