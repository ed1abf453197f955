import Verif.Prop.Transport
import Verif.Proof.KexExt
/-
  What the key exchange sends in response to one event: how much, and when it is UNIMPLEMENTED.
-/
namespace Lukko
open Spec Model

variable {σ : Type} {x : TransEnv σ} {role : Role}

/-! ### What is sent -/

/-- At most `k` packets are sent, none of them UNIMPLEMENTED, and nothing is received. -/
structure Says (k : Nat) (s s' : Kx) : Prop where
  log : ∃ ext, s'.log = s.log ++ ext ∧ (∀ p, .sent p ∈ ext → isMsg 3 p = false) ∧
    (sentPackets ext).length ≤ k ∧ ∀ p, .recv p ∉ ext

theorem Says.rfl' {k : Nat} {s : Kx} : Says k s s := ⟨⟨[], by simp, by simp, by simp [sentPackets], by simp⟩⟩

theorem Says.same {k : Nat} {s s' : Kx} (h : s'.log = s.log) : Says k s s' :=
  ⟨⟨[], by simp [h], by simp, by simp [sentPackets], by simp⟩⟩

theorem Says.mono {k m : Nat} {s s' : Kx} (h : Says k s s') (hk : k ≤ m) : Says m s s' := by
  obtain ⟨ext, h1, h2, h3, h4⟩ := h.log
  exact ⟨⟨ext, h1, h2, by omega, h4⟩⟩

theorem Says.trans {k m : Nat} {a b c : Kx} (h : Says k a b) (h' : Says m b c) : Says (k + m) a c := by
  obtain ⟨x, e1, d1, n1, r1⟩ := h.log
  obtain ⟨y, e2, d2, n2, r2⟩ := h'.log
  refine ⟨⟨x ++ y, by rw [e2, e1, List.append_assoc], ?_, ?_, ?_⟩⟩
  · intro p hp
    rcases List.mem_append.mp hp with hp | hp
    · exact d1 p hp
    · exact d2 p hp
  · rw [sentPackets_append, List.length_append]; omega
  · intro p hp
    rcases List.mem_append.mp hp with hp | hp
    · exact r1 p hp
    · exact r2 p hp

theorem Says.emit {s : Kx} {p : Bytes} (h : isMsg 3 p = false) : Says 1 s (s.emit (.sent p)) :=
  ⟨⟨[.sent p], rfl, by intro q hq; simp at hq; rw [hq]; exact h, by simp [sentPackets], by simp⟩⟩

/-- Nothing is sent. -/
theorem Says.mute {s s' : Kx} {ext : List Entry} (h : s'.log = s.log ++ ext) (hm : Mute ext) : Says 0 s s' :=
  ⟨⟨ext, h, fun p hp => absurd rfl ((hm _ hp).1 p), by rw [hm.sent]; simp, fun p hp => (hm _ hp).2 p rfl⟩⟩

theorem Says.say {s : Kx} {x : Entry} (h : ∀ p, x ≠ .sent p) (h' : ∀ p, x ≠ .recv p) : Says 0 s (s.emit x) :=
  Says.mute (ext := [x]) rfl (by intro y hy; simp at hy; subst hy; exact ⟨h, h'⟩)

theorem Says.andThen {k m : Nat} {s : Kx} {r : KRes} {f : Kx → KRes} (h : Says k s r.1) (hf : ∀ x, Says m x (f x).1) :
    Says (k + m) s (r.andThen f).1 := by
  unfold KRes.andThen
  split
  · exact h.trans (hf _)
  · exact h.mono (by omega)

theorem Says.sendSer {s : Kx} {p} (h : ∀ ser, p = .ok ser → ∃ n t, ser.since 5 = n :: t ∧ n ≠ 3) :
    Says 1 s (s.sendSer p).1 := by
  unfold Kx.sendSer
  split
  · rename_i ser
    obtain ⟨n, t, e, h1⟩ := h ser rfl
    refine Says.emit ?_
    rw [e]
    simp [isMsg, h1]
  · exact Says.rfl'

theorem Says.sendKexInit {e} {s : Kx} : Says 1 s (s.sendKexInit e).1 := by
  unfold Kx.sendKexInit
  rw [Bool.cond_eq_ite]
  split
  · exact Says.rfl'
  · split
    · exact Says.rfl'
    · rename_i ser hser
      have hp := (makeKexInit_payload hser).1
      simp only
      refine Says.trans (k := 0) ?_ (Says.emit (by rw [hp]; simp [isMsg]))
      rw [Bool.cond_eq_ite]
      split
      · exact Says.mute (ext := [.blocked]) rfl (by simp [Mute])
      · exact Says.same rfl

theorem Says.ensureKexInit {e} {s : Kx} : Says 1 s (s.ensureKexInit e).1 := by
  unfold Kx.ensureKexInit
  rw [Bool.cond_eq_ite]
  split
  · exact Says.rfl'
  · exact Says.sendKexInit

theorem Says.sendECDHKexInit {e} {s : Kx} : Says 1 s (s.sendECDHKexInit e).1 := by
  unfold Kx.sendECDHKexInit
  split
  · exact Says.rfl'
  · rw [Bool.cond_eq_ite]
    split
    · exact Says.rfl'
    · exact Says.sendSer fun ser h => ⟨_, _, makeECDHKexInit_payload h, by decide⟩

theorem Says.deriveKeys {e} {s : Kx} {t hash} : Says 0 s (s.deriveKeys e t hash).1 := by
  unfold Kx.deriveKeys
  split
  · exact Says.rfl'
  · exact Says.mute rfl (by simp [Mute])

theorem Says.sendReply {e} {s : Kx} {ceph} : Says 1 s (s.sendECDHKexInitReply e ceph).1 := by
  unfold Kx.sendECDHKexInitReply
  split
  · exact Says.rfl'
  · exact Says.rfl'
  · rw [Bool.cond_eq_ite]
    split
    · exact Says.rfl'
    · simp only
      split
      · exact Says.rfl'
      · split
        · exact Says.rfl'
        · exact Says.andThen (k := 1) (m := 0) (Says.sendSer fun ser h => ⟨_, _, makeECDHKexInitReply_payload h, by decide⟩)
            (fun _ => Says.deriveKeys)

theorem Says.sendNewKeys {s : Kx} : Says 1 s s.sendNewKeys.1 := by
  rcases sendNewKeys_switched (s := s) with h1 | ⟨⟨t, e, m⟩, -⟩
  · rw [h1.1]; exact Says.rfl'
  · refine ⟨⟨_, e, ?_, by rw [sentPackets_mute m]; simp, ?_⟩⟩
    · intro p hp
      rcases List.mem_cons.mp hp with hp | hp
      · cases hp; rfl
      · exact absurd rfl ((m _ hp).1 p)
    · intro p hp
      rcases List.mem_cons.mp hp with hp | hp
      · cases hp
      · exact absurd rfl ((m _ hp).2 p)

theorem Says.handleReply {e} {s : Kx} {body} : Says 1 s (s.handleECDHKexInitReply e body).1 := by
  unfold Kx.handleECDHKexInitReply
  cases hr : s.role != .client with
  | true => exact Says.rfl'
  | false =>
    rw [cond_false, Bool.cond_eq_ite]
    split
    · exact Says.rfl'
    split
    · exact Says.rfl'
    · exact Says.rfl'
    · exact Says.rfl'
    · rw [Bool.cond_eq_ite]
      split
      · exact Says.rfl'
      simp only
      split
      · exact Says.rfl'
      · rw [Bool.cond_eq_ite]
        split
        · exact Says.rfl'
        · exact Says.andThen (k := 0) (m := 1) Says.deriveKeys fun _ => Says.sendNewKeys

theorem Says.ite {k : Nat} {s a b : Kx} {c : Prop} [Decidable c] (h : Says k s a) (h' : Says k s b) :
    Says k s (if c then a else b) := by
  split <;> assumption

theorem Says.handleNewKeys {s : Kx} : Says 0 s s.handleNewKeys.1 := by
  unfold Kx.handleNewKeys
  simp only [Bool.cond_eq_ite]
  split
  · exact Says.rfl'
  split
  · exact Says.same rfl
  split
  · exact Says.same rfl
  · simp only [Kx.emit]
    refine Says.ite ?_ ?_ <;> refine Says.mute (by simp only [List.append_assoc]; rfl) ?_
    all_goals simp [Mute]

theorem Says.handleKexInit₂ {e} {s : Kx} {p neg} : Says 2 s (s.handleKexInit₂ e p neg).1 := by
  unfold Kx.handleKexInit₂
  rw [Bool.cond_eq_ite]
  split
  · exact Says.rfl'
  split
  · split
    · exact Says.same rfl
    · refine Says.trans (k := 0) (m := 2) ?_ (Says.andThen (k := 1) (m := 1) Says.ensureKexInit fun x => ?_)
      · exact Says.same rfl
      · exact Says.same rfl
  · exact Says.andThen (k := 1) (m := 1) Says.ensureKexInit fun x => Says.sendECDHKexInit

theorem Says.handleKexInit {e} {s : Kx} {body} : Says 2 s (s.handleKexInit e body).1 := by
  unfold Kx.handleKexInit
  simp only
  rw [Bool.cond_eq_ite]
  split
  · exact Says.rfl'
  split
  · exact Says.rfl'
  · split
    · exact Says.same rfl
    · exact Says.trans (k := 0) (m := 2) (b := { s with
            flags := { s.flags with kexinitReceived := true }, peerKexinit := body, encC2S := _, encS2C := _, macC2S := _,
            macS2C := _, kex := _, kexes := _, peerWantsExtInfo := _, peerWantsStrict := _, inReset := _,
            outReset := _ }) (Says.same rfl) Says.handleKexInit₂

theorem Says.handleECDHKexInit {e} {s : Kx} {body} : Says 3 s (s.handleECDHKexInit e body).1 := by
  unfold Kx.handleECDHKexInit
  simp only [Bool.cond_eq_ite]
  split
  · exact Says.rfl'
  split
  · exact Says.rfl'
  split
  · exact Says.rfl'
  · refine Says.andThen (k := 2) (m := 1) (Says.andThen (k := 1) (m := 1) Says.sendReply fun _ => Says.sendNewKeys) fun b => ?_
    split
    · exact Says.sendSer fun ser h => ⟨_, _, makeExtInfo_payload h, by decide⟩
    · exact Says.rfl'

/-- UNIMPLEMENTED, with a number. -/
theorem unimplemented_exact {n ser} (h : makeUnimplemented n = .ok ser) : ser.since 5 = 3 :: u32 n :=
  (sinceBegin (Writes.u32 n) MSG_UNIMPLEMENTED h).1

theorem makeUnimplemented_ok (n : Nat) : ∃ ser, makeUnimplemented n = .ok ser :=
  ⟨_, (Writes.begin (Writes.u32 n) MSG_UNIMPLEMENTED).trans (if_pos (by simp [BUFFER_SIZE]))⟩

/-- The packet is rejected: UNIMPLEMENTED is sent, and nothing else happens. -/
structure Rejects (s : Kx) (r : KRes) : Prop where
  log : r.1.log = s.log ++ [.sent (3 :: u32 s.seqNo)]
  inR : r.1.inReset = s.inReset
  live : r.2 = none

theorem sendUnimplemented_rejects {s : Kx} : Rejects s (s.sendSer (makeUnimplemented s.seqNo)) := by
  obtain ⟨ser, h⟩ := makeUnimplemented_ok s.seqNo
  rw [h]
  refine ⟨?_, rfl, rfl⟩
  rw [← unimplemented_exact h]
  rfl

theorem handlePacket₂_says {e} {s : Kx} {msg body claim} : Says 3 s (s.handlePacket₂ e msg body claim).1 ∨
    Rejects s (s.handlePacket₂ e msg body claim) := by
  unfold Kx.handlePacket₂
  split
  · exact .inl Says.rfl'
  · exact .inl Says.rfl'
  · unfold Kx.dispatch
    split
    · left; split <;> exact Says.rfl'
    split
    · exact .inl Says.rfl'
    split
    · exact .inl Says.rfl'
    split
    · exact .inl (Says.handleKexInit.mono (by omega))
    split
    · exact .inl (Says.handleNewKeys.mono (by omega))
    split
    · exact .inl Says.handleECDHKexInit
    split
    · exact .inl (Says.handleReply.mono (by omega))
    · exact .inr sendUnimplemented_rejects

theorem Says.from {k : Nat} {s a b : Kx} (h : Says k a b) (hl : a.log = s.log) : Says k s b := by
  obtain ⟨ext, h1, h2⟩ := h.log
  exact ⟨⟨ext, by rw [h1, hl], h2⟩⟩

theorem Rejects.from {s a : Kx} {r : KRes} (h : Rejects a r) (hl : a.log = s.log) (hi : a.inReset = s.inReset) : Rejects s r := by
  have hq : a.seqNo = s.seqNo := by unfold Kx.seqNo; rw [hl, hi]
  exact ⟨by rw [h.log, hl, hq], h.inR.trans hi, h.live⟩

theorem handlePacket_says {e} {s : Kx} {msg body claim} : Says 3 s (s.handlePacket e msg body claim).1 ∨
    Rejects s (s.handlePacket e msg body claim) := by
  unfold Kx.handlePacket
  simp only [Bool.cond_eq_ite]
  split
  · exact handlePacket₂_says
  split
  · exact handlePacket₂_says.imp (fun h => h.from rfl) (fun h => h.from rfl rfl)
  split
  · split
    · exact .inl (Says.same rfl)
    · exact handlePacket₂_says.imp (fun h => h.from rfl) (fun h => h.from rfl rfl)
  split
  · exact .inl Says.rfl'
  · exact handlePacket₂_says

theorem handleRawPacket_says {e} {s : Kx} {raw claim} : Says 3 (s.emit (.recv raw)) (s.handleRawPacket e raw claim).1 ∨
    Rejects (s.emit (.recv raw)) (s.handleRawPacket e raw claim) := by
  unfold Kx.handleRawPacket
  simp only
  split
  · exact .inl Says.rfl'
  · exact handlePacket_says

theorem Says.finish {k : Nat} {s : Kx} {r : KRes} (h : Says k s r.1) : Says (k + 1) s (KxSys.finish r).kx := by
  obtain ⟨a, x⟩ := r
  unfold KxSys.finish
  cases x with
  | none => exact h.mono (by omega)
  | some x =>
    cases x with
    | disconnect => exact h.trans (Says.emit rfl)
    | closed => exact h.mono (by omega)
    | assertFailed => exact h.mono (by omega)

/-- A packet is answered by at most four others, or rejected. -/
theorem packet_says {e} {y : KxSys} {raw claim} (hs : y.stop = none) (hv : y.kx.versionExchanged = true) :
    Says 4 (y.kx.emit (.recv raw)) (y.step e (.packet raw claim)).kx ∨
    ((y.step e (.packet raw claim)).kx.log = y.kx.log ++ [.recv raw, .sent (3 :: u32 (y.kx.emit (.recv raw)).seqNo)] ∧
      (y.step e (.packet raw claim)).kx.inReset = y.kx.inReset ∧ (y.step e (.packet raw claim)).stop = none) := by
  obtain ⟨s, stop⟩ := y
  cases hs
  simp only at hv
  simp only [KxSys.step, hv, cond_true]
  rcases handleRawPacket_says (e := e) (s := s) (raw := raw) (claim := claim) with h | h
  · exact .inl h.finish
  · right
    rw [finish_kx h.live, finish_stop]
    exact ⟨by rw [h.log, emit_log, List.append_assoc]; rfl, h.inR, h.live⟩

/-- Other events cause at most two packets, none of them UNIMPLEMENTED. -/
theorem other_says {e} {y : KxSys} {ev} (h : ∀ raw claim, ev ≠ .packet raw claim) : Says 2 y.kx (y.step e ev).kx := by
  obtain ⟨s, stop⟩ := y
  cases stop with
  | some x => exact .rfl'
  | none =>
    cases ev with
    | packet raw claim => exact absurd rfl (h raw claim)
    | version v =>
      simp only [KxSys.step]
      cases s.versionExchanged with
      | true => exact .rfl'
      | false =>
        refine Says.finish ?_
        unfold Kx.onVersion
        simp only [Bool.cond_eq_ite]
        have h1 : Says 0 s (Kx.emit { s with peerVersion := v, versionExchanged := true } (.version v)) :=
          Says.mute (ext := [.version v]) rfl (by simp [Mute])
        split
        · exact h1.trans Says.sendKexInit
        · exact h1.mono (by omega)
    | authenticated =>
      simp only [KxSys.step]
      cases s.isEncrypted && !s.authenticated with
      | false => exact .rfl'
      | true =>
        refine Says.finish ?_
        unfold Kx.setAuthenticated
        simp only [Bool.cond_eq_ite]
        split
        · exact .rfl'
        · exact Says.same rfl
    | rekeyTimer =>
      simp only [KxSys.step]
      cases s.authenticated with
      | false => exact .rfl'
      | true =>
        refine Says.finish ?_
        unfold Kx.initiateRekey
        simp only [Bool.cond_eq_ite]
        split
        · exact .rfl'
        · split
          · exact .rfl'
          · exact Says.sendKexInit
    | writable more =>
      have hm : ∃ ext, (s.onBufferedWrite more).log = s.log ++ ext ∧ Mute ext := by
        unfold Kx.onBufferedWrite
        simp only [Bool.cond_eq_ite]
        cases more with
        | false =>
          simp only [Bool.false_eq_true, if_false]
          split
          · exact ⟨_, rfl, by simp [Mute]⟩
          · exact ⟨[], by simp, by simp [Mute]⟩
        | true =>
          simp only [if_true]
          split <;> split
          · exact ⟨_, by simp only [Kx.emit, List.append_assoc]; rfl, by simp [Mute]⟩
          · exact ⟨_, rfl, by simp [Mute]⟩
          · exact ⟨_, rfl, by simp [Mute]⟩
          · exact ⟨[], by simp, by simp [Mute]⟩
      obtain ⟨ext, h1, h2⟩ := hm
      exact (Says.mute h1 h2).mono (by omega)

/-! ### The number -/

theorem packetNumber_snoc (r : Bool) (ps : List Bytes) (p : Bytes) :
    packetNumber r (ps ++ [p]) = bif r && isMsg 21 p then 0 else packetNumber r ps + 1 := by
  simp [packetNumber]

/-- Before the first NEWKEYS all packets are counted. -/
theorem packetNumber_plain {ps : List Bytes} (h : ∀ p ∈ ps, isMsg 21 p = false) (r : Bool) :
    packetNumber r ps = ps.length := by
  induction ps using Aux.snoc_ind with
  | h0 => rfl
  | h1 ps p ih =>
    rw [packetNumber_snoc, h p (by simp), Bool.and_false, cond_false, ih fun q hq => h q (by simp [hq])]
    simp

/-- UNIMPLEMENTED follows directly the packet which it names. -/
def Named (r : Bool) (log : List Entry) : Prop :=
  ∀ a b q, log = a ++ .sent (3 :: q) :: b → ∃ a' p, a = a' ++ [.recv p] ∧ q = u32 (packetNumber r (received a'))

theorem Named.says {r : Bool} {l ext : List Entry} (h : Named r l) (hd : ∀ p, .sent p ∈ ext → isMsg 3 p = false) :
    Named r (l ++ ext) := by
  intro a b q he
  rcases split_either he with ⟨b', h1, -⟩ | ⟨a', -, h2⟩
  · exact h a b' q h1
  · have := hd (3 :: q) (by rw [h2]; simp)
    simp [isMsg] at this

theorem Named.rejects {r : Bool} {l : List Entry} {p : Bytes} (h : Named r l) :
    Named r (l ++ [.recv p, .sent (3 :: u32 (packetNumber r (received l)))]) := by
  intro a b q he
  have he' : (l ++ [.recv p]) ++ [.sent (3 :: u32 (packetNumber r (received l)))] = a ++ .sent (3 :: q) :: b := by
    rw [← he]; simp
  rcases Aux.snoc_split he' with ⟨-, rfl, hq⟩ | ⟨b', -, h3⟩
  · simp only [Entry.sent.injEq, List.cons.injEq, true_and] at hq
    exact ⟨l, p, rfl, hq.symm⟩
  · rcases Aux.snoc_split h3 with ⟨-, -, hq⟩ | ⟨b'', -, h4⟩
    · cases hq
    · exact h a b'' q h4

/-- Without NEWKEYS it does not matter whether it restarts the numbers. -/
theorem Named.other {r r' : Bool} {l : List Entry} (h : Named r l) (hp : ∀ p ∈ received l, isMsg 21 p = false) : Named r' l := by
  intro a b q he
  obtain ⟨a', p, rfl, rfl⟩ := h a b q he
  refine ⟨a', p, rfl, ?_⟩
  have : ∀ p ∈ received a', isMsg 21 p = false := by
    intro z hz
    refine hp z ?_
    rw [he]
    simp only [received, List.filterMap_append] at hz ⊢
    simp [hz]
  rw [packetNumber_plain this, packetNumber_plain this]

theorem seqNo_recv {s : Kx} {raw} : (s.emit (.recv raw)).seqNo = packetNumber s.inReset (received s.log) := by
  unfold Kx.seqNo
  rw [emit_log]
  simp [received, Kx.emit]

/-- Without keys no NEWKEYS was received, as long as the connection lives. -/
theorem no_newkeys {e : KexEnv} {evs : List KxEvent} (hd : Digest32 e) (hev : ∀ ev ∈ evs, EventOk ev)
    (hs : ((KxSys.init role).run e evs).stop = none) (ho : hasIn ((KxSys.init role).run e evs).kx.log = false) :
    ∀ p ∈ received ((KxSys.init role).run e evs).kx.log, isMsg 21 p = false := by
  induction evs using Aux.snoc_ind with
  | h0 => intro p hp; cases hp
  | h1 evs ev ih =>
    have hev' : ∀ z ∈ evs, EventOk z := fun z hz => hev z (List.mem_append_left _ hz)
    have hok : EventOk ev := hev ev (by simp)
    rw [run_snoc] at hs ho ⊢
    have hs0 : ((KxSys.init role).run e evs).stop = none := by
      cases h : ((KxSys.init role).run e evs).stop with
      | none => rfl
      | some z => rw [step_stopped (by rw [h]; simp), h] at hs; cases hs
    have hcalm := calmed_run (role := role) hd hev' hs0
    replace ih := ih hev' hs0
    generalize (KxSys.init role).run e evs = y at *
    by_cases hp : ∃ raw claim, ev = .packet raw claim
    · obtain ⟨raw, claim, rfl⟩ := hp
      cases hv : y.kx.versionExchanged with
      | false =>
        have hy : y.step e (.packet raw claim) = y := by
          obtain ⟨s, stop⟩ := y
          cases hs0
          simp only at hv
          simp only [KxSys.step, hv, cond_false]
        rw [hy] at ho ⊢
        exact ih ho
      | true =>
        obtain ⟨ext, h1, h2, -⟩ := packet_moves (e := e) (claim := claim) (raw := raw) hcalm hs0 hv
        have ho0 : hasIn y.kx.log = false := by
          rw [h1] at ho
          simp only [hasIn, List.any_append, Bool.or_eq_false_iff] at ho ⊢
          exact ho.1
        have hr : received ext = [] := by
          simp only [received, List.filterMap_eq_nil_iff]
          intro z hz
          cases z <;> simp
          exact h2 _ hz
        have hrec : received (y.step e (.packet raw claim)).kx.log = received y.kx.log ++ [raw] := by
          rw [h1, received_append]
          show received y.kx.log ++ raw :: received ext = _
          rw [hr]
        rw [hrec]
        intro p hp
        rcases List.mem_append.mp hp with hp | hp
        · exact ih ho0 p hp
        · simp only [List.mem_singleton] at hp
          subst hp
          cases hm : isMsg 21 p with
          | false => rfl
          | true =>
            exfalso
            cases p with
            | nil => cases hm
            | cons m body =>
              have : m = 21 := by simpa [isMsg] using hm
              subst this
              obtain ⟨enc, mac, keys, ext', h3⟩ := newkeys_installs hs0 hv hok hs
              rw [h3] at ho
              simp [hasIn] at ho
    · obtain ⟨ext, h1, h2⟩ := (other_still (e := e) (y := y) (ev := ev) (fun raw claim h => hp ⟨raw, claim, h⟩)).log
      have hr : received ext = [] := by
        simp only [received, List.filterMap_eq_nil_iff]
        intro z hz
        cases z <;> simp
        exact h2 _ hz
      rw [h1, received_append, hr, List.append_nil]
      rw [h1] at ho
      refine ih ?_
      simp only [hasIn, List.any_append, Bool.or_eq_false_iff] at ho ⊢
      exact ho.1

/-- Every UNIMPLEMENTED names the packet before it. -/
theorem run_named {e : KexEnv} {evs : List KxEvent} (hd : Digest32 e) (hev : ∀ ev ∈ evs, EventOk ev) :
    Named ((KxSys.init role).run e evs).kx.inReset ((KxSys.init role).run e evs).kx.log := by
  induction evs using Aux.snoc_ind with
  | h0 => intro a b q h; simp [KxSys.run, KxSys.init] at h
  | h1 evs ev ih =>
    have hev' : ∀ z ∈ evs, EventOk z := fun z hz => hev z (List.mem_append_left _ hz)
    replace ih := ih hev'
    rw [run_snoc]
    cases hs : ((KxSys.init role).run e evs).stop with
    | some z => rw [step_stopped (by rw [hs]; simp)]; exact ih
    | none =>
      have hcalm := calmed_run (role := role) hd hev' hs
      obtain ⟨φ, hrest⟩ := run_rest (role := role) hd hev' hs
      have hplain := no_newkeys (role := role) hd hev' hs
      rw [← hrest.inEnc] at hplain
      generalize (KxSys.init role).run e evs = y at *
      by_cases hp : ∃ raw claim, ev = .packet raw claim
      · obtain ⟨raw, claim, rfl⟩ := hp
        cases hv : y.kx.versionExchanged with
        | false =>
          have hy : y.step e (.packet raw claim) = y := by
            obtain ⟨s, stop⟩ := y
            cases hs
            simp only at hv
            simp only [KxSys.step, hv, cond_false]
          rw [hy]; exact ih
        | true =>
          rcases packet_says (e := e) (raw := raw) (claim := claim) hs hv with h | ⟨h1, h2, -⟩
          · obtain ⟨ext, h1, h2, -, -⟩ := h.log
            have hl : Named y.kx.inReset (y.step e (.packet raw claim)).kx.log := by
              rw [h1, emit_log, List.append_assoc]
              refine ih.says ?_
              intro p hp
              simp only [List.cons_append, List.nil_append, List.mem_cons, reduceCtorEq, false_or] at hp
              exact h2 p hp
            obtain ⟨ext', h3, h4, h5 | h5⟩ := packet_moves (e := e) (claim := claim) (raw := raw) hcalm hs hv
            · rw [h5.1]; exact hl
            · rw [h1, emit_log, List.append_assoc]
              refine (ih.other (hplain h5.2.2.1)).says ?_
              intro p hp
              simp only [List.cons_append, List.nil_append, List.mem_cons, reduceCtorEq, false_or] at hp
              exact h2 p hp
          · rw [h2, h1, seqNo_recv]
            exact ih.rejects
      · have hst := other_still (e := e) (y := y) (ev := ev) (fun raw claim h => hp ⟨raw, claim, h⟩)
        obtain ⟨ext, h1, h2, -⟩ := (other_says (e := e) (y := y) (ev := ev) (fun raw claim h => hp ⟨raw, claim, h⟩)).log
        rw [hst.inR, h1]
        exact ih.says h2

/-! ### The numbers of decoded packets -/

/-- The next number. -/
def nextNumber (r : Bool) (n : Nat) (p : Bytes) : Nat := bif r && isMsg 21 p then 0 else n + 1

/-- Decoded packets are numbered one after the other. -/
theorem decode_numbers {ops : CipherOps σ} {r : Bool} {installs : List (σ × Bool)} {cipher : Option σ} {seq : Nat} {s : Bytes}
    (hr : ∀ i ∈ installs, i.2 = r) {ps : List (Nat × Bytes)} (h : ps.map some <+: decode ops installs cipher seq s)
    {i : Nat} {z : Nat × Bytes} (hz : ps[i]? = some z) :
    z.1 = ((ps.map (·.2)).take i).foldl (nextNumber r) seq := by
  induction ps generalizing installs cipher seq s i with
  | nil => cases hz
  | cons a ps ih =>
    rw [decode] at h
    split at h
    · simp at h
    · simp at h
    · rename_i payload cipher' consumed hn
      split at h
      · rename_i hk
        split at h
        · simp only [List.map_cons, List.cons_prefix_cons, Option.some.injEq] at h
          obtain ⟨rfl, h⟩ := h
          have : ps = [] := by simpa using h
          subst this
          cases i with
          | zero => cases hz; rfl
          | succ i => cases hz
        · rename_i c reset installs
          simp only [List.map_cons, List.cons_prefix_cons, Option.some.injEq] at h
          obtain ⟨rfl, h⟩ := h
          cases i with
          | zero => cases hz; rfl
          | succ i =>
            rw [ih (fun j hj => hr j (by simp [hj])) h (by simpa using hz)]
            have : reset = r := hr (c, reset) (by simp)
            subst this
            have hk' : isMsg 21 payload = true := hk
            simp only [List.map_cons, List.take_succ_cons, List.foldl_cons, nextNumber, hk', Bool.and_true]
            cases reset <;> rfl
      · rename_i hk
        simp only [List.map_cons, List.cons_prefix_cons, Option.some.injEq] at h
        obtain ⟨rfl, h⟩ := h
        cases i with
        | zero => cases hz; rfl
        | succ i =>
          rw [ih hr h (by simpa using hz)]
          have hk' : isMsg 21 payload = false := Bool.eq_false_iff.mpr hk
          simp only [List.map_cons, List.take_succ_cons, List.foldl_cons, nextNumber, hk', Bool.and_false, cond_false]

end Lukko
