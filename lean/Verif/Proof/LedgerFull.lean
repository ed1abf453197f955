import Verif.Proof.LedgerRun
import Verif.Proof.Farewell
/-
  The account of what is sent to the client, until the end of the connection and after it.
-/
namespace Lukko
open Spec Model

variable {σ : Type} {x : HouseEnv σ}

theorem verdict_foreign (v : Verdict) : v.events.flatMap HouseEvent.foreign = [] := by
  cases v with
  | fine => rfl
  | close => rfl
  | disconnect text =>
    have := serialized_other (Q := isFlow) (m := makeDisconnect 2 text) 
      (Writes.noexcept_begin ((Writes.u32 _).bind ((Writes.str _).bind (Writes.str _))) MSG_DISCONNECT) rfl
    revert this
    simp only [Verdict.events]
    cases serialized (makeDisconnect 2 text) with
    | none => intro _; rfl
    | some p =>
      intro h
      simpa [HouseEvent.foreign] using h

theorem LInv.strictStep (hx : EnvOk x.host.server.trans) {F : List Bytes} {h h' : House σ} (hi : HoInv x h) (hl : LInv F h) {ev : HouseEvent}
    (hs : h.strictStep x ev = some h') : HoInv x h' ∧ LInv (F ++ HouseEvent.foreign ev) h' := by
  obtain ⟨g1, s1, r1⟩ := Option.bind_eq_some_iff.mp hs
  obtain ⟨g2, s2, s3⟩ := Option.bind_eq_some_iff.mp r1
  obtain ⟨g', k1, k2⟩ := hi.step hx ev
  rw [s1] at k1
  cases k1
  obtain ⟨i2, l2⟩ := LInv.run hx k2 (hl.step hx hi s1) s2
  obtain ⟨i3, l3⟩ := LInv.run hx i2 l2 s3
  rw [verdict_foreign, verdict_foreign, List.append_nil, List.append_nil] at l3
  exact ⟨i3, l3⟩

theorem destroy_says (s : Session) : sessionSays s.destroy = sessionSays s := by
  unfold sessionSays Session.destroy Sess.dropChild
  simp only
  cases s.ch.s.child with
  | none => rfl
  | some c => simp [sessMessage]

theorem destroy_said (t : Tunnel) : Tunnel.dataSaid t.destroy = Tunnel.dataSaid t := by
  unfold Tunnel.dataSaid Tunnel.destroy
  cases t.relay with
  | none => rfl
  | some r =>
    simp only [Option.map_some, Option.getD_some]
    unfold Relay.destroy
    split
    · rfl
    · simp [socketData]

theorem destroy_gave (t : Tunnel) : Tunnel.gaveBack t.destroy = Tunnel.gaveBack t := by
  unfold Tunnel.gaveBack Tunnel.destroy
  cases t.relay with
  | none => rfl
  | some r =>
    simp only [Option.map_some, Option.getD_some]
    unfold Relay.destroy
    split <;> rfl

theorem Honest.destroy {t : Tunnel} (h : Honest t) : Honest t.destroy :=
  ⟨by rw [destroy_said]; exact h.said, by rw [destroy_gave]; exact h.gave⟩

theorem farewell_says (h : House σ) : houseSays h.farewell = houseSays h := by
  have h1 : ∀ l : List Session, (l.map Session.destroy).flatMap sessionSays = l.flatMap sessionSays := by
    intro l
    rw [List.flatMap_map]
    congr 1
    funext s
    exact destroy_says s
  have h2 : ∀ l : List Tunnel, (l.map Tunnel.destroy).flatMap Tunnel.out = l.flatMap Tunnel.out := by
    intro l
    rw [List.flatMap_map]
    rfl
  have h3 : ∀ l : List Incoming, (l.map Incoming.destroy).flatMap callSays = l.flatMap callSays := by
    intro l
    rw [List.flatMap_map]
    rfl
  simp only [houseSays, House.farewell, h1, h2, h3]

theorem LInv.farewell {F : List Bytes} {h : House σ} (hl : LInv F h) : LInv F h.farewell where
  tunnels := by
    intro t ht
    obtain ⟨q, hq, rfl⟩ := List.mem_map.mp ht
    exact (hl.tunnels q hq).destroy
  calls := by
    intro c hc
    obtain ⟨q, hq, rfl⟩ := List.mem_map.mp hc
    exact (hl.calls q hq).destroy
  most := by
    intro p hp
    rw [farewell_says]
    exact hl.most p hp
  exact := by
    intro hv p hp hF
    rw [farewell_says]
    exact hl.exact hv p hp hF

/-- After the end. -/
theorem LInv.over {F : List Bytes} {h h' : House σ} (ho : House.Over h) (hl : LInv F h) {ev : HouseEvent} (hs : h.strictStep x ev = some h') :
    House.Over h' ∧ LInv (F ++ HouseEvent.foreign ev) h' := by
  obtain ⟨g1, s1, r1⟩ := Option.bind_eq_some_iff.mp hs
  obtain ⟨a1, a2, a3, a4, a5, tail, a6, a7⟩ := ho.step s1
  rw [a6, List.drop_left, judgeAll_plain a7] at r1
  simp only [Verdict.events, House.run, Option.bind_some] at r1
  rw [a1.threw] at r1
  cases r1
  refine ⟨a1, by rw [a3]; exact hl.tunnels, by rw [a4]; exact hl.calls, ?_, fun hv => by rw [a1.dead] at hv; cases hv⟩
  intro p hp
  have := hl.most p hp
  have hsame : houseSays h' = houseSays h := by simp only [houseSays, a2, a3, a4]
  rw [hsame, a5, a6, List.filterMap_append, List.count_append, List.count_append]
  omega

theorem LInv.full (hx : EnvOk x.host.server.trans) (evs : List HouseEvent) : ∀ {F : List Bytes} {h h' : House σ}, HoInv x h ∨ House.Over h →
    LInv F h → h.fullRun x evs = some h' → LInv (F ++ evs.flatMap HouseEvent.foreign) h' := by
  induction evs with
  | nil => intro F h h' _ hl hr; cases hr; rw [List.flatMap_nil, List.append_nil]; exact hl
  | cons ev evs ih =>
    intro F h h' hi hl hr
    obtain ⟨g, g1, g2⟩ := Option.bind_eq_some_iff.mp hr
    obtain ⟨g₀, k1, k2⟩ := Option.map_eq_some_iff.mp g1
    rw [List.flatMap_cons, ← List.append_assoc]
    have : (HoInv x g ∨ House.Over g) ∧ LInv (F ++ HouseEvent.foreign ev) g := by
      rcases hi with hi | hi
      · obtain ⟨i1, l1⟩ := LInv.strictStep hx hi hl k1
        cases hv : g₀.server.live with
        | true => rw [hv] at k2; cases k2; exact ⟨.inl i1, l1⟩
        | false => rw [hv] at k2; cases k2; exact ⟨.inr (farewell_over hx i1 hv), l1.farewell⟩
      · obtain ⟨i1, l1⟩ := LInv.over hi hl k1
        rw [i1.dead, cond_false, i1.farewell] at k2
        cases k2
        exact ⟨.inr i1, l1⟩
    exact ih this.1 this.2 g2

end Lukko
