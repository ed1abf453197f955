import Verif.Proof.Census
/-
  How often one connection is counted as rejected or closed.
-/
namespace Lukko
open Model Spec

/-- What explains that a connection is counted more than once. -/
def excuses (id : Nat) (log : List CensusEntry) : Nat := badKeysOf id log + ordersOf id log

theorem excuses_append (id a b) : excuses id (a ++ b) = excuses id a + excuses id b := by
  unfold excuses badKeysOf ordersOf
  rw [List.countP_append, List.countP_append]; omega

theorem closed_append (id a b) : countedClosed id (a ++ b) = countedClosed id a + countedClosed id b := List.countP_append

/-- Connections which are open, or do not exist yet. -/
def Open (y : Census) (id : Nat) : Prop := (∃ c ∈ y.conns, c.id = id ∧ c.phase ≠ .dead) ∨ y.next ≤ id

structure ClosedInv (y : Census) : Prop where
  bound : ∀ id, countedClosed id y.log ≤ excuses id y.log + 1
  still : ∀ id, Open y id → countedClosed id y.log ≤ excuses id y.log

theorem ClosedInv.init : ClosedInv {} := ⟨fun _ => Nat.zero_le _, fun _ _ => Nat.zero_le _⟩

/-- Nothing is counted that has no excuse, and nothing is opened again. -/
theorem ClosedInv.quiet {y z : Census} (h : ClosedInv y) {es} (hlog : z.log = y.log ++ es)
    (hes : ∀ id, countedClosed id es ≤ excuses id es) (hopen : ∀ id, Open z id → Open y id) : ClosedInv z := by
  constructor <;> intro id
  · have := h.bound id
    have := hes id
    rw [hlog, closed_append, excuses_append]; omega
  · intro ho
    have := h.still id (hopen id ho)
    have := hes id
    rw [hlog, closed_append, excuses_append]; omega

/-- The connection that is counted isn't open any more. -/
theorem ClosedInv.closing {y z : Census} (h : ClosedInv y) {es} {x} (hlog : z.log = y.log ++ es)
    (hes : ∀ id, id ≠ x → countedClosed id es ≤ excuses id es) (hx : countedClosed x es ≤ excuses x es + 1)
    (hwas : Open y x) (hnow : ¬ Open z x) (hopen : ∀ id, Open z id → Open y id) : ClosedInv z := by
  constructor <;> intro id
  · rw [hlog, closed_append, excuses_append]
    cases hi : decide (id = x)
    · have := h.bound id
      have := hes id (of_decide_eq_false hi)
      omega
    · have hi := of_decide_eq_true hi
      subst hi
      have := h.still id hwas
      omega
  · intro ho
    have hne : id ≠ x := fun he => hnow (he ▸ ho)
    have := h.still id (hopen id ho)
    have := hes id hne
    rw [hlog, closed_append, excuses_append]; omega

theorem open_remove {y : Census} {id i} {es} (h : Open ((y.remove id).say es) i) : Open y i := by
  rcases h with ⟨c, hc, he, hp⟩ | h
  · exact .inl ⟨c, (mem_remove.mp hc).1, he, hp⟩
  · exact .inr h

theorem not_open_remove {y : Census} (hy : CensusInv y) {c} (hc : c ∈ y.conns) (es) : ¬ Open ((y.remove c.id).say es) c.id := by
  rintro (⟨d, hd, he, _⟩ | h)
  · exact (mem_remove.mp hd).2 he
  · have := hy.fresh c hc
    have : y.next ≤ c.id := h
    omega

theorem open_logEnd {y : Census} (_hy : CensusInv y) {c i} {l} (h : Open (y.logEnd c l) i) : Open y i := by
  unfold Census.logEnd at h
  cases hl : c.logDisconnect <;> rw [hl] at h
  · exact h
  · rcases h with ⟨d, hd, he, hp⟩ | h
    · rcases mem_update hd with ⟨hd, _⟩ | ⟨x, hx, hxe, rfl⟩
      · exact .inl ⟨d, hd, he, hp⟩
      · exact .inl ⟨x, hx, he, hp⟩
    · exact .inr h

theorem logEnd_log (y : Census) (c l) : ∃ es, (y.logEnd c l).log = y.log ++ es ∧ (∀ id, countedClosed id es = 0 ∧ excuses id es = 0) ∧
    (y.logEnd c l).next = y.next := by
  unfold Census.logEnd
  cases c.logDisconnect
  · exact ⟨[], (List.append_nil _).symm, fun _ => ⟨rfl, rfl⟩, rfl⟩
  · exact ⟨[.line c.id l], rfl, fun _ => ⟨rfl, rfl⟩, rfl⟩

theorem ClosedInv.logEnd {y : Census} (h : ClosedInv y) (hy : CensusInv y) (c l) : ClosedInv (y.logEnd c l) := by
  obtain ⟨es, hl, hz, _⟩ := logEnd_log y c l
  exact h.quiet hl (fun id => by rw [(hz id).1]; exact Nat.zero_le _) (fun _ ho => open_logEnd hy ho)

theorem reasonCounter_closed (id reason i) : countedClosed i (.goodbye id reason :: reasonCounter id reason) = countedClosed i (reasonCounter id reason) ∧
    countedClosed i (reasonCounter id reason) ≤ 1 ∧ (i ≠ id → countedClosed i (reasonCounter id reason) = 0) := by
  refine ⟨?_, ?_⟩
  · unfold countedClosed; rw [List.countP_cons]; rfl
  · unfold reasonCounter
    split
    · refine ⟨Nat.le_trans List.countP_le_length (by simp), fun hne => ?_⟩
      simp [countedClosed, Ne.symm hne]
    · split
      · refine ⟨Nat.le_trans List.countP_le_length (by simp), fun hne => ?_⟩
        simp [countedClosed, Ne.symm hne]
      · exact ⟨Nat.zero_le _, fun _ => rfl⟩

theorem dispose_closed (c : CensusConn) (i) :
    countedClosed i ((bif c.logDisconnect then [CensusEntry.line c.id .disconnected] else []) ++ [.ended c.id]) = 0 := by
  cases c.logDisconnect <;> rfl

theorem ClosedInv.dispose {y : Census} (h : ClosedInv y) (c : CensusConn) : ClosedInv (y.dispose c) :=
  h.quiet (z := y.dispose c) rfl (fun i => by rw [dispose_closed]; exact Nat.zero_le _) (fun _ ho => open_remove ho)

/-- After `disconnect` the connection isn't open, and at most one reason was counted. -/
theorem disconnect_shape {y : Census} (hy : CensusInv y) {c} (hc : y.active c.id = some c) (reason enc) :
    ∃ es, (y.disconnect c.id reason enc).log = y.log ++ es ∧
      (∀ i, countedClosed i es = countedClosed i (reasonCounter c.id reason)) ∧
      ¬ Open (y.disconnect c.id reason enc) c.id ∧ ∀ i, Open (y.disconnect c.id reason enc) i → Open y i := by
  obtain ⟨hm, _, hp⟩ := active_spec hc
  have hp' : c.phase ≠ .waiting := by rw [hp]; simp
  obtain ⟨es, hl, hz, hnx⟩ := logEnd_log y c .disconnecting
  have hc1 := hy.logEnd hm hp' .disconnecting
  have hinv1 := hc1.1.say (.goodbye c.id reason) (goodbye_neutral c.id reason)
  unfold Census.disconnect
  rw [hc]
  simp only
  cases enc
  · refine ⟨es ++ (.goodbye c.id reason :: reasonCounter c.id reason) ++ [.ended c.id], ?_, ?_, ?_, ?_⟩
    · show ((y.logEnd c .disconnecting).log ++ _) ++ _ = _
      rw [hl]
      simp
    · intro i
      rw [closed_append, closed_append, (hz i).1, (reasonCounter_closed c.id reason i).1, Nat.zero_add]; rfl
    · exact not_open_remove (c := { c with logDisconnect := false }) hinv1 hc1.2 _
    · intro i ho
      exact open_logEnd hy (open_remove (es := []) ho)
  · refine ⟨es ++ (.goodbye c.id reason :: reasonCounter c.id reason), ?_, ?_, ?_, ?_⟩
    · show ((y.logEnd c .disconnecting).log ++ _) = _
      rw [hl, List.append_assoc]
    · intro i
      rw [closed_append, (hz i).1, (reasonCounter_closed c.id reason i).1, Nat.zero_add]
    · rintro (⟨d, hd, he, hpd⟩ | hx)
      · rcases mem_update hd with ⟨_, hne⟩ | ⟨x, _, _, rfl⟩
        · exact hne he
        · exact hpd rfl
      · have := hy.fresh c hm
        have : y.next ≤ c.id := hnx ▸ hx
        omega
    · rintro i (⟨d, hd, he, hpd⟩ | hx)
      · rcases mem_update hd with ⟨hd, hne⟩ | ⟨x, _, _, rfl⟩
        · exact open_logEnd hy (.inl ⟨d, hd, he, hpd⟩)
        · exact absurd rfl hpd
      · exact open_logEnd hy (.inr hx)

theorem active_open {y : Census} {c} (hc : y.active c.id = some c) : Open y c.id := by
  obtain ⟨hm, _, hp⟩ := active_spec hc
  exact .inl ⟨c, hm, rfl, by rw [hp]; simp⟩

theorem active_self {y : Census} {id c} (hc : y.active id = some c) : y.active c.id = some c := by
  rw [(active_spec hc).2.1]; exact hc

theorem ClosedInv.disconnect {y : Census} (h : ClosedInv y) (hy : CensusInv y) (id reason enc) : ClosedInv (y.disconnect id reason enc) := by
  cases hc : y.active id with
  | none =>
    have : y.disconnect id reason enc = y := by unfold Census.disconnect; rw [hc]
    rw [this]; exact h
  | some c =>
    have hid := (active_spec hc).2.1
    subst hid
    obtain ⟨es, hl, hz, hno, hop⟩ := disconnect_shape hy hc reason enc
    refine h.closing hl (fun i hi => ?_) ?_ (active_open hc) hno hop
    · rw [hz, (reasonCounter_closed c.id reason i).2.2 hi]; exact Nat.zero_le _
    · rw [hz]; have := (reasonCounter_closed c.id reason c.id).2.1; omega

theorem ClosedInv.terminate {y : Census} (h : ClosedInv y) (hy : CensusInv y) (x) : ClosedInv (y.terminate x) := by
  unfold Census.terminate
  split
  · exact h
  · rename_i c hf
    obtain ⟨hc, _, hp⟩ := served_spec hf
    have h1 := h.logEnd hy c .terminating
    have hy1 := (hy.logEnd hc hp .terminating).1
    have hn : ∀ e ∈ [CensusEntry.order x.1, .count x.1 .terminated], CensusEntry.neutral e = true := by
      intro e he
      simp only [List.mem_cons, List.not_mem_nil, or_false] at he
      rcases he with rfl | rfl <;> rfl
    refine ClosedInv.disconnect ?_ (hy1.say ⟨rfl, rfl, rfl, rfl, rfl⟩ hn) _ _ _
    refine h1.quiet (z := (y.logEnd c .terminating).say _) rfl (fun i => ?_) (fun _ ho => ho)
    cases hi : x.1 == i <;> simp [countedClosed, excuses, badKeysOf, ordersOf, hi]

theorem ClosedInv.accept {y : Census} (h : ClosedInv y) (hy : CensusInv y) (v) : ClosedInv (y.accept v) := by
  have hnew : Open y y.next := .inr (Nat.le_refl _)
  have hno : ∀ d ∈ y.conns, d.id ≠ y.next := fun d hd => Nat.ne_of_lt (hy.fresh d hd)
  unfold Census.accept
  cases v
  · refine h.closing (x := y.next) (es := [.accepted y.next, .count y.next .accepted, .refused y.next, .count y.next .rejected]) ?_ ?_ ?_ hnew ?_ ?_
    · simp [Census.say]
    · intro i hi
      simp [countedClosed, Ne.symm hi]
    · simp [countedClosed]
    · rintro (⟨d, hd, he, _⟩ | hx)
      · exact hno d hd he
      · exact Nat.not_succ_le_self _ hx
    · rintro i (hx | hx)
      · exact .inl hx
      · exact .inr (Nat.le_of_succ_le hx)
  · refine h.quiet (es := [.accepted y.next, .count y.next .accepted, .waits y.next]) ?_ ?_ ?_
    · simp [Census.say]
    · intro i; simp [countedClosed]
    · rintro i (⟨d, hd, he, hp⟩ | hx)
      · rcases List.mem_append.mp hd with hd | hd
        · exact .inl ⟨d, hd, he, hp⟩
        · have := List.mem_singleton.mp hd
          subst this
          exact he ▸ hnew
      · exact .inr (Nat.le_of_succ_le hx)
  · refine h.quiet (es := [.accepted y.next, .count y.next .accepted, .started y.next]) ?_ ?_ ?_
    · simp [Census.say]
    · intro i; simp [countedClosed]
    · rintro i (⟨d, hd, he, hp⟩ | hx)
      · rcases List.mem_append.mp hd with hd | hd
        · exact .inl ⟨d, hd, he, hp⟩
        · have := List.mem_singleton.mp hd
          subst this
          exact he ▸ hnew
      · exact .inr (Nat.le_of_succ_le hx)
  · refine h.quiet (es := [.accepted y.next, .count y.next .accepted, .failed y.next]) ?_ ?_ ?_
    · simp [Census.say]
    · intro i; simp [countedClosed]
    · rintro i (hx | hx)
      · exact .inl hx
      · exact .inr (Nat.le_of_succ_le hx)

theorem ClosedInv.clear {y : Census} (h : ClosedInv y) (c) : ClosedInv (y.clear c) := by
  unfold Census.clear
  split
  · exact h.quiet (es := [.left c.id]) rfl (fun _ => Nat.zero_le _) (fun _ ho => open_remove ho)
  · exact h.dispose c

theorem ClosedInv.clearAll : ∀ (l : List CensusConn) {y : Census}, ClosedInv y → ClosedInv (l.foldl Census.clear y) := by
  intro l
  induction l with
  | nil => intro y h; exact h
  | cons c l ih => intro y h; exact ih (h.clear c)

theorem ClosedInv.terminateAll : ∀ (l : List (Nat × Bool)) {y : Census}, ClosedInv y → CensusInv y → ClosedInv (l.foldl Census.terminate y) := by
  intro l
  induction l with
  | nil => intro y h _; exact h
  | cons x l ih => intro y h hy; exact ih (h.terminate hy x) (hy.terminate x)

theorem ClosedInv.step {y : Census} (h : ClosedInv y) (hy : CensusInv y) (ev) : ClosedInv (y.step ev) := by
  cases ev with
  | accept v => exact h.accept hy v
  | timer id ok =>
    unfold Census.step
    simp only
    split
    · exact h
    · rename_i c hf
      obtain ⟨hc, rfl, hp⟩ := waiting_spec hf
      cases ok
      · exact h.quiet (es := [.failed c.id]) rfl (fun _ => Nat.zero_le _) (fun _ ho => open_remove ho)
      · refine h.quiet (es := [.started c.id]) rfl (fun _ => Nat.zero_le _) ?_
        rintro i (⟨d, hd, he, hpd⟩ | hx)
        · rcases mem_update hd with ⟨hd, _⟩ | ⟨x, hx, hxe, rfl⟩
          · exact .inl ⟨d, hd, he, hpd⟩
          · exact .inl ⟨c, hc, hxe.symm.trans he, by rw [hp]; simp⟩
        · exact .inr hx
  | leave id =>
    unfold Census.step
    simp only
    split
    · exact h
    · exact h.quiet (es := [.left id]) rfl (fun _ => Nat.zero_le _) (fun _ ho => open_remove ho)
  | disconnect id reason enc => exact h.disconnect hy id reason enc
  | clientDisconnect id =>
    unfold Census.step
    simp only
    split
    · exact h
    · exact (h.logEnd hy _ _).dispose _
  | drop id =>
    unfold Census.step
    simp only
    split
    · exact h
    · exact h.dispose _
  | timeout id enc =>
    unfold Census.step
    simp only
    split
    · exact h
    · rename_i c hf
      obtain ⟨hc, rfl, hp⟩ := active_spec hf
      have hp : c.phase ≠ .waiting := by rw [hp]; simp
      exact (h.logEnd hy _ _).disconnect (hy.logEnd hc hp .authTimeout).1 _ _ _
  | wrongService id enc =>
    unfold Census.step
    simp only
    split
    · exact h
    · rename_i c hf
      have hid := (active_spec hf).2.1
      subst hid
      have hn : ∀ e ∈ [CensusEntry.wrongService c.id, .count c.id .unsupportedService], CensusEntry.neutral e = true := by
        intro e he
        simp only [List.mem_cons, List.not_mem_nil, or_false] at he
        rcases he with rfl | rfl <;> rfl
      obtain ⟨es, hl, hz, hno, hop⟩ := disconnect_shape (hy.say ⟨rfl, rfl, rfl, rfl, rfl⟩ hn) (c := c) hf 7 enc
      refine h.closing (es := [CensusEntry.wrongService c.id, .count c.id .unsupportedService] ++ es)
        (by rw [hl]; simp [Census.say]) (fun i hi => ?_) ?_ (active_open hf) hno hop
      · rw [closed_append, hz]
        simp [countedClosed, Ne.symm hi, reasonCounter]
      · rw [closed_append, hz]
        have : countedClosed c.id [CensusEntry.wrongService c.id, .count c.id .unsupportedService] ≤ 1 := by
          simp [countedClosed]
        have h0 : countedClosed c.id (reasonCounter c.id 7) = 0 := rfl
        omega
  | badKey id =>
    unfold Census.step
    simp only
    split
    · exact h
    · refine h.quiet (z := y.say _) rfl (fun i => ?_) (fun _ ho => ho)
      cases hi : id == i <;> simp [countedClosed, excuses, badKeysOf, ordersOf, hi]
  | outgoingDisconnecting id =>
    unfold Census.step
    simp only
    split
    · exact h
    · exact h.logEnd hy _ _
  | outgoingDisconnected id =>
    unfold Census.step
    simp only
    split
    · exact h
    · exact h.logEnd hy _ _
  | terminate ids => exact ClosedInv.terminateAll ids h hy
  | exit => exact ClosedInv.clearAll y.conns h

theorem ClosedInv.run : ∀ (evs : List CensusEvent) {y : Census}, ClosedInv y → CensusInv y → ClosedInv (y.run evs) := by
  intro evs
  induction evs with
  | nil => intro y h _; exact h
  | cons e evs ih => intro y h hy; exact ih (h.step hy e) (hy.step e)

end Lukko
