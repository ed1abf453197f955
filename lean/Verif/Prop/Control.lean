import Verif.Model.Control
/-
  C56: only privileged control clients can change the server's behaviour.
-/
namespace Lukko
open Spec Model

/-- **C56 (partial).** A datagram of a sender that is not a local process changes
nothing, unless it carries RELOAD_STATE or TERMINATE_CHILDREN (see the two
violations below). -/
theorem C56_unprivileged_partial (state : Bytes → Bool) (i : CtlInstance) (command : ControlCommand) (payload : Bytes)
    (uid : Int) (hu : uid < 0) (h₁ : command ≠ .reloadState) (h₂ : command ≠ .terminateChildren) :
    i.onControlPacket state command payload uid = i := by
  have hu : decide (uid ≥ 0) = false := by simpa using hu
  unfold CtlInstance.onControlPacket
  rw [hu]
  cases command <;> first | rfl | exact absurd rfl h₁ | exact absurd rfl h₂ | skip
  · simp only; split <;> rfl

example : (-1 : Int) < 0 ∧ ControlCommand.verbose ≠ .reloadState ∧ ControlCommand.verbose ≠ .terminateChildren ∧
    (CtlInstance.onControlPacket (fun _ => true) {} .verbose [9] 0).logLevel = 9 := by decide

/-- **C56 (violated).** Any sender that can reach the control socket can end
connections. -/
theorem C56_terminate_violated : ∃ (state : Bytes → Bool) (i : CtlInstance) (payload : Bytes),
    i.view.running = [[true]] ∧
    (i.onControlPacket state .terminateChildren payload (-1)).view.running = [[false]] :=
  ⟨fun _ => true, { listeners := [{ connections := [{ translation := true, executeTag := some [65] }] }] }, [65],
    by decide⟩

/-- **C56 (violated).** Any sender that can reach the control socket can make
the server read its state files again, and so change what is announced. -/
theorem C56_reload_violated : ∃ (state : Bytes → Bool) (i : CtlInstance),
    i.view.announced = [false] ∧ (i.onControlPacket state .reloadState [] (-1)).view.announced = [true] :=
  ⟨fun _ => true, { publisher := some true, listeners := [{ tag := [65], visible := some false }] }, by decide⟩

theorem map_congr_mem {α β : Type} {f g : α → β} {l : List α} (h : ∀ a ∈ l, f a = g a) : l.map f = l.map g := by
  induction l with
  | nil => rfl
  | cons a l ih =>
    rw [List.map_cons, List.map_cons, h a List.mem_cons_self, ih (fun b hb => h b (List.mem_cons_of_mem _ hb))]

theorem reload_connections (state : Bytes → Bool) (l : CtlListener) : (l.reload state).connections = l.connections := by
  unfold CtlListener.reload
  split
  · rfl
  · split <;> rfl

/-- **C56.** Each observable is touched only by its own commands, whoever sends
them: the log level by VERBOSE with one byte, announcements by the two zeroconf
commands and RELOAD_STATE, connections by TERMINATE_CHILDREN with a payload. -/
theorem C56_frame (state : Bytes → Bool) (i : CtlInstance) (command : ControlCommand) (payload : Bytes) (uid : Int) :
    ((i.onControlPacket state command payload uid).view.logLevel ≠ i.view.logLevel →
      command = .verbose ∧ uid ≥ 0 ∧ ∃ b : UInt8, payload = [b] ∧
        (i.onControlPacket state command payload uid).view.logLevel = b.toNat) ∧
    ((i.onControlPacket state command payload uid).view.announced ≠ i.view.announced →
      (command = .disableZeroconf ∧ uid ≥ 0) ∨ (command = .enableZeroconf ∧ uid ≥ 0) ∨ command = .reloadState) ∧
    ((i.onControlPacket state command payload uid).view.running ≠ i.view.running →
      command = .terminateChildren ∧ payload ≠ []) := by
  refine ⟨fun h => ?_, fun h => ?_, fun h => ?_⟩
  · unfold CtlInstance.onControlPacket at h ⊢
    cases command <;> simp only at h ⊢ <;> try exact absurd rfl h
    case verbose =>
      split at h
      next b =>
        cases hu : decide (uid ≥ 0) with
        | false => rw [hu] at h; exact absurd rfl h
        | true => exact ⟨trivial, by simpa using hu, b, rfl, by simp [CtlInstance.view]⟩
      next => exact absurd rfl h
    case disableZeroconf =>
      cases hu : (decide (uid ≥ 0) && i.publisher.isSome) <;> rw [hu] at h <;> exact absurd rfl h
    case enableZeroconf =>
      cases hu : (decide (uid ≥ 0) && i.publisher.isSome) <;> rw [hu] at h <;> exact absurd rfl h
    case terminateChildren => split at h <;> exact absurd rfl h
  · unfold CtlInstance.onControlPacket at h
    cases command <;> simp only at h <;> try exact absurd rfl h
    case verbose =>
      split at h
      · cases hu : decide (uid ≥ 0) <;> rw [hu] at h <;> exact absurd rfl h
      · exact absurd rfl h
    case disableZeroconf =>
      cases hu : (decide (uid ≥ 0) && i.publisher.isSome) with
      | false => rw [hu] at h; exact absurd rfl h
      | true => simp only [Bool.and_eq_true, decide_eq_true_eq] at hu; exact Or.inl ⟨rfl, hu.1⟩
    case enableZeroconf =>
      cases hu : (decide (uid ≥ 0) && i.publisher.isSome) with
      | false => rw [hu] at h; exact absurd rfl h
      | true => simp only [Bool.and_eq_true, decide_eq_true_eq] at hu; exact Or.inr (Or.inl ⟨rfl, hu.1⟩)
    case reloadState => exact Or.inr (Or.inr rfl)
    case terminateChildren =>
      split at h
      · exact absurd rfl h
      · refine absurd ?_ h
        simp only [CtlInstance.view, List.map_map]
        exact map_congr_mem fun _ _ => rfl
  · unfold CtlInstance.onControlPacket at h
    cases command <;> simp only at h <;> try exact absurd rfl h
    case verbose =>
      split at h
      · cases hu : decide (uid ≥ 0) <;> rw [hu] at h <;> exact absurd rfl h
      · exact absurd rfl h
    case disableZeroconf =>
      cases hu : (decide (uid ≥ 0) && i.publisher.isSome) <;> rw [hu] at h <;> exact absurd rfl h
    case enableZeroconf =>
      cases hu : (decide (uid ≥ 0) && i.publisher.isSome) <;> rw [hu] at h <;> exact absurd rfl h
    case reloadState =>
      refine absurd ?_ h
      simp only [CtlInstance.view, List.map_map]
      exact map_congr_mem fun l _ => by simp only [Function.comp, reload_connections]
    case terminateChildren =>
      split at h
      · exact absurd rfl h
      next hne => exact ⟨rfl, hne⟩

/-- **C56.** TERMINATE_CHILDREN ends exactly the running connections whose
account (its `execute_options`) bears the tag. -/
theorem C56_terminate (state : Bytes → Bool) (i : CtlInstance) (tag : Bytes) (htag : tag ≠ []) (uid : Int) :
    (i.onControlPacket state .terminateChildren tag uid).view.running =
      i.listeners.map fun l => l.connections.map fun c =>
        !c.terminated && !(c.translation && match c.executeTag with
          | some t => decide (tag ∈ nulFields t)
          | none => false) := by
  unfold CtlInstance.onControlPacket
  simp only
  cases tag with
  | nil => exact absurd rfl htag
  | cons b bs =>
    simp only [CtlInstance.view, List.map_map]
    refine map_congr_mem fun l _ => ?_
    simp only [Function.comp, CtlListener.terminateChildren, List.map_map]
    refine map_congr_mem fun c _ => ?_
    simp only [Function.comp, CtlConnection.hasTag]
    obtain ⟨tr, ex, sv, te⟩ := c
    cases tr <;> cases ex <;> simp only [Bool.not_false, Bool.not_true, Bool.and_false, Bool.and_true, Bool.true_and,
      Bool.false_and, if_true, cond_false, Bool.false_eq_true, if_false]
    next t _ =>
      cases hc : (nulFields t).contains (b :: bs) with
      | true =>
        have : (b :: bs) ∈ nulFields t := by simpa using hc
        simp [this, CtlConnection.terminate]
      | false =>
        have : (b :: bs) ∉ nulFields t := by simpa using hc
        simp [this]

example : (CtlInstance.onControlPacket (fun _ => true) { listeners := [{ connections :=
      [{ translation := true, executeTag := some [65, 0, 66] }, { translation := true, executeTag := some [67] }, {}] }] }
    .terminateChildren [66] 0).view.running = [[false, true, true]] := by decide

/-- **C56 (violated).** An account whose tag is attached to a service (and that
has no general options) is not ended. -/
theorem C56_service_tag_violated : ∃ (i : CtlInstance) (tag : Bytes),
    (∃ l ∈ i.listeners, ∃ c ∈ l.connections, c.translation = true ∧ tag ∈ c.serviceTags) ∧
    (i.onControlPacket (fun _ => true) .terminateChildren tag 0).view.running = [[true]] :=
  ⟨{ listeners := [{ connections := [{ translation := true, serviceTags := [[65]] }] }] }, [65], by decide⟩

end Lukko
