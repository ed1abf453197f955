import Verif.Proof.Output
namespace Lukko
open Spec Model
variable {σ : Type} {ops : CipherOps σ}

/-- Once dead, the DISCONNECT packet is the last thing submitted. -/
structure ConnOutInv (ops : CipherOps σ) (s : ConnOut σ) : Prop where
  shape : OutShape s.sys
  content : OutContent ops s.sys
  last : s.dead = true → ∃ xs p, s.sys.submitted = xs ++ [.packet p]

theorem OutSys.step_submitted {s t : OutSys σ} {e : OutEvent σ} (h : s.step ops e = some t)
    (he : ∀ p, e ≠ .push p) (he' : ∀ c, e ≠ .setCipher c) : t.submitted = s.submitted := by
  cases e with
  | push p => exact absurd rfl (he p)
  | setCipher c => exact absurd rfl (he' c)
  | autoReset => simp [OutSys.step] at h; subst h; rfl
  | flush w =>
    simp only [OutSys.step] at h
    split at h
    · simp at h
    · simp at h; subst h; rfl
  | runBegin =>
    simp only [OutSys.step] at h
    split at h <;> (simp at h; subst h; rfl)
  | runEncrypt =>
    simp only [OutSys.step] at h
    split at h
    · split at h
      · simp at h
      · simp at h; subst h; rfl
    · simp at h; subst h; rfl
  | runEnd =>
    simp only [OutSys.step] at h
    split at h <;> (simp at h; subst h; rfl)

theorem ConnOutInv.quiet (hn : EncNonempty ops) {s : ConnOut σ} (h : ConnOutInv ops s) {e : OutEvent σ}
    {t : OutSys σ} (hst : s.sys.step ops e = some t) (hc : s.sys.callerOk e)
    (he : ∀ p, e ≠ .push p) (he' : ∀ c, e ≠ .setCipher c) (cl : Option CloseReason) :
    ConnOutInv ops { s with sys := t, closed := cl } := by
  obtain ⟨t', h1, h2⟩ := h.shape.step hn hc
  rw [hst] at h1
  obtain rfl := Option.some.inj h1
  have hr : s.sys.rekeyOk e := by
    cases e <;> first | trivial | exact absurd rfl (he' _)
  refine ⟨h2, h.content.step hn h.shape hc hr hst, ?_⟩
  intro hd
  rw [OutSys.step_submitted hst he he']
  exact h.last hd

theorem ConnOutInv.step (hn : EncNonempty ops) {s s' : ConnOut σ} (h : ConnOutInv ops s)
    {e : ConnOutEvent σ} (hst : s.step ops e = some s') : ConnOutInv ops s' := by
  unfold ConnOut.step at hst
  split at hst
  · simp at hst
  cases e with
  | send p =>
    simp only at hst
    split at hst
    · simp at hst
    · rename_i hd
      simp only [not_or, Bool.not_eq_true] at hd
      have hc : s.sys.callerOk (.push p) := hd.2
      obtain ⟨t, h1, h2⟩ := h.shape.step hn hc
      simp only [h1, Option.map_some, Option.some.injEq] at hst
      subst hst
      exact ⟨h2, h.content.step hn h.shape hc trivial h1, fun h => by simp [hd.1] at h⟩
  | setCipher c =>
    simp only at hst
    split at hst
    · simp at hst
    · rename_i hd
      simp only [not_or, Bool.not_eq_true, Option.isSome_eq_false_iff, Option.isNone_iff_eq_none] at hd
      have hc : s.sys.callerOk (.setCipher c) := trivial
      obtain ⟨t, h1, h2⟩ := h.shape.step (ops := ops) hn hc
      simp only [h1, Option.map_some, Option.some.injEq] at hst
      subst hst
      exact ⟨h2, h.content.step hn h.shape hc hd.2 h1, fun h => by simp [hd.1] at h⟩
  | autoReset =>
    simp only at hst
    split at hst
    · simp at hst
    · rename_i hd
      have hc : s.sys.callerOk .autoReset := by
        simp only [OutSys.callerOk]
        cases h1 : s.sys.output.isEncrypted <;> cases h2 : s.sys.output.autoReset <;> simp_all
      simp only [Option.map_eq_some_iff] at hst
      obtain ⟨t, h1, rfl⟩ := hst
      exact h.quiet hn h1 hc (by simp) (by simp) _
  | disconnect p w =>
    simp only at hst
    split at hst
    · simp at hst
    · rename_i hp
      split at hst
      · simp at hst; subst hst; exact h
      · have hc : s.sys.callerOk (.push p) := hp
        obtain ⟨t, h1, h2⟩ := h.shape.step (ops := ops) hn hc
        have h3 := h.content.step hn h.shape hc trivial h1
        have hl : t.submitted = s.sys.submitted ++ [.packet p] := by
          simp [OutSys.step] at h1; subst h1; rfl
        simp only [h1] at hst
        have hinv : ConnOutInv ops { s with sys := t, dead := true } := ⟨h2, h3, fun _ => ⟨_, _, hl⟩⟩
        split at hst
        · simp at hst; subst hst
          exact hinv
        · split at hst
          · simp at hst
          · rename_i t' h4
            simp at hst; subst hst
            exact hinv.quiet hn h4 trivial (by simp) (by simp) (some .immediate)
  | writable w =>
    simp only at hst
    split at hst
    · simp at hst
    · rename_i t h1
      split at hst <;>
      · simp at hst; subst hst
        exact h.quiet hn h1 trivial (by simp) (by simp) _
  | runBegin =>
    simp only [Option.map_eq_some_iff] at hst
    obtain ⟨t, h1, rfl⟩ := hst
    exact h.quiet hn h1 trivial (by simp) (by simp) _
  | runEncrypt =>
    simp only [Option.map_eq_some_iff] at hst
    obtain ⟨t, h1, rfl⟩ := hst
    exact h.quiet hn h1 trivial (by simp) (by simp) _
  | runEnd =>
    simp only [Option.map_eq_some_iff] at hst
    obtain ⟨t, h1, rfl⟩ := hst
    exact h.quiet hn h1 trivial (by simp) (by simp) _

theorem ConnOutInv.run (hn : EncNonempty ops) {s s' : ConnOut σ} (h : ConnOutInv ops s)
    {es : List (ConnOutEvent σ)} (hst : s.run ops es = some s') : ConnOutInv ops s' := by
  induction es generalizing s with
  | nil => simp [ConnOut.run] at hst; subst hst; exact h
  | cons e es ih =>
    simp only [ConnOut.run] at hst
    split at hst
    · simp at hst
    · rename_i s₁ h1
      exact ih (h.step hn h1) hst

theorem ConnOutInv.init : ConnOutInv ops ({} : ConnOut σ) :=
  ⟨OutShape.init, OutContent.init, by simp⟩

/-- Everything was written if the queues are empty and no worker is busy. -/
theorem all_written {s : OutSys σ} (hsh : OutShape s) (h : OutContent ops s) (he : s.output.error = false)
    (hemp : s.output.isEmpty = true) (hw : s.worker = .idle) :
    s.written = wire ops none 0 s.submitted := by
  obtain ⟨d, h1, h2⟩ := h.exact' he
  simp only [Output.isEmpty, Bool.and_eq_true, List.isEmpty_iff] at hemp
  obtain ⟨⟨⟨e1, e2⟩, e3⟩, e4⟩ := hemp
  rw [h1, wire_of_enc h2]
  simp only [OutSys.todo, hw, OutWorker.src, OutWorker.dest, e2, e3, e4, SendQueue.rest_of_wf_nil e1]
  cases s.output.nextCipher <;> simp [wire]

end Lukko
