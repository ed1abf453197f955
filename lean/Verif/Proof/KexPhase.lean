import Verif.Proof.Kex
/-
  What acceptance of a history by `phaseOf` says about the events in it.
-/
namespace Lukko
open Spec

/-- The history since the last completed exchange, event by event. -/
structure Segment (log : List Entry) (φ : Phase) (a b : List Entry) : Prop where
  split : log = a ++ b
  fresh : a = [] ∨ ∃ a' enc mac k, a = a' ++ [.installIn enc mac k]
  noIn : hasIn b = false
  kexSent : b.countP (Entry.isSent 20) = φ.kexSent.toNat
  kexRecv : φ.refused = true ∨ b.countP (Entry.isRecv 20) = φ.kexRecv.toNat
  secret : b.countP (fun | .agreed _ => true | _ => false) = φ.secret.toNat
  newSent : b.countP (Entry.isSent 21) = φ.newSent.toNat
  outSet : b.countP (fun | .installOut .. => true | _ => false) = φ.outSet.toNat
  newRecv : φ.refused = true ∨ b.countP (Entry.isRecv 21) = φ.newRecv.toNat

theorem Segment.snoc {log φ a b x φ'} (h : Segment log φ a b) (hn : φ.next x = some φ')
    (hx : ∀ enc mac k, x ≠ .installIn enc mac k) : Segment (log ++ [x]) φ' a (b ++ [x]) := by
  obtain ⟨h1, h2, h3, h4, h5, h6, h7, h8, h9⟩ := h
  refine ⟨by rw [h1, List.append_assoc], h2, ?_, ?_, ?_, ?_, ?_, ?_, ?_⟩
  · rw [hasIn_snoc, h3]; cases x <;> simp_all
  all_goals
    simp only [List.countP_append, List.countP_singleton, h4, h6, h7, h8]
    cases x with
    | version v => simp only [Phase.next, Option.some.injEq] at hn; subst hn; simp_all [Entry.isSent, Entry.isRecv]
    | encrypted => simp only [Phase.next, Option.some.injEq] at hn; subst hn; simp_all [Entry.isSent, Entry.isRecv]
    | blocked => simp only [Phase.next, Option.some.injEq] at hn; subst hn; simp_all [Entry.isSent, Entry.isRecv]
    | unblocked => simp only [Phase.next, Option.some.injEq] at hn; subst hn; simp_all [Entry.isSent, Entry.isRecv]
    | installIn enc mac k => exact absurd rfl (hx enc mac k)
    | agreed t =>
      simp only [Phase.next] at hn
      split at hn
      · simp only [Option.some.injEq] at hn; subst hn; simp_all [Entry.isSent, Entry.isRecv]
      · simp at hn
    | installOut enc mac k =>
      simp only [Phase.next] at hn
      split at hn
      · simp only [Option.some.injEq] at hn; subst hn; simp_all [Entry.isSent, Entry.isRecv]
      · simp at hn
    | sent p =>
      have d : ∀ {i j : UInt8}, i ≠ j → isMsg i p = true → isMsg j p = false := by
        intro i j hij hi; simp only [isMsg, beq_iff_eq] at hi ⊢; rw [hi]; simp [hij]
      simp only [Phase.next] at hn
      simp only [Entry.isSent, Entry.isRecv]
      split at hn
      · rename_i h1
        have := d (j := 20) (by decide) h1
        have := d (j := 21) (by decide) h1
        simp only [Option.some.injEq] at hn; subst hn; simp_all
      split at hn
      · simp at hn
      split at hn
      · simp at hn
      split at hn
      · rename_i h1
        have := d (j := 21) (by decide) h1
        split at hn
        · simp only [Option.some.injEq] at hn; subst hn; simp_all
        · simp at hn
      split at hn
      · split at hn
        · simp only [Option.some.injEq] at hn; subst hn; simp_all
        · simp at hn
      · simp only [Option.some.injEq] at hn; subst hn; simp_all
    | recv p =>
      have d : ∀ {i j : UInt8}, i ≠ j → isMsg i p = true → isMsg j p = false := by
        intro i j hij hi; simp only [isMsg, beq_iff_eq] at hi ⊢; rw [hi]; simp [hij]
      simp only [Phase.next] at hn
      simp only [Entry.isSent, Entry.isRecv]
      split at hn
      · simp at hn
      split at hn
      · rename_i h1
        have := d (j := 21) (by decide) h1
        split at hn
        · simp only [Option.some.injEq] at hn; subst hn; simp_all
        · simp only [Option.some.injEq] at hn; subst hn; simp_all
      split at hn
      · split at hn
        · simp only [Option.some.injEq] at hn; subst hn; simp_all
        · simp only [Option.some.injEq] at hn; subst hn; simp_all
      · simp only [Option.some.injEq] at hn; subst hn; simp_all

theorem snocInd {α : Type} {P : List α → Prop} (nil : P []) (snoc : ∀ l x, P l → P (l ++ [x])) : ∀ l, P l := by
  intro l
  have : ∀ l : List α, P l.reverse := by
    intro l
    induction l with
    | nil => exact nil
    | cons x l ih => rw [List.reverse_cons]; exact snoc _ _ ih
  simpa using this l.reverse

theorem segment_of_phase : ∀ (log : List Entry) {φ}, phaseOf log = some φ → ∃ a b, Segment log φ a b := by
  intro log
  induction log using snocInd with
  | nil =>
    intro φ h
    simp [phaseOf] at h; subst h
    exact ⟨[], [], by constructor <;> simp [hasIn]⟩
  | snoc log x ih =>
    intro φ h
    rw [phaseOf_snoc] at h
    cases hp : phaseOf log with
    | none => rw [hp] at h; simp at h
    | some φ0 =>
      rw [hp] at h
      obtain ⟨a, b, hs⟩ := ih hp
      by_cases hx : ∃ enc mac k, x = .installIn enc mac k
      · obtain ⟨enc, mac, k, rfl⟩ := hx
        simp only [Option.bind_some, Phase.next] at h
        split at h
        · simp only [Option.some.injEq] at h; subst h
          refine ⟨log ++ [.installIn enc mac k], [], ?_⟩
          constructor <;> simp [hasIn]
        · simp at h
      · refine ⟨a, b ++ [x], hs.snoc h ?_⟩
        intro enc mac k hh; exact hx ⟨enc, mac, k, hh⟩

theorem phaseOf_append (l l' : List Entry) : phaseOf (l ++ l') = (phaseOf l).bind (fun φ => l'.foldlM Phase.next φ) := by
  simp only [phaseOf, List.foldlM_append]; rfl

theorem phaseOf_prefix {pre x post φ} (h : phaseOf (pre ++ x :: post) = some φ) :
    ∃ φ0 φ1, phaseOf pre = some φ0 ∧ φ0.next x = some φ1 := by
  rw [phaseOf_append] at h
  cases hp : phaseOf pre with
  | none => rw [hp] at h; simp at h
  | some φ0 =>
    rw [hp] at h
    simp only [Option.bind_some, List.foldlM_cons] at h
    cases hn : φ0.next x with
    | none => rw [hn] at h; simp at h
    | some φ1 => exact ⟨φ0, φ1, rfl, hn⟩

end Lukko
