import Verif.Proof.Stream
import Verif.Proof.Output
import Verif.Proof.Input
import Verif.Spec.Channel
/-
  A toy cipher for examples: it accepts for each sequence number only one packet.
-/
namespace Lukko
open Spec Model

/-- The state: the first number, and the packets. -/
def ticket : CipherOps (Nat × List Bytes) where
  blockSize := fun _ => 8
  authSize := fun _ => 1
  padWithoutHeader := fun _ => false
  decryptHeader := fun c _ s => some (s, c)
  decryptPayload := fun c seq s =>
    match c.2[seq - c.1]? with
    | none => none
    | some f => if c.1 ≤ seq ∧ s = f ++ [0xAA] then some (f.drop 4, c) else none
  encrypt := fun c _ pkt => some (pkt ++ [UInt8.ofNat c.1], c)

theorem ticket_sane : Sane ticket where
  header := by
    intro c seq s hdr c' h
    simp only [ticket, Option.some.injEq, Prod.mk.injEq] at h
    rw [← h.1]
  payload := by
    intro c seq s r c' h
    simp only [ticket] at h
    split at h
    · cases h
    · split at h
      · rename_i hc
        simp only [Option.some.injEq, Prod.mk.injEq] at h
        rw [← h.1, hc.2]
        simp only [ticket, List.length_drop, List.length_append, List.length_cons, List.length_nil]
        omega
      · cases h

theorem ticket_nonempty : EncNonempty ticket := by
  intro c seq p e c' _ h
  simp only [ticket, Option.some.injEq, Prod.mk.injEq] at h
  rw [← h.1]; simp

theorem ticket_next {c : Nat × List Bytes} {seq s p rx' n} (h : next ticket (some c) seq s = .packet p rx' n) :
    ∃ f, c.1 ≤ seq ∧ c.2[seq - c.1]? = some f ∧ payloadOf (f.drop 4) = some p ∧ rx' = some c := by
  simp only [next] at h
  split at h
  · cases h
  · split at h
    · cases h
    · rename_i hdr c₁ hh
      simp only [ticket, Option.some.injEq, Prod.mk.injEq] at hh
      obtain ⟨rfl, rfl⟩ := hh
      split at h
      · cases h
      · split at h
        · cases h
        · split at h
          · cases h
          · rename_i body c₂ hd
            simp only [ticket] at hd
            split at hd
            · cases hd
            · rename_i f hf
              split at hd
              · rename_i hc
                simp only [Option.some.injEq, Prod.mk.injEq] at hd
                obtain ⟨rfl, rfl⟩ := hd
                split at h
                · cases h
                · rename_i q hq
                  cases h
                  exact ⟨f, hc.1, hf, hq, rfl⟩
              · cases hd

/-- It is ideal for the numbering of its packets. -/
theorem ticket_accepts (b : Nat) (fs : List Bytes) : ∀ (xs : List Bytes) (k : Nat),
    (fs.drop k).map (fun f => payloadOf (f.drop 4)) = xs.map some → AcceptsOnly ticket (b, fs) (b + k) xs := by
  intro xs
  induction xs with
  | nil =>
    intro k h s p rx' n hn
    obtain ⟨f, -, hf, -⟩ := ticket_next hn
    simp only [List.map_nil, List.map_eq_nil_iff, List.drop_eq_nil_iff] at h
    have := (List.getElem?_eq_some_iff.mp hf).1
    simp only at this
    omega
  | cons x xs ih =>
    intro k h s p rx' n hn
    obtain ⟨f, -, hf, hp, rfl⟩ := ticket_next hn
    cases hd : fs.drop k with
    | nil => rw [hd] at h; cases h
    | cons f' fs' =>
      rw [hd, List.map_cons, List.map_cons, List.cons.injEq] at h
      have hff : f' = f := by
        have h0 : (fs.drop k)[0]? = some f' := by rw [hd]; rfl
        rw [List.getElem?_drop, Nat.add_zero] at h0
        simp only [Nat.add_sub_cancel_left] at hf
        rw [hf] at h0
        exact (Option.some.inj h0).symm
      subst hff
      rw [hp] at h
      refine ⟨Option.some.inj h.1, ?_⟩
      intro rx₁ hrx
      cases hrx
      have := ih (k + 1) (by
        rw [← List.drop_drop, hd]
        exact h.2)
      rw [← Nat.add_assoc] at this
      exact this

end Lukko
