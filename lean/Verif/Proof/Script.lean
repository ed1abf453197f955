import Verif.Proof.InputInv
/-
  A concrete ideal cipher, used only to show that the hypotheses of the
  theorems about encrypted streams can be met: both ends hold the list of
  packets which will be sent; the tag is one byte.
-/
namespace Lukko
open Spec Model

def script : CipherOps (List Bytes) where
  blockSize := fun _ => 8
  authSize := fun _ => 1
  padWithoutHeader := fun _ => true
  decryptHeader := fun c _ s => some (s, c)
  decryptPayload := fun c _ s =>
    match c with
    | [] => none
    | p :: ps => if s = p ++ [0xAA] then some ((s.drop 4).take (s.length - 4 - 1), ps) else none
  encrypt := fun c _ pkt =>
    match c with
    | [] => none
    | p :: ps => if pkt = p then some (pkt ++ [0xAA], ps) else none

theorem script_sane : Sane script where
  header := by
    intro c seq s hdr c' h
    simp [script] at h; rw [← h.1]
  payload := by
    intro c seq s r c' h
    cases c with
    | nil => simp [script] at h
    | cons p ps =>
      simp only [script] at h
      split at h
      · simp at h; rw [← h.1]; simp [script]
      · simp at h

theorem script_contract : Contract script (fun a b => a = b) where
  roundtrip := by
    intro tx rx seq pkt e tx' hm h4 he
    subst hm
    cases tx with
    | nil => simp [script] at he
    | cons p ps =>
      simp only [script] at he
      split at he
      · rename_i hp
        subst hp
        simp at he
        obtain ⟨rfl, rfl⟩ := he
        refine ⟨by simp [script], pkt :: ps, ps, ?_, rfl, ?_, rfl, rfl⟩
        · simp [script, List.take_append_of_le_length h4]
        · simp only [script, if_true]
          congr 2
          rw [List.drop_append_of_le_length h4]
          rw [List.take_append_of_le_length (by simp; omega), List.take_of_length_le (by simp; omega)]
      · simp at he

theorem script_next {c : List Bytes} {seq s p rx' n} (h : next script (some c) seq s = .packet p rx' n) :
    ∃ q qs, c = q :: qs ∧ s.take n = q ++ [0xAA] ∧ rx' = some qs := by
  unfold next at h
  split at h
  · simp at h
  · split at h
    · simp at *
    rename_i c₀ heq
    obtain rfl := Option.some.inj heq
    split at h
    · simp at h
    rename_i hdr c₁ hh
    simp [script] at hh
    obtain ⟨rfl, rfl⟩ := hh
    simp only at h
    split at h
    · simp at h
    split at h
    · simp at h
    split at h
    · simp at h
    rename_i body c₂ hd
    split at h
    · simp at h
    injection h with h1 h2 h3
    subst h3 h2
    cases c with
    | nil => simp [script] at hd
    | cons q qs =>
      simp only [script] at hd ⊢
      split at hd
      · rename_i hq
        simp at hd
        exact ⟨q, qs, rfl, hq, by rw [hd.2]⟩
      · simp at hd

/-- The ideal cipher is authentic for its own script. -/
theorem script_authentic (xs : List (Sent (List Bytes))) (h : ∀ x ∈ xs, x.switch = none) :
    ∀ seq, Authentic script (xs.map (·.pkt)) (xs.map (·.pkt)) seq xs := by
  induction xs with
  | nil =>
    intro seq s p rx' n hn
    obtain ⟨q, qs, hc, _⟩ := script_next hn
    simp at hc
  | cons x xs ih =>
    intro seq
    refine ⟨fun s p rx' n hn => ?_, fun a b r hx => ?_⟩
    · obtain ⟨q, qs, hc, ht, rfl⟩ := script_next hn
      simp at hc
      obtain ⟨rfl, rfl⟩ := hc
      refine ⟨xs.map (·.pkt), by simp [script, ht], fun _ => ⟨_, rfl, ?_⟩⟩
      exact ih (fun y hy => h y (by simp [hy])) _
    · rw [h x (by simp)] at hx; simp at hx

end Lukko
