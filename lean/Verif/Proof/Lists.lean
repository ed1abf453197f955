/-
  Small facts about lists.
-/
namespace Lukko.Aux

theorem snoc_cases {α} (l : List α) : l = [] ∨ ∃ a x, l = a ++ [x] := by
  by_cases h : l = []
  · exact .inl h
  · exact .inr ⟨l.dropLast, l.getLast h, (List.dropLast_concat_getLast h).symm⟩

theorem snoc_ind {α} {P : List α → Prop} (h0 : P []) (h1 : ∀ a x, P a → P (a ++ [x])) (l : List α) : P l := by
  suffices ∀ n (l : List α), l.length = n → P l from this _ l rfl
  intro n
  induction n with
  | zero => intro l hl; rw [List.length_eq_zero_iff] at hl; subst hl; exact h0
  | succ n ih =>
    intro l hl
    rcases snoc_cases l with rfl | ⟨a, x, rfl⟩
    · exact h0
    · exact h1 a x (ih a (by simpa using hl))

/-- Where an element can be in `l ++ [x]`. -/
theorem snoc_split {α} {l a b : List α} {x e : α} (h : l ++ [x] = a ++ e :: b) :
    (b = [] ∧ l = a ∧ x = e) ∨ ∃ b', b = b' ++ [x] ∧ l = a ++ e :: b' := by
  rcases snoc_cases b with rfl | ⟨b', y, rfl⟩
  · have := List.append_inj' h rfl
    simp at this
    exact .inl ⟨rfl, this.1, this.2⟩
  · have h' : l ++ [x] = (a ++ e :: b') ++ [y] := by simpa using h
    have := List.append_inj' h' rfl
    simp at this
    exact .inr ⟨b', by rw [this.2], this.1⟩

end Lukko.Aux
