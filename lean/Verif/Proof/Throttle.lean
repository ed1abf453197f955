import Verif.Model.Accounting
import Verif.Proof.Lists
/-
  The token bucket and the delay (for C45).
-/
namespace Lukko
open Model Spec

theorem throttle_snoc (s : Throttle) (h : List (Nat × Nat)) (x : Nat × Nat) :
    s.run (h ++ [x]) = (s.run h).update x.1 x.2 := by simp [Throttle.run]

theorem totalCost_append (a b : List (Nat × Nat)) : totalCost (a ++ b) = totalCost a + totalCost b := by
  simp [totalCost]

theorem totalCost_one (x : Nat × Nat) : totalCost [x] = x.2 := by simp [totalCost]

theorem lastTime_snoc (h : List (Nat × Nat)) (x : Nat × Nat) : lastTime (h ++ [x]) = x.1 := by simp [lastTime]

theorem chron_snoc {h : List (Nat × Nat)} {x : Nat × Nat} (hc : Chronological (h ++ [x])) :
    Chronological h ∧ ∀ y ∈ h, y.1 ≤ x.1 := by
  simp only [Chronological, List.pairwise_append, List.mem_singleton] at hc
  exact ⟨hc.1, fun y hy => hc.2.2 y hy x rfl⟩

theorem lastTime_mem {h : List (Nat × Nat)} (hne : h ≠ []) : ∃ y ∈ h, lastTime h = y.1 := by
  rcases Aux.snoc_cases h with rfl | ⟨a, x, rfl⟩
  · exact absurd rfl hne
  · exact ⟨x, by simp, lastTime_snoc a x⟩

/-- The bucket holds less than `x`. -/
def Deficit (h : List (Nat × Nat)) (x : Int) : Prop :=
  (∃ (a : List (Nat × Nat)) (t c : Nat) (b : List (Nat × Nat)), h = a ++ (t, c) :: b ∧ (tokenBurst : Int) + ((lastTime h : Int) - (t : Int)) - (totalCost ((t, c) :: b) : Int) < x) ∨
  (lastTime h : Int) - (totalCost h : Int) < x

theorem level_iff (h : List (Nat × Nat)) (hne : h ≠ []) (x : Int) :
    (lastTime h : Int) - (Throttle.run {} h).bucket.zero < x ↔ Deficit h x := by
  induction h using Aux.snoc_ind generalizing x with
  | h0 => exact absurd rfl hne
  | h1 h y ih =>
    obtain ⟨t, c⟩ := y
    rw [throttle_snoc]
    simp only [Throttle.update, Bucket.update, Deficit, lastTime_snoc, totalCost_append, totalCost_one]
    have e1 : ((t : Int) - ((t : Int) - (Throttle.run {} h).bucket.available t c)) = (Throttle.run {} h).bucket.available t c := by omega
    rw [e1]
    simp only [Bucket.available]
    by_cases h0 : h = []
    · subst h0
      have ez : (Throttle.run {} []).bucket.zero = 0 := rfl
      rw [ez]
      constructor
      · intro hx
        by_cases hb : bucketBurst ≤ t
        · refine .inl ⟨[], t, c, [], rfl, ?_⟩
          rw [totalCost_one]
          simp only [bucketBurst, tokenBurst] at *
          omega
        · refine .inr ?_
          simp only [totalCost, List.map_nil, List.sum_nil, bucketBurst] at *
          omega
      · rintro (⟨a, t', c', b, e, hx⟩ | hx)
        · rcases a with _ | ⟨_, a⟩
          · simp only [List.nil_append, List.cons.injEq, Prod.mk.injEq] at e
            obtain ⟨⟨rfl, rfl⟩, rfl⟩ := e
            rw [totalCost_one] at hx
            simp only [bucketBurst, tokenBurst] at *
            omega
          · simp at e
        · simp only [totalCost, List.map_nil, List.sum_nil, bucketBurst] at *
          omega
    · have ih := ih h0
      constructor
      · intro hx
        by_cases hb : bucketBurst ≤ t - (Throttle.run {} h).bucket.zero
        · refine .inl ⟨h, t, c, [], rfl, ?_⟩
          rw [totalCost_one]
          simp only [bucketBurst, tokenBurst] at *
          omega
        · have := (ih (x + c - t + lastTime h)).mp (by omega)
          rcases this with ⟨a, t', c', b, e, hx'⟩ | hx'
          · refine .inl ⟨a, t', c', b ++ [(t, c)], by rw [e]; simp, ?_⟩
            rw [← List.cons_append, totalCost_append, totalCost_one]
            simp only [tokenBurst] at *
            omega
          · refine .inr ?_
            omega
      · rintro (⟨a, t', c', b, e, hx⟩ | hx)
        · rcases Aux.snoc_split e with ⟨rfl, rfl, e'⟩ | ⟨b', rfl, rfl⟩
          · obtain ⟨rfl, rfl⟩ := Prod.mk.inj e'
            rw [totalCost_one] at hx
            simp only [bucketBurst, tokenBurst] at *
            omega
          · rw [← List.cons_append, totalCost_append, totalCost_one] at hx
            have := (ih (x + c - t + lastTime (a ++ (t', c') :: b'))).mpr
              (.inl ⟨a, t', c', b', rfl, by simp only [tokenBurst] at *; omega⟩)
            omega
        · have := (ih (x + c - t + lastTime h)).mpr (.inr (by omega))
          omega

theorem overBudget_iff {h : List (Nat × Nat)} (hc : Chronological h) : OverBudget h ↔ Deficit h 0 := by
  have hle : ∀ a t c b, h = a ++ (t, c) :: b → t ≤ lastTime h := by
    intro a t c b e
    rcases Aux.snoc_cases h with rfl | ⟨l, x, rfl⟩
    · simp at e
    · rw [lastTime_snoc]
      have hm : (t, c) ∈ l ++ [x] := by rw [e]; simp
      simp only [List.mem_append, List.mem_singleton] at hm
      rcases hm with hm | hm
      · exact (chron_snoc hc).2 _ hm
      · rw [← hm]; exact Nat.le_refl t
  unfold OverBudget Deficit
  constructor
  · rintro (⟨a, t, c, b, e, hx⟩ | hx)
    · have := hle a t c b e
      exact .inl ⟨a, t, c, b, e, by simp only [tokenBurst] at *; omega⟩
    · exact .inr (by omega)
  · rintro (⟨a, t, c, b, e, hx⟩ | hx)
    · have := hle a t c b e
      exact .inl ⟨a, t, c, b, e, by simp only [tokenBurst] at *; omega⟩
    · exact .inr (by omega)

/-- The bucket is overdrawn exactly if the client is over its budget. -/
theorem available_iff {h : List (Nat × Nat)} {t c : Nat} (hc : Chronological (h ++ [(t, c)])) :
    (Throttle.run {} h).bucket.available t c < 0 ↔ OverBudget (h ++ [(t, c)]) := by
  rw [overBudget_iff hc, ← level_iff _ (by simp), throttle_snoc, lastTime_snoc]
  simp only [Throttle.update, Bucket.update]
  omega

theorem Throttle.after_delay {s : Throttle} {now : Nat} {av : Int} (h : ∃ k ≤ 600, s.delay = k * delayUnit) :
    ∃ k ≤ 600, (s.after now av).delay = k * delayUnit := by
  obtain ⟨k, hk, hd⟩ := h
  unfold Throttle.after
  split
  · simp only [maxDelay, delayStep, delayUnit] at *
    split
    · exact ⟨k + 1, by omega, by omega⟩
    · exact ⟨k, hk, hd⟩
  · split
    · simp only [delayStep, delayUnit] at *
      split
      · exact ⟨k - 1, by omega, by omega⟩
      · exact ⟨k, hk, hd⟩
    · exact ⟨0, by omega, by simp⟩

theorem throttle_delay (h : List (Nat × Nat)) : ∃ k ≤ 600, (Throttle.run {} h).delay = k * delayUnit := by
  induction h using Aux.snoc_ind with
  | h0 => exact ⟨0, by omega, rfl⟩
  | h1 h x ih => rw [throttle_snoc]; exact Throttle.after_delay ih

/-- The end of the tarpit: one minute after the last time the client was over its budget. -/
theorem throttle_until {h : List (Nat × Nat)} (hc : Chronological h) :
    ((Throttle.run {} h).tarpitUntil = 0 ∧ ∀ p, p <+: h → ¬ OverBudget p) ∨
    ∃ p, p <+: h ∧ OverBudget p ∧ (Throttle.run {} h).tarpitUntil = lastTime p + oneMinute := by
  induction h using Aux.snoc_ind with
  | h0 =>
    refine .inl ⟨rfl, fun p hp => ?_⟩
    simp only [List.prefix_nil] at hp
    subst hp
    simp [OverBudget, totalCost]
  | h1 h x ih =>
    obtain ⟨t, c⟩ := x
    have ih := ih (chron_snoc hc).1
    rw [throttle_snoc]
    simp only [Throttle.update, Throttle.after]
    by_cases hb : (Throttle.run {} h).bucket.available t c < 0
    · rw [if_pos hb]
      refine .inr ⟨_, List.prefix_refl _, (available_iff hc).mp hb, ?_⟩
      rw [lastTime_snoc]
    · rw [if_neg hb]
      have e : (if t < (Throttle.run {} h).tarpitUntil then
          { Throttle.run {} h with delay := if delayStep < (Throttle.run {} h).delay then (Throttle.run {} h).delay - delayStep
              else (Throttle.run {} h).delay }
          else { Throttle.run {} h with delay := 0 } : Throttle).tarpitUntil = (Throttle.run {} h).tarpitUntil := by
        split <;> rfl
      rw [e]
      rcases ih with ⟨h1, h2⟩ | ⟨p, h1, h2, h3⟩
      · refine .inl ⟨h1, fun p hp => ?_⟩
        rcases List.prefix_concat_iff.mp hp with rfl | hp
        · exact fun ho => hb ((available_iff hc).mpr ho)
        · exact h2 p hp
      · exact .inr ⟨p, h1.trans (List.prefix_append _ _), h2, h3⟩

theorem lastTime_prefix {p h : List (Nat × Nat)} (hp : p <+: h) (hc : Chronological h) : lastTime p ≤ lastTime h := by
  obtain ⟨q, rfl⟩ := hp
  rcases Aux.snoc_cases q with rfl | ⟨q, x, rfl⟩
  · simp
  · by_cases h0 : p = []
    · subst h0; simp [lastTime]
    · obtain ⟨y, hy, e⟩ := lastTime_mem h0
      rw [e, ← List.append_assoc, lastTime_snoc]
      rw [← List.append_assoc] at hc
      exact (chron_snoc hc).2 y (by simp [hy])


theorem throttle_deserved {h : List (Nat × Nat)} (hc : Chronological h) (hd : 0 < (Throttle.run {} h).delay) :
    ∃ p, p <+: h ∧ OverBudget p ∧ lastTime h < lastTime p + oneMinute := by
  rcases Aux.snoc_cases h with rfl | ⟨h, x, rfl⟩
  · simp [Throttle.run] at hd
  · obtain ⟨t, c⟩ := x
    by_cases hb : (Throttle.run {} h).bucket.available t c < 0
    · exact ⟨_, List.prefix_refl _, (available_iff hc).mp hb, by simp only [oneMinute]; omega⟩
    · by_cases hu : t < (Throttle.run {} h).tarpitUntil
      · rcases throttle_until (chron_snoc hc).1 with ⟨h1, _⟩ | ⟨p, h1, h2, h3⟩
        · omega
        · exact ⟨p, h1.trans (List.prefix_append _ _), h2, by rw [lastTime_snoc]; omega⟩
      · rw [throttle_snoc] at hd
        simp only [Throttle.update, Throttle.after, if_neg hb, if_neg hu] at hd
        exact absurd hd (Nat.lt_irrefl 0)

end Lukko
