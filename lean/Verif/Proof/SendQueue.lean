import Verif.Model.SendQueue
namespace Lukko.Model

/-- What is still to be written. -/
def SendQueue.rest (q : SendQueue) : Bytes := q.queue.flatten.drop q.consumed

/-- The position lies inside the first block. -/
def HeadOk : List Bytes → Nat → Prop
  | [], n => n = 0
  | b :: _, n => n < b.length

/-- Representation invariant. -/
def SendQueue.WF (q : SendQueue) : Prop :=
  (∀ b ∈ q.queue, b ≠ []) ∧ HeadOk q.queue q.consumed

theorem SendQueue.wf_empty : SendQueue.WF {} := by simp [SendQueue.WF, HeadOk]

theorem SendQueue.rest_empty : SendQueue.rest {} = [] := rfl

theorem SendQueue.rest_of_wf_nil {q : SendQueue} (h : q.queue = []) : q.rest = [] := by
  simp [rest, h]

theorem SendQueue.moveFrom_wf {q : SendQueue} (h : q.WF) {src} (hs : ∀ b ∈ src, b ≠ []) :
    (q.moveFrom src).WF ∧ (q.moveFrom src).rest = q.rest ++ src.flatten := by
  obtain ⟨queue, consumed⟩ := q
  obtain ⟨h1, h2⟩ := h
  simp only [WF, rest, moveFrom] at *
  refine ⟨⟨?_, ?_⟩, ?_⟩
  · intro b hb
    rcases List.mem_append.1 hb with h | h
    · exact h1 b h
    · exact hs b h
  · cases queue with
    | nil =>
      cases src with
      | nil => exact h2
      | cons b t =>
        simp [HeadOk] at h2 ⊢
        have := hs b (List.mem_cons_self ..)
        rw [h2]; exact List.length_pos_iff.2 this
    | cons b t => exact h2
  · rw [List.flatten_append]
    cases queue with
    | nil => simp [HeadOk] at h2; simp [h2]
    | cons b t =>
      rw [List.drop_append_of_le_length]
      simp [HeadOk] at h2 ⊢; omega

theorem SendQueue.push_wf {q : SendQueue} (h : q.WF) {b} (hb : b ≠ []) :
    (q.push b).WF ∧ (q.push b).rest = q.rest ++ b := by
  have := moveFrom_wf h (src := [b]) (by simpa using hb)
  simpa [moveFrom, push] using this

theorem SendQueue.prepareLoop_spec {queue : List Bytes} {skip room : Nat}
    (h : ∀ b ∈ queue, b ≠ [])
    (hs : HeadOk queue skip) (hr : 0 < room) :
    ∃ v, prepareLoop skip queue room = some v ∧
      v.flatten = (queue.take room).flatten.drop skip ∧ (v = [] ↔ queue = []) := by
  induction queue generalizing skip room with
  | nil => exact ⟨[], by simp [prepareLoop]⟩
  | cons b t ih =>
    simp only [HeadOk] at hs
    rw [prepareLoop, if_neg (by simpa using hs)]
    by_cases h1 : room ≤ 1
    · rw [if_pos h1]
      have : room = 1 := by omega
      subst this
      exact ⟨_, rfl, by simp, by simp⟩
    · rw [if_neg h1]
      obtain ⟨v, hv, he, _⟩ := ih (skip := 0) (room := room - 1) (fun x hx => h x (List.mem_cons_of_mem _ hx))
        (by
          cases t with
          | nil => rfl
          | cons c u =>
            exact List.length_pos_iff.2 (h c (by simp))) (by omega)
      refine ⟨_, by rw [hv]; rfl, ?_, by simp⟩
      obtain ⟨r, rfl⟩ : ∃ r, room = r + 1 := ⟨room - 1, by omega⟩
      simp only [List.flatten_cons, he, List.take_succ_cons, List.drop_zero, Nat.add_sub_cancel]
      rw [List.drop_append_of_le_length (by omega)]

theorem SendQueue.prepare_spec {q : SendQueue} (h : q.WF) {room} (hr : 0 < room) :
    ∃ v, q.prepare room = some v ∧ v.flatten = (q.queue.take room).flatten.drop q.consumed ∧
      v.flatten <+: q.rest ∧ (v = [] ↔ q.queue = []) ∧ (q.queue ≠ [] → v.flatten ≠ []) := by
  obtain ⟨v, hv, he, hn⟩ := prepareLoop_spec (skip := q.consumed) h.1 h.2 hr
  refine ⟨v, by rw [prepare, if_neg (by omega), hv], he, ?_, hn, ?_⟩
  · rw [he, rest]
    obtain ⟨t, ht⟩ : (q.queue.take room).flatten <+: q.queue.flatten := by
      refine ⟨(q.queue.drop room).flatten, ?_⟩
      rw [← List.flatten_append, List.take_append_drop]
    rw [← ht, List.drop_append]
    exact List.prefix_append _ _
  · intro hne
    rw [he]
    have h2 := h.2
    cases hq : q.queue with
    | nil => exact absurd hq hne
    | cons b t =>
      rw [hq] at h2
      obtain ⟨r, rfl⟩ : ∃ r, room = r + 1 := ⟨room - 1, by omega⟩
      simp only [List.take_succ_cons, List.flatten_cons]
      intro hc
      have := congrArg List.length hc
      simp at this
      simp [HeadOk] at h2
      omega

theorem SendQueue.consumeLoop_spec {queue : List Bytes} {consumed n : Nat}
    (h : ∀ b ∈ queue, b ≠ [])
    (hs : HeadOk queue consumed)
    (hn : n ≤ (queue.flatten.drop consumed).length) :
    ∃ q', consumeLoop queue consumed n = some q' ∧ q'.WF ∧
      q'.rest = (queue.flatten.drop consumed).drop n := by
  induction queue generalizing consumed n with
  | nil =>
    simp [HeadOk] at hn hs
    subst hn; subst hs
    exact ⟨_, rfl, wf_empty, by simp [rest]⟩
  | cons b t ih =>
    simp only [HeadOk] at hs
    rw [consumeLoop]
    by_cases hc : n < b.length - consumed
    · simp only [hc, if_true]
      refine ⟨_, rfl, ⟨h, ?_⟩, ?_⟩
      · simp only [HeadOk]; omega
      · simp [rest, List.drop_drop]
    · simp only [hc, if_false]
      have hcut : (b ++ t.flatten).drop (consumed + n) = t.flatten.drop (n - (b.length - consumed)) := by
        rw [List.drop_append, List.drop_eq_nil_of_le (by omega)]
        simp only [List.nil_append]
        congr 1; omega
      obtain ⟨q', hq, hw, he⟩ := ih (consumed := 0) (n := n - (b.length - consumed))
        (fun x hx => h x (List.mem_cons_of_mem _ hx))
        (by
          cases t with
          | nil => rfl
          | cons c u => exact List.length_pos_iff.2 (h c (by simp)))
        (by
          simp only [List.flatten_cons, List.length_drop, List.length_append] at hn
          simp only [List.length_drop]; omega)
      refine ⟨q', hq, hw, ?_⟩
      rw [he, List.flatten_cons, List.drop_zero, List.drop_drop, hcut]

theorem SendQueue.consume_spec {q : SendQueue} (h : q.WF) {n} (hn : n ≤ q.rest.length) :
    ∃ q', q.consume n = some q' ∧ q'.WF ∧ q'.rest = q.rest.drop n :=
  consumeLoop_spec h.1 h.2 hn

theorem SendQueue.rest_nil_iff {q : SendQueue} (h : q.WF) : q.rest = [] ↔ q.queue = [] := by
  refine ⟨fun hr => ?_, rest_of_wf_nil⟩
  have h2 := h.2
  cases hq : q.queue with
  | nil => rfl
  | cons b t =>
    rw [hq] at h2
    have := congrArg List.length hr
    simp [rest, hq] at this
    simp [HeadOk] at h2
    omega

end Lukko.Model
