import Verif.Proof.Requests
/-
  Property theorems: C27 (channel requests), C28 (global requests).

  A request handler is a coroutine, represented by what it does: finish at once
  with a result, throw, or be suspended and finish later; any number of handlers may
  be suspended and they may finish in any order.  `ReqSys.run sd limit {} evs` is one
  channel (`limit = none`) or the global requests of one connection
  (`limit = some 16`) after an arbitrary sequence of such events.
-/
namespace Lukko
open Model Spec

variable {sd : Bool} {limit : Option Nat} {evs : List ReqEvent}

/-! ## C27 -/

/-- **C27.** The replies that were sent are exactly those of the finished requests
up to the first one that is still unfinished, in the order of the requests. -/
theorem C27_replies_partial (hs : ∀ ev ∈ evs, SyncOk sd ev) (hstop : (ReqSys.run sd limit {} evs).stop = none) :
    replies (ReqSys.run sd limit {} evs).reqs.log =
      due (ReqSys.run sd limit {} evs).reqs.log (requests (ReqSys.run sd limit {} evs).reqs.log) :=
  ((ReqSys.init_run hs).2.1 hstop).due

/-- **C27.** On every connection: the `k`-th reply is the result of the `k`-th
request that wants one. -/
theorem C27_kth_partial (hs : ∀ ev ∈ evs, SyncOk sd ev) {k : Nat} {b : Bool}
    (hk : (replies (ReqSys.run sd limit {} evs).reqs.log)[k]? = some b) :
    ∃ id, (wanting (ReqSys.run sd limit {} evs).reqs.log)[k]? = some id ∧
      resultOf id (ReqSys.run sd limit {} evs).reqs.log = some b := by
  obtain ⟨P, R, h1, h2, h3⟩ := (ReqSys.init_run (limit := limit) hs).2.2
  unfold wanting
  rw [h1]
  rw [h3] at hk
  generalize (ReqSys.run sd limit {} evs).reqs.log = log at *
  clear h1 h3
  induction P generalizing k with
  | nil => simp [repliesFor] at hk
  | cons x P ih =>
    obtain ⟨id, w⟩ := x
    obtain ⟨b', hb⟩ := Option.isSome_iff_exists.mp (h2 _ List.mem_cons_self)
    have ih := fun k => @ih k (h2 := fun y hy => h2 y (List.mem_cons_of_mem _ hy))
    cases w with
    | false => simp [repliesFor] at hk ih ⊢; exact ih k hk
    | true =>
      cases k with
      | zero =>
        simp [repliesFor, hb] at hk
        exact ⟨id, by simp, by rw [hb, hk]⟩
      | succ k =>
        simp [repliesFor, hb] at hk ih ⊢
        exact ih k hk

/-- **C27.** When all requests have finished, all that want a reply were answered. -/
theorem C27_all_answered_partial (hs : ∀ ev ∈ evs, SyncOk sd ev)
    (hstop : (ReqSys.run sd limit {} evs).stop = none)
    (hall : ∀ x ∈ requests (ReqSys.run sd limit {} evs).reqs.log,
      (resultOf x.1 (ReqSys.run sd limit {} evs).reqs.log).isSome = true) :
    (replies (ReqSys.run sd limit {} evs).reqs.log).length =
      (wanting (ReqSys.run sd limit {} evs).reqs.log).length := by
  rw [C27_replies_partial hs hstop]
  unfold wanting
  generalize hl : (ReqSys.run sd limit {} evs).reqs.log = log at *
  rw [List.length_map]
  generalize requests log = l at *
  induction l with
  | nil => rfl
  | cons x l ih =>
    obtain ⟨id, w⟩ := x
    obtain ⟨b, hb⟩ := Option.isSome_iff_exists.mp (hall _ List.mem_cons_self)
    have ih := ih fun y hy => hall y (List.mem_cons_of_mem _ hy)
    cases w <;> simp [due, hb, ih]

/-- Three requests, of which the second and third finish before the first. -/
def demoRequests : List ReqEvent :=
  [.request true .suspend, .request true (.done false), .request false .suspend, .request true .suspend,
   .complete 3 (some true), .complete 2 (some true), .complete 0 (some true)]

example : (∀ ev ∈ demoRequests, SyncOk false ev) ∧ (∀ ev ∈ demoRequests, SyncOk true ev) ∧
    (ReqSys.run true none {} demoRequests).stop = none ∧
    replies (ReqSys.run true none {} (demoRequests.take 6)).reqs.log = [] ∧
    replies (ReqSys.run true none {} demoRequests).reqs.log = [true, false, true] ∧
    wanting (ReqSys.run true none {} demoRequests).reqs.log = [0, 1, 3] := by decide

/-- **C27 is false** if the library's `EagerInvokeTask` is empty as soon as the
coroutine has finished (`syncDone = true`): a request that wants no reply and whose
handler finishes at once makes the assertion in `SubmitRequestResponses` fail (and
is answered if assertions are disabled). -/
theorem C27_unwanted_reply_violated : ∃ evs : List ReqEvent,
    (ReqSys.run true none {} evs).stop = some .ub :=
  ⟨[.request false (.done true)], by decide⟩

/-- With the other behaviour, no restriction is needed. -/
example (evs : List ReqEvent) : ∀ ev ∈ evs, SyncOk false ev := by
  intro ev _
  cases ev with
  | request w a => cases a <;> simp [SyncOk]
  | complete => simp [SyncOk]

/-! ## C28 -/

/-- **C28.** No more than 16 global requests are outstanding at any time. -/
theorem C28_bounded (hs : ∀ ev ∈ evs, SyncOk sd ev) (hstop : (ReqSys.run sd (some 16) {} evs).stop = none) :
    outstanding (ReqSys.run sd (some 16) {} evs).reqs.log ≤ 16 := by
  rw [← ((ReqSys.init_run hs).2.1 hstop).outstanding]
  clear hs
  suffices h : ∀ y : ReqSys, y.reqs.pending.length ≤ 16 → (y.run sd (some 16) evs).reqs.pending.length ≤ 16 from
    h {} (by decide)
  clear hstop
  have hsub : ∀ q bs q', submitResponses q = some (bs, q') → q'.length ≤ q.length := by
    intro q
    induction q with
    | nil => intro bs q' h; simp [submitResponses] at h; simp [h]
    | cons r q ih =>
      intro bs q' h
      simp only [submitResponses] at h
      split at h
      · simp at h; simp [← h.2]
      · cases hw : r.want
        · simp [hw] at h
        · simp only [hw, cond_true] at h
          split at h
          · rename_i bs₁ q₁ hq
            simp at h
            have := ih _ _ hq
            simp only [List.length_cons, ← h.2]; omega
          · simp at h
  have hsubmit : ∀ r : Reqs, (r.submit).1.pending.length ≤ r.pending.length := by
    intro r
    unfold Reqs.submit
    split
    · rename_i bs q hq; exact hsub _ _ _ hq
    · exact Nat.le_refl _
  have hdone : ∀ (r : Reqs) id want ok, (r.done id want ok).1.pending.length ≤ r.pending.length := by
    intro r id want ok
    refine Nat.le_trans (hsubmit _) ?_
    cases want
    · exact Nat.le_trans (List.length_filter_le _ _) (by simp [setResult])
    · simp [setResult]
  induction evs with
  | nil => exact fun y h => h
  | cons ev evs ih =>
    intro y hy
    refine ih (y.step sd (some 16) ev) ?_
    obtain ⟨r, stop⟩ := y
    cases stop with
    | some st => exact hy
    | none =>
      cases ev with
      | request want ans =>
        show (r.handle sd (some 16) want ans).1.pending.length ≤ 16
        unfold Reqs.handle
        by_cases hf : 16 ≤ r.pending.length
        · simpa [tooMany, hf] using hy
        · have : tooMany (some 16) r.pending.length = false := by simpa [tooMany] using hf
          rw [this, cond_false]
          cases ans with
          | throws => exact hy
          | suspend => simp; omega
          | done ok =>
            cases sd
            · refine Nat.le_trans (hdone _ _ _ _) ?_; simp; omega
            · refine Nat.le_trans (hsubmit _) ?_; simp; omega
      | complete id res =>
        show (r.complete id res).1.pending.length ≤ 16
        unfold Reqs.complete
        split
        · exact hy
        · split
          · exact hy
          · split
            · exact hy
            · exact Nat.le_trans (hdone _ _ _ _) hy

/-- **C28.** With 16 outstanding requests, another one disconnects the peer; with
fewer, it is accepted. -/
theorem C28_limit (hs : ∀ ev ∈ evs, SyncOk sd ev) (hstop : (ReqSys.run sd (some 16) {} evs).stop = none)
    (want : Bool) (ans : Ans) :
    (ReqSys.run sd (some 16) {} (evs ++ [.request want ans])).stop = some .disconnect ↔
      outstanding (ReqSys.run sd (some 16) {} evs).reqs.log = 16 := by
  have hle := C28_bounded hs hstop
  have hout := ((ReqSys.init_run hs).2.1 hstop).outstanding
  rw [← hout] at hle ⊢
  have : ReqSys.run sd (some 16) {} (evs ++ [.request want ans]) =
      (ReqSys.run sd (some 16) {} evs).step sd (some 16) (.request want ans) := by
    simp [ReqSys.run]
  rw [this]
  clear this hout hs
  generalize ReqSys.run sd (some 16) {} evs = y at *
  obtain ⟨r, stop⟩ := y
  simp only at hstop; subst hstop
  show (r.handle sd (some 16) want ans).2 = _ ↔ _
  simp only at hle ⊢
  unfold Reqs.handle
  by_cases hf : 16 ≤ r.pending.length
  · have ht : tooMany (some 16) r.pending.length = true := by simpa [tooMany] using hf
    simp [ht]; omega
  · have ht : tooMany (some 16) r.pending.length = false := by simpa [tooMany] using hf
    rw [ht, cond_false]
    have hsub : ∀ x : Reqs, x.submit.2 ≠ some .disconnect := by
      intro x; unfold Reqs.submit; split <;> simp
    constructor
    · intro h
      exfalso
      cases ans with
      | throws => simp at h
      | suspend => simp at h
      | done ok =>
        cases sd
        · exact hsub _ h
        · exact hsub _ h
    · intro h; omega

/-- **C28.** The `k`-th reply is the result of the `k`-th global request that wants
one. -/
theorem C28_kth_partial (hs : ∀ ev ∈ evs, SyncOk sd ev) {k : Nat} {b : Bool}
    (hk : (replies (ReqSys.run sd (some 16) {} evs).reqs.log)[k]? = some b) :
    ∃ id, (wanting (ReqSys.run sd (some 16) {} evs).reqs.log)[k]? = some id ∧
      resultOf id (ReqSys.run sd (some 16) {} evs).reqs.log = some b :=
  C27_kth_partial hs hk

example : outstanding (ReqSys.run false (some 16) {} (List.replicate 16 (.request true .suspend))).reqs.log = 16 ∧
    (ReqSys.run false (some 16) {} (List.replicate 16 (.request true .suspend))).stop = none ∧
    (ReqSys.run false (some 16) {} (List.replicate 16 (.request true .suspend) ++ [.complete 5 (some true),
      .request false .suspend])).stop = some .disconnect ∧
    (ReqSys.run false (some 16) {} (List.replicate 16 (.request true .suspend) ++ [.complete 0 (some true),
      .request false .suspend])).stop = none := by decide

end Lukko
