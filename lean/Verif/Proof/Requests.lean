import Verif.Model.Requests
/-
  Invariant of the list of pending requests.
-/
namespace Lukko
open Model Spec

theorem replies_append (a b : List ReqEntry) : replies (a ++ b) = replies a ++ replies b := by
  induction a with
  | nil => rfl
  | cons x a ih => cases x <;> simp only [List.cons_append, replies, ih]

theorem requests_append (a b : List ReqEntry) : requests (a ++ b) = requests a ++ requests b := by
  induction a with
  | nil => rfl
  | cons x a ih => cases x <;> simp only [List.cons_append, requests, ih]

theorem resultOf_append (id : Nat) (a b : List ReqEntry) :
    resultOf id (a ++ b) = (resultOf id a).or (resultOf id b) := by
  induction a with
  | nil => simp [resultOf]
  | cons x a ih =>
    cases x with
    | finished id' c =>
      simp only [List.cons_append, resultOf]
      split
      · rfl
      · exact ih
    | asked id' w => simp only [List.cons_append, resultOf, ih]
    | replied c => simp only [List.cons_append, resultOf, ih]

theorem replies_map (bs : List Bool) : replies (bs.map .replied) = bs := by
  induction bs with
  | nil => rfl
  | cons b bs ih => simp only [List.map_cons, replies, ih]

theorem requests_map (bs : List Bool) : requests (bs.map .replied) = [] := by
  induction bs with
  | nil => rfl
  | cons b bs ih => simp only [List.map_cons, requests, ih]

theorem resultOf_map (id : Nat) (bs : List Bool) : resultOf id (bs.map .replied) = none := by
  induction bs with
  | nil => rfl
  | cons b bs ih => simp only [List.map_cons, resultOf, ih]

/-- What the list of pending requests should be, for the given requests. -/
def view (f : Nat → Option Bool) : List (Nat × Bool) → List PReq
  | [] => []
  | (id, want) :: l =>
    if !want && (f id).isSome then view f l else ⟨id, want, f id⟩ :: view f l

theorem view_append (f) (a b : List (Nat × Bool)) : view f (a ++ b) = view f a ++ view f b := by
  induction a with
  | nil => rfl
  | cons x a ih =>
    obtain ⟨id, w⟩ := x
    simp only [List.cons_append, view]
    split
    · exact ih
    · rw [ih]; rfl

theorem view_ids {f l p} (h : p ∈ view f l) : (p.id, p.want) ∈ l ∧ p.result = f p.id := by
  induction l with
  | nil => simp [view] at h
  | cons x l ih =>
    obtain ⟨id, w⟩ := x
    simp only [view] at h
    split at h
    · exact ⟨List.mem_cons_of_mem _ (ih h).1, (ih h).2⟩
    · rcases List.mem_cons.mp h with rfl | h
      · exact ⟨List.mem_cons_self, rfl⟩
      · exact ⟨List.mem_cons_of_mem _ (ih h).1, (ih h).2⟩

theorem view_congr {f g l} (h : ∀ x ∈ l, f x.1 = g x.1) : view f l = view g l := by
  induction l with
  | nil => rfl
  | cons x l ih =>
    obtain ⟨id, w⟩ := x
    have h1 : f id = g id := h (id, w) List.mem_cons_self
    have h2 := ih fun y hy => h y (List.mem_cons_of_mem _ hy)
    simp only [view, h1, h2]

theorem filterMap_congr' {α β : Type} {f g : α → Option β} {l : List α} (h : ∀ x ∈ l, f x = g x) :
    l.filterMap f = l.filterMap g := by
  induction l with
  | nil => rfl
  | cons x l ih =>
    simp only [List.filterMap_cons, h x List.mem_cons_self, ih fun y hy => h y (List.mem_cons_of_mem _ hy)]

/-- The replies that were sent for the requests `P`. -/
def repliesFor (f : Nat → Option Bool) (P : List (Nat × Bool)) : List Bool :=
  P.filterMap fun x => if x.2 then f x.1 else none

/-- The state before replies are submitted: the requests `P` are settled. -/
structure ReqMid (P R : List (Nat × Bool)) (r : Reqs) : Prop where
  split : requests r.log = P ++ R
  doneP : ∀ x ∈ P, (resultOf x.1 r.log).isSome = true
  sent : replies r.log = repliesFor (resultOf · r.log) P
  pend : r.pending = view (resultOf · r.log) R
  ids : (requests r.log).map (·.1) = List.range r.next
  fresh : ∀ id, r.next ≤ id → resultOf id r.log = none

/-- The state between events. -/
def ReqInv (r : Reqs) : Prop :=
  ∃ P R, ReqMid P R r ∧ ∀ x R', R = x :: R' → resultOf x.1 r.log = none

/-- What `submitResponses` does with a proper list. -/
theorem submit_view (f : Nat → Option Bool) (R : List (Nat × Bool)) :
    ∃ A B, R = A ++ B ∧ submitResponses (view f R) = some (repliesFor f A, view f B) ∧
      (∀ x ∈ A, (f x.1).isSome = true) ∧ ∀ x B', B = x :: B' → f x.1 = none := by
  induction R with
  | nil => exact ⟨[], [], rfl, rfl, by simp, by simp⟩
  | cons x R ih =>
    obtain ⟨id, w⟩ := x
    obtain ⟨A, B, h1, h2, h3, h4⟩ := ih
    cases hf : f id with
    | none =>
      refine ⟨[], (id, w) :: R, rfl, ?_, by simp, ?_⟩
      · simp [view, hf, submitResponses, repliesFor]
      · intro x B' hx; cases hx; exact hf
    | some b =>
      refine ⟨(id, w) :: A, B, by rw [h1]; rfl, ?_, ?_, h4⟩
      · cases w with
        | false => simpa [view, hf, repliesFor] using h2
        | true => simp [view, hf, repliesFor, submitResponses, h2]
      · intro x hx
        rcases List.mem_cons.mp hx with rfl | hx
        · simp [hf]
        · exact h3 x hx

theorem ReqMid.submit {P R r} (h : ReqMid P R r) : (r.submit).2 = none ∧ ReqInv (r.submit).1 := by
  obtain ⟨A, B, h1, h2, h3, h4⟩ := submit_view (resultOf · r.log) R
  unfold Reqs.submit
  rw [h.pend, h2]
  refine ⟨rfl, P ++ A, B, ?_, ?_⟩
  · constructor
    · simp only [requests_append, requests_map, List.append_nil, List.append_assoc]
      rw [h.split, h1]
    · intro x hx
      simp only [resultOf_append, resultOf_map, Option.or_none]
      rcases List.mem_append.mp hx with hx | hx
      · exact h.doneP x hx
      · exact h3 x hx
    · simp only [replies_append, replies_map, resultOf_append, resultOf_map, Option.or_none]
      rw [h.sent, repliesFor, repliesFor, repliesFor, List.filterMap_append]
    · simp only [resultOf_append, resultOf_map, Option.or_none]
    · simp only [requests_append, requests_map, List.append_nil]
      exact h.ids
    · intro id hid
      simp only [resultOf_append, resultOf_map, Option.or_none]
      exact h.fresh id hid
  · intro x B' hx
    simp only [resultOf_append, resultOf_map, Option.or_none]
    exact h4 x B' hx

theorem nodup_want {l : List (Nat × Bool)} (hn : (l.map (·.1)).Nodup) {x y}
    (hx : x ∈ l) (hy : y ∈ l) (h : x.1 = y.1) : x = y := by
  induction l with
  | nil => simp at hx
  | cons a l ih =>
    simp only [List.map_cons, List.nodup_cons] at hn
    rcases List.mem_cons.mp hx with rfl | hx' <;> rcases List.mem_cons.mp hy with rfl | hy'
    · rfl
    · exact absurd (List.mem_map.mpr ⟨y, hy', h.symm⟩) hn.1
    · exact absurd (List.mem_map.mpr ⟨x, hx', h⟩) hn.1
    · exact ih hn.2 hx' hy'

theorem ReqMid.nodup {P R r} (h : ReqMid P R r) : ((requests r.log).map (·.1)).Nodup := by
  rw [h.ids]; exact List.nodup_range

/-- Noting a result, in terms of `view`. -/
theorem view_finish {f : Nat → Option Bool} {R : List (Nat × Bool)} {id want ok}
    (hf : f id = none) (hw : ∀ y ∈ R, y.1 = id → y.2 = want) :
    (bif want then setResult id ok (view f R) else (setResult id ok (view f R)).filter fun x => x.id != id) =
      view (fun j => (f j).or (if id = j then some ok else none)) R := by
  induction R with
  | nil => cases want <;> rfl
  | cons x R ih =>
    obtain ⟨j, w⟩ := x
    have ih := ih fun y hy => hw y (List.mem_cons_of_mem _ hy)
    by_cases hj : j = id
    · subst hj
      have : w = want := hw (j, w) List.mem_cons_self rfl
      subst this
      cases w with
      | true =>
        simp only [cond_true, view, hf, Option.isSome_none, Bool.and_false, Bool.false_eq_true, ite_false,
          Option.none_or, ite_true, Option.isSome_some, Bool.not_true, Bool.false_and, setResult, List.map_cons,
          beq_self_eq_true] at ih ⊢
        rw [ih]
      | false =>
        simp only [cond_false, view, hf, Option.isSome_none, Bool.and_false, Bool.false_eq_true, ite_false,
          Option.none_or, ite_true, Option.isSome_some, Bool.not_false, Bool.true_and, setResult, List.map_cons,
          beq_self_eq_true, cond_true, bne_self_eq_false, List.filter_cons] at ih ⊢
        exact ih
    · have hne : (if id = j then some ok else none) = none := by rw [if_neg (fun h => hj h.symm)]
      have hb : (j == id) = false := by simpa using hj
      have hb' : (j != id) = true := by simpa using hj
      simp only [view, hne, Option.or_none]
      split
      · exact ih
      · cases want with
        | true =>
          simp only [cond_true, setResult, List.map_cons, hb, cond_false] at ih ⊢
          rw [ih]
        | false =>
          simp only [cond_false, setResult, List.map_cons, hb, cond_false, List.filter_cons, hb', if_true] at ih ⊢
          rw [ih]

/-- A running request finishes. -/
theorem ReqMid.done {P R r id want ok} (h : ReqMid P R r) (hm : (id, want) ∈ R) (hn : resultOf id r.log = none) :
    (r.done id want ok).2 = none ∧ ReqInv (r.done id want ok).1 := by
  refine ReqMid.submit (P := P) (R := R) ?_
  have hres : ∀ j, resultOf j (r.log ++ [.finished id ok]) = (resultOf j r.log).or (if id = j then some ok else none) := by
    intro j; rw [resultOf_append]; rfl
  have hP : ∀ x ∈ P, resultOf x.1 (r.log ++ [.finished id ok]) = resultOf x.1 r.log := by
    intro x hx
    rw [hres]
    obtain ⟨b, hb⟩ := Option.isSome_iff_exists.mp (h.doneP x hx)
    rw [hb]; rfl
  have hreq : requests (r.log ++ [.finished id ok]) = requests r.log := by
    rw [requests_append]; simp [requests]
  have hmem : (id, want) ∈ requests r.log := by rw [h.split]; exact List.mem_append_right _ hm
  constructor
  · rw [hreq]; exact h.split
  · intro x hx; rw [hP x hx]; exact h.doneP x hx
  · simp only [replies_append, replies, List.append_nil]
    rw [h.sent, repliesFor, repliesFor]
    exact filterMap_congr' fun x hx => by simp only [hP x hx]
  · simp only [hres]
    rw [h.pend]
    refine view_finish hn fun y hy hy1 => ?_
    have := nodup_want h.nodup hmem (by rw [h.split]; exact List.mem_append_right _ hy) hy1.symm
    rw [← this]
  · rw [hreq]; exact h.ids
  · intro j hj
    have hlt : id < r.next := by
      have : id ∈ (requests r.log).map (·.1) := List.mem_map.mpr ⟨_, hmem, rfl⟩
      rw [h.ids] at this
      exact List.mem_range.mp this
    have hj' : r.next ≤ j := hj
    rw [hres, h.fresh j hj, if_neg (by omega)]; rfl

/-- A new request. -/
theorem ReqMid.asked {P R r want} (h : ReqMid P R r) :
    ReqMid P (R ++ [(r.next, want)]) { r with
      pending := r.pending ++ [⟨r.next, want, none⟩]
      next := r.next + 1
      log := r.log ++ [.asked r.next want] } := by
  have hres : ∀ j, resultOf j (r.log ++ [.asked r.next want]) = resultOf j r.log := by
    intro j; rw [resultOf_append]; simp [resultOf]
  have hreq : requests (r.log ++ [.asked r.next want]) = requests r.log ++ [(r.next, want)] := by
    rw [requests_append]; rfl
  have hview : (view (fun x => resultOf x r.log) [(r.next, want)]) = [⟨r.next, want, none⟩] := by
    simp [view, h.fresh r.next (Nat.le_refl _)]
  constructor
  · rw [hreq, h.split, List.append_assoc]
  · intro x hx; rw [hres]; exact h.doneP x hx
  · simp only [replies_append, replies, List.append_nil, hres]; exact h.sent
  · simp only [hres]
    rw [view_append, hview, h.pend]
  · simp only [hreq, List.map_append, h.ids, List.map_cons, List.map_nil, List.range_succ]
  · intro j hj; simp only at hj; rw [hres]; exact h.fresh j (by omega)

/-- With an `EagerInvokeTask` that reports synchronous completion through `Start()`,
or for requests that want a reply. -/
def SyncOk (syncDone : Bool) : ReqEvent → Prop
  | .request want (.done _) => syncDone = false ∨ want = true
  | _ => True

instance (syncDone ev) : Decidable (SyncOk syncDone ev) := by
  unfold SyncOk; split <;> infer_instance

theorem Reqs.handle_inv {sd limit want ans} {r : Reqs} (h : ReqInv r) (hs : SyncOk sd (.request want ans)) :
    (r.handle sd limit want ans).2 ≠ some .ub ∧
    ((r.handle sd limit want ans).2 = none → ReqInv (r.handle sd limit want ans).1) := by
  obtain ⟨P, R, h, hh⟩ := h
  unfold Reqs.handle
  generalize tooMany limit r.pending.length = full
  cases full with
  | true => simp
  | false =>
  rw [cond_false]
  · cases ans with
    | throws => simp
    | suspend =>
      refine ⟨by simp, fun _ => ⟨P, R ++ [(r.next, want)], h.asked, ?_⟩⟩
      intro x R' hx
      have hres : ∀ j, resultOf j (r.log ++ [.asked r.next want]) = resultOf j r.log := by
        intro j; rw [resultOf_append]; simp [resultOf]
      simp only [hres]
      cases R with
      | nil => simp at hx; rw [← hx.1]; exact h.fresh _ (Nat.le_refl _)
      | cons y R => simp at hx; rw [← hx.1]; exact hh y R rfl
    | done ok =>
      have hd := (h.asked (want := want)).done (id := r.next) (want := want) (ok := ok) (by simp)
        (by rw [resultOf_append, h.fresh _ (Nat.le_refl _)]; rfl)
      cases sd with
      | false =>
        simp only [cond_false]
        exact ⟨by rw [hd.1]; simp, fun _ => hd.2⟩
      | true =>
        have hw : want = true := by rcases hs with hs | hs; · simp at hs
                                    · exact hs
        subst hw
        simp only [cond_true]
        have heq : (Reqs.done { r with
            pending := r.pending ++ [⟨r.next, true, none⟩]
            next := r.next + 1
            log := r.log ++ [.asked r.next true] } r.next true ok) = Reqs.submit { r with
            pending := r.pending ++ [⟨r.next, true, some ok⟩]
            next := r.next + 1
            log := r.log ++ [.asked r.next true] ++ [.finished r.next ok] } := by
          unfold Reqs.done
          have : setResult r.next ok (r.pending ++ [⟨r.next, true, none⟩]) = r.pending ++ [⟨r.next, true, some ok⟩] := by
            unfold setResult
            rw [List.map_append]
            congr 1
            · rw [h.pend]
              conv => rhs; rw [← List.map_id (view (fun x => resultOf x r.log) R)]
              apply List.map_congr_left
              intro p hp
              have hlt : p.id < r.next := by
                have h1 := (view_ids hp).1
                have : p.id ∈ (requests r.log).map (·.1) :=
                  List.mem_map.mpr ⟨_, by rw [h.split]; exact List.mem_append_right _ h1, rfl⟩
                rw [h.ids] at this
                exact List.mem_range.mp this
              have : (p.id == r.next) = false := by simp; omega
              rw [this]; rfl
            · simp
          simp only [this, cond_true]
        rw [← heq]
        exact ⟨by rw [hd.1]; simp, fun _ => hd.2⟩

theorem Reqs.complete_inv {id res} {r : Reqs} (h : ReqInv r) :
    (r.complete id res).2 ≠ some .ub ∧ ((r.complete id res).2 = none → ReqInv (r.complete id res).1) := by
  obtain ⟨P, R, h, hh⟩ := h
  unfold Reqs.complete
  split
  · exact ⟨by simp, fun _ => ⟨P, R, h, hh⟩⟩
  · rename_i x hx
    split
    · exact ⟨by simp, fun _ => ⟨P, R, h, hh⟩⟩
    · rename_i hn
      split
      · simp
      · rename_i ok
        have h1 := List.mem_of_find?_eq_some hx
        have h2 : x.id = id := by have := List.find?_some hx; simpa using this
        rw [h.pend] at h1
        obtain ⟨h3, h4⟩ := view_ids h1
        rw [h2] at h3 h4
        have hd := h.done (ok := ok) h3 (by rw [← h4, hn])
        exact ⟨by rw [hd.1]; simp, fun _ => hd.2⟩

/-- What holds on any connection, also a stopped one. -/
def ReqSafe (log : List ReqEntry) : Prop :=
  ∃ P R, requests log = P ++ R ∧ (∀ x ∈ P, (resultOf x.1 log).isSome = true) ∧
    replies log = repliesFor (resultOf · log) P

theorem ReqInv.safe {r} (h : ReqInv r) : ReqSafe r.log := by
  obtain ⟨P, R, h, _⟩ := h
  exact ⟨P, R, h.split, h.doneP, h.sent⟩

theorem ReqSafe.asked {log id want} (h : ReqSafe log) : ReqSafe (log ++ [.asked id want]) := by
  obtain ⟨P, R, h1, h2, h3⟩ := h
  have hres : ∀ j, resultOf j (log ++ [.asked id want]) = resultOf j log := by
    intro j; rw [resultOf_append]; simp [resultOf]
  refine ⟨P, R ++ [(id, want)], ?_, ?_, ?_⟩
  · rw [requests_append, h1, List.append_assoc]; rfl
  · intro x hx; rw [hres]; exact h2 x hx
  · simp only [replies_append, replies, List.append_nil, hres]; exact h3

theorem Reqs.handle_safe {sd limit want ans} {r : Reqs} (h : ReqInv r) (hs : SyncOk sd (.request want ans)) :
    ReqSafe (r.handle sd limit want ans).1.log := by
  cases hst : (r.handle sd limit want ans).2 with
  | none => exact ((Reqs.handle_inv h hs).2 hst).safe
  | some st =>
    have hsafe := h.safe
    revert hst
    have hno := (Reqs.handle_inv (limit := limit) h hs)
    unfold Reqs.handle at hno ⊢
    generalize tooMany limit r.pending.length = full at *
    cases full with
    | true => intro _; exact hsafe
    | false =>
      cases ans with
      | throws => intro _; exact hsafe.asked
      | suspend => intro hst; simp at hst
      | done ok =>
        -- a failed assertion is the only other way to stop
        intro hst
        exfalso
        simp only [cond_false] at hst hno
        have hsub : ∀ x : Reqs, x.submit.2 = none ∨ x.submit.2 = some .ub := by
          intro x; unfold Reqs.submit; split <;> simp
        cases sd with
        | true => rcases hsub _ with hh | hh <;> simp only [cond_true] at hst hno <;> rw [hh] at hst
                  · simp at hst
                  · exact hno.1 hh
        | false =>
          simp only [Reqs.done] at hst hno
          rcases hsub _ with hh | hh <;> simp only [cond_false] at hst hno <;> rw [hh] at hst
          · simp at hst
          · exact hno.1 hh

theorem Reqs.complete_safe {id res} {r : Reqs} (h : ReqInv r) : ReqSafe (r.complete id res).1.log := by
  cases hst : (r.complete id res).2 with
  | none => exact ((Reqs.complete_inv h).2 hst).safe
  | some st =>
    have hno := Reqs.complete_inv (id := id) (res := res) h
    revert hst hno
    unfold Reqs.complete
    split
    · intro _ _; exact h.safe
    · split
      · intro _ _; exact h.safe
      · split
        · intro _ _; exact h.safe
        · intro hst hno
          exfalso
          have hsub : ∀ x : Reqs, x.submit.2 = none ∨ x.submit.2 = some .ub := by
            intro x; unfold Reqs.submit; split <;> simp
          simp only [Reqs.done] at hst hno
          rcases hsub _ with hh | hh <;> rw [hh] at hst
          · simp at hst
          · exact hno.1 hh

theorem ReqSys.run_inv {sd limit} {evs : List ReqEvent} {y : ReqSys} (hy : y.stop = none → ReqInv y.reqs)
    (hub : y.stop ≠ some .ub) (hsafe : ReqSafe y.reqs.log) (hs : ∀ ev ∈ evs, SyncOk sd ev) :
    (y.run sd limit evs).stop ≠ some .ub ∧ ((y.run sd limit evs).stop = none → ReqInv (y.run sd limit evs).reqs) ∧
    ReqSafe (y.run sd limit evs).reqs.log := by
  induction evs generalizing y with
  | nil => exact ⟨hub, hy, hsafe⟩
  | cons ev evs ih =>
    have hrest := fun e he => hs e (List.mem_cons_of_mem _ he)
    have hev := hs ev List.mem_cons_self
    show ((y.step sd limit ev).run sd limit evs).stop ≠ some .ub ∧ _
    suffices h : ((y.step sd limit ev).stop ≠ some .ub) ∧ ((y.step sd limit ev).stop = none → ReqInv (y.step sd limit ev).reqs) ∧
        ReqSafe (y.step sd limit ev).reqs.log from ih h.2.1 h.1 h.2.2 hrest
    obtain ⟨r, stop⟩ := y
    cases stop with
    | some st => exact ⟨hub, hy, hsafe⟩
    | none =>
      have hr := hy rfl
      cases ev with
      | request want ans => exact ⟨(Reqs.handle_inv hr hev).1, (Reqs.handle_inv hr hev).2, Reqs.handle_safe hr hev⟩
      | complete id res => exact ⟨(Reqs.complete_inv hr).1, (Reqs.complete_inv hr).2, Reqs.complete_safe hr⟩

theorem ReqInv.init : ReqInv {} :=
  ⟨[], [], ⟨rfl, by simp, rfl, rfl, rfl, fun _ _ => rfl⟩, by simp⟩

theorem ReqSys.init_run {sd limit} {evs : List ReqEvent} (hs : ∀ ev ∈ evs, SyncOk sd ev) :
    (ReqSys.run sd limit {} evs).stop ≠ some .ub ∧
    ((ReqSys.run sd limit {} evs).stop = none → ReqInv (ReqSys.run sd limit {} evs).reqs) ∧
    ReqSafe (ReqSys.run sd limit {} evs).reqs.log :=
  ReqSys.run_inv (fun _ => ReqInv.init) (by simp) ReqInv.init.safe hs

/-- The replies sent, in terms of the log alone. -/
theorem ReqInv.due {r} (h : ReqInv r) : replies r.log = due r.log (requests r.log) := by
  obtain ⟨P, R, h, hh⟩ := h
  rw [h.split, h.sent]
  have hP := h.doneP
  clear h
  induction P with
  | nil =>
    cases R with
    | nil => rfl
    | cons x R => obtain ⟨id, w⟩ := x; simp [repliesFor, Spec.due, hh _ _ rfl]
  | cons x P ih =>
    obtain ⟨id, w⟩ := x
    obtain ⟨b, hb⟩ := Option.isSome_iff_exists.mp (hP _ List.mem_cons_self)
    have ih := ih fun y hy => hP y (List.mem_cons_of_mem _ hy)
    simp only [List.cons_append, Spec.due, hb]
    cases w with
    | true => rw [if_pos rfl, ← ih]; simp [repliesFor, hb]
    | false => rw [if_neg (by simp), ← ih]; simp [repliesFor]

theorem view_length (f : Nat → Option Bool) (R : List (Nat × Bool)) :
    (view f R).length = (R.filter (·.2)).length + (R.filter fun x => !x.2 && (f x.1).isNone).length := by
  induction R with
  | nil => rfl
  | cons x R ih =>
    obtain ⟨id, w⟩ := x
    cases w <;> cases hf : f id <;> simp [view, hf, ih] <;> omega

theorem repliesFor_length {f : Nat → Option Bool} {P : List (Nat × Bool)} (h : ∀ x ∈ P, (f x.1).isSome = true) :
    (repliesFor f P).length = (P.filter (·.2)).length := by
  induction P with
  | nil => rfl
  | cons x P ih =>
    obtain ⟨id, w⟩ := x
    obtain ⟨b, hb⟩ := Option.isSome_iff_exists.mp (h _ List.mem_cons_self)
    have ih := ih fun y hy => h y (List.mem_cons_of_mem _ hy)
    unfold repliesFor at ih ⊢
    cases w <;> simp [hb, ih]

theorem ReqInv.outstanding {r} (h : ReqInv r) : r.pending.length = outstanding r.log := by
  obtain ⟨P, R, h, hh⟩ := h
  have h0 : (P.filter fun x => !x.2 && (resultOf x.1 r.log).isNone) = [] := by
    rw [List.filter_eq_nil_iff]
    intro x hx
    have := h.doneP x hx
    simp [Option.isNone_iff_eq_none, Option.isSome_iff_ne_none] at this ⊢
    intro _; exact this
  unfold Spec.outstanding wanting
  rw [h.split, h.sent, h.pend, view_length, repliesFor_length h.doneP]
  simp only [List.filter_append, List.map_append, List.length_append, List.length_map, h0, List.length_nil]
  omega

end Lukko
