import Verif.Model.Cluster
import Verif.Proof.Lists
/-
  C55: Zeroconf clusters.
-/
namespace Lukko
open Spec Model

/-- The announcements among the events. -/
def announced (es : List ZcEvent) : List Announcement :=
  es.filterMap fun e => match e with
    | .new k n => some (.add k n)
    | .remove k => some (.remove k)
    | .pick _ => none

/-- `n` is a current member, and no current member ranks before it. -/
def IsBest (lt : ClusterNode → ClusterNode → Bool) (as : List Announcement) (n : ClusterNode) : Prop :=
  (∃ k, member as k = some n) ∧ ∀ k' n', member as k' = some n' → lt n' n = false

/-! ### The map -/

def KeysSorted (m : List (Nat × ClusterNode)) : Prop := (m.map (·.1)).Pairwise (· < ·)

theorem mapPut_mem {k : Nat} {n : ClusterNode} {m : List (Nat × ClusterNode)} {x : Nat}
    (h : x ∈ (mapPut k n m).map (·.1)) : x = k ∨ x ∈ m.map (·.1) := by
  induction m with
  | nil => simpa [mapPut] using h
  | cons p m ih =>
    obtain ⟨k', m'⟩ := p
    simp only [mapPut] at h
    split at h
    next e =>
      subst e
      simp only [List.map_cons, List.mem_cons] at h ⊢
      rcases h with h | h
      · exact Or.inl h
      · exact Or.inr (Or.inr h)
    next =>
      split at h
      · simp only [List.map_cons, List.mem_cons] at h ⊢; exact h
      · simp only [List.map_cons, List.mem_cons] at h ⊢
        rcases h with h | h
        · exact Or.inr (Or.inl h)
        · rcases ih h with h | h
          · exact Or.inl h
          · exact Or.inr (Or.inr h)

theorem mapPut_sorted {k : Nat} {n : ClusterNode} {m : List (Nat × ClusterNode)} (h : KeysSorted m) :
    KeysSorted (mapPut k n m) := by
  induction m with
  | nil => simp [mapPut, KeysSorted]
  | cons p m ih =>
    obtain ⟨k', m'⟩ := p
    unfold KeysSorted at h ih ⊢
    simp only [List.map_cons, List.pairwise_cons] at h
    simp only [mapPut]
    split
    next e =>
      subst e
      simp only [List.map_cons, List.pairwise_cons]
      exact h
    next hne =>
      split
      next hlt =>
        simp only [List.map_cons, List.pairwise_cons, List.mem_cons]
        refine ⟨?_, h⟩
        rintro a (rfl | ha)
        · exact hlt
        · have := h.1 a ha; omega
      next hge =>
        simp only [List.map_cons, List.pairwise_cons]
        refine ⟨?_, ih h.2⟩
        intro a ha
        rcases mapPut_mem ha with rfl | ha
        · omega
        · exact h.1 a ha

theorem mapPut_lookup {k x : Nat} {n : ClusterNode} {m : List (Nat × ClusterNode)} (h : KeysSorted m) :
    (mapPut k n m).lookup x = if k = x then some n else m.lookup x := by
  induction m with
  | nil =>
    by_cases hx : k = x
    · simp [mapPut, hx]
    · have : (x == k) = false := by simpa using fun e => hx e.symm
      simp [mapPut, List.lookup, this, hx]
  | cons p m ih =>
    obtain ⟨k', m'⟩ := p
    unfold KeysSorted at h
    simp only [List.map_cons, List.pairwise_cons] at h
    have ih := ih h.2
    simp only [mapPut]
    split
    next e =>
      subst e
      by_cases hx : k = x
      · subst hx; simp
      · have : (x == k) = false := by simpa using fun e => hx e.symm
        simp [List.lookup, this, hx]
    next hne =>
      split
      next hlt =>
        by_cases hx : k = x
        · subst hx; simp
        · have : (x == k) = false := by simpa using fun e => hx e.symm
          simp only [List.lookup, this, if_neg hx]
      next hge =>
        by_cases hx : x = k'
        · subst hx
          simp [List.lookup, hne]
        · have : (x == k') = false := by simpa using hx
          simp only [List.lookup, this, ih]

theorem filter_lookup {k x : Nat} {m : List (Nat × ClusterNode)} :
    (m.filter (·.1 != k)).lookup x = if k = x then none else m.lookup x := by
  induction m with
  | nil => simp
  | cons p m ih =>
    obtain ⟨k', m'⟩ := p
    by_cases hk : k' = k
    · subst hk
      rw [List.filter_cons_of_neg (by simp), ih]
      by_cases hx : k' = x
      · simp [hx]
      · have : (x == k') = false := by simpa using fun e => hx e.symm
        simp only [List.lookup, this, if_neg hx]
    · rw [List.filter_cons_of_pos (by simpa using hk)]
      by_cases hx : x = k'
      · subst hx
        have : k ≠ x := fun e => hk e.symm
        simp [List.lookup, this]
      · have : (x == k') = false := by simpa using hx
        simp only [List.lookup, this, ih]

theorem lookup_mem {m : List (Nat × ClusterNode)} {k : Nat} {n : ClusterNode} (h : m.lookup k = some n) : (k, n) ∈ m := by
  induction m with
  | nil => cases h
  | cons p m ih =>
    obtain ⟨k', m'⟩ := p
    simp only [List.lookup] at h
    split at h
    next hk => cases h; have : k = k' := by simpa using hk
               subst this; exact List.mem_cons_self
    next => exact List.mem_cons_of_mem _ (ih h)

theorem mem_lookup {m : List (Nat × ClusterNode)} (hs : KeysSorted m) {k : Nat} {n : ClusterNode} (h : (k, n) ∈ m) :
    m.lookup k = some n := by
  induction m with
  | nil => cases h
  | cons p m ih =>
    obtain ⟨k', m'⟩ := p
    unfold KeysSorted at hs
    simp only [List.map_cons, List.pairwise_cons] at hs
    rcases List.mem_cons.mp h with h | h
    · cases h; simp
    · have hlt := hs.1 k (List.mem_map_of_mem (f := (·.1)) h)
      have : (k == k') = false := by simp; omega
      simp only [List.lookup, this]
      exact ih hs.2 h

theorem derefAll_map {m : List (Nat × ClusterNode)} (hs : KeysSorted m) {l : List (Nat × ClusterNode)} (hl : ∀ p ∈ l, p ∈ m) :
    derefAll m (l.map (·.1)) = some l := by
  induction l with
  | nil => rfl
  | cons p l ih =>
    obtain ⟨k, n⟩ := p
    simp only [List.map_cons, derefAll, mem_lookup hs (hl _ List.mem_cons_self),
      ih (fun q hq => hl q (List.mem_cons_of_mem _ hq))]

/-! ### The invariant -/

structure ZcInv (as : List Announcement) (c : ZcCluster) : Prop where
  sorted : KeysSorted c.memberMap
  map : ∀ k, c.memberMap.lookup k = member as k
  list : c.dirty = false → ∃ l : List (Nat × ClusterNode), l.Perm c.memberMap ∧ c.memberList = l.map (·.1)

theorem zc_pick {sort} (hsort : IsSort sort) {lt : ClusterNode → ClusterNode → Bool} (hlt : StrictWeak lt)
    {as : List Announcement} {c : ZcCluster} (h : ZcInv as c) :
    ∃ r c', c.pick sort lt = some (r, c') ∧ ZcInv as c' ∧
      match r with
      | none => ∀ k, member as k = none
      | some n => IsBest lt as n := by
  have h1 : ZcInv as (if c.dirty then { c.fillMemberList with dirty := false } else c) ∧
      (if c.dirty then { c.fillMemberList with dirty := false } else c).dirty = false := by
    cases hd : c.dirty with
    | false => exact ⟨h, hd⟩
    | true => exact ⟨⟨h.sorted, h.map, fun _ => ⟨c.memberMap, List.Perm.refl _, rfl⟩⟩, rfl⟩
  unfold ZcCluster.pick
  simp only
  generalize (if c.dirty then { c.fillMemberList with dirty := false } else c) = d at h1
  obtain ⟨hd, hdirty⟩ := h1
  obtain ⟨l, hperm, hl⟩ := hd.list hdirty
  split
  next hnil =>
    refine ⟨none, d, rfl, hd, ?_⟩
    simp only
    intro k
    rw [hl] at hnil
    have : l = [] := by simpa using hnil
    subst this
    rw [← hd.map, hperm.symm.eq_nil]
    rfl
  next hne =>
    rw [hl, derefAll_map hd.sorted (fun p hp => hperm.mem_iff.mp hp)]
    simp only
    have hw : StrictWeak (fun a b : Nat × ClusterNode => lt a.2 b.2) :=
      ⟨fun a => hlt.irrefl _, fun a b c => hlt.trans _ _ _, fun a b c => hlt.incomp _ _ _⟩
    have hp := hsort.perm (fun a b : Nat × ClusterNode => lt a.2 b.2) l
    have hsrt := hsort.sorted (fun a b : Nat × ClusterNode => lt a.2 b.2) l hw
    generalize sort (fun a b : Nat × ClusterNode => lt a.2 b.2) l = s at hp hsrt
    cases s with
    | nil =>
      exfalso
      have : l = [] := hp.symm.eq_nil
      rw [hl, this] at hne
      exact hne rfl
    | cons f rest =>
      simp only
      refine ⟨_, _, rfl, ⟨hd.sorted, hd.map, fun _ => ⟨f :: rest, hp.trans hperm, rfl⟩⟩, ⟨f.1, ?_⟩, ?_⟩
      · rw [← hd.map]
        exact mem_lookup hd.sorted (hperm.mem_iff.mp (hp.mem_iff.mp List.mem_cons_self))
      · intro k' n' hk'
        rw [← hd.map] at hk'
        have hm := hp.mem_iff.mpr (hperm.mem_iff.mpr (lookup_mem hk'))
        rcases List.mem_cons.mp hm with e | hm
        · rw [← e]; exact hlt.irrefl _
        · exact (List.pairwise_cons.mp hsrt).1 _ hm

/-- All comparisons used in a history are strict weak orders. -/
def EventsOk (es : List ZcEvent) : Prop := ∀ lt, ZcEvent.pick lt ∈ es → StrictWeak lt

theorem zc_run {sort} (hsort : IsSort sort) (es : List ZcEvent) (hes : EventsOk es) {as : List Announcement}
    {c : ZcCluster} (h : ZcInv as c) : ∃ c', c.run sort es = some c' ∧ ZcInv (as ++ announced es) c' := by
  induction es generalizing c as with
  | nil => exact ⟨c, rfl, by simpa [announced] using h⟩
  | cons e es ih =>
    have hes' : EventsOk es := fun lt hm => hes lt (List.mem_cons_of_mem _ hm)
    cases e with
    | new k n =>
      have h' : ZcInv (as ++ [.add k n]) (c.onNewObject k n) := by
        refine ⟨mapPut_sorted h.sorted, fun x => ?_, fun hd => by simp [ZcCluster.onNewObject] at hd⟩
        simp only [ZcCluster.onNewObject, mapPut_lookup h.sorted, h.map, member, List.foldl_append, List.foldl_cons,
          List.foldl_nil]
      obtain ⟨c', h1, h2⟩ := ih hes' h'
      refine ⟨c', by simpa [ZcCluster.run, ZcCluster.step] using h1, ?_⟩
      simpa [announced] using h2
    | remove k =>
      have h' : ZcInv (as ++ [.remove k]) (c.onRemoveObject k) := by
        have hm : ∀ x, member (as ++ [.remove k]) x = if k = x then none else member as x := by
          intro x; simp only [member, List.foldl_append, List.foldl_cons, List.foldl_nil]
        unfold ZcCluster.onRemoveObject
        split
        next hn =>
          refine ⟨h.sorted, fun x => ?_, h.list⟩
          rw [hm, h.map]
          split
          next e => subst e; rw [← h.map, hn]
          next => rfl
        next =>
          refine ⟨?_, fun x => ?_, fun hd => by simp at hd⟩
          · have hf : (c.memberMap.filter (·.1 != k)).Sublist c.memberMap := List.filter_sublist
            exact h.sorted.sublist (hf.map _)
          · rw [hm, ← h.map, filter_lookup]
      obtain ⟨c', h1, h2⟩ := ih hes' h'
      refine ⟨c', by simpa [ZcCluster.run, ZcCluster.step] using h1, ?_⟩
      simpa [announced] using h2
    | pick lt =>
      obtain ⟨r, c₁, hp, hinv, _⟩ := zc_pick hsort (hes lt List.mem_cons_self) h
      obtain ⟨c', h1, h2⟩ := ih hes' hinv
      refine ⟨c', by simpa [ZcCluster.run, ZcCluster.step, hp] using h1, ?_⟩
      simpa [announced] using h2

theorem zcInv_init : ZcInv [] {} := ⟨by simp [KeysSorted], fun _ => rfl, fun _ => ⟨[], List.Perm.refl _, rfl⟩⟩

theorem zc_reach {sort} (hsort : IsSort sort) (es : List ZcEvent) (hes : EventsOk es) :
    ∃ c, ZcCluster.run sort {} es = some c ∧ ZcInv (announced es) c := by
  obtain ⟨c, h1, h2⟩ := zc_run hsort es hes zcInv_init
  exact ⟨c, h1, by simpa using h2⟩

theorem best_unique {lt : ClusterNode → ClusterNode → Bool} (ht : NoTies lt) {as : List Announcement} {n₁ n₂ : ClusterNode}
    (h₁ : IsBest lt as n₁) (h₂ : IsBest lt as n₂) : n₁.address = n₂.address := by
  obtain ⟨k₁, hk₁⟩ := h₁.1
  obtain ⟨k₂, hk₂⟩ := h₂.1
  exact (ht n₁ n₂ (h₂.2 _ _ hk₁) (h₁.2 _ _ hk₂)).1

/-! ### Theorems -/

/-- **C55.** After any history of announcements, withdrawals and picks: picking
is defined (no removed server is touched), yields the null address only if the
cluster is empty, and otherwise a current member with the best rank. -/
theorem C55_current_member {sort} (hsort : IsSort sort) (es : List ZcEvent) (hes : EventsOk es)
    {lt : ClusterNode → ClusterNode → Bool} (hlt : StrictWeak lt) :
    ∃ c r c', ZcCluster.run sort {} es = some c ∧ c.pick sort lt = some (r, c') ∧
      match r with
      | none => ∀ k, member (announced es) k = none
      | some n => IsBest lt (announced es) n := by
  obtain ⟨c, h1, h2⟩ := zc_reach hsort es hes
  obtain ⟨r, c', h3, _, h4⟩ := zc_pick hsort hlt h2
  exact ⟨c, r, c', h1, h3, h4⟩

/-- **C55.** Two histories that lead to the same membership lead to the same
address for the same client, whatever was picked in between. -/
theorem C55_sticky {sort} (hsort : IsSort sort) {es₁ es₂ : List ZcEvent} (hes₁ : EventsOk es₁) (hes₂ : EventsOk es₂)
    (hsame : ∀ k, member (announced es₁) k = member (announced es₂) k)
    {lt : ClusterNode → ClusterNode → Bool} (hlt : StrictWeak lt) (ht : NoTies lt)
    {c₁ c₂ c₁' c₂' : ZcCluster} {r₁ r₂ : Option ClusterNode}
    (hc₁ : ZcCluster.run sort {} es₁ = some c₁) (hc₂ : ZcCluster.run sort {} es₂ = some c₂)
    (hp₁ : c₁.pick sort lt = some (r₁, c₁')) (hp₂ : c₂.pick sort lt = some (r₂, c₂')) :
    r₁.map (·.address) = r₂.map (·.address) := by
  obtain ⟨c, r, c', h1, h2, h3⟩ := C55_current_member hsort es₁ hes₁ hlt
  obtain ⟨d, q, d', g1, g2, g3⟩ := C55_current_member hsort es₂ hes₂ hlt
  rw [hc₁] at h1; cases h1
  rw [hc₂] at g1; cases g1
  rw [hp₁] at h2; cases h2
  rw [hp₂] at g2; cases g2
  cases r₁ with
  | none =>
    cases r₂ with
    | none => rfl
    | some n =>
      obtain ⟨k, hk⟩ := g3.1
      simp only at h3
      rw [← hsame, h3] at hk
      cases hk
  | some n =>
    cases r₂ with
    | none =>
      obtain ⟨k, hk⟩ := h3.1
      simp only at g3
      rw [hsame, g3] at hk
      cases hk
    | some m =>
      have : IsBest lt (announced es₁) m := by
        refine ⟨?_, fun k' n' h' => g3.2 k' n' (by rw [← hsame]; exact h')⟩
        obtain ⟨k, hk⟩ := g3.1
        exact ⟨k, by rw [hsame]; exact hk⟩
      simp only [Option.map_some, best_unique ht h3 this]

/-- **C55.** Withdrawing a server other than the one a client is sent to does
not change where the client is sent. -/
theorem C55_removal {sort} (hsort : IsSort sort) {es : List ZcEvent} (hes : EventsOk es)
    {lt : ClusterNode → ClusterNode → Bool} (hlt : StrictWeak lt) (ht : NoTies lt)
    {c₁ c₂ c₁' c₂' : ZcCluster} {n : ClusterNode} {r : Option ClusterNode} {k : Nat}
    (hc₁ : ZcCluster.run sort {} es = some c₁) (hp₁ : c₁.pick sort lt = some (some n, c₁'))
    (hc₂ : ZcCluster.run sort {} (es ++ [.remove k]) = some c₂) (hp₂ : c₂.pick sort lt = some (r, c₂'))
    (hk : ∀ m, member (announced es) k = some m → m.address ≠ n.address) :
    r.map (·.address) = some n.address := by
  obtain ⟨c, q, c', h1, h2, h3⟩ := C55_current_member hsort es hes hlt
  rw [hc₁] at h1; cases h1
  rw [hp₁] at h2; cases h2
  have hes' : EventsOk (es ++ [.remove k]) := fun l hm => by
    rcases List.mem_append.mp hm with h | h
    · exact hes l h
    · simp at h
  obtain ⟨d, q, d', g1, g2, g3⟩ := C55_current_member hsort _ hes' hlt
  rw [hc₂] at g1; cases g1
  rw [hp₂] at g2; cases g2
  have hann : announced (es ++ [.remove k]) = announced es ++ [.remove k] := by simp [announced]
  have hm : ∀ x, member (announced es ++ [.remove k]) x = if k = x then none else member (announced es) x := by
    intro x; simp only [member, List.foldl_append, List.foldl_cons, List.foldl_nil]
  rw [hann] at g3
  have hbest : IsBest lt (announced es ++ [.remove k]) n := by
    obtain ⟨⟨k₀, hk₀⟩, hb⟩ := h3
    refine ⟨⟨k₀, ?_⟩, fun k' n' h' => ?_⟩
    · rw [hm, if_neg (fun e => by subst e; exact hk _ hk₀ rfl)]; exact hk₀
    · rw [hm] at h'
      split at h'
      · cases h'
      · exact hb k' n' h'
  cases r with
  | none => obtain ⟨k₀, hk₀⟩ := hbest.1; simp only at g3; rw [g3] at hk₀; cases hk₀
  | some m => simp only [Option.map_some, best_unique ht g3 hbest]

/-- **C55.** A new announcement (under a new key) can only attract a client to
the server announced. -/
theorem C55_addition {sort} (hsort : IsSort sort) {es : List ZcEvent} (hes : EventsOk es)
    {lt : ClusterNode → ClusterNode → Bool} (hlt : StrictWeak lt) (ht : NoTies lt)
    {c₁ c₂ c₁' c₂' : ZcCluster} {n new : ClusterNode} {r : Option ClusterNode} {k : Nat}
    (hc₁ : ZcCluster.run sort {} es = some c₁) (hp₁ : c₁.pick sort lt = some (some n, c₁'))
    (hnew : member (announced es) k = none)
    (hc₂ : ZcCluster.run sort {} (es ++ [.new k new]) = some c₂) (hp₂ : c₂.pick sort lt = some (r, c₂')) :
    r.map (·.address) = some n.address ∨ r.map (·.address) = some new.address := by
  obtain ⟨c, q, c', h1, h2, h3⟩ := C55_current_member hsort es hes hlt
  rw [hc₁] at h1; cases h1
  rw [hp₁] at h2; cases h2
  have hes' : EventsOk (es ++ [.new k new]) := fun l hm => by
    rcases List.mem_append.mp hm with h | h
    · exact hes l h
    · simp at h
  obtain ⟨d, q, d', g1, g2, g3⟩ := C55_current_member hsort _ hes' hlt
  rw [hc₂] at g1; cases g1
  rw [hp₂] at g2; cases g2
  have hann : announced (es ++ [.new k new]) = announced es ++ [.add k new] := by simp [announced]
  have hm : ∀ x, member (announced es ++ [.add k new]) x = if k = x then some new else member (announced es) x := by
    intro x; simp only [member, List.foldl_append, List.foldl_cons, List.foldl_nil]
  rw [hann] at g3
  cases r with
  | none => simp only at g3; have := g3 k; rw [hm, if_pos rfl] at this; cases this
  | some m =>
    obtain ⟨⟨k₀, hk₀⟩, hb⟩ := g3
    rw [hm] at hk₀
    split at hk₀
    · cases hk₀; exact Or.inr rfl
    next hne =>
      left
      have : IsBest lt (announced es) m := by
        refine ⟨⟨k₀, hk₀⟩, fun k' n' h' => hb k' n' ?_⟩
        rw [hm, if_neg (fun e => by subst e; rw [hnew] at h'; cases h')]
        exact h'
      simp only [Option.map_some, best_unique ht this h3]

/-- **C55.** For a listener that forwards to a cluster: a client is forwarded to
a current member (or served here, if that member is this server and the listener
is configured so); the connection is refused exactly if the cluster is empty. -/
theorem C55_listener {sort} (hsort : IsSort sort) (es : List ZcEvent) (hes : EventsOk es)
    {lt : ClusterNode → ClusterNode → Bool} (hlt : StrictWeak lt) (skip : Bool) {c : ZcCluster}
    (hc : ZcCluster.run sort {} es = some c) :
    match getProxyTo sort lt skip (.cluster c) with
    | .address a => ∃ n, IsBest lt (announced es) n ∧ n.address = a ∧ (skip = true → n.ourOwn = false)
    | .null => skip = true ∧ ∃ n, IsBest lt (announced es) n ∧ n.ourOwn = true
    | .error => ∀ k, member (announced es) k = none
    | .undefined => False := by
  obtain ⟨d, r, d', h1, h2, h3⟩ := C55_current_member hsort es hes hlt
  rw [hc] at h1; cases h1
  simp only [getProxyTo, h2]
  cases r with
  | none => exact h3
  | some n =>
    simp only at h3 ⊢
    cases hs : skip <;> cases ho : n.ourOwn <;> simp
    · exact ⟨n, h3, rfl⟩
    · exact ⟨n, h3, rfl⟩
    · exact ⟨n, h3, rfl, ho⟩
    · exact ⟨n, h3, ho⟩

/-! ### Examples -/

/-- Insertion sort. -/
def insertionSort {α : Type} (lt : α → α → Bool) (l : List α) : List α :=
  l.foldr (fun a s => s.takeWhile (fun b => lt b a) ++ a :: s.dropWhile (fun b => lt b a)) []

theorem insertionSort_sort {α : Type} : IsSort (α := α) insertionSort where
  perm lt l := by
    induction l with
    | nil => exact List.Perm.refl _
    | cons a l ih =>
      have : insertionSort lt (a :: l) =
          (insertionSort lt l).takeWhile (fun b => lt b a) ++ a :: (insertionSort lt l).dropWhile (fun b => lt b a) := rfl
      rw [this]
      refine List.perm_middle.trans (List.Perm.cons a ?_)
      rw [List.takeWhile_append_dropWhile]
      exact ih
  sorted lt l hw := by
    have asym : ∀ a b, lt a b = true → lt b a = false := by
      intro a b h
      cases hb : lt b a with
      | false => rfl
      | true => have := hw.trans _ _ _ h hb; rw [hw.irrefl] at this; cases this
    -- `¬ b < a` and `¬ c < b` give `¬ c < a`
    have ntrans : ∀ a b c, lt b a = false → lt c b = false → lt c a = false := by
      intro a b c h1 h2
      cases h3 : lt c a with
      | false => rfl
      | true =>
        cases h4 : lt a b with
        | true => have := hw.trans _ _ _ h3 h4; rw [h2] at this; cases this
        | false =>
          cases h5 : lt b c with
          | true => have := hw.trans _ _ _ h5 h3; rw [h1] at this; cases this
          | false => have := (hw.incomp a b c h4 h1 h5 h2).2; rw [h3] at this; cases this
    induction l with
    | nil => exact List.Pairwise.nil
    | cons a l ih =>
      have e : insertionSort lt (a :: l) =
          (insertionSort lt l).takeWhile (fun b => lt b a) ++ a :: (insertionSort lt l).dropWhile (fun b => lt b a) := rfl
      rw [e]
      generalize insertionSort lt l = s at ih
      clear e
      induction s with
      | nil => simp
      | cons x s ih2 =>
        have hx := List.pairwise_cons.mp ih
        by_cases hlt : lt x a = true
        · rw [List.takeWhile_cons_of_pos (p := fun b => lt b a) hlt, List.dropWhile_cons_of_pos (p := fun b => lt b a) hlt, List.cons_append, List.pairwise_cons]
          refine ⟨?_, ih2 hx.2⟩
          intro b hb
          rcases List.mem_append.mp hb with hb | hb
          · exact hx.1 b ((List.takeWhile_sublist _).subset hb)
          · rcases List.mem_cons.mp hb with rfl | hb
            · exact asym _ _ hlt
            · exact hx.1 b ((List.dropWhile_sublist _).subset hb)
        · have hlt : lt x a = false := by simpa using hlt
          rw [List.takeWhile_cons_of_neg (p := fun b => lt b a) (by simp [hlt]), List.dropWhile_cons_of_neg (p := fun b => lt b a) (by simp [hlt]), List.nil_append,
            List.pairwise_cons]
          refine ⟨?_, ih⟩
          intro b hb
          rcases List.mem_cons.mp hb with rfl | hb
          · exact hlt
          · exact ntrans _ _ _ hlt (hx.1 b hb)

/-- A rank without ties: the distance of the address from 10. -/
def toyLess (a b : ClusterNode) : Bool :=
  decide (a.address % 10 < b.address % 10) || (a.address % 10 == b.address % 10 &&
    (decide (a.address < b.address) || (a.address == b.address && decide (a.ourOwn.toNat < b.ourOwn.toNat))))

theorem toyLess_ok : StrictWeak toyLess ∧ NoTies toyLess := by
  have key : ∀ a b, toyLess a b = true ↔ (a.address % 10 < b.address % 10 ∨ (a.address % 10 = b.address % 10 ∧
      (a.address < b.address ∨ (a.address = b.address ∧ a.ourOwn.toNat < b.ourOwn.toNat)))) := by
    intro a b; simp [toyLess]
  have keyf : ∀ a b, toyLess a b = false ↔ ¬ (a.address % 10 < b.address % 10 ∨ (a.address % 10 = b.address % 10 ∧
      (a.address < b.address ∨ (a.address = b.address ∧ a.ourOwn.toNat < b.ourOwn.toNat)))) := by
    intro a b; rw [← key]; simp
  refine ⟨⟨fun a => ?_, fun a b c => ?_, fun a b c => ?_⟩, fun a b => ?_⟩
  · rw [keyf]; omega
  · rw [key, key, key]; omega
  · rw [keyf, keyf, keyf, keyf, keyf, keyf]; omega
  · rw [keyf, keyf]
    intro h1 h2
    have : a.ourOwn.toNat = b.ourOwn.toNat := by omega
    refine ⟨by omega, ?_⟩
    cases ha : a.ourOwn <;> cases hb : b.ourOwn <;> simp [ha, hb] at this ⊢

/- Three servers; the picked one leaves; an unrelated one leaves. -/
example :
    let es := [.new 1 ⟨15, 0, false⟩, .new 2 ⟨21, 0, false⟩, .pick toyLess, .new 3 ⟨33, 0, false⟩]
    ((ZcCluster.run insertionSort {} es).bind (·.pick insertionSort toyLess)).map (·.1) = some (some ⟨21, 0, false⟩) ∧
    ((ZcCluster.run insertionSort {} (es ++ [.pick toyLess, .remove 2])).bind (·.pick insertionSort toyLess)).map (·.1) =
      some (some ⟨33, 0, false⟩) ∧
    ((ZcCluster.run insertionSort {} (es ++ [.pick toyLess, .remove 1])).bind (·.pick insertionSort toyLess)).map (·.1) =
      some (some ⟨21, 0, false⟩) := by decide +kernel

end Lukko
