import Verif.Model.Census
/-
  The life of connections, the statistics and the log lines: invariant.
-/
namespace Lukko
open Model Spec

/-- The counters agree with the occasions. -/
structure Balanced (log : List CensusEntry) : Prop where
  accepted : census .accepted log = acceptances log
  rejected : census .rejected log = refusals log + unwelcomeGoodbyes log
  terminated : census .terminated log = orders log
  unsupported : census .unsupportedService log = wrongServices log
  protocol : census .protocol log = protocolGoodbyes log + badKeys log

theorem Balanced.append {a b} (ha : Balanced a) (hb : Balanced b) : Balanced (a ++ b) := by
  obtain ⟨a1, a2, a3, a4, a5⟩ := ha
  obtain ⟨b1, b2, b3, b4, b5⟩ := hb
  simp only [census, acceptances, refusals, unwelcomeGoodbyes, orders, wrongServices, protocolGoodbyes, badKeys] at *
  constructor <;> simp only [census, acceptances, refusals, unwelcomeGoodbyes, orders, wrongServices, protocolGoodbyes, badKeys,
    List.countP_append] <;> omega

theorem Balanced.nil : Balanced [] := ⟨rfl, rfl, rfl, rfl, rfl⟩

theorem Balanced.goodbye (id reason) : Balanced (.goodbye id reason :: reasonCounter id reason) := by
  unfold reasonCounter
  split
  · rename_i h
    have h1 : protocolReason reason = true := by
      simp only [protocolReason, Bool.or_eq_true, beq_iff_eq]; omega
    have h2 : unwelcomeReason reason = false := by
      simp only [unwelcomeReason, Bool.or_eq_false_iff, beq_eq_false_iff_ne]; omega
    constructor <;> simp [census, acceptances, refusals, unwelcomeGoodbyes, orders, wrongServices, protocolGoodbyes, badKeys, h1, h2]
  · rename_i h
    have h1 : protocolReason reason = false := by
      simp only [protocolReason, Bool.or_eq_false_iff, beq_eq_false_iff_ne]; omega
    split
    · rename_i h'
      have h2 : unwelcomeReason reason = true := by
        simp only [unwelcomeReason, Bool.or_eq_true, beq_iff_eq]; omega
      constructor <;> simp [census, acceptances, refusals, unwelcomeGoodbyes, orders, wrongServices, protocolGoodbyes, badKeys, h1, h2]
    · rename_i h'
      have h2 : unwelcomeReason reason = false := by
        simp only [unwelcomeReason, Bool.or_eq_false_iff, beq_eq_false_iff_ne]; omega
      constructor <;> simp [census, acceptances, refusals, unwelcomeGoodbyes, orders, wrongServices, protocolGoodbyes, badKeys, h1, h2]

/-! ## The list of connections -/

theorem countP_remove {p : CensusConn → Bool} : ∀ {l : List CensusConn} {c : CensusConn}, (l.map (·.id)).Nodup → c ∈ l →
    (l.filter (·.id != c.id)).countP p + (bif p c then 1 else 0) = l.countP p := by
  intro l
  induction l with
  | nil => intro c _ h; cases h
  | cons x l ih =>
    intro c hn hc
    rw [List.map_cons, List.nodup_cons] at hn
    rcases List.mem_cons.mp hc with rfl | hc
    · have : l.filter (·.id != c.id) = l := by
        rw [List.filter_eq_self]
        intro a ha
        simp only [bne_iff_ne, ne_eq]
        intro hx
        exact hn.1 (hx ▸ List.mem_map_of_mem ha)
      rw [List.filter_cons_of_neg (by simp), this, List.countP_cons]
      cases p c <;> rfl
    · have hne : x.id ≠ c.id := fun hx => hn.1 (hx ▸ List.mem_map_of_mem hc)
      rw [List.filter_cons_of_pos (by simpa using hne), List.countP_cons, List.countP_cons, ← ih hn.2 hc]
      omega

theorem countP_update {p : CensusConn → Bool} {f : CensusConn → CensusConn} : ∀ {l : List CensusConn} {c : CensusConn},
    (l.map (·.id)).Nodup → c ∈ l →
    (l.map fun x => bif x.id == c.id then f x else x).countP p + (bif p c then 1 else 0) = l.countP p + (bif p (f c) then 1 else 0) := by
  intro l
  induction l with
  | nil => intro c _ h; cases h
  | cons x l ih =>
    intro c hn hc
    rw [List.map_cons, List.nodup_cons] at hn
    rcases List.mem_cons.mp hc with rfl | hc
    · have : (l.map fun x => bif x.id == c.id then f x else x) = l := by
        conv => rhs; rw [← List.map_id l]
        apply List.map_congr_left
        intro a ha
        have : a.id ≠ c.id := fun hx => hn.1 (hx ▸ List.mem_map_of_mem ha)
        rw [beq_eq_false_iff_ne.mpr this]; rfl
      rw [List.map_cons, this, List.countP_cons, List.countP_cons, beq_self_eq_true, cond_true]
      cases p c <;> cases p (f c) <;> simp <;> omega
    · have hne : x.id ≠ c.id := fun hx => hn.1 (hx ▸ List.mem_map_of_mem hc)
      have := ih hn.2 hc
      rw [List.map_cons, List.countP_cons, List.countP_cons, beq_eq_false_iff_ne.mpr hne, cond_false]
      omega

theorem map_update_ids {f : CensusConn → CensusConn} (hf : ∀ c, (f c).id = c.id) (l : List CensusConn) (id : Nat) :
    (l.map fun x => bif x.id == id then f x else x).map (·.id) = l.map (·.id) := by
  rw [List.map_map]
  apply List.map_congr_left
  intro a _
  show (bif a.id == id then f a else a).id = a.id
  cases a.id == id
  · rfl
  · exact hf a

/-! ## The invariant -/

structure CensusInv (y : Census) : Prop where
  bal : Balanced y.log
  nodup : (y.conns.map (·.id)).Nodup
  fresh : ∀ c ∈ y.conns, c.id < y.next
  total : acceptances y.log = refusals y.log + failuresToStart y.log + departures y.log + endings y.log + y.conns.length
  served : starts y.log = endings y.log + y.conns.countP (·.phase != .waiting)
  /-- connections in the list have written their line or not -/
  lines : ∀ c ∈ y.conns, endLines c.id y.log = (bif c.logDisconnect then 0 else 1)
  waiting : ∀ c ∈ y.conns, c.phase = .waiting → c.logDisconnect = true
  begun : ∀ c ∈ y.conns, c.phase ≠ .waiting → CensusEntry.started c.id ∈ y.log
  gone : ∀ id, CensusEntry.ended id ∈ y.log → id ∉ y.conns.map (·.id) ∧ endLines id y.log = 1 ∧ id < y.next ∧ CensusEntry.started id ∈ y.log
  others : ∀ id, CensusEntry.started id ∉ y.log → endLines id y.log = 0
  old : ∀ id, CensusEntry.started id ∈ y.log → id < y.next ∧ (CensusEntry.ended id ∈ y.log ∨ ∃ c ∈ y.conns, c.id = id ∧ c.phase ≠ .waiting)

theorem CensusInv.init : CensusInv {} := by
  refine ⟨.nil, List.nodup_nil, ?_, rfl, rfl, ?_, ?_, ?_, ?_, ?_, ?_⟩ <;> simp [endLines]

theorem endLines_append (id a b) : endLines id (a ++ b) = endLines id a + endLines id b := List.countP_append

theorem find_spec {y : Census} {id c} (h : y.find id = some c) : c ∈ y.conns ∧ c.id = id := by
  unfold Census.find at h
  exact ⟨List.mem_of_find?_eq_some h, by simpa using List.find?_some h⟩

theorem find_unique {y : Census} (h : CensusInv y) {c} (hc : c ∈ y.conns) : y.find c.id = some c := by
  unfold Census.find
  have hn := h.nodup
  generalize y.conns = l at *
  induction l with
  | nil => cases hc
  | cons x l ih =>
    rw [List.map_cons, List.nodup_cons] at hn
    rcases List.mem_cons.mp hc with rfl | hc
    · rw [List.find?_cons_of_pos (by simp)]
    · have hne : x.id ≠ c.id := fun hx => hn.1 (hx ▸ List.mem_map_of_mem hc)
      rw [List.find?_cons_of_neg (by simpa using hne)]
      exact ih hc hn.2

/-- Entries which change nothing about connections. -/
def CensusEntry.neutral : CensusEntry → Bool
  | .goodbye _ _ | .wrongService _ | .badKey _ | .order _ | .count _ _ => true
  | _ => false

theorem neutral_counts {es : List CensusEntry} (h : ∀ e ∈ es, CensusEntry.neutral e = true) :
    acceptances es = 0 ∧ refusals es = 0 ∧ failuresToStart es = 0 ∧ departures es = 0 ∧ endings es = 0 ∧ starts es = 0 ∧
    ∀ id, endLines id es = 0 := by
  refine ⟨?_, ?_, ?_, ?_, ?_, ?_, fun id => ?_⟩ <;>
    (apply List.countP_eq_zero.mpr; intro e he; have := h e he; cases e <;> simp [CensusEntry.neutral] at this ⊢)

theorem CensusInv.say {y : Census} (h : CensusInv y) {es} (hb : Balanced es) (hn : ∀ e ∈ es, CensusEntry.neutral e = true) :
    CensusInv (y.say es) := by
  obtain ⟨n1, n2, n3, n4, n5, n6, n7⟩ := neutral_counts hn
  have hm : ∀ e, CensusEntry.neutral e = false → (e ∈ y.log ++ es ↔ e ∈ y.log) := by
    intro e he
    rw [List.mem_append]
    constructor
    · rintro (hx | hx)
      · exact hx
      · have := hn e hx; rw [he] at this; cases this
    · exact .inl
  have hl : ∀ id, endLines id (y.log ++ es) = endLines id y.log := fun id => by rw [endLines_append, n7 id]; rfl
  refine ⟨h.bal.append hb, h.nodup, h.fresh, ?_, ?_, ?_, h.waiting, ?_, ?_, ?_, ?_⟩
  · show acceptances (y.log ++ es) = refusals (y.log ++ es) + failuresToStart (y.log ++ es) + departures (y.log ++ es) +
      endings (y.log ++ es) + y.conns.length
    have := h.total
    simp only [acceptances, refusals, failuresToStart, departures, endings, List.countP_append] at *
    omega
  · show starts (y.log ++ es) = endings (y.log ++ es) + y.conns.countP (·.phase != .waiting)
    have := h.served
    simp only [starts, endings, List.countP_append] at *
    omega
  · intro c hc
    show endLines c.id (y.log ++ es) = _
    rw [hl]; exact h.lines c hc
  · intro c hc hp
    exact (hm _ rfl).mpr (h.begun c hc hp)
  · intro id hid
    have := h.gone id ((hm _ rfl).mp hid)
    exact ⟨this.1, (hl id).trans this.2.1, this.2.2.1, (hm _ rfl).mpr this.2.2.2⟩
  · intro id hid
    show endLines id (y.log ++ es) = 0
    rw [hl]
    exact h.others id fun hx => hid ((hm _ rfl).mpr hx)
  · intro id hid
    have := h.old id ((hm _ rfl).mp hid)
    exact ⟨this.1, this.2.imp (hm _ rfl).mpr fun hx => hx⟩

theorem mem_update {l : List CensusConn} {f : CensusConn → CensusConn} {id c}
    (h : c ∈ l.map fun x => bif x.id == id then f x else x) :
    (c ∈ l ∧ c.id ≠ id) ∨ ∃ x ∈ l, x.id = id ∧ c = f x := by
  obtain ⟨x, hx, rfl⟩ := List.mem_map.mp h
  cases hi : x.id == id
  · exact .inl ⟨hx, by simpa using hi⟩
  · exact .inr ⟨x, hx, by simpa using hi, rfl⟩

theorem mem_update_of {l : List CensusConn} {f : CensusConn → CensusConn} {id c} (h : c ∈ l) (hc : c.id ≠ id) :
    c ∈ l.map fun x => bif x.id == id then f x else x :=
  List.mem_map.mpr ⟨c, h, by rw [beq_eq_false_iff_ne.mpr hc]; rfl⟩

theorem mem_update_self {l : List CensusConn} {f : CensusConn → CensusConn} {c} (h : c ∈ l) :
    f c ∈ l.map fun x => bif x.id == c.id then f x else x :=
  List.mem_map.mpr ⟨c, h, by rw [beq_self_eq_true]; rfl⟩

theorem CensusInv.unique {y : Census} (h : CensusInv y) {c d} (hc : c ∈ y.conns) (hd : d ∈ y.conns) (he : d.id = c.id) : d = c := by
  have h1 := find_unique h hc
  have h2 := find_unique h hd
  rw [he, h1] at h2
  exact (Option.some.inj h2).symm

/-- A line is written. -/
theorem CensusInv.line {y : Census} (h : CensusInv y) {c} (hc : c ∈ y.conns) (hp : c.phase ≠ .waiting) (hl : c.logDisconnect = true) (l) :
    CensusInv ((y.update c.id fun c => { c with logDisconnect := false }).say [.line c.id l]) := by
  have hb : Balanced [CensusEntry.line c.id l] := ⟨rfl, rfl, rfl, rfl, rfl⟩
  have hm : ∀ e, (∀ i l, e ≠ CensusEntry.line i l) → (e ∈ y.log ++ [.line c.id l] ↔ e ∈ y.log) := by
    intro e he
    rw [List.mem_append, List.mem_singleton]
    exact ⟨fun hx => hx.elim (fun hx => hx) fun hx => absurd hx (he _ _), .inl⟩
  have hone : ∀ id, endLines id (y.log ++ [.line c.id l]) = endLines id y.log + (bif c.id == id then 1 else 0) := by
    intro id
    rw [endLines_append]
    cases hi : c.id == id <;> simp [endLines, hi]
  have hids := map_update_ids (f := fun c => { c with logDisconnect := false }) (fun _ => rfl) y.conns c.id
  refine ⟨h.bal.append hb, ?_, ?_, ?_, ?_, ?_, ?_, ?_, ?_, ?_, ?_⟩
  · show (List.map _ (List.map _ _)).Nodup
    rw [hids]; exact h.nodup
  · intro d hd
    rcases mem_update hd with ⟨hd, _⟩ | ⟨x, hx, _, rfl⟩
    · exact h.fresh d hd
    · exact h.fresh x hx
  · show acceptances (y.log ++ _) = refusals (y.log ++ _) + failuresToStart (y.log ++ _) + departures (y.log ++ _) +
      endings (y.log ++ _) + (List.map _ y.conns).length
    have := h.total
    rw [List.length_map]
    simp only [acceptances, refusals, failuresToStart, departures, endings, List.countP_append, List.countP_singleton] at *
    simpa using this
  · show starts (y.log ++ _) = endings (y.log ++ _) + List.countP (fun d : CensusConn => d.phase != .waiting) (List.map _ y.conns)
    have h1 := h.served
    have h2 := countP_update (p := (·.phase != .waiting)) (f := fun c => { c with logDisconnect := false }) h.nodup hc
    simp only at h2
    simp only [starts, endings, List.countP_append, List.countP_singleton] at *
    simp only [Bool.false_eq_true, if_false]
    omega
  · intro d hd
    show endLines d.id (y.log ++ _) = _
    rw [hone]
    rcases mem_update hd with ⟨hd, hne⟩ | ⟨x, hx, hxe, rfl⟩
    · rw [beq_eq_false_iff_ne.mpr (Ne.symm hne)]; exact h.lines d hd
    · have := h.unique hc hx hxe
      subst this
      have := h.lines x hx
      rw [hl] at this
      rw [this]; simp
  · intro d hd hw
    rcases mem_update hd with ⟨hd, hne⟩ | ⟨x, hx, hxe, rfl⟩
    · exact h.waiting d hd hw
    · have := h.unique hc hx hxe
      subst this
      exact absurd hw hp
  · intro d hd hw
    rcases mem_update hd with ⟨hd, hne⟩ | ⟨x, hx, hxe, rfl⟩
    · exact (hm _ (by intros; simp)).mpr (h.begun d hd hw)
    · exact (hm _ (by intros; simp)).mpr (h.begun x hx hw)
  · intro id hid
    have := h.gone id ((hm _ (by intros; simp)).mp hid)
    have hne : c.id ≠ id := fun he => this.1 (he ▸ List.mem_map_of_mem hc)
    refine ⟨?_, ?_, this.2.2.1, (hm _ (by intros; simp)).mpr this.2.2.2⟩
    · show id ∉ List.map _ (List.map _ _)
      rw [hids]; exact this.1
    · show endLines id (y.log ++ _) = 1
      rw [hone, beq_eq_false_iff_ne.mpr hne]; exact this.2.1
  · intro id hid
    have hid : CensusEntry.started id ∉ y.log := fun hx => hid ((hm _ (by intros; simp)).mpr hx)
    have hne : c.id ≠ id := fun he => hid (he ▸ h.begun c hc hp)
    show endLines id (y.log ++ _) = 0
    rw [hone, beq_eq_false_iff_ne.mpr hne]
    exact h.others id hid
  · intro id hid
    have := h.old id ((hm _ (by intros; simp)).mp hid)
    refine ⟨this.1, this.2.imp (hm _ (by intros; simp)).mpr ?_⟩
    rintro ⟨d, hd, hi, hw⟩
    cases hx : decide (d.id = c.id)
    · exact ⟨d, mem_update_of hd (of_decide_eq_false hx), hi, hw⟩
    · have := h.unique hc hd (of_decide_eq_true hx)
      subst this
      exact ⟨_, mem_update_self hd, hi, hw⟩

/-- A connection is only waiting for its goodbye to be sent. -/
theorem CensusInv.die {y : Census} (h : CensusInv y) {c} (hc : c ∈ y.conns) (hp : c.phase ≠ .waiting) :
    CensusInv (y.update c.id fun c => { c with phase := .dead }) := by
  have hids := map_update_ids (f := fun c => { c with phase := .dead }) (fun _ => rfl) y.conns c.id
  refine ⟨h.bal, ?_, ?_, ?_, ?_, ?_, ?_, ?_, ?_, h.others, ?_⟩
  · show (List.map _ (List.map _ _)).Nodup
    rw [hids]; exact h.nodup
  · intro d hd
    rcases mem_update hd with ⟨hd, _⟩ | ⟨x, hx, _, rfl⟩
    · exact h.fresh d hd
    · exact h.fresh x hx
  · show acceptances y.log = _ + (List.map _ y.conns).length
    rw [List.length_map]; exact h.total
  · show starts y.log = endings y.log + List.countP (fun d : CensusConn => d.phase != .waiting) (List.map _ y.conns)
    have h1 := h.served
    have h2 := countP_update (p := (·.phase != .waiting)) (f := fun c => { c with phase := .dead }) h.nodup hc
    have h3 : (c.phase != .waiting) = true := by simpa using hp
    simp only [h3, cond_true] at h2
    have h4 : (CensusPhase.dead != .waiting) = true := rfl
    rw [h4, cond_true] at h2
    simp only [starts, endings] at *
    omega
  · intro d hd
    rcases mem_update hd with ⟨hd, _⟩ | ⟨x, hx, _, rfl⟩
    · exact h.lines d hd
    · exact h.lines x hx
  · intro d hd hw
    rcases mem_update hd with ⟨hd, _⟩ | ⟨x, hx, _, rfl⟩
    · exact h.waiting d hd hw
    · cases hw
  · intro d hd hw
    rcases mem_update hd with ⟨hd, _⟩ | ⟨x, hx, hxe, rfl⟩
    · exact h.begun d hd hw
    · have := h.unique hc hx hxe
      subst this
      exact h.begun x hx hp
  · intro id hid
    have := h.gone id hid
    refine ⟨?_, this.2⟩
    show id ∉ List.map _ (List.map _ _)
    rw [hids]; exact this.1
  · intro id hid
    have := h.old id hid
    refine ⟨this.1, this.2.imp (fun hx => hx) ?_⟩
    rintro ⟨d, hd, hi, hw⟩
    cases hx : decide (d.id = c.id)
    · exact ⟨d, mem_update_of hd (of_decide_eq_false hx), hi, hw⟩
    · have := h.unique hc hd (of_decide_eq_true hx)
      subst this
      exact ⟨_, mem_update_self (f := fun c => { c with phase := .dead }) hd, hi, by simp⟩

theorem mem_remove {y : Census} {id d} : d ∈ (y.remove id).conns ↔ d ∈ y.conns ∧ d.id ≠ id := by
  unfold Census.remove
  simp [List.mem_filter]

theorem remove_nodup {y : Census} (h : CensusInv y) (id) : ((y.remove id).conns.map (·.id)).Nodup :=
  (List.filter_sublist.map _).nodup h.nodup

theorem remove_ids {y : Census} {id i} (h : i ∈ (y.remove id).conns.map (·.id)) : i ∈ y.conns.map (·.id) ∧ i ≠ id := by
  obtain ⟨d, hd, rfl⟩ := List.mem_map.mp h
  have := mem_remove.mp hd
  exact ⟨List.mem_map_of_mem this.1, this.2⟩

theorem remove_length {y : Census} (h : CensusInv y) {c} (hc : c ∈ y.conns) : (y.remove c.id).conns.length + 1 = y.conns.length := by
  have := countP_remove (p := fun _ => true) h.nodup hc
  simpa [Census.remove] using this

theorem remove_served {y : Census} (h : CensusInv y) {c} (hc : c ∈ y.conns) :
    (y.remove c.id).conns.countP (·.phase != .waiting) + (bif c.phase != .waiting then 1 else 0) = y.conns.countP (·.phase != .waiting) :=
  countP_remove h.nodup hc

/-- A connection ends. -/
theorem CensusInv.dispose {y : Census} (h : CensusInv y) {c} (hc : c ∈ y.conns) (hp : c.phase ≠ .waiting) : CensusInv (y.dispose c) := by
  unfold Census.dispose
  have hb : Balanced ((bif c.logDisconnect then [.line c.id .disconnected] else []) ++ [.ended c.id]) := by
    cases c.logDisconnect <;> exact ⟨rfl, rfl, rfl, rfl, rfl⟩
  have hn : acceptances ((bif c.logDisconnect then [.line c.id .disconnected] else []) ++ [.ended c.id]) = 0 ∧
      refusals ((bif c.logDisconnect then [.line c.id .disconnected] else []) ++ [.ended c.id]) = 0 ∧
      failuresToStart ((bif c.logDisconnect then [.line c.id .disconnected] else []) ++ [.ended c.id]) = 0 ∧
      departures ((bif c.logDisconnect then [.line c.id .disconnected] else []) ++ [.ended c.id]) = 0 ∧
      endings ((bif c.logDisconnect then [.line c.id .disconnected] else []) ++ [.ended c.id]) = 1 ∧
      starts ((bif c.logDisconnect then [.line c.id .disconnected] else []) ++ [.ended c.id]) = 0 := by
    cases c.logDisconnect <;> exact ⟨rfl, rfl, rfl, rfl, rfl, rfl⟩
  have hone : ∀ id, endLines id ((bif c.logDisconnect then [.line c.id .disconnected] else []) ++ [.ended c.id]) =
      (bif c.id == id then (bif c.logDisconnect then 1 else 0) else 0) := by
    intro id
    cases c.logDisconnect <;> cases hi : c.id == id <;> simp [endLines, hi]
  have hstart : ∀ i, CensusEntry.started i ∉ (bif c.logDisconnect then [CensusEntry.line c.id .disconnected] else []) ++ [.ended c.id] := by
    intro i; cases c.logDisconnect <;> simp
  have hend : ∀ i, CensusEntry.ended i ∈ (bif c.logDisconnect then [CensusEntry.line c.id .disconnected] else []) ++ [.ended c.id] ↔ i = c.id := by
    intro i; cases c.logDisconnect <;> simp
  generalize hes : (bif c.logDisconnect then [CensusEntry.line c.id .disconnected] else []) ++ [.ended c.id] = es at *
  obtain ⟨n1, n2, n3, n4, n5, n6⟩ := hn
  have hs : ∀ i, CensusEntry.started i ∈ y.log ++ es ↔ CensusEntry.started i ∈ y.log := by
    intro i; rw [List.mem_append]; exact ⟨fun hx => hx.elim (fun hx => hx) fun hx => absurd hx (hstart i), .inl⟩
  have he : ∀ i, CensusEntry.ended i ∈ y.log ++ es ↔ CensusEntry.ended i ∈ y.log ∨ i = c.id := by
    intro i; rw [List.mem_append, hend]
  have hself : endLines c.id (y.log ++ es) = 1 := by
    rw [endLines_append, hone, h.lines c hc, beq_self_eq_true]
    cases c.logDisconnect <;> rfl
  have hoth : ∀ i, i ≠ c.id → endLines i (y.log ++ es) = endLines i y.log := by
    intro i hi
    rw [endLines_append, hone, beq_eq_false_iff_ne.mpr (Ne.symm hi)]; rfl
  refine ⟨h.bal.append hb, remove_nodup h c.id, ?_, ?_, ?_, ?_, ?_, ?_, ?_, ?_, ?_⟩
  · intro d hd; exact h.fresh d (mem_remove.mp hd).1
  · show acceptances (y.log ++ es) = refusals (y.log ++ es) + failuresToStart (y.log ++ es) + departures (y.log ++ es) +
      endings (y.log ++ es) + (y.remove c.id).conns.length
    have := h.total
    have := remove_length h hc
    simp only [acceptances, refusals, failuresToStart, departures, endings, List.countP_append] at *
    omega
  · show starts (y.log ++ es) = endings (y.log ++ es) + (y.remove c.id).conns.countP (·.phase != .waiting)
    have h1 := h.served
    have h2 := remove_served h hc
    have h3 : (c.phase != .waiting) = true := by simpa using hp
    rw [h3, cond_true] at h2
    simp only [starts, endings, List.countP_append] at *
    omega
  · intro d hd
    have hd := mem_remove.mp hd
    exact (hoth _ hd.2).trans (h.lines d hd.1)
  · intro d hd; exact h.waiting d (mem_remove.mp hd).1
  · intro d hd hw; exact (hs _).mpr (h.begun d (mem_remove.mp hd).1 hw)
  · intro i hi
    rcases (he i).mp hi with hi | rfl
    · have := h.gone i hi
      have hne : i ≠ c.id := fun hx => this.1 (hx ▸ List.mem_map_of_mem hc)
      exact ⟨fun hx => this.1 (remove_ids hx).1, (hoth i hne).trans this.2.1, this.2.2.1, (hs i).mpr this.2.2.2⟩
    · exact ⟨fun hx => (remove_ids hx).2 rfl, hself, h.fresh c hc, (hs _).mpr (h.begun c hc hp)⟩
  · intro i hi
    have hi : CensusEntry.started i ∉ y.log := fun hx => hi ((hs i).mpr hx)
    have hne : i ≠ c.id := fun hx => hi (hx ▸ h.begun c hc hp)
    exact (hoth i hne).trans (h.others i hi)
  · intro i hi
    have := h.old i ((hs i).mp hi)
    refine ⟨this.1, ?_⟩
    rcases this.2 with hx | ⟨d, hd, rfl, hw⟩
    · exact .inl ((he i).mpr (.inl hx))
    · cases hx : decide (d.id = c.id)
      · exact .inr ⟨d, mem_remove.mpr ⟨hd, of_decide_eq_false hx⟩, rfl, hw⟩
      · exact .inl ((he _).mpr (.inr (of_decide_eq_true hx)))

/-- A waiting connection is given up. -/
theorem CensusInv.giveUp {y : Census} (h : CensusInv y) {c} (hc : c ∈ y.conns) (hp : c.phase = .waiting) {e}
    (he : e = CensusEntry.left c.id ∨ e = CensusEntry.failed c.id) : CensusInv ((y.remove c.id).say [e]) := by
  have hb : Balanced [e] := by rcases he with rfl | rfl <;> exact ⟨rfl, rfl, rfl, rfl, rfl⟩
  have hm : ∀ x, (∀ i, x ≠ CensusEntry.left i ∧ x ≠ CensusEntry.failed i) → (x ∈ y.log ++ [e] ↔ x ∈ y.log) := by
    intro x hx
    rw [List.mem_append, List.mem_singleton]
    refine ⟨fun h => h.elim (fun h => h) fun h => ?_, .inl⟩
    rcases he with he | he
    · exact absurd (h.trans he) (hx _).1
    · exact absurd (h.trans he) (hx _).2
  have hl : ∀ i, endLines i (y.log ++ [e]) = endLines i y.log := by
    intro i
    rw [endLines_append]
    rcases he with rfl | rfl <;> rfl
  have hnot : ∀ d ∈ y.conns, d.phase ≠ .waiting → d.id ≠ c.id := by
    intro d hd hw hx
    have := h.unique hc hd hx
    subst this
    exact hw hp
  refine ⟨h.bal.append hb, remove_nodup h c.id, ?_, ?_, ?_, ?_, ?_, ?_, ?_, ?_, ?_⟩
  · intro d hd; exact h.fresh d (mem_remove.mp hd).1
  · show acceptances (y.log ++ [e]) = refusals (y.log ++ [e]) + failuresToStart (y.log ++ [e]) + departures (y.log ++ [e]) +
      endings (y.log ++ [e]) + (y.remove c.id).conns.length
    have := h.total
    have := remove_length h hc
    simp only [acceptances, refusals, failuresToStart, departures, endings, List.countP_append, List.countP_singleton] at *
    rcases he with rfl | rfl <;> simp <;> omega
  · show starts (y.log ++ [e]) = endings (y.log ++ [e]) + (y.remove c.id).conns.countP (·.phase != .waiting)
    have h1 := h.served
    have h2 := remove_served h hc
    have h3 : (c.phase != .waiting) = false := by rw [hp]; rfl
    rw [h3, cond_false] at h2
    simp only [starts, endings, List.countP_append, List.countP_singleton] at *
    rcases he with rfl | rfl <;> simp <;> omega
  · intro d hd
    exact (hl _).trans (h.lines d (mem_remove.mp hd).1)
  · intro d hd; exact h.waiting d (mem_remove.mp hd).1
  · intro d hd hw; exact (hm _ (by intros; simp)).mpr (h.begun d (mem_remove.mp hd).1 hw)
  · intro i hi
    have := h.gone i ((hm _ (by intros; simp)).mp hi)
    exact ⟨fun hx => this.1 (remove_ids hx).1, (hl i).trans this.2.1, this.2.2.1, (hm _ (by intros; simp)).mpr this.2.2.2⟩
  · intro i hi
    exact (hl i).trans (h.others i fun hx => hi ((hm _ (by intros; simp)).mpr hx))
  · intro i hi
    have := h.old i ((hm _ (by intros; simp)).mp hi)
    refine ⟨this.1, this.2.imp (hm _ (by intros; simp)).mpr ?_⟩
    rintro ⟨d, hd, hi, hw⟩
    exact ⟨d, mem_remove.mpr ⟨hd, hnot d hd hw⟩, hi, hw⟩

/-- A waiting connection is served. -/
theorem CensusInv.begin {y : Census} (h : CensusInv y) {c} (hc : c ∈ y.conns) (hp : c.phase = .waiting) :
    CensusInv ((y.update c.id fun c => { c with phase := .live }).say [.started c.id]) := by
  have hids := map_update_ids (f := fun c => { c with phase := .live }) (fun _ => rfl) y.conns c.id
  have hs : ∀ i, CensusEntry.started i ∈ y.log ++ [.started c.id] ↔ CensusEntry.started i ∈ y.log ∨ i = c.id := by
    intro i; simp
  have hm : ∀ i, CensusEntry.ended i ∈ y.log ++ [.started c.id] ↔ CensusEntry.ended i ∈ y.log := by
    intro i; simp
  have hl : ∀ i, endLines i (y.log ++ [.started c.id]) = endLines i y.log := by
    intro i
    rw [endLines_append]; rfl
  refine ⟨h.bal.append ⟨rfl, rfl, rfl, rfl, rfl⟩, ?_, ?_, ?_, ?_, ?_, ?_, ?_, ?_, ?_, ?_⟩
  · show (List.map _ (List.map _ _)).Nodup
    rw [hids]; exact h.nodup
  · intro d hd
    rcases mem_update hd with ⟨hd, _⟩ | ⟨x, hx, _, rfl⟩
    · exact h.fresh d hd
    · exact h.fresh x hx
  · show acceptances (y.log ++ _) = refusals (y.log ++ _) + failuresToStart (y.log ++ _) + departures (y.log ++ _) +
      endings (y.log ++ _) + (List.map _ y.conns).length
    have := h.total
    rw [List.length_map]
    simp only [acceptances, refusals, failuresToStart, departures, endings, List.countP_append, List.countP_singleton] at *
    simpa using this
  · show starts (y.log ++ _) = endings (y.log ++ _) + List.countP (fun d : CensusConn => d.phase != .waiting) (List.map _ y.conns)
    have h1 := h.served
    have h2 := countP_update (p := (·.phase != .waiting)) (f := fun c => { c with phase := .live }) h.nodup hc
    have h3 : (c.phase != .waiting) = false := by rw [hp]; rfl
    have h4 : (CensusPhase.live != .waiting) = true := rfl
    simp only [h3, cond_false] at h2
    rw [h4, cond_true] at h2
    simp only [starts, endings, List.countP_append, List.countP_singleton] at *
    simp only [Bool.false_eq_true, if_false, if_true]
    omega
  · intro d hd
    refine (hl _).trans ?_
    rcases mem_update hd with ⟨hd, _⟩ | ⟨x, hx, _, rfl⟩
    · exact h.lines d hd
    · exact h.lines x hx
  · intro d hd hw
    rcases mem_update hd with ⟨hd, _⟩ | ⟨x, hx, _, rfl⟩
    · exact h.waiting d hd hw
    · cases hw
  · intro d hd hw
    rcases mem_update hd with ⟨hd, _⟩ | ⟨x, hx, hxe, rfl⟩
    · exact (hs _).mpr (.inl (h.begun d hd hw))
    · exact (hs _).mpr (.inr hxe)
  · intro id hid
    have := h.gone id ((hm id).mp hid)
    refine ⟨?_, (hl id).trans this.2.1, this.2.2.1, (hs id).mpr (.inl this.2.2.2)⟩
    show id ∉ List.map _ (List.map _ _)
    rw [hids]; exact this.1
  · intro i hi
    exact (hl i).trans (h.others i fun hx => hi ((hs i).mpr (.inl hx)))
  · intro id hid
    rcases (hs id).mp hid with hid | rfl
    · have := h.old id hid
      refine ⟨this.1, this.2.imp (hm id).mpr ?_⟩
      rintro ⟨d, hd, hi, hw⟩
      have hne : d.id ≠ c.id := by
        intro hx
        have := h.unique hc hd hx
        subst this
        exact hw hp
      exact ⟨d, mem_update_of hd hne, hi, hw⟩
    · exact ⟨h.fresh c hc, .inr ⟨_, mem_update_self (f := fun c => { c with phase := .live }) hc, rfl, by simp⟩⟩

/-- A connection is accepted and turned away at once. -/
theorem CensusInv.turnAway {y : Census} (h : CensusInv y) {es} (he : es = [CensusEntry.refused y.next, .count y.next .rejected] ∨
    es = [CensusEntry.failed y.next]) :
    CensusInv { y with next := y.next + 1, log := y.log ++ ([.accepted y.next, .count y.next .accepted] ++ es) } := by
  have hb : Balanced ([.accepted y.next, .count y.next .accepted] ++ es) := by
    rcases he with rfl | rfl <;> exact ⟨rfl, rfl, rfl, rfl, rfl⟩
  have hm1 : ∀ i, CensusEntry.started i ∈ y.log ++ ([.accepted y.next, .count y.next .accepted] ++ es) ↔ CensusEntry.started i ∈ y.log := by
    intro i; rcases he with rfl | rfl <;> simp
  have hm2 : ∀ i, CensusEntry.ended i ∈ y.log ++ ([.accepted y.next, .count y.next .accepted] ++ es) ↔ CensusEntry.ended i ∈ y.log := by
    intro i; rcases he with rfl | rfl <;> simp
  have hl : ∀ i, endLines i (y.log ++ ([.accepted y.next, .count y.next .accepted] ++ es)) = endLines i y.log := by
    intro i; rw [endLines_append]; rcases he with rfl | rfl <;> rfl
  refine ⟨h.bal.append hb, h.nodup, ?_, ?_, ?_, ?_, h.waiting, ?_, ?_, ?_, ?_⟩
  · intro d hd; exact Nat.lt_succ_of_lt (h.fresh d hd)
  · show acceptances (y.log ++ _) = refusals (y.log ++ _) + failuresToStart (y.log ++ _) + departures (y.log ++ _) +
      endings (y.log ++ _) + y.conns.length
    have := h.total
    simp only [acceptances, refusals, failuresToStart, departures, endings, List.countP_append] at *
    rcases he with rfl | rfl <;> simp <;> omega
  · show starts (y.log ++ _) = endings (y.log ++ _) + y.conns.countP (·.phase != .waiting)
    have := h.served
    simp only [starts, endings, List.countP_append] at *
    rcases he with rfl | rfl <;> simp <;> omega
  · intro d hd; exact (hl _).trans (h.lines d hd)
  · intro d hd hw; exact (hm1 _).mpr (h.begun d hd hw)
  · intro i hi
    have := h.gone i ((hm2 i).mp hi)
    exact ⟨this.1, (hl i).trans this.2.1, Nat.lt_succ_of_lt this.2.2.1, (hm1 i).mpr this.2.2.2⟩
  · intro i hi
    exact (hl i).trans (h.others i fun hx => hi ((hm1 i).mpr hx))
  · intro i hi
    have := h.old i ((hm1 i).mp hi)
    exact ⟨Nat.lt_succ_of_lt this.1, this.2.imp (hm2 i).mpr fun hx => hx⟩

/-- A connection is accepted and made to wait, or served. -/
theorem CensusInv.admit {y : Census} (h : CensusInv y) {ph e} (he : (ph = CensusPhase.waiting ∧ e = CensusEntry.waits y.next) ∨
    (ph = CensusPhase.live ∧ e = CensusEntry.started y.next)) :
    CensusInv { y with next := y.next + 1, conns := y.conns ++ [{ id := y.next, phase := ph }],
                       log := y.log ++ ([.accepted y.next, .count y.next .accepted] ++ [e]) } := by
  have hb : Balanced ([.accepted y.next, .count y.next .accepted] ++ [e]) := by
    rcases he with ⟨rfl, rfl⟩ | ⟨rfl, rfl⟩ <;> exact ⟨rfl, rfl, rfl, rfl, rfl⟩
  have hm1 : ∀ i, CensusEntry.started i ∈ y.log ++ ([.accepted y.next, .count y.next .accepted] ++ [e]) ↔
      CensusEntry.started i ∈ y.log ∨ (ph = .live ∧ i = y.next) := by
    intro i; rcases he with ⟨rfl, rfl⟩ | ⟨rfl, rfl⟩ <;> simp
  have hm2 : ∀ i, CensusEntry.ended i ∈ y.log ++ ([.accepted y.next, .count y.next .accepted] ++ [e]) ↔ CensusEntry.ended i ∈ y.log := by
    intro i; rcases he with ⟨rfl, rfl⟩ | ⟨rfl, rfl⟩ <;> simp
  have hl : ∀ i, endLines i (y.log ++ ([.accepted y.next, .count y.next .accepted] ++ [e])) = endLines i y.log := by
    intro i; rw [endLines_append]; rcases he with ⟨rfl, rfl⟩ | ⟨rfl, rfl⟩ <;> rfl
  have hlow : ∀ i, i ∈ y.conns.map (·.id) → i < y.next := by
    intro i hi
    obtain ⟨d, hd, rfl⟩ := List.mem_map.mp hi
    exact h.fresh d hd
  have hfresh : CensusEntry.started y.next ∉ y.log := fun hx => Nat.lt_irrefl _ (h.old _ hx).1
  have hmem : ∀ d, d ∈ y.conns ++ [{ id := y.next, phase := ph }] → d ∈ y.conns ∨ d = { id := y.next, phase := ph } := by
    intro d hd; simpa using hd
  refine ⟨h.bal.append hb, ?_, ?_, ?_, ?_, ?_, ?_, ?_, ?_, ?_, ?_⟩
  · show ((y.conns ++ [_]).map _).Nodup
    rw [List.map_append, List.nodup_append]
    refine ⟨h.nodup, by simp, ?_⟩
    intro a ha b hb hab
    have : b = y.next := by simpa using hb
    have := hlow a ha
    omega
  · intro d hd
    rcases hmem d hd with hd | rfl
    · exact Nat.lt_succ_of_lt (h.fresh d hd)
    · exact Nat.lt_succ_self _
  · show acceptances (y.log ++ _) = refusals (y.log ++ _) + failuresToStart (y.log ++ _) + departures (y.log ++ _) +
      endings (y.log ++ _) + (y.conns ++ [_]).length
    have := h.total
    simp only [acceptances, refusals, failuresToStart, departures, endings, List.countP_append, List.length_append] at *
    rcases he with ⟨rfl, rfl⟩ | ⟨rfl, rfl⟩ <;> simp <;> omega
  · show starts (y.log ++ _) = endings (y.log ++ _) + List.countP (fun d : CensusConn => d.phase != .waiting) (y.conns ++ [_])
    have := h.served
    simp only [starts, endings, List.countP_append] at *
    rcases he with ⟨rfl, rfl⟩ | ⟨rfl, rfl⟩ <;> simp <;> omega
  · intro d hd
    refine (hl _).trans ?_
    rcases hmem d hd with hd | rfl
    · exact h.lines d hd
    · exact h.others _ hfresh
  · intro d hd hw
    rcases hmem d hd with hd | rfl
    · exact h.waiting d hd hw
    · rfl
  · intro d hd hw
    rcases hmem d hd with hd | rfl
    · exact (hm1 _).mpr (.inl (h.begun d hd hw))
    · rcases he with ⟨rfl, rfl⟩ | ⟨rfl, rfl⟩
      · exact absurd rfl hw
      · exact (hm1 _).mpr (.inr ⟨rfl, rfl⟩)
  · intro i hi
    have := h.gone i ((hm2 i).mp hi)
    refine ⟨?_, (hl i).trans this.2.1, Nat.lt_succ_of_lt this.2.2.1, (hm1 i).mpr (.inl this.2.2.2)⟩
    intro hx
    obtain ⟨d, hd, rfl⟩ := List.mem_map.mp hx
    rcases hmem d hd with hd | rfl
    · exact this.1 (List.mem_map_of_mem hd)
    · exact Nat.lt_irrefl _ this.2.2.1
  · intro i hi
    exact (hl i).trans (h.others i fun hx => hi ((hm1 i).mpr (.inl hx)))
  · intro i hi
    rcases (hm1 i).mp hi with hi | ⟨rfl, rfl⟩
    · have := h.old i hi
      refine ⟨Nat.lt_succ_of_lt this.1, this.2.imp (hm2 i).mpr ?_⟩
      rintro ⟨d, hd, hx⟩
      exact ⟨d, List.mem_append_left _ hd, hx⟩
    · exact ⟨Nat.lt_succ_self _, .inr ⟨_, List.mem_append_right _ (List.mem_singleton_self _), rfl, by simp⟩⟩

theorem CensusInv.accept {y : Census} (h : CensusInv y) (v) : CensusInv (y.accept v) := by
  unfold Census.accept
  cases v
  · simpa only [Census.say, List.append_assoc] using h.turnAway (.inl rfl)
  · simpa only [Census.say, List.append_assoc] using h.admit (.inl ⟨rfl, rfl⟩)
  · simpa only [Census.say, List.append_assoc] using h.admit (.inr ⟨rfl, rfl⟩)
  · simpa only [Census.say, List.append_assoc] using h.turnAway (.inr rfl)

/-! ## The steps -/

theorem served_spec {y : Census} {id c} (h : y.served id = some c) : c ∈ y.conns ∧ c.id = id ∧ c.phase ≠ .waiting := by
  unfold Census.served at h
  rw [Option.filter_eq_some_iff] at h
  exact ⟨(find_spec h.1).1, (find_spec h.1).2, by simpa using h.2⟩

theorem active_spec {y : Census} {id c} (h : y.active id = some c) : c ∈ y.conns ∧ c.id = id ∧ c.phase = .live := by
  unfold Census.active at h
  rw [Option.filter_eq_some_iff] at h
  exact ⟨(find_spec h.1).1, (find_spec h.1).2, by simpa using h.2⟩

theorem waiting_spec {y : Census} {id c} (h : (y.find id).filter (·.phase == .waiting) = some c) :
    c ∈ y.conns ∧ c.id = id ∧ c.phase = .waiting := by
  rw [Option.filter_eq_some_iff] at h
  exact ⟨(find_spec h.1).1, (find_spec h.1).2, by simpa using h.2⟩

theorem CensusInv.logEnd {y : Census} (h : CensusInv y) {c} (hc : c ∈ y.conns) (hp : c.phase ≠ .waiting) (l) :
    CensusInv (y.logEnd c l) ∧ ({ c with logDisconnect := false } : CensusConn) ∈ (y.logEnd c l).conns := by
  unfold Census.logEnd
  cases hl : c.logDisconnect
  · refine ⟨h, ?_⟩
    have : ({ id := c.id, phase := c.phase, logDisconnect := false } : CensusConn) = c := by rw [← hl]
    rw [cond_false, this]; exact hc
  · exact ⟨h.line hc hp hl l, mem_update_self (f := fun c => { c with logDisconnect := false }) hc⟩

theorem goodbye_neutral (id reason) : ∀ e ∈ CensusEntry.goodbye id reason :: reasonCounter id reason, CensusEntry.neutral e = true := by
  intro e he
  rcases List.mem_cons.mp he with rfl | he
  · rfl
  · unfold reasonCounter at he
    split at he
    · rw [List.mem_singleton.mp he]; rfl
    · split at he
      · rw [List.mem_singleton.mp he]; rfl
      · cases he

theorem CensusInv.disconnect {y : Census} (h : CensusInv y) (id reason enc) : CensusInv (y.disconnect id reason enc) := by
  unfold Census.disconnect
  split
  · exact h
  · rename_i c hf
    obtain ⟨hc, rfl, hp⟩ := active_spec hf
    have hp : c.phase ≠ .waiting := by rw [hp]; simp
    have h1 := h.logEnd hc hp .disconnecting
    have h2 := h1.1.say (.goodbye c.id reason) (goodbye_neutral c.id reason)
    cases enc
    · exact h2.dispose (c := { c with logDisconnect := false }) h1.2 hp
    · exact h2.die (c := { c with logDisconnect := false }) h1.2 hp

theorem CensusInv.terminate {y : Census} (h : CensusInv y) (x) : CensusInv (y.terminate x) := by
  unfold Census.terminate
  split
  · exact h
  · rename_i c hf
    obtain ⟨hc, _, hp⟩ := served_spec hf
    refine ((h.logEnd hc hp .terminating).1.say ⟨rfl, rfl, rfl, rfl, rfl⟩ ?_).disconnect _ _ _
    intro e he
    simp only [List.mem_cons, List.not_mem_nil, or_false] at he
    rcases he with rfl | rfl <;> rfl

theorem CensusInv.clear {y : Census} (h : CensusInv y) {c} (hc : c ∈ y.conns) :
    CensusInv (y.clear c) ∧ ∀ d, d ∈ (y.clear c).conns ↔ d ∈ y.conns ∧ d.id ≠ c.id := by
  unfold Census.clear
  split
  · rename_i hp
    exact ⟨h.giveUp hc hp (.inl rfl), fun d => mem_remove⟩
  · rename_i hp
    exact ⟨h.dispose hc (fun hx => hp hx), fun d => mem_remove⟩

theorem CensusInv.clearAll : ∀ (l : List CensusConn) {y : Census}, CensusInv y → (∀ c ∈ l, c ∈ y.conns) → (l.map (·.id)).Nodup →
    CensusInv (l.foldl Census.clear y) ∧ ∀ d, d ∈ (l.foldl Census.clear y).conns ↔ d ∈ y.conns ∧ d.id ∉ l.map (·.id) := by
  intro l
  induction l with
  | nil => intro y h _ _; exact ⟨h, fun d => by simp⟩
  | cons c l ih =>
    intro y h hl hn
    rw [List.map_cons, List.nodup_cons] at hn
    have h1 := h.clear (hl c (List.mem_cons_self))
    have h2 := ih h1.1 (fun d hd => (h1.2 d).mpr ⟨hl d (List.mem_cons_of_mem _ hd), fun hx => hn.1 (hx ▸ List.mem_map_of_mem hd)⟩) hn.2
    refine ⟨h2.1, fun d => ?_⟩
    rw [List.foldl_cons, h2.2, h1.2, List.map_cons, List.mem_cons, not_or, and_assoc]

theorem CensusInv.exit {y : Census} (h : CensusInv y) : CensusInv (y.step .exit) ∧ (y.step .exit).conns = [] := by
  have := CensusInv.clearAll y.conns h (fun _ hc => hc) h.nodup
  refine ⟨this.1, List.eq_nil_iff_forall_not_mem.mpr fun d hd => ?_⟩
  have := (this.2 d).mp hd
  exact this.2 (List.mem_map_of_mem this.1)

theorem CensusInv.terminateAll : ∀ (l : List (Nat × Bool)) {y : Census}, CensusInv y → CensusInv (l.foldl Census.terminate y) := by
  intro l
  induction l with
  | nil => intro y h; exact h
  | cons x l ih => intro y h; exact ih (h.terminate x)

theorem CensusInv.step {y : Census} (h : CensusInv y) (ev) : CensusInv (y.step ev) := by
  cases ev with
  | accept v => exact h.accept v
  | timer id ok =>
    unfold Census.step
    simp only
    split
    · exact h
    · rename_i c hf
      obtain ⟨hc, rfl, hp⟩ := waiting_spec hf
      cases ok
      · exact h.giveUp hc hp (.inr rfl)
      · exact h.begin hc hp
  | leave id =>
    unfold Census.step
    simp only
    split
    · exact h
    · rename_i c hf
      obtain ⟨hc, rfl, hp⟩ := waiting_spec hf
      exact h.giveUp hc hp (.inl rfl)
  | disconnect id reason enc => exact h.disconnect id reason enc
  | clientDisconnect id =>
    unfold Census.step
    simp only
    split
    · exact h
    · rename_i c hf
      obtain ⟨hc, rfl, hp⟩ := active_spec hf
      have hp : c.phase ≠ .waiting := by rw [hp]; simp
      have h1 := h.logEnd hc hp .clientDisconnected
      exact h1.1.dispose (c := { c with logDisconnect := false }) h1.2 hp
  | drop id =>
    unfold Census.step
    simp only
    split
    · exact h
    · rename_i c hf
      obtain ⟨hc, rfl, hp⟩ := served_spec hf
      exact h.dispose hc hp
  | timeout id enc =>
    unfold Census.step
    simp only
    split
    · exact h
    · rename_i c hf
      obtain ⟨hc, rfl, hp⟩ := active_spec hf
      have hp : c.phase ≠ .waiting := by rw [hp]; simp
      exact (h.logEnd hc hp .authTimeout).1.disconnect _ _ _
  | wrongService id enc =>
    unfold Census.step
    simp only
    split
    · exact h
    · refine (h.say ⟨rfl, rfl, rfl, rfl, rfl⟩ ?_).disconnect _ _ _
      intro e he
      simp only [List.mem_cons, List.not_mem_nil, or_false] at he
      rcases he with rfl | rfl <;> rfl
  | badKey id =>
    unfold Census.step
    simp only
    split
    · exact h
    · refine h.say ⟨rfl, rfl, rfl, rfl, rfl⟩ ?_
      intro e he
      simp only [List.mem_cons, List.not_mem_nil, or_false] at he
      rcases he with rfl | rfl <;> rfl
  | outgoingDisconnecting id =>
    unfold Census.step
    simp only
    split
    · exact h
    · rename_i c hf
      obtain ⟨hc, rfl, hp⟩ := served_spec hf
      exact (h.logEnd hc hp _).1
  | outgoingDisconnected id =>
    unfold Census.step
    simp only
    split
    · exact h
    · rename_i c hf
      obtain ⟨hc, rfl, hp⟩ := served_spec hf
      exact (h.logEnd hc hp _).1
  | terminate ids => exact CensusInv.terminateAll ids h
  | exit => exact h.exit.1

theorem CensusInv.run : ∀ (evs : List CensusEvent) {y : Census}, CensusInv y → CensusInv (y.run evs) := by
  intro evs
  induction evs with
  | nil => intro y h; exact h
  | cons e evs ih => intro y h; exact ih (h.step e)

end Lukko
