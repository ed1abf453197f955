import Verif.Proof.ChannelSupport
/-
  Book-keeping of channels requested by local components.
-/
namespace Lukko
open Model Spec

/-- Contribution of an event: told or dropped +1, asked −1. -/
def weigh (f : Nat) : ChEntry → Int
  | .told g _ => if g = f then 1 else 0
  | .dropped g => if g = f then 1 else 0
  | .sentOpen _ g => if g = f then -1 else 0
  | _ => 0

/-- Does the slot wait on behalf of `f`? -/
def waitsFor (f : Nat) (x : Option Slot) : Int := if x = some (.requested f false) then 1 else 0

/-- Requests of `f` that are waiting, plus what became of the others, minus all
requests: always zero. -/
def bal (f : Nat) (s : Cs) : Int := (s.slots.map (waitsFor f)).sum + (s.log.map (weigh f)).sum

theorem sum_append_int (a b : List Int) : (a ++ b).sum = a.sum + b.sum := by
  induction a with
  | nil => simp
  | cons x a ih => simp [ih]; omega

theorem sum_set_int {α} (g : α → Int) (x : α) : ∀ (l : List α) (i : Nat) (h : i < l.length),
    ((l.set i x).map g).sum = (l.map g).sum - g l[i] + g x
  | y :: l, 0, _ => by simp; omega
  | y :: l, i + 1, h => by
    have := sum_set_int g x l i (by simpa using h)
    simp only [List.set_cons_succ, List.map_cons, List.sum_cons, List.getElem_cons_succ]
    omega

theorem bal_put {f : Nat} {s : Cs} {i x} (hi : i < s.slots.length) :
    bal f (s.put i x) = bal f s - waitsFor f (s.get i) + waitsFor f x := by
  unfold bal Cs.put Cs.get
  simp only
  rw [sum_set_int _ _ _ _ hi, List.getElem?_eq_getElem hi]
  simp only [Option.join_some]
  omega

theorem bal_log {f : Nat} {s : Cs} {es} : bal f { s with log := s.log ++ es } = bal f s + (es.map (weigh f)).sum := by
  unfold bal
  simp only [List.map_append, sum_append_int]
  omega

theorem bal_emit {f : Nat} {s : Cs} {e} : bal f (s.emit e) = bal f s + weigh f e := by
  unfold Cs.emit
  rw [bal_log]; simp

theorem bal_emitReplies {f : Nat} {s : Cs} {i c r} : bal f (s.emitReplies i c r) = bal f s := by
  unfold Cs.emitReplies
  rw [bal_log]
  have : ∀ l : List Bool, ((l.map fun b => ChEntry.sent i c.peer (.reply b)).map (weigh f)).sum = 0 := by
    intro l
    induction l with
    | nil => rfl
    | cons b l ih => simp only [List.map_cons, List.sum_cons, ih]; rfl
  rw [this]; omega

@[simp] theorem emit_slots {s : Cs} {e} : (s.emit e).slots = s.slots := rfl
@[simp] theorem emit_get {s : Cs} {e i} : (s.emit e).get i = s.get i := rfl
@[simp] theorem emitReplies_slots {s : Cs} {i c r} : (s.emitReplies i c r).slots = s.slots := rfl
@[simp] theorem emitReplies_get {s : Cs} {i c r j} : (s.emitReplies i c r).get j = s.get j := rfl
@[simp] theorem put_length {s : Cs} {i x} : (s.put i x).slots.length = s.slots.length := by simp [Cs.put]

/-- A handler keeps the balance and the table size. -/
def BalOk (f : Nat) (y : Cs × Option ChStop) : Prop := bal f y.1 = 0 ∧ y.1.slots.length = 64

@[simp] theorem waitsFor_none {f} : waitsFor f none = 0 := rfl
@[simp] theorem waitsFor_live {f c} : waitsFor f (some (.live c)) = 0 := by simp [waitsFor]
@[simp] theorem waitsFor_tomb {f c} : waitsFor f (some (.tomb c)) = 0 := by simp [waitsFor]
@[simp] theorem waitsFor_opening {f p w} : waitsFor f (some (.opening p w)) = 0 := by simp [waitsFor]
@[simp] theorem waitsFor_canceled {f g} : waitsFor f (some (.requested g true)) = 0 := by simp [waitsFor]
@[simp] theorem waitsFor_requested {f g} : waitsFor f (some (.requested g false)) = if g = f then 1 else 0 := by simp [waitsFor]
@[simp] theorem waitsFor_mkSlot {f c t} : waitsFor f (some (mkSlot c t)) = 0 := by cases t <;> simp [mkSlot]

theorem bal_handle {f : Nat} {sd} {s : Cs} (hb : bal f s = 0) (hl : s.slots.length = 64) (ev) : BalOk f (s.handle sd ev) := by
  have h0 : ∀ st, BalOk f (s, st) := fun st => ⟨hb, hl⟩
  cases ev with
  | shutdown => exact h0 _
  | recvOpen p w res =>
    show BalOk f (s.handleOpen p w res)
    unfold Cs.handleOpen
    split
    · exact h0 _
    · rename_i i hi
      obtain ⟨h1, h2⟩ := Cs.alloc_spec hi
      have h3 : i < 64 := hl ▸ h1
      cases res <;> refine ⟨?_, ?_⟩ <;>
        simp [Cs.openFailure, bal_put, bal_emit, hl, h3, h2, weigh, hb, Cs.get_put]
  | recvConfirm i p w rw' =>
    show BalOk f (s.handleConfirm i p w rw')
    unfold Cs.handleConfirm
    split
    · rename_i g canceled hg
      have hi := Cs.get_lt hl hg
      cases canceled <;> refine ⟨?_, ?_⟩ <;> simp [bal_put, bal_emit, hl, hi, hg, weigh, hb]
    · exact h0 _
  | recvFailure i =>
    show BalOk f (s.handleFailure i)
    unfold Cs.handleFailure
    split
    · rename_i g canceled hg
      have hi := Cs.get_lt hl hg
      cases canceled <;> refine ⟨?_, ?_⟩ <;> simp [bal_put, bal_emit, hl, hi, hg, weigh, hb]
      split <;> omega
    · exact h0 _
  | recvAdjust i n =>
    show BalOk f (s.handleAdjust i n)
    unfold Cs.handleAdjust
    split
    · exact h0 _
    · split
      · exact h0 _
      · rename_i c t hc
        have hg := Cs.getChannel_some hc
        have hi := Cs.get_lt hl hg
        refine ⟨?_, ?_⟩ <;> simp [bal_put, bal_emit, hl, hi, hg, weigh, hb]
  | recvData i n =>
    show BalOk f (s.handleData i n _)
    unfold Cs.handleData
    split
    · exact h0 _
    · rename_i c t hc
      have hg := Cs.getChannel_some hc
      have hi := Cs.get_lt hl hg
      split
      · exact h0 _
      · refine ⟨?_, ?_⟩ <;> simp [bal_put, bal_emit, hl, hi, hg, weigh, hb]
  | recvExt i n =>
    show BalOk f (s.handleData i n _)
    unfold Cs.handleData
    split
    · exact h0 _
    · rename_i c t hc
      have hg := Cs.getChannel_some hc
      have hi := Cs.get_lt hl hg
      split
      · exact h0 _
      · refine ⟨?_, ?_⟩ <;> simp [bal_put, bal_emit, hl, hi, hg, weigh, hb]
  | recvEof i =>
    show BalOk f (s.handleOther i _)
    unfold Cs.handleOther
    split
    · exact h0 _
    · refine ⟨?_, ?_⟩ <;> simp [bal_emit, hl, weigh, hb]
  | recvReply i ok =>
    show BalOk f (s.handleOther i _)
    unfold Cs.handleOther
    split
    · exact h0 _
    · refine ⟨?_, ?_⟩ <;> simp [bal_emit, hl, weigh, hb]
  | recvClose i =>
    show BalOk f (s.handleClose i)
    unfold Cs.handleClose
    split
    · exact h0 _
    · rename_i c t hc
      have hg := Cs.getChannel_some hc
      have hi := Cs.get_lt hl hg
      cases t <;> refine ⟨?_, ?_⟩ <;> simp [bal_put, bal_emit, hl, hi, hg, weigh, hb]
  | recvRequest i want ans =>
    show BalOk f (s.handleRequest sd i want ans)
    unfold Cs.handleRequest
    split
    · exact h0 _
    · rename_i c t hc
      have hg := Cs.getChannel_some hc
      have hi := Cs.get_lt hl hg
      refine ⟨?_, ?_⟩ <;> simp [bal_put, bal_emit, bal_emitReplies, hl, hi, hg, weigh, hb]
  | openChannel g =>
    show BalOk f (s.openChannel g)
    unfold Cs.openChannel
    split
    · exact h0 _
    · rename_i i hi
      obtain ⟨h1, h2⟩ := Cs.alloc_spec hi
      have h3 : i < 64 := hl ▸ h1
      refine ⟨?_, ?_⟩ <;> simp [bal_put, bal_emit, hl, h3, h2, weigh, hb]
      split <;> omega
  | cancel g =>
    show BalOk f (s.cancel g)
    unfold Cs.cancel
    split
    · rename_i i hi
      rw [List.findIdx?_eq_some_iff_getElem] at hi
      obtain ⟨h1, h2, _⟩ := hi
      have hg : s.get i = some (.requested g false) := by
        unfold Cs.get
        rw [List.getElem?_eq_getElem h1]
        simpa using h2
      have h3 : i < 64 := hl ▸ h1
      refine ⟨?_, ?_⟩ <;> simp [bal_put, bal_emit, hl, h3, hg, weigh, hb]
      split <;> omega
    · exact h0 _
  | asyncOpened i res =>
    show BalOk f (s.asyncOpened i res)
    unfold Cs.asyncOpened
    split
    · rename_i p w hg
      have hi := Cs.get_lt hl hg
      split <;> refine ⟨?_, ?_⟩ <;> simp [Cs.openFailure, bal_put, bal_emit, hl, hi, hg, weigh, hb]
    · exact h0 _
  | complete i id res =>
    show BalOk f (s.complete i id res)
    unfold Cs.complete
    split
    · rename_i c hg
      have hi := Cs.get_lt hl hg
      refine ⟨?_, ?_⟩ <;> simp [bal_put, bal_emitReplies, hl, hi, hg, hb]
    · exact h0 _
  | act i a =>
    show BalOk f (s.act i a)
    unfold Cs.act
    split
    · rename_i c hg
      have hi := Cs.get_lt hl hg
      cases a <;> simp only <;> (try split) <;> first
        | exact h0 _
        | (refine ⟨?_, ?_⟩ <;> simp [bal_put, bal_emit, hl, hi, hg, weigh, hb])
    · exact h0 _

theorem waits_empty {f : Nat} {n} : ((List.replicate n (none : Option Slot)).map (waitsFor f)).sum = 0 := by
  induction n with
  | zero => rfl
  | succ n ih => rw [List.replicate_succ]; simp only [List.map_cons, List.sum_cons, ih, waitsFor_none]; rfl

theorem bal_teardown {f : Nat} {s : Cs} : bal f s.teardown = bal f s := by
  unfold Cs.teardown bal
  simp only [List.map_append, sum_append_int]
  have h1 : ((List.replicate 64 (none : Option Slot)).map (waitsFor f)).sum = 0 := waits_empty
  rw [h1]
  have h2 : ∀ l : List (Option Slot), ((l.filterMap cancelNote).map (weigh f)).sum = (l.map (waitsFor f)).sum := by
    intro l
    induction l with
    | nil => rfl
    | cons x l ih =>
      rw [List.filterMap_cons]
      cases x with
      | none => simpa [cancelNote] using ih
      | some y =>
        cases y with
        | requested g c => cases c <;> simp [ih, weigh, cancelNote]
        | _ => simpa [cancelNote] using ih
  rw [h2]; omega

theorem bal_run {sd} (f : Nat) (evs : List ChEvent) : bal f (CsSys.run sd {} evs).cs = 0 := by
  suffices ∀ y : CsSys, (bal f y.cs = 0 ∧ (y.stop = none → y.cs.slots.length = 64)) → bal f (y.run sd evs).cs = 0 from
    this {} ⟨by
      simp only [bal, waits_empty]; rfl, fun _ => by simp⟩
  induction evs with
  | nil => exact fun y h => h.1
  | cons ev evs ih =>
    intro y h
    refine ih _ ?_
    unfold CsSys.step
    split
    · exact h
    · rename_i hs
      have := bal_handle (sd := sd) h.1 (h.2 hs) ev
      revert this
      generalize y.cs.handle sd ev = z
      obtain ⟨s, st⟩ := z
      intro this
      cases st with
      | none => exact ⟨this.1, fun _ => this.2⟩
      | some st =>
        cases st with
        | ub => exact ⟨this.1, fun _ => this.2⟩
        | closed => exact ⟨by simpa [CsSys.finish, bal_teardown] using this.1, fun _ => by simp [CsSys.finish, Cs.teardown]⟩
        | disconnect => exact ⟨by simpa [CsSys.finish, bal_teardown] using this.1, fun _ => by simp [CsSys.finish, Cs.teardown]⟩

/-- The sum over the record, in the words of the specification. -/
theorem weigh_sum {f : Nat} (log : List ChEntry) :
    (log.map (weigh f)).sum = (outcomes f log).length + drops f log - asks f log := by
  induction log with
  | nil => rfl
  | cons e log ih =>
    simp only [List.map_cons, List.sum_cons, ih, outcomes, drops, asks]
    cases e <;> simp [weigh, List.filterMap_cons, List.countP_cons] <;> split <;> simp_all <;> omega

theorem waits_sum_nonneg {f : Nat} (l : List (Option Slot)) : 0 ≤ (l.map (waitsFor f)).sum := by
  induction l with
  | nil => simp
  | cons x l ih => simp only [List.map_cons, List.sum_cons, waitsFor]; split <;> omega

end Lukko
