import Verif.Model.ChannelSupport
import Verif.Proof.Requests
/-
  Invariant of the channel table.
-/
namespace Lukko
open Model Spec

theorem Model.Cs.get_put {s : Cs} (hl : s.slots.length = 64) {i j x} (hi : i < 64) :
    (s.put i x).get j = if i = j then x else s.get j := by
  unfold Cs.get Cs.put
  simp only [List.getElem?_set]
  split
  · rename_i h; subst h
    rw [if_pos (by omega)]; rfl
  · rfl

theorem Model.Cs.get_lt {s : Cs} (hl : s.slots.length = 64) {i x} (h : s.get i = some x) : i < 64 := by
  unfold Cs.get at h
  cases hx : s.slots[i]? with
  | none => rw [hx] at h; simp at h
  | some y => have := (List.getElem?_eq_some_iff.mp hx).1; omega

theorem Model.Cs.alloc_spec {s : Cs} {i} (h : s.alloc = some i) : i < s.slots.length ∧ s.get i = none := by
  unfold Cs.alloc at h
  rw [List.findIdx?_eq_some_iff_getElem] at h
  obtain ⟨h1, h2, _⟩ := h
  refine ⟨h1, ?_⟩
  unfold Cs.get
  rw [List.getElem?_eq_getElem h1]
  simpa using h2

theorem Model.Cs.alloc_none {s : Cs} (h : s.alloc = none) {i} (hi : i < s.slots.length) : s.get i ≠ none := by
  unfold Cs.alloc at h
  rw [List.findIdx?_eq_none_iff] at h
  unfold Cs.get
  rw [List.getElem?_eq_getElem hi]
  intro h'
  have := h _ (List.getElem_mem hi)
  simp at h'
  rw [h'] at this
  simp at this

@[simp] theorem lifeStep_some {b i e} {l : Life} : lifeStep b i (some l) e = l.next b i e := rfl

theorem life_append (b : Bool) (i : Nat) (a c : List ChEntry) :
    life b i (a ++ c) = c.foldl (lifeStep b i) (life b i a) := by
  unfold life; rw [List.foldl_append]

theorem life_snoc (b : Bool) (i : Nat) (a : List ChEntry) (e : ChEntry) :
    life b i (a ++ [e]) = lifeStep b i (life b i a) e := by
  rw [life_append]; rfl

/-- The life that a slot stands for. -/
def lifeOf : Option Slot → Life
  | none => .free
  | some (.requested _ _) => .requested
  | some (.opening p w) => .opening p w
  | some (.live c) => .opened c.peer c.sendWin
  | some (.tomb c) => .closing c.peer 0

/-- The event concerns no channel number but `i`. -/
def Only (i : Nat) : ChEntry → Prop
  | .recvOpen j _ _ | .sentOpen j _ | .recvConfirm j _ _ | .recv j _ | .sent j _ _ => j = i
  | .told _ _ | .dropped _ => True

instance (i e) : Decidable (Only i e) := by unfold Only; split <;> infer_instance

theorem Only.next {i j : Nat} {e b} {l : Life} (h : Only i e) (hj : i ≠ j) : l.next b j e = some l := by
  cases e <;> simp only [Only] at h <;> (try subst h) <;> simp [Life.next, hj]

/-- Change one slot and note events. -/
def Model.Cs.upd (s : Cs) (i : Nat) (es : List ChEntry) (x : Option Slot) : Cs :=
  { slots := s.slots.set i x, log := s.log ++ es }

structure CsInv (s : Cs) : Prop where
  len : s.slots.length = 64
  life : ∀ i, life true i s.log = some (lifeOf (s.get i))
  tomb : ∀ i c, s.get i = some (.tomb c) → c.reqs.pending = []

theorem foldl_only {i j : Nat} {b} {es : List ChEntry} (h : ∀ e ∈ es, Only i e) (hj : i ≠ j) (l : Life) :
    es.foldl (lifeStep b j) (some l) = some l := by
  induction es with
  | nil => rfl
  | cons e es ih =>
    simp only [List.foldl_cons, lifeStep_some, (h e List.mem_cons_self).next hj]
    exact ih fun e he => h e (List.mem_cons_of_mem _ he)

theorem CsInv.upd {s : Cs} (h : CsInv s) {i es x} (hi : i < 64) (hes : ∀ e ∈ es, Only i e)
    (hl : es.foldl (lifeStep true i) (some (lifeOf (s.get i))) = some (lifeOf x))
    (ht : ∀ c, x = some (.tomb c) → c.reqs.pending = []) : CsInv (s.upd i es x) := by
  have hget : ∀ j, (s.upd i es x).get j = if i = j then x else s.get j := fun j => Cs.get_put h.len hi
  constructor
  · simp only [Cs.upd, List.length_set]; exact h.len
  · intro j
    show Spec.life true j (s.log ++ es) = _
    rw [life_append, h.life, hget]
    by_cases hj : i = j
    · subst hj; rw [if_pos rfl]; exact hl
    · rw [if_neg hj]; exact foldl_only hes hj _
  · intro j c
    rw [hget]
    split
    · exact fun hx => ht c hx
    · exact h.tomb j c

/-- All entries concern the number itself. -/
theorem CsInv.init : CsInv {} :=
  ⟨by simp, fun i => by
    have : Cs.get {} i = none := by
      unfold Cs.get
      simp only [List.getElem?_replicate]
      split <;> rfl
    rw [this]; rfl, fun i c => by
    have : Cs.get {} i = none := by
      unfold Cs.get
      simp only [List.getElem?_replicate]
      split <;> rfl
    rw [this]; simp⟩

/-- A number that is out of range or not in use. -/
theorem Model.Cs.getChannel_some {s : Cs} {i c t} (h : s.getChannel i = some (c, t)) : s.get i = some (mkSlot c t) := by
  unfold Cs.getChannel at h
  split at h
  · simp at h; obtain ⟨rfl, rfl⟩ := h; assumption
  · simp at h; obtain ⟨rfl, rfl⟩ := h; assumption
  · simp at h

/-- Only the request list of a channel changes, and replies are noted. -/
theorem replies_drop {a b c : List Bool} (h : a = b ++ c) : a.drop b.length = c := by
  subst h; simp

/-- A request list only adds to its record. -/
theorem Model.Reqs.submit_log (r : Reqs) : ∃ bs : List Bool, (r.submit).1.log = r.log ++ bs.map .replied := by
  unfold Reqs.submit
  split
  · exact ⟨_, rfl⟩
  · exact ⟨[], by simp⟩

/-- Nothing but CHANNEL_FAILURE is noted after CHANNEL_CLOSE. -/
theorem reqs_empty {sd want} {r : Reqs} (h : r.pending = []) :
    (r.handle sd none want (.done false)).1.pending = [] ∨ (r.handle sd none want (.done false)).2 = some .ub := by
  cases sd <;> cases want <;>
    simp [Reqs.handle, tooMany, Reqs.done, setResult, h, Reqs.submit, submitResponses]

theorem reqs_empty_replies {sd want} {r : Reqs} (h : r.pending = []) :
    (replies (r.handle sd none want (.done false)).1.log).drop (replies r.log).length = if want then [false] else [] := by
  cases sd <;> cases want <;>
    simp [Reqs.handle, tooMany, Reqs.done, setResult, h, Reqs.submit, submitResponses, replies_append, replies]

theorem foldl_replies_opened {i p w} (bs : List Bool) :
    (bs.map fun b => ChEntry.sent i p (.reply b)).foldl (lifeStep true i)
      (some (.opened p w)) = some (.opened p w) := by
  induction bs with
  | nil => rfl
  | cons b bs ih =>
    simp only [List.map_cons, List.foldl_cons]
    have : lifeStep true i (some (Life.opened p w)) (.sent i p (.reply b)) = some (.opened p w) := by
      simp [Life.next, Life.send]
    rw [this]; exact ih

/-- What is noted always obeys the life cycle, also in a stopped connection. -/
def CsSafe (s : Cs) : Prop := ∀ i, ∃ l, life true i s.log = some l

theorem CsInv.safe {s} (h : CsInv s) : CsSafe s := fun i => ⟨_, h.life i⟩

/-- The result of a handler: everything is in order unless it stopped. -/
def CsPost (y : Cs × Option ChStop) : Prop := (y.2 = none → CsInv y.1) ∧ CsSafe y.1 ∧ y.1.slots.length = 64

theorem CsPost.of_inv {s st} (h : CsInv s) : CsPost (s, st) := ⟨fun _ => h, h.safe, h.len⟩

theorem CsInv.put_emit {s : Cs} {i e x} (h : CsInv (s.upd i [e] x)) : CsInv ((s.put i x).emit e) := h
theorem CsInv.emit_put {s : Cs} {i e x} (h : CsInv (s.upd i [e] x)) : CsInv ((s.emit e).put i x) := h

theorem Model.Cs.put_get {s : Cs} (i : Nat) : s.put i (s.get i) = s := by
  unfold Cs.put Cs.get
  have : s.slots.set i (s.slots[i]?).join = s.slots := by
    apply List.ext_getElem?
    intro j
    rw [List.getElem?_set]
    split
    · rename_i h; subst h
      split
      · rename_i hlt
        rw [List.getElem?_eq_getElem hlt]; rfl
      · rename_i hge
        rw [List.getElem?_eq_none (by omega)]
    · rfl
  rw [this]

theorem CsInv.handleOpen {s : Cs} (h : CsInv s) (p w res) : CsPost (s.handleOpen p w res) := by
  unfold Cs.handleOpen
  split
  · exact .of_inv h
  · rename_i i hi
    obtain ⟨h1, h2⟩ := Cs.alloc_spec hi
    have hi' : i < 64 := by have := h.len; omega
    have hop : CsInv (s.upd i [.recvOpen i p w] (some (.opening p w))) :=
      h.upd hi' (by simp [Only]) (by rw [h2]; simp [lifeOf, Life.next]) (by simp)
    have hslots : ∀ x y : Option Slot, (s.slots.set i x).set i y = s.slots.set i y := fun x y => by simp
    have hfail : CsInv ((((s.put i (some (.opening p w))).emit (.recvOpen i p w)).openFailure i p)) := by
      have : CsInv (s.upd i [.recvOpen i p w, .sent i p .failure] none) :=
        h.upd hi' (by simp [Only]) (by rw [h2]; simp [lifeOf, Life.next, Life.send]) (by simp)
      have heq : ((s.put i (some (.opening p w))).emit (.recvOpen i p w)).openFailure i p =
          s.upd i [.recvOpen i p w, .sent i p .failure] none := by
        simp [Cs.openFailure, Cs.put, Cs.emit, Cs.upd, hslots]
      rw [heq]; exact this
    cases res with
    | made rw' =>
      have : CsInv (s.upd i [.recvOpen i p w, .sent i p .confirm] (some (.live ⟨p, rw', w, {}⟩))) :=
        h.upd hi' (by simp [Only]) (by rw [h2]; simp [lifeOf, Life.next, Life.send]) (by simp)
      have heq : (((s.put i (some (.opening p w))).emit (.recvOpen i p w)).emit (.sent i p .confirm)).put i
          (some (.live ⟨p, rw', w, {}⟩)) = s.upd i [.recvOpen i p w, .sent i p .confirm] (some (.live ⟨p, rw', w, {}⟩)) := by
        simp [Cs.put, Cs.emit, Cs.upd, hslots]
      refine .of_inv ?_
      rw [heq]; exact this
    | refused => exact .of_inv hfail
    | failedNow => exact .of_inv hfail
    | throws d => exact .of_inv hop
    | pending => exact .of_inv hop

theorem CsInv.asyncOpened {s : Cs} (h : CsInv s) (i res) : CsPost (s.asyncOpened i res) := by
  unfold Cs.asyncOpened
  split
  · rename_i p w hg
    have hi := Cs.get_lt h.len hg
    split
    · exact .of_inv (.emit_put (h.upd hi (by simp [Only]) (by rw [hg]; simp [lifeOf, Life.next, Life.send]) (by simp)))
    · exact .of_inv (.put_emit (h.upd hi (by simp [Only]) (by rw [hg]; simp [lifeOf, Life.next, Life.send]) (by simp)))
  · exact .of_inv h

theorem CsInv.openChannel {s : Cs} (h : CsInv s) (f) : CsPost (s.openChannel f) := by
  unfold Cs.openChannel
  split
  · exact .of_inv h
  · rename_i i hi
    obtain ⟨h1, h2⟩ := Cs.alloc_spec hi
    exact .of_inv (.emit_put (h.upd (by have := h.len; omega) (by simp [Only]) (by rw [h2]; simp [lifeOf, Life.next]) (by simp)))

theorem CsInv.cancel {s : Cs} (h : CsInv s) (f) : CsPost (s.cancel f) := by
  unfold Cs.cancel
  split
  · rename_i i hi
    rw [List.findIdx?_eq_some_iff_getElem] at hi
    obtain ⟨h1, h2, _⟩ := hi
    have hg : s.get i = some (.requested f false) := by
      unfold Cs.get
      rw [List.getElem?_eq_getElem h1]
      simpa using h2
    exact .of_inv (.put_emit (h.upd (by have := h.len; omega) (by simp [Only]) (by rw [hg]; simp [lifeOf, Life.next]) (by simp)))
  · exact .of_inv h

theorem CsInv.handleConfirm {s : Cs} (h : CsInv s) (i p w rw') : CsPost (s.handleConfirm i p w rw') := by
  unfold Cs.handleConfirm
  split
  · rename_i f canceled hg
    have hi := Cs.get_lt h.len hg
    cases canceled with
    | true =>
      have : CsInv (s.upd i [.recvConfirm i p w, .sent i p .close] (some (.tomb ⟨p, w, w, {}⟩))) :=
        h.upd hi (by simp [Only]) (by rw [hg]; simp [lifeOf, Life.next, Life.send]) (by simp)
      refine .of_inv ?_
      simpa [Cs.upd, Cs.put, Cs.emit] using this
    | false =>
      have : CsInv (s.upd i [.recvConfirm i p w, .told f .created] (some (.live ⟨p, rw', w, {}⟩))) :=
        h.upd hi (by simp [Only]) (by rw [hg]; simp [lifeOf, Life.next]) (by simp)
      refine .of_inv ?_
      simpa [Cs.upd, Cs.put, Cs.emit] using this
  · exact .of_inv h

theorem CsInv.handleFailure {s : Cs} (h : CsInv s) (i) : CsPost (s.handleFailure i) := by
  unfold Cs.handleFailure
  split
  · rename_i f canceled hg
    have hi := Cs.get_lt h.len hg
    have hinv : CsInv (s.upd i [.recv i .failure] none) :=
      h.upd hi (by simp [Only]) (by rw [hg]; simp [lifeOf, Life.next, Life.receive]) (by simp)
    cases canceled with
    | true => exact .of_inv hinv
    | false =>
      refine .of_inv (?_ : CsInv _)
      have : CsInv (s.upd i [.recv i .failure, .told f .cancelled] none) :=
        h.upd hi (by simp [Only]) (by rw [hg]; simp [lifeOf, Life.next, Life.receive]) (by simp)
      simpa [Cs.upd, Cs.put, Cs.emit] using this
  · exact .of_inv h

theorem CsInv.tomb' {s : Cs} (h : CsInv s) {i c} (hg : s.get i = some (mkSlot c true)) : c.reqs.pending = [] :=
  h.tomb i c hg

theorem CsInv.handleAdjust {s : Cs} (h : CsInv s) (i n) : CsPost (s.handleAdjust i n) := by
  unfold Cs.handleAdjust
  split
  · exact .of_inv h
  · split
    · exact .of_inv h
    · rename_i c t hc
      have hg := Cs.getChannel_some hc
      refine .of_inv (.emit_put (h.upd (Cs.get_lt h.len hg) (by simp [Only]) ?_ ?_))
      · rw [hg]; cases t <;> simp [lifeOf, mkSlot, Life.next, Life.receive]
      · intro c' hc'
        cases t
        · simp [mkSlot] at hc'
        · simp [mkSlot] at hc'; subst hc'; exact (h.tomb' hg : c.reqs.pending = [])

theorem CsInv.handleData {s : Cs} (h : CsInv s) (i n m) (hm : m = .data n ∨ m = .ext n) : CsPost (s.handleData i n m) := by
  unfold Cs.handleData
  split
  · exact .of_inv h
  · rename_i c t hc
    have hg := Cs.getChannel_some hc
    split
    · exact .of_inv h
    · refine .of_inv (.emit_put (h.upd (Cs.get_lt h.len hg) (by simp [Only]) ?_ ?_))
      · rw [hg]; generalize (m == ChMsg.ext n) = bb
        rcases hm with rfl | rfl <;> cases t <;> cases bb <;> simp [lifeOf, mkSlot, Life.next, Life.receive]
      · intro c' hc'
        cases t
        · simp [mkSlot] at hc'
        · simp [mkSlot] at hc'; subst hc'; exact (h.tomb' hg : c.reqs.pending = [])

theorem CsInv.handleOther {s : Cs} (h : CsInv s) (i m) (hm : m = .eof ∨ ∃ b, m = .reply b) : CsPost (s.handleOther i m) := by
  unfold Cs.handleOther
  split
  · exact .of_inv h
  · rename_i ct hc
    obtain ⟨c, t⟩ := ct
    have hg := Cs.getChannel_some hc
    have : CsInv (s.upd i [.recv i m] (s.get i)) := by
      refine h.upd (Cs.get_lt h.len hg) (by simp [Only]) ?_ (fun c hc => h.tomb i c hc)
      rw [hg]; rcases hm with rfl | ⟨b, rfl⟩ <;> cases t <;> simp [lifeOf, mkSlot, Life.next, Life.receive]
    refine .of_inv ?_
    have heq : s.upd i [.recv i m] (s.get i) = s.emit (.recv i m) := by
      show (s.put i (s.get i)).emit _ = _
      rw [Cs.put_get]
    rw [← heq]; exact this

theorem CsInv.handleClose {s : Cs} (h : CsInv s) (i) : CsPost (s.handleClose i) := by
  unfold Cs.handleClose
  split
  · exact .of_inv h
  · rename_i c t hc
    have hg := Cs.getChannel_some hc
    have hi := Cs.get_lt h.len hg
    cases t with
    | true =>
      exact .of_inv (.emit_put (h.upd hi (by simp [Only]) (by rw [hg]; simp [lifeOf, mkSlot, Life.next, Life.receive]) (by simp)))
    | false =>
      have : CsInv (s.upd i [.recv i .close, .sent i c.peer .close] none) :=
        h.upd hi (by simp [Only]) (by rw [hg]; simp [lifeOf, mkSlot, Life.next, Life.receive, Life.send]) (by simp)
      refine .of_inv ?_
      simpa [Cs.upd, Cs.put, Cs.emit] using this

theorem only_replies {i p : Nat} (bs : List Bool) : ∀ e ∈ bs.map fun b => ChEntry.sent i p (.reply b), Only i e := by
  intro e he
  obtain ⟨b, _, rfl⟩ := List.mem_map.mp he
  rfl

theorem CsInv.handleRequest {sd} {s : Cs} (h : CsInv s) (i want ans) : CsPost (s.handleRequest sd i want ans) := by
  unfold Cs.handleRequest
  split
  · exact .of_inv h
  · rename_i c t hc
    have hg := Cs.getChannel_some hc
    have hi := Cs.get_lt h.len hg
    generalize hr : c.reqs.handle sd none want (bif t then .done false else ans) = y
    obtain ⟨r, stop⟩ := y
    simp only
    generalize hbs : (replies r.log).drop (replies c.reqs.log).length = bs
    have heq : ((s.emit (.recv i (.request want))).emitReplies i c r).put i (some (mkSlot { c with reqs := r } t)) =
        s.upd i (.recv i (.request want) :: bs.map fun b => .sent i c.peer (.reply b)) (some (mkSlot { c with reqs := r } t)) := by
      unfold Cs.emitReplies; rw [hbs]; simp [Cs.upd, Cs.put, Cs.emit]
    rw [heq]
    have hlife : (.recv i (.request want) :: bs.map fun b => ChEntry.sent i c.peer (.reply b)).foldl
        (lifeStep true i) (some (lifeOf (s.get i))) =
        some (lifeOf (some (mkSlot { c with reqs := r } t))) := by
      rw [hg]
      simp only [List.foldl_cons]
      cases t with
      | false =>
        have : lifeStep true i (some (lifeOf (some (mkSlot c false)))) (.recv i (.request want)) =
            some (.opened c.peer c.sendWin) := by simp [lifeOf, mkSlot, Life.next, Life.receive]
        rw [this]; exact foldl_replies_opened bs
      | true =>
        have := reqs_empty_replies (sd := sd) (want := want) (h.tomb' hg)
        simp only [cond_true] at hr
        rw [hr, hbs] at this
        rw [this]
        cases want <;> simp [lifeOf, mkSlot, Life.next, Life.receive, Life.send]
    have hupd : ∀ (x : Option Slot), lifeOf x = lifeOf (some (mkSlot { c with reqs := r } t)) →
        (∀ c, x = some (.tomb c) → c.reqs.pending = []) →
        CsInv (s.upd i (.recv i (.request want) :: bs.map fun b => .sent i c.peer (.reply b)) x) := by
      intro x hx hx'
      refine h.upd hi ?_ (by rw [hlife, hx]) hx'
      intro e he
      rcases List.mem_cons.mp he with rfl | he
      · rfl
      · exact only_replies bs e he
    refine ⟨?_, ?_, ?_⟩
    · intro hst
      refine hupd _ rfl ?_
      intro c' hc'
      cases t with
      | false => simp [mkSlot] at hc'
      | true =>
        simp [mkSlot] at hc'; subst hc'
        have := reqs_empty (sd := sd) (want := want) (h.tomb' hg)
        simp only [cond_true] at hr
        rw [hr] at this
        rcases this with h1 | h1
        · exact h1
        · simp only at h1; subst h1; simp at hst
    · -- the record does not depend on the slots
      have hx := hupd (some (mkSlot { c with reqs := {} } t)) (by cases t <;> rfl)
        (by intro c' hc'; cases t <;> simp [mkSlot] at hc'; subst hc'; rfl)
      exact fun j => ⟨_, hx.life j⟩
    · simp only [Cs.upd, List.length_set]; exact h.len

theorem CsInv.complete {s : Cs} (h : CsInv s) (i id res) : CsPost (s.complete i id res) := by
  unfold Cs.complete
  split
  · rename_i c hg
    have hi := Cs.get_lt h.len hg
    generalize hr : c.reqs.complete id res = y
    obtain ⟨r, stop⟩ := y
    simp only
    generalize hbs : (replies r.log).drop (replies c.reqs.log).length = bs
    have heq : (s.emitReplies i c r).put i (some (.live { c with reqs := r })) =
        s.upd i (bs.map fun b => .sent i c.peer (.reply b)) (some (.live { c with reqs := r })) := by
      unfold Cs.emitReplies; rw [hbs]; simp [Cs.upd, Cs.put]
    rw [heq]
    refine .of_inv (h.upd hi (only_replies bs) ?_ (by simp))
    rw [hg]; exact foldl_replies_opened bs
  · exact .of_inv h

theorem CsInv.act {s : Cs} (h : CsInv s) (i a) : CsPost (s.act i a) := by
  unfold Cs.act
  split
  · rename_i c hg
    have hi := Cs.get_lt h.len hg
    have hemit : ∀ m, m = .eof ∨ m = .request false → CsInv (s.emit (.sent i c.peer m)) := by
      intro m hm
      have : CsInv (s.upd i [.sent i c.peer m] (s.get i)) := by
        refine h.upd hi (by simp [Only]) ?_ (fun c hc => h.tomb i c hc)
        rw [hg]; rcases hm with rfl | rfl <;> simp [lifeOf, Life.next, Life.send]
      have heq : s.upd i [.sent i c.peer m] (s.get i) = s.emit (.sent i c.peer m) := by
        show (s.put i (s.get i)).emit _ = _
        rw [Cs.put_get]
      rw [← heq]; exact this
    cases a with
    | data n =>
      simp only
      split
      · rename_i hn
        exact .of_inv (.emit_put (h.upd hi (by simp [Only]) (by rw [hg]; simp [lifeOf, Life.next, Life.send, hn]) (by simp)))
      · exact .of_inv h
    | ext n =>
      simp only
      split
      · rename_i hn
        exact .of_inv (.emit_put (h.upd hi (by simp [Only]) (by rw [hg]; simp [lifeOf, Life.next, Life.send, hn]) (by simp)))
      · exact .of_inv h
    | eof => exact .of_inv (hemit _ (.inl rfl))
    | request => exact .of_inv (hemit _ (.inr rfl))
    | consume n =>
      simp only
      split
      · have : CsInv (s.upd i [] (some (.live { c with recvWin := c.recvWin - n }))) :=
          h.upd hi (by simp) (by rw [hg]; simp [lifeOf]) (by simp)
        refine .of_inv ?_
        simpa [Cs.upd, Cs.put] using this
      · exact .of_inv h
    | adjust n =>
      simp only
      split
      · exact .of_inv h
      · exact .of_inv (.emit_put (h.upd hi (by simp [Only]) (by rw [hg]; simp [lifeOf, Life.next, Life.send]) (by simp)))
    | close =>
      exact .of_inv (.emit_put (h.upd hi (by simp [Only]) (by rw [hg]; simp [lifeOf, Life.next, Life.send]) (by simp)))
  · exact .of_inv h

theorem CsInv.handle {sd} {s : Cs} (h : CsInv s) (ev) : CsPost (s.handle sd ev) := by
  cases ev with
  | recvOpen p w res => exact h.handleOpen p w res
  | recvConfirm i p w rw' => exact h.handleConfirm i p w rw'
  | recvFailure i => exact h.handleFailure i
  | recvAdjust i n => exact h.handleAdjust i n
  | recvData i n => exact h.handleData i n _ (.inl rfl)
  | recvExt i n => exact h.handleData i n _ (.inr rfl)
  | recvEof i => exact h.handleOther i _ (.inl rfl)
  | recvClose i => exact h.handleClose i
  | recvRequest i want ans => exact h.handleRequest i want ans
  | recvReply i ok => exact h.handleOther i _ (.inr ⟨ok, rfl⟩)
  | openChannel f => exact h.openChannel f
  | cancel f => exact h.cancel f
  | asyncOpened i res => exact h.asyncOpened i res
  | complete i id res => exact h.complete i id res
  | act i a => exact h.act i a
  | shutdown => exact .of_inv h

theorem CsSafe.teardown {s : Cs} (h : CsSafe s) : CsSafe s.teardown := by
  intro i
  obtain ⟨l, hl⟩ := h i
  refine ⟨l, ?_⟩
  unfold Cs.teardown
  simp only
  rw [life_append, hl]
  suffices ∀ es : List ChEntry, (∀ e ∈ es, ∃ f o, e = .told f o) →
      es.foldl (lifeStep true i) (some l) = some l from by
    apply this
    intro e he
    obtain ⟨x, _, hx⟩ := List.mem_filterMap.mp he
    unfold cancelNote at hx
    split at hx
    · simp at hx; exact ⟨_, _, hx.symm⟩
    · simp at hx
  intro es hes
  induction es with
  | nil => rfl
  | cons e es ih =>
    obtain ⟨f, o, rfl⟩ := hes e List.mem_cons_self
    exact ih fun e he => hes e (List.mem_cons_of_mem _ he)

/-- The whole connection. -/
def CsSysInv (y : CsSys) : Prop := (y.stop = none → CsInv y.cs) ∧ CsSafe y.cs

theorem CsSysInv.finish {z} (h : CsPost z) : CsSysInv (CsSys.finish z) := by
  obtain ⟨s, stop⟩ := z
  cases stop with
  | none => exact ⟨h.1, h.2.1⟩
  | some st => cases st <;> first | exact ⟨by simp [CsSys.finish], h.2.1⟩ | exact ⟨by simp [CsSys.finish], h.2.1.teardown⟩

theorem CsSysInv.step {sd y} (h : CsSysInv y) (ev) : CsSysInv (y.step sd ev) := by
  unfold CsSys.step
  split
  · exact h
  · rename_i hs
    exact CsSysInv.finish ((h.1 hs).handle ev)

theorem CsSysInv.run {sd y} (h : CsSysInv y) (evs) : CsSysInv (y.run sd evs) := by
  induction evs generalizing y with
  | nil => exact h
  | cons ev evs ih => exact ih (h.step ev)

theorem cs_run (sd : Bool) (evs : List ChEvent) : CsSysInv (CsSys.run sd {} evs) :=
  CsSysInv.run ⟨fun _ => CsInv.init, CsInv.init.safe⟩ evs

end Lukko
