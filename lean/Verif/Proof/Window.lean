import Verif.Proof.ChannelSupport
import Verif.Spec.Window
import Verif.Proof.Lists
/-
  The receive windows of the channel table are what the accounts say.
-/
namespace Lukko
open Model Spec

/-- What a step adds to the trace. -/
def Model.CsSys.added (sd : Bool) (y : CsSys) (ev : ChEvent) : List WinEntry :=
  ((y.step sd ev).cs.log.drop y.cs.log.length).map .entry ++
    (match ev with
     | .act i (.consume n) =>
       match y.cs.get i with
       | some (.live _) => [.consumed i n]
       | _ => []
     | _ => [])

/-- Everything that was observed, and what components consumed. -/
def Model.CsSys.trace (sd : Bool) (y : CsSys) : List ChEvent → List WinEntry
  | [] => []
  | ev :: evs => y.added sd ev ++ (y.step sd ev).trace sd evs

/-- All channels have the same receive window at the beginning. -/
def Model.ChEvent.window (W : Nat) : ChEvent → Bool
  | .recvOpen _ _ (.made rw) => rw == W
  | .recvConfirm _ _ _ rw => rw == W
  | .asyncOpened _ (some rw) => rw == W
  | _ => true

/-- No request for a channel is cancelled, or the peer always grants as much as we do. -/
def Uncancelled (W : Nat) (evs : List ChEvent) : Prop :=
  (∀ f, .cancel f ∉ evs) ∨ (∀ i p w rw, .recvConfirm i p w rw ∈ evs → w = W)

theorem Model.CsSys.run_snoc' {sd} {y : CsSys} {evs ev} : y.run sd (evs ++ [ev]) = (y.run sd evs).step sd ev := by
  simp [CsSys.run]

theorem Model.CsSys.trace_snoc {sd} : ∀ {evs} {y : CsSys} {ev}, y.trace sd (evs ++ [ev]) = y.trace sd evs ++ (y.run sd evs).added sd ev
  | [], y, ev => by simp [CsSys.trace, CsSys.run]
  | e :: evs, y, ev => by
    have := CsSys.trace_snoc (sd := sd) (evs := evs) (y := y.step sd e) (ev := ev)
    simp only [List.cons_append, CsSys.trace, this, List.append_assoc]
    rfl

theorem account_append {W i a b} : account W i (a ++ b) = b.foldl (WinAcct.next W i) (account W i a) := by
  simp [account]

/-- What a slot says about its account. -/
def SlotAcct (W : Nat) (nc : Prop) (a : WinAcct) : Option Slot → Prop
  | none => True
  | some (.requested _ canceled) => a = { granted := W } ∧ (canceled = true → nc)
  | some (.opening _ _) => a = { granted := W }
  | some (.live c) => c.recvWin + a.used + a.ext = a.granted ∧ a.late = 0 ∧ a.closed = false
  | some (.tomb c) => c.recvWin + a.used + a.ext + a.late = a.granted ∧ a.closed = true

def WinInv (W : Nat) (nc : Prop) (s : Cs) (tr : List WinEntry) : Prop :=
  s.slots.length = 64 ∧ ∀ i, SlotAcct W nc (account W i tr) (s.get i)

def OnlyW (i : Nat) : WinEntry → Prop
  | .entry e => Only i e
  | .consumed j _ => j = i

instance (i e) : Decidable (OnlyW i e) := by unfold OnlyW; split <;> infer_instance

theorem OnlyW.next {W i j : Nat} {e} {a : WinAcct} (h : OnlyW i e) (hj : i ≠ j) : a.next W j e = a := by
  cases e with
  | consumed k n => simp only [OnlyW] at h; subst h; simp [WinAcct.next, hj]
  | entry e => cases e <;> simp only [OnlyW, Only] at h <;> (try subst h) <;> simp [WinAcct.next, hj]

theorem foldl_onlyW {W i j : Nat} {es : List WinEntry} (h : ∀ e ∈ es, OnlyW i e) (hj : i ≠ j) (a : WinAcct) :
    es.foldl (WinAcct.next W j) a = a := by
  induction es with
  | nil => rfl
  | cons e es ih =>
    simp only [List.foldl_cons, (h e List.mem_cons_self).next hj]
    exact ih fun e he => h e (List.mem_cons_of_mem _ he)

/-- Change one slot. -/
theorem WinInv.upd {W nc} {s s' : Cs} {tr es i x} (h : WinInv W nc s tr) (hi : i < 64) (hs : s'.slots = s.slots.set i x)
    (hes : ∀ e ∈ es, OnlyW i e) (hx : SlotAcct W nc (es.foldl (WinAcct.next W i) (account W i tr)) x) :
    WinInv W nc s' (tr ++ es) := by
  have hg : ∀ j, s'.get j = (s.put i x).get j := fun j => by simp only [Cs.get, Cs.put, hs]
  refine ⟨by rw [hs, List.length_set]; exact h.1, fun j => ?_⟩
  rw [hg, Cs.get_put h.1 hi, account_append]
  by_cases hj : i = j
  · subst hj; rw [if_pos rfl]; exact hx
  · rw [if_neg hj, foldl_onlyW hes hj]; exact h.2 j

/-- No slot changes. -/
theorem WinInv.same {W nc} {s s' : Cs} {tr es i} (h : WinInv W nc s tr) (hs : s'.slots = s.slots)
    (hes : ∀ e ∈ es, OnlyW i e) (hx : SlotAcct W nc (es.foldl (WinAcct.next W i) (account W i tr)) (s.get i)) :
    WinInv W nc s' (tr ++ es) := by
  refine ⟨by rw [hs]; exact h.1, fun j => ?_⟩
  have hg : s'.get j = s.get j := by simp only [Cs.get, hs]
  rw [hg, account_append]
  by_cases hj : i = j
  · subst hj; exact hx
  · rw [foldl_onlyW hes hj]; exact h.2 j

/-- What a handler leaves. -/
def WinPost (W : Nat) (nc : Prop) (s : Cs) (tr extra : List WinEntry) (y : Cs × Option ChStop) : Prop :=
  y.2 = none → ∃ es, y.1.log = s.log ++ es ∧ WinInv W nc y.1 (tr ++ (es.map .entry ++ extra))

theorem WinPost.stop {W nc s tr x s' st} : WinPost W nc s tr x (s', some st) := fun h => by cases h

theorem WinPost.refl {W nc} {s : Cs} {tr} (h : WinInv W nc s tr) : WinPost W nc s tr [] (s, none) :=
  fun _ => ⟨[], by simp, by simpa using h⟩

theorem WinPost.upd {W nc} {s s' : Cs} {tr i} {es : List ChEntry} {x st} (h : WinInv W nc s tr) (hi : i < 64)
    (hl : s'.log = s.log ++ es) (hs : s'.slots = s.slots.set i x)
    (hes : ∀ e ∈ es, Only i e) (hx : SlotAcct W nc ((es.map WinEntry.entry).foldl (WinAcct.next W i) (account W i tr)) x) :
    WinPost W nc s tr [] (s', st) := by
  intro _
  refine ⟨es, hl, ?_⟩
  rw [List.append_nil]
  refine h.upd hi hs ?_ hx
  intro e he
  obtain ⟨e', he', rfl⟩ := List.mem_map.mp he
  exact hes e' he'

theorem foldl_replies_acct {W i p a} (bs : List Bool) :
    ((bs.map fun b => ChEntry.sent i p (.reply b)).map WinEntry.entry).foldl (WinAcct.next W i) a = a := by
  induction bs with
  | nil => rfl
  | cons b bs ih =>
    simp only [List.map_cons, List.foldl_cons]
    have : WinAcct.next W i a (.entry (.sent i p (.reply b))) = a := by simp [WinAcct.next, WinAcct.send]
    rw [this]; exact ih

theorem slotAcct_reqs {W nc a c t r} (h : SlotAcct W nc a (some (mkSlot c t))) :
    SlotAcct W nc a (some (mkSlot { c with reqs := r } t)) := by
  cases t <;> exact h

variable {W : Nat} {nc : Prop} {s : Cs} {tr : List WinEntry}

theorem win_open (h : WinInv W nc s tr) {p w res} (hw : (ChEvent.recvOpen p w res).window W = true) :
    WinPost W nc s tr [] (s.handleOpen p w res) := by
  unfold Cs.handleOpen
  split
  · exact .stop
  · rename_i i hi
    obtain ⟨h1, h2⟩ := Cs.alloc_spec hi
    have hi' : i < 64 := by have := h.1; omega
    cases res with
    | made rw' =>
      have hw' : rw' = W := by simpa [ChEvent.window] using hw
      refine .upd (i := i) (es := [.recvOpen i p w, .sent i p .confirm]) (x := some (.live ⟨p, rw', w, {}⟩)) h hi' ?_ ?_ (by simp [Only]) ?_
      · simp [Cs.put, Cs.emit]
      · simp [Cs.put, Cs.emit]
      · simp [SlotAcct, WinAcct.next, WinAcct.send, hw']
    | refused =>
      refine .upd (i := i) (es := [.recvOpen i p w, .sent i p .failure]) (x := none) h hi' ?_ ?_ (by simp [Only]) trivial
      · simp [Cs.put, Cs.emit, Cs.openFailure]
      · simp [Cs.put, Cs.emit, Cs.openFailure]
    | failedNow =>
      refine .upd (i := i) (es := [.recvOpen i p w, .sent i p .failure]) (x := none) h hi' ?_ ?_ (by simp [Only]) trivial
      · simp [Cs.put, Cs.emit, Cs.openFailure]
      · simp [Cs.put, Cs.emit, Cs.openFailure]
    | throws d => exact .stop
    | pending =>
      refine .upd (i := i) (es := [.recvOpen i p w]) (x := some (.opening p w)) h hi' rfl rfl (by simp [Only]) ?_
      simp [SlotAcct, WinAcct.next]

theorem win_async (h : WinInv W nc s tr) {i res} (hw : (ChEvent.asyncOpened i res).window W = true) :
    WinPost W nc s tr [] (s.asyncOpened i res) := by
  unfold Cs.asyncOpened
  split
  · rename_i p w hg
    have hi := Cs.get_lt h.1 hg
    have ha := h.2 i
    rw [hg] at ha
    simp only [SlotAcct] at ha
    split
    · rename_i rw'
      have hw' : rw' = W := by simpa [ChEvent.window] using hw
      refine .upd (i := i) (es := [.sent i p .confirm]) (x := some (.live ⟨p, rw', w, {}⟩)) h hi rfl rfl (by simp [Only]) ?_
      simp [SlotAcct, WinAcct.next, WinAcct.send, hw', ha]
    · exact .upd (i := i) (es := [.sent i p .failure]) (x := none) h hi rfl rfl (by simp [Only]) trivial
  · exact .refl h

theorem win_openChannel (h : WinInv W nc s tr) {f} : WinPost W nc s tr [] (s.openChannel f) := by
  unfold Cs.openChannel
  split
  · exact .refl h
  · rename_i i hi
    obtain ⟨h1, h2⟩ := Cs.alloc_spec hi
    refine .upd (i := i) (es := [.sentOpen i f]) (x := some (.requested f false)) h (by have := h.1; omega) rfl rfl (by simp [Only]) ?_
    simp [SlotAcct, WinAcct.next]

theorem win_cancel (h : WinInv W nc s tr) {f} (hn : nc) : WinPost W nc s tr [] (s.cancel f) := by
  unfold Cs.cancel
  split
  · rename_i i hi
    rw [List.findIdx?_eq_some_iff_getElem] at hi
    obtain ⟨h1, h2, _⟩ := hi
    have hg : s.get i = some (.requested f false) := by
      unfold Cs.get
      rw [List.getElem?_eq_getElem h1]
      simpa using h2
    have ha := h.2 i
    rw [hg] at ha
    simp only [SlotAcct] at ha
    refine .upd (i := i) (es := [.dropped f]) (x := some (.requested f true)) h (by have := h.1; omega) rfl rfl (by simp [Only]) ?_
    simp [SlotAcct, WinAcct.next, ha, hn]
  · exact .refl h

theorem win_confirm (h : WinInv W nc s tr) {i p w rw'} (hw : rw' = W) (hn : nc → w = W) :
    WinPost W nc s tr [] (s.handleConfirm i p w rw') := by
  unfold Cs.handleConfirm
  split
  · rename_i f canceled hg
    have hi := Cs.get_lt h.1 hg
    have ha := h.2 i
    rw [hg] at ha
    simp only [SlotAcct] at ha
    cases canceled with
    | true =>
      have hww := hn (ha.2 rfl)
      refine .upd (i := i) (es := [.recvConfirm i p w, .sent i p .close]) (x := some (.tomb ⟨p, w, w, {}⟩)) h hi ?_ rfl (by simp [Only]) ?_
      · simp [Cs.put, Cs.emit]
      · simp [SlotAcct, WinAcct.next, WinAcct.send, ha.1, hww]
    | false =>
      refine .upd (i := i) (es := [.recvConfirm i p w, .told f .created]) (x := some (.live ⟨p, rw', w, {}⟩)) h hi ?_ rfl (by simp [Only]) ?_
      · simp [Cs.put, Cs.emit]
      · simp [SlotAcct, WinAcct.next, ha.1, hw]
  · exact .stop

theorem win_failure (h : WinInv W nc s tr) {i} : WinPost W nc s tr [] (s.handleFailure i) := by
  unfold Cs.handleFailure
  split
  · rename_i f canceled hg
    have hi := Cs.get_lt h.1 hg
    cases canceled with
    | true => exact .upd (i := i) (es := [.recv i .failure]) (x := none) h hi rfl rfl (by simp [Only]) trivial
    | false => exact .stop
  · exact .stop

theorem win_adjust (h : WinInv W nc s tr) {i n} : WinPost W nc s tr [] (s.handleAdjust i n) := by
  unfold Cs.handleAdjust
  split
  · exact .stop
  · split
    · exact .stop
    · rename_i c t hc
      have hg := Cs.getChannel_some hc
      have ha := h.2 i
      rw [hg] at ha
      refine .upd (i := i) (es := [.recv i (.adjust n)]) (x := some (mkSlot { c with sendWin := c.sendWin + n } t)) h (Cs.get_lt h.1 hg) rfl rfl (by simp [Only]) ?_
      have : WinAcct.next W i (account W i tr) (.entry (.recv i (.adjust n))) = account W i tr := by simp [WinAcct.next, WinAcct.receive]
      simp only [List.map_cons, List.map_nil, List.foldl_cons, List.foldl_nil, this]
      cases t <;> exact ha

/-- The window of a channel is what is left of what we granted. -/
theorem WinInv.left (h : WinInv W nc s tr) {i c t} (hc : s.getChannel i = some (c, t)) :
    c.recvWin + (account W i tr).gone = (account W i tr).granted := by
  have hg := Cs.getChannel_some hc
  have ha := h.2 i
  rw [hg] at ha
  unfold WinAcct.gone
  cases t <;> simp only [mkSlot, cond_true, cond_false, SlotAcct] at ha <;> omega

theorem win_data (h : WinInv W nc s tr) {i n} : WinPost W nc s tr [] (s.handleData i n (.data n)) := by
  unfold Cs.handleData
  split
  · exact .stop
  · rename_i c t hc
    have hg := Cs.getChannel_some hc
    have ha := h.2 i
    rw [hg] at ha
    split
    · exact .stop
    · rename_i hle
      have hm : (ChMsg.data n == ChMsg.ext n) = false := by simp
      rw [hm]
      refine .upd (i := i) (es := [.recv i (.data n)]) h (Cs.get_lt h.1 hg) rfl rfl (by simp [Only]) ?_
      cases t with
      | true =>
        simp only [mkSlot, cond_true, SlotAcct] at ha
        simp [mkSlot, SlotAcct, WinAcct.next, WinAcct.receive, ha.2]
        omega
      | false =>
        simp only [mkSlot, cond_false, SlotAcct] at ha
        simp [mkSlot, SlotAcct, WinAcct.next, WinAcct.receive, ha.2.2, ha.2.1, ha.1]

theorem win_ext (h : WinInv W nc s tr) {i n} : WinPost W nc s tr [] (s.handleData i n (.ext n)) := by
  unfold Cs.handleData
  split
  · exact .stop
  · rename_i c t hc
    have hg := Cs.getChannel_some hc
    have ha := h.2 i
    rw [hg] at ha
    split
    · exact .stop
    · rename_i hle
      have hm : (t || (ChMsg.ext n == ChMsg.ext n)) = true := by simp
      rw [hm]
      refine .upd (i := i) (es := [.recv i (.ext n)]) h (Cs.get_lt h.1 hg) rfl rfl (by simp [Only]) ?_
      cases t with
      | true =>
        simp only [mkSlot, cond_true, SlotAcct] at ha
        simp [mkSlot, SlotAcct, WinAcct.next, WinAcct.receive, ha.2]
        omega
      | false =>
        simp only [mkSlot, cond_false, SlotAcct] at ha
        simp [mkSlot, SlotAcct, WinAcct.next, WinAcct.receive, ha.2.2, ha.2.1]
        omega

theorem win_other (h : WinInv W nc s tr) {i m} (hm : m = .eof ∨ ∃ b, m = .reply b) : WinPost W nc s tr [] (s.handleOther i m) := by
  unfold Cs.handleOther
  split
  · exact .stop
  · rename_i ct hc
    obtain ⟨c, t⟩ := ct
    have hg := Cs.getChannel_some hc
    intro _
    refine ⟨[.recv i m], rfl, ?_⟩
    rw [List.append_nil]
    refine h.same (i := i) rfl (by simp [OnlyW, Only]) ?_
    have : WinAcct.next W i (account W i tr) (.entry (.recv i m)) = account W i tr := by
      rcases hm with rfl | ⟨b, rfl⟩ <;> simp [WinAcct.next, WinAcct.receive]
    simp only [List.map_cons, List.map_nil, List.foldl_cons, List.foldl_nil, this]
    exact h.2 i

theorem win_close (h : WinInv W nc s tr) {i} : WinPost W nc s tr [] (s.handleClose i) := by
  unfold Cs.handleClose
  split
  · exact .stop
  · rename_i c t hc
    have hg := Cs.getChannel_some hc
    have hi := Cs.get_lt h.1 hg
    cases t with
    | true => exact .upd (i := i) (es := [.recv i .close]) (x := none) h hi rfl rfl (by simp [Only]) trivial
    | false =>
      refine .upd (i := i) (es := [.recv i .close, .sent i c.peer .close]) (x := none) h hi ?_ rfl (by simp [Only]) trivial
      simp [Cs.put, Cs.emit]

theorem win_request {sd} (h : WinInv W nc s tr) {i want ans} : WinPost W nc s tr [] (s.handleRequest sd i want ans) := by
  unfold Cs.handleRequest
  split
  · exact .stop
  · rename_i c t hc
    have hg := Cs.getChannel_some hc
    have ha := h.2 i
    rw [hg] at ha
    generalize c.reqs.handle sd none want (bif t then .done false else ans) = y
    obtain ⟨r, stop⟩ := y
    simp only
    generalize hbs : (replies r.log).drop (replies c.reqs.log).length = bs
    refine .upd (i := i) (es := .recv i (.request want) :: bs.map fun b => .sent i c.peer (.reply b))
      (x := some (mkSlot { c with reqs := r } t)) h (Cs.get_lt h.1 hg) ?_ ?_ ?_ ?_
    · unfold Cs.emitReplies; rw [hbs]; simp [Cs.put, Cs.emit]
    · unfold Cs.emitReplies; rfl
    · intro e he
      rcases List.mem_cons.mp he with rfl | he
      · rfl
      · exact only_replies bs e he
    · have : WinAcct.next W i (account W i tr) (.entry (.recv i (.request want))) = account W i tr := by
        simp [WinAcct.next, WinAcct.receive]
      simp only [List.map_cons, List.foldl_cons, this]
      rw [foldl_replies_acct]
      exact slotAcct_reqs ha

theorem win_complete (h : WinInv W nc s tr) {i id res} : WinPost W nc s tr [] (s.complete i id res) := by
  unfold Cs.complete
  split
  · rename_i c hg
    have ha := h.2 i
    rw [hg] at ha
    generalize c.reqs.complete id res = y
    obtain ⟨r, stop⟩ := y
    simp only
    generalize hbs : (replies r.log).drop (replies c.reqs.log).length = bs
    refine .upd (i := i) (es := bs.map fun b => .sent i c.peer (.reply b))
      (x := some (.live { c with reqs := r })) h (Cs.get_lt h.1 hg) ?_ ?_ (only_replies bs) ?_
    · unfold Cs.emitReplies; rw [hbs]; simp [Cs.put]
    · unfold Cs.emitReplies; rfl
    · rw [foldl_replies_acct]; exact ha
  · exact .refl h

/-- What a component consumes is not in the log. -/
def consumption (s : Cs) : ChEvent → List WinEntry
  | .act i (.consume n) =>
    match s.get i with
    | some (.live _) => [.consumed i n]
    | _ => []
  | _ => []

theorem win_act (h : WinInv W nc s tr) {i a} : WinPost W nc s tr (consumption s (.act i a)) (s.act i a) := by
  unfold Cs.act
  split
  · rename_i c hg
    have hi := Cs.get_lt h.1 hg
    have ha := h.2 i
    rw [hg] at ha
    simp only [SlotAcct] at ha
    cases a with
    | data n =>
      simp only
      split
      · refine .upd (i := i) (es := [.sent i c.peer (.data n)]) h hi rfl rfl (by simp [Only]) ?_
        simpa [SlotAcct, WinAcct.next, WinAcct.send] using ha
      · exact .stop
    | ext n =>
      simp only
      split
      · refine .upd (i := i) (es := [.sent i c.peer (.ext n)]) h hi rfl rfl (by simp [Only]) ?_
        simpa [SlotAcct, WinAcct.next, WinAcct.send] using ha
      · exact .stop
    | eof =>
      show WinPost W nc s tr [] (s.emit (.sent i c.peer .eof), none)
      refine fun _ => ⟨[.sent i c.peer .eof], rfl, ?_⟩
      rw [List.append_nil]
      refine h.same (i := i) rfl (by simp [OnlyW, Only]) ?_
      simpa [hg, SlotAcct, WinAcct.next, WinAcct.send] using ha
    | request =>
      show WinPost W nc s tr [] (s.emit (.sent i c.peer (.request false)), none)
      refine fun _ => ⟨[.sent i c.peer (.request false)], rfl, ?_⟩
      rw [List.append_nil]
      refine h.same (i := i) rfl (by simp [OnlyW, Only]) ?_
      simpa [hg, SlotAcct, WinAcct.next, WinAcct.send] using ha
    | consume n =>
      simp only [consumption, hg]
      split
      · refine fun _ => ⟨[], by simp [Cs.put], ?_⟩
        refine h.upd (i := i) (es := [.consumed i n]) (x := some (.live { c with recvWin := c.recvWin - n })) hi rfl (by simp [OnlyW]) ?_
        simp [SlotAcct, WinAcct.next, ha]
        omega
      · exact .stop
    | adjust n =>
      simp only
      split
      · exact .stop
      · refine .upd (i := i) (es := [.sent i c.peer (.adjust n)]) h hi rfl rfl (by simp [Only]) ?_
        simp [SlotAcct, WinAcct.next, WinAcct.send, ha]
        omega
    | close =>
      refine .upd (i := i) (es := [.sent i c.peer .close]) h hi rfl rfl (by simp [Only]) ?_
      simp [SlotAcct, WinAcct.next, WinAcct.send, ha]
  · rename_i hne
    have : consumption s (.act i a) = [] := by
      cases a <;> try rfl
      simp only [consumption]
    rw [this]; exact .refl h

theorem win_handle {sd} (h : WinInv W nc s tr) {ev : ChEvent} (hw : ev.window W = true)
    (hc : ∀ f, ev = .cancel f → nc) (hn : nc → ∀ i p w rw, ev = .recvConfirm i p w rw → w = W) :
    WinPost W nc s tr (consumption s ev) (s.handle sd ev) := by
  cases ev with
  | recvOpen p w res => exact win_open h hw
  | recvConfirm i p w rw' =>
    exact win_confirm h (by simpa [ChEvent.window] using hw) fun hx => hn hx _ _ _ _ rfl
  | recvFailure i => exact win_failure h
  | recvAdjust i n => exact win_adjust h
  | recvData i n => exact win_data h
  | recvExt i n => exact win_ext h
  | recvEof i => exact win_other h (.inl rfl)
  | recvClose i => exact win_close h
  | recvRequest i want ans => exact win_request h
  | recvReply i ok => exact win_other h (.inr ⟨ok, rfl⟩)
  | openChannel f => exact win_openChannel h
  | cancel f => exact win_cancel h (hc f rfl)
  | asyncOpened i res => exact win_async h hw
  | complete i id res => exact win_complete h
  | act i a => exact win_act h
  | shutdown => exact .stop

theorem Model.CsSys.step_none {sd} {y : CsSys} {ev} (h : (y.step sd ev).stop = none) :
    y.stop = none ∧ (y.cs.handle sd ev).2 = none ∧ (y.step sd ev).cs = (y.cs.handle sd ev).1 := by
  unfold CsSys.step at h ⊢
  split at h
  · rename_i st hst; rw [h] at hst; cases hst
  · rename_i hst
    generalize y.cs.handle sd ev = z at h ⊢
    obtain ⟨s, st⟩ := z
    cases st with
    | none => exact ⟨hst, rfl, rfl⟩
    | some st => cases st <;> cases h

theorem win_run {sd} {evs : List ChEvent} (hw : ∀ ev ∈ evs, ev.window W = true)
    (hc : ∀ f, .cancel f ∈ evs → nc) (hn : nc → ∀ i p w rw, .recvConfirm i p w rw ∈ evs → w = W)
    (hstop : (CsSys.run sd {} evs).stop = none) :
    WinInv W nc (CsSys.run sd {} evs).cs (CsSys.trace sd {} evs) := by
  induction evs using Aux.snoc_ind with
  | h0 =>
    refine ⟨by simp [CsSys.run], fun i => ?_⟩
    have : Cs.get {} i = none := by
      unfold Cs.get
      simp only [List.getElem?_replicate]
      split <;> rfl
    show SlotAcct W nc _ (Cs.get {} i)
    rw [this]; trivial
  | h1 evs ev ih =>
    rw [CsSys.run_snoc'] at hstop ⊢
    obtain ⟨h1, h2, h3⟩ := CsSys.step_none hstop
    have hi := ih (fun e he => hw e (by simp [he])) (fun f hf => hc f (by simp [hf])) (fun h i p w rw' he => hn h i p w rw' (by simp [he])) h1
    obtain ⟨es, he, hv⟩ := win_handle (sd := sd) hi (hw ev (by simp)) (fun f hf => hc f (by simp [hf]))
      (fun h i p w rw' he => hn h i p w rw' (by simp [he])) h2
    rw [CsSys.trace_snoc, h3]
    have : (CsSys.run sd {} evs).added sd ev = es.map .entry ++ consumption (CsSys.run sd {} evs).cs ev := by
      unfold CsSys.added
      rw [h3, he]
      simp only [List.drop_left]
      rfl
    rw [this]; exact hv

end Lukko
