import Verif.Proof.ChannelLife
import Verif.Proof.ChannelCount
/-
  Property theorems: C20 (channel numbers), C21 (CHANNEL_OPEN is answered), C22
  (CHANNEL_CLOSE), C23 (channels requested by local components), C24 (send window).

  `CsSys.run sd {} evs` is the channel table of one connection after an arbitrary
  sequence of events: messages from the peer with arbitrary contents, arbitrary
  results of the attempts to create a channel, arbitrary actions of the channels and
  of local components, in any order.
-/
namespace Lukko
open Model Spec

variable {sd : Bool} {evs : List ChEvent}

/-- The record of a connection. -/
abbrev Model.CsSys.log (y : CsSys) : List ChEntry := y.cs.log

/-! ## C20 -/

/-- **C20.** At any time, channel numbers in use are below 64 (so there are at most
64 channels). -/
theorem C20_in_range (hstop : (CsSys.run sd {} evs).stop = none) {i : Nat}
    (hi : life true i (CsSys.run sd {} evs).log ≠ some .free) : i < 64 := by
  have h := (cs_run sd evs).1 hstop
  rw [h.life] at hi
  cases hg : (CsSys.run sd {} evs).cs.get i with
  | none => rw [hg] at hi; exact absurd rfl hi
  | some x => exact Cs.get_lt h.len hg

/-- **C20.** Only a number that is free is assigned. -/
theorem C20_assigned_free {i : Nat} {a b : List ChEntry} {e : ChEntry}
    (hl : (CsSys.run sd {} evs).log = a ++ e :: b) (ha : assigns i e = true) :
    life true i a = some .free := by
  obtain ⟨l, h⟩ := (cs_run sd evs).2 i
  rw [show (CsSys.run sd {} evs).cs.log = a ++ e :: b from hl] at h
  obtain ⟨l', h1, h2⟩ := life_prefix h
  obtain ⟨l₁, h3, _⟩ := lifeFrom_cons h2
  rw [h1, assign_free ha h3]

/-- **C20.** Between two assignments of the same number, either the open failed or
CHANNEL_CLOSE was both sent and received. -/
theorem C20_not_reused {i : Nat} {a m b : List ChEntry} {e e' : ChEntry}
    (hl : (CsSys.run sd {} evs).log = a ++ e :: m ++ e' :: b)
    (he : assigns i e = true) (he' : assigns i e' = true) :
    .recv i .failure ∈ m ∨ (∃ p, .sent i p .failure ∈ m) ∨ ((∃ p, .sent i p .close ∈ m) ∧ .recv i .close ∈ m) := by
  obtain ⟨l, h⟩ := (cs_run sd evs).2 i
  rw [show (CsSys.run sd {} evs).cs.log = a ++ (e :: m ++ e' :: b) from by
    rw [show (CsSys.run sd {} evs).cs.log = _ from hl]; simp] at h
  obtain ⟨l', h1, h2⟩ := life_prefix h
  rw [List.cons_append] at h2
  obtain ⟨l₁, h3, h4⟩ := lifeFrom_cons h2
  have hm : ∃ l₂, lifeFrom true i (some l₁) m = some l₂ ∧ lifeFrom true i (some l₂) (e' :: b) = some l := by
    rw [lifeFrom, List.foldl_append] at h4
    cases hx : List.foldl (lifeStep true i) (some l₁) m with
    | none =>
      rw [hx] at h4
      have h5 : lifeFrom true i none (e' :: b) = some l := h4
      rw [lifeFrom_none] at h5; simp at h5
    | some l₂ => rw [hx] at h4; exact ⟨l₂, hx, h4⟩
  obtain ⟨l₂, h5, h6⟩ := hm
  obtain ⟨l₃, h7, _⟩ := lifeFrom_cons h6
  rw [assign_free he' h7] at h5
  have hr := released h5
  have hfree := assign_free he h3
  subst hfree
  cases e <;> simp only [assigns, Bool.false_eq_true, beq_iff_eq] at he
  · subst he; simp [Life.next] at h3; subst h3
    exact hr.elim (fun h => .inr (.inl ⟨_, h⟩)) fun h => .inr (.inr h)
  · subst he; simp [Life.next] at h3; subst h3
    exact hr.elim .inl fun h => .inr (.inr h)

/-- Messages of the peer about an existing channel `i`. -/
def concerns (i : Nat) : ChEvent → Bool
  | .recvAdjust j _ | .recvData j _ | .recvExt j _ | .recvEof j | .recvClose j | .recvRequest j _ _
  | .recvReply j _ => j == i
  | _ => false

/-- Messages of the peer about a channel `i` that we asked for. -/
def settles (i : Nat) : ChEvent → Bool
  | .recvConfirm j _ _ _ | .recvFailure j => j == i
  | _ => false

/-- **C20.** A message for a number that does not denote an open channel (or one
whose CHANNEL_CLOSE is awaited) ends the connection. -/
theorem C20_unknown_refused (hstop : (CsSys.run sd {} evs).stop = none) {i : Nat} {ev : ChEvent}
    (hev : concerns i ev = true)
    (hl : (∀ p w, life true i (CsSys.run sd {} evs).log ≠ some (.opened p w)) ∧
      ∀ p r, life true i (CsSys.run sd {} evs).log ≠ some (.closing p r)) :
    (CsSys.run sd {} (evs ++ [ev])).stop = some .disconnect ∨ (CsSys.run sd {} (evs ++ [ev])).stop = some .closed := by
  have h := (cs_run sd evs).1 hstop
  have hrun : CsSys.run sd {} (evs ++ [ev]) = CsSys.finish ((CsSys.run sd {} evs).cs.handle sd ev) := by
    rw [CsSys.run, List.foldl_append]
    show CsSys.step sd (CsSys.run sd {} evs) ev = _
    unfold CsSys.step; rw [hstop]
  rw [hrun]
  have hg : (CsSys.run sd {} evs).cs.getChannel i = none := by
    have h1 := h.life i
    unfold Cs.getChannel
    split
    · rename_i c hc
      rw [hc] at h1
      exact absurd h1 (hl.1 _ _)
    · rename_i c hc
      rw [hc] at h1
      exact absurd h1 (hl.2 _ _)
    · rfl
  generalize (CsSys.run sd {} evs).cs = s at *
  cases ev <;> simp only [concerns, Bool.false_eq_true, beq_iff_eq] at hev
  all_goals subst hev
  · simp only [Cs.handle, Cs.handleAdjust, hg]
    split <;> simp [CsSys.finish]
  all_goals simp [Cs.handle, Cs.handleData, Cs.handleOther, Cs.handleClose, Cs.handleRequest, hg, CsSys.finish]

/-- **C20.** Likewise for an answer to a CHANNEL_OPEN that we did not send or that
was answered already. -/
theorem C20_unasked_refused (hstop : (CsSys.run sd {} evs).stop = none) {i : Nat} {ev : ChEvent}
    (hev : settles i ev = true)
    (hl : life true i (CsSys.run sd {} evs).log ≠ some .requested) :
    (CsSys.run sd {} (evs ++ [ev])).stop = some .disconnect := by
  have h := (cs_run sd evs).1 hstop
  have hrun : CsSys.run sd {} (evs ++ [ev]) = CsSys.finish ((CsSys.run sd {} evs).cs.handle sd ev) := by
    rw [CsSys.run, List.foldl_append]
    show CsSys.step sd (CsSys.run sd {} evs) ev = _
    unfold CsSys.step; rw [hstop]
  rw [hrun]
  have hg : ∀ f c, (CsSys.run sd {} evs).cs.get i ≠ some (.requested f c) := by
    intro f c hc
    have h1 := h.life i
    rw [hc] at h1
    exact hl h1
  generalize (CsSys.run sd {} evs).cs = s at *
  cases ev <;> simp only [settles, Bool.false_eq_true, beq_iff_eq] at hev
  all_goals subst hev
  · simp only [Cs.handle, Cs.handleConfirm]; rfl
  · simp only [Cs.handle, Cs.handleFailure]; rfl

/-- A connection with a lot going on. -/
def demoChannels : List ChEvent :=
  [.recvOpen 7 100 (.made 1000), .recvOpen 8 50 .refused, .recvOpen 9 50 .pending, .openChannel 1,
   .act 0 (.data 60), .recvAdjust 0 30, .act 0 (.data 70), .recvConfirm 2 77 10 1000, .recvClose 0,
   .recvOpen 10 5 (.made 1000), .asyncOpened 1 (some 10), .openChannel 2, .cancel 2, .recvConfirm 3 78 10 1000,
   .act 1 .close, .recvRequest 1 true .suspend, .recvClose 1]

example : (CsSys.run false {} demoChannels).stop = none ∧
    life true 0 (CsSys.run false {} demoChannels).log = some (.opened 10 5) ∧
    life true 1 (CsSys.run false {} demoChannels).log = some .free ∧
    life true 2 (CsSys.run false {} demoChannels).log = some (.opened 77 10) ∧
    life true 3 (CsSys.run false {} demoChannels).log = some (.closing 78 0) ∧
    outcomes 1 (CsSys.run false {} demoChannels).log = [.created] ∧
    drops 2 (CsSys.run false {} demoChannels).log = 1 := by decide +kernel

/-- number 0 is assigned twice in it -/
example : ((CsSys.run false {} demoChannels).log.filter (assigns 0)).length = 2 := by decide +kernel

example : (CsSys.run false {} (demoChannels ++ [.recvData 1 5])).stop = some .disconnect := by decide +kernel
example : (CsSys.run false {} (demoChannels ++ [.recvFailure 2])).stop = some .disconnect := by decide +kernel

/-! ## C21 -/

/-- **C21.** At any time, on any connection: a CHANNEL_OPEN has been answered once,
unless the attempt to create the channel is still in progress. -/
theorem C21_answered_once {i : Nat} :
    ∃ l, life true i (CsSys.run sd {} evs).log = some l ∧
      opens i (CsSys.run sd {} evs).log =
        answers i (CsSys.run sd {} evs).log + (match l with | .opening _ _ => 1 | _ => 0) := by
  obtain ⟨l, h⟩ := (cs_run sd evs).2 i
  exact ⟨l, h, opens_answers (l := .free) h⟩

/-- **C21.** As long as a number is free, a CHANNEL_OPEN gets an answer: at once if
the attempt to create the channel succeeds or fails at once. -/
theorem C21_open_partial (hstop : (CsSys.run sd {} evs).stop = none) {p w : Nat}
    {res : OpenResult} (hres : res = .refused ∨ res = .failedNow ∨ ∃ rw, res = .made rw)
    (hfree : ∃ i, i < 64 ∧ life true i (CsSys.run sd {} evs).log = some .free) :
    (CsSys.run sd {} (evs ++ [.recvOpen p w res])).stop = none ∧
    ∃ i, (CsSys.run sd {} (evs ++ [.recvOpen p w res])).log = (CsSys.run sd {} evs).log ++
      [.recvOpen i p w, .sent i p (match res with | .made _ => .confirm | _ => .failure)] := by
  have h := (cs_run sd evs).1 hstop
  have hrun : CsSys.run sd {} (evs ++ [.recvOpen p w res]) = CsSys.finish ((CsSys.run sd {} evs).cs.handleOpen p w res) := by
    rw [CsSys.run, List.foldl_append]
    show CsSys.step sd (CsSys.run sd {} evs) _ = _
    unfold CsSys.step; rw [hstop]; rfl
  rw [hrun]
  obtain ⟨i, hi, hfree⟩ := hfree
  have hget : (CsSys.run sd {} evs).cs.get i = none := by
    have h1 := h.life i
    rw [show life true i (CsSys.run sd {} evs).cs.log = some .free from hfree] at h1
    simp only [Option.some.injEq] at h1
    cases hg : (CsSys.run sd {} evs).cs.get i with
    | none => rfl
    | some x => rw [hg] at h1; cases x <;> simp [lifeOf] at h1
  unfold Cs.handleOpen
  cases ha : (CsSys.run sd {} evs).cs.alloc with
  | none => exact absurd hget (Cs.alloc_none ha (by rw [h.len]; exact hi))
  | some j =>
    rcases hres with rfl | rfl | ⟨rw', rfl⟩ <;>
      exact ⟨rfl, j, by simp [CsSys.finish, CsSys.log, Cs.openFailure, Cs.put, Cs.emit]⟩

/-- **C21.** An attempt in progress is answered when it ends. -/
theorem C21_async_partial (hstop : (CsSys.run sd {} evs).stop = none) {i p w : Nat} {res : Option Nat}
    (hop : life true i (CsSys.run sd {} evs).log = some (.opening p w)) :
    (CsSys.run sd {} (evs ++ [.asyncOpened i res])).stop = none ∧
    (CsSys.run sd {} (evs ++ [.asyncOpened i res])).log = (CsSys.run sd {} evs).log ++
      [.sent i p (match res with | some _ => .confirm | none => .failure)] := by
  have h := (cs_run sd evs).1 hstop
  have hrun : CsSys.run sd {} (evs ++ [.asyncOpened i res]) = CsSys.finish ((CsSys.run sd {} evs).cs.asyncOpened i res) := by
    rw [CsSys.run, List.foldl_append]
    show CsSys.step sd (CsSys.run sd {} evs) _ = _
    unfold CsSys.step; rw [hstop]; rfl
  rw [hrun]
  have hget : (CsSys.run sd {} evs).cs.get i = some (.opening p w) := by
    have h1 := h.life i
    rw [show life true i (CsSys.run sd {} evs).cs.log = _ from hop] at h1
    simp only [Option.some.injEq] at h1
    cases hg : (CsSys.run sd {} evs).cs.get i with
    | none => rw [hg] at h1; simp [lifeOf] at h1
    | some x => rw [hg] at h1; cases x <;> simp [lifeOf] at h1; simp [h1]
  unfold Cs.asyncOpened
  rw [hget]
  cases res <;> exact ⟨rfl, by simp [CsSys.finish, CsSys.log, Cs.openFailure, Cs.put, Cs.emit]⟩

/-- **C21** is false: when all 64 numbers are in use, the next CHANNEL_OPEN is not
answered with CHANNEL_OPEN_FAILURE; the connection is closed, with all its
channels. -/
theorem C21_no_number_violated :
    (CsSys.run false {} (List.replicate 64 (.recvOpen 0 0 (.made 0)))).stop = none ∧
    ∀ p w res, (CsSys.run false {} (List.replicate 64 (.recvOpen 0 0 (.made 0)) ++ [.recvOpen p w res])).stop = some .closed := by
  have h1 : (CsSys.run false {} (List.replicate 64 (.recvOpen 0 0 (.made 0)))).stop = none := by decide +kernel
  have h2 : (CsSys.run false {} (List.replicate 64 (.recvOpen 0 0 (.made 0)))).cs.alloc = none := by decide +kernel
  refine ⟨h1, fun p w res => ?_⟩
  rw [CsSys.run, List.foldl_append]
  show (CsSys.step false (CsSys.run false {} (List.replicate 64 (.recvOpen 0 0 (.made 0)))) (.recvOpen p w res)).stop = _
  generalize CsSys.run false {} (List.replicate 64 (.recvOpen 0 0 (.made 0))) = y at h1 h2 ⊢
  unfold CsSys.step
  rw [h1]
  simp only [Cs.handle, Cs.handleOpen, h2]
  rfl

example : opens 1 (CsSys.run false {} demoChannels).log = 2 ∧ answers 1 (CsSys.run false {} demoChannels).log = 2 := by
  decide +kernel

/-! ## C22 -/

/-- **C22.** A number that was assigned is free again only after CHANNEL_CLOSE was
both sent and received, or the open failed. -/
theorem C22_released {i : Nat} {a m : List ChEntry} {e : ChEntry}
    (hl : (CsSys.run sd {} evs).log = a ++ e :: m) (he : assigns i e = true)
    (hfree : life true i (CsSys.run sd {} evs).log = some .free) :
    .recv i .failure ∈ m ∨ (∃ p, .sent i p .failure ∈ m) ∨ ((∃ p, .sent i p .close ∈ m) ∧ .recv i .close ∈ m) := by
  have h := hfree
  rw [hl] at h
  obtain ⟨l', h1, h2⟩ := life_prefix h
  obtain ⟨l₁, h3, h4⟩ := lifeFrom_cons h2
  have hr := released h4
  have hf := assign_free he h3
  subst hf
  cases e <;> simp only [assigns, Bool.false_eq_true, beq_iff_eq] at he
  · subst he; simp [Life.next] at h3; subst h3
    exact hr.elim (fun h => .inr (.inl ⟨_, h⟩)) fun h => .inr (.inr h)
  · subst he; simp [Life.next] at h3; subst h3
    exact hr.elim .inl fun h => .inr (.inr h)

/-- **C22.** What is sent on a channel after CHANNEL_CLOSE (and before its number is
assigned again) is only CHANNEL_FAILURE, and only if a request that wants a reply
was received in between.  In particular CHANNEL_CLOSE is sent at most once. -/
theorem C22_after_close_partial {i p p' : Nat} {x : ChMsg} {a m b : List ChEntry}
    (hl : (CsSys.run sd {} evs).log = a ++ .sent i p .close :: (m ++ .sent i p' x :: b))
    (hm : ∀ e ∈ m, assigns i e = false) :
    x = .reply false ∧ p' = p ∧ .recv i (.request true) ∈ m := by
  obtain ⟨l, h⟩ := (cs_run sd evs).2 i
  rw [show (CsSys.run sd {} evs).cs.log = _ from hl] at h
  obtain ⟨l', h1, h2⟩ := life_prefix h
  obtain ⟨l₁, h3, h4⟩ := lifeFrom_cons h2
  have hq := ch_quiet h4 m p' x b rfl hm
  simp only [Life.next, if_true] at h3
  rcases send_cases h3 with ⟨w, rfl, h5⟩ | ⟨w, rfl, h5⟩ | ⟨rfl, _, rfl⟩ | ⟨r, rfl, h5, _, rfl⟩
  · rcases h5 with ⟨h5, _⟩ | ⟨h5, _⟩ <;> simp at h5
  · rcases h5 with ⟨_, rfl⟩ | ⟨n, h5, _⟩ | ⟨h5, _⟩
    · simp only at hq
      exact ⟨hq.2.1, hq.1, hq.2.2.resolve_left (by omega)⟩
    · rcases h5 with h5 | h5 <;> simp at h5
    · rcases h5 with ⟨_, h5⟩ | h5 | ⟨_, h5⟩ | ⟨_, h5⟩ <;> simp at h5
  · exact hq.elim
  · simp at h5

/-- **C22** is false: a request for a channel that we have closed is answered with
CHANNEL_FAILURE after CHANNEL_CLOSE. -/
theorem C22_failure_after_close_violated :
    let y := CsSys.run false {} [.recvOpen 7 100 (.made 1000), .act 0 .close, .recvRequest 0 true .suspend]
    y.stop = none ∧ life false 0 y.log = none ∧
      y.log = [.recvOpen 0 7 100, .sent 0 7 .confirm, .sent 0 7 .close, .recv 0 (.request true), .sent 0 7 (.reply false)] := by
  decide +kernel

/-! ## C23 -/

/-- **C23.** Each request of a local component for a channel is either waiting, or
the component was told exactly once what became of it, or it has lost interest. -/
theorem C23_told_once_partial (f : Nat) :
    ∃ waiting : Nat, asks f (CsSys.run sd {} evs).log =
      waiting + (outcomes f (CsSys.run sd {} evs).log).length + drops f (CsSys.run sd {} evs).log := by
  have h := bal_run (sd := sd) f evs
  rw [bal, weigh_sum] at h
  have h0 := waits_sum_nonneg (f := f) (CsSys.run sd {} evs).cs.slots
  exact ⟨((CsSys.run sd {} evs).cs.slots.map (waitsFor f)).sum.toNat, by
    simp only [CsSys.log]; omega⟩

/-- **C23.** When the connection ends, nobody is left waiting. -/
theorem C23_none_left_partial (f : Nat)
    (hstop : (CsSys.run sd {} evs).stop = some .closed ∨ (CsSys.run sd {} evs).stop = some .disconnect) :
    asks f (CsSys.run sd {} evs).log =
      (outcomes f (CsSys.run sd {} evs).log).length + drops f (CsSys.run sd {} evs).log := by
  have h := bal_run (sd := sd) f evs
  rw [bal, weigh_sum] at h
  have hsl : (CsSys.run sd {} evs).cs.slots = List.replicate 64 none := by
    have : ∀ y : CsSys, (y.stop = some .closed ∨ y.stop = some .disconnect → y.cs.slots = List.replicate 64 none) →
        ((y.run sd evs).stop = some .closed ∨ (y.run sd evs).stop = some .disconnect →
          (y.run sd evs).cs.slots = List.replicate 64 none) := by
      clear hstop h
      induction evs with
      | nil => exact fun y h => h
      | cons ev evs ih =>
        intro y h
        refine ih _ ?_
        unfold CsSys.step
        split
        · exact h
        · generalize y.cs.handle sd ev = z
          obtain ⟨s, st⟩ := z
          cases st with
          | none => simp [CsSys.finish]
          | some st => cases st <;> simp [CsSys.finish, Cs.teardown]
    exact this {} (by simp) hstop
  rw [hsl, waits_empty] at h
  simp only [CsSys.log]; omega

/-- **C23.** A component that asked once is told at most once, and not at all after
it lost interest. -/
theorem C23_at_most_once_partial {f : Nat} (h1 : asks f (CsSys.run sd {} evs).log ≤ 1) :
    (outcomes f (CsSys.run sd {} evs).log).length ≤ 1 ∧
    (drops f (CsSys.run sd {} evs).log = 1 → outcomes f (CsSys.run sd {} evs).log = []) := by
  obtain ⟨n, h⟩ := C23_told_once_partial (sd := sd) (evs := evs) f
  refine ⟨by omega, fun h2 => ?_⟩
  exact List.length_eq_zero_iff.mp (by omega)

/-- **C23** is false: when the peer refuses the channel, the component is told that
the request was cancelled, upon which it deletes itself, and is then called again. -/
theorem C23_failure_violated :
    let y := CsSys.run false {} [.openChannel 1, .recvFailure 0]
    y.stop = some .ub ∧ outcomes 1 y.log = [.cancelled] := by decide +kernel

/-- told `created`, and cancelled at the end -/
example : let y := CsSys.run false {} [.openChannel 1, .openChannel 2, .openChannel 3, .cancel 3,
      .recvConfirm 0 5 5 5, .recvConfirm 2 6 6 6, .shutdown]
    y.stop = some .closed ∧ outcomes 1 y.log = [.created] ∧ outcomes 2 y.log = [.cancelled] ∧ outcomes 3 y.log = [] ∧
      drops 3 y.log = 1 := by decide +kernel

/-! ## C24 -/

/-- **C24.** From the time a number is assigned to a channel until it is assigned
again: the bytes sent never exceed those granted by the peer. -/
theorem C24_send_window {i : Nat} {a m b : List ChEntry} {e : ChEntry}
    (hl : (CsSys.run sd {} evs).log = a ++ e :: (m ++ b)) (he : assigns i e = true)
    (hm : ∀ e ∈ m, assigns i e = false) :
    bytesSent i (e :: m) ≤ bytesGranted i (e :: m) := by
  obtain ⟨l, h⟩ := (cs_run sd evs).2 i
  rw [show (CsSys.run sd {} evs).cs.log = a ++ (e :: m) ++ b from by
    rw [show (CsSys.run sd {} evs).cs.log = _ from hl]; simp] at h
  obtain ⟨l₀, h0, _⟩ := life_prefix h
  obtain ⟨l', h1, h2⟩ := life_prefix h0
  obtain ⟨l₁, h3, h4⟩ := lifeFrom_cons h2
  have hf := assign_free he h3
  subst hf
  have hc := (credit h4 hm).2
  simp only [bytesSent, bytesGranted, List.map_cons, List.sum_cons] at hc ⊢
  cases e <;> simp only [assigns, Bool.false_eq_true, beq_iff_eq] at he
  · subst he; simp [Life.next] at h3; subst h3; simp at hc ⊢; omega
  · subst he; simp [Life.next] at h3; subst h3; simp at hc ⊢; omega

/-- 130 of 130 bytes -/
example : bytesSent 0 (CsSys.run false {} (demoChannels.take 8)).log = 130 ∧
    bytesGranted 0 (CsSys.run false {} (demoChannels.take 8)).log = 130 := by decide +kernel

end Lukko
