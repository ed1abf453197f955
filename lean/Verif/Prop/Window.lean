import Verif.Proof.Window
/-
  Property theorems: C78 (the window we grant).

  `CsSys.run sd {} evs` is the channel table of one connection after an arbitrary
  sequence of events; `CsSys.trace sd {} evs` is the record of what was sent and received
  and what was consumed by the components behind the channels; `account W i` of it (see
  Spec/Window.lean) is the account of channel number `i`.  `W` is the window we
  advertise for each new channel (1 MiB for all kinds of channels).
-/
namespace Lukko
open Model Spec

variable {sd : Bool} {evs : List ChEvent} {W : Nat}

/-- The channel is open, or we sent CHANNEL_CLOSE and the peer did not yet answer it. -/
def Spec.Life.mayReceive : Life → Bool
  | .opened _ _ | .closing _ _ => true
  | _ => false

theorem uncancelled_run (hw : ∀ ev ∈ evs, ev.window W = true) (hu : Uncancelled W evs)
    (hstop : (CsSys.run sd {} evs).stop = none) :
    ∃ nc, WinInv W nc (CsSys.run sd {} evs).cs (CsSys.trace sd {} evs) := by
  rcases hu with h | h
  · exact ⟨False, win_run hw (fun f hf => h f hf) (fun hf => hf.elim) hstop⟩
  · exact ⟨True, win_run hw (fun _ _ => trivial) (fun _ => h) hstop⟩

theorem mayReceive_channel {i l} (hstop : (CsSys.run sd {} evs).stop = none)
    (hl : life true i (CsSys.run sd {} evs).cs.log = some l) (ho : l.mayReceive = true) :
    ∃ c t, (CsSys.run sd {} evs).cs.getChannel i = some (c, t) := by
  have h := (cs_run sd evs).1 hstop
  rw [h.life] at hl
  cases hl
  unfold Cs.getChannel
  cases hg : (CsSys.run sd {} evs).cs.get i with
  | none => rw [hg] at ho; cases ho
  | some x =>
    cases x with
    | live c => exact ⟨c, false, rfl⟩
    | tomb c => exact ⟨c, true, rfl⟩
    | requested f b => rw [hg] at ho; cases ho
    | opening p w => rw [hg] at ho; cases ho

theorem handleData_stop {s : Cs} {i n m c t} (hc : s.getChannel i = some (c, t)) :
    (s.handleData i n m).2 = if n ≤ c.recvWin then none else some .closed := by
  unfold Cs.handleData
  rw [hc]
  simp only
  by_cases h : n ≤ c.recvWin
  · rw [if_pos h, if_neg (by omega)]
  · rw [if_neg h, if_pos (by omega)]

theorem run_data_stop {i n ev c t} (hev : ev = .recvData i n ∨ ev = .recvExt i n)
    (hstop : (CsSys.run sd {} evs).stop = none) (hc : (CsSys.run sd {} evs).cs.getChannel i = some (c, t)) :
    (CsSys.run sd {} (evs ++ [ev])).stop = if n ≤ c.recvWin then none else some .closed := by
  rw [CsSys.run_snoc']
  unfold CsSys.step
  rw [hstop]
  simp only
  obtain ⟨m, hm⟩ : ∃ m, (CsSys.run sd {} evs).cs.handle sd ev = (CsSys.run sd {} evs).cs.handleData i n m := by
    rcases hev with rfl | rfl
    · exact ⟨.data n, rfl⟩
    · exact ⟨.ext n, rfl⟩
  rw [hm]
  have h := handleData_stop (n := n) (m := m) hc
  generalize (CsSys.run sd {} evs).cs.handleData i n m = z at h ⊢
  obtain ⟨s, st⟩ := z
  simp only at h
  subst h
  split <;> rfl

/-- **C78.** Data on a channel (open, or closed by us only) is accepted exactly if what
was consumed or thrown away and this packet together do not exceed what we granted;
otherwise the connection is closed.  Missing: requests for a channel which
were cancelled before the peer confirmed them, see `C78_cancelled_violated`. -/
theorem C78_exact_partial (hw : ∀ ev ∈ evs, ev.window W = true) (hu : Uncancelled W evs)
    (hstop : (CsSys.run sd {} evs).stop = none) {i n : Nat} {l : Life}
    (hl : life true i (CsSys.run sd {} evs).cs.log = some l) (ho : l.mayReceive = true) {ev : ChEvent}
    (hev : ev = .recvData i n ∨ ev = .recvExt i n) :
    (CsSys.run sd {} (evs ++ [ev])).stop =
      if (account W i (CsSys.trace sd {} evs)).gone + n ≤ (account W i (CsSys.trace sd {} evs)).granted
      then none else some .closed := by
  obtain ⟨nc, h⟩ := uncancelled_run (sd := sd) hw hu hstop
  obtain ⟨c, t, hc⟩ := mayReceive_channel hstop hl ho
  have h1 := h.left hc
  rw [run_data_stop hev hstop hc]
  by_cases hn : n ≤ c.recvWin
  · rw [if_pos hn, if_pos (by omega)]
  · rw [if_neg hn, if_neg (by omega)]

/-- **C78.** A peer that obeys flow control – the bytes it sent on this channel, including
this packet, do not exceed what we granted – is not disconnected because of it, not
even if we closed the channel meanwhile.  (Components consume only what they
received.)  Missing: as above. -/
theorem C78_obedient_partial (hw : ∀ ev ∈ evs, ev.window W = true) (hu : Uncancelled W evs)
    (hstop : (CsSys.run sd {} evs).stop = none) (hcons : ConsumesReceived W (CsSys.trace sd {} evs)) {i n : Nat} {l : Life}
    (hl : life true i (CsSys.run sd {} evs).cs.log = some l) (ho : l.mayReceive = true) {ev : ChEvent}
    (hev : ev = .recvData i n ∨ ev = .recvExt i n)
    (hn : (account W i (CsSys.trace sd {} evs)).received + n ≤ (account W i (CsSys.trace sd {} evs)).granted) :
    (CsSys.run sd {} (evs ++ [ev])).stop = none := by
  rw [C78_exact_partial hw hu hstop hl ho hev, if_pos]
  have := hcons _ (List.prefix_refl _) i
  unfold WinAcct.received at hn
  unfold WinAcct.gone
  omega

/-- **C78.** What was consumed or thrown away never exceeds what we granted: a peer that
does not obey cannot send any amount of data to a channel which we closed. -/
theorem C78_limit_partial (hw : ∀ ev ∈ evs, ev.window W = true) (hu : Uncancelled W evs)
    (hstop : (CsSys.run sd {} evs).stop = none) {i : Nat} {l : Life}
    (hl : life true i (CsSys.run sd {} evs).cs.log = some l) (ho : l.mayReceive = true) :
    (account W i (CsSys.trace sd {} evs)).gone ≤ (account W i (CsSys.trace sd {} evs)).granted := by
  obtain ⟨nc, h⟩ := uncancelled_run (sd := sd) hw hu hstop
  obtain ⟨c, t, hc⟩ := mayReceive_channel hstop hl ho
  have := h.left hc
  omega

/-- For concrete traces of channel number 0. -/
theorem consumes_of_zero {tr : List WinEntry} (ho : ∀ e ∈ tr, OnlyW 0 e)
    (h : ∀ k ≤ tr.length, (account W 0 (tr.take k)).used ≤ (account W 0 (tr.take k)).data) : ConsumesReceived W tr := by
  intro pre hpre i
  have hp := List.prefix_iff_eq_take.mp hpre
  by_cases hi : 0 = i
  · subst hi
    rw [hp]; exact h _ hpre.length_le
  · have : account W i pre = {} := foldl_onlyW (fun e he => ho e (hpre.subset he)) hi _
    rw [this]; exact Nat.le_refl _

/-- We asked for a channel and cancelled the request; the peer confirms it. -/
def demoCancelled (w : Nat) : List ChEvent := [.openChannel 7, .cancel 7, .recvConfirm 0 3 w 1048576]

/-- **C78 is false**: after a cancelled request for a channel, the peer's own window is used
instead of the one we advertised.  A peer that grants no window at the beginning is
disconnected as soon as it makes use of the window it was granted … -/
theorem C78_cancelled_violated : ∃ evs i n l, (∀ ev ∈ evs, ev.window 1048576 = true) ∧
    (CsSys.run false {} evs).stop = none ∧ ConsumesReceived 1048576 (CsSys.trace false {} evs) ∧
    life true i (CsSys.run false {} evs).cs.log = some l ∧ l.mayReceive = true ∧
    (account 1048576 i (CsSys.trace false {} evs)).received + n ≤ (account 1048576 i (CsSys.trace false {} evs)).granted ∧
    (CsSys.run false {} (evs ++ [.recvData i n])).stop = some .closed := by
  refine ⟨demoCancelled 0, 0, 1, .closing 3 0, by decide +kernel, by decide +kernel, ?_, by decide +kernel, rfl,
    by decide +kernel, by decide +kernel⟩
  exact consumes_of_zero (by decide +kernel) (by decide +kernel)

/-- … and a peer that grants more than we do may send more than we granted. -/
theorem C78_limit_violated : ∃ evs i l, (∀ ev ∈ evs, ev.window 1048576 = true) ∧
    (CsSys.run false {} evs).stop = none ∧ life true i (CsSys.run false {} evs).cs.log = some l ∧ l.mayReceive = true ∧
    (account 1048576 i (CsSys.trace false {} evs)).granted < (account 1048576 i (CsSys.trace false {} evs)).gone :=
  ⟨demoCancelled 4000000000 ++ [.recvData 0 3000000000], 0, .closing 3 0, by decide +kernel, by decide +kernel,
    by decide +kernel, rfl, by decide +kernel⟩

/-- A channel requested by the peer: 600000 bytes are received, 500000 consumed and granted again, then 20 bytes of
extended data are received, we close the channel, and the peer goes on sending. -/
def demoWinLife : List ChEvent :=
  [.recvOpen 9 5 (.made 1048576), .recvData 0 600000, .act 0 (.consume 600000), .act 0 (.adjust 500000), .recvExt 0 20,
    .act 0 .close, .recvData 0 900000]

example : (∀ ev ∈ demoWinLife, ev.window 1048576 = true) ∧ Uncancelled 1048576 demoWinLife ∧
    (CsSys.run false {} demoWinLife).stop = none ∧
    life true 0 (CsSys.run false {} demoWinLife).cs.log = some (.closing 9 0) ∧
    ConsumesReceived 1048576 (CsSys.trace false {} demoWinLife) ∧
    account 1048576 0 (CsSys.trace false {} demoWinLife) =
      { granted := 1548576, data := 600000, ext := 20, late := 900000, used := 600000, closed := true } ∧
    (CsSys.run false {} (demoWinLife ++ [.recvData 0 48556])).stop = none ∧
    (CsSys.run false {} (demoWinLife ++ [.recvData 0 48557])).stop = some .closed := by
  refine ⟨by decide +kernel, .inl ?_, by decide +kernel, by decide +kernel,
    consumes_of_zero (by decide +kernel) (by decide +kernel), by decide +kernel, by decide +kernel, by decide +kernel⟩
  intro f hf
  simp [demoWinLife] at hf

end Lukko
