import Verif.Proof.RelayFlow
/-
  C103: A forwarded connection carries the bytes of both sides.
-/
namespace Lukko
open Model Spec

/-- **C103** What the client receives from the host is a beginning of what the host has sent: nothing is invented,
repeated, left out or reordered; and it is what the CHANNEL_DATA messages carry. -/
theorem C103_to_client (nd : Bool) {w : Nat} (hw : 0 < w) (evs : List RelayEvent) :
    let y := Relay.run nd (Relay.init w) evs
    clientHeard y.log <+: hostSaid y.log ∧
    total (fun | .tx (.data n) => n | _ => 0) y.ch.sock.log = (clientHeard y.log).length := by
  have h := relay_run nd hw evs
  refine ⟨⟨_, h.said.symm⟩, ?_⟩
  have : dataBytes = (fun | .tx (.data n) => n | _ => 0) := by
    funext e
    cases e with
    | tx m => cases m <;> rfl
    | _ => rfl
  exact this ▸ h.sent

/-- **C103** What the host receives is a beginning of what the client has sent. -/
theorem C103_to_host (nd : Bool) {w : Nat} (hw : 0 < w) (evs : List RelayEvent) :
    let y := Relay.run nd (Relay.init w) evs
    hostHeard y.log <+: clientSaid y.log := by
  have h := relay_run nd hw evs
  have hp := h.ok.pre.pre
  rw [← h.view, hostHeard_view, clientSaid_view] at hp
  exact hp

/-- What the host and the client have heard after some events. -/
example :
    let y := Relay.run false (Relay.init 3) [.hostSends [1, 2, 3, 4], .clientData [7, 8] (.wrote 1), .ready none true 0 false,
      .ready (some [(5, .wrote 5)]) false 0 false, .clientAdjust 1, .ready none true 0 false]
    clientHeard y.log = [1, 2, 3, 4] ∧ hostHeard y.log = [7, 8] ∧ y.ch.stop = none := by decide +kernel

theorem filterMap_eq_append_cons {α β : Type} {f : α → Option β} : ∀ {l : List α} {a : List α} {x : α} {b : List α} {y : β},
    l = a ++ x :: b → f x = some y → l.filterMap f = a.filterMap f ++ y :: b.filterMap f := by
  intro l a x b y h hx
  rw [h, List.filterMap_append, List.filterMap_cons, hx]

/-- **C103** The host is told that nothing more will come only after the client has said so, and only when the host
has received everything from the client. -/
theorem C103_end_to_host (nd : Bool) {w : Nat} (hw : 0 < w) (evs : List RelayEvent) (a b : List RelayEntry)
    (hlog : (Relay.run nd (Relay.init w) evs).log = a ++ .endToHost :: b) :
    RelayEntry.clientEnds ∈ a ∧ hostHeard a = clientSaid a := by
  have h := relay_run nd hw evs
  have hv : (Relay.run nd (Relay.init w) evs).ch.buf.log = clientView a ++ .sawEof :: clientView b := by
    rw [← h.view]
    exact filterMap_eq_append_cons hlog rfl
  obtain ⟨h1, h2⟩ := h.ok.pre.ends _ _ hv
  refine ⟨clientEnds_view.mp h1, ?_⟩
  rw [hostHeard_view, clientSaid_view] at h2
  exact h2

example :
    (Relay.run false (Relay.init 100) [.clientData [7, 8] (.wrote 1), .clientEof, .ready (some [(5, .wrote 5)]) false 0 false]).log =
      [.client [7, 8], .toHost [7], .clientEnds, .toHost [8]] ++ .endToHost :: [] := by decide +kernel

/-- **C103** If the server closes the channel, and neither has the client closed it nor the host aborted
the connection, then the host has ended its side and the client has received everything the host has sent.
(When the connection is hung up, `recv()` is assumed to return as much as fits in the buffer.) -/
theorem C103_complete (nd : Bool) {w : Nat} (hw : 0 < w) (evs : List RelayEvent) (hf : ∀ e ∈ evs, e.full = true)
    (hc : RelayEntry.closes ∈ (Relay.run nd (Relay.init w) evs).log)
    (h1 : RelayEntry.resets ∉ (Relay.run nd (Relay.init w) evs).log)
    (h2 : RelayEntry.clientCloses ∉ (Relay.run nd (Relay.init w) evs).log) :
    RelayEntry.hostEnds ∈ (Relay.run nd (Relay.init w) evs).log ∧
    clientHeard (Relay.run nd (Relay.init w) evs).log = hostSaid (Relay.run nd (Relay.init w) evs).log := by
  have h := relay_run nd hw evs
  rcases h.closed hf (h.closes hc) with ⟨g1, g2⟩ | g | g
  · refine ⟨g1, ?_⟩
    rw [h.said, g2, List.append_nil]
  · exact absurd g h1
  · exact absurd g h2

example :
    let evs : List RelayEvent := [.hostSends [1, 2, 3, 4], .hostEnds, .ready none true 0 true]
    (∀ e ∈ evs, e.full = true) ∧ RelayEntry.closes ∈ (Relay.run false (Relay.init 100) evs).log ∧
    RelayEntry.resets ∉ (Relay.run false (Relay.init 100) evs).log ∧
    RelayEntry.clientCloses ∉ (Relay.run false (Relay.init 100) evs).log ∧
    clientHeard (Relay.run false (Relay.init 100) evs).log = [1, 2, 3, 4] := by decide +kernel

/-- **C103** Nothing from the host gets stuck: unless keys are being exchanged, and if the client has granted enough,
the client receives everything after the socket was reported readable some number of times; and if the host has ended its
side, and the client has granted one byte more, the channel is then closed. -/
theorem C103_flow (nd : Bool) {w : Nat} (hw : 0 < w) (evs : List RelayEvent)
    (hs : (Relay.run nd (Relay.init w) evs).ch.stop = none)
    (hk : inKex (Relay.run nd (Relay.init w) evs).ch.sock.log = false)
    (hg : (hostSaid (Relay.run nd (Relay.init w) evs).log).length ≤
      (clientHeard (Relay.run nd (Relay.init w) evs).log).length + (Relay.run nd (Relay.init w) evs).ch.sock.sendWin) :
    ∃ k,
      let z := Relay.run nd (Relay.init w) (evs ++ List.replicate k (.ready none true 0 false))
      clientHeard z.log = hostSaid (Relay.run nd (Relay.init w) evs).log ∧
      (RelayEntry.hostEnds ∈ (Relay.run nd (Relay.init w) evs).log →
        (hostSaid (Relay.run nd (Relay.init w) evs).log).length <
          (clientHeard (Relay.run nd (Relay.init w) evs).log).length + (Relay.run nd (Relay.init w) evs).ch.sock.sendWin →
        RelayEntry.closes ∈ z.log) := by
  have h := relay_run nd hw evs
  simp only [Relay.run_append]
  generalize Relay.run nd (Relay.init w) evs = y at *
  have hl := congrArg List.length h.said
  rw [List.length_append] at hl
  obtain ⟨k, f1, f2, f3, f4, f5, f6, f7⟩ := drain_client nd _ h (Nat.le_refl _) hs hk (by omega)
  have hh : clientHeard (Relay.run nd y (List.replicate k readNow)).log = hostSaid y.log := by
    rw [← f2, f3.said, f1, List.append_nil]
  by_cases hc : RelayEntry.hostEnds ∈ y.log ∧ y.inbox.length < y.ch.sock.sendWin
  · obtain ⟨g1, g2, g3⟩ := read_end f3 nd f4 f5 f1 (f6.trans (h.fin.mpr hc.1)) (by omega)
    have hrun : Relay.run nd y (List.replicate (k + 1) readNow) = (Relay.run nd y (List.replicate k readNow)).step nd readNow := by
      rw [List.replicate_succ', Relay.run_snoc]
    refine ⟨k + 1, ?_, ?_⟩
    · rw [hrun, g3, hh]
    · intro _ _
      rw [hrun]; exact g1
  · refine ⟨k, hh, ?_⟩
    intro g1 g2
    exact absurd ⟨g1, by omega⟩ hc

example :
    let evs : List RelayEvent := [.hostSends [1, 2, 3, 4], .hostEnds]
    (Relay.run false (Relay.init 100) evs).ch.stop = none ∧ inKex (Relay.run false (Relay.init 100) evs).ch.sock.log = false ∧
    hostSaid (Relay.run false (Relay.init 100) evs).log = [1, 2, 3, 4] ∧ clientHeard (Relay.run false (Relay.init 100) evs).log = [] ∧
    RelayEntry.hostEnds ∈ (Relay.run false (Relay.init 100) evs).log ∧
    (Relay.run false (Relay.init 100) evs).ch.sock.sendWin = 100 := by decide +kernel

/-- **C103** Nothing from the client gets stuck: if it kept to what it was granted, then one report that the socket
is writable is enough if the kernel accepts everything; then the host is also told if nothing more will come. -/
theorem C103_drain (nd : Bool) {w : Nat} (hw : 0 < w) (evs : List RelayEvent)
    (hs : (Relay.run nd (Relay.init w) evs).ch.stop = none)
    (hg : (clientSaid (Relay.run nd (Relay.init w) evs).log).length ≤
      (hostHeard (Relay.run nd (Relay.init w) evs).log).length + (Relay.run nd (Relay.init w) evs).ch.sock.recvWin) :
    ∃ n,
      let z := Relay.run nd (Relay.init w) (evs ++ [.ready (some [(n, .wrote n)]) false 0 false])
      hostHeard z.log = clientSaid (Relay.run nd (Relay.init w) evs).log ∧ z.ch.stop = none ∧
      (RelayEntry.clientEnds ∈ (Relay.run nd (Relay.init w) evs).log → RelayEntry.endToHost ∈ z.log) := by
  have h := relay_run nd hw evs
  simp only [Relay.run_append]
  generalize Relay.run nd (Relay.init w) evs = y at *
  have hl := congrArg List.length (h.ok.seq hs).seq
  rw [List.length_append, ← h.view, hostHeard_view, clientSaid_view] at hl
  obtain ⟨g1, g2, g3, g4⟩ := drain_host h nd hs (by omega)
  exact ⟨y.ch.buf.queue.length, g1.trans g2, g3, g4⟩

example :
    let evs : List RelayEvent := [.clientData [7, 8] .wouldBlock, .clientData [9] .wouldBlock, .clientEof]
    (Relay.run false (Relay.init 100) evs).ch.stop = none ∧ clientSaid (Relay.run false (Relay.init 100) evs).log = [7, 8, 9] ∧
    hostHeard (Relay.run false (Relay.init 100) evs).log = [] ∧
    RelayEntry.clientEnds ∈ (Relay.run false (Relay.init 100) evs).log := by decide +kernel

/-- **C103, violated** When the host ends its side (it has nothing more to say, but goes on listening), the server closes the
channel, and what the client has sent is thrown away although the host could receive it. -/
theorem C103_half_close_violated :
    ∃ evs : List RelayEvent,
      let y := Relay.run false (Relay.init 100) evs
      RelayEntry.closes ∈ y.log ∧ RelayEntry.resets ∉ y.log ∧ RelayEntry.clientCloses ∉ y.log ∧
      clientSaid y.log = [1, 2, 3] ∧ hostHeard y.log = [] ∧
      ∀ more, hostHeard (Relay.run false (Relay.init 100) (evs ++ more)).log = [] := by
  refine ⟨[.clientData [1, 2, 3] .wouldBlock, .hostEnds, .ready none true 0 false], ?_, ?_, ?_, ?_, ?_, ?_⟩
  · decide +kernel
  · decide +kernel
  · decide +kernel
  · decide +kernel
  · decide +kernel
  · intro more
    rw [Relay.run_append]
    have hst : (Relay.run false (Relay.init 100) [.clientData [1, 2, 3] .wouldBlock, .hostEnds, .ready none true 0 false]).ch.stop =
        some .channel := by decide +kernel
    have hh : hostHeard (Relay.run false (Relay.init 100) [.clientData [1, 2, 3] .wouldBlock, .hostEnds, .ready none true 0 false]).log =
        [] := by decide +kernel
    generalize Relay.run false (Relay.init 100) [.clientData [1, 2, 3] .wouldBlock, .hostEnds, .ready none true 0 false] = y at *
    have : Relay.run false y more = y := by
      induction more with
      | nil => rfl
      | cons e more ih =>
        have hstep : y.step false e = y := by unfold Relay.step; rw [hst]
        show Relay.run false (y.step false e) more = y
        rw [hstep]; exact ih
    rw [this]; exact hh

/-- **C103, violated** The host can tear down everything: if it aborts the connection while the server does not watch the socket
(because the client has granted no more), then the next piece of data from the client closes the whole connection of the
client, with all other channels. -/
theorem C103_isolation_violated :
    ∃ evs : List RelayEvent,
      let y := Relay.run false (Relay.init 5) evs
      RelayEntry.dies ∈ y.log ∧ RelayEntry.clientBreaks ∉ y.log ∧ RelayEntry.clientCloses ∉ y.log :=
  ⟨[.hostSends [1, 2, 3, 4, 5], .ready none true 0 false, .hostResets, .error, .clientData [1] .failed], by decide +kernel⟩

/-- **C103, partial** Apart from that, only a client which breaks the rules loses its connection: the channel
takes it down only if the host has aborted its connection or the client has overrun its window (or granted nothing).
Missing: an aborted connection should close only its own channel. -/
theorem C103_isolation_partial (nd : Bool) {w : Nat} (hw : 0 < w) (evs : List RelayEvent)
    (hd : RelayEntry.dies ∈ (Relay.run nd (Relay.init w) evs).log) :
    RelayEntry.resets ∈ (Relay.run nd (Relay.init w) evs).log ∨ RelayEntry.clientBreaks ∈ (Relay.run nd (Relay.init w) evs).log :=
  (relay_run nd hw evs).dies hd

example : RelayEntry.dies ∈ (Relay.run true (Relay.init 5) [.hostSends [1], .clientAdjust 0]).log := by decide +kernel

end Lukko
