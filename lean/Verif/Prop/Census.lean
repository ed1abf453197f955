import Verif.Proof.CensusClosed
/-
  C104: the statistics about connections, and the log, tell what became of every connection.
-/
namespace Lukko
open Model Spec

/-- A day of a server: one connection is turned away, one has to wait and leaves, one has to wait and is served until
it sends garbage, one hangs up, one times out, one asks for a strange service, one is terminated, one disconnects, one
is being served. -/
def censusDay : List CensusEvent :=
  [.accept .refused, .accept .waits, .accept .waits, .leave 1, .timer 2 true, .accept .starts, .accept .starts,
   .disconnect 2 2 true, .drop 2, .drop 3, .accept .starts, .timeout 4 false, .wrongService 5 true, .accept .starts,
   .terminate [(6, true), (5, true)], .drop 6, .accept .starts, .accept .fails, .clientDisconnect 7, .accept .starts]

/-- **C104, no connection is lost**: at any time, every accepted connection was turned away, could not be set up, left
while it was waiting, is waiting, is being served, or has ended; "connections_active" is the number of connections
which are served and have not ended, and "connections_accepted" is the number of connections that were accepted. -/
theorem C104_conservation (evs : List CensusEvent) :
    let y := Census.run {} evs
    acceptances y.log = refusals y.log + failuresToStart y.log + departures y.log + y.waitingCount + y.activeGauge + endings y.log ∧
    y.activeGauge + endings y.log = starts y.log ∧
    census .accepted y.log = acceptances y.log := by
  intro y
  have h : CensusInv y := CensusInv.init.run evs
  have h1 : y.activeGauge = y.conns.countP (·.phase != .waiting) := List.countP_eq_length_filter.symm
  have h2 : y.waitingCount = y.conns.countP (·.phase == .waiting) := List.countP_eq_length_filter.symm
  have h3 : y.conns.length = y.conns.countP (·.phase == .waiting) + y.conns.countP (·.phase != .waiting) := by
    rw [List.length_eq_countP_add_countP (fun c : CensusConn => c.phase == .waiting)]
    congr 1
    apply List.countP_congr
    intro c _
    cases c.phase <;> simp
  have := h.total
  have := h.served
  exact ⟨by omega, by omega, h.bal.accepted⟩

example : acceptances (Census.run {} censusDay).log = 10 ∧ (Census.run {} censusDay).activeGauge = 2 ∧
    endings (Census.run {} censusDay).log = 5 ∧ departures (Census.run {} censusDay).log = 1 ∧
    refusals (Census.run {} censusDay).log = 1 ∧ failuresToStart (Census.run {} censusDay).log = 1 := by decide +kernel

/-- **C104, the counters**: "connections_rejected" counts the connections which were turned away and those which were
told that they are not welcome; `closed{reason="terminated"}` counts the orders of the administrator,
`{reason="unsupported_service"}` the requests for a strange service, and `{reason="protocol"}` the good-byes because of
a protocol error, *and the keys which could not be parsed*. -/
theorem C104_counters (evs : List CensusEvent) :
    let log := (Census.run {} evs).log
    census .rejected log = refusals log + unwelcomeGoodbyes log ∧
    census .terminated log = orders log ∧
    census .unsupportedService log = wrongServices log ∧
    census .protocol log = protocolGoodbyes log + badKeys log := by
  have h : CensusInv (Census.run {} evs) := CensusInv.init.run evs
  exact ⟨h.bal.rejected, h.bal.terminated, h.bal.unsupported, h.bal.protocol⟩

example : census .rejected (Census.run {} censusDay).log = 1 ∧ census .protocol (Census.run {} censusDay).log = 1 ∧
    census .terminated (Census.run {} censusDay).log = 2 ∧
    census .unsupportedService (Census.run {} censusDay).log = 1 := by decide +kernel

/-- **C104, one line**: about the end of a connection at most one line is logged, exactly one when it has ended, and
none for a connection which was never served. -/
theorem C104_one_line (evs : List CensusEvent) (id : Nat) :
    let log := (Census.run {} evs).log
    endLines id log ≤ 1 ∧
    (.ended id ∈ log → endLines id log = 1 ∧ .started id ∈ log) ∧
    (.started id ∉ log → endLines id log = 0) := by
  intro log
  have h : CensusInv (Census.run {} evs) := CensusInv.init.run evs
  refine ⟨?_, fun he => ⟨(h.gone id he).2.1, (h.gone id he).2.2.2⟩, h.others id⟩
  cases hs : decide (CensusEntry.started id ∈ log)
  · exact Nat.le_trans (Nat.le_of_eq (h.others id (of_decide_eq_false hs))) (Nat.zero_le 1)
  · rcases (h.old id (of_decide_eq_true hs)).2 with he | ⟨c, hc, rfl, _⟩
    · exact Nat.le_of_eq (h.gone id he).2.1
    · refine Nat.le_trans (Nat.le_of_eq (h.lines c hc)) ?_
      cases c.logDisconnect <;> simp

/-- Also after a reason was logged and the connection lingers until its good-bye has been sent. -/
example : endLines 2 (Census.run {} censusDay).log = 1 ∧ endLines 5 (Census.run {} censusDay).log = 1 ∧
    CensusEntry.line 2 .disconnecting ∈ (Census.run {} censusDay).log ∧
    CensusEntry.line 3 .disconnected ∈ (Census.run {} censusDay).log ∧
    CensusEntry.line 4 .authTimeout ∈ (Census.run {} censusDay).log ∧
    CensusEntry.line 6 .terminating ∈ (Census.run {} censusDay).log ∧
    CensusEntry.line 7 .clientDisconnected ∈ (Census.run {} censusDay).log ∧
    endLines 8 (Census.run {} censusDay).log = 0 := by decide +kernel

/-- **C104, the end**: when the server exits, nothing is left: every connection which was ever served has ended, with
one line. -/
theorem C104_exit (evs : List CensusEvent) :
    let y := (Census.run {} evs).step .exit
    y.activeGauge = 0 ∧ y.waitingCount = 0 ∧ ∀ id, .started id ∈ y.log → .ended id ∈ y.log ∧ endLines id y.log = 1 := by
  have h := (CensusInv.init.run evs).exit
  refine ⟨?_, ?_, fun id hs => ?_⟩
  · unfold Census.activeGauge; rw [h.2]; rfl
  · unfold Census.waitingCount; rw [h.2]; rfl
  · rcases (h.1.old id hs).2 with he | ⟨c, hc, _⟩
    · exact ⟨he, (h.1.gone id he).2.1⟩
    · rw [h.2] at hc; cases hc

example : ((Census.run {} censusDay).step .exit).activeGauge = 0 ∧ endLines 5 ((Census.run {} censusDay).step .exit).log = 1 ∧
    CensusEntry.ended 5 ∈ ((Census.run {} censusDay).step .exit).log := by decide +kernel

/-- **C104, counted once, what holds**: a connection is counted as rejected or closed at most once, and not before it
is, apart from one count for each unparsable key and one for each order to terminate it. -/
theorem C104_counted_partial (evs : List CensusEvent) (id : Nat) :
    let log := (Census.run {} evs).log
    countedClosed id log ≤ badKeysOf id log + ordersOf id log + 1 ∧
    ((∃ c ∈ (Census.run {} evs).conns, c.id = id ∧ c.phase = .live) → countedClosed id log ≤ badKeysOf id log + ordersOf id log) := by
  have h : ClosedInv (Census.run {} evs) := ClosedInv.init.run evs CensusInv.init
  refine ⟨h.bound id, ?_⟩
  rintro ⟨c, hc, he, hp⟩
  exact h.still id (.inl ⟨c, hc, he, by rw [hp]; simp⟩)

example : countedClosed 2 (Census.run {} censusDay).log = 1 ∧ countedClosed 0 (Census.run {} censusDay).log = 1 ∧
    countedClosed 8 (Census.run {} censusDay).log = 0 := by decide +kernel

/-- **C104, counted once, false for unparsable keys**: every unparsable key is counted as a connection closed by a protocol
error, though the connection stays open. -/
theorem C104_protocol_violated (n : Nat) :
    let y := Census.run {} (.accept .starts :: List.replicate n (.badKey 0))
    census .protocol y.log = n ∧ y.activeGauge = 1 ∧ endings y.log = 0 ∧ acceptances y.log = 1 := by
  have key : ∀ (n : Nat) (y : Census), y.conns = [{ id := 0, phase := .live }] →
      (Census.run y (List.replicate n (.badKey 0))).conns = y.conns ∧
      census .protocol (Census.run y (List.replicate n (.badKey 0))).log = census .protocol y.log + n ∧
      endings (Census.run y (List.replicate n (.badKey 0))).log = endings y.log ∧
      acceptances (Census.run y (List.replicate n (.badKey 0))).log = acceptances y.log := by
    intro n
    induction n with
    | zero => intro y _; exact ⟨rfl, rfl, rfl, rfl⟩
    | succ n ih =>
      intro y hy
      have hs : y.step (.badKey 0) = y.say [.badKey 0, .count 0 .protocol] := by
        unfold Census.step Census.active Census.find
        simp only [hy]; rfl
      rw [List.replicate_succ]
      show _ ∧ _
      have h1 := ih (y.step (.badKey 0)) (by rw [hs]; exact hy)
      show (Census.run (y.step (.badKey 0)) _).conns = _ ∧ census .protocol (Census.run (y.step (.badKey 0)) _).log = _ ∧
        endings (Census.run (y.step (.badKey 0)) _).log = _ ∧ acceptances (Census.run (y.step (.badKey 0)) _).log = _
      rw [h1.1, h1.2.1, h1.2.2.1, h1.2.2.2, hs]
      refine ⟨rfl, ?_, ?_, ?_⟩ <;> simp only [census, endings, acceptances, Census.say, List.countP_append]
      · show _ + 1 + n = _; omega
      · rfl
      · rfl
  have h := key n (Census.step {} (.accept .starts)) rfl
  refine ⟨h.2.1.trans (Nat.zero_add n), ?_, h.2.2.1, h.2.2.2⟩
  show ((Census.run (Census.step {} (.accept .starts)) _).conns.filter _).length = 1
  rw [h.1]; rfl

example : countedClosed 0 (Census.run {} (.accept .starts :: List.replicate 3 (.badKey 0))).log = 3 := by decide +kernel

/-- **C104, counted once, false for terminated connections**: a connection whose client does not read the good-bye is
counted as terminated by each order, though it was terminated once (or was closed for another reason already). -/
theorem C104_terminated_violated :
    census .terminated (Census.run {} [.accept .starts, .terminate [(0, true)], .terminate [(0, true)]]).log = 2 ∧
    starts (Census.run {} [.accept .starts, .terminate [(0, true)], .terminate [(0, true)]]).log = 1 ∧
    countedClosed 0 (Census.run {} [.accept .starts, .disconnect 0 2 true, .terminate [(0, true)]]).log = 2 := by decide +kernel

/-- **C104, counted, false for the rest**: a connection which hangs up, breaks, times out or disconnects is counted under
no reason at all: "connections_closed" is not the number of closed connections. -/
theorem C104_uncounted_violated :
    (∀ ev ∈ [CensusEvent.drop 0, .clientDisconnect 0, .timeout 0 false, .disconnect 0 11 false],
      endings (Census.run {} [.accept .starts, ev]).log = 1 ∧ countedClosed 0 (Census.run {} [.accept .starts, ev]).log = 0) := by
  decide +kernel

end Lukko
