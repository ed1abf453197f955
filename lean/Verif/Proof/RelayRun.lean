import Verif.Proof.Relay
/-
  The forwarded connection with both ends.
-/
namespace Lukko
open Model Spec

/-- The part of the history which the input buffer sees. -/
def bufPart : RelayEntry → Option BufEntry
  | .client bs => some (.recv bs)
  | .clientEnds => some .recvEof
  | .toHost bs => some (.took bs)
  | .endToHost => some .sawEof
  | _ => none

def clientView (log : List RelayEntry) : List BufEntry := log.filterMap bufPart

theorem clientView_append (a b) : clientView (a ++ b) = clientView a ++ clientView b := List.filterMap_append

theorem hostSaid_append (a b) : hostSaid (a ++ b) = hostSaid a ++ hostSaid b := List.flatMap_append
theorem clientHeard_append (a b) : clientHeard (a ++ b) = clientHeard a ++ clientHeard b := List.flatMap_append

theorem clientView_map (l : List BufEntry) : clientView (l.map relayOfBuf) = l := by
  induction l with
  | nil => rfl
  | cons e l ih =>
    have : bufPart (relayOfBuf e) = some e := by cases e <;> rfl
    rw [List.map_cons, clientView, List.filterMap_cons, this]
    exact congrArg _ ih

theorem hostSaid_map (l : List BufEntry) : hostSaid (l.map relayOfBuf) = [] := by
  induction l with
  | nil => rfl
  | cons e l ih =>
    have : (relayOfBuf e).hostPart = [] := by cases e <;> rfl
    rw [List.map_cons, hostSaid, List.flatMap_cons, this]
    exact ih

theorem clientHeard_map (l : List BufEntry) : clientHeard (l.map relayOfBuf) = [] := by
  induction l with
  | nil => rfl
  | cons e l ih =>
    have : (relayOfBuf e).toClientPart = [] := by cases e <;> rfl
    rw [List.map_cons, clientHeard, List.flatMap_cons, this]
    exact ih

theorem hostHeard_view (l : List RelayEntry) : taken (clientView l) = hostHeard l := by
  induction l with
  | nil => rfl
  | cons e l ih =>
    rw [show e :: l = [e] ++ l from rfl, clientView_append]
    simp only [taken, hostHeard, List.flatMap_append] at *
    rw [ih]
    cases e <;> rfl

theorem clientSaid_view (l : List RelayEntry) : bufBytes (clientView l) = clientSaid l := by
  induction l with
  | nil => rfl
  | cons e l ih =>
    rw [show e :: l = [e] ++ l from rfl, clientView_append]
    simp only [bufBytes, clientSaid, List.flatMap_append] at *
    rw [ih]
    cases e <;> rfl

theorem clientEnds_view {l : List RelayEntry} : BufEntry.recvEof ∈ clientView l ↔ RelayEntry.clientEnds ∈ l := by
  simp only [clientView, List.mem_filterMap]
  constructor
  · rintro ⟨e, he, h⟩
    cases e <;> simp [bufPart] at h
    exact he
  · exact fun h => ⟨_, h, rfl⟩

theorem endToHost_view {l : List RelayEntry} : BufEntry.sawEof ∈ clientView l ↔ RelayEntry.endToHost ∈ l := by
  simp only [clientView, List.mem_filterMap]
  constructor
  · rintro ⟨e, he, h⟩
    cases e <;> simp [bufPart] at h
    exact he
  · exact fun h => ⟨_, h, rfl⟩

/-! ## What is sent to the client -/

/-- Entries which say what others did. -/
def foreign : RelayEntry → Bool
  | .hostEnds | .resets | .clientCloses | .clientBreaks => true
  | _ => false

structure Sends (y z : Relay) (es : List IoEntry) : Prop where
  ch : z.ch = y.ch
  fin : z.fin = y.fin
  broken : z.broken = y.broken
  inbox : z.inbox = y.inbox.drop (total dataBytes es)
  view : clientView z.log = clientView y.log
  said : hostSaid z.log = hostSaid y.log
  heard : clientHeard z.log = clientHeard y.log ++ y.inbox.take (total dataBytes es)
  mem : ∀ e, foreign e = true → (e ∈ z.log ↔ e ∈ y.log)
  closes : RelayEntry.closes ∈ z.log → RelayEntry.closes ∈ y.log ∨ IoEntry.tx .close ∈ es
  dies : RelayEntry.dies ∈ z.log → RelayEntry.dies ∈ y.log
  grows : y.log <+: z.log

theorem sends_facts (es : List IoEntry) : ∀ y : Relay, Sends y (y.sends es) es := by
  induction es with
  | nil =>
    intro y
    refine ⟨rfl, rfl, rfl, rfl, rfl, rfl, ?_, fun _ _ => Iff.rfl, .inl, id, List.prefix_refl _⟩
    show clientHeard y.log = clientHeard y.log ++ []
    rw [List.append_nil]
  | cons e es ih =>
    intro y
    have h := ih (y.send e)
    have hs : y.sends (e :: es) = (y.send e).sends es := rfl
    rw [hs]
    have ht : total dataBytes (e :: es) = dataBytes e + total dataBytes es := by simp [total]
    -- nothing happens
    have hnone : y.send e = y → dataBytes e = 0 → Sends y ((y.send e).sends es) (e :: es) := by
      intro he hd
      rw [he] at h ⊢
      refine ⟨h.ch, h.fin, h.broken, ?_, h.view, h.said, ?_, h.mem, ?_, h.dies, h.grows⟩
      · rw [h.inbox, ht, hd, Nat.zero_add]
      · rw [h.heard, ht, hd, Nat.zero_add]
      · intro hx
        rcases h.closes hx with hx | hx
        · exact .inl hx
        · exact .inr (List.mem_cons_of_mem _ hx)
    cases e with
    | tx m =>
      cases m with
      | data n =>
        have hl : (y.send (.tx (.data n))).log = y.log ++ [.toClient (y.inbox.take n)] := rfl
        have hi : (y.send (.tx (.data n))).inbox = y.inbox.drop n := rfl
        refine ⟨h.ch, h.fin, h.broken, ?_, ?_, ?_, ?_, ?_, ?_, ?_, ?_⟩
        · rw [h.inbox, hi, List.drop_drop, ht]; rfl
        · rw [h.view, hl, clientView_append]
          show clientView y.log ++ [] = _
          rw [List.append_nil]
        · rw [h.said, hl, hostSaid_append]
          show hostSaid y.log ++ [] = _
          rw [List.append_nil]
        · rw [h.heard, hl, clientHeard_append, hi, ht]
          show clientHeard y.log ++ (y.inbox.take n ++ []) ++ _ = _ ++ y.inbox.take (n + _)
          rw [List.append_nil, List.append_assoc, List.take_add]
        · intro e he
          rw [h.mem e he, hl, List.mem_append, List.mem_singleton]
          constructor
          · rintro (hx | hx)
            · exact hx
            · subst hx; simp [foreign] at he
          · exact .inl
        · intro hx
          rcases h.closes hx with hx | hx
          · rw [hl, List.mem_append, List.mem_singleton] at hx
            rcases hx with hx | hx
            · exact .inl hx
            · cases hx
          · exact .inr (List.mem_cons_of_mem _ hx)
        · intro hx
          have hx := h.dies hx
          rw [hl, List.mem_append, List.mem_singleton] at hx
          rcases hx with hx | hx
          · exact hx
          · cases hx
        · exact (List.prefix_append _ _).trans (hl ▸ h.grows)
      | close =>
        have hl : (y.send (.tx .close)).log = y.log ++ [.closes] := rfl
        refine ⟨h.ch, h.fin, h.broken, ?_, ?_, ?_, ?_, ?_, ?_, ?_, ?_⟩
        · rw [h.inbox, ht]
          show y.inbox.drop _ = y.inbox.drop (0 + _)
          rw [Nat.zero_add]
        · rw [h.view, hl, clientView_append]
          show clientView y.log ++ [] = _
          rw [List.append_nil]
        · rw [h.said, hl, hostSaid_append]
          show hostSaid y.log ++ [] = _
          rw [List.append_nil]
        · rw [h.heard, hl, clientHeard_append, ht]
          show clientHeard y.log ++ [] ++ y.inbox.take _ = _ ++ y.inbox.take (0 + _)
          rw [List.append_nil, Nat.zero_add]
        · intro e he
          rw [h.mem e he, hl, List.mem_append, List.mem_singleton]
          constructor
          · rintro (hx | hx)
            · exact hx
            · subst hx; simp [foreign] at he
          · exact .inl
        · exact fun _ => .inr (by simp)
        · intro hx
          have hx := h.dies hx
          rw [hl, List.mem_append, List.mem_singleton] at hx
          rcases hx with hx | hx
          · exact hx
          · cases hx
        · exact (List.prefix_append _ _).trans (hl ▸ h.grows)
      | _ => exact hnone rfl rfl
    | rx m => exact hnone rfl rfl
    | kexinit => exact hnone rfl rfl
    | newkeys => exact hnone rfl rfl

/-- What `absorb` does; `d` is the number of bytes sent. -/
structure Absorbs (y : Relay) (c : SockCh) (z : Relay) (d : Nat) : Prop where
  ch : z.ch = c
  fin : z.fin = y.fin
  broken : z.broken = y.broken
  inbox : z.inbox = y.inbox.drop d
  view : ∃ l, c.buf.log = y.ch.buf.log ++ l ∧ clientView z.log = clientView y.log ++ l
  said : hostSaid z.log = hostSaid y.log
  heard : clientHeard z.log = clientHeard y.log ++ y.inbox.take d
  mem : ∀ e, foreign e = true → (e ∈ z.log ↔ e ∈ y.log)
  closes : RelayEntry.closes ∈ z.log → RelayEntry.closes ∈ y.log ∨ IoEntry.tx .close ∈ c.sock.log
  dies : RelayEntry.dies ∈ z.log → RelayEntry.dies ∈ y.log ∨ c.stop = some .connection
  grows : y.log <+: z.log

theorem absorb_facts {y : Relay} {c : SockCh} (hb : y.ch.buf.log <+: c.buf.log) (hs : y.ch.sock.log <+: c.sock.log) :
    Absorbs y c (y.absorb c) (total dataBytes c.sock.log - total dataBytes y.ch.sock.log) := by
  obtain ⟨l, hl⟩ := hb
  obtain ⟨es, hes⟩ := hs
  have hd1 : c.buf.log.drop y.ch.buf.log.length = l := by rw [← hl, List.drop_left]
  have hd2 : c.sock.log.drop y.ch.sock.log.length = es := by rw [← hes, List.drop_left]
  have hd : total dataBytes c.sock.log - total dataBytes y.ch.sock.log = total dataBytes es := by
    rw [← hes]; simp [total]
  have hstop : ∀ o : Option IoStop, clientView ((o.map IoStop.relay).getD []) = [] ∧ hostSaid ((o.map IoStop.relay).getD []) = [] ∧
      clientHeard ((o.map IoStop.relay).getD []) = [] ∧ (∀ e ∈ (o.map IoStop.relay).getD [], foreign e = false ∧ e ≠ .closes) ∧
      (RelayEntry.dies ∈ (o.map IoStop.relay).getD [] → o = some .connection) := by
    intro o
    rcases o with _ | _ | _ | _ <;> simp [IoStop.relay, clientView, bufPart, hostSaid, clientHeard,
      RelayEntry.hostPart, RelayEntry.toClientPart, foreign]
  obtain ⟨t1, t2, t3, t4, t5⟩ := hstop c.stop
  unfold Relay.absorb
  rw [hd1, hd2, hd]
  simp only
  have h := sends_facts es { y with ch := c, log := y.log ++ l.map relayOfBuf }
  generalize hz : Relay.sends { y with ch := c, log := y.log ++ l.map relayOfBuf } es = z at *
  generalize (c.stop.map IoStop.relay).getD [] = st at *
  have hm : ∀ e, foreign e = true ∨ e = .closes ∨ e = .dies → (e ∈ y.log ++ l.map relayOfBuf ↔ e ∈ y.log) := by
    intro e he
    rw [List.mem_append, List.mem_map]
    constructor
    · rintro (hx | ⟨x, _, hx⟩)
      · exact hx
      · exfalso; subst hx; cases x <;> simp [relayOfBuf, foreign] at he
    · exact .inl
  refine ⟨h.ch, h.fin, h.broken, h.inbox, ⟨l, hl.symm, ?_⟩, ?_, ?_, ?_, ?_, ?_, ?_⟩
  · rw [clientView_append, t1, List.append_nil, h.view, clientView_append, clientView_map]
  · rw [hostSaid_append, t2, List.append_nil, h.said, hostSaid_append, hostSaid_map, List.append_nil]
  · rw [clientHeard_append, t3, List.append_nil, h.heard, clientHeard_append, clientHeard_map, List.append_nil]
  · intro e he
    rw [List.mem_append, h.mem e he, hm e (.inl he)]
    constructor
    · rintro (hx | hx)
      · exact hx
      · have := (t4 e hx).1; rw [he] at this; cases this
    · exact .inl
  · intro hx
    rw [List.mem_append] at hx
    rcases hx with hx | hx
    · rcases h.closes hx with hx | hx
      · exact .inl ((hm _ (.inr (.inl rfl))).mp hx)
      · exact .inr (by rw [← hes]; exact List.mem_append_right _ hx)
    · exact absurd rfl (t4 _ hx).2
  · intro hx
    rw [List.mem_append] at hx
    rcases hx with hx | hx
    · exact .inl ((hm _ (.inr (.inr rfl))).mp (h.dies hx))
    · exact .inr (t5 hx)
  · exact ((List.prefix_append _ _).trans h.grows).trans (List.prefix_append _ _)

/-! ## The invariant -/

/-- `recv()` returns everything there is (up to the size of the buffer) when the connection is hung up. -/
def Model.RelayEvent.full : RelayEvent → Bool
  | .ready _ _ short true => short == 0
  | _ => true

structure RelayInv (full : Prop) (y : Relay) : Prop where
  ok : RlOk y.ch
  view : clientView y.log = y.ch.buf.log
  said : hostSaid y.log = clientHeard y.log ++ y.inbox
  sent : total dataBytes y.ch.sock.log = (clientHeard y.log).length
  fin : y.fin = true ↔ RelayEntry.hostEnds ∈ y.log
  broken : y.broken = true ↔ RelayEntry.resets ∈ y.log
  notClosed : IoEntry.tx .close ∈ y.ch.sock.log → y.ch.stop = some .channel
  closes : RelayEntry.closes ∈ y.log → y.ch.stop = some .channel
  closed : full → y.ch.stop = some .channel → (RelayEntry.hostEnds ∈ y.log ∧ y.inbox = []) ∨
    RelayEntry.resets ∈ y.log ∨ RelayEntry.clientCloses ∈ y.log
  dies : RelayEntry.dies ∈ y.log → RelayEntry.resets ∈ y.log ∨ RelayEntry.clientBreaks ∈ y.log

theorem RelayInv.init {full w} (hw : 0 < w) : RelayInv full (Relay.init w) := by
  refine ⟨.init hw, rfl, rfl, rfl, ?_, ?_, ?_, ?_, ?_, ?_⟩ <;> simp [Relay.init, SockCh.init]

theorem real_failed {b k} (h : Wrote.real b k = .failed) : b = true := by
  cases b
  · cases k <;> simp [Wrote.real] at h
  · rfl

/-- What is known before the channel acts. -/
theorem RelayInv.before {full} {y : Relay} (h : RelayInv full y) (hs : y.ch.stop = none) (ev : RelayEvent) :
    RelayInv full (y.before ev) ∧ (y.before ev).ch = y.ch ∧ (y.breaks ev = true → RelayEntry.clientBreaks ∈ (y.before ev).log) ∧
    (ev = .clientClose → RelayEntry.clientCloses ∈ (y.before ev).log) ∧ y.log <+: (y.before ev).log ∧
    (∀ a b c d, ev = .ready a b c d → (y.before ev) = y) := by
  have hnote : ∀ e, (e = .hostEnds → y.fin = true) → (e = .resets → y.broken = true) →
      bufPart e = none → e.hostPart = [] → e.toClientPart = [] → e ≠ .closes → e ≠ .dies → RelayInv full (y.note e) := by
    intro e g1 g2 g3 g4 g5 g6 g7
    have hv : clientView [e] = [] := by simp [clientView, g3]
    have hh : hostSaid [e] = [] := by simp [hostSaid, g4]
    have hc : clientHeard [e] = [] := by simp [clientHeard, g5]
    refine ⟨h.ok, ?_, ?_, ?_, ?_, ?_, h.notClosed, ?_, ?_, ?_⟩
    · simp only [Relay.note, clientView_append, hv, List.append_nil]; exact h.view
    · simp only [Relay.note, hostSaid_append, clientHeard_append, hh, hc, List.append_nil]; exact h.said
    · simp only [Relay.note, clientHeard_append, hc, List.append_nil]; exact h.sent
    · simp only [Relay.note, List.mem_append, List.mem_singleton]
      exact ⟨fun hx => .inl (h.fin.mp hx), fun hx => hx.elim h.fin.mpr fun hx => g1 hx.symm⟩
    · simp only [Relay.note, List.mem_append, List.mem_singleton]
      exact ⟨fun hx => .inl (h.broken.mp hx), fun hx => hx.elim h.broken.mpr fun hx => g2 hx.symm⟩
    · simp only [Relay.note, List.mem_append, List.mem_singleton]
      exact fun hx => hx.elim h.closes fun hx => absurd hx.symm g6
    · intro _ hx; exact absurd (hs.symm.trans hx) (by simp)
    · simp only [Relay.note, List.mem_append, List.mem_singleton]
      rintro (hx | hx)
      · exact (h.dies hx).imp .inl .inl
      · exact absurd hx.symm g7
  have hrest : ∀ e : RelayEvent, RelayInv full (bif y.breaks e then y.note .clientBreaks else y) ∧
      (bif y.breaks e then y.note .clientBreaks else y).ch = y.ch ∧
      (y.breaks e = true → RelayEntry.clientBreaks ∈ (bif y.breaks e then y.note .clientBreaks else y).log) ∧
      y.log <+: (bif y.breaks e then y.note .clientBreaks else y).log := by
    intro e
    cases y.breaks e
    · exact ⟨h, rfl, by simp, List.prefix_refl _⟩
    · exact ⟨hnote _ (by simp) (by simp) rfl rfl rfl (by simp) (by simp), rfl, fun _ => by simp [Relay.note], List.prefix_append _ _⟩
  cases ev with
  | hostSends bs =>
    simp only [Relay.before]
    cases hfb : (y.fin || y.broken)
    · simp only [cond_false]
      have hv : clientView [RelayEntry.host bs] = [] := rfl
      have hh : hostSaid [RelayEntry.host bs] = bs := by simp [hostSaid, RelayEntry.hostPart]
      have hc : clientHeard [RelayEntry.host bs] = [] := rfl
      refine ⟨⟨h.ok, ?_, ?_, ?_, ?_, ?_, h.notClosed, ?_, ?_, ?_⟩, rfl, by simp [Relay.breaks], by simp, List.prefix_append _ _, by simp⟩
      · simp only [Relay.note, clientView_append, hv, List.append_nil]; exact h.view
      · simp only [Relay.note, hostSaid_append, clientHeard_append, hh, hc, List.append_nil, h.said, List.append_assoc]
      · simp only [Relay.note, clientHeard_append, hc, List.append_nil]; exact h.sent
      · simp only [Relay.note, List.mem_append, List.mem_singleton, reduceCtorEq, or_false]; exact h.fin
      · simp only [Relay.note, List.mem_append, List.mem_singleton, reduceCtorEq, or_false]; exact h.broken
      · simp only [Relay.note, List.mem_append, List.mem_singleton, reduceCtorEq, or_false]; exact h.closes
      · intro _ hx; exact absurd (hs.symm.trans hx) (by simp)
      · simp only [Relay.note, List.mem_append, List.mem_singleton, reduceCtorEq, or_false]; exact h.dies
    · exact ⟨h, rfl, by simp [Relay.breaks], by simp, List.prefix_refl _, by simp⟩
  | hostEnds =>
    simp only [Relay.before]
    have hv : clientView [RelayEntry.hostEnds] = [] := rfl
    have hh : hostSaid [RelayEntry.hostEnds] = [] := rfl
    have hc : clientHeard [RelayEntry.hostEnds] = [] := rfl
    refine ⟨⟨h.ok, ?_, ?_, ?_, ?_, ?_, h.notClosed, ?_, ?_, ?_⟩, rfl, by simp [Relay.breaks], by simp, List.prefix_append _ _, by simp⟩
    · simp only [Relay.note, clientView_append, hv, List.append_nil]; exact h.view
    · simp only [Relay.note, hostSaid_append, clientHeard_append, hh, hc, List.append_nil, h.said]
    · simp only [Relay.note, clientHeard_append, hc, List.append_nil]; exact h.sent
    · simp [Relay.note]
    · simp only [Relay.note, List.mem_append, List.mem_singleton, reduceCtorEq, or_false]; exact h.broken
    · simp only [Relay.note, List.mem_append, List.mem_singleton, reduceCtorEq, or_false]; exact h.closes
    · intro _ hx; exact absurd (hs.symm.trans hx) (by simp)
    · simp only [Relay.note, List.mem_append, List.mem_singleton, reduceCtorEq, or_false]; exact h.dies
  | hostResets =>
    simp only [Relay.before]
    have hv : clientView [RelayEntry.resets] = [] := rfl
    have hh : hostSaid [RelayEntry.resets] = [] := rfl
    have hc : clientHeard [RelayEntry.resets] = [] := rfl
    refine ⟨⟨h.ok, ?_, ?_, ?_, ?_, ?_, h.notClosed, ?_, ?_, ?_⟩, rfl, by simp [Relay.breaks], by simp, List.prefix_append _ _, by simp⟩
    · simp only [Relay.note, clientView_append, hv, List.append_nil]; exact h.view
    · simp only [Relay.note, hostSaid_append, clientHeard_append, hh, hc, List.append_nil, h.said]
    · simp only [Relay.note, clientHeard_append, hc, List.append_nil]; exact h.sent
    · simp only [Relay.note, List.mem_append, List.mem_singleton, reduceCtorEq, or_false]; exact h.fin
    · simp [Relay.note]
    · simp only [Relay.note, List.mem_append, List.mem_singleton, reduceCtorEq, or_false]; exact h.closes
    · intro _ hx; exact absurd (hs.symm.trans hx) (by simp)
    · intro _; exact .inl (by simp [Relay.note])
  | clientClose =>
    exact ⟨hnote _ (by simp) (by simp) rfl rfl rfl (by simp) (by simp), rfl, by simp [Relay.breaks], fun _ => by simp [Relay.before, Relay.note],
      List.prefix_append _ _, by simp⟩
  | clientData bs k => obtain ⟨a, b, c, d⟩ := hrest (.clientData bs k); exact ⟨a, b, c, by simp, d, by simp⟩
  | clientExt n => obtain ⟨a, b, c, d⟩ := hrest (.clientExt n); exact ⟨a, b, c, by simp, d, by simp⟩
  | clientEof => obtain ⟨a, b, c, d⟩ := hrest .clientEof; exact ⟨a, b, c, by simp, d, by simp⟩
  | clientAdjust n => obtain ⟨a, b, c, d⟩ := hrest (.clientAdjust n); exact ⟨a, b, c, by simp, d, by simp⟩
  | blocked => obtain ⟨a, b, c, d⟩ := hrest .blocked; exact ⟨a, b, c, by simp, d, by simp⟩
  | unblocked => obtain ⟨a, b, c, d⟩ := hrest .unblocked; exact ⟨a, b, c, by simp, d, by simp⟩
  | error => obtain ⟨a, b, c, d⟩ := hrest .error; exact ⟨a, b, c, by simp, d, by simp⟩
  | ready p q r s => obtain ⟨a, b, c, d⟩ := hrest (.ready p q r s); exact ⟨a, b, c, by simp, d, fun _ _ _ _ _ => rfl⟩

/-- The channel has acted. -/
theorem RelayInv.absorb {full} {y : Relay} (h : RelayInv full y) (hs : y.ch.stop = none) {c : SockCh} (hc : RlOk c)
    (hb : y.ch.buf.log <+: c.buf.log) (hk : y.ch.sock.log <+: c.sock.log)
    (hd : total dataBytes c.sock.log - total dataBytes y.ch.sock.log ≤ y.inbox.length)
    (hcl : IoEntry.tx .close ∈ c.sock.log → c.stop = some .channel)
    (hshut : full → c.stop = some .channel → (y.fin = true ∧
      y.inbox.length ≤ total dataBytes c.sock.log - total dataBytes y.ch.sock.log) ∨ y.broken = true ∨ RelayEntry.clientCloses ∈ y.log)
    (hconn : c.stop = some .connection → y.broken = true ∨ RelayEntry.clientBreaks ∈ y.log) :
    RelayInv full (y.absorb c) := by
  have a := absorb_facts hb hk
  have hle : total dataBytes y.ch.sock.log ≤ total dataBytes c.sock.log := by
    obtain ⟨t, ht⟩ := hk
    rw [← ht]; simp [total]
  generalize hdd : total dataBytes c.sock.log - total dataBytes y.ch.sock.log = d at *
  generalize y.absorb c = z at *
  obtain ⟨l, hl1, hl2⟩ := a.view
  refine ⟨?_, ?_, ?_, ?_, ?_, ?_, ?_, ?_, ?_, ?_⟩
  · rw [a.ch]; exact hc
  · rw [a.ch, hl1, hl2, h.view]
  · rw [a.said, a.heard, a.inbox, h.said, List.append_assoc, List.take_append_drop]
  · rw [a.ch, a.heard, List.length_append, ← h.sent, List.length_take]
    omega
  · rw [a.fin, a.mem _ rfl]; exact h.fin
  · rw [a.broken, a.mem _ rfl]; exact h.broken
  · rw [a.ch]; exact hcl
  · rw [a.ch]
    intro hx
    rcases a.closes hx with hx | hx
    · exact absurd (hs.symm.trans (h.closes hx)) (by simp)
    · exact hcl hx
  · rw [a.ch, a.mem _ rfl, a.mem _ rfl, a.mem _ rfl]
    intro hfull hx
    rcases hshut hfull hx with ⟨h1, h2⟩ | h1 | h1
    · exact .inl ⟨h.fin.mp h1, by rw [a.inbox]; exact List.drop_eq_nil_of_le h2⟩
    · exact .inr (.inl (h.broken.mp h1))
    · exact .inr (.inr h1)
  · intro hx
    rw [a.mem _ rfl, a.mem _ rfl]
    rcases a.dies hx with hx | hx
    · exact h.dies hx
    · exact (hconn hx).imp h.broken.mp id

theorem reads_some {y : Relay} {short m} (h : y.reads short = some (some m)) :
    m + 1 ≤ y.inbox.length ∧ m = y.inbox.length - 1 - short := by
  unfold Relay.reads at h
  split at h
  · cases hx : (y.fin || y.broken) <;> rw [hx] at h <;> simp at h
  · rename_i hne
    simp only [Option.some.injEq] at h
    have := List.length_pos_iff.mpr hne
    omega

theorem reads_none {y : Relay} {short} (h : y.reads short = some none) :
    y.inbox = [] ∧ (y.fin = true ∨ y.broken = true) := by
  unfold Relay.reads at h
  split at h
  · rename_i hi
    refine ⟨hi, ?_⟩
    cases hx : (y.fin || y.broken)
    · rw [hx] at h; simp at h
    · exact Bool.or_eq_true_iff.mp hx
  · simp at h

theorem RelayInv.step {full} {y : Relay} (h : RelayInv full y) (nd ev) (hf : full → ev.full = true) : RelayInv full (y.step nd ev) := by
  unfold Relay.step
  cases hs : y.ch.stop with
  | some _ => exact h
  | none =>
    simp only
    obtain ⟨hb, hch, hbr, hcc, _, hready⟩ := h.before hs ev
    have hs' : (y.before ev).ch.stop = none := hch ▸ hs
    have hnc : IoEntry.tx .close ∉ y.ch.sock.log := fun hx => absurd (hs.symm.trans (h.notClosed hx)) (by simp)
    -- nothing is done
    have hidle : y.act nd ev = y.ch → RelayInv full ((y.before ev).absorb (y.act nd ev)) := by
      intro ha
      rw [ha, ← hch]
      refine hb.absorb hs' hb.ok (List.prefix_refl _) (List.prefix_refl _) (by omega) hb.notClosed ?_ ?_
      · intro _ hx; exact absurd (hs'.symm.trans hx) (by simp)
      · intro hx; exact absurd (hs'.symm.trans hx) (by simp)
    -- the channel handles an event which says nothing about the socket
    have hmsg : ∀ e : SockEvent, y.event ev = some e → y.act nd ev = y.ch.handle nd e → e.complete → e.readable = 0 →
        (∀ d, ¬ e.closing d) → (e.breaks y.ch.sock.recvWin → y.breaks ev = true) → (e.failing → y.broken = true) →
        (y.broken = true → (y.before ev).broken = true) →
        RelayInv full ((y.before ev).absorb (y.act nd ev)) := by
      intro e _ ha hc hr hcl hbk hfl hbb
      have hd := handle_did h.ok hs nd e hc
      rw [ha]
      have hdd := hd.data
      refine hb.absorb hs' hd.ok (hch.symm ▸ hd.bufp) (hch.symm ▸ hd.sockp) ?_ ?_ ?_ ?_
      · rw [hch]
        omega
      · intro hx
        exact (hd.close hx).elim (fun hx => absurd hx hnc) id
      · intro _ hx
        exact absurd (hd.shut hx) (hcl _)
      · intro hx
        rcases hd.conn hx with hx | hx
        · exact .inr (hbr (hbk hx))
        · exact .inl (hbb (hfl hx))
    cases ev with
    | hostSends bs => exact hidle rfl
    | hostEnds => exact hidle rfl
    | hostResets => exact hidle rfl
    | clientClose =>
      have hcf := close_facts y.ch h.ok
      have hm := hcc rfl
      show RelayInv full ((y.before .clientClose).absorb y.ch.close)
      rw [← hch] at hcf ⊢
      refine hb.absorb hs' hcf.1 (List.prefix_refl _) hcf.2.2 ?_ (fun _ => rfl) (fun _ _ => .inr (.inr hm)) ?_
      · rw [hcf.2.1]; omega
      · intro hx; cases hx
    | clientData bs k =>
      refine hmsg _ rfl rfl trivial rfl (fun _ => id) ?_ ?_ ?_
      · intro hx; simpa [Relay.breaks, SockEvent.breaks] using hx
      · exact fun hx => real_failed hx
      · intro hx; simp only [Relay.before]; cases y.breaks (.clientData bs k) <;> exact hx
    | clientExt n =>
      refine hmsg _ rfl rfl trivial rfl (fun _ => id) ?_ False.elim ?_
      · intro hx; simpa [Relay.breaks, SockEvent.breaks] using hx
      · intro hx; simp only [Relay.before]; cases y.breaks (.clientExt n) <;> exact hx
    | clientEof => exact hmsg _ rfl rfl trivial rfl (fun _ => id) False.elim False.elim id
    | clientAdjust n =>
      refine hmsg _ rfl rfl trivial rfl (fun _ => id) ?_ False.elim ?_
      · intro hx; simpa [Relay.breaks, SockEvent.breaks] using hx
      · intro hx; simp only [Relay.before]; cases y.breaks (.clientAdjust n) <;> exact hx
    | blocked => exact hmsg _ rfl rfl trivial rfl (fun _ => id) False.elim False.elim id
    | unblocked => exact hmsg _ rfl rfl trivial rfl (fun _ => id) False.elim False.elim id
    | error =>
      cases hbk : y.broken with
      | false =>
        refine hidle ?_
        simp only [Relay.act, Relay.event, hbk, cond_false]
      | true =>
        have ha : y.act nd .error = y.ch.handle nd .error := by simp only [Relay.act, Relay.event, hbk, cond_true]
        have hd := handle_did h.ok hs nd .error trivial
        rw [ha]
        show RelayInv full (y.absorb _)
        have hdd : total dataBytes (y.ch.handle nd .error).sock.log ≤ total dataBytes y.ch.sock.log := hd.data
        refine h.absorb hs hd.ok hd.bufp hd.sockp (by omega) ?_ (fun _ _ => .inr (.inl hbk)) (fun _ => .inl hbk)
        intro hx
        exact (hd.close hx).elim (fun hx => absurd hx hnc) id
    | ready w r short hup =>
      have hyb : y.before (.ready w r short hup) = y := hready _ _ _ _ rfl
      rw [hyb]
      have hd := handle_did h.ok hs nd
        (.ready (w.map y.writes) (bif r then y.reads short else none) (hup && (y.fin || y.broken))) (by
          cases w with
          | none => trivial
          | some ks => exact ⟨_, rfl⟩)
      have ha : y.act nd (.ready w r short hup) = y.ch.handle nd
        (.ready (w.map y.writes) (bif r then y.reads short else none) (hup && (y.fin || y.broken))) := rfl
      rw [ha]
      generalize hc : y.ch.handle nd _ = c at *
      have hle : total dataBytes c.sock.log ≤ total dataBytes y.ch.sock.log + y.inbox.length := by
        refine Nat.le_trans hd.data (Nat.add_le_add_left ?_ _)
        cases r with
        | false => exact Nat.zero_le _
        | true =>
          show (SockEvent.ready (w.map y.writes) (y.reads short) _).readable ≤ _
          cases hx : y.reads short with
          | none => exact Nat.zero_le _
          | some x =>
            cases x with
            | none => exact Nat.zero_le _
            | some m => exact (reads_some hx).1
      refine h.absorb hs hd.ok hd.bufp hd.sockp (by omega) (fun hx => (hd.close hx).elim (fun hx => absurd hx hnc) id) ?_ ?_
      · intro hfull hx
        have hx := hd.shut hx
        cases r with
        | false => exact hx.elim
        | true =>
          simp only [cond_true] at hx
          cases hr : y.reads short with
          | none => rw [hr] at hx; exact hx.elim
          | some x =>
            cases x with
            | none =>
              obtain ⟨h1, h2⟩ := reads_none hr
              rcases h2 with h2 | h2
              · exact .inl ⟨h2, by rw [h1]; exact Nat.zero_le _⟩
              · exact .inr (.inl h2)
            | some m =>
              rw [hr] at hx
              cases hh : (hup && (y.fin || y.broken)) with
              | false => rw [hh] at hx; exact hx.elim
              | true =>
                rw [hh] at hx
                have hx : _ = m + 1 := hx
                rw [Bool.and_eq_true] at hh
                obtain ⟨hh1, hh2⟩ := hh
                subst hh1
                have hsh : short = 0 := by simpa [RelayEvent.full] using hf hfull
                obtain ⟨g1, g2⟩ := reads_some hr
                rcases Bool.or_eq_true_iff.mp hh2 with hh2 | hh2
                · exact .inl ⟨hh2, by omega⟩
                · exact .inr (.inl hh2)
      · intro hx
        rcases hd.conn hx with hx | hx
        · exact hx.elim
        · left
          cases w with
          | none => exact hx.elim
          | some ks =>
            obtain ⟨len, hx⟩ := hx
            simp only [Relay.writes, List.mem_append, List.mem_map, List.mem_singleton, Prod.mk.injEq, reduceCtorEq, and_false,
              or_false] at hx
            obtain ⟨x, _, _, hx⟩ := hx
            exact real_failed hx

theorem Model.Relay.run_snoc {nd y evs ev} : Relay.run nd y (evs ++ [ev]) = (Relay.run nd y evs).step nd ev := by
  simp [Relay.run]

theorem Model.Relay.run_append {nd y a b} : Relay.run nd y (a ++ b) = Relay.run nd (Relay.run nd y a) b := by
  simp [Relay.run]

theorem relay_run (nd) {w} (hw : 0 < w) (evs : List RelayEvent) :
    RelayInv (∀ e ∈ evs, e.full = true) (Relay.run nd (Relay.init w) evs) := by
  suffices h : ∀ full : Prop, (full → ∀ e ∈ evs, e.full = true) → RelayInv full (Relay.run nd (Relay.init w) evs) from h _ id
  intro full hf
  induction evs using Aux.snoc_ind with
  | h0 => exact .init hw
  | h1 evs ev ih =>
    rw [Relay.run_snoc]
    exact (ih fun h e he => hf h e (List.mem_append_left _ he)).step nd ev fun h => hf h ev (by simp)

end Lukko
