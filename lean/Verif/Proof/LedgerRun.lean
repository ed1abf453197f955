import Verif.Proof.Ledger
import Verif.Prop.House
/-
  Every event preserves the account of what is sent to the client.
-/
namespace Lukko
open Spec Model

variable {σ : Type}

/-! ### The records of the channels -/

theorem openTunnel_honest {c : Chance} {p : Bytes} {e : AuthEntry} {ts : List Tunnel} (h : ∀ t ∈ ts, Honest t) :
    ∀ t ∈ openTunnel c p e ts, Honest t := by
  unfold openTunnel
  split
  · exact h
  · cases decide (c.number < MAX_CHANNELS) && !(ts.any fun t => t.isOpen && (t.number == c.number)) with
    | false => exact h
    | true =>
      intro t ht
      rcases List.mem_append.mp ht with ht | ht
      · exact h t ht
      · rw [List.mem_singleton.mp ht]
        exact ⟨rfl, rfl⟩

theorem route_honest {nd : Bool} {c : Chance} {p : Bytes} {e : AuthEntry} {ts : List Tunnel} (h : ∀ t ∈ ts, Honest t) :
    ∀ t ∈ route nd c p e ts, Honest t := by
  unfold route
  split
  · exact openTunnel_honest h
  · exact openTunnel_honest h
  · split
    · rename_i n ev _
      intro t ht
      obtain ⟨t₀, h0, rfl⟩ := List.mem_map.mp ht
      cases t₀.isOpen && (t₀.number == n) with
      | false => exact h t₀ h0
      | true => exact (h t₀ h0).handle ev
    · exact h
  · exact h

theorem routeAll_honest {nd : Bool} {c : Chance} : ∀ (p : Bytes) (es : List AuthEntry) {ts : List Tunnel}, (∀ t ∈ ts, Honest t) →
    ∀ t ∈ routeAll nd c p es ts, Honest t := by
  intro p es
  induction es generalizing p with
  | nil => intro ts h; exact h
  | cons e es ih =>
    intro ts h
    cases e <;> first | exact ih _ h | exact ih _ (route_honest h)

theorem modify_each {α : Type} {P : α → Prop} {f : α → α} (hf : ∀ a, P a → P (f a)) {l : List α} {i : Nat} (h : ∀ a ∈ l, P a) :
    ∀ a ∈ l.modify i f, P a := by
  intro a ha
  obtain ⟨j, hj, rfl⟩ := List.mem_iff_getElem.mp ha
  rw [List.length_modify] at hj
  rw [List.getElem_modify]
  split
  · exact hf _ (h _ (List.getElem_mem hj))
  · exact h _ (List.getElem_mem hj)

theorem onTunnel_honest {nd : Bool} (ev : HubEvent) {t : Tunnel} (h : Honest t) : Honest ((ev.onTunnel nd).2 t) := by
  cases ev with
  | server => exact h
  | connected i => exact h.connected
  | failed i text => exact h.failed text
  | relay i ev =>
    simp only [HubEvent.onTunnel]
    cases ev.isLocal
    · exact h
    · exact h.handle ev

theorem join_honest {c : Incoming} (h : Honest c.line) (hn : c.line.relay = none) (peer window) : Honest (c.join peer window).line := by
  constructor
  · have hs := h.said
    simp only [Tunnel.dataSaid, hn, Option.map_none, Option.getD_none, List.filter_nil] at hs
    exact hs
  · have hs := h.gave
    simp only [Tunnel.gaveBack, hn, Option.map_none, Option.getD_none, List.filter_nil] at hs
    exact hs

theorem bury_honest {c : Incoming} (h : Honest c.line) (peer) : Honest (c.bury peer).line := by
  constructor
  · simp only [Incoming.bury, List.filter_append, h.said]
    rw [serialized_other (Q := isData) (m := makeChannelClose peer) (Writes.noexcept_begin (Writes.u32 _) MSG_CHANNEL_CLOSE) rfl, List.append_nil]
    rfl
  · simp only [Incoming.bury, List.filter_append, h.gave]
    rw [serialized_other (Q := isAdjust) (m := makeChannelClose peer) (Writes.noexcept_begin (Writes.u32 _) MSG_CHANNEL_CLOSE) rfl, List.append_nil]
    rfl

theorem call_honest {nd : Bool} {c : Incoming} (h : Honest c.line) (ev) : Honest (c.handle nd ev).line := by
  unfold Incoming.handle
  cases c.tomb && (ev == .clientClose) with
  | true => exact ⟨h.said, h.gave⟩
  | false => exact Honest.handle h ev

theorem message_honest {nd : Bool} {c : Chance} {b : Board} {m : UInt8} {p : Bytes} (h : ∀ i ∈ b.calls, Honest i.line) :
    ∀ i ∈ (b.message nd c m p).calls, Honest i.line := by
  unfold Board.message
  split
  · split
    · exact h
    · intro i hi
      rcases pop_mem i hi with hi | ⟨c₀, h0, h1, _, rfl, _⟩
      · exact h i hi
      · have hn : c₀.line.relay = none := by
          unfold Incoming.awaits at h1
          rw [Bool.and_eq_true, Bool.and_eq_true] at h1
          exact Option.isNone_iff_eq_none.mp h1.1.2
        cases b.fw.waiting.any (·.1 == c₀.call) with
        | true => exact join_honest (h c₀ h0) hn _ _
        | false => exact bury_honest (h c₀ h0) _
  · split
    · split
      · exact h
      · intro i hi
        rcases pop_mem i hi with hi | ⟨c₀, h0, h1, _, rfl, _⟩
        · exact h i hi
        · exact ⟨(h c₀ h0).said, (h c₀ h0).gave⟩
    · split
      · exact h
      · rename_i n ev _
        intro i hi
        obtain ⟨i₀, h0, rfl⟩ := List.mem_map.mp hi
        cases i₀.line.isOpen && (i₀.line.number == n) with
        | false => exact h i₀ h0
        | true => exact call_honest (h i₀ h0) ev

theorem entries_honest {nd : Bool} {c : Chance} (es : List AuthEntry) : ∀ {b : Board}, (∀ i ∈ b.calls, Honest i.line) →
    ∀ i ∈ (es.foldl (Board.entry nd c) b).calls, Honest i.line := by
  induction es with
  | nil => intro b h; exact h
  | cons e es ih =>
    intro b h
    refine ih ?_
    unfold Board.entry
    split
    · exact message_honest h
    · exact h

theorem happens_honest {nd : Bool} {b : Board} (ev : DeskEvent) (h : ∀ i ∈ b.calls, Honest i.line) :
    ∀ i ∈ (b.happens nd ev).calls, Honest i.line := by
  cases ev with
  | server => exact h
  | bound n res => exact h
  | hangup i =>
    simp only [Board.happens]
    split <;> exact h
  | relay i ev =>
    refine modify_each (P := fun c : Incoming => Honest c.line) (fun c h0 => ?_) h
    cases ev.isLocal
    · exact h0
    · exact Honest.handle h0 ev
  | accept i n origin originPort =>
    simp only [Board.happens, Board.accept]
    split
    · exact h
    · cases hg : decide (n < MAX_CHANNELS) && !(b.calls.any fun c => c.line.isOpen && (c.line.number == n)) with
      | false => exact h
      | true =>
        rw [Bool.and_eq_true, decide_eq_true_iff] at hg
        simp only [cond_true]
        split
        · exact h
        · rename_i p hp
          intro c hc
          rcases List.mem_append.mp hc with hc | hc
          · exact h c hc
          · rw [List.mem_singleton.mp hc]
            constructor
            · have : isData p = false := by rw [offer_bytes hg.1 hp]; rfl
              simp only [Incoming.offer, Tunnel.dataSaid, Option.map_none, Option.getD_none, List.filter_nil, this, Bool.false_eq_true,
                not_false_eq_true, List.filter_cons_of_neg]
            · have : isAdjust p = false := by rw [offer_bytes hg.1 hp]; rfl
              simp only [Incoming.offer, Tunnel.gaveBack, Option.map_none, Option.getD_none, List.filter_nil, this, Bool.false_eq_true,
                not_false_eq_true, List.filter_cons_of_neg]

/-! ### The account -/

/-- Everything the channels have to say. -/
def houseSays (h : House σ) : List Bytes :=
  h.sessions.flatMap sessionSays ++ (h.tunnels.flatMap Tunnel.out ++ h.board.calls.flatMap callSays)

theorem houseSays_count (h : House σ) (p : Bytes) : (houseSays h).count p =
    (h.sessions.flatMap sessionSays).count p + (h.tunnels.flatMap Tunnel.out).count p + (h.board.calls.flatMap callSays).count p := by
  simp only [houseSays, List.count_append]
  omega

/-- `F`: the data which was sent on behalf of others. -/
structure LInv (F : List Bytes) (h : House σ) : Prop where
  tunnels : ∀ t ∈ h.tunnels, Honest t
  calls : ∀ c ∈ h.board.calls, Honest c.line
  most : ∀ p, isFlow p = true →
    (packetsSent h.server.trans.posts).count p ≤ (h.server.auth.log.filterMap authAnswer).count p + (houseSays h).count p + F.count p
  exact : h.server.live = true → ∀ p, isFlow p = true → F.count p = 0 →
    (packetsSent h.server.trans.posts).count p = (h.server.auth.log.filterMap authAnswer).count p + (houseSays h).count p

theorem LInv.init : LInv [] ({} : House σ) where
  tunnels := fun _ h => by cases h
  calls := fun _ h => by cases h
  most := fun _ _ => Nat.le_refl _
  exact := fun _ _ _ _ => rfl

theorem ending_calls (l l' : Bool) (b : Board) : (bif l && !l' then { b with fw := b.fw.finish } else b).calls = b.calls := by
  cases l && !l' <;> rfl

theorem LInv.settle {x : HouseEnv σ} (hx : EnvOk x.host.server.trans) {F : List Bytes} {h : House σ} {s : Server σ} (hs : SInv x.host.server s)
    {ss : List Session} {ts : List Tunnel} {b : Board} {new more : List Incoming}
    (hS : SessionsLater h.sessions ss) (hT : TunnelsLater h.tunnels ts) (hb : b.calls = new ++ more) (hC : CallsLater h.board.calls new)
    (hht : ∀ t ∈ ts, Honest t) (hhc : ∀ c ∈ b.calls, Honest c.line)
    (hm : ∀ p, isFlow p = true →
      (packetsSent s.trans.posts).count p ≤ (s.auth.log.filterMap authAnswer).count p + (houseSays h).count p + F.count p)
    (he : s.live = true → ∀ p, isFlow p = true → F.count p = 0 →
      (packetsSent s.trans.posts).count p = (s.auth.log.filterMap authAnswer).count p + (houseSays h).count p)
    {h' : House σ} (hr : h.settle x s ss ts b = some h')
    (hch : h'.sessions ≠ [] ∨ h'.tunnels ≠ [] ∨ h'.board.calls ≠ [] → h'.server.auth.channels = true) : LInv F h' := by
  obtain ⟨s', r1, r2, r3, r4, r5⟩ := send_run hx
    (ps := newMessages h.sessions ss ++ tunnelMessages h.tunnels ts ++ callMessages h.board.calls b.calls) hs
  rw [House.settle, r1, Option.map_some, Option.some.injEq] at hr
  subst hr
  simp only [ending_calls] at hch
  obtain ⟨l, l1, l2⟩ := send_some r1
  have hsum : ∀ p, (newMessages h.sessions ss ++ tunnelMessages h.tunnels ts ++ callMessages h.board.calls b.calls).count p +
      (houseSays h).count p = (ss.flatMap sessionSays).count p + (ts.flatMap Tunnel.out).count p + (b.calls.flatMap callSays).count p := by
    intro p
    have c1 := newMessages_count hS p
    have c2 := tunnelMessages_count hT p
    have c3 := callMessages_count (more := more) hC p
    rw [← hb] at c3
    rw [houseSays_count]
    simp only [List.count_append]
    omega
  refine ⟨hht, by simp only [ending_calls]; exact hhc, ?_, ?_⟩
  · intro p hp
    rw [houseSays_count]
    simp only [ending_calls, r3]
    rw [l1, List.count_append, ← hsum p]
    have := l2.count_le (a := p)
    have := hm p hp
    omega
  · intro hl p hp hF
    rw [houseSays_count]
    simp only [ending_calls, r3]
    rw [← hsum p]
    have hl' := r4 hl
    have := he hl' p hp hF
    cases hc : s.auth.channels with
    | true =>
      rw [r5 hl' hc, List.count_append]
      omega
    | false =>
      have hn : ss = [] ∧ ts = [] ∧ b.calls = [] := by
        rw [r3, hc] at hch
        refine ⟨?_, ?_, ?_⟩ <;> apply Classical.byContradiction <;> intro hz
        · exact absurd (hch (.inl hz)) (by simp)
        · exact absurd (hch (.inr (.inl hz))) (by simp)
        · exact absurd (hch (.inr (.inr hz))) (by simp)
      have hz := hsum p
      rw [l1, List.count_append]
      have hle := l2.count_le (a := p)
      rw [hn.1, hn.2.1, hn.2.2] at hz hle ⊢
      simp only [List.flatMap_nil, List.count_nil] at hz
      omega

/-- The data which is sent on behalf of others. -/
def HouseEvent.foreign : HouseEvent → List Bytes
  | .server (.send p) _ => [p].filter isFlow
  | _ => []

theorem server_count {sx : ServerEnv σ} (hx : EnvOk sx.trans) {s s' : Server σ} (hi : SInv sx s) {ev : ServerEvent} {c : Chance}
    (h : s.step sx ev = some s') {p : Bytes} (hp : isFlow p = true) :
    ∃ k, (s'.auth.log.filterMap authAnswer).count p = (s.auth.log.filterMap authAnswer).count p + k ∧
      (packetsSent s'.trans.posts).count p ≤ (packetsSent s.trans.posts).count p + k + (HouseEvent.foreign (.server ev c)).count p ∧
      ((HouseEvent.foreign (.server ev c)).count p = 0 → s'.live = true →
        (packetsSent s'.trans.posts).count p = (packetsSent s.trans.posts).count p + k) := by
  cases hs : ServerEvent.isSend ev with
  | false =>
    obtain ⟨new, l, a1, a2, a3, a4⟩ := (credits_step hx hi hs h).step
    have hu : ∀ posts, (packetsSent posts).count p = (upperSent posts).count p := fun posts => (count_upper hp _).symm
    refine ⟨(new.filterMap authAnswer).count p, by rw [a1, List.filterMap_append, List.count_append], ?_, ?_⟩
    · rw [hu, hu, a2, List.count_append]
      have := a3.sublist.count_le (a := p)
      rw [count_upper hp] at this
      omega
    · intro _ hl
      rw [hu, hu, a2, List.count_append, a4 hl, count_upper hp]
  | true =>
    cases ev with
    | send q =>
      simp only [Server.step] at h
      cases hg : s.live && s.auth.channels with
      | false => rw [hg] at h; cases h; exact ⟨0, rfl, Nat.le_add_right _ _, fun _ _ => rfl⟩
      | true =>
        rw [hg] at h
        rw [Bool.and_eq_true] at hg
        obtain ⟨t, h1, rfl⟩ := Option.map_eq_some_iff.mp h
        simp only [Trans.step, (Server.live_iff.mp hg.1).1, cond_true] at h1
        obtain ⟨_, _, e⟩ := sendPacket_posts h1
        have : (packetsSent t.posts).count p = (packetsSent s.trans.posts).count p + (HouseEvent.foreign (.server (.send q) c)).count p := by
          rw [e, packetsSent_append, List.count_append, show packetsSent [Outgoing.packet q] = [q] from rfl, HouseEvent.foreign,
            List.count_filter hp]
        exact ⟨0, rfl, Nat.le_of_eq this, fun hz _ => by simp only [this, hz]⟩
    | _ => cases hs

theorem HoInv.engaged {x : HouseEnv σ} (hx : EnvOk x.host.server.trans) {h : House σ} (hi : HoInv x h) :
    h.sessions ≠ [] ∨ h.tunnels ≠ [] ∨ h.board.calls ≠ [] → h.server.auth.channels = true := by
  obtain ⟨e1, r1⟩ := hi.host
  obtain ⟨e2, r2⟩ := hi.hub
  obtain ⟨e3, r3⟩ := hi.desk
  rintro (hz | hz | hz)
  · exact (HInv.of_run (x := x.host) hx r1).chan hz
  · exact (HubInv.of_run (x := x.hub) hx r2).chan hz
  · exact (DInv.of_run (x := x.hub) hx r3).chan (.inr (.inr hz))

theorem LInv.step {x : HouseEnv σ} (hx : EnvOk x.host.server.trans) {F : List Bytes} {h h' : House σ} (hi : HoInv x h) (hl : LInv F h)
    {ev : HouseEvent} (hr : h.step x ev = some h') : LInv (F ++ HouseEvent.foreign ev) h' := by
  have hs := hi.server hx
  have hi' : HoInv x h' := by
    obtain ⟨g, g1, g2⟩ := hi.step hx ev
    rw [hr] at g1
    cases g1
    exact g2
  have hch := hi'.engaged hx
  have hc0 : h.board.calls = h.board.calls ++ [] := (List.append_nil _).symm
  obtain ⟨e1, r1⟩ := hi.host
  obtain ⟨e2, r2⟩ := hi.hub
  obtain ⟨e3, r3⟩ := hi.desk
  have i1 := HInv.of_run (x := x.host) hx r1
  have i2 := HubInv.of_run (x := x.hub) hx r2
  have i3 := DInv.of_run (x := x.hub) hx r3
  cases ev with
  | session i ev =>
    rw [show HouseEvent.foreign (.session i ev) = [] from rfl, List.append_nil]
    simp only [House.step] at hr
    cases hloc : ev.isLocal with
    | false => rw [hloc] at hr; cases hr; exact hl
    | true =>
      rw [hloc] at hr
      exact LInv.settle hx hs (.modify (fun s => .handle s ev) _ _) .rfl' hc0 .rfl' hl.tunnels hl.calls hl.most hl.exact hr hch
  | tunnel ev =>
    rw [show HouseEvent.foreign (.tunnel ev) = [] from rfl, List.append_nil]
    simp only [House.step] at hr
    exact LInv.settle hx hs .rfl' (.modify (onTunnel_later ev) _ _) hc0 .rfl'
      (modify_each (P := Honest) (fun t => onTunnel_honest ev) hl.tunnels) hl.calls hl.most hl.exact hr hch
  | desk ev =>
    rw [show HouseEvent.foreign (.desk ev) = [] from rfl, List.append_nil]
    simp only [House.step] at hr
    have : ∃ new more, (h.board.happens x.ndebug (h.deskEvent ev)).calls = new ++ more ∧ CallsLater h.board.calls new := by
      cases hlv : h.server.live with
      | true =>
        obtain ⟨_, _, _, _, _, new, more, g6, g7⟩ := happened (nd := x.ndebug) (i3.core hlv) i3.ok i3.apart i3.counted (h.deskEvent ev) rfl
        exact ⟨new, more, g6, g7⟩
      | false =>
        obtain ⟨_, _, _, _, _, new, more, g6, g7⟩ := happened_end (nd := x.ndebug) (i3.over hlv) i3.ok i3.apart i3.counted (h.deskEvent ev) rfl
        exact ⟨new, more, g6, g7⟩
    obtain ⟨new, more, g1, g2⟩ := this
    exact LInv.settle hx hs .rfl' .rfl' g1 g2 hl.tunnels (happens_honest _ hl.calls) hl.most hl.exact hr hch
  | server ev c =>
    obtain ⟨s', h1, h2⟩ := hs.step hx ev
    simp only [House.step, h1, Option.bind_some, House.deliver] at hr
    generalize hc' : ({ c with number := h.number c.number } : Chance) = c' at hr
    have hb := below_step hx hs h1
    obtain ⟨z, es, tail, n1, n2, n3, n4⟩ := hb.news
    have hprox : h.server.auth.channels = true → h.server.auth.proxied = false := by
      intro hc
      obtain ⟨evs, he⟩ := hs.auth
      rcases inv_run (cfg := h.server.cfg x.host.server) evs with ⟨hp, _⟩ | hp
      · rw [← he] at hp
        have := hp.chan
        rw [hc] at this
        cases this
      · rw [← he] at hp
        exact (hp.chan1 hc).2.1
    have hrun : ∃ sid aevs, s'.auth = Auth.run { x.host.server.auth with sessionId := sid } {} aevs := by
      obtain ⟨evs, he⟩ := h2.auth
      exact ⟨_, evs, he⟩
    have hdr : s'.auth.log.drop h.server.auth.log.length = es ++ tail := by rw [n1, List.drop_left]
    rw [hdr] at hr
    obtain ⟨_, _, d3, _⟩ := delivered n1 n2 n3 hrun hprox i1.chan i1.ok i1.apart c'
    obtain ⟨_, _, f3, _⟩ := routed (nd := x.ndebug) n1 n2 n3 hprox i2.chan i2.ok i2.apart c'
    have hC : CallsLater h.board.calls (bif h.server.live then (es ++ tail).foldl (Board.entry x.ndebug c') h.board else h.board).calls := by
      cases hlv : h.server.live with
      | false => exact .rfl'
      | true =>
        obtain ⟨_, k3, _⟩ := posted (nd := x.ndebug) n1 n2 n3 hprox i3.chan ⟨i3.core hlv, i3.ok⟩ c' rfl
        exact k3
    refine LInv.settle hx h2 d3 f3 (List.append_nil _).symm hC (routeAll_honest _ _ hl.tunnels) ?_ ?_ ?_ hr hch
    · cases h.server.live with
      | false => exact hl.calls
      | true => exact entries_honest _ hl.calls
    · intro p hp
      obtain ⟨k, k1, k2, _⟩ := server_count hx hs (c := c) h1 hp
      have := hl.most p hp
      rw [List.count_append]
      omega
    · intro hlv p hp hF
      rw [List.count_append, Nat.add_eq_zero_iff] at hF
      obtain ⟨hF, hF'⟩ := hF
      obtain ⟨k, k1, _, k3⟩ := server_count hx hs (c := c) h1 hp
      have := hl.exact (hb.live hlv) p hp hF
      have := k3 hF' hlv
      omega

theorem LInv.run {x : HouseEnv σ} (hx : EnvOk x.host.server.trans) {evs : List HouseEvent} : ∀ {F : List Bytes} {h h' : House σ},
    HoInv x h → LInv F h → h.run x evs = some h' → HoInv x h' ∧ LInv (F ++ evs.flatMap HouseEvent.foreign) h' := by
  induction evs with
  | nil => intro F h h' hi hl hr; cases hr; rw [List.flatMap_nil, List.append_nil]; exact ⟨hi, hl⟩
  | cons ev evs ih =>
    intro F h h' hi hl hr
    obtain ⟨g, g1, g2⟩ := Option.bind_eq_some_iff.mp hr
    obtain ⟨g', k1, k2⟩ := hi.step hx ev
    rw [g1] at k1
    cases k1
    rw [List.flatMap_cons, ← List.append_assoc]
    exact ih k2 (hl.step hx hi g1) g2

end Lukko
