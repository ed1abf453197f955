import Verif.Proof.HostRun
/-
  The invariant of a connection with session channels.
-/
namespace Lukko
open Spec Model

variable {σ : Type} {x : HostEnv σ}

theorem parseOpen_inv {p q} (h : parseChannelOpen.parse p = some q) :
    p = channelOpenBody q.type q.peerChannel q.window q.maxPacket q.rest := by
  obtain ⟨s, hp0⟩ := parse_inv h
  obtain ⟨a, s1, h1, hp1⟩ := bind_inv hp0
  obtain ⟨b, s2, h2, hp2⟩ := bind_inv hp1
  obtain ⟨c, s3, h3, hp3⟩ := bind_inv hp2
  obtain ⟨d, s4, h4, hp4⟩ := bind_inv hp3
  obtain ⟨e, s5, h5, hp5⟩ := bind_inv hp4
  obtain ⟨rfl, _⟩ := readString_inv h1
  obtain ⟨rfl, _⟩ := readU32_inv h2
  obtain ⟨rfl, _⟩ := readU32_inv h3
  obtain ⟨rfl, _⟩ := readU32_inv h4
  simp only [getRest, Option.some.injEq, Prod.mk.injEq] at h5
  obtain ⟨rfl, rfl⟩ := h5
  simp only [pure_apply, Option.some.injEq, Prod.mk.injEq] at hp5
  obtain ⟨rfl, _⟩ := hp5
  rfl

/-! ### How the list of sessions grows -/

/-- The same session, later. -/
structure SessLater (s s' : Session) : Prop where
  number : s'.number = s.number
  peer : s'.peer = s.peer
  isOpen : s'.isOpen = true → s.isOpen = true
  log : ∃ l, s'.ch.s.log = s.ch.s.log ++ l

theorem SessLater.rfl' {s : Session} : SessLater s s := ⟨rfl, rfl, id, ⟨[], by simp⟩⟩

theorem SessLater.handle (s : Session) (ev) : SessLater s (s.handle ev) := by
  refine ⟨rfl, rfl, fun h => ?_, ?_⟩
  · simp only [Session.handle, Bool.and_eq_true] at h
    exact h.1
  · by_cases hs : s.ch.stop = none
    · rw [handle_running hs]
      rcases handle_marked s.cfg s.ch ev with hm | ⟨e, _⟩
      · obtain ⟨l, hl, _⟩ := hm.log
        exact ⟨_, hl⟩
      · exact ⟨[], by rw [e]; simp⟩
    · rw [handle_stopped hs]; exact ⟨[], by simp⟩

inductive SessionsLater : List Session → List Session → Prop
  | nil {new} : (∀ s ∈ new, s.ch.s.log = []) → SessionsLater [] new
  | cons {s s' ss ss'} : SessLater s s' → SessionsLater ss ss' → SessionsLater (s :: ss) (s' :: ss')

theorem SessionsLater.rfl' : ∀ {ss : List Session}, SessionsLater ss ss
  | [] => .nil (by simp)
  | _ :: _ => .cons .rfl' rfl'

theorem SessionsLater.map {f : Session → Session} (hf : ∀ s, SessLater s (f s)) : ∀ ss : List Session, SessionsLater ss (ss.map f)
  | [] => .nil (by simp)
  | _ :: ss => .cons (hf _) (SessionsLater.map hf ss)

theorem SessionsLater.more {new : List Session} (hn : ∀ s ∈ new, s.ch.s.log = []) : ∀ ss : List Session, SessionsLater ss (ss ++ new)
  | [] => .nil hn
  | _ :: ss => .cons .rfl' (SessionsLater.more hn ss)

theorem SessionsLater.modify {f : Session → Session} (hf : ∀ s, SessLater s (f s)) : ∀ (ss : List Session) (i : Nat),
    SessionsLater ss (ss.modify i f)
  | [], i => by cases i <;> exact .nil (by simp)
  | _ :: ss, 0 => .cons (hf _) .rfl'
  | _ :: ss, i + 1 => .cons .rfl' (SessionsLater.modify hf ss i)

/-- No two open channels have the same number. -/
def Apart (ss : List Session) : Prop :=
  ss.Pairwise fun a b => a.isOpen = true → b.isOpen = true → a.number ≠ b.number

theorem Apart.map {f : Session → Session} (hf : ∀ s, SessLater s (f s)) {ss : List Session} (h : Apart ss) : Apart (ss.map f) := by
  refine List.pairwise_map.mpr (h.imp fun hab ha hb => ?_)
  rw [(hf _).number, (hf _).number]
  exact hab ((hf _).isOpen ha) ((hf _).isOpen hb)

theorem Apart.modify {f : Session → Session} (hf : ∀ s, SessLater s (f s)) : ∀ {ss : List Session} {i : Nat}, Apart ss → Apart (ss.modify i f)
  | [], i, h => by cases i <;> exact h
  | s :: ss, 0, h => by
    obtain ⟨h1, h2⟩ := List.pairwise_cons.mp h
    refine List.pairwise_cons.mpr ⟨fun b hb ha hb' => ?_, h2⟩
    rw [(hf _).number]
    exact h1 b hb ((hf _).isOpen ha) hb'
  | s :: ss, i + 1, h => by
    obtain ⟨h1, h2⟩ := List.pairwise_cons.mp h
    refine List.pairwise_cons.mpr ⟨fun b hb ha hb' => ?_, Apart.modify hf h2⟩
    have : ∃ b₀ ∈ ss, SessLater b₀ b := by
      have hb : b ∈ ss.modify i f := hb
      obtain ⟨j, hj, rfl⟩ := List.mem_iff_getElem.mp hb
      rw [List.length_modify] at hj
      refine ⟨ss[j], List.getElem_mem _, ?_⟩
      rw [List.getElem_modify]
      split
      · exact hf _
      · exact .rfl'
    obtain ⟨b₀, hb0, hl⟩ := this
    rw [hl.number]
    exact h1 b₀ hb0 ha (hl.isOpen hb')

/-- What the sessions say is in what is to be sent. -/
theorem newMessages_sent {old new : List Session} (h : SessionsLater old new) {P : List Bytes}
    (hs : ∀ s ∈ old, (s.ch.s.log.filterMap (sessMessage s.peer)).Sublist P) :
    ∀ s ∈ new, (s.ch.s.log.filterMap (sessMessage s.peer)).Sublist (P ++ newMessages old new) := by
  induction h with
  | nil hn =>
    intro s hs'
    rw [hn s hs']
    exact List.nil_sublist _
  | cons hl _ ih =>
    rename_i s s' ss ss' _
    intro t ht
    obtain ⟨l, hl'⟩ := hl.log
    rcases List.mem_cons.mp ht with rfl | ht
    · rw [hl', hl.peer, List.filterMap_append]
      simp only [newMessages, hl', List.drop_left]
      rw [← List.append_assoc]
      exact ((hs s (by simp)).append (List.Sublist.refl _)).trans (List.sublist_append_left _ _)
    · refine (ih (fun s h => hs s (by simp [h])) t ht).trans ?_
      simp only [newMessages]
      exact (List.Sublist.refl P).append (List.sublist_append_right _ _)

/-! ### What is delivered -/

theorem deliverAll_plain {y c es} (h : es.all plainEntry = true) : ∀ {p ss}, deliverAll x y c p es ss = ss := by
  induction es with
  | nil => intro p ss; simp [deliverAll]
  | cons e es ih =>
    intro p ss
    rw [List.all_cons, Bool.and_eq_true] at h
    have he := h.1
    cases e <;> first | (exact absurd he (by decide)) | (simp only [deliverAll, deliver]; exact ih h.2) | (exact absurd he nofun)

theorem plainEntry_no {es : List AuthEntry} (h : es.all plainEntry = true) (hl : ∀ l, .loggedIn l ∉ es) :
    ∀ e ∈ es, (∀ l, e ≠ .loggedIn l) ∧ ∀ r, e ≠ .restricted r := by
  intro e he
  refine ⟨fun l h' => hl l (h' ▸ he), fun r h' => ?_⟩
  have := List.all_eq_true.mp h e he
  rw [h'] at this
  cases this

theorem SOk.plain {log : List AuthEntry} {s : Session} {es} (h : SOk x log s) (hp : es.all plainEntry = true)
    (hl : ∀ l, .loggedIn l ∉ es) : SOk x (log ++ es) s := by
  obtain ⟨y, pre, post, h⟩ := h
  exact ⟨y, pre, _, h.plain (clientMessages_plain hp) (plainEntry_no hp hl)⟩

theorem SOk.quiet {log : List AuthEntry} {s : Session} {e} (h : SOk x log s)
    (hp : e = .openSession ∨ (∃ m p, e = .channelMessage m p) ∨ (∃ type rest, Asks type rest e) ∨ ∃ p, AsksBind p e) :
    SOk x (log ++ [e]) s := by
  obtain ⟨y, pre, post, h⟩ := h
  refine ⟨y, pre, _, h.plain ?_ ?_⟩
  · rcases hp with rfl | ⟨m, p, rfl⟩ | ⟨_, _, ha⟩ | ⟨_, ha⟩
    · rfl
    · rfl
    · cases ha <;> rfl
    · cases ha <;> rfl
  · intro f hf
    rw [List.mem_singleton] at hf
    subst hf
    rcases hp with rfl | ⟨m, p, rfl⟩ | ⟨_, _, ha⟩ | ⟨_, ha⟩
    · exact ⟨fun _ => nofun, fun _ => nofun⟩
    · exact ⟨fun _ => nofun, fun _ => nofun⟩
    · cases ha <;> exact ⟨fun _ => nofun, fun _ => nofun⟩
    · cases ha <;> exact ⟨fun _ => nofun, fun _ => nofun⟩

theorem SOk.unheard {log : List AuthEntry} {s : Session} {m p} (h : SOk x log s) (hn : ∀ e, ¬ Heard s.number (m :: p) e) :
    SOk x (log ++ [.received m p]) s := by
  obtain ⟨y, pre, post, h⟩ := h
  exact ⟨y, pre, _, h.unheard hn⟩

theorem SOk.number {log : List AuthEntry} {s : Session} (h : SOk x log s) : s.number < 2 ^ 32 := by
  obtain ⟨y, pre, post, h⟩ := h
  exact Nat.lt_of_lt_of_le h.number (by decide)

theorem unheard_msg {n : Nat} {m : UInt8} {p : Bytes} (h : heardMsg m = false) : ∀ e, ¬ Heard n (m :: p) e := by
  intro e he
  have := heard_msg he
  simp only [heardMsg] at h
  rw [List.contains_iff_mem.mpr this] at h
  cases h

/-- A message arrives at the sessions. -/
theorem SOk.message {log : List AuthEntry} {s : Session} {m p} (h : SOk x log s) (c : Chance) :
    match channelEvent c m p with
    | some (n, ev) => SOk x (log ++ [.received m p]) (bif s.isOpen && (s.number == n) then s.handle ev else s)
    | none => SOk x (log ++ [.received m p]) s := by
  have hn := h.number
  obtain ⟨y, pre, post, h⟩ := h
  cases he : channelEvent c m p with
  | none =>
    refine ⟨y, pre, _, h.unheard fun e hh => ?_⟩
    obtain ⟨ev, h1, _⟩ := (heard_iff c hn m p e).mp hh
    rw [he] at h1
    cases h1
  | some q =>
    obtain ⟨n, ev⟩ := q
    simp only
    cases ho : s.isOpen with
    | false => exact ⟨y, pre, _, h.over _ (h.shut ho)⟩
    | true =>
      cases hq : s.number == n with
      | false =>
        refine ⟨y, pre, _, h.unheard fun e hh => ?_⟩
        obtain ⟨ev', h1, _⟩ := (heard_iff c hn m p e).mp hh
        rw [he] at h1
        cases h1
        simp at hq
      | true =>
        have hq := eq_of_beq hq
        subst hq
        simp only [Bool.and_self, cond_true]
        cases hm : ev.mark with
        | some e => exact ⟨y, pre, _, h.message ((heard_iff c hn m p e).mpr ⟨ev, he, hm⟩) hm (channelEvent_restr he)⟩
        | none =>
          have hg : ev.isLocal = true := by
            cases ev <;> first | rfl | cases hm
          refine ⟨y, pre, _, SOkAt.local (h.unheard fun e hh => ?_) hg⟩
          obtain ⟨ev', h1, h2⟩ := (heard_iff c hn m p e).mp hh
          rw [he] at h1
          cases h1
          rw [hm] at h2
          cases h2

theorem SOk.restricted {log : List AuthEntry} {s : Session} (h : SOk x log s) (r : Restrictions) :
    SOk x (log ++ [.restricted r]) (bif s.isOpen then s.handle (.restricted r) else s) := by
  obtain ⟨y, pre, post, h⟩ := h
  cases ho : s.isOpen with
  | false => exact ⟨y, pre, _, h.over _ (h.shut ho)⟩
  | true => exact ⟨y, pre, _, h.restricted r⟩

/-- A new session. -/
theorem SOk.new {y : Auth} {pre tail : List AuthEntry} {p q} {n : Nat} (hrun : ∃ sid aevs, y = Auth.run { x.server.auth with sessionId := sid } {} aevs)
    (hlog : y.log = pre ++ ([.received 90 p, .openSession] ++ tail)) (ht : tail.all plainEntry = true)
    (hq : parseChannelOpen.parse p = some q) (hs : q.type = ascii "session") (hn : n < 64) :
    SOk x y.log { number := n, peer := q.peerChannel, cfg := y.sessCfg x, ch := SessCh.init y.opts.restrictions q.window } := by
  have hl : y.log = (pre ++ [.received 90 p]) ++ .openSession :: tail := by rw [hlog]; simp
  refine ⟨y, pre ++ [.received 90 p], tail, {
    opened := hl
    isRun := hrun
    upTo := ⟨tail, hl, ht, List.prefix_rfl⟩
    number := hn
    cfg := rfl
    ch := ⟨q.window, q.maxPacket, q.rest, pre, [], by rw [← hs, ← parseOpen_inv hq], rfl⟩
    shut := nofun
    said := ⟨[], List.nil_prefix, .nil, fun _ => (clientMessages_plain ht).symm⟩
    restr := fun _ => ?_
    told := nofun }⟩
  obtain ⟨sid, aevs, rfl⟩ := hrun
  obtain ⟨⟨l, h1⟩, _⟩ := no_login_after hl
  exact (C32_enforced _ aevs (l := l) (by rw [hl]; exact List.mem_append_left _ h1)).1

/-- What happens on the connection, and the sessions. -/
theorem delivered {old new z : Auth} {es tail : List AuthEntry} (hlog : new.log = old.log ++ (es ++ tail))
    (hn : News old z es) (ht : tail.all plainEntry = true)
    (hrun : ∃ sid aevs, new = Auth.run { x.server.auth with sessionId := sid } {} aevs)
    (hprox : old.channels = true → old.proxied = false) {ss : List Session} (hch : ss ≠ [] → old.channels = true)
    (hok : ∀ s ∈ ss, SOk x old.log s) (hd : Apart ss) (c : Chance) :
    (∀ s ∈ deliverAll x new c [] (es ++ tail) ss, SOk x new.log s) ∧ Apart (deliverAll x new c [] (es ++ tail) ss) ∧
    SessionsLater ss (deliverAll x new c [] (es ++ tail) ss) ∧
    (deliverAll x new c [] (es ++ tail) ss ≠ [] → old.channels = true) := by
  have hnl : ∀ s ∈ ss, ∀ l, .loggedIn l ∉ es ++ tail := by
    intro s hs l hl
    obtain ⟨y, pre, post, h⟩ := hok s hs
    obtain ⟨sid, aevs, rfl⟩ := hrun
    have hlog' := hlog
    rw [h.opened, List.append_assoc, List.cons_append] at hlog'
    exact (no_login_after hlog').2 l (List.mem_append_right _ hl)
  have htl : ∀ s ∈ ss, ∀ l, .loggedIn l ∉ tail := fun s hs l hl => hnl s hs l (by simp [hl])
  cases hn with
  | calm hp =>
    have hall : (es ++ tail).all plainEntry = true := by rw [List.all_append, hp, ht]; rfl
    rw [deliverAll_plain hall, hlog]
    exact ⟨fun s hs => (hok s hs).plain hall (hnl s hs), hd, .rfl', hch⟩
  | other hp hm =>
    rename_i m p es
    have hall : (es ++ tail).all plainEntry = true := by rw [List.all_append, hp, ht]; rfl
    simp only [List.cons_append, deliverAll]
    rw [deliverAll_plain hall, hlog]
    refine ⟨fun s hs => ?_, hd, .rfl', hch⟩
    have hc := hch (List.ne_nil_of_mem hs)
    have hh : heardMsg m = false := by
      rcases hm with h | h | h
      · exact h
      · rw [hc] at h; cases h
      · rw [hprox hc] at h; cases h
    have := ((hok s hs).unheard (unheard_msg (p := p) hh)).plain hall
      (fun l hl => hnl s hs l (by simp only [List.cons_append]; exact List.mem_cons_of_mem _ hl))
    simpa using this
  | opened hc hq hs =>
    rename_i p q
    simp only [List.cons_append, List.nil_append, deliverAll, deliver]
    rw [deliverAll_plain ht]
    have hkeep : ∀ s ∈ ss, SOk x new.log s := by
      intro s hs
      have := (((hok s hs).unheard (m := 90) (p := p) (unheard_msg rfl)).quiet (e := .openSession) (.inl rfl)).plain ht (htl s hs)
      rw [hlog]
      simpa using this
    unfold openSession
    simp only [hq]
    cases hg : decide (c.number < MAX_CHANNELS) && !(ss.any fun s => s.isOpen && (s.number == c.number)) with
    | false => exact ⟨hkeep, hd, .rfl', fun _ => hc⟩
    | true =>
      rw [Bool.and_eq_true, decide_eq_true_iff] at hg
      refine ⟨fun s hs' => ?_, ?_, ?_, fun _ => hc⟩
      · rcases List.mem_append.mp hs' with hs' | hs'
        · exact hkeep s hs'
        · rw [List.mem_singleton] at hs'
          subst hs'
          exact SOk.new hrun hlog ht hq hs hg.1
      · refine List.pairwise_append.mpr ⟨hd, by simp, fun a ha b hb hao _ hab => ?_⟩
        rw [List.mem_singleton] at hb
        subst hb
        have h2 := hg.2
        rw [Bool.not_eq_true', List.any_eq_false] at h2
        refine h2 a ha ?_
        rw [hao, Bool.true_and]
        exact beq_iff_eq.mpr hab
      · exact .more (by intro s hs'; rw [List.mem_singleton] at hs'; subst hs'; rfl) ss
  | forward hc hq hs =>
    rename_i p q e
    have hdl : deliverAll x new c [] ([.received 90 p, e] ++ tail) ss = ss := by
      simp only [List.cons_append, List.nil_append, deliverAll]
      rcases asks_what hs with ⟨_, _, rfl⟩ | ⟨_, rfl⟩ <;> simp only [deliverAll, deliver] <;> exact deliverAll_plain ht
    rw [hdl]
    refine ⟨fun s hs' => ?_, hd, .rfl', hch⟩
    have := (((hok s hs').unheard (m := 90) (p := p) (unheard_msg rfl)).quiet (e := e) (.inr (.inr (.inl ⟨_, _, hs⟩)))).plain ht (htl s hs')
    rw [hlog]
    simpa using this
  | bind hc hs =>
    rename_i p e
    have hdl : deliverAll x new c [] ([.received 80 p, e] ++ tail) ss = ss := by
      simp only [List.cons_append, List.nil_append, deliverAll]
      cases hs <;> simp only [deliverAll, deliver] <;> exact deliverAll_plain ht
    rw [hdl]
    refine ⟨fun s hs' => ?_, hd, .rfl', hch⟩
    have := (((hok s hs').unheard (m := 80) (p := p) (unheard_msg rfl)).quiet (e := e) (.inr (.inr (.inr ⟨_, hs⟩)))).plain ht (htl s hs')
    rw [hlog]
    simpa using this
  | restricted hr =>
    rename_i p r
    simp only [List.cons_append, List.nil_append, deliverAll, deliver]
    rw [deliverAll_plain ht]
    have hf : ∀ s : Session, SessLater s (bif s.isOpen then s.handle (.restricted r) else s) := by
      intro s
      cases s.isOpen
      · exact .rfl'
      · exact .handle s _
    refine ⟨fun s hs => ?_, hd.map hf, .map hf ss, fun hne => hch (by simpa using hne)⟩
    obtain ⟨s₀, h0, rfl⟩ := List.mem_map.mp hs
    have := (((hok s₀ h0).unheard (m := 80) (p := p) (unheard_msg rfl)).restricted r).plain ht (htl s₀ h0)
    rw [hlog]
    simpa using this
  | message hc =>
    rename_i m p
    simp only [List.cons_append, List.nil_append, deliverAll, deliver]
    rw [deliverAll_plain ht]
    have hall : ∀ s ∈ ss, SOk x (old.log ++ [.received m p]) (match channelEvent c m p with
        | some (n, ev) => bif s.isOpen && (s.number == n) then s.handle ev else s
        | none => s) := by
      intro s hs
      have := (hok s hs).message (m := m) (p := p) c
      revert this
      cases channelEvent c m p with
      | none => exact id
      | some q => exact id
    cases he : channelEvent c m p with
    | none =>
      simp only [he] at hall
      refine ⟨fun s hs => ?_, hd, .rfl', hch⟩
      have := ((hall s hs).quiet (e := .channelMessage m p) (.inr (.inl ⟨m, p, rfl⟩))).plain ht (htl s hs)
      rw [hlog]
      simpa using this
    | some q =>
      obtain ⟨n, ev⟩ := q
      simp only [he] at hall
      have hf : ∀ s : Session, SessLater s (bif s.isOpen && (s.number == n) then s.handle ev else s) := by
        intro s
        cases s.isOpen && (s.number == n)
        · exact .rfl'
        · exact .handle s _
      refine ⟨fun s hs => ?_, hd.map hf, .map hf ss, fun hne => hch (by simpa [deliverTo] using hne)⟩
      obtain ⟨s₀, h0, rfl⟩ := List.mem_map.mp hs
      have := ((hall s₀ h0).quiet (e := .channelMessage m p) (.inr (.inl ⟨m, p, rfl⟩))).plain ht (htl s₀ h0)
      rw [hlog]
      simpa using this

/-! ### The invariant -/

structure HInv (x : HostEnv σ) (h : Host σ) : Prop where
  server : SInv x.server h.server
  chan : h.sessions ≠ [] → h.server.auth.channels = true
  ok : ∀ s ∈ h.sessions, SOk x h.server.auth.log s
  apart : Apart h.sessions
  sent : h.server.live = true → ∀ s ∈ h.sessions,
    (s.ch.s.log.filterMap (sessMessage s.peer)).Sublist (packetsSent h.server.trans.posts)

theorem HInv.init : HInv x ({} : Host σ) where
  server := SInv.init _
  chan := fun h => absurd rfl h
  ok := by intro s hs; cases hs
  apart := List.Pairwise.nil
  sent := by intro _ s hs; cases hs

theorem HInv.settle (hx : EnvOk x.server.trans) {s : Server σ} {old new : List Session} (hs : SInv x.server s)
    (hc : new ≠ [] → s.auth.channels = true) (hok : ∀ y ∈ new, SOk x s.auth.log y) (ha : Apart new)
    (hl : SessionsLater old new)
    (hsent : s.live = true → ∀ y ∈ old, (y.ch.s.log.filterMap (sessMessage y.peer)).Sublist (packetsSent s.trans.posts)) :
    ∃ h', Host.settle x s old new = some h' ∧ HInv x h' := by
  obtain ⟨s', h1, h2, h3, h4, h5⟩ := send_run hx (ps := newMessages old new) hs
  refine ⟨_, by rw [Host.settle, h1, Option.map_some], h2, by rw [h3]; exact hc, by rw [h3]; exact hok, ha, ?_⟩
  intro hlive y hy
  have hlv := h4 hlive
  simp only
  rw [h5 hlv (hc (List.ne_nil_of_mem hy))]
  exact newMessages_sent hl (hsent hlv) y hy

theorem HInv.step (hx : EnvOk x.server.trans) {h : Host σ} (hi : HInv x h) (ev : HostEvent) :
    ∃ h', h.step x ev = some h' ∧ HInv x h' := by
  cases ev with
  | session i ev =>
    simp only [Host.step]
    cases hl : ev.isLocal with
    | false => exact ⟨h, rfl, hi⟩
    | true =>
      simp only [cond_true]
      refine HInv.settle hx hi.server (fun hne => hi.chan fun he => hne (by rw [he]; cases i <;> rfl)) ?_
        (hi.apart.modify fun s => .handle s ev) (.modify (fun s => .handle s ev) _ _) hi.sent
      intro s hs
      obtain ⟨j, hj, rfl⟩ := List.mem_iff_getElem.mp hs
      rw [List.length_modify] at hj
      have hok := hi.ok _ (List.getElem_mem hj)
      rw [List.getElem_modify]
      split
      · obtain ⟨y, pre, post, hz⟩ := hok
        exact ⟨y, pre, post, hz.local hl⟩
      · exact hok
  | server ev c =>
    obtain ⟨s', h1, h2⟩ := hi.server.step hx ev
    simp only [Host.step, h1, Option.bind_some]
    have hb := below_step hx hi.server h1
    obtain ⟨z, es, tail, n1, n2, n3, n4⟩ := hb.news
    have hprox : h.server.auth.channels = true → h.server.auth.proxied = false := by
      intro hc
      obtain ⟨evs, he⟩ := hi.server.auth
      rcases inv_run (cfg := h.server.cfg x.server) evs with ⟨hp, _⟩ | hp
      · rw [← he] at hp
        have := hp.chan
        rw [hc] at this
        cases this
      · rw [← he] at hp
        exact (hp.chan1 hc).2.1
    have hrun : ∃ sid aevs, s'.auth = Auth.run { x.server.auth with sessionId := sid } {} aevs := by
      obtain ⟨evs, he⟩ := h2.auth
      exact ⟨_, evs, he⟩
    have hdr : s'.auth.log.drop h.server.auth.log.length = es ++ tail := by rw [n1, List.drop_left]
    rw [hdr]
    obtain ⟨d1, d2, d3, d4⟩ := delivered n1 n2 n3 hrun hprox hi.chan hi.ok hi.apart c
    refine HInv.settle hx h2 (fun hne => hb.chan (d4 hne)) d1 d2 d3 ?_
    intro hl s hs
    obtain ⟨qs, hqs⟩ := hb.posts
    rw [hqs, packetsSent_append]
    exact (hi.sent (hb.live hl) s hs).trans (List.sublist_append_left _ _)

theorem HInv.run (hx : EnvOk x.server.trans) (evs : List HostEvent) : ∀ {h : Host σ}, HInv x h →
    ∃ h', h.run x evs = some h' ∧ HInv x h' := by
  induction evs with
  | nil => intro h hi; exact ⟨h, rfl, hi⟩
  | cons ev evs ih =>
    intro h hi
    obtain ⟨h1, e1, i1⟩ := hi.step hx ev
    obtain ⟨h2, e2, i2⟩ := ih i1
    exact ⟨h2, by simp only [Host.run, e1, Option.bind_some, e2], i2⟩

end Lukko
