import Verif.Model.Shutdown
import Verif.Proof.Lists
/-
  C75: the end of a connection.
-/
namespace Lukko
open Model Spec

/-- Only messages so far. -/
def OnlySent (l : List EndEntry) : Prop := ∀ e ∈ l, ∃ m, e = .sent m

theorem OnlySent.snoc {l : List EndEntry} (h : OnlySent l) (m : UInt8) : OnlySent (l ++ [.sent m]) := by
  intro e he
  rcases List.mem_append.mp he with he | he
  · exact h e he
  · exact ⟨m, by simpa using he⟩

structure Alive (s : Down) : Prop where
  dead : s.dead = false
  gone : s.gone = false
  log : OnlySent s.log
  none : s.handlers = false → s.channels = 0 ∧ s.requests = 0

structure Dying (s : Down) : Prop where
  dead : s.dead = true
  gone : s.gone = false
  log : ∃ l, OnlySent l ∧ s.log = l ++ [.disconnect]
  auth : s.authTimer = false
  rekey : s.rekeyTimer = false
  task : s.task = false
  channels : s.channels = 0
  requests : s.requests = 0
  listeners : s.listeners = 0
  proxied : s.proxied = false

structure Over (s : Down) : Prop where
  gone : s.gone = true
  log : ∃ l, OnlySent l ∧ (s.log = l ++ [.destroyed] ∨ s.log = l ++ [.disconnect, .destroyed])

def DownInv (s : Down) : Prop := Alive s ∨ Dying s ∨ Over s

theorem Alive.send {s : Down} (h : Alive s) (m : UInt8) (big : Bool) : Alive (s.send m big) := by
  simp only [Down.send, h.dead, Down.check, Bool.not_false, cond_true, Down.say]
  exact ⟨rfl, h.gone, h.log.snoc m, h.none⟩

theorem Alive.work {s : Down} (h : Alive s) (w : Work) : Alive (s.work w) := by
  have hk : ∀ s' : Down, s'.dead = s.dead → s'.gone = s.gone → s'.log = s.log →
      (s'.handlers = false → s'.channels = 0 ∧ s'.requests = 0) → Alive s' :=
    fun s' h1 h2 h3 h4 => ⟨h1.trans h.dead, h2.trans h.gone, by rw [h3]; exact h.log, h4⟩
  have ha : s.addHandler = s := by simp [Down.addHandler, Down.check, h.dead]
  cases w with
  | send m big => exact h.send m big
  | encrypted =>
    simp only [Down.work, ha]
    cases s.encrypted
    · exact hk _ rfl rfl rfl h.none
    · exact h
  | suspend =>
    simp only [Down.work]
    cases s.userAuth
    · exact h
    · exact hk _ rfl rfl rfl h.none
  | authenticated =>
    simp only [Down.work, Down.check, h.dead, Bool.not_false, cond_true]
    cases s.encrypted && !s.authenticated
    · exact h
    · exact ⟨rfl, h.gone, h.log, h.none⟩
  | serve =>
    simp only [Down.work, ha]
    cases s.authenticated && s.outgoing.isNone
    · exact h
    · exact hk _ rfl rfl rfl (by simp)
  | connectTarget =>
    simp only [Down.work]
    cases s.authenticated && !s.handlers && s.outgoing.isNone
    · exact h
    · exact hk _ rfl rfl rfl h.none
  | newChannel =>
    simp only [Down.work]
    cases hh : s.handlers
    · exact h
    · exact hk _ rfl rfl rfl (by simp [hh])
  | endChannel => exact hk _ rfl rfl rfl fun hh => ⟨by simp [Down.work, (h.none hh).1], (h.none hh).2⟩
  | newRequest =>
    simp only [Down.work]
    cases hh : s.handlers
    · exact h
    · exact hk _ rfl rfl rfl (by simp [hh])
  | endRequest => exact hk _ rfl rfl rfl fun hh => ⟨(h.none hh).1, by simp [Down.work, (h.none hh).2]⟩
  | newListener =>
    simp only [Down.work]
    cases hh : s.handlers
    · exact h
    · exact hk _ rfl rfl rfl (by simp)
  | endListener => exact hk _ rfl rfl rfl h.none

theorem Alive.dispose {s : Down} (h : Alive s) : Over s.dispose := ⟨rfl, s.log, h.log, .inl rfl⟩

theorem Alive.doDisconnect {s : Down} (h : Alive s) (big : Bool) : DownInv (s.doDisconnect big) := by
  have hc : s.onDisconnecting.channels = 0 ∧ s.onDisconnecting.requests = 0 := by
    simp only [Down.onDisconnecting]
    cases hh : s.handlers
    · exact h.none hh
    · exact ⟨rfl, rfl⟩
  have hd : s.onDisconnecting.dead = false := h.dead
  unfold Down.doDisconnect
  simp only [h.dead, cond_false, Down.check, hd, Bool.not_false, cond_true]
  cases he : s.encrypted with
  | true =>
    have he' : s.onDisconnecting.encrypted = true := he
    simp only [Down.say, he', cond_true]
    exact .inr (.inl ⟨rfl, h.gone, ⟨s.log, h.log, rfl⟩, rfl, rfl, rfl, hc.1, hc.2, rfl, rfl⟩)
  | false =>
    have he' : s.onDisconnecting.encrypted = false := he
    simp only [Down.say, he', cond_false]
    exact .inr (.inr ⟨rfl, s.log, h.log, .inr (by simp [Down.dispose, Down.say, Down.onDisconnecting])⟩)

theorem Alive.works {s : Down} (h : Alive s) (ws : List Work) (e : WorkEnd) : DownInv (s.works ws e) := by
  have h' : Alive (ws.foldl Down.work s) := by
    induction ws generalizing s with
    | nil => exact h
    | cons w ws ih => exact ih (h.work w)
  unfold Down.works
  cases e with
  | done => exact .inl h'
  | disconnect big => exact h'.doDisconnect big
  | close => exact .inr (.inr h'.dispose)

theorem Dying.step {s : Down} (h : Dying s) {ev : DownEv} (hev : ev ≠ .targetSuccess) : DownInv (s.step ev) := by
  obtain ⟨l, hl, hlog⟩ := h.log
  have hd : Over s.dispose := ⟨rfl, l, hl, .inr (by simp [Down.dispose, Down.say, hlog])⟩
  have hs : DownInv s := .inr (.inl h)
  unfold Down.step
  rw [h.gone, cond_false]
  unfold Down.react
  cases ev <;>
    simp only [h.dead, h.auth, h.rekey, h.task, h.channels, h.requests, h.listeners, h.proxied, Nat.lt_irrefl,
      cond_false, cond_true, if_false] <;> try first | exact hs | exact .inr (.inr hd)
  · exact absurd rfl hev
  · exact .inr (.inl ⟨rfl, h.gone, ⟨l, hl, hlog⟩, rfl, rfl, rfl, rfl, rfl, rfl, rfl⟩)
  · cases s.outgoing.isSome
    · exact hs
    · simp only [cond_true, Down.doDisconnect]
      exact .inr (.inl ⟨rfl, h.gone, ⟨l, hl, hlog⟩, rfl, rfl, rfl, rfl, rfl, rfl, rfl⟩)

theorem Alive.step {s : Down} (h : Alive s) (ev : DownEv) : DownInv (s.step ev) := by
  have hk : ∀ s' : Down, s'.dead = s.dead → s'.gone = s.gone → s'.log = s.log → s'.handlers = s.handlers →
      s'.channels = s.channels → s'.requests = s.requests → Alive s' :=
    fun s' h1 h2 h3 h4 h5 h6 => ⟨h1.trans h.dead, h2.trans h.gone, by rw [h3]; exact h.log, by rw [h4, h5, h6]; exact h.none⟩
  have hs : DownInv s := .inl h
  unfold Down.step
  rw [h.gone, cond_false]
  unfold Down.react
  cases ev with
  | input ws e => simp only; rw [show s.dead = false from h.dead]; exact h.works ws e
  | resumed ws e f =>
    simp only
    cases s.task
    · exact hs
    · exact (hk { s with task := !f } rfl rfl rfl rfl rfl rfl).works ws e
  | channel ws e => simp only; split <;> first | exact h.works ws e | exact hs
  | request ws e => simp only; split <;> first | exact h.works ws e | exact hs
  | listener ws e => simp only; split <;> first | exact h.works ws e | exact hs
  | authTimeout =>
    simp only
    cases s.authTimer
    · exact hs
    · exact (hk { s with authTimer := false } rfl rfl rfl rfl rfl rfl).doDisconnect false
  | rekeyTimeout idle =>
    simp only
    cases s.rekeyTimer
    · exact hs
    · have h1 : Alive ({ s with rekeyTimer := false }.check !s.dead) := by
        rw [show s.dead = false from h.dead]
        exact ⟨rfl, h.gone, h.log, h.none⟩
      cases idle
      · exact .inl h1
      · exact .inl (h1.send _ _)
  | targetSuccess =>
    simp only
    split
    · have ha : s.addHandler = s := by simp [Down.addHandler, Down.check, h.dead]
      rw [ha]
      exact .inl ((hk { s with outgoing := some true, proxied := true } rfl rfl rfl rfl rfl rfl).send _ _)
    · exact hs
  | targetPacket m big =>
    simp only
    cases s.proxied
    · exact hs
    · exact .inl (h.send m big)
  | targetDisconnecting => exact .inl (hk { s with proxied := false } rfl rfl rfl rfl rfl rfl)
  | targetGone big =>
    simp only
    cases s.outgoing.isSome
    · exact hs
    · exact (hk { s with proxied := false, outgoing := Option.none } rfl rfl rfl rfl rfl rfl).doDisconnect big
  | flushed => simp only; rw [show s.dead = false from h.dead]; exact hs
  | lost => exact .inr (.inr h.dispose)

theorem Over.step {s : Down} (h : Over s) (ev : DownEv) : s.step ev = s := by
  unfold Down.step; rw [h.gone]; rfl

theorem DownInv.proper {s : Down} (h : DownInv s) : EndsProperly s.log := by
  have key : ∀ l x : List EndEntry, OnlySent l → (x = [] ∨ x = [.disconnect] ∨ x = [.destroyed] ∨ x = [.disconnect, .destroyed]) →
      EndsProperly (l ++ x) := by
    intro l x hl hx
    have hsplit : ∀ e a b, (∀ m, e ≠ EndEntry.sent m) → l ++ x = a ++ e :: b → ∃ a', x = a' ++ e :: b := by
      intro e a b he hab
      rcases List.append_eq_append_iff.mp hab with ⟨c, h1, h2⟩ | ⟨c, h1, h2⟩
      · exact ⟨c, h2⟩
      · cases c with
        | nil => exact ⟨[], by simpa using h2.symm⟩
        | cons y c =>
          simp only [List.cons_append, List.cons.injEq] at h2
          obtain ⟨m, hm⟩ := hl e (by rw [h1, ← h2.1]; simp)
          exact absurd hm (he m)
    refine ⟨fun hc => ?_, fun a b hab => ?_, fun a b hab => ?_⟩
    · rcases List.mem_append.mp hc with hc | hc
      · obtain ⟨m, hm⟩ := hl _ hc; cases hm
      · rcases hx with rfl | rfl | rfl | rfl <;> simp at hc
    · obtain ⟨a', ha'⟩ := hsplit _ a b (by simp) hab
      rcases hx with rfl | rfl | rfl | rfl <;> rcases a' with _ | ⟨y, _ | ⟨z, a'⟩⟩ <;>
        have := congrArg List.length ha' <;> simp at this <;> grind
    · obtain ⟨a', ha'⟩ := hsplit _ a b (by simp) hab
      rcases hx with rfl | rfl | rfl | rfl <;> rcases a' with _ | ⟨y, _ | ⟨z, a'⟩⟩ <;>
        have := congrArg List.length ha' <;> simp at this <;> grind
  rcases h with h | h | h
  · simpa using key s.log [] h.log (.inl rfl)
  · obtain ⟨l, hl, e⟩ := h.log
    rw [e]; exact key _ _ hl (.inr (.inl rfl))
  · obtain ⟨l, hl, e | e⟩ := h.log <;> rw [e]
    · exact key _ _ hl (.inr (.inr (.inl rfl)))
    · exact key _ _ hl (.inr (.inr (.inr rfl)))

theorem down_snoc (s : Down) (evs : List DownEv) (ev : DownEv) : s.run (evs ++ [ev]) = (s.run evs).step ev := by
  simp [Down.run]

theorem down_inv (evs : List DownEv)
    (hev : ∀ a b, evs = a ++ .targetSuccess :: b → .disconnect ∉ (Down.run {} a).log) : DownInv (Down.run {} evs) := by
  induction evs using Aux.snoc_ind with
  | h0 => exact .inl ⟨rfl, rfl, by simp [OnlySent, Down.run], fun _ => ⟨rfl, rfl⟩⟩
  | h1 evs ev ih =>
    rw [down_snoc]
    rcases ih fun a b hab => hev a (b ++ [ev]) (by simp [hab]) with h | h | h
    · exact h.step ev
    · refine h.step fun he => ?_
      subst he
      obtain ⟨l, _, hl⟩ := h.log
      exact hev evs [] rfl (by simp [hl])
    · rw [h.step]; exact .inr (.inr h)

/-- Unless a login at a target succeeds after DISCONNECT was sent, the connection ends properly. -/
theorem C75_proper_partial (evs : List DownEv)
    (hev : ∀ a b, evs = a ++ .targetSuccess :: b → .disconnect ∉ (Down.run {} a).log) :
    EndsProperly (Down.run {} evs).log := (down_inv evs hev).proper

/-- A client is proxied to a target which can be reached. -/
def demoToTarget : List DownEv :=
  [.input [.encrypted] .done, .input [.send 6 false, .suspend] .done,
    .resumed [.authenticated, .connectTarget] .done true]

/-- A session with a channel, a listener and a request in progress, then the client sends garbage. -/
def demoGarbage : List DownEv :=
  [.input [.encrypted] .done, .input [.send 6 false, .authenticated, .send 52 false, .serve] .done,
    .input [.newChannel, .send 91 false, .newListener, .newRequest] .done, .channel [.send 94 true] .done,
    .input [] (.disconnect true), .channel [.send 94 false] .done, .request [.send 81 false] .done,
    .listener [.newChannel, .send 90 false] .done, .rekeyTimeout true, .authTimeout, .flushed, .lost]

example : (∀ a b, demoGarbage = a ++ .targetSuccess :: b → .disconnect ∉ (Down.run {} a).log) ∧
    (Down.run {} demoGarbage).log =
      [.sent 6, .sent 52, .sent 91, .sent 94, .disconnect, .destroyed] := by
  refine ⟨fun a b h => ?_, by decide +kernel⟩
  have : DownEv.targetSuccess ∈ demoGarbage := by rw [h]; simp
  exact absurd this (by decide +kernel)

/-- The target's success is fine while the client is there. -/
example : (Down.run {} (demoToTarget ++ [.targetSuccess, .targetPacket 91 false, .targetGone false, .flushed])).log =
    [.sent 6, .sent 52, .sent 91, .disconnect, .destroyed] := by decide +kernel

/-- The client is being disconnected when the login at the target succeeds: an internal check fails, and the
client gets SUCCESS and whatever the target sends after DISCONNECT. -/
theorem C75_violated : ∃ evs, .checkFailed ∈ (Down.run {} evs).log ∧
    ∃ a b, (Down.run {} evs).log = a ++ .disconnect :: b ∧ .sent 52 ∈ b ∧ .sent 91 ∈ b :=
  ⟨demoToTarget ++ [.input [] (.disconnect false), .targetSuccess, .targetPacket 91 false], by decide +kernel,
    [.sent 6], [.checkFailed, .checkFailed, .sent 52, .checkFailed, .sent 91], by decide +kernel, by decide +kernel, by decide +kernel⟩

/-- What holds in any case: entries are only added, `dead` remembers DISCONNECT, `gone` the end. -/
structure DownFacts (s : Down) : Prop where
  once : s.log.count .disconnect ≤ 1
  dead : s.gone = false → (.disconnect ∈ s.log ↔ s.dead = true)
  gone : .destroyed ∈ s.log ↔ s.gone = true
  last : ∀ a b, s.log = a ++ .destroyed :: b → b = []

theorem DownFacts.same {s s' : Down} (h : DownFacts s) (h1 : s'.log = s.log) (h2 : s'.dead = s.dead)
    (h3 : s'.gone = s.gone) : DownFacts s' :=
  ⟨by rw [h1]; exact h.once, by rw [h1, h2, h3]; exact h.dead, by rw [h1, h3]; exact h.gone, by rw [h1]; exact h.last⟩

theorem DownFacts.say {s : Down} (h : DownFacts s) (hg : s.gone = false) {e : EndEntry}
    (he : e = .checkFailed ∨ ∃ m, e = .sent m) : DownFacts (s.say e) := by
  have hd : .destroyed ∉ s.log := by rw [h.gone, hg]; simp
  have h1 : e ≠ .disconnect ∧ e ≠ .destroyed := by rcases he with rfl | ⟨m, rfl⟩ <;> simp
  refine ⟨?_, fun _ => ?_, ?_, fun a b hab => ?_⟩
  · simp only [Down.say, List.count_append, List.count_singleton, beq_iff_eq, h1.1, if_false]; exact h.once
  · simp only [Down.say, List.mem_append, List.mem_singleton, h1.1.symm, or_false]; exact h.dead hg
  · simp only [Down.say, List.mem_append, List.mem_singleton, h1.2.symm, or_false]; exact h.gone
  · have hm : EndEntry.destroyed ∈ s.log ++ [e] := by
      have : (s.say e).log = s.log ++ [e] := rfl
      rw [← this, hab]; simp
    simp only [List.mem_append, List.mem_singleton, h1.2.symm, or_false] at hm
    exact absurd hm hd

/-- The object still exists, and everything else holds. -/
def DownOk (s : Down) : Prop := DownFacts s ∧ s.gone = false

theorem DownOk.same {s s' : Down} (h : DownOk s) (h1 : s'.log = s.log := by rfl) (h2 : s'.dead = s.dead := by rfl)
    (h3 : s'.gone = s.gone := by rfl) : DownOk s' := ⟨h.1.same h1 h2 h3, h3.trans h.2⟩

theorem DownOk.check {s : Down} (h : DownOk s) (b : Bool) : DownOk (s.check b) := by
  cases b
  · exact ⟨h.1.say h.2 (.inl rfl), h.2⟩
  · exact h

theorem DownOk.send {s : Down} (h : DownOk s) (m : UInt8) (big : Bool) : DownOk (s.send m big) := by
  have h1 := h.check !s.dead
  have h2 : DownOk ((s.check !s.dead).say (.sent m)) := ⟨h1.1.say h1.2 (.inr ⟨m, rfl⟩), h1.2⟩
  exact h2.same

theorem DownOk.dispose {s : Down} (h : DownOk s) : DownFacts s.dispose := by
  have hd : .destroyed ∉ s.log := by rw [h.1.gone, h.2]; simp
  refine ⟨?_, fun hg => (nomatch hg), by simp [Down.dispose, Down.say], fun a b hab => ?_⟩
  · simp only [Down.dispose, Down.say, List.count_append, List.count_singleton, beq_iff_eq, reduceCtorEq, if_false]
    exact h.1.once
  · simp only [Down.dispose, Down.say] at hab
    rcases Aux.snoc_split hab with ⟨hb, _⟩ | ⟨b', _, hb'⟩
    · exact hb
    · exact absurd (by rw [hb']; simp) hd

theorem DownOk.doDisconnect {s : Down} (h : DownOk s) (big : Bool) : DownFacts (s.doDisconnect big) := by
  unfold Down.doDisconnect
  cases hd : s.dead with
  | true => exact h.1
  | false =>
    have hno : EndEntry.disconnect ∉ s.log := by rw [h.1.dead h.2, hd]; simp
    have hng : EndEntry.destroyed ∉ s.log := by rw [h.1.gone, h.2]; simp
    have hd' : s.onDisconnecting.dead = false := hd
    have hl' : s.onDisconnecting.log = s.log := rfl
    have hg' : s.onDisconnecting.gone = false := h.2
    generalize s.onDisconnecting = t at *
    simp only [cond_false, Down.check, hd', Bool.not_false, cond_true, Down.say]
    have key : ∀ t' : Down, t'.log = s.log ++ [.disconnect] → t'.dead = true → t'.gone = false → DownFacts t' := by
      intro t' h1 h2 h3
      refine ⟨?_, fun _ => by simp [h1, h2], by simp [h1, h3, hng], fun a b hab => ?_⟩
      · rw [h1, List.count_append, List.count_eq_zero.mpr hno]; simp
      · have hm : EndEntry.destroyed ∈ s.log ++ [.disconnect] := by rw [← h1, hab]; simp
        simp [hng] at hm
    cases t.encrypted with
    | true => exact key _ (by simp [hl']) rfl hg'
    | false =>
      simp only [cond_false]
      have h1 := (key { t with log := t.log ++ [EndEntry.disconnect], dead := true } (by simp [hl']) rfl hg')
      have h2 : DownFacts ({ t with log := t.log ++ [EndEntry.disconnect], dead := true }).dispose := DownOk.dispose ⟨h1, hg'⟩
      exact ⟨h2.once, fun hg => (nomatch hg), h2.gone, h2.last⟩

theorem DownOk.work {s : Down} (h : DownOk s) (w : Work) : DownOk (s.work w) := by
  cases w with
  | send m big => exact h.send m big
  | encrypted =>
    simp only [Down.work]
    cases s.encrypted
    · exact (h.check _).same
    · exact h
  | suspend =>
    simp only [Down.work]
    cases s.userAuth
    · exact h
    · exact h.same
  | authenticated =>
    simp only [Down.work]
    cases s.encrypted && !s.authenticated
    · exact h
    · exact (h.check _).same
  | serve =>
    simp only [Down.work]
    cases s.authenticated && s.outgoing.isNone
    · exact h
    · exact ((h.check _).check _).same
  | connectTarget =>
    simp only [Down.work]
    cases s.authenticated && !s.handlers && s.outgoing.isNone
    · exact h
    · exact h.same
  | newChannel => simp only [Down.work]; cases hh : s.handlers <;> first | exact h | exact h.same
  | endChannel => exact h.same
  | newRequest => simp only [Down.work]; cases hh : s.handlers <;> first | exact h | exact h.same
  | endRequest => exact h.same
  | newListener => simp only [Down.work]; cases hh : s.handlers <;> first | exact h | exact h.same
  | endListener => exact h.same

theorem DownOk.works {s : Down} (h : DownOk s) (ws : List Work) (e : WorkEnd) : DownFacts (s.works ws e) := by
  have h' : DownOk (ws.foldl Down.work s) := by
    induction ws generalizing s with
    | nil => exact h
    | cons w ws ih => exact ih (h.work w)
  unfold Down.works
  cases e with
  | done => exact h'.1
  | disconnect big => exact h'.doDisconnect big
  | close => exact h'.dispose

theorem DownOk.react {s : Down} (h : DownOk s) (ev : DownEv) : DownFacts (s.react ev) := by
  unfold Down.react
  cases ev with
  | input ws e => simp only; cases s.dead <;> first | exact h.works ws e | exact h.1
  | resumed ws e f =>
    simp only
    cases s.task
    · exact h.1
    · exact (h.same (s' := { s with task := !f })).works ws e
  | channel ws e => simp only; split <;> first | exact h.works ws e | exact h.1
  | request ws e => simp only; split <;> first | exact h.works ws e | exact h.1
  | listener ws e => simp only; split <;> first | exact h.works ws e | exact h.1
  | authTimeout =>
    simp only
    cases s.authTimer
    · exact h.1
    · exact (h.same (s' := { s with authTimer := false })).doDisconnect false
  | rekeyTimeout idle =>
    simp only
    cases s.rekeyTimer
    · exact h.1
    · have h1 := (h.same (s' := { s with rekeyTimer := false })).check !s.dead
      cases idle
      · exact h1.1
      · exact (h1.send _ _).1
  | targetSuccess =>
    simp only
    split
    · exact ((h.check !s.dead).same (s' := { s.addHandler with outgoing := some true, proxied := true })).send _ _ |>.1
    · exact h.1
  | targetPacket m big =>
    simp only
    cases s.proxied
    · exact h.1
    · exact (h.send m big).1
  | targetDisconnecting => exact (h.same (s' := { s with proxied := false })).1
  | targetGone big =>
    simp only
    cases s.outgoing.isSome
    · exact h.1
    · exact (h.same (s' := { s with proxied := false, outgoing := Option.none })).doDisconnect big
  | flushed => simp only; cases s.dead <;> first | exact h.dispose | exact h.1
  | lost => exact h.dispose

theorem down_facts (evs : List DownEv) : DownFacts (Down.run {} evs) := by
  induction evs using Aux.snoc_ind with
  | h0 => exact ⟨by simp [Down.run], by simp [Down.run], by simp [Down.run], by simp [Down.run]⟩
  | h1 evs ev ih =>
    rw [down_snoc]
    unfold Down.step
    cases hg : (Down.run {} evs).gone
    · exact DownOk.react ⟨ih, hg⟩ ev
    · exact ih

/-- At most one DISCONNECT is sent, and nothing happens after the end, in any case. -/
theorem C75_once (evs : List DownEv) : (Down.run {} evs).log.count .disconnect ≤ 1 ∧
    ∀ a b, (Down.run {} evs).log = a ++ .destroyed :: b → b = [] :=
  ⟨(down_facts evs).once, (down_facts evs).last⟩

/-- After DISCONNECT the connection ends as soon as everything has been written, or when it is lost. -/
theorem C75_released (evs : List DownEv) (h : .disconnect ∈ (Down.run {} evs).log) {ev : DownEv}
    (he : ev = .flushed ∨ ev = .lost) : (Down.run {} (evs ++ [ev])).log.getLast? = some .destroyed := by
  have hf := down_facts evs
  rw [down_snoc]
  unfold Down.step
  cases hg : (Down.run {} evs).gone with
  | true =>
    obtain ⟨a, b, hab⟩ := List.append_of_mem (hf.gone.mpr hg)
    rw [cond_true, hab, hf.last a b hab]
    simp
  | false =>
    have hd := (hf.dead hg).mp h
    rcases he with rfl | rfl
    · simp [Down.react, hd, Down.dispose, Down.say]
    · simp [Down.react, Down.dispose, Down.say]

example : .disconnect ∈ (Down.run {} (demoGarbage.take 8)).log ∧ .destroyed ∉ (Down.run {} (demoGarbage.take 8)).log ∧
    (Down.run {} (demoGarbage.take 8 ++ [.flushed])).log.getLast? = some .destroyed := by decide +kernel

/-- Nothing is left to do for a client which has got DISCONNECT and is not being logged in elsewhere: no event
other than these two changes anything that can be observed. -/
theorem C75_quiet_partial (evs : List DownEv)
    (hev : ∀ a b, evs = a ++ .targetSuccess :: b → .disconnect ∉ (Down.run {} a).log)
    (h : .disconnect ∈ (Down.run {} evs).log) {ev : DownEv} (hs : ev ≠ .targetSuccess) :
    (Down.run {} (evs ++ [ev])).log = (Down.run {} evs).log ∨
    (Down.run {} (evs ++ [ev])).log = (Down.run {} evs).log ++ [.destroyed] := by
  have h1 := down_inv evs hev
  rw [down_snoc]
  rcases h1 with h1 | h1 | h1
  · obtain ⟨m, hm⟩ := h1.log _ h; cases hm
  · obtain ⟨l, hl, hlog⟩ := h1.log
    have h2 := h1.step hs
    have hfr : ∀ s' : Down, DownInv s' → (∃ d, s'.log = (l ++ [.disconnect]) ++ d) → s'.log = l ++ [.disconnect] ∨
        s'.log = l ++ [.disconnect] ++ [.destroyed] := by
      rintro s' h' ⟨d, hd⟩
      have hp := h'.proper
      have hall := hp.2.1 l d (by simp [hd])
      cases d with
      | nil => left; simpa using hd
      | cons x d =>
        have hx := hall x (by simp)
        subst hx
        have := hp.2.2 (l ++ [.disconnect]) d hd
        subst this
        right; exact hd
    rw [hlog]
    refine hfr _ h2 ?_
    unfold Down.step
    rw [h1.gone, cond_false]
    unfold Down.react
    cases ev <;>
      simp only [h1.dead, h1.auth, h1.rekey, h1.task, h1.channels, h1.requests, h1.listeners, h1.proxied, Nat.lt_irrefl,
        cond_false, cond_true, if_false] <;>
      first
      | exact absurd rfl hs
      | (refine ⟨[], ?_⟩; simp [hlog]; done)
      | (refine ⟨[.destroyed], ?_⟩; simp [Down.dispose, Down.say, hlog]; done)
      | skip
    cases (Down.run {} evs).outgoing.isSome
    · exact ⟨[], by simp [hlog]⟩
    · exact ⟨[], by simp [hlog, Down.doDisconnect]⟩
  · rw [h1.step]; exact .inl rfl

end Lukko
