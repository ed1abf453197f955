import Verif.Model.Proxy
import Verif.Prop.KexKeys
import Verif.Proof.Lists
/-
  C70: backpressure between the two connections of a proxied session.

  The theorems are about any session which starts when both connections are able
  to write, after any sequence of events on the two connections: packets, the event
  loop resuming held input, rekey timers, sockets becoming writable.
-/
namespace Lukko
open Spec Model

/-! ## The specification -/

/-- The half on this side. -/
def Model.ProxySys.half (y : ProxySys) : Side → Half
  | .client => y.client
  | .target => y.target

/-- The other side. -/
def Model.Side.other : Side → Side
  | .client => .target
  | .target => .client

/-- Both connections are alive. -/
def Model.ProxySys.live (y : ProxySys) : Prop := y.client.sys.stop = none ∧ y.target.sys.stop = none

/-- After its last write attempt, does this side's socket have a backlog? -/
def backlog (side : Side) (evs : List (Side × PxEvent)) : Bool :=
  evs.foldl (fun b ev => match ev with
    | (s, .writable more) => if s = side then more else b
    | _ => b) false

/-- The packets received on this side. -/
def arrivals (side : Side) (evs : List (Side × PxEvent)) : List Bytes :=
  evs.filterMap fun ev => match ev with
    | (s, .arrive raw) => if s = side then some raw else none
    | _ => none

/-- A connection in the given role after a history in which it survived, is not
congested and not in the middle of a later key exchange. -/
structure Settled (e : KexEnv) (role : Role) (c : KxSys) : Prop where
  history : ∃ evs : List KxEvent, (∀ ev ∈ evs, EventOk ev) ∧ c = (KxSys.init role).run e evs ∧ congested evs = false
  alive : c.stop = none
  quiet : rekeying c.kx.log = false

/-- Nothing will ever be handled again on either connection, and neither will be
closed, whatever packets arrive and whatever happens otherwise. -/
def Stalled (e : Side → KexEnv) (y : ProxySys) : Prop :=
  ∀ more, (y.run e more).live ∧ ∀ side, ((y.run e more).half side).handled = (y.half side).handled

/-! ## Invariant -/

/-- A connection with a history. -/
def RunOf (e : KexEnv) (role : Role) (c : KxSys) : Prop :=
  ∃ evs : List KxEvent, (∀ ev ∈ evs, EventOk ev) ∧ c = (KxSys.init role).run e evs

/-- No held input is forgotten. -/
structure InputGate (h : Half) : Prop where
  open_ : h.blocked = false → (h.pending = [] ∨ h.resume = true) ∧ (h.reading = true ∨ h.resume = true)
  held : h.blocked = true → (h.pending = [] ∨ h.inputReady = true ∨ h.resume = true) ∧
    (h.reading = true ∨ h.inputReady = true ∨ h.resume = true)

theorem RunOf.step {e role c ev} (h : RunOf e role c) (hev : EventOk ev) : RunOf e role (c.step e ev) := by
  obtain ⟨evs, h1, h2⟩ := h
  refine ⟨evs ++ [ev], ?_, by rw [run_snoc, ← h2]⟩
  intro x hx
  rcases List.mem_append.1 hx with hx | hx
  · exact h1 x hx
  · rw [List.mem_singleton.1 hx]; exact hev

theorem RunOf.told {e role c} (hd : ∀ x, (e.digest x).length = 32) (h : RunOf e role c) :
    ∃ b, toldBlocked c.kx.log = some b := by
  obtain ⟨evs, h1, h2⟩ := h
  have := C18_alternate (role := role) hd h1
  rw [← h2] at this
  exact Option.isSome_iff_exists.1 this

theorem proxyClaim_ok (raw : Bytes) : ClaimOk raw (proxyClaim raw) := by
  unfold proxyClaim ClaimOk
  cases raw with
  | nil => simp
  | cons m p =>
    simp only [Bool.cond_eq_ite]
    split
    · right
      rename_i hm
      intro hc
      simp only [List.head?_cons, List.mem_cons, Option.some.injEq, List.not_mem_nil, or_false] at hc
      rcases hc with rfl | rfl | rfl | rfl <;> exact absurd hm (by decide)
    · left; rfl

/-- What a half keeps when it is told about events on the other connection. -/
structure Kept (h h' : Half) : Prop where
  sys : h'.sys = h.sys
  pending : h'.pending = h.pending
  handled : h'.handled = h.handled

theorem Kept.rfl' {h : Half} : Kept h h := ⟨rfl, rfl, rfl⟩

theorem Kept.trans {a b c : Half} (h1 : Kept a b) (h2 : Kept b c) : Kept a c :=
  ⟨h2.sys.trans h1.sys, h2.pending.trans h1.pending, h2.handled.trans h1.handled⟩

def toldNext (told : Bool) (e : Entry) : Option Bool :=
  match e with
    | .blocked => if told then none else some true
    | .unblocked => if told then some false else none
    | _ => some told

theorem notes_told (new : List Entry) (h : Half) (b : Bool) (hg : InputGate h)
    (ht : new.foldlM toldNext h.blocked = some b) :
    InputGate (new.foldl Half.note h) ∧ (new.foldl Half.note h).blocked = b ∧ Kept h (new.foldl Half.note h) := by
  induction new generalizing h with
  | nil => exact ⟨hg, by simpa using ht, .rfl'⟩
  | cons x xs ih =>
    have key : ∃ b', toldNext h.blocked x = some b' ∧ (h.note x).blocked = b' ∧ InputGate (h.note x) ∧ Kept h (h.note x) ∧
        xs.foldlM toldNext b' = some b := by
      rw [List.foldlM_cons] at ht
      cases hx : toldNext h.blocked x with
      | none => rw [hx] at ht; simp at ht
      | some b' =>
        rw [hx] at ht
        refine ⟨b', rfl, ?_, ?_, ?_, by simpa using ht⟩
        · cases x <;> simp_all [toldNext, Half.note, Half.blockRead, Half.unblockRead]
        · obtain ⟨g1, g2⟩ := hg
          cases x <;> simp only [Half.note, Half.blockRead, Half.unblockRead] <;> try exact ⟨g1, g2⟩
          · have hb : h.blocked = false := by
              cases hb : h.blocked with
              | false => rfl
              | true => rw [hb] at hx; simp [toldNext] at hx
            have := g1 hb
            constructor
            · intro h'; simp at h'
            · intro _
              exact ⟨this.1.imp_right Or.inr, this.2.imp_right Or.inr⟩
          · have hb : h.blocked = true := by
              cases hb : h.blocked with
              | true => rfl
              | false => rw [hb] at hx; simp [toldNext] at hx
            have := g2 hb
            constructor
            · intro _
              simp only [Bool.or_eq_true]
              exact ⟨this.1.imp_right Or.symm, this.2.imp_right Or.symm⟩
            · intro h'; simp at h'
        · cases x <;> exact ⟨rfl, rfl, rfl⟩
    obtain ⟨b', h1, h2, h3, h4, h5⟩ := key
    rw [← h2] at h5
    obtain ⟨i1, i2, i3⟩ := ih (h.note x) h3 h5
    exact ⟨i1, i2, h4.trans i3⟩

/-- What holds between a connection and the half that listens to it. -/
structure Coupled (e : KexEnv) (role : Role) (me other : Half) : Prop where
  run : RunOf e role me.sys
  told : toldBlocked me.sys.kx.log = some other.blocked
  gate : InputGate other

theorem kxStep_coupled {e role me other ev} (hd : ∀ x, (e.digest x).length = 32) (hev : EventOk ev)
    (h : Coupled e role me other) :
    Coupled e role (kxStep e me other ev).1 (kxStep e me other ev).2 ∧ Kept other (kxStep e me other ev).2 ∧
    (kxStep e me other ev).1 = { me with sys := me.sys.step e ev } := by
  have hr := h.run.step (ev := ev) hev
  obtain ⟨b, hb⟩ := hr.told hd
  obtain ⟨ext, hx⟩ := (step_grow (e := e) (y := me.sys) (ev := ev)).1
  have ht : ext.foldlM toldNext other.blocked = some b := by
    have h1 := hb
    rw [hx] at h1
    unfold toldBlocked at h1
    have h2 := h.told
    unfold toldBlocked at h2
    rw [List.foldlM_append, h2] at h1
    exact h1
  obtain ⟨n1, n2, n3⟩ := notes_told ext other b h.gate ht
  have hn : (kxStep e me other ev).2 = ext.foldl Half.note other := by
    simp only [kxStep, hx, List.drop_left]
  refine ⟨⟨hr, ?_, ?_⟩, ?_, rfl⟩
  · rw [hn, n2]; exact hb
  · rw [hn]; exact n1
  · rw [hn]; exact n3

/-- After `OnInputReady`. -/
structure AfterInput (e : KexEnv) (role : Role) (me other : Half) (ps : List Bytes) (r : Half × Half) : Prop where
  coupled : Coupled e role r.1 r.2
  kept : Kept other r.2
  blocked : r.1.blocked = me.blocked
  resume : r.1.resume = me.resume
  gate : InputGate r.1 ∨ r.1.sys.stop ≠ none
  order : r.1.handled ++ r.1.pending = me.handled ++ ps
  all : me.blocked = false → r.1.sys.stop = none → r.1.pending = []
  stop : me.sys.stop ≠ none → r.1.sys.stop ≠ none
  congested : r.1.sys.stop = none → r.1.sys.kx.writeBlocked = me.sys.kx.writeBlocked

theorem step_stop_mono {e} {c : KxSys} {ev} (h : c.stop ≠ none) : (c.step e ev).stop ≠ none := by
  rw [step_stopped h]; exact h

theorem inputLoop_after {e role} (hd : ∀ x, (e.digest x).length = 32) (ps : List Bytes) (me other : Half)
    (h : Coupled e role me other) : AfterInput e role me other ps (inputLoop e ps me other) := by
  induction ps generalizing me other with
  | nil =>
    unfold inputLoop
    simp only [Bool.cond_eq_ite]
    split
    · rename_i hs
      have hs' : me.sys.stop ≠ none := by intro hc; rw [hc] at hs; simp at hs
      exact ⟨⟨h.run, h.told, h.gate⟩, .rfl', rfl, rfl, .inr hs', rfl, fun _ hc => absurd hc hs', fun x => x, fun _ => rfl⟩
    · rename_i hs
      split
      · rename_i hb
        exact ⟨⟨h.run, h.told, h.gate⟩, .rfl', rfl, rfl, .inl ⟨by simp [hb], by simp⟩, rfl, by simp [hb], fun x => x, fun _ => rfl⟩
      · rename_i hb
        exact ⟨⟨h.run, h.told, h.gate⟩, .rfl', rfl, rfl, .inl ⟨by simp, by simp⟩, rfl, fun _ _ => rfl, fun x => x, fun _ => rfl⟩
  | cons raw ps ih =>
    unfold inputLoop
    simp only [Bool.cond_eq_ite]
    split
    · rename_i hs
      have hs' : me.sys.stop ≠ none := by intro hc; rw [hc] at hs; simp at hs
      exact ⟨⟨h.run, h.told, h.gate⟩, .rfl', rfl, rfl, .inr hs', rfl, fun _ hc => absurd hc hs', fun x => x, fun _ => rfl⟩
    · rename_i hs
      have hs' : me.sys.stop = none := by simpa using hs
      split
      · rename_i hb
        exact ⟨⟨h.run, h.told, h.gate⟩, .rfl', rfl, rfl, .inl ⟨by simp [hb], by simp⟩, rfl, by simp [hb], fun x => x, fun _ => rfl⟩
      · rename_i hb
        obtain ⟨k1, k2, k3⟩ := kxStep_coupled (ev := .packet raw (proxyClaim raw)) hd (proxyClaim_ok raw)
          (me := { me with handled := me.handled ++ [raw] }) (other := other) ⟨h.run, h.told, h.gate⟩
        have i := ih _ _ k1
        generalize inputLoop e ps _ _ = r at i ⊢
        rw [k3] at i
        refine ⟨i.coupled, k2.trans i.kept, i.blocked, i.resume, i.gate, ?_, i.all, fun hc => absurd hs' hc, ?_⟩
        · rw [i.order]; simp
        · intro hc
          rw [i.congested hc]
          have := (step_grow (e := e) (y := me.sys) (ev := .packet raw (proxyClaim raw))).2 hs'
          simpa [congestedAfter] using this

/-- The invariant of a session. -/
structure PInv (e : Side → KexEnv) (evs : List (Side × PxEvent)) (y : ProxySys) : Prop where
  client : Coupled (e .client) .server y.client y.target
  target : Coupled (e .target) .client y.target y.client
  order : ∀ side, (y.half side).handled ++ (y.half side).pending = arrivals side evs
  congested : ∀ side, (y.half side).sys.kx.writeBlocked = backlog side evs

theorem congestedAfter_eq : (fun b ev => match ev with | KxEvent.writable more => more | _ => b) = congestedAfter := by
  funext b ev; cases ev <;> rfl

theorem Settled.coupled {e role c} (hd : ∀ x, (e.digest x).length = 32) (h : Settled e role c) {o : Half}
    (ho : o.blocked = false) (hg : InputGate o) : Coupled e role { sys := c } o ∧ c.kx.writeBlocked = false := by
  obtain ⟨⟨evs, h1, h2, h3⟩, h4, h5⟩ := h
  have := C18_notifications (role := role) hd h1 (by rw [← h2]; exact h4)
  rw [← h2, h3, h5] at this
  refine ⟨⟨⟨evs, h1, h2⟩, by rw [ho]; exact this, hg⟩, ?_⟩
  have hc := run_congested (e := e) (y := KxSys.init role) (evs := evs) (by rw [← h2]; exact h4)
  rw [← h2] at hc
  rw [hc, ← congestedAfter_eq]
  exact h3

theorem InputGate.fresh (c : KxSys) : InputGate { sys := c } := ⟨fun _ => ⟨.inl rfl, .inl rfl⟩, fun h => by simp at h⟩

theorem PInv.start {e c t} (hd : ∀ s x, ((e s).digest x).length = 32) (hc : Settled (e .client) .server c)
    (ht : Settled (e .target) .client t) : PInv e [] (ProxySys.start c t) := by
  obtain ⟨c1, c2⟩ := hc.coupled (hd _) (o := { sys := t }) rfl (.fresh t)
  obtain ⟨t1, t2⟩ := ht.coupled (hd _) (o := { sys := c }) rfl (.fresh c)
  refine ⟨c1, t1, ?_, ?_⟩
  · intro side; cases side <;> rfl
  · intro side; cases side
    · exact c2
    · exact t2

/-- The packet received in this event. -/
def arrivedBy : PxEvent → List Bytes
  | .arrive raw => [raw]
  | _ => []

/-- What this event says about the socket. -/
def backlogAfter (b : Bool) : PxEvent → Bool
  | .writable more => more
  | _ => b

/-- After an event on one connection. -/
structure AfterStep (e : KexEnv) (role : Role) (me other : Half) (ev : PxEvent) (r : Half × Half) : Prop where
  coupled : Coupled e role r.1 r.2
  kept : Kept other r.2
  blocked : r.1.blocked = me.blocked
  gate : r.1.sys.stop = none → InputGate r.1
  order : r.1.handled ++ r.1.pending = me.handled ++ me.pending ++ arrivedBy ev
  congested : r.1.sys.stop = none → r.1.sys.kx.writeBlocked = backlogAfter me.sys.kx.writeBlocked ev

theorem Half.step_after {e role me other ev} (hd : ∀ x, (e.digest x).length = 32) (h : Coupled e role me other)
    (hg : InputGate me) (hs : me.sys.stop = none) : AfterStep e role me other ev (Model.Half.step e me other ev) := by
  have gate_of : ∀ {r : Half × Half}, InputGate r.1 ∨ r.1.sys.stop ≠ none → r.1.sys.stop = none → InputGate r.1 :=
    fun h hc => h.resolve_right (fun hn => hn hc)
  cases ev with
  | arrive raw =>
    have i := inputLoop_after hd (me.pending ++ [raw]) { me with pending := me.pending ++ [raw] } other ⟨h.run, h.told, h.gate⟩
    exact ⟨i.coupled, i.kept, i.blocked, gate_of i.gate, by rw [List.append_assoc]; exact i.order, i.congested⟩
  | resume =>
    show AfterStep _ _ _ _ _ (bif me.resume then onInputReady e { me with resume := false } other else (me, other))
    simp only [Bool.cond_eq_ite]
    split
    · have i := inputLoop_after hd me.pending { me with resume := false } other ⟨h.run, h.told, h.gate⟩
      exact ⟨i.coupled, i.kept, i.blocked, gate_of i.gate, by rw [show arrivedBy .resume = [] from rfl, List.append_nil]; exact i.order, i.congested⟩
    · exact ⟨h, .rfl', rfl, fun _ => hg, by simp [arrivedBy], fun _ => rfl⟩
  | rekeyTimer =>
    obtain ⟨k1, k2, k3⟩ := kxStep_coupled (ev := .rekeyTimer) hd trivial h
    have hw := (step_grow (e := e) (y := me.sys) (ev := .rekeyTimer)).2 hs
    refine ⟨k1, k2, ?_, fun _ => ?_, ?_, fun _ => ?_⟩ <;> simp only [Model.Half.step, k3]
    · exact ⟨hg.open_, hg.held⟩
    · simp [arrivedBy]
    · exact hw
  | writable more =>
    obtain ⟨k1, k2, k3⟩ := kxStep_coupled (ev := .writable more) hd trivial h
    have hw := (step_grow (e := e) (y := me.sys) (ev := .writable more)).2 hs
    refine ⟨k1, k2, ?_, fun _ => ?_, ?_, fun _ => ?_⟩ <;> simp only [Model.Half.step, k3]
    · exact ⟨hg.open_, hg.held⟩
    · simp [arrivedBy]
    · exact hw

theorem arrivals_snoc (side : Side) (evs : List (Side × PxEvent)) (s : Side) (ev : PxEvent) :
    arrivals side (evs ++ [(s, ev)]) = arrivals side evs ++
      (if s = side then arrivedBy ev else []) := by
  unfold arrivals
  rw [List.filterMap_append]
  congr 1
  cases ev <;> by_cases h : s = side <;> simp [h, arrivedBy, backlogAfter]

theorem backlog_snoc (side : Side) (evs : List (Side × PxEvent)) (s : Side) (ev : PxEvent) :
    backlog side (evs ++ [(s, ev)]) = if s = side then backlogAfter (backlog side evs) ev
      else backlog side evs := by
  unfold backlog
  rw [List.foldl_append]
  cases ev <;> by_cases h : s = side <;> simp [h, arrivedBy, backlogAfter]

theorem ProxySys.run_snoc {e y} {evs : List (Side × PxEvent)} {ev} :
    Model.ProxySys.run e y (evs ++ [ev]) = (Model.ProxySys.run e y evs).step e ev := by
  simp [Model.ProxySys.run]

theorem ProxySys.step_over {e} {y : ProxySys} {ev} (h : ¬ y.live) : y.step e ev = y := by
  have : (y.client.sys.stop.isSome || y.target.sys.stop.isSome) = true := by
    cases h1 : y.client.sys.stop <;> cases h2 : y.target.sys.stop <;> simp_all [Model.ProxySys.live]
  unfold Model.ProxySys.step; rw [this]; rfl

theorem ProxySys.step_live {e} {y : ProxySys} {s ev} (h : y.live) : y.step e (s, ev) =
    match s with
    | .client => ⟨(Model.Half.step (e .client) y.client y.target ev).1, (Model.Half.step (e .client) y.client y.target ev).2⟩
    | .target => ⟨(Model.Half.step (e .target) y.target y.client ev).2, (Model.Half.step (e .target) y.target y.client ev).1⟩ := by
  unfold Model.ProxySys.step; rw [h.1, h.2]; cases s <;> rfl

theorem PInv.step {e evs y ev} (hd : ∀ s x, ((e s).digest x).length = 32) (h : PInv e evs y) (hl : y.live)
    (hl' : (y.step e ev).live) : PInv e (evs ++ [ev]) (y.step e ev) := by
  obtain ⟨s, ev⟩ := ev
  rw [ProxySys.step_live hl] at hl' ⊢
  cases s with
  | client =>
    have a := Half.step_after (ev := ev) (hd .client) h.client h.target.gate hl.1
    generalize Model.Half.step (e .client) y.client y.target ev = r at a hl' ⊢
    have oc := h.order .client; have ot := h.order .target; have cc := h.congested .client; have ct := h.congested .target
    refine ⟨a.coupled, ⟨?_, ?_, a.gate hl'.1⟩, ?_, ?_⟩
    · show RunOf _ _ r.2.sys; rw [a.kept.sys]; exact h.target.run
    · show toldBlocked r.2.sys.kx.log = some r.1.blocked; rw [a.kept.sys, a.blocked]; exact h.target.told
    · intro side
      rw [arrivals_snoc]
      cases side with
      | client => rw [if_pos rfl, ← oc]; exact a.order
      | target => simp only [reduceCtorEq, if_false, List.append_nil]; rw [← ot]; show r.2.handled ++ r.2.pending = _; rw [a.kept.handled, a.kept.pending]; rfl
    · intro side
      rw [backlog_snoc]
      cases side with
      | client => rw [if_pos rfl, ← cc]; exact a.congested hl'.1
      | target => simp only [reduceCtorEq, if_false]; rw [← ct]; show r.2.sys.kx.writeBlocked = _; rw [a.kept.sys]; rfl
  | target =>
    have a := Half.step_after (ev := ev) (hd .target) h.target h.client.gate hl.2
    generalize Model.Half.step (e .target) y.target y.client ev = r at a hl' ⊢
    have oc := h.order .client; have ot := h.order .target; have cc := h.congested .client; have ct := h.congested .target
    refine ⟨⟨?_, ?_, a.gate hl'.2⟩, a.coupled, ?_, ?_⟩
    · show RunOf _ _ r.2.sys; rw [a.kept.sys]; exact h.client.run
    · show toldBlocked r.2.sys.kx.log = some r.1.blocked; rw [a.kept.sys, a.blocked]; exact h.client.told
    · intro side
      rw [arrivals_snoc]
      cases side with
      | target => rw [if_pos rfl, ← ot]; exact a.order
      | client => simp only [reduceCtorEq, if_false, List.append_nil]; rw [← oc]; show r.2.handled ++ r.2.pending = _; rw [a.kept.handled, a.kept.pending]; rfl
    · intro side
      rw [backlog_snoc]
      cases side with
      | target => rw [if_pos rfl, ← ct]; exact a.congested hl'.2
      | client => simp only [reduceCtorEq, if_false]; rw [← cc]; show r.2.sys.kx.writeBlocked = _; rw [a.kept.sys]; rfl

theorem PInv.run {e c t evs} (hd : ∀ s x, ((e s).digest x).length = 32) (hc : Settled (e .client) .server c)
    (ht : Settled (e .target) .client t) (hl : ((ProxySys.start c t).run e evs).live) :
    PInv e evs ((ProxySys.start c t).run e evs) := by
  induction evs using Aux.snoc_ind with
  | h0 => exact .start hd hc ht
  | h1 evs ev ih =>
    rw [ProxySys.run_snoc] at hl ⊢
    by_cases h : ((ProxySys.start c t).run e evs).live
    · exact (ih h).step hd h hl
    · rw [ProxySys.step_over h] at hl; exact absurd hl h

/-! ## A session -/

def demoClientSide : KxSys := demoServer (demoServerEvents ++ [.authenticated])

def demoTargetSide : KxSys := demoClient (demoClientEvents ++ [.authenticated])

def demoPair : ProxySys := ProxySys.start demoClientSide demoTargetSide

def demoEnvs : Side → KexEnv := fun _ => demoEnv

theorem demoEnvs_digest : ∀ s x, ((demoEnvs s).digest x).length = 32 := fun _ => demoEnv_digest

theorem demoIdle₁ : Settled (demoEnvs .client) .server demoClientSide :=
  ⟨⟨_, eventOk_of (by decide), rfl, by decide⟩, by decide +kernel, by decide +kernel⟩

theorem demoIdle₂ : Settled (demoEnvs .target) .client demoTargetSide :=
  ⟨⟨_, eventOk_of (by decide +kernel), rfl, by decide +kernel⟩, by decide +kernel, by decide +kernel⟩

/-! ## C70 -/

variable {es : Side → KexEnv} {c t : KxSys} {pevs : List (Side × PxEvent)}

/-- **C70.** A connection's input is held exactly while the other connection
has a backlog or is in the middle of a later key exchange. -/
theorem C70_held (hd : ∀ s x, ((es s).digest x).length = 32) (hc : Settled (es .client) .server c)
    (ht : Settled (es .target) .client t) (hl : ((ProxySys.start c t).run es pevs).live) (side : Side) :
    (((ProxySys.start c t).run es pevs).half side).blocked =
      (backlog side.other pevs || rekeying (((ProxySys.start c t).run es pevs).half side.other).sys.kx.log) := by
  have h := PInv.run hd hc ht hl
  generalize (ProxySys.start c t).run es pevs = y at h hl ⊢
  have gen : ∀ {e role} {me other : Half}, (∀ x, (e.digest x).length = 32) → Coupled e role me other → me.sys.stop = none →
      other.blocked = (me.sys.kx.writeBlocked || rekeying me.sys.kx.log) := by
    intro e role me other hd h hs
    obtain ⟨evs, h1, h2⟩ := h.run
    have hn := C18_notifications (role := role) hd h1 (by rw [← h2]; exact hs)
    have hw := run_congested (e := e) (y := KxSys.init role) (evs := evs) (by rw [← h2]; exact hs)
    rw [← h2] at hn hw
    rw [h.told] at hn
    have hcg : congested evs = me.sys.kx.writeBlocked := by rw [hw, ← congestedAfter_eq]; rfl
    rw [hcg] at hn
    exact Option.some.inj hn
  have cc := h.congested side.other
  cases side with
  | client =>
    have g := gen (hd .target) h.target hl.2
    rw [← cc]; exact g
  | target =>
    have g := gen (hd .client) h.client hl.1
    rw [← cc]; exact g

/-- **C70.** Nothing is lost or reordered: what was handled, followed by what is
held, is what arrived. -/
theorem C70_order (hd : ∀ s x, ((es s).digest x).length = 32) (hc : Settled (es .client) .server c)
    (ht : Settled (es .target) .client t) (hl : ((ProxySys.start c t).run es pevs).live) (side : Side) :
    (((ProxySys.start c t).run es pevs).half side).handled ++ (((ProxySys.start c t).run es pevs).half side).pending =
      arrivals side pevs :=
  (PInv.run hd hc ht hl).order side

/-- **C70.** No wake-up is lost: if a connection's input is not held any more but
some of it is still waiting (or the socket is not being read), then the event loop
is going to resume it, and then everything is handled. -/
theorem C70_resumed (hd : ∀ s x, ((es s).digest x).length = 32) (hc : Settled (es .client) .server c)
    (ht : Settled (es .target) .client t) (hl : ((ProxySys.start c t).run es pevs).live) (side : Side)
    (hb : (((ProxySys.start c t).run es pevs).half side).blocked = false) :
    ((((ProxySys.start c t).run es pevs).half side).pending ≠ [] ∨
      (((ProxySys.start c t).run es pevs).half side).reading = false →
        (((ProxySys.start c t).run es pevs).half side).resume = true) ∧
    (((ProxySys.start c t).run es (pevs ++ [(side, .resume)])).live →
      (((ProxySys.start c t).run es (pevs ++ [(side, .resume)])).half side).pending = [] ∧
      (((ProxySys.start c t).run es (pevs ++ [(side, .resume)])).half side).reading = true) := by
  have h := PInv.run hd hc ht hl
  rw [ProxySys.run_snoc]
  generalize (ProxySys.start c t).run es pevs = y at h hl hb ⊢
  have hg : InputGate (y.half side) := by cases side; exact h.target.gate; exact h.client.gate
  have h1 : (y.half side).pending ≠ [] ∨ (y.half side).reading = false → (y.half side).resume = true := by
    intro hp
    obtain ⟨a, b⟩ := hg.open_ hb
    rcases hp with hp | hp
    · exact a.resolve_left hp
    · exact b.resolve_left (by simp [hp])
  refine ⟨h1, ?_⟩
  have loop : ∀ {e role} {me other : Half}, (∀ x, (e.digest x).length = 32) → Coupled e role me other →
      me.blocked = false → InputGate me →
      (Model.Half.step e me other .resume).1.sys.stop = none →
      (Model.Half.step e me other .resume).1.pending = [] ∧ (Model.Half.step e me other .resume).1.reading = true := by
    intro e role me other hd h hb hg
    show (bif me.resume then onInputReady e { me with resume := false } other else (me, other)).1.sys.stop = none →
      (bif me.resume then onInputReady e { me with resume := false } other else (me, other)).1.pending = [] ∧
      (bif me.resume then onInputReady e { me with resume := false } other else (me, other)).1.reading = true
    cases hr : me.resume with
    | false =>
      intro _
      obtain ⟨a, b⟩ := hg.open_ hb
      exact ⟨a.resolve_right (by simp [hr]), b.resolve_right (by simp [hr])⟩
    | true =>
      intro hs
      have i := inputLoop_after hd me.pending { me with resume := false } other ⟨h.run, h.told, h.gate⟩
      have hs' : (inputLoop e me.pending { me with resume := false } other).1.sys.stop = none := hs
      refine ⟨i.all hb hs', ?_⟩
      have g := (i.gate.resolve_right (fun hn => hn hs')).open_ (by rw [i.blocked]; exact hb)
      exact g.2.resolve_right (by rw [i.resume]; simp)
  intro hl'
  rw [ProxySys.step_live hl] at hl' ⊢
  cases side with
  | client => exact loop (hd .client) h.client hb hg hl'.1
  | target => exact loop (hd .target) h.target hb hg hl'.2

/-- Non-vacuity: the client's input is held while the target's socket has a backlog,
and resumed afterwards. -/
example : Settled (demoEnvs .client) .server demoClientSide ∧ Settled (demoEnvs .target) .client demoTargetSide ∧
    (let y := demoPair.run demoEnvs [(.client, .arrive [94, 1]), (.target, .writable true), (.client, .arrive [94, 2]),
      (.client, .arrive [94, 3]), (.target, .writable false)]
     y.client.sys.stop = none ∧ y.target.sys.stop = none ∧ y.client.blocked = false ∧ y.client.handled = [[94, 1]] ∧
      y.client.pending = [[94, 2], [94, 3]] ∧ y.client.resume = true ∧
      (y.step demoEnvs (.client, .resume)).client.handled = [[94, 1], [94, 2], [94, 3]]) :=
  ⟨demoIdle₁, demoIdle₂, by decide +kernel⟩

theorem ProxySys.run_append {y : ProxySys} {a b : List (Side × PxEvent)} :
    y.run es (a ++ b) = (y.run es a).run es b := by simp [Model.ProxySys.run]

theorem kxStep_writable {e : KexEnv} {me other : Half} {more} (hs : me.sys.stop = none) :
    (Model.Half.step e me other (.writable more)).1.sys.stop = none := by
  show (me.sys.step e (.writable more)).stop = none
  unfold KxSys.step; rw [hs]

theorem notes_sys (new : List Entry) (h : Half) : (new.foldl Half.note h).sys = h.sys ∧
    (new.foldl Half.note h).handled = h.handled := by
  induction new generalizing h with
  | nil => exact ⟨rfl, rfl⟩
  | cons x xs ih =>
    have := ih (h.note x)
    rw [List.foldl_cons, this.1, this.2]
    cases x <;> exact ⟨rfl, rfl⟩

theorem ProxySys.writable_live {y : ProxySys} {s more} (h : y.live) : (y.step es (s, .writable more)).live := by
  rw [ProxySys.step_live h]
  cases s
  · refine ⟨kxStep_writable (other := y.target) h.1, ?_⟩
    show ((y.client.sys.step _ _).kx.log.drop _ |>.foldl Half.note y.target).sys.stop = none
    rw [(notes_sys _ _).1]; exact h.2
  · refine ⟨?_, kxStep_writable (other := y.client) h.2⟩
    show ((y.target.sys.step _ _).kx.log.drop _ |>.foldl Half.note y.client).sys.stop = none
    rw [(notes_sys _ _).1]; exact h.1

theorem ProxySys.writable_rekeying {y : ProxySys} {s more side} (h : y.live) (hi : PInv es pevs y)
    (hd : ∀ s x, ((es s).digest x).length = 32) :
    rekeying ((y.step es (s, .writable more)).half side).sys.kx.log = rekeying ((y.half side).sys.kx.log) := by
  have gen : ∀ {e role} {a : KxSys}, (∀ x, (e.digest x).length = 32) → RunOf e role a → a.stop = none →
      rekeying (a.step e (.writable more)).kx.log = rekeying a.kx.log := by
    intro e role a hd hr hs
    have hph : ∀ {b : KxSys}, RunOf e role b → b.stop = none → rekeying b.kx.log = b.kx.isRekeying := by
      intro b ⟨evs, h1, h2⟩ hs
      obtain ⟨φ, h⟩ := run_rest (role := role) hd h1 (by rw [← h2]; exact hs)
      rw [← h2] at h
      simp only [rekeying, h.phase, Kx.isRekeying, h.fSent, h.fNewSent, h.outEnc]
    rw [hph (hr.step (ev := .writable more) trivial) (by unfold KxSys.step; rw [hs]), hph hr hs]
    unfold KxSys.step
    rw [hs]
    show (a.kx.onBufferedWrite more).isRekeying = _
    unfold Kx.onBufferedWrite
    simp only [Bool.cond_eq_ite]
    split <;> split <;> try split
    all_goals rfl
  rw [ProxySys.step_live h]
  cases s <;> cases side
  · exact gen (hd .client) hi.client.run h.1
  · show rekeying ((y.client.sys.step _ _).kx.log.drop _ |>.foldl Half.note y.target).sys.kx.log = _
    rw [(notes_sys _ _).1]; rfl
  · show rekeying ((y.target.sys.step _ _).kx.log.drop _ |>.foldl Half.note y.client).sys.kx.log = _
    rw [(notes_sys _ _).1]; rfl
  · exact gen (hd .target) hi.target.run h.2

theorem inputLoop_handled {e : KexEnv} (ps : List Bytes) (me other : Half) :
    ∃ ext, (inputLoop e ps me other).1.handled = me.handled ++ ext := by
  induction ps generalizing me other with
  | nil =>
    unfold inputLoop
    simp only [Bool.cond_eq_ite]
    split
    · exact ⟨[], by simp⟩
    · split <;> exact ⟨[], by simp⟩
  | cons raw ps ih =>
    unfold inputLoop
    simp only [Bool.cond_eq_ite]
    split
    · exact ⟨[], by simp⟩
    · split
      · exact ⟨[], by simp⟩
      · obtain ⟨ext, h⟩ := ih (kxStep e { me with handled := me.handled ++ [raw] } other (.packet raw (proxyClaim raw))).1
          (kxStep e { me with handled := me.handled ++ [raw] } other (.packet raw (proxyClaim raw))).2
        refine ⟨raw :: ext, ?_⟩
        rw [h]
        show me.handled ++ [raw] ++ ext = _
        simp

/-- A packet that arrives on a connection which is not held is handled: at least one
packet is. -/
theorem inputLoop_more {e : KexEnv} {ps : List Bytes} {me other : Half} (hp : ps ≠ []) (hb : me.blocked = false)
    (hs : me.sys.stop = none) : (inputLoop e ps me other).1.handled ≠ me.handled := by
  cases ps with
  | nil => exact absurd rfl hp
  | cons raw ps =>
    unfold inputLoop
    simp only [hs, Option.isSome_none, cond_false]
    rw [hb, cond_false, ← hb]
    obtain ⟨ext, h⟩ := inputLoop_handled (e := e) ps
      (kxStep e { me with handled := me.handled ++ [raw] } other (.packet raw (proxyClaim raw))).1
      (kxStep e { me with handled := me.handled ++ [raw] } other (.packet raw (proxyClaim raw))).2
    rw [h]
    show me.handled ++ [raw] ++ ext ≠ _
    intro hc
    have := congrArg List.length hc
    simp at this

/-- **C70, weakened.** As long as the two connections are not *both* in the middle of
a later key exchange, the session is not stalled: when both sockets have been written
empty, at least one connection – each one which is exchanging keys – handles what it
receives.  (The full property, `¬ Stalled` in every reachable state, is false: see
`C70_deadlock_violated`.) -/
theorem C70_progress_partial (hd : ∀ s x, ((es s).digest x).length = 32) (hc : Settled (es .client) .server c)
    (ht : Settled (es .target) .client t) (hl : ((ProxySys.start c t).run es pevs).live)
    (hr : ¬ (rekeying ((ProxySys.start c t).run es pevs).client.sys.kx.log = true ∧
      rekeying ((ProxySys.start c t).run es pevs).target.sys.kx.log = true)) :
    ¬ Stalled es ((ProxySys.start c t).run es pevs) := by
  have hi := PInv.run hd hc ht hl
  have l1 : (((ProxySys.start c t).run es pevs).step es (.client, .writable false)).live := ProxySys.writable_live hl
  have l2 : ((((ProxySys.start c t).run es pevs).step es (.client, .writable false)).step es (.target, .writable false)).live :=
    ProxySys.writable_live l1
  have i1 := hi.step hd hl l1
  have r2 : ∀ side, rekeying (((((ProxySys.start c t).run es pevs).step es (.client, .writable false)).step es
      (.target, .writable false)).half side).sys.kx.log = rekeying (((ProxySys.start c t).run es pevs).half side).sys.kx.log :=
    fun side => (ProxySys.writable_rekeying l1 i1 hd).trans (ProxySys.writable_rekeying hl hi hd)
  have e2 : (((ProxySys.start c t).run es pevs).step es (.client, .writable false)).step es (.target, .writable false) =
      (ProxySys.start c t).run es (pevs ++ [(.client, .writable false)] ++ [(.target, .writable false)]) := by
    rw [ProxySys.run_snoc, ProxySys.run_snoc]
  -- one side is not held
  have hfree : ∃ side, (((((ProxySys.start c t).run es pevs).step es (.client, .writable false)).step es
      (.target, .writable false)).half side).blocked = false := by
    have hh := fun side => C70_held hd hc ht (pevs := pevs ++ [(.client, .writable false)] ++ [(.target, .writable false)])
      (by rw [← e2]; exact l2) side
    rw [← e2] at hh
    have b0 : ∀ side, backlog side (pevs ++ [(.client, .writable false)] ++ [(.target, .writable false)]) = false := by
      intro side
      rw [backlog_snoc, backlog_snoc]
      cases side <;> simp [backlogAfter]
    by_cases hcr : rekeying ((ProxySys.start c t).run es pevs).client.sys.kx.log = true
    · have htr : rekeying ((ProxySys.start c t).run es pevs).target.sys.kx.log = false := by
        cases hx : rekeying ((ProxySys.start c t).run es pevs).target.sys.kx.log with
        | false => rfl
        | true => exact absurd ⟨hcr, hx⟩ hr
      refine ⟨.client, ?_⟩
      rw [hh .client, b0, r2]
      exact htr
    · refine ⟨.target, ?_⟩
      rw [hh .target, b0, r2]
      exact Bool.eq_false_iff.2 hcr
  obtain ⟨side, hb⟩ := hfree
  intro hst
  have h3 := (hst [(.client, .writable false), (.target, .writable false)]).2 side
  have h4 := (hst [(.client, .writable false), (.target, .writable false), (side, .arrive [2])]).2 side
  have e3 : ((ProxySys.start c t).run es pevs).run es [(.client, .writable false), (.target, .writable false)] =
      (((ProxySys.start c t).run es pevs).step es (.client, .writable false)).step es (.target, .writable false) := rfl
  have e4 : ((ProxySys.start c t).run es pevs).run es
        [(.client, .writable false), (.target, .writable false), (side, .arrive [2])] =
      ((((ProxySys.start c t).run es pevs).step es (.client, .writable false)).step es (.target, .writable false)).step es
        (side, .arrive [2]) := rfl
  rw [e3] at h3
  rw [e4] at h4
  rw [← h3] at h4
  generalize (((ProxySys.start c t).run es pevs).step es (.client, .writable false)).step es (.target, .writable false) = z
    at l2 hb h4
  rw [ProxySys.step_live l2] at h4
  cases side with
  | client =>
    exact inputLoop_more (e := es .client) (ps := z.client.pending ++ [[2]]) (me := { z.client with pending := z.client.pending ++ [[2]] })
      (other := z.target) (by simp) hb l2.1 h4
  | target =>
    exact inputLoop_more (e := es .target) (ps := z.target.pending ++ [[2]]) (me := { z.target with pending := z.target.pending ++ [[2]] })
      (other := z.client) (by simp) hb l2.2 h4

/-- A connection in the middle of a later key exchange, whose input is held. -/
structure Stuck (h : Half) : Prop where
  blocked : h.blocked = true
  stop : h.sys.stop = none
  auth : h.sys.kx.authenticated = true
  enc : h.sys.kx.isEncrypted = true
  sent : h.sys.kx.flags.kexinitSent = true
  notNew : h.sys.kx.flags.newkeysSent = false

theorem Stuck.of {h : Half} (hb : (h.blocked && h.sys.stop.isNone && h.sys.kx.authenticated && h.sys.kx.isEncrypted &&
    h.sys.kx.flags.kexinitSent && !h.sys.kx.flags.newkeysSent) = true) : Stuck h := by
  simp only [Bool.and_eq_true, Option.isNone_iff_eq_none, Bool.not_eq_true'] at hb
  exact ⟨hb.1.1.1.1.1, hb.1.1.1.1.2, hb.1.1.1.2, by simp [Kx.isEncrypted, hb.1.1.2], hb.1.2, hb.2⟩

theorem Stuck.step {e : KexEnv} {me other : Half} {ev} (h : Stuck me) : Stuck (Model.Half.step e me other ev).1 ∧
    (Model.Half.step e me other ev).1.handled = me.handled ∧ (Model.Half.step e me other ev).2 = other := by
  have hin : ∀ ps, inputLoop e ps me other = ({ me with pending := ps, inputReady := true, reading := false }, other) := by
    intro ps
    unfold inputLoop
    rw [h.stop, h.blocked]
    rfl
  have hout : me.sys.kx.outputEncrypted = true := by
    have := h.enc; simp only [Kx.isEncrypted, Bool.and_eq_true] at this; exact this.2
  have hrk : me.sys.kx.isRekeying = true := by simp only [Kx.isRekeying, hout, h.sent, h.notNew]; rfl
  cases ev with
  | arrive raw =>
    have : Model.Half.step e me other (.arrive raw) =
        ({ me with pending := me.pending ++ [raw], inputReady := true, reading := false }, other) := by
      show inputLoop e (me.pending ++ [raw]) { me with pending := me.pending ++ [raw] } other = _
      unfold inputLoop
      simp only [h.stop, h.blocked]
      rfl
    rw [this]
    exact ⟨⟨h.blocked, h.stop, h.auth, h.enc, h.sent, h.notNew⟩, rfl, rfl⟩
  | resume =>
    show Stuck (bif me.resume then onInputReady e { me with resume := false } other else (me, other)).1 ∧ _
    have : (Model.Half.step e me other .resume).2 = other ∧ ∃ me', (Model.Half.step e me other .resume).1 = me' ∧
        me'.sys = me.sys ∧ me'.blocked = me.blocked ∧ me'.handled = me.handled := by
      show (bif me.resume then onInputReady e { me with resume := false } other else (me, other)).2 = other ∧
        ∃ me', (bif me.resume then onInputReady e { me with resume := false } other else (me, other)).1 = me' ∧ _
      cases me.resume with
      | false => exact ⟨rfl, _, rfl, rfl, rfl, rfl⟩
      | true =>
        have : onInputReady e { me with resume := false } other =
            ({ me with resume := false, inputReady := true, reading := false }, other) := by
          unfold onInputReady inputLoop
          simp only [h.stop, h.blocked]
          rfl
        rw [cond_true, this]
        exact ⟨rfl, _, rfl, rfl, rfl, rfl⟩
    obtain ⟨h1, me', h2, h3, h4, h5⟩ := this
    refine ⟨?_, ?_, h1⟩
    · show Stuck (Model.Half.step e me other .resume).1
      rw [h2]
      exact ⟨h4.trans h.blocked, by rw [h3]; exact h.stop, by rw [h3]; exact h.auth, by rw [h3]; exact h.enc,
        by rw [h3]; exact h.sent, by rw [h3]; exact h.notNew⟩
    · rw [h2, h5]
  | rekeyTimer =>
    have hs : me.sys.step e .rekeyTimer = me.sys := by
      rcases hm : me.sys with ⟨kx, stop⟩
      have h1 := h.stop; have h2 := h.auth; have h3 := h.enc; have h4 := h.sent
      rw [hm] at h1 h2 h3 h4
      simp only at h1 h2 h3 h4
      subst h1
      unfold KxSys.step
      simp only [h2, cond_true]
      unfold Kx.initiateRekey
      rw [h3, h2]
      simp only [KexFlags.isIdle, h4]
      rfl
    have : Model.Half.step e me other .rekeyTimer = (me, other) := by
      show kxStep e me other .rekeyTimer = _
      unfold kxStep
      rw [hs]
      simp
    rw [this]
    exact ⟨h, rfl, rfl⟩
  | writable more =>
    have hs : me.sys.step e (.writable more) = ⟨{ me.sys.kx with writeBlocked := more }, none⟩ := by
      unfold KxSys.step
      rw [h.stop]
      simp only
      congr 1
      unfold Kx.onBufferedWrite
      have r1 : ({ me.sys.kx with writeBlocked := false } : Kx).isRekeying = true := hrk
      have r2 : ({ me.sys.kx with writeBlocked := true } : Kx).isRekeying = true := hrk
      simp only [r1, Bool.not_true, Bool.and_false, cond_false]
      cases more with
      | false => rfl
      | true => simp only [cond_true, r2, Bool.not_true, cond_false]
    have : Model.Half.step e me other (.writable more) =
        ({ me with sys := ⟨{ me.sys.kx with writeBlocked := more }, none⟩ }, other) := by
      show kxStep e me other (.writable more) = _
      unfold kxStep
      rw [hs]
      simp
    rw [this]
    exact ⟨⟨h.blocked, rfl, h.auth, h.enc, h.sent, h.notNew⟩, rfl, rfl⟩

theorem Stuck.run {y : ProxySys} (hc : Stuck y.client) (ht : Stuck y.target) : Stalled es y := by
  intro more
  have key : Stuck (y.run es more).client ∧ Stuck (y.run es more).target ∧
      (y.run es more).client.handled = y.client.handled ∧ (y.run es more).target.handled = y.target.handled := by
    induction more using Aux.snoc_ind with
    | h0 => exact ⟨hc, ht, rfl, rfl⟩
    | h1 evs ev ih =>
      rw [ProxySys.run_snoc]
      generalize Model.ProxySys.run es y evs = z at ih ⊢
      obtain ⟨i1, i2, i3, i4⟩ := ih
      obtain ⟨s, ev⟩ := ev
      rw [ProxySys.step_live ⟨i1.stop, i2.stop⟩]
      cases s with
      | client =>
        obtain ⟨s1, s2, s3⟩ := i1.step (e := es .client) (other := z.target) (ev := ev)
        simp only [s3]
        exact ⟨s1, i2, s2.trans i3, i4⟩
      | target =>
        obtain ⟨s1, s2, s3⟩ := i2.step (e := es .target) (other := z.client) (ev := ev)
        simp only [s3]
        exact ⟨i1, s1, i3, s2.trans i4⟩
  obtain ⟨k1, k2, k3, k4⟩ := key
  refine ⟨⟨k1.stop, k2.stop⟩, ?_⟩
  intro side
  cases side
  · exact k3
  · exact k4

/-- **C70 is false**: if the hourly key exchange starts on one connection before it is
finished on the other one, each connection holds the input of the other one, including
the replies which would finish the key exchange: the session is stalled for ever (no
packet is handled any more, however many arrive, and the connections stay open).  Both
sockets are idle here, and both peers have answered with KEXINIT. -/
theorem C70_deadlock_violated : ∃ evs : List (Side × PxEvent),
    Settled (demoEnvs .client) .server demoClientSide ∧ Settled (demoEnvs .target) .client demoTargetSide ∧
    evs = [(.client, .rekeyTimer), (.target, .rekeyTimer),
      (.client, .arrive (demoKexInit (ascii "curve25519-sha256") false)),
      (.target, .arrive (demoKexInit (ascii "curve25519-sha256") false))] ∧
    Stalled demoEnvs (demoPair.run demoEnvs evs) ∧
    (demoPair.run demoEnvs evs).client.handled = [] ∧ (demoPair.run demoEnvs evs).target.handled = [] := by
  exact ⟨_, demoIdle₁, demoIdle₂, rfl, Stuck.run (.of (by decide +kernel)) (.of (by decide +kernel)), by decide +kernel,
    by decide +kernel⟩

/-- Non-vacuity of `C70_progress_partial`: the same with only one of the timers. -/
example : let y := demoPair.run demoEnvs [(.client, .rekeyTimer)]
    y.client.sys.stop = none ∧ y.target.sys.stop = none ∧ y.target.blocked = true ∧ y.client.blocked = false ∧
    rekeying y.client.sys.kx.log = true ∧ rekeying y.target.sys.kx.log = false ∧
    (let z := y.run demoEnvs [(.target, .arrive [94, 1]), (.client, .arrive (demoKexInit (ascii "curve25519-sha256") false)),
        (.client, .arrive (30 :: str (List.replicate 32 9)))]
     z.target.blocked = false ∧ z.target.resume = true ∧
      (z.step demoEnvs (.target, .resume)).target.handled = [[94, 1]]) := by decide +kernel

end Lukko
