import Verif.Model.Reverse
import Verif.Proof.Tunnel
import Verif.Proof.Listeners
import Verif.Prop.Messages
import Verif.Prop.Server
/-
  Invariant of the remote forwardings of a connection of the server.
-/
namespace Lukko
open Spec Model

variable {σ : Type} {nd : Bool}

theorem parseConfirmation_inv {p q} (h : parseChannelOpenConfirmation.parse p = some q) :
    p = channelOpenConfirmationBody q.localChannel q.peerChannel q.window q.maxPacket q.rest := by
  obtain ⟨s, hp0⟩ := parse_inv h
  obtain ⟨a, s1, h1, hp1⟩ := bind_inv hp0
  obtain ⟨b, s2, h2, hp2⟩ := bind_inv hp1
  obtain ⟨c, s3, h3, hp3⟩ := bind_inv hp2
  obtain ⟨d, s4, h4, hp4⟩ := bind_inv hp3
  obtain ⟨e, s5, h5, hp5⟩ := bind_inv hp4
  obtain ⟨rfl, _⟩ := readU32_inv h1
  obtain ⟨rfl, _⟩ := readU32_inv h2
  obtain ⟨rfl, _⟩ := readU32_inv h3
  obtain ⟨rfl, _⟩ := readU32_inv h4
  simp only [getRest, Option.some.injEq, Prod.mk.injEq] at h5
  obtain ⟨rfl, rfl⟩ := h5
  simp only [pure_apply, Option.some.injEq, Prod.mk.injEq] at hp5
  obtain ⟨rfl, _⟩ := hp5
  rfl

/-! ### The record of the listeners grows -/

theorem Model.Rfw.effect_log (s : Rfw) (e : AuthEntry) : s.log <+: (s.effect e).log := by
  cases e <;> first | exact List.prefix_rfl | exact List.prefix_append _ _

theorem Model.Rfw.bound_log (s : Rfw) (n : Nat) (res : Option Nat) : s.log <+: (s.bound n res).log := by
  unfold Rfw.bound
  split
  · exact List.prefix_rfl
  · simp only
    split <;> exact List.prefix_append _ _

theorem Model.Rfw.accept_log (s : Rfw) (i : Nat) (room : Bool) : s.log <+: (s.accept i room).log := by
  unfold Rfw.accept
  split
  · exact List.prefix_rfl
  · cases room <;> exact (List.prefix_append _ _).trans (List.prefix_append _ _)

theorem Model.Rfw.resolve_log (s : Rfw) (c : Nat) (e : FwEntry) : s.log <+: (s.resolve c e).log := by
  unfold Rfw.resolve
  cases s.waiting.any (·.1 == c)
  · exact List.prefix_rfl
  · exact List.prefix_append _ _

theorem Model.Rfw.finish_log (s : Rfw) : s.log <+: s.finish.log := by
  simp only [Rfw.finish, List.append_assoc]
  exact List.prefix_append _ _

/-! ### One connection -/

/-- The message with which the client was told about it. -/
def Model.Incoming.head (c : Incoming) : Bytes :=
  forwardedTcpip c.line.number RECEIVE_WINDOW 32768 c.host c.port c.origin c.originPort

/-- The message with which the client has confirmed it. -/
def Model.Incoming.answer (c : Incoming) (size : Nat) (rest : Bytes) : Bytes :=
  channelOpenConfirmationBody c.line.number c.line.peer c.line.window size rest

structure IOk (nd : Bool) (log : List AuthEntry) (fl : List FwEntry) (c : Incoming) : Prop where
  number : c.line.number < 64
  offer : ∃ rest, c.line.out = c.head :: rest
  called : .offered c.call c.host c.port ∈ fl
  live : ∀ r, c.line.relay = some r → c.tomb = false ∧ .joined c.call ∈ fl ∧ ∃ pre size rest post,
    log = pre ++ [.received 91 (c.answer size rest), .channelMessage 91 (c.answer size rest)] ++ post ∧ TLive nd c.head c.line r post

variable {log : List AuthEntry} {fl fl' : List FwEntry} {c : Incoming}

theorem IOk.mono (h : IOk nd log fl c) (hf : fl <+: fl') : IOk nd log fl' c where
  number := h.number
  offer := h.offer
  called := hf.subset h.called
  live := fun r hr => by
    obtain ⟨h1, h2, h3⟩ := h.live r hr
    exact ⟨h1, hf.subset h2, h3⟩

theorem IOk.extend (h : IOk nd log fl c) (es : List AuthEntry)
    (hl : ∀ r post, TLive nd c.head c.line r post → TLive nd c.head c.line r (post ++ es)) : IOk nd (log ++ es) fl c where
  number := h.number
  offer := h.offer
  called := h.called
  live := fun r hr => by
    obtain ⟨h1, h2, pre, size, rest, post, rfl, h4⟩ := h.live r hr
    exact ⟨h1, h2, pre, size, rest, post ++ es, by simp, hl r post h4⟩

/-- Something happens on the connection which does not concern it. -/
theorem IOk.plain {es} (h : IOk nd log fl c) (hp : clientMessages es = []) : IOk nd (log ++ es) fl c :=
  h.extend es fun r post hl => hl.extend es fun _ _ _ hc => by
    rw [clientMessages_append, hp, List.append_nil]; exact hc

/-- A message for somebody else. -/
theorem IOk.unpassed {m p} (h : IOk nd log fl c) (hn : ∀ e, ¬ Passed c.line.number (m :: p) e) :
    IOk nd (log ++ [.received m p]) fl c :=
  h.extend _ fun r post hl => hl.extend _ fun _ _ _ hc => by
    rw [clientMessages_append]
    exact .other hc hn

/-- Something happens to the channel. -/
theorem IOk.event (h : IOk nd log fl c) (es : List AuthEntry) (ev : RelayEvent)
    (hsaid : ∀ {ms cs}, Forwarded c.line.number ms cs → Forwarded c.line.number (ms ++ clientMessages es) (cs ++ ev.mark.toList))
    (hpaid : ev.weight IoEntry.granted ≤ allowed c.line.number (clientMessages es) ∧
      ev.weight IoEntry.gotBytes ≤ dataTotal c.line.number (clientMessages es)) :
    IOk nd (log ++ es) fl { c with line := c.line.handle nd ev } := by
  unfold Tunnel.handle
  split
  · rename_i hr
    exact ⟨h.number, h.offer, h.called, fun r hr' => by
      have hr' : c.line.relay = some r := hr'
      rw [hr] at hr'; cases hr'⟩
  · rename_i r hr
    obtain ⟨rest, ho⟩ := h.offer
    refine ⟨h.number, ⟨_, by simp only [ho]; rfl⟩, h.called, fun r' hr' => ?_⟩
    cases hr'
    obtain ⟨h1, h2, pre, size, rest, post, rfl, h4⟩ := h.live r hr
    refine ⟨h1, h2, pre, size, rest, post ++ es, ?_, h4.event es ev (fun hc => by rw [clientMessages_append]; exact hsaid hc) hpaid⟩
    simp [Incoming.answer]

theorem IOk.local (h : IOk nd log fl c) {ev : RelayEvent} (hl : ev.isLocal = true) :
    IOk nd log fl { c with line := c.line.handle nd ev } := by
  have hm : ev.mark = none := by cases ev <;> first | rfl | cases hl
  have hg : ∀ f, ev.weight f = 0 := fun f => by cases ev <;> first | rfl | cases hl
  have := h.event [] ev (fun {ms cs} hc => by rw [hm]; simpa [clientMessages] using hc) (by rw [hg, hg]; exact ⟨Nat.zero_le _, Nat.zero_le _⟩)
  simpa using this

/-- A message for the channel. -/
theorem IOk.message {m p} (h : IOk nd log fl c) (ch : Chance) :
    match tunnelEvent ch m p with
    | some (n, ev) => IOk nd (log ++ [.received m p]) fl (bif c.line.isOpen && (c.line.number == n) then c.handle nd ev else c)
    | none => IOk nd (log ++ [.received m p]) fl c := by
  have hn : c.line.number < 2 ^ 32 := Nat.lt_of_lt_of_le h.number (by decide)
  cases he : tunnelEvent ch m p with
  | none =>
    refine h.unpassed fun e hh => ?_
    obtain ⟨ev, h1, _⟩ := (passed_iff ch hn m p e).mp hh
    rw [he] at h1
    cases h1
  | some q =>
    obtain ⟨n, ev⟩ := q
    simp only
    cases ho : c.line.isOpen with
    | false => exact h.extend _ fun r post hl => hl.over _ (hl.shut ho)
    | true =>
      cases hq : c.line.number == n with
      | false =>
        refine h.unpassed fun e hh => ?_
        obtain ⟨ev', h1, _⟩ := (passed_iff ch hn m p e).mp hh
        rw [he] at h1
        cases h1
        simp at hq
      | true =>
        have hq := eq_of_beq hq
        subst hq
        simp only [Bool.and_self, cond_true]
        have hev : IOk nd (log ++ [.received m p]) fl { c with line := c.line.handle nd ev } := by
          refine h.event _ ev (fun {ms cs} hc => ?_) (tunnelEvent_weight he)
          show Forwarded c.line.number (ms ++ [m :: p]) _
          cases hm : ev.mark with
          | some e => exact .passed hc ((passed_iff ch hn m p e).mpr ⟨ev, he, hm⟩)
          | none =>
            rw [Option.toList_none, List.append_nil]
            refine .other hc fun e hh => ?_
            obtain ⟨ev', h1, h2⟩ := (passed_iff ch hn m p e).mp hh
            rw [he] at h1
            cases h1
            rw [hm] at h2
            cases h2
        unfold Incoming.handle
        cases ht : c.tomb && (ev == .clientClose) with
        | false => exact hev
        | true =>
          rw [Bool.and_eq_true] at ht
          refine ⟨h.number, h.offer, h.called, fun r hr => ?_⟩
          have := (h.live r hr).1
          rw [ht.1] at this
          cases this

/-! ### How the list grows -/

/-- The same connection, later. -/
structure CallLater (c c' : Incoming) : Prop where
  number : c'.line.number = c.line.number
  isOpen : c'.line.isOpen = true → c.line.isOpen = true
  out : c.line.out <+: c'.line.out
  call : c'.call = c.call

theorem CallLater.rfl' {c : Incoming} : CallLater c c := ⟨rfl, id, List.prefix_rfl, rfl⟩

theorem CallLater.line (c : Incoming) (ev) : CallLater c { c with line := c.line.handle nd ev } := by
  have := TunnelLater.handle (nd := nd) c.line ev
  exact ⟨this.number, this.isOpen, this.out, rfl⟩

theorem CallLater.handle (c : Incoming) (ev) : CallLater c (c.handle nd ev) := by
  unfold Incoming.handle
  cases c.tomb && (ev == .clientClose)
  · exact .line c ev
  · exact ⟨rfl, nofun, List.prefix_rfl, rfl⟩

theorem CallLater.join (c : Incoming) (peer window) : CallLater c (c.join peer window) := ⟨rfl, id, List.prefix_rfl, rfl⟩

theorem CallLater.bury (c : Incoming) (peer) : CallLater c (c.bury peer) := ⟨rfl, id, List.prefix_append _ _, rfl⟩

theorem CallLater.refuse (c : Incoming) : CallLater c c.refuse := ⟨rfl, nofun, List.prefix_rfl, rfl⟩

inductive CallsLater : List Incoming → List Incoming → Prop
  | nil : CallsLater [] []
  | cons {c c' cs cs'} : CallLater c c' → CallsLater cs cs' → CallsLater (c :: cs) (c' :: cs')

theorem CallsLater.rfl' : ∀ {cs : List Incoming}, CallsLater cs cs
  | [] => .nil
  | _ :: _ => .cons .rfl' rfl'

theorem CallsLater.map {f : Incoming → Incoming} (hf : ∀ c, CallLater c (f c)) : ∀ cs : List Incoming, CallsLater cs (cs.map f)
  | [] => .nil
  | _ :: cs => .cons (hf _) (CallsLater.map hf cs)

theorem CallsLater.modify {f : Incoming → Incoming} (hf : ∀ c, CallLater c (f c)) : ∀ (cs : List Incoming) (i : Nat),
    CallsLater cs (cs.modify i f)
  | [], i => by cases i <;> exact .nil
  | _ :: cs, 0 => .cons (hf _) .rfl'
  | _ :: cs, i + 1 => .cons .rfl' (CallsLater.modify hf cs i)

theorem CallsLater.mem {old new : List Incoming} (h : CallsLater old new) : ∀ c' ∈ new, ∃ c ∈ old, CallLater c c' := by
  induction h with
  | nil => intro c' h; cases h
  | cons hl _ ih =>
    intro c' hc
    rcases List.mem_cons.mp hc with rfl | hc
    · exact ⟨_, List.mem_cons_self, hl⟩
    · obtain ⟨c, h1, h2⟩ := ih c' hc
      exact ⟨c, List.mem_cons_of_mem _ h1, h2⟩

theorem CallsLater.ne_nil {old new : List Incoming} (h : CallsLater old new) (hn : new ≠ []) : old ≠ [] := by
  cases h with
  | nil => exact absurd rfl hn
  | cons => exact List.cons_ne_nil _ _

/-- No two open channels have the same number, and no two of them are for the same connection. -/
def CallsApart (cs : List Incoming) : Prop :=
  cs.Pairwise fun a b => (a.line.isOpen = true → b.line.isOpen = true → a.line.number ≠ b.line.number) ∧ a.call ≠ b.call

theorem CallsApart.later {old new : List Incoming} (h : CallsLater old new) (ha : CallsApart old) : CallsApart new := by
  induction h with
  | nil => exact ha
  | cons hl hr ih =>
    obtain ⟨h1, h2⟩ := List.pairwise_cons.mp ha
    refine List.pairwise_cons.mpr ⟨fun b hb => ?_, ih h2⟩
    obtain ⟨b₀, hb0, hbl⟩ := hr.mem b hb
    obtain ⟨g1, g2⟩ := h1 b₀ hb0
    rw [hl.call, hbl.call, hl.number, hbl.number]
    exact ⟨fun ha hb' => g1 (hl.isOpen ha) (hbl.isOpen hb'), g2⟩

theorem callMessages_more {new : List Incoming} {P : List Bytes} : ∀ c ∈ new, c.line.out.Sublist (P ++ callMessages [] new) := by
  induction new with
  | nil => intro c hc; cases hc
  | cons d new ih =>
    intro c hc
    simp only [callMessages]
    rcases List.mem_cons.mp hc with rfl | hc
    · exact (List.sublist_append_left _ _).trans (List.sublist_append_right _ _)
    · exact (ih c hc).trans ((List.Sublist.refl P).append (List.sublist_append_right _ _))

/-- What the channels say is in what is to be sent. -/
theorem callMessages_sent {old new more : List Incoming} (h : CallsLater old new) {P : List Bytes}
    (hs : ∀ c ∈ old, c.line.out.Sublist P) : ∀ c ∈ new ++ more, c.line.out.Sublist (P ++ callMessages old (new ++ more)) := by
  induction h with
  | nil => exact callMessages_more
  | cons hl _ ih =>
    intro u hu
    obtain ⟨l, hl'⟩ := hl.out
    rw [List.cons_append] at hu ⊢
    rcases List.mem_cons.mp hu with rfl | hu
    · rw [← hl']
      simp only [callMessages, ← hl', List.drop_left]
      rw [← List.append_assoc]
      exact ((hs _ (by simp)).append (List.Sublist.refl _)).trans (List.sublist_append_left _ _)
    · refine (ih (fun t h => hs t (by simp [h])) u hu).trans ?_
      simp only [callMessages]
      exact (List.Sublist.refl P).append (List.sublist_append_right _ _)

/-! ### The answers of the client -/

theorem pop_later {fw : Rfw} {n e f} (hf : ∀ w c, CallLater c (f w c)) : ∀ cs, CallsLater cs (pop fw n e f cs).2
  | [] => .nil
  | c :: cs => by
    unfold pop
    cases c.awaits && (c.line.number == n)
    · exact .cons .rfl' (pop_later hf cs)
    · exact .cons (hf _ _) .rfl'

theorem pop_fw {fw : Rfw} {n e f} : ∀ cs, (pop fw n e f cs).1 = fw ∨ ∃ c, (pop fw n e f cs).1 = fw.resolve c (e c)
  | [] => .inl rfl
  | c :: cs => by
    unfold pop
    cases c.awaits && (c.line.number == n)
    · exact pop_fw cs
    · exact .inr ⟨_, rfl⟩

theorem pop_mem {fw : Rfw} {n e f} : ∀ {cs}, ∀ c' ∈ (pop fw n e f cs).2, c' ∈ cs ∨ ∃ c ∈ cs, c.awaits = true ∧ c.line.number = n ∧
    c' = f (fw.waiting.any (·.1 == c.call)) c ∧ (pop fw n e f cs).1 = fw.resolve c.call (e c.call)
  | [], c', h => by cases h
  | c :: cs, c', h => by
    unfold pop at h ⊢
    cases hc : c.awaits && (c.line.number == n) with
    | false =>
      rw [hc] at h
      rcases List.mem_cons.mp h with rfl | h
      · exact .inl List.mem_cons_self
      · rcases pop_mem c' h with h | ⟨d, h1, h2⟩
        · exact .inl (List.mem_cons_of_mem _ h)
        · exact .inr ⟨d, List.mem_cons_of_mem _ h1, h2⟩
    | true =>
      rw [hc] at h
      rw [Bool.and_eq_true] at hc
      rcases List.mem_cons.mp h with rfl | h
      · exact .inr ⟨c, List.mem_cons_self, hc.1, eq_of_beq hc.2, rfl, rfl⟩
      · exact .inl (List.mem_cons_of_mem _ h)

theorem awaits_iff {c : Incoming} (h : c.awaits = true) : c.line.isOpen = true ∧ c.line.relay = none ∧ c.tomb = false := by
  simp only [Incoming.awaits, Bool.and_eq_true, Bool.not_eq_true', Option.isNone_iff_eq_none] at h
  exact ⟨h.1.1, h.1.2, h.2⟩

theorem resolve_joined {fw : Rfw} {k : Nat} {e : FwEntry} (h : fw.waiting.any (·.1 == k) = true) : e ∈ (fw.resolve k e).log := by
  unfold Rfw.resolve
  rw [h]
  simp [Rfw.say]

theorem IOk.join {m rest} {q : PChannelOpenConfirmation} {post : List AuthEntry} (h : IOk nd log fl c) (ha : c.awaits = true)
    (hn : c.line.number = q.localChannel) (hp : clientMessages post = [])
    (hm : m = channelOpenConfirmationBody q.localChannel q.peerChannel q.window q.maxPacket rest) (hj : .joined c.call ∈ fl) :
    IOk nd (log ++ [.received 91 m, .channelMessage 91 m] ++ post) fl (c.join q.peerChannel q.window) := by
  obtain ⟨h1, h2, h3⟩ := awaits_iff ha
  obtain ⟨rest', ho⟩ := h.offer
  refine ⟨h.number, ⟨rest', ho⟩, h.called, fun r hr => ?_⟩
  cases hr
  refine ⟨h3, hj, log, q.maxPacket, rest, post, ?_, ⟨[], rfl⟩, fun hc => ?_, fun _ => ⟨[], List.nil_prefix, .nil, fun _ => hp.symm⟩, ?_, Nat.zero_le _, Nat.zero_le _⟩
  · simp only [Incoming.answer, Incoming.join]
    rw [hn, hm]
  · have hc : c.line.isOpen = false := hc
    rw [h1] at hc; cases hc
  · show List.Sublist _ c.line.out
    rw [ho]
    exact (List.nil_sublist _).cons₂ _

theorem IOk.idle (h : IOk nd log fl c) {log'} {c' : Incoming} (hr : c'.line.relay = none) (h1 : c'.line.number = c.line.number)
    (h2 : c'.head = c.head) (h3 : c'.call = c.call) (h4 : c'.host = c.host) (h5 : c'.port = c.port)
    (ho : c.line.out <+: c'.line.out) : IOk nd log' fl c' := by
  obtain ⟨rest, g⟩ := h.offer
  obtain ⟨l, hl⟩ := ho
  refine ⟨by rw [h1]; exact h.number, ⟨rest ++ l, by rw [← hl, g, h2]; rfl⟩, by rw [h3, h4, h5]; exact h.called, fun r hr' => ?_⟩
  rw [hr] at hr'
  cases hr'

/-! ### What is delivered -/

theorem entry_plain {ch : Chance} {es : List AuthEntry} (h : es.all plainEntry = true) : ∀ {b : Board}, es.foldl (Board.entry nd ch) b = b := by
  induction es with
  | nil => intro b; rfl
  | cons e es ih =>
    intro b
    rw [List.all_cons, Bool.and_eq_true] at h
    rw [List.foldl_cons]
    have he : b.entry nd ch e = b := by
      have he := h.1
      cases e <;> first | rfl | (exact absurd he (by decide)) | (exact absurd he nofun)
    rw [he]
    exact ih h.2

structure BOk (nd : Bool) (log : List AuthEntry) (b : Board) : Prop where
  core : RfwCore log b.fw
  ok : ∀ c ∈ b.calls, IOk nd log b.fw.log c

/-- There is something on the board. -/
def Engaged (b : Board) : Prop := b.fw.pending ≠ [] ∨ b.fw.listeners ≠ [] ∨ b.calls ≠ []

theorem resolve_busy (fw : Rfw) (k : Nat) (e : FwEntry) : (fw.resolve k e).pending = fw.pending ∧ (fw.resolve k e).listeners = fw.listeners := by
  unfold Rfw.resolve
  cases fw.waiting.any (·.1 == k) <;> exact ⟨rfl, rfl⟩

theorem core_log {A B : List AuthEntry} {s : Rfw} (h : RfwCore A s) (hAB : ∀ e ∈ A, e ∈ B) : RfwCore B s := h.mono s.auth hAB

/-- What happens on the connection, and the forwardings. -/
theorem posted {old new z : Auth} {es tail : List AuthEntry} (hlog : new.log = old.log ++ (es ++ tail))
    (hn : News old z es) (ht : tail.all plainEntry = true)
    (hprox : old.channels = true → old.proxied = false) {b : Board} (hch : Engaged b → old.channels = true)
    (hok : BOk nd old.log b) (ch : Chance) {b' : Board} (hb : b' = (es ++ tail).foldl (Board.entry nd ch) b) :
    BOk nd new.log b' ∧ CallsLater b.calls b'.calls ∧ b.fw.log <+: b'.fw.log ∧ (Engaged b' → old.channels = true) := by
  have hct := clientMessages_plain ht
  have hsub : ∀ e ∈ old.log, e ∈ new.log := fun e he => by rw [hlog]; exact List.mem_append_left _ he
  have hcall : ∀ {c}, c ∈ b.calls → old.channels = true := fun hc => hch (.inr (.inr (List.ne_nil_of_mem hc)))
  -- a message of another kind, and an entry which does not change anything
  have quiet : ∀ {m p e}, es = [.received m p, e] → heardMsg m = false → clientMessages [e] = [] → b.entry nd ch e = b → b' = b ∧ BOk nd new.log b := by
    rintro m p e rfl hm he hb'
    have : b' = b := by
      rw [hb]
      show (tail.foldl (Board.entry nd ch) (b.entry nd ch e)) = b
      rw [hb', entry_plain ht]
    refine ⟨this, core_log hok.core hsub, fun c hc => ?_⟩
    have := (((hok.ok c hc).unpassed (p := p) (unpassed_msg hm)).plain he).plain hct
    rw [hlog]
    simpa using this
  have same : b' = b ∧ BOk nd new.log b → BOk nd new.log b' ∧ CallsLater b.calls b'.calls ∧ b.fw.log <+: b'.fw.log ∧
      (Engaged b' → old.channels = true) := by
    rintro ⟨rfl, h⟩
    exact ⟨h, .rfl', List.prefix_rfl, hch⟩
  cases hn with
  | calm hp =>
    have hall : (es ++ tail).all plainEntry = true := by rw [List.all_append, hp, ht]; rfl
    rw [entry_plain hall] at hb
    refine same ⟨hb, core_log hok.core hsub, fun c hc => ?_⟩
    rw [hlog]
    exact (hok.ok c hc).plain (clientMessages_plain hall)
  | other hp hm =>
    rename_i m p es
    have hall : (es ++ tail).all plainEntry = true := by rw [List.all_append, hp, ht]; rfl
    rw [List.cons_append, List.foldl_cons, entry_plain hall] at hb
    refine same ⟨hb, core_log hok.core hsub, fun c hc => ?_⟩
    have hc' := hcall hc
    have hh : heardMsg m = false := by
      rcases hm with h | h | h
      · exact h
      · rw [hc'] at h; cases h
      · rw [hprox hc'] at h; cases h
    have := ((hok.ok c hc).unpassed (unpassed_msg (p := p) hh)).plain (clientMessages_plain hall)
    rw [hlog]
    simpa using this
  | opened hc hq hs => exact same (quiet rfl rfl rfl rfl)
  | restricted hr => exact same (quiet rfl rfl rfl rfl)
  | forward hc hq ha =>
    rcases asks_what ha with ⟨_, _, rfl⟩ | ⟨_, rfl⟩ <;> exact same (quiet rfl rfl rfl rfl)
  | bind hc ha =>
    rename_i p e
    have he : b' = { b with fw := b.fw.effect e } := by
      rw [hb, List.foldl_append]
      rw [entry_plain ht]
      cases ha <;> rfl
    have hin : e ∈ new.log := by rw [hlog]; simp
    have hcm : clientMessages [e] = [] := clientMessages_entry (.inr (.inr (.inr (.inr ⟨_, ha⟩))))
    subst he
    refine ⟨⟨?_, fun c hc' => ?_⟩, .rfl', b.fw.effect_log e, fun _ => hc⟩
    · exact core_effects [e] (core_log hok.core hsub) (by simpa using hin)
    · have := (((hok.ok c hc').unpassed (m := 80) (p := p) (unpassed_msg rfl)).plain hcm).plain hct
      rw [hlog]
      simpa using this.mono (b.fw.effect_log e)
  | message hc =>
    rename_i m p
    have he : b' = b.message nd ch m p := by
      rw [hb, List.foldl_append, entry_plain ht]
      rfl
    have hm : clientMessages [AuthEntry.channelMessage m p] = [] := rfl
    have hstay : heardMsg m = false → ∀ c ∈ b.calls, IOk nd new.log b.fw.log c := by
      intro hh c hc'
      have := (((hok.ok c hc').unpassed (unpassed_msg (p := p) hh)).plain hm).plain hct
      rw [hlog]
      simpa using this
    unfold Board.message at he
    split at he
    · rename_i h91
      subst h91
      split at he
      · exact same ⟨he, core_log hok.core hsub, hstay rfl⟩
      · rename_i q hq
        subst he
        have hf : ∀ (w : Bool) (c : Incoming), CallLater c (bif w then c.join q.peerChannel q.window else c.bury q.peerChannel) := by
          intro w c
          cases w
          · exact .bury c _
          · exact .join c _ _
        refine ⟨⟨?_, fun c' hc' => ?_⟩, pop_later hf _, ?_, fun _ => hc⟩
        · rcases pop_fw (fw := b.fw) (n := q.localChannel) (e := .joined)
            (f := fun w i => bif w then i.join q.peerChannel q.window else i.bury q.peerChannel) b.calls with h | ⟨k, h⟩
          · simp only [h]; exact core_log hok.core hsub
          · simp only [h]; exact core_resolve (core_log hok.core hsub) k (.inl rfl)
        · rcases pop_mem c' hc' with hk | ⟨c, h1, h2, h3, h4, h5⟩
          · refine (hstay rfl c' hk).mono ?_
            simp only
            rcases pop_fw (fw := b.fw) (n := q.localChannel) (e := .joined)
              (f := fun w i => bif w then i.join q.peerChannel q.window else i.bury q.peerChannel) b.calls with h | ⟨k, h⟩
            · rw [h]; exact List.prefix_rfl
            · rw [h]; exact b.fw.resolve_log _ _
          · simp only [h5]
            have hc := (hok.ok c h1).mono (b.fw.resolve_log c.call (.joined c.call))
            rw [h4]
            cases hw : b.fw.waiting.any (·.1 == c.call) with
            | true =>
              have := hc.join (q := q) h2 h3 hct (parseConfirmation_inv hq) (resolve_joined hw)
              rw [hlog]
              simpa using this
            | false => exact hc.idle (awaits_iff h2).2.1 rfl rfl rfl rfl rfl (List.prefix_append _ _)
        · simp only
          rcases pop_fw (fw := b.fw) (n := q.localChannel) (e := .joined)
            (f := fun w i => bif w then i.join q.peerChannel q.window else i.bury q.peerChannel) b.calls with h | ⟨k, h⟩
          · rw [h]; exact List.prefix_rfl
          · rw [h]; exact b.fw.resolve_log _ _
    split at he
    · rename_i h92
      subst h92
      split at he
      · exact same ⟨he, core_log hok.core hsub, hstay rfl⟩
      · rename_i q hq
        subst he
        have hpre : b.fw.log <+: (pop b.fw q.localChannel .dropped (fun _ i => i.refuse) b.calls).1.log := by
          rcases pop_fw (fw := b.fw) (n := q.localChannel) (e := .dropped) (f := fun _ i => i.refuse) b.calls with h | ⟨k, h⟩
          · rw [h]; exact List.prefix_rfl
          · rw [h]; exact b.fw.resolve_log _ _
        refine ⟨⟨?_, fun c' hc' => ?_⟩, pop_later (fun _ c => .refuse c) _, hpre, fun _ => hc⟩
        · rcases pop_fw (fw := b.fw) (n := q.localChannel) (e := .dropped) (f := fun _ i => i.refuse) b.calls with h | ⟨k, h⟩
          · simp only [h]; exact core_log hok.core hsub
          · simp only [h]; exact core_resolve (core_log hok.core hsub) k (.inr rfl)
        · rcases pop_mem c' hc' with hk | ⟨c, h1, h2, h3, h4, h5⟩
          · exact (hstay rfl c' hk).mono hpre
          · rw [h4]
            exact ((hok.ok c h1).mono hpre).idle (awaits_iff h2).2.1 rfl rfl rfl rfl rfl List.prefix_rfl
    · have hall : ∀ c ∈ b.calls, IOk nd (old.log ++ [.received m p]) b.fw.log (match tunnelEvent ch m p with
          | some (n, ev) => bif c.line.isOpen && (c.line.number == n) then c.handle nd ev else c
          | none => c) := by
        intro c hc
        have := (hok.ok c hc).message (m := m) (p := p) ch
        revert this
        cases tunnelEvent ch m p with
        | none => exact id
        | some q => exact id
      cases hev : tunnelEvent ch m p with
      | none =>
        simp only [hev] at hall he
        refine same ⟨he, core_log hok.core hsub, fun c hc => ?_⟩
        have := ((hall c hc).plain hm).plain hct
        rw [hlog]
        simpa using this
      | some q =>
        obtain ⟨n, ev⟩ := q
        simp only [hev] at hall he
        subst he
        have hf : ∀ c : Incoming, CallLater c (bif c.line.isOpen && (c.line.number == n) then c.handle nd ev else c) := by
          intro c
          cases c.line.isOpen && (c.line.number == n)
          · exact .rfl'
          · exact .handle c _
        refine ⟨⟨core_log hok.core hsub, fun c hc => ?_⟩, .map hf _, List.prefix_rfl, fun _ => hc⟩
        obtain ⟨c₀, h0, rfl⟩ := List.mem_map.mp hc
        have := ((hall c₀ h0).plain hm).plain hct
        rw [hlog]
        simpa using this

/-! ### What happens at the listeners -/

theorem offer_bytes {number : Nat} {l : FwListener} {origin : Bytes} {originPort : Nat} {p : Bytes} (hn : number < 64)
    (h : offerMessage number l origin originPort = some p) :
    p = forwardedTcpip number RECEIVE_WINDOW 32768 l.host l.port origin originPort := by
  unfold offerMessage at h
  rw [serialized_builds (C05_channel_open _ number RECEIVE_WINDOW 32768 _ (by decide) (Nat.lt_of_lt_of_le hn (by decide)) (by decide)
    (by decide)).1] at h
  split at h
  · exact (Option.some.inj h).symm
  · cases h

theorem accept_offered {fw : Rfw} {i : Nat} {l : FwListener} (h : fw.listeners[i]? = some l) :
    .offered fw.conn l.host l.port ∈ (fw.accept i true).log := by
  unfold Rfw.accept
  rw [h]
  simp [Rfw.say]

theorem accept_busy (fw : Rfw) (i : Nat) (room : Bool) : (fw.accept i room).pending = fw.pending ∧ (fw.accept i room).listeners = fw.listeners := by
  unfold Rfw.accept
  split
  · exact ⟨rfl, rfl⟩
  · cases room <;> exact ⟨rfl, rfl⟩

theorem bound_busy {fw : Rfw} {n : Nat} {res : Option Nat} (h : (fw.bound n res).pending ≠ [] ∨ (fw.bound n res).listeners ≠ []) :
    fw.pending ≠ [] ∨ fw.listeners ≠ [] := by
  by_cases hp : fw.pending = []
  · refine .inr fun hl => ?_
    unfold Rfw.bound at h
    rw [hp] at h
    simp only [List.find?_nil, hp, hl, ne_eq, not_true_eq_false, or_self] at h
  · exact .inl hp

/-- Every connection has its number from the list of listeners. -/
def Counted (b : Board) : Prop := ∀ c ∈ b.calls, c.call < b.fw.conn

theorem counted_later {b b' : Board} (h : Counted b) (hl : CallsLater b.calls b'.calls) (hc : b.fw.conn ≤ b'.fw.conn) : Counted b' := by
  intro c' hc'
  obtain ⟨c, h1, h2⟩ := hl.mem c' hc'
  rw [h2.call]
  exact Nat.lt_of_lt_of_le (h c h1) hc

theorem Model.Rfw.resolve_conn (s : Rfw) (c : Nat) (e : FwEntry) : (s.resolve c e).conn = s.conn := by
  unfold Rfw.resolve
  cases s.waiting.any (·.1 == c) <;> rfl

theorem Model.Rfw.bound_conn (s : Rfw) (n : Nat) (res : Option Nat) : (s.bound n res).conn = s.conn := by
  unfold Rfw.bound
  split
  · rfl
  · simp only
    split <;> rfl

theorem accept_conn (s : Rfw) (i : Nat) (room : Bool) : s.conn ≤ (s.accept i room).conn := by
  unfold Rfw.accept
  split
  · exact Nat.le_refl _
  · cases room <;> exact Nat.le_succ _

theorem accept_conn_true {s : Rfw} {i : Nat} {l} (h : s.listeners[i]? = some l) : (s.accept i true).conn = s.conn + 1 := by
  unfold Rfw.accept
  rw [h]
  rfl

theorem entry_conn {ch : Chance} (b : Board) (e : AuthEntry) : (b.entry nd ch e).fw.conn = b.fw.conn := by
  cases e with
  | channelMessage m p =>
    simp only [Board.entry, Board.message]
    split
    · split
      · rfl
      · simp only
        rename_i q _
        rcases pop_fw (fw := b.fw) (n := q.localChannel) (e := .joined)
          (f := fun w i => bif w then i.join q.peerChannel q.window else i.bury q.peerChannel) b.calls with h | ⟨k, h⟩
        · rw [h]
        · rw [h, Rfw.resolve_conn]
    split
    · split
      · rfl
      · simp only
        rename_i q _
        rcases pop_fw (fw := b.fw) (n := q.localChannel) (e := .dropped) (f := fun _ i => i.refuse) b.calls with h | ⟨k, h⟩
        · rw [h]
        · rw [h, Rfw.resolve_conn]
    · split <;> rfl
  | _ => rfl

theorem entries_conn {ch : Chance} (es : List AuthEntry) : ∀ (b : Board), (es.foldl (Board.entry nd ch) b).fw.conn = b.fw.conn := by
  induction es with
  | nil => intro b; rfl
  | cons e es ih => intro b; rw [List.foldl_cons, ih, entry_conn]

theorem relayed (h : IOk nd log fl c) (ev : RelayEvent) :
    IOk nd log fl (bif ev.isLocal then { c with line := c.line.handle nd ev } else c) := by
  cases hev : ev.isLocal
  · exact h
  · exact h.local hev

/-- What does not come from the client. -/
theorem happened {log : List AuthEntry} {b : Board} (hc : RfwCore log b.fw) (hok : ∀ c ∈ b.calls, IOk nd log b.fw.log c)
    (ha : CallsApart b.calls) (hn : Counted b) (ev : DeskEvent) {b' : Board} (hb : b' = b.happens nd ev) :
    RfwCore log b'.fw ∧ (∀ c ∈ b'.calls, IOk nd log b'.fw.log c) ∧ CallsApart b'.calls ∧ Counted b' ∧ (Engaged b' → Engaged b) ∧
    ∃ new more, b'.calls = new ++ more ∧ CallsLater b.calls new := by
  cases ev with
  | server ev c =>
    subst hb
    exact ⟨hc, hok, ha, hn, id, _, [], (List.append_nil _).symm, .rfl'⟩
  | bound n res =>
    subst hb
    refine ⟨core_bound hc n res, fun c h => (hok c h).mono (b.fw.bound_log n res), ha,
      fun c h => by simp only [Board.happens, Rfw.bound_conn]; exact hn c h, fun h => ?_, b.calls, [], (List.append_nil _).symm, .rfl'⟩
    rcases h with h | h | h
    · exact (bound_busy (.inl h)).elim .inl (.inr ∘ .inl)
    · exact (bound_busy (.inr h)).elim .inl (.inr ∘ .inl)
    · exact .inr (.inr h)
  | hangup i =>
    have keep : b' = b ∨ ∃ k, b' = { b with fw := b.fw.resolve k (.dropped k) } := by
      rw [hb]
      simp only [Board.happens]
      split
      · exact .inl rfl
      · exact .inr ⟨_, rfl⟩
    rcases keep with h | ⟨k, rfl⟩
    · rw [h]
      exact ⟨hc, hok, ha, hn, id, b.calls, [], (List.append_nil _).symm, .rfl'⟩
    · refine ⟨core_resolve hc k (.inr rfl), fun c h => (hok c h).mono (b.fw.resolve_log _ _), ha,
        fun c h => by simp only [Rfw.resolve_conn]; exact hn c h, fun h => ?_, b.calls, [], (List.append_nil _).symm, .rfl'⟩
      simpa only [Engaged, (resolve_busy b.fw k (.dropped k)).1, (resolve_busy b.fw k (.dropped k)).2] using h
  | relay i ev =>
    subst hb
    have hf : ∀ c : Incoming, CallLater c (bif ev.isLocal then { c with line := c.line.handle nd ev } else c) := by
      intro c
      cases ev.isLocal
      · exact .rfl'
      · exact .line c ev
    have hl := CallsLater.modify hf b.calls i
    refine ⟨hc, fun c' hc' => ?_, ha.later hl, counted_later hn hl (Nat.le_refl _), fun h => ?_, _, [], (List.append_nil _).symm, hl⟩
    · have hc' : c' ∈ b.calls.modify i _ := hc'
      obtain ⟨j, hj, rfl⟩ := List.mem_iff_getElem.mp hc'
      rw [List.length_modify] at hj
      have := hok _ (List.getElem_mem hj)
      rw [List.getElem_modify]
      split
      · exact relayed this ev
      · exact this
    · rcases h with h | h | h
      · exact .inl h
      · exact .inr (.inl h)
      · exact .inr (.inr (hl.ne_nil h))
  | accept i number origin originPort =>
    subst hb
    simp only [Board.happens]
    unfold Board.accept
    split
    · exact ⟨hc, hok, ha, hn, id, b.calls, [], (List.append_nil _).symm, .rfl'⟩
    · rename_i l hl
      have hlb : b.fw.listeners ≠ [] := by
        intro h; rw [h] at hl; cases hl
      have none : RfwCore log (b.fw.accept i false) ∧ (∀ c ∈ b.calls, IOk nd log (b.fw.accept i false).log c) ∧ CallsApart b.calls ∧
          Counted { b with fw := b.fw.accept i false } ∧ (Engaged { b with fw := b.fw.accept i false } → Engaged b) ∧
          ∃ new more, b.calls = new ++ more ∧ CallsLater b.calls new :=
        ⟨core_accept hc i false, fun c h => (hok c h).mono (b.fw.accept_log i false), ha,
          fun c h => Nat.lt_of_lt_of_le (hn c h) (accept_conn _ _ _), fun _ => .inr (.inl hlb), b.calls, [], (List.append_nil _).symm, .rfl'⟩
      cases hg : decide (number < MAX_CHANNELS) && !(b.calls.any fun c => c.line.isOpen && (c.line.number == number)) with
      | false => exact none
      | true =>
        rw [Bool.and_eq_true, decide_eq_true_iff] at hg
        cases hm : offerMessage number l origin originPort with
        | none => exact none
        | some p =>
          refine ⟨core_accept hc i true, fun c h => ?_, ?_, fun c h => ?_, fun _ => .inr (.inl hlb), b.calls, _, rfl, .rfl'⟩
          · rcases List.mem_append.mp h with h | h
            · exact (hok c h).mono (b.fw.accept_log i true)
            · rw [List.mem_singleton] at h
              subst h
              refine ⟨hg.1, ⟨[], ?_⟩, accept_offered hl, fun r hr => by cases hr⟩
              simp only [Incoming.offer, Incoming.head]
              rw [offer_bytes hg.1 hm]
          · refine List.pairwise_append.mpr ⟨ha, by simp, fun a ha' d hd => ?_⟩
            rw [List.mem_singleton] at hd
            subst hd
            refine ⟨fun hao _ hab => ?_, Nat.ne_of_lt (hn a ha')⟩
            have h2 := hg.2
            rw [Bool.not_eq_true', List.any_eq_false] at h2
            refine h2 a ha' ?_
            rw [hao, Bool.true_and]
            exact beq_iff_eq.mpr hab
          · simp only [cond_true]
            rw [accept_conn_true hl]
            rcases List.mem_append.mp h with h | h
            · exact Nat.lt_succ_of_lt (hn c h)
            · rw [List.mem_singleton] at h
              subst h
              exact Nat.lt_succ_self _

/-- … when the connection has ended. -/
theorem happened_end {log : List AuthEntry} {b : Board} (hc : RfwEnd log b.fw) (hok : ∀ c ∈ b.calls, IOk nd log b.fw.log c)
    (ha : CallsApart b.calls) (hn : Counted b) (ev : DeskEvent) {b' : Board} (hb : b' = b.happens nd ev) :
    RfwEnd log b'.fw ∧ (∀ c ∈ b'.calls, IOk nd log b'.fw.log c) ∧ CallsApart b'.calls ∧ Counted b' ∧ (Engaged b' → Engaged b) ∧
    ∃ new more, b'.calls = new ++ more ∧ CallsLater b.calls new := by
  obtain ⟨n1, n2, n3⟩ := hc.none
  have stay : b' = b → RfwEnd log b'.fw ∧ (∀ c ∈ b'.calls, IOk nd log b'.fw.log c) ∧ CallsApart b'.calls ∧ Counted b' ∧ (Engaged b' → Engaged b) ∧
      ∃ new more, b'.calls = new ++ more ∧ CallsLater b.calls new := by
    intro h
    rw [h]
    exact ⟨hc, hok, ha, hn, id, b.calls, [], (List.append_nil _).symm, .rfl'⟩
  cases ev with
  | server ev c => exact stay hb
  | bound n res =>
    refine stay (hb.trans ?_)
    simp only [Board.happens, Rfw.bound, n1, List.find?_nil]
  | hangup i =>
    refine stay (hb.trans ?_)
    simp only [Board.happens]
    split
    · rfl
    · simp only [Rfw.resolve, n3, List.any_nil, cond_false]
  | accept i number origin originPort =>
    refine stay (hb.trans ?_)
    simp only [Board.happens, Board.accept, n2, List.getElem?_nil]
  | relay i ev =>
    subst hb
    have hf : ∀ c : Incoming, CallLater c (bif ev.isLocal then { c with line := c.line.handle nd ev } else c) := by
      intro c
      cases ev.isLocal
      · exact .rfl'
      · exact .line c ev
    have hl := CallsLater.modify hf b.calls i
    refine ⟨hc, fun c' hc' => ?_, ha.later hl, counted_later hn hl (Nat.le_refl _), fun h => ?_, _, [], (List.append_nil _).symm, hl⟩
    · have hc' : c' ∈ b.calls.modify i _ := hc'
      obtain ⟨j, hj, rfl⟩ := List.mem_iff_getElem.mp hc'
      rw [List.length_modify] at hj
      have := hok _ (List.getElem_mem hj)
      rw [List.getElem_modify]
      split
      · exact relayed this ev
      · exact this
    · rcases h with h | h | h
      · exact .inl h
      · exact .inr (.inl h)
      · exact .inr (.inr (hl.ne_nil h))

/-! ### A connection is offered once -/

/-- No connection is offered with two addresses. -/
def OfferedOnce (fl : List FwEntry) : Prop := ∀ c h p h' p', .offered c h p ∈ fl → .offered c h' p' ∈ fl → h = h' ∧ p = p'

theorem offeredOnce_of {fl fl' : List FwEntry} (h : OfferedOnce fl) (hm : ∀ c h p, .offered c h p ∈ fl' → .offered c h p ∈ fl) : OfferedOnce fl' :=
  fun c h1 p1 h2 p2 g1 g2 => h c h1 p1 h2 p2 (hm _ _ _ g1) (hm _ _ _ g2)

theorem resolve_once {fw : Rfw} {k : Nat} {e : FwEntry} (h : OfferedOnce fw.log) (he : ∀ c h p, e ≠ .offered c h p) :
    OfferedOnce (fw.resolve k e).log := by
  unfold Rfw.resolve
  cases fw.waiting.any (·.1 == k)
  · exact h
  · refine offeredOnce_of h fun c h p hm => ?_
    simp only [cond_true, Rfw.say, List.mem_append, List.mem_singleton] at hm
    exact hm.elim id fun hm => absurd hm.symm (he c h p)

theorem effect_once {fw : Rfw} (h : OfferedOnce fw.log) (e : AuthEntry) : OfferedOnce (fw.effect e).log := by
  refine offeredOnce_of h fun c h p hm => ?_
  cases e <;> first | exact hm | (simpa [Rfw.effect, Rfw.forward, Rfw.cancel, Rfw.say] using hm)

theorem bound_once {fw : Rfw} (h : OfferedOnce fw.log) (n : Nat) (res : Option Nat) : OfferedOnce (fw.bound n res).log := by
  refine offeredOnce_of h fun c h p hm => ?_
  unfold Rfw.bound at hm
  split at hm
  · exact hm
  · simp only at hm
    split at hm <;> simpa [Rfw.say] using hm

theorem finish_once {fw : Rfw} (h : OfferedOnce fw.log) : OfferedOnce fw.finish.log := by
  refine offeredOnce_of h fun c h p hm => ?_
  simpa [Rfw.finish] using hm

theorem accept_once {fw : Rfw} {log : List AuthEntry} (hc : RfwCore log fw) (h : OfferedOnce fw.log) (i : Nat) (room : Bool) :
    OfferedOnce (fw.accept i room).log := by
  have fresh : ∀ h p, .offered fw.conn h p ∉ fw.log := by
    intro h p hm
    obtain ⟨a, b, hab⟩ := List.append_of_mem hm
    obtain ⟨_, q, hq, _⟩ := hc.hist _ _ _ hab
    exact absurd (hc.conns _ q (by rw [hab]; exact List.mem_append_left _ hq)) (Nat.lt_irrefl _)
  unfold Rfw.accept
  split
  · exact h
  · rename_i l _
    cases room with
    | false =>
      refine offeredOnce_of h fun c h p hm => ?_
      simpa [Rfw.say] using hm
    | true =>
      have key : ∀ c h p, .offered c h p ∈ (fw.log ++ [.arrived fw.conn l.bound]) ++ [.offered fw.conn l.host l.port] →
          .offered c h p ∈ fw.log ∨ c = fw.conn ∧ h = l.host ∧ p = l.port := by
        intro c h p hm
        simpa using hm
      intro c h1 p1 h2 p2 g1 g2
      rcases key _ _ _ g1 with g1 | ⟨e1, e2, e3⟩ <;> rcases key _ _ _ g2 with g2 | ⟨f1, f2, f3⟩
      · exact h c _ _ _ _ g1 g2
      · rw [f1] at g1; exact absurd g1 (fresh _ _)
      · rw [e1] at g2; exact absurd g2 (fresh _ _)
      · exact ⟨e2.trans f2.symm, e3.trans f3.symm⟩

theorem pop_once {fw : Rfw} {n e f} {cs} (h : OfferedOnce fw.log) (he : ∀ k c h p, e k ≠ .offered c h p) :
    OfferedOnce (pop fw n e f cs).1.log := by
  rcases pop_fw (fw := fw) (n := n) (e := e) (f := f) cs with g | ⟨k, g⟩
  · rw [g]; exact h
  · rw [g]; exact resolve_once h (he k)

theorem entry_once {ch : Chance} {b : Board} (h : OfferedOnce b.fw.log) (e : AuthEntry) : OfferedOnce (b.entry nd ch e).fw.log := by
  cases e with
  | channelMessage m p =>
    simp only [Board.entry, Board.message]
    split
    · split
      · exact h
      · exact pop_once h nofun
    split
    · split
      · exact h
      · exact pop_once h nofun
    · split <;> exact h
  | _ => exact effect_once h _

theorem entries_once {ch : Chance} (es : List AuthEntry) : ∀ {b : Board}, OfferedOnce b.fw.log →
    OfferedOnce (es.foldl (Board.entry nd ch) b).fw.log := by
  induction es with
  | nil => exact id
  | cons e es ih => intro b h; exact ih (entry_once h e)

theorem happens_once {log : List AuthEntry} {b : Board} (hc : RfwCore log b.fw ∨ b.fw.listeners = []) (h : OfferedOnce b.fw.log) (ev : DeskEvent) :
    OfferedOnce (b.happens nd ev).fw.log := by
  cases ev with
  | server ev c => exact h
  | bound n res => exact bound_once h n res
  | hangup i =>
    simp only [Board.happens]
    split
    · exact h
    · exact resolve_once h nofun
  | relay i ev => exact h
  | accept i number origin originPort =>
    simp only [Board.happens, Board.accept]
    split
    · exact h
    · rename_i l hl
      rcases hc with hc | hc
      · cases decide (number < MAX_CHANNELS) && !(b.calls.any fun c => c.line.isOpen && (c.line.number == number))
        · exact accept_once hc h i false
        · simp only [cond_true]
          split
          · exact accept_once hc h i false
          · exact accept_once hc h i true
      · rw [hc] at hl; cases hl

/-! ### The invariant -/

variable {x : HubEnv σ}

/-- Every request for a forwarding was made with a message. -/
def BindsAsked (log : List AuthEntry) : Prop := ∀ host port, .bindTcp host port ∈ log → ∃ a m b,
  log = a ++ [.received 80 m, .bindTcp host port] ++ b ∧ AsksBind m (.bindTcp host port)

theorem bindsAsked_more {log more : List AuthEntry} (h : BindsAsked log) (hm : ∀ host port, .bindTcp host port ∉ more) : BindsAsked (log ++ more) := by
  intro host port hb
  rcases List.mem_append.mp hb with hb | hb
  · obtain ⟨a, m, b, rfl, h2⟩ := h host port hb
    exact ⟨a, m, b ++ more, by simp, h2⟩
  · exact absurd hb (hm host port)

theorem plain_no_bind {es : List AuthEntry} (h : es.all plainEntry = true) (host : Bytes) (port : Nat) : .bindTcp host port ∉ es := by
  intro hm
  have := List.all_eq_true.mp h _ hm
  cases this

theorem bindsAsked_news {old new z : Auth} {es tail : List AuthEntry} (hlog : new.log = old.log ++ (es ++ tail))
    (hn : News old z es) (ht : tail.all plainEntry = true) (h : BindsAsked old.log) : BindsAsked new.log := by
  rw [hlog, ← List.append_assoc]
  refine bindsAsked_more ?_ (plain_no_bind ht)
  cases hn with
  | calm hp => exact bindsAsked_more h (plain_no_bind hp)
  | other hp => exact bindsAsked_more h fun host port hm => plain_no_bind hp host port (by simpa using hm)
  | opened => exact bindsAsked_more h fun host port hm => by simp at hm
  | restricted => exact bindsAsked_more h fun host port hm => by simp at hm
  | message => exact bindsAsked_more h fun host port hm => by simp at hm
  | forward _ _ ha => rcases asks_what ha with ⟨_, _, rfl⟩ | ⟨_, rfl⟩ <;> exact bindsAsked_more h fun host port hm => by simp at hm
  | bind hc ha =>
    rename_i p e
    intro host port hb
    rcases List.mem_append.mp hb with hb | hb
    · obtain ⟨a, m, b, e1, h2⟩ := h host port hb
      rw [e1]
      exact ⟨a, m, b ++ [.received 80 p, e], by simp, h2⟩
    · have : e = .bindTcp host port := by
        rcases List.mem_cons.mp hb with hb | hb
        · cases hb
        · exact (List.mem_singleton.mp hb).symm
      subst this
      exact ⟨old.log, p, [], by simp, ha⟩

structure DInv (x : HubEnv σ) (h : Desk σ) : Prop where
  server : SInv x.server h.server
  chan : Engaged h.board → h.server.auth.channels = true
  core : h.server.live = true → RfwCore h.server.auth.log h.board.fw
  over : h.server.live = false → RfwEnd h.server.auth.log h.board.fw
  ok : ∀ c ∈ h.board.calls, IOk x.ndebug h.server.auth.log h.board.fw.log c
  apart : CallsApart h.board.calls
  counted : Counted h.board
  sent : h.server.live = true → ∀ c ∈ h.board.calls, c.line.out.Sublist (packetsSent h.server.trans.posts)
  asks : BindsAsked h.server.auth.log
  once : OfferedOnce h.board.fw.log

theorem core_init : RfwCore [] ({} : Rfw) := by
  refine ⟨fwHist_nil, by simp, rfl, ?_, ?_, ?_, ?_, List.Pairwise.nil, ?_, ?_⟩ <;> intros <;> simp_all

theorem DInv.init : DInv x ({} : Desk σ) where
  server := SInv.init _
  chan := fun h => by rcases h with h | h | h <;> exact absurd rfl h
  core := fun _ => core_init
  over := fun h => by cases h
  ok := by intro t ht; cases ht
  apart := List.Pairwise.nil
  counted := by intro t ht; cases ht
  sent := by intro _ t ht; cases ht
  asks := by intro _ _ h; cases h
  once := by intro _ _ _ _ _ h; cases h

theorem DInv.settle (hx : EnvOk x.server.trans) {h : Desk σ} {s : Server σ} {b : Board} (hs : SInv x.server s)
    (hc : Engaged b → s.auth.channels = true) (hlv : s.live = true → h.server.live = true)
    (hcore : h.server.live = true → RfwCore s.auth.log b.fw) (hend : h.server.live = false → RfwEnd s.auth.log b.fw)
    (hok : ∀ c ∈ b.calls, IOk x.ndebug s.auth.log b.fw.log c) (ha : CallsApart b.calls) (hn : Counted b)
    {new more : List Incoming} (hb : b.calls = new ++ more) (hl : CallsLater h.board.calls new)
    (hsent : s.live = true → ∀ c ∈ h.board.calls, c.line.out.Sublist (packetsSent s.trans.posts)) (hask : BindsAsked s.auth.log)
    (honce : OfferedOnce b.fw.log) :
    ∃ h', h.settle x s b = some h' ∧ DInv x h' := by
  obtain ⟨s', h1, h2, h3, h4, h5⟩ := send_run hx (ps := callMessages h.board.calls b.calls) hs
  refine ⟨_, by rw [Desk.settle, h1, Option.map_some], ?_⟩
  have sent : s'.live = true → ∀ c ∈ b.calls, c.line.out.Sublist (packetsSent s'.trans.posts) := by
    intro hlive c hc'
    have hlv := h4 hlive
    rw [h5 hlv (hc (.inr (.inr (List.ne_nil_of_mem hc'))))]
    rw [hb] at hc' ⊢
    exact callMessages_sent hl (hsent hlv) c hc'
  cases hg : h.server.live && !s'.live with
  | false =>
    simp only [cond_false]
    refine ⟨h2, by rw [h3]; exact hc, fun hz => ?_, fun hz => ?_, by rw [h3]; exact hok, ha, hn, sent, by rw [h3]; exact hask, honce⟩
    · rw [h3]; exact hcore (hlv (h4 hz))
    · rw [h3]
      have hz : s'.live = false := hz
      rw [hz] at hg
      exact hend (by simpa using hg)
  | true =>
    rw [Bool.and_eq_true, Bool.not_eq_true'] at hg
    simp only [cond_true]
    refine ⟨h2, ?_, fun hz => ?_, fun _ => ?_, ?_, ha, hn, fun hz => ?_, by rw [h3]; exact hask, finish_once honce⟩
    · intro hz
      rw [h3]
      rcases hz with hz | hz | hz
      · exact absurd rfl hz
      · exact absurd rfl hz
      · exact hc (.inr (.inr hz))
    · have hz : s'.live = true := hz
      rw [hg.2] at hz; cases hz
    · rw [h3]; exact core_finish (hcore hg.1)
    · rw [h3]; exact fun c hc' => (hok c hc').mono b.fw.finish_log
    · have hz : s'.live = true := hz
      rw [hg.2] at hz; cases hz

/-- When the connection has ended, hardly anything happens. -/
theorem dead_step {sx : ServerEnv σ} {s s' : Server σ} {ev : ServerEvent} (hd : s.live = false) (h : s.step sx ev = some s') :
    ∃ tail, s'.auth.log = s.auth.log ++ tail ∧ tail.all plainEntry = true := by
  have stay : some s = some s' → ∃ tail, s'.auth.log = s.auth.log ++ tail ∧ tail.all plainEntry = true := by
    intro h
    cases h
    exact ⟨[], by simp, rfl⟩
  cases ev with
  | ready delay => simp only [Server.step, hd, cond_false] at h; exact stay h
  | other ev => simp only [Server.step, hd, Bool.false_and, cond_false] at h; exact stay h
  | send p => simp only [Server.step, hd, Bool.false_and, cond_false] at h; exact stay h
  | io ev =>
    simp only [Server.step] at h
    cases hg : ev.isIo && (s.live || !ev.needsLive) with
    | false => rw [hg] at h; exact stay h
    | true =>
      rw [hg] at h
      obtain ⟨t, h1, h2⟩ := Option.bind_eq_some_iff.mp h
      obtain ⟨_, _, g3, _⟩ := settle_grows h2
      rcases g3 with g3 | g3
      · exact ⟨[], by rw [g3]; simp, rfl⟩
      · rw [g3]
        obtain ⟨tail, h3, h4, _⟩ := closed_step (({ s with trans := t } : Server σ).cfg sx) s.auth
        exact ⟨tail, h3, h4⟩

theorem RfwEnd.more {A B : List AuthEntry} {s : Rfw} (h : RfwEnd A s) (hAB : ∀ e ∈ A, e ∈ B) : RfwEnd B s :=
  ⟨h.hist, h.last, h.none, fun n h' p' hm => hAB _ (h.asked n h' p' hm)⟩

theorem DInv.happens (hx : EnvOk x.server.trans) {h : Desk σ} (hi : DInv x h) (ev : DeskEvent) :
    ∃ h', h.settle x h.server (h.board.happens x.ndebug ev) = some h' ∧ DInv x h' := by
  cases hl : h.server.live with
  | true =>
    obtain ⟨g1, g2, g3, g4, g5, new, more, g6, g7⟩ := happened (hi.core hl) hi.ok hi.apart hi.counted ev rfl
    exact DInv.settle hx hi.server (fun hz => hi.chan (g5 hz)) id (fun _ => g1) (fun hz => by rw [hl] at hz; cases hz) g2 g3 g4 g6 g7
      hi.sent hi.asks (happens_once (.inl (hi.core hl)) hi.once ev)
  | false =>
    obtain ⟨g1, g2, g3, g4, g5, new, more, g6, g7⟩ := happened_end (hi.over hl) hi.ok hi.apart hi.counted ev rfl
    exact DInv.settle hx hi.server (fun hz => hi.chan (g5 hz)) id (fun hz => by rw [hl] at hz; cases hz) (fun _ => g1) g2 g3 g4 g6 g7
      hi.sent hi.asks (happens_once (log := []) (.inr (hi.over hl).none.2.1) hi.once ev)

theorem DInv.step (hx : EnvOk x.server.trans) {h : Desk σ} (hi : DInv x h) (ev : DeskEvent) :
    ∃ h', h.step x ev = some h' ∧ DInv x h' := by
  cases ev with
  | bound n res => exact hi.happens hx _
  | accept i number origin originPort => exact hi.happens hx _
  | hangup i => exact hi.happens hx _
  | relay i ev => exact hi.happens hx _
  | server ev c =>
    obtain ⟨s', h1, h2⟩ := hi.server.step hx ev
    simp only [Desk.step, h1, Option.bind_some]
    have hb := below_step hx hi.server h1
    obtain ⟨z, es, tail, n1, n2, n3, n4⟩ := hb.news
    have hprox : h.server.auth.channels = true → h.server.auth.proxied = false := by
      intro hc
      obtain ⟨evs, he⟩ := hi.server.auth
      rcases inv_run (cfg := h.server.cfg x.server) evs with ⟨hp, _⟩ | hp
      · rw [← he] at hp
        have := hp.chan
        rw [hc] at this
        cases this
      · rw [← he] at hp
        exact (hp.chan1 hc).2.1
    have hdr : s'.auth.log.drop h.server.auth.log.length = es ++ tail := by rw [n1, List.drop_left]
    rw [hdr]
    have hsent : s'.live = true → ∀ c ∈ h.board.calls, c.line.out.Sublist (packetsSent s'.trans.posts) := by
      intro hl s hs
      obtain ⟨qs, hqs⟩ := hb.posts
      rw [hqs, packetsSent_append]
      exact (hi.sent (hb.live hl) s hs).trans (List.sublist_append_left _ _)
    have hask := bindsAsked_news n1 n2 n3 hi.asks
    cases hl : h.server.live with
    | true =>
      simp only [cond_true]
      obtain ⟨⟨d1, d2⟩, d3, d4, d5⟩ := posted n1 n2 n3 hprox hi.chan ⟨hi.core hl, hi.ok⟩ c rfl
      exact DInv.settle hx h2 (fun hz => hb.chan (d5 hz)) hb.live (fun _ => d1) (fun hz => by rw [hl] at hz; cases hz) d2
        (hi.apart.later d3) (counted_later hi.counted d3 (Nat.le_of_eq (entries_conn _ _).symm)) (List.append_nil _).symm d3 hsent hask
        (entries_once _ hi.once)
    | false =>
      simp only [cond_false]
      have hsub : ∀ e ∈ h.server.auth.log, e ∈ s'.auth.log := fun e he => by rw [n1]; exact List.mem_append_left _ he
      refine DInv.settle hx h2 (fun hz => hb.chan (hi.chan hz)) hb.live (fun hz => by rw [hl] at hz; cases hz)
        (fun _ => (hi.over hl).more hsub) ?_ hi.apart hi.counted (List.append_nil _).symm .rfl' hsent hask hi.once
      -- nothing is said any more
      intro c' hc'
      obtain ⟨tail', t1, t2⟩ := dead_step hl h1
      rw [t1]
      exact (hi.ok c' hc').plain (clientMessages_plain t2)

theorem DInv.run (hx : EnvOk x.server.trans) (evs : List DeskEvent) : ∀ {h : Desk σ}, DInv x h →
    ∃ h', h.run x evs = some h' ∧ DInv x h' := by
  induction evs with
  | nil => intro h hi; exact ⟨h, rfl, hi⟩
  | cons ev evs ih =>
    intro h hi
    obtain ⟨h1, e1, i1⟩ := hi.step hx ev
    obtain ⟨h2, e2, i2⟩ := ih i1
    exact ⟨h2, by simp only [Desk.run, e1, Option.bind_some, e2], i2⟩

end Lukko
