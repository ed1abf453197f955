import Verif.Proof.Agent
import Verif.Proof.Lists
import Verif.Proof.SessionEnv
/-
  Agent forwarding: the invariant (for C80).
-/
namespace Lukko
open Model Spec

/-! ## The session -/

theorem AskedRun.program {log cmd} (h : AskedRun log cmd) : AskedProgram log := by
  cases cmd with
  | none => exact .inl h
  | some cmd => obtain ⟨l, h, _⟩ := h; exact .inr ⟨l, h⟩

theorem Spec.AskedProgram.mono {log} (h : AskedProgram log) (l) : AskedProgram (log ++ l) := by
  rcases h with ⟨d, h⟩ | ⟨d, h⟩
  · exact .inl ⟨d, List.mem_append_left _ h⟩
  · exact .inr ⟨d, List.mem_append_left _ h⟩

theorem Spec.AskedAgent.mono {log} (h : AskedAgent log) (l) : AskedAgent (log ++ l) := by
  obtain ⟨n, hn, d, h⟩ := h
  exact ⟨n, hn, d, List.mem_append_left _ h⟩

theorem Spec.AskedAgentFirst.mono {log} (h : AskedAgentFirst log) (l) : AskedAgentFirst (log ++ l) := by
  obtain ⟨a, n, d, b, e, h⟩ := h
  exact ⟨a, n, d, b ++ l, by rw [e]; simp, h⟩

/-- It was already so. -/
theorem askedAgentFirst_before {log l} (h : AskedAgentFirst (log ++ l)) (hl : ∀ n d, SessEntry.asked n d ∉ l) :
    AskedAgentFirst log := by
  obtain ⟨a, n, d, b, e, hn, hp⟩ := h
  rcases split_append e with ⟨b', h1⟩ | ⟨a', h1, h2⟩
  · exact ⟨a, n, d, b', h1, hn, hp⟩
  · exact absurd (by rw [h2]; simp) (hl n d)

theorem running_le (log : List SessEntry) : running log ≤ (processes log).length := by
  induction log with
  | nil => simp [running, processes]
  | cons e l ih =>
    have h1 : running (e :: l) = running [e] + running l := running_append [e] l
    have h2 : processes (e :: l) = processes [e] ++ processes l := processes_append [e] l
    rw [h1, h2, List.length_append]
    cases e <;> simp [running, processes, SessEntry.process] <;> simp [running, processes] at ih <;> omega

/-- What holds of the agent. -/
structure AgOk (cfg : SessCfg) (s : Sess) : Prop where
  req : s.agentReq = true → AskedAgent s.log
  agent : s.agent = true → AskedAgent s.log ∧ cfg.exec = true ∧ AskedProgram s.log
  first : AskedAgentFirst s.log → s.agentReq = true

/-- The socket exists as soon as there is a process that may use it. -/
def AgReady (s : Sess) : Prop :=
  AskedAgentFirst s.log → ∀ p, SessEntry.started p ∈ s.log → p.program.isShell = true → s.agent = true

theorem AgOk.keep {cfg s s'} (h : AgOk cfg s) (g : AgKeep s s') : AgOk cfg s' := by
  obtain ⟨l, e, hq⟩ := g.log
  have ha : s'.agent = s.agent := congrArg Prod.fst g.ag
  have hr : s'.agentReq = s.agentReq := congrArg Prod.snd g.ag
  refine ⟨fun h1 => ?_, fun h1 => ?_, fun h1 => ?_⟩
  · rw [e]; exact (h.req (hr ▸ h1)).mono l
  · obtain ⟨x, y, z⟩ := h.agent (ha ▸ h1)
    rw [e]; exact ⟨x.mono l, y, z.mono l⟩
  · rw [hr]
    rw [e] at h1
    exact h.first (askedAgentFirst_before h1 fun n d hm => by have := hq _ hm; simp [agQuiet] at this)

theorem AgReady.keep {s s'} (h : AgReady s) (g : AgKeep s s') : AgReady s' := by
  obtain ⟨l, e, hq⟩ := g.log
  have ha : s'.agent = s.agent := congrArg Prod.fst g.ag
  intro h1 p hp hs
  rw [e] at h1 hp
  rw [ha]
  refine h (askedAgentFirst_before h1 fun n d hm => by have := hq _ hm; simp [agQuiet] at this) p ?_ hs
  rcases List.mem_append.1 hp with hp | hp
  · exact hp
  · have := hq _ hp; simp [agQuiet] at this

/-- A request that does not matter here. -/
theorem AgOk.asked {cfg s name data} (h : AgOk cfg s) (hn : AskedAgentFirst (s.log ++ [.asked name data]) → AskedAgentFirst s.log) :
    AgOk cfg (s.emit (.asked name data)) :=
  ⟨fun h1 => (h.req h1).mono _, fun h1 => ⟨(h.agent h1).1.mono _, (h.agent h1).2.1, (h.agent h1).2.2.mono _⟩, fun h1 => h.first (hn h1)⟩

theorem AgReady.asked {s name data} (h : AgReady s) (hn : AskedAgentFirst (s.log ++ [.asked name data]) → AskedAgentFirst s.log) :
    AgReady (s.emit (.asked name data)) := by
  intro h1 p hp hs
  refine h (hn h1) p ?_ hs
  simpa [Sess.emit] using hp

theorem first_unless {log name data} (hn : name ∉ agentRequests ∨ processes log ≠ [])
    (h : AskedAgentFirst (log ++ [.asked name data])) : AskedAgentFirst log := by
  obtain ⟨a, n, d, b, e, hm, hp⟩ := h
  rcases split_append e with ⟨b', h1⟩ | ⟨a', h1, h2⟩
  · exact ⟨a, n, d, b', h1, hm, hp⟩
  · cases a' with
    | nil =>
      simp only [List.nil_append, List.cons.injEq, SessEntry.asked.injEq] at h2
      rw [List.append_nil] at h1
      subst h1
      rcases hn with hn | hn
      · exact absurd (h2.1.1 ▸ hm) hn
      · exact absurd hp hn
    | cons x a' => simp at h2

/-- Without processes. -/
theorem no_child {cfg r0 s} (h : SessInv cfg r0 s) (hp : processes s.log = []) : s.child = none := by
  have h1 := running_le s.log
  rw [hp, h.run] at h1
  cases hc : s.child with
  | none => rfl
  | some c => simp [childCount, hc] at h1

/-- Everything that can happen on the session channel. -/
theorem AgOk.handle {cfg r0} {y : SessCh} (hi : SessInv cfg r0 y.s) (h : AgOk cfg y.s) (ev) :
    AgOk cfg (y.handle cfg ev).s ∧ (AgReady y.s → AgReady (y.handle cfg ev).s) := by
  cases ho : otherEvent ev with
  | true =>
    have g : AgKeep y.s (y.handle cfg ev).s := .still (Still.handle cfg y ev ho) (ag_other y cfg ev ho)
    exact ⟨h.keep g, fun hr => hr.keep g⟩
  | false =>
    cases ev <;> simp [otherEvent] at ho
    case request name data ok =>
      simp only [SessCh.handle]
      by_cases hn : name ∈ agentRequests ∧ y.s.child = none
      · rw [request_agent cfg { y with s := y.s.emit (.asked name data) } hn.1 data ok hn.2]
        refine ⟨⟨fun _ => ?_, fun h1 => ?_, fun _ => rfl⟩, fun hr h1 p hp hs => ?_⟩
        · exact ⟨name, hn.1, data, by simp [Sess.emit]⟩
        · obtain ⟨a, b, c⟩ := h.agent h1
          have e : (y.s.emit (.asked name data)).log ++ [.answered true] = y.s.log ++ [.asked name data, .answered true] := by
            simp [Sess.emit]
          refine ⟨?_, b, ?_⟩
          · show AskedAgent _; rw [e]; exact a.mono _
          · show AskedProgram _; rw [e]; exact c.mono _
        · have hp' : SessEntry.started p ∈ y.s.log := by simpa [Sess.emit] using hp
          refine hr ?_ p hp' hs
          have e : (y.s.emit (.asked name data)).log ++ [.answered true] = (y.s.log ++ [.asked name data]) ++ [.answered true] := rfl
          have h2 : AskedAgentFirst ((y.s.log ++ [.asked name data]) ++ [.answered true]) := h1
          refine first_unless (.inr fun hc => ?_) (askedAgentFirst_before h2 (by simp))
          have : p ∈ processes y.s.log := List.mem_filterMap.2 ⟨_, hp', rfl⟩
          rw [hc] at this
          simp at this
      · have hk : AgKeep (y.s.emit (.asked name data)) (SessCh.request cfg { y with s := y.s.emit (.asked name data) } name data ok).s := by
          refine request_other cfg { y with s := y.s.emit (.asked name data) } data ok ?_
          by_cases h1 : name ∈ agentRequests
          · exact .inr fun h2 => hn ⟨h1, h2⟩
          · exact .inl h1
        have hf : AskedAgentFirst (y.s.log ++ [.asked name data]) → AskedAgentFirst y.s.log := by
          refine first_unless ?_
          by_cases h1 : name ∈ agentRequests
          · exact .inr fun h2 => hn ⟨h1, no_child hi h2⟩
          · exact .inl h1
        exact ⟨(h.asked hf).keep hk, fun hr => (hr.asked hf).keep hk⟩
    case enqueued id r =>
      simp only [SessCh.handle]
      have g := agEnq cfg y id r
      obtain ⟨l, e, ha, hs⟩ := g.log
      refine ⟨⟨fun h1 => ?_, fun h1 => ?_, fun h1 => ?_⟩, fun hr h1 p hp hsh => ?_⟩
      · rw [g.req] at h1; rw [e]; exact (h.req h1).mono l
      · rw [e]
        rcases g.agent h1 with h2 | ⟨h2, h3⟩
        · obtain ⟨x, y, z⟩ := h.agent h2
          exact ⟨x.mono l, y, z.mono l⟩
        · split at h2
          · rename_i cmd hl
            have ht := STaskOk.of_lookup hi hl rfl
            exact ⟨(h.req h3).mono l, ht.1, (ht.2.program).mono l⟩
          · simp at h2
      · rw [g.req]
        rw [e] at h1
        exact h.first (askedAgentFirst_before h1 ha)
      · rw [e] at h1 hp
        have hf := askedAgentFirst_before h1 ha
        rcases List.mem_append.1 hp with hp | hp
        · exact g.keep (hr hf p hp hsh)
        · exact hs p hp hsh (h.first hf)
    case restricted r =>
      have g : AgKeep y.s (y.handle cfg (.restricted r)).s := ⟨rfl, [.restricted r], rfl, by simp [agQuiet]⟩
      exact ⟨h.keep g, fun hr => hr.keep g⟩

/-! ## Connections -/

/-- What comes before each entry. -/
def AgEntryOk (cfg : SessCfg) (a : List AgentEntry) : AgentEntry → Prop
  | .session _ => True
  | .connected c => .connected c ∉ a ∧ AskedAgent (sessionLog a) ∧ cfg.exec = true ∧ AskedProgram (sessionLog a)
  | .offered c => (∃ a', a = a' ++ [.connected c]) ∧ .offered c ∉ a ∧ .dropped c ∉ a
  | .joined c => Pending a c
  | .dropped c => .connected c ∈ a ∧ .joined c ∉ a ∧ .dropped c ∉ a
  | .ended => ∀ c, .connected c ∈ a → .joined c ∈ a ∨ .dropped c ∈ a

/-- Connections of which something is known. -/
def AgMentions (c : Nat) (log : List AgentEntry) : Prop :=
  .connected c ∈ log ∨ .offered c ∈ log ∨ .joined c ∈ log ∨ .dropped c ∈ log

structure Book (cfg : SessCfg) (log : List AgentEntry) (w : List Nat) (n : Nat) : Prop where
  nodup : w.Nodup
  lt : ∀ c, AgMentions c log → c < n
  waits : ∀ c ∈ w, .connected c ∈ log ∧ Pending log c
  done : ∀ c, .connected c ∈ log → c ∈ w ∨ .joined c ∈ log ∨ .dropped c ∈ log
  hist : ∀ a e b, log = a ++ e :: b → AgEntryOk cfg a e
  going : .ended ∉ log

theorem hist_snoc {cfg log x} (h : ∀ a e b, log = a ++ e :: b → AgEntryOk cfg a e) (hx : AgEntryOk cfg log x) :
    ∀ a e b, log ++ [x] = a ++ e :: b → AgEntryOk cfg a e := by
  intro a e b he
  rcases split_append he with ⟨b', h1⟩ | ⟨a', h1, h2⟩
  · exact h a e b' h1
  · cases a' with
    | nil =>
      simp only [List.nil_append, List.cons.injEq] at h2
      rw [List.append_nil] at h1
      rw [h1, ← h2.1]; exact hx
    | cons y a' => simp at h2

theorem Book.session {cfg log w n} (h : Book cfg log w n) (l : List SessEntry) : Book cfg (log ++ l.map .session) w n := by
  induction l using Aux.snoc_ind with
  | h0 => simpa using h
  | h1 l x ih =>
    rw [List.map_append, ← List.append_assoc]
    generalize hg : log ++ l.map .session = m at ih ⊢
    refine ⟨ih.nodup, fun c hc => ih.lt c ?_, fun c hc => ?_, fun c hc => ?_, hist_snoc ih.hist trivial, ?_⟩
    · simpa [AgMentions] using hc
    · simpa [Pending] using ih.waits c hc
    · simpa using ih.done c (by simpa using hc)
    · simpa using ih.going

/-- One connection stops waiting. -/
theorem Book.resolve {cfg log w n c} (h : Book cfg log w n) (hc : c ∈ w) {e} (he : e = .joined c ∨ e = .dropped c) :
    Book cfg (log ++ [e]) (w.filter (· != c)) n := by
  obtain ⟨hco, hp⟩ := h.waits c hc
  refine ⟨h.nodup.filter _, fun d hd => ?_, fun d hd => ?_, fun d hd => ?_, hist_snoc h.hist ?_, ?_⟩
  · by_cases hdc : d = c
    · subst hdc; exact h.lt d (.inl hco)
    · refine h.lt d ?_
      rcases he with rfl | rfl <;> simpa [AgMentions, hdc] using hd
  · obtain ⟨hd1, hd2⟩ := List.mem_filter.1 hd
    have hdc : d ≠ c := by simpa using hd2
    have := h.waits d hd1
    rcases he with rfl | rfl <;> simpa [Pending, hdc] using this
  · have hd' : .connected d ∈ log := by rcases he with rfl | rfl <;> simpa using hd
    by_cases hdc : d = c
    · subst hdc
      rcases he with rfl | rfl <;> simp
    · rcases h.done d hd' with h1 | h1 | h1
      · exact .inl (List.mem_filter.2 ⟨h1, by simpa using hdc⟩)
      · exact .inr (.inl (List.mem_append_left _ h1))
      · exact .inr (.inr (List.mem_append_left _ h1))
  · rcases he with rfl | rfl
    · exact hp
    · exact ⟨hco, hp.2.1, hp.2.2⟩
  · have := h.going
    rcases he with rfl | rfl <;> simpa using this

/-- All connections stop waiting. -/
theorem Book.clear {cfg log w n} (h : Book cfg log w n) : Book cfg (log ++ w.map .dropped) [] n := by
  induction w generalizing log with
  | nil => simpa using h
  | cons c w ih =>
    have h1 := h.resolve (c := c) (by simp) (.inr rfl)
    have hn := List.nodup_cons.1 h.nodup
    have h2 : (c :: w).filter (· != c) = w := by
      rw [List.filter_cons_of_neg (by simp)]
      rw [List.filter_eq_self]
      intro d hd
      simp only [bne_iff_ne, ne_eq]
      rintro rfl
      exact hn.1 hd
    rw [h2] at h1
    have h3 := ih h1
    simpa using h3

theorem sessionLog_append (a b) : sessionLog (a ++ b) = sessionLog a ++ sessionLog b := by simp [sessionLog]
theorem sessionLog_map (l : List SessEntry) : sessionLog (l.map .session) = l := by
  induction l with
  | nil => rfl
  | cons e l ih => simpa [sessionLog, AgentEntry.toSession] using ih
theorem sessionLog_dropped (l : List Nat) : sessionLog (l.map .dropped) = [] := by
  induction l with
  | nil => rfl
  | cons e l ih => simpa [sessionLog, AgentEntry.toSession] using ih

/-- A process connects. -/
theorem Book.offer {cfg log w n} (h : Book cfg log w n)
    (ha : AskedAgent (sessionLog log) ∧ cfg.exec = true ∧ AskedProgram (sessionLog log)) :
    Book cfg (log ++ [.connected n] ++ [.offered n]) (w ++ [n]) (n + 1) := by
  have hn : ¬ AgMentions n log := fun hc => Nat.lt_irrefl _ (h.lt n hc)
  simp only [AgMentions, not_or] at hn
  obtain ⟨n1, n2, n3, n4⟩ := hn
  have hw : n ∉ w := fun hc => n1 (h.waits n hc).1
  refine ⟨?_, fun d hd => ?_, fun d hd => ?_, fun d hd => ?_, hist_snoc (hist_snoc h.hist ⟨n1, ha⟩) ⟨⟨_, rfl⟩, ?_, ?_⟩, ?_⟩
  · rw [List.nodup_append]
    refine ⟨h.nodup, by simp, ?_⟩
    intro a hm b hb
    simp only [List.mem_singleton] at hb
    subst hb
    rintro rfl
    exact hw hm
  · by_cases hdn : d = n
    · omega
    · have := h.lt d (by simpa [AgMentions, hdn] using hd)
      omega
  · by_cases hdn : d = n
    · subst hdn; simp [Pending, n3, n4]
    · have hd' : d ∈ w := by simpa [hdn] using hd
      have := h.waits d hd'
      simpa [Pending, hdn] using this
  · by_cases hdn : d = n
    · subst hdn; simp
    · have := h.done d (by simpa [hdn] using hd)
      simpa [hdn] using this
  · simpa using n2
  · simpa using n4
  · simpa using h.going

/-- A process connects, but the client cannot be asked. -/
theorem Book.reject {cfg log w n} (h : Book cfg log w n)
    (ha : AskedAgent (sessionLog log) ∧ cfg.exec = true ∧ AskedProgram (sessionLog log)) :
    Book cfg (log ++ [.connected n] ++ [.dropped n]) w (n + 1) := by
  have hn : ¬ AgMentions n log := fun hc => Nat.lt_irrefl _ (h.lt n hc)
  simp only [AgMentions, not_or] at hn
  obtain ⟨n1, n2, n3, n4⟩ := hn
  refine ⟨h.nodup, fun d hd => ?_, fun d hd => ?_, fun d hd => ?_, hist_snoc (hist_snoc h.hist ⟨n1, ha⟩) ⟨by simp, ?_, ?_⟩, ?_⟩
  · by_cases hdn : d = n
    · omega
    · have := h.lt d (by simpa [AgMentions, hdn] using hd)
      omega
  · have hdn : d ≠ n := fun e => n1 (h.waits n (e ▸ hd)).1
    have := h.waits d hd
    simpa [Pending, hdn] using this
  · by_cases hdn : d = n
    · subst hdn; simp
    · have := h.done d (by simpa [hdn] using hd)
      simpa [hdn] using this
  · simpa using n3
  · simpa using n4
  · simpa using h.going

/-! ## Everything -/

/-- What holds between events, while the session goes on. -/
structure AgInv (cfg : SessCfg) (r0 : Restrictions) (s : AgSess) : Prop where
  sess : SessInv cfg r0 s.ch.s
  ok : AgOk cfg s.ch.s
  log : sessionLog s.log = s.ch.s.log
  book : Book cfg s.log s.waiting s.conn

/-- What holds after it has ended. -/
structure AgOver (cfg : SessCfg) (r0 : Restrictions) (s : AgSess) : Prop where
  inv : ∃ s' : AgSess, AgInv cfg r0 s' ∧ s.log = s'.log ++ [.ended] ∧ s'.waiting = []
  waiting : s.waiting = []

theorem handle_grows (cfg) (y : SessCh) (ev) : ∃ l, (y.handle cfg ev).s.log = y.s.log ++ l := by
  obtain ⟨_, l, h, _⟩ := EnvGrow.handle (v := ([], [])) cfg y ev
  exact ⟨l, h⟩

theorem AgInv.clear {cfg r0 s} (h : AgInv cfg r0 s) : AgInv cfg r0 s.clear := by
  refine ⟨h.sess, h.ok, ?_, h.book.clear⟩
  show sessionLog (s.log ++ s.waiting.map .dropped) = s.ch.s.log
  rw [sessionLog_append, sessionLog_dropped, List.append_nil]
  exact h.log

theorem AgInv.session {cfg r0 s} (h : AgInv cfg r0 s) (hst : s.ch.stop = none) (ev) :
    (AgInv cfg r0 (s.session cfg ev) ∧ (s.session cfg ev).ch.stop = none) ∨
    (AgOver cfg r0 (s.session cfg ev) ∧ (s.session cfg ev).ch.stop.isSome = true) := by
  unfold AgSess.session
  have h1 : AgInv cfg r0 (bif s.replaces cfg ev then s.clear else s) ∧ (bif s.replaces cfg ev then s.clear else s).ch.stop = none := by
    cases s.replaces cfg ev
    · exact ⟨h, hst⟩
    · exact ⟨h.clear, hst⟩
  generalize (bif s.replaces cfg ev then s.clear else s) = t at h1
  obtain ⟨ht, hs⟩ := h1
  have hstep : t.ch.step cfg ev = t.ch.handle cfg ev := by unfold SessCh.step; rw [hs]
  simp only [hstep]
  obtain ⟨l, hl⟩ := handle_grows cfg t.ch ev
  have hd : (t.ch.handle cfg ev).s.log.drop t.ch.s.log.length = l := by rw [hl]; simp
  rw [hd]
  have h2 : AgInv cfg r0 { t with ch := t.ch.handle cfg ev, log := t.log ++ l.map .session } := by
    refine ⟨ht.sess.handle ev, (AgOk.handle ht.sess ht.ok ev).1, ?_, ht.book.session l⟩
    show sessionLog (t.log ++ l.map .session) = (t.ch.handle cfg ev).s.log
    rw [sessionLog_append, sessionLog_map, ht.log, hl]
  generalize hg : ({ t with ch := t.ch.handle cfg ev, log := t.log ++ l.map .session } : AgSess) = u at h2
  have hch : t.ch.handle cfg ev = u.ch := by rw [← hg]
  rw [hch]
  cases hstop : u.ch.stop with
  | none => exact .inl ⟨h2, hstop⟩
  | some x => exact .inr ⟨⟨⟨u.clear, h2.clear, rfl, rfl⟩, rfl⟩, by show u.ch.stop.isSome = true; rw [hstop]; rfl⟩

theorem AgInv.accept {cfg r0 s} (h : AgInv cfg r0 s) (room) : AgInv cfg r0 (s.accept room) := by
  unfold AgSess.accept
  cases ha : s.ch.s.agent
  · exact h
  · have hk := h.ok.agent ha
    rw [← h.log] at hk
    cases room
    · refine ⟨h.sess, h.ok, ?_, h.book.reject hk⟩
      show sessionLog (s.log ++ [.connected s.conn] ++ [.dropped s.conn]) = s.ch.s.log
      rw [sessionLog_append, sessionLog_append, h.log]
      simp [sessionLog, AgentEntry.toSession]
    · refine ⟨h.sess, h.ok, ?_, h.book.offer hk⟩
      show sessionLog (s.log ++ [.connected s.conn] ++ [.offered s.conn]) = s.ch.s.log
      rw [sessionLog_append, sessionLog_append, h.log]
      simp [sessionLog, AgentEntry.toSession]

theorem AgInv.resolve {cfg r0 s} (h : AgInv cfg r0 s) {c e} (he : e = .joined c ∨ e = .dropped c) : AgInv cfg r0 (s.resolve c e) := by
  unfold AgSess.resolve
  cases hc : s.waiting.contains c
  · exact h
  · refine ⟨h.sess, h.ok, ?_, h.book.resolve (by simpa using hc) he⟩
    show sessionLog (s.log ++ [e]) = s.ch.s.log
    rw [sessionLog_append, h.log]
    rcases he with rfl | rfl <;> simp [sessionLog, AgentEntry.toSession]

theorem AgInv.acceptError {cfg r0 s} (h : AgInv cfg r0 s) : AgInv cfg r0 s.acceptError := by
  unfold AgSess.acceptError
  cases hc : s.ch.s.agent
  · exact h
  · refine AgInv.clear ⟨?_, ⟨h.ok.req, by simp, h.ok.first⟩, h.log, h.book⟩
    obtain ⟨a1, a2, a3, a4, a5, a6, a7, a8, a9, a10, a11⟩ := h.sess
    exact ⟨a1, a2, a3, a4, a5, a6, a7, a8, a9, a10, a11⟩

theorem AgSess.run_snoc (cfg : SessCfg) (s : AgSess) (evs ev) : s.run cfg (evs ++ [ev]) = (s.run cfg evs).step cfg ev := by
  simp [AgSess.run]

theorem ag_inv (cfg r w evs) :
    (AgInv cfg r ((AgSess.init r w).run cfg evs) ∧ ((AgSess.init r w).run cfg evs).ch.stop = none) ∨
    (AgOver cfg r ((AgSess.init r w).run cfg evs) ∧ ((AgSess.init r w).run cfg evs).ch.stop.isSome = true) := by
  induction evs using Aux.snoc_ind with
  | h0 =>
    refine .inl ⟨⟨SessInv.init cfg r w, ⟨by simp [AgSess.run, AgSess.init, SessCh.init], by simp [AgSess.run, AgSess.init, SessCh.init], ?_⟩, rfl, ?_⟩, rfl⟩
    · rintro ⟨a, n, d, b, e, _⟩; simp [AgSess.run, AgSess.init, SessCh.init] at e
    · constructor <;> simp [AgSess.run, AgSess.init, AgMentions]
  | h1 evs ev ih =>
    rw [AgSess.run_snoc]
    generalize (AgSess.init r w).run cfg evs = s at ih
    unfold AgSess.step
    rcases ih with ⟨h, hst⟩ | ⟨h, hst⟩
    · rw [hst]
      simp only [Option.isSome_none, cond_false]
      cases ev with
      | session ev => exact h.session hst ev
      | accept room =>
        refine .inl ⟨h.accept room, ?_⟩
        simp only [AgSess.handle, AgSess.accept]
        cases s.ch.s.agent
        · exact hst
        · cases room <;> exact hst
      | acceptError =>
        refine .inl ⟨h.acceptError, ?_⟩
        simp only [AgSess.handle, AgSess.acceptError]
        cases s.ch.s.agent <;> exact hst
      | confirmed c =>
        refine .inl ⟨h.resolve (.inl rfl), ?_⟩
        simp only [AgSess.handle, AgSess.resolve]
        cases s.waiting.contains c <;> exact hst
      | refused c =>
        refine .inl ⟨h.resolve (.inr rfl), ?_⟩
        simp only [AgSess.handle, AgSess.resolve]
        cases s.waiting.contains c <;> exact hst
    · rw [hst]; exact .inr ⟨h, hst⟩

/-- Without errors of the socket. -/
theorem ag_ready (cfg r w evs) (he : AgEv.acceptError ∉ evs) : AgReady ((AgSess.init r w).run cfg evs).ch.s := by
  induction evs using Aux.snoc_ind with
  | h0 => intro _ p hp; simp [AgSess.run, AgSess.init, SessCh.init] at hp
  | h1 evs ev ih =>
    replace ih := ih fun h => he (List.mem_append_left _ h)
    rw [AgSess.run_snoc]
    have hi := ag_inv cfg r w evs
    generalize (AgSess.init r w).run cfg evs = s at ih hi
    unfold AgSess.step
    rcases hi with ⟨h, hst⟩ | ⟨h, hst⟩
    · rw [hst]
      simp only [Option.isSome_none, cond_false]
      cases ev with
      | session ev =>
        have hch : (s.handle cfg (.session ev)).ch = s.ch.handle cfg ev := by
          simp only [AgSess.handle, AgSess.session]
          have h1 : (bif s.replaces cfg ev then s.clear else s).ch = s.ch := by cases s.replaces cfg ev <;> rfl
          have h2 : s.ch.step cfg ev = s.ch.handle cfg ev := by unfold SessCh.step; rw [hst]
          rw [h1, h2]
          cases (s.ch.handle cfg ev).stop.isSome <;> rfl
        rw [hch]
        exact (AgOk.handle h.sess h.ok ev).2 ih
      | accept room =>
        simp only [AgSess.handle, AgSess.accept]
        cases ha : s.ch.s.agent
        · exact ih
        · cases room <;> exact ih
      | acceptError => exact absurd (by simp) he
      | confirmed c =>
        simp only [AgSess.handle, AgSess.resolve]
        cases s.waiting.contains c <;> exact ih
      | refused c =>
        simp only [AgSess.handle, AgSess.resolve]
        cases s.waiting.contains c <;> exact ih
    · rw [hst]; exact ih

/-- What comes before each entry, at any time. -/
theorem ag_hist (cfg r w evs) {a e b} (h : ((AgSess.init r w).run cfg evs).log = a ++ e :: b) :
    AgEntryOk cfg a e ∧ .ended ∉ a := by
  rcases ag_inv cfg r w evs with ⟨hi, _⟩ | ⟨⟨⟨s', hi, hl, hw⟩, _⟩, _⟩
  · refine ⟨hi.book.hist a e b h, fun hm => hi.book.going ?_⟩
    rw [h]; exact List.mem_append_left _ hm
  · rw [hl] at h
    have hd : ∀ c, .connected c ∈ s'.log → .joined c ∈ s'.log ∨ .dropped c ∈ s'.log := by
      intro c hc
      have := hi.book.done c hc
      rw [hw] at this
      simpa using this
    refine ⟨hist_snoc (x := .ended) hi.book.hist hd a e b h, fun hm => hi.book.going ?_⟩
    rcases split_append h with ⟨b', h1⟩ | ⟨a', h1, h2⟩
    · rw [h1]; exact List.mem_append_left _ hm
    · cases a' with
      | nil => rw [List.append_nil] at h1; rw [← h1]; exact hm
      | cons y a' => simp at h2

end Lukko
