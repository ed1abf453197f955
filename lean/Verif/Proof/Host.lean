import Verif.Proof.HostHeard
import Verif.Proof.HostNews
import Verif.Prop.Server
import Verif.Prop.Identity
/-
  Invariant of the session channels of a connection.
-/
namespace Lukko
open Spec Model

variable {σ : Type} {x : HostEnv σ}

/-! ### Lists -/

theorem clientMessages_plain {es : List AuthEntry} (h : es.all plainEntry = true) : clientMessages es = [] := by
  simp only [clientMessages, List.filterMap_eq_nil_iff]
  intro e he
  have := List.all_eq_true.mp h e he
  cases e <;> first | rfl | cases this

theorem inEffect_plain {es : List AuthEntry} (log : List AuthEntry) (h : ∀ e ∈ es, (∀ l, e ≠ .loggedIn l) ∧ ∀ r, e ≠ .restricted r) :
    inEffect (log ++ es) = inEffect log := by
  induction es using Aux.snoc_ind with
  | h0 => simp
  | h1 es e ih =>
    rw [← List.append_assoc, inEffect_snoc]
    have h' := h e (by simp)
    have := ih fun z hz => h z (by simp [hz])
    split
    · exact absurd rfl (h'.1 _)
    · exact absurd rfl (h'.2 _)
    · exact this

/-- After a session channel was opened, there is no other login. -/
theorem no_login_after {cfg : AuthCfg} {aevs : List AuthEv} {pre post : List AuthEntry}
    (h : (Auth.run cfg {} aevs).log = pre ++ .openSession :: post) :
    (∃ l, .loggedIn l ∈ pre) ∧ ∀ l, .loggedIn l ∉ post := by
  obtain ⟨_, l, hl⟩ := C29_effects cfg aevs h rfl
  refine ⟨⟨l, hl⟩, fun l' hl' => ?_⟩
  obtain ⟨a, b, rfl⟩ := List.append_of_mem hl
  have h' : (Auth.run cfg {} aevs).log = a ++ .loggedIn l :: (b ++ .openSession :: post) := by rw [h]; simp
  exact (C29_login cfg aevs h').2.2 l' (by simp [hl'])

/-! ### One session channel -/

/-- A session channel was opened when the record was `pre`; `y` is the state of the connection then; `post` is what
happened on the connection afterwards. -/
structure SOkAt (x : HostEnv σ) (log : List AuthEntry) (s : Session) (y : Auth) (pre post : List AuthEntry) : Prop where
  opened : log = pre ++ .openSession :: post
  isRun : ∃ sid aevs, y = Auth.run { x.server.auth with sessionId := sid } {} aevs
  upTo : ∃ tail, y.log = pre ++ .openSession :: tail ∧ tail.all plainEntry = true ∧ tail <+: post
  number : s.number < 64
  cfg : s.cfg = y.sessCfg x
  ch : ∃ w m rest pre' evs, pre = pre' ++ [.received 90 (channelOpenBody (ascii "session") s.peer w m rest)] ∧
    s.ch = SessCh.run s.cfg (SessCh.init y.opts.restrictions w) evs
  shut : s.isOpen = false → s.ch.stop ≠ none
  said : ∃ ms, ms <+: clientMessages post ∧ Meaning s.number ms (s.ch.s.log.filter SessEntry.byClient) ∧
    (s.ch.stop = none → ms = clientMessages post)
  restr : s.ch.stop = none → inEffect log = some s.ch.s.restr
  told : ∀ r, .restricted r ∈ s.ch.s.log → .restricted r ∈ post

theorem SOkAt.extend {log : List AuthEntry} {s : Session} {y pre post es} (h : SOkAt x log s y pre post)
    (hm : ∀ ms, ms <+: clientMessages post → Meaning s.number ms (s.ch.s.log.filter SessEntry.byClient) →
      (s.ch.stop = none → ms = clientMessages post) →
      ∃ ms, ms <+: clientMessages (post ++ es) ∧ Meaning s.number ms (s.ch.s.log.filter SessEntry.byClient) ∧
        (s.ch.stop = none → ms = clientMessages (post ++ es)))
    (hr : s.ch.stop = none → inEffect (log ++ es) = inEffect log) : SOkAt x (log ++ es) s y pre (post ++ es) := by
  obtain ⟨tail, t1, t2, t3⟩ := h.upTo
  obtain ⟨ms, m1, m2, m3⟩ := h.said
  exact {
    opened := by rw [h.opened]; simp
    isRun := h.isRun
    upTo := ⟨tail, t1, t2, t3.trans (List.prefix_append _ _)⟩
    number := h.number
    cfg := h.cfg
    ch := h.ch
    shut := h.shut
    said := hm ms m1 m2 m3
    restr := fun hs => by rw [hr hs]; exact h.restr hs
    told := fun r hr => List.mem_append_left _ (h.told r hr) }

/-- Something happens on the connection which does not concern session channels. -/
theorem SOkAt.plain {log : List AuthEntry} {s : Session} {y pre post es} (h : SOkAt x log s y pre post)
    (hp : clientMessages es = []) (hl : ∀ e ∈ es, (∀ l, e ≠ .loggedIn l) ∧ ∀ r, e ≠ .restricted r) :
    SOkAt x (log ++ es) s y pre (post ++ es) := by
  refine h.extend (fun ms a b c => ⟨ms, ?_, b, ?_⟩) fun _ => inEffect_plain _ hl
  · rw [clientMessages_append, hp, List.append_nil]; exact a
  · rw [clientMessages_append, hp, List.append_nil]; exact c

/-- A channel which is gone. -/
theorem SOkAt.over {log : List AuthEntry} {s : Session} {y pre post} (h : SOkAt x log s y pre post) (es : List AuthEntry)
    (hs : s.ch.stop ≠ none) : SOkAt x (log ++ es) s y pre (post ++ es) := by
  refine h.extend (fun ms a b c => ⟨ms, ?_, b, fun hc => absurd hc hs⟩) fun hc => absurd hc hs
  rw [clientMessages_append]
  exact a.trans (List.prefix_append _ _)

/-- A message for somebody else. -/
theorem SOkAt.unheard {log : List AuthEntry} {s : Session} {y pre post} (h : SOkAt x log s y pre post) {m p}
    (hn : ∀ e, ¬ Heard s.number (m :: p) e) : SOkAt x (log ++ [.received m p]) s y pre (post ++ [.received m p]) := by
  by_cases hs : s.ch.stop = none
  · refine h.extend (fun ms a b c => ?_) fun _ => inEffect_snoc _ _
    have he : clientMessages (post ++ [.received m p]) = ms ++ [m :: p] := by
      rw [clientMessages_append, c hs]; rfl
    exact ⟨ms ++ [m :: p], by rw [he]; exact List.prefix_rfl, .other b hn, fun _ => he.symm⟩
  · exact h.over _ hs

theorem Marked.filter {ev : SessEvent} {s s' : Sess} (h : Marked ev s s') :
    s'.log.filter SessEntry.byClient = s.log.filter SessEntry.byClient ++ (ev.mark.toList.filter SessEntry.byClient) ∧
    ∀ r, .restricted r ∈ s'.log → .restricted r ∈ s.log ∨ ev.mark = some (.restricted r) := by
  obtain ⟨l, hl, hp⟩ := h.log
  have hz : l.filter SessEntry.byClient = [] := by
    rw [List.filter_eq_nil_iff]
    intro e he hb
    have := hp e he
    cases e <;> simp_all [sessLoud, SessEntry.byClient]
  refine ⟨by rw [hl, List.filter_append, List.filter_append, hz, List.append_nil], fun r hr => ?_⟩
  rw [hl] at hr
  rcases List.mem_append.mp hr with hr | hr
  · exact .inl hr
  · rcases List.mem_append.mp hr with hr | hr
    · rw [Option.mem_toList] at hr
      exact .inr hr
    · have := hp _ hr
      cases this

theorem handle_stopped {s : Session} {ev} (hs : s.ch.stop ≠ none) : (s.handle ev).ch = s.ch := by
  simp only [Session.handle, SessCh.step]
  split
  · rfl
  · rename_i h; exact absurd h hs

theorem handle_running {s : Session} {ev} (hs : s.ch.stop = none) : (s.handle ev).ch = s.ch.handle s.cfg ev := by
  simp only [Session.handle, SessCh.step, hs]

/-- An event: what has to be shown about it. -/
theorem SOkAt.event {log : List AuthEntry} {s : Session} {y pre post es} (h : SOkAt x log s y pre post) (ev : SessEvent)
    (hsaid : s.ch.stop = none → ∀ {cs : List SessEntry}, Meaning s.number (clientMessages post) cs →
      Meaning s.number (clientMessages (post ++ es)) (cs ++ ev.mark.toList.filter SessEntry.byClient))
    (hr : inEffect log = some s.ch.s.restr → inEffect (log ++ es) = some (ev.restr s.ch.s.restr))
    (ht : ∀ r, ev.mark = some (.restricted r) → .restricted r ∈ es) :
    SOkAt x (log ++ es) (s.handle ev) y pre (post ++ es) := by
  obtain ⟨tail, t1, t2, t3⟩ := h.upTo
  obtain ⟨w, m, rest, pre', evs, c1, c2⟩ := h.ch
  have hstep : (s.handle ev).ch = s.ch.step s.cfg ev := rfl
  by_cases hs : s.ch.stop = none
  · obtain ⟨ms, m1, m2, m3⟩ := h.said
    have hms := m3 hs
    subst hms
    refine {
      opened := by rw [h.opened]; simp
      isRun := h.isRun
      upTo := ⟨tail, t1, t2, t3.trans (List.prefix_append _ _)⟩
      number := h.number
      cfg := h.cfg
      ch := ⟨w, m, rest, pre', evs ++ [ev], c1, by rw [SessCh.run_snoc, hstep, c2]; rfl⟩
      shut := ?_
      said := ?_
      restr := ?_
      told := ?_ }
    · intro ho
      have hg : ev = .gone := by
        cases hi : s.isOpen with
        | false => exact absurd hs (h.shut hi)
        | true =>
          have : (s.handle ev).isOpen = (s.isOpen && !(ev == .gone)) := rfl
          rw [this, hi] at ho
          simpa using ho
      rw [handle_running hs, hg]
      simp [SessCh.handle, SessCh.halt]
    · rw [handle_running hs]
      rcases handle_marked s.cfg s.ch ev with hm | ⟨e1, e2⟩
      · exact ⟨_, List.prefix_rfl, by rw [hm.filter.1]; exact hsaid hs m2, fun _ => rfl⟩
      · refine ⟨clientMessages post, ?_, ?_, fun hc => ?_⟩
        · rw [clientMessages_append]; exact List.prefix_append _ _
        · rw [e1]; exact m2
        · rw [e2] at hc; cases hc
    · rw [handle_running hs]
      intro hc
      rcases handle_marked s.cfg s.ch ev with hm | ⟨e1, e2⟩
      · rw [hm.restr]
        exact hr (h.restr hs)
      · rw [e2] at hc; cases hc
    · rw [handle_running hs]
      intro r hrr
      rcases handle_marked s.cfg s.ch ev with hm | ⟨e1, e2⟩
      · rcases hm.filter.2 r hrr with hrr | hrr
        · exact List.mem_append_left _ (h.told r hrr)
        · exact List.mem_append_right _ (ht r hrr)
      · rw [e1] at hrr
        exact List.mem_append_left _ (h.told r hrr)
  · have h' := h.over es hs
    have he := handle_stopped (ev := ev) hs
    exact {
      opened := h'.opened
      isRun := h'.isRun
      upTo := h'.upTo
      number := h'.number
      cfg := h'.cfg
      ch := by rw [he]; exact h'.ch
      shut := fun _ => by rw [he]; exact hs
      said := by rw [he]; exact h'.said
      restr := by rw [he]; exact h'.restr
      told := by rw [he]; exact h'.told }

/-- Something happens on the server, or the client closes the channel. -/
theorem SOkAt.local {log : List AuthEntry} {s : Session} {y pre post} (h : SOkAt x log s y pre post) {ev : SessEvent}
    (hl : ev.isLocal = true) : SOkAt x log (s.handle ev) y pre post := by
  have hm : ev.mark = none := by cases ev <;> first | rfl | cases hl
  have hr : ∀ r, ev.restr r = r := by intro r; cases ev <;> first | rfl | cases hl
  have := h.event (es := []) ev (fun _ cs hc => by rw [hm]; simpa using hc) (fun he => by rw [hr]; simpa using he)
    (fun r hrr => by rw [hm] at hrr; cases hrr)
  simpa using this

/-- A message for this channel. -/
theorem SOkAt.message {log : List AuthEntry} {s : Session} {y pre post} (h : SOkAt x log s y pre post) {m p} {ev : SessEvent} {e}
    (hh : Heard s.number (m :: p) e) (hm : ev.mark = some e) (hn : ∀ r, ev ≠ .restricted r) :
    SOkAt x (log ++ [.received m p]) (s.handle ev) y pre (post ++ [.received m p]) := by
  refine h.event ev (fun _ cs hc => ?_) (fun he => ?_) fun r hr => ?_
  · have hb : ev.mark.toList.filter SessEntry.byClient = [e] := by
      rw [hm]
      cases hh <;> rfl
    rw [hb, clientMessages_append]
    exact .heard hc hh
  · rw [inEffect_snoc, he]
    cases ev <;> first | rfl | exact absurd rfl (hn _)
  · rw [hm, Option.some.injEq] at hr
    subst hr
    cases hh

/-- The restrictions are changed. -/
theorem SOkAt.restricted {log : List AuthEntry} {s : Session} {y pre post} (h : SOkAt x log s y pre post) (r : Restrictions) :
    SOkAt x (log ++ [.restricted r]) (s.handle (.restricted r)) y pre (post ++ [.restricted r]) := by
  refine h.event _ (fun _ cs hc => ?_) (fun he => ?_) fun r' hr => ?_
  · rw [clientMessages_append]
    simpa [clientMessages, Model.SessEvent.mark, SessEntry.byClient] using hc
  · rw [inEffect_snoc]; rfl
  · cases hr; simp

def SOk (x : HostEnv σ) (log : List AuthEntry) (s : Session) : Prop := ∃ y pre post, SOkAt x log s y pre post

end Lukko
