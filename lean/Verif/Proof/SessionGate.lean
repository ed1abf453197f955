import Verif.Proof.SessionEof
/-
  Session channels: nothing is read while a key exchange is in progress (for C19).
-/
namespace Lukko
open Model Spec

/-- The peer's window is used up after `a`. -/
def Exhausted (w : Nat) (a : List SessEntry) : Prop :=
  total IoEntry.sentBytes (sessIo a) = w + total IoEntry.granted (sessIo a)

/-- No window adjustment arrives during a key exchange while the window is used up. -/
def CalmAdjust (w : Nat) (log : List SessEntry) : Prop :=
  ∀ a n b, log = a ++ .io (.rx (.adjust n)) :: b → Exhausted w a → inKex (sessIo a) = false

theorem CalmAdjust.prefix {w l m} (h : CalmAdjust w (l ++ m)) : CalmAdjust w l :=
  fun a n b e => h a n (b ++ m) (by rw [e]; simp)

structure Gate (w : Nat) (s : Sess) : Prop where
  send : total IoEntry.sentBytes (sessIo s.log) + s.sendWin = w + total IoEntry.granted (sessIo s.log)
  shut : s.reading = true → inKex (sessIo s.log) = false ∧ 0 < s.sendWin
  quiet : ∀ a f bs b, s.log = a ++ .sent f bs :: b → inKex (sessIo a) = false

/-- Entries which matter neither for the window nor for key exchanges. -/
def idleEntry : SessEntry → Bool
  | .sent _ _ => false
  | .io (.rx (.adjust _)) => false
  | .io (.tx (.data _)) => false
  | .io (.tx (.ext _)) => false
  | .io .kexinit => false
  | .io .newkeys => false
  | _ => true

theorem idle_sessIo {l : List SessEntry} (h : ∀ e ∈ l, idleEntry e = true) :
    total IoEntry.sentBytes (sessIo l) = 0 ∧ total IoEntry.granted (sessIo l) = 0 ∧
    ∀ k : List IoEntry, inKex (k ++ sessIo l) = inKex k := by
  induction l with
  | nil => exact ⟨rfl, rfl, fun k => by simp [sessIo]⟩
  | cons e l ih =>
    obtain ⟨h1, h2, h3⟩ := ih fun x hx => h x (List.mem_cons_of_mem _ hx)
    have he := h e List.mem_cons_self
    have hcons : sessIo (e :: l) = sessIo [e] ++ sessIo l := sessIo_append [e] l
    have hone : total IoEntry.sentBytes (sessIo [e]) = 0 ∧ total IoEntry.granted (sessIo [e]) = 0 ∧
        ∀ k : List IoEntry, inKex (k ++ sessIo [e]) = inKex k := by
      cases e with
      | sent f bs => simp [idleEntry] at he
      | io x =>
        cases x with
        | kexinit => simp [idleEntry] at he
        | newkeys => simp [idleEntry] at he
        | tx m => cases m <;> first | (simp [idleEntry] at he; done) | exact ⟨rfl, rfl, fun k => by simp [sessIo, SessEntry.toIo, inKex, inKexStep]⟩
        | rx m => cases m <;> first | (simp [idleEntry] at he; done) | exact ⟨rfl, rfl, fun k => by simp [sessIo, SessEntry.toIo, inKex, inKexStep]⟩
      | data bs => exact ⟨rfl, rfl, fun k => by simp [sessIo, SessEntry.toIo, inKex, inKexStep]⟩
      | _ => exact ⟨rfl, rfl, fun k => congrArg inKex (List.append_nil k)⟩
    refine ⟨?_, ?_, fun k => ?_⟩
    · rw [hcons]; simp only [total, List.map_append, List.sum_append] at *; omega
    · rw [hcons]; simp only [total, List.map_append, List.sum_append] at *; omega
    · rw [hcons, ← List.append_assoc, h3, hone.2.2]

/-- A step which does not concern the window or key exchanges. -/
theorem Gate.idle {w} {s s' : Sess} (h : Gate w s) (hl : ∃ l, s'.log = s.log ++ l ∧ ∀ e ∈ l, idleEntry e = true)
    (hw : s'.sendWin = s.sendWin)
    (hr : s'.reading = true → s.reading = true ∨ (inKex (sessIo s.log) = false ∧ 0 < s.sendWin)) : Gate w s' := by
  obtain ⟨l, e, hi⟩ := hl
  obtain ⟨h1, h2, h3⟩ := idle_sessIo hi
  refine ⟨?_, ?_, ?_⟩
  · have := h.send
    rw [e, sessIo_append, total_append, total_append, h1, h2, hw]; omega
  · rw [e, sessIo_append, h3, hw]
    intro hk
    rcases hr hk with hr | hr
    · exact h.shut hr
    · exact hr
  · intro a f bs b eq
    rw [e] at eq
    rcases split_append eq with ⟨b', e2⟩ | ⟨a', rfl, e2⟩
    · exact h.quiet a f bs b' e2
    · have := hi (.sent f bs) (by rw [e2]; simp)
      simp [idleEntry] at this

theorem setSource_reading {s : Sess} {f : Stream} {x : Option Source} (h : (s.setSource f x).reading = true)
    (hx : srcRd x = true → s.reading = true) : s.reading = true := by
  cases hr : srcRd x with
  | true => exact hx hr
  | false =>
    unfold Sess.reading at *
    cases f <;> simp [Sess.setSource, hr] at h <;> rcases h with h | h <;> simp [h]

theorem inert_idle {e : SessEntry} (h : inert e = true) : idleEntry e = true := by
  cases e with
  | io x =>
    cases x with
    | tx m => cases m <;> first | rfl | simp [inert] at h
    | rx m => cases m <;> first | rfl | simp [inert] at h
    | _ => simp [inert] at h
  | _ => first | rfl | simp [inert] at h

theorem maybe_reading {s : Sess} (h : s.maybeScheduleRead.reading = true) : s.reading = true ∨ 0 < s.sendWin := by
  unfold Sess.maybeScheduleRead at h
  split at h
  · exact .inr (by assumption)
  · exact .inl h

theorem setStderr_idle (s : Sess) (text) : ∃ l, (s.setStderr text).log = s.log ++ l ∧ ∀ e ∈ l, idleEntry e = true := by
  obtain ⟨l, e, hl⟩ := dropChild_log s
  have e0 : (s.setStderr text).log = s.dropChild.closeStdin.log ++ [.message text] := rfl
  rw [e0]
  have hl' : ∀ x ∈ l, idleEntry x = true := fun x hx => by rw [hl x hx]; rfl
  rcases closeStdin_log s.dropChild with e1 | e1
  · refine ⟨l ++ [.message text], by rw [e1, e]; simp, ?_⟩
    intro x hx
    rcases List.mem_append.mp hx with hx | hx
    · exact hl' x hx
    · simp at hx; subst hx; rfl
  · refine ⟨l ++ [.inputClosed, .message text], by rw [e1, e]; simp, ?_⟩
    intro x hx
    rcases List.mem_append.mp hx with hx | hx
    · exact hl' x hx
    · simp at hx; rcases hx with rfl | rfl <;> rfl

theorem spawn_win (cfg) (s : Sess) (program original terminal) :
    (s.spawn cfg program original terminal).sendWin = s.sendWin ∧
    (s.spawn cfg program original terminal).reading = s.maybeScheduleRead.reading := by
  have hd : ∀ t : Sess, t.dropChild.sendWin = t.sendWin ∧ t.dropChild.reading = t.reading := by
    intro t; unfold Sess.dropChild; split <;> exact ⟨rfl, rfl⟩
  have hm : s.maybeScheduleRead.sendWin = s.sendWin := by
    unfold Sess.maybeScheduleRead; split <;> rfl
  unfold Sess.spawn
  simp only
  generalize Proc.mk _ _ _ _ _ = p
  refine ⟨?_, ?_⟩
  · rw [(hd _).1]; exact hm
  · exact (hd { s.maybeScheduleRead with log := s.maybeScheduleRead.log ++ [SessEntry.started p] }).2

theorem cancel_reading (s : Sess) : s.cancelRead.reading = false := by
  unfold Sess.cancelRead Sess.reading
  cases s.stdout <;> cases s.stderr <;> cases s.tty <;> rfl

theorem Gate.prim {cfg m w s s'} (hk : m.k = true → inKex (sessIo s.log) = false) (g : Prim cfg m s s') (h : Gate w s)
    (hadj : CalmAdjust w s'.log) : Gate w s' := by
  have one : ∀ {e a} {f : Stream} {bs b}, e ≠ .sent f bs → s.log ++ [e] = a ++ .sent f bs :: b → inKex (sessIo a) = false := by
    intro e a f bs b hne eq
    rcases split_append eq with ⟨b', e2⟩ | ⟨a', rfl, e2⟩
    · exact h.quiet a f bs b' e2
    · exact absurd (single_split e2).2.2 hne
  have hs := h.send
  cases g with
  | misc g =>
    obtain ⟨l, e, hi, _⟩ := g.log
    refine h.idle ⟨l, e, fun x hx => inert_idle (hi x hx)⟩ g.sendWin fun hr => .inl ?_
    unfold Sess.reading at *
    rw [g.stdout, g.stderr, g.tty] at hr; exact hr
  | rx e h1 he =>
    refine h.idle ⟨[e], rfl, ?_⟩ rfl fun hr => .inl hr
    rcases he with rfl | ⟨bs, rfl⟩ <;> simp [idleEntry]
  | ask name data _ => exact h.idle ⟨_, rfl, by simp [idleEntry]⟩ rfl fun hr => .inl hr
  | suspend t hk' => exact h.idle ⟨[], by simp, by simp⟩ rfl fun hr => .inl hr
  | setStderr text hk' =>
    refine h.idle (setStderr_idle s text) ?_ fun hr => .inr ⟨hk hk', ?_⟩
    · unfold Sess.setStderr Sess.closeStdin Sess.dropChild
      simp only
      split <;> split <;> rfl
    · simpa [Sess.setStderr, Sess.reading, srcRd] using hr
  | pipes hk' =>
    refine h.idle ⟨[], by simp, by simp⟩ rfl fun hr => .inl ?_
    unfold Sess.reading at *
    simp only [srcRd, Bool.false_or] at hr
    simp [srcRd, hr]
  | agent b hk' => exact h.idle ⟨[], by simp, by simp⟩ rfl fun hr => .inl hr
  | handTty hk' => exact h.idle ⟨[], by simp, by simp⟩ rfl fun hr => .inl hr
  | spawn program original terminal hk' =>
    obtain ⟨p, l, e, _, hl⟩ := spawn_log cfg s program original terminal
    refine h.idle ⟨_, e, ?_⟩ (spawn_win cfg s program original terminal).1 fun hr => ?_
    · intro x hx
      rcases List.mem_cons.mp hx with rfl | hx
      · rfl
      · rw [hl x hx]; rfl
    · rw [(spawn_win cfg s program original terminal).2] at hr
      exact (maybe_reading hr).imp id fun h => ⟨hk hk', h⟩
  | sched hk' =>
    refine h.idle ⟨[], by rw [maybeScheduleRead_log]; simp, by simp⟩ ?_ fun hr => (maybe_reading hr).imp id fun h => ⟨hk hk', h⟩
    unfold Sess.maybeScheduleRead; split <;> rfl
  | term hk' hx hc =>
    refine h.idle ⟨_, rfl, by simp [idleEntry]⟩ rfl fun hr => .inl ?_
    unfold Sess.reading at *
    have h0 : srcRd (some {}) = false := rfl
    simp only [h0, Bool.or_false, Bool.or_eq_true, Bool.false_eq_true, or_false] at hr ⊢
    rcases hr with hr | hr
    · exact .inl hr
    · exact .inr (.inl hr)
  | enable hk' => exact h.idle ⟨[], by simp, by simp⟩ rfl fun hr => .inl hr
  | adjust n hn =>
    have hsIo : sessIo (s.log ++ [SessEntry.io (.rx (.adjust n))]) = sessIo s.log ++ [.rx (.adjust n)] := sessIo_append _ _
    refine ⟨?_, ?_, fun a f bs b eq => one (by simp) eq⟩
    · rw [hsIo, total_append, total_append]
      simp only [total, List.map_cons, List.map_nil, List.sum_cons, List.sum_nil, IoEntry.sentBytes, IoEntry.granted] at *
      omega
    · intro hx
      have hkx : inKex (sessIo s.log) = false := by
        by_cases h0 : s.sendWin = 0
        · exact hadj s.log n [] rfl (by unfold Exhausted; omega)
        · rw [if_neg h0] at hx
          exact (h.shut hx).1
      refine ⟨?_, by simp only; omega⟩
      simp only [hsIo]
      simpa [inKex, inKexStep] using hkx
  | kexinit hk' =>
    have hsIo : sessIo (s.log ++ [SessEntry.io .kexinit]) = sessIo s.log ++ [.kexinit] := sessIo_append _ _
    refine ⟨?_, ?_, fun a f bs b eq => one (by simp) eq⟩
    · have hw : (if 0 < s.sendWin then s.cancelRead else s).sendWin = s.sendWin := by split <;> rfl
      rw [hsIo, total_append, total_append, hw]
      simp only [total, List.map_cons, List.map_nil, List.sum_cons, List.sum_nil, IoEntry.sentBytes, IoEntry.granted] at *
      omega
    · intro hr
      split at hr
      · have : s.cancelRead.reading = true := hr
        exfalso; revert this
        unfold Sess.cancelRead Sess.reading
        cases s.stdout <;> cases s.stderr <;> cases s.tty <;> simp [srcRd]
      · rename_i h0
        exact absurd (h.shut hr).2 h0
  | newkeys =>
    have hsIo : sessIo (s.log ++ [SessEntry.io .newkeys]) = sessIo s.log ++ [.newkeys] := sessIo_append _ _
    have hw : (s.emit (.io .newkeys)).maybeScheduleRead.sendWin = s.sendWin := by
      unfold Sess.maybeScheduleRead; split <;> rfl
    refine ⟨?_, ?_, ?_⟩
    · rw [maybeScheduleRead_log, hw]
      simp only [Sess.emit]
      rw [hsIo, total_append, total_append]
      simp only [total, List.map_cons, List.map_nil, List.sum_cons, List.sum_nil, IoEntry.sentBytes, IoEntry.granted] at *
      omega
    · intro hr
      rw [maybeScheduleRead_log, hw]
      simp only [Sess.emit]
      refine ⟨by rw [hsIo]; simp [inKex, inKexStep], ?_⟩
      rcases maybe_reading hr with hr | hr
      · exact (h.shut hr).2
      · exact hr
    · intro a f bs b eq
      rw [maybeScheduleRead_log] at eq
      exact one (by simp) eq
  | wrote f x bs hx hw =>
    refine h.idle ⟨[.wrote f bs], by simp only [Sess.emit, setSource_log], by simp [idleEntry]⟩ ?_ fun hr => .inl ?_
    · cases f <;> rfl
    · exact setSource_reading (s := s) hr fun h => source_reading hx h
  | closes f x hx =>
    refine h.idle ⟨[], by simp [setSource_log], by simp⟩ ?_ fun hr => .inl ?_
    · cases f <;> rfl
    · exact setSource_reading (s := s) hr fun h => source_reading hx h
  | send f x len hx hr hc h0 =>
    have hkx := (h.shut (source_reading hx hr)).1
    have hlog := sendFrom_log s f x (x.content.take (min (len + 1) (min 4096 s.sendWin)))
    have hle : (x.content.take (min (len + 1) (min 4096 s.sendWin))).length ≤ s.sendWin := by
      simp only [List.length_take]; omega
    generalize x.content.take (min (len + 1) (min 4096 s.sendWin)) = bs at *
    have hw : (s.sendFrom f x bs).sendWin = s.sendWin - bs.length := by
      unfold Sess.sendFrom Sess.cancelIfExhausted
      simp only
      split <;> cases f <;> rfl
    have hio : ∃ e, sessIo [SessEntry.sent f bs] = [e] ∧ e.sentBytes = bs.length ∧ e.granted = 0 ∧ ∀ k : List IoEntry, inKex (k ++ [e]) = inKex k := by
      cases f <;> refine ⟨_, rfl, rfl, rfl, fun k => ?_⟩ <;> simp [inKex, inKexStep]
    obtain ⟨e, e1, e2, e3, e4⟩ := hio
    refine ⟨?_, ?_, ?_⟩
    · rw [hlog, sessIo_append, total_append, total_append, e1, hw]
      simp only [total, List.map_cons, List.map_nil, List.sum_cons, List.sum_nil, e2, e3] at *
      omega
    · intro hr2
      rw [hlog, sessIo_append, e1, e4, hw]
      refine ⟨hkx, ?_⟩
      unfold Sess.sendFrom Sess.cancelIfExhausted at hr2
      simp only at hr2
      split at hr2
      · exfalso; revert hr2
        rw [cancel_reading]; simp
      · rename_i hne
        have e5 : (s.setSource f (some { x with content := x.content.drop bs.length })).sendWin = s.sendWin := by cases f <;> rfl
        rw [e5] at hne
        omega
    · intro a f' bs' b eq
      rw [hlog] at eq
      rcases split_append eq with ⟨b', e2⟩ | ⟨a', rfl, e2⟩
      · exact h.quiet a f' bs' b' e2
      · obtain ⟨rfl, _⟩ := single_split e2
        rw [List.append_nil]; exact hkx
  | srcEnd f x hx hw hc =>
    refine h.idle ⟨[], by simp [setSource_log], by simp⟩ ?_ fun hr => .inl ?_
    · cases f <;> rfl
    · exact setSource_reading (s := s) (f := f) (x := none) hr fun h => by simp [srcRd] at h
  | eofOut => exact h.idle ⟨_, rfl, by simp [idleEntry]⟩ rfl fun hr => .inl hr
  | closeOut => exact h.idle ⟨_, rfl, by simp [idleEntry]⟩ rfl fun hr => .inl hr

/-- Which steps begin a key exchange. -/
theorem Prim.kex {cfg m s s'} (hk : m.k = true) (g : Prim cfg m s s') (h : inKex (sessIo s.log) = false) :
    inKex (sessIo s'.log) = false := by
  have one : ∀ {e : SessEntry}, idleEntry e = true → inKex (sessIo (s.log ++ [e])) = false := by
    intro e he
    rw [sessIo_append, (idle_sessIo (l := [e]) (by simpa using he)).2.2]; exact h
  have many : ∀ {l : List SessEntry}, (∀ e ∈ l, idleEntry e = true) → inKex (sessIo (s.log ++ l)) = false := by
    intro l he
    rw [sessIo_append, (idle_sessIo he).2.2]; exact h
  cases g with
  | misc g =>
    obtain ⟨l, e, hi, _⟩ := g.log
    rw [e]; exact many fun x hx => inert_idle (hi x hx)
  | rx e h1 he =>
    refine one ?_
    rcases he with rfl | ⟨bs, rfl⟩ <;> simp [idleEntry]
  | ask => exact one rfl
  | setStderr text =>
    obtain ⟨l, e, hl⟩ := setStderr_idle s text
    rw [e]; exact many hl
  | spawn program original terminal =>
    obtain ⟨p, l, e, _, hl⟩ := spawn_log cfg s program original terminal
    rw [e]
    refine many fun x hx => ?_
    rcases List.mem_cons.mp hx with rfl | hx
    · rfl
    · rw [hl x hx]; rfl
  | sched => rw [maybeScheduleRead_log]; exact h
  | term => exact one rfl
  | adjust n =>
    simp only [sessIo_append]
    simpa [sessIo, SessEntry.toIo, inKex, inKexStep] using h
  | kexinit hk' => rw [hk] at hk'; simp at hk'
  | newkeys =>
    rw [maybeScheduleRead_log]
    simp only [Sess.emit, sessIo_append]
    simp [sessIo, SessEntry.toIo, inKex, inKexStep]
  | wrote f x bs => simp only [Sess.emit, setSource_log]; exact one rfl
  | closes f x => rw [setSource_log]; exact h
  | send f x len =>
    rw [sendFrom_log]
    simp only [sessIo_append]
    cases f <;> simpa [sessIo, SessEntry.toIo, inKex, inKexStep] using h
  | srcEnd f x => simp only [setSource_log]; exact h
  | eofOut => exact one rfl
  | closeOut => exact one rfl
  | _ => exact h

theorem Gate.prims {cfg m w s s'} (hk : m.k = true → inKex (sessIo s.log) = false) (g : Prims cfg m s s') (h : Gate w s)
    (hadj : CalmAdjust w s'.log) : Gate w s' ∧ (m.k = true → inKex (sessIo s'.log) = false) := by
  induction g with
  | refl => exact ⟨h, hk⟩
  | tail g1 g2 ih =>
    obtain ⟨l, e⟩ := g2.log
    have ih := ih (by rw [e] at hadj; exact hadj.prefix)
    exact ⟨Gate.prim ih.2 g2 ih.1 hadj, fun hm => g2.kex hm (ih.2 hm)⟩

/-- No process is started, or asked for, during a key exchange. -/
def CalmStart (cfg : SessCfg) (r : Restrictions) (w : Nat) (evs : List SessEvent) : Prop :=
  ∀ a ev b, evs = a ++ ev :: b → startEvent ev = true → inKex (sessIo (SessCh.run cfg (SessCh.init r w) a).s.log) = false

theorem sess_gate (cfg r w evs) (hadj : CalmAdjust w ((SessCh.init r w).run cfg evs).s.log) (hst : CalmStart cfg r w evs) :
    Gate w ((SessCh.init r w).run cfg evs).s := by
  induction evs using Aux.snoc_ind with
  | h0 =>
    refine ⟨by simp [SessCh.run, SessCh.init, sessIo, total], ?_, ?_⟩
    · simp [SessCh.run, SessCh.init, Sess.reading, srcRd]
    · intro a f bs b e
      simp [SessCh.run, SessCh.init] at e
  | h1 evs ev ih =>
    obtain ⟨l, e⟩ := step_log cfg r w evs ev
    have ih := ih (by rw [e] at hadj; exact hadj.prefix) (fun a x b he => hst a x (b ++ [ev]) (by rw [he]; simp))
    have hk := hst evs ev [] rfl
    rw [SessCh.run_snoc] at hadj ⊢
    have hacc := sess_acc cfg r w evs
    generalize (SessCh.init r w).run cfg evs = y at *
    unfold SessCh.step at hadj ⊢
    split
    · exact ih
    · rename_i hs
      rw [hs] at hadj
      have hp := Prims.handle (cfg := cfg) (m := ⟨startEvent ev, false, true, y.s, received ev⟩) y ev rfl rfl (fun _ => rfl) rfl hacc.rd (by simp)
      exact (Gate.prims (m := ⟨startEvent ev, false, true, y.s, received ev⟩) hk hp ih hadj).1

end Lukko
