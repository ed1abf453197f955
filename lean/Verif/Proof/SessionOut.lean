import Verif.Proof.SessionGate
/-
  Session channels: the output of processes (for C64).
-/
namespace Lukko
open Model Spec

/-- The server has no message for the user. -/
def NoMessage (log : List SessEntry) : Prop := ∀ t, .message t ∉ log

theorem NoMessage.prefix {a b : List SessEntry} (h : NoMessage (a ++ b)) : NoMessage a :=
  fun t ht => h t (List.mem_append_left _ ht)

theorem writtenTo_append (f) (a b : List SessEntry) : writtenTo f (a ++ b) = writtenTo f a ++ writtenTo f b := by simp [writtenTo]
theorem sentFrom_append (f) (a b : List SessEntry) : sentFrom f (a ++ b) = sentFrom f a ++ sentFrom f b := by simp [sentFrom]

/-- What can still be read. -/
def Model.Sess.content (s : Sess) (f : Stream) : Bytes := ((s.source f).map Source.content).getD []

/-- Entries which do not concern the output. -/
def outIdle : SessEntry → Bool
  | .wrote _ _ => false
  | .sent _ _ => false
  | .io (.tx .eof) => false
  | .io (.tx .close) => false
  | _ => true

theorem outIdle_bytes {l : List SessEntry} (h : ∀ e ∈ l, outIdle e = true) (f) : writtenTo f l = [] ∧ sentFrom f l = [] := by
  induction l with
  | nil => exact ⟨rfl, rfl⟩
  | cons e l ih =>
    obtain ⟨h1, h2⟩ := ih fun x hx => h x (List.mem_cons_of_mem _ hx)
    have he := h e List.mem_cons_self
    have ea : writtenTo f (e :: l) = writtenTo f [e] ++ writtenTo f l := writtenTo_append f [e] l
    have eb : sentFrom f (e :: l) = sentFrom f [e] ++ sentFrom f l := sentFrom_append f [e] l
    rw [ea, eb, h1, h2]
    cases e <;> first | exact ⟨rfl, rfl⟩ | simp [outIdle] at he

theorem inert_outIdle {e : SessEntry} (h : inert e = true) : outIdle e = true := by
  cases e with
  | io x =>
    cases x with
    | tx m => cases m <;> first | rfl | simp [inert] at h
    | _ => rfl
  | _ => first | rfl | simp [inert] at h

theorem ends_outIdle {e : SessEntry} (h : e.endsOutput = true) : outIdle e = false := by
  cases e with
  | io x =>
    cases x with
    | tx m => cases m <;> first | rfl | simp [SessEntry.endsOutput] at h
    | _ => simp [SessEntry.endsOutput] at h
  | _ => simp [SessEntry.endsOutput] at h

structure OutInv (f : Stream) (s : Sess) : Prop where
  exact : NoMessage s.log → sentFrom f s.log ++ s.content f = writtenTo f s.log
  ends : NoMessage s.log → ∀ a e b, s.log = a ++ e :: b → e.endsOutput = true → sentFrom f a = writtenTo f a

/-- The output of the stream does not change. -/
theorem OutInv.idle {f} {s s' : Sess} (h : OutInv f s) (hl : ∃ l, s'.log = s.log ++ l ∧ ∀ e ∈ l, outIdle e = true)
    (hc : NoMessage s'.log → s'.content f = s.content f) : OutInv f s' := by
  obtain ⟨l, e, hi⟩ := hl
  obtain ⟨h1, h2⟩ := outIdle_bytes hi f
  refine ⟨fun hn => ?_, fun hn a x b eq he => ?_⟩
  · have hc := hc hn
    rw [e] at hn
    rw [e, sentFrom_append, writtenTo_append, h1, h2, List.append_nil, List.append_nil, hc]
    exact h.exact hn.prefix
  · rw [e] at hn eq
    rcases split_append eq with ⟨b', e2⟩ | ⟨a', rfl, e2⟩
    · exact h.ends hn.prefix a x b' e2 he
    · have := hi x (by rw [e2]; simp)
      rw [ends_outIdle he] at this; simp at this

theorem content_eq {s s' : Sess} {f} (h : s'.source f = s.source f) : s'.content f = s.content f := by
  unfold Sess.content; rw [h]

theorem scheduleRead_content (s : Sess) (f) : s.scheduleRead.content f = s.content f := by
  cases f <;> simp only [Sess.content, Sess.source, Sess.scheduleRead]
  · cases s.stdout <;> rfl
  · cases s.stderr <;> rfl
  · cases s.tty <;> rfl

theorem cancelRead_content (s : Sess) (f) : s.cancelRead.content f = s.content f := by
  cases f <;> simp only [Sess.content, Sess.source, Sess.cancelRead]
  · cases s.stdout <;> rfl
  · cases s.stderr <;> rfl
  · cases s.tty <;> rfl

theorem maybeScheduleRead_content (s : Sess) (f) : s.maybeScheduleRead.content f = s.content f := by
  unfold Sess.maybeScheduleRead; split
  · exact scheduleRead_content s f
  · rfl

theorem setSource_content (s : Sess) (f g : Stream) (x : Option Source) :
    (s.setSource g x).content f = if g = f then (x.map Source.content).getD [] else s.content f := by
  cases f <;> cases g <;> rfl

theorem sendFrom_content (s : Sess) (f g : Stream) (x : Source) (bs) :
    (s.sendFrom g x bs).content f = if g = f then x.content.drop bs.length else s.content f := by
  have e : (s.sendFrom g x bs).content f = (s.setSource g (some { x with content := x.content.drop bs.length })).content f := by
    unfold Sess.sendFrom Sess.cancelIfExhausted
    simp only
    split
    · rw [cancelRead_content]; rfl
    · rfl
  rw [e, setSource_content]; rfl

theorem spawn_content (cfg) (s : Sess) (p o t f) : (s.spawn cfg p o t).content f = s.content f := by
  have hd : ∀ t : Sess, t.dropChild.content f = t.content f := by
    intro t; unfold Sess.dropChild; split <;> rfl
  rw [← maybeScheduleRead_content s f]
  unfold Sess.spawn
  simp only
  generalize Proc.mk _ _ _ _ _ = q
  exact hd { s.maybeScheduleRead with log := s.maybeScheduleRead.log ++ [SessEntry.started q] }

theorem noSource_content {s : Sess} (h : NoSource s) (f) : s.content f = [] := by
  unfold Sess.content
  cases f
  · simp [Sess.source, h.stdout]
  · simp [Sess.source, h.stderr]
  · simp [Sess.source, h.tty]

/-- The end is announced only if there is nothing left. -/
theorem OutInv.end_ {f} {s : Sess} (h : OutInv f s) (hn : NoSource s) {e : SessEntry} (he : e.endsOutput = true) : OutInv f (s.emit e) := by
  have hz : writtenTo f [e] = [] ∧ sentFrom f [e] = [] := by
    cases e <;> first | exact ⟨rfl, rfl⟩ | simp [SessEntry.endsOutput] at he
  have hcont : (s.emit e).content f = s.content f := rfl
  refine ⟨fun hm => ?_, fun hm a x b eq hx => ?_⟩
  · rw [hcont]
    simp only [Sess.emit] at hm ⊢
    rw [sentFrom_append, writtenTo_append, hz.1, hz.2, List.append_nil, List.append_nil]
    exact h.exact hm.prefix
  · simp only [Sess.emit] at hm eq
    rcases split_append eq with ⟨b', e2⟩ | ⟨a', rfl, e2⟩
    · exact h.ends hm.prefix a x b' e2 hx
    · obtain ⟨rfl, _⟩ := single_split e2
      have := h.exact hm.prefix
      rw [noSource_content hn, List.append_nil] at this
      rw [List.append_nil]; exact this

theorem OutInv.prim {cfg m f s s'} (hf : f ≠ .terminal) (hfr : m.fr = true) (g : Prim cfg m s s') (h : OutInv f s) : OutInv f s' := by
  cases g with
  | misc g =>
    obtain ⟨l, e, hi, _⟩ := g.log
    refine h.idle ⟨l, e, fun x hx => inert_outIdle (hi x hx)⟩ fun _ => content_eq ?_
    cases f
    · exact g.stdout
    · exact g.stderr
    · exact g.tty
  | rx e h1 he =>
    refine h.idle ⟨[e], rfl, ?_⟩ fun _ => rfl
    rcases he with rfl | ⟨bs, rfl⟩ <;> simp [outIdle]
  | ask => exact h.idle ⟨_, rfl, by simp [outIdle]⟩ fun _ => rfl
  | suspend => exact h.idle ⟨[], by simp, by simp⟩ fun _ => rfl
  | setStderr text =>
    have hm : ¬ NoMessage (s.setStderr text).log := by
      intro hn
      refine hn text ?_
      show _ ∈ s.dropChild.closeStdin.log ++ [SessEntry.message text]
      simp
    exact ⟨fun hn => absurd hn hm, fun hn => absurd hn hm⟩
  | pipes hk hp h0 =>
    refine h.idle ⟨[], by simp, by simp⟩ fun _ => ?_
    have hfresh := (hp hfr).1
    cases f
    · simp [Sess.content, Sess.source, hfresh.stdout]
    · simp [Sess.content, Sess.source, hfresh.stderr]
    · exact absurd rfl hf
  | agent => exact h.idle ⟨[], by simp, by simp⟩ fun _ => by cases f <;> rfl
  | handTty => exact h.idle ⟨[], by simp, by simp⟩ fun _ => by cases f <;> rfl
  | spawn program original terminal =>
    obtain ⟨p, l, e, _, hl⟩ := spawn_log cfg s program original terminal
    refine h.idle ⟨_, e, ?_⟩ fun _ => spawn_content _ _ _ _ _ _
    intro x hx
    rcases List.mem_cons.mp hx with rfl | hx
    · rfl
    · rw [hl x hx]; rfl
  | sched => exact h.idle ⟨[], by rw [maybeScheduleRead_log]; simp, by simp⟩ fun _ => maybeScheduleRead_content s f
  | term =>
    refine h.idle ⟨_, rfl, by simp [outIdle]⟩ fun _ => ?_
    cases f
    · rfl
    · rfl
    · exact absurd rfl hf
  | enable => exact h.idle ⟨[], by simp, by simp⟩ fun _ => by cases f <;> rfl
  | adjust n =>
    refine h.idle ⟨_, rfl, by simp [outIdle]⟩ fun _ => ?_
    split
    · exact (by cases f <;> rfl : _ = s.scheduleRead.content f).trans (scheduleRead_content s f)
    · cases f <;> rfl
  | kexinit =>
    refine h.idle ⟨_, rfl, by simp [outIdle]⟩ fun _ => ?_
    split
    · exact (by cases f <;> rfl : _ = s.cancelRead.content f).trans (cancelRead_content s f)
    · cases f <;> rfl
  | newkeys =>
    refine h.idle ⟨[.io .newkeys], by rw [maybeScheduleRead_log]; rfl, by simp [outIdle]⟩ fun _ => ?_
    rw [maybeScheduleRead_content]; rfl
  | wrote g x bs hx hw =>
    have hlog : ((s.setSource g (some { x with content := x.content ++ bs })).emit (.wrote g bs)).log = s.log ++ [.wrote g bs] := by
      simp only [Sess.emit, setSource_log]
    have hcont : ((s.setSource g (some { x with content := x.content ++ bs })).emit (.wrote g bs)).content f =
        (s.setSource g (some { x with content := x.content ++ bs })).content f := rfl
    refine ⟨fun hm => ?_, fun hm a e b eq he => ?_⟩
    · rw [hlog] at hm
      have := h.exact hm.prefix
      rw [hlog, hcont, setSource_content, sentFrom_append, writtenTo_append, ← this]
      have hz : sentFrom f [SessEntry.wrote g bs] = [] := rfl
      rw [hz, List.append_nil]
      by_cases hgf : g = f
      · subst hgf
        simp [writtenTo, Sess.content, hx]
      · simp [writtenTo, hgf]
    · rw [hlog] at hm eq
      rcases split_append eq with ⟨b', e2⟩ | ⟨a', rfl, e2⟩
      · exact h.ends hm.prefix a e b' e2 he
      · rw [← (single_split e2).2.2] at he; simp [SessEntry.endsOutput] at he
  | closes g x hx =>
    refine h.idle ⟨[], by simp [setSource_log], by simp⟩ fun _ => ?_
    rw [setSource_content]
    split
    · rename_i hgf; subst hgf; simp [Sess.content, hx]
    · rfl
  | send g x len hx hr hc h0 =>
    have hlog := sendFrom_log s g x (x.content.take (min (len + 1) (min 4096 s.sendWin)))
    have hpre : ∃ rest, x.content = x.content.take (min (len + 1) (min 4096 s.sendWin)) ++ rest := ⟨_, (List.take_append_drop _ _).symm⟩
    generalize x.content.take (min (len + 1) (min 4096 s.sendWin)) = bs at *
    obtain ⟨rest, hrest⟩ := hpre
    refine ⟨fun hm => ?_, fun hm a e b eq he => ?_⟩
    · rw [hlog] at hm
      have := h.exact hm.prefix
      rw [hlog, sendFrom_content, sentFrom_append, writtenTo_append, ← this]
      have hz : writtenTo f [SessEntry.sent g bs] = [] := rfl
      rw [hz, List.append_nil]
      by_cases hgf : g = f
      · subst hgf
        simp [sentFrom, Sess.content, hx, hrest]
      · simp [sentFrom, hgf]
    · rw [hlog] at hm eq
      rcases split_append eq with ⟨b', e2⟩ | ⟨a', rfl, e2⟩
      · exact h.ends hm.prefix a e b' e2 he
      · rw [← (single_split e2).2.2] at he; simp [SessEntry.endsOutput] at he
  | srcEnd g x hx hw hc =>
    refine h.idle ⟨[], by simp [setSource_log], by simp⟩ fun _ => ?_
    have e : ({ s.setSource g none with ttyWr := s.ttyWr && g != Stream.terminal } : Sess).content f = (s.setSource g none).content f := by
      cases f <;> rfl
    rw [e, setSource_content]
    split
    · rename_i hgf
      subst hgf
      simp [Sess.content, hx, hc hf]
    · rfl
  | eofOut hn => exact h.end_ hn rfl
  | closeOut hn => exact h.end_ hn rfl

theorem Ord.fresh {cfg} {s : Sess} (h : Ord cfg s) : ∀ id t, s.tasks.lookup id = some t → willStart (id, t) = true →
      (cfg.ndebug = false ∨ Fresh s) ∧ (isService t = true → (t = .sftp ∧ cfg.ndebug = false) ∨ s.tty = none) := by
  intro id t ht hw
  have hmem : (id, t) ∈ s.tasks := by
    obtain ⟨a, b, h1, _⟩ := List.lookup_eq_some_iff.mp ht
    rw [h1]; simp
  refine ⟨.inr ?_, fun hv => .inr (h.serv _ hmem hv)⟩
  rcases h.will with h1 | h1
  · have := h1 _ hmem; rw [hw] at this; simp at this
  · exact h1.fresh

theorem sess_out (cfg r w evs) (ho : Orderly ((SessCh.init r w).run cfg evs).s.log) {f} (hf : f ≠ .terminal) :
    OutInv f ((SessCh.init r w).run cfg evs).s := by
  induction evs using Aux.snoc_ind with
  | h0 =>
    refine ⟨fun _ => ?_, fun _ a e b eq => ?_⟩
    · cases f <;> rfl
    · simp [SessCh.run, SessCh.init] at eq
  | h1 evs ev ih =>
    obtain ⟨l, e⟩ := step_log cfg r w evs ev
    rw [e] at ho
    have ho1 := ho.prefix
    rw [SessCh.run_snoc]
    unfold SessCh.step
    split
    · exact ih ho1
    · rename_i h
      have hord := sess_ord cfg r w evs ho1 h
      have hp := Prims.handle (cfg := cfg) (m := ⟨startEvent ev, true, true, ((SessCh.init r w).run cfg evs).s, received ev⟩)
        ((SessCh.init r w).run cfg evs) ev rfl rfl (fun _ => rfl) rfl (sess_acc cfg r w evs).rd (fun _ => hord.fresh)
      exact Prims.induct (P := OutInv f) (fun _ _ g h => h.prim hf rfl g) hp (ih ho1)

end Lukko
