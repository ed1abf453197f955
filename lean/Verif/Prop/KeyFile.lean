import Verif.Proof.KeyOptions
/-
  Properties C34 (merging restrictions), C35 (transporting them), C37 and C38
  (authorized_keys files). More about C34 and C35 is in Prop/Auth.lean.
-/
namespace Lukko
open Model Spec

/-! ## C34 -/

theorem command_iff {o : KeyOptions} {c : Bytes} : o.restrictions.command = some c ↔ o.command = c ∧ c ≠ [] := by
  simp only [KeyOptions.restrictions]
  split
  · rename_i h; rw [h]; simp
  · rename_i h
    simp only [Option.some.injEq]
    exact ⟨fun e => ⟨e, by rw [← e]; exact h⟩, fun e => e.1⟩

theorem restrict_cases (o p : KeyOptions) :
    (∃ c d, o.restrictions.command = some c ∧ p.restrictions.command = some d ∧ c ≠ d ∧ o.restrict p = (o, false)) ∨
    (o.restrict p).2 = true ∧ (o.restrict p).1.restrictions =
      { command := o.restrictions.command.or p.restrictions.command,
        noForwarding := o.restrictions.noForwarding || p.restrictions.noForwarding,
        noTerminal := o.restrictions.noTerminal || p.restrictions.noTerminal,
        readOnlyHome := o.restrictions.readOnlyHome || p.restrictions.readOnlyHome } ∧
      (∀ c d, o.restrictions.command = some c → p.restrictions.command = some d → c = d) := by
  unfold KeyOptions.restrict
  split
  · rename_i h
    left
    exact ⟨_, _, command_iff.mpr ⟨rfl, h.2.1⟩, command_iff.mpr ⟨rfl, h.1⟩, h.2.2, rfl⟩
  · rename_i h
    right
    refine ⟨rfl, ?_, ?_⟩
    · simp only [KeyOptions.restrictions, Restrictions.mk.injEq, and_true]
      by_cases h1 : o.command = [] <;> by_cases h2 : p.command = [] <;> simp [h1, h2]
    · intro c d hc hd
      obtain ⟨rfl, hc⟩ := command_iff.mp hc
      obtain ⟨rfl, hd⟩ := command_iff.mp hd
      exact Classical.byContradiction fun hne => h ⟨hd, hc, hne⟩

/-- **C34.** A merge that is accepted yields the least restrictive combination that
satisfies both sides. -/
theorem C34_least {o p q : KeyOptions} (h : o.restrict p = (q, true)) :
    o.restrictions.le q.restrictions ∧ p.restrictions.le q.restrictions ∧
    ∀ u, o.restrictions.le u → p.restrictions.le u → q.restrictions.le u := by
  rcases restrict_cases o p with ⟨c, d, _, _, _, h'⟩ | ⟨_, h2, h3⟩
  · rw [h] at h'; simp at h'
  · rw [h] at h2
    simp only at h2
    rw [h2]
    refine ⟨⟨fun c hc => by simp [hc], fun h => by simp [h], fun h => by simp [h], fun h => by simp [h]⟩,
      ⟨fun c hc => ?_, fun h => by simp [h], fun h => by simp [h], fun h => by simp [h]⟩, ?_⟩
    · cases ho : o.restrictions.command with
      | none => simpa using hc
      | some d => have := h3 d c ho hc; subst this; rfl
    · intro u h4 h5
      refine ⟨fun c hc => ?_, ?_, ?_, ?_⟩
      · cases ho : o.restrictions.command with
        | none => rw [ho] at hc; exact h5.1 c hc
        | some d => rw [ho] at hc; exact h4.1 c (by rw [ho]; exact hc)
      · intro h; rcases Bool.or_eq_true_iff.mp h with h | h
        · exact h4.2.1 h
        · exact h5.2.1 h
      · intro h; rcases Bool.or_eq_true_iff.mp h with h | h
        · exact h4.2.2.1 h
        · exact h5.2.2.1 h
      · intro h; rcases Bool.or_eq_true_iff.mp h with h | h
        · exact h4.2.2.2 h
        · exact h5.2.2.2 h

example : ({ noPty := true } : KeyOptions).restrict { command := ascii "date", noPortForwarding := true } =
    ({ command := ascii "date", noPortForwarding := true, noPty := true }, true) := by decide

/-- **C34.** A merge is refused only if no set of restrictions satisfies both sides,
and then nothing changes. -/
theorem C34_refused (o p : KeyOptions) :
    ((o.restrict p).2 = false ↔ ¬ ∃ u, o.restrictions.le u ∧ p.restrictions.le u) ∧
    ((o.restrict p).2 = false → (o.restrict p).1 = o) := by
  rcases restrict_cases o p with ⟨c, d, hc, hd, hne, h⟩ | ⟨h1, h2, h3⟩
  · refine ⟨⟨fun _ => ?_, fun _ => by rw [h]⟩, fun _ => by rw [h]⟩
    rintro ⟨u, hu1, hu2⟩
    have e1 := hu1.1 c hc
    have e2 := hu2.1 d hd
    rw [e1] at e2
    exact hne (Option.some.inj e2)
  · refine ⟨⟨fun h => ?_, fun h => ?_⟩, fun h => ?_⟩
    · rw [h1] at h; simp at h
    · exfalso
      have := C34_least (o := o) (p := p) (q := (o.restrict p).1) (Prod.ext rfl h1)
      exact h ⟨_, this.1, this.2.1⟩
    · rw [h1] at h; simp at h

example : (({ command := ascii "date" } : KeyOptions).restrict { command := ascii "sh", noPty := true }) =
    ({ command := ascii "date" }, false) := by decide

/-- **C34.** The order does not matter. -/
theorem C34_commutative {o p : KeyOptions} : (o.restrict p).2 = (p.restrict o).2 ∧
    ((o.restrict p).2 = true → (o.restrict p).1 = (p.restrict o).1) := by
  rcases restrict_cases o p with ⟨c, d, hc, hd, hne, h⟩ | ⟨h1, h2, h3⟩ <;>
  rcases restrict_cases p o with ⟨c', d', hc', hd', hne', h'⟩ | ⟨h1', h2', h3'⟩
  · simp [h, h']
  · exact absurd (h3' d c hd hc).symm hne
  · exact absurd (h3 d' c' hd' hc').symm hne'
  · refine ⟨by rw [h1, h1'], fun _ => restrictions_inj ?_⟩
    rw [h2, h2']
    simp only [Restrictions.mk.injEq, Bool.or_comm, and_true]
    cases ho : o.restrictions.command with
    | none => cases p.restrictions.command <;> rfl
    | some x =>
      cases hp : p.restrictions.command with
      | none => rfl
      | some y => rw [h3 x y ho hp]

/-- **C34.** Merging the same restrictions again changes nothing. -/
theorem C34_idempotent {o p q : KeyOptions} (h : o.restrict p = (q, true)) : q.restrict p = (q, true) ∧ o.restrict o = (o, true) := by
  constructor
  · obtain ⟨h1, h2, h3⟩ := C34_least h
    rcases restrict_cases q p with ⟨c, d, hc, hd, hne, _⟩ | ⟨g1, g2, g3⟩
    · have := h2.1 d hd
      rw [hc] at this
      exact absurd (Option.some.inj this) hne
    · refine Prod.ext (restrictions_inj ?_) g1
      rw [g2]
      obtain ⟨a1, a2, a3, a4⟩ := h2
      generalize q.restrictions = x at *
      generalize p.restrictions = y at *
      obtain ⟨x1, x2, x3, x4⟩ := x
      obtain ⟨y1, y2, y3, y4⟩ := y
      simp only [Restrictions.mk.injEq] at a1 a2 a3 a4 ⊢
      refine ⟨?_, by revert a2; cases x2 <;> cases y2 <;> simp, by revert a3; cases x3 <;> cases y3 <;> simp,
        by revert a4; cases x4 <;> cases y4 <;> simp⟩
      cases x1 with
      | some _ => rfl
      | none =>
        cases y1 with
        | none => rfl
        | some d => have := a1 d rfl; simp at this
  · obtain ⟨c, a, b, d⟩ := o
    simp [KeyOptions.restrict]

/-- Any number of merge requests; refused ones have no effect. -/
def mergeAll (o : KeyOptions) (ps : List KeyOptions) : KeyOptions := ps.foldl (fun o p => (o.restrict p).1) o

theorem Restrictions.le_refl (a : Restrictions) : a.le a := ⟨fun _ h => h, fun h => h, fun h => h, fun h => h⟩

theorem Restrictions.le_trans {a b c : Restrictions} (h : a.le b) (g : b.le c) : a.le c :=
  ⟨fun x hx => g.1 x (h.1 x hx), fun x => g.2.1 (h.2.1 x), fun x => g.2.2.1 (h.2.2.1 x), fun x => g.2.2.2 (h.2.2.2 x)⟩

/-- **C34.** No sequence of merge requests lifts a restriction. -/
theorem C34_only_tightened (o : KeyOptions) (ps : List KeyOptions) : o.restrictions.le (mergeAll o ps).restrictions := by
  induction ps generalizing o with
  | nil => exact Restrictions.le_refl _
  | cons p ps ih =>
    refine Restrictions.le_trans ?_ (ih (o.restrict p).1)
    cases h : (o.restrict p).2 with
    | true => exact (C34_least (Prod.ext rfl h)).1
    | false => rw [(C34_refused o p).2 h]; exact Restrictions.le_refl _

/-- **C34.** The result is the least restrictive one that satisfies all the requests
(so it does not depend on their order), if none was refused. -/
theorem C34_all {o : KeyOptions} {ps : List KeyOptions} (u : Restrictions) (ho : o.restrictions.le u)
    (hps : ∀ p ∈ ps, p.restrictions.le u) :
    (mergeAll o ps).restrictions.le u ∧ ∀ p ∈ ps, p.restrictions.le (mergeAll o ps).restrictions := by
  induction ps generalizing o with
  | nil => exact ⟨ho, by simp⟩
  | cons p ps ih =>
    have hp := hps p (by simp)
    have hok : (o.restrict p).2 = true := by
      cases h : (o.restrict p).2 with
      | true => rfl
      | false => exact absurd ⟨u, ho, hp⟩ ((C34_refused o p).1.mp h)
    have hl := C34_least (o := o) (p := p) (q := (o.restrict p).1) (Prod.ext rfl hok)
    have ih := ih (o := (o.restrict p).1) (hl.2.2 u ho hp) fun q hq => hps q (by simp [hq])
    refine ⟨ih.1, fun q hq => ?_⟩
    rcases List.mem_cons.mp hq with rfl | hq
    · exact Restrictions.le_trans hl.2.1 (C34_only_tightened _ ps)
    · exact ih.2 q hq

example : mergeAll { noPty := true } [{ command := ascii "date" }, { command := ascii "sh" }, { homeReadOnly := true }] =
    { command := ascii "date", noPty := true, homeReadOnly := true } := by decide

/-! ## C35 -/

/-- **C35.** The target decodes exactly the options that the proxy encoded (whatever
precedes them in the packet). -/
theorem C35_roundtrip {s s' : Ser} {o : KeyOptions} (h : serializeKeyOptions s o = .ok s') (hl : o.command.length < 2 ^ 32) :
    deserializeKeyOptions {} (s'.buf.drop s.buf.length) = .ok o := by
  rw [serializeKeyOptions_ok h, List.drop_left]
  exact deser_body hl

example : (serializeKeyOptions Ser.empty { command := ascii "date", noPty := true }).isOk = true := by decide +kernel

/-- **C35.** What the target accepts is a list of supported options, whose effects
add up to the result; anything else is refused. -/
theorem C35_accepted {d : Bytes} {o : KeyOptions} (h : deserializeKeyOptions {} d = .ok o) :
    ∃ os : List (Bytes × Bytes), d = (os.map fun e => str e.1 ++ str e.2).flatten ∧
      applyOptions {} os = some o.restrictions := by
  obtain ⟨os, h1, h2⟩ := deser_sound h
  refine ⟨os, h1, ?_⟩
  have := setAll_spec os {}
  rw [h2] at this
  exact this.symm

example : deserializeKeyOptions {} (str (ascii "no-pty") ++ str [] ++ (str (ascii "command") ++ str (ascii "ls"))) =
    .ok { command := ascii "ls", noPty := true } := by decide +kernel

example : deserializeKeyOptions {} (str (ascii "from") ++ str (ascii "10.0.0.1")) = .error .unsupported := by decide +kernel

/-! ## C37 -/

variable {decode : Bytes → Option Bytes}

/-- **C37.** A line is accepted for a key exactly if it grants access to that key:
it is made of blanks, well-formed and supported options, key type, key and comment.
The options are those of the line. -/
theorem C37_line (line key : Bytes) (o : KeyOptions) :
    lineContains decode line key = some o ↔ Grants decode line key o.restrictions := lineContains_iff

/-- **C37.** A line with an unknown or malformed option never grants access. -/
theorem C37_bad_option {line b64 : Bytes} {os : List (Bytes × Bytes)} (h : KeyLine line b64 os)
    (hbad : applyOptions {} os = none) (key : Bytes) : lineContains decode line key = none := by
  cases hl : lineContains decode line key with
  | none => rfl
  | some o =>
    obtain ⟨b64', os', h1, _, h3⟩ := (C37_line _ _ _).mp hl
    rw [keyLine_unique h h1, h3] at hbad
    simp at hbad

theorem findSome_iff {α β} {f : α → Option β} {l : List α} {b : β} :
    l.findSome? f = some b ↔ ∃ pre a post, l = pre ++ a :: post ∧ f a = some b ∧ ∀ x ∈ pre, f x = none := by
  induction l with
  | nil => simp
  | cons a l ih =>
    rw [List.findSome?_cons]
    constructor
    · intro h
      cases hf : f a with
      | some b' => rw [hf] at h; simp only [Option.some.injEq] at h; subst h; exact ⟨[], a, l, rfl, hf, by simp⟩
      | none =>
        rw [hf] at h
        obtain ⟨pre, x, post, rfl, h1, h2⟩ := ih.mp h
        refine ⟨a :: pre, x, post, rfl, h1, ?_⟩
        intro y hy
        rcases List.mem_cons.mp hy with rfl | hy
        · exact hf
        · exact h2 y hy
    · rintro ⟨pre, x, post, he, h1, h2⟩
      cases pre with
      | nil => simp only [List.nil_append, List.cons.injEq] at he; rw [he.1, h1]
      | cons y pre =>
        simp only [List.cons_append, List.cons.injEq] at he
        obtain ⟨rfl, rfl⟩ := he
        rw [h2 a (by simp)]
        exact ih.mpr ⟨pre, x, post, rfl, h1, fun z hz => h2 z (by simp [hz])⟩

/-- **C37.** A key is accepted exactly if some line of the text grants it access; the
options are those of the first such line. -/
theorem C37_text {text : Bytes} {ls : List Bytes} (hls : LinesOf text ls) (key : Bytes) (o : KeyOptions) :
    textContains decode text key = some o ↔
      ∃ pre line post, ls = pre ++ line :: post ∧ Grants decode line key o.restrictions ∧
        ∀ l ∈ pre, ∀ r, ¬ Grants decode l key r := by
  have : splitLines text = ls := linesOf_unique (splitLines_spec text) hls
  subst this
  unfold textContains linesContain
  rw [findSome_iff]
  constructor
  · rintro ⟨pre, line, post, h1, h2, h3⟩
    refine ⟨pre, line, post, h1, (C37_line _ _ _).mp h2, ?_⟩
    rintro l hl r ⟨b64, os, g1, g2, g3⟩
    have hs := setAll_spec os {}
    have g3' : applyOptions ({} : KeyOptions).restrictions os = some r := g3
    rw [g3'] at hs
    simp only [Option.map_eq_some_iff] at hs
    obtain ⟨o', _, rfl⟩ := hs
    have := (C37_line (decode := decode) l key o').mpr ⟨b64, os, g1, g2, g3⟩
    rw [h3 l hl] at this
    simp at this
  · rintro ⟨pre, line, post, h1, h2, h3⟩
    refine ⟨pre, line, post, h1, (C37_line _ _ _).mpr h2, ?_⟩
    intro l hl
    cases hc : lineContains decode l key with
    | none => rfl
    | some o' => exact absurd ((C37_line _ _ _).mp hc) (h3 l hl _)

theorem C37_every_text_has_lines (text : Bytes) : ∃ ls, LinesOf text ls := ⟨_, splitLines_spec text⟩

/-- Two lines for the same key, a comment, one with an unknown option. -/
def demoKeys : Bytes :=
  ascii "# keys\nfrom=\"a b\" ssh-rsa QQ x\n  no-pty,command=\"echo \\\"hi\\\", you\" ssh-rsa QQ me@host\nssh-rsa QQ\n"

def demoDecode (b : Bytes) : Option Bytes := if b = ascii "QQ" then some [65] else none

example : textContains demoDecode demoKeys [65] =
    some { command := ascii "echo \"hi\", you", noPty := true } := by decide +kernel

/-- Options which `Set` knows, but which the parser of key files never passes to it. -/
example : textContains demoDecode (ascii "no-X11-forwarding ssh-rsa QQ\n") [65] = none ∧
    textContains demoDecode (ascii "X11-forwarding ssh-rsa QQ\n") [65] = none := by decide +kernel

/-! ## C38 -/

/-- **C38.** Loading a file and looking a key up gives the same answer as searching
the file. -/
theorem C38_load_find (contents key : Bytes) :
    KeySet.find (loadFile decode [] contents) key = fileContains decode contents key := by
  unfold loadFile fileContains
  rw [find_load]
  rfl

/-- **C38.** … and the same as searching the text, if it has neither carriage returns nor
null bytes (a carriage return at the end of a line of a file is ignored). -/
theorem C38_text (contents key : Bytes) (h : ∀ c ∈ contents, c ≠ 13 ∧ c ≠ 0) :
    KeySet.find (loadFile decode [] contents) key = textContains decode contents key := by
  rw [C38_load_find]
  unfold fileContains textContains
  congr 1
  have hsub : ∀ l ∈ splitLines contents, ∀ c ∈ l, c ∈ contents := by
    clear h
    fun_induction splitLines contents with
    | case1 => simp
    | case2 s ih =>
      intro l hl c hc
      rcases List.mem_cons.mp hl with rfl | hl
      · simp at hc
      · exact List.mem_cons_of_mem _ (ih l hl c hc)
    | case3 c s hc hl ih => exact absurd hl (splitLines_ne s)
    | case4 c s hc l ls hl ih =>
      rw [hl] at ih
      intro x hx d hd
      rcases List.mem_cons.mp hx with rfl | hx
      · rcases List.mem_cons.mp hd with rfl | hd
        · simp
        · exact List.mem_cons_of_mem _ (ih l (by simp) d hd)
      · exact List.mem_cons_of_mem _ (ih x (by simp [hx]) d hd)
  have : (splitLines contents).map cLine = (splitLines contents).map id := by
    apply List.map_congr_left
    intro l hl
    have hl := hsub l hl
    have h13 : ¬ l.getLast? = some 13 := fun hc => (h 13 (hl _ (List.mem_of_getLast? hc))).1 rfl
    have h0 : ∀ l : Bytes, (∀ c ∈ l, c ≠ 0) → l.takeWhile (· != 0) = l := by
      intro l hl
      induction l with
      | nil => rfl
      | cons a l ih =>
        rw [List.takeWhile_cons, if_pos (by simpa using hl a (by simp)), ih fun c hc => hl c (by simp [hc])]
    simp only [cLine, h13, if_false, id]
    exact h0 l fun c hc => (h c (hl c hc)).2
  rw [this, List.map_id]

example : KeySet.find (loadFile demoDecode [] demoKeys) [65] =
    some { command := ascii "echo \"hi\", you", noPty := true } := by decide +kernel

/-- Carriage returns do make a difference. -/
example : KeySet.find (loadFile demoDecode [] (ascii "ssh-rsa QQ\r\n")) [65] = some {} ∧
    textContains demoDecode (ascii "ssh-rsa QQ\r\n") [65] = none := by decide +kernel

end Lukko
