import Verif.Proof.ChannelSupport
/-
  Consequences of the life cycle of a channel number, for any record that obeys it.
-/
namespace Lukko
open Model Spec

/-- The life of number `i`, beginning with `l`. -/
abbrev lifeFrom (b : Bool) (i : Nat) (l : Option Life) (log : List ChEntry) : Option Life :=
  log.foldl (lifeStep b i) l

theorem lifeFrom_none (b i log) : lifeFrom b i none log = none := by
  induction log with
  | nil => rfl
  | cons e log ih => exact ih

theorem life_prefix {b i a c l} (h : life b i (a ++ c) = some l) : ∃ l', life b i a = some l' ∧ lifeFrom b i (some l') c = some l := by
  rw [life_append] at h
  cases hl : life b i a with
  | none => rw [hl] at h; have h' : lifeFrom b i none c = some l := h; rw [lifeFrom_none] at h'; simp at h'
  | some l' => rw [hl] at h; exact ⟨l', rfl, h⟩

theorem lifeFrom_cons {b i e c l l'} (h : lifeFrom b i (some l) (e :: c) = some l') :
    ∃ l₁, l.next b i e = some l₁ ∧ lifeFrom b i (some l₁) c = some l' := by
  simp only [lifeFrom, List.foldl_cons, lifeStep_some] at h
  cases hl : l.next b i e with
  | none => rw [hl] at h; have h' : lifeFrom b i none c = some l' := h; rw [lifeFrom_none] at h'; simp at h'
  | some l₁ => rw [hl] at h; exact ⟨l₁, rfl, h⟩

/-- A number is assigned only if it is free. -/
theorem assign_free {b i e l l'} (ha : assigns i e = true) (h : Life.next b i l e = some l') : l = .free := by
  cases e <;> simp only [assigns, Bool.false_eq_true, beq_iff_eq] at ha
  all_goals
    subst ha
    simp only [Life.next, if_true] at h
    split at h
    · assumption
    · simp at h

/-- What must have happened in `m` for a number in state `l` to become free. -/
def Released (i : Nat) (l : Life) (m : List ChEntry) : Prop :=
  match l with
  | .free => True
  | .requested => .recv i .failure ∈ m ∨ ((∃ p, .sent i p .close ∈ m) ∧ .recv i .close ∈ m)
  | .opening p _ => .sent i p .failure ∈ m ∨ ((∃ p, .sent i p .close ∈ m) ∧ .recv i .close ∈ m)
  | .opened _ _ => (∃ p, .sent i p .close ∈ m) ∧ .recv i .close ∈ m
  | .closing _ _ => .recv i .close ∈ m
  | .peerClosed _ => ∃ p, .sent i p .close ∈ m

theorem Released.cons {i l e m} (h : Released i l m) : Released i l (e :: m) := by
  cases l with
  | free => trivial
  | requested => exact h.imp (List.mem_cons_of_mem _) fun ⟨⟨p, h1⟩, h2⟩ => ⟨⟨p, List.mem_cons_of_mem _ h1⟩, List.mem_cons_of_mem _ h2⟩
  | opening p w => exact h.imp (List.mem_cons_of_mem _) fun ⟨⟨p, h1⟩, h2⟩ => ⟨⟨p, List.mem_cons_of_mem _ h1⟩, List.mem_cons_of_mem _ h2⟩
  | opened p w => exact ⟨h.1.imp fun p h1 => List.mem_cons_of_mem _ h1, List.mem_cons_of_mem _ h.2⟩
  | closing p r => exact List.mem_cons_of_mem _ h
  | peerClosed p => exact h.imp fun p h1 => List.mem_cons_of_mem _ h1

theorem send_cases {b p' m} {l l₁ : Life} (h : l.send b p' m = some l₁) :
    (∃ w, l = .opening p' w ∧ ((m = .confirm ∧ l₁ = .opened p' w) ∨ (m = .failure ∧ l₁ = .free))) ∨
    (∃ w, l = .opened p' w ∧ ((m = .close ∧ l₁ = .closing p' 0) ∨
      (∃ n, (m = .data n ∨ m = .ext n) ∧ n ≤ w ∧ l₁ = .opened p' (w - n)) ∨
      (((∃ n, m = .adjust n) ∨ m = .eof ∨ (∃ x, m = .request x) ∨ ∃ x, m = .reply x) ∧ l₁ = l))) ∨
    (l = .peerClosed p' ∧ m = .close ∧ l₁ = .free) ∨
    (∃ r, l = .closing p' (r + 1) ∧ m = .reply false ∧ b = true ∧ l₁ = .closing p' r) := by
  cases l with
  | free => simp [Life.send] at h
  | requested => simp [Life.send] at h
  | opening p w =>
    left
    cases m <;> simp [Life.send] at h
    · obtain ⟨rfl, rfl⟩ := h; exact ⟨w, rfl, .inl ⟨rfl, rfl⟩⟩
    · obtain ⟨rfl, rfl⟩ := h; exact ⟨w, rfl, .inr ⟨rfl, rfl⟩⟩
  | opened p w =>
    right; left
    simp only [Life.send] at h
    split at h
    · rename_i hp; subst hp
      refine ⟨w, rfl, ?_⟩
      cases m <;> simp at h
      · exact .inr (.inr ⟨.inl ⟨_, rfl⟩, h.symm⟩)
      · exact .inr (.inl ⟨_, .inl rfl, h.1, h.2.symm⟩)
      · exact .inr (.inl ⟨_, .inr rfl, h.1, h.2.symm⟩)
      · exact .inr (.inr ⟨.inr (.inl rfl), h.symm⟩)
      · exact .inl ⟨rfl, h.symm⟩
      · exact .inr (.inr ⟨.inr (.inr (.inl ⟨_, rfl⟩)), h.symm⟩)
      · exact .inr (.inr ⟨.inr (.inr (.inr ⟨_, rfl⟩)), h.symm⟩)
    · simp at h
  | closing p r =>
    right; right; right
    cases r with
    | zero => cases m <;> simp [Life.send] at h
    | succ r =>
      cases m with
      | reply ok =>
        cases ok with
        | false => simp [Life.send] at h; obtain ⟨⟨rfl, rfl⟩, rfl⟩ := h; exact ⟨r, rfl, rfl, rfl, rfl⟩
        | true => simp [Life.send] at h
      | _ => simp [Life.send] at h
  | peerClosed p =>
    right; right; left
    cases m <;> simp [Life.send] at h
    obtain ⟨rfl, rfl⟩ := h; exact ⟨rfl, rfl, rfl⟩

theorem receive_cases {m} {l l₁ : Life} (h : l.receive m = some l₁) :
    (l = .requested ∧ m = .failure ∧ l₁ = .free) ∨
    (∃ p w, l = .opened p w ∧ ((m = .close ∧ l₁ = .peerClosed p) ∨ (∃ n, m = .adjust n ∧ l₁ = .opened p (w + n)) ∨
      (m ≠ .close ∧ (∀ n, m ≠ .adjust n) ∧ l₁ = l))) ∨
    (∃ p r, l = .closing p r ∧ ((m = .close ∧ l₁ = .free) ∨ (m = .request true ∧ l₁ = .closing p (r + 1)) ∨
      (m ≠ .close ∧ m ≠ .request true ∧ l₁ = l))) := by
  cases l with
  | free => simp [Life.receive] at h
  | requested => cases m <;> simp [Life.receive] at h; exact .inl ⟨rfl, rfl, h.symm⟩
  | opening p w => simp [Life.receive] at h
  | opened p w =>
    refine .inr (.inl ⟨p, w, rfl, ?_⟩)
    cases m <;> simp [Life.receive] at h <;> subst h <;> simp
  | closing p r =>
    refine .inr (.inr ⟨p, r, rfl, ?_⟩)
    cases m with
    | request x => cases x <;> simp [Life.receive] at h <;> subst h <;> simp
    | _ => simp [Life.receive] at h <;> subst h <;> simp
  | peerClosed p => simp [Life.receive] at h

theorem released {b i} : ∀ {m : List ChEntry} {l : Life}, lifeFrom b i (some l) m = some .free → Released i l m
  | [], l, h => by
    simp only [lifeFrom, List.foldl_nil, Option.some.injEq] at h; subst h; trivial
  | e :: m, l, h => by
    obtain ⟨l₁, h1, h2⟩ := lifeFrom_cons h
    have ih := released h2
    have same : l₁ = l → Released i l (e :: m) := fun hl => by rw [← hl]; exact ih.cons
    cases e with
    | recvOpen j p w =>
      simp only [Life.next] at h1
      split at h1
      · split at h1
        · rename_i hl; rw [hl]; trivial
        · simp at h1
      · simp at h1; exact same h1.symm
    | sentOpen j f =>
      simp only [Life.next] at h1
      split at h1
      · split at h1
        · rename_i hl; rw [hl]; trivial
        · simp at h1
      · simp at h1; exact same h1.symm
    | recvConfirm j p w =>
      simp only [Life.next] at h1
      split at h1
      · split at h1
        · rename_i hl; rw [hl]
          simp at h1; subst h1
          exact .inr ⟨ih.1.imp fun p h1 => List.mem_cons_of_mem _ h1, List.mem_cons_of_mem _ ih.2⟩
        · simp at h1
      · simp at h1; exact same h1.symm
    | told f o => simp [Life.next] at h1; exact same h1.symm
    | dropped f => simp [Life.next] at h1; exact same h1.symm
    | recv j x =>
      simp only [Life.next] at h1
      split at h1
      · rename_i hj; subst hj
        rcases receive_cases h1 with ⟨rfl, rfl, _⟩ | ⟨p, w, rfl, h3⟩ | ⟨p, r, rfl, h3⟩
        · exact .inl List.mem_cons_self
        · rcases h3 with ⟨rfl, rfl⟩ | ⟨n, rfl, rfl⟩ | ⟨_, _, h3⟩
          · exact ⟨ih.imp fun p h1 => List.mem_cons_of_mem _ h1, List.mem_cons_self⟩
          · exact ⟨ih.1.imp fun p h1 => List.mem_cons_of_mem _ h1, List.mem_cons_of_mem _ ih.2⟩
          · exact same h3
        · rcases h3 with ⟨rfl, rfl⟩ | ⟨rfl, rfl⟩ | ⟨_, _, h3⟩
          · exact List.mem_cons_self
          · exact List.mem_cons_of_mem _ ih
          · exact same h3
      · simp at h1; exact same h1.symm
    | sent j p x =>
      simp only [Life.next] at h1
      split at h1
      · rename_i hj; subst hj
        rcases send_cases h1 with ⟨w, rfl, h3⟩ | ⟨w, rfl, h3⟩ | ⟨rfl, rfl, rfl⟩ | ⟨r, rfl, rfl, _, rfl⟩
        · rcases h3 with ⟨rfl, rfl⟩ | ⟨rfl, rfl⟩
          · exact .inr ⟨ih.1.imp fun p h1 => List.mem_cons_of_mem _ h1, List.mem_cons_of_mem _ ih.2⟩
          · exact .inl List.mem_cons_self
        · rcases h3 with ⟨rfl, rfl⟩ | ⟨n, _, _, rfl⟩ | ⟨_, h3⟩
          · exact ⟨⟨_, List.mem_cons_self⟩, List.mem_cons_of_mem _ ih⟩
          · exact ⟨ih.1.imp fun p h1 => List.mem_cons_of_mem _ h1, List.mem_cons_of_mem _ ih.2⟩
          · exact same h3
        · exact ⟨_, List.mem_cons_self⟩
        · exact List.mem_cons_of_mem _ ih
      · simp at h1; exact same h1.symm

/-- Every CHANNEL_OPEN is answered once. -/
theorem opens_answers {b i} : ∀ {m : List ChEntry} {l l' : Life}, lifeFrom b i (some l) m = some l' →
    opens i m + (match l with | .opening _ _ => 1 | _ => 0) = answers i m + (match l' with | .opening _ _ => 1 | _ => 0)
  | [], l, l', h => by
    simp only [lifeFrom, List.foldl_nil, Option.some.injEq] at h; subst h; rfl
  | e :: m, l, l', h => by
    obtain ⟨l₁, h1, h2⟩ := lifeFrom_cons h
    have ih := opens_answers h2
    simp only [opens, answers] at ih ⊢
    cases e with
    | recvOpen j p w =>
      simp only [Life.next] at h1
      split at h1
      · rename_i hj; subst hj
        split at h1
        · rename_i hl; subst hl; simp at h1; subst h1
          simp at ih ⊢; omega
        · simp at h1
      · rename_i hj; simp at h1; subst h1; simpa [hj] using ih
    | sentOpen j f =>
      simp only [Life.next] at h1
      split at h1
      · split at h1
        · rename_i hl; subst hl; simp at h1; subst h1; simpa using ih
        · simp at h1
      · simp at h1; subst h1; simpa using ih
    | recvConfirm j p w =>
      simp only [Life.next] at h1
      split at h1
      · split at h1
        · rename_i hl; subst hl; simp at h1; subst h1; simpa using ih
        · simp at h1
      · simp at h1; subst h1; simpa using ih
    | told f o => simp [Life.next] at h1; subst h1; simpa using ih
    | dropped f => simp [Life.next] at h1; subst h1; simpa using ih
    | recv j x =>
      simp only [Life.next] at h1
      split at h1
      · rcases receive_cases h1 with ⟨rfl, rfl, rfl⟩ | ⟨p, w, rfl, h3⟩ | ⟨p, r, rfl, h3⟩
        · simpa using ih
        · rcases h3 with ⟨rfl, rfl⟩ | ⟨n, rfl, rfl⟩ | ⟨_, _, rfl⟩ <;> simpa using ih
        · rcases h3 with ⟨rfl, rfl⟩ | ⟨rfl, rfl⟩ | ⟨_, _, rfl⟩ <;> simpa using ih
      · simp at h1; subst h1; simpa using ih
    | sent j p x =>
      simp only [Life.next] at h1
      split at h1
      · rename_i hj; subst hj
        rcases send_cases h1 with ⟨w, rfl, h3⟩ | ⟨w, rfl, h3⟩ | ⟨rfl, rfl, rfl⟩ | ⟨r, rfl, rfl, _, rfl⟩
        · rcases h3 with ⟨rfl, rfl⟩ | ⟨rfl, rfl⟩ <;> simp at ih ⊢ <;> omega
        · rcases h3 with ⟨rfl, rfl⟩ | ⟨n, hx, _, rfl⟩ | ⟨hx, rfl⟩
          · simpa using ih
          · rcases hx with rfl | rfl <;> simpa using ih
          · rcases hx with ⟨n, rfl⟩ | rfl | ⟨n, rfl⟩ | ⟨n, rfl⟩ <;> simpa using ih
        · simpa using ih
        · simpa using ih
      · rename_i hj; simp at h1; subst h1
        cases x <;> simpa [hj] using ih

/-- After CHANNEL_CLOSE, only answers to later requests are sent. -/
def ChQuiet (i : Nat) (l : Life) (m : List ChEntry) : Prop :=
  ∀ m₁ p x m₂, m = m₁ ++ .sent i p x :: m₂ → (∀ e ∈ m₁, assigns i e = false) →
    match l with
    | .free => False
    | .closing p₀ r => p = p₀ ∧ x = .reply false ∧ (0 < r ∨ .recv i (.request true) ∈ m₁)
    | _ => True

theorem ch_quiet {b i} : ∀ {m : List ChEntry} {l l' : Life}, lifeFrom b i (some l) m = some l' →
    ChQuiet i l m
  | [], l, l', _ => by intro m₁ p x m₂ h; simp at h
  | e :: m, l, l', h => by
    obtain ⟨l₁, h1, h2⟩ := lifeFrom_cons h
    have ih := ch_quiet h2
    intro m₁ p x m₂ hm ha
    cases l with
    | requested => trivial
    | opening _ _ => trivial
    | opened _ _ => trivial
    | peerClosed _ => trivial
    | free =>
      simp only
      cases m₁ with
      | nil =>
        simp only [List.nil_append, List.cons.injEq] at hm
        obtain ⟨rfl, rfl⟩ := hm
        simp [Life.next, Life.send] at h1
      | cons e' m₁ =>
        simp only [List.cons_append, List.cons.injEq] at hm
        obtain ⟨rfl, hm⟩ := hm
        have hl : l₁ = .free := by
          have hna := ha e List.mem_cons_self
          cases e with
          | recvOpen j p w =>
            have hj : j ≠ i := by simpa [assigns] using hna
            simp [Life.next, hj] at h1; exact h1.symm
          | sentOpen j f =>
            have hj : j ≠ i := by simpa [assigns] using hna
            simp [Life.next, hj] at h1; exact h1.symm
          | recvConfirm j p w => simp [Life.next] at h1; exact h1.2.symm
          | told f o => simp [Life.next] at h1; exact h1.symm
          | dropped f => simp [Life.next] at h1; exact h1.symm
          | recv j x =>
            simp only [Life.next] at h1
            split at h1
            · simp [Life.receive] at h1
            · simp at h1; exact h1.symm
          | sent j p x =>
            simp only [Life.next] at h1
            split at h1
            · simp [Life.send] at h1
            · simp at h1; exact h1.symm
        subst hl
        exact ih m₁ p x m₂ hm fun e he => ha e (List.mem_cons_of_mem _ he)
    | closing p₀ r =>
      simp only
      cases m₁ with
      | nil =>
        simp only [List.nil_append, List.cons.injEq] at hm
        obtain ⟨rfl, rfl⟩ := hm
        simp only [Life.next, if_true] at h1
        rcases send_cases h1 with ⟨w, h3, _⟩ | ⟨w, h3, _⟩ | ⟨h3, _⟩ | ⟨r', h3, h4, _⟩ <;> simp at h3
        exact ⟨h3.1.symm, h4, .inl (by omega)⟩
      | cons e' m₁ =>
        simp only [List.cons_append, List.cons.injEq] at hm
        obtain ⟨rfl, hm⟩ := hm
        have ih := ih m₁ p x m₂ hm fun e he => ha e (List.mem_cons_of_mem _ he)
        have keep : l₁ = .closing p₀ r → p = p₀ ∧ x = .reply false ∧ (0 < r ∨ .recv i (.request true) ∈ e :: m₁) := by
          intro hl; subst hl
          exact ⟨ih.1, ih.2.1, ih.2.2.imp id (List.mem_cons_of_mem _)⟩
        cases e with
        | recvOpen j p w => simp [Life.next] at h1; exact keep h1.2.symm
        | sentOpen j f => simp [Life.next] at h1; exact keep h1.2.symm
        | recvConfirm j p w => simp [Life.next] at h1; exact keep h1.2.symm
        | told f o => simp [Life.next] at h1; exact keep h1.symm
        | dropped f => simp [Life.next] at h1; exact keep h1.symm
        | recv j y =>
          simp only [Life.next] at h1
          split at h1
          · rename_i hj; subst hj
            rcases receive_cases h1 with ⟨h3, _⟩ | ⟨p, w, h3, _⟩ | ⟨p', r', h3, h4⟩ <;> simp at h3
            obtain ⟨rfl, rfl⟩ := h3
            rcases h4 with ⟨rfl, rfl⟩ | ⟨rfl, rfl⟩ | ⟨_, _, h4⟩
            · exact ih.elim
            · exact ⟨ih.1, ih.2.1, .inr List.mem_cons_self⟩
            · exact keep h4
          · simp at h1; exact keep h1.symm
        | sent j p' y =>
          simp only [Life.next] at h1
          split at h1
          · rename_i hj; subst hj
            rcases send_cases h1 with ⟨w, h3, _⟩ | ⟨w, h3, _⟩ | ⟨h3, _⟩ | ⟨r', h3, rfl, _, rfl⟩ <;> simp at h3
            obtain ⟨rfl, rfl⟩ := h3
            exact ⟨ih.1, ih.2.1, .inl (by omega)⟩
          · simp at h1; exact keep h1.symm

/-- Credit granted by the peer is never exceeded. -/
theorem credit {b i} : ∀ {m : List ChEntry} {l l' : Life}, lifeFrom b i (some l) m = some l' →
    (∀ e ∈ m, assigns i e = false) →
    (l = .free → bytesSent i m = 0) ∧
    bytesSent i m ≤ bytesGranted i m + (match l with | .opened _ w | .opening _ w => w | _ => 0)
  | [], l, l', h, _ => by simp [bytesSent]
  | e :: m, l, l', h, ha => by
    obtain ⟨l₁, h1, h2⟩ := lifeFrom_cons h
    have ih := credit h2 fun e he => ha e (List.mem_cons_of_mem _ he)
    have hna := ha e List.mem_cons_self
    simp only [bytesSent, bytesGranted, List.map_cons, List.sum_cons] at ih ⊢
    cases e with
    | recvOpen j p w =>
      have hj : j ≠ i := by simpa [assigns] using hna
      simp [Life.next, hj] at h1; subst h1; simpa [hj] using ih
    | sentOpen j f =>
      have hj : j ≠ i := by simpa [assigns] using hna
      simp [Life.next, hj] at h1; subst h1; simpa [hj] using ih
    | recvConfirm j p w =>
      simp only [Life.next] at h1
      split at h1
      · rename_i hj; subst hj
        split at h1
        · rename_i hl; subst hl; simp at h1; subst h1
          simp at ih ⊢; omega
        · simp at h1
      · rename_i hj; simp at h1; subst h1; simpa [hj] using ih
    | told f o => simp [Life.next] at h1; subst h1; simpa using ih
    | dropped f => simp [Life.next] at h1; subst h1; simpa using ih
    | recv j x =>
      simp only [Life.next] at h1
      split at h1
      · rename_i hj; subst hj
        rcases receive_cases h1 with ⟨rfl, rfl, rfl⟩ | ⟨p, w, rfl, h3⟩ | ⟨p, r, rfl, h3⟩
        · simpa using ih.2
        · rcases h3 with ⟨rfl, rfl⟩ | ⟨n, rfl, rfl⟩ | ⟨_, h4, rfl⟩
          · simp at ih ⊢; omega
          · simp at ih ⊢; omega
          · cases x <;> simp at ih h4 ⊢ <;> first | omega | exact ih
        · rcases h3 with ⟨rfl, rfl⟩ | ⟨rfl, rfl⟩ | ⟨_, _, rfl⟩
          · simp at ih ⊢; omega
          · simpa using ih
          · cases x <;> simp at ih ⊢ <;> omega
      · rename_i hj; simp at h1; subst h1
        cases x <;> simpa [hj] using ih
    | sent j p x =>
      simp only [Life.next] at h1
      split at h1
      · rename_i hj; subst hj
        rcases send_cases h1 with ⟨w, rfl, h3⟩ | ⟨w, rfl, h3⟩ | ⟨rfl, rfl, rfl⟩ | ⟨r, rfl, rfl, _, rfl⟩
        · rcases h3 with ⟨rfl, rfl⟩ | ⟨rfl, rfl⟩ <;> simp at ih ⊢ <;> omega
        · rcases h3 with ⟨rfl, rfl⟩ | ⟨n, hx, hn, rfl⟩ | ⟨hx, rfl⟩
          · simp at ih ⊢; omega
          · rcases hx with rfl | rfl <;> simp at ih ⊢ <;> omega
          · rcases hx with ⟨n, rfl⟩ | rfl | ⟨n, rfl⟩ | ⟨n, rfl⟩ <;> simp at ih ⊢ <;> omega
        · simp at ih ⊢; omega
        · simp at ih ⊢; omega
      · rename_i hj; simp at h1; subst h1
        cases x <;> simpa [hj] using ih

end Lukko
