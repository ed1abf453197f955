import Verif.Model.BufferedChannel
/-
  Facts about the pipe specification, and the invariant of a channel's input buffer.
-/
namespace Lukko
open Model Spec

/-! ## The specification -/

@[simp] theorem pipeStep_some {p e} : pipeStep (some p) e = p.next e := rfl

theorem pipe_append (a b : List BufEntry) : pipe (a ++ b) = b.foldl pipeStep (pipe a) := by
  unfold pipe; rw [List.foldl_append]

theorem pipe_snoc (a : List BufEntry) (e : BufEntry) : pipe (a ++ [e]) = pipeStep (pipe a) e := by
  rw [pipe_append]; rfl

theorem pipe_fold_none (b : List BufEntry) : b.foldl pipeStep none = none := by
  induction b with
  | nil => rfl
  | cons e b ih => exact ih

theorem pipe_prefix {a b p} (h : pipe (a ++ b) = some p) : ∃ q, pipe a = some q ∧ b.foldl pipeStep (some q) = some p := by
  rw [pipe_append] at h
  cases hq : pipe a with
  | none => rw [hq, pipe_fold_none] at h; simp at h
  | some q => rw [hq] at h; exact ⟨q, rfl, h⟩

theorem bufBytes_snoc (log : List BufEntry) (e) : bufBytes (log ++ [e]) = bufBytes log ++ (match e with | .recv bs => bs | _ => []) := by
  cases e <;> simp [bufBytes]
theorem taken_snoc (log : List BufEntry) (e) : taken (log ++ [e]) = taken log ++ (match e with | .took bs => bs | _ => []) := by
  cases e <;> simp [taken]

/-- Summary of a run of the pipe. -/
theorem pipe_facts {log : List BufEntry} {p} (h : pipe log = some p) :
    taken log ++ p.content = bufBytes log ∧ (p.eof = true ↔ .recvEof ∈ log) ∧ (p.told = true ↔ .sawEof ∈ log) ∧
    (p.told = true → p.eof = true ∧ p.content = []) ∧ log.count .sawEof ≤ 1 ∧ (p.told = false → log.count .sawEof = 0) := by
  suffices ∀ n (log : List BufEntry) p, log.length = n → pipe log = some p →
    taken log ++ p.content = bufBytes log ∧ (p.eof = true ↔ .recvEof ∈ log) ∧ (p.told = true ↔ .sawEof ∈ log) ∧
    (p.told = true → p.eof = true ∧ p.content = []) ∧ log.count .sawEof ≤ 1 ∧ (p.told = false → log.count .sawEof = 0) from
    this _ log p rfl h
  intro n
  induction n with
  | zero =>
    intro log p hn h
    rw [List.length_eq_zero_iff] at hn
    subst hn
    simp [pipe] at h; subst h
    simp [taken, bufBytes]
  | succ n ih =>
    intro log p hn h
    have hne : log ≠ [] := by intro hc; subst hc; simp at hn
    obtain ⟨a, e, rfl⟩ : ∃ a e, log = a ++ [e] := ⟨log.dropLast, log.getLast hne, (List.dropLast_concat_getLast hne).symm⟩
    obtain ⟨q, hq, h⟩ := pipe_prefix h
    have ih := ih a q (by simpa using hn) hq
    simp only [List.foldl_cons, List.foldl_nil, pipeStep_some] at h
    rw [taken_snoc, bufBytes_snoc]
    obtain ⟨i1, i2, i3, i4, i5, i6⟩ := ih
    cases e with
    | recv bs =>
      simp only [Pipe.next] at h
      split at h
      · simp at h
      · rename_i he
        simp at h; subst h
        refine ⟨by simp [← i1], by simpa using i2, by simpa using i3, fun ht => absurd (i4 ht).1 he, by simpa [List.count_append] using i5,
          fun ht => by simpa [List.count_append] using i6 ht⟩
    | recvEof =>
      simp only [Pipe.next] at h
      split at h
      · simp at h
      · rename_i he
        simp at h; subst h
        refine ⟨by simpa using i1, by simp, by simpa using i3, fun ht => ⟨rfl, (i4 ht).2⟩, by simpa [List.count_append] using i5,
          fun ht => by simpa [List.count_append] using i6 ht⟩
    | took bs =>
      simp only [Pipe.next] at h
      split at h
      · rename_i hb
        simp at h; subst h
        obtain ⟨hb, ht⟩ := hb
        obtain ⟨r, hr⟩ := List.isPrefixOf_iff_prefix.mp hb
        refine ⟨by simp only [← hr] at i1 ⊢; simpa using i1, by simpa using i2, by simpa using i3,
          fun ht' => by simp [ht] at ht', by simpa [List.count_append] using i5,
          fun ht => by simpa [List.count_append] using i6 ht⟩
      · simp at h
    | sawEof =>
      simp only [Pipe.next] at h
      split at h
      · rename_i hb
        simp at h; subst h
        refine ⟨by simpa using i1, by simpa using i2, by simp, fun _ => ⟨hb.1, hb.2.2⟩, ?_, by simp⟩
        rw [List.count_append, i6 hb.2.1]; simp
      · simp at h

/-- Once the reader has been told, nothing more can be taken, sent or told. -/
theorem pipe_after_told {b : List BufEntry} : ∀ {q p : Pipe}, q.told = true → q.eof = true → b.foldl pipeStep (some q) = some p → b = [] := by
  cases b with
  | nil => intros; rfl
  | cons e b =>
    intro q p ht he h
    simp only [List.foldl_cons, pipeStep_some] at h
    have : q.next e = none := by cases e <;> simp [Pipe.next, ht, he]
    rw [this, pipe_fold_none] at h; simp at h

/-! ## The invariant -/

def BufInv (b : Buf) : Prop :=
  ∃ eof told, pipe b.log = some ⟨b.queue, eof, told⟩ ∧ b.eofPending = (eof && !told) ∧
    (eof = true → told = false → b.queue ≠ [])

theorem BufInv.told_queue {b : Buf} {eof told} (h : pipe b.log = some ⟨b.queue, eof, told⟩) (ht : told = true) :
    eof = true ∧ b.queue = [] := (pipe_facts h).2.2.2.1 ht

/-- Nothing ever happened that a pipe does not permit. -/
def BufSafe (b : Buf) : Prop := ∃ p, pipe b.log = some p

theorem BufInv.safe {b} (h : BufInv b) : BufSafe b := by
  obtain ⟨e, t, h, _⟩ := h; exact ⟨_, h⟩

theorem BufInv.init : BufInv {} := ⟨false, false, rfl, rfl, by simp⟩

/-- Result of a method. -/
def BufPost {γ : Type} (r : γ × Buf × Option BufStop) : Prop :=
  (r.2.2 = none → BufInv r.2.1) ∧ BufSafe r.2.1

variable {γ κ : Type} {ops : BufOps γ κ}

theorem BufInv.not_eof {b : Buf} (hp : BufEntry.recvEof ∉ b.log) {eof told}
    (h : pipe b.log = some ⟨b.queue, eof, told⟩) : eof = false ∧ told = false := by
  have hf := pipe_facts h
  have he : eof = false := by
    cases eof with
    | false => rfl
    | true => exact absurd (hf.2.1.mp rfl) hp
  refine ⟨he, ?_⟩
  cases told with
  | false => rfl
  | true => have := (hf.2.2.2.1 rfl).1; simp [he] at this

theorem prefix_drop {pre l : Bytes} (h : pre <+: l) : pre.isPrefixOf l = true := List.isPrefixOf_iff_prefix.mpr h

theorem BufInv.onData {b : Buf} (h : BufInv b) (hp : BufEntry.recvEof ∉ b.log) (g : γ) (pl : Bytes) (k : κ) :
    BufPost (b.onData ops g pl k) := by
  obtain ⟨eof, told, h1, h2, h3⟩ := h
  obtain ⟨rfl, rfl⟩ := BufInv.not_eof hp h1
  have hl : pipe (b.log ++ [.recv pl]) = some ⟨b.queue ++ pl, false, false⟩ := by
    rw [pipe_snoc, h1]; simp [Pipe.next]
  have hsafe : BufSafe (b.emit (.recv pl)) := ⟨_, hl⟩
  unfold Buf.onData
  have he : (b.emit (.recv pl)).eofPending = false := h2
  simp only [he, cond_false]
  split
  · exact ⟨fun _ => ⟨false, false, hl, rfl, by simp⟩, ⟨_, hl⟩⟩
  · rename_i hq
    have hq : b.queue = [] := by simpa [Buf.emit] using hq
    split
    · exact ⟨by simp, hsafe⟩
    · rename_i g' n _
      have : pipe ((b.log ++ [.recv pl]) ++ [.took (pl.take n)]) = some ⟨pl.drop n, false, false⟩ := by
        rw [pipe_snoc, hl, hq]
        simp only [pipeStep_some, Pipe.next, List.nil_append]
        rw [if_pos ⟨prefix_drop (List.take_prefix n pl), trivial⟩]
        simp only [List.length_take, Option.some.injEq, Pipe.mk.injEq, and_true]
        rcases Nat.le_total n pl.length with hn | hn
        · rw [Nat.min_eq_left hn]
        · rw [Nat.min_eq_right hn, List.drop_of_length_le (by omega), List.drop_of_length_le hn]
      exact ⟨fun _ => ⟨false, false, this, h2, by simp⟩, ⟨_, this⟩⟩

theorem BufInv.onEof {b : Buf} (h : BufInv b) (hp : BufEntry.recvEof ∉ b.log) (g : γ) :
    BufPost (b.onEof ops g) := by
  obtain ⟨eof, told, h1, h2, h3⟩ := h
  obtain ⟨rfl, rfl⟩ := BufInv.not_eof hp h1
  have hl : pipe (b.log ++ [.recvEof]) = some ⟨b.queue, true, false⟩ := by
    rw [pipe_snoc, h1]; simp [Pipe.next]
  unfold Buf.onEof
  have he : (b.emit .recvEof).eofPending = false := h2
  simp only [he, cond_false]
  split
  · rename_i hq
    have hq : b.queue = [] := hq
    have : pipe ((b.log ++ [.recvEof]) ++ [.sawEof]) = some ⟨b.queue, true, true⟩ := by
      rw [pipe_snoc, hl, hq]; simp [Pipe.next]
    exact ⟨fun _ => ⟨true, true, this, h2, by simp⟩, ⟨_, this⟩⟩
  · rename_i hq
    exact ⟨fun _ => ⟨true, false, hl, rfl, fun _ _ => hq⟩, ⟨_, hl⟩⟩

/-- The invariant within `ReadBuffer()`: the queue may have become empty. -/
def BufMid (b : Buf) : Prop :=
  ∃ eof told, pipe b.log = some ⟨b.queue, eof, told⟩ ∧ b.eofPending = (eof && !told)

theorem BufMid.finish {b : Buf} (h : BufMid b) (hq : b.queue = []) (g : γ) : BufPost (b.finish ops g) := by
  obtain ⟨eof, told, h1, h2⟩ := h
  unfold Buf.finish
  cases he : b.eofPending with
  | false =>
    simp only [cond_false]
    refine ⟨fun _ => ⟨eof, told, h1, h2, ?_⟩, ⟨_, h1⟩⟩
    intro h3 h4; rw [h3, h4] at h2; rw [he] at h2; simp at h2
  | true =>
    rw [he] at h2
    have ⟨h3, h4⟩ : eof = true ∧ told = false := by simpa using h2.symm
    subst h3; subst h4
    simp only [cond_true]
    have : pipe (b.log ++ [.sawEof]) = some ⟨b.queue, true, true⟩ := by
      rw [pipe_snoc, h1, hq]; simp [Pipe.next]
    exact ⟨fun _ => ⟨true, true, this, rfl, by simp⟩, ⟨_, this⟩⟩

theorem BufMid.read {ks : List (Nat × κ)} : ∀ {b : Buf}, BufMid b → ∀ g : γ, BufPost (b.read ops g ks) := by
  induction ks with
  | nil =>
    intro b h g
    unfold Buf.read
    split
    · rename_i hq; exact h.finish hq g
    · rename_i hq
      obtain ⟨eof, told, h1, h2⟩ := h
      exact ⟨fun _ => ⟨eof, told, h1, h2, fun _ _ => hq⟩, ⟨_, h1⟩⟩
  | cons x ks ih =>
    obtain ⟨len, k⟩ := x
    intro b h g
    unfold Buf.read
    split
    · rename_i hq; exact h.finish hq g
    · rename_i hq
      obtain ⟨eof, told, h1, h2⟩ := h
      have ht : told = false := by
        cases told with
        | false => rfl
        | true => exact absurd (BufInv.told_queue h1 rfl).2 hq
      subst ht
      simp only
      split
      · exact ⟨by simp, ⟨_, h1⟩⟩
      · rename_i g' n _
        have hpre : (b.queue.take (len + 1)).take n <+: b.queue :=
          (List.take_prefix n _).trans (List.take_prefix _ _)
        have : pipe (b.log ++ [.took ((b.queue.take (len + 1)).take n)]) =
            some ⟨b.queue.drop ((b.queue.take (len + 1)).take n).length, eof, false⟩ := by
          rw [pipe_snoc, h1]
          simp only [pipeStep_some, Pipe.next]
          rw [if_pos ⟨prefix_drop hpre, trivial⟩]
        split
        · rename_i hn
          refine ⟨fun _ => ⟨eof, false, this, h2, fun _ _ hc => ?_⟩, ⟨_, this⟩⟩
          have hlen := congrArg List.length hc
          have hpos : b.queue.length ≠ 0 := fun h0 => hq (List.length_eq_zero_iff.mp h0)
          simp only [List.length_drop, List.length_take, List.length_nil] at hlen hn
          omega
        · exact ih (b := { b.emit (.took ((b.queue.take (len + 1)).take n)) with
              queue := b.queue.drop ((b.queue.take (len + 1)).take n).length })
            ⟨eof, false, this, h2⟩ g'

theorem BufInv.read {b : Buf} (h : BufInv b) (g : γ) (ks : List (Nat × κ)) : BufPost (b.read ops g ks) := by
  obtain ⟨eof, told, h1, h2, _⟩ := h
  exact BufMid.read ⟨eof, told, h1, h2⟩ g

/-! ## The record only grows by what is bufBytes -/

theorem Model.Buf.read_recvEof {ks : List (Nat × κ)} : ∀ {b : Buf} {g : γ},
    (BufEntry.recvEof ∈ (b.read ops g ks).2.1.log ↔ BufEntry.recvEof ∈ b.log) := by
  have hfin : ∀ {b : Buf} {g : γ}, (BufEntry.recvEof ∈ (b.finish ops g).2.1.log ↔ BufEntry.recvEof ∈ b.log) := by
    intro b g
    unfold Buf.finish
    cases b.eofPending <;> simp [Buf.emit]
  induction ks with
  | nil =>
    intro b g
    unfold Buf.read
    split
    · exact hfin
    · rfl
  | cons x ks ih =>
    obtain ⟨len, k⟩ := x
    intro b g
    unfold Buf.read
    split
    · exact hfin
    · simp only
      split
      · rfl
      · split
        · simp [Buf.emit]
        · rw [ih]; simp [Buf.emit]

theorem Model.Buf.onData_recvEof {b : Buf} {g : γ} {pl k} :
    (BufEntry.recvEof ∈ (b.onData ops g pl k).2.1.log ↔ BufEntry.recvEof ∈ b.log) := by
  unfold Buf.onData
  simp only
  cases (b.emit (.recv pl)).eofPending
  · simp only [cond_false]
    split
    · simp [Buf.emit]
    · split <;> simp [Buf.emit]
  · simp [Buf.emit]

end Lukko
