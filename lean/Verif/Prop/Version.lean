import Verif.Model.Version
import Verif.Spec.Version
import Verif.Proof.Lists
/-
  C51: the version exchange.
-/
namespace Lukko
open Spec Model

/-- Everything received. -/
def versionBytes (es : List VersionEvent) : Bytes := (es.map (·.chunk)).flatten

theorem firstLine_takeWhile {r : Bytes} (h : r.contains 10 = true) :
    FirstLine r (r.takeWhile (· != 10)) (r.drop ((r.takeWhile (· != 10)).length + 1)) := by
  induction r with
  | nil => simp at h
  | cons x r ih =>
    by_cases hx : x = 10
    · subst hx
      simp [FirstLine]
    · have hr : r.contains 10 = true := by
        simp only [List.contains_eq_mem, List.mem_cons, decide_eq_true_eq] at h ⊢
        exact h.resolve_left (fun e => hx e.symm)
      obtain ⟨h1, h2⟩ := ih hr
      have hxb : (x != 10) = true := by simpa using hx
      simp only [List.takeWhile_cons, hxb, if_true, List.length_cons, List.drop_succ_cons, FirstLine,
        List.cons_append, List.mem_cons, not_or]
      refine ⟨?_, fun e => hx e.symm, h2⟩
      rw [List.cons.injEq]
      exact ⟨rfl, h1⟩

theorem firstLine_unique {s l₁ r₁ l₂ r₂ : Bytes} (h₁ : FirstLine s l₁ r₁) (h₂ : FirstLine s l₂ r₂) :
    l₁ = l₂ ∧ r₁ = r₂ := by
  obtain ⟨e₁, n₁⟩ := h₁
  obtain ⟨e₂, n₂⟩ := h₂
  subst e₁
  induction l₁ generalizing l₂ with
  | nil =>
    cases l₂ with
    | nil => simpa using e₂
    | cons y l₂ =>
      simp only [List.nil_append, List.cons_append, List.cons.injEq] at e₂
      exact absurd (by rw [← e₂.1]; exact List.mem_cons_self) n₂
  | cons x l₁ ih =>
    cases l₂ with
    | nil =>
      simp only [List.nil_append, List.cons_append, List.cons.injEq] at e₂
      exact absurd (by rw [e₂.1]; exact List.mem_cons_self) n₁
    | cons y l₂ =>
      simp only [List.cons_append, List.cons.injEq] at e₂
      obtain ⟨rfl, e₂⟩ := e₂
      simp only [List.mem_cons, not_or] at n₁ n₂
      obtain ⟨rfl, rfl⟩ := ih n₁.2 n₂.2 e₂
      exact ⟨rfl, rfl⟩

theorem firstLine_append {s l r t : Bytes} (h : FirstLine s l r) : FirstLine (s ++ t) l (r ++ t) :=
  ⟨by rw [h.1]; simp, h.2⟩

theorem isSshLine_iff (l : Bytes) : (ascii "SSH-").isPrefixOf l = true ↔ IsSshLine l := by
  rw [List.isPrefixOf_iff_prefix]
  exact ⟨fun ⟨t, h⟩ => ⟨t, h.symm⟩, fun ⟨t, h⟩ => ⟨t, h.symm⟩⟩

/-- What is known about a connection that received `stream`. -/
def VersionInv (stream : Bytes) (s : VersionSys) : Prop :=
  (s.disposed = false → s.peerVersion = none → s.buffer = stream ∧ (10 : UInt8) ∉ stream ∧ stream.length < 255) ∧
  (s.peerVersion = none → s.fed = [] ∧ s.kexInit = false) ∧
  (∀ v, s.peerVersion = some v → s.disposed = false ∧
    ∃ line rest, FirstLine stream line rest ∧ IsSshLine line ∧ v = identification line ∧
    s.fed ++ s.buffer = rest) ∧
  (s.disposed = true → (∃ line rest, FirstLine stream line rest ∧ ¬ IsSshLine line) ∨
    (255 ≤ stream.length ∧ (10 : UInt8) ∉ stream.take 255))

theorem versionInv_run (client : Bool) (es : List VersionEvent) :
    VersionInv (versionBytes es) (VersionSys.run client {} es) := by
  induction es using Aux.snoc_ind with
  | h0 => simp [VersionInv, VersionSys.run, versionBytes]
  | h1 es e ih =>
    have hrun : VersionSys.run client {} (es ++ [e]) = (VersionSys.run client {} es).onBufferedData client e := by
      simp [VersionSys.run]
    have hrec : versionBytes (es ++ [e]) = versionBytes es ++ e.chunk := by simp [versionBytes]
    rw [hrun, hrec]
    generalize VersionSys.run client {} es = s at ih ⊢
    generalize versionBytes es = S at ih ⊢
    obtain ⟨h1, h2, h3, h4⟩ := ih
    unfold VersionSys.onBufferedData
    split
    next hd =>
      refine ⟨fun h => absurd hd (by simp [h]), h2, fun v hv => absurd hd (by simp [(h3 v hv).1]), fun _ => ?_⟩
      rcases h4 hd with ⟨l, r, hl, hn⟩ | ⟨hl, hn⟩
      · exact Or.inl ⟨l, r ++ e.chunk, firstLine_append hl, hn⟩
      · right
        refine ⟨by simp; omega, ?_⟩
        rw [List.take_append_of_le_length hl]
        exact hn
    next hd =>
      have hd : s.disposed = false := by simpa using hd
      simp only
      split
      next v hv =>
        obtain ⟨_, l, r, hl, hs, hve, hf⟩ := h3 v hv
        refine ⟨fun _ h => ?_, fun h => ?_, fun w hw => ⟨hd, l, r ++ e.chunk, firstLine_append hl, hs, ?_, ?_⟩, fun h => ?_⟩
        · simp [VersionSys.feed, hv] at h
        · simp [VersionSys.feed, hv] at h
        · simp only [VersionSys.feed, hv, Option.some.injEq] at hw; rw [← hw, hve]
        · simp only [VersionSys.feed]
          rw [List.append_assoc, List.take_append_drop, ← List.append_assoc, hf]
        · simp [VersionSys.feed, hd] at h
      next hv =>
        obtain ⟨hb, hnl, hlen⟩ := h1 hd hv
        rw [hb]
        obtain ⟨hf, hk⟩ := h2 hv
        split
        next hc =>
          have hc : (10 : UInt8) ∉ S ++ e.chunk := by simpa using hc
          split
          next h255 =>
            refine ⟨fun h => by simp at h, fun _ => ⟨hf, hk⟩, fun v h => by simp [hv] at h, fun _ => Or.inr ⟨h255, ?_⟩⟩
            exact fun h => hc (List.mem_of_mem_take h)
          next h255 =>
            exact ⟨fun _ _ => ⟨rfl, hc, by omega⟩, fun _ => ⟨hf, hk⟩, fun v h => by simp [hv] at h, fun h => by simp [hd] at h⟩
        next hc =>
          have hc : (S ++ e.chunk).contains 10 = true := Decidable.of_not_not hc
          have hl := firstLine_takeWhile hc
          split
          next hp =>
            refine ⟨fun h => by simp at h, fun _ => ⟨hf, hk⟩, fun v h => by simp [hv] at h, fun _ => Or.inl ⟨_, _, hl, ?_⟩⟩
            rw [← isSshLine_iff]; exact hp
          next hp =>
            have hp : (ascii "SSH-").isPrefixOf ((S ++ e.chunk).takeWhile (· != 10)) = true := by simpa using hp
            refine ⟨fun _ h => by simp [VersionSys.feed] at h, fun h => by simp [VersionSys.feed] at h, fun w hw => ⟨hd, _, _, hl, (isSshLine_iff _).mp hp, ?_, ?_⟩, fun h => by simp [VersionSys.feed, hd] at h⟩
            · simp only [VersionSys.feed, Option.some.injEq] at hw
              rw [← hw]; rfl
            · simp only [VersionSys.feed, hf, List.nil_append, List.take_append_drop]

/-- **C51.** For every stream, however it is torn into pieces: the peer's
identification, once known, is the first line without its terminator, this line
starts with `SSH-`, and what was passed on is the beginning of the bytes behind
the line, in order (the rest is still in the buffer). -/
theorem C51_first_line (client : Bool) (es : List VersionEvent) {v : Bytes}
    (h : (VersionSys.run client {} es).peerVersion = some v) :
    ∃ line rest, FirstLine (versionBytes es) line rest ∧ IsSshLine line ∧ v = identification line ∧
      (VersionSys.run client {} es).fed ++ (VersionSys.run client {} es).buffer = rest ∧
      (VersionSys.run client {} es).disposed = false :=
  have ⟨hd, l, r, h1, h2, h3, h4⟩ := (versionInv_run client es).2.2.1 v h
  ⟨l, r, h1, h2, h3, h4, hd⟩

/-- **C51.** Before the identification is known, nothing is passed on and no key
exchange is started. -/
theorem C51_nothing_before (client : Bool) (es : List VersionEvent)
    (h : (VersionSys.run client {} es).peerVersion = none) :
    (VersionSys.run client {} es).fed = [] ∧ (VersionSys.run client {} es).kexInit = false :=
  (versionInv_run client es).2.1 h

/-- **C51.** A client starts the key exchange exactly when it knows the server's identification; a server
(which has started it at once) does not start it again here. -/
theorem C51_kexinit (client : Bool) (es : List VersionEvent) :
    (VersionSys.run client {} es).kexInit = (client && (VersionSys.run client {} es).peerVersion.isSome) := by
  induction es using Aux.snoc_ind with
  | h0 => simp [VersionSys.run]
  | h1 es e ih =>
    have hrun : VersionSys.run client {} (es ++ [e]) = (VersionSys.run client {} es).onBufferedData client e := by
      simp [VersionSys.run]
    rw [hrun]
    generalize VersionSys.run client {} es = s at ih ⊢
    unfold VersionSys.onBufferedData
    split
    · exact ih
    · simp only
      split
      · exact ih
      · split
        · split <;> exact ih
        · split
          · exact ih
          · simp [VersionSys.feed]

example : (VersionSys.run true {} [⟨ascii "SSH-2.0-x\n", 0⟩]).kexInit = true ∧
    (VersionSys.run false {} [⟨ascii "SSH-2.0-x\n", 0⟩]).kexInit = false := by decide

/-- **C51** (partial: lines of at most 254 bytes, see `C51_long_line_violated`).
The first line is accepted exactly if it starts with `SSH-`; otherwise the
connection is dropped – independent of how the bytes arrive. -/
theorem C51_accepted_partial (client : Bool) (es : List VersionEvent) {line rest : Bytes}
    (hl : FirstLine (versionBytes es) line rest) (hshort : line.length < 255) :
    (IsSshLine line → (VersionSys.run client {} es).peerVersion = some (identification line) ∧
      (VersionSys.run client {} es).disposed = false) ∧
    (¬ IsSshLine line → (VersionSys.run client {} es).disposed = true ∧
      (VersionSys.run client {} es).peerVersion = none) := by
  obtain ⟨h1, h2, h3, h4⟩ := versionInv_run client es
  generalize VersionSys.run client {} es = s at *
  have hmem : (10 : UInt8) ∈ (versionBytes es).take 255 := by
    rw [hl.1, List.append_assoc, List.take_append, List.mem_append]
    right
    obtain ⟨k, hk⟩ : ∃ k, 255 - line.length = k + 1 := ⟨254 - line.length, by omega⟩
    rw [hk]
    simp
  cases hv : s.peerVersion with
  | some v =>
    obtain ⟨hd, l, r, hl', hs, rfl, hf⟩ := h3 v hv
    obtain ⟨rfl, rfl⟩ := firstLine_unique hl hl'
    exact ⟨fun _ => ⟨rfl, hd⟩, fun hn => absurd hs hn⟩
  | none =>
    cases hd : s.disposed with
    | false => exact absurd (List.mem_of_mem_take hmem) (h1 hd hv).2.1
    | true =>
      rcases h4 hd with ⟨l, r, hl', hn⟩ | ⟨_, hn⟩
      · obtain ⟨rfl, rfl⟩ := firstLine_unique hl hl'
        exact ⟨fun hs => absurd hs hn, fun _ => ⟨rfl, rfl⟩⟩
      · exact absurd hmem hn

/-- **C51.** Without a line end, the connection is kept open exactly as long as
fewer than 255 bytes were received. -/
theorem C51_no_line (client : Bool) (es : List VersionEvent) (h : (10 : UInt8) ∉ versionBytes es) :
    ((VersionSys.run client {} es).disposed = true ↔ 255 ≤ (versionBytes es).length) ∧
    (VersionSys.run client {} es).peerVersion = none := by
  obtain ⟨h1, h2, h3, h4⟩ := versionInv_run client es
  generalize VersionSys.run client {} es = s at *
  have hno : ∀ l r, ¬ FirstLine (versionBytes es) l r := fun l r hl => h (by rw [hl.1]; simp)
  have hv : s.peerVersion = none := by
    cases hv : s.peerVersion with
    | none => rfl
    | some v => obtain ⟨_, l, r, hl, _⟩ := h3 v hv; exact absurd hl (hno l r)
  refine ⟨⟨fun hd => ?_, fun hl => ?_⟩, hv⟩
  · rcases h4 hd with ⟨l, r, hl, _⟩ | ⟨hl, _⟩
    · exact absurd hl (hno l r)
    · exact hl
  · cases hd : s.disposed with
    | true => rfl
    | false => have := (h1 hd hv).2.2; omega

/- An identification line torn in the middle, with packet data behind it. -/
example : (VersionSys.run true {} [⟨ascii "SS", 9⟩, ⟨ascii "H-2.0-x\r", 9⟩, ⟨[10, 1, 2], 1⟩, ⟨[3], 9⟩]) =
    { buffer := [], peerVersion := some (ascii "SSH-2.0-x"), fed := [1, 2, 3], kexInit := true } := by
  decide +kernel

example : FirstLine (ascii "HTTP" ++ [10] ++ [1]) (ascii "HTTP") [1] ∧ ¬ IsSshLine (ascii "HTTP") := by
  refine ⟨⟨rfl, by decide⟩, ?_⟩
  rw [← isSshLine_iff]; decide

/-- **C51** fails for lines of 255 bytes and more: whether such a line is
accepted depends on how it arrives. -/
theorem C51_long_line_violated :
    ∃ es₁ es₂ : List VersionEvent, versionBytes es₁ = versionBytes es₂ ∧
      (VersionSys.run false {} es₁).disposed = true ∧ (VersionSys.run false {} es₂).disposed = false ∧
      (VersionSys.run false {} es₂).peerVersion = some (ascii "SSH-2.0-" ++ List.replicate 247 65) :=
  ⟨[⟨ascii "SSH-2.0-" ++ List.replicate 247 65, 0⟩, ⟨[10], 0⟩],
   [⟨ascii "SSH-2.0-" ++ List.replicate 247 65 ++ [10], 0⟩], by decide +kernel, by decide +kernel,
   by decide +kernel, by decide +kernel⟩

end Lukko
