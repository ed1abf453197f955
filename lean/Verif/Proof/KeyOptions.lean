import Verif.Proof.KeyFile
/-
  Merging and transporting key options.
-/
namespace Lukko
open Model Spec

theorem deser_cons {o o' : KeyOptions} {n v rest : Bytes} (hn : n.length < 2 ^ 32) (hv : v.length < 2 ^ 32)
    (hs : o.set n v = some o') :
    deserializeKeyOptions o (str n ++ (str v ++ rest)) = deserializeKeyOptions o' rest := by
  have h1 : readString (str n ++ (str v ++ rest)) = some (n, str v ++ rest) := readString_reads hn _
  have h2 : readString (str v ++ rest) = some (v, rest) := readString_reads hv _
  rw [deserializeKeyOptions, if_neg (by simp [str, u32])]
  split
  · rename_i h; rw [h1] at h; simp at h
  · rename_i n' d1 h
    rw [h1] at h
    simp only [Option.some.injEq, Prod.mk.injEq] at h
    obtain ⟨rfl, rfl⟩ := h
    split
    · rename_i h; rw [h2] at h; simp at h
    · rename_i v' d2 h
      rw [h2] at h
      simp only [Option.some.injEq, Prod.mk.injEq] at h
      obtain ⟨rfl, rfl⟩ := h
      rw [hs]

theorem deser_nil (o : KeyOptions) : deserializeKeyOptions o [] = .ok o := by
  rw [deserializeKeyOptions, if_pos rfl]

/-- The encoded options. -/
def optionsBody (o : KeyOptions) : Bytes :=
  (if o.command ≠ [] then str (ascii "command") ++ str o.command else []) ++
  ((if o.noPortForwarding then str (ascii "no-port-forwarding") ++ str [] else []) ++
  ((if o.noPty then str (ascii "no-pty") ++ str [] else []) ++
   (if o.homeReadOnly then str (ascii "home-read-only") ++ str [] else [])))

theorem optionsBody_list (o : KeyOptions) :
    ∃ os : List (Bytes × Bytes), optionsBody o = (os.map fun e => str e.1 ++ str e.2).flatten ∧ setAll {} os = some o := by
  obtain ⟨c, a, b, d⟩ := o
  refine ⟨(if c ≠ [] then [(ascii "command", c)] else []) ++ ((if a then [(ascii "no-port-forwarding", [])] else []) ++
    ((if b then [(ascii "no-pty", [])] else []) ++ (if d then [(ascii "home-read-only", [])] else []))), ?_, ?_⟩
  · unfold optionsBody
    by_cases hc : c = [] <;> cases a <;> cases b <;> cases d <;> simp [hc]
  · have h1 : ∀ v, v ≠ [] → KeyOptions.set {} (ascii "command") v = some { command := v } := by
      intro v hv; simp [KeyOptions.set, hv]
    have h2 : ∀ o : KeyOptions, o.set (ascii "no-port-forwarding") [] = some { o with noPortForwarding := true } := fun _ => rfl
    have h3 : ∀ o : KeyOptions, o.set (ascii "no-pty") [] = some { o with noPty := true } := fun _ => rfl
    have h4 : ∀ o : KeyOptions, o.set (ascii "home-read-only") [] = some { o with homeReadOnly := true } := fun _ => rfl
    by_cases hc : c = []
    · cases a <;> cases b <;> cases d <;> simp [hc, setAll, h2, h3, h4]
    · cases a <;> cases b <;> cases d <;> simp [hc, setAll, h1 c hc, h2, h3, h4]

theorem serializeOption_ok {s s' : Ser} {n v : Bytes} (h : serializeOption s n v = .ok s') :
    s'.buf = s.buf ++ (str n ++ str v) := by
  simp only [serializeOption, bind, Except.bind] at h
  split at h
  · simp at h
  · rename_i s1 h1
    have h1 := writeString_ok h1
    have h2 := writeString_ok h
    rw [h2, h1]
    simp

theorem serialize_if {s s' : Ser} {c : Bool} {n v : Bytes}
    (h : serializeOptionIf c n v s = .ok s') :
    s'.buf = s.buf ++ (if c then str n ++ str v else []) := by
  cases c with
  | true => exact serializeOption_ok h
  | false =>
    simp only [serializeOptionIf, cond_false, Except.ok.injEq] at h
    rw [h]; simp

theorem serializeKeyOptions_ok {s s' : Ser} {o : KeyOptions} (h : serializeKeyOptions s o = .ok s') :
    s'.buf = s.buf ++ optionsBody o := by
  simp only [serializeKeyOptions, bind, Except.bind] at h
  split at h
  · simp at h
  · rename_i s1 h1
    split at h
    · simp at h
    · rename_i s2 h2
      split at h
      · simp at h
      · rename_i s3 h3
        rw [serialize_if h, serialize_if h3, serialize_if h2, serialize_if h1]
        simp [optionsBody]

theorem deser_body {o : KeyOptions} (hc : o.command.length < 2 ^ 32) :
    deserializeKeyOptions {} (optionsBody o) = .ok o := by
  obtain ⟨c, a, b, d⟩ := o
  have h0 : ([] : Bytes).length < 2 ^ 32 := by decide
  have hn1 : (ascii "command").length < 2 ^ 32 := by decide
  have hn2 : (ascii "no-port-forwarding").length < 2 ^ 32 := by decide
  have hn3 : (ascii "no-pty").length < 2 ^ 32 := by decide
  have hn4 : (ascii "home-read-only").length < 2 ^ 32 := by decide
  have e4 : ∀ c a b, deserializeKeyOptions ⟨c, a, b, false⟩ (if d then str (ascii "home-read-only") ++ str [] else []) =
      .ok ⟨c, a, b, d⟩ := by
    intro c a b
    cases d with
    | false => exact deser_nil _
    | true =>
      have := deser_cons (o := ⟨c, a, b, false⟩) (o' := ⟨c, a, b, true⟩) (rest := []) hn4 h0 rfl
      simp only [List.append_nil] at this
      rw [if_pos rfl, this, deser_nil]
  have e3 : ∀ c a, deserializeKeyOptions ⟨c, a, false, false⟩ ((if b then str (ascii "no-pty") ++ str [] else []) ++
      (if d then str (ascii "home-read-only") ++ str [] else [])) = .ok ⟨c, a, b, d⟩ := by
    intro c a
    cases b with
    | false => exact e4 c a false
    | true =>
      rw [if_pos rfl, List.append_assoc, deser_cons (o' := ⟨c, a, true, false⟩) hn3 h0 rfl]
      exact e4 c a true
  have e2 : ∀ c, deserializeKeyOptions ⟨c, false, false, false⟩ ((if a then str (ascii "no-port-forwarding") ++ str [] else []) ++
      ((if b then str (ascii "no-pty") ++ str [] else []) ++
      (if d then str (ascii "home-read-only") ++ str [] else []))) = .ok ⟨c, a, b, d⟩ := by
    intro c
    cases a with
    | false => exact e3 c false
    | true =>
      rw [if_pos rfl, List.append_assoc, deser_cons (o' := ⟨c, true, false, false⟩) hn2 h0 rfl]
      exact e3 c true
  unfold optionsBody
  by_cases hce : c = []
  · subst hce
    exact e2 []
  · simp only [hce, ne_eq, not_false_eq_true, if_true, List.append_assoc]
    rw [deser_cons (o' := ⟨c, false, false, false⟩) hn1 hc (by simp [KeyOptions.set, hce])]
    exact e2 c

/-- `DeserializeAuthorizedKeyOptions` accepts exactly lists of supported options. -/
theorem deser_sound {o r : KeyOptions} {d : Bytes} (h : deserializeKeyOptions o d = .ok r) :
    ∃ os : List (Bytes × Bytes), d = (os.map fun e => str e.1 ++ str e.2).flatten ∧ setAll o os = some r := by
  fun_induction deserializeKeyOptions o d with
  | case1 o => simp only [Except.ok.injEq] at h; subst h; exact ⟨[], rfl, rfl⟩
  | case2 => simp at h
  | case3 => simp at h
  | case4 => simp at h
  | case5 o d hd name d1 h1 value d2 h2 o' hs ih =>
    obtain ⟨os, hos, hset⟩ := ih h
    refine ⟨(name, value) :: os, ?_, ?_⟩
    · rw [(readString_inv h1).1, (readString_inv h2).1, hos]
      simp
    · simp [setAll, hs, hset]

end Lukko
