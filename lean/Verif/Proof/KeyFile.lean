import Verif.Model.KeyFile
import Verif.Spec.KeyFile
import Verif.Proof.Parse
/-
  The parser of authorized_keys lines agrees with the grammar.
-/
namespace Lukko
open Model Spec

theorem restrictions_inj {a b : KeyOptions} (h : a.restrictions = b.restrictions) : a = b := by
  obtain ⟨c, x, y, z⟩ := a
  obtain ⟨c', x', y', z'⟩ := b
  simp only [KeyOptions.restrictions, Restrictions.mk.injEq] at h
  obtain ⟨h1, rfl, rfl, rfl⟩ := h
  have : c = c' := by
    split at h1 <;> split at h1 <;> simp_all
  rw [this]

theorem set_spec (o : KeyOptions) (name value : Bytes) :
    (o.set name value).map KeyOptions.restrictions = applyOption o.restrictions (name, value) := by
  unfold KeyOptions.set applyOption
  by_cases h0 : name = ascii "command"
  · subst h0
    rw [if_pos rfl, if_pos rfl]
    by_cases hv : value = []
    · simp [hv]
    · simp [hv, KeyOptions.restrictions]
  by_cases h1 : name = ascii "port-forwarding"
  · subst h1; by_cases hv : value = [] <;> simp [hv, ignoredOptions, flagOptions, ascii, KeyOptions.restrictions]
  by_cases h2 : name = ascii "no-port-forwarding"
  · subst h2; by_cases hv : value = [] <;> simp [hv, ignoredOptions, flagOptions, ascii, KeyOptions.restrictions]
  by_cases h3 : name = ascii "pty"
  · subst h3; by_cases hv : value = [] <;> simp [hv, ignoredOptions, flagOptions, ascii, KeyOptions.restrictions]
  by_cases h4 : name = ascii "no-pty"
  · subst h4; by_cases hv : value = [] <;> simp [hv, ignoredOptions, flagOptions, ascii, KeyOptions.restrictions]
  by_cases h5 : name = ascii "restrict"
  · subst h5; by_cases hv : value = [] <;> simp [hv, ignoredOptions, flagOptions, ascii, KeyOptions.restrictions]
  by_cases h8 : name = ascii "home-read-only"
  · subst h8; simp [ascii, KeyOptions.restrictions]
  have hf : (flagOptions.find? fun e => name == ascii e.1) = none := by
    simp [flagOptions, h1, h2, h3, h4, h5]
  by_cases h6 : name = ascii "user-rc" ∨ name = ascii "no-user-rc"
  · rw [if_neg h0, if_neg h1, if_neg h2, if_neg h3, if_neg h4, if_neg h5, if_pos h6, if_neg h0, if_neg h8,
      if_pos (by simp only [ignoredOptions, List.map_cons, List.map_nil, List.mem_cons]; rcases h6 with h | h <;> simp [h])]
    rfl
  by_cases h7 : name = ascii "agent-forwarding" ∨ name = ascii "no-agent-forwarding" ∨
      name = ascii "X11-forwarding" ∨ name = ascii "no-X11-forwarding"
  · rw [if_neg h0, if_neg h1, if_neg h2, if_neg h3, if_neg h4, if_neg h5, if_neg h6, if_pos h7, if_neg h0, if_neg h8,
      if_pos (by simp only [ignoredOptions, List.map_cons, List.map_nil, List.mem_cons]; rcases h7 with h | h | h | h <;> simp [h])]
    rfl
  rw [if_neg h0, if_neg h1, if_neg h2, if_neg h3, if_neg h4, if_neg h5, if_neg h6, if_neg h7, if_neg h8, if_neg h0, if_neg h8,
    if_neg (by
      simp only [ignoredOptions, List.map_cons, List.map_nil, List.mem_cons, List.not_mem_nil, or_false]
      rintro (h | h | h | h | h | h)
      · exact h6 (.inl h)
      · exact h6 (.inr h)
      · exact h7 (.inl h)
      · exact h7 (.inr (.inl h))
      · exact h7 (.inr (.inr (.inl h)))
      · exact h7 (.inr (.inr (.inr h)))), hf]
  simp

/-- Syntax only. -/
def optList (s : Bytes) : Option (List (Bytes × Bytes) × Bytes) :=
  match h : parseOptionName s with
  | none => none
  | some (name, rest) =>
    match h2 : (optionValue rest).2 with
    | 32 :: s => some ([(name, (optionValue rest).1)], stripLeft s)
    | 44 :: s => (optList s).map fun r => ((name, (optionValue rest).1) :: r.1, r.2)
    | _ => none
termination_by s.length
decreasing_by
  have h1 := parseOptionName_shorter h
  have h3 := optionValue_length rest
  rw [h2] at h3
  simp at h3
  omega

/-- All options applied to the program's fields. -/
def setAll (o : KeyOptions) : List (Bytes × Bytes) → Option KeyOptions
  | [] => some o
  | (n, v) :: os => (o.set n v).bind fun o => setAll o os

theorem setAll_spec (os : List (Bytes × Bytes)) : ∀ o : KeyOptions,
    (setAll o os).map KeyOptions.restrictions = applyOptions o.restrictions os := by
  induction os with
  | nil => intro o; rfl
  | cons e os ih =>
    obtain ⟨n, v⟩ := e
    intro o
    have h := set_spec o n v
    simp only [setAll, applyOptions]
    rw [← h]
    cases o.set n v with
    | none => rfl
    | some o' => exact ih o'

theorem parseOptions_split (o : KeyOptions) (s : Bytes) :
    parseOptions o s = (optList s).bind fun r => (setAll o r.1).map fun o => (o, r.2) := by
  fun_induction parseOptions o s with
  | case1 o s h => rw [optList]; split <;> simp_all
  | case2 o s name rest h hset =>
    rw [optList]
    split
    · simp
    · rename_i name' rest' h'
      rw [h] at h'
      simp only [Option.some.injEq, Prod.mk.injEq] at h'
      obtain ⟨rfl, rfl⟩ := h'
      split
      · simp [setAll, hset]
      · rename_i s' _
        cases optList s' <;> simp [setAll, hset]
      · simp
  | case3 o s name rest h o' hset t h2 =>
    rw [optList]
    split
    · simp_all
    · rename_i name' rest' h'
      rw [h] at h'
      simp only [Option.some.injEq, Prod.mk.injEq] at h'
      obtain ⟨rfl, rfl⟩ := h'
      split
      · rename_i s' h2'
        rw [h2] at h2'
        simp only [List.cons.injEq, true_and] at h2'
        subst h2'
        simp [setAll, hset]
      · rename_i s' h2'
        rw [h2] at h2'
        simp at h2'
      · rename_i hx _; exact absurd h2 (hx t)
  | case4 o s name rest h o' hset t h2 ih =>
    rw [optList]
    split
    · simp_all
    · rename_i name' rest' h'
      rw [h] at h'
      simp only [Option.some.injEq, Prod.mk.injEq] at h'
      obtain ⟨rfl, rfl⟩ := h'
      split
      · rename_i s' h2'
        rw [h2] at h2'
        simp at h2'
      · rename_i s' h2'
        rw [h2] at h2'
        simp only [List.cons.injEq, true_and] at h2'
        subst h2'
        rw [ih]
        cases optList t with
        | none => rfl
        | some r => simp [setAll, hset]
      · rename_i hx; exact absurd h2 (hx t)
  | case5 o s name rest h o' hset hx hy =>
    rw [optList]
    split
    · simp_all
    · rename_i name' rest' h'
      rw [h] at h'
      simp only [Option.some.injEq, Prod.mk.injEq] at h'
      obtain ⟨rfl, rfl⟩ := h'
      split
      · rename_i s' h2'; exact absurd h2' (hx s')
      · rename_i s' h2'; exact absurd h2' (hy s')
      · rfl

/-! ### Names and values -/

theorem isOptionName_iff {n : Bytes} : IsOptionName n ↔ ∃ c t, n = c :: t ∧ isLowerAlpha c = true ∧
    ∀ x ∈ t, isOptionNameChar x = true := by
  simp [IsOptionName, isLowerAlpha, isOptionNameChar]

theorem takeWhile_append_stop {α} {p : α → Bool} {a : List α} {c : α} {t : List α} (ha : ∀ x ∈ a, p x = true) (hc : p c = false) :
    (a ++ c :: t).takeWhile p = a ∧ (a ++ c :: t).dropWhile p = c :: t := by
  induction a with
  | nil => simp [hc]
  | cons x a ih =>
    have hx : p x = true := ha x (by simp)
    have ih := ih fun y hy => ha y (by simp [hy])
    simp [hx, ih]

theorem takeWhile_all {α} {p : α → Bool} {s : List α} : ∀ x ∈ s.takeWhile p, p x = true := by
  induction s with
  | nil => simp
  | cons a s ih =>
    rw [List.takeWhile_cons]
    split
    · rename_i h; simp only [List.mem_cons]; rintro x (rfl | hx); · exact h
      · exact ih x hx
    · simp

theorem dropWhile_head {α} {p : α → Bool} {s : List α} {c t} (h : s.dropWhile p = c :: t) : p c = false := by
  induction s with
  | nil => simp at h
  | cons a s ih =>
    rw [List.dropWhile_cons] at h
    split at h
    · exact ih h
    · rename_i hp
      simp only [List.cons.injEq] at h
      rw [← h.1]; simpa using hp

theorem parseOptionName_sound {s n r} (h : parseOptionName s = some (n, r)) :
    s = n ++ r ∧ IsOptionName n ∧ ∃ c t, r = c :: t ∧ isOptionNameChar c = false := by
  cases s with
  | nil => simp [parseOptionName] at h
  | cons c s =>
    simp only [parseOptionName] at h
    split at h
    · rename_i hc
      split at h
      · simp at h
      · rename_i r' rest heq
        simp only [Option.some.injEq, Prod.mk.injEq] at h
        obtain ⟨rfl, rfl⟩ := h
        refine ⟨?_, isOptionName_iff.mpr ⟨c, _, rfl, hc, takeWhile_all⟩, _, _, rfl, dropWhile_head heq⟩
        rw [List.cons_append, ← heq, List.takeWhile_append_dropWhile]
    · simp at h

theorem parseOptionName_complete {n c t} (h : IsOptionName n) (hc : isOptionNameChar c = false) :
    parseOptionName (n ++ c :: t) = some (n, c :: t) := by
  obtain ⟨x, u, rfl, hx, hu⟩ := isOptionName_iff.mp h
  obtain ⟨h1, h2⟩ := takeWhile_append_stop (t := t) hu hc
  simp only [List.cons_append, parseOptionName, hx, if_true, h1, h2]

theorem parseQuoted_sound {w s v r} (h : parseQuoted w s = some (v, r)) :
    ∃ q u, s = q ++ 34 :: r ∧ QuotedText q u ∧ v = w ++ u := by
  fun_induction parseQuoted w s with
  | case1 => simp at h
  | case2 w rest =>
    simp only [Option.some.injEq, Prod.mk.injEq] at h
    obtain ⟨rfl, rfl⟩ := h
    exact ⟨[], [], by simp, .nil, by simp⟩
  | case3 => simp at h
  | case4 w c rest ih =>
    obtain ⟨q, u, rfl, hq, rfl⟩ := ih h
    exact ⟨92 :: c :: q, c :: u, by simp, .escaped hq, by simp⟩
  | case5 w c rest h1 h2 h3 ih =>
    obtain ⟨q, u, rfl, hq, rfl⟩ := ih h
    refine ⟨c :: q, c :: u, by simp, .plain ?_ ?_ hq, by simp⟩
    · rintro rfl; exact h1 rfl
    · rintro rfl
      cases q with
      | nil => exact h3 _ _ rfl rfl
      | cons a q => exact h3 _ _ rfl rfl

theorem parseQuoted_complete {q u} (hq : QuotedText q u) : ∀ w r, parseQuoted w (q ++ 34 :: r) = some (w ++ u, r) := by
  induction hq with
  | nil => intro w r; simp [parseQuoted]
  | @plain c s v h1 h2 hq ih =>
    intro w r
    rw [List.cons_append]
    have : parseQuoted w (c :: (s ++ 34 :: r)) = parseQuoted (w ++ [c]) (s ++ 34 :: r) := by
      cases s <;> rw [parseQuoted] <;> simp_all
    rw [this, ih]
    simp
  | @escaped c s v hq ih =>
    intro w r
    simp only [List.cons_append, parseQuoted]
    rw [ih]
    simp

theorem parseOptionValue_sound {s v c r} (h : parseOptionValue s = (v, c :: r)) (hc : c = 44 ∨ c = 32) :
    (∃ q, s = 34 :: (q ++ 34 :: c :: r) ∧ QuotedText q v) ∨
    (s = v ++ c :: r ∧ (∀ x ∈ v, x ≠ 44 ∧ x ≠ 32) ∧ v.head? ≠ some 34) := by
  unfold parseOptionValue at h
  split at h
  · rename_i s
    left
    cases hq : parseQuoted [] s with
    | none => rw [hq] at h; simp at h
    | some vr =>
      rw [hq] at h
      simp only [Option.getD_some] at h
      subst h
      obtain ⟨q, u, rfl, h1, rfl⟩ := parseQuoted_sound hq
      exact ⟨q, rfl, by simpa using h1⟩
  · rename_i hs
    right
    simp only [Prod.mk.injEq] at h
    obtain ⟨rfl, h2⟩ := h
    refine ⟨?_, fun x hx => ?_, ?_⟩
    · rw [← h2, List.takeWhile_append_dropWhile]
    · have := takeWhile_all x hx
      simpa [isValueChar] using this
    · cases s with
      | nil => simp
      | cons a s =>
        have ha : a ≠ 34 := by rintro rfl; exact hs _ rfl
        rw [List.takeWhile_cons]
        split <;> simp [ha]

theorem optionValue_sound {n r v c t} (hn : IsOptionName n) (h : optionValue r = (v, c :: t)) (hc : c = 44 ∨ c = 32) :
    ∃ vt, r = vt ++ c :: t ∧ OptionText (n ++ vt) (n, v) := by
  unfold optionValue at h
  split at h
  · rename_i s
    rcases parseOptionValue_sound h hc with ⟨q, rfl, hq⟩ | ⟨rfl, h1, h2⟩
    · exact ⟨61 :: 34 :: (q ++ [34]), by simp, .quoted hn hq⟩
    · exact ⟨61 :: v, by simp, .plain hn h1 h2⟩
  · simp only [Prod.mk.injEq] at h
    obtain ⟨rfl, rfl⟩ := h
    exact ⟨[], by simp, by simpa using OptionText.bare hn⟩

theorem optList_one {s o c t} (h : OptionText s o) (hc : c = 44 ∨ c = 32) :
    ∃ r, parseOptionName (s ++ c :: t) = some (o.1, r) ∧ optionValue r = (o.2, c :: t) := by
  have hcn : isOptionNameChar c = false := by rcases hc with rfl | rfl <;> decide
  have hcv : isValueChar c = false := by rcases hc with rfl | rfl <;> decide
  cases h with
  | bare hn =>
    refine ⟨_, parseOptionName_complete hn hcn, ?_⟩
    unfold optionValue
    split
    · rename_i heq; simp only [List.cons.injEq] at heq; rcases hc with rfl | rfl <;> simp at heq
    · rfl
  | @plain n v hn hv hq =>
    refine ⟨61 :: (v ++ c :: t), ?_, ?_⟩
    · rw [List.append_assoc, List.cons_append]
      exact parseOptionName_complete hn (by decide)
    · simp only [optionValue]
      unfold parseOptionValue
      split
      · rename_i s heq
        cases v with
        | nil => simp only [List.nil_append, List.cons.injEq] at heq; rcases hc with rfl | rfl <;> simp at heq
        | cons a v => simp only [List.cons_append, List.cons.injEq] at heq; simp [heq.1] at hq
      · obtain ⟨h1, h2⟩ := takeWhile_append_stop (t := t) (p := isValueChar)
          (fun x hx => by simpa [isValueChar] using hv x hx) hcv
        rw [h1, h2]
  | @quoted n s v hn hq =>
    refine ⟨61 :: 34 :: (s ++ 34 :: c :: t), ?_, ?_⟩
    · have : n ++ 61 :: 34 :: (s ++ [34]) ++ c :: t = n ++ 61 :: (34 :: (s ++ 34 :: c :: t)) := by simp
      rw [this]
      exact parseOptionName_complete hn (by decide)
    · simp only [optionValue, parseOptionValue]
      rw [parseQuoted_complete hq]
      simp

theorem optList_complete {s os} (h : OptionsText s os) : ∀ t, optList (s ++ 32 :: t) = some (os, stripLeft t) := by
  induction h with
  | one h1 =>
    intro t
    obtain ⟨r, h2, h3⟩ := optList_one (t := t) h1 (.inr rfl)
    rw [optList]
    split
    · simp_all
    · rename_i heq
      rw [h2] at heq
      simp only [Option.some.injEq, Prod.mk.injEq] at heq
      obtain ⟨rfl, rfl⟩ := heq
      split
      · rename_i heq; rw [h3] at heq; simp only [List.cons.injEq, true_and] at heq; subst heq; simp [h3]
      · rename_i heq; rw [h3] at heq; simp at heq
      · rename_i hx _; exact absurd (by rw [h3]) (hx t)
  | @more s o u os h1 _ ih =>
    intro t
    have hs : s ++ 44 :: u ++ 32 :: t = s ++ 44 :: (u ++ 32 :: t) := by simp
    rw [hs]
    obtain ⟨r, h2, h3⟩ := optList_one (t := u ++ 32 :: t) h1 (.inl rfl)
    rw [optList]
    split
    · simp_all
    · rename_i heq
      rw [h2] at heq
      simp only [Option.some.injEq, Prod.mk.injEq] at heq
      obtain ⟨rfl, rfl⟩ := heq
      split
      · rename_i heq; rw [h3] at heq; simp at heq
      · rename_i heq; rw [h3] at heq; simp only [List.cons.injEq, true_and] at heq; subst heq; rw [ih]; simp [h3]
      · rename_i hx; exact absurd (by rw [h3]) (hx (u ++ 32 :: t))

theorem optList_sound {s os rest} (h : optList s = some (os, rest)) :
    ∃ o t, s = o ++ 32 :: t ∧ OptionsText o os ∧ rest = stripLeft t := by
  fun_induction optList s generalizing os rest with
  | case1 => simp at h
  | case2 s name r h1 t h2 =>
    obtain ⟨rfl, hn, _⟩ := parseOptionName_sound h1
    simp only [Option.some.injEq, Prod.mk.injEq] at h
    obtain ⟨rfl, rfl⟩ := h
    obtain ⟨vt, rfl, ho⟩ := optionValue_sound hn (Prod.ext rfl h2) (.inr rfl)
    exact ⟨name ++ vt, t, by simp, .one ho, rfl⟩
  | case3 s name r h1 t h2 ih =>
    obtain ⟨rfl, hn, _⟩ := parseOptionName_sound h1
    cases ht : optList t with
    | none => rw [ht] at h; simp at h
    | some x =>
      obtain ⟨os', rest'⟩ := x
      rw [ht] at h
      simp only [Option.map_some, Option.some.injEq, Prod.mk.injEq] at h
      obtain ⟨rfl, rfl⟩ := h
      obtain ⟨o, u, rfl, ho, rfl⟩ := ih ht
      obtain ⟨vt, rfl, ho'⟩ := optionValue_sound hn (Prod.ext rfl h2) (.inl rfl)
      exact ⟨name ++ vt ++ 44 :: o, u, by simp, .more ho' ho, rfl⟩
  | case4 => simp at h

/-! ### Lines -/

theorem keyType_iff (t : Bytes) : maybeSupportsKeyType t = true ↔ IsKeyType t := by
  simp [maybeSupportsKeyType, IsKeyType]

theorem stripLeft_blank {b s : Bytes} (hb : IsBlank b) (hs : ∃ c t, s = c :: t ∧ 32 < c) : stripLeft (b ++ s) = s := by
  obtain ⟨c, t, rfl, hc⟩ := hs
  exact (takeWhile_append_stop (fun x hx => by simpa using hb x hx) (by simpa using hc)).2

theorem stripLeft_split (s : Bytes) : ∃ b, IsBlank b ∧ s = b ++ stripLeft s ∧
    (stripLeft s = [] ∨ ∃ c t, stripLeft s = c :: t ∧ 32 < c) := by
  refine ⟨s.takeWhile (fun c => c ≤ 32), fun x hx => by simpa using takeWhile_all x hx,
    (List.takeWhile_append_dropWhile).symm, ?_⟩
  cases h : stripLeft s with
  | nil => exact .inl rfl
  | cons c t => exact .inr ⟨c, t, rfl, by simpa using dropWhile_head h⟩

theorem mem_takeWhile_ne {s : Bytes} : (32 : UInt8) ∉ s.takeWhile (· != 32) := by
  intro h; simpa using takeWhile_all _ h

theorem splitSpace_word {w t : Bytes} (h : 32 ∉ w) : splitSpace (w ++ 32 :: t) = (w, t) := by
  obtain ⟨h1, h2⟩ := takeWhile_append_stop (p := (· != (32 : UInt8))) (a := w) (c := 32) (t := t)
    (fun x hx => by simp only [bne_iff_ne, ne_eq]; rintro rfl; exact h hx) (by simp)
  simp [splitSpace, h1, h2]

theorem takeWhile_id {w : Bytes} (h : 32 ∉ w) : w.takeWhile (· != 32) = w := by
  induction w with
  | nil => rfl
  | cons a w ih =>
    simp only [List.mem_cons, not_or] at h
    rw [List.takeWhile_cons, if_pos (by simp only [bne_iff_ne, ne_eq]; exact fun e => h.1 e.symm), ih h.2]

theorem splitSpace_tail {w tail : Bytes} (h : 32 ∉ w) (ht : tail = [] ∨ ∃ t, tail = 32 :: t) :
    (splitSpace (w ++ tail)).1 = w := by
  rcases ht with rfl | ⟨t, rfl⟩
  · rw [List.append_nil]; exact takeWhile_id h
  · rw [splitSpace_word h]

theorem keyText_iff {s b64 : Bytes} : KeyText s b64 ↔
    (∃ c t, s = c :: t ∧ 32 < c) ∧ (splitSpace (splitSpace s).2).1 = b64 ∧ b64 ≠ [] := by
  constructor
  · rintro ⟨⟨ty, tail, rfl, h1, ⟨c, t, rfl, hc⟩, h3⟩, h4, h5⟩
    refine ⟨⟨c, _, rfl, hc⟩, ?_, h5⟩
    rw [splitSpace_word h1]
    exact splitSpace_tail h4 h3
  · rintro ⟨⟨c, t, rfl, hc⟩, h1, h2⟩
    have hc' : (c != 32) = true := by
      simp only [bne_iff_ne, ne_eq]; rintro rfl; exact absurd hc (by decide)
    have hsp : ∃ u, (c :: t).dropWhile (· != 32) = 32 :: u := by
      cases h : (c :: t).dropWhile (· != 32) with
      | nil => exfalso; apply h2; rw [← h1]; simp [splitSpace, h]
      | cons x u =>
        have := dropWhile_head h
        simp only [bne_eq_false_iff_eq] at this
        exact ⟨u, by rw [this]⟩
    obtain ⟨u, hu⟩ := hsp
    have h3 : (splitSpace (c :: t)).2 = u := by simp [splitSpace, hu]
    rw [h3] at h1
    subst h1
    refine ⟨⟨(c :: t).takeWhile (· != 32), u.dropWhile (· != 32), ?_, mem_takeWhile_ne, ?_, ?_⟩, mem_takeWhile_ne, h2⟩
    · simp only [splitSpace, List.takeWhile_append_dropWhile]
      rw [← hu, List.takeWhile_append_dropWhile]
    · rw [List.takeWhile_cons, if_pos hc']; exact ⟨c, _, rfl, hc⟩
    · cases h : u.dropWhile (· != 32) with
      | nil => exact .inl rfl
      | cons x v =>
        have := dropWhile_head h
        simp only [bne_eq_false_iff_eq] at this
        exact .inr ⟨v, by rw [this]⟩

theorem firstWord_append {o t : Bytes} : firstWord (o ++ 32 :: t) = firstWord (o ++ [32]) := by
  induction o with
  | nil => simp [firstWord]
  | cons a o ih =>
    simp only [firstWord, List.cons_append] at ih ⊢
    rw [List.takeWhile_cons, List.takeWhile_cons, ih]

theorem optionsText_head {o os} (h : OptionsText o os) : ∃ c t, o = c :: t ∧ 97 ≤ c := by
  have key : ∀ {o e}, OptionText o e → ∃ c t, o = c :: t ∧ 97 ≤ c := by
    intro o e h
    cases h with
    | bare hn => obtain ⟨c, t, rfl, hc, _⟩ := hn; exact ⟨c, t, rfl, hc.1⟩
    | plain hn => obtain ⟨c, t, rfl, hc, _⟩ := hn; exact ⟨c, _, rfl, hc.1⟩
    | quoted hn => obtain ⟨c, t, rfl, hc, _⟩ := hn; exact ⟨c, _, rfl, hc.1⟩
  cases h with
  | one h => exact key h
  | more h => obtain ⟨c, t, rfl, hc⟩ := key h; exact ⟨c, _, rfl, hc⟩

theorem lower_gt {c : UInt8} (h : 97 ≤ c) : 32 < c ∧ c ≠ 35 := by
  rw [UInt8.le_iff_toNat_le] at h
  rw [UInt8.lt_iff_toNat_lt]
  refine ⟨?_, ?_⟩
  · have : (97 : UInt8).toNat = 97 := rfl
    have : (32 : UInt8).toNat = 32 := rfl
    omega
  · rintro rfl; exact absurd h (by decide)

theorem keyType_head {s : Bytes} (h : IsKeyType (firstWord s)) : ∃ c t, s = c :: t ∧ 97 ≤ c := by
  cases s with
  | nil => rcases h with ⟨u, h⟩ | ⟨u, h⟩ <;> simp [firstWord, ascii] at h
  | cons c t =>
    refine ⟨c, t, rfl, ?_⟩
    rw [firstWord, List.takeWhile_cons] at h
    split at h
    · rcases h with ⟨u, h⟩ | ⟨u, h⟩ <;>
      · simp only [ascii, String.toList, List.map_cons] at h
        have := (List.cons.inj h).1
        rw [← this]; decide
    · rcases h with ⟨u, h⟩ | ⟨u, h⟩ <;> simp [ascii] at h

/-- The body of `extractBlob` after the blanks. -/
theorem extractBlob_of {line s : Bytes} (h : stripLeft line = s) (hs : ∃ c t, s = c :: t ∧ c ≠ 35) :
    extractBlob line =
      if maybeSupportsKeyType (splitSpace s).1 then ((splitSpace (splitSpace s).2).1, {})
      else match parseOptions {} s with
        | none => ([], {})
        | some (o, line) => ((splitSpace (splitSpace line).2).1, o) := by
  obtain ⟨c, t, rfl, hc⟩ := hs
  unfold extractBlob
  rw [h]
  split
  · rename_i heq; simp at heq
  · rename_i heq; simp only [List.cons.injEq] at heq; exact absurd heq.1 hc
  · rfl

theorem extractBlob_complete {line b64 os o} (h : KeyLine line b64 os) (ho : setAll {} os = some o) :
    extractBlob line = (b64, o) := by
  cases h with
  | @plain blanks s b64 h1 h2 h3 =>
    obtain ⟨c, t, hs, hc⟩ := keyType_head h3
    have hc := lower_gt hc
    rw [extractBlob_of (stripLeft_blank h1 ⟨c, t, hs, hc.1⟩) ⟨c, t, hs, hc.2⟩, if_pos ((keyType_iff (splitSpace s).1).mpr h3)]
    simp only [setAll, Option.some.injEq] at ho
    subst ho
    rw [(keyText_iff.mp h2).2.1]
  | @withOptions blanks ot os blanks' s b64 h1 h2 h3 h4 h5 =>
    obtain ⟨c, t, hs, hc⟩ := optionsText_head h2
    have hc := lower_gt hc
    have hs' : ot ++ 32 :: (blanks' ++ s) = c :: (t ++ 32 :: (blanks' ++ s)) := by rw [hs]; rfl
    rw [extractBlob_of (stripLeft_blank h1 ⟨c, _, hs', hc.1⟩) ⟨c, _, hs', hc.2⟩, if_neg ?_,
      parseOptions_split, optList_complete h2, stripLeft_blank h3 (keyText_iff.mp h4).1]
    · simp only [Option.bind_some, ho, Option.map_some]
      rw [(keyText_iff.mp h4).2.1]
    · rw [keyType_iff, ← firstWord_append (t := blanks' ++ s)] at *
      exact h5

theorem extractBlob_sound {line b64 o} (h : extractBlob line = (b64, o)) (hb : b64 ≠ []) :
    ∃ os, KeyLine line b64 os ∧ setAll {} os = some o := by
  obtain ⟨b, h1, h2, h3⟩ := stripLeft_split line
  rcases h3 with h3 | ⟨c, t, h3, hc⟩
  · exfalso
    unfold extractBlob at h
    rw [h3] at h
    simp only [Prod.mk.injEq] at h
    exact hb h.1.symm
  by_cases hc35 : c = 35
  · exfalso
    unfold extractBlob at h
    rw [h3, hc35] at h
    simp only [Prod.mk.injEq] at h
    exact hb h.1.symm
  rw [extractBlob_of h3 ⟨c, t, rfl, hc35⟩] at h
  rw [h3] at h2
  split at h
  · rename_i hk
    simp only [Prod.mk.injEq] at h
    obtain ⟨hb', rfl⟩ := h
    refine ⟨[], ?_, rfl⟩
    rw [h2]
    exact .plain h1 (keyText_iff.mpr ⟨⟨c, t, rfl, hc⟩, hb', hb⟩) ((keyType_iff _).mp hk)
  · rename_i hk
    split at h
    · simp only [Prod.mk.injEq] at h
      exact absurd h.1.symm hb
    · rename_i o' rest hp
      rw [parseOptions_split] at hp
      cases hl : optList (c :: t) with
      | none => rw [hl] at hp; simp at hp
      | some r =>
        obtain ⟨os, rest'⟩ := r
        rw [hl] at hp
        simp only [Option.bind_some, Option.map_eq_some_iff, Prod.mk.injEq] at hp
        obtain ⟨o'', ho, rfl, rfl⟩ := hp
        simp only [Prod.mk.injEq] at h
        obtain ⟨hb', rfl⟩ := h
        obtain ⟨ot, u, hct, hot, rfl⟩ := optList_sound hl
        obtain ⟨b', g1, g2, g3⟩ := stripLeft_split u
        refine ⟨os, ?_, ho⟩
        have g4 : ∃ c t, stripLeft u = c :: t ∧ 32 < c := by
          rcases g3 with g3 | g3
          · rw [g3] at hb'; exact absurd hb'.symm hb
          · exact g3
        rw [h2, hct, g2]
        refine .withOptions h1 hot g1 (keyText_iff.mpr ⟨g4, hb', hb⟩) ?_
        intro hkt
        rw [← firstWord_append (t := u), ← hct] at hkt
        exact hk ((keyType_iff _).mpr hkt)

/-- A line has at most one reading. -/
theorem keyLine_unique {line b64 os b64' os'} (h : KeyLine line b64 os) (h' : KeyLine line b64' os') : os = os' := by
  have strip : ∀ {line b64 os}, KeyLine line b64 os →
      (os = [] ∧ IsKeyType (firstWord (stripLeft line))) ∨
      (¬ IsKeyType (firstWord (stripLeft line)) ∧ ∃ r, optList (stripLeft line) = some (os, r)) := by
    intro line b64 os h
    cases h with
    | @plain blanks s b64 h1 h2 h3 =>
      obtain ⟨c, t, hs, hc⟩ := keyType_head h3
      rw [stripLeft_blank h1 ⟨c, t, hs, (lower_gt hc).1⟩]
      exact .inl ⟨rfl, h3⟩
    | @withOptions blanks ot os blanks' s b64 h1 h2 h3 h4 h5 =>
      obtain ⟨c, t, hs, hc⟩ := optionsText_head h2
      have hs' : ot ++ 32 :: (blanks' ++ s) = c :: (t ++ 32 :: (blanks' ++ s)) := by rw [hs]; rfl
      rw [stripLeft_blank h1 ⟨c, _, hs', (lower_gt hc).1⟩, firstWord_append]
      exact .inr ⟨h5, _, optList_complete h2 _⟩
  rcases strip h with ⟨h1, h2⟩ | ⟨h1, r, h2⟩ <;> rcases strip h' with ⟨h3, h4⟩ | ⟨h3, r', h4⟩
  · rw [h1, h3]
  · exact absurd h2 h3
  · exact absurd h4 h1
  · rw [h2] at h4
    simp only [Option.some.injEq, Prod.mk.injEq] at h4
    exact h4.1

theorem lineContains_eq (decode : Bytes → Option Bytes) (line needle : Bytes) :
    lineContains decode line needle =
      if (extractBlob line).1 = [] then none
      else if decode (extractBlob line).1 = some needle then some (extractBlob line).2 else none := by
  unfold lineContains
  cases h : extractBlob line with
  | mk b o =>
    cases b with
    | nil => simp
    | cons c t =>
      simp only [reduceCtorEq, if_false]
      cases hd : decode (c :: t) with
      | none => simp
      | some x => simp [Option.some.injEq]

theorem lineContains_iff {decode : Bytes → Option Bytes} {line key : Bytes} {o : KeyOptions} :
    lineContains decode line key = some o ↔ Grants decode line key o.restrictions := by
  rw [lineContains_eq]
  constructor
  · intro h
    split at h
    · simp at h
    · rename_i hb
      split at h
      · rename_i hd
        simp only [Option.some.injEq] at h
        obtain ⟨os, h1, h2⟩ := extractBlob_sound (b64 := (extractBlob line).1) (o := (extractBlob line).2) rfl hb
        refine ⟨_, os, h1, hd, ?_⟩
        have := setAll_spec os {}
        rw [h2, h] at this
        exact this.symm
      · simp at h
  · rintro ⟨b64, os, h1, h2, h3⟩
    have hs := setAll_spec os {}
    have h3' : applyOptions ({} : KeyOptions).restrictions os = some o.restrictions := h3
    rw [h3'] at hs
    simp only [Option.map_eq_some_iff] at hs
    obtain ⟨o', ho', hr⟩ := hs
    have := restrictions_inj hr
    subst this
    rw [extractBlob_complete h1 ho', if_neg ?_, if_pos h2]
    cases h1 with
    | plain _ h => exact h.nonempty
    | withOptions _ _ _ h => exact h.nonempty

/-! ### Files -/

theorem splitLines_ne (s : Bytes) : splitLines s ≠ [] := by
  fun_induction splitLines s <;> simp

theorem splitLines_spec (s : Bytes) : LinesOf s (splitLines s) := by
  refine ⟨?_, ?_, splitLines_ne s⟩
  · fun_induction splitLines s with
    | case1 => rfl
    | case2 s ih =>
      cases h : splitLines s with
      | nil => exact absurd h (splitLines_ne s)
      | cons l ls => rw [h] at ih; rw [← ih]; simp [List.intercalate]
    | case3 c s hc hl ih => exact absurd hl (splitLines_ne s)
    | case4 c s hc l ls hl ih =>
      rw [hl] at ih
      rw [← ih]
      cases ls <;> simp [List.intercalate]
  · fun_induction splitLines s with
    | case1 => simp
    | case2 s ih => simpa using ih
    | case3 c s hc hl ih => exact absurd hl (splitLines_ne s)
    | case4 c s hc l ls hl ih =>
      rw [hl] at ih
      intro x hx
      rcases List.mem_cons.mp hx with rfl | hx
      · intro hm
        rcases List.mem_cons.mp hm with rfl | hm
        · exact hc rfl
        · exact ih l (by simp) hm
      · exact ih x (by simp [hx])

theorem linesOf_unique {s : Bytes} {a b : List Bytes} (ha : LinesOf s a) (hb : LinesOf s b) : a = b := by
  have key : ∀ (a : List Bytes), a ≠ [] → (∀ l ∈ a, 10 ∉ l) → splitLines (List.intercalate [10] a) = a := by
    intro a
    have word : ∀ (l t : Bytes), 10 ∉ l → splitLines (l ++ 10 :: t) = l :: splitLines t := by
      intro l t hl
      induction l with
      | nil => simp [splitLines]
      | cons c l ih =>
        simp only [List.mem_cons, not_or] at hl
        have ih := ih hl.2
        rw [List.cons_append, splitLines, ih]
        · intro hc; exact hl.1 hc.symm
    have last : ∀ l : Bytes, 10 ∉ l → splitLines l = [l] := by
      intro l hl
      induction l with
      | nil => rfl
      | cons c l ih =>
        simp only [List.mem_cons, not_or] at hl
        rw [splitLines, ih hl.2]
        intro hc; exact hl.1 hc.symm
    induction a with
    | nil => intro h; exact absurd rfl h
    | cons l ls ih =>
      intro _ hn
      cases ls with
      | nil => simpa [List.intercalate] using last l (hn l (by simp))
      | cons l' ls =>
        have h1 : List.intercalate [10] (l :: l' :: ls) = l ++ 10 :: List.intercalate [10] (l' :: ls) := by
          simp [List.intercalate]
        rw [h1, word l _ (hn l (by simp)), ih (by simp) fun x hx => hn x (by simp [hx])]
  rw [← key a ha.nonempty ha.noNewline, ← key b hb.nonempty hb.noNewline, ha.join, hb.join]

theorem find_add {s : KeySet} {blob k : Bytes} {o : KeyOptions} :
    (s.add blob o).find k = (s.find k).or (if blob = k then some o else none) := by
  unfold KeySet.add
  split
  · rename_i o' h
    by_cases hb : blob = k
    · subst hb; rw [h]; rfl
    · rw [if_neg hb]; cases s.find k <;> rfl
  · rename_i h
    have key : ∀ s : List (Bytes × KeyOptions), List.lookup k (s ++ [(blob, o)]) =
        (List.lookup k s).or (if blob = k then some o else none) := by
      intro s
      induction s with
      | nil =>
        by_cases hb : k = blob
        · simp [List.lookup, hb]
        · have hb' : ¬ blob = k := fun e => hb e.symm
          simp [List.lookup, hb', beq_eq_false_iff_ne.mpr hb]
      | cons e s ih =>
        obtain ⟨b, o'⟩ := e
        rw [List.cons_append, List.lookup_cons, List.lookup_cons]
        split
        · rfl
        · exact ih
    exact key s

theorem find_loadLine (decode : Bytes → Option Bytes) (s : KeySet) (line k : Bytes) :
    (loadLine decode s line).find k = (s.find k).or (lineContains decode line k) := by
  unfold loadLine lineContains
  cases h : extractBlob line with
  | mk b o =>
    cases b with
    | nil => cases s.find k <;> rfl
    | cons c t =>
      cases hd : decode (c :: t) with
      | none => simp only [hd, Option.or_none]
      | some x => simp only [hd]; exact find_add

theorem find_load (decode : Bytes → Option Bytes) (k : Bytes) : ∀ (lines : List Bytes) (s : KeySet),
    (lines.foldl (loadLine decode) s).find k = (s.find k).or (linesContain decode lines k) := by
  intro lines
  induction lines with
  | nil => intro s; simp [linesContain]
  | cons l ls ih =>
    intro s
    rw [List.foldl_cons, ih, find_loadLine]
    simp only [linesContain, List.findSome?_cons]
    cases s.find k with
    | some o => rfl
    | none =>
      cases lineContains decode l k with
      | some o => rfl
      | none => rfl

end Lukko
