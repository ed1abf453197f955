import Verif.Spec.Cmdline
import Verif.Model.Cmdline
/-
  Helper lemmas about splitting and unquoting.
-/
namespace Lukko
open Model Spec

theorem cmdWord_plain {c : UInt8} (r) (h1 : c ≠ 32) (h2 : c ≠ 92) : cmdWord (c :: r) = (c :: (cmdWord r).1, (cmdWord r).2) := by
  rw [cmdWord.eq_def]
  split
  · simp at *
  · simp_all
  · simp_all
  · simp_all
  · rename_i h; simp only [List.cons.injEq] at h; obtain ⟨rfl, rfl⟩ := h; rfl

theorem cmdWord_esc (c : UInt8) (r) : cmdWord (92 :: c :: r) = (c :: (cmdWord r).1, (cmdWord r).2) := by
  rw [cmdWord.eq_def]; simp

theorem cmdWord_sep {w t} (h : Escaped w t) (r) : cmdWord (t ++ 32 :: r) = (w, r) := by
  induction h with
  | nil => rfl
  | plain c h1 h2 h ih => rw [List.cons_append, cmdWord_plain _ h1 h2, ih]
  | escaped c h ih => rw [List.cons_append, List.cons_append, cmdWord_esc, ih]

theorem cmdWord_end {w t} (h : Escaped w t) : cmdWord t = (w, []) := by
  induction h with
  | nil => rfl
  | plain c h1 h2 h ih => rw [cmdWord_plain _ h1 h2, ih]
  | escaped c h ih => rw [cmdWord_esc, ih]

theorem Spec.Escaped.head {w t} (h : Escaped w t) (hw : w ≠ []) : ∃ c r, t = c :: r ∧ c ≠ 32 := by
  cases h with
  | nil => exact absurd rfl hw
  | plain c h1 h2 h => exact ⟨_, _, rfl, h1⟩
  | escaped c h => exact ⟨92, _, rfl, by decide⟩

theorem splitCmdline_nil : splitCmdline [] = [] := by
  rw [splitCmdline.eq_def]; simp

theorem splitCmdline_blank (t) : splitCmdline (32 :: t) = splitCmdline t := by
  conv => lhs; rw [splitCmdline.eq_def]
  conv => rhs; rw [splitCmdline.eq_def]
  have h : (32 :: t).dropWhile (· == (32 : UInt8)) = t.dropWhile (· == 32) := by simp [List.dropWhile]
  rw [h]

theorem splitCmdline_word {c : UInt8} (r) (h : c ≠ 32) :
    splitCmdline (c :: r) = (cmdWord (c :: r)).1 :: splitCmdline (cmdWord (c :: r)).2 := by
  rw [splitCmdline.eq_def]
  have h : (c :: r).dropWhile (· == (32 : UInt8)) = c :: r := by simp [h]
  rw [h]

theorem splitCmdline_joined {ws t} (h : Joined ws t) : splitCmdline t = ws := by
  induction h with
  | nil => exact splitCmdline_nil
  | blank h ih => rw [splitCmdline_blank, ih]
  | last h1 h =>
    obtain ⟨c, r, rfl, hc⟩ := h.head h1
    rw [splitCmdline_word _ hc, cmdWord_end h, splitCmdline_nil]
  | @cons w t ws rest h1 h hr ih =>
    obtain ⟨c, r, rfl, hc⟩ := h.head h1
    rw [List.cons_append, splitCmdline_word _ hc, ← List.cons_append, cmdWord_sep h, ih]

/-- Conversely, what is split off was there. -/
theorem cmdWord_inv (s : Bytes) (hd : dangling s = false) :
    (∃ t, Escaped (cmdWord s).1 t ∧ (s = t ∧ (cmdWord s).2 = [] ∨ s = t ++ 32 :: (cmdWord s).2)) ∧
    dangling (cmdWord s).2 = false := by
  fun_induction cmdWord s with
  | case1 => exact ⟨⟨[], .nil, .inl ⟨rfl, rfl⟩⟩, rfl⟩
  | case2 r =>
    refine ⟨⟨[], .nil, .inr rfl⟩, ?_⟩
    rw [dangling.eq_def] at hd
    simpa using hd
  | case3 => simp [dangling] at hd
  | case4 c r ih =>
    rw [dangling.eq_def] at hd
    obtain ⟨⟨t, h1, h2⟩, h3⟩ := ih (by simpa using hd)
    refine ⟨⟨92 :: c :: t, .escaped c h1, ?_⟩, h3⟩
    rcases h2 with ⟨h2, h4⟩ | h2
    · exact .inl ⟨by rw [← h2], h4⟩
    · exact .inr (by conv => lhs; rw [h2]
                     rfl)
  | case5 c r n1 n2 n3 ih =>
    have hc1 : c ≠ 32 := fun h => by subst h; exact n1 rfl
    have hc2 : c ≠ 92 := by
      intro h; subst h
      cases r with
      | nil => exact n2 rfl rfl
      | cons d r => exact n3 _ _ rfl rfl
    have hd : dangling r = false := by
      rw [dangling.eq_def] at hd
      split at hd
      · simp at *
      · simp_all
      · simp_all
      · rename_i h; simp only [List.cons.injEq] at h; rw [h.2]; exact hd
    obtain ⟨⟨t, h1, h2⟩, h3⟩ := ih hd
    refine ⟨⟨c :: t, .plain c hc1 hc2 h1, ?_⟩, h3⟩
    rcases h2 with ⟨h2, h4⟩ | h2
    · exact .inl ⟨by rw [← h2], h4⟩
    · exact .inr (by conv => lhs; rw [h2]
                     rfl)

theorem cmdWord_ne {c : UInt8} (r) (h : c ≠ 32) : (cmdWord (c :: r)).1 ≠ [] := by
  rw [cmdWord.eq_def]
  split <;> simp_all

theorem splitCmdline_inv (s : Bytes) (hd : dangling s = false) : Joined (splitCmdline s) s := by
  generalize hn : s.length = n
  induction n using Nat.strongRecOn generalizing s with
  | ind n ih =>
    cases s with
    | nil => rw [splitCmdline_nil]; exact .nil
    | cons c r =>
      by_cases hc : c = 32
      · subst hc
        rw [splitCmdline_blank]
        refine .blank (ih r.length (by simp at hn; omega) r ?_ rfl)
        rw [dangling.eq_def] at hd
        simpa using hd
      · rw [splitCmdline_word _ hc]
        obtain ⟨⟨t, h1, h2⟩, h3⟩ := cmdWord_inv _ hd
        rcases h2 with ⟨h2, h4⟩ | h2
        · rw [h4, splitCmdline_nil]
          exact .last (cmdWord_ne _ hc) (h2 ▸ h1)
        · have hr := ih (cmdWord (c :: r)).2.length (by rw [← hn]; exact cmdWord_shorter (by simp)) _ h3 rfl
          have := Joined.cons (cmdWord_ne r hc) h1 hr
          rw [← h2] at this
          exact this

theorem splitCmdline_ne (s : Bytes) : ∀ w ∈ splitCmdline s, w ≠ [] := by
  fun_induction splitCmdline s with
  | case1 => simp
  | case2 s c r h ih =>
    intro w hw
    rcases List.mem_cons.mp hw with rfl | hw
    · refine cmdWord_ne _ fun hc => ?_
      have := List.head?_dropWhile_not (· == (32 : UInt8)) s
      rw [h] at this
      simp at this
      exact this hc
    · exact ih w hw

theorem escapeWord_escaped (sp : UInt8 → Bool) (w) : Escaped w (escapeWord sp w) := by
  induction w with
  | nil => exact .nil
  | cons c w ih =>
    by_cases h : sp c = true ∨ c = 32 ∨ c = 92
    · have : escapeWord sp (c :: w) = 92 :: c :: escapeWord sp w := by simp [escapeWord, h]
      rw [this]; exact .escaped c ih
    · have : escapeWord sp (c :: w) = c :: escapeWord sp w := by simp [escapeWord, h]
      rw [this]
      exact .plain c (fun h' => h (.inr (.inl h'))) (fun h' => h (.inr (.inr h'))) ih

theorem joinWords_joined (sp) {ws : List Bytes} (h : ∀ w ∈ ws, w ≠ []) : Joined ws (joinWords sp ws) := by
  induction ws with
  | nil => exact .nil
  | cons w ws ih =>
    have : joinWords sp (w :: ws) = escapeWord sp w ++ 32 :: joinWords sp ws := by simp [joinWords]
    rw [this]
    exact .cons (h w (by simp)) (escapeWord_escaped sp w) (ih fun v hv => h v (by simp [hv]))

/-! ### Unquoting -/

theorem shellUnescape_esc (q c r) : shellUnescape q (92 :: c :: r) = (shellUnescape q r).map (c :: ·) := by
  rw [shellUnescape.eq_def]; simp

theorem shellUnescape_quote (q r) : shellUnescape q (39 :: r) = shellUnescape (!q) r := by
  rw [shellUnescape.eq_def]; simp

theorem shellUnescape_plain {c : UInt8} (q r) (h1 : c ≠ 39) (h2 : c ≠ 92) :
    shellUnescape q (c :: r) = (shellUnescape q r).map (c :: ·) := by
  rw [shellUnescape.eq_def]
  split
  · simp at *
  · simp_all
  · simp_all
  · simp_all
  · rename_i h; simp only [List.cons.injEq] at h; obtain ⟨rfl, rfl⟩ := h; rfl

/-- There is no backslash inside of quotes; the first argument says whether the text
begins inside. -/
def noQuotedBackslash : Bool → Bytes → Bool
  | _, [] => true
  | false, 92 :: _ :: r => noQuotedBackslash false r
  | q, c :: r => !(q && c == 92) && noQuotedBackslash (q ^^ (c == 39)) r

theorem noQuotedBackslash_plain {c : UInt8} (q r) (h : c ≠ 92) :
    noQuotedBackslash q (c :: r) = noQuotedBackslash (q ^^ (c == 39)) r := by
  rw [noQuotedBackslash.eq_def]
  split
  · simp at *
  · simp_all
  · rename_i h'; simp only [List.cons.injEq] at h'; obtain ⟨rfl, rfl⟩ := h'
    simp [h]

theorem shellUnescape_word {q v t} (h : ShellWord q v t) (hb : noQuotedBackslash q t = true) : shellUnescape q t = some v := by
  induction h with
  | nil => rfl
  | plain c h1 h2 h ih =>
    rw [shellUnescape_plain _ _ h1 h2, ih]
    · rfl
    · rw [noQuotedBackslash_plain _ _ h2] at hb
      simpa [beq_eq_false_iff_ne.mpr h1] using hb
  | escaped c h ih =>
    rw [shellUnescape_esc, ih]
    · rfl
    · rw [noQuotedBackslash.eq_def] at hb; simpa using hb
  | openQuote h ih =>
    rw [shellUnescape_quote]
    exact ih (by rw [noQuotedBackslash_plain _ _ (by decide)] at hb; simpa using hb)
  | inQuotes c h1 h ih =>
    have h2 : c ≠ 92 := by
      intro h2; subst h2
      simp [noQuotedBackslash] at hb
    rw [shellUnescape_plain _ _ h1 h2, ih]
    · rfl
    · rw [noQuotedBackslash_plain _ _ h2] at hb
      simpa [beq_eq_false_iff_ne.mpr h1] using hb
  | closeQuote h ih =>
    rw [shellUnescape_quote]
    exact ih (by rw [noQuotedBackslash_plain _ _ (by decide)] at hb; simpa using hb)

theorem gitQuote_rest (v : Bytes) :
    ShellWord true v (v.flatMap (fun c => if c = 39 ∨ c = 33 then [39, 92, c, 39] else [c]) ++ [39]) := by
  induction v with
  | nil => exact .closeQuote .nil
  | cons c v ih =>
    by_cases h : c = 39 ∨ c = 33
    · simp only [List.flatMap_cons, if_pos h, List.cons_append, List.nil_append]
      exact .closeQuote (.escaped c (.openQuote ih))
    · simp only [List.flatMap_cons, if_neg h, List.cons_append, List.nil_append]
      exact .inQuotes c (fun h' => h (.inl h')) ih

theorem gitQuote_word (v : Bytes) : ShellWord false v (gitQuote v) := .openQuote (gitQuote_rest v)

theorem gitQuote_plain (v : Bytes) (hv : 92 ∉ v) : noQuotedBackslash false (gitQuote v) = true := by
  have key : ∀ v : Bytes, 92 ∉ v →
      noQuotedBackslash true (v.flatMap (fun c => if c = 39 ∨ c = 33 then [39, 92, c, 39] else [c]) ++ [39]) = true := by
    intro v hv
    induction v with
    | nil => rfl
    | cons c v ih =>
      have ih := ih (fun h => hv (List.mem_cons_of_mem _ h))
      by_cases h : c = 39 ∨ c = 33
      · simp only [List.flatMap_cons, if_pos h, List.cons_append, List.nil_append]
        rw [noQuotedBackslash_plain _ _ (by decide)]
        simp only [BEq.rfl, Bool.xor_true, Bool.not_true]
        rw [noQuotedBackslash]
        rw [noQuotedBackslash_plain _ _ (by decide)]
        exact ih
      · simp only [List.flatMap_cons, if_neg h, List.cons_append, List.nil_append]
        rw [noQuotedBackslash_plain _ _ (fun h' => hv (by simp [h']))]
        have hc : (c == 39) = false := by simpa using fun h' => h (.inl h')
        rw [hc]
        exact ih
  show noQuotedBackslash false (39 :: _) = true
  rw [noQuotedBackslash_plain _ _ (by decide)]
  exact key v hv

/-- Conversely, the result is the value of the word, unless there is a backslash inside
of quotes. -/
theorem shellUnescape_inv {q : Bool} {t v : Bytes} (h : shellUnescape q t = some v) :
    ShellWord q v t ∨ ((q = true ∨ 39 ∈ t) ∧ 92 ∈ t) := by
  fun_induction shellUnescape q t generalizing v with
  | case1 => simp at h
  | case2 => simp at h; subst h; exact .inl .nil
  | case3 q r ih =>
    rcases ih h with ih | ih
    · cases q
      · exact .inl (.openQuote ih)
      · exact .inl (.closeQuote ih)
    · exact .inr ⟨.inr (by simp), by simp [ih.2]⟩
  | case4 => simp at h
  | case5 q c r ih =>
    simp only [Option.map_eq_some_iff] at h
    obtain ⟨v', h1, rfl⟩ := h
    cases q
    · rcases ih h1 with ih | ih
      · exact .inl (.escaped c ih)
      · refine .inr ⟨.inr ?_, by simp⟩
        rcases ih.1 with h | h
        · simp at h
        · simp [h]
    · exact .inr ⟨.inl rfl, by simp⟩
  | case6 q c r n1 n2 n3 ih =>
    simp only [Option.map_eq_some_iff] at h
    obtain ⟨v', h1, rfl⟩ := h
    have hc1 : c ≠ 39 := fun h => by subst h; exact n1 rfl
    have hc2 : c ≠ 92 := by
      intro h; subst h
      cases r with
      | nil => exact n2 rfl rfl
      | cons d r => exact n3 _ _ rfl rfl
    rcases ih h1 with ih | ih
    · cases q
      · exact .inl (.plain c hc1 hc2 ih)
      · exact .inl (.inQuotes c hc1 ih)
    · refine .inr ⟨ih.1.imp id (List.mem_cons_of_mem _), List.mem_cons_of_mem _ ih.2⟩

end Lukko
