import Verif.Model.TermModes
import Verif.Proof.Stream
/-
  C52: encoded terminal modes.
-/
namespace Lukko
open Spec Model

theorem baudToSpeed_eq (n : Nat) : baudToSpeed n = lineSpeed n := by
  unfold baudToSpeed
  split
  all_goals first
    | rfl
    | (unfold lineSpeed
       rw [if_neg]
       simp only [supportedBauds, List.mem_cons, List.not_mem_nil, or_false, not_or]
       refine ⟨?_, ?_, ?_, ?_, ?_, ?_, ?_, ?_, ?_, ?_, ?_, ?_, ?_, ?_, ?_, ?_, ?_, ?_, ?_⟩ <;> assumption)

theorem applyBit_eq (f b : UInt32) (n : Nat) : applyBit f b (n != 0) = setBits f b (n ≠ 0) := by
  unfold applyBit setBits
  by_cases h : n = 0 <;> simp [h]

theorem lookup_none {α : Type} {l : List (Nat × α)} {n : Nat} (h : ∀ p ∈ l, n ≠ p.1) : l.lookup n = none := by
  induction l with
  | nil => rfl
  | cons p l ih =>
    obtain ⟨k, v⟩ := p
    have hk : (n == k) = false := by simpa using h (k, v) List.mem_cons_self
    simp only [List.lookup, hk]
    exact ih fun q hq => h q (List.mem_cons_of_mem _ hq)

theorem applyMode_eq (t : Termios) (op arg : Nat) : applyMode t op arg = applyRecord t (op, arg) := by
  by_cases hmem : op ∈ modeTable.map (·.1)
  · simp only [modeTable, List.map_cons, List.map_nil, List.mem_cons, List.not_mem_nil, or_false] at hmem
    rcases hmem with rfl | rfl | rfl | rfl | rfl | rfl | rfl | rfl | rfl | rfl | rfl | rfl | rfl | rfl | rfl |
      rfl | rfl | rfl | rfl | rfl | rfl | rfl | rfl | rfl | rfl | rfl | rfl | rfl | rfl | rfl | rfl | rfl | rfl |
      rfl | rfl | rfl | rfl | rfl | rfl | rfl | rfl | rfl | rfl | rfl | rfl | rfl | rfl | rfl | rfl | rfl | rfl
    all_goals
      simp only [applyMode, applyBit_eq, baudToSpeed_eq]
      rfl
  · have : applyRecord t (op, arg) = t := by
      unfold applyRecord
      rw [lookup_none]
      intro p hp e
      simp only at e
      exact hmem (by rw [e]; exact List.mem_map_of_mem hp)
    rw [this]
    unfold applyMode
    split
    all_goals first
      | rfl
      | exact absurd (by decide) hmem

theorem u32_list {n : Nat} (hn : n < 2 ^ 32) :
    ∃ a b c d, u32 n = [a, b, c, d] ∧
      a.toNat <<< 24 ||| b.toNat <<< 16 ||| c.toNat <<< 8 ||| d.toNat = n := by
  refine ⟨_, _, _, _, rfl, ?_⟩
  rw [or_shift, ← beValue_four]
  exact beValue_u32 hn

theorem parse_ends (t : Termios) {tail : Bytes} (h : EndsModes tail) : parseTerminalModes t tail = t := by
  match tail, h with
  | op :: a :: b :: c :: d :: rest, h =>
    simp only [parseTerminalModes]
    rw [if_pos]
    rcases h with h | h | ⟨op', h, h'⟩
    · simp at h; omega
    · left; simpa using h
    · right; simp only [List.head?_cons, Option.some.injEq] at h; rw [h]; exact h'
  | [], _ => rfl
  | [_], _ => rfl
  | [_, _], _ => rfl
  | [_, _, _], _ => rfl
  | [_, _, _, _], _ => rfl

theorem parse_encode (rs : List (Nat × Nat)) (hrs : ∀ r ∈ rs, IsRecord r) {tail : Bytes} (h : EndsModes tail)
    (t : Termios) : parseTerminalModes t (encodeModes rs ++ tail) = rs.foldl applyRecord t := by
  induction rs generalizing t with
  | nil => exact parse_ends t h
  | cons r rs ih =>
    obtain ⟨op, arg⟩ := r
    obtain ⟨h0, h1, h2⟩ := hrs _ List.mem_cons_self
    simp only at h0 h1 h2
    obtain ⟨a, b, c, d, hu, hv⟩ := u32_list h2
    have hop : (UInt8.ofNat op).toNat = op := by simp [UInt8.toNat_ofNat']; omega
    have he : encodeModes ((op, arg) :: rs) ++ tail = UInt8.ofNat op :: a :: b :: c :: d :: (encodeModes rs ++ tail) := by
      simp [encodeModes, hu]
    rw [he]
    simp only [parseTerminalModes, hop, hv]
    rw [if_neg, ih (fun q hq => hrs q (List.mem_cons_of_mem _ hq)), applyMode_eq]
    · rfl
    · rintro (h | h)
      · have : (UInt8.ofNat op).toNat = 0 := by rw [h]; rfl
        omega
      · omega

theorem modes_decompose : ∀ src : Bytes, ∃ rs tail, src = encodeModes rs ++ tail ∧ (∀ r ∈ rs, IsRecord r) ∧ EndsModes tail
  | op :: a :: b :: c :: d :: rest => by
    by_cases h : op = 0 ∨ 160 ≤ op.toNat
    · refine ⟨[], op :: a :: b :: c :: d :: rest, rfl, by simp, ?_⟩
      rcases h with h | h
      · exact Or.inr (Or.inl (by simp [h]))
      · exact Or.inr (Or.inr ⟨op, rfl, h⟩)
    · obtain ⟨rs, tail, h1, h2, h3⟩ := modes_decompose rest
      simp only [not_or] at h
      have hu : u32 (beValue [a, b, c, d]) = [a, b, c, d] := by
        apply beValue_inj
        · simp [u32]
        · rw [beValue_u32]
          have := beValue_lt [a, b, c, d]
          simpa using this
      refine ⟨(op.toNat, beValue [a, b, c, d]) :: rs, tail, ?_, ?_, h3⟩
      · rw [h1]
        simp only [encodeModes, List.map_cons, List.flatten_cons, hu, UInt8.ofNat_toNat]
        rfl
      · intro r hr
        rcases List.mem_cons.mp hr with rfl | hr
        · refine ⟨?_, by omega, ?_⟩
          · have : op.toNat ≠ 0 := fun e => h.1 (UInt8.toNat_inj.mp e)
            omega
          · have := beValue_lt [a, b, c, d]
            simpa using this
        · exact h2 r hr
  | [] => ⟨[], [], rfl, by simp, Or.inl (by simp)⟩
  | [x] => ⟨[], [x], rfl, by simp, Or.inl (by simp)⟩
  | [x, y] => ⟨[], [x, y], rfl, by simp, Or.inl (by simp)⟩
  | [x, y, z] => ⟨[], [x, y, z], rfl, by simp, Or.inl (by simp)⟩
  | [x, y, z, w] => ⟨[], [x, y, z, w], rfl, by simp, Or.inl (by simp)⟩

/-- **C52.** Every byte string consists of complete records and something that
ends the list; decoding it applies exactly these records in order.  Whatever
follows the end marker, or an incomplete record, has no effect. -/
theorem C52_decoded (src : Bytes) :
    (∃ rs tail, src = encodeModes rs ++ tail ∧ (∀ r ∈ rs, IsRecord r) ∧ EndsModes tail) ∧
    ∀ rs tail, src = encodeModes rs ++ tail → (∀ r ∈ rs, IsRecord r) → EndsModes tail →
      ∀ t, parseTerminalModes t src = rs.foldl applyRecord t :=
  ⟨modes_decompose src, fun rs _ hs hrs he t => by rw [hs]; exact parse_encode rs hrs he t⟩

/- ECHO off, interrupt character ^C, 38400 baud; garbage behind the end marker. -/
example : parseTerminalModes { cc := List.replicate 19 0, lflag := 0xffff }
      (encodeModes [(53, 0), (1, 3), (128, 38400), (129, 31)] ++ [0, 1, 2, 3, 4, 5, 6, 7]) =
    { cc := 3 :: List.replicate 18 0, lflag := 0xfff7, ispeed := 38400, ospeed := 9600 } := by decide +kernel

/-- **C52.** A control character has the value of the last record for it (its
low eight bits), if there is one, and is otherwise unchanged. -/
theorem C52_last_wins (rs : List (Nat × Nat)) (hrs : ∀ r ∈ rs, IsRecord r) {tail : Bytes} (he : EndsModes tail)
    (t : Termios) {op i : Nat} (hop : modeTable.lookup op = some (.char i)) (hi : i < t.cc.length) :
    (parseTerminalModes t (encodeModes rs ++ tail)).cc[i]? =
      match (rs.filter (·.1 == op)).getLast? with
      | some r => some (UInt8.ofNat r.2)
      | none => t.cc[i]? := by
  rw [parse_encode rs hrs he]
  clear he hrs tail
  have hinj : ∀ op', modeTable.lookup op' = some (.char i) → op' = op := by
    intro op' h'
    by_cases hm : op' ∈ modeTable.map (·.1)
    · by_cases hm2 : op ∈ modeTable.map (·.1)
      · have key : ∀ x ∈ modeTable.map (·.1), ∀ y ∈ modeTable.map (·.1), ∀ j ∈ List.range 17,
            modeTable.lookup x = some (.char j) → modeTable.lookup y = some (.char j) → x = y := by decide +kernel
        have hb : i ∈ List.range 17 := by
          have : ∀ x ∈ modeTable.map (·.1), ∀ e, modeTable.lookup x = some e → ∀ j, e = .char j → j < 17 := by
            intro x hx e he j hj
            subst hj
            have : ∀ x ∈ modeTable.map (·.1), (match modeTable.lookup x with | some (.char j) => decide (j < 17) | _ => true) = true := by
              decide +kernel
            have := this x hx
            rw [he] at this
            simpa using this
          exact List.mem_range.mpr (this op hm2 _ hop i rfl)
        exact key _ hm _ hm2 _ hb h' hop
      · rw [lookup_none (fun p hp e => hm2 (by rw [e]; exact List.mem_map_of_mem hp))] at hop; cases hop
    · rw [lookup_none (fun p hp e => hm (by rw [e]; exact List.mem_map_of_mem hp))] at h'; cases h'
  induction rs generalizing t with
  | nil => rfl
  | cons r rs ih =>
    obtain ⟨o, a⟩ := r
    have hlen : ∀ r, (applyRecord t r).cc.length = t.cc.length := by
      intro r
      unfold applyRecord
      split <;> simp
    rw [List.foldl_cons, ih _ (by rw [hlen]; exact hi)]
    by_cases ho : o = op
    · subst ho
      rw [List.filter_cons_of_pos (by simp)]
      have h1 : (applyRecord t (o, a)).cc[i]? = some (UInt8.ofNat a) := by
        simp only [applyRecord, hop]
        simp [hi]
      rw [h1]
      cases hf : rs.filter (·.1 == o) with
      | nil => rfl
      | cons x xs => simp [List.getLast?_cons]
    · rw [List.filter_cons_of_neg (by simpa using ho)]
      have h1 : (applyRecord t (o, a)).cc[i]? = t.cc[i]? := by
        unfold applyRecord
        split
        · rfl
        next j hj =>
          have hne : j ≠ i := fun e => ho (hinj o (by rw [← e]; exact hj))
          simp [hne]
        all_goals rfl
      rw [h1]

example : modeTable.lookup 1 = some (.char 0) ∧ IsRecord (1, 259) ∧
    (parseTerminalModes { cc := [9] } (encodeModes [(1, 5), (1, 259)] ++ [0])).cc = [3] := by
  refine ⟨by decide, ⟨by decide, by decide, by decide⟩, by decide +kernel⟩

/-- RFC 4254 section 8: the value 255 means that there is no such character
(zero in Linux); the code installs the character 255 instead. -/
theorem C52_disabled_violated :
    ∃ t : Termios, (parseTerminalModes t (encodeModes [(1, 255)] ++ [0])).cc[0]? = some 255 :=
  ⟨{ cc := [3] }, by decide +kernel⟩

/-- A client whose terminal is in 7-bit mode (`CS7` on, `CS8` off) gets neither:
the character size becomes 5 bits (Linux: CS5 = 0, CS7 = 0x20, mask 0x30). -/
theorem C52_seven_bit_violated :
    ∃ t : Termios, (parseTerminalModes t (encodeModes [(90, 1), (91, 0)] ++ [0])).cflag &&& 0x30 = 0 :=
  ⟨{ cc := [], cflag := 0x30 }, by decide +kernel⟩

end Lukko
