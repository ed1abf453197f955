import Verif.Base
/-
  Command lines for rsync and git, /repo/src/SessionChannel.cxx:346-453.  They are C
  strings, here without the null byte at the end.
-/
namespace Lukko.Model

/-- One parameter of `SplitCmdline`, SessionChannel.cxx:364-379: the parameter and what
follows it. -/
def cmdWord : Bytes → Bytes × Bytes
  | [] => ([], [])
  | 32 :: r => ([], r)
  | [92] => ([92], [])
  | 92 :: c :: r => (c :: (cmdWord r).1, (cmdWord r).2)
  | c :: r => (c :: (cmdWord r).1, (cmdWord r).2)

theorem cmdWord_length (s : Bytes) : (cmdWord s).2.length ≤ s.length := by
  fun_induction cmdWord s <;> simp_all <;> omega

theorem cmdWord_shorter {s : Bytes} (h : s ≠ []) : (cmdWord s).2.length < s.length := by
  unfold cmdWord
  split
  · exact absurd rfl h
  · simp
  · simp
  · rename_i c r; have := cmdWord_length r; simp only [List.length_cons]; omega
  · rename_i c r _ _ _; have := cmdWord_length r; simp only [List.length_cons]; omega

/-- `SplitCmdline`, SessionChannel.cxx:348-383. -/
def splitCmdline (s : Bytes) : List Bytes :=
  match h : s.dropWhile (· == 32) with
  | [] => []
  | c :: r => (cmdWord (c :: r)).1 :: splitCmdline (cmdWord (c :: r)).2
termination_by s.length
decreasing_by
  have h1 : (cmdWord (c :: r)).2.length < (c :: r).length := cmdWord_shorter (by simp)
  have h2 : (s.dropWhile (· == 32)).length ≤ s.length := (List.dropWhile_suffix _).length_le
  rw [h] at h2
  omega

/-- `ShellUnescapeOneSingleQuoted`, SessionChannel.cxx:424-453; the first parameter is
`quote`.  `none`: returns `nullptr`. -/
def shellUnescape : Bool → Bytes → Option Bytes
  | quote, [] => bif quote then none else some []
  | quote, 39 :: r => shellUnescape (!quote) r
  | _, [92] => none
  | quote, 92 :: c :: r => (shellUnescape quote r).map (c :: ·)
  | quote, c :: r => (shellUnescape quote r).map (c :: ·)

end Lukko.Model
