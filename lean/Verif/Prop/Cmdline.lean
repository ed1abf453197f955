import Verif.Proof.Cmdline
import Verif.Proof.SessionInv
/-
  C44: command lines for rsync and git.
-/
namespace Lukko
open Model Spec

/-! ## C44, rsync -/

/-- Whatever is escaped, and however many blanks there are: splitting recovers the
arguments. -/
theorem C44_split {ws : List Bytes} {line : Bytes} (h : Joined ws line) : splitCmdline line = ws := splitCmdline_joined h

/-- Conversely, the result of splitting is a list of arguments from which the command
line could have been built. -/
theorem C44_split_converse {line : Bytes} (h : dangling line = false) : Joined (splitCmdline line) line :=
  splitCmdline_inv line h

/-- In particular for the usual way of escaping. -/
theorem C44_join (special : UInt8 → Bool) {ws : List Bytes} (h : ∀ w ∈ ws, w ≠ []) : splitCmdline (joinWords special ws) = ws :=
  splitCmdline_joined (joinWords_joined special h)

example : splitCmdline (joinWords (fun c => c == 42) [ascii "rsync", ascii "--server", ascii "a b\\c*", ascii "\\"]) =
    [ascii "rsync", ascii "--server", ascii "a b\\c*", ascii "\\"] := C44_join _ (by decide)
example : Joined [ascii "a b", ascii "c"] (ascii "  a\\ b   \\c ") :=
  .blank (.blank (.cons (t := ascii "a\\ b") (by decide)
    (.plain 97 (by decide) (by decide) (.escaped 32 (.plain 98 (by decide) (by decide) .nil)))
    (.blank (.blank (.cons (t := ascii "\\c") (by decide) (.escaped 99 .nil) .nil)))))

/-- FALSE for empty arguments: this way of quoting cannot express them. -/
theorem C44_empty_argument_violated :
    splitCmdline (joinWords (fun _ => false) [ascii "a", [], ascii "b"]) = [ascii "a", ascii "b"] := by decide +kernel

theorem parseOneString_of {s : Bytes} (h : s.length < 2 ^ 32) : parseOneString.parse (str s) = some s := by
  have h1 := readString_reads h
  simp only [Parser.parse, parseOneString, bind_apply]
  have := h1 []
  rw [List.append_nil] at this
  rw [this]
  rfl

theorem cString_same {s : Bytes} (h : 0 ∉ s) : cString s = s := by
  induction s with
  | nil => rfl
  | cons c s ih =>
    have hc : (c != 0) = true := by
      simp only [bne_iff_ne]
      exact fun h0 => h (by simp [h0])
    have ih := ih fun h0 => h (List.mem_cons_of_mem _ h0)
    unfold cString at ih ⊢
    rw [List.takeWhile_cons, hc, if_pos rfl, ih]

theorem isPrefixOf_append (p r : Bytes) : p.isPrefixOf (p ++ r) = true := by simp

/-- An account that may only use SFTP, with rsync: the process that is started gets
exactly the arguments which the client quoted, as soon as the server gets around to
it. -/
theorem C44_rsync (cfg : SessCfg) (r : Restrictions) (w : Nat) {args : List Bytes} {line rest : Bytes}
    (h1 : cfg.exec = false) (h2 : cfg.sftp = true) (h3 : cfg.rsync = some true)
    (hl : line = ascii "rsync --server " ++ rest) (hz : 0 ∉ line) (hs : line.length ≤ 16384) (hj : Joined args line) :
    (processes (SessCh.run cfg (SessCh.init r w)
      [.request (ascii "exec") (str line) true, .enqueued 0 .ok]).s.log).map Proc.program = [.rsync args] := by
  have hp : RSYNC_PREFIX.isPrefixOf line = true := by rw [hl]; exact isPrefixOf_append _ _
  have hlen : ¬ (MAX_ENV_SIZE < line.length + 0) := by simp only [MAX_ENV_SIZE]; omega
  have e1 : SessCh.handle cfg (SessCh.init r w) (.request (ascii "exec") (str line) true) =
      ({ SessCh.init r w with s := (SessCh.init r w).s.emit (.asked (ascii "exec") (str line)) } : SessCh).suspend (.rsync line) := by
    simp only [SessCh.handle, SessCh.request, SessCh.init, Sess.emit, Option.isSome_none, cond_false, if_true,
      SessCh.execRequest, parseOneString_of (show line.length < 2 ^ 32 by omega), if_neg hlen, SessCh.exec, h1, h2, h3,
      cString_same hz, hp, Bool.and_self, cond_true]
  simp only [SessCh.run, List.foldl_cons, List.foldl_nil]
  rw [show SessCh.step cfg (SessCh.init r w) (.request (ascii "exec") (str line) true) = _ from e1]
  simp only [SessCh.step, SessCh.suspend, SessCh.init, Sess.emit, SessCh.handle, SessCh.enqueued, List.nil_append,
    List.lookup, BEq.rfl, SessCh.resumeService, Sess.preparePipes, Option.isSome_none, Bool.or_self, Bool.false_and,
    cond_false, SessCh.launch, SessCh.finish, Sess.spawn, splitCmdline_joined hj]
  simp only [Sess.maybeScheduleRead]
  split <;> rfl

/-- An example of such an account. -/
def demoRsyncCfg : SessCfg := { exec := false, sftp := true, rsync := some true, gitReceive := true }

example : let line := joinWords (fun _ => false) [ascii "rsync", ascii "--server", ascii "my file"]
    0 ∉ line ∧ line.length ≤ 16384 ∧ (ascii "rsync --server ").isPrefixOf line = true := by decide

/-! ## C44, git -/

/-- One word for a shell, with quotes and backslashes: its value is recovered if there
is no backslash inside of quotes. -/
theorem C44_unquote_partial {v t : Bytes} (h : ShellWord false v t) (hb : noQuotedBackslash false t = true) :
    shellUnescape false t = some v := shellUnescape_word h hb

/-- In particular if a git client quoted the name of a repository without backslashes. -/
theorem C44_git_quote_partial {v : Bytes} (h : 92 ∉ v) : shellUnescape false (gitQuote v) = some v :=
  shellUnescape_word (gitQuote_word v) (gitQuote_plain v h)

example : shellUnescape false (gitQuote (ascii "it's a repository!")) = some (ascii "it's a repository!") := by decide +kernel

/-- FALSE otherwise: a backslash inside of quotes is dropped (a shell keeps it), so a
different repository is used; or the command is refused. -/
theorem C44_backslash_violated :
    ShellWord false (ascii "a\\b") (gitQuote (ascii "a\\b")) ∧
    shellUnescape false (gitQuote (ascii "a\\b")) = some (ascii "ab") ∧
    shellUnescape false (gitQuote (ascii "a\\")) = none :=
  ⟨gitQuote_word _, by decide +kernel, by decide +kernel⟩

/-- The process that is started for git uses the repository which the client named. -/
theorem C44_git_partial (cfg : SessCfg) (r : Restrictions) (w : Nat) {v line : Bytes}
    (h1 : cfg.exec = false) (h2 : cfg.gitReceive = true)
    (hl : line = ascii "git-receive-pack" ++ [32] ++ gitQuote v) (hz : 0 ∉ line) (hs : line.length ≤ 16384) (hv : 92 ∉ v) :
    (processes (SessCh.run cfg (SessCh.init r w)
      [.request (ascii "exec") (str line) true, .enqueued 0 .ok]).s.log).map Proc.program =
      [.git (ascii "git-receive-pack") v] := by
  have hp : RSYNC_PREFIX.isPrefixOf line = false := by
    rw [hl, List.append_assoc]
    simp [RSYNC_PREFIX, ascii, List.isPrefixOf]
  have ha : afterPrefix (GIT_RECEIVE_PACK ++ [32]) line = some (gitQuote v) := by
    unfold afterPrefix
    have hq : List.isPrefixOf (GIT_RECEIVE_PACK ++ [32]) (ascii "git-receive-pack" ++ [32] ++ gitQuote v) = true := isPrefixOf_append _ _
    rw [hl, hq]
    simp only [cond_true, Option.some.injEq]
    rw [show (GIT_RECEIVE_PACK ++ [32]) = (ascii "git-receive-pack" ++ [32]) from rfl, List.drop_left]
  have hlen : ¬ (MAX_ENV_SIZE < line.length + 0) := by simp only [MAX_ENV_SIZE]; omega
  have e1 : SessCh.handle cfg (SessCh.init r w) (.request (ascii "exec") (str line) true) =
      ({ SessCh.init r w with s := (SessCh.init r w).s.emit (.asked (ascii "exec") (str line)) } : SessCh).suspend (.git GIT_RECEIVE_PACK v) := by
    simp only [SessCh.handle, SessCh.request, SessCh.init, Sess.emit, Option.isSome_none, cond_false, if_true,
      SessCh.execRequest, parseOneString_of (show line.length < 2 ^ 32 by omega), if_neg hlen, SessCh.exec, h1,
      cString_same hz, hp, Bool.and_false, SessCh.execOther, h2, cond_true, ha, SessCh.execGit, C44_git_quote_partial hv]
  simp only [SessCh.run, List.foldl_cons, List.foldl_nil]
  rw [show SessCh.step cfg (SessCh.init r w) (.request (ascii "exec") (str line) true) = _ from e1]
  simp only [SessCh.step, SessCh.suspend, SessCh.init, Sess.emit, SessCh.handle, SessCh.enqueued, List.nil_append,
    List.lookup, BEq.rfl, SessCh.resumeService, Sess.preparePipes, Option.isSome_none, Bool.or_self, Bool.false_and,
    cond_false, SessCh.launch, SessCh.finish, Sess.spawn]
  simp only [Sess.maybeScheduleRead]
  split <;> rfl

example : let line := ascii "git-receive-pack" ++ [32] ++ gitQuote (ascii "it's.git")
    0 ∉ line ∧ line.length ≤ 16384 ∧ demoRsyncCfg.exec = false ∧ demoRsyncCfg.gitReceive = true := by decide

end Lukko
