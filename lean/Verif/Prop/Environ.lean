import Verif.Model.Environ
import Verif.Prop.Session
import Verif.Proof.SessionTail
/-
  C97: the environment and the arguments of the processes of a session.
-/
namespace Lukko
open Model Spec

theorem getenv_append (a b : List Bytes) (n : Bytes) : getenv (a ++ b) n = (getenv a n).or (getenv b n) := by
  simp only [getenv, List.findSome?_append]

theorem entryValue_entry (n v : Bytes) : entryValue n (n ++ 61 :: v) = some v := by
  have h : (n ++ [61]).isPrefixOf (n ++ 61 :: v) = true := by
    rw [List.isPrefixOf_iff_prefix]
    exact ⟨v, by simp⟩
  rw [entryValue, if_pos h]
  congr 1
  rw [show n ++ 61 :: v = (n ++ [61]) ++ v by simp, List.drop_left' (by simp)]

theorem cString_entry {n v : Bytes} (hn : 0 ∉ n) : cString (envEntry n v) = n ++ 61 :: upToNul v := by
  unfold cString envEntry upToNul
  rw [List.takeWhile_append_of_pos (fun c hc => by
    have : c ≠ 0 := fun h => hn (h ▸ hc)
    simpa using this)]
  rfl

/-- Two names without `=` are different if neither is the other. -/
theorem entryValue_other {n m v : Bytes} (hn : 61 ∉ n) (hm : 61 ∉ m) (h : n ≠ m) : entryValue n (m ++ 61 :: v) = none := by
  unfold entryValue
  rw [if_neg]
  intro hp
  rw [List.isPrefixOf_iff_prefix] at hp
  obtain ⟨t, ht⟩ := hp
  rw [List.append_assoc, List.singleton_append] at ht
  have key : ∀ (a b : Bytes) {s t : Bytes}, 61 ∉ a → 61 ∉ b → a ++ 61 :: s = b ++ 61 :: t → a = b := by
    intro a
    induction a with
    | nil =>
      intro b s t _ hb he
      cases b with
      | nil => rfl
      | cons c b => simp only [List.nil_append, List.cons_append, List.cons.injEq] at he; exact absurd (by simp [he.1]) hb
    | cons c a ih =>
      intro b s t ha hb he
      cases b with
      | nil => simp only [List.nil_append, List.cons_append, List.cons.injEq] at he; exact absurd (by simp [he.1]) ha
      | cons d b =>
        simp only [List.cons_append, List.cons.injEq] at he
        rw [he.1, ih b (fun h => ha (by simp [h])) (fun h => hb (by simp [h])) he.2]
  exact h (key n m hn hm ht)

theorem getenv_put {env : List Bytes} {n v m : Bytes} (h0 : 0 ∉ n) : getenv (putVar env n v) m =
    (getenv env m).or (entryValue m (n ++ 61 :: upToNul v)) := by
  rw [putVar, getenv_append, cString_entry h0]
  congr 1
  simp only [getenv, List.findSome?]
  cases entryValue m (n ++ 61 :: upToNul v) <;> rfl

theorem hasVar_iff (env : List Bytes) (n : Bytes) : hasVar env n = (getenv env n).isSome := by
  simp only [hasVar, getenv]
  induction env with
  | nil => rfl
  | cons e env ih =>
    rw [List.any_cons, List.findSome?_cons, ih]
    unfold entryValue
    cases h : (n ++ [61]).isPrefixOf e <;> rfl

theorem environ_eq (x : EnvSource) (p : Proc) : x.environ p = x.prepare p ++ envEntries p.env := by
  unfold EnvSource.environ envEntries
  generalize x.prepare p = e
  generalize p.env = l
  induction l generalizing e with
  | nil => simp
  | cons v l ih =>
    rw [List.foldl_cons, ih, putVar, List.map_cons, List.append_assoc, List.singleton_append]
    rfl

theorem getenv_some {a b : List Bytes} {n v : Bytes} (h : getenv a n = some v) : getenv (a ++ b) n = some v := by
  rw [getenv_append, h]; rfl

theorem getenv_put_same {env : List Bytes} {n v : Bytes} (h0 : 0 ∉ n) :
    getenv (putVar env n v) n = (getenv env n).or (some (upToNul v)) := by
  rw [getenv_put h0, entryValue_entry]

theorem getenv_put_other {env : List Bytes} {n v m : Bytes} (h0 : 0 ∉ n) (hn : 61 ∉ n) (hm : 61 ∉ m) (h : m ≠ n) :
    getenv (putVar env n v) m = getenv env m := by
  rw [getenv_put h0, entryValue_other hm hn h, Option.or_none]

theorem getenv_addHome {x : EnvSource} {env : List Bytes} :
    getenv (x.addHome env) (ascii "HOME") = (getenv env (ascii "HOME")).or (x.home.map upToNul) := by
  unfold EnvSource.addHome
  cases x.home with
  | none => simp
  | some h =>
    simp only [Option.map_some]
    rw [hasVar_iff]
    cases hg : getenv env (ascii "HOME") with
    | none => simp only [Option.isSome_none, cond_false]; rw [getenv_put_same (by decide), hg]
    | some v => exact hg

theorem getenv_addHome_other {x : EnvSource} {env : List Bytes} {n : Bytes} (hn : 61 ∉ n) (h : n ≠ ascii "HOME") :
    getenv (x.addHome env) n = getenv env n := by
  unfold EnvSource.addHome
  cases x.home with
  | none => rfl
  | some v =>
    simp only
    cases hasVar env (ascii "HOME")
    · exact getenv_put_other (by decide) (by decide) hn h
    · rfl

theorem getenv_addAgent_other {x : EnvSource} {env : List Bytes} {n : Bytes} (hn : 61 ∉ n) (h : n ≠ ascii "SSH_AUTH_SOCK") :
    getenv (x.addAgent env) n = getenv env n := by
  unfold EnvSource.addAgent
  cases x.agent
  · rfl
  · exact getenv_put_other (by decide) (by decide) hn h

/-- The variables which come first for shells and commands. -/
def firstVars (x : EnvSource) : List Bytes :=
  x.address (putVar (putVar (putVar [] (ascii "USER") x.user) (ascii "LOGNAME") x.user) (ascii "SHELL") x.shell)

theorem getenv_prepareExec_other {x : EnvSource} {n : Bytes} (hn : 61 ∉ n) (h : n ≠ ascii "HOME") (h' : n ≠ ascii "SSH_AUTH_SOCK") :
    getenv x.prepareExec n = (getenv (firstVars x) n).or (getenv x.account n) := by
  rw [show x.prepareExec = x.addAgent (x.addHome (firstVars x ++ x.account)) from rfl, getenv_addAgent_other hn h',
    getenv_addHome_other hn h, getenv_append]

theorem getenv_first_none {x : EnvSource} {n : Bytes} (hn : 61 ∉ n) (h : n ∉ [ascii "USER", ascii "LOGNAME", ascii "SHELL",
    ascii "SSH_CLIENT", ascii "SSH_CONNECTION"]) : getenv (firstVars x) n = none := by
  simp only [List.mem_cons, List.not_mem_nil, or_false, not_or] at h
  obtain ⟨h1, h2, h3, h4, h5⟩ := h
  unfold firstVars EnvSource.address
  rw [getenv_put_other (by decide) (by decide) hn h5, getenv_put_other (by decide) (by decide) hn h4,
    getenv_put_other (by decide) (by decide) hn h3, getenv_put_other (by decide) (by decide) hn h2,
    getenv_put_other (by decide) (by decide) hn h1]
  rfl

theorem getenv_first {x : EnvSource} :
    getenv (firstVars x) (ascii "USER") = some (upToNul x.user) ∧
    getenv (firstVars x) (ascii "LOGNAME") = some (upToNul x.user) ∧
    getenv (firstVars x) (ascii "SHELL") = some (upToNul x.shell) ∧
    getenv (firstVars x) (ascii "SSH_CLIENT") = some (upToNul x.client) ∧
    getenv (firstVars x) (ascii "SSH_CONNECTION") = some (upToNul x.connection) := by
  unfold firstVars EnvSource.address
  refine ⟨?_, ?_, ?_, ?_, ?_⟩ <;>
  · repeat rw [getenv_put_other (by decide) (by decide) (by decide) (by decide)]
    rw [getenv_put_same (by decide)]
    repeat rw [getenv_put_other (by decide) (by decide) (by decide) (by decide)]
    rfl

/-- What the original command adds. -/
def addOriginal (p : Proc) (env : List Bytes) : List Bytes :=
  match p.original with
  | some line => putVar env (ascii "SSH_ORIGINAL_COMMAND") line
  | none => env

theorem prepare_shell {x : EnvSource} {p : Proc} (h : p.program.usesShell = true) : x.prepare p = addOriginal p x.prepareExec := by
  unfold EnvSource.prepare addOriginal
  cases hp : p.program <;> rw [hp] at h <;> first | rfl | cases h

theorem getenv_original_other {p : Proc} {env : List Bytes} {n : Bytes} (hn : 61 ∉ n) (h : n ≠ ascii "SSH_ORIGINAL_COMMAND") :
    getenv (addOriginal p env) n = getenv env n := by
  unfold addOriginal
  cases p.original
  · rfl
  · exact getenv_put_other (by decide) (by decide) hn h

/-! ## The theorems -/

/-- What the client asks for only comes behind what is there anyway: a variable which has a value without the client
has the same value with it. -/
theorem C97_server_first (x : EnvSource) (p : Proc) {n v : Bytes} (h : getenv (x.environ { p with env := [] }) n = some v) :
    getenv (x.environ p) n = some v := by
  rw [environ_eq] at h ⊢
  simp only [envEntries, List.map_nil, List.append_nil] at h
  exact getenv_some h

/-- Shells and commands know who logged in, from where, and which shell they have, whatever the client asks for.
(Partial: only if they use the first entry for a variable, see `C97_unique_violated`.) -/
theorem C97_identity_partial (x : EnvSource) {p : Proc} (hp : p.program.usesShell = true) :
    getenv (x.environ p) (ascii "USER") = some (upToNul x.user) ∧
    getenv (x.environ p) (ascii "LOGNAME") = some (upToNul x.user) ∧
    getenv (x.environ p) (ascii "SHELL") = some (upToNul x.shell) ∧
    getenv (x.environ p) (ascii "SSH_CLIENT") = some (upToNul x.client) ∧
    getenv (x.environ p) (ascii "SSH_CONNECTION") = some (upToNul x.connection) := by
  have key : ∀ {n v : Bytes}, 61 ∉ n → n ∉ [ascii "HOME", ascii "SSH_AUTH_SOCK", ascii "SSH_ORIGINAL_COMMAND"] →
      getenv (firstVars x) n = some v → getenv (x.environ p) n = some v := by
    intro n v hn hm h
    simp only [List.mem_cons, List.not_mem_nil, or_false, not_or] at hm
    rw [environ_eq, prepare_shell hp]
    refine getenv_some ?_
    rw [getenv_original_other hn hm.2.2, getenv_prepareExec_other hn hm.1 hm.2.1, h]
    rfl
  obtain ⟨h1, h2, h3, h4, h5⟩ := getenv_first (x := x)
  exact ⟨key (by decide) (by decide) h1, key (by decide) (by decide) h2, key (by decide) (by decide) h3,
    key (by decide) (by decide) h4, key (by decide) (by decide) h5⟩

/-- The SFTP server knows who logged in. -/
theorem C97_sftp (x : EnvSource) {p : Proc} (hp : p.program = .sftpServer) :
    getenv (x.environ p) (ascii "USER") = some (upToNul x.user) := by
  rw [environ_eq]
  refine getenv_some ?_
  unfold EnvSource.prepare
  rw [hp]
  simp only [EnvSource.prepareSftp]
  rw [getenv_addHome_other (by decide) (by decide)]
  refine getenv_some ?_
  cases x.sftpSettings
  · rw [cond_false, getenv_put_other (by decide) (by decide) (by decide) (by decide), getenv_put_same (by decide)]; rfl
  · rw [cond_true, getenv_put_same (by decide)]; rfl

/-- The home directory of every process: that in the settings of the account; else the home directory, if the process
can see it; only else what the client asks for. -/
theorem C97_home (x : EnvSource) (p : Proc) :
    getenv (x.environ p) (ascii "HOME") =
      (getenv x.account (ascii "HOME")).or ((x.home.map upToNul).or (getenv (envEntries p.env) (ascii "HOME"))) := by
  rw [environ_eq, getenv_append, ← Option.or_assoc]
  congr 1
  have hshell : getenv x.prepareExec (ascii "HOME") = (getenv x.account (ascii "HOME")).or (x.home.map upToNul) := by
    rw [show x.prepareExec = x.addAgent (x.addHome (firstVars x ++ x.account)) from rfl,
      getenv_addAgent_other (by decide) (by decide), getenv_addHome, getenv_append,
      getenv_first_none (by decide) (by decide)]
    rfl
  cases hs : p.program.usesShell with
  | true => rw [prepare_shell hs, getenv_original_other (by decide) (by decide), hshell]
  | false =>
    unfold EnvSource.prepare
    cases hp : p.program with
    | loginShell => rw [hp] at hs; cases hs
    | command c => rw [hp] at hs; cases hs
    | sftpServer =>
      simp only [EnvSource.prepareSftp]
      rw [getenv_addHome, getenv_append]
      congr 1
      cases x.sftpSettings
      · rw [cond_false, getenv_put_other (by decide) (by decide) (by decide) (by decide),
          getenv_put_other (by decide) (by decide) (by decide) (by decide)]; rfl
      · rw [cond_true, getenv_put_other (by decide) (by decide) (by decide) (by decide)]; rfl
    | rsync args => exact getenv_addHome
    | git s g => exact getenv_addHome

/-- (Partial: if it asks for a shell instead, see `C97_original_violated`.)  With a forced command, the command line for
which the client has asked is in `SSH_ORIGINAL_COMMAND`, unless the
account has its own setting. -/
theorem C97_original_partial (x : EnvSource) {p : Proc} (hp : p.program.usesShell = true) {line : Bytes} (ho : p.original = some line) :
    getenv (x.environ p) (ascii "SSH_ORIGINAL_COMMAND") =
      (getenv x.account (ascii "SSH_ORIGINAL_COMMAND")).or (some (upToNul line)) := by
  rw [environ_eq, prepare_shell hp, addOriginal, ho, getenv_append]
  simp only
  rw [getenv_put_same (by decide), getenv_prepareExec_other (by decide) (by decide) (by decide),
    getenv_first_none (by decide) (by decide), Option.none_or]
  cases getenv x.account (ascii "SSH_ORIGINAL_COMMAND") <;> rfl

/-- When the agent is forwarded, shells and commands find it. -/
theorem C97_agent (x : EnvSource) {p : Proc} (hp : p.program.usesShell = true) (ha : x.agent = true) :
    getenv (x.environ p) (ascii "SSH_AUTH_SOCK") =
      (getenv x.account (ascii "SSH_AUTH_SOCK")).or (some (ascii "/run/agent-forward.socket")) := by
  rw [environ_eq, prepare_shell hp, getenv_append, getenv_original_other (by decide) (by decide),
    show x.prepareExec = x.addAgent (x.addHome (firstVars x ++ x.account)) from rfl, EnvSource.addAgent, ha, cond_true,
    getenv_put_same (by decide), getenv_addHome_other (by decide) (by decide), getenv_append,
    getenv_first_none (by decide) (by decide), Option.none_or]
  cases getenv x.account (ascii "SSH_AUTH_SOCK") <;> rfl

/-- All other variables of shells and commands are those of the account and those for which the client has asked. -/
theorem C97_others (x : EnvSource) {p : Proc} (hp : p.program.usesShell = true) {n : Bytes} (hn : 61 ∉ n) (h : n ∉ serverVars) :
    getenv (x.environ p) n = (getenv x.account n).or (getenv (envEntries p.env) n) := by
  simp only [serverVars, List.mem_cons, List.not_mem_nil, or_false, not_or] at h
  obtain ⟨h1, h2, h3, h4, h5, h6, h7, h8⟩ := h
  rw [environ_eq, prepare_shell hp, getenv_append, getenv_original_other hn h8, getenv_prepareExec_other hn h6 h7,
    getenv_first_none hn (by simp only [List.mem_cons, List.not_mem_nil, or_false, not_or]; exact ⟨h1, h2, h3, h4, h5⟩)]
  rfl

/-- The other services get nothing but the settings of the account, the home directory, and what the client asks for. -/
theorem C97_services (x : EnvSource) {p : Proc} (hp : (∃ args, p.program = .rsync args) ∨ ∃ s g, p.program = .git s g)
    {n : Bytes} (hn : 61 ∉ n) (h : n ≠ ascii "HOME") :
    getenv (x.environ p) n = (getenv x.account n).or (getenv (envEntries p.env) n) := by
  rw [environ_eq, getenv_append]
  congr 1
  unfold EnvSource.prepare
  rcases hp with ⟨_, hp⟩ | ⟨_, _, hp⟩ <;> rw [hp] <;> exact getenv_addHome_other hn h

variable {cfg : SessCfg} {r : Restrictions} {w : Nat} {evs : List SessEvent}

/-- The processes of those who may not execute programs have no variables of the client. -/
theorem C97_no_client (hx : cfg.exec = false) {a b : List SessEntry} {p : Proc}
    (hl : (SessCh.run cfg (SessCh.init r w) evs).s.log = a ++ .started p :: b) (x : EnvSource) :
    x.environ p = x.environ { p with env := [] } := by
  have h := ((sess_inv cfg r w evs).started a p b hl).envNo hx
  obtain ⟨_, _, env, _, _⟩ := p
  simp only at h
  subst h
  rfl

/-- A variable which is granted to the client has this value in all processes started later, unless the server or
the account has a value for it, or the client asks for another value of it. -/
theorem C97_granted (hx : cfg.exec = true) (hs : (SessCh.run cfg (SessCh.init r w) evs).stop = none)
    (hc : (SessCh.run cfg (SessCh.init r w) evs).s.child = none) {name value : Bytes} (ok : Bool)
    (hfits : envTotal (SessCh.run cfg (SessCh.init r w) evs).s.env + (name.length + value.length + 32) < 16384)
    (h0 : 0 ∉ name) (more : List SessEvent) :
    ∃ l, (SessCh.run cfg (SessCh.init r w) (evs ++ .request (ascii "env") (str name ++ str value) ok :: more)).s.log =
        (SessCh.run cfg (SessCh.init r w) evs).s.log ++
        [.asked (ascii "env") (str name ++ str value), .answered true] ++ l ∧
      ∀ a p b, l = a ++ .started p :: b →
        (∀ v, RequestedEnv a v → entryValue name (upToNul (envEntry v.1 v.2)) = none) →
        ∀ x : EnvSource, getenv (x.environ p) name =
          (getenv (x.environ { p with env := [] }) name).or (some (upToNul value)) := by
  have h := (sess_inv cfg r w evs).envSum
  have hrun : SessCh.run cfg (SessCh.init r w) (evs ++ .request (ascii "env") (str name ++ str value) ok :: more) =
      SessCh.run cfg ((SessCh.run cfg (SessCh.init r w) evs).step cfg (.request (ascii "env") (str name ++ str value) ok)) more := by
    simp [SessCh.run]
  rw [hrun, envRequest_result hx hs hc ok (by omega) (by omega)]
  rw [← h] at hfits
  generalize SessCh.run cfg (SessCh.init r w) evs = y at *
  have hno : ¬ (MAX_ENV_SIZE ≤ y.s.envSize + (name.length + value.length + 32)) := by simp only [MAX_ENV_SIZE]; omega
  have e : ∀ e, (y.s.emit e).setEnv name value = some { y.s.emit e with
    envSize := (y.s.emit e).envSize + (name.length + value.length + 32)
    env := (name, value) :: (y.s.emit e).env } := fun e => if_neg hno
  rw [e]
  simp only
  generalize hy : SessCh.answer _ true = y1
  have henv : y1.s.env = (name, value) :: y.s.env := by rw [← hy]; simp [SessCh.answer, Sess.emit]
  have hlog : y1.s.log = y.s.log ++ [.asked (ascii "env") (str name ++ str value), .answered true] := by
    rw [← hy]; simp [SessCh.answer, Sess.emit]
  obtain ⟨l, hl, _, hp⟩ := EnvTail.run cfg y1 more
  refine ⟨l, by rw [hl, hlog], ?_⟩
  intro a p b hab hv x
  obtain ⟨m, hm, hmv⟩ := hp a p b hab
  have e1 : x.prepare { p with env := [] } = x.prepare p := rfl
  rw [environ_eq, environ_eq, getenv_append, e1]
  simp only [envEntries, List.map_nil, List.append_nil]
  congr 1
  rw [hm, henv, List.map_append, List.map_cons, getenv_append]
  have hnone : getenv (m.map fun v => upToNul (envEntry v.1 v.2)) name = none := by
    rw [getenv, List.findSome?_eq_none_iff]
    intro q hq
    obtain ⟨v, hvm, rfl⟩ := List.mem_map.mp hq
    exact hv v (hmv v hvm)
  rw [hnone, Option.none_or, getenv, List.findSome?_cons,
    show upToNul (envEntry name value) = name ++ 61 :: upToNul value from cString_entry h0, entryValue_entry]

theorem afterLastSlash_none {s : Bytes} (h : afterLastSlash s = none) : 47 ∉ s := by
  induction s with
  | nil => simp
  | cons c s ih =>
    unfold afterLastSlash at h
    cases hs : afterLastSlash s with
    | some r => rw [hs] at h; cases h
    | none =>
      rw [hs] at h
      simp only [ite_eq_right_iff, reduceCtorEq, imp_false] at h
      simp only [List.mem_cons, not_or]
      exact ⟨fun h' => h h'.symm, ih hs⟩

theorem afterLastSlash_some {s t : Bytes} (h : afterLastSlash s = some t) : 47 ∉ t ∧ ∃ d, s = d ++ 47 :: t := by
  induction s with
  | nil => cases h
  | cons c s ih =>
    unfold afterLastSlash at h
    cases hs : afterLastSlash s with
    | some r =>
      rw [hs] at h
      cases h
      obtain ⟨h1, d, h2⟩ := ih hs
      exact ⟨h1, c :: d, by rw [h2]; rfl⟩
    | none =>
      rw [hs] at h
      simp only [Option.ite_none_right_eq_some, Option.some.injEq] at h
      obtain ⟨rfl, rfl⟩ := h
      exact ⟨afterLastSlash_none hs, [], rfl⟩

/-- A login shell is told that it is one: its only argument is "-", and the last part of its path. -/
theorem C97_login_shell (x : EnvSource) : ∃ part, LastPart x.shell part ∧ x.args .loginShell = [45 :: part] := by
  unfold EnvSource.args loginShellName
  simp only
  cases h : afterLastSlash x.shell with
  | none => exact ⟨x.shell, .noSlash (afterLastSlash_none h), rfl⟩
  | some t =>
    obtain ⟨h1, d, h2⟩ := afterLastSlash_some h
    cases t with
    | nil => exact ⟨x.shell, by rw [h2]; exact .dir, rfl⟩
    | cons c s => exact ⟨c :: s, by rw [h2]; exact .of h1 (by simp), rfl⟩

def demoSource : EnvSource :=
  { user := ascii "joe", shell := ascii "/bin/bash", peerHost := ascii "192.0.2.1", peerPort := 40000
    localHost := ascii "192.0.2.2", localPort := 22, account := [ascii "LANG=C", ascii "SSH_AUTH_SOCK=/x"]
    home := some (ascii "/home/joe"), agent := true }
def demoProc : Proc :=
  { program := .command (ascii "backup"), original := some (ascii "rm -rf /")
    env := [(ascii "EDITOR", ascii "vi"), (ascii "LANG", ascii "de"), (ascii "EDITOR", ascii "ed"), (ascii "USER", ascii "root")] }

/-- An example. -/
example : getenv (demoSource.environ demoProc) (ascii "USER") = some (ascii "joe") ∧
    getenv (demoSource.environ demoProc) (ascii "LANG") = some (ascii "C") ∧
    getenv (demoSource.environ demoProc) (ascii "EDITOR") = some (ascii "vi") := by decide +kernel
example : getenv (demoSource.environ demoProc) (ascii "SSH_CLIENT") = some (ascii "192.0.2.1 40000 22") ∧
    getenv (demoSource.environ demoProc) (ascii "SSH_CONNECTION") = some (ascii "192.0.2.1 40000 192.0.2.2 22") := by decide +kernel
example : getenv (demoSource.environ demoProc) (ascii "HOME") = some (ascii "/home/joe") ∧
    getenv (demoSource.environ demoProc) (ascii "SSH_ORIGINAL_COMMAND") = some (ascii "rm -rf /") ∧
    getenv (demoSource.environ demoProc) (ascii "SSH_AUTH_SOCK") = some (ascii "/x") := by decide +kernel
example : demoSource.args .loginShell = [ascii "-bash"] ∧ LastPart (ascii "/bin/bash") (ascii "bash") :=
  ⟨by decide, .of (dir := ascii "/bin") (by decide) (by decide)⟩

/-- There may be more than one entry for a variable: programs which use the last one, like `bash`, see the value chosen
by the client, even of those variables which say who they are. -/
theorem C97_unique_violated :
    ∃ p, processes (SessCh.run demoExecCfg (SessCh.init {} 100)
      [.request (ascii "env") (str (ascii "USER") ++ str (ascii "root")) true,
       .request (ascii "shell") [] true, .enqueued 0 .ok]).s.log = [p] ∧
    getenv (demoSource.environ p) (ascii "USER") = some (ascii "joe") ∧
    lastenv (demoSource.environ p) (ascii "USER") = some (ascii "root") :=
  ⟨{ program := .loginShell, env := [(ascii "USER", ascii "root")] }, by decide +kernel, by decide +kernel, by decide +kernel⟩

/-- With a forced command, a client which asks for a shell decides itself what is in `SSH_ORIGINAL_COMMAND`; a command
which expects there what was really asked for is deceived. -/
theorem C97_original_violated :
    ∃ p, processes (SessCh.run demoExecCfg (SessCh.init demoForced 100)
      [.request (ascii "env") (str (ascii "SSH_ORIGINAL_COMMAND") ++ str (ascii "fake")) true,
       .request (ascii "shell") [] true, .enqueued 0 .ok]).s.log = [p] ∧ p.original = none ∧
    getenv (demoSource.environ p) (ascii "SSH_ORIGINAL_COMMAND") = some (ascii "fake") :=
  ⟨{ program := .command (ascii "backup"), env := [(ascii "SSH_ORIGINAL_COMMAND", ascii "fake")] },
   by decide +kernel, rfl, by decide +kernel⟩

/-- An example: the variable of the client is there. -/
example : ∃ p, processes (SessCh.run demoExecCfg (SessCh.init {} 100)
      [.request (ascii "env") (str (ascii "EDITOR") ++ str (ascii "vi")) true,
       .request (ascii "shell") [] true, .enqueued 0 .ok]).s.log = [p] ∧
    getenv (demoSource.environ p) (ascii "EDITOR") = some (ascii "vi") :=
  ⟨{ program := .loginShell, env := [(ascii "EDITOR", ascii "vi")] }, by decide +kernel, by decide +kernel⟩

/-- An example: someone with SFTP only; the client's variable does not reach the process. -/
example : ∃ p, processes (SessCh.run { exec := false, sftp := true, rejectStderr := true } (SessCh.init {} 100)
      [.request (ascii "env") (str (ascii "EDITOR") ++ str (ascii "vi")) true,
       .request (ascii "subsystem") (str (ascii "sftp")) true, .enqueued 0 .ok]).s.log = [p] ∧
    getenv (demoSource.environ p) (ascii "EDITOR") = none ∧ getenv (demoSource.environ p) (ascii "USER") = some (ascii "joe") :=
  ⟨{ program := .sftpServer }, by decide +kernel, by decide +kernel, by decide +kernel⟩

end Lukko
