import Verif.Proof.Identity
import Verif.Prop.Session
import Verif.Prop.Auth
/-
  Property theorems about the identity with which things are done for a client (C79).

  `Auth.run cfg {} evs`: a connection after any sequence of events.  `Ident`: what the
  connection knows about the account; `Ident.owner`: the account.
-/
namespace Lukko
open Model Spec

/-- `a` are the details of the translation server's answer, if there is one. -/
def Detailed (y : Auth) (a : Option AccountSettings) : Prop :=
  match y.translation, a with
  | none, none => True
  | some t, some s => s.Describes t.account
  | _, _ => False

instance (y : Auth) (a : Option AccountSettings) : Decidable (Detailed y a) := by
  unfold Detailed AccountSettings.Describes
  split
  · infer_instance
  · rename_i s _
    cases s.general with
    | none => exact decidable_of_iff (_ ∧ _) ⟨fun h => ⟨h.1, h.2, by simp⟩, fun h => ⟨h.1, h.2.1⟩⟩
    | some g =>
      exact decidable_of_iff (_ ∧ _ ∧ (_ → g.settings.Complete))
        ⟨fun h => ⟨h.1, h.2.1, fun hv g' e => by cases e; exact h.2.2 hv⟩, fun h => ⟨h.1, h.2.1, fun hv => h.2.2 hv g rfl⟩⟩
  · infer_instance

/-- `c`: a client who has logged in as `user`, to a server with the configuration `cfg`, whose
operating system knows the accounts `pw`. -/
def Client (cfg : AuthCfg) (pw : Bytes → Nat × Nat × Bytes) (user : Bytes) (c : Ident) : Prop :=
  ∃ evs a, (Auth.run cfg {} evs).authenticated = true ∧ (Auth.run cfg {} evs).username = user ∧
    Detailed (Auth.run cfg {} evs) a ∧ c = (Auth.run cfg {} evs).ident a pw

/-- `c`: a client who wants to log in as `user`, with a key, while the file with the keys of
this user is being looked for. -/
def Candidate (cfg : AuthCfg) (pw : Bytes → Nat × Nat × Bytes) (user : Bytes) (c : Ident) : Prop :=
  ∃ evs a r k, (Auth.run cfg {} evs).task = some (.home r k) ∧ r.user = user ∧
    Detailed (Auth.run cfg {} evs) a ∧ c = { Auth.run cfg {} evs with username := user }.ident a pw

structure Covered (a : AccountSettings) (c : Ident) : Prop where
  exec : c.allowExec = true → a.general.isSome = true
  sftp : c.allowSftp = true → a.general.isSome = true ∨ a.sftp.isSome = true
  complete : ∀ g, a.general = some g → g.settings.Complete

theorem covered_of {cfg : AuthCfg} {y : Auth} {u : Bytes} {d : Option AccountSettings} {a : AccountSettings}
    {pw : Bytes → Nat × Nat × Bytes} (h : TrCovers cfg y u) (hd : Detailed y d) (ha : (y.ident d pw).translation = some a) :
    Covered a (y.ident d pw) := by
  have ha' : d = some a := ha
  subst ha'
  unfold Detailed at hd
  cases htr : cfg.translation with
  | false => rw [h.2 htr] at hd; exact hd.elim
  | true =>
    obtain ⟨t, h1, _, _, h3, h4, h5⟩ := h.1 htr
    rw [h1] at hd
    simp only at hd
    obtain ⟨e1, e2, e3⟩ := hd
    refine ⟨fun h => by rw [← e1]; exact h3 h, fun h => by rw [← e1, ← e2]; exact h4 h, fun g hg => e3 ?_ g hg⟩
    apply h5
    rw [e1, hg]; rfl

theorem Client.covered {cfg : AuthCfg} {pw : Bytes → Nat × Nat × Bytes} {user : Bytes} {c : Ident} (h : Client cfg pw user c)
    {a : AccountSettings} (ha : c.translation = some a) : Covered a c := by
  obtain ⟨evs, d, h1, h2, h3, rfl⟩ := h
  exact covered_of (covers_run h1) h3 ha

theorem Candidate.covered {cfg : AuthCfg} {pw : Bytes → Nat × Nat × Bytes} {user : Bytes} {c : Ident}
    (h : Candidate cfg pw user c) {a : AccountSettings} (ha : c.translation = some a) : Covered a c := by
  obtain ⟨evs, d, r, k, h1, h2, h3, rfl⟩ := h
  exact covered_of (y := { Auth.run cfg {} evs with username := user }) (u := r.user)
    (((id_run cfg evs).home r k h1).2.same (u := user) ⟨rfl, rfl, rfl, .inl rfl⟩) h3 ha

/-- An example: the account of a customer, who is jailed in a container. -/
def demoHome : Bytes := ascii "/var/www/joe"
def demoJail : Settings where
  uid := some 1000
  gid := some 100
  home := some demoHome
  ns := { pid := true, ipc := true, other := 1 }
  forbidBind := true
def demoCustomer : AccountSettings := { general := some { settings := demoJail } }
def demoPasswd (_ : Bytes) : Nat × Nat × Bytes := (1001, 101, ascii "/home/joe")
def demoJoe : Ident := (Auth.run demoAuth {} (demoLogin 8)).ident (some demoCustomer) demoPasswd

theorem demoJoe_client : Client demoAuth demoPasswd (ascii "joe") demoJoe :=
  ⟨demoLogin 8, some demoCustomer, by decide +kernel, by decide +kernel, by decide +kernel, rfl⟩

/-- The same without a translation server. -/
def demoUnix : AuthCfg := { demoAuth with translation := false, getpwnam := fun _ => true }
def demoUnixLogin : List AuthEv := demoGreeting ++ [demoKeySig 8]
def demoJane : Ident := (Auth.run demoUnix {} demoUnixLogin).ident none demoPasswd

theorem demoJane_client : Client demoUnix demoPasswd (ascii "joe") demoJane :=
  ⟨demoUnixLogin, none, by decide +kernel, by decide +kernel, by decide +kernel, rfl⟩

variable {cfg : AuthCfg} {pw : Bytes → Nat × Nat × Bytes} {user : Bytes} {c : Ident}

/-! ## C79: the account is that of the user who has logged in -/

/-- With a translation server, the settings are from its answer about the user who has logged
in; without one, they are from the operating system's answer about them. -/
theorem C79_account (h : Client cfg pw user c) :
    (cfg.translation = true → ∃ evs t a, (Auth.run cfg {} evs).translation = some t ∧ t.user = user ∧ t.account.ok = true ∧
      c.translation = some a ∧ a.Describes t.account) ∧
    (cfg.translation = false → c.translation = none ∧ (c.uid, c.gid, c.home) = pw user) := by
  obtain ⟨evs, a, h1, h2, h3, rfl⟩ := h
  refine ⟨fun htr => ?_, fun htr => ?_⟩
  · obtain ⟨t, ht, hu, ho, _⟩ := (covers_run h1).1 htr
    unfold Detailed at h3
    rw [ht] at h3
    cases a with
    | none => exact h3.elim
    | some a => exact ⟨evs, t, a, ht, hu.trans h2, ho, rfl, h3⟩
  · have ht := (covers_run h1).2 htr
    unfold Detailed at h3
    rw [ht] at h3
    cases a with
    | none => exact ⟨rfl, by rw [← h2]; rfl⟩
    | some a => exact h3.elim

/-! ## C79: TCP connections and listeners -/

theorem cString_clean {s : Bytes} (h : 0 ∉ s) : cString s = s := by
  unfold cString
  induction s with
  | nil => rfl
  | cons x t ih =>
    simp only [List.mem_cons, not_or] at h
    have hx : (x != 0) = true := by simpa using Ne.symm h.1
    rw [List.takeWhile_cons, if_pos hx, ih h.2]

theorem receiveHost_clean {s x : Bytes} (h : 0 ∉ s) (hr : receiveHost s = some x) : x = s := by
  unfold receiveHost at hr
  split at hr
  · simp at hr
  · rename_i hl
    simp only [List.length_take, Nat.le_min, Nat.le_refl, true_and, Nat.not_le] at hl
    rw [List.take_of_length_le (by omega), cString_clean h] at hr
    simpa using hr.symm

theorem receivePath_clean {s x : Bytes} (h : 0 ∉ s) (hr : receivePath s = some x) : x = s := by
  unfold receivePath at hr
  split at hr
  · simp at hr
  · split at hr
    · simp at hr
    · rename_i hl
      simp only [List.length_take, Nat.le_min, Nat.le_refl, true_and, Nat.not_le] at hl
      rw [List.take_of_length_le (by omega), cString_clean h] at hr
      simpa using hr.symm

/-- With a translation server: what is done to connect or listen for a client is done by a
process with the user, the network and the prohibitions of the account, or not at all. -/
theorem C79_tcp_partial (h : Client cfg pw user c) (ht : cfg.translation = true) (resolved : Bool) (host : Bytes) (port : Nat)
    {d : Deed} (hd : d = c.connectTcp resolved host port ∨ d = c.bindTcp resolved host port) :
    d = .refused ∨ ∃ who what s, d = .attempted who what ∧ c.owner.general = some s ∧ s.Complete ∧ who.Has s := by
  obtain ⟨_, _, a, _, _, _, ha, _⟩ := (C79_account h).1 ht
  have hcov := h.covered ha
  unfold Ident.connectTcp Ident.bindTcp Ident.networkOptions at hd
  simp only [Ident.owner, ha, Owner.general] at hd ⊢
  cases hg : a.general with
  | none =>
    simp only [hg, Option.map_none, Option.isSome_some, cond_true, or_self] at hd
    exact .inl hd
  | some g =>
    simp only [hg, Option.map_some] at hd ⊢
    cases hr : receiveHost host with
    | none => simp only [hr, or_self] at hd; exact .inl hd
    | some x =>
      simp only [hr] at hd
      right
      rcases hd with hd | hd <;>
        exact ⟨_, _, _, hd, rfl, hcov.complete g hg, _, rfl, rfl, rfl, rfl, rfl, rfl⟩

example : demoJoe.connectTcp false (ascii "db") 5432 =
    .attempted (.child { uid := some 1000, gid := some 100, ns := { other := 1 }, forbidBind := true }) (.tcp (ascii "db") 5432) ∧
    demoAuth.translation = true := by decide +kernel

/-- Without a translation server, the server itself connects and listens, with its own rights
(also on privileged ports), not those of the user. -/
theorem C79_tcp_violated : ∃ cfg pw user c host port, Client cfg pw user c ∧
    c.owner.general = some { uid := some 1001, gid := some 101, home := some (ascii "/home/joe") } ∧
    c.connectTcp false host port = .attempted .server (.tcp host port) ∧
    c.bindTcp false [] port = .attempted .server (.anyAddress port) :=
  ⟨demoUnix, demoPasswd, ascii "joe", demoJane, ascii "db", 80, demoJane_client, by decide +kernel, by decide +kernel,
    by decide +kernel⟩

/-- A name without NUL bytes: if anything is done, then with exactly the name and the port the
client sent; and "localhost" and the empty name mean what RFC 4254 says. -/
theorem C79_address_partial (c : Ident) (resolved : Bool) {host : Bytes} (hz : 0 ∉ host) (port : Nat) :
    (∀ who what, c.connectTcp resolved host port = .attempted who what → what = .tcp host port) ∧
    (∀ who what, c.bindTcp resolved host port = .attempted who what → what = listenOn host port) := by
  have hb : (bindThing host port).getD (.tcp host port) = listenOn host port := by
    unfold bindThing listenOn
    by_cases h1 : host = []
    · subst h1; simp (decide := true)
    · by_cases h2 : host = ascii "localhost"
      · simp (decide := true) [h2]
      · simp [h1, h2]
  have hrh : resolverHost resolved host = host := by cases resolved <;> simp [resolverHost, cString_clean hz]
  constructor
  · intro who what h
    unfold Ident.connectTcp at h
    rw [hrh] at h
    split at h
    · cases hr : receiveHost host with
      | none => rw [hr] at h; simp at h
      | some x =>
        rw [hr] at h
        cases receiveHost_clean hz hr
        simp only [Deed.attempted.injEq] at h
        exact h.2.symm
    · cases ht : c.translation with
      | none =>
        rw [ht] at h
        simp only [Option.isSome_none, cond_false, Deed.attempted.injEq] at h
        exact h.2.symm
      | some a => rw [ht] at h; simp at h
  · intro who what h
    unfold Ident.bindTcp at h
    rw [hrh, hb] at h
    split at h
    · cases hr : receiveHost host with
      | none => rw [hr] at h; simp at h
      | some x =>
        rw [hr] at h
        cases receiveHost_clean hz hr
        simp only [Deed.attempted.injEq, hb] at h
        exact h.2.symm
    · cases ht : c.translation with
      | none =>
        rw [ht] at h
        simp only [Option.isSome_none, cond_false, Deed.attempted.injEq] at h
        exact h.2.symm
      | some a => rw [ht] at h; simp at h

example : demoJoe.bindTcp true (ascii "localhost") 1000 ≠ .refused ∧ (0 : UInt8) ∉ ascii "localhost" := by decide +kernel

/-- A name with a NUL byte is cut off there: the client gets something it did not ask for,
here a listener on all addresses. -/
theorem C79_address_violated : ∃ cfg pw user c host port who, Client cfg pw user c ∧
    listenOn host port = .tcp host port ∧ c.bindTcp true host port = .attempted who (.anyAddress port) :=
  ⟨demoAuth, demoPasswd, ascii "joe", demoJoe, [0] ++ ascii "db", 80, _, demoJoe_client, by decide +kernel, rfl⟩

/-! ## C79: local sockets -/

theorem delegate_of {container : Bytes → Option Bytes} {v : SshService} {s : Settings} (h : c.prepare v = some s) :
    c.delegate container v = some { s with workdir := s.workdir.or (s.home.bind container) } := by
  unfold Ident.delegate
  rw [h]
  obtain ⟨_, _, _, w, _, _, _⟩ := s
  cases w <;> rfl

/-- What child processes get, in general. -/
theorem Client.general (h : Client cfg pw user c) (hx : c.allowExec = true) :
    ∃ s, c.owner.general = some s ∧ c.prepare .ssh = some s ∧ (cfg.translation = true → s.Complete) := by
  cases ha : c.translation with
  | none =>
    refine ⟨{ uid := some c.uid, gid := some c.gid, home := if c.home = [] then none else some c.home }, ?_, ?_, ?_⟩
    · simp [Ident.owner, ha, Owner.general]
    · simp [Ident.prepare, ha]
    · intro ht
      obtain ⟨_, _, a, _, _, _, ha', _⟩ := (C79_account h).1 ht
      rw [ha] at ha'; simp at ha'
  | some a =>
    have hcov := h.covered ha
    obtain ⟨g, hg⟩ := Option.isSome_iff_exists.1 (hcov.exec hx)
    refine ⟨g.settings, ?_, ?_, fun _ => hcov.complete g hg⟩
    · simp [Ident.owner, ha, Owner.general, hg]
    · simp [Ident.prepare, Ident.executeOptions, Ident.networkOptions, ha, hg]

/-- A client who may execute programs: local sockets are connected to by a process with
exactly the settings of the account (in the home directory, if there is no other); the path
is the one the client sent. -/
theorem C79_local (h : Client cfg pw user c) (hx : c.allowExec = true) (container : Bytes → Option Bytes) (path : Bytes) :
    c.connectLocal container path = .refused ∨
    ∃ s what, c.owner.general = some s ∧ (cfg.translation = true → s.Complete) ∧
      c.connectLocal container path =
        .attempted (.child { s with workdir := s.workdir.or (s.home.bind container) }) (.socket what) ∧
      (0 ∉ path → what = path) := by
  obtain ⟨s, h1, h2, h3⟩ := h.general hx
  unfold Ident.connectLocal
  rw [hx, delegate_of h2]
  simp only [Bool.not_true, cond_false]
  cases hr : receivePath path with
  | none => exact .inl rfl
  | some x => exact .inr ⟨s, x, h1, h3, rfl, fun hz => receivePath_clean hz hr⟩

example : demoJoe.allowExec = true ∧ demoJane.allowExec = true ∧
    demoJane.connectLocal some (ascii "/run/x") =
      .attempted (.child { uid := some 1001, gid := some 101, home := some (ascii "/home/joe"), workdir := some (ascii "/home/joe") })
        (.socket (ascii "/run/x")) := by decide +kernel

/-! ## C79: programs -/

/-- Every process of a session has the settings of the account for its program: if the
settings for SFTP name a program, or the default program is installed, or if there are no
settings for SFTP. -/
theorem C79_program_partial (h : Client cfg pw user c) {scfg : SessCfg} {r : Restrictions} {w : Nat} {evs : List SessEvent}
    {p : Proc} (hp : .started p ∈ (SessCh.run (c.sessCfg scfg) (SessCh.init r w) evs).s.log) {present : Bool}
    (hs : ∀ a, c.translation = some a → ∀ o, a.sftp = some o → o.program ≠ none ∨ present = true) :
    ∃ s, c.process present p.program = some s ∧ c.owner.forProgram p.program = some s ∧
      ((p.program = .loginShell ∨ ∃ l, p.program = .command l) → cfg.translation = true → s.Complete) := by
  obtain ⟨a, b, hl⟩ := List.append_of_mem hp
  have hok := ((sess_inv (c.sessCfg scfg) r w evs).started a p b hl).prog
  generalize p.program = q at hok
  cases q with
  | loginShell =>
    obtain ⟨s, h1, h2, h3⟩ := h.general hok.1
    refine ⟨s, h2, ?_, fun _ => h3⟩
    rw [← h1]; unfold Owner.forProgram; split <;> simp_all
  | command l =>
    obtain ⟨s, h1, h2, h3⟩ := h.general hok.1
    refine ⟨s, h2, ?_, fun _ => h3⟩
    rw [← h1]; unfold Owner.forProgram; split <;> simp_all
  | sftpServer =>
    have hf : c.allowSftp = true := hok.1
    cases ha : c.translation with
    | none =>
      refine ⟨{ uid := some c.uid, gid := some c.gid, home := if c.home = [] then none else some c.home }, ?_, ?_, by simp⟩
      · simp [Ident.process, Ident.prepare, ha]
      · simp [Ident.owner, ha, Owner.forProgram, Owner.general]
    | some a =>
      cases ho : a.sftp with
      | some o =>
        refine ⟨o.settings, ?_, ?_, by simp⟩
        · have : (o.program.isSome || present) = true := by
            rcases hs a ha o ho with h1 | h1
            · cases hq : o.program with
              | none => exact absurd hq h1
              | some x => rfl
            · simp [h1]
          simp [Ident.process, ha, ho, this]
        · simp [Ident.owner, ha, Owner.forProgram, ho]
      | none =>
        have hcov := h.covered ha
        have hg := hcov.sftp hf
        simp only [ho, Option.isSome_none, Bool.false_eq_true, or_false] at hg
        obtain ⟨g, hg⟩ := Option.isSome_iff_exists.1 hg
        refine ⟨g.settings, ?_, ?_, by simp⟩
        · simp [Ident.process, Ident.prepare, Ident.executeOptions, Ident.networkOptions, ha, ho, hg]
        · simp [Ident.owner, ha, Owner.forProgram, ho, hg]
  | rsync args =>
    obtain ⟨_, _, _, _, hr, _⟩ := hok
    simp only [Ident.sessCfg] at hr
    cases ha : c.translation with
    | none => rw [ha] at hr; simp at hr
    | some a =>
      rw [ha] at hr
      cases ho : a.rsync with
      | none => simp [ho] at hr
      | some o =>
        refine ⟨o.settings, ?_, ?_, by simp⟩
        · simp [Ident.process, ha, ho]
        · simp [Ident.owner, ha, Owner.forProgram, ho]
  | git service arg =>
    obtain ⟨_, hr, _⟩ := hok
    simp only [Ident.sessCfg] at hr
    cases ha : c.translation with
    | none => rw [ha] at hr; simp at hr
    | some a =>
      rw [ha] at hr
      have hne : ¬ GIT_UPLOAD_PACK = ascii "git-receive-pack" := by decide
      rcases hr with ⟨rfl, hr⟩ | ⟨rfl, hr⟩
      · obtain ⟨o, ho⟩ := Option.isSome_iff_exists.1 (show a.gitReceive.isSome = true from hr)
        exact ⟨o.settings, by simp [Ident.process, ha, ho],
          by simp [Ident.owner, ha, Owner.forProgram, ho, GIT_RECEIVE_PACK], by simp⟩
      · obtain ⟨o, ho⟩ := Option.isSome_iff_exists.1 (show a.gitUpload.isSome = true from hr)
        exact ⟨o.settings, by simp [Ident.process, ha, ho, GIT_RECEIVE_PACK, hne],
          by simp [Ident.owner, ha, Owner.forProgram, ho, hne], by simp⟩

/-- An example: settings for a shell and for git. -/
def demoDeveloper : Ident :=
  (Auth.run demoAuth {} (demoLogin 8)).ident
    (some { demoCustomer with gitUpload := some { settings := { demoJail with uid := some 1002 } } }) demoPasswd

example : Client demoAuth demoPasswd (ascii "joe") demoDeveloper ∧
    demoDeveloper.process false (.command (ascii "id")) = some demoJail ∧
    .started { program := .command (ascii "rm -rf /"), env := [(ascii "LANG", ascii "C")] } ∈
      (SessCh.run (demoDeveloper.sessCfg demoExecCfg) (SessCh.init {} 100) demoRun).s.log :=
  ⟨⟨demoLogin 8, _, by decide +kernel, by decide +kernel, by decide +kernel, rfl⟩, by decide +kernel, by decide +kernel⟩

/-- Someone who may only use SFTP. -/
def demoSftpAccount : Account := { shell := false, sftp := true }
def demoSftpOnly (s : AccountSettings) : Ident :=
  (Auth.run demoAuth {} (demoGreeting ++ [demoKeySig 8, .translated (some demoSftpAccount)])).ident (some s) demoPasswd

def demoSftpRun : List SessEvent := [.request (ascii "subsystem") (str (ascii "sftp")) true, .enqueued 0 .ok]

/-- Settings for SFTP without a program, no other settings, and the default program is not
installed: a null pointer is dereferenced. -/
theorem C79_sftp_violated : ∃ cfg pw user c scfg evs p, Client cfg pw user c ∧
    .started p ∈ (SessCh.run (c.sessCfg scfg) (SessCh.init {} 100) evs).s.log ∧
    c.owner.forProgram p.program = some demoJail ∧ c.process false p.program = none :=
  ⟨demoAuth, demoPasswd, ascii "joe", demoSftpOnly { sftp := some { settings := demoJail } }, demoExecCfg, demoSftpRun,
    { program := .sftpServer },
    ⟨demoGreeting ++ [demoKeySig 8, .translated (some demoSftpAccount)], some { sftp := some { settings := demoJail } },
      by decide +kernel, by decide +kernel, by decide +kernel, rfl⟩,
    by decide +kernel, by decide +kernel, by decide +kernel⟩

/-- The same with settings for a shell: these are used for SFTP, too (which may have a less
restricted view of the file system). -/
theorem C79_sftp_settings_violated : ∃ cfg pw user c scfg evs p s, Client cfg pw user c ∧
    .started p ∈ (SessCh.run (c.sessCfg scfg) (SessCh.init {} 100) evs).s.log ∧
    c.owner.forProgram p.program = some s ∧ c.process false p.program = some demoJail ∧ s ≠ demoJail :=
  ⟨demoAuth, demoPasswd, ascii "joe",
    (Auth.run demoAuth {} (demoGreeting ++ [demoKeySig 8, .translated (some { sftp := true })])).ident
      (some { demoCustomer with sftp := some { settings := { demoJail with ns := { other := 2 } } } }) demoPasswd,
    demoExecCfg, demoSftpRun, { program := .sftpServer }, { demoJail with ns := { other := 2 } },
    ⟨demoGreeting ++ [demoKeySig 8, .translated (some { sftp := true })], _,
      by decide +kernel, by decide +kernel, by decide +kernel, rfl⟩,
    by decide +kernel, by decide +kernel, by decide +kernel, by decide +kernel⟩

/-- Only the general settings are checked: with settings for SFTP which name no user, the
process is started without a user of its own. -/
theorem C79_service_user_violated : ∃ cfg pw user c scfg evs p s, Client cfg pw user c ∧
    .started p ∈ (SessCh.run (c.sessCfg scfg) (SessCh.init {} 100) evs).s.log ∧
    c.process true p.program = some s ∧ s.uid = none ∧ s.gid = none :=
  ⟨demoAuth, demoPasswd, ascii "joe", demoSftpOnly { sftp := some { settings := {} } }, demoExecCfg, demoSftpRun,
    { program := .sftpServer }, {},
    ⟨demoGreeting ++ [demoKeySig 8, .translated (some demoSftpAccount)], some { sftp := some { settings := {} } },
      by decide +kernel, by decide +kernel, by decide +kernel, rfl⟩,
    by decide +kernel, by decide +kernel, rfl, rfl⟩

/-! ## C79: the keys of a user -/

/-- The path of the file, relative to the home directory. -/
def authorizedKeys : Bytes := ascii ".ssh/authorized_keys"

theorem Candidate.home (h : Candidate cfg pw user c) {home : Bytes} (hh : c.homeDir = some home) :
    ∃ s, c.owner.general = some s ∧ s.home = some home := by
  unfold Ident.homeDir Ident.networkOptions at hh
  cases ha : c.translation with
  | none =>
    rw [ha] at hh
    exact ⟨{ uid := some c.uid, gid := some c.gid, home := if c.home = [] then none else some c.home },
      by simp [Ident.owner, ha, Owner.general], hh⟩
  | some a =>
    rw [ha] at hh
    cases hg : a.general with
    | some g => exact ⟨g.settings, by simp [Ident.owner, ha, Owner.general, hg], by simpa [hg] using hh⟩
    | none =>
      have : c.home = [] := by
        obtain ⟨_, d, _, _, _, _, _, rfl⟩ := h
        have hd : d = some a := ha
        subst hd
        rfl
      simp [hg, this] at hh

theorem Candidate.sftp (h : Candidate cfg pw user c) (hs : c.allowSftp = true) :
    ∃ s, c.owner.forProgram .sftpServer = some s ∧ c.prepare .sftp = some s := by
  cases ha : c.translation with
  | none =>
    exact ⟨{ uid := some c.uid, gid := some c.gid, home := if c.home = [] then none else some c.home },
      by simp [Ident.owner, ha, Owner.forProgram, Owner.general], by simp [Ident.prepare, ha]⟩
  | some a =>
    cases ho : a.sftp with
    | some o =>
      exact ⟨o.settings, by simp [Ident.owner, ha, Owner.forProgram, ho],
        by simp [Ident.prepare, Ident.executeOptions, ha, hs, ho]⟩
    | none =>
      have hg := (h.covered ha).sftp hs
      simp only [ho, Option.isSome_none, Bool.false_eq_true, or_false] at hg
      obtain ⟨g, hg⟩ := Option.isSome_iff_exists.1 hg
      exact ⟨g.settings, by simp [Ident.owner, ha, Owner.forProgram, ho, hg],
        by simp [Ident.prepare, Ident.executeOptions, ha, hs, ho, hg]⟩

/-- Where the file with the keys of a user is looked for: the server itself looks in the home
directory of the account; and a process with exactly the settings of the account for SFTP
looks in their home directory, if these settings have no other working directory. -/
theorem C79_keys_partial (h : Candidate cfg pw user c) (container : Bytes → Option Bytes) (first : FileOpen) {d : Deed}
    (hd : d ∈ c.openInHome container authorizedKeys first) :
    (∃ s home, c.owner.general = some s ∧ s.home = some home ∧ d = .attempted .server (.file (some home) authorizedKeys)) ∨
    ∃ s, c.owner.forProgram .sftpServer = some s ∧
      d = .attempted (.child { s with workdir := s.workdir.or (s.home.bind container) })
        (.file (s.workdir.or (s.home.bind container)) authorizedKeys) := by
  unfold Ident.openInHome at hd
  rcases List.mem_append.1 hd with hd | hd
  · left
    cases hh : c.homeDir with
    | none => rw [hh] at hd; simp at hd
    | some home =>
      rw [hh] at hd
      simp only [List.mem_singleton] at hd
      obtain ⟨s, h1, h2⟩ := h.home hh
      exact ⟨s, home, h1, h2, hd⟩
  · right
    have hd : c.allowSftp = true ∧ d = c.openFile container authorizedKeys := by
      split at hd
      · simp at hd
      · simp at hd
      · cases hs : c.allowSftp <;> rw [hs] at hd <;> simp_all
    obtain ⟨s, h1, h2⟩ := h.sftp hd.1
    refine ⟨s, h1, ?_⟩
    rw [hd.2]
    unfold Ident.openFile
    rw [hd.1, delegate_of h2]
    simp only [Bool.not_true, cond_false]
    have : receivePath authorizedKeys = some authorizedKeys := by decide
    rw [this]

/-- An example: key number 6 is not known otherwise. -/
def demoCandidate (a : Option AccountSettings) : Ident :=
  { Auth.run demoAuth {} (demoGreeting ++ [demoKeySig 6, .translated (some {})]) with username := ascii "joe" }.ident a demoPasswd

theorem demoCandidate_ok {a : AccountSettings} {g : ServiceSettings} (h1 : a.general = some g) (h2 : g.settings.Complete)
    (h3 : a.sftp = none) : Candidate demoAuth demoPasswd (ascii "joe") (demoCandidate (some a)) := by
  have ht : (Auth.run demoAuth {} (demoGreeting ++ [demoKeySig 6, .translated (some {})])).translation =
      some { user := ascii "joe", password := [], account := {} } := by decide +kernel
  have hk : ∃ r k, (Auth.run demoAuth {} (demoGreeting ++ [demoKeySig 6, .translated (some {})])).task = some (.home r k) ∧
      r.user = ascii "joe" := by
    have h : (match (Auth.run demoAuth {} (demoGreeting ++ [demoKeySig 6, .translated (some {})])).task with
        | some (.home r _) => r.user == ascii "joe"
        | _ => false) = true := by decide +kernel
    split at h
    · rename_i r k e
      exact ⟨r, k, e, by simpa using h⟩
    · simp at h
  obtain ⟨r, k, hk, hu⟩ := hk
  refine ⟨_, some a, r, k, hk, hu, ?_, rfl⟩
  unfold Detailed
  rw [ht]
  exact ⟨by rw [h1]; rfl, by rw [h3]; rfl, fun _ g' hg => by rw [h1] at hg; cases hg; exact h2⟩

example : Candidate demoAuth demoPasswd (ascii "joe") (demoCandidate (some demoCustomer)) ∧
    (demoCandidate (some demoCustomer)).openInHome some authorizedKeys .noAccess =
      [.attempted .server (.file (some demoHome) authorizedKeys),
       .attempted (.child { demoJail with workdir := some demoHome }) (.file (some demoHome) authorizedKeys)] :=
  ⟨demoCandidate_ok rfl (by decide) rfl, by decide +kernel⟩

/-- With a working directory in the settings, the file is looked for there, and not in the
home directory. -/
theorem C79_keys_violated : ∃ cfg pw user c s d who, Candidate cfg pw user c ∧ c.owner.general = some s ∧
    s.home = some demoHome ∧ d ≠ demoHome ∧
    .attempted who (.file (some d) authorizedKeys) ∈ c.openInHome some authorizedKeys .noAccess :=
  ⟨demoAuth, demoPasswd, ascii "joe",
    demoCandidate (some { general := some { settings := { demoJail with workdir := some (ascii "/tmp") } } }),
    { demoJail with workdir := some (ascii "/tmp") }, ascii "/tmp", .child { demoJail with workdir := some (ascii "/tmp") },
    demoCandidate_ok rfl (by decide) rfl, by decide +kernel, rfl, by decide, by decide +kernel⟩

end Lukko
