import Verif.Model.Startup
import Verif.Prop.Config
import Verif.Prop.SecretFile
/-
  C109: the start of the server: the keys it has, the order in which things happen, and that
  nothing is half done.
-/
namespace Lukko
open Lukko.Model Lukko.Spec

/-- What the file at this path is: absent only if the system says so; a key only if it is a
regular file of at most 32 KiB with a key in it. -/
def keyFileView (env : StartEnv) (path : Bytes) : KeyFileView SecKey :=
  match env.openFile path with
  | .failed e => if e = 2 then .absent else .unusable
  | .opened true (some c) =>
    if c.length ≤ 32768 then
      match parseSecretKey env.crypto env.decode c with
      | some k => .key k
      | none => .unusable
    else .unusable
  | .opened _ _ => .unusable

/-- The three files next to the configuration file. -/
def hostKeyViews (env : StartEnv) (path : Bytes) : List (KeyFileView SecKey) :=
  [keyFileView env (beside path (ascii "host_ed25519_key")), keyFileView env (beside path (ascii "host_ecdsa_key")),
    keyFileView env (beside path (ascii "host_rsa_key"))]

/-- One fresh key of each kind. -/
def freshKeys (env : StartEnv) : Option (List SecKey) :=
  match env.genEd, env.genEc, env.genRsa with
  | some a, some b, some c => some [a, b, c]
  | _, _, _ => none

/-- The global list of authorized keys: empty if the file cannot be opened. -/
def authorizedView (env : StartEnv) (path : Bytes) : Option KeySet :=
  match env.openFile (beside path (ascii "authorized_keys")) with
  | .failed _ => some []
  | .opened _ content => content.map (loadFile env.decode [])

/-- Everything needed for a start is there. -/
structure Startable (env : StartEnv) (path : Bytes) (data : CfgData SecKey) (keys : List SecKey) (authorized : KeySet) : Prop where
  sodium : env.sodium = true
  cmdline : parseCommandLine env.args = some path
  config : ∃ ls, env.config path = some ls ∧ loadConfig env.cfg env.decode ls = .ok data
  spawn : env.spawn = true
  identity : IsIdentity (hostKeyViews env path) (freshKeys env) keys
  authorized : authorizedView env path = some authorized
  controls : ∀ n < data.controls.length, env.control n = true
  exporters : ∀ n < data.exporters.length, env.exporter n = true
  listeners : ∀ l ∈ data.listeners, env.listener l = true
  drop : env.drop = true

/-! ## Steps -/

theorem attempt_prefix {A : Type} (ok : A → Bool) (as : List A) : (attempt ok as).1 <+: as := by
  induction as with
  | nil => exact List.prefix_refl _
  | cons a rest ih =>
    unfold attempt
    cases ok a
    · exact List.nil_prefix
    · exact List.cons_prefix_cons.mpr ⟨rfl, ih⟩

theorem attempt_ok {A : Type} {ok : A → Bool} {as : List A} :
    (attempt ok as).2 = true ↔ ∀ a ∈ as, ok a = true := by
  induction as with
  | nil => simp [attempt]
  | cons a rest ih =>
    unfold attempt
    cases h : ok a
    · simp [h]
    · simp only [cond_true, ih, List.mem_cons, forall_eq_or_imp, h, true_and]

theorem attempt_all {A : Type} {ok : A → Bool} {as : List A} (h : (attempt ok as).2 = true) : (attempt ok as).1 = as := by
  induction as with
  | nil => rfl
  | cons a rest ih =>
    unfold attempt at h ⊢
    cases hk : ok a
    · rw [hk] at h; cases h
    · rw [hk] at h; simp only [cond_true] at h ⊢; rw [ih h]

theorem loadOptionalKeyFile_view (env : StartEnv) (path : Bytes) :
    loadOptionalKeyFile env path = match keyFileView env path with
      | .absent => some none
      | .key k => some (some k)
      | .unusable => none := by
  unfold loadOptionalKeyFile keyFileView
  cases h : env.openFile path with
  | failed e => by_cases he : e = 2 <;> simp [he]
  | opened r c =>
    cases c with
    | none => cases r <;> rfl
    | some c =>
      simp only [C72_file]
      cases r
      · rfl
      · by_cases hl : c.length ≤ 32768
        · simp only [hl, and_self, if_true]
          cases parseSecretKey env.crypto env.decode c <;> rfl
        · simp [hl]

theorem loadKeyFiles_views (env : StartEnv) (paths : List Bytes) (keys : List SecKey) :
    loadKeyFiles env paths keys =
      if .unusable ∈ paths.map (keyFileView env) then none else some (keys ++ keysIn (paths.map (keyFileView env))) := by
  induction paths generalizing keys with
  | nil => simp [loadKeyFiles, keysIn]
  | cons p rest ih =>
    rw [loadKeyFiles, loadOptionalKeyFile_view, List.map_cons]
    cases h : keyFileView env p with
    | absent => simp only [ih]; simp [keysIn]
    | key k => simp only [ih]; simp [keysIn]
    | unusable => simp

theorem generateKeys_fresh (env : StartEnv) : generateKeys env = freshKeys env := by
  unfold generateKeys freshKeys
  cases env.genEd <;> cases env.genEc <;> cases env.genRsa <;> rfl

theorem keysIn_nil {K : Type} {fs : List (KeyFileView K)} (hu : .unusable ∉ fs) : keysIn fs = [] ↔ ∀ f ∈ fs, f = .absent := by
  induction fs with
  | nil => simp [keysIn]
  | cons f fs ih =>
    have hu' : KeyFileView.unusable ∉ fs := fun h => hu (List.mem_cons_of_mem _ h)
    cases f with
    | absent => simpa [keysIn] using ih hu'
    | key k => simp [keysIn]
    | unusable => exact absurd (by simp) hu

theorem loadHostKeys_iff (env : StartEnv) (path : Bytes) (keys : List SecKey) :
    loadHostKeys env path = some keys ↔ IsIdentity (hostKeyViews env path) (freshKeys env) keys := by
  have hv : (hostKeyFilenames.map (beside path)).map (keyFileView env) = hostKeyViews env path := rfl
  unfold loadHostKeys
  rw [loadKeyFiles_views, hv, generateKeys_fresh]
  by_cases hu : KeyFileView.unusable ∈ hostKeyViews env path
  · simp only [hu, if_true]
    constructor
    · intro h; cases h
    · intro h; exact absurd hu h.usable
  · simp only [hu, if_false, List.nil_append]
    have hn := keysIn_nil hu
    cases hk : keysIn (hostKeyViews env path) with
    | nil =>
      have ha := hn.mp hk
      simp only
      exact ⟨fun h => ⟨hu, fun ⟨f, hf, hne⟩ => absurd (ha f hf) hne, fun _ => h⟩, fun h => h.generated ha⟩
    | cons k ks =>
      have hx : ∃ f ∈ hostKeyViews env path, f ≠ .absent := Classical.byContradiction fun hno => by
        have : keysIn (hostKeyViews env path) = [] := hn.mpr fun f hf => Classical.byContradiction fun hne => hno ⟨f, hf, hne⟩
        rw [hk] at this; cases this
      simp only [Option.some.injEq]
      constructor
      · rintro rfl
        refine ⟨hu, fun _ => hk.symm, fun ha => ?_⟩
        obtain ⟨f, hf, hne⟩ := hx
        exact absurd (ha f hf) hne
      · intro h
        rw [h.kept hx, hk]

/-! ## The property -/

/-- The listeners with their keys, as in the file: a listener's own keys, or else those of the host. -/
def listenersWith (data : CfgData SecKey) (keys : List SecKey) : List (ListenerCfg SecKey × List SecKey) :=
  data.meaning.listeners.map fun l => (l, bif l.hostKeys.isEmpty then keys else l.hostKeys)

theorem listenersWith_eq (data : CfgData SecKey) (keys : List SecKey) :
    (data.listeners.map fun l => (l, listenerKeys keys l)).reverse = listenersWith data keys := by
  unfold listenersWith CfgData.meaning
  rw [← List.map_reverse]
  apply List.map_congr_left
  intro l _
  unfold listenerKeys
  cases l.hostKeys <;> simp

/-- What `main` does after the configuration, depending on what goes wrong. -/
theorem startServices_cases (env : StartEnv) (path : Bytes) (data : CfgData SecKey) :
    (∃ keys authorized, env.spawn = true ∧ IsIdentity (hostKeyViews env path) (freshKeys env) keys ∧
      authorizedView env path = some authorized ∧
      (∀ n < data.controls.length, env.control n = true) ∧ (∀ n < data.exporters.length, env.exporter n = true) ∧
      (∀ l ∈ data.listeners, env.listener l = true) ∧ env.drop = true ∧
      startServices env path data = (startPlan data.controls.length data.exporters.length data.listeners,
        .running ⟨keys, authorized, listenersWith data keys⟩)) ∨
    (¬ (env.spawn = true ∧ (∃ keys, IsIdentity (hostKeyViews env path) (freshKeys env) keys) ∧
        (∃ authorized, authorizedView env path = some authorized) ∧
        (∀ n < data.controls.length, env.control n = true) ∧ (∀ n < data.exporters.length, env.exporter n = true) ∧
        (∀ l ∈ data.listeners, env.listener l = true) ∧ env.drop = true) ∧
      ∃ ds, startServices env path data = (ds, .exited 1) ∧
        (∃ rest, ds ++ (rest ++ [.unprivileged, .ready]) = startPlan data.controls.length data.exporters.length data.listeners) ∧
        ((¬ ∃ keys, IsIdentity (hostKeyViews env path) (freshKeys env) keys) → ∀ d ∈ ds, d = .spawner)) := by
  unfold startServices startPlan
  cases hs : env.spawn with
  | false => exact .inr ⟨fun h => Bool.false_ne_true h.1, [], rfl, ⟨.spawner :: ((List.range data.controls.length).map .control ++ ((List.range data.exporters.length).map .exporter ++
      data.listeners.map .listen)), by simp⟩, fun _ d hd => by simp at hd⟩
  | true =>
  simp only [cond_true]
  cases hk : loadHostKeys env path with
  | none =>
    refine .inr ⟨fun ⟨_, ⟨keys, h⟩, _⟩ => ?_, [.spawner], rfl, ⟨(List.range data.controls.length).map .control ++ ((List.range data.exporters.length).map .exporter ++
      data.listeners.map .listen), by simp⟩, fun _ d hd => by simpa using hd⟩
    rw [(loadHostKeys_iff env path keys).mpr h] at hk; cases hk
  | some keys =>
  have hid := (loadHostKeys_iff env path keys).mp hk
  simp only
  have hauth : loadGlobalAuthorizedKeys env path = authorizedView env path := rfl
  rw [hauth]
  cases ha : authorizedView env path with
  | none =>
    exact .inr ⟨fun ⟨_, _, ⟨a, h⟩, _⟩ => (nomatch h), [.spawner], rfl, ⟨(List.range data.controls.length).map .control ++ ((List.range data.exporters.length).map .exporter ++
      data.listeners.map .listen), by simp⟩,
      fun h => absurd ⟨keys, hid⟩ h⟩
  | some authorized =>
  simp only
  unfold startInstance
  simp only
  obtain ⟨cr, hcr⟩ := attempt_prefix env.control (List.range data.controls.length)
  obtain ⟨er, her⟩ := attempt_prefix env.exporter (List.range data.exporters.length)
  obtain ⟨lr, hlr⟩ := attempt_prefix env.listener data.listeners
  cases hc : (attempt env.control (List.range data.controls.length)).2 with
  | false =>
    refine .inr ⟨fun ⟨_, _, _, h, _⟩ => ?_, _, rfl, ⟨cr.map .control ++ ((List.range data.exporters.length).map .exporter ++
      data.listeners.map .listen), ?_⟩, fun h => absurd ⟨keys, hid⟩ h⟩
    · rw [attempt_ok.mpr (by simpa using h)] at hc; cases hc
    · conv => rhs; rw [← hcr]
      simp
  | true =>
  have hc' := attempt_ok.mp hc
  simp only [cond_true, attempt_all hc]
  cases he : (attempt env.exporter (List.range data.exporters.length)).2 with
  | false =>
    refine .inr ⟨fun ⟨_, _, _, _, h, _⟩ => ?_, _, rfl, ⟨er.map .exporter ++ data.listeners.map .listen, ?_⟩,
      fun h => absurd ⟨keys, hid⟩ h⟩
    · rw [attempt_ok.mpr (by simpa using h)] at he; cases he
    · conv => rhs; rw [← her]
      simp
  | true =>
  have he' := attempt_ok.mp he
  simp only [cond_true, attempt_all he]
  unfold startListeners
  simp only
  cases hl : (attempt env.listener data.listeners).2 with
  | false =>
    refine .inr ⟨fun ⟨_, _, _, _, _, h, _⟩ => ?_, _, rfl, ⟨lr.map .listen, ?_⟩, fun h => absurd ⟨keys, hid⟩ h⟩
    · rw [attempt_ok.mpr h] at hl; cases hl
    · conv => rhs; rw [← hlr]
      simp
  | true =>
  have hl' := attempt_ok.mp hl
  simp only [cond_true, attempt_all hl]
  cases hd : env.drop with
  | false =>
    exact .inr ⟨fun ⟨_, _, _, _, _, _, h⟩ => Bool.false_ne_true h, _, rfl, ⟨[], by simp⟩, fun h => absurd ⟨keys, hid⟩ h⟩
  | true =>
    refine .inl ⟨keys, authorized, trivial, hid, rfl, by simpa using hc', by simpa using he', hl', rfl, ?_⟩
    simp only [cond_true, listenersWith_eq]

theorem IsIdentity.unique {K : Type} {fs : List (KeyFileView K)} {fresh : Option (List K)} {k k' : List K}
    (h : IsIdentity fs fresh k) (h' : IsIdentity fs fresh k') : k = k' := by
  by_cases hx : ∃ f ∈ fs, f ≠ .absent
  · rw [h.kept hx, h'.kept hx]
  · have ha : ∀ f ∈ fs, f = .absent := fun f hf => Classical.byContradiction fun hne => hx ⟨f, hf, hne⟩
    have h1 := h.generated ha
    rw [h'.generated ha] at h1
    exact (Option.some.inj h1).symm

/-- **C109.** If everything is there, the server runs: it has done all of this, in this order, and
has these keys. -/
theorem C109_starts {env : StartEnv} {path : Bytes} {data : CfgData SecKey} {keys : List SecKey} {authorized : KeySet}
    (h : Startable env path data keys authorized) :
    start env = (startPlan data.controls.length data.exporters.length data.listeners,
      .running ⟨keys, authorized, listenersWith data keys⟩) := by
  obtain ⟨ls, hls, hdata⟩ := h.config
  unfold start
  rw [h.sodium, h.cmdline]
  simp only [cond_true, hls, hdata]
  rcases startServices_cases env path data with ⟨k, a, -, hk, ha, -, -, -, -, he⟩ | ⟨hno, -⟩
  · rw [he, IsIdentity.unique h.identity hk, show authorized = a from Option.some.inj (h.authorized.symm.trans ha)]
  · exact absurd ⟨h.spawn, ⟨_, h.identity⟩, ⟨_, h.authorized⟩, h.controls, h.exporters, h.listeners, h.drop⟩ hno

/-- **C109.** A running server had all of it. -/
theorem C109_running {env : StartEnv} {s : Started} (h : (start env).2 = .running s) :
    ∃ path data, Startable env path data s.hostKeys s.authorized ∧ s.listeners = listenersWith data s.hostKeys ∧
      (start env).1 = startPlan data.controls.length data.exporters.length data.listeners := by
  unfold start at h ⊢
  cases hs : env.sodium with
  | false => rw [hs] at h; cases h
  | true =>
  rw [hs] at h
  simp only [cond_true] at h ⊢
  cases hp : parseCommandLine env.args with
  | none => rw [hp] at h; cases h
  | some path =>
  rw [hp] at h
  simp only at h ⊢
  cases hc : env.config path with
  | none => rw [hc] at h; cases h
  | some ls =>
  rw [hc] at h
  simp only at h ⊢
  cases hl : loadConfig env.cfg env.decode ls with
  | error x => rw [hl] at h; cases h
  | ok data =>
  rw [hl] at h
  simp only at h ⊢
  rcases startServices_cases env path data with ⟨k, a, h1, h2, h3, h4, h5, h6, h7, he⟩ | ⟨-, ds, he, -⟩
  · rw [he] at h ⊢
    cases h
    exact ⟨path, data, ⟨hs, hp, ⟨ls, hc, hl⟩, h1, h2, h3, h4, h5, h6, h7⟩, rfl, rfl⟩
  · rw [he] at h; cases h

/-- **C109.** Whatever goes wrong, only a beginning of the plan has been carried out; the server
has never claimed to be ready, has accepted no connection, and has exited with an error code. -/
theorem C109_fails {env : StartEnv} {code : Nat} (h : (start env).2 = .exited code) :
    (code = 1 ∨ code = 78) ∧ .ready ∉ (start env).1 ∧ .unprivileged ∉ (start env).1 ∧
    ((start env).1 = [] ∨ ∃ path ls data rest, parseCommandLine env.args = some path ∧ env.config path = some ls ∧
      loadConfig env.cfg env.decode ls = .ok data ∧
      (start env).1 ++ (rest ++ [.unprivileged, .ready]) = startPlan data.controls.length data.exporters.length data.listeners) := by
  unfold start at h ⊢
  cases hs : env.sodium with
  | false => rw [hs] at h; cases h; exact ⟨.inl rfl, by simp, by simp, .inl rfl⟩
  | true =>
  rw [hs] at h
  simp only [cond_true] at h ⊢
  cases hp : parseCommandLine env.args with
  | none => rw [hp] at h; cases h; exact ⟨.inl rfl, by simp, by simp, .inl rfl⟩
  | some path =>
  rw [hp] at h
  simp only at h ⊢
  cases hc : env.config path with
  | none => rw [hc] at h; cases h; exact ⟨.inr rfl, by simp, by simp, .inl rfl⟩
  | some ls =>
  rw [hc] at h
  simp only at h ⊢
  cases hl : loadConfig env.cfg env.decode ls with
  | error x => rw [hl] at h; cases h; exact ⟨.inr rfl, by simp, by simp, .inl rfl⟩
  | ok data =>
  rw [hl] at h
  simp only at h ⊢
  rcases startServices_cases env path data with ⟨k, a, -, -, -, -, -, -, -, he⟩ | ⟨-, ds, he, ⟨rest, hr⟩, -⟩
  · rw [he] at h; cases h
  · rw [he] at h ⊢
    cases h
    have hr' : ds ++ (rest ++ [.unprivileged, .ready]) = startPlan data.controls.length data.exporters.length data.listeners := hr
    have hin : ds ++ rest = .spawner :: ((List.range data.controls.length).map .control ++
        ((List.range data.exporters.length).map .exporter ++ data.listeners.map .listen)) := by
      have : (ds ++ rest) ++ [.unprivileged, .ready] = (.spawner :: ((List.range data.controls.length).map .control ++
        ((List.range data.exporters.length).map .exporter ++ data.listeners.map .listen))) ++ [.unprivileged, .ready] := by
        rw [List.append_assoc, hr']; simp [startPlan]
      exact List.append_cancel_right this
    refine ⟨.inl rfl, fun hm => ?_, fun hm => ?_, .inr ⟨path, ls, data, rest, rfl, hc, hl, hr'⟩⟩ <;>
    · have : _ ∈ ds ++ rest := List.mem_append_left rest hm
      rw [hin] at this
      simp at this

/-- **C109.** An error in the configuration, or a missing configuration, leads to the exit code for
that, with nothing done; and this code means nothing else. -/
theorem C109_config (env : StartEnv) :
    (start env).2 = .exited 78 ↔ env.sodium = true ∧ ∃ path, parseCommandLine env.args = some path ∧
      ∀ ls, env.config path = some ls → ∀ data, loadConfig env.cfg env.decode ls ≠ .ok data := by
  unfold start
  cases hs : env.sodium with
  | false => simp [EXIT_FAILURE]
  | true =>
  simp only [cond_true, true_and]
  cases hp : parseCommandLine env.args with
  | none => simp [EXIT_FAILURE]
  | some path =>
  simp only [Option.some.injEq, exists_eq_left']
  cases hc : env.config path with
  | none => simp
  | some ls =>
  simp only [Option.some.injEq, forall_eq']
  cases hl : loadConfig env.cfg env.decode ls with
  | error x => simp
  | ok data =>
  simp only [Except.ok.injEq, ne_eq]
  rcases startServices_cases env path data with ⟨k, a, -, -, -, -, -, -, -, he⟩ | ⟨-, ds, he, -⟩
  · rw [he]; simp
  · rw [he]; simp

theorem C109_config_nothing {env : StartEnv} (h : (start env).2 = .exited 78) : (start env).1 = [] := by
  obtain ⟨hs, path, hp, hc⟩ := (C109_config env).mp h
  unfold start
  rw [hs, hp]
  simp only [cond_true]
  cases hx : env.config path with
  | none => rfl
  | some ls =>
  simp only
  cases hl : loadConfig env.cfg env.decode ls with
  | error x => rfl
  | ok data => exact absurd hl (hc ls hx data)

/-- **C109.** The configuration file is the one named with `--config`, or `/etc/cm4all/lukko/lukko.conf`; with any other arguments the
program exits without having done anything. -/
theorem C109_command_line (env : StartEnv) :
    (∀ path, parseCommandLine env.args = some path ↔
      ∃ prog, (env.args = [prog] ∧ path = ascii "/etc/cm4all/lukko/lukko.conf") ∨ env.args = [prog, ascii "--config", path]) ∧
    (parseCommandLine env.args = none → start env = ([], .exited 1)) := by
  refine ⟨fun path => ⟨fun h => ?_, ?_⟩, fun h => ?_⟩
  · unfold parseCommandLine at h
    split at h
    · exact ⟨_, .inl ⟨by assumption, (Option.some.inj h).symm⟩⟩
    · rename_i prog opt path' he
      split at h
      · rename_i ho
        cases h
        exact ⟨prog, .inr (by rw [he, ho])⟩
      · cases h
    · cases h
  · rintro ⟨prog, ⟨h1, rfl⟩ | h1⟩
    · rw [h1]; rfl
    · rw [h1]; simp [parseCommandLine]
  · unfold start
    rw [h]
    cases env.sodium <;> rfl

/-- Non-vacuity: another option. -/
example : parseCommandLine [ascii "cm4all-lukko", ascii "--config", ascii "/a"] = some (ascii "/a") ∧
    parseCommandLine [ascii "cm4all-lukko", ascii "--conf", ascii "/a"] = none := by decide

/-- **C109.** A key file which is there but cannot be used keeps the server from starting, before
there are any sockets: it never runs with another identity instead. -/
theorem C109_unusable {env : StartEnv} {path : Bytes} (hp : parseCommandLine env.args = some path)
    (h : .unusable ∈ hostKeyViews env path) : (∃ code, (start env).2 = .exited code) ∧ ∀ d ∈ (start env).1, d = .spawner := by
  unfold start
  cases env.sodium with
  | false => exact ⟨⟨_, rfl⟩, fun d hd => by simp at hd⟩
  | true =>
  rw [hp]
  simp only [cond_true]
  cases env.config path with
  | none => exact ⟨⟨_, rfl⟩, fun d hd => by simp at hd⟩
  | some ls =>
  simp only
  cases loadConfig env.cfg env.decode ls with
  | error x => exact ⟨⟨_, rfl⟩, fun d hd => by simp at hd⟩
  | ok data =>
  simp only
  have hno : ¬ ∃ keys, IsIdentity (hostKeyViews env path) (freshKeys env) keys := fun ⟨_, hk⟩ => hk.usable h
  rcases startServices_cases env path data with ⟨k, a, -, hk, -⟩ | ⟨-, ds, he, -, hd⟩
  · exact absurd ⟨k, hk⟩ hno
  · rw [he]; exact ⟨⟨_, rfl⟩, hd hno⟩

/-- **C109.** The identity is that of the files: as long as there are files, it is the same after
each start, whatever else has changed. -/
theorem C109_stable {env env' : StartEnv} {s s' : Started} (h : (start env).2 = .running s) (h' : (start env').2 = .running s')
    (hargs : env'.args = env.args)
    (hfiles : ∀ path, hostKeyViews env' path = hostKeyViews env path)
    (hsome : ∀ path, parseCommandLine env.args = some path → ∃ f ∈ hostKeyViews env path, f ≠ .absent) :
    s'.hostKeys = s.hostKeys := by
  obtain ⟨path, data, hr, -⟩ := C109_running h
  obtain ⟨path', data', hr', -⟩ := C109_running h'
  have hpath := hr.cmdline
  have hpath' := hr'.cmdline
  rw [hargs, hpath] at hpath'
  cases hpath'
  have hx := hsome path hpath
  rw [hr.identity.kept hx, hr'.identity.kept (by rw [hfiles]; exact hx), hfiles]

/-! ## An example -/

def demoStartLines : List CfgLine :=
  cfgText [.block (demoLine "listener" []) [demoSet "bind" "*:22"],
    .block (demoLine "listener" []) [demoSet "bind" "/run/socket", demoSet "host_key_file" "own"]]

def demoStartKey (n : UInt8) : SecKey := .ed25519 (List.replicate 32 n) (List.replicate 64 n)

/-- Of the three files there is `openFile`. -/
def demoStartEnv (openFile : Bytes → Opened) : StartEnv where
  sodium := true
  args := [ascii "lukko", ascii "--config", ascii "/x/y.conf"]
  config p := if p = ascii "/x/y.conf" then some demoStartLines else none
  cfg :=
    { addr := demoCfgEnv.addr, path := demoCfgEnv.path, file := demoCfgEnv.file, key := fun _ => some (demoStartKey 9),
      positive := demoCfgEnv.positive, octal := demoCfgEnv.octal, zeroconf := demoCfgEnv.zeroconf,
      zeroconfOk := demoCfgEnv.zeroconfOk, spawn := demoCfgEnv.spawn, anyAddr := demoCfgEnv.anyAddr }
  decode := demoDecode
  crypto := demoCrypto
  spawn := true
  openFile := openFile
  genEd := some (demoStartKey 1)
  genEc := some (demoStartKey 2)
  genRsa := some (demoStartKey 3)
  control _ := true
  exporter _ := true
  listener _ := true
  drop := true

/-- `/x/host_ecdsa_key` exists, with the key of `demoKeyFile`. -/
def demoStartFiles : Bytes → Opened := fun p =>
  if p = ascii "/x/host_ecdsa_key" then .opened true (some (demoKeyFile [7])) else .failed 2

def demoKeyMark : SecKey → Nat
  | .ed25519 (a :: _) _ => a.toNat
  | _ => 0

/-- How many deeds, the keys, those of the listeners, the number of authorized keys. -/
def demoStartResult (env : StartEnv) : Nat × List Nat × List (List Nat) × Nat :=
  ((start env).1.length, match (start env).2 with
    | .running s => (s.hostKeys.map demoKeyMark, s.listeners.map (·.2.map demoKeyMark), s.authorized.length)
    | .exited n => ([], [], n))

example : demoStartResult (demoStartEnv demoStartFiles) = (5, [5], [[5], [9]], 0) := by decide +kernel
example : demoStartResult (demoStartEnv fun _ => .failed 2) = (5, [1, 2, 3], [[1, 2, 3], [9]], 0) := by decide +kernel
/-- No permission to read one of the files. -/
example : demoStartResult (demoStartEnv fun p => if p = ascii "/x/host_rsa_key" then .failed 13 else demoStartFiles p) =
    (1, [], [], 1) := by decide +kernel
example : demoStartResult { demoStartEnv demoStartFiles with drop := false } = (3, [], [], 1) := by decide +kernel
example : demoStartResult { demoStartEnv demoStartFiles with config := fun _ => some [[.closeBrace]] } = (0, [], [], 78) := by
  decide +kernel

theorem demoStartResult_running {env : StartEnv} (h : (demoStartResult env).2.1 ≠ []) : ∃ s, (start env).2 = .running s := by
  unfold demoStartResult at h
  cases hx : (start env).2 with
  | exited n => rw [hx] at h; exact absurd rfl h
  | running s => exact ⟨s, rfl⟩

/-- The hypotheses of `C109_starts` can be met. -/
example : ∃ path data keys authorized, Startable (demoStartEnv demoStartFiles) path data keys authorized := by
  obtain ⟨s, hx⟩ := demoStartResult_running (env := demoStartEnv demoStartFiles) (by decide +kernel)
  obtain ⟨path, data, hr, -⟩ := C109_running hx
  exact ⟨path, data, _, _, hr⟩

/-- **C109.** The list of authorized keys is different: if the file is there but may not be opened,
the server runs, without those keys and without a message. -/
theorem C109_authorized_silent : ∃ env s, (start env).2 = .running s ∧ s.authorized = [] ∧
    env.openFile (beside (ascii "/x/y.conf") (ascii "authorized_keys")) = .failed 13 ∧
    parseCommandLine env.args = some (ascii "/x/y.conf") := by
  have key : ∀ env : StartEnv, (match (start env).2 with
      | .running s => s.authorized.isEmpty
      | .exited _ => false) = true → ∃ s, (start env).2 = .running s ∧ s.authorized = [] := by
    intro env h
    cases hx : (start env).2 with
    | exited n => rw [hx] at h; cases h
    | running s => rw [hx] at h; exact ⟨s, rfl, by simpa using h⟩
  obtain ⟨s, h1, h2⟩ := key (demoStartEnv fun p => if p = ascii "/x/authorized_keys" then .failed 13 else demoStartFiles p)
    (by decide +kernel)
  exact ⟨_, s, h1, h2, by decide +kernel, by decide +kernel⟩

/-- **C109.** Otherwise its keys are those of the file: a key is found if and only if the file
contains it. -/
theorem C109_authorized {env : StartEnv} {s : Started} (h : (start env).2 = .running s) :
    ∃ path, parseCommandLine env.args = some path ∧ ∀ regular content,
      env.openFile (beside path (ascii "authorized_keys")) = .opened regular content →
      ∃ text, content = some text ∧ ∀ key, s.authorized.find key = fileContains env.decode text key := by
  obtain ⟨path, data, hr, -⟩ := C109_running h
  refine ⟨path, hr.cmdline, fun regular content ho => ?_⟩
  have ha := hr.authorized
  unfold authorizedView at ha
  rw [ho] at ha
  cases content with
  | none => cases ha
  | some text =>
    refine ⟨text, rfl, fun key => ?_⟩
    rw [← Option.some.inj (show some (loadFile env.decode [] text) = some s.authorized from ha)]
    have := C77_keys (decode := env.decode) [text] key
    simpa using this

end Lukko
