import Verif.Proof.HostInv
import Verif.Prop.Holder
import Verif.Prop.SessionIo
/-
  C96: the server with its session channels – from the packets of the client to the processes which are
  started for it, and back.
-/
namespace Lukko
open Model Spec

variable {σ : Type} {x : HostEnv σ}

theorem HInv.of_run (hx : EnvOk x.server.trans) {evs : List HostEvent} {h : Host σ}
    (hr : ({} : Host σ).run x evs = some h) : HInv x h := by
  obtain ⟨h', h1, h2⟩ := HInv.run (x := x) hx evs HInv.init
  rw [hr] at h1
  cases h1
  exact h2

theorem Server.run_append {sx : ServerEnv σ} (a b : List ServerEvent) : ∀ (s : Server σ),
    s.run sx (a ++ b) = (s.run sx a).bind fun s => s.run sx b := by
  induction a with
  | nil => intro s; rfl
  | cons e a ih =>
    intro s
    simp only [List.cons_append, Server.run]
    cases s.step sx e with
    | none => rfl
    | some s' => exact ih s'

theorem host_server {evs : List HostEvent} : ∀ {h h' : Host σ}, h.run x evs = some h' →
    ∃ sevs, h.server.run x.server sevs = some h'.server := by
  have settled : ∀ {s old new} {h' : Host σ}, Host.settle x s old new = some h' → ∃ sevs, s.run x.server sevs = some h'.server := by
    intro s old new h' h
    obtain ⟨s', h1, rfl⟩ := Option.map_eq_some_iff.mp h
    exact ⟨_, h1⟩
  induction evs with
  | nil => intro h h' hr; cases hr; exact ⟨[], rfl⟩
  | cons ev evs ih =>
    intro h h' hr
    obtain ⟨h₁, h1, h2⟩ := Option.bind_eq_some_iff.mp hr
    obtain ⟨b, hb⟩ := ih h2
    have ha : ∃ a, h.server.run x.server a = some h₁.server := by
      cases ev with
      | server ev c =>
        obtain ⟨s, g1, g2⟩ := Option.bind_eq_some_iff.mp h1
        obtain ⟨a, ha⟩ := settled g2
        exact ⟨ev :: a, by simp only [Server.run, g1, Option.bind_some, ha]⟩
      | session i ev =>
        simp only [Host.step] at h1
        cases hl : ev.isLocal with
        | false => rw [hl] at h1; cases h1; exact ⟨[], rfl⟩
        | true => rw [hl] at h1; exact settled h1
    obtain ⟨a, ha⟩ := ha
    exact ⟨a ++ b, by rw [Server.run_append, ha, Option.bind_some, hb]⟩

/-! ## C96 -/

/-- **C96.** No assertion fails, with any number of session channels. -/
theorem C96_no_assertion_fails (hx : EnvOk x.server.trans) (evs : List HostEvent) : (({} : Host σ).run x evs).isSome := by
  obtain ⟨h', h1, _⟩ := HInv.run (x := x) hx evs HInv.init
  rw [h1]; rfl

/-- **C96.** Below the session channels is a connection as in C93 and C94, to which all that is said there applies. -/
theorem C96_connection {evs : List HostEvent} {h : Host σ} (hr : ({} : Host σ).run x evs = some h) :
    ∃ sevs, ({} : Server σ).run x.server sevs = some h.server := host_server hr

/-- **C96.** Every session was opened by the client, after the login, with a CHANNEL_OPEN message; and what a session is
told is what the client's messages since then mean to the channel with its number: all of them as long as the session is
alive, in this order, nothing else, and nothing which is meant for another channel. -/
theorem C96_said (hx : EnvOk x.server.trans) {evs : List HostEvent} {h : Host σ} (hr : ({} : Host σ).run x evs = some h)
    {s : Session} (hs : s ∈ h.sessions) :
    ∃ pre window size rest post, h.server.auth.log =
        pre ++ [.received 90 (channelOpenBody (ascii "session") s.peer window size rest), .openSession] ++ post ∧
      (∃ l, .loggedIn l ∈ pre) ∧
      ∃ ms, ms <+: clientMessages post ∧ (s.ch.stop = none → ms = clientMessages post) ∧
        Meaning s.number ms (s.ch.s.log.filter SessEntry.byClient) := by
  have hi := HInv.of_run hx hr
  obtain ⟨y, pre, post, hk⟩ := hi.ok s hs
  obtain ⟨w, m, rest, pre', evs', c1, c2⟩ := hk.ch
  obtain ⟨ms, m1, m2, m3⟩ := hk.said
  obtain ⟨aevs, ha⟩ := hi.server.auth
  refine ⟨pre', w, m, rest, post, by rw [hk.opened, c1]; simp, ?_, ms, m1, m3, m2⟩
  obtain ⟨⟨l, hl⟩, _⟩ := no_login_after (cfg := h.server.cfg x.server) (aevs := aevs) (by rw [← ha]; exact hk.opened)
  rw [c1] at hl
  exact ⟨l, by simpa using hl⟩

/-- **C96.** Two sessions which are open at the same time have different numbers: no message reaches two of them. -/
theorem C96_distinct (hx : EnvOk x.server.trans) {evs : List HostEvent} {h : Host σ} (hr : ({} : Host σ).run x evs = some h) :
    h.sessions.Pairwise fun a b => a.isOpen = true → b.isOpen = true → a.number ≠ b.number :=
  (HInv.of_run hx hr).apart

/-- **C96.** The restrictions which apply to a session that is alive are those of the connection. -/
theorem C96_restrictions (hx : EnvOk x.server.trans) {evs : List HostEvent} {h : Host σ} (hr : ({} : Host σ).run x evs = some h)
    {s : Session} (hs : s ∈ h.sessions) (ha : s.ch.stop = none) : inEffect h.server.auth.log = some s.ch.s.restr := by
  obtain ⟨y, pre, post, hk⟩ := (HInv.of_run hx hr).ok s hs
  exact hk.restr ha

/-- After a login, restrictions are only tightened. -/
theorem restricted_tighter {cfg : AuthCfg} {evs : List AuthEv} {l : Login} {a b : List AuthEntry}
    (h : (Auth.run cfg {} evs).log = a ++ .loggedIn l :: b) : ∀ r, .restricted r ∈ b → l.restrictions.le r := by
  have key : ∀ b1 b2, b = b1 ++ b2 → ∃ r, inEffect (a ++ .loggedIn l :: b1) = some r ∧ l.restrictions.le r ∧
      ∀ r', .restricted r' ∈ b1 → l.restrictions.le r' := by
    intro b1
    induction b1 using Aux.snoc_ind with
    | h0 =>
      intro b2 _
      exact ⟨l.restrictions, by rw [show a ++ .loggedIn l :: [] = a ++ [.loggedIn l] from rfl, inEffect_snoc], Restrictions.le_refl _, by simp⟩
    | h1 b1 e ih =>
      intro b2 hb
      obtain ⟨r, h1, h2, h3⟩ := ih (e :: b2) (by rw [hb]; simp)
      have hn := inEffect_snoc (a ++ .loggedIn l :: b1) e
      rw [show (a ++ .loggedIn l :: b1) ++ [e] = a ++ .loggedIn l :: (b1 ++ [e]) by simp] at hn
      have hpos : (Auth.run cfg {} evs).log = (a ++ .loggedIn l :: b1) ++ e :: b2 := by rw [h, hb]; simp
      cases e with
      | loggedIn l' =>
        obtain ⟨_, _, hno⟩ := C29_login cfg evs h
        exact absurd (by rw [hb]; simp) (hno l')
      | restricted r1 =>
        obtain ⟨r0, g1, g2⟩ := C34_connection cfg evs hpos
        rw [h1] at g1
        cases g1
        have hle := Restrictions.le_trans h2 g2
        refine ⟨r1, hn, hle, fun r' hr' => ?_⟩
        rcases List.mem_append.mp hr' with hr' | hr'
        · exact h3 r' hr'
        · simp only [List.mem_singleton, AuthEntry.restricted.injEq] at hr'
          rw [hr']; exact hle
      | _ => exact ⟨r, hn.trans h1, h2, fun r' hr' => h3 r' (by simpa using hr')⟩
  obtain ⟨_, _, _, h3⟩ := key b [] (by simp)
  exact h3

theorem restrictionsNow_le {l : Restrictions} {log : List SessEntry} : ∀ {r}, l.le r → (∀ r', .restricted r' ∈ log → l.le r') →
    l.le (restrictionsNow r log) := by
  induction log with
  | nil => intro r h _; exact h
  | cons e log ih =>
    intro r h hm
    have hm' : ∀ r', .restricted r' ∈ log → l.le r' := fun r' h' => hm r' (List.mem_cons_of_mem _ h')
    cases e with
    | restricted r1 => exact ih (hm r1 (by simp)) hm'
    | _ => exact ih h hm'

/-- **C96.** A process which is started for a client: somebody has logged in before (as `l.user`); the client has asked
for this program on this channel, and the restrictions which were applied to that are at least those of the login (also with
respect to the home directory); and the settings of the process are those of the account of this user (if they are
complete in the sense of C79). -/
theorem C96_process (hx : EnvOk x.server.trans) (hd : ∀ a, (x.settings a).Describes a) {evs : List HostEvent} {h : Host σ}
    (hr : ({} : Host σ).run x evs = some h) {s : Session} (hs : s ∈ h.sessions) {a b : List SessEntry} {p : Proc}
    (hp : s.ch.s.log = a ++ .started p :: b) :
    ∃ l c r sid, .loggedIn l ∈ h.server.auth.log ∧ Client { x.server.auth with sessionId := sid } x.pw l.user c ∧
      l.restrictions.le r ∧ Requested a r.command p.original p.program ∧ (∀ v ∈ p.env, RequestedEnv a v) ∧
      (r.readOnlyHome = true → ∀ m ∈ p.mounts, m.bind = true → m.coversHome = true → m.writable = false) ∧
      ∀ present, (∀ d, c.translation = some d → ∀ o, d.sftp = some o → o.program ≠ none ∨ present = true) →
        ∃ st, c.process present p.program = some st ∧ c.owner.forProgram p.program = some st ∧
          ((p.program = .loginShell ∨ ∃ line, p.program = .command line) → x.server.auth.translation = true → st.Complete) := by
  have hi := HInv.of_run hx hr
  obtain ⟨y, pre, post, hk⟩ := hi.ok s hs
  obtain ⟨w, m, rest, pre', sevs, c1, c2⟩ := hk.ch
  obtain ⟨sid, aevs, hy⟩ := hk.isRun
  obtain ⟨tail, t1, t2, t3⟩ := hk.upTo
  obtain ⟨faevs, hf⟩ := hi.server.auth
  obtain ⟨⟨l, hl⟩, _⟩ := no_login_after (cfg := { x.server.auth with sessionId := sid }) (aevs := aevs) (by rw [← hy]; exact t1)
  have hly : .loggedIn l ∈ (Auth.run { x.server.auth with sessionId := sid } {} aevs).log := by
    rw [← hy, t1]; exact List.mem_append_left _ hl
  have hlog : .loggedIn l ∈ h.server.auth.log := by rw [hk.opened]; exact List.mem_append_left _ hl
  have hauth : y.authenticated = true := by
    rcases inv_run (cfg := { x.server.auth with sessionId := sid }) aevs with ⟨hq, _⟩ | hq
    · exact absurd hly (hq.noLogin l)
    · rw [hy]; exact hq.auth
  have huser : y.username = l.user := by rw [hy]; exact (C32_enforced _ aevs hly).2.2.2.2
  have hcl : Client { x.server.auth with sessionId := sid } x.pw l.user (y.ident (y.translation.map fun t => x.settings t.account) x.pw) := by
    refine ⟨aevs, _, by rw [← hy]; exact hauth, by rw [← hy]; exact huser, ?_, by rw [← hy]⟩
    rw [← hy]
    unfold Detailed
    cases y.translation with
    | none => trivial
    | some t => exact hd _
  have hrun : s.ch = SessCh.run ((y.ident (y.translation.map fun t => x.settings t.account) x.pw).sessCfg { x.sess with sftpOnly := y.sftpOnly })
      (SessCh.init y.opts.restrictions w) sevs := by rw [c2, hk.cfg]; rfl
  rw [hrun] at hp
  refine ⟨l, _, restrictionsNow y.opts.restrictions a, sid, hlog, hcl, ?_, C67_program hp, C67_env hp, C63_partial hp, ?_⟩
  · refine restrictionsNow_le ?_ fun r' hr' => ?_
    · rw [hy]; exact C34_never_looser _ aevs hly
    · obtain ⟨u, v, huv⟩ := List.append_of_mem hl
      have hpos : (Auth.run (h.server.cfg x.server) {} faevs).log = u ++ .loggedIn l :: (v ++ .openSession :: post) := by
        rw [← hf, hk.opened, huv]; simp
      refine restricted_tighter hpos r' ?_
      have := hk.told r' (by rw [hrun, hp]; exact List.mem_append_left _ hr')
      simp [this]
  · intro present hpr
    exact C79_program_partial hcl (p := p) (by rw [hp]; simp) hpr

theorem clientData_filter (log : List SessEntry) : clientData (log.filter SessEntry.byClient) = clientData log := by
  induction log with
  | nil => rfl
  | cons e log ih =>
    have hc : ∀ l, clientData (e :: l) = (match e with | .data bs => bs | _ => []) ++ clientData l := fun _ => rfl
    cases hb : e.byClient with
    | true => rw [List.filter_cons_of_pos hb, hc, hc, ih]
    | false =>
      rw [List.filter_cons_of_neg (by rw [hb]; nofun), hc, ih]
      cases e <;> first | rfl | cases hb

/-- **C96.** The input of the processes of a session is what the client has sent to it, in this order (except for what
could not be written to the process). -/
theorem C96_input (hx : EnvOk x.server.trans) {evs : List HostEvent} {h : Host σ} (hr : ({} : Host σ).run x evs = some h)
    {s : Session} (hs : s ∈ h.sessions) :
    ∃ ms es, ms <:+: clientMessages h.server.auth.log ∧ Meaning s.number ms es ∧ inputOrLost s.ch.s.log <+: clientData es := by
  obtain ⟨y, pre, post, hk⟩ := (HInv.of_run hx hr).ok s hs
  obtain ⟨w, m, rest, pre', sevs, c1, c2⟩ := hk.ch
  obtain ⟨ms, m1, m2, m3⟩ := hk.said
  refine ⟨ms, _, ?_, m2, ?_⟩
  · rw [hk.opened, clientMessages_append]
    exact m1.isInfix.trans (List.suffix_append _ _).isInfix
  · rw [clientData_filter, c2]
    exact C68_prefix

theorem sess_message {peer : Nat} {e : SessEntry} {p : Bytes} (h : e.message? peer = some p) (hl : p.length ≤ 65531) :
    sessMessage peer e = some p := by
  have hopt : ∀ {m : Except SerError Ser} {n : UInt8} {body : Bytes} {err : SerError}, Builds m n body err → n :: body = p →
      serialized m = some p := by
    intro m n body err hb he
    rw [serialized_builds hb, he, if_pos hl]
  have hdata : ∀ {bs : Bytes}, 94 :: channelDataBody peer bs = p → serialized (makeChannelData peer bs) = some p :=
    fun he => hopt (Writes.begin ((Writes.u32 _).bind (Writes.str _)) MSG_CHANNEL_DATA) he
  unfold SessEntry.message? at h
  split at h
  · cases h
    exact hopt (Writes.begin ((Writes.u32 _).bind ((Writes.u32 _).bind (Writes.str _))) MSG_CHANNEL_EXTENDED_DATA) rfl
  · rename_i f bs hf
    cases f with
    | stderr => exact (hf rfl).elim
    | _ => exact hdata (Option.some.inj h)
  · exact hopt (Writes.noexcept_begin (Writes.u32 _) MSG_CHANNEL_EOF) (Option.some.inj h)
  · exact hopt (Writes.noexcept_begin (Writes.u32 _) MSG_CHANNEL_CLOSE) (Option.some.inj h)
  · exact hopt (Writes.noexcept_begin ((Writes.u32 _).bind (Writes.u32 _)) MSG_CHANNEL_WINDOW_ADJUST) (Option.some.inj h)
  · cases h

/-- **C96.** The client is told about everything that happens on a channel, with the number which it has given to the channel,
in this order: the output of the process, end-of-file, its window, and the end of the channel. -/
theorem C96_output (hx : EnvOk x.server.trans) {evs : List HostEvent} {h : Host σ} (hr : ({} : Host σ).run x evs = some h)
    (hl : h.server.live = true) {s : Session} (hs : s ∈ h.sessions) :
    ((s.ch.s.log.filterMap (SessEntry.message? s.peer)).filter fun p => p.length ≤ 65531).Sublist (packetsSent h.server.trans.posts) := by
  refine List.Sublist.trans ?_ ((HInv.of_run hx hr).sent hl s hs)
  rw [List.filter_filterMap]
  refine filterMap_sublist (fun e p he => ?_) _
  obtain ⟨he, hp⟩ := Option.filter_eq_some_iff.mp he
  exact sess_message he (of_decide_eq_true hp)

theorem Spec.Meaning.mem {n : Nat} {ms : List Bytes} {es : List SessEntry} (h : Meaning n ms es) {e} (he : e ∈ es) : ∃ m ∈ ms, Heard n m e := by
  induction h with
  | nil => cases he
  | heard _ hh ih =>
    rcases List.mem_append.mp he with he | he
    · obtain ⟨m, h1, h2⟩ := ih he
      exact ⟨m, by simp [h1], h2⟩
    · rw [List.mem_singleton] at he
      subst he
      exact ⟨_, by simp, hh⟩
  | other _ _ ih =>
    obtain ⟨m, h1, h2⟩ := ih he
    exact ⟨m, by simp [h1], h2⟩

/-- **C96.** After a login with a signature, everything that any session was ever asked for, told or sent was sent to it by
the holder of the key, in the sense of C94. -/
theorem C96_holder {ι : Type} (conn : ι → ClientSide) (hconn : ∀ j, (conn j).Proper) (hx : EnvOk x.server.trans)
    (hv : x.server.trans.kex.ownVersion.length < 2 ^ 32) {evs : List HostEvent} {h : Host σ}
    (hr : ({} : Host σ).run x evs = some h) (hz : Sized h.server.trans.kx.kx.log)
    (hA : ∀ j pre enc mac keys post tr, h.server.trans.kx.kx.log = pre ++ .installIn enc mac keys :: post → lastAgreed pre = some tr →
      (conn j).ephemeral tr.clientEph →
      AcceptsOnly x.server.trans.ops (x.server.trans.makeCipher .incoming enc mac keys) 0 ((conn j).sent enc mac keys))
    {l : Login} (hl : .loggedIn l ∈ h.server.auth.log) (hm : l.method = ascii "publickey" ∨ l.method = ascii "hostbased") :
    ∃ t key f, firstAgreed h.server.trans.kx.kx.log = some t ∧ RequestFor l.method f key ∧
      (UserForgery (fun m sig => x.server.auth.verify key m sig = some true) x.server.trans.kex.digest
          (fun t' r => ∃ j, (conn j).first = t' ∧ (conn j).signs key r) ∨
       (∃ j, Collision x.server.trans.kex.digest t (conn j).first) ∨
       ∃ j, (conn j).first = t ∧ (conn j).signs key (authRequest l.user l.method f) ∧
        ∀ s ∈ h.sessions, ∀ e ∈ s.ch.s.log, e.byClient = true → ∃ enc mac keys p,
          p ∈ (conn j).sent enc mac keys ∧ Heard s.number p e) := by
  obtain ⟨sevs, hsr⟩ := C96_connection hr
  obtain ⟨t, hk, key, f, h1, _, h3, h4⟩ := C94_holder conn hconn hx hv hsr hz hA hl hm
  refine ⟨t, key, f, h1, h3, ?_⟩
  rcases h4 with h4 | h4 | ⟨j, h4, h5, _, h6⟩
  · exact .inl h4
  · exact .inr (.inl h4)
  · refine .inr (.inr ⟨j, h4, h5, fun s hs e he hb => ?_⟩)
    obtain ⟨y, pre, post, hk⟩ := (HInv.of_run hx hr).ok s hs
    obtain ⟨ms, m1, m2, _⟩ := hk.said
    obtain ⟨p, hp, hh⟩ := m2.mem (List.mem_filter.mpr ⟨he, hb⟩)
    obtain ⟨_, enc, mac, keys, _, _, hq⟩ := h6 p (by
      rw [hk.opened, clientMessages_append]
      exact List.mem_append_right _ (m1.subset hp))
    exact ⟨enc, mac, keys, p, hq, hh⟩

/-! ### Non-vacuity -/

/-- The client of the example for C93; then it executes a program, sends it something, sends something to another channel, and
then end-of-file. -/
def demoTalk : List Bytes := demoVisit ++
  [98 :: (u32 0 ++ (str (ascii "exec") ++ 1 :: str (ascii "cat"))),
   94 :: channelDataBody 0 [1, 2, 3],
   94 :: channelDataBody 1 [4],
   96 :: channelBody 0]

def demoInn : HostEnv (Nat × List Bytes) where
  server := { trans := demoLink demoEndS 0 demoTalk, auth := demoAuth }
  pw := demoPasswd
  settings a := { general := if a.shell then some { settings := demoJail } else none
                  sftp := if a.sftp then some { settings := demoJail } else none }
  sess := { exec := false, sftp := false }

theorem demoInn_ok : EnvOk demoInn.server.trans := demoLink_ok (demoEnd_digest _ _) 0 _

theorem demoInn_settings (a : Account) : (demoInn.settings a).Describes a := by
  refine ⟨?_, ?_, fun _ g hg => ?_⟩
  · cases a; rename_i b _ _ _ _ _ _ _ _; cases b <;> rfl
  · cases a; rename_i b _ _ _ _ _; cases b <;> rfl
  · simp only [demoInn] at hg
    split at hg
    · cases hg; decide
    · cases hg

def demoSpeak (c : Chance) (p : Bytes) : List HostEvent := (demoKnock p).map fun ev => .server ev c

/-- The session is opened; the program is started as soon as possible and gets its input; it writes something and ends. -/
def demoDay : List HostEvent :=
  (demoStay.dropLast.map fun ev => .server ev { number := 0 }) ++
  demoSpeak { number := 0 } (demoTalk.getD 3 []) ++
  [.session 0 (.enqueued 0 .ok), .session 0 (.completed 0 none)] ++
  ((demoTalk.drop 4).flatMap (demoSpeak { number := 0, wrote := .wrote 2 })) ++
  [.session 0 (.stdinReady [(0, .wrote 1)]), .session 0 (.writes .stdout [7, 8]), .session 0 (.pipeReady .stdout 100)]

/-- Non-vacuity (C96): all of this happens, on a connection which still exists. -/
example : EnvOk demoInn.server.trans ∧ (∀ a, (demoInn.settings a).Describes a) ∧
    (({} : Host (Nat × List Bytes)).run demoInn demoDay).map (fun h =>
      (h.server.live && decide (clientMessages h.server.auth.log = demoTalk),
       (h.sessions.map fun s => (s.number, s.ch.stop.isNone && decide (s.ch.s.log =
         [.asked (ascii "exec") (str (ascii "cat")), .started { program := .command (ascii "cat") }, .answered true,
          .data [1, 2, 3], .input [1, 2], .io (.rx .eof), .input [3], .inputClosed, .wrote .stdout [7, 8], .sent .stdout [7, 8]]))),
       (packetsSent h.server.trans.posts).drop 5)) =
      some (true, [(0, true)], [94 :: channelDataBody 0 [7, 8]]) :=
  ⟨demoInn_ok, demoInn_settings, by decide +kernel⟩

def demoTalker (t : Transcript) : ClientSide := { demoGuest t with sent := fun _ _ _ => demoTalk }

theorem demoTalk_number : ∀ p ∈ demoTalk, p.head? ≠ some 30 := by decide +kernel

theorem demoTalker_proper {t : Transcript} (h : Transcript.Encodable t) (h' : AnnouncesStrict t.clientKexinit) :
    (demoTalker t).Proper where
  encodable := h
  own := rfl
  later := fun _ _ _ _ h => absurd rfl (demoTalk_number _ h)
  strict := h'

/-- Non-vacuity (`C96_holder`): the login is one with a signature; the client is the one of the example. -/
example : (demoTalker demoFirst).Proper ∧
    (({} : Host (Nat × List Bytes)).run demoInn demoDay).map (fun h =>
      (decide (Sized h.server.trans.kx.kx.log) && decide (firstAgreed h.server.trans.kx.kx.log = some demoFirst),
       (logins h.server.auth.log).map (·.method))) = some (true, [ascii "publickey"]) ∧
    ∀ t enc mac keys, AcceptsOnly ticket (demoInn.server.trans.makeCipher .incoming enc mac keys) 0 ((demoTalker t).sent enc mac keys) :=
  ⟨demoTalker_proper demoFirst_encodable demoFirst_strict, by decide +kernel, fun _ _ _ _ => demoLink_accepts 0 (by decide)⟩

/-- A second session gets the number 1 while the first one is open; and the number 0 again after the first one was closed. -/
example : (openSession demoInn {} { number := 0 } (channelOpenBody (ascii "session") 7 100 100 [])
      [{ number := 0, peer := 3, cfg := demoInn.sess, ch := SessCh.init {} 1 }]).length = 1 ∧
    ((openSession demoInn {} { number := 1 } (channelOpenBody (ascii "session") 7 100 100 [])
      [{ number := 0, peer := 3, cfg := demoInn.sess, ch := SessCh.init {} 1 }]).map (·.peer)) = [3, 7] ∧
    ((openSession demoInn {} { number := 0 } (channelOpenBody (ascii "session") 7 100 100 [])
      [{ number := 0, peer := 3, cfg := demoInn.sess, ch := SessCh.init {} 1, isOpen := false }]).map (·.peer)) = [3, 7] := by
  decide +kernel

end Lukko
