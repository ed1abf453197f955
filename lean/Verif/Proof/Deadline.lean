import Verif.Model.Deadline
import Verif.Proof.AuthFwd
namespace Lukko
open Model Spec

/-- Entries which do not matter for the time limit. -/
def untimed : AuthEntry → Bool
  | .serviceAccepted _ => false
  | .received .. => false
  | .disconnected n => n != 10
  | _ => true

/-- The connection has ended. -/
def Ends (log : List AuthEntry) : Prop := .closed ∈ log ∨ ∃ n, .disconnected n ∈ log

/-- What the coroutine which handles a request does. -/
structure Fr (y y' : Auth) : Prop where
  log : ∃ d, y'.log = y.log ++ d ∧ ∀ e ∈ d, untimed e = true
  svc : y'.haveService = y.haveService
  ua : y.userAuth = true → y'.userAuth = true ∨ y'.authenticated = true
  fin : y'.stop = true → y.stop = true ∨ Ends y'.log

variable {cfg : AuthCfg} {y y' y'' : Auth}

/-- One more entry at the start. -/
theorem Fr.after (h : Fr y y') (e : AuthEntry) (he : untimed e = true) (hl : y.log = y''.log ++ [e])
    (hs : y.haveService = y''.haveService) (hu : y.userAuth = y''.userAuth) (ht : y.stop = y''.stop := by rfl) : Fr y'' y' := by
  obtain ⟨⟨d, e1, h1⟩, h2, h3, h4⟩ := h
  refine ⟨⟨e :: d, by rw [e1, hl]; simp, ?_⟩, by rw [h2, hs], fun hh => h3 (by rw [hu]; exact hh), by rw [← ht]; exact h4⟩
  intro x hx
  rcases List.mem_cons.mp hx with rfl | hx
  · exact he
  · exact h1 x hx

/-- Nothing that matters is different at the start. -/
theorem Fr.from (h : Fr y y') (hl : y.log = y''.log) (hs : y.haveService = y''.haveService) (hu : y.userAuth = y''.userAuth)
    (ht : y.stop = y''.stop := by rfl) : Fr y'' y' := by
  obtain ⟨⟨d, e1, h1⟩, h2, h3, h4⟩ := h
  exact ⟨⟨d, by rw [e1, hl], h1⟩, by rw [h2, hs], fun hh => h3 (by rw [hu]; exact hh), by rw [← ht]; exact h4⟩

theorem fr_disconnect (y : Auth) (n : Nat) (hn : n ≠ 10) : Fr y (y.disconnect n) :=
  ⟨⟨[.disconnected n], rfl, by simp [untimed, hn]⟩, rfl, fun h => .inl h, fun _ => .inr (.inr ⟨n, by simp [Auth.disconnect]⟩)⟩

theorem fr_close (y : Auth) : Fr y y.close := 
  ⟨⟨[.closed], rfl, by simp [untimed]⟩, rfl, fun h => .inl h, fun _ => .inr (.inl (by simp [Auth.close]))⟩

theorem fr_malformed (y : Auth) (b : Bool) : Fr y (y.malformed b) := by
  cases b
  · exact fr_disconnect _ _ (by decide)
  · exact fr_close _

theorem fr_say_complete (y : Auth) (e : AuthEntry) (he : untimed e = true) (async : Bool) :
    Fr y ((y.say e).complete cfg async) := by
  refine ⟨⟨[e], rfl, by simpa using he⟩, rfl, fun h => ?_, fun h => .inl h⟩
  simp only [Auth.complete, Auth.say, h]
  cases y.authenticated <;> simp

theorem fr_fail (y : Auth) (m : Bytes) (async : Bool) : Fr y (y.fail cfg m async) := fr_say_complete _ _ rfl _

theorem fr_failLater (y : Auth) (m : Bytes) : Fr y (y.failLater m) := ⟨⟨[], by simp [Auth.failLater], by simp⟩, rfl, fun h => .inl h, fun h => .inl h⟩

theorem fr_task (y : Auth) (t : Option AuthTask) : Fr y { y with task := t } := ⟨⟨[], by simp, by simp⟩, rfl, fun h => .inl h, fun h => .inl h⟩

theorem fr_accept (y : Auth) (r : AuthReq) (async : Bool) : Fr y (y.accept cfg r async) := by
  unfold Auth.accept
  simp only
  split
  · exact ⟨⟨[.loggedIn (y.login r.user r.method), .closed], by simp [Auth.close], by simp [untimed]⟩, rfl, fun _ => .inr rfl,
      fun _ => .inr (.inl (by simp [Auth.close]))⟩
  · exact ⟨⟨[_], rfl, by simp [untimed]⟩, rfl, fun _ => .inr rfl, fun h => .inl h⟩
  · exact ⟨⟨[.loggedIn (y.login r.user r.method), .success], by simp [Auth.complete], by simp [untimed]⟩, rfl, fun _ => .inr rfl, fun h => .inl h⟩

theorem fr_checkKeySignature (y : Auth) (r k sig async) : Fr y (y.checkKeySignature cfg r k sig async) := by
  unfold Auth.checkKeySignature
  split
  · exact fr_fail ..
  · split
    · exact fr_fail ..
    · exact fr_failLater ..
    · exact fr_accept ..

theorem fr_keyAccepted (y : Auth) (r k async) : Fr y (y.keyAccepted cfg r k async) := by
  unfold Auth.keyAccepted
  cases cfg.parseKey k.blob
  · exact fr_fail ..
  · cases k.withSig
    · cases k.rest.isEmpty
      · exact fr_malformed ..
      · exact fr_say_complete _ _ rfl _
    · simp only [Bool.not_true, cond_false]
      split
      · exact fr_malformed ..
      · exact fr_checkKeySignature ..

theorem fr_publickey (y : Auth) (r async) : Fr y (y.publickey cfg r async) := by
  unfold Auth.publickey
  split
  · exact fr_malformed ..
  · split
    · exact (fr_keyAccepted _ _ _ _).from rfl rfl rfl
    · cases y.useHome
      · exact fr_failLater ..
      · exact fr_task ..

theorem fr_hostBased (y : Auth) (r async) : Fr y (y.hostBased cfg r async) := by
  unfold Auth.hostBased
  split
  · exact fr_malformed ..
  · rename_i h _ _
    split
    · exact fr_failLater ..
    · unfold Auth.hostAccepted
      cases cfg.parseKey h.blob
      · exact (fr_fail _ _ _).from rfl rfl rfl
      · simp only [Bool.not_true, cond_false]
        split
        · exact (fr_fail _ _ _).from rfl rfl rfl
        · split
          · exact (fr_accept _ _ _).from rfl rfl rfl
          · exact (fr_fail _ _ _).from rfl rfl rfl

theorem fr_byMethod (y : Auth) (r pa async) : Fr y (y.byMethod cfg r pa async) := by
  unfold Auth.byMethod
  split
  · exact fr_publickey ..
  · split
    · exact fr_hostBased ..
    · cases pa
      · exact fr_failLater ..
      · exact fr_accept ..

theorem fr_accountKnown (y : Auth) (r pw a async) : Fr y (y.accountKnown cfg r pw a async) := by
  unfold Auth.accountKnown
  cases a.ok
  · exact fr_failLater ..
  · simp only [Bool.not_true, cond_false]
    cases a.shell && !a.shellValid
    · exact (fr_byMethod _ _ _ _).from rfl rfl rfl
    · exact (fr_disconnect _ _ (by decide)).from rfl rfl rfl

theorem fr_lazyTranslate (y : Auth) (r pw async) : Fr y (y.lazyTranslate cfg r pw async) := by
  unfold Auth.lazyTranslate
  split
  · rename_i t _
    cases pw.isEmpty && t.user == r.user
    · exact fr_task ..
    · exact fr_accountKnown ..
  · exact fr_task ..

theorem fr_afterTarpit (y : Auth) (r async) : Fr y (y.afterTarpit cfg r async) := by
  unfold Auth.afterTarpit
  split
  · exact fr_fail ..
  · cases isValidUsername r.user
    · exact fr_disconnect _ _ (by decide)
    · cases cfg.translation
      · cases cfg.getpwnam r.user
        · exact fr_failLater ..
        · exact fr_byMethod ..
      · simp only [Bool.not_true, cond_false, cond_true]
        unfold Auth.withTranslation
        split
        · split
          · exact fr_malformed ..
          · rename_i ch pw _ _
            cases ch || pw.isEmpty
            · exact fr_lazyTranslate ..
            · exact fr_fail ..
        · exact fr_lazyTranslate ..

theorem fr_userAuthRequest (y : Auth) (p d) : Fr y (y.userAuthRequest cfg p d) := by
  unfold Auth.userAuthRequest
  split
  · exact fr_malformed ..
  · cases d
    · exact fr_afterTarpit ..
    · exact fr_task ..

theorem fr_resume (y : Auth) (t : AuthTask) (ev : AuthEv) : Fr y (y.resume cfg t ev) := by
  unfold Auth.resume
  split
  · exact (fr_afterTarpit _ _ _).from rfl rfl rfl
  · rename_i a
    cases a with
    | none => exact (fr_disconnect _ _ (by decide)).from rfl rfl rfl
    | some a => exact (fr_accountKnown _ _ _ _ _).after _ rfl rfl rfl rfl
  · rename_i r k text
    have h1 : ∀ y', Fr ({ y with task := none }.say (.homeKeys text)) y' → Fr y y' :=
      fun y' h => h.after _ rfl rfl rfl rfl
    unfold Auth.homeRead
    simp only
    split
    · exact h1 _ ((fr_keyAccepted _ _ _ _).from rfl rfl rfl)
    · exact h1 _ (fr_failLater _ _)
  · exact fr_fail ..
  · refine ⟨⟨[], by simp [Auth.complete], by simp⟩, rfl, fun h => ?_, fun h => .inl h⟩
    simp only [Auth.complete, h]
    cases y.authenticated <;> simp
  · exact fr_close ..
  · exact ⟨⟨[], by simp, by simp⟩, rfl, fun h => .inl h, fun h => .inl h⟩

theorem fr_transport (y : Auth) (m : UInt8) : Fr y (y.transportPacket m) ∧ (y.transportPacket m).task = y.task := by
  unfold Auth.transportPacket
  split
  · exact ⟨fr_close _, rfl⟩
  · split
    · exact ⟨⟨⟨[], by simp, by simp⟩, rfl, fun h => .inl h, fun h => .inl h⟩, rfl⟩
    · exact ⟨⟨⟨[.unimplemented], rfl, by simp [untimed]⟩, rfl, fun h => .inl h, fun h => .inl h⟩, rfl⟩

/-- What an event does to a connection which is waiting for a login. -/
structure Shape (y y' : Auth) (ev : AuthEv) : Prop where
  log : ∃ r d, y'.log = y.log ++ (r ++ d) ∧ (r = [] ∨ ∃ m p, r = [.received m p] ∧
      (m = 50 → y.haveService = true → y.userAuth = true → y.takesRequest ev = true ∨ y.task.isSome = true) ∧
      (y.takesRequest ev = true → m = 50)) ∧
    (y.takesRequest ev = true → r ≠ [] ∧ y.haveService = true) ∧
    ((y'.haveService = y.haveService ∧ ∀ e ∈ d, untimed e = true) ∨
      (y'.haveService = true ∧ y.userAuth = true ∧ y.takesRequest ev = false ∧ ∃ n, d = [.serviceAccepted n]))
  ua : y.userAuth = true → y'.userAuth = true ∨ y'.authenticated = true
  task : y'.task.isSome = true → y.task.isSome = true ∨ y.takesRequest ev = true ∨ y'.authenticated = true
  fin : y'.stop = true → y.stop = true ∨ Ends y'.log

theorem Fr.shape (h : Fr y y') {ev : AuthEv} (hev : y.takesRequest ev = false)
    (ht : y'.task.isSome = true → y.task.isSome = true) : Shape y y' ev := by
  obtain ⟨⟨d, e1, h1⟩, h2, h3, h4⟩ := h
  exact ⟨⟨[], d, by simpa using e1, .inl rfl, by simp [hev], .inl ⟨h2, h1⟩⟩, h3, fun h => .inl (ht h), h4⟩

theorem shape_step (h : Pre cfg y) (hs : y.stop = false) {ev : AuthEv} (hev : ev ≠ .authTimeout) :
    Shape y (y.step cfg ev) ev := by
  have hsame : ∀ ev, y.takesRequest ev = false → Shape y y ev := fun ev he =>
    Fr.shape ⟨⟨[], by simp, by simp⟩, rfl, fun h => .inl h, fun h => .inl h⟩ he id
  have htask : ∀ ev, y.takesRequest ev = false → Shape y (match y.task with | none => y | some t => y.resume cfg t ev) ev := by
    intro ev he
    split
    · exact hsame _ he
    · rename_i t ht; exact (fr_resume y t ev).shape he (by simp [ht])
  unfold Auth.step
  simp only [hs, cond_false]
  cases ev with
  | encrypted =>
    cases y.encrypted
    · refine Fr.shape ?_ rfl id
      exact ⟨⟨[.encrypted], rfl, by simp [untimed]⟩, rfl, fun h => .inl rfl, fun h => nomatch (show false = true from h)⟩
    · exact hsame _ rfl
  | packet m p d =>
    have hl : y.laterHandlers m p = none := by simp [Auth.laterHandlers, h.prox, h.chan]
    have hl' : (y.say (.received m p)).laterHandlers m p = none := by
      simp [Auth.laterHandlers, Auth.say, h.prox, h.chan]
    have htr : y.takesRequest (.packet m p d) = (y.userAuth && y.task.isNone && (m == MSG_USERAUTH_REQUEST) && y.haveService) := by
      simp [Auth.takesRequest, hl, h.auth]
    -- a packet which is not a request that is taken
    have hfr : ∀ y', Fr (y.say (.received m p)) y' → (y'.task.isSome = true → y.task.isSome = true) →
        (m = 50 → y.haveService = true → y.userAuth = true → y.task.isSome = true) →
        y.takesRequest (.packet m p d) = false → Shape y y' (.packet m p d) := by
      rintro y' ⟨⟨d', e1, h1⟩, h2, h3, h4⟩ ht hq hn
      exact ⟨⟨[.received m p], d', by simpa [Auth.say] using e1,
        .inr ⟨m, p, rfl, fun a b c => .inr (hq a b c), by simp [hn]⟩, by simp [hn], .inl ⟨h2, h1⟩⟩, h3, fun h => .inl (ht h), h4⟩
    simp only [Auth.packet, hl', Auth.userAuthPacket]
    change Shape y (bif !y.userAuth then _ else bif y.task.isSome && _ then _ else _) _
    cases hu : y.userAuth with
    | false =>
      simp only [Bool.not_false, cond_true]
      obtain ⟨t1, t2⟩ := fr_transport (y.say (.received m p)) m
      exact hfr _ t1 (by rw [t2]; exact id) (by simp [hu]) (by simp [htr, hu])
    | true =>
      simp only [Bool.not_true, cond_false]
      cases htk : y.task with
      | some t =>
        have hn : y.takesRequest (.packet m p d) = false := by simp [htr, htk]
        cases ha : allowedWhileOccupied m with
        | false => exact hfr _ (fr_disconnect _ _ (by decide)) id (by simp [htk]) hn
        | true =>
          simp only [Option.isSome_some, Bool.not_true, Bool.and_false, cond_false]
          rw [if_neg (by intro he; subst he; revert ha; decide), if_neg (by intro he; subst he; revert ha; decide)]
          obtain ⟨t1, t2⟩ := fr_transport (y.say (.received m p)) m
          exact hfr _ t1 (by rw [t2]; exact id) (by simp [htk]) hn
      | none =>
        simp only [Option.isSome_none, Bool.false_and, cond_false]
        by_cases h5 : m = MSG_SERVICE_REQUEST
        · have hn : y.takesRequest (.packet m p d) = false := by
            rw [htr, h5, show (MSG_SERVICE_REQUEST == MSG_USERAUTH_REQUEST) = false by decide]; simp
          rw [if_pos h5]
          unfold Auth.serviceRequest
          have hm : m ≠ 50 := by subst h5; decide
          split
          · exact hfr _ (fr_malformed _ _) id (fun h => absurd h hm) hn
          · split
            · rename_i name _ _
              refine ⟨⟨[.received m p], [.serviceAccepted name], by simp [Auth.say],
                .inr ⟨m, p, rfl, fun h => absurd h hm, by simp [hn]⟩, by simp [hn],
                .inr ⟨rfl, hu, hn, _, rfl⟩⟩, fun h => .inl h, ?_, fun h => .inl h⟩
              intro h; exact .inl h
            · exact hfr _ (fr_disconnect _ _ (by decide)) id (fun h => absurd h hm) hn
        · rw [if_neg h5]
          by_cases h50 : m = MSG_USERAUTH_REQUEST
          · rw [if_pos h50]
            unfold Auth.handleUserauthRequest
            change Shape y (bif y.authenticated then _ else bif !y.haveService then _ else _) _
            simp only [h.auth, cond_false]
            cases hv : y.haveService with
            | false => exact hfr _ (fr_disconnect _ _ (by decide)) id (by simp [hv]) (by simp [htr, hv])
            | true =>
              have ht : y.takesRequest (.packet m p d) = true := by rw [htr, hu, htk, hv, h50]; rfl
              simp only [Bool.not_true, cond_false]
              obtain ⟨⟨d', e1, h1⟩, h2, h3, h4⟩ := fr_userAuthRequest (cfg := cfg) (y.say (.received m p)) p d
              exact ⟨⟨[.received m p], d', by simpa [Auth.say] using e1,
                .inr ⟨m, p, rfl, fun _ _ _ => .inl ht, fun _ => h50⟩, fun _ => ⟨by simp, hv⟩,
                .inl ⟨h2, h1⟩⟩, h3, fun _ => .inr (.inl ht), h4⟩
          · rw [if_neg h50]
            obtain ⟨t1, t2⟩ := fr_transport (y.say (.received m p)) m
            exact hfr _ t1 (by rw [t2]; exact id) (fun h => absurd h h50) (by simp [htr, h50])
  | targetSuccess => simp only [h.out, Bool.false_and, cond_false]; exact hsame _ rfl
  | targetPacket m p => simp only [h.prox, cond_false]; exact hsame _ rfl
  | targetDisconnecting =>
    refine Fr.shape ?_ rfl id
    exact ⟨⟨[], by simp, by simp⟩, rfl, fun h => .inl h, fun h => nomatch (show false = true from h)⟩
  | targetGone => simp only [h.out, cond_false]; exact hsame _ rfl
  | authTimeout => exact absurd rfl hev
  | closed => exact (fr_close y).shape rfl id
  | timer => exact htask _ rfl
  | translated a => exact htask _ rfl
  | home t => exact htask _ rfl
  | connected ok => exact htask _ rfl

/-! ### Time lines -/

def grantsService : AuthEntry → Bool
  | .serviceAccepted _ => true
  | _ => false

def asks : AuthEntry → Bool
  | .received m _ => m == 50
  | _ => false

theorem firstRequestFrom_append (g : Bool) (a b : Timeline) :
    firstRequestFrom g (a ++ b) =
      (firstRequestFrom g a).or (firstRequestFrom (g || a.any fun e => grantsService e.2) b) := by
  induction a generalizing g with
  | nil => simp [firstRequestFrom]
  | cons x a ih =>
    obtain ⟨t, e⟩ := x
    cases e <;> simp only [List.cons_append, firstRequestFrom, ih, List.any_cons, grantsService, Bool.false_or, Bool.true_or,
      Bool.or_true]
    split <;> simp

theorem firstRequestFrom_none (g : Bool) (a : Timeline) (h : ∀ e ∈ a, asks e.2 = false) : firstRequestFrom g a = none := by
  induction a generalizing g with
  | nil => rfl
  | cons x a ih =>
    obtain ⟨t, e⟩ := x
    have h1 := h _ (List.mem_cons_self ..)
    have h2 := fun g => ih g fun e he => h e (List.mem_cons_of_mem _ he)
    cases e <;> simp only [firstRequestFrom, h2]
    simp only [asks, beq_eq_false_iff_ne] at h1
    rw [if_neg (by simp [h1])]

theorem untimed_asks {e : AuthEntry} (h : untimed e = true) : asks e = false ∧ grantsService e = false ∧ e ≠ .disconnected 10 := by
  cases e <;> simp_all [untimed, asks, grantsService]

/-! ### The clock -/

/-- Before a login is granted. -/
structure Waiting (s : Timed) : Prop where
  soon : ∀ t, firstRequest s.hist = some t → t < 10000
  ended : s.y.stop = true → EndedBy (loginLimit (firstRequest s.hist)) s.hist ∧
    ∀ t, (t, AuthEntry.disconnected 10) ∈ s.hist → t = loginLimit (firstRequest s.hist)
  due : s.y.stop = false → s.deadline = some (loginLimit (firstRequest s.hist))
  time : s.y.stop = false → s.now < loginLimit (firstRequest s.hist)
  got : s.y.stop = false → s.gotRequest = (firstRequest s.hist).isSome
  svc : s.y.stop = false → s.y.haveService = s.hist.any fun e => grantsService e.2
  ua : s.y.stop = false → s.y.haveService = true → s.y.userAuth = true
  task : s.y.stop = false → s.y.task.isSome = true → s.gotRequest = true
  never : s.y.stop = false → ∀ t, (t, AuthEntry.disconnected 10) ∉ s.hist

structure TInv (cfg : AuthCfg) (s : Timed) : Prop where
  reach : ∃ evs, s.y = Auth.run cfg {} evs
  map : s.hist.map Prod.snd = s.y.log
  past : ∀ e ∈ s.hist, e.1 ≤ s.now
  off : s.y.stop = true ∨ s.y.authenticated = true → s.deadline = none
  pre : s.y.authenticated = false → Waiting s

theorem goto_append {s : Timed} {y' : Auth} {d : List AuthEntry} (h : y'.log = s.y.log ++ d) :
    s.goto y' = { s with y := y', hist := s.hist ++ d.map fun e => (s.now, e) } := by
  unfold Timed.goto
  rw [h, List.drop_left]

theorem authRun_snoc (cfg : AuthCfg) (y : Auth) (evs : List AuthEv) (ev : AuthEv) :
    Auth.run cfg y (evs ++ [ev]) = (Auth.run cfg y evs).step cfg ev := by simp [Auth.run]

theorem tinv_init (cfg : AuthCfg) : TInv cfg {} := by
  refine ⟨⟨[], rfl⟩, rfl, by simp, by simp, fun _ => ⟨?_, ?_, ?_, ?_, ?_, ?_, ?_, ?_, ?_⟩⟩ <;>
    simp [firstRequest, firstRequestFrom, loginLimit]

theorem tinv_wait {cfg : AuthCfg} {s : Timed} (h : TInv cfg s) (t : Nat) : TInv cfg (s.wait t) := by
  have hlater : TInv cfg { s with now := max s.now t } ∨ ∃ due, s.deadline = some due ∧ due ≤ t := by
    by_cases hd : ∃ due, s.deadline = some due ∧ due ≤ t
    · exact .inr hd
    · refine .inl ⟨h.reach, h.map, fun e he => Nat.le_trans (h.past e he) (Nat.le_max_left ..), h.off, fun ha => ?_⟩
      have w := h.pre ha
      refine ⟨w.soon, w.ended, w.due, ?_, w.got, w.svc, w.ua, w.task, w.never⟩
      intro hs
      have := w.due hs
      have := w.time hs
      simp only at *
      by_cases hx : loginLimit (firstRequest s.hist) ≤ t
      · exact absurd ⟨_, w.due hs, hx⟩ hd
      · omega
  unfold Timed.wait
  split
  · rename_i hd
    rcases hlater with h | ⟨due, h1, _⟩
    · exact h
    · rw [hd] at h1; cases h1
  · rename_i due hd
    split
    · rename_i hle
      have hns : s.y.stop = false := by
        cases hs : s.y.stop
        · rfl
        · rw [h.off (.inl hs)] at hd; cases hd
      have hna : s.y.authenticated = false := by
        cases hs : s.y.authenticated
        · rfl
        · rw [h.off (.inr hs)] at hd; cases hd
      have w := h.pre hna
      have hdue : due = loginLimit (firstRequest s.hist) := by
        have := w.due hns; rw [hd] at this; exact Option.some.inj this
      have htime := w.time hns
      have hfr : firstRequest (s.hist ++ [(due, AuthEntry.disconnected 10)]) = firstRequest s.hist := by
        unfold firstRequest
        rw [firstRequestFrom_append, firstRequestFrom_none _ [_] (by simp [asks])]
        simp
      unfold Timed.expire
      rw [goto_append (d := [.disconnected 10]) (by rfl)]
      refine ⟨?_, ?_, ?_, ?_, ?_⟩
      · obtain ⟨evs, he⟩ := h.reach
        refine ⟨evs ++ [.authTimeout], ?_⟩
        rw [authRun_snoc, ← he]
        simp [Auth.step, hns, hna]
      · simp [h.map, Auth.disconnect]
      · intro e he
        simp only [List.map_cons, List.map_nil, List.mem_append, List.mem_singleton] at he
        rcases he with he | rfl
        · have := h.past e he; simp only; omega
        · simp only; omega
      · intro _; rfl
      · intro _
        simp only [List.map_cons, List.map_nil]
        refine ⟨by simpa only [hfr] using w.soon, ?_, ?_, ?_, ?_, ?_, ?_, ?_, ?_⟩
        · intro _
          rw [hfr]
          refine ⟨⟨due, by omega, .inr ⟨10, by simp⟩⟩, ?_⟩
          intro t ht
          simp only [List.mem_append, List.mem_singleton, Prod.mk.injEq, and_true] at ht
          rcases ht with ht | ht
          · exact absurd ht (w.never hns t)
          · omega
        all_goals exact fun hf => nomatch (show true = false from hf)
    · rename_i hle
      rcases hlater with h | ⟨due', h1, h2⟩
      · exact h
      · rw [hd] at h1; cases h1; exact absurd h2 hle

theorem cancel_eq (s : Timed) :
    s.cancel = { s with deadline := bif s.y.stop || s.y.authenticated then none else s.deadline } := by
  unfold Timed.cancel
  cases s.y.stop || s.y.authenticated <;> rfl

theorem tinv_event {cfg : AuthCfg} {s : Timed} (h : TInv cfg s) {ev : AuthEv} (hev : ev ≠ .authTimeout) :
    TInv cfg (((s.request ev).goto ((s.request ev).y.step cfg ev)).cancel) := by
  obtain ⟨evs, he⟩ := h.reach
  have hreach : ∃ evs, s.y.step cfg ev = Auth.run cfg {} evs := ⟨evs ++ [ev], by rw [authRun_snoc, ← he]⟩
  have hinv : AuthInv cfg s.y := by rw [he]; exact inv_run evs
  cases hs : s.y.stop with
  | true =>
    have h1 : s.request ev = s := by simp [Timed.request, hs]
    have h2 : s.y.step cfg ev = s.y := by simp [Auth.step, hs]
    rw [h1, h2, goto_append (d := []) (by simp), cancel_eq]
    simp only [List.map_nil, List.append_nil, hs, Bool.true_or, cond_true, ← h.off (.inl hs)]
    exact h
  | false =>
    cases ha : s.y.authenticated with
    | true =>
      have h1 : s.request ev = s := by
        have : s.y.takesRequest ev = false := by unfold Auth.takesRequest; split <;> simp [ha]
        simp [Timed.request, this]
      have hp : AuthPost cfg s.y := by
        rcases hinv with ⟨p, _⟩ | p
        · rw [p.auth] at ha; cases ha
        · exact p
      obtain ⟨d, hd, _⟩ := (fwd_step hp ev).log
      have hp' := post_step hp ev
      rw [h1, goto_append hd, cancel_eq]
      simp only [hp'.auth, Bool.or_true, cond_true]
      refine ⟨hreach, by simp [h.map, hd, Function.comp_def], ?_, fun _ => rfl, fun hf => ?_⟩
      · intro e he
        rcases List.mem_append.mp he with he | he
        · exact h.past e he
        · obtain ⟨x, _, rfl⟩ := List.mem_map.mp he; exact Nat.le_refl _
      · exact absurd hf (by simp [hp'.auth])
    | false =>
      have hp : Pre cfg s.y := by
        rcases hinv with ⟨p, _⟩ | p
        · exact p
        · rw [p.auth] at ha; cases ha
      have w := h.pre ha
      obtain ⟨⟨r, d, hl, hr, htk, hd⟩, hua, htask, hfin⟩ := shape_step hp hs hev
      have hy : (s.request ev).y = s.y := by unfold Timed.request; cases !s.y.stop && s.y.takesRequest ev && !s.gotRequest <;> rfl
      have hn : (s.request ev).now = s.now := by
        unfold Timed.request; cases !s.y.stop && s.y.takesRequest ev && !s.gotRequest <;> rfl
      have hh : (s.request ev).hist = s.hist := by
        unfold Timed.request; cases !s.y.stop && s.y.takesRequest ev && !s.gotRequest <;> rfl
      have hg : (s.request ev).gotRequest = (s.gotRequest || s.y.takesRequest ev) := by
        unfold Timed.request; simp only [hs]
        cases s.y.takesRequest ev <;> cases hh : s.gotRequest <;> simp [hh]
      have hdl : (s.request ev).deadline =
          bif s.y.takesRequest ev && !s.gotRequest then some (s.now + 120000) else s.deadline := by
        unfold Timed.request; simp only [hs]
        cases s.y.takesRequest ev <;> cases hh : s.gotRequest <;> simp
      rw [hy, goto_append (by rw [hy]; exact hl), cancel_eq, hn, hh]
      simp only
      generalize hy' : s.y.step cfg ev = y' at *
      generalize hs' : s.request ev = s' at *
      -- the first request
      have hfirst : firstRequest (s.hist ++ (r ++ d).map fun e => (s.now, e)) =
          (firstRequest s.hist).or (if s.y.takesRequest ev = true then some s.now else none) := by
        unfold firstRequest
        rw [firstRequestFrom_append, Bool.false_or, List.map_append, firstRequestFrom_append, ← w.svc hs]
        have hdn : ∀ g, firstRequestFrom g (d.map fun e => (s.now, e)) = none := by
          intro g
          refine firstRequestFrom_none _ _ fun e he => ?_
          obtain ⟨x, hx, rfl⟩ := List.mem_map.mp he
          rcases hd with ⟨_, hd⟩ | ⟨_, _, _, n, rfl⟩
          · exact (untimed_asks (hd x hx)).1
          · simp only [List.mem_singleton] at hx; subst hx; rfl
        rw [hdn, Option.or_none]
        rcases hr with rfl | ⟨m, p, rfl, hq, ht⟩
        · have : s.y.takesRequest ev = false := by
            cases hx : s.y.takesRequest ev
            · rfl
            · exact absurd rfl (htk hx).1
          simp [this, firstRequestFrom]
        · simp only [List.map_cons, List.map_nil, firstRequestFrom]
          cases hx : s.y.takesRequest ev with
          | true => simp [(htk hx).2, ht hx]
          | false =>
            by_cases hc : s.y.haveService = true ∧ m = 50
            · have := hq hc.2 hc.1 (w.ua hs hc.1)
              simp only [hx, Bool.false_eq_true, false_or] at this
              have hgot := w.got hs
              rw [w.task hs this] at hgot
              cases hf : firstRequestFrom false s.hist with
              | none => simp [firstRequest, hf] at hgot
              | some t => simp
            · rw [if_neg hc]; simp
      have hmem : ∀ t e, (t, e) ∈ s.hist ++ (r ++ d).map (fun e => (s.now, e)) → (t, e) ∈ s.hist ∨ t = s.now := by
        intro t e hte
        rcases List.mem_append.mp hte with hte | hte
        · exact .inl hte
        · obtain ⟨x, _, hx⟩ := List.mem_map.mp hte
          exact .inr (Prod.mk.inj hx).1.symm
      have hmap : (s.hist ++ (r ++ d).map fun e => (s.now, e)).map Prod.snd = y'.log := by
        simp [h.map, hl, Function.comp_def]
      have hlim : s.now < loginLimit ((firstRequest s.hist).or (if s.y.takesRequest ev = true then some s.now else none)) := by
        have ht := w.time hs
        cases hf : firstRequest s.hist with
        | some t => rw [hf] at ht; exact ht
        | none =>
          cases s.y.takesRequest ev with
          | false => rw [hf] at ht; exact ht
          | true => simp [loginLimit]
      have hnever : ∀ t, (t, AuthEntry.disconnected 10) ∉ s.hist ++ (r ++ d).map fun e => (s.now, e) := by
        intro t ht
        rcases List.mem_append.mp ht with ht | ht
        · exact w.never hs t ht
        · obtain ⟨x, hx, hxe⟩ := List.mem_map.mp ht
          have hxe := (Prod.mk.inj hxe).2
          subst hxe
          rcases List.mem_append.mp hx with hx | hx
          · rcases hr with rfl | ⟨m, p, rfl, _⟩ <;> simp at hx
          · rcases hd with ⟨_, hd⟩ | ⟨_, _, _, n, rfl⟩
            · exact (untimed_asks (hd _ hx)).2.2 rfl
            · simp at hx
      refine ⟨hreach, hmap, ?_, ?_, fun ha' => ⟨?_, ?_, ?_, ?_, ?_, ?_, ?_, ?_, ?_⟩⟩
      · intro e he
        rcases hmem e.1 e.2 he with he | he
        · exact h.past e he
        · simp only [he]; omega
      · intro ho; rcases ho with ho | ho <;> simp only at ho <;> simp [ho]
      · intro t ht
        simp only [hfirst] at ht
        cases hf : firstRequest s.hist with
        | some t' => rw [hf] at ht; simp at ht; subst ht; exact w.soon _ hf
        | none =>
          have htime := w.time hs
          rw [hf] at ht htime
          simp [loginLimit] at ht htime
          omega
      · intro hstop
        simp only at hstop
        refine ⟨?_, fun t ht => absurd ht (hnever t)⟩
        have hE := (hfin hstop).resolve_left (by simp [hs])
        simp only [hfirst]
        rcases hE with hE | ⟨n, hE⟩
        · rw [← hmap] at hE
          obtain ⟨⟨t, e⟩, hte, rfl⟩ := List.mem_map.mp hE
          refine ⟨t, ?_, .inl hte⟩
          rcases hmem _ _ hte with hp | rfl
          · have := h.past _ hp; simp only at this; omega
          · omega
        · rw [← hmap] at hE
          obtain ⟨⟨t, e⟩, hte, he2⟩ := List.mem_map.mp hE
          simp only at he2
          subst he2
          refine ⟨t, ?_, .inr ⟨n, hte⟩⟩
          rcases hmem _ _ hte with hp | rfl
          · have := h.past _ hp; simp only at this; omega
          · omega
      · intro hstop
        simp only at hstop ha'
        simp only [hstop, ha', Bool.or_self, cond_false, hfirst, hdl, w.due hs, w.got hs]
        cases hf : firstRequest s.hist <;> cases s.y.takesRequest ev <;> simp [loginLimit]
      · intro _; simp only [hfirst]; exact hlim
      · intro _; simp only [hfirst, hg, w.got hs]
        cases hf : firstRequest s.hist <;> cases s.y.takesRequest ev <;> simp
      · intro _
        simp only [List.any_append, List.map_append, ← w.svc hs]
        have hr0 : ((r.map fun e => (s.now, e)).any fun e => grantsService e.2) = false := by
          rcases hr with rfl | ⟨m, p, rfl, _⟩ <;> rfl
        rw [hr0, Bool.false_or]
        rcases hd with ⟨h1, hd⟩ | ⟨h1, _, _, n, rfl⟩
        · have : ((d.map fun e => (s.now, e)).any fun e => grantsService e.2) = false := by
            rw [List.any_eq_false]
            intro e he
            obtain ⟨x, hx, rfl⟩ := List.mem_map.mp he
            simp [(untimed_asks (hd x hx)).2.1]
          rw [this, h1, Bool.or_false]
        · simp [h1, grantsService]
      · intro _ hsv
        simp only at hsv ha' ⊢
        rcases hd with ⟨h1, hd⟩ | ⟨_, h2, _⟩
        · exact (hua (w.ua hs (h1 ▸ hsv))).resolve_right (by simp [ha'])
        · exact (hua h2).resolve_right (by simp [ha'])
      · intro _ ht
        simp only at ht ha' ⊢
        rw [hg]
        rcases htask ht with ht | ht | ht
        · simp [w.task hs ht]
        · simp [ht]
        · rw [ha'] at ht; cases ht
      · intro _; exact hnever

theorem tinv_next {cfg : AuthCfg} {s : Timed} (h : TInv cfg s) (e : TimedEv) : TInv cfg (s.next cfg e) := by
  unfold Timed.next
  split
  · exact tinv_wait h _
  · exact tinv_wait h _
  · rename_i hne _; exact tinv_event (tinv_wait h _) hne

theorem timed_snoc (cfg : AuthCfg) (evs : List TimedEv) (e : TimedEv) :
    Timed.run cfg (evs ++ [e]) = (Timed.run cfg evs).next cfg e := by simp [Timed.run]

theorem tinv_run (cfg : AuthCfg) (evs : List TimedEv) : TInv cfg (Timed.run cfg evs) := by
  induction evs using Aux.snoc_ind with
  | h0 => exact tinv_init cfg
  | h1 evs e ih => rw [timed_snoc]; exact tinv_next ih e

end Lukko
