import Verif.Proof.TallyRun
import Verif.Spec.Guard
/-
  What one event does to the request being processed on a connection, as far as it matters for guessing passwords.
-/
namespace Lukko
open Spec Model

/-- Entries about an account or a packet. -/
def isAccount : AuthEntry → Bool
  | .account .. | .received .. => true
  | _ => false

def isFailureEntry : AuthEntry → Bool
  | .failure _ => true
  | _ => false

/-- What can happen: `t'` and `d` are the new task and the new entries. -/
inductive Moved (y : Auth) (ev : AuthEv) (t' : Option AuthTask) (d : List AuthEntry) : Prop where
  /-- nothing, or the request is done -/
  | quiet (ht : t' = y.task ∨ t' = none ∧ ((∃ m, y.task = some (.failSleep m)) → ev = .timer))
      (hd : ∀ e ∈ d, isAccount e = true → ∃ m p dl, e = .received m p ∧ ev = .packet m p dl)
      (hf : (∃ e ∈ d, isFailureEntry e = true) → ev = .timer ∧ ∃ m, y.task = some (.failSleep m))
  /-- a new request -/
  | asked (p : Bytes) (dl : Bool) (d' : List AuthEntry) (ht : y.task = none) (he : ev = .packet 50 p dl) (hd : d = .received 50 p :: d')
      (hd' : ∀ e ∈ d', isAccount e = false) (h1 : ∀ r, t' = some (.tarpit r) → dl = true) (h2 : 0 < guessing t' → dl = false)
  /-- the delay is over -/
  | woken (r : AuthReq) (ht : y.task = some (.tarpit r)) (he : ev = .timer) (hd : ∀ e ∈ d, isAccount e = false)
      (h1 : ∀ r, t' ≠ some (.tarpit r))
  /-- there is an answer about the account -/
  | told (r : AuthReq) (p : Bytes) (a : Account) (d' : List AuthEntry) (ht : y.task = some (.translate r p))
      (hd : d = .account r.user p a :: d') (hd' : ∀ e ∈ d', isAccount e = false)
      (h1 : ∀ r, t' ≠ some (.tarpit r)) (h2 : guessing t' = 0) (h3 : a.ok = false → d' = [] ∧ ∃ m, t' = some (.failSleep m))
      (h4 : ev = .translated (some a))
  /-- the user's key file was read -/
  | home (r : AuthReq) (k : KeyReq) (ht : y.task = some (.home r k)) (hd : ∀ e ∈ d, isAccount e = false)
      (h1 : ∀ r, t' ≠ some (.tarpit r)) (h2 : guessing t' = 0)

theorem OffBook.moved {y z : Auth} (h : OffBook y z) (ev : AuthEv) : ∃ d, z.log = y.log ++ d ∧ Moved y ev z.task d := by
  obtain ⟨⟨d, h1, h2⟩, h3, _⟩ := h
  refine ⟨d, h1, .quiet (.inl h3) ?_ ?_⟩
  · intro e he h4
    have := h2 e he
    cases e <;> simp_all [offBook, isAccount]
  · rintro ⟨e, he, hf⟩
    have := h2 e he
    cases e <;> simp_all [offBook, isFailureEntry]

theorem quiet_account {d : List AuthEntry}
    (h : ∀ e ∈ d, (match e with | .received .. | .account .. | .encrypted => false | _ => true) = true) :
    ∀ e ∈ d, isAccount e = false := by
  intro e he
  have := h e he
  cases e <;> simp_all [isAccount]

theorem moved_packet {cfg : AuthCfg} {y : Auth} {msg : UInt8} {payload : Bytes} {delay : Bool} :
    ∃ d, ((y.say (.received msg payload)).packet cfg msg payload delay).log = y.log ++ d ∧
      Moved y (.packet msg payload delay) ((y.say (.received msg payload)).packet cfg msg payload delay).task d := by
  have hoff : ∀ z, OffBook (y.say (.received msg payload)) z →
      ∃ d, z.log = y.log ++ d ∧ Moved y (.packet msg payload delay) z.task d := by
    intro z h
    obtain ⟨⟨d, h1, h2⟩, h3, _⟩ := h
    refine ⟨.received msg payload :: d, by rw [h1]; simp [Auth.say], .quiet (.inl h3) ?_ ?_⟩
    · intro e he h4
      rcases List.mem_cons.mp he with rfl | he
      · exact ⟨_, _, _, rfl, rfl⟩
      · have := h2 e he
        cases e <;> simp_all [offBook, isAccount]
    · rintro ⟨e, he, hf⟩
      rcases List.mem_cons.mp he with rfl | he
      · cases hf
      · have := h2 e he
        cases e <;> simp_all [offBook, isFailureEntry]
  unfold Auth.packet
  cases hl : (y.say (.received msg payload)).laterHandlers msg payload with
  | some z => exact hoff _ (offBook_later hl)
  | none =>
    simp only
    unfold Auth.userAuthPacket
    cases (y.say (.received msg payload)).userAuth
    · exact hoff _ (offBook_transport _ _)
    simp only [Bool.not_true, cond_false]
    cases ho : (y.say (.received msg payload)).task.isSome && !allowedWhileOccupied msg
    · simp only [cond_false]
      by_cases h1 : msg = MSG_SERVICE_REQUEST
      · rw [if_pos h1]
        exact hoff _ (offBook_service _ _)
      · rw [if_neg h1]
        by_cases h2 : msg = MSG_USERAUTH_REQUEST
        · rw [if_pos h2]
          unfold Auth.handleUserauthRequest
          cases (y.say (.received msg payload)).authenticated
          · cases (y.say (.received msg payload)).haveService
            · exact hoff _ (.one (e := .disconnected 2))
            · simp only [Bool.not_true, cond_false]
              have ht : y.task = none := by
                subst h2
                rw [show allowedWhileOccupied MSG_USERAUTH_REQUEST = false by decide] at ho
                change (y.task.isSome && !false) = false at ho
                cases h : y.task with
                | none => rfl
                | some t => rw [h] at ho; cases ho
              unfold Auth.userAuthRequest
              cases hp : parseAuthReq payload with
              | none => exact hoff _ (offBook_malformed _ false)
              | some r =>
                simp only
                have h5 : msg = 50 := h2
                cases delay
                · simp only [cond_false]
                  obtain ⟨⟨d, h3, h4⟩, h6, _⟩ := books_after (cfg := cfg) (y := y.say (.received msg payload)) (r := r)
                    (a := false) ht
                  refine ⟨.received msg payload :: d, by rw [h3]; simp [Auth.say], .asked payload false d ht (by rw [h5])
                    (by rw [h5]) (quiet_account h4.quiet) (fun r hr => absurd hr (h6 r)) fun _ => rfl⟩
                · refine ⟨[.received msg payload], rfl, .asked payload true [] ht (by rw [h5]) (by rw [h5]) (by simp)
                    (fun _ _ => rfl) ?_⟩
                  intro h; exact absurd h (Nat.lt_irrefl 0)
          · exact hoff _ (.refl _)
        · rw [if_neg h2]
          exact hoff _ (offBook_transport _ _)
    · exact hoff _ (.one (e := .disconnected 2))

theorem moved_resume {cfg : AuthCfg} {y : Auth} {t : AuthTask} (ht : y.task = some t)
    (hm : ∀ r k, t = .home r k → r.method = ascii "publickey") (ev : AuthEv) :
    ∃ d, (y.resume cfg t ev).log = y.log ++ d ∧ Moved y ev (y.resume cfg t ev).task d := by
  unfold Auth.resume
  split
  · rename_i r
    obtain ⟨⟨d, h1, h2⟩, h3, _⟩ := books_after (cfg := cfg) (y := { y with task := none }) (r := r) (a := true) rfl
    exact ⟨d, h1, .woken r ht rfl (quiet_account h2.quiet) h3⟩
  · rename_i r p a
    cases a with
    | none =>
      refine ⟨[.disconnected 7], rfl, .quiet (.inr ⟨rfl, fun ⟨m, h⟩ => by rw [ht] at h; cases h⟩) (by simp [isAccount]) ?_⟩
      rintro ⟨e, he, hf⟩
      simp at he
      rw [he] at hf; cases hf
    | some a =>
      obtain ⟨⟨d, h1, h2⟩, h3, _⟩ := books_accountKnown (cfg := cfg)
        (y := ({ y with task := none, translation := some { user := r.user, password := p, account := a } } : Auth).say
          (.account r.user p a)) (r := r) (password := p) (acct := a) (a := true) rfl
      have hg := guessing_accountKnown (cfg := cfg)
        (y := ({ y with task := none, translation := some { user := r.user, password := p, account := a } } : Auth).say
          (.account r.user p a)) rfl r p a true
      refine ⟨.account r.user p a :: d, ?_, .told r p a d ht rfl (quiet_account h2.quiet) h3 hg ?_ rfl⟩
      · show _ = y.log ++ ([_] ++ d)
        rw [← List.append_assoc]
        exact h1
      · intro ho
        have he : ∀ z : Auth, z.accountKnown cfg r p a true = z.failLater [] := by
          intro z
          unfold Auth.accountKnown
          rw [ho]; rfl
        rw [he] at h1
        refine ⟨?_, [], ?_⟩
        · change (y.log ++ [AuthEntry.account r.user p a]) = (y.log ++ [AuthEntry.account r.user p a]) ++ d at h1
          exact List.append_right_eq_self.mp h1.symm
        · show (Auth.accountKnown cfg _ r p a true).task = _
          rw [he]; rfl
  · rename_i r k text
    have hm := hm r k rfl
    have h : ∃ d, (Auth.homeRead cfg { y with task := none } r k text).log = (y.log ++ [.homeKeys text]) ++ d ∧
        (∀ e ∈ d, isAccount e = false) ∧
        (∀ r', (Auth.homeRead cfg { y with task := none } r k text).task ≠ some (.tarpit r')) ∧
        guessing (Auth.homeRead cfg { y with task := none } r k text).task = 0 := by
      unfold Auth.homeRead
      simp only
      cases text.bind fun t => fileContains cfg.decode t k.blob with
      | some o =>
        obtain ⟨⟨d, h1, h2⟩, h3, _⟩ := books_keyAccepted (cfg := cfg)
          (y := { ({ y with task := none } : Auth).say (.homeKeys text) with opts := o }) (r := r) (k := k) (a := true) rfl hm
        exact ⟨d, h1, quiet_account h2.quiet, h3, guessing_keyAccepted
          (y := { ({ y with task := none } : Auth).say (.homeKeys text) with opts := o }) rfl r k true⟩
      | none => exact ⟨[], by simp [Auth.failLater, Auth.say], by simp, (by intro r' h; cases h), rfl⟩
    obtain ⟨d, h1, h2, h3, h4⟩ := h
    refine ⟨.homeKeys text :: d, by rw [h1]; simp, .home r k ht ?_ h3 h4⟩
    intro e he
    rcases List.mem_cons.mp he with rfl | he
    · rfl
    · exact h2 e he
  · rename_i m
    refine ⟨[.failure m], rfl, .quiet (.inr ⟨rfl, fun _ => rfl⟩) (by simp [isAccount]) fun _ => ⟨rfl, m, ht⟩⟩
  · refine ⟨[], by simp [Auth.complete], .quiet (.inr ⟨rfl, fun ⟨m, h⟩ => by rw [ht] at h; cases h⟩) (by simp) ?_⟩
    rintro ⟨e, he, _⟩; cases he
  · exact (OffBook.one (e := .closed)).moved _
  · exact (OffBook.refl y).moved _

/-- One event. -/
theorem moved_step {cfg : AuthCfg} {y : Auth} (h : AuthInv cfg y) (ev : AuthEv) :
    ∃ d, (y.step cfg ev).log = y.log ++ d ∧ Moved y ev (y.step cfg ev).task d := by
  cases hs : y.stop
  · have hres : ∀ ev : AuthEv, ∃ d, (match y.task with | none => y | some t => y.resume cfg t ev).log = y.log ++ d ∧
        Moved y ev (match y.task with | none => y | some t => y.resume cfg t ev).task d := by
      intro ev
      cases ht : y.task with
      | none => exact (OffBook.refl y).moved ev
      | some t => exact moved_resume ht (home_method h hs ht) (cfg := cfg) ev
    have hdisc : ∀ n, OffBook y (y.disconnect n) := fun n => OffBook.one (e := .disconnected n)
    unfold Auth.step
    rw [hs]
    simp only [cond_false]
    cases ev with
    | encrypted => exact (offBook_bif (.refl y) (OffBook.one (e := .encrypted))).moved _
    | packet m p d => exact moved_packet
    | timer => exact hres _
    | translated a => exact hres _
    | home t => exact hres _
    | connected ok => exact hres _
    | targetSuccess =>
      refine OffBook.moved (offBook_bif ?_ (.refl y)) _
      unfold Auth.targetReady
      split
      · exact OffBook.one (e := .disconnected 10)
      · rename_i s _
        exact ⟨⟨[.requestToTarget (s.buf.drop 5), .success], rfl, by simp [offBook]⟩, rfl, rfl⟩
    | targetPacket m p =>
      refine OffBook.moved (offBook_bif (offBook_bif ?_ (OffBook.one (e := .targetReceived m p))) (.refl y)) _
      exact ⟨⟨[.targetReceived m p, .toClient m p], rfl, by simp [offBook]⟩, rfl, rfl⟩
    | targetDisconnecting => exact OffBook.moved (y := y) (z := { y with proxied := false }) ⟨⟨[], by simp, by simp⟩, rfl, rfl⟩ _
    | targetGone => exact (offBook_bif (hdisc _) (.refl y)).moved _
    | authTimeout => exact (offBook_bif (.refl y) (hdisc _)).moved _
    | closed => exact (OffBook.one (e := .closed)).moved _
  · unfold Auth.step
    rw [hs]
    exact (OffBook.refl y).moved _

/-- Meanwhile, requests are not accepted. -/
theorem request_occupied {cfg : AuthCfg} {y : Auth} (h : AuthInv cfg y) (hs : y.stop = false)
    (ht : (∃ r, y.task = some (.tarpit r)) ∨ ∃ r p, y.task = some (.translate r p)) (p : Bytes) (dl : Bool) :
    (y.step cfg (.packet 50 p dl)).stop = true := by
  have hu : y.userAuth = true := by
    rcases h with ⟨_, h1 | ⟨_, h1⟩⟩ | h1
    · rw [hs] at h1; cases h1
    · rcases ht with ⟨r, ht⟩ | ⟨r, q, ht⟩ <;> rw [ht] at h1
      · exact h1.1.ua
      · exact h1.1.ua
    · rcases h1.task with h2 | h2 <;> rcases ht with ⟨r, ht⟩ | ⟨r, q, ht⟩ <;> rw [ht] at h2 <;> cases h2
  have ho : y.task.isSome = true := by rcases ht with ⟨r, ht⟩ | ⟨r, q, ht⟩ <;> rw [ht] <;> rfl
  unfold Auth.step
  rw [hs]
  simp only [cond_false]
  unfold Auth.packet
  have hl : (y.say (.received 50 p)).laterHandlers 50 p = none := by
    unfold Auth.laterHandlers
    rw [show shouldProxy 50 = false by decide, show isChannelMessage 50 = false by decide,
      show ((50 : UInt8) == MSG_GLOBAL_REQUEST) = false by decide]
    simp
  rw [hl]
  simp only
  unfold Auth.userAuthPacket
  rw [show (y.say (.received 50 p)).userAuth = y.userAuth from rfl, hu, show (y.say (.received 50 p)).task = y.task from rfl, ho,
    show allowedWhileOccupied 50 = false by decide]
  rfl

theorem stopped_step {cfg : AuthCfg} {y : Auth} (hs : y.stop = true) (ev : AuthEv) : y.step cfg ev = y := by
  unfold Auth.step; rw [hs]; rfl

end Lukko
