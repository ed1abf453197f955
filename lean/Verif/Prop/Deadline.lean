import Verif.Proof.Deadline
import Verif.Prop.Auth
/-
  C74: the time a client has for logging in.
-/
namespace Lukko
open Model Spec

theorem wait_now (s : Timed) (t : Nat) : (s.wait t).now = max s.now t := by
  unfold Timed.wait
  split
  · rfl
  · split <;> rfl

theorem request_y (s : Timed) (ev : AuthEv) :
    (s.request ev).y = s.y ∧ (s.request ev).now = s.now ∧ (s.request ev).hist = s.hist := by
  unfold Timed.request
  cases !s.y.stop && s.y.takesRequest ev && !s.gotRequest <;> exact ⟨rfl, rfl, rfl⟩

theorem step_now (cfg : AuthCfg) (s : Timed) (t : Nat) (ev : AuthEv) : (s.step cfg t ev).now = (s.wait t).now := by
  simp only [Timed.step, cancel_eq, Timed.goto, request_y]

theorem loggedIn_iff {cfg : AuthCfg} {s : Timed} (h : TInv cfg s) : s.y.authenticated = true ↔ LoggedIn s.hist := by
  have hm : ∀ l, .loggedIn l ∈ s.y.log ↔ ∃ t, (t, AuthEntry.loggedIn l) ∈ s.hist := by
    intro l
    rw [← h.map, List.mem_map]
    constructor
    · rintro ⟨⟨t, e⟩, h1, rfl⟩; exact ⟨t, h1⟩
    · rintro ⟨t, h1⟩; exact ⟨_, h1, rfl⟩
  obtain ⟨evs, he⟩ := h.reach
  have hinv : AuthInv cfg s.y := by rw [he]; exact inv_run evs
  rcases hinv with ⟨p, _⟩ | p
  · simp only [p.auth, Bool.false_eq_true, false_iff]
    rintro ⟨t, l, hl⟩
    exact p.noLogin l ((hm l).mpr ⟨t, hl⟩)
  · simp only [p.auth, true_iff]
    obtain ⟨l, hl⟩ := p.login
    obtain ⟨t, ht⟩ := (hm l).mp hl
    exact ⟨t, l, ht⟩

theorem now_run (cfg : AuthCfg) (evs : List TimedEv) {e : TimedEv} (he : e ∈ evs) :
    e.1 ≤ (Timed.run cfg evs).now := by
  induction evs using Aux.snoc_ind with
  | h0 => simp at he
  | h1 evs x ih =>
    have hx : (Timed.run cfg (evs ++ [x])).now = max (Timed.run cfg evs).now x.1 := by
      rw [timed_snoc]
      unfold Timed.next
      split
      · exact wait_now ..
      · exact wait_now ..
      · rw [step_now]; exact wait_now ..
    rcases List.mem_append.mp he with he | he
    · have := ih he; omega
    · simp only [List.mem_singleton] at he; subst he; omega

/-- A client which has not logged in sends its first request within 10 seconds, and the connection ends at the
time limit. -/
theorem C74_limit (cfg : AuthCfg) (evs : List TimedEv) {h : Timeline} (hh : h = (Timed.run cfg evs).hist)
    (hn : ¬LoggedIn h) :
    (∀ t, firstRequest h = some t → t < 10 * 1000) ∧
    ∀ e ∈ evs, loginLimit (firstRequest h) ≤ e.1 → EndedBy (loginLimit (firstRequest h)) h := by
  subst hh
  have hi := tinv_run cfg evs
  have ha : (Timed.run cfg evs).y.authenticated = false := by
    cases hx : (Timed.run cfg evs).y.authenticated
    · rfl
    · exact absurd ((loggedIn_iff hi).mp hx) hn
  have w := hi.pre ha
  refine ⟨w.soon, fun e he hle => ?_⟩
  cases hs : (Timed.run cfg evs).y.stop with
  | true => exact (w.ended hs).1
  | false =>
    have := w.time hs
    have := now_run cfg evs he
    omega

/-- In any case it ends within 130 seconds. -/
theorem C74_bound (cfg : AuthCfg) (evs : List TimedEv) (hn : ¬LoggedIn (Timed.run cfg evs).hist)
    {e : TimedEv} (he : e ∈ evs) (ht : 130 * 1000 ≤ e.1) : EndedBy (130 * 1000) (Timed.run cfg evs).hist := by
  obtain ⟨h1, h2⟩ := C74_limit cfg evs rfl hn
  have hl : loginLimit (firstRequest (Timed.run cfg evs).hist) ≤ 130 * 1000 := by
    cases hf : firstRequest (Timed.run cfg evs).hist with
    | none => simp [loginLimit]
    | some t => have := h1 t hf; simp only [loginLimit]; omega
  obtain ⟨t, h3, h4⟩ := h2 e he (Nat.le_trans hl ht)
  exact ⟨t, Nat.le_trans h3 hl, h4⟩

/-- A connection without login is not ended for want of time before the time limit. -/
theorem C74_not_early (cfg : AuthCfg) (evs : List TimedEv) {h : Timeline} (hh : h = (Timed.run cfg evs).hist)
    (hn : ¬LoggedIn h) {t : Nat} (ht : (t, AuthEntry.disconnected 10) ∈ h) : t = loginLimit (firstRequest h) := by
  subst hh
  have hi := tinv_run cfg evs
  have ha : (Timed.run cfg evs).y.authenticated = false := by
    cases hx : (Timed.run cfg evs).y.authenticated
    · rfl
    · exact absurd ((loggedIn_iff hi).mp hx) hn
  have w := hi.pre ha
  cases hs : (Timed.run cfg evs).y.stop with
  | true => exact (w.ended hs).2 t ht
  | false => exact absurd ht (w.never hs t)

/-- After a login there is no time limit: nothing happens, however long one waits. -/
theorem C74_logged_in (cfg : AuthCfg) (evs : List TimedEv) (hl : LoggedIn (Timed.run cfg evs).hist)
    {evs' : List TimedEv} (he : ∀ e ∈ evs', e.2 = none) :
    (Timed.run cfg (evs ++ evs')).hist = (Timed.run cfg evs).hist := by
  have hk : (Timed.run cfg (evs ++ evs')).hist = (Timed.run cfg evs).hist ∧
      (Timed.run cfg (evs ++ evs')).deadline = none := by
    induction evs' using Aux.snoc_ind with
    | h0 =>
      have hi := tinv_run cfg evs
      simp only [List.append_nil, true_and]
      exact hi.off (.inr ((loggedIn_iff hi).mpr hl))
    | h1 evs' e ih =>
      obtain ⟨h1, h2⟩ := ih fun e he' => he e (by simp [he'])
      rw [← List.append_assoc, timed_snoc]
      simp only [Timed.next, he e (by simp), Timed.wait, h2]
      exact ⟨h1, trivial⟩
  exact hk.1

/-- The times for the demonstration. -/
def stampAt (t : Nat) (evs : List AuthEv) : List TimedEv := evs.map fun ev => (t, some ev)

/-- Somebody who only asks for the service. -/
example : (Timed.run demoAuth (stampAt 500 demoGreeting ++ [(99999, none)])).hist.getLast? =
    some (10000, .disconnected 10) := by decide +kernel

/-- Somebody who tries a wrong key, and again later. -/
example : let h := (Timed.run demoAuth (stampAt 500 demoGreeting ++ stampAt 9000 [demoKeySig 9, .translated (some {}), .home none] ++
      stampAt 9500 [.timer] ++ stampAt 100000 [demoKeySig 9, .home none] ++ [(900000, none)])).hist
    firstRequest h = some 9000 ∧ h.getLast? = some (129000, .disconnected 10) ∧ h.length = 10 := by decide +kernel

/-- Somebody who logs in. -/
example : let h := (Timed.run demoAuth (stampAt 500 demoGreeting ++ stampAt 9000 (demoLogin 7) ++ [(900000, none)])).hist
    firstRequest h = some 9000 ∧ (h.getLast?).map (·.2) = some .success := by decide +kernel

/-- A proxied client which has been authenticated waits for the target without any time limit: if the target
accepts the connection and then says nothing, the client never gets an answer. -/
theorem C74_proxied_violated : ∃ (cfg : AuthCfg) (evs : List TimedEv), ∀ t : Nat,
    let h := (Timed.run cfg (evs ++ [(t, none)])).hist
    (∀ t', (t', AuthEntry.success) ∉ h) ∧ ¬EndedBy t h := by
  refine ⟨demoProxy, stampAt 500 (demoLogin 7 ++ [.connected true]), fun t => ?_⟩
  have hl : LoggedIn (Timed.run demoProxy (stampAt 500 (demoLogin 7 ++ [.connected true]))).hist := by
    rw [← loggedIn_iff (tinv_run ..)]; decide +kernel
  intro h
  have hh : h = (Timed.run demoProxy (stampAt 500 (demoLogin 7 ++ [.connected true]))).hist :=
    C74_logged_in _ _ hl (by simp)
  have h1 : ∀ e ∈ (Timed.run demoProxy (stampAt 500 (demoLogin 7 ++ [.connected true]))).hist,
      e.2 ≠ .success ∧ e.2 ≠ .closed ∧ (match e.2 with | .disconnected _ => false | _ => true) = true := by decide +kernel
  rw [← hh] at h1
  refine ⟨fun t' ht => (h1 _ ht).1 rfl, ?_⟩
  rintro ⟨t', _, hc | ⟨n, hc⟩⟩
  · exact (h1 _ hc).2.1 rfl
  · have := (h1 _ hc).2.2
    simp at this

end Lukko
