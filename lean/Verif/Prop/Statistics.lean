import Verif.Prop.Auth
import Verif.Proof.TallyOuter
/-
  C99: the statistics about logins are what happened.
-/
namespace Lukko
open Spec Model

/-- Whatever is done with a connection: the number of logins counted for "publickey" and "hostbased" is the number of
logins with these methods, and every login is counted. -/
theorem C99_accepted (cfg : AuthCfg) (evs : List AuthEv) :
    counted .publickeyAccepted (Auth.tallies cfg {} evs) = loginsBy (ascii "publickey") (Auth.run cfg {} evs).log ∧
    counted .hostbasedAccepted (Auth.tallies cfg {} evs) = loginsBy (ascii "hostbased") (Auth.run cfg {} evs).log ∧
    loginCount (Auth.run cfg {} evs).log ≤ countedAccepted (Auth.tallies cfg {} evs) := by
  obtain ⟨w, h, _⟩ := book_all cfg evs
  exact ⟨h.pk, h.hb, by have := h.all; omega⟩

example : loginsBy (ascii "publickey") (Auth.run demoAuth {} (demoLogin 8)).log = 1 ∧
    countedAccepted (Auth.tallies demoAuth {} (demoLogin 8)) = 1 ∧
    loginsBy (ascii "hostbased") (Auth.run demoAuth {} (demoGreeting ++ [demoHostSig, .translated (some {})])).log = 1 := by
  decide +kernel

/-- If accounts can only be used with a password (or a key), then nothing else is counted.

Missing: accounts which need no password, see `C99_accepted_violated`. -/
theorem C99_accepted_partial (cfg : AuthCfg) (evs : List AuthEv) (h : PasswordsNeeded (Auth.run cfg {} evs).log) :
    loginCount (Auth.run cfg {} evs).log = countedAccepted (Auth.tallies cfg {} evs) := by
  obtain ⟨w, hb, hw⟩ := book_all cfg evs
  have := hb.all
  rw [hw h] at this
  exact this

example : PasswordsNeeded (Auth.run demoAuth {} (demoGreeting ++ [demoPassword, .translated (some {})])).log ∧
    counted .passwordAccepted (Auth.tallies demoAuth {} (demoGreeting ++ [demoPassword, .translated (some {})])) = 1 := by
  refine ⟨?_, by decide +kernel⟩
  intro u p a h
  have h2 : (.account u p a : AuthEntry) ∈ ((Auth.run demoAuth {} (demoGreeting ++ [demoPassword, .translated (some {})])).log.filter
      fun e => match e with | .account .. => true | _ => false) := List.mem_filter.mpr ⟨h, rfl⟩
  rw [show ((Auth.run demoAuth {} (demoGreeting ++ [demoPassword, .translated (some {})])).log.filter
      fun e => match e with | .account .. => true | _ => false) = [.account (ascii "joe") (ascii "secret") {}] by decide +kernel] at h2
  simp at h2
  rw [h2.2.2]

/-- An account which needs no password is counted as a login with a password even if the client tries a key which is
not authorized, and fails; and it is counted twice if the client logs in with a key. -/
theorem C99_accepted_violated : ∃ (cfg : AuthCfg) (bad good : List AuthEv),
    (counted .passwordAccepted (Auth.tallies cfg {} bad) = 1 ∧ loginCount (Auth.run cfg {} bad).log = 0 ∧
      failures (Auth.run cfg {} bad).log = 1) ∧
    (countedAccepted (Auth.tallies cfg {} good) = 2 ∧ loginCount (Auth.run cfg {} good).log = 1) :=
  ⟨demoAuth, demoGreeting ++ [demoKeySig 9, .translated (some { noPassword := some [] }), .home none, .timer],
    demoGreeting ++ [demoKeySig 8, .translated (some { noPassword := some [] })], by decide +kernel⟩

/-- Every failure which is counted is announced to the client (the last one perhaps a bit later). -/
theorem C99_failed (cfg : AuthCfg) (evs : List AuthEv) :
    countedFailed (Auth.tallies cfg {} evs) ≤ failures (Auth.run cfg {} evs).log + 1 ∧
    ((Auth.run cfg {} evs).task = none → countedFailed (Auth.tallies cfg {} evs) ≤ failures (Auth.run cfg {} evs).log) := by
  obtain ⟨w, h, _⟩ := book_all cfg evs
  have h1 := h.fl1
  have h2 : pendFail (Auth.run cfg {} evs).task ≤ 1 := by unfold pendFail; split <;> omega
  refine ⟨?_, ?_⟩
  · change _ + 0 ≤ _ at h1; omega
  · intro ht
    rw [ht] at h1
    exact h1

example : countedFailed (Auth.tallies demoAuth {} (demoGreeting ++ [demoPassword, .translated (some { ok := false }), .timer])) = 1 ∧
    failures (Auth.run demoAuth {} (demoGreeting ++ [demoPassword, .translated (some { ok := false }), .timer])).log = 1 ∧
    (Auth.run demoAuth {} (demoGreeting ++ [demoPassword, .translated (some { ok := false }), .timer])).task = none := by
  decide +kernel

/-- Every failure is counted, except those of requests for another service, requests without a method, and requests to
change the password.

Missing: these are not counted, see `C99_failed_violated`. -/
theorem C99_failed_partial (cfg : AuthCfg) (evs : List AuthEv) :
    failures (Auth.run cfg {} evs).log ≤ countedFailed (Auth.tallies cfg {} evs) + uncountedRequests (Auth.run cfg {} evs).log := by
  obtain ⟨w, h, _⟩ := book_all cfg evs
  have h1 := h.fl2
  change _ ≤ _ + 0 + 0 + _ at h1
  omega

example : failures (Auth.run demoAuth {} (demoGreeting ++ [demoPassword, .translated (some { ok := false }), .timer,
    demoKeySig 8, .translated (some { ok := false }), .timer])).log = 2 := by decide +kernel

/-- A client can try to change a password as often as it likes: nothing is counted. -/
theorem C99_failed_violated : ∃ (cfg : AuthCfg) (evs : List AuthEv),
    failures (Auth.run cfg {} evs).log = 3 ∧ countedFailed (Auth.tallies cfg {} evs) = 0 :=
  ⟨demoAuth, demoGreeting ++ (List.replicate 3 [
    .packet 50 (authRequest (ascii "joe") (ascii "password") (1 :: str (ascii "pw"))) false, .timer]).flatten, by decide +kernel⟩

/-- No more requests are counted than were received, every request which was answered was counted before, and only
requests are counted as delayed. -/
theorem C99_received (cfg : AuthCfg) (evs : List AuthEv) :
    answered (Auth.run cfg {} evs).log ≤ counted .received (Auth.tallies cfg {} evs) ∧
    counted .received (Auth.tallies cfg {} evs) ≤ loginRequests (Auth.run cfg {} evs).log ∧
    counted .tarpit (Auth.tallies cfg {} evs) ≤ counted .received (Auth.tallies cfg {} evs) := by
  obtain ⟨w, h, _⟩ := book_all cfg evs
  have h1 := h.one
  have h2 := outer_all cfg evs
  refine ⟨?_, h2.recv, h2.tarpit⟩
  change _ ≤ _ + 0 at h1
  omega

example : answered (Auth.run demoAuth {} (demoGreeting ++ [demoPassword, .translated (some { ok := false }), .timer])).log = 1 := by
  decide +kernel

/-- Every connection which was closed because of a protocol error is counted; apart from those, at most one is counted
for each failed login with a key.

Missing: these are counted as well, although the connection is not closed, see `C99_closed_violated`. -/
theorem C99_closed_partial (cfg : AuthCfg) (evs : List AuthEv) :
    protocolErrors (Auth.run cfg {} evs).log ≤ counted .protocolError (Auth.tallies cfg {} evs) ∧
    counted .protocolError (Auth.tallies cfg {} evs) ≤ protocolErrors (Auth.run cfg {} evs).log +
      counted .publickeyFailed (Auth.tallies cfg {} evs) + counted .hostbasedFailed (Auth.tallies cfg {} evs) :=
  ⟨(outer_all cfg evs).proto1, (outer_all cfg evs).proto2⟩

example : protocolErrors (Auth.run demoAuth {} [.encrypted, .packet 50 [] false]).log = 1 := by decide +kernel

/-- An authorized key which the server does not understand is counted as a closed connection, but the connection
stays open. -/
theorem C99_closed_violated : ∃ (cfg : AuthCfg) (evs : List AuthEv),
    counted .protocolError (Auth.tallies cfg {} evs) = 1 ∧ (Auth.run cfg {} evs).stop = false :=
  ⟨{ demoAuth with parseKey := fun _ => false }, demoLogin 8, by decide +kernel⟩

end Lukko
