import Verif.Proof.AuthMethods
import Verif.Prop.Auth
/-
  C66: the offered authentication methods are those that can succeed.
-/
namespace Lukko
open Model Spec

/-- **C66 (partial).** Every USERAUTH_FAILURE lists exactly the methods which can succeed, except
that an empty list may be sent once the translation server has rejected an account or the
client has asked for a service other than `ssh-connection`. -/
theorem C66_offered_partial (cfg : AuthCfg) (evs : List AuthEv) {a b : List AuthEntry} {list : Bytes}
    (h : (Auth.run cfg {} evs).log = a ++ .failure list :: b) :
    OffersUsable cfg.world list ∨ (list = [] ∧ NothingToOffer a) := by
  have : MethodsOk cfg a list := (meth_run cfg evs).prev a _ b h
  rcases this with rfl | h
  · exact .inl (authMethods_usable cfg)
  · exact .inr h

example : .failure (ascii "publickey,hostbased,password") ∈
    (Auth.run demoAuth {} (demoGreeting ++ [demoKeySig 9, .translated (some {}), .home none, .timer])).log := by
  decide +kernel

/-- **C66.** A method which is not offered never succeeds: whoever logs in has used a usable method,
or the account needs no password at all. -/
theorem C66_only_offered (cfg : AuthCfg) (evs : List AuthEv) {a b : List AuthEntry} {l : Login}
    (h : (Auth.run cfg {} evs).log = a ++ .loggedIn l :: b) :
    MethodUsable cfg.world l.method ∨ ∃ acct, NoPasswordNeeded a acct l := by
  obtain ⟨_, pw, acct, _, ⟨_, ht, hp⟩ | ⟨_, hk | hh | hn⟩⟩ := C30_sound cfg evs h
  · exact .inl (.inr (.inr ⟨hp.1, ht⟩))
  · exact .inl (.inl hk.1)
  · obtain ⟨hm, alg, key, host, user, sig, _, hkey, _⟩ := hh
    exact .inl (.inr (.inl ⟨hm, key, by rw [hkey]; simp⟩))
  · exact .inr ⟨acct, hn⟩

example : (logins (Auth.run demoAuth {} (demoGreeting ++ [demoHostSig, .translated (some {})])).log).map (·.method) =
    [ascii "hostbased"] := by decide +kernel

/-- **C66 is violated.** After a wrong password the client is told that no method can continue,
although a public key could. -/
theorem C66_empty_violated : ∃ (cfg : AuthCfg) (evs : List AuthEv),
    .failure [] ∈ (Auth.run cfg {} evs).log ∧ ¬ OffersUsable cfg.world [] := by
  refine ⟨demoAuth, demoGreeting ++ [demoPassword, .translated (some { ok := false }), .timer], by decide +kernel, ?_⟩
  rintro ⟨ns, h1, _, h2⟩
  have hm : ascii "publickey" ∈ ns := (h2 _).mpr (.inl rfl)
  match ns, h1, hm with
  | [n], h1, hm =>
    simp only [commaList] at h1
    simp only [List.mem_singleton] at hm
    rw [← h1] at hm
    exact absurd hm (by decide)
  | n :: m :: ns, h1, hm => simp [commaList] at h1

end Lukko
