import Verif.Proof.Enumeration
import Verif.Prop.Ending
/-
  C86: failed logins do not reveal which accounts exist.
-/
namespace Lukko
open Model Spec

theorem proper_parse {user service p : Bytes} (h : ProperRequest user service p) :
    ∃ r, parseAuthReq p = some r ∧ r.user = user ∧ r.service = service ∧ Proper r := by
  obtain ⟨m, f, h1, h2, h3, rfl, h4, h5⟩ := h
  exact ⟨_, parseAuthReq_any h1 h2 h3 f, rfl, rfl, h4, h5⟩

/-- **C86** (partial: without account service; requests whose fields are well-formed).  The answer to a login which fails
depends only on the request, and on whether the server trusts any hosts.  Neither the existence of the account
nor its keys matter. -/
theorem C86_answer_partial (cfg : AuthCfg) (evs : List AuthEv) {user service p : Bytes} {reply : List AuthEntry}
    (ht : cfg.translation = false) (hp : ProperRequest user service p)
    (h : ReplyTo (Auth.run cfg {} evs).log p reply) :
    view reply = [] ∨ ∃ e, view reply = [e] ∧ LocalAnswer (!cfg.hostKeys.isEmpty) user service e := by
  obtain ⟨r, hr, rfl, rfl, hpr⟩ := proper_parse hp
  obtain ⟨a, hl, hm⟩ := h.split
  rcases (progress_run ht hpr hr evs hl hm h.only).alone h.only with ⟨h1, _⟩ | ⟨e, h1, h2, _⟩
  · exact .inl h1
  · exact .inr ⟨e, h2, h1⟩

/-- **C86** (partial, as above).  Two servers cannot be told apart by failed logins: whatever accounts they have, and
whatever else has happened to them, they answer the same request in the same way. -/
theorem C86_alike_partial (cfg cfg' : AuthCfg) (evs evs' : List AuthEv) {user service p : Bytes}
    {reply reply' : List AuthEntry} (ht : cfg.translation = false) (ht' : cfg'.translation = false)
    (hk : cfg.hostKeys.isEmpty = cfg'.hostKeys.isEmpty) (hp : ProperRequest user service p)
    (h : ReplyTo (Auth.run cfg {} evs).log p reply) (h' : ReplyTo (Auth.run cfg' {} evs').log p reply') :
    view reply = [] ∨ view reply' = [] ∨ view reply = view reply' := by
  rcases C86_answer_partial cfg evs ht hp h with h1 | ⟨e, h1, h2⟩
  · exact .inl h1
  · rcases C86_answer_partial cfg' evs' ht' hp h' with h3 | ⟨e', h3, h4⟩
    · exact .inr (.inl h3)
    · refine .inr (.inr ?_)
      rw [h1, h3]
      rw [← hk] at h4
      rcases h2 with ⟨a, rfl⟩ | ⟨a, b, rfl⟩ | ⟨a, b, rfl⟩ <;> rcases h4 with ⟨c, rfl⟩ | ⟨c, d, rfl⟩ | ⟨c, d, rfl⟩ <;>
        first | rfl | contradiction

/-! ### Examples -/

/-- A server where only one account exists. -/
def demoLocal (user : Bytes) : AuthCfg := { demoAuth with translation := false, getpwnam := (· == user) }

theorem mayAsk_greeted : MayAsk
    [.encrypted, .received 5 (str (ascii "ssh-userauth")), .serviceAccepted (ascii "ssh-userauth")] := by
  refine ⟨by simp, by simp, by simp, ?_⟩
  rintro ⟨a, p, b, hab, _⟩
  have hm : AuthEntry.received 50 p ∈ a ++ .received 50 p :: b := by simp
  rw [← hab] at hm
  simp at hm

/-- The client asks about a key which nobody has. -/
def demoUnknownKey : Bytes := authRequest (ascii "joe") (ascii "publickey") (0 :: (str (ascii "alg") ++ str [5]))

example : ProperRequest (ascii "joe") (ascii "ssh-connection") demoUnknownKey :=
  ⟨ascii "publickey", 0 :: (str (ascii "alg") ++ str [5]), by decide, by decide, by decide, rfl,
    fun _ => ⟨ascii "alg", [5], by decide, by decide, .inl rfl⟩, fun h => absurd h (by decide)⟩

/-- joe exists (and has a file with keys); the login fails after a while -/
example : ReplyTo (Auth.run (demoLocal (ascii "joe")) {}
    (demoGreeting ++ [.packet 50 demoUnknownKey false, .home (some []), .timer])).log demoUnknownKey
    [.homeKeys (some []), .failure (ascii "publickey,hostbased")] :=
  ⟨⟨_, by decide +kernel, mayAsk_greeted⟩, by decide⟩

/-- joe doesn't exist -/
example : ReplyTo (Auth.run (demoLocal (ascii "jim")) {}
    (demoGreeting ++ [.packet 50 demoUnknownKey true, .timer, .timer])).log demoUnknownKey
    [.failure (ascii "publickey,hostbased")] :=
  ⟨⟨_, by decide +kernel, mayAsk_greeted⟩, by decide⟩

/-! ### Violations -/

/-- A request which ends in the middle. -/
def demoCutOff : Bytes := authRequest (ascii "joe") (ascii "publickey") []

/-- **C86 is violated**: whether an account exists is checked before the rest of the request is read.  With a
request which ends in the middle, the client gets USERAUTH_FAILURE if there is no such account, and is
disconnected if there is one. -/
theorem C86_malformed_violated : ∃ (cfg : AuthCfg) (exist exist' : Bytes → Bool) (evs evs' : List AuthEv) (p : Bytes)
    (reply reply' : List AuthEntry), cfg.translation = false ∧
    ReplyTo (Auth.run { cfg with getpwnam := exist } {} evs).log p reply ∧
    ReplyTo (Auth.run { cfg with getpwnam := exist' } {} evs').log p reply' ∧
    view reply = [.failure (ascii "publickey,hostbased")] ∧ view reply' = [.disconnected 2] :=
  ⟨demoLocal [], fun _ => false, fun _ => true, demoGreeting ++ [.packet 50 demoCutOff false, .timer],
    demoGreeting ++ [.packet 50 demoCutOff false], demoCutOff, [.failure (ascii "publickey,hostbased")],
    [.disconnected 2], rfl, ⟨⟨_, by decide +kernel, mayAsk_greeted⟩, by decide⟩,
    ⟨⟨_, by decide +kernel, mayAsk_greeted⟩, by decide⟩, by decide +kernel, by decide +kernel⟩

/-- **C86 is violated**: with an account service, the answer to a failed login lists the methods which can continue
if the account exists, and none if it does not. -/
theorem C86_service_violated : ∃ (cfg : AuthCfg) (evs evs' : List AuthEv) (p : Bytes)
    (reply reply' : List AuthEntry), ProperRequest (ascii "joe") (ascii "ssh-connection") p ∧
    ReplyTo (Auth.run cfg {} evs).log p reply ∧ ReplyTo (Auth.run cfg {} evs').log p reply' ∧
    (∃ acct, .account (ascii "joe") [] acct ∈ reply ∧ acct.ok = false) ∧
    (∃ acct, .account (ascii "joe") [] acct ∈ reply' ∧ acct.ok = true) ∧
    view reply = [.failure []] ∧ view reply' = [.failure (ascii "publickey,hostbased,password")] :=
  ⟨demoAuth, demoGreeting ++ [.packet 50 demoUnknownKey false, .translated (some { ok := false }), .timer],
    demoGreeting ++ [.packet 50 demoUnknownKey false, .translated (some { noHomeKeys := true }), .timer],
    demoUnknownKey, [.account (ascii "joe") [] { ok := false }, .failure []],
    [.account (ascii "joe") [] { noHomeKeys := true }, .failure (ascii "publickey,hostbased,password")],
    ⟨ascii "publickey", 0 :: (str (ascii "alg") ++ str [5]), by decide, by decide, by decide, rfl,
      fun _ => ⟨ascii "alg", [5], by decide, by decide, .inl rfl⟩, fun h => absurd h (by decide)⟩,
    ⟨⟨_, by decide +kernel, mayAsk_greeted⟩, by decide⟩, ⟨⟨_, by decide +kernel, mayAsk_greeted⟩, by decide⟩,
    ⟨{ ok := false }, by simp, rfl⟩, ⟨{ noHomeKeys := true }, by simp, rfl⟩, by decide +kernel, by decide +kernel⟩

end Lukko
