import Verif.Proof.Caller
import Verif.Prop.Server
/-
  C106: the connection to a target as a whole – the transport layer and the login on top of it.
-/
namespace Lukko
open Model Spec

variable {σ : Type} {x : CallerEnv σ}

theorem CInv.of_run (hx : EnvOk x.trans) (hg : x.login.Good) {evs : List CallerEvent} {s : Caller σ}
    (h : ({} : Caller σ).run x evs = some s) : CInv x s := by
  obtain ⟨s', h1, h2⟩ := (CInv.init x).run (evs := evs) hx hg
  rw [h] at h1
  cases h1
  exact h2

/-- What is known about the exchange when the login has begun. -/
theorem CInv.exchange (hx : EnvOk x.trans) {s : Caller σ} (h : CInv x s) (hne : s.login.log ≠ []) :
    ∃ t, firstAgreed s.trans.kx.kx.log = some t ∧ s.trans.kx.kx.ks.sessionId = x.trans.kex.digest (hashInput t) ∧
      ∃ pre, ClientAgreed x.trans.kex pre t := by
  obtain ⟨kevs, hk, hkx⟩ := h.fit.kx
  have hsid := C14_first_hash (role := .client) hx.digest hk
  rw [← hkx] at hsid
  have he : s.login.encrypted = true := by
    cases he : s.login.encrypted with
    | true => rfl
    | false => exact absurd (h.early he).info.2.1 hne
  rw [h.enc, h.told, List.contains_iff_mem, hkx] at he
  obtain ⟨t, ht⟩ := firstAgreed_of_encrypted hx.digest hk he
  rw [← hkx] at ht
  rw [ht] at hsid
  refine ⟨t, ht, hsid, ?_⟩
  obtain ⟨a, b, hab⟩ := firstAgreed_split ht
  rw [hkx] at hab
  exact ⟨a, (run_safe (role := .client) hx.digest hk).every a (.agreed t) b hab⟩

/-! ## C106 -/

/-- **C106.** Whatever happens on the connection to a target, in whatever order, no assertion fails. -/
theorem C106_no_assertion_fails (hx : EnvOk x.trans) (hg : x.login.Good) (evs : List CallerEvent) :
    (({} : Caller σ).run x evs).isSome := by
  obtain ⟨s', h1, _⟩ := (CInv.init x).run (evs := evs) hx hg
  rw [h1]; rfl

/-- **C106.** The messages of the target which are acted upon are packets which were received encrypted: all of them,
in the order of their arrival, as long as the connection exists. -/
theorem C106_messages (hx : EnvOk x.trans) (hg : x.login.Good) {evs : List CallerEvent} {s : Caller σ}
    (h : ({} : Caller σ).run x evs = some s) :
    targetMessages s.login.log <+: receivedEncrypted s.trans.kx.kx.log ∧
    (s.live = true → targetMessages s.login.log = receivedEncrypted s.trans.kx.kx.log) :=
  ⟨(CInv.of_run hx hg h).recv, (CInv.of_run hx hg h).recvEq⟩

/-- **C106.** Nothing but messages of the transport layer is ever sent unencrypted. -/
theorem C106_clear (hx : EnvOk x.trans) (hg : x.login.Good) {evs : List CallerEvent} {s : Caller σ}
    (h : ({} : Caller σ).run x evs = some s) : ∀ p ∈ postsOfEpoch s.trans.posts, IsTransportMessage p :=
  (CInv.of_run hx hg h).clear

/-- **C106.** A login takes place only at a host whose key is accepted and which has proved to have it, and it follows
the protocol: the request is signed for this connection – with the hash of its first key exchange – and no other. -/
theorem C106_login (hx : EnvOk x.trans) (hg : x.login.Good) {evs : List CallerEvent} {s : Caller σ}
    (h : ({} : Caller σ).run x evs = some s) (hne : s.login.log ≠ []) :
    ∃ t accepts sig, firstAgreed s.trans.kx.kx.log = some t ∧ x.trans.kex.verifier = some accepts ∧ accepts t.hostKey = true ∧
      x.trans.kex.verify t.hostKey (x.trans.kex.digest (hashInput t)) sig = true ∧
      ProperLogin ({ x.login with sessionId := x.trans.kex.digest (hashInput t) } : TargetCfg).IsRequest s.login.log := by
  have hi := CInv.of_run hx hg h
  obtain ⟨t, h1, h2, pre, pre', sig, h3, ⟨accepts, h4, h5⟩, h6, -⟩ := hi.exchange hx hne
  refine ⟨t, accepts, sig, h1, h4, h5, h6, ?_⟩
  have := (hi.target hg).proper
  unfold Caller.cfg at this
  rw [h2] at this
  exact this

/-- **C106.** What is sent above the transport layer are the messages of the login and then what the proxy has to send,
in this order and nothing else; and all of it, as long as the connection exists.  The proxy sends nothing before the
target has granted the login. -/
theorem C106_sent (hx : EnvOk x.trans) (hg : x.login.Good) {evs : List CallerEvent} {s : Caller σ}
    (h : ({} : Caller σ).run x evs = some s) :
    upperSent s.trans.posts <+: (loginMessages s.login.log ++ s.given).filter isUpper ∧
    (s.live = true → upperSent s.trans.posts = (loginMessages s.login.log ++ s.given).filter isUpper ∧
      (loginMessages s.login.log).Sublist (packetsSent s.trans.posts)) ∧
    (s.given ≠ [] → .loggedIn ∈ s.login.log) := by
  have hi := CInv.of_run hx hg h
  exact ⟨hi.upper, fun hl => ⟨hi.upperEq (Caller.live_iff.mp hl).1, hi.answers (Caller.live_iff.mp hl).1⟩,
    fun hn => (hi.target hg).known.mp (hi.later hn)⟩

/-! ### A connection -/

/-- What the target sends after the key exchange. -/
def demoTargetTalk : List Bytes := [6 :: str (ascii "ssh-userauth"), [52], [81]]

def demoCall : CallerEnv (Nat × List Bytes) := { trans := demoLink demoEndC 0 demoTargetTalk, login := demoTarget }

def demoCallArrive : List CallerEvent :=
  .io (.version (ascii "SSH-2.0-server")) ::
    ([20 :: (lastSent 20 (demoEndServer demoPairS)).getD [], 31 :: (lastSent 31 (demoEndServer demoPairS)).getD [], [21]].flatMap fun p =>
      [.io (.feed (demoFrame p)), .ready false])

def demoCallHear (p : Bytes) : List CallerEvent :=
  [.io (.feed (demoSealed p)), .io (.inBegin 10000), .io .inLoop, .io .inLoop, .io (.inEnd 0), .ready true]

def demoCalled : List CallerEvent := demoCallArrive ++ demoTargetTalk.flatMap demoCallHear ++ [.send [90, 1], .send [94, 2]]

theorem demoCall_ok : EnvOk demoCall.trans := demoLink_ok (demoEnd_digest _ _) 0 _

/-- Non-vacuity (C106): the proxy logs in at the target and passes on two messages. -/
example : EnvOk demoCall.trans ∧ demoCall.login.Good ∧
    (({} : Caller (Nat × List Bytes)).run demoCall demoCalled).map (fun s =>
      (s.live && decide (targetMessages s.login.log = demoTargetTalk) && decide (.loggedIn ∈ s.login.log),
       (packetsSent s.trans.posts).map (·.headD 0), (postsOfEpoch s.trans.posts).map (·.headD 0),
       (upperSent s.trans.posts).map (·.headD 0), s.given.map (·.headD 0))) =
      some (true, [20, 30, 21, 5, 50, 90, 94], [20, 30, 21], [50, 90, 94], [90, 94]) :=
  ⟨demoCall_ok, demoTarget_good, by decide +kernel⟩

/-- Nothing is passed on before the login is granted; and if it is refused, the connection is over. -/
example : (({} : Caller (Nat × List Bytes)).run { demoCall with trans := demoLink demoEndC 0 [demoTargetTalk.headD [], [51]] }
      (demoCallArrive ++ demoCallHear (demoTargetTalk.headD []) ++ [.send [90, 1]] ++ demoCallHear [51] ++ [.send [90, 1]])).map (fun s =>
      (s.live, decide (.refused ∈ s.login.log), (packetsSent s.trans.posts).map (·.headD 0), s.given)) =
      some (false, true, [20, 30, 21, 5, 50], []) := by decide +kernel

end Lukko
