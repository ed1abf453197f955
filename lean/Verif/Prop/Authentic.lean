import Verif.Proof.Authentic
import Verif.Prop.Auth
/-
  C83: the key exchange authenticates the server; both ends have the same view of it.
  C84: nobody can pass on somebody else's login.
-/
namespace Lukko
open Spec Model

variable {e : KexEnv} {evs : List KxEvent}

/-! ## A client and a server which talk to each other -/

/-- A toy Diffie-Hellman: the sum of the two secrets. -/
def demoEnd (version : Bytes) (k : UInt8) : KexEnv := { demoEnv with
  ownVersion := version
  ephPub := fun _ n => List.replicate 32 (UInt8.ofNat n + k)
  shared := fun _ n eph => curve25519Secret (fun p => some (p.map (· + (UInt8.ofNat n + k)))) eph }

def demoEndC : KexEnv := demoEnd (ascii "SSH-2.0-client") 10
def demoEndS : KexEnv := demoEnd (ascii "SSH-2.0-server") 20

def demoEndClient (evs : List KxEvent) : List Entry := ((KxSys.init .client).run demoEndC evs).kx.log
def demoEndServer (evs : List KxEvent) : List Entry := ((KxSys.init .server).run demoEndS evs).kx.log

/-- Deliver the last packet of this type. -/
def demoRelay (n : UInt8) (log : List Entry) : KxEvent := .packet (n :: (lastSent n log).getD []) .unclaimed

def demoPairC₀ : List KxEvent := [.version (ascii "SSH-2.0-server")]
def demoPairS₁ : List KxEvent := [.version (ascii "SSH-2.0-client"), demoRelay 20 (demoEndClient demoPairC₀)]
def demoPairC₁ : List KxEvent := demoPairC₀ ++ [demoRelay 20 (demoEndServer demoPairS₁)]
def demoPairS₂ : List KxEvent := demoPairS₁ ++ [demoRelay 30 (demoEndClient demoPairC₁)]
def demoPairC : List KxEvent := demoPairC₁ ++ [demoRelay 31 (demoEndServer demoPairS₂), .packet [21] .unclaimed]
def demoPairS : List KxEvent := demoPairS₂ ++ [.packet [21] .unclaimed]

/-! ## C83 -/

/-- **C83.** A client which completes a key exchange shares it with the holder of the host
key it accepted, whatever the network does to the packets: the holder (any implementation,
which signs the hash of the exchanges that it takes part in, and nothing else) took part in
an exchange with exactly the same transcript – unless a signature was forged or two exchanges
with the same hash are known. -/
theorem C83_any_server (hd : ∀ x, (e.digest x).length = 32) (hev : ∀ ev ∈ evs, EventOk ev)
    (hv : e.ownVersion.length < 2 ^ 32) (signed : Transcript → Prop) (hsig : ∀ t, signed t → Transcript.Encodable t)
    {pre p post} (hl : ((KxSys.init .client).run e evs).kx.log = pre ++ .sent p :: post) (hp : isMsg 21 p = true)
    (hz : Sized pre) :
    ∃ t accepts, lastAgreed pre = some t ∧ e.verifier = some accepts ∧ accepts t.hostKey = true ∧
      (Forgery e.verify e.digest signed t.hostKey ∨ (∃ t', signed t' ∧ Collision e.digest t t') ∨ signed t) := by
  have hs := run_safe (role := .client) hd hev
  obtain ⟨pre', t, rfl⟩ := (hs.every pre (.sent p) post hl).1 hp
  have ha : ClientAgreed e pre' t := hs.every pre' (.agreed t) (.sent p :: post) (by rw [hl]; simp)
  have henc := ha.encodable hz.prefix hv
  obtain ⟨pre'', sig, rfl, ⟨accepts, h1, h2⟩, h3, _⟩ := ha
  refine ⟨t, accepts, by rw [lastAgreed_snoc], h1, h2, ?_⟩
  by_cases hf : ∃ t', signed t' ∧ t'.hostKey = t.hostKey ∧ e.digest (hashInput t') = e.digest (hashInput t)
  · obtain ⟨t', s1, s2, s3⟩ := hf
    by_cases ht : t = t'
    · exact .inr (.inr (ht ▸ s1))
    · refine .inr (.inl ⟨t', s1, ?_, s3.symm⟩)
      have := C16_injective henc (hsig t' s1) ht
      rwa [kexHashInput_eq, kexHashInput_eq] at this
  · refine .inl ⟨_, sig, h3, ?_⟩
    intro t' s1 s2 s3
    exact hf ⟨t', s1, s2, s3⟩

/-- The history of a server. -/
abbrev serverLog (x : KexEnv × List KxEvent) : List Entry := ((KxSys.init .server).run x.1 x.2).kx.log

/-- **C83.** The same if the host key is used by Lukko servers: connections `srv i`, as many
as there may be, in the past or at the same time, with whatever peers.  Then one of them and
the client mirror each other: identifications, KEXINITs (so nobody can make them agree on
weaker algorithms than they would have agreed on), ephemeral key, and the shared secret. -/
theorem C83_authentic {ι : Type} (srv : ι → KexEnv × List KxEvent)
    (hd : ∀ x, (e.digest x).length = 32) (hev : ∀ ev ∈ evs, EventOk ev) (hv : e.ownVersion.length < 2 ^ 32)
    (hdig : ∀ i, (srv i).1.digest = e.digest) (hevs : ∀ i, ∀ ev ∈ (srv i).2, EventOk ev)
    (hvs : ∀ i, (srv i).1.ownVersion.length < 2 ^ 32) (hzs : ∀ i, Sized (serverLog (srv i)))
    {pre p post} (hl : ((KxSys.init .client).run e evs).kx.log = pre ++ .sent p :: post) (hp : isMsg 21 p = true)
    (hz : Sized pre) :
    ∃ t accepts, lastAgreed pre = some t ∧ e.verifier = some accepts ∧ accepts t.hostKey = true ∧
      (Forgery e.verify e.digest (fun t' => ∃ i, t' ∈ exchanges (serverLog (srv i))) t.hostKey ∨
       (∃ i t', t' ∈ exchanges (serverLog (srv i)) ∧ Collision e.digest t t') ∨
       ∃ i a b hk, serverLog (srv i) = a ++ .agreed t :: b ∧ t.hostKey = (srv i).1.hostKeyBlob hk ∧
         Mirrored pre a e.ownVersion (srv i).1.ownVersion) := by
  have hserver : ∀ i a t b, serverLog (srv i) = a ++ .agreed t :: b → ServerAgreed (srv i).1 a t := by
    intro i a t b hab
    exact (run_safe (role := .server) (by rw [hdig]; exact hd) (hevs i)).every a (.agreed t) b hab
  have hmem : ∀ i t, t ∈ exchanges (serverLog (srv i)) → ∃ a b, serverLog (srv i) = a ++ .agreed t :: b := by
    intro i t ht
    simp only [exchanges, List.mem_filterMap] at ht
    obtain ⟨x, h1, h2⟩ := ht
    cases x <;> simp at h2
    subst h2
    exact List.append_of_mem h1
  have hsig : ∀ t, (∃ i, t ∈ exchanges (serverLog (srv i))) → Transcript.Encodable t := by
    rintro t ⟨i, ht⟩
    obtain ⟨a, b, hab⟩ := hmem i t ht
    exact (hserver i a t b hab).encodable (by have := hzs i; rw [hab] at this; exact this.prefix) (hvs i)
  obtain ⟨t, accepts, h1, h2, h3, h4⟩ := C83_any_server hd hev hv _ hsig hl hp hz
  refine ⟨t, accepts, h1, h2, h3, ?_⟩
  rcases h4 with h4 | ⟨t', ⟨i, h4⟩, h5⟩ | ⟨i, h4⟩
  · exact .inl h4
  · exact .inr (.inl ⟨i, t', h4, h5⟩)
  · obtain ⟨a, b, hab⟩ := hmem i t h4
    obtain ⟨a', sig, hk, alg, q, rfl, s1, _, _, _, s2, s3, s4, s5, _⟩ := hserver i a t b hab
    obtain ⟨pre', t0, sig0, accepts0, rfl, c1, c2, c3, c4, c5, c6, c7, c8, _⟩ := C13_newkeys hd hev hl hp
    obtain rfl : t0 = t := by
      rw [show pre' ++ [Entry.recv (31 :: ecdhReplyBody t0.hostKey t0.serverEph sig0), .agreed t0] =
        (pre' ++ [.recv (31 :: ecdhReplyBody t0.hostKey t0.serverEph sig0)]) ++ [.agreed t0] by simp, lastAgreed_snoc] at h1
      simpa using h1
    refine .inr (.inr ⟨i, _, b, hk, hab, s1, ?_⟩)
    have split2 : ∀ (l : List Entry) x y, l ++ [x, y] = l ++ [x] ++ [y] := by simp
    refine ⟨?_, ?_, ⟨t0.clientKexinit, ?_, ?_⟩, ⟨t0.serverKexinit, ?_, ?_⟩, ⟨ecdhInitBody t0.clientEph, ?_, ?_⟩⟩ <;>
      simp only [split2, peerVersion_snoc, lastSent_snoc, lastRecv_snoc]
    · rw [c5, s2]
    · rw [s3, c4]
    · exact c6
    · exact s5
    · exact s4
    · exact c7
    · exact c8
    · rfl

/-- **C83.** … and so they protect what they send to each other with the same algorithms,
the first ones of their lists; and with the same keys, if it was the first exchange for both
(or if in general the session identifiers are the same). -/
theorem C83_protected {ec es : KexEnv} {evs evs' : List KxEvent} (hdig : ec.digest = es.digest)
    (hd : ∀ x, (ec.digest x).length = 32) (hev : ∀ ev ∈ evs, EventOk ev) (hev' : ∀ ev ∈ evs', EventOk ev)
    (hc : ∀ n, (ec.cookie n).length = 16) (hc' : ∀ n, (es.cookie n).length = 16)
    {pre enc mac keys post pre' enc' mac' keys' post'}
    (hl : (((KxSys.init .client).run ec evs).kx.log = pre ++ .installOut enc mac keys :: post ∧
        ((KxSys.init .server).run es evs').kx.log = pre' ++ .installIn enc' mac' keys' :: post') ∨
      (((KxSys.init .client).run ec evs).kx.log = pre ++ .installIn enc mac keys :: post ∧
        ((KxSys.init .server).run es evs').kx.log = pre' ++ .installOut enc' mac' keys' :: post'))
    (hz : Sized pre) (hz' : Sized pre') (ht : lastAgreed pre = lastAgreed pre') :
    enc = ascii "chacha20-poly1305@openssh.com" ∧ mac = ascii "hmac-sha2-256" ∧ enc' = enc ∧ mac' = mac ∧
    (firstAgreed pre = firstAgreed pre' → keys' = keys) := by
  have hd' : ∀ x, (es.digest x).length = 32 := by rw [← hdig]; exact hd
  have main : ∀ {d d' x x'}, Fits enc mac keys d x → Fits enc' mac' keys' d' x' →
      ((KxSys.init .client).run ec evs).kx.log = pre ++ x :: post →
      ((KxSys.init .server).run es evs').kx.log = pre' ++ x' :: post' →
      (enc = ascii "chacha20-poly1305@openssh.com" ∧ mac = ascii "hmac-sha2-256") ∧
      (enc' = ascii "chacha20-poly1305@openssh.com" ∧ mac' = ascii "hmac-sha2-256") := by
    intro d d' x x' f f' l l'
    obtain ⟨_, a, t, b, r1, r2, _⟩ := install_origin hd hev f l
    obtain ⟨_, a', t', b', r1', r2', _⟩ := install_origin hd' hev' f' l'
    have htt : t' = t := by rw [r2, r2'] at ht; exact (Option.some.inj ht).symm
    subst htt
    have g : ClientAgreed ec a t' := (run_safe (role := .client) hd hev).every a (.agreed t') (b ++ x :: post) (by rw [l, r1]; simp)
    have g' : ServerAgreed es a' t' :=
      (run_safe (role := .server) hd' hev').every a' (.agreed t') (b' ++ x' :: post') (by rw [l', r1']; simp)
    obtain ⟨c, sig, rfl, _, _, _, _, ck, _⟩ := g
    obtain ⟨c', sig', hk, alg, p, rfl, _, _, _, _, _, _, sk, _⟩ := g'
    constructor
    · refine install_first hd hev f l r2 ?_
      subst r1'
      refine own_kexinit (role := .server) hd' hev' hc' (pre := c') (post :=
        [.recv (30 :: ecdhInitBody t'.clientEph), .sent (31 :: ecdhReplyBody t'.hostKey t'.serverEph sig')] ++
          (.agreed t' :: b' ++ x' :: post')) ?_ ?_ sk
      · rw [l']; simp
      · exact fun y hy => hz' y (by simp [hy])
    · refine install_first hd' hev' f' l' r2' ?_
      subst r1
      refine own_kexinit (role := .client) hd hev hc (pre := c) (post :=
        [.recv (31 :: ecdhReplyBody t'.hostKey t'.serverEph sig)] ++ (.agreed t' :: b ++ x :: post)) ?_ ?_ ck
      · rw [l]; simp
      · exact fun y hy => hz y (by simp [hy])
  have hkeys : firstAgreed pre = firstAgreed pre' → keys' = keys := by
    intro hf
    refine (C15_both_ends hdig hd hev hev' hl ht ?_).symm
    rw [sessionIdOf, sessionIdOf, hf, hdig]
  rcases hl with ⟨l, l'⟩ | ⟨l, l'⟩
  · obtain ⟨⟨a1, a2⟩, b1, b2⟩ := main .out .inn l l'
    exact ⟨a1, a2, b1.trans a1.symm, b2.trans a2.symm, hkeys⟩
  · obtain ⟨⟨a1, a2⟩, b1, b2⟩ := main .inn .out l l'
    exact ⟨a1, a2, b1.trans a1.symm, b2.trans a2.symm, hkeys⟩

instance (log : List Entry) : Decidable (Sized log) := inferInstanceAs (Decidable (∀ x ∈ log, x.size < 2 ^ 32))

/-- Non-vacuity: the two exchange keys, with the same transcript; each of them changes to the
new keys in both directions. -/
example : (∀ ev ∈ demoPairC, EventOk ev) ∧ (∀ ev ∈ demoPairS, EventOk ev) := by
  constructor
  · exact eventOk_of (evs := demoPairC) (by decide +kernel)
  · exact eventOk_of (evs := demoPairS) (by decide +kernel)

example : demoEndC.digest = demoEndS.digest ∧ (∀ n, (demoEndC.cookie n).length = 16) ∧
    (∀ n, (demoEndS.cookie n).length = 16) := by
  simp only [demoEndC, demoEndS, demoEnd, demoEnv, List.length_replicate, implies_true, and_self]

example : Sized (demoEndClient demoPairC) ∧ Sized (demoEndServer demoPairS) ∧
    (demoEndClient demoPairC).countP (Entry.isSent 21) = 1 ∧
    exchanges (demoEndClient demoPairC) = exchanges (demoEndServer demoPairS) ∧
    (exchanges (demoEndServer demoPairS)).length = 1 ∧
    hasOut (demoEndClient demoPairC) = true ∧ hasIn (demoEndClient demoPairC) = true ∧
    hasOut (demoEndServer demoPairS) = true ∧ hasIn (demoEndServer demoPairS) = true := by
  decide +kernel

/-! ## C84 -/

theorem firstAgreed_split {log : List Entry} {t : Transcript} (h : firstAgreed log = some t) :
    ∃ a b, log = a ++ .agreed t :: b := by
  simp only [firstAgreed] at h
  obtain ⟨y, hy, h⟩ := List.exists_of_findSome?_eq_some h
  cases y <;> simp at h
  subst h
  exact List.append_of_mem hy

/-- An encrypted connection has had a key exchange. -/
theorem firstAgreed_of_encrypted {e : KexEnv} {evs : List KxEvent} {role : Role} (hd : ∀ x, (e.digest x).length = 32)
    (hev : ∀ ev ∈ evs, EventOk ev) (hin : .encrypted ∈ ((KxSys.init role).run e evs).kx.log) :
    ∃ t, firstAgreed ((KxSys.init role).run e evs).kx.log = some t := by
  have hs := run_safe (role := role) hd hev
  obtain ⟨p, q, hpq⟩ := List.append_of_mem hin
  obtain ⟨ho, _⟩ := hs.every p .encrypted q hpq
  simp only [hasOut, List.any_eq_true] at ho
  obtain ⟨x, hx, ho⟩ := ho
  cases x <;> simp at ho
  rename_i enc mac keys
  obtain ⟨p1, p2, hp⟩ := List.append_of_mem hx
  obtain ⟨t, ht, _⟩ := C14_before_ciphers hd hev (pre := p1) (x := .installOut enc mac keys) (post := p2 ++ .encrypted :: q)
    (by rw [← List.cons_append, ← List.append_assoc, ← hp]; exact hpq) ⟨enc, mac, keys, .inl rfl⟩
  refine ⟨t, ?_⟩
  simp only [firstAgreed] at ht ⊢
  rw [hpq, hp, List.append_assoc, List.findSome?_append, ht, Option.some_or]

/-- **C84.** A login with a signature (of the user's key, or of a trusted host) is one of the
holder of that key, and it takes place on their own connection with this server: they asked,
on a connection whose first key exchange had the transcript of this one (including the host
key of this server), for exactly this login – unless a signature was forged or two exchanges
with the same hash are known.  So nobody who has other connections with the holder of the key
can use their signatures here; nor those with which a host proves its own identity to its clients. -/
theorem C84_end_to_end {es : KexEnv} {evs : List KxEvent} (hd : ∀ x, (es.digest x).length = 32)
    (hev : ∀ ev ∈ evs, EventOk ev) (hv : es.ownVersion.length < 2 ^ 32) (hz : Sized (serverLog (es, evs)))
    (hin : .encrypted ∈ serverLog (es, evs))
    (cfg : AuthCfg) (hsid : cfg.sessionId = ((KxSys.init .server).run es evs).kx.ks.sessionId) (aevs : List AuthEv)
    {a b : List AuthEntry} {l : Login} (h : (Auth.run cfg {} aevs).log = a ++ .loggedIn l :: b)
    (hm : l.method = ascii "publickey" ∨ l.method = ascii "hostbased")
    (consents : Bytes → Transcript → Bytes → Prop) (hcons : ∀ k t r, consents k t r → Transcript.Encodable t) :
    ∃ t hk key f sig, firstAgreed (serverLog (es, evs)) = some t ∧ t.hostKey = es.hostKeyBlob hk ∧
      RequestFor l.method f key ∧ lastRequest a = some (authRequest l.user l.method (f ++ str sig)) ∧
      (UserForgery (fun m sig => cfg.verify key m sig = some true) es.digest (consents key) ∨
       (∃ t' r, consents key t' r ∧ Collision es.digest t t') ∨
       consents key t (authRequest l.user l.method f)) := by
  have hs := run_safe (role := .server) hd hev
  obtain ⟨t, ht⟩ : ∃ t, firstAgreed (serverLog (es, evs)) = some t := firstAgreed_of_encrypted hd hev hin
  obtain ⟨p, q, hpq⟩ := firstAgreed_split ht
  have hsa : ServerAgreed es p t := hs.every p (.agreed t) q hpq
  have henc := hsa.encodable (by have := hz; rw [hpq] at this; exact this.prefix) hv
  obtain ⟨_, _, hk, _, _, _, hhk, _⟩ := hsa
  have hsid' : cfg.sessionId = es.digest (hashInput t) := by
    rw [hsid, C14_first_hash hd hev, ht]
  have key : ∃ f key sig, RequestFor l.method f key ∧ lastRequest a = some (authRequest l.user l.method (f ++ str sig)) ∧
      cfg.verify key (signedBytes cfg.sessionId (authRequest l.user l.method f)) sig = some true := by
    obtain ⟨_, pw, acct, _, ⟨_, _, hp⟩ | ⟨_, hp | hp | hp⟩⟩ := C30_sound cfg aevs h
    · rcases hm with hm | hm <;> (rw [hp.1] at hm; exact absurd hm (by decide))
    · obtain ⟨hm, b, alg, key, sig, _, h1, _, _, h2⟩ := hp
      exact ⟨_, key, sig, .inl ⟨hm, b, alg, rfl⟩, by rw [h1]; simp, h2⟩
    · obtain ⟨hm, alg, key, host, user, sig, h1, _, _, h2⟩ := hp
      exact ⟨_, key, sig, .inr ⟨hm, alg, host, user, rfl⟩, by rw [h1]; simp, h2⟩
    · rcases hm with hm | hm
      · exact absurd hm hp.1
      · exact absurd hm hp.2.1
  obtain ⟨f, key, sig, k1, k2, k3⟩ := key
  refine ⟨t, hk, key, f, sig, ht, hhk, k1, k2, ?_⟩
  by_cases hc : ∃ t' r, consents key t' r ∧
      signedBytes cfg.sessionId (authRequest l.user l.method f) = signedBytes (es.digest (hashInput t')) r
  · obtain ⟨t', r, c1, c2⟩ := hc
    have l1 : cfg.sessionId.length < 2 ^ 32 := by rw [hsid', hd]; decide
    have l2 : (es.digest (hashInput t')).length < 2 ^ 32 := by rw [hd]; decide
    unfold signedBytes at c2
    obtain ⟨c3, c4⟩ := str_cancel l1 l2 c2
    rw [hsid'] at c3
    simp only [List.cons.injEq, true_and] at c4
    by_cases htt : t = t'
    · subst htt; subst c4; exact .inr (.inr c1)
    · refine .inr (.inl ⟨t', r, c1, ?_, c3⟩)
      have := C16_injective henc (hcons _ _ _ c1) htt
      rwa [kexHashInput_eq, kexHashInput_eq] at this
  · refine .inl ⟨_, sig, k3, fun t' r c1 c2 => hc ⟨t', r, c1, c2⟩, fun m hm => ?_⟩
    -- the session identifier alone is as long as a hash
    have := congrArg List.length hm
    rw [hd, signedBytes, List.length_append, str_length, hsid', hd, List.length_cons] at this
    omega

/-- The same connection, with a login. -/
def demoPairAuth : AuthCfg := { demoAuth with sessionId := ((KxSys.init .server).run demoEndS demoPairS).kx.ks.sessionId }

def demoPairRequest : Bytes :=
  authRequest (ascii "joe") (ascii "publickey") (1 :: (str (ascii "alg") ++ str [8]))

def demoPairLogin : List AuthEv := demoGreeting ++
  [.packet 50 (demoPairRequest ++ str ([8] ++ signedBytes demoPairAuth.sessionId demoPairRequest)) false,
   .translated (some {})]

/-- Non-vacuity: a login on the connection of the example for C83; with a signature for another
connection there is none. -/
example : .encrypted ∈ demoEndServer demoPairS ∧ demoPairAuth.sessionId.length = 32 ∧
    (logins (Auth.run demoPairAuth {} demoPairLogin).log).map (·.method) = [ascii "publickey"] ∧
    (logins (Auth.run demoPairAuth {} (demoLogin 8)).log) = [] := by
  decide +kernel

end Lukko
