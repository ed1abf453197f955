import Verif.Proof.Behind
/-
  C108: a server behind a proxy – what the target of a proxied connection may rely on.
-/
namespace Lukko
open Model Spec

variable {σ τ ρ : Type}

/-- The user of a login has a name of limited length. -/
theorem login_user {x : ServerEnv ρ} {s : Server ρ} (hi : SInv x s) {l : Login} (hl : .loggedIn l ∈ s.auth.log) : l.user.length < 2 ^ 32 := by
  obtain ⟨aevs, ha⟩ := hi.auth
  obtain ⟨a, b, hab⟩ := List.append_of_mem hl
  rw [ha] at hab
  obtain ⟨⟨-, h, -⟩, -⟩ := C30_sound _ aevs hab
  exact Nat.lt_of_le_of_lt h (by decide)

/-- **C108.** A login at a server with the key of a host was made by one of the proxies which have this key (`x i`, `s i`: any
number of them, each with any connections), on its own connection with exactly this server; the proxy acts for a client which has
logged in at the proxy as the same user; and every message of the connection protocol on which the server acts is either the
proxy's announcement of the restrictions which are in effect for that client, or was sent by that client to the proxy after this
announcement – unless a signature was forged or a collision of the hash is known.  The signatures with which the host proves
its identity to its own clients are no use for that.

The cipher is assumed to be ideal: with keys which come from an exchange with an ephemeral key of one of the proxies, it accepts
only what that proxy has sent with the same keys. -/
theorem C108_behind {ι : Type} {x : ι → GatewayEnv σ τ} (hx : ∀ i, GatewayOk (x i)) {evs : ι → List GatewayEvent} {s : ι → Gateway σ τ}
    (h : ∀ i, ({} : Gateway σ τ).run (x i) (evs i) = some (s i))
    (hver : ∀ i, (x i).out.kex.ownVersion.length < 2 ^ 32) (hck : ∀ i n, ((x i).out.kex.cookie n).length = 16)
    (hsz : ∀ i, Sized (s i).caller.trans.kx.kx.log)
    {y : ServerEnv ρ} (hy : EnvOk y.trans) (hyv : y.trans.kex.ownVersion.length < 2 ^ 32) {tevs : List ServerEvent} {v : Server ρ}
    (hv : ({} : Server ρ).run y tevs = some v) (hvz : Sized v.trans.kx.kx.log)
    (hA : ∀ i pre enc mac keys post tr, v.trans.kx.kx.log = pre ++ .installIn enc mac keys :: post → lastAgreed pre = some tr →
      30 :: str tr.clientEph ∈ packetsSent (s i).caller.trans.posts →
      AcceptsOnly y.trans.ops (y.trans.makeCipher .incoming enc mac keys) 0 (sentWith enc mac keys (s i).caller.trans.posts))
    {l : Login} (hl : .loggedIn l ∈ v.auth.log) (hm : l.method = ascii "hostbased") :
    ∃ t hk key f, firstAgreed v.trans.kx.kx.log = some t ∧ t.hostKey = y.trans.kex.hostKeyBlob hk ∧ RequestFor l.method f key ∧
      (UserForgery (fun m sig => y.auth.verify key m sig = some true) y.trans.kex.digest (fun t' r => ∃ i,
          firstAgreed (s i).caller.trans.kx.kx.log = some t' ∧ (∃ k alg, (x i).login.hostKey = some (k, alg) ∧ IsKeyBlob k.pub key) ∧
          ∃ sig, .sent 50 (r ++ str sig) ∈ (s i).caller.login.log) ∨
       (∃ i t', firstAgreed (s i).caller.trans.kx.kx.log = some t' ∧ Collision y.trans.kex.digest t t') ∨
       ∃ i l' accepts, firstAgreed (s i).caller.trans.kx.kx.log = some t ∧ (x i).out.kex.verifier = some accepts ∧
        accepts (y.trans.kex.hostKeyBlob hk) = true ∧
        .loggedIn l' ∈ (s i).server.auth.log ∧ l'.user = l.user ∧
        ∀ p ∈ clientMessages v.auth.log, isConnection p = true → ∃ a m b r, (s i).server.auth.log = a ++ .requestToTarget m :: b ∧
          inEffect a = some r ∧ CarriesRestrictions m r ∧ (p = m ∨ p ∈ clientMessages b)) := by
  have hi : ∀ i, CInv _ (s i).caller := fun i => (GInv.of_run (hx i) (h i)).cinv (hx i)
  obtain ⟨t, hk, key, f, h1, h2, h3, h4⟩ := C94_holder
    (fun j : { j : ι × Transcript // firstAgreed (s j.1).caller.trans.kx.kx.log = some j.2 } =>
      callerSide { trans := (x j.1.1).out, login := (x j.1.1).login } (s j.1.1).caller j.1.2)
    (fun ⟨j, hj⟩ => callerSide_proper (x := { trans := (x j.1).out, login := _ }) (hx j.1).out (hi j.1) (hver j.1) (hck j.1) (hsz j.1) hj)
    hy hyv hv hvz (fun ⟨j, hj⟩ => hA j.1) hl (.inr hm)
  refine ⟨t, hk, key, f, h1, h2, h3, ?_⟩
  rcases h4 with ⟨m, sig, g1, g2, g3⟩ | ⟨⟨j, hj⟩, g⟩ | ⟨⟨⟨i, t₀⟩, hj⟩, ht₀, g1, g2, g3⟩
  · exact .inl ⟨m, sig, g1, fun t' r ⟨i, c1, c2⟩ => g2 t' r ⟨⟨(i, t'), c1⟩, rfl, c2⟩, g3⟩
  · exact .inr (.inl ⟨j.1, j.2, hj, g⟩)
  · refine .inr (.inr ?_)
    have hg := GInv.of_run (hx i) (h i)
    obtain ⟨sig, hs⟩ := g1.2
    obtain ⟨l', t', accepts, sig', u1, u2, u3, u4, -, u5⟩ := C107_user (hx i) (h i) (List.ne_nil_of_mem hs)
    change t₀ = t at ht₀
    have ht : t' = t := (Option.some.inj (u2.symm.trans hj)).trans ht₀
    subst ht
    subst ht₀
    refine ⟨i, l', accepts, hj, u3, by rw [← h2]; exact u4, u1, ?_, fun p hp hc => ?_⟩
    · obtain ⟨c, d, hcd⟩ := List.append_of_mem hs
      rcases u5 _ _ _ hcd with ⟨h5, -⟩ | ⟨-, ⟨k, alg, -, blob, sig'', -, h5, -⟩, -⟩
      · cases h5
      · simp only [authRequest, List.append_assoc] at h5
        exact (str_cancel (login_user (SInv.of_run hy hv) hl) (login_user (hg.sinv (hx i)) u1) h5).1.symm
    · obtain ⟨pre, enc, mac, keys, post, -, h6⟩ := g3 p hp
      have h7 : p ∈ connectionSent (s i).caller.trans.posts := List.mem_filter.mpr ⟨mem_sentWith h6, hc⟩
      rcases C107_to_target (hx i) (h i) with ⟨h8, -⟩ | ⟨a, m, b, r, h8, h9, h10, -, h11, -, -⟩
      · rw [h8] at h7; cases h7
      · refine ⟨a, m, b, r, h8, h9, h10, ?_⟩
        rcases List.mem_cons.mp (h11.subset h7) with h12 | h12
        · exact .inl h12
        · exact .inr (List.mem_filter.mp h12).1

theorem not_installIn {log : List Entry} (h : hasIn log = false) : ∀ z ∈ log, (!z.isInstallIn) = true := by
  intro z hz
  cases z <;> first | rfl | skip
  rw [hasIn, List.any_eq_false] at h
  exact absurd rfl (h _ hz)

/-- **C108.** As long as the keys have not been changed, the server learns about the restrictions before anything else: the messages
of the connection protocol on which it acts are, in this order, that announcement and what the client has sent since then, with
nothing missing in between.  (`s`: the proxy with which the server has had its first exchange.) -/
theorem C108_order {x : GatewayEnv σ τ} (hx : GatewayOk x) {evs : List GatewayEvent} {s : Gateway σ τ}
    (h : ({} : Gateway σ τ).run x evs = some s)
    (hver : x.out.kex.ownVersion.length < 2 ^ 32) (hck : ∀ n, (x.out.kex.cookie n).length = 16) (hsz : Sized s.caller.trans.kx.kx.log)
    {y : ServerEnv ρ} (hy : EnvOk y.trans) (hyc : ∀ n, (y.trans.kex.cookie n).length = 16) {tevs : List ServerEvent} {v : Server ρ}
    (hv : ({} : Server ρ).run y tevs = some v) (hvz : Sized v.trans.kx.kx.log) (hdig : x.out.kex.digest = y.trans.kex.digest)
    {t : Transcript} (ht : firstAgreed s.caller.trans.kx.kx.log = some t) (ht' : firstAgreed v.trans.kx.kx.log = some t)
    (hA : ∀ pre enc mac keys post tr, v.trans.kx.kx.log = pre ++ .installIn enc mac keys :: post → lastAgreed pre = some tr →
      30 :: str tr.clientEph ∈ packetsSent s.caller.trans.posts →
      AcceptsOnly y.trans.ops (y.trans.makeCipher .incoming enc mac keys) 0 (sentWith enc mac keys s.caller.trans.posts))
    (hone : v.trans.kx.kx.log.countP (·.isInstallIn) ≤ 1) :
    (clientMessages v.auth.log).filter isConnection = [] ∨
    ∃ a m b r, s.server.auth.log = a ++ .requestToTarget m :: b ∧ inEffect a = some r ∧ CarriesRestrictions m r ∧
      (clientMessages v.auth.log).filter isConnection <+: m :: (clientMessages b).filter isDefined := by
  have hi := (GInv.of_run hx h).cinv hx
  have hs := SInv.of_run hy hv
  have key : (clientMessages v.auth.log).filter isConnection <+: connectionSent s.caller.trans.posts := by
    refine (hs.recv.filter _).trans ?_
    cases hin : hasIn v.trans.kx.kx.log with
    | false =>
      have : v.trans.kx.kx.log.dropWhile (!·.isInstallIn) = [] := by
        simpa using List.dropWhile_append_of_pos (l₂ := []) (not_installIn hin)
      rw [receivedEncrypted, this]
      exact List.nil_prefix
    | true =>
      obtain ⟨pre, enc, mac, keys, post, h1, h2⟩ := installIn_prefix hin
      have h3 : receivedEncrypted v.trans.kx.kx.log = receivedOfEpoch post := by
        rw [h1, receivedEncrypted, List.dropWhile_append_of_pos (not_installIn h2), List.dropWhile_cons_of_neg (by simp [Entry.isInstallIn]),
          List.drop_succ_cons, List.drop_zero, receivedOfEpoch]
        rw [h1, List.countP_append, List.countP_cons] at hone
        simp only [Entry.isInstallIn, if_true] at hone
        have h0 : ∀ z ∈ post, (!z.isInstallIn) = true := by
          have : post.countP (·.isInstallIn) = 0 := by simp only [Entry.isInstallIn] at *; omega
          rw [List.countP_eq_zero] at this
          intro z hz
          rw [Bool.not_eq_true', Bool.eq_false_iff]
          exact this z hz
        conv => lhs; rw [← List.append_nil post]
        conv => rhs; rw [← List.append_nil post]
        rw [List.takeWhile_append_of_pos h0]
        rfl
      rw [h3]
      have h4 := hs.fit.all_epochs hy (c := callerSide { trans := x.out, login := x.login } s.caller t)
        (callerSide_proper (x := { trans := x.out, login := _ }) hx.out hi hver hck hsz ht) ht' hA h1
      exact (h4.filter _).trans (same_first_keys hx.out hi hck hsz hy hs.fit hyc hvz hdig (ht.trans ht'.symm) h1 h2)
  rcases C107_to_target hx h with ⟨h8, -⟩ | ⟨a, m, b, r, h8, h9, h10, -, h11, -, -⟩
  · rw [h8] at key
    exact .inl (List.prefix_nil.mp key)
  · exact .inr ⟨a, m, b, r, h8, h9, h10, key.trans h11⟩

/-- **C108.** If that client has logged in with a key, then what the server acts upon was sent by the holder of that key (in the sense
of C94), however many hosts are in between. -/
theorem C108_origin {ι : Type} (conn : ι → ClientSide) (hconn : ∀ j, (conn j).Proper) {x : GatewayEnv σ τ} (hx : GatewayOk x)
    (hv : x.server.trans.kex.ownVersion.length < 2 ^ 32) {evs : List GatewayEvent} {s : Gateway σ τ}
    (h : ({} : Gateway σ τ).run x evs = some s) (hz : Sized s.server.trans.kx.kx.log)
    (hA : ∀ j pre enc mac keys post tr, s.server.trans.kx.kx.log = pre ++ .installIn enc mac keys :: post → lastAgreed pre = some tr →
      (conn j).ephemeral tr.clientEph →
      AcceptsOnly x.server.trans.ops (x.server.trans.makeCipher .incoming enc mac keys) 0 ((conn j).sent enc mac keys))
    {l : Login} (hl : .loggedIn l ∈ s.server.auth.log) (hm : l.method = ascii "publickey" ∨ l.method = ascii "hostbased") :
    ∃ t key f, firstAgreed s.server.trans.kx.kx.log = some t ∧ RequestFor l.method f key ∧
      (UserForgery (fun m sig => x.server.auth.verify key m sig = some true) x.server.trans.kex.digest
          (fun t' r => ∃ j, (conn j).first = t' ∧ (conn j).signs key r) ∨
       (∃ j, Collision x.server.trans.kex.digest t (conn j).first) ∨
       ∃ j, (conn j).first = t ∧ (conn j).signs key (authRequest l.user l.method f) ∧
        ∀ p ∈ connectionSent s.caller.trans.posts, (∃ r, CarriesRestrictions p r) ∨ ∃ enc mac keys, p ∈ (conn j).sent enc mac keys) := by
  obtain ⟨sevs, hs⟩ := (C107_halves hx h).1
  obtain ⟨t, hk, key, f, h1, -, h3, h4⟩ := C94_holder conn hconn hx.server hv hs hz hA hl hm
  refine ⟨t, key, f, h1, h3, ?_⟩
  rcases h4 with h4 | h4 | ⟨j, h4, h5, -, h6⟩
  · exact .inl h4
  · exact .inr (.inl h4)
  · refine .inr (.inr ⟨j, h4, h5, fun p hp => ?_⟩)
    rcases C107_to_target hx h with ⟨h8, -⟩ | ⟨a, m, b, r, h8, -, h10, -, h11, -, -⟩
    · rw [h8] at hp; cases hp
    · rcases List.mem_cons.mp (h11.subset hp) with rfl | h12
      · exact .inl ⟨r, h10⟩
      · obtain ⟨_, enc, mac, keys, _, _, h7⟩ := h6 p (by
          rw [h8, clientMessages_append]
          exact List.mem_append_right _ (List.mem_filter.mp h12).1)
        exact .inr ⟨enc, mac, keys, h7⟩

/-! ### The proxy of the example for C107, and its target -/

def demoRelayed : Gateway (Nat × List Bytes) (Nat × List Bytes) :=
  (({} : Gateway (Nat × List Bytes) (Nat × List Bytes)).run demoGateway demoGatewayEvents).getD {}

/-- What the proxy sends after the key exchange. -/
def demoProxySays : List Bytes := (packetsSent demoRelayed.caller.trans.posts).drop 3

def demoInner : ServerEnv (Nat × List Bytes) := { trans := demoLink demoEndS 0 demoProxySays, auth := demoTargetServer }

def demoInnerEvents : List ServerEvent :=
  demoArrive ++ (demoProxySays.take 2).flatMap demoKnock ++ [.other (.translated (some {}))] ++ (demoProxySays.drop 2).flatMap demoKnock

def demoInnerEnd : Server (Nat × List Bytes) := (({} : Server (Nat × List Bytes)).run demoInner demoInnerEvents).getD {}

theorem run_getD {α : Type} {o : Option α} {d : α} (h : o.isSome = true) : o = some (o.getD d) := by
  cases o with
  | none => cases h
  | some a => rfl

theorem demoRelayed_run : ({} : Gateway (Nat × List Bytes) (Nat × List Bytes)).run demoGateway demoGatewayEvents = some demoRelayed := by
  unfold demoRelayed
  exact run_getD (by decide +kernel)

theorem demoInner_run : ({} : Server (Nat × List Bytes)).run demoInner demoInnerEvents = some demoInnerEnd := by
  unfold demoInnerEnd
  exact run_getD (by decide +kernel)

theorem demoInner_accepts (e : KexEnv) {ps : List Bytes} (hp : ∀ p ∈ ps, p ≠ []) (enc mac : Bytes) (keys : Keys) :
    AcceptsOnly (demoLink e 0 ps).ops ((demoLink e 0 ps).makeCipher .incoming enc mac keys) 0 ps := demoLink_accepts 0 hp

/-- The cipher of the example accepts only what the proxy has sent. -/
theorem demoInner_ideal (pre : List Entry) (enc mac : Bytes) (keys : Keys) (post : List Entry)
    (hl : demoInnerEnd.trans.kx.kx.log = pre ++ .installIn enc mac keys :: post) :
    AcceptsOnly demoInner.trans.ops (demoInner.trans.makeCipher .incoming enc mac keys) 0
      (sentWith enc mac keys demoRelayed.caller.trans.posts) := by
  have h1 : ∀ o ∈ demoInnerEnd.trans.kx.kx.log.filterMap Entry.in?,
      sentWith o.1 o.2.1 o.2.2 demoRelayed.caller.trans.posts = demoProxySays := by decide +kernel
  have h2 : (enc, mac, keys) ∈ demoInnerEnd.trans.kx.kx.log.filterMap Entry.in? := List.mem_filterMap.mpr ⟨.installIn enc mac keys, by simp [hl], rfl⟩
  rw [h1 _ h2]
  exact demoInner_accepts demoEndS (by decide +kernel) enc mac keys

/-- Non-vacuity (C108): the proxy logs in at the target for its client and passes on two messages; the target acts on them. -/
example : GatewayOk demoGateway ∧ EnvOk demoInner.trans ∧
    ({} : Gateway (Nat × List Bytes) (Nat × List Bytes)).run demoGateway demoGatewayEvents = some demoRelayed ∧
    ({} : Server (Nat × List Bytes)).run demoInner demoInnerEvents = some demoInnerEnd ∧
    (decide (demoGateway.out.kex.ownVersion.length < 2 ^ 32) && decide (demoInner.trans.kex.ownVersion.length < 2 ^ 32) &&
      decide (Sized demoRelayed.caller.trans.kx.kx.log) && decide (Sized demoInnerEnd.trans.kx.kx.log) &&
      (firstAgreed demoInnerEnd.trans.kx.kx.log).isSome &&
      decide (firstAgreed demoInnerEnd.trans.kx.kx.log = firstAgreed demoRelayed.caller.trans.kx.kx.log) &&
      demoInnerEnd.trans.kx.kx.log.countP (·.isInstallIn) == 1 &&
      (logins demoInnerEnd.auth.log).map (fun l => (l.user, l.method)) == [(ascii "joe", ascii "hostbased")]) = true ∧
    ((clientMessages demoInnerEnd.auth.log).filter isConnection).map (·.headD 0) = [80, 90, 98] :=
  ⟨demoGateway_ok, demoLink_ok (demoEnd_digest _ _) 0 _, demoRelayed_run, demoInner_run, by decide +kernel, by decide +kernel⟩

/-- The client of the proxy in this example. -/
def demoWanderer (t : Transcript) : ClientSide := { demoGuest t with sent := fun _ _ _ => demoTraveller }

theorem demoTraveller_number : ∀ p ∈ demoTraveller, p.head? ≠ some 30 := by decide +kernel

theorem demoWanderer_sent (t : Transcript) (enc mac : Bytes) (keys : Keys) : (demoWanderer t).sent enc mac keys = demoTraveller := rfl

theorem demoTraveller_nonempty : ∀ p ∈ demoTraveller, p ≠ [] := by decide +kernel

theorem demoWanderer_accepts (t : Transcript) (enc mac : Bytes) (keys : Keys) :
    AcceptsOnly (demoLink demoEndS 0 demoTraveller).ops ((demoLink demoEndS 0 demoTraveller).makeCipher .incoming enc mac keys) 0
      ((demoWanderer t).sent enc mac keys) := by
  rw [demoWanderer_sent]
  exact demoInner_accepts demoEndS demoTraveller_nonempty enc mac keys

theorem demoWanderer_proper {t : Transcript} (h : Transcript.Encodable t) (h' : AnnouncesStrict t.clientKexinit) : (demoWanderer t).Proper where
  encodable := h
  own := rfl
  later := fun _ _ _ _ h => absurd rfl (demoTraveller_number _ h)
  strict := h'

example : (demoWanderer demoFirst).Proper := demoWanderer_proper demoFirst_encodable demoFirst_strict

example : demoGateway.server.trans = demoLink demoEndS 0 demoTraveller ∧
    (decide (Sized demoRelayed.server.trans.kx.kx.log) && decide (firstAgreed demoRelayed.server.trans.kx.kx.log = some demoFirst) &&
      (logins demoRelayed.server.auth.log).map (·.method) == [ascii "publickey"]) = true :=
  ⟨rfl, by decide +kernel⟩

example : demoGateway.out.kex.digest = demoInner.trans.kex.digest ∧ (∀ n, (demoGateway.out.kex.cookie n).length = 16) ∧
    (∀ n, (demoInner.trans.kex.cookie n).length = 16) := by
  simp only [demoGateway, demoInner, demoLink, demoEndC, demoEndS, demoEnd, demoEnv, List.length_replicate, implies_true, and_self]

end Lukko
