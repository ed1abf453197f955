import Verif.Proof.Holder
import Verif.Prop.Server
/-
  C94: who is on the other end of a connection after a login with a signature.
-/
namespace Lukko
open Model Spec

variable {σ : Type} {x : ServerEnv σ}

/-- **C94.** After a login with a signature (of the user's key, or of a trusted host), everything that the server
has acted upon and acts upon on this connection – not only the login request itself, but all messages before and
after it, with all keys that are used one after another – was sent by the holder of that key, on one of their own
connections (`conn`: any clients, with any servers, at any time), in this order, with nothing forged, dropped, repeated or
reordered; their first key exchange on it was exactly the one of this connection (with the host key of this server),
and they signed exactly this login – unless a signature was forged or a collision of the hash is known.

The cipher is assumed to be ideal: with keys which come from an exchange with an ephemeral key of one of these
connections, it accepts only what was sent with the same keys on that connection. -/
theorem C94_holder {ι : Type} (conn : ι → ClientSide) (hconn : ∀ j, (conn j).Proper) (hx : EnvOk x.trans)
    (hv : x.trans.kex.ownVersion.length < 2 ^ 32) {evs : List ServerEvent} {s : Server σ}
    (h : ({} : Server σ).run x evs = some s) (hz : Sized s.trans.kx.kx.log)
    (hA : ∀ j pre enc mac keys post tr, s.trans.kx.kx.log = pre ++ .installIn enc mac keys :: post → lastAgreed pre = some tr →
      (conn j).ephemeral tr.clientEph →
      AcceptsOnly x.trans.ops (x.trans.makeCipher .incoming enc mac keys) 0 ((conn j).sent enc mac keys))
    {l : Login} (hl : .loggedIn l ∈ s.auth.log) (hm : l.method = ascii "publickey" ∨ l.method = ascii "hostbased") :
    ∃ t hk key f, firstAgreed s.trans.kx.kx.log = some t ∧ t.hostKey = x.trans.kex.hostKeyBlob hk ∧ RequestFor l.method f key ∧
      (UserForgery (fun m sig => x.auth.verify key m sig = some true) x.trans.kex.digest
          (fun t' r => ∃ j, (conn j).first = t' ∧ (conn j).signs key r) ∨
       (∃ j, Collision x.trans.kex.digest t (conn j).first) ∨
       ∃ j, (conn j).first = t ∧ (conn j).signs key (authRequest l.user l.method f) ∧
        (∀ pre enc mac keys post, s.trans.kx.kx.log = pre ++ .installIn enc mac keys :: post →
          receivedOfEpoch post <+: (conn j).sent enc mac keys) ∧
        ∀ p ∈ clientMessages s.auth.log, ∃ pre enc mac keys post,
          s.trans.kx.kx.log = pre ++ .installIn enc mac keys :: post ∧ p ∈ (conn j).sent enc mac keys) := by
  have hi := SInv.of_run hx h
  obtain ⟨aevs, ha⟩ := hi.auth
  obtain ⟨kevs, hk, hkx⟩ := hi.fit.kx
  obtain ⟨a, b, hab⟩ := List.append_of_mem hl
  have hlog : serverLog (x.trans.kex, kevs) = s.trans.kx.kx.log := by rw [hkx]
  have he : .encrypted ∈ serverLog (x.trans.kex, kevs) := by
    rw [hlog]
    have he : s.auth.encrypted = true := by
      cases he : s.auth.encrypted with
      | true => rfl
      | false => rcases hi.early he with he | he | he <;> (rw [he] at hl; simp [Auth.disconnect, Auth.close, Auth.say] at hl)
    rw [hi.enc, hi.told, List.contains_iff_mem] at he
    exact he
  obtain ⟨t, hk', key, f, sig, h1, h2, h3, -, h5⟩ := C84_end_to_end hx.digest hk hv (by rw [hlog]; exact hz) he (s.cfg x)
    (by rw [← hkx]; rfl) aevs (by rw [← ha]; exact hab) hm (fun k t r => ∃ j, (conn j).first = t ∧ (conn j).signs k r)
    (fun k t r ⟨j, hj, _⟩ => hj ▸ (hconn j).encodable)
  rw [hlog] at h1
  refine ⟨t, hk', key, f, h1, h2, h3, ?_⟩
  rcases h5 with h5 | ⟨t', r, ⟨j, rfl, _⟩, h5⟩ | ⟨j, rfl, h5⟩
  · exact .inl h5
  · exact .inr (.inl ⟨j, h5⟩)
  · have hep : ∀ pre enc mac keys post, s.trans.kx.kx.log = pre ++ .installIn enc mac keys :: post →
        receivedOfEpoch post <+: (conn j).sent enc mac keys :=
      fun pre enc mac keys post hl => hi.fit.all_epochs hx (hconn j) h1 (hA j) hl
    refine .inr (.inr ⟨j, rfl, h5, hep, fun p hp => ?_⟩)
    obtain ⟨pre, enc, mac, keys, post, g1, g2⟩ := received_in_epoch (hi.recv.subset hp)
    exact ⟨pre, enc, mac, keys, post, g1, (hep _ _ _ _ _ g1).subset g2⟩

/-! ### The client of the example for C93 -/

def demoFirst : Transcript := (firstAgreed (demoEndClient demoPairC)).getD ⟨[], [], [], [], [], [], [], []⟩

/-- A client with this exchange. -/
def demoGuest (t : Transcript) : ClientSide where
  first := t
  ephemeral e := e = t.clientEph
  signs key request := key = [8] ∧ request = demoPairRequest
  sent _ _ _ := demoVisit

theorem demoFirst_encodable : Transcript.Encodable demoFirst where
  cv := by decide +kernel
  sv := by decide +kernel
  ck := by decide +kernel
  sk := by decide +kernel
  hk := by decide +kernel
  ce := by decide +kernel
  se := by decide +kernel

theorem demoFirst_strict : AnnouncesStrict demoFirst.clientKexinit := by
  have key : (parseKexInit.parse demoFirst.clientKexinit).map (fun p =>
      stringListContains p.kex (ascii "kex-strict-c-v00@openssh.com")) = some true := by decide +kernel
  cases hp : parseKexInit.parse demoFirst.clientKexinit with
  | none => rw [hp] at key; cases key
  | some p =>
    rw [hp, Option.map_some, Option.some.injEq] at key
    exact (kexinit_name_iff hp (by decide)).mpr key

theorem demoVisit_number : ∀ p ∈ demoVisit, p.head? ≠ some 30 := by decide +kernel

theorem demoGuest_proper {t : Transcript} (h : Transcript.Encodable t) (h' : AnnouncesStrict t.clientKexinit) :
    (demoGuest t).Proper where
  encodable := h
  own := rfl
  later := fun _ _ _ _ h => absurd rfl (demoVisit_number _ h)
  strict := h'

/-- Non-vacuity (C94): the client whose login is accepted in the example for C93. -/
example : (demoGuest demoFirst).Proper ∧ EnvOk demoHouse.trans ∧
    (({} : Server (Nat × List Bytes)).run demoHouse demoStay).map (fun s =>
      (decide (Sized s.trans.kx.kx.log) && decide (firstAgreed s.trans.kx.kx.log = some demoFirst),
       (logins s.auth.log).map (·.method))) = some (true, [ascii "publickey"]) ∧
    ∀ t enc mac keys, AcceptsOnly ticket (demoHouse.trans.makeCipher .incoming enc mac keys) 0 ((demoGuest t).sent enc mac keys) :=
  ⟨demoGuest_proper demoFirst_encodable demoFirst_strict, demoHouse_ok, by decide +kernel,
    fun _ _ _ _ => demoLink_accepts 0 (by decide)⟩

end Lukko
