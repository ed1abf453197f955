import Verif.Proof.KexExt
import Verif.Prop.Kex
import Verif.Prop.Keys
/-
  C82: extension negotiation.
-/
namespace Lukko
open Spec Model

variable {e : KexEnv} {role : Role} {evs : List KxEvent} {a b : List Entry} {p : Bytes}

/-- **C82.** EXT_INFO is sent only by the server, only to clients which asked for it in
their (last) KEXINIT, and only as the next packet after NEWKEYS; it always says the same. -/
theorem C82_only_asked (hd : Digest32 e) (hev : ∀ ev ∈ evs, EventOk ev)
    (h : ((KxSys.init role).run e evs).kx.log = a ++ .sent p :: b) (h7 : isMsg 7 p = true) :
    role = .server ∧ p = serverExtInfo ∧ (sentPackets a).getLast? = some [21] ∧
      ∃ k, lastRecv 20 a = some k ∧ AsksExtInfo k :=
  (run_ext hd hev).only a p b h h7

/-- **C82.** Whenever the server sends NEWKEYS to a client which asked for it and the
connection goes on, EXT_INFO is sent next, before anything else is received. -/
theorem C82_announced (hd : Digest32 e) (hev : ∀ ev ∈ evs, EventOk ev)
    (hs : ((KxSys.init .server).run e evs).stop = none)
    (h : ((KxSys.init .server).run e evs).kx.log = a ++ .sent p :: b) (h21 : isMsg 21 p = true) {k : Bytes}
    (hk : lastRecv 20 a = some k) (hx : AsksExtInfo k) :
    ∃ c d, b = c ++ .sent serverExtInfo :: d ∧ sentPackets c = [] ∧ received c = [] := by
  have hr := (run_ext (role := .server) hd hev)
  have := (hr.rest hs).all
  rw [hr.same] at this
  obtain ⟨c, d, h1, h2⟩ := this a p b k h h21 rfl hk hx
  exact ⟨c, d, h1, h2.sent, h2.recv⟩

/-- **C82.** Whatever signature the server accepts was made with one of the announced
algorithms. -/
theorem C82_complete {c : Crypto} {k : PubKey} {msg sig : Bytes} (h : pubKeyVerify c k msg sig = some true) :
    ∃ alg ∈ announcedAlgorithms, ∃ sig' rest, sig = sig' ++ rest ∧ GoodSignature LaxMpint c.schemes msg k alg sig' := by
  obtain ⟨alg, sig', rest, h1, h2, h3⟩ := C71_verify h
  refine ⟨alg, ?_, sig', rest, h1, h2⟩
  cases k <;> simp only [pubKeyAlgorithms, List.mem_cons, List.not_mem_nil, or_false] at h3 <;>
    simp only [announcedAlgorithms, List.mem_cons, List.not_mem_nil, or_false] <;> grind

/-- **C82.** Every announced algorithm can be used: with some type of key, signatures
made with it are accepted (`ssh-rsa`: if the server was built with libmd). -/
theorem C82_usable {alg : Bytes} (ha : alg ∈ announcedAlgorithms) :
    ∃ type ∈ [ascii "ssh-ed25519", ascii "ssh-rsa", ascii "ecdsa-sha2-nistp256"],
      ∀ (c : Crypto) (k : SecKey) (blob msg : Bytes), KeyPair c k → CanSign c k → (alg = ascii "ssh-rsa" → c.libmd = true) →
        IsKeyBlob k.pub blob → str type <+: blob →
        ∃ sig, GoodSignature IsMpint c.schemes msg k.pub alg sig ∧ pubKeyVerify c k.pub msg sig = some true := by
  have key : ∀ (c : Crypto) (k : SecKey) (msg : Bytes), KeyPair c k → CanSign c k →
      (alg = ascii "ssh-rsa" → c.libmd = true) → alg ∈ pubKeyAlgorithms k.pub →
      ∃ sig, GoodSignature IsMpint c.schemes msg k.pub alg sig ∧ pubKeyVerify c k.pub msg sig = some true := by
    intro c k msg hk hc hl hm
    obtain ⟨s', hs'⟩ := C71_signs (s := ⟨[]⟩) (msg := msg) hk hc hm hl (by simp)
    obtain ⟨sig, -, -, h3, h4⟩ := C71_sign hk (by simp) hs'
    exact ⟨sig, h3, by simpa using h4 []⟩
  have pre : ∀ {t u rest : Bytes}, str t <+: str u ++ rest → t.length < 2 ^ 32 → u.length < 2 ^ 32 → t = u := by
    intro t u rest h ht hu
    obtain ⟨r, hr⟩ := h
    have := congrArg readString hr
    rw [readString_append ht, readString_append hu, Option.some.injEq, Prod.mk.injEq] at this
    exact this.1
  have kind : ∀ (k : PubKey) (blob t : Bytes), IsKeyBlob k blob → str t <+: blob → t.length < 2 ^ 32 →
      match k with
      | .ed25519 _ => t = ascii "ssh-ed25519"
      | .rsa _ _ => t = ascii "ssh-rsa"
      | .ecdsa _ => t = ascii "ecdsa-sha2-nistp256" := by
    intro k blob t hb ht hl
    cases hb with
    | ed25519 h => exact pre ht hl (by decide)
    | rsa h1 h2 => exact pre ht hl (by decide)
    | ecdsa => exact pre ht hl (by decide)
  simp only [announcedAlgorithms, List.mem_cons, List.not_mem_nil, or_false] at ha
  have done : ∀ type, type.length < 2 ^ 32 → type ∈ [ascii "ssh-ed25519", ascii "ssh-rsa", ascii "ecdsa-sha2-nistp256"] →
      (∀ k : PubKey, (match k with
      | .ed25519 _ => type = ascii "ssh-ed25519"
      | .rsa _ _ => type = ascii "ssh-rsa"
      | .ecdsa _ => type = ascii "ecdsa-sha2-nistp256") → alg ∈ pubKeyAlgorithms k) → _ := fun type hl hm hh =>
    (⟨type, hm, fun c k blob msg hk hc hlm hb ht => key c k msg hk hc hlm (hh k.pub (kind k.pub blob type hb ht hl))⟩ :
      ∃ type ∈ [ascii "ssh-ed25519", ascii "ssh-rsa", ascii "ecdsa-sha2-nistp256"],
      ∀ (c : Crypto) (k : SecKey) (blob msg : Bytes), KeyPair c k → CanSign c k → (alg = ascii "ssh-rsa" → c.libmd = true) →
        IsKeyBlob k.pub blob → str type <+: blob →
        ∃ sig, GoodSignature IsMpint c.schemes msg k.pub alg sig ∧ pubKeyVerify c k.pub msg sig = some true)
  rcases ha with rfl | rfl | rfl | rfl | rfl
  · refine done (ascii "ssh-ed25519") (by decide) (by decide) ?_
    intro k; cases k <;> simp (decide := true) [pubKeyAlgorithms]
  · refine done (ascii "ecdsa-sha2-nistp256") (by decide) (by decide) ?_
    intro k; cases k <;> simp (decide := true) [pubKeyAlgorithms]
  all_goals
    refine done (ascii "ssh-rsa") (by decide) (by decide) ?_
    intro k; cases k <;> simp (decide := true) [pubKeyAlgorithms]

/-! ## Examples -/

/-- A client which asks for EXT_INFO, in the first and in a later key exchange. -/
def demoExtEvents : List KxEvent :=
  [.version (ascii "SSH-2.0-demo"), .packet (demoKexInit (ascii "curve25519-sha256,ext-info-c") false) .unclaimed,
   .packet (30 :: str (List.replicate 32 9)) .unclaimed, .packet [21] .unclaimed]

def demoExtAgain : List KxEvent :=
  demoExtEvents ++ [.packet (demoKexInit (ascii "curve25519-sha256,ext-info-c") false) .unclaimed,
    .packet (30 :: str (List.replicate 32 8)) .unclaimed, .packet [21] .unclaimed]

example : (∀ ev ∈ demoExtEvents, EventOk ev) ∧ (demoServer demoExtEvents).stop = none ∧
    ((demoServer demoExtEvents).kx.log.countP (Entry.isSent 7)) = 1 ∧
    AsksExtInfo (demoKexInit (ascii "curve25519-sha256,ext-info-c") false).tail ∧
    ((demoServer demoServerEvents).kx.log.countP (Entry.isSent 7)) = 0 := by
  refine ⟨eventOk_of (by decide), by decide +kernel, by decide +kernel, ?_, by decide +kernel⟩
  exact ⟨List.replicate 16 7, [ascii "curve25519-sha256", ascii "ext-info-c"],
    str (ascii "ssh-ed25519") ++
    str (ascii "chacha20-poly1305@openssh.com") ++ str (ascii "chacha20-poly1305@openssh.com") ++
    str [] ++ str [] ++ str (ascii "none") ++ str (ascii "none") ++ str [] ++ str [] ++ bool false ++ u32 0,
    by decide, by decide, by decide +kernel, by decide⟩

/-- **C82** fails in one clause (RFC 8308 section 2.4): EXT_INFO is sent also after later
key exchanges, not only after the first NEWKEYS. -/
theorem C82_again_violated : ∃ (e : KexEnv) (evs : List KxEvent), Digest32 e ∧ (∀ ev ∈ evs, EventOk ev) ∧
    ((KxSys.init .server).run e evs).stop = none ∧
    ((KxSys.init .server).run e evs).kx.log.countP (Entry.isSent 7) = 2 :=
  ⟨demoEnv, demoExtAgain, demoEnv_digest, eventOk_of (by decide), by decide +kernel, by decide +kernel⟩

end Lukko
