import Verif.Prop.Kex
import Verif.Proof.KexReset
import Verif.Prop.Messages
/-
  C15–C18, C50: key derivation, exchange hash, strict key exchange,
  notifications, degenerate keys.
-/
namespace Lukko
open Spec Model

variable {e : KexEnv} {role : Role} {evs : List KxEvent}

/-! ## C15 -/

theorem keyBlocks_prefix {digest : Bytes → Bytes} {secret hash l sid} {n m : Nat} (h : n ≤ m) :
    keyBlocks digest secret hash l sid n <+: keyBlocks digest secret hash l sid m := by
  induction m with
  | zero =>
    obtain rfl : n = 0 := by omega
    exact List.prefix_refl _
  | succ m ih =>
    rcases Nat.lt_or_eq_of_le h with h' | rfl
    · exact (ih (by omega)).trans (by simp only [keyBlocks]; exact List.prefix_append _ _)
    · exact List.prefix_refl _

/-- **C15.** For every hash function with a fixed output size: a derived key is
the sequence of blocks of RFC 4253, with as few blocks as suffice. -/
theorem C15_derived {digest : Bytes → Bytes} {d : Nat} (hd : ∀ x, (digest x).length = d) (hpos : 0 < d)
    (id : UInt8) (hash secret sid : Bytes) (need : Nat) :
    ∃ m, deriveKey digest id need hash secret sid = keyBlocks digest secret hash id sid m ∧
      need ≤ (keyBlocks digest secret hash id sid m).length ∧
      ∀ k < m, (keyBlocks digest secret hash id sid k).length < need := by
  obtain ⟨m, h1, h2, h3⟩ := deriveKey_eq hd hpos id need hash secret sid
  refine ⟨m, h1, ?_, ?_⟩
  · rw [keyBlocks_length hd]; exact h2
  · intro k hk; rw [keyBlocks_length hd]; exact h3 k hk

/-- **C15.** At least as long as requested. -/
theorem C15_length {digest : Bytes → Bytes} {d : Nat} (hd : ∀ x, (digest x).length = d) (hpos : 0 < d)
    (id : UInt8) (hash secret sid : Bytes) (need : Nat) :
    need ≤ (deriveKey digest id need hash secret sid).length := by
  obtain ⟨m, h1, h2, _⟩ := deriveKey_eq hd hpos id need hash secret sid
  rw [h1, keyBlocks_length hd]; exact h2

/-- **C15.** The first `n` bytes do not depend on how many more were requested. -/
theorem C15_prefix {digest : Bytes → Bytes} {d : Nat} (hd : ∀ x, (digest x).length = d) (hpos : 0 < d)
    (id : UInt8) (hash secret sid : Bytes) {n m : Nat} (hn : n ≤ m) :
    (deriveKey digest id n hash secret sid).take n = (deriveKey digest id m hash secret sid).take n := by
  obtain ⟨a, a1, a2, a3⟩ := deriveKey_eq hd hpos id n hash secret sid
  obtain ⟨b, b1, b2, _⟩ := deriveKey_eq hd hpos id m hash secret sid
  have hab : a ≤ b := by
    rcases Nat.lt_or_ge b a with h | h
    · have := a3 b h; omega
    · exact h
  rw [a1, b1]
  obtain ⟨t, ht⟩ := keyBlocks_prefix (digest := digest) (secret := secret) (hash := hash) (l := id) (sid := sid) hab
  rw [← ht, List.take_append_of_le_length]
  rw [keyBlocks_length hd]; exact a2

/-- **C15.** The six keys are hashes of six different inputs (the letters 'A' to
'F' between the hash and the session identifier). -/
theorem C15_inputs_differ (secret hash sid : Bytes) :
    ([ivLetter .clientToServer, ivLetter .serverToClient, keyLetter .clientToServer, keyLetter .serverToClient,
      macLetter .clientToServer, macLetter .serverToClient].map
        fun l => secret ++ hash ++ [l] ++ sid).Pairwise (· ≠ ·) := by
  simp [ivLetter, keyLetter, macLetter]

/-- **C15.** Two sides which agree on the secret, the hash and the session
identifier derive the same keys for each direction, and these are the keys of
RFC 4253 for that direction. -/
theorem C15_mirrored {digest : Bytes → Bytes} (hd : ∀ x, (digest x).length = 32) (hash secret sid : Bytes) :
    pickKeys digest hash secret sid .client .outgoing = keysFor digest secret hash sid 1 .clientToServer ∧
    pickKeys digest hash secret sid .server .incoming = keysFor digest secret hash sid 1 .clientToServer ∧
    pickKeys digest hash secret sid .client .incoming = keysFor digest secret hash sid 1 .serverToClient ∧
    pickKeys digest hash secret sid .server .outgoing = keysFor digest secret hash sid 1 .serverToClient :=
  ⟨pickKeys_eq hd .., pickKeys_eq hd .., pickKeys_eq hd .., pickKeys_eq hd ..⟩

/-- **C15.** On a connection: the key material of every installed cipher is the
RFC 4253 key material of the last exchange for the direction in question. -/
theorem C15_installed (hd : ∀ x, (e.digest x).length = 32) (hev : ∀ ev ∈ evs, EventOk ev)
    {pre enc mac keys post} :
    (((KxSys.init role).run e evs).kx.log = pre ++ .installOut enc mac keys :: post → ∃ t, lastAgreed pre = some t ∧
      keys = keysFor e.digest t.secret (e.digest (hashInput t)) (sessionIdOf e.digest pre) 1
        (if role = .client then .clientToServer else .serverToClient)) ∧
    (((KxSys.init role).run e evs).kx.log = pre ++ .installIn enc mac keys :: post → ∃ t, lastAgreed pre = some t ∧
      keys = keysFor e.digest t.secret (e.digest (hashInput t)) (sessionIdOf e.digest pre) 1
        (if role = .client then .serverToClient else .clientToServer)) := by
  have hs := run_safe (role := role) hd hev
  constructor
  · intro hl
    obtain ⟨⟨t, h1, h2, _⟩, _⟩ := hs.every pre _ post hl
    refine ⟨t, h1, ?_⟩
    rw [h2]; cases role <;> rfl
  · intro hl
    obtain ⟨⟨t, h1, h2, _⟩, _⟩ := hs.every pre _ post hl
    refine ⟨t, h1, ?_⟩
    rw [h2]; cases role <;> rfl

/-- **C15.** A client and a server whose last exchange has the same transcript
and whose session identifiers agree protect packets in one direction with the
same keys at both ends. -/
theorem C15_both_ends {ec es : KexEnv} {evs evs' : List KxEvent} (hdig : ec.digest = es.digest)
    (hd : ∀ x, (ec.digest x).length = 32) (hev : ∀ ev ∈ evs, EventOk ev) (hev' : ∀ ev ∈ evs', EventOk ev)
    {pre enc mac keys post pre' enc' mac' keys' post'}
    (hl : (((KxSys.init .client).run ec evs).kx.log = pre ++ .installOut enc mac keys :: post ∧
        ((KxSys.init .server).run es evs').kx.log = pre' ++ .installIn enc' mac' keys' :: post') ∨
      (((KxSys.init .client).run ec evs).kx.log = pre ++ .installIn enc mac keys :: post ∧
        ((KxSys.init .server).run es evs').kx.log = pre' ++ .installOut enc' mac' keys' :: post'))
    (ht : lastAgreed pre = lastAgreed pre') (hsid : sessionIdOf ec.digest pre = sessionIdOf es.digest pre') :
    keys = keys' := by
  rcases hl with ⟨h1, h2⟩ | ⟨h1, h2⟩
  · obtain ⟨t, a1, a2⟩ := (C15_installed (role := .client) hd hev).1 h1
    obtain ⟨t', b1, b2⟩ := (C15_installed (role := .server) (hdig ▸ hd) hev').2 h2
    rw [ht, b1] at a1; cases a1
    rw [a2, b2, hsid, hdig]; rfl
  · obtain ⟨t, a1, a2⟩ := (C15_installed (role := .client) hd hev).2 h1
    obtain ⟨t', b1, b2⟩ := (C15_installed (role := .server) (hdig ▸ hd) hev').1 h2
    rw [ht, b1] at a1; cases a1
    rw [a2, b2, hsid, hdig]; rfl

example : (deriveKey demoEnv.digest 65 100 [1] [2] [3]).length = 128 ∧
    (deriveKey demoEnv.digest 65 10 [1] [2] [3]).length = 32 := by decide +kernel

example : ∃ pre enc mac keys post,
    (demoServer demoServerEvents).kx.log = pre ++ .installIn enc mac keys :: post ∧ keys.key.length = 64 := by
  refine ⟨(demoServer demoServerEvents).kx.log.takeWhile (fun | .installIn .. => false | _ => true),
    ascii "chacha20-poly1305@openssh.com", [], (demoServer demoServerEvents).kx.ks.newKeysIn,
    [.encrypted], ?_, ?_⟩ <;> decide +kernel

/-! ## C16 -/

theorem str_cancel {a b r s : Bytes} (ha : a.length < 2 ^ 32) (hb : b.length < 2 ^ 32)
    (h : str a ++ r = str b ++ s) : a = b ∧ r = s := by
  have h1 := readString_reads ha r
  have h2 := readString_reads hb s
  rw [h, h2] at h1
  simp at h1
  exact ⟨h1.1.symm, h1.2.symm⟩

/-- **C16.** Exchanges which differ in anything hash different byte strings. -/
theorem C16_injective {t t' : Transcript} (h : Transcript.Encodable t) (h' : Transcript.Encodable t')
    (hne : t ≠ t') :
    kexHashInput t.clientVersion t.serverVersion t.clientKexinit t.serverKexinit t.hostKey t.clientEph t.serverEph t.secret ≠
    kexHashInput t'.clientVersion t'.serverVersion t'.clientKexinit t'.serverKexinit t'.hostKey t'.clientEph t'.serverEph t'.secret := by
  intro heq
  rw [kexHashInput_eq, kexHashInput_eq] at heq
  unfold hashInput at heq
  obtain ⟨e1, heq⟩ := str_cancel h.cv h'.cv heq
  obtain ⟨e2, heq⟩ := str_cancel h.sv h'.sv heq
  obtain ⟨e3, heq⟩ := str_cancel (by simpa using h.ck) (by simpa using h'.ck) heq
  obtain ⟨e4, heq⟩ := str_cancel (by simpa using h.sk) (by simpa using h'.sk) heq
  obtain ⟨e5, heq⟩ := str_cancel h.hk h'.hk heq
  obtain ⟨e6, heq⟩ := str_cancel h.ce h'.ce heq
  obtain ⟨e7, e8⟩ := str_cancel h.se h'.se heq
  apply hne
  obtain ⟨a1, a2, a3, a4, a5, a6, a7, a8⟩ := t
  obtain ⟨b1, b2, b3, b4, b5, b6, b7, b8⟩ := t'
  simp only [List.cons.injEq, true_and] at e1 e2 e3 e4 e5 e6 e7 e8
  subst e1 e2 e3 e4 e5 e6 e7 e8
  rfl

example : Transcript.Encodable demoTranscript ∧
    kexHashInput [1] [] [] [] [] [] [] [] ≠ kexHashInput [] [1] [] [] [] [] [] [] := by
  refine ⟨⟨?_, ?_, ?_, ?_, ?_, ?_, ?_⟩, ?_⟩ <;> decide +kernel

/-! ## C17 -/

/-- Everything received during the first exchange, if the peer announced strict
key exchange in its KEXINIT: the KEXINIT is the first packet, and only permitted
packets follow.  The first packet after KEXINIT is exempt if `exempt`. -/
def StrictHistory (exempt : PKexInit → Bool) (role : Role) (log : List Entry) : Prop :=
  ∀ l k p rest, received log = l ++ (20 :: k) :: rest → parseKexInit.parse k = some p →
    stringListContains p.kex (strictMarker role) = true →
    l = [] ∧ ∀ q ∈ (if exempt p then rest.tail else rest), ∃ msg body, q = msg :: body ∧ strictAllowed (role == .server) msg = true

theorem allowed_strict {msg role} (h : isAllowedKexMessage msg role = true) :
    strictAllowed (role == .server) msg = true := by
  unfold isAllowedKexMessage at h
  unfold strictAllowed
  split at h
  · rename_i hm; rcases hm with rfl | rfl <;> rfl
  split at h
  · rename_i hm; subst hm; rw [beq_iff_eq] at h; subst h; rfl
  split at h
  · rename_i hm; subst hm; rw [beq_iff_eq] at h; subst h; rfl
  · simp at h

/-- **C17, partial.** As long as the first exchange lasts, a connection with a
peer that announced strict key exchange was not stopped only if KEXINIT was the
first packet and only permitted packets followed – except for a packet that
directly follows a KEXINIT announcing a wrong guess.  Missing: that packet may be
any packet, not just one of the key exchange, see `C17_strict_violated`. -/
theorem C17_strict_partial (hd : ∀ x, (e.digest x).length = 32) (hev : ∀ ev ∈ evs, EventOk ev)
    (hstop : ((KxSys.init role).run e evs).stop = none)
    (hin : hasIn ((KxSys.init role).run e evs).kx.log = false) :
    StrictHistory (wrongGuess e role) role ((KxSys.init role).run e evs).kx.log := by
  obtain ⟨φ, h⟩ := run_rest hd hev hstop
  have hs := run_strict (e := e) (evs := evs) (y := KxSys.init role) (fun _ => StrictInv.init e role) hev hstop
  have hin' : ((KxSys.init role).run e evs).kx.inputEncrypted = false := by rw [h.inEnc]; exact hin
  intro l k p rest hr hp hm
  have h20 : isMsg 20 (20 :: k) = true := rfl
  cases hk : ((KxSys.init role).run e evs).kx.flags.kexinitReceived with
  | false =>
    have := (hs.before hin' hk).1 (20 :: k) (by rw [hr]; simp)
    rw [h20] at this; simp at this
  | true =>
    obtain ⟨l', k', p', rest', d1, d2, d3, d4, d5, d6⟩ := hs.during hin' hk
    -- the two decompositions agree: there is only one KEXINIT
    have heq : l = l' ∧ k = k' ∧ rest = rest' := by
      rw [hr] at d1
      clear d4 d5 d6 hm hp hr d2
      induction l generalizing l' with
      | nil =>
        cases l' with
        | nil => simp at d1; exact ⟨rfl, d1.1, d1.2⟩
        | cons a l' =>
          simp only [List.nil_append, List.cons_append, List.cons.injEq] at d1
          have := d3 a (by simp)
          rw [← d1.1, h20] at this; simp at this
      | cons b l ih =>
        cases l' with
        | nil =>
          simp only [List.nil_append, List.cons_append, List.cons.injEq] at d1
          have := d3 (20 :: k) (by rw [List.nil_append, ← d1.2]; simp)
          rw [h20] at this; simp at this
        | cons a l' =>
          simp only [List.cons_append, List.cons.injEq] at d1
          obtain ⟨i1, i2, i3⟩ := ih l' (d1 := d1.2) (d3 := fun q hq => d3 q (by simp only [List.cons_append, List.mem_cons]; exact .inr hq))
          exact ⟨by rw [d1.1, i1], i2, i3⟩
    obtain ⟨rfl, rfl, rfl⟩ := heq
    rw [hp] at d2; cases d2
    rw [h.roleEq] at d4 d5
    obtain ⟨d8, d9⟩ := d5 (by rw [d4]; exact hm)
    refine ⟨d8, fun q hq => ?_⟩
    obtain ⟨msg, body, hq1, hq2⟩ := d9 q hq
    exact ⟨msg, body, hq1, allowed_strict hq2⟩

/-- A client that announces strict key exchange and a guess. -/
def demoStrict (follows : Bool) : List KxEvent :=
  [.version (ascii "SSH-2.0-demo"),
   .packet (demoKexInit (ascii "foo,curve25519-sha256,kex-strict-c-v00@openssh.com") follows) .unclaimed]

/-- **C17 is false**: after a KEXINIT announcing a (wrong) guess, one packet of any
kind – here IGNORE – is accepted although strict key exchange is in force. -/
theorem C17_strict_violated : ∃ evs : List KxEvent, (∀ ev ∈ evs, EventOk ev) ∧
    (∀ x, (demoEnv.digest x).length = 32) ∧
    ((KxSys.init .server).run demoEnv evs).stop = none ∧
    hasIn ((KxSys.init .server).run demoEnv evs).kx.log = false ∧
    ¬ StrictHistory (fun _ => false) .server ((KxSys.init .server).run demoEnv evs).kx.log := by
  refine ⟨demoStrict true ++ [.packet [2, 0, 0, 0, 0] .unclaimed], eventOk_of (by decide), demoEnv_digest,
    by decide +kernel, by decide +kernel, ?_⟩
  intro h
  have hr : received ((KxSys.init .server).run demoEnv (demoStrict true ++ [.packet [2, 0, 0, 0, 0] .unclaimed])).kx.log =
      [] ++ (20 :: (demoKexInit (ascii "foo,curve25519-sha256,kex-strict-c-v00@openssh.com") true).tail) :: [[2, 0, 0, 0, 0]] := by
    decide +kernel
  obtain ⟨p, hp, hm⟩ : ∃ p, parseKexInit.parse (demoKexInit (ascii "foo,curve25519-sha256,kex-strict-c-v00@openssh.com") true).tail = some p ∧
      stringListContains p.kex (strictMarker .server) = true := by
    have : ((parseKexInit.parse (demoKexInit (ascii "foo,curve25519-sha256,kex-strict-c-v00@openssh.com") true).tail).map
      fun p => stringListContains p.kex (strictMarker .server)) = some true := by decide +kernel
    cases hh : parseKexInit.parse (demoKexInit (ascii "foo,curve25519-sha256,kex-strict-c-v00@openssh.com") true).tail with
    | none => rw [hh] at this; simp at this
    | some p => rw [hh] at this; exact ⟨p, rfl, by simpa using this⟩
  obtain ⟨_, h2⟩ := h _ _ _ _ hr hp hm
  obtain ⟨msg, body, h3, h4⟩ := h2 [2, 0, 0, 0, 0] (by simp)
  simp only [List.cons.injEq] at h3
  rw [← h3.1] at h4
  exact absurd h4 (by decide)

/-- Non-vacuity: without the guess, the same packet stops the connection; so
does any packet before KEXINIT. -/
example : (demoServer (demoStrict false)).stop = none ∧
    (demoServer (demoStrict false ++ [.packet [2, 0, 0, 0, 0] .unclaimed])).stop = some .disconnect ∧
    (demoServer ([.version (ascii "SSH-2.0-demo"), .packet [2, 0, 0, 0, 0] .unclaimed] ++ (demoStrict false).tail)).stop =
      some .disconnect := by decide +kernel

theorem run_reset (hd : ∀ x, (e.digest x).length = 32) (hev : ∀ ev ∈ evs, EventOk ev)
    (hstop : ((KxSys.init role).run e evs).stop = none) : ResetInv ((KxSys.init role).run e evs).kx := by
  induction evs using Aux.snoc_ind with
  | h0 => exact .inl ⟨by simp [KxSys.run, KxSys.init, received], rfl, rfl, rfl⟩
  | h1 evs ev ih =>
    rw [run_snoc] at hstop ⊢
    have hev' : ∀ x ∈ evs, EventOk x := fun x hx => hev x (by simp [hx])
    have hst : ((KxSys.init role).run e evs).stop = none := by
      apply Classical.byContradiction
      intro hx
      rw [step_stopped hx] at hstop
      exact hx hstop
    obtain ⟨φ, h⟩ := run_rest hd hev' hst
    exact step_reset (ih hev' hst) (run_strict (fun _ => StrictInv.init e role) hev' hst) h.toKInv (hev ev (by simp)) hstop

/-- **C17 (the counters).** The packet counters are reset at every key change, in both directions, if
the first KEXINIT of the peer announced strict key exchange, and never otherwise. -/
theorem C17_reset (hd : ∀ x, (e.digest x).length = 32) (hev : ∀ ev ∈ evs, EventOk ev)
    (hstop : ((KxSys.init role).run e evs).stop = none) (first : Bytes)
    (hf : (received ((KxSys.init role).run e evs).kx.log).find? (isMsg 20) = some (20 :: first)) :
    ∃ p, parseKexInit.parse first = some p ∧
      ((KxSys.init role).run e evs).kx.inReset = stringListContains p.kex (strictMarker role) ∧
      ((KxSys.init role).run e evs).kx.outReset = stringListContains p.kex (strictMarker role) := by
  obtain ⟨φ, h⟩ := run_rest hd hev hstop
  rcases run_reset hd hev hstop with ⟨h1, -⟩ | ⟨l, k, p, rest, h1, h2, h3, h4, h5, h6⟩
  · have := h1 _ (List.mem_of_find?_eq_some hf)
    cases this
  · have hl : l.find? (isMsg 20) = none := by
      rw [List.find?_eq_none]; intro q hq; simp [h2 q hq]
    rw [h1, List.find?_append, hl] at hf
    simp only [List.find?_cons, isMsg, List.head?_cons, Option.none_or] at hf
    cases hf
    refine ⟨p, h3, ?_, ?_⟩
    · rw [h5, h4, h.roleEq]
    · rw [h6, h4, h.roleEq]

/-- **C17 (the counters).** … and there are no encrypted packets before the first KEXINIT. -/
theorem C17_reset_none (hd : ∀ x, (e.digest x).length = 32) (hev : ∀ ev ∈ evs, EventOk ev)
    (hstop : ((KxSys.init role).run e evs).stop = none)
    (hf : (received ((KxSys.init role).run e evs).kx.log).find? (isMsg 20) = none) :
    hasIn ((KxSys.init role).run e evs).kx.log = false := by
  obtain ⟨φ, h⟩ := run_rest hd hev hstop
  cases hi : hasIn ((KxSys.init role).run e evs).kx.log with
  | false => rfl
  | true =>
    obtain ⟨q, hq, hm⟩ := phase_kexRecv h.phase (.inr hi)
    exact absurd hm (List.find?_eq_none.mp hf q hq)

/-- Our own KEXINIT always announces strict key exchange. -/
theorem C17_announced : ∀ role, stringListContains (e.proposal role).kex
    (strictMarker (match role with | .server => .client | .client => .server)) = true := by
  intro role
  cases role
  · have : (e.proposal .server).kex = allServerKexAlgorithms := rfl
    rw [this]; decide +kernel
  · have : (e.proposal .client).kex = allClientKexAlgorithms := rfl
    rw [this]; decide +kernel

/-- Strict key exchange, and a second exchange in which it is not announced again. -/
def demoStrictRekey : List KxEvent :=
  demoStrict false ++ [.packet (30 :: str (List.replicate 32 9)) .unclaimed, .packet [21] .unclaimed, .authenticated,
    .packet (demoKexInit (ascii "curve25519-sha256") false) .unclaimed,
    .packet (30 :: str (List.replicate 32 8)) .unclaimed, .packet [21] .unclaimed]

example : (demoServer demoStrictRekey).stop = none ∧ (demoServer demoStrictRekey).kx.inReset = true ∧
    (demoServer demoStrictRekey).kx.outReset = true ∧
    ((received (demoServer demoStrictRekey).kx.log).filter (isMsg 20)).length = 2 ∧
    (demoServer demoRekeyEvents).stop = none ∧ (demoServer demoRekeyEvents).kx.inReset = false := by decide +kernel

/-! ## C18 -/

/-- Is the socket congested, according to the last write attempt? -/
def congested (evs : List KxEvent) : Bool :=
  evs.foldl (fun b ev => match ev with | .writable more => more | _ => b) false

/-- **C18.** Notifications alternate, and the last one says "blocked" iff the
socket is congested or a later key exchange is in progress (our KEXINIT was sent,
our NEWKEYS not yet). -/
theorem C18_notifications (hd : ∀ x, (e.digest x).length = 32) (hev : ∀ ev ∈ evs, EventOk ev)
    (hstop : ((KxSys.init role).run e evs).stop = none) :
    toldBlocked ((KxSys.init role).run e evs).kx.log =
      some (congested evs || rekeying ((KxSys.init role).run e evs).kx.log) := by
  obtain ⟨φ, h⟩ := run_rest hd hev hstop
  have hc : ((KxSys.init role).run e evs).kx.writeBlocked = congested evs := by
    rw [run_congested hstop]
    show evs.foldl congestedAfter false = _
    unfold congested
    congr 1
  have hr : rekeying ((KxSys.init role).run e evs).kx.log = ((KxSys.init role).run e evs).kx.isRekeying := by
    simp only [rekeying, h.phase, Kx.isRekeying, h.fSent, h.fNewSent, h.outEnc]
  rw [h.told, hc, hr]

/-- **C18.** They alternate on every connection, also a stopped one. -/
theorem C18_alternate (hd : ∀ x, (e.digest x).length = 32) (hev : ∀ ev ∈ evs, EventOk ev) :
    (toldBlocked ((KxSys.init role).run e evs).kx.log).isSome = true := by
  obtain ⟨b, h⟩ := (run_safe (role := role) hd hev).told
  rw [h]; rfl

example : toldBlocked (demoServer (demoRekeyEvents.take 7)).kx.log = some true ∧
    (demoServer (demoRekeyEvents.take 7)).stop = none ∧ congested (demoRekeyEvents.take 7) = true ∧
    toldBlocked (demoServer (demoRekeyEvents.take 8)).kx.log = some true ∧ congested (demoRekeyEvents.take 8) = false ∧
    rekeying (demoServer (demoRekeyEvents.take 8)).kx.log = true ∧
    toldBlocked (demoServer demoRekeyEvents).kx.log = some false := by decide +kernel

/-! ## C50 -/

/-- **C50.** curve25519: a public key of the wrong length, or one that leads to
the all-zero secret, gives no shared secret. -/
theorem C50_degenerate (scalarmult : Bytes → Option Bytes) (eph : Bytes)
    (h : eph.length ≠ 32 ∨ ∃ k, scalarmult eph = some k ∧ ∀ b ∈ k, b = 0) :
    curve25519Secret scalarmult eph = none := by
  unfold curve25519Secret
  rcases h with h | ⟨k, h1, h2⟩
  · rw [if_pos h]
  · split
    · rfl
    · rw [h1]
      have : k.all (· == 0) = true := by simpa using h2
      simp [this]

/-- **C50.** If there is a secret, the key had 32 bytes and the product is not zero (how it is encoded: C111). -/
theorem C50_secret (scalarmult : Bytes → Option Bytes) (eph secret : Bytes)
    (h : curve25519Secret scalarmult eph = some secret) :
    eph.length = 32 ∧ ∃ k, scalarmult eph = some k ∧ (∃ b ∈ k, b ≠ 0) := by
  unfold curve25519Secret at h
  split at h
  · simp at h
  · rename_i hl
    split at h
    · simp at h
    · rename_i k hk
      split at h
      · simp at h
      · rename_i hz
        refine ⟨by simpa using hl, k, hk, ?_⟩
        simpa using hz

/-- **C50.** A server never computes keys from a degenerate public key. -/
theorem C50_server (hd : ∀ x, (e.digest x).length = 32) (hev : ∀ ev ∈ evs, EventOk ev)
    {sm : Nat → Bytes → Option Bytes} (hsm : ∀ n eph, e.shared .curve25519 n eph = curve25519Secret (sm n) eph)
    {pre t post} (hl : ((KxSys.init .server).run e evs).kx.log = pre ++ .agreed t :: post)
    (hm : ∀ p, parseKexInit.parse t.clientKexinit = some p →
      makeKex (findCommonAlgorithm p.kex allServerKexAlgorithms) = some .curve25519) :
    t.clientEph.length = 32 ∧ ∃ n k, sm n t.clientEph = some k ∧ ∃ b ∈ k, b ≠ 0 := by
  have hs := run_safe (role := .server) hd hev
  obtain ⟨pre', sig, hk, alg, p, _, _, _, h3, _, _, _, _, _, m, n, _, h10, h11⟩ := hs.every pre _ post hl
  rw [hm p h3] at h11; cases h11
  rw [hsm] at h10
  obtain ⟨h1, k, h2⟩ := C50_secret _ _ _ h10
  exact ⟨h1, n, k, h2⟩

/-- **C50.** Nor does a client. -/
theorem C50_client (hd : ∀ x, (e.digest x).length = 32) (hev : ∀ ev ∈ evs, EventOk ev)
    {sm : Nat → Bytes → Option Bytes} (hsm : ∀ n eph, e.shared .curve25519 n eph = curve25519Secret (sm n) eph)
    {pre t post} (hl : ((KxSys.init .client).run e evs).kx.log = pre ++ .agreed t :: post)
    (hm : ∀ p, parseKexInit.parse t.serverKexinit = some p →
      makeKex (findCommonAlgorithm allClientKexAlgorithms p.kex) = some .curve25519) :
    t.serverEph.length = 32 ∧ ∃ n k, sm n t.serverEph = some k ∧ ∃ b ∈ k, b ≠ 0 := by
  have hs := run_safe (role := .client) hd hev
  obtain ⟨pre', sig, _, _, _, _, _, _, _, _, m, n, p, _, h10, h12, h11⟩ := hs.every pre _ post hl
  rw [hm p h12] at h11; cases h11
  rw [hsm] at h10
  obtain ⟨h1, k, h2⟩ := C50_secret _ _ _ h10
  exact ⟨h1, n, k, h2⟩

/-- **C50.** A server that receives a degenerate public key is done with this
connection, having sent nothing. -/
theorem C50_abort (hd : ∀ x, (e.digest x).length = 32) (hev : ∀ ev ∈ evs, EventOk ev) {m n eph}
    (hstop : ((KxSys.init .server).run e evs).stop = none)
    (hkex : ((KxSys.init .server).run e evs).kx.kex = some (m, n)) (hlen : eph.length < 2 ^ 32)
    (hbad : e.shared m n eph = none)
    (hg : ¬ AfterWrongGuess e .server ((KxSys.init .server).run e evs).kx.log) :
    ((KxSys.init .server).run e (evs ++ [.packet (30 :: ecdhInitBody eph) .unclaimed])).stop = some .closed ∧
    ((KxSys.init .server).run e (evs ++ [.packet (30 :: ecdhInitBody eph) .unclaimed])).kx.log =
      ((KxSys.init .server).run e evs).kx.log ++ [.recv (30 :: ecdhInitBody eph)] := by
  obtain ⟨φ, h⟩ := run_rest hd hev hstop
  have hstr := run_strict (e := e) (evs := evs) (y := KxSys.init .server) (fun _ => StrictInv.init e .server) hev hstop
  rw [run_snoc]
  generalize (KxSys.init .server).run e evs = y at *
  obtain ⟨s, stop⟩ := y
  simp only at hstop hkex h hstr hg; subst hstop
  have hready := h.ready; rw [hkex] at hready
  have hver : s.versionExchanged = true := by
    cases hvx : s.versionExchanged with
    | true => rfl
    | false =>
      rw [(h.vFirst hvx).1] at hready; simp at hready
  obtain ⟨hk, p, k1, k2, k3⟩ := h.host rfl (by rw [hkex]; rfl)
  have hparse : parseECDHKexInit.parse (ecdhInitBody eph) = some eph := (C05_ecdh_init eph hlen).2.parse
  simp only [KxSys.step, hver, cond_true]
  rcases handlePacket_cases (msg := 30) (body := ecdhInitBody eph) (claim := .unclaimed) h hstr (fun hh => hg hh.1) with ⟨_, _, h1⟩ | ⟨f, i, h1⟩
  · exact absurd h1 (by decide)
  · rw [h1]
    have hr : ((s.withStrict f i).emit (.recv (30 :: ecdhInitBody eph))).handlePacket₂ e 30 (ecdhInitBody eph) .unclaimed =
        ((s.withStrict f i).emit (.recv (30 :: ecdhInitBody eph)), some .closed) := by
      show ((s.withStrict f i).emit (.recv (30 :: ecdhInitBody eph))).handleECDHKexInit e (ecdhInitBody eph) = _
      unfold Kx.handleECDHKexInit
      have hrole : ((s.withStrict f i).emit (.recv (30 :: ecdhInitBody eph))).role = .server := h.roleEq
      have hrd : ((s.withStrict f i).emit (.recv (30 :: ecdhInitBody eph))).kexReady = true :=
        (kexReady_eq h).trans (hready.trans rfl)
      rw [hrole, hrd, hparse]
      have : ((s.withStrict f i).emit (.recv (30 :: ecdhInitBody eph))).sendECDHKexInitReply e eph =
          ((s.withStrict f i).emit (.recv (30 :: ecdhInitBody eph)), some .closed) := by
        unfold Kx.sendECDHKexInitReply
        have e1 : ((s.withStrict f i).emit (.recv (30 :: ecdhInitBody eph))).kex = some (m, n) := hkex
        have e2 : ((s.withStrict f i).emit (.recv (30 :: ecdhInitBody eph))).hostKey = some hk := k1
        have hrd' := hrd
        simp only [Kx.kexReady, Bool.and_eq_true, Bool.not_eq_true'] at hrd'
        rw [e1, e2]
        simp only [hrole, hrd'.1.1.1.1, hrd'.1.1.1.2, hrd'.1.1.2, hrd'.1.2, hbad]
        rfl
      simp only [this]
      rfl
    rw [hr]
    exact ⟨rfl, rfl⟩

/-- Non-vacuity: the demo environment uses curve25519 with "multiplication by 1":
the public key zero, and a short one, are refused. -/
example : (demoServer (demoServerEvents.take 2)).kx.kex = some (.curve25519, 0) ∧
    demoEnv.shared .curve25519 0 (List.replicate 32 0) = none ∧
    demoEnv.shared .curve25519 0 [1, 2, 3] = none ∧
    (demoServer (demoServerEvents.take 2 ++ [.packet (30 :: ecdhInitBody (List.replicate 32 0)) .unclaimed])).stop =
      some .closed := by decide +kernel

end Lukko
