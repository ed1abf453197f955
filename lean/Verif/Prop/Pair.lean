import Verif.Proof.Pair
import Verif.Prop.Authentic
/-
  C98: two programs of this code understand each other.

  A client and a server of this code, connected by a network which loses,
  reorders and alters nothing. Their environments are `Compatible`: the same
  hash function with 32 bytes, cookies of 16 bytes, messages of the key
  exchange which fit into packets, a host key of the server which the client
  accepts and whose signatures verify, and a Diffie-Hellman group in which
  both sides compute the same secret. `evs` is any sequence of events: the
  arrival of an identification string, the delivery of the next packet to
  either side, packets sent by either application, authentication, rekey
  timers on either side (also at the same time), sockets that become writable.
-/
namespace Lukko
open Spec Model

variable {c s : KexEnv} {hk : Nat} {alg : Bytes}

/-! ### Pure facts -/

/-- Packets with ciphers: NEWKEYS changes to the next one. -/
def stream : List (Bytes × Bytes × Keys) → Option (Bytes × Bytes × Keys) → List Bytes → List (Option (Bytes × Bytes × Keys) × Bytes)
  | _, _, [] => []
  | cs, cur, p :: ps => (cur, p) :: (bif isMsg 21 p then stream cs.tail (cs.head?.or cur) ps else stream cs cur ps)

theorem Paired.sent {l} (h : Paired l) : ∀ cur, sentUnder cur l = stream (outCiphers l) cur (sentPackets l) ∧
    (sentPackets l).countP (isMsg 21) = (outCiphers l).length := by
  induction h with
  | nil => intro _; exact ⟨rfl, rfl⟩
  | @other x l hx _ ih =>
    intro cur
    cases x with
    | sent p =>
      have hp : isMsg 21 p = false := by simpa [quietEntry] using hx
      have hi := ih cur
      simp only [sentUnder, outCiphers, sentPackets, List.filterMap_cons, stream, hp, cond_false, List.countP_cons,
        Bool.false_eq_true, if_false, Nat.add_zero] at hi ⊢
      exact ⟨by rw [hi.1], hi.2⟩
    | installOut => exact absurd hx Bool.false_ne_true
    | installIn => exact absurd hx Bool.false_ne_true
    | _ => exact ih cur
  | @out p enc mac keys l hp _ ih =>
    intro cur
    have hi := ih (some (enc, mac, keys))
    simp only [sentUnder, outCiphers, sentPackets, List.filterMap_cons, stream, hp, cond_true, List.countP_cons, if_true,
      List.tail_cons, List.head?_cons, Option.some_or, List.length_cons] at hi ⊢
    exact ⟨by rw [hi.1], by rw [hi.2]⟩
  | in_ => rename_i ih; exact ih

theorem Paired.recv {l} (h : Paired l) : ∀ cur, receivedUnder cur l = stream (inCiphers l) cur (received l) ∧
    (received l).countP (isMsg 21) = (inCiphers l).length := by
  induction h with
  | nil => intro _; exact ⟨rfl, rfl⟩
  | @other x l hx _ ih =>
    intro cur
    cases x with
    | recv p =>
      have hp : isMsg 21 p = false := by simpa [quietEntry] using hx
      have hi := ih cur
      simp only [receivedUnder, inCiphers, received, List.filterMap_cons, stream, hp, cond_false, List.countP_cons,
        Bool.false_eq_true, if_false, Nat.add_zero] at hi ⊢
      exact ⟨by rw [hi.1], hi.2⟩
    | installOut => exact absurd hx Bool.false_ne_true
    | installIn => exact absurd hx Bool.false_ne_true
    | _ => exact ih cur
  | @in_ p enc mac keys l hp _ ih =>
    intro cur
    have hi := ih (some (enc, mac, keys))
    simp only [receivedUnder, inCiphers, received, List.filterMap_cons, stream, hp, cond_true, List.countP_cons, if_true,
      List.tail_cons, List.head?_cons, Option.some_or, List.length_cons] at hi ⊢
    exact ⟨by rw [hi.1], by rw [hi.2]⟩
  | out => rename_i ih; exact ih

theorem stream_prefix {ps : List Bytes} : ∀ {qs cs ds cur}, ps.countP (isMsg 21) = cs.length →
    stream cs cur ps <+: stream (cs ++ ds) cur (ps ++ qs) := by
  induction ps with
  | nil => intro _ _ _ _ _; exact List.nil_prefix
  | cons p ps ih =>
    intro qs cs ds cur h
    simp only [List.cons_append, stream]
    refine List.cons_prefix_cons.2 ⟨rfl, ?_⟩
    cases hp : isMsg 21 p with
    | false =>
      simp only [cond_false]
      simp only [List.countP_cons, hp, Bool.false_eq_true, if_false, Nat.add_zero] at h
      exact ih h
    | true =>
      simp only [cond_true]
      simp only [List.countP_cons, hp, if_true] at h
      cases cs with
      | nil => simp at h
      | cons a cs =>
        simp only [List.tail_cons, List.cons_append, List.head?_cons]
        exact ih (by simpa using h)

theorem under_prefix {a b : List Entry} {q : List Bytes} (ha : Paired a) (hb : Paired b) (h : sentPackets a = received b ++ q)
    (hc : inCiphers b <+: outCiphers a) : receivedUnder none b <+: sentUnder none a := by
  obtain ⟨ds, hd⟩ := hc
  rw [(ha.sent none).1, (hb.recv none).1, h, ← hd]
  exact stream_prefix (hb.recv none).2

theorem ciphersOf_prefix {digest w} {ts ts' : List Transcript} (h : ts <+: ts') : ciphersOf digest w ts <+: ciphersOf digest w ts' := by
  obtain ⟨x, rfl⟩ := h
  cases ts with
  | nil => exact List.nil_prefix
  | cons a l => simp [ciphersOf, sessionOf]

theorem pair_ciphers {c s : Kx} {eC eS : KexEnv} {qc qs} (hE : Compatible eC eS hk alg) (h : PState eC eS hk alg c s qc qs) :
    inCiphers c.log <+: outCiphers s.log ∧ inCiphers s.log <+: outCiphers c.log := by
  rw [h.client.ins, h.client.outs, h.server.ins, h.server.outs, hE.digest]
  have hd : ∀ b (ts : List Transcript), doneOf b ts <+: ts := by
    intro b ts; cases b
    · exact List.prefix_rfl
    · exact List.dropLast_prefix ts
  rcases h.agree with ha | ⟨⟨t, ha⟩, h1, h2⟩
  · rw [ha]; exact ⟨ciphersOf_prefix (hd _ _), ciphersOf_prefix (hd _ _)⟩
  · rw [ha, h1, h2]
    simp only [doneOf, cond_true, cond_false, List.dropLast_concat]
    exact ⟨ciphersOf_prefix ⟨[t], rfl⟩, List.prefix_rfl⟩

/-! ### Theorems -/

section
variable (hE : Compatible c s hk alg) (evs : List PairEvent)
include hE

/-- **C98, no failure.** Whatever happens, in whatever order, neither side gives up the connection. -/
theorem C98_no_failure : (Pair.run c s {} evs).client.stop = none ∧ (Pair.run c s {} evs).server.stop = none :=
  have h := PairInv.init.run hE evs
  ⟨h.stopC, h.stopS⟩

/-- **C98, agreement.** Both sides agree on the same keys, in the same order: same identification strings, same
proposals, same host key, same secret. The server is at most one agreement ahead. -/
theorem C98_agreement : agreements (Pair.run c s {} evs).client.kx.log <+: agreements (Pair.run c s {} evs).server.kx.log ∧
    (agreements (Pair.run c s {} evs).server.kx.log).length ≤ (agreements (Pair.run c s {} evs).client.kx.log).length + 1 := by
  have h := (PairInv.init.run hE evs).state
  rcases h.agree with ha | ⟨⟨t, ha⟩, _⟩
  · rw [ha]; exact ⟨List.prefix_rfl, by omega⟩
  · rw [ha]; exact ⟨⟨[t], rfl⟩, by simp⟩

/-- **C98, keys.** The algorithms and keys one side uses to decrypt are those the other side uses to encrypt. -/
theorem C98_keys : inCiphers (Pair.run c s {} evs).client.kx.log <+: outCiphers (Pair.run c s {} evs).server.kx.log ∧
    inCiphers (Pair.run c s {} evs).server.kx.log <+: outCiphers (Pair.run c s {} evs).client.kx.log :=
  pair_ciphers hE (PairInv.init.run hE evs).state

/-- **C98, same cipher.** Every packet which arrives is decrypted with exactly the algorithms and keys it was encrypted
with, also while keys are being exchanged again and both applications go on sending. -/
theorem C98_same_cipher :
    receivedUnder none (Pair.run c s {} evs).client.kx.log <+: sentUnder none (Pair.run c s {} evs).server.kx.log ∧
    receivedUnder none (Pair.run c s {} evs).server.kx.log <+: sentUnder none (Pair.run c s {} evs).client.kx.log := by
  have h := (PairInv.init.run hE evs).state
  obtain ⟨h1, h2⟩ := pair_ciphers hE h
  exact ⟨under_prefix h.server.paired h.client.paired h.hqs h1, under_prefix h.client.paired h.server.paired h.hqc h2⟩

/-- **C98, settled.** When both identification strings and all packets have arrived, both sides are encrypted and idle,
they made the same agreements (at least one), use the same ciphers, and each of them sent exactly one KEXINIT for each
agreement. -/
theorem C98_settled (hv : (Pair.run c s {} evs).client.kx.versionExchanged = true ∧ (Pair.run c s {} evs).server.kx.versionExchanged = true)
    (hq : inFlight (Pair.run c s {} evs).client.kx.log (Pair.run c s {} evs).server.kx.log = [] ∧
      inFlight (Pair.run c s {} evs).server.kx.log (Pair.run c s {} evs).client.kx.log = []) :
    let p := Pair.run c s {} evs
    (p.client.kx.isEncrypted = true ∧ p.server.kx.isEncrypted = true) ∧
    (p.client.kx.flags.isIdle = true ∧ p.server.kx.flags.isIdle = true) ∧
    (agreements p.client.kx.log = agreements p.server.kx.log ∧ agreements p.client.kx.log ≠ []) ∧
    (inCiphers p.client.kx.log = outCiphers p.server.kx.log ∧ inCiphers p.server.kx.log = outCiphers p.client.kx.log) ∧
    (kexInits (sentPackets p.client.kx.log) = (agreements p.client.kx.log).length ∧
      kexInits (sentPackets p.server.kx.log) = (agreements p.client.kx.log).length) := by
  have h := (PairInv.init.run hE evs).state
  obtain ⟨hvc, -⟩ := hv
  simp only
  generalize hp : Pair.run c s {} evs = p at h hvc hq ⊢
  rw [hq.1, hq.2] at h
  obtain ⟨f1, f2, ha⟩ := h.settled
  have hne : agreements p.client.kx.log ≠ [] := by
    rcases h.client.started rfl hvc with hk | hk
    · rw [f1] at hk; exact absurd hk (by decide)
    · exact hk
  have hne' : agreements p.server.kx.log ≠ [] := ha ▸ hne
  have i1 := h.client.ins
  have o1 := h.client.outs
  have i2 := h.server.ins
  have o2 := h.server.outs
  rw [f1] at i1
  rw [f2] at i2
  have c1 := h.client.count
  have c2 := h.server.count
  rw [f1] at c1
  rw [f2] at c2
  have e1 := h.client.outEnc
  have e2 := h.client.inEnc
  have e3 := h.server.outEnc
  have e4 := h.server.inEnc
  rw [f1] at e2
  rw [f2] at e4
  simp only [doneOf, cond_false] at e2 e4
  refine ⟨⟨?_, ?_⟩, ⟨by rw [f1]; rfl, by rw [f2]; rfl⟩, ⟨ha, hne⟩, ⟨?_, ?_⟩, c1, by rw [ha]; exact c2⟩
  · simp [Kx.isEncrypted, e1, e2, hne]
  · simp [Kx.isEncrypted, e3, e4, hne']
  · rw [i1, o2, hE.digest, ha]; rfl
  · rw [i2, o1, hE.digest, ha]; rfl

/-- Delivering packets, to one side or the other, as long as there are any. -/
def Pair.Delivers (c s : KexEnv) : Pair → List (Role × Bool) → Prop
  | _, [] => True
  | p, (r, handled) :: ds =>
    (match r with
      | .client => inFlight p.server.kx.log p.client.kx.log ≠ []
      | .server => inFlight p.client.kx.log p.server.kx.log ≠ []) ∧
    Pair.Delivers c s (p.step c s (.deliver r handled)) ds

omit hE in
theorem pair_work_le {p : Pair} : Pair.work p ≤ 7 + 2 * ((inFlight p.client.kx.log p.server.kx.log).length +
    (inFlight p.server.kx.log p.client.kx.log).length) := by
  have hq : ∀ q : List Bytes, queueWork q ≤ 2 * q.length := by
    intro q
    induction q with
    | nil => exact Nat.le_refl _
    | cons x q ih =>
      have : plainWork x ≤ 2 := by unfold plainWork; cases isKexMessage x <;> cases (isMsg 2 x || isMsg 3 x) <;> decide
      simp only [queueWork, List.map_cons, List.sum_cons, List.length_cons] at ih ⊢
      omega
  have hk : ∀ a b, kexWork a b ≤ 7 := by
    intro ⟨a1, a2, a3, a4⟩ ⟨b1, b2, b3, b4⟩
    unfold kexWork
    cases a1 <;> cases a2 <;> cases a3 <;> cases b1 <;> cases b2 <;> cases b3 <;> simp
  have h1 := hq (inFlight p.client.kx.log p.server.kx.log)
  have h2 := hq (inFlight p.server.kx.log p.client.kx.log)
  have h3 := hk p.client.kx.flags p.server.kx.flags
  unfold Pair.work pairWork
  omega

omit evs in
theorem pair_delivers {ds : List (Role × Bool)} : ∀ {p : Pair}, PairInv c s hk alg p →
    p.client.kx.versionExchanged = true ∧ p.server.kx.versionExchanged = true → Pair.Delivers c s p ds → ds.length ≤ Pair.work p := by
  induction ds with
  | nil => intro _ _ _ _; exact Nat.zero_le _
  | cons d ds ih =>
    intro p h hv hd
    obtain ⟨r, handled⟩ := d
    obtain ⟨h1, h2⟩ := hd
    obtain ⟨hlt, hv'⟩ := h.deliver hE r handled hv h1
    have := ih (h.step hE (.deliver r handled)) hv' h2
    simp only [List.length_cons]
    omega

omit evs in
theorem pair_empties : ∀ (n : Nat) {p : Pair}, Pair.work p ≤ n → PairInv c s hk alg p →
    p.client.kx.versionExchanged = true ∧ p.server.kx.versionExchanged = true →
    ∃ ds : List Role, ds.length ≤ n ∧
      let p' := Pair.run c s p (ds.map fun r => .deliver r true)
      inFlight p'.client.kx.log p'.server.kx.log = [] ∧ inFlight p'.server.kx.log p'.client.kx.log = [] ∧
      p'.client.kx.versionExchanged = true ∧ p'.server.kx.versionExchanged = true := by
  intro n
  induction n with
  | zero =>
    intro p hn h hv
    refine ⟨[], Nat.le_refl _, ?_, ?_, hv⟩
    · apply Classical.byContradiction; intro hc
      have := (h.deliver hE .server true hv hc).1
      omega
    · apply Classical.byContradiction; intro hc
      have := (h.deliver hE .client true hv hc).1
      omega
  | succ n ih =>
    intro p hn h hv
    have go : ∀ r : Role, (match r with
        | .client => inFlight p.server.kx.log p.client.kx.log ≠ []
        | .server => inFlight p.client.kx.log p.server.kx.log ≠ []) → ∃ ds : List Role, ds.length ≤ n + 1 ∧
      let p' := Pair.run c s p (ds.map fun r => .deliver r true)
      inFlight p'.client.kx.log p'.server.kx.log = [] ∧ inFlight p'.server.kx.log p'.client.kx.log = [] ∧
      p'.client.kx.versionExchanged = true ∧ p'.server.kx.versionExchanged = true := by
      intro r hr
      obtain ⟨hlt, hv'⟩ := h.deliver hE r true hv hr
      obtain ⟨ds, h1, h2⟩ := ih (p := p.step c s (.deliver r true)) (by omega) (h.step hE _) hv'
      exact ⟨r :: ds, by simp only [List.length_cons]; omega, h2⟩
    by_cases h1 : inFlight p.client.kx.log p.server.kx.log = []
    · by_cases h2 : inFlight p.server.kx.log p.client.kx.log = []
      · exact ⟨[], Nat.zero_le _, h1, h2, hv⟩
      · exact go .client h2
    · exact go .server h1

/-- **C98, it ends.** Once both identification strings have arrived, whatever is in flight, the exchange comes to an end by
itself: packets can be delivered, in any order, at most seven times plus twice for each packet in flight, and then nothing
is in flight (as long as neither application sends anything and no rekey timer fires). -/
theorem C98_ends (hv : (Pair.run c s {} evs).client.kx.versionExchanged = true ∧ (Pair.run c s {} evs).server.kx.versionExchanged = true)
    {ds : List (Role × Bool)} (hd : Pair.Delivers c s (Pair.run c s {} evs) ds) :
    ds.length ≤ 7 + 2 * ((inFlight (Pair.run c s {} evs).client.kx.log (Pair.run c s {} evs).server.kx.log).length +
      (inFlight (Pair.run c s {} evs).server.kx.log (Pair.run c s {} evs).client.kx.log).length) :=
  Nat.le_trans (pair_delivers hE (PairInv.init.run hE evs) hv hd) pair_work_le

omit hE evs in
theorem pair_run_append {p : Pair} {a b : List PairEvent} : Pair.run c s p (a ++ b) = Pair.run c s (Pair.run c s p a) b := by
  simp [Pair.run, List.foldl_append]

omit evs in
theorem pair_version {p : Pair} (h : PairInv c s hk alg p) :
    (Pair.run c s p [.version .client, .version .server]).client.kx.versionExchanged = true ∧
    (Pair.run c s p [.version .client, .version .server]).server.kx.versionExchanged = true := by
  obtain ⟨⟨x, _⟩, ⟨y, _⟩⟩ := p
  obtain ⟨rfl, rfl, hst⟩ := h
  simp only [Pair.run, List.foldl_cons, List.foldl_nil, Pair.step, PairEvent.place, KxSys.pairStep, KxSys.step_live]
  constructor
  · cases hv : x.versionExchanged with
    | true => exact hv
    | false =>
      obtain ⟨x', more, hr, _, hv', _⟩ := onVersion_pair hE.fitsC hst.client hv
      simp only [cond_false]
      rw [hr]; exact hv'
  · cases hv : y.versionExchanged with
    | true => exact hv
    | false =>
      obtain ⟨y', more, hr, _, hv', _⟩ := onVersion_pair hE.fitsS hst.server hv
      simp only [cond_false]
      rw [hr]; exact hv'

/-- **C98, settles.** From every situation, the arrival of the identification strings (if they have not arrived yet) and of
packets leads to a situation in which everything has arrived, as in `C98_settled`: no deadlock. -/
theorem C98_settles : ∃ ds : List Role,
    let p := Pair.run c s {} (evs ++ ([.version .client, .version .server] ++ ds.map fun r => .deliver r true))
    p.client.kx.versionExchanged = true ∧ p.server.kx.versionExchanged = true ∧
    inFlight p.client.kx.log p.server.kx.log = [] ∧ inFlight p.server.kx.log p.client.kx.log = [] := by
  have h := PairInv.init.run hE evs
  obtain ⟨ds, _, h1, h2, h3, h4⟩ := pair_empties hE _ (Nat.le_refl _) (h.run hE [.version .client, .version .server]) (pair_version hE h)
  refine ⟨ds, ?_⟩
  rw [pair_run_append, pair_run_append]
  exact ⟨h3, h4, h1, h2⟩

end

/-! ### A concrete pair -/

/-- A toy Diffie-Hellman: the sum of the two secrets. -/
def demoDuo (version : Bytes) (k : UInt8) : KexEnv where
  ownVersion := version
  cookie := fun n => List.replicate 16 (UInt8.ofNat n)
  ephPub := fun _ n => List.replicate 32 (UInt8.ofNat (n % 16) + k)
  shared := fun _ n eph => curve25519Secret (fun p => some (p.map (· + (UInt8.ofNat (n % 16) + k)))) eph
  digest := fun x => List.replicate 32 (x.foldl (fun a b => 3 * a + b) 0)
  hostKeyAlgorithms := ascii "ssh-ed25519"
  chooseHostKey := fun l => if stringListContains l (ascii "ssh-ed25519") then some (0, ascii "ssh-ed25519") else none
  hostKeyBlob := fun _ => ascii "host key"
  sign := fun _ h _ => some h
  verifier := some (fun blob => blob == ascii "host key")
  verify := fun _ h sig => h == sig

def demoDuoC : KexEnv := demoDuo (ascii "SSH-2.0-client") 16
def demoDuoS : KexEnv := demoDuo (ascii "SSH-2.0-server") 32

theorem demoDuo_shared : ∀ a b : Fin 16,
    (curve25519Secret (fun p => some (p.map (· + (UInt8.ofNat a + 16)))) (List.replicate 32 (UInt8.ofNat b + 32))).isSome = true ∧
    curve25519Secret (fun p => some (p.map (· + (UInt8.ofNat b + 32)))) (List.replicate 32 (UInt8.ofNat a + 16)) =
    curve25519Secret (fun p => some (p.map (· + (UInt8.ofNat a + 16)))) (List.replicate 32 (UInt8.ofNat b + 32)) := by
  decide +kernel

theorem demoCompatible : Compatible demoDuoC demoDuoS 0 (ascii "ssh-ed25519") := by
  constructor
  case digest => simp only [demoDuoC, demoDuoS, demoDuo]
  case size => intro x; simp only [demoDuoS, demoDuo, List.length_replicate]
  case cookieC => intro i; simp only [demoDuoC, demoDuo, List.length_replicate]
  case cookieS => intro i; simp only [demoDuoS, demoDuo, List.length_replicate]
  case algsFit => decide +kernel
  case blobFit => decide +kernel
  case ephFitC => intro n; simp only [demoDuoC, demoDuo, List.length_replicate]; decide
  case ephFitS => intro n; simp only [demoDuoS, demoDuo, List.length_replicate]; decide
  case chosen => decide +kernel
  case signs =>
    intro h hl
    refine ⟨h, ?_, by omega, ?_⟩
    · simp only [demoDuoS, demoDuo]
    · simp only [demoDuoC, demoDuo, beq_self_eq_true]
  case known =>
    refine ⟨fun blob => blob == ascii "host key", ?_, ?_⟩
    · simp only [demoDuoC, demoDuo]
    · simp only [demoDuoS, demoDuo, beq_self_eq_true]
  case shared =>
    intro n m
    obtain ⟨h1, h2⟩ := demoDuo_shared ⟨n % 16, Nat.mod_lt _ (by decide)⟩ ⟨m % 16, Nat.mod_lt _ (by decide)⟩
    obtain ⟨sec, hsec⟩ := Option.isSome_iff_exists.1 h1
    refine ⟨sec, ?_, ?_⟩
    · simp only [demoDuoC, demoDuoS, demoDuo]; exact hsec
    · simp only [demoDuoC, demoDuoS, demoDuo]; exact h2.trans hsec

/-- A first exchange; then both sides start another one at the same time, while data is sent. -/
def demoDuoEvents : List PairEvent :=
  [.version .server, .version .client, .deliver .server true, .deliver .client true, .deliver .server true, .deliver .client true,
   .deliver .client true, .deliver .server true, .authenticated .server, .authenticated .client, .send .client [94, 1],
   .rekeyTimer .server, .send .server [94, 2], .rekeyTimer .client, .send .client [94, 3], .deliver .client true,
   .deliver .client false, .deliver .server true, .deliver .server true, .deliver .server true, .send .server [94, 4]]

def demoDuoRun (n : Nat) : Pair := Pair.run demoDuoC demoDuoS {} (demoDuoEvents.take n)

/-- Deliveries which complete the second exchange. -/
def demoDuoRest : List PairEvent :=
  [.deliver .client true, .deliver .server true, .deliver .client true, .deliver .server true, .deliver .client true,
   .deliver .server true, .send .client [94, 5], .deliver .server true]

def demoDuoEnd : Pair := Pair.run demoDuoC demoDuoS {} (demoDuoEvents ++ demoDuoRest)

-- the hypotheses of all theorems hold, and something happened: two exchanges
example : Compatible demoDuoC demoDuoS 0 (ascii "ssh-ed25519") ∧
    ((agreements (demoDuoRun 5).client.kx.log).length, (agreements (demoDuoRun 5).server.kx.log).length) = (0, 1) ∧
    ((agreements demoDuoEnd.client.kx.log).length, (agreements demoDuoEnd.server.kx.log).length) = (2, 2) :=
  ⟨demoCompatible, by decide +kernel, by decide +kernel⟩

-- the packets of the applications (and an UNIMPLEMENTED) arrived; some without cipher, under the first and under the second
example : ((receivedUnder none demoDuoEnd.server.kx.log).filter fun x => isPlain x.2).map (·.2) = [[94, 1], [94, 3], [3, 0, 0, 0, 1], [94, 5]] ∧
    ((receivedUnder none demoDuoEnd.client.kx.log).filter fun x => isPlain x.2).map (·.2) = [[94, 2], [94, 4]] ∧
    ((receivedUnder none demoDuoEnd.server.kx.log).map (·.1)).eraseDups.length = 3 := by
  decide +kernel

-- hypotheses of C98_settled
example : demoDuoEnd.client.kx.versionExchanged = true ∧ demoDuoEnd.server.kx.versionExchanged = true ∧
    inFlight demoDuoEnd.client.kx.log demoDuoEnd.server.kx.log = [] ∧
    inFlight demoDuoEnd.server.kx.log demoDuoEnd.client.kx.log = [] := by decide +kernel

-- hypotheses of C98_ends: in the middle of both exchanges, three packets are in flight and six can be delivered
example : (demoDuoRun 21).client.kx.versionExchanged = true ∧ (demoDuoRun 21).server.kx.versionExchanged = true ∧
    Pair.Delivers demoDuoC demoDuoS (demoDuoRun 21) [(.client, true), (.server, true), (.client, true), (.server, true),
      (.client, true), (.server, true)] := by
  refine ⟨by decide +kernel, by decide +kernel, ?_⟩
  simp only [Pair.Delivers]
  decide +kernel

end Lukko
