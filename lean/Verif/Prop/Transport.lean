import Verif.Proof.ChannelStrict
import Verif.Proof.Ticket
import Verif.Prop.Output
/-
  C87: the parts of a connection fit together.
  C88: the encrypted connection is a secure channel.
-/
namespace Lukko
open Spec Model

variable {σ τ : Type} {x : TransEnv σ} {role : Role} {evs : List TransEvent} {t : Trans σ}

theorem fit_of_run (hx : EnvOk x) (hev : ∀ ev ∈ evs, TransEventOk ev) (hrun : (Trans.init role).run x evs = some t) :
    Fit x role t := by
  obtain ⟨t', h1, h2⟩ := (Fit.init (x := x) role).run hx hev
  rw [hrun] at h1
  cases h1
  exact h2

/-! ## C87 -/

/-- **C87.** No assertion fails, neither in one of the parts nor where they are put together,
whatever the peer sends, however it is cut into pieces, and however the threads interleave. -/
theorem C87_no_assertion_fails (hx : EnvOk x) (hev : ∀ ev ∈ evs, TransEventOk ev) :
    ((Trans.init role).run x evs).isSome = true := by
  obtain ⟨t, h, _⟩ := (Fit.init (x := x) role).run hx hev
  rw [h]; rfl

/-- **C87.** The packets which the key exchange and the other handlers see are the ones which a
sequential reader finds in the bytes that have arrived, with the keys that were agreed on. -/
theorem C87_received (hx : EnvOk x) (hev : ∀ ev ∈ evs, TransEventOk ev) (hrun : (Trans.init role).run x evs = some t) :
    ∃ ps : List (Nat × Bytes), ps.map (·.2) = received t.kx.kx.log ∧
      ps.map some <+: decode x.ops ((t.kx.kx.log.filterMap Entry.in?).map fun (enc, mac, k) =>
        (x.makeCipher .incoming enc mac k, t.kx.kx.inReset)) none 0 t.inp.fed := by
  have h := fit_of_run hx hev hrun
  refine ⟨t.inp.delivered, h.recv, ?_⟩
  have := inv_delivered_ext h.inp.inv [] []
  rw [List.append_nil, List.append_nil, h.installs] at this
  exact this

/-- **C87.** What is submitted to the output side is what was sent, in that order, each packet framed
for the cipher in force; all that the key exchange sends is there, and no other keys are used than
the ones it installed. -/
theorem C87_sent (hx : EnvOk x) (hev : ∀ ev ∈ evs, TransEventOk ev) (hrun : (Trans.init role).run x evs = some t) :
    Rendered (x.makeCipher .outgoing) x.framed t.posts t.out.submitted ∧
    (t.kx.kx.log.filterMap (Entry.post? t.kx.kx.outReset)).Sublist t.posts ∧
    t.posts.filterMap Outgoing.keys? =
      (t.kx.kx.log.filterMap Entry.out?).map fun (enc, mac, k) => (enc, mac, k, t.kx.kx.outReset) := by
  have h := fit_of_run hx hev hrun
  exact ⟨h.out.rendered, h.posts, h.keys⟩

/-- **C87** (partial: as long as no keys are replaced before the worker thread began to use them, see
`C87_written_violated`).  The bytes on the wire are a prefix of what was submitted, encrypted with the
keys in force. -/
theorem C87_written_partial (hx : EnvOk x) (hev : ∀ ev ∈ evs, TransEventOk ev) (hrun : (Trans.init role).run x evs = some t)
    (hr : t.rushed = false) : t.out.written <+: wire x.ops none 0 t.out.submitted := by
  obtain ⟨es, h1, h2, h3⟩ := (fit_of_run hx hev hrun).out.reach.run
  exact C09_submission_order_partial hx.enc es h1 (h2 hr) h3

/-! ## C88 -/

/-- **C88.** With any peer: if the receiving cipher is ideal for a sequence of packets, beginning with the
number that the receiver expects when the keys are installed, then what is received until the next change of
keys is a prefix of that sequence: nothing is forged, dropped, repeated or reordered. -/
theorem C88_epoch (hx : EnvOk x) (hev : ∀ ev ∈ evs, TransEventOk ev) (hrun : (Trans.init role).run x evs = some t)
    {pre enc mac keys post} (hl : t.kx.kx.log = pre ++ .installIn enc mac keys :: post) {ps : List Bytes}
    (hA : AcceptsOnly x.ops (x.makeCipher .incoming enc mac keys) (if t.kx.kx.inReset then 0 else (received pre).length) ps) :
    receivedOfEpoch post <+: ps := (fit_of_run hx hev hrun).epoch hx hl hA

theorem installIn_prefix {pre : List Entry} (h : hasIn pre = true) :
    ∃ a enc mac keys b, pre = a ++ .installIn enc mac keys :: b ∧ hasIn a = false := by
  induction pre with
  | nil => cases h
  | cons z pre ih =>
    by_cases hz : ∃ e m k, z = Entry.installIn e m k
    · obtain ⟨e, m, k, rfl⟩ := hz
      exact ⟨[], e, m, k, pre, rfl, rfl⟩
    · have h' : hasIn pre = true := by
        simp only [hasIn, List.any_cons, Bool.or_eq_true] at h
        rcases h with h | h
        · cases z <;> simp at h
          exact absurd ⟨_, _, _, rfl⟩ hz
        · exact h
      obtain ⟨a, e, m, k, b, rfl, h2⟩ := ih h'
      refine ⟨z :: a, e, m, k, b, rfl, ?_⟩
      simp only [hasIn, List.any_cons, Bool.or_eq_false_iff]
      refine ⟨?_, h2⟩
      cases z <;> first | rfl | exact absurd ⟨_, _, _, rfl⟩ hz

theorem exchanges_of_last {l : List Entry} {tr : Transcript} (h : lastAgreed l = some tr) : tr ∈ exchanges l := by
  induction l using Aux.snoc_ind with
  | h0 => cases h
  | h1 l z ih =>
    rw [exchanges, List.filterMap_append, List.mem_append]
    by_cases hz : ∃ u, z = Entry.agreed u
    · obtain ⟨u, rfl⟩ := hz
      rw [lastAgreed_snoc] at h
      simp only [Option.some.injEq] at h
      subst h
      exact .inr (by simp)
    · left
      apply ih
      rw [lastAgreed_snoc] at h
      cases z <;> first | exact h | exact absurd ⟨_, rfl⟩ hz

theorem lastAgreed_later {a b : List Entry} (h : ∀ u, .agreed u ∉ b) :
    lastAgreed (a ++ b) = lastAgreed a := by
  induction b using Aux.snoc_ind with
  | h0 => rw [List.append_nil]
  | h1 b z ih =>
    rw [← List.append_assoc, lastAgreed_snoc]
    cases z with
    | agreed t => exact absurd (by simp) (h t)
    | _ => exact ih (fun u hu => h u (List.mem_append_left _ hu))

theorem mem_received {l : List Entry} {p : Bytes} (h : .recv p ∈ l) : p ∈ received l := by
  simp only [received, List.mem_filterMap]
  exact ⟨_, h, rfl⟩

/-- The first KEXINIT is the one before the first keys. -/
theorem first_kexinit {a rest' l rest : List Bytes} {k : Bytes} (h : a ++ rest' = l ++ (20 :: k) :: rest)
    (hl : ∀ q ∈ l, isMsg 20 q = false) {q : Bytes} (hq : q ∈ a) (hm : isMsg 20 q = true) (hc : a.countP (isMsg 20) = 1) : 20 :: k = q ∨ k = q.tail := by
  obtain ⟨c, hc'⟩ | ⟨c, hc'⟩ : (∃ c, a = l ++ (20 :: k) :: c) ∨ (∃ c, l = a ++ c) := by
    rcases List.append_eq_append_iff.mp h with ⟨c, h1, h2⟩ | ⟨c, h1, h2⟩
    · exact .inr ⟨c, h1⟩
    · cases c with
      | nil => exact .inr ⟨[], by simpa using h1.symm⟩
      | cons z c =>
        rw [List.cons_append, List.cons.injEq] at h2
        exact .inl ⟨c, by rw [h1, h2.1]⟩
  · subst hc'
    exact .inr (one_kexinit hc hq hm rfl)
  · subst hc'
    exact absurd hm (by rw [hl q (List.mem_append_left _ hq)]; decide)

section
variable {ι : Type} {xc : TransEnv σ} {tc : Trans σ} {xs : ι → TransEnv τ} {sevs : ι → List TransEvent} {ts : ι → Trans τ}

/-- **C88.** A client of Lukko servers (as many connections as there may be, in the past or at the same
time, with whatever peers), with an attacker who controls the network completely: the client receives with
each set of keys a prefix of what *one* of the servers has sent with the same keys, after a key exchange
whose transcript they share – unless a signature was forged or a collision of the hash is known.  The
cipher is assumed to be ideal: it accepts only what was sent with the same keys after such an exchange, with
the numbers of the sender.  (No assumption about the numbers of the receiver: that the two agree, because
each side begins with zero, is part of what is proved.) -/
theorem C88_end_to_end (hx : EnvOk xc) (hev : ∀ ev ∈ evs, TransEventOk ev) (hrun : (Trans.init .client).run xc evs = some tc)
    (hxs : ∀ i, EnvOk (xs i)) (hevs : ∀ i, ∀ ev ∈ sevs i, TransEventOk ev)
    (hruns : ∀ i, (Trans.init .server).run (xs i) (sevs i) = some (ts i))
    (hdig : ∀ i, (xs i).kex.digest = xc.kex.digest) (hv : xc.kex.ownVersion.length < 2 ^ 32)
    (hvs : ∀ i, (xs i).kex.ownVersion.length < 2 ^ 32) (hcs : ∀ i n, ((xs i).kex.cookie n).length = 16)
    (hz : Sized tc.kx.kx.log) (hzs : ∀ i, Sized (ts i).kx.kx.log)
    {pre enc mac keys post} (hl : tc.kx.kx.log = pre ++ .installIn enc mac keys :: post)
    (hA : ∀ i, (∃ tr ∈ exchanges pre, tr ∈ exchanges (ts i).kx.kx.log) →
      AcceptsOnly xc.ops (xc.makeCipher .incoming enc mac keys) 0 (sentWith enc mac keys (ts i).posts)) :
    Broken xc.kex.verify xc.kex.digest tc.kx.kx.log (fun i => (ts i).kx.kx.log) ∨
    ∃ i tr, lastAgreed pre = some tr ∧ tr ∈ exchanges (ts i).kx.kx.log ∧
      receivedOfEpoch post <+: sentWith enc mac keys (ts i).posts := by
  have hfit := fit_of_run hx hev hrun
  obtain ⟨ces, hce, hck⟩ := hfit.kx
  have hsx : ∀ i, ∃ es, (∀ ev ∈ es, EventOk ev) ∧ (ts i).kx = (KxSys.init .server).run (xs i).kex es :=
    fun i => (fit_of_run (hxs i) (hevs i) (hruns i)).kx
  let ses : ι → List KxEvent := fun i => Classical.choose (hsx i)
  have hse : ∀ i, ∀ ev ∈ ses i, EventOk ev := fun i => (Classical.choose_spec (hsx i)).1
  have hsk : ∀ i, (ts i).kx = (KxSys.init .server).run (xs i).kex (ses i) := fun i => (Classical.choose_spec (hsx i)).2
  let srv : ι → KexEnv × List KxEvent := fun i => ((xs i).kex, ses i)
  have hsl : ∀ i, serverLog (srv i) = (ts i).kx.kx.log := fun i => by rw [hsk i]
  have hds : ∀ i, ∀ m, ((xs i).kex.digest m).length = 32 := fun i => (hxs i).digest
  rw [hck] at hl hz
  -- every set of keys comes from an exchange that one of the servers shares
  have share : ∀ {pre enc mac keys post}, ((KxSys.init .client).run xc.kex ces).kx.log = pre ++ .installIn enc mac keys :: post →
      Broken xc.kex.verify xc.kex.digest tc.kx.kx.log (fun i => (ts i).kx.kx.log) ∨
      ∃ i tr a b c, lastAgreed pre = some tr ∧ (ts i).kx.kx.log = a ++ .agreed tr :: b ∧ c <+: pre ∧
        Mirrored c a xc.kex.ownVersion (xs i).kex.ownVersion := by
    intro pre enc mac keys post hl
    obtain ⟨a, b, hab, ha, hb, _, _, hag, h21, _⟩ := C12_incoming_cipher hx.digest hce hl
    obtain ⟨b₁, p, b₂, rfl, hp⟩ : ∃ b₁ p b₂, b = b₁ ++ .sent p :: b₂ ∧ isMsg 21 p = true := by
      have : 0 < b.countP (Entry.isSent 21) := by omega
      rw [List.countP_pos_iff] at this
      obtain ⟨z, hz1, hz2⟩ := this
      cases z <;> simp only [Entry.isSent] at hz2 <;> first | cases hz2 | skip
      rename_i p
      obtain ⟨b₁, b₂, rfl⟩ := List.append_of_mem hz1
      exact ⟨b₁, p, b₂, rfl, hz2⟩
    have hl' : ((KxSys.init .client).run xc.kex ces).kx.log = (a ++ b₁) ++ .sent p :: (b₂ ++ .installIn enc mac keys :: post) := by
      rw [hl, hab]; simp
    obtain ⟨tr, acc, g1, _, _, g4⟩ := C83_authentic srv hx.digest hce hv hdig hse hvs (fun i => by rw [hsl]; exact hzs i)
      hl' hp (by rw [hl'] at hz; exact hz.prefix)
    have hmem : tr ∈ exchanges tc.kx.kx.log := by
      rw [hck, hl', exchanges, List.filterMap_append, List.mem_append]
      exact .inl (exchanges_of_last g1)
    simp only [hsl] at g4
    rcases g4 with g4 | g4 | ⟨i, sa, sb, hk, g5, _, g6⟩
    · exact .inl ⟨tr, hmem, .inl g4⟩
    · exact .inl ⟨tr, hmem, .inr g4⟩
    · refine .inr ⟨i, tr, sa, sb, a ++ b₁, ?_, g5, ?_, g6⟩
      · rw [hab]
        obtain ⟨pre', t0, sig0, accepts0, hpre, _⟩ := C13_newkeys hx.digest hce hl' hp
        have hb₂ : ∀ u, .agreed u ∉ b₂ := by
          intro u hu
          rcases Aux.snoc_cases b₁ with rfl | ⟨b₃, z, rfl⟩
          · rw [List.append_nil] at hpre
            rcases ha with rfl | ⟨a', _, _, _, rfl⟩
            · simp at hpre
            · have := congrArg List.getLast? hpre
              simp at this
          · have hz : z = .agreed t0 := by
              have := congrArg List.getLast? hpre
              simpa using this
            subst hz
            obtain ⟨c₁, c₂, rfl⟩ := List.append_of_mem hu
            simp only [List.countP_append, List.countP_cons, List.countP_nil, if_true] at hag
            omega
        rw [← List.append_assoc, List.append_cons, lastAgreed_later hb₂, lastAgreed_snoc]
        exact g1
      · rw [hab, ← List.append_assoc]
        exact List.prefix_append _ _
  -- the sequence numbers begin with zero
  have strict : Broken xc.kex.verify xc.kex.digest tc.kx.kx.log (fun i => (ts i).kx.kx.log) ∨ tc.kx.kx.inReset = true := by
    have hin : hasIn ((KxSys.init .client).run xc.kex ces).kx.log = true := by
      rw [hl]; simp [hasIn]
    obtain ⟨pre₀, e₀, m₀, k₀, post₀, h0, h0'⟩ := installIn_prefix hin
    rcases share h0 with h1 | ⟨i, tr, a, b, c, _, h2, ⟨c', h3⟩, h4⟩
    · exact .inl h1
    · right
      obtain ⟨k, s1, s2⟩ := h4.serverKexinit
      obtain ⟨q, q1, q2, q3⟩ := lastRecv_mem s2
      obtain ⟨l, k', p, rest, r1, r2, r3, r4⟩ := reset_known hx.digest hce hin
      obtain ⟨φ, hφ⟩ := (run_safe (role := .client) hx.digest hce).phase
      rw [h0] at hφ
      have hcount := count_kexinit_before hφ
      have hno : pre₀.filterMap Entry.in? = [] := noIn_iff.mp (by
        intro e m k hm
        have : hasIn pre₀ = true := by
          simp only [hasIn, List.any_eq_true]
          exact ⟨_, hm, rfl⟩
        rw [h0'] at this
        cases this)
      rw [hno, List.length_nil, Nat.zero_add] at hcount
      have hq : q ∈ received pre₀ := mem_received (by rw [← h3]; exact List.mem_append_left _ q1)
      have hk : k' = k := by
        rw [h0] at r1
        simp only [received, List.filterMap_append] at r1
        rcases first_kexinit r1 r2 (q := q) hq q2 hcount with h | h
        · rw [← q3, ← h]; rfl
        · rw [h, q3]
      subst hk
      rw [hsk i] at h2
      obtain ⟨p', t1, t2⟩ := own_strict (hds i) (hse i) (hcs i) h2 (by
        have := hzs i
        rw [hsk i, h2] at this
        exact this.prefix) s1
      rw [r3] at t1
      cases t1
      rw [hck, r4, t2]
  rcases strict with h1 | hreset
  · exact .inl h1
  · rcases share hl with h1 | ⟨i, tr, a, b, c, g1, g2, _, _⟩
    · exact .inl h1
    · have hmem : tr ∈ exchanges (ts i).kx.kx.log := by
        rw [g2]; simp [exchanges]
      refine .inr ⟨i, tr, g1, hmem, ?_⟩
      refine hfit.epoch hx (by rw [hck]; exact hl) ?_
      rw [hreset, if_pos rfl]
      exact hA i ⟨tr, exchanges_of_last g1, hmem⟩

end

/-! ## Examples -/

/-- A packet with four bytes of padding. -/
def demoFrame (p : Bytes) : Bytes := u32 (p.length + 5) ++ 4 :: (p ++ [0, 0, 0, 0])

/-- A packet on the wire, for the toy cipher. -/
def demoSealed (p : Bytes) : Bytes := demoFrame p ++ [0xAA]

/-- A connection which accepts these packets, the first of which has the number `start`. -/
def demoLink (kex : KexEnv) (start : Nat) (ps : List Bytes) : TransEnv (Nat × List Bytes) where
  kex := kex
  ops := ticket
  makeCipher := fun d _ _ _ => match d with
    | .incoming => (start, ps.map demoFrame)
    | .outgoing => (0xAA, [])
  frame := fun _ _ _ p => demoFrame p

theorem demoFrame_ne (p : Bytes) : demoFrame p ≠ [] := by
  intro h
  simp [demoFrame] at h

theorem demoLink_ok {kex : KexEnv} (hd : ∀ m, (kex.digest m).length = 32) (start : Nat) (ps : List Bytes) :
    EnvOk (demoLink kex start ps) where
  sane := ticket_sane
  enc := ticket_nonempty
  frame := fun _ _ _ p => demoFrame_ne p
  digest := hd

theorem payloadOf_demoFrame {p : Bytes} (hp : p ≠ []) : payloadOf ((demoFrame p).drop 4) = some p := by
  have h : (demoFrame p).drop 4 = 4 :: (p ++ [0, 0, 0, 0]) := by
    have : (u32 (p.length + 5)).length = 4 := by simp [u32]
    rw [demoFrame, List.drop_append_of_le_length (by omega), List.drop_of_length_le (by omega), List.nil_append]
  have hl : p.length ≠ 0 := by simpa using hp
  rw [h, payloadOf, if_pos]
  · simp only [List.length_cons, List.length_append, List.length_nil]
    rw [show p.length + 4 + 1 - (4 : UInt8).toNat - 1 = p.length from by
      have : (4 : UInt8).toNat = 4 := rfl
      omega, List.take_left]
  · simp only [List.length_cons, List.length_append, List.length_nil]
    have : (4 : UInt8).toNat = 4 := rfl
    omega

/-- The toy cipher is ideal. -/
theorem demoLink_accepts (start : Nat) {ps : List Bytes} (hp : ∀ p ∈ ps, p ≠ []) :
    AcceptsOnly ticket (start, ps.map demoFrame) start ps := by
  have h := ticket_accepts start (ps.map demoFrame) ps 0 (by
    rw [List.drop_zero, List.map_map]
    exact List.map_congr_left fun p hm => payloadOf_demoFrame (hp p hm))
  simpa using h

/-- Packets arrive unencrypted. -/
def demoPlain (ps : List Bytes) : List TransEvent :=
  ps.flatMap fun p => [.feed (demoFrame p), .ready fun _ => .unclaimed]

/-- Bytes arrive and are decrypted by the worker thread. -/
def demoDecrypt (w : Bytes) (n : Nat) : List TransEvent :=
  [.feed w, .inBegin 10000] ++ List.replicate (n + 1) .inLoop ++ [.inEnd 0] ++ List.replicate n (.ready fun _ => .unclaimed)

theorem plain_ok (ps : List Bytes) : ∀ ev ∈ demoPlain ps, TransEventOk ev := by
  intro ev h
  simp only [demoPlain, List.mem_flatMap, List.mem_cons, List.not_mem_nil, or_false] at h
  obtain ⟨p, _, rfl | rfl⟩ := h
  · trivial
  · intro raw; exact .inl rfl

theorem decrypt_ok (w : Bytes) (n : Nat) : ∀ ev ∈ demoDecrypt w n, TransEventOk ev := by
  intro ev h
  simp only [demoDecrypt, List.mem_append, List.mem_cons, List.not_mem_nil, or_false, List.mem_replicate] at h
  rcases h with (((rfl | rfl) | ⟨_, rfl⟩) | rfl) | ⟨_, rfl⟩ <;> first | trivial | (intro raw; exact .inl rfl)

/-- The worker thread encrypts `n` packets, which are then written. -/
def demoEncrypt (n : Nat) : List TransEvent :=
  [.writable (.accepted 100000), .outBegin] ++ List.replicate n .outEncrypt ++ [.outEnd, .writable (.accepted 100000)]

theorem encrypt_ok (n : Nat) : ∀ ev ∈ demoEncrypt n, TransEventOk ev := by
  intro ev h
  simp only [demoEncrypt, List.mem_append, List.mem_cons, List.not_mem_nil, or_false, List.mem_replicate] at h
  rcases h with ((rfl | rfl) | ⟨_, rfl⟩) | rfl | rfl <;> trivial

theorem ok_append {as bs : List TransEvent} (h : ∀ ev ∈ as, TransEventOk ev) (h' : ∀ ev ∈ bs, TransEventOk ev) :
    ∀ ev ∈ as ++ bs, TransEventOk ev := by
  intro ev hm
  rcases List.mem_append.mp hm with hm | hm
  · exact h ev hm
  · exact h' ev hm

theorem demoEnd_digest (v : Bytes) (k : UInt8) : ∀ m, ((demoEnd v k).digest m).length = 32 := demoEnv_digest

/-- The server of C83 exchanges keys with the client, and sends it two packets. -/
def demoLinkS : TransEnv (Nat × List Bytes) := demoLink demoEndS 0 []

def demoServing : List TransEvent :=
  [.version (ascii "SSH-2.0-client")] ++ (demoPlain [20 :: (lastSent 20 (demoEndClient demoPairC)).getD [],
    30 :: (lastSent 30 (demoEndClient demoPairC)).getD [], [21]] ++ ([.send [6, 1], .send [6, 2]] ++ demoEncrypt 2))

/-- What the server writes, encrypted: the attacker drops the last packet. -/
def demoWritten : Bytes :=
  (((Trans.init .server).run demoLinkS demoServing).map (·.out.written)).getD []

/-- Its client. -/
def demoLinkC : TransEnv (Nat × List Bytes) := demoLink demoEndC 0 [[6, 1], [6, 2]]

def demoBrowsing : List TransEvent :=
  [.version (ascii "SSH-2.0-server"), .feed (demoWritten.take (demoWritten.length - 12))] ++
    (List.replicate 3 (.ready fun _ => .unclaimed) ++ ([.send [7]] ++ (demoEncrypt 1 ++ demoDecrypt [] 1)))

theorem demoServing_ok : ∀ ev ∈ demoServing, TransEventOk ev :=
  ok_append (by simp [TransEventOk]) (ok_append (plain_ok _) (ok_append (by simp [TransEventOk]) (encrypt_ok 2)))

theorem demoBrowsing_ok : ∀ ev ∈ demoBrowsing, TransEventOk ev := by
  refine ok_append (by simp [TransEventOk]) (ok_append ?_ (ok_append (by simp [TransEventOk]) (ok_append (encrypt_ok 1) (decrypt_ok _ _))))
  intro ev h
  obtain ⟨_, rfl⟩ := List.mem_replicate.mp h
  intro raw; exact .inl rfl

/-- Non-vacuity (C87): the server writes four packets and two encrypted ones. -/
example : EnvOk demoLinkS ∧ (∀ ev ∈ demoServing, TransEventOk ev) ∧
    ((Trans.init .server).run demoLinkS demoServing).map (fun t =>
      (t.rushed, t.posts.length, (received t.kx.kx.log).length, decide (t.out.written = wire ticket none 0 t.out.submitted))) =
      some (false, 6, 3, true) := by
  exact ⟨demoLink_ok (demoEnd_digest _ _) 0 [], demoServing_ok, by decide +kernel⟩

/-- Non-vacuity (C88): the client receives the first of the two packets, as one which was sent with the same keys. -/
example : EnvOk demoLinkC ∧ (∀ ev ∈ demoBrowsing, TransEventOk ev) ∧
    (∀ n, (demoLinkS.kex.cookie n).length = 16) ∧ demoLinkS.kex.digest = demoLinkC.kex.digest ∧
    AcceptsOnly ticket (demoLinkC.makeCipher .incoming [] [] ⟨[], [], []⟩) 0 [[6, 1], [6, 2]] ∧
    (((Trans.init .client).run demoLinkC demoBrowsing).bind fun c =>
      ((Trans.init .server).run demoLinkS demoServing).map fun s =>
        (exchanges c.kx.kx.log == exchanges s.kx.kx.log && c.kx.kx.inReset && decide (Sized c.kx.kx.log) && decide (Sized s.kx.kx.log),
        (c.kx.kx.log.filterMap Entry.in?).map fun (enc, mac, k) => sentWith enc mac k s.posts,
        receivedOfEpoch (c.kx.kx.log.dropWhile (!·.isInstallIn)).tail)) =
      some (true, [[[6, 1], [6, 2]]], [[6, 1]]) := by
  refine ⟨demoLink_ok (demoEnd_digest _ _) 0 _, demoBrowsing_ok, ?_, ?_, demoLink_accepts 0 (by decide), by decide +kernel⟩
  · simp only [demoLinkS, demoLink, demoEndS, demoEnd, demoEnv, List.length_replicate, implies_true]
  · simp only [demoLinkS, demoLinkC, demoLink, demoEndC, demoEndS, demoEnd, demoEnv]

/-- A client which does not know the strict key exchange. -/
def demoOld : List Bytes :=
  [demoKexInit (ascii "curve25519-sha256") false, 30 :: str (List.replicate 32 9), [21]]

def demoTerrapin : List TransEvent :=
  [.version (ascii "SSH-2.0-demo")] ++ (demoPlain (demoOld.take 2 ++ [[2, 0, 0, 0, 0]] ++ demoOld.drop 2) ++
    demoDecrypt (demoSealed [6, 2] ++ demoSealed [6, 3]) 2)

theorem demoTerrapin_ok : ∀ ev ∈ demoTerrapin, TransEventOk ev :=
  ok_append (by simp [TransEventOk]) (ok_append (plain_ok _) (decrypt_ok _ _))

/-- **C88 is false** without the strict key exchange (which the server does not insist on; "Terrapin"): the
attacker inserts an IGNORE before the keys are in force, and removes the first packet after that.  The client has
sent three packets (`demoOld`) before its new keys, the server believes that there were four, and so it
accepts the second packet as the first one. -/
theorem C88_terrapin_violated : ∃ (x : TransEnv (Nat × List Bytes)) (evs : List TransEvent) (t : Trans (Nat × List Bytes))
    (pre post : List Entry) (enc mac : Bytes) (keys : Keys),
    EnvOk x ∧ (∀ ev ∈ evs, TransEventOk ev) ∧ (Trans.init .server).run x evs = some t ∧ t.live = true ∧
    t.kx.kx.log = pre ++ .installIn enc mac keys :: post ∧
    demoOld.Sublist (received pre) ∧
    AcceptsOnly x.ops (x.makeCipher .incoming enc mac keys) demoOld.length [[6, 1], [6, 2], [6, 3]] ∧
    receivedOfEpoch post = [[6, 2], [6, 3]] := by
  have key : ((Trans.init .server).run (demoLink demoEndS 3 [[6, 1], [6, 2], [6, 3]]) demoTerrapin).map (fun t =>
      (t.live && decide (demoOld.Sublist (received (t.kx.kx.log.takeWhile (!·.isInstallIn)))) &&
        (t.kx.kx.log.dropWhile (!·.isInstallIn)).head?.any (·.isInstallIn),
        receivedOfEpoch (t.kx.kx.log.dropWhile (!·.isInstallIn)).tail)) =
      some (true, [[6, 2], [6, 3]]) := by decide +kernel
  cases hr : (Trans.init .server).run (demoLink demoEndS 3 [[6, 1], [6, 2], [6, 3]]) demoTerrapin with
  | none => rw [hr] at key; cases key
  | some t =>
    rw [hr, Option.map_some, Option.some.injEq, Prod.mk.injEq, Bool.and_eq_true, Bool.and_eq_true] at key
    obtain ⟨⟨⟨h1, h2⟩, h3⟩, h4⟩ := key
    cases hd : t.kx.kx.log.dropWhile (!·.isInstallIn) with
    | nil => rw [hd] at h3; cases h3
    | cons z post =>
      rw [hd] at h3 h4
      cases z <;> first | cases h3 | skip
      rename_i enc mac keys
      refine ⟨_, _, t, t.kx.kx.log.takeWhile (!·.isInstallIn), post, enc, mac, keys,
        demoLink_ok (demoEnd_digest _ _) 3 [[6, 1], [6, 2], [6, 3]], demoTerrapin_ok, hr, h1, ?_, of_decide_eq_true h2, ?_, h4⟩
      · rw [← hd, List.takeWhile_append_dropWhile]
      · exact demoLink_accepts 3 (by decide)

/-! ### Two key exchanges in a hurry -/

/-- Keys which depend on the shared secret only. -/
def demoHasty : KexEnv := { demoEndS with digest := fun m => (m ++ List.replicate 32 0).take 32 }

/-- The second exchange of the client. -/
def demoAgain : List Bytes := [demoKexInit (ascii "curve25519-sha256") false, 30 :: str (List.replicate 32 77)]

/-- The tag of a packet depends on the keys. -/
def demoHurry : TransEnv (Nat × List Bytes) := { demoLink demoHasty 3 demoAgain with
  makeCipher := fun d _ _ k => match d with
    | .incoming => (3, demoAgain.map demoFrame)
    | .outgoing => ((k.key.headD 0).toNat + (k.key.getD 4 0).toNat, []) }

def demoRush : List TransEvent :=
  [.version (ascii "SSH-2.0-demo")] ++ (demoPlain demoOld ++ (demoDecrypt (demoAgain.flatMap demoSealed) 2 ++ demoEncrypt 3))

theorem demoRush_ok : ∀ ev ∈ demoRush, TransEventOk ev :=
  ok_append (by simp [TransEventOk]) (ok_append (plain_ok _) (ok_append (decrypt_ok _ _) (encrypt_ok _)))

/-- **C87 is false** without that restriction: a client which begins a second key exchange right after the
first one, and completes it before the worker thread of the server gets to run, makes the server encrypt
packets with the second keys which belong to the first ones – among them the NEWKEYS after which the second
keys are to be used. -/
theorem C87_written_violated : ∃ (x : TransEnv (Nat × List Bytes)) (evs : List TransEvent) (t : Trans (Nat × List Bytes)),
    EnvOk x ∧ (∀ ev ∈ evs, TransEventOk ev) ∧ (Trans.init .server).run x evs = some t ∧ t.live = true ∧
    ¬ t.out.written <+: wire x.ops none 0 t.out.submitted := by
  have key : ((Trans.init .server).run demoHurry demoRush).map (fun t =>
      (t.live, decide (t.out.written <+: wire ticket none 0 t.out.submitted))) = some (true, false) := by decide +kernel
  cases hr : (Trans.init .server).run demoHurry demoRush with
  | none => rw [hr] at key; cases key
  | some t =>
    rw [hr, Option.map_some, Option.some.injEq, Prod.mk.injEq] at key
    refine ⟨demoHurry, demoRush, t, ⟨ticket_sane, ticket_nonempty, fun _ _ _ p => demoFrame_ne p, ?_⟩, demoRush_ok, hr, key.1,
      of_decide_eq_false key.2⟩
    intro m
    simp [demoHurry, demoLink, demoHasty]

end Lukko
