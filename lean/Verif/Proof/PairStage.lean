import Verif.Proof.PairOther
/-
  Both sides of a pair: how far each is, and what is between them.
-/
namespace Lukko
open Spec Model

/-! ### Queues -/

/-- A packet of the key exchange. -/
def isKexMessage (p : Bytes) : Bool := isMsg 20 p || isMsg 21 p || isMsg 30 p || isMsg 31 p

/-- Packets on their way: `k` are those of the key exchange, the others are plain; before the receiver is
encrypted, NEWKEYS precedes every plain one. -/
structure QOk (q k : List Bytes) (enc : Bool) : Prop where
  kex : q.filter isKexMessage = k
  plain : ∀ p ∈ q, isKexMessage p = false → isPlain p = true
  clean : enc = false → ∀ a x b, q = a ++ x :: b → isKexMessage x = false → [21] ∈ a

theorem isPlain_not_kex {p} (h : isPlain p = true) : isKexMessage p = false := by
  simp only [isPlain, isKexMessage, Bool.and_eq_true, Bool.not_eq_true', Bool.or_eq_false_iff] at h ⊢
  exact ⟨⟨⟨h.1.1.1.2, h.1.1.2⟩, h.1.2⟩, h.2⟩

theorem QOk.pushPlain {q k enc x} (h : QOk q k enc) (hx : isPlain x = true) (hc : enc = false → [21] ∈ k) : QOk (q ++ [x]) k enc where
  kex := by rw [List.filter_append, h.kex]; simp [isPlain_not_kex hx]
  plain := by
    intro p hp hk
    rcases List.mem_append.mp hp with hp | hp
    · exact h.plain p hp hk
    · simp at hp; rw [hp]; exact hx
  clean := by
    intro he a y b hq hy
    rcases List.eq_nil_or_concat b with rfl | ⟨b', z, rfl⟩
    · have := List.append_inj' hq rfl
      obtain ⟨rfl, _⟩ := this
      have := hc he
      rw [← h.kex] at this
      exact (List.mem_filter.mp this).1
    · have : q ++ [x] = (a ++ y :: b') ++ [z] := by simpa using hq
      obtain ⟨rfl, _⟩ := List.append_inj' this rfl
      exact h.clean he a y b' rfl hy

theorem QOk.pushKex {q k enc x} (h : QOk q k enc) (hx : isKexMessage x = true) : QOk (q ++ [x]) (k ++ [x]) enc where
  kex := by rw [List.filter_append, h.kex]; simp [hx]
  plain := by
    intro p hp hk
    rcases List.mem_append.mp hp with hp | hp
    · exact h.plain p hp hk
    · simp at hp; rw [hp, hx] at hk; exact absurd hk (by decide)
  clean := by
    intro he a y b hq hy
    rcases List.eq_nil_or_concat b with rfl | ⟨b', z, rfl⟩
    · obtain ⟨rfl, hz⟩ := List.append_inj' hq rfl
      simp at hz; rw [← hz, hx] at hy; exact absurd hy (by decide)
    · have : q ++ [x] = (a ++ y :: b') ++ [z] := by simpa using hq
      obtain ⟨rfl, _⟩ := List.append_inj' this rfl
      exact h.clean he a y b' rfl hy

theorem QOk.pushKexs {q k enc} : ∀ {l : List Bytes}, QOk q k enc → (∀ x ∈ l, isKexMessage x = true) → QOk (q ++ l) (k ++ l) enc
  | [], h, _ => by simpa using h
  | x :: l, h, hl => by
    have h1 := h.pushKex (hl x (by simp))
    have := QOk.pushKexs (l := l) h1 (fun y hy => hl y (by simp [hy]))
    simpa using this

theorem QOk.popKex {q k enc x} (h : QOk (x :: q) k enc) (hx : isKexMessage x = true) :
    ∃ k', k = x :: k' ∧ QOk q k' true ∧ (x ≠ [21] → QOk q k' enc) := by
  have hk := h.kex
  simp only [List.filter_cons, hx, if_true] at hk
  have hp : ∀ p ∈ q, isKexMessage p = false → isPlain p = true := fun p hp => h.plain p (by simp [hp])
  refine ⟨_, hk.symm, ⟨rfl, hp, fun h => absurd h (by decide)⟩, fun hne => ⟨rfl, hp, ?_⟩⟩
  intro he a y b hq hy
  have := h.clean he (x :: a) y b (by rw [hq]; rfl) hy
  rcases List.mem_cons.mp this with h | h
  · exact absurd h.symm hne
  · exact h

theorem QOk.popPlain {q k enc x} (h : QOk (x :: q) k enc) (hx : isKexMessage x = false) :
    enc = true ∧ isPlain x = true ∧ QOk q k enc := by
  have he : enc = true := by
    cases hh : enc with
    | true => rfl
    | false => exact absurd (h.clean hh [] x q rfl hx) (by simp)
  refine ⟨he, h.plain x (by simp) hx, ⟨?_, fun p hp => h.plain p (by simp [hp]), ?_⟩⟩
  · have := h.kex; simpa [List.filter_cons, hx] using this
  · intro hh; rw [he] at hh; exact absurd hh (by decide)

/-! ### Stages -/

/-- How far both sides are, and which packets of the key exchange are on their way to the server and to
the client. -/
inductive Stage (eC eS : KexEnv) (hk : Nat) (c s : Kx) : List Bytes → List Bytes → Prop
  /-- the KEXINITs are being exchanged (or nothing happens) -/
  | hello (cs cr ss sr : Bool) (n : Nat) (hc : c.flags = ⟨cs, cr, false, false⟩) (hs : s.flags = ⟨ss, sr, false, false⟩)
    (ha : agreements c.log = agreements s.log)
    (hcr : cr = true → cs = true ∧ ss = true ∧ c.peerKexinit = s.myKexinit ∧ c.kex = some (.curve25519, n))
    (hsr : sr = true → ss = true ∧ cs = true ∧ s.peerKexinit = c.myKexinit) :
    Stage eC eS hk c s
      ((bif cs && !sr then [20 :: c.myKexinit] else []) ++
        (bif cr then [30 :: ecdhInitBody (eC.ephPub .curve25519 n)] else []))
      (bif ss && !cr then [20 :: s.myKexinit] else [])
  /-- the server has agreed, the client has not -/
  | answered (n m : Nat) (t : Transcript) (sig sec : Bytes) (hc : c.flags = ⟨true, true, false, false⟩)
    (hs : s.flags = ⟨true, true, true, false⟩) (ha : agreements s.log = agreements c.log ++ [t])
    (hn : c.kex = some (.curve25519, n))
    (ht : t = {
      clientVersion := eC.ownVersion, serverVersion := eS.ownVersion, clientKexinit := c.myKexinit,
      serverKexinit := c.peerKexinit, hostKey := eS.hostKeyBlob hk, clientEph := eC.ephPub .curve25519 n,
      serverEph := eS.ephPub .curve25519 m, secret := sec })
    (hsec : eC.shared .curve25519 n (eS.ephPub .curve25519 m) = some sec)
    (hsl : sig.length ≤ 20000)
    (hver : eC.verify (eS.hostKeyBlob hk) (eC.digest (hashInput t)) sig = true) :
    Stage eC eS hk c s [] [31 :: ecdhReplyBody (eS.hostKeyBlob hk) (eS.ephPub .curve25519 m) sig, [21]]
  /-- both have agreed -/
  | crossing (hc : c.flags = ⟨true, true, true, false⟩) (hs : s.flags = ⟨true, true, true, false⟩)
    (ha : agreements c.log = agreements s.log) : Stage eC eS hk c s [[21]] [[21]]
  /-- the client is done, and possibly starts again -/
  | clientDone (cs : Bool) (hc : c.flags = ⟨cs, false, false, false⟩) (hs : s.flags = ⟨true, true, true, false⟩)
    (ha : agreements c.log = agreements s.log) :
    Stage eC eS hk c s ([21] :: (bif cs then [20 :: c.myKexinit] else [])) []
  /-- the server is done, and possibly starts again -/
  | serverDone (ss : Bool) (hc : c.flags = ⟨true, true, true, false⟩) (hs : s.flags = ⟨ss, false, false, false⟩)
    (ha : agreements c.log = agreements s.log) :
    Stage eC eS hk c s [] ([21] :: (bif ss then [20 :: s.myKexinit] else []))

theorem SameSide.rfl' {s : Kx} : SameSide s s := ⟨rfl, rfl, rfl, rfl, rfl, rfl, rfl⟩

theorem Stage.congr {eC eS hk c s c' s' kc ks} (h : Stage eC eS hk c s kc ks) (hc : SameSide c c') (hs : SameSide s s') :
    Stage eC eS hk c' s' kc ks := by
  cases h with
  | hello cs cr ss sr n c1 s1 ha h1 h2 =>
    have := Stage.hello (eC := eC) (eS := eS) (hk := hk) (c := c') (s := s') cs cr ss sr n (by rw [hc.flags, c1]) (by rw [hs.flags, s1])
      (by rw [hc.agreed, hs.agreed, ha]) (by rw [hc.peerKexinit, hs.my, hc.kex]; exact h1) (by rw [hs.peerKexinit, hc.my]; exact h2)
    rw [hc.my, hs.my] at this
    exact this
  | answered n m t sig sec c1 s1 ha hn ht hsec hsl hver =>
    exact .answered n m t sig sec (by rw [hc.flags, c1]) (by rw [hs.flags, s1]) (by rw [hc.agreed, hs.agreed, ha])
      (by rw [hc.kex, hn]) (by rw [hc.my, hc.peerKexinit]; exact ht) hsec hsl hver
  | crossing c1 s1 ha => exact .crossing (by rw [hc.flags, c1]) (by rw [hs.flags, s1]) (by rw [hc.agreed, hs.agreed, ha])
  | clientDone cs c1 s1 ha =>
    rw [← hc.my]
    exact .clientDone cs (by rw [hc.flags, c1]) (by rw [hs.flags, s1]) (by rw [hc.agreed, hs.agreed, ha])
  | serverDone ss c1 s1 ha =>
    rw [← hs.my]
    exact .serverDone ss (by rw [hc.flags, c1]) (by rw [hs.flags, s1]) (by rw [hc.agreed, hs.agreed, ha])

theorem PairSide.inOut {e pv hk alg role s} (h : PairSide e pv hk alg role s) (hi : s.inputEncrypted = true) :
    s.outputEncrypted = true := by
  rw [h.inEnc] at hi
  rw [h.outEnc]
  cases ha : agreements s.log with
  | nil => rw [ha] at hi; cases hh : s.flags.newkeysSent <;> simp [doneOf, hh] at hi
  | cons a l => rfl

/-- Everything about the two sides. -/
structure PState (eC eS : KexEnv) (hk : Nat) (alg : Bytes) (c s : Kx) (qc qs : List Bytes) : Prop where
  client : PairSide eC eS.ownVersion hk alg .client c
  server : PairSide eS eC.ownVersion hk alg .server s
  hqc : sentPackets c.log = received s.log ++ qc
  hqs : sentPackets s.log = received c.log ++ qs
  stage : ∃ kc ks, QOk qc kc s.inputEncrypted ∧ QOk qs ks c.inputEncrypted ∧ Stage eC eS hk c s kc ks

/-- Once a side sends protected packets, the other expects them or NEWKEYS is on its way. -/
theorem Stage.cleanC {eC eS hk alg c s kc ks} (h : Stage eC eS hk c s kc ks) (hc : PairSide eC eS.ownVersion hk alg .client c)
    (hs : PairSide eS eC.ownVersion hk alg .server s) (ho : c.outputEncrypted = true) (hi : s.inputEncrypted = false) :
    [21] ∈ kc := by
  rw [hc.outEnc] at ho
  rw [hs.inEnc] at hi
  cases h with
  | hello cs cr ss sr n c1 s1 ha h1 h2 => rw [s1, ← ha] at hi; simp [doneOf] at hi ho; exact absurd hi ho
  | answered n m t sig sec c1 s1 ha hn ht hsec hsl hver =>
    rw [s1, ha] at hi; simp [doneOf] at hi ho; exact absurd hi ho
  | crossing c1 s1 ha => simp
  | clientDone cs c1 s1 ha => simp
  | serverDone ss c1 s1 ha => rw [s1, ← ha] at hi; simp [doneOf] at hi ho; exact absurd hi ho

theorem Stage.cleanS {eC eS hk alg c s kc ks} (h : Stage eC eS hk c s kc ks) (hc : PairSide eC eS.ownVersion hk alg .client c)
    (hs : PairSide eS eC.ownVersion hk alg .server s) (ho : s.outputEncrypted = true) (hi : c.inputEncrypted = false) :
    [21] ∈ ks := by
  rw [hs.outEnc] at ho
  rw [hc.inEnc] at hi
  cases h with
  | hello cs cr ss sr n c1 s1 ha h1 h2 => rw [c1, ha] at hi; simp [doneOf] at hi ho; exact absurd hi ho
  | answered n m t sig sec c1 s1 ha hn ht hsec hsl hver => simp
  | crossing c1 s1 ha => simp
  | clientDone cs c1 s1 ha => rw [c1, ha] at hi; simp [doneOf] at hi ho; exact absurd hi ho
  | serverDone ss c1 s1 ha => simp

/-! ### What remains to be done -/

/-- The number of packets of the key exchange which still have to be delivered. -/
def kexWork (c s : KexFlags) : Nat :=
  bif c.newkeysSent && s.newkeysSent then 2
  else bif s.newkeysSent then (bif c.kexinitReceived then 3 else bif c.kexinitSent then 7 else 1)
  else bif c.newkeysSent then (bif s.kexinitSent then 7 else 1)
  else bif c.kexinitSent || s.kexinitSent then 6 - (bif c.kexinitReceived then 1 else 0) - (bif s.kexinitReceived then 1 else 0)
  else 0

/-- A plain packet may cause an UNIMPLEMENTED, which causes nothing. -/
def plainWork (p : Bytes) : Nat := bif isKexMessage p then 0 else bif isMsg 2 p || isMsg 3 p then 1 else 2

def queueWork (q : List Bytes) : Nat := (q.map plainWork).sum

def pairWork (c s : Kx) (qc qs : List Bytes) : Nat := kexWork c.flags s.flags + queueWork qc + queueWork qs

theorem queueWork_append (a b : List Bytes) : queueWork (a ++ b) = queueWork a + queueWork b := by simp [queueWork]

theorem queueWork_kex {l : List Bytes} (h : ∀ x ∈ l, isKexMessage x = true) : queueWork l = 0 := by
  induction l with
  | nil => rfl
  | cons a l ih =>
    have h1 := h a (by simp)
    have h2 := ih (fun x hx => h x (by simp [hx]))
    simp only [queueWork, List.map_cons, List.sum_cons, plainWork, h1, cond_true] at h2 ⊢
    rw [Nat.zero_add]; exact h2

end Lukko
