import Verif.Proof.Input
/-
  The invariant of `InputSys` and its preservation.
-/
namespace Lukko.Model
open Spec

variable {σ : Type} {ops : CipherOps σ}

/-- Decrypted packets (still with their padding length byte), numbered. -/
def number : Nat → List Bytes → List (Option (Nat × Bytes))
  | _, [] => []
  | b, d :: ds => some (b, d.drop 1) :: number (b + 1) ds

theorem number_append (b : Nat) (xs ys : List Bytes) :
    number b (xs ++ ys) = number b xs ++ number (b + xs.length) ys := by
  induction xs generalizing b with
  | nil => simp [number]
  | cons x xs ih => simp [number, ih]; congr 1; omega

/-- The worker's local list. -/
def Worker.list : Worker → List Bytes
  | .idle => []
  | .loop l => l
  | .finish l _ => l

/-- Packets decrypted, but not yet given to the event thread. -/
def InputSys.pending (s : InputSys σ) : List Bytes :=
  (bif s.handling.isSome && s.input.consumedEncrypted then s.input.decryptedList.tail
    else s.input.decryptedList) ++ s.worker.list

def nk (d : Bytes) : Bool := isNewKeys (d.drop 1)

/-- A NEWKEYS being handled already has its cipher. -/
def InputSys.settled (s : InputSys σ) : Prop :=
  ∀ p, s.handling = some p → isNewKeys p = true → s.installed = true

/-- The sequence number following the packets delivered so far. -/
def InputSys.base (s : InputSys σ) : Int := s.input.readSeq + if s.handling.isSome then 1 else 0

def InputSys.all (ops : CipherOps σ) (s : InputSys σ) (cs : List (σ × Bool)) (t : Bytes) :
    List (Option (Nat × Bytes)) :=
  decode ops (s.installs ++ cs) none 0 (s.fed ++ t)

def PlainInv (ops : CipherOps σ) (s : InputSys σ) : Prop :=
  s.input.encrypted = false ∧ s.input.error = false ∧ s.worker = .idle ∧
  s.input.decryptedList = [] ∧ s.input.unprotectedBuffer = [] ∧
  s.input.consumedEncrypted = false ∧ 0 ≤ s.input.readSeq ∧
  ∃ b : Nat, s.base = b ∧
  ((s.input.waitingForNewCipher = false ∧
      (∀ p, s.handling = some p → isNewKeys p = false) ∧
      ∃ hdr, PlainAt s.input hdr ∧ ∀ cs t, s.all ops cs t =
        s.delivered.map some ++ decode ops cs none b (hdr ++ s.input.rawBuffer ++ t)) ∨
   (s.input.waitingForNewCipher = true ∧ s.input.packetLength = 0 ∧ s.installed = false ∧
      (∃ p, s.handling = some p ∧ isNewKeys p = true) ∧ ∀ cs t, s.all ops cs t =
        s.delivered.map some ++ resume ops cs b (s.input.rawBuffer ++ t)))

def EncInv (ops : CipherOps σ) (s : InputSys σ) : Prop :=
  s.input.encrypted = true ∧ s.input.error = false ∧
  (s.handling.isSome → s.input.consumedEncrypted = true → s.input.decryptedList ≠ []) ∧
  ∃ b : Nat, s.base = b ∧ s.input.decryptSeq = b + s.pending.length ∧
  ((s.input.waitingForNewCipher = false ∧ (∀ l, s.worker ≠ .finish l true) ∧
      (∀ d ∈ s.pending, nk d = false) ∧ s.settled ∧
      ∃ c₀, EncAt ops s.input c₀ ∧ ∀ cs t, s.all ops cs t =
        s.delivered.map some ++ number b s.pending ++ decode ops cs (some c₀) s.input.decryptSeq
          (s.input.unprotectedBuffer ++ s.input.rawBuffer ++ t)) ∨
   (s.input.packetLength = 0 ∧
      ((s.input.waitingForNewCipher = true ∧ s.worker = .idle) ∨
       (s.input.waitingForNewCipher = false ∧ ∃ l, s.worker = .finish l true ∧ l ≠ [])) ∧
      ((s.settled ∧ ∃ pl d, s.pending = pl ++ [d] ∧ nk d = true ∧ ∀ d' ∈ pl, nk d' = false) ∨
       (s.input.waitingForNewCipher = true ∧ s.pending = [] ∧ s.installed = false ∧
         ∃ p, s.handling = some p ∧ isNewKeys p = true)) ∧
      ∀ cs t, s.all ops cs t =
        s.delivered.map some ++ number b s.pending ++ resume ops cs s.input.decryptSeq
          (s.input.unprotectedBuffer ++ s.input.rawBuffer ++ t)))

def ErrInv (ops : CipherOps σ) (s : InputSys σ) : Prop :=
  s.input.encrypted = true ∧ s.input.error = true ∧ s.worker = .idle ∧ s.settled ∧
  (s.handling.isSome → s.input.consumedEncrypted = true → s.input.decryptedList ≠ []) ∧
  ∀ cs t, s.delivered.map some <+: s.all ops cs t

def InputInv (ops : CipherOps σ) (s : InputSys σ) : Prop :=
  PlainInv ops s ∨ EncInv ops s ∨ ErrInv ops s

theorem inv_init : InputInv ops ({} : InputSys σ) := by
  left
  refine ⟨rfl, rfl, rfl, rfl, rfl, rfl, by simp, 0, rfl, .inl ⟨rfl, by simp, [], .inl ⟨rfl, rfl⟩, ?_⟩⟩
  intro cs t
  simp [InputSys.all]

/-! ### feed -/

theorem inv_feed {s : InputSys σ} (h : InputInv ops s) (chunk : Bytes) :
    InputInv ops { s with input := s.input.feed chunk, fed := s.fed ++ chunk } := by
  rcases h with h | h | h
  · left
    obtain ⟨h1, h2, h3, h4, h5, h6, h7, b, hb, h8⟩ := h
    refine ⟨h1, h2, h3, h4, h5, h6, h7, b, hb, ?_⟩
    rcases h8 with ⟨w, hn, hdr, hp, hd⟩ | ⟨w, hp, hi, hk, hd⟩
    · refine .inl ⟨w, hn, hdr, hp, fun cs t => ?_⟩
      have := hd cs (chunk ++ t)
      simpa [InputSys.all, Input.feed] using this
    · refine .inr ⟨w, hp, hi, hk, fun cs t => ?_⟩
      have := hd cs (chunk ++ t)
      simpa [InputSys.all, Input.feed] using this
  · right; left
    obtain ⟨h1, h2, h3, b, hb, hq, h8⟩ := h
    refine ⟨h1, h2, h3, b, hb, hq, ?_⟩
    rcases h8 with ⟨w, hf, hn, hse, c₀, hp, hd⟩ | ⟨hp, hw, hk, hd⟩
    · refine .inl ⟨w, hf, hn, hse, c₀, hp, fun cs t => ?_⟩
      have := hd cs (chunk ++ t)
      simpa [InputSys.all, Input.feed, InputSys.pending] using this
    · refine .inr ⟨hp, hw, hk, fun cs t => ?_⟩
      have := hd cs (chunk ++ t)
      simpa [InputSys.all, Input.feed, InputSys.pending] using this
  · right; right
    obtain ⟨h1, h2, h3, h4, h5, h6⟩ := h
    refine ⟨h1, h2, h3, h4, h5, fun cs t => ?_⟩
    have := h6 cs (chunk ++ t)
    simpa [InputSys.all] using this

/-! ### read -/

theorem readPacket_nil {i : Input σ} (he : i.encrypted = true) (hr : i.error = false)
    (hd : i.decryptedList = []) (hw : i.waitingForNewCipher = false) :
    i.readPacket = .ok (none, { i with consumedEncrypted := true }) := by
  simp [Input.readPacket, he, Input.readDecryptedPacket, hr, hd, hw, bind, Except.bind, pure, Except.pure]

theorem readPacket_cons {i : Input σ} (he : i.encrypted = true) (hr : i.error = false) {d rest}
    (hd : i.decryptedList = d :: rest) :
    i.readPacket = .ok (some (d.drop 1), { i with consumedEncrypted := true }) := by
  simp [Input.readPacket, he, Input.readDecryptedPacket, hr, hd, bind, Except.bind, pure, Except.pure]

theorem readPacket_error {i : Input σ} (he : i.encrypted = true) (hr : i.error = true) :
    i.readPacket = .error .protocol := by
  simp [Input.readPacket, he, Input.readDecryptedPacket, hr, bind, Except.bind]

theorem inv_read {s : InputSys σ} (h : InputInv ops s) (hh : s.handling = none) :
    match s.input.readPacket with
    | .error .assertFailed => False
    | .error .protocol => True
    | .ok (none, i) => InputInv ops { s with input := i }
    | .ok (some p, i) =>
      InputInv ops { s with
        input := i, handling := some p, installed := false,
        delivered := s.delivered ++ [(i.readSeq.toNat, p)] } := by
  rcases h with h | h | h
  · obtain ⟨h1, h2, h3, h4, h5, h6, h7, b, hb, h8⟩ := h
    rcases h8 with ⟨w, hn, hdr, hp, hd⟩ | ⟨w, hp, hi, ⟨p, hp', _⟩, hd⟩
    · have hrp : s.input.readPacket = s.input.readUnencryptedPacket := by
        simp [Input.readPacket, h1]
      rw [hrp]
      have hbr : s.input.readSeq = b := by simpa [InputSys.base, hh] using hb
      rcases readUnencrypted_cases (ops := ops) hp w b with
        ⟨i', hdr', hr, hp', happ, ⟨n, hi'⟩, hnx⟩ | ⟨hr, hnx⟩ | ⟨p, n, hr, hne, hnx⟩
      · rw [hr]
        simp only
        left
        have e : ∀ cs t, s.all ops cs t = s.delivered.map some ++ decode ops cs none b (hdr' ++ i'.rawBuffer ++ t) := by
          intro cs t; rw [happ]; exact hd cs t
        rw [hi'] at hp' ⊢
        refine ⟨h1, h2, h3, h4, h5, h6, h7, b, hb, .inl ⟨w, hn, hdr', hp', fun cs t => ?_⟩⟩
        exact e cs t
      · rw [hr]; simp
      · rw [hr]
        simp only
        left
        obtain ⟨hn4, hnl, hnx'⟩ := next_packet hnx
        refine ⟨h1, h2, h3, h4, h5, h6, h7, b + 1, ?_, ?_⟩
        · simp [InputSys.base, hbr]
        · cases hk : isNewKeys p with
          | false =>
            refine .inl ⟨rfl, ?_, [], .inl ⟨rfl, rfl⟩, fun cs t => ?_⟩
            · intro p' hp'; injection hp' with e; rw [← e]; exact hk
            · have := hd cs t
              simp only [InputSys.all] at this ⊢
              rw [this, decode_packet (hnx' t) hk]
              rw [List.drop_append_of_le_length hnl]
              simp [hbr]
          | true =>
            refine .inr ⟨rfl, rfl, rfl, ⟨p, rfl, hk⟩, fun cs t => ?_⟩
            have := hd cs t
            simp only [InputSys.all] at this ⊢
            rw [this, decode_newkeys (hnx' t) hk]
            rw [List.drop_append_of_le_length hnl]
            simp [hbr]
    · rw [hh] at hp'; simp at hp'
  · obtain ⟨h1, h2, h3, b, hb, hq, h8⟩ := h
    have hbr : s.input.readSeq = b := by simpa [InputSys.base, hh] using hb
    have hpend : s.pending = s.input.decryptedList ++ s.worker.list := by
      simp [InputSys.pending, hh]
    cases hdl : s.input.decryptedList with
    | nil =>
      have hw : s.input.waitingForNewCipher = false := by
        rcases h8 with ⟨w, _⟩ | ⟨hp, hw, hk, hd⟩
        · exact w
        · rcases hw with ⟨w, hi⟩ | ⟨w, _⟩
          · exfalso
            rcases hk with ⟨_, pl, d, hpl, _⟩ | ⟨_, _, _, p, hp', _⟩
            · rw [hpend, hdl, hi] at hpl; simp [Worker.list] at hpl
            · rw [hh] at hp'; simp at hp'
          · exact w
      rw [readPacket_nil h1 h2 hdl hw]
      right; left
      have hpend' : InputSys.pending { s with input := { s.input with consumedEncrypted := true } }
          = s.pending := by simp [InputSys.pending, hh]
      refine ⟨h1, h2, by simp [hh], b, hb, by rw [hpend']; exact hq, ?_⟩
      rw [hpend']
      exact h8
    | cons d rest =>
      rw [readPacket_cons h1 h2 hdl]
      right; left
      have hpend' : ∀ q, InputSys.pending { s with
            input := { s.input with consumedEncrypted := true },
            handling := some (d.drop 1), installed := false, delivered := q }
          = rest ++ s.worker.list := by intro q; simp [InputSys.pending, hdl]
      rw [hpend, hdl] at hq h8
      refine ⟨h1, h2, by simp [hdl], b + 1, ?_, ?_, ?_⟩
      · simp [InputSys.base, hbr]
      · rw [hpend']; simp only [hq]; simp; omega
      · rw [hpend']
        have hnum : ∀ x, s.delivered.map some ++ number b (d :: rest ++ s.worker.list) ++ x
            = (s.delivered ++ [(s.input.readSeq.toNat, d.drop 1)]).map some
              ++ number (b + 1) (rest ++ s.worker.list) ++ x := by
          intro x; simp [number, hbr]
        rcases h8 with ⟨w, hf, hn, hse, c₀, hp, hd⟩ | ⟨hp, hw, hk, hd⟩
        · refine .inl ⟨w, hf, ?_, ?_, c₀, hp, fun cs t => ?_⟩
          · intro d' hd'; exact hn d' (by simp only [List.cons_append, List.mem_cons]; exact .inr hd')
          · intro p hp' hk'
            injection hp' with hp'
            have := hn d (by simp)
            rw [← hp'] at hk'; rw [nk, hk'] at this; simp at this
          · rw [← hnum]; exact hd cs t
        · refine .inr ⟨hp, hw, ?_, fun cs t => ?_⟩
          · rcases hk with ⟨hse, pl, d', hpl, hd', hall⟩ | ⟨_, hpe, _⟩
            · cases pl with
              | nil =>
                right
                simp at hpl
                obtain ⟨rfl, hr, hwl⟩ := hpl
                refine ⟨?_, by simp [hr, hwl], rfl, _, rfl, hd'⟩
                rcases hw with ⟨w, _⟩ | ⟨_, l, hl, hne⟩
                · exact w
                · rw [hl] at hwl; simp [Worker.list] at hwl; exact absurd hwl hne
              | cons x pl =>
                left
                simp at hpl
                obtain ⟨rfl, hpl⟩ := hpl
                refine ⟨?_, pl, d', hpl, hd', fun y hy => hall y (by simp [hy])⟩
                intro p hp' hk'
                injection hp' with hp'
                have := hall d (by simp)
                rw [← hp'] at hk'; rw [nk, hk'] at this; simp at this
            · simp at hpe
          · rw [← hnum]; exact hd cs t
  · obtain ⟨h1, h2, h3, h4, h5, h6⟩ := h
    rw [readPacket_error h1 h2]; trivial

theorem setCipher_ok {i : Input σ} (hw : i.waitingForNewCipher = true) (hp : i.packetLength = 0) (c : σ) :
    i.setCipher c = .ok { i with
      waitingForNewCipher := false, cipher := some c, encrypted := true,
      readSeq := if i.autoResetSeq then -1 else i.readSeq,
      decryptSeq := if i.autoResetSeq then 0 else if i.encrypted then i.decryptSeq
        else (i.readSeq + 1).toNat } := by
  unfold Input.setCipher
  rw [if_neg (by simp [hw]), if_neg (by simp [hp])]
  obtain ⟨_, _, _, _, _, _, _, _, enc, _, _, ar⟩ := i
  cases enc <;> cases ar <;> rfl

theorem consume_plain {i : Input σ} (h : i.consumedEncrypted = false) :
    i.consumePacket = .ok { i with readSeq := i.readSeq + 1 } := by
  simp [Input.consumePacket, h]

theorem consume_enc {i : Input σ} (h : i.consumedEncrypted = true) {d t}
    (hd : i.decryptedList = d :: t) :
    i.consumePacket = .ok { i with readSeq := i.readSeq + 1, decryptedList := t } := by
  simp [Input.consumePacket, h, hd]

/-! ### setCipher -/

theorem inv_setCipher {s : InputSys σ} (h : InputInv ops s) {p : Bytes} (hh : s.handling = some p)
    (hk : isNewKeys p = true) (hi : s.installed = false) (c : σ) :
    ∃ i, s.input.setCipher c = .ok i ∧
      InputInv ops { s with
        input := i, installed := true,
        installs := s.installs ++ [(c, s.input.autoResetSeq)] } := by
  rcases h with h | h | h
  · obtain ⟨h1, h2, h3, h4, h5, h6, h7, b, hb, h8⟩ := h
    rcases h8 with ⟨w, hn, _⟩ | ⟨w, hp, _, _, hd⟩
    · have := hn p hh; rw [hk] at this; simp at this
    · have hbr : s.input.readSeq + 1 = b := by simpa [InputSys.base, hh] using hb
      refine ⟨_, setCipher_ok w hp c, ?_⟩
      right; left
      cases hr : s.input.autoResetSeq with
      | false =>
        refine ⟨rfl, h2, by simp [h6], b, ?_, ?_, .inl ⟨rfl, by simp [h3], ?_, ?_, c,
          .inl ⟨hp, rfl⟩, fun cs t => ?_⟩⟩
        · simp [InputSys.base, hh, hbr]
        · simp [InputSys.pending, h4, h6, h3, Worker.list, hbr, h1]
        · simp [InputSys.pending, h4, h6, h3, Worker.list]
        · intro _ _ _; rfl
        · have := hd ((c, false) :: cs) t
          simp only [InputSys.all, List.append_assoc, List.cons_append, List.nil_append] at this ⊢
          rw [this]
          simp [InputSys.pending, h4, h6, h3, h5, Worker.list, resume, number, hbr, h1]
      | true =>
        refine ⟨rfl, h2, by simp [h6], 0, ?_, ?_, .inl ⟨rfl, by simp [h3], ?_, ?_, c,
          .inl ⟨hp, rfl⟩, fun cs t => ?_⟩⟩
        · simp [InputSys.base, hh]
        · simp [InputSys.pending, h4, h6, h3, Worker.list]
        · simp [InputSys.pending, h4, h6, h3, Worker.list]
        · intro _ _ _; rfl
        · have := hd ((c, true) :: cs) t
          simp only [InputSys.all, List.append_assoc, List.cons_append, List.nil_append] at this ⊢
          rw [this]
          simp [InputSys.pending, h4, h6, h3, h5, Worker.list, resume, number]
  · obtain ⟨h1, h2, h3, b, hb, hq, h8⟩ := h
    have hns : ¬ s.settled := fun hse => by have := hse p hh hk; rw [hi] at this; simp at this
    rcases h8 with ⟨w, hf, hn, hse, _⟩ | ⟨hp, hw, hkk, hd⟩
    · exact absurd hse hns
    · rcases hkk with ⟨hse, _⟩ | ⟨w, hpe, _, _⟩
      · exact absurd hse hns
      · have hidle : s.worker = .idle := by
          rcases hw with ⟨_, h⟩ | ⟨w', _⟩
          · exact h
          · rw [w] at w'; simp at w'
        have hbr : s.input.readSeq + 1 = b := by simpa [InputSys.base, hh] using hb
        rw [hpe] at hq
        refine ⟨_, setCipher_ok w hp c, ?_⟩
        right; left
        have hpend : ∀ (i : Input σ) x y, i.decryptedList = s.input.decryptedList →
            i.consumedEncrypted = s.input.consumedEncrypted →
            InputSys.pending { s with input := i, installed := x, installs := y } = [] := by
          intro i x y e1 e2
          rw [← hpe]; simp [InputSys.pending, e1, e2]
        cases hr : s.input.autoResetSeq with
        | false =>
          refine ⟨rfl, h2, h3, b, ?_, ?_, .inl ⟨rfl, by simp [hidle], ?_, ?_, c,
            .inl ⟨hp, rfl⟩, fun cs t => ?_⟩⟩
          · simpa [InputSys.base, hh] using hbr
          · rw [hpend _ _ _ (by rfl) (by rfl)]; simpa [h1] using hq
          · rw [hpend _ _ _ (by rfl) (by rfl)]; simp
          · intro _ _ _; rfl
          · rw [hpend _ _ _ (by rfl) (by rfl)]
            have := hd ((c, false) :: cs) t
            rw [hpe] at this
            simp only [InputSys.all, List.append_assoc, List.cons_append, List.nil_append] at this ⊢
            rw [this]
            simp [resume, h1]
        | true =>
          refine ⟨rfl, h2, h3, 0, ?_, ?_, .inl ⟨rfl, by simp [hidle], ?_, ?_, c,
            .inl ⟨hp, rfl⟩, fun cs t => ?_⟩⟩
          · simp [InputSys.base, hh]
          · rw [hpend _ _ _ (by rfl) (by rfl)]; rfl
          · rw [hpend _ _ _ (by rfl) (by rfl)]; simp
          · intro _ _ _; rfl
          · rw [hpend _ _ _ (by rfl) (by rfl)]
            have := hd ((c, true) :: cs) t
            rw [hpe] at this
            simp only [InputSys.all, List.append_assoc, List.cons_append, List.nil_append] at this ⊢
            rw [this]
            simp [resume, number]
  · obtain ⟨h1, h2, h3, h4, h5, h6⟩ := h
    have := h4 p hh hk; rw [hi] at this; simp at this

/-! ### autoResetSeq, consume -/

theorem inv_autoReset {s : InputSys σ} (h : InputInv ops s) :
    InputInv ops { s with input := s.input.setAutoResetSeq } := h

theorem inv_consume {s : InputSys σ} (h : InputInv ops s) {p : Bytes} (hh : s.handling = some p)
    (hk : isNewKeys p = true → s.installed = true) :
    ∃ i, s.input.consumePacket = .ok i ∧ InputInv ops { s with input := i, handling := none } := by
  rcases h with h | h | h
  · obtain ⟨h1, h2, h3, h4, h5, h6, h7, b, hb, h8⟩ := h
    refine ⟨_, consume_plain h6, ?_⟩
    left
    refine ⟨h1, h2, h3, h4, h5, h6, by simp only; omega, b, ?_, ?_⟩
    · simpa [InputSys.base, hh] using hb
    · rcases h8 with ⟨w, hn, hdr, hp, hd⟩ | ⟨w, hp, hi, ⟨p', hp', hk'⟩, hd⟩
      · exact .inl ⟨w, by simp, hdr, hp, hd⟩
      · rw [hh] at hp'; injection hp' with e; subst e
        rw [hk hk'] at hi; simp at hi
  · obtain ⟨h1, h2, h3, b, hb, hq, h8⟩ := h
    have hfin : ∀ i : Input σ, i.encrypted = s.input.encrypted → i.error = s.input.error →
        i.readSeq = s.input.readSeq + 1 → i.decryptSeq = s.input.decryptSeq →
        i.waitingForNewCipher = s.input.waitingForNewCipher → i.packetLength = s.input.packetLength →
        i.cipher = s.input.cipher → i.unprotectedBuffer = s.input.unprotectedBuffer →
        i.rawBuffer = s.input.rawBuffer →
        i.decryptedList ++ s.worker.list = s.pending →
        EncInv ops { s with input := i, handling := none } := by
      intro i e1 e2 e3 e4 e5 e6 e7 e8 e9 e10
      have hpend : InputSys.pending { s with input := i, handling := none } = s.pending := by
        rw [← e10]; simp [InputSys.pending]
      refine ⟨by rw [← h1]; exact e1, by rw [← h2]; exact e2, by simp, b, ?_, ?_, ?_⟩
      · simp only [InputSys.base] at hb ⊢; rw [e3, ← hb]; simp [hh]
      · rw [hpend]; simp only [e4]; exact hq
      · rw [hpend]
        rcases h8 with ⟨w, hf, hn, hse, c₀, hp, hd⟩ | ⟨hp, hw, hkk, hd⟩
        · refine .inl ⟨by simp only [e5]; exact w, hf, hn, ?_, c₀, ?_, ?_⟩
          · intro p' hp'; simp at hp'
          · simp only [EncAt, e6, e7, e8, e4] at hp ⊢; exact hp
          · intro cs t; simp only [e4, e8, e9]; exact hd cs t
        · refine .inr ⟨by simp only [e6]; exact hp, by simp only [e5]; exact hw, ?_, ?_⟩
          · rcases hkk with ⟨hse, hx⟩ | ⟨_, _, hi, p', hp', hk'⟩
            · exact .inl ⟨by intro p' hp'; simp at hp', hx⟩
            · rw [hh] at hp'; injection hp' with e; subst e
              rw [hk hk'] at hi; simp at hi
          · intro cs t; simp only [e4, e8, e9]; exact hd cs t
    cases hce : s.input.consumedEncrypted with
    | false =>
      refine ⟨_, consume_plain hce, .inr (.inl ?_)⟩
      refine hfin _ rfl rfl rfl rfl rfl rfl rfl rfl rfl ?_
      simp [InputSys.pending, hce]
    | true =>
      cases hdl : s.input.decryptedList with
      | nil => exact absurd hdl (h3 (by simp [hh]) hce)
      | cons d t =>
        refine ⟨_, consume_enc hce hdl, .inr (.inl ?_)⟩
        refine hfin _ rfl rfl rfl rfl rfl rfl rfl rfl rfl ?_
        simp [InputSys.pending, hce, hh, hdl]
  · obtain ⟨h1, h2, h3, h4, h5, h6⟩ := h
    have hset : ∀ i : Input σ, InputSys.settled { s with input := i, handling := none } := by
      intro i p' hp'; simp at hp'
    cases hce : s.input.consumedEncrypted with
    | false =>
      exact ⟨_, consume_plain hce, .inr (.inr ⟨h1, h2, h3, hset _, by simp, h6⟩)⟩
    | true =>
      cases hdl : s.input.decryptedList with
      | nil => exact absurd hdl (h5 (by simp [hh]) hce)
      | cons d t =>
        exact ⟨_, consume_enc hce hdl, .inr (.inr ⟨h1, h2, h3, hset _, by simp, h6⟩)⟩

/-! ### the worker -/

theorem inv_runBegin {s : InputSys σ} (h : InputInv ops s) (hw : s.worker = .idle)
    (he : s.input.encrypted = true) (k : Nat) :
    InputInv ops { s with input := (s.input.runBegin k).1, worker := (s.input.runBegin k).2 } := by
  rcases h with h | h | h
  · rw [h.1] at he; simp at he
  · right; left
    obtain ⟨h1, h2, h3, b, hb, hq, h8⟩ := h
    unfold Input.runBegin
    rcases h8 with ⟨w, hf, hn, hse, c₀, hp, hd⟩ | ⟨hp, hw', hkk, hd⟩
    · rw [if_neg (by simp [h2, w])]
      have hpend : InputSys.pending { s with
          input := { s.input with unprotectedBuffer := s.input.unprotectedBuffer ++ s.input.rawBuffer.take k,
                                  rawBuffer := s.input.rawBuffer.drop k },
          worker := .loop [] } = s.pending := by
        simp [InputSys.pending, hw, Worker.list]
      refine ⟨h1, h2, h3, b, hb, by rw [hpend]; exact hq, .inl ⟨w, by simp, by rw [hpend]; exact hn,
        hse, c₀, ?_, fun cs t => ?_⟩⟩
      · rcases hp with hp | ⟨hl, h4, hdr, c₁, hc, hh, hbe⟩
        · exact .inl hp
        · refine .inr ⟨hl, by simp; omega, hdr, c₁, hc, ?_, hbe⟩
          simp only
          rw [List.take_append_of_le_length h4]; exact hh
      · rw [hpend]
        have := hd cs t
        simp only [InputSys.all] at this ⊢
        rw [this]
        simp
    · have hwt : s.input.waitingForNewCipher = true := by
        rcases hw' with ⟨w, _⟩ | ⟨_, l, hl, _⟩
        · exact w
        · rw [hw] at hl; simp at hl
      rw [if_pos (by simp [hwt])]
      refine ⟨h1, h2, h3, b, hb, ?_, .inr ⟨hp, .inl ⟨hwt, rfl⟩, ?_, ?_⟩⟩
      · rw [hq]; simp [InputSys.pending, hw]
      · simpa [InputSys.pending, hw, InputSys.settled] using hkk
      · simpa [InputSys.pending, hw, InputSys.all] using hd
  · right; right
    unfold Input.runBegin
    rw [if_pos (by simp [h.2.1])]
    obtain ⟨h1, h2, h3, h4, h5, h6⟩ := h
    exact ⟨h1, h2, rfl, h4, h5, h6⟩

theorem inv_runLoop (hs : Sane ops) {s : InputSys σ} (h : InputInv ops s) {list : List Bytes}
    (hw : s.worker = .loop list) :
    match s.input.runLoop ops list with
    | .error .assertFailed => False
    | .error .protocol => InputInv ops { s with input := { s.input with error := true }, worker := .idle }
    | .ok (i, w) => InputInv ops { s with input := i, worker := w } := by
  rcases h with h | h | h
  · rw [h.2.2.1] at hw; simp at hw
  · obtain ⟨h1, h2, h3, b, hb, hq, h8⟩ := h
    rcases h8 with ⟨w, hf, hn, hse, c₀, hp, hd⟩ | ⟨hp, hw', hkk, hd⟩
    · rcases runLoop_cases hs hp list with ⟨i', hr, hp', ⟨c, n, rfl⟩, hnx⟩ | ⟨hr, hnx⟩ | ⟨d, c₂, n, hr, hnx⟩
      · rw [hr]
        simp only
        right; left
        have hpend : InputSys.pending { s with
            input := { s.input with cipher := c, packetLength := n },
            worker := .finish list false } = s.pending := by
          simp [InputSys.pending, hw, Worker.list]
        refine ⟨h1, h2, h3, b, hb, by rw [hpend]; exact hq, .inl ⟨w, by simp, by rw [hpend]; exact hn,
          hse, c₀, hp', fun cs t => ?_⟩⟩
        rw [hpend]; exact hd cs t
      · rw [hr]
        simp only
        right; right
        refine ⟨h1, rfl, rfl, hse, h3, fun cs t => ?_⟩
        have := hd cs t
        simp only [InputSys.all] at this ⊢
        rw [this, List.append_assoc]
        exact List.prefix_append _ _
      · rw [hr]
        simp only
        right; left
        obtain ⟨hn4, hnl, hnx'⟩ := next_packet hnx
        have hpend : ∀ w' : Worker, w'.list = list ++ [d] → InputSys.pending { s with
            input := { s.input with cipher := some c₂, packetLength := 0, unprotectedBuffer := s.input.unprotectedBuffer.drop n,
                                    decryptSeq := s.input.decryptSeq + 1 },
            worker := w' } = s.pending ++ [d] := by
          intro w' hw'
          have e : s.worker.list = list := by rw [hw]; rfl
          simp [InputSys.pending, e, hw']
        have hnum : number b (s.pending ++ [d]) = number b s.pending ++ [some (s.input.decryptSeq, d.drop 1)] := by
          rw [number_append, hq]; rfl
        cases hk : isNewKeys (d.drop 1) with
        | false =>
          simp only [Bool.false_eq_true, if_false]
          have hpd := hpend (.loop (list ++ [d])) rfl
          refine ⟨h1, h2, h3, b, hb, ?_, .inl ⟨w, by simp, ?_, hse, c₂, .inl ⟨rfl, rfl⟩, fun cs t => ?_⟩⟩
          · rw [hpd]; simp [hq]; omega
          · rw [hpd]
            intro d' hd'
            rcases List.mem_append.1 hd' with hd' | hd'
            · exact hn d' hd'
            · simp at hd'; subst hd'; exact hk
          · rw [hpd, hnum]
            have := hd cs t
            simp only [InputSys.all] at this ⊢
            have hx := hnx' (s.input.rawBuffer ++ t)
            rw [this, List.append_assoc s.input.unprotectedBuffer, decode_packet hx hk,
              List.drop_append_of_le_length hnl]
            simp
        | true =>
          simp only [if_true]
          have hpd := hpend (.finish (list ++ [d]) true) rfl
          refine ⟨h1, h2, h3, b, hb, ?_, .inr ⟨rfl, .inr ⟨w, _, rfl, by simp⟩,
            .inl ⟨hse, s.pending, d, hpd, hk, hn⟩, fun cs t => ?_⟩⟩
          · rw [hpd]; simp [hq]; omega
          · rw [hpd, hnum]
            have := hd cs t
            simp only [InputSys.all] at this ⊢
            have hx := hnx' (s.input.rawBuffer ++ t)
            rw [this, List.append_assoc s.input.unprotectedBuffer, decode_newkeys hx hk,
              List.drop_append_of_le_length hnl]
            simp
    · rcases hw' with ⟨_, h⟩ | ⟨_, l, h, _⟩ <;> rw [hw] at h <;> simp at h
  · rw [h.2.2.1] at hw; simp at hw

theorem inv_runEnd {s : InputSys σ} (h : InputInv ops s) {list : List Bytes} {found : Bool}
    (hw : s.worker = .finish list found) (k : Nat) :
    ∃ i, s.input.runEnd list found k = .ok i ∧ InputInv ops { s with input := i, worker := .idle } := by
  rcases h with h | h | h
  · rw [h.2.2.1] at hw; simp at hw
  · obtain ⟨h1, h2, h3, b, hb, hq, h8⟩ := h
    have hwt : s.input.waitingForNewCipher = false := by
      rcases h8 with ⟨w, _⟩ | ⟨_, ⟨_, h⟩ | ⟨w, _⟩, _⟩
      · exact w
      · rw [hw] at h; simp at h
      · exact w
    unfold Input.runEnd
    rw [if_neg (by simp [hwt])]
    refine ⟨_, rfl, .inr (.inl ?_)⟩
    have hpend : InputSys.pending { s with
        input := { s.input with
          decryptedList := s.input.decryptedList ++ list, waitingForNewCipher := found,
          unprotectedBuffer := s.input.unprotectedBuffer ++ s.input.rawBuffer.take k,
          rawBuffer := s.input.rawBuffer.drop k },
        worker := .idle } = s.pending := by
      simp only [InputSys.pending, hw, Worker.list]
      cases hc : (s.handling.isSome && s.input.consumedEncrypted)
      · simp
      · simp only [Bool.and_eq_true] at hc
        cases hdl : s.input.decryptedList with
        | nil => exact absurd hdl (h3 hc.1 hc.2)
        | cons d t => simp
    refine ⟨h1, h2, ?_, b, hb, by rw [hpend]; exact hq, ?_⟩
    · intro a c hx
      simp at hx
      exact h3 a c hx.1
    rw [hpend]
    rcases h8 with ⟨w, hf, hn, hse, c₀, hp, hd⟩ | ⟨hp, hw', hkk, hd⟩
    · have hfd : found = false := by
        cases hfo : found with
        | false => rfl
        | true => rw [hfo] at hw; exact absurd hw (hf list)
      subst hfd
      refine .inl ⟨rfl, by simp, hn, hse, c₀, ?_, fun cs t => ?_⟩
      · rcases hp with hp | ⟨hl, h4, hdr, c₁, hc, hh, hbe⟩
        · exact .inl hp
        · refine .inr ⟨hl, by simp; omega, hdr, c₁, hc, ?_, hbe⟩
          simp only
          rw [List.take_append_of_le_length h4]; exact hh
      · have := hd cs t
        simp only [InputSys.all] at this ⊢
        rw [this]; simp
    · have hfd : found = true := by
        rcases hw' with ⟨_, h⟩ | ⟨_, l, h, _⟩ <;> rw [hw] at h <;> simp at h
        exact h.2
      subst hfd
      refine .inr ⟨hp, .inl ⟨rfl, rfl⟩, ?_, fun cs t => ?_⟩
      · rcases hkk with hkk | ⟨w, _⟩
        · exact .inl hkk
        · rw [hwt] at w; simp at w
      · have := hd cs t
        simp only [InputSys.all] at this ⊢
        rw [this]; simp
  · rw [h.2.2.1] at hw; simp at hw

/-! ### every history -/

theorem inv_step (hs : Sane ops) {s : InputSys σ} (h : InputInv ops s) (e : InputEvent σ) :
    ∃ s', s.step ops e = some s' ∧ InputInv ops s' := by
  cases e with
  | feed chunk =>
    simp only [InputSys.step]
    split
    · exact ⟨s, rfl, h⟩
    · exact ⟨_, rfl, inv_feed h chunk⟩
  | read =>
    simp only [InputSys.step]
    split
    · exact ⟨s, rfl, h⟩
    · rename_i hh
      have hh' : s.handling = none := by
        cases hx : s.handling <;> simp_all
      have := inv_read h hh'
      revert this
      cases s.input.readPacket with
      | error e => cases e <;> intro this
                   · exact ⟨_, rfl, h⟩
                   · exact this.elim
      | ok v =>
        obtain ⟨p, i⟩ := v
        cases p with
        | none => intro this; exact ⟨_, rfl, this⟩
        | some p => intro this; exact ⟨_, rfl, this⟩
  | setCipher c =>
    simp only [InputSys.step]
    cases hh : s.handling with
    | none => exact ⟨s, rfl, h⟩
    | some p =>
      simp only
      split
      · rename_i hc
        obtain ⟨i, hi, hinv⟩ := inv_setCipher h hh ((isNewKeys_iff p).2 hc.1) (by simpa using hc.2) c
        rw [hi]; rw [hh] at hinv; exact ⟨_, rfl, hinv⟩
      · exact ⟨s, rfl, h⟩
  | autoResetSeq => exact ⟨_, rfl, inv_autoReset h⟩
  | consume =>
    simp only [InputSys.step]
    cases hh : s.handling with
    | none => exact ⟨s, rfl, h⟩
    | some p =>
      simp only
      split
      · exact ⟨s, rfl, h⟩
      · rename_i hc
        obtain ⟨i, hi, hinv⟩ := inv_consume h hh (by
          intro hk
          have := (isNewKeys_iff p).1 hk
          cases hx : s.installed <;> simp_all)
        rw [hi]; exact ⟨_, rfl, hinv⟩
  | runBegin k =>
    simp only [InputSys.step]
    split
    · rename_i hw
      split
      · rename_i he
        exact ⟨_, rfl, inv_runBegin h hw he k⟩
      · exact ⟨s, rfl, h⟩
    · exact ⟨s, rfl, h⟩
  | runLoop =>
    simp only [InputSys.step]
    split
    · rename_i list hw
      have := inv_runLoop hs h hw
      revert this
      cases s.input.runLoop ops list with
      | error e => cases e <;> intro this
                   · exact ⟨_, rfl, this⟩
                   · exact this.elim
      | ok v => intro this; exact ⟨_, rfl, this⟩
    · exact ⟨s, rfl, h⟩
  | runEnd k =>
    simp only [InputSys.step]
    split
    · rename_i list found hw
      obtain ⟨i, hi, hinv⟩ := inv_runEnd h hw k
      rw [hi]; exact ⟨_, rfl, hinv⟩
    · exact ⟨s, rfl, h⟩

theorem inv_run (hs : Sane ops) (es : List (InputEvent σ)) : ∀ {s : InputSys σ}, InputInv ops s →
    ∃ s', s.run ops es = some s' ∧ InputInv ops s' := by
  induction es with
  | nil => intro s h; exact ⟨s, rfl, h⟩
  | cons e es ih =>
    intro s h
    obtain ⟨s₁, h1, h2⟩ := inv_step hs h e
    obtain ⟨s₂, h3, h4⟩ := ih h2
    exact ⟨s₂, by simp [InputSys.run, h1, h3], h4⟩

/-- Whatever was delivered is what the reference decoder yields, also for
every continuation of the stream. -/
theorem inv_delivered_ext {s : InputSys σ} (h : InputInv ops s) (cs : List (σ × Bool)) (t : Bytes) :
    s.delivered.map some <+: decode ops (s.installs ++ cs) none 0 (s.fed ++ t) := by
  change s.delivered.map some <+: s.all ops cs t
  rcases h with ⟨_, _, _, _, _, _, _, b, _, ⟨_, _, _, _, hd⟩ | ⟨_, _, _, _, hd⟩⟩ |
    ⟨_, _, _, b, _, _, ⟨_, _, _, _, c₀, _, hd⟩ | ⟨_, _, _, hd⟩⟩ | ⟨_, _, _, _, _, hd⟩
  · rw [hd]; exact List.prefix_append _ _
  · rw [hd]; exact List.prefix_append _ _
  · rw [hd, List.append_assoc]; exact List.prefix_append _ _
  · rw [hd, List.append_assoc]; exact List.prefix_append _ _
  · exact hd cs t

theorem prefix_of_map_some {α : Type} {xs ys : List α} (h : xs.map some <+: ys.map some) : xs <+: ys := by
  have := h.filterMap id
  simpa using this

theorem map_some_inj {α : Type} {xs ys : List α} (h : xs.map some = ys.map some) : xs = ys := by
  have := congrArg (List.filterMap id) h
  simpa using this

theorem inv_delivered {s : InputSys σ} (h : InputInv ops s) :
    s.delivered.map some <+: decode ops s.installs none 0 s.fed := by
  simpa using inv_delivered_ext h [] []

end Lukko.Model
