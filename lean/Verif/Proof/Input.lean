import Verif.Proof.Stream
import Verif.Model.Input
/-
  The invariant relating `SSH::Input` and its worker thread to the reference
  decoder.
-/
namespace Lukko.Model
open Spec

variable {σ : Type} {ops : CipherOps σ}

/-- What every cipher object guarantees about result sizes: the header is
decrypted in place, and the payload loses its header and the MAC
(`assert(nbytes == packet_length)`, Input.cxx:130). -/
structure Sane (ops : CipherOps σ) : Prop where
  header : ∀ c seq s hdr c', ops.decryptHeader c seq s = some (hdr, c') → hdr.length = s.length
  payload : ∀ c seq s r c', ops.decryptPayload c seq s = some (r, c') →
    r.length = s.length - 4 - ops.authSize c

theorem headerLength_eq {hdr : Bytes} (h : hdr.length = 4) : headerLength hdr = beValue hdr := by
  match hdr, h with
  | [a, b, c, d], _ => simp only [headerLength, or_shift, beValue_four]

theorem parseHeader_cases {hdr : Bytes} (h : hdr.length = 4) :
    (parseHeader hdr = .ok (beValue hdr) ∧ lengthOk (beValue hdr)) ∨
    (parseHeader hdr = .error .protocol ∧ ¬ lengthOk (beValue hdr)) := by
  unfold parseHeader lengthOk
  rw [headerLength_eq h]
  simp only
  by_cases h2 : beValue hdr < 2
  · right; rw [if_pos h2]; exact ⟨rfl, by omega⟩
  · rw [if_neg h2]
    by_cases h3 : beValue hdr > MAX_PACKET_SIZE
    · right; rw [if_pos h3]; exact ⟨rfl, by simp [MAX_PACKET_SIZE] at h3; omega⟩
    · left; rw [if_neg h3]; exact ⟨rfl, by simp [MAX_PACKET_SIZE] at h3; omega⟩

theorem isNewKeys_iff (p : Bytes) : isNewKeys p = true ↔ p.head? = some MSG_NEWKEYS := by
  unfold isNewKeys; simp [MSG_NEWKEYS]

/-- Position of the encrypted reader: at a packet boundary with cipher `c₀`, or
behind the header of a packet which `c₀` has decrypted. -/
def EncAt (ops : CipherOps σ) (i : Input σ) (c₀ : σ) : Prop :=
  (i.packetLength = 0 ∧ i.cipher = some c₀) ∨
  (lengthOk i.packetLength ∧ 4 ≤ i.unprotectedBuffer.length ∧ ∃ hdr c₁, i.cipher = some c₁ ∧
    ops.decryptHeader c₀ i.decryptSeq (i.unprotectedBuffer.take 4) = some (hdr, c₁) ∧
    beValue hdr = i.packetLength)

/-- Position of the unencrypted reader; `hdr` is what was already taken out of
the buffer. -/
def PlainAt (i : Input σ) (hdr : Bytes) : Prop :=
  (i.packetLength = 0 ∧ hdr = []) ∨
  (lengthOk i.packetLength ∧ hdr.length = 4 ∧ beValue hdr = i.packetLength)

/-- `DecryptPacket` behind a decrypted header. -/
theorem decryptPacket_cases (hs : Sane ops) {i : Input σ} {c₀ c₁ : σ} {hdr}
    (hl : lengthOk i.packetLength) (h4 : 4 ≤ i.unprotectedBuffer.length)
    (hc : i.cipher = some c₁)
    (hh : ops.decryptHeader c₀ i.decryptSeq (i.unprotectedBuffer.take 4) = some (hdr, c₁))
    (hb : beValue hdr = i.packetLength) :
    (i.decryptPacket ops = .ok (none, i) ∧
      next ops (some c₀) i.decryptSeq i.unprotectedBuffer = .needMore) ∨
    (i.decryptPacket ops = .error .protocol ∧
      next ops (some c₀) i.decryptSeq i.unprotectedBuffer = .bad) ∨
    (∃ d c₂ n, i.decryptPacket ops = .ok (some d, { i with
        cipher := some c₂, packetLength := 0, unprotectedBuffer := i.unprotectedBuffer.drop n }) ∧
      2 ≤ d.length ∧
      next ops (some c₀) i.decryptSeq i.unprotectedBuffer = .packet (d.drop 1) (some c₂) n) := by
  unfold Input.decryptPacket next
  rw [if_neg (by omega)]
  simp only [hc, hh, hb]
  rw [if_neg (show ¬ ¬ lengthOk i.packetLength by simpa using hl)]
  by_cases hn : i.unprotectedBuffer.length < 4 + i.packetLength + ops.authSize c₁
  · left
    simp only [HEADER_SIZE]
    rw [if_pos hn, if_pos hn]; exact ⟨rfl, rfl⟩
  · right
    simp only [HEADER_SIZE]
    rw [if_neg hn, if_neg hn]
    cases hd : ops.decryptPayload c₁ i.decryptSeq
        (i.unprotectedBuffer.take (4 + i.packetLength + ops.authSize c₁)) with
    | none => left; exact ⟨rfl, rfl⟩
    | some v =>
      obtain ⟨r, c₂⟩ := v
      have hrl : r.length = i.packetLength := by
        have := hs.payload _ _ _ _ _ hd
        rw [List.length_take] at this; omega
      simp only
      rw [if_neg (by simpa using hrl)]
      unfold lengthOk at hl
      cases r with
      | nil => simp at hrl; omega
      | cons f t =>
        simp only [payloadOf, hrl]
        by_cases hp : f.toNat > i.packetLength - 2
        · left; rw [if_pos hp, if_neg (by omega)]; exact ⟨rfl, rfl⟩
        · right
          rw [if_neg hp, if_pos (by omega)]
          refine ⟨_, c₂, _, rfl, ?_, ?_⟩
          · rw [List.length_take, hrl]; omega
          · have e1 : i.packetLength - f.toNat = (i.packetLength - f.toNat - 1) + 1 := by omega
            rw [e1, List.take_succ_cons]
            simp

/-- One iteration of the worker's loop. -/
theorem runLoop_cases (hs : Sane ops) {i : Input σ} {c₀ : σ} (h : EncAt ops i c₀) (list : List Bytes) :
    (∃ i', i.runLoop ops list = .ok (i', .finish list false) ∧ EncAt ops i' c₀ ∧
      (∃ c n, i' = { i with cipher := c, packetLength := n }) ∧
      next ops (some c₀) i.decryptSeq i.unprotectedBuffer = .needMore) ∨
    (i.runLoop ops list = .error .protocol ∧
      next ops (some c₀) i.decryptSeq i.unprotectedBuffer = .bad) ∨
    (∃ d c₂ n, i.runLoop ops list = .ok ({ i with
        cipher := some c₂, packetLength := 0, unprotectedBuffer := i.unprotectedBuffer.drop n,
        decryptSeq := i.decryptSeq + 1 },
        if isNewKeys (d.drop 1) then .finish (list ++ [d]) true else .loop (list ++ [d])) ∧
      next ops (some c₀) i.decryptSeq i.unprotectedBuffer = .packet (d.drop 1) (some c₂) n) := by
  -- after the header stage
  have main : ∀ (i₁ : Input σ) (hdr : Bytes) (c₁ : σ), lengthOk i₁.packetLength →
      4 ≤ i.unprotectedBuffer.length →
      ops.decryptHeader c₀ i.decryptSeq (i.unprotectedBuffer.take 4) = some (hdr, c₁) →
      beValue hdr = i₁.packetLength →
      i₁ = { i with cipher := some c₁, packetLength := i₁.packetLength } →
      (∀ r, (do
        let (decrypted, i) ← i₁.decryptPacket ops
        match decrypted with
        | none => pure (i, Worker.finish list false)
        | some d =>
          let i := { i with decryptSeq := i.decryptSeq + 1 }
          match d with
          | _ :: msg :: _ =>
            if msg = MSG_NEWKEYS then pure (i, .finish (list ++ [d]) true)
            else pure (i, .loop (list ++ [d]))
          | _ => .error .assertFailed) = r →
      (∃ i', r = .ok (i', .finish list false) ∧ EncAt ops i' c₀ ∧
        (∃ c n, i' = { i with cipher := c, packetLength := n }) ∧
        next ops (some c₀) i.decryptSeq i.unprotectedBuffer = .needMore) ∨
      (r = .error .protocol ∧
        next ops (some c₀) i.decryptSeq i.unprotectedBuffer = .bad) ∨
      (∃ d c₂ n, r = .ok ({ i with
          cipher := some c₂, packetLength := 0, unprotectedBuffer := i.unprotectedBuffer.drop n,
          decryptSeq := i.decryptSeq + 1 },
          if isNewKeys (d.drop 1) then .finish (list ++ [d]) true else .loop (list ++ [d])) ∧
        next ops (some c₀) i.decryptSeq i.unprotectedBuffer = .packet (d.drop 1) (some c₂) n)) := by
    intro i₁ hdr c₁ hl h4 hh hb hi₁ r hr
    have e1 : i₁.unprotectedBuffer = i.unprotectedBuffer := by rw [hi₁]
    have e2 : i₁.decryptSeq = i.decryptSeq := by rw [hi₁]
    have e3 : i₁.cipher = some c₁ := by rw [hi₁]
    have := decryptPacket_cases hs (i := i₁) (c₀ := c₀) (c₁ := c₁) (hdr := hdr) hl
      (by rw [e1]; exact h4) e3 (by rw [e1, e2]; exact hh) hb
    rw [e1, e2] at this
    rcases this with ⟨hd, hn⟩ | ⟨hd, hn⟩ | ⟨d, c₂, n, hd, hdl, hn⟩
    · left
      refine ⟨i₁, ?_, ?_, ⟨_, _, hi₁⟩, hn⟩
      · rw [← hr, hd]; rfl
      · right; exact ⟨hl, by rw [e1]; exact h4, hdr, c₁, e3, by rw [e1, e2]; exact hh, hb⟩
    · right; left
      refine ⟨?_, hn⟩
      rw [← hr, hd]; rfl
    · right; right
      refine ⟨d, c₂, n, ?_, hn⟩
      rw [← hr, hd]
      match d, hdl with
      | a :: msg :: t, _ =>
        have : isNewKeys ((a :: msg :: t).drop 1) = decide (msg = MSG_NEWKEYS) := by
          simp [isNewKeys, MSG_NEWKEYS]; rfl
        rw [this, hi₁]
        simp only [bind, Except.bind, pure, Except.pure]
        by_cases hm : msg = MSG_NEWKEYS
        · simp [hm]
        · simp [hm]
  unfold Input.runLoop
  rcases h with ⟨h0, hc⟩ | ⟨hl, h4, hdr, c₁, hc, hh, hb⟩
  · rw [if_pos h0]
    by_cases h4 : i.unprotectedBuffer.length < 4
    · left
      refine ⟨i, ?_, .inl ⟨h0, hc⟩, ⟨i.cipher, i.packetLength, rfl⟩, ?_⟩
      · simp only [HEADER_SIZE]; rw [if_pos h4]; rfl
      · unfold next; rw [if_pos h4]
    · simp only [HEADER_SIZE]
      rw [if_neg h4]
      simp only [hc]
      cases hh : ops.decryptHeader c₀ i.decryptSeq (i.unprotectedBuffer.take 4) with
      | none =>
        right; left
        refine ⟨rfl, ?_⟩
        unfold next; rw [if_neg h4]; simp only [hh]
      | some v =>
        obtain ⟨hdr, c₁⟩ := v
        have hdl : hdr.length = 4 := by
          rw [hs.header _ _ _ _ _ hh, List.length_take]; omega
        simp only
        rcases parseHeader_cases hdl with ⟨hp, hl⟩ | ⟨hp, hl⟩
        · rw [hp]
          exact main { i with cipher := some c₁, packetLength := beValue hdr } hdr c₁ hl (by omega) hh
            rfl rfl _ rfl
        · right; left
          rw [hp]
          refine ⟨rfl, ?_⟩
          unfold next; rw [if_neg h4]; simp only [hh]; rw [if_pos hl]
  · have hpl : ¬ i.packetLength = 0 := by unfold lengthOk at hl; omega
    rw [if_neg hpl]
    exact main i hdr c₁ hl h4 hh hb (by cases i; cases hc; rfl) _ rfl

/-- One call of `ReadUnencryptedPacket`. -/
theorem readUnencrypted_cases {i : Input σ} {hdr : Bytes} (h : PlainAt i hdr)
    (hw : i.waitingForNewCipher = false) (seq : Nat) :
    (∃ i' hdr', i.readUnencryptedPacket = .ok (none, i') ∧ PlainAt i' hdr' ∧
      hdr' ++ i'.rawBuffer = hdr ++ i.rawBuffer ∧
      (∃ n, i' = { i with packetLength := n, rawBuffer := i'.rawBuffer }) ∧
      next ops none seq (hdr ++ i.rawBuffer) = .needMore) ∨
    (i.readUnencryptedPacket = .error .protocol ∧
      next ops none seq (hdr ++ i.rawBuffer) = .bad) ∨
    (∃ p n, i.readUnencryptedPacket = .ok (some p, { i with
        packetLength := 0, rawBuffer := (hdr ++ i.rawBuffer).drop n,
        waitingForNewCipher := isNewKeys p }) ∧
      p ≠ [] ∧ next ops none seq (hdr ++ i.rawBuffer) = .packet p none n) := by
  have main : ∀ (i₁ : Input σ) (hdr' : Bytes), lengthOk i₁.packetLength → hdr'.length = 4 →
      beValue hdr' = i₁.packetLength → hdr' ++ i₁.rawBuffer = hdr ++ i.rawBuffer →
      i₁ = { i with packetLength := i₁.packetLength, rawBuffer := i₁.rawBuffer } →
      ∀ r, (let r := i₁.rawBuffer
        if r.length < i₁.packetLength then pure (none, i₁)
        else match r with
        | [] => .error .assertFailed
        | front :: _ =>
          let paddingLength := front.toNat
          if paddingLength > i₁.packetLength - 2 then .error .protocol
          else
            let payload := (r.drop 1).take (i₁.packetLength - paddingLength - 1)
            let i := { i₁ with rawBuffer := r.drop i₁.packetLength, packetLength := 0 }
            match payload with
            | [] => .error .assertFailed
            | msg :: _ =>
              if msg = MSG_NEWKEYS then pure (some payload, { i with waitingForNewCipher := true })
              else pure (some payload, i) : Except InputError (Option Bytes × Input σ)) = r →
      (∃ i' hdr', r = .ok (none, i') ∧ PlainAt i' hdr' ∧
        hdr' ++ i'.rawBuffer = hdr ++ i.rawBuffer ∧
        (∃ n, i' = { i with packetLength := n, rawBuffer := i'.rawBuffer }) ∧
        next ops none seq (hdr ++ i.rawBuffer) = .needMore) ∨
      (r = .error .protocol ∧
        next ops none seq (hdr ++ i.rawBuffer) = .bad) ∨
      (∃ p n, r = .ok (some p, { i with
          packetLength := 0, rawBuffer := (hdr ++ i.rawBuffer).drop n,
          waitingForNewCipher := isNewKeys p }) ∧
        p ≠ [] ∧ next ops none seq (hdr ++ i.rawBuffer) = .packet p none n) := by
    intro i₁ hdr' hl h4 hb happ hi r hr
    subst hr
    rw [← happ]
    have ht : (hdr' ++ i₁.rawBuffer).take 4 = hdr' := List.take_left' h4
    have hnext : next ops none seq (hdr' ++ i₁.rawBuffer) =
        if i₁.rawBuffer.length < i₁.packetLength then .needMore
        else match payloadOf (i₁.rawBuffer.take i₁.packetLength) with
          | none => .bad
          | some payload => .packet payload none (4 + i₁.packetLength) := by
      unfold next
      rw [if_neg (by simp; omega)]
      simp only [ht, hb]
      rw [if_neg (by simpa using hl), List.drop_left' h4]
      by_cases hn : i₁.rawBuffer.length < i₁.packetLength
      · rw [if_pos hn, if_pos (by simp; omega)]
      · rw [if_neg hn, if_neg (by simp; omega)]
        cases payloadOf (i₁.rawBuffer.take i₁.packetLength) <;> rfl
    rw [hnext]
    simp only
    by_cases hn : i₁.rawBuffer.length < i₁.packetLength
    · left
      rw [if_pos hn, if_pos hn]
      exact ⟨i₁, hdr', rfl, .inr ⟨hl, h4, hb⟩, rfl, ⟨_, hi⟩, rfl⟩
    · right
      rw [if_neg hn, if_neg hn]
      unfold lengthOk at hl
      have hdrop : (hdr' ++ i₁.rawBuffer).drop (4 + i₁.packetLength)
          = i₁.rawBuffer.drop i₁.packetLength := by
        rw [← h4, List.drop_length_add_append]
      cases hrb : i₁.rawBuffer with
      | nil => rw [hrb] at hn; simp at hn; omega
      | cons f t =>
        rw [hrb] at hn hdrop
        have htk : (f :: t).take i₁.packetLength = f :: t.take (i₁.packetLength - 1) := by
          have : i₁.packetLength = (i₁.packetLength - 1) + 1 := by omega
          rw [this, List.take_succ_cons]; simp
        simp only [List.length_cons] at hn
        have hlen : (f :: t.take (i₁.packetLength - 1)).length = i₁.packetLength := by
          simp; omega
        simp only [htk, payloadOf, hlen, List.drop_succ_cons, List.drop_zero]
        by_cases hp : f.toNat > i₁.packetLength - 2
        · left; rw [if_pos hp, if_neg (by omega)]; exact ⟨rfl, rfl⟩
        · right
          rw [if_neg hp, if_pos (by omega)]
          have htt : (t.take (i₁.packetLength - 1)).take (i₁.packetLength - f.toNat - 1)
              = t.take (i₁.packetLength - f.toNat - 1) := by
            rw [List.take_take, Nat.min_eq_left (by omega)]
          rw [htt]
          cases hpl : t.take (i₁.packetLength - f.toNat - 1) with
          | nil =>
            have := congrArg List.length hpl
            rw [List.length_take, List.length_nil] at this; omega
          | cons m q =>
            refine ⟨m :: q, 4 + i₁.packetLength, ?_, by simp, rfl⟩
            rw [hdrop]
            have : isNewKeys (m :: q) = decide (m = MSG_NEWKEYS) := by
              simp [isNewKeys, MSG_NEWKEYS]; rfl
            rw [this, hi]
            simp only [pure, Except.pure]
            by_cases hm : m = MSG_NEWKEYS
            · simp [hm]
            · simp [hm, hw]
  unfold Input.readUnencryptedPacket
  rw [if_neg (by simp [hw])]
  rcases h with ⟨h0, rfl⟩ | ⟨hl, h4, hb⟩
  · rw [if_pos h0]
    by_cases h4 : i.rawBuffer.length < 4
    · left
      refine ⟨i, [], ?_, .inl ⟨h0, rfl⟩, rfl, ⟨i.packetLength, rfl⟩, ?_⟩
      · simp only [HEADER_SIZE]; rw [if_pos h4]; rfl
      · unfold next; rw [if_pos (by simpa using h4)]
    · simp only [HEADER_SIZE]
      rw [if_neg h4]
      have hdl : (i.rawBuffer.take 4).length = 4 := by rw [List.length_take]; omega
      rcases parseHeader_cases hdl with ⟨hp, hl⟩ | ⟨hp, hl⟩
      · rw [hp]
        exact main { i with rawBuffer := i.rawBuffer.drop 4, packetLength := beValue (i.rawBuffer.take 4) }
          (i.rawBuffer.take 4) hl hdl rfl (by simp) rfl _ rfl
      · right; left
        rw [hp]
        refine ⟨rfl, ?_⟩
        unfold next; rw [if_neg (by simpa using h4)]; simp only [List.nil_append]; rw [if_pos hl]
  · have hpl : ¬ i.packetLength = 0 := by unfold lengthOk at hl; omega
    rw [if_neg hpl]
    exact main i hdr hl h4 hb rfl rfl _ rfl

end Lukko.Model
