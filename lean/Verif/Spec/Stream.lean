import Verif.Spec.Wire
import Verif.Cipher
/-
  Reference decoder and encoder of an SSH transport stream (RFC 4253 section 6):
  one packet after the other, no buffering, no threads.  Nothing here refers to
  the model of the code.
-/
namespace Lukko.Spec

/-- RFC 4253 limits as enforced by lukko: `packet_length` between 2 (padding
length and message number) and 35000. -/
def lengthOk (len : Nat) : Prop := 2 ≤ len ∧ len ≤ 35000

instance (len : Nat) : Decidable (lengthOk len) := inferInstanceAs (Decidable (_ ∧ _))

/-- Result of looking for one packet at the start of a byte stream. -/
inductive Next (σ : Type)
  | needMore
  | bad
  | packet (payload : Bytes) (cipher : Option σ) (consumed : Nat)

/-- The payload inside `body` (padding length, payload, padding), if the
padding length leaves at least one payload byte. -/
def payloadOf (body : Bytes) : Option Bytes :=
  match body with
  | [] => none
  | pad :: rest =>
    if pad.toNat + 2 ≤ body.length then some (rest.take (body.length - pad.toNat - 1)) else none

/-- One packet.  `cipher = none` is the unencrypted phase. -/
def next {σ} (ops : CipherOps σ) (cipher : Option σ) (seq : Nat) (s : Bytes) : Next σ :=
  if s.length < 4 then .needMore
  else match cipher with
  | none =>
    let len := beValue (s.take 4)
    if ¬ lengthOk len then .bad
    else if s.length < 4 + len then .needMore
    else match payloadOf ((s.drop 4).take len) with
      | none => .bad
      | some payload => .packet payload none (4 + len)
  | some c =>
    match ops.decryptHeader c seq (s.take 4) with
    | none => .bad
    | some (hdr, c₁) =>
      let len := beValue hdr
      if ¬ lengthOk len then .bad
      else if s.length < 4 + len + ops.authSize c₁ then .needMore
      else match ops.decryptPayload c₁ seq (s.take (4 + len + ops.authSize c₁)) with
        | none => .bad
        | some (body, c₂) => match payloadOf body with
          | none => .bad
          | some payload => .packet payload (some c₂) (4 + len + ops.authSize c₁)

/-- Is this the NEWKEYS message (number 21)? -/
def isNewKeys (payload : Bytes) : Bool := payload.head? == some 21

/-- Decode a whole stream.  `installs` are the receiving ciphers put in place
after each NEWKEYS, with a flag whether the sequence number restarts at zero.
Yields each payload with its sequence number; stops at the first incomplete
packet, and after a NEWKEYS for which no cipher is available.  A bad packet
yields `none` (the stream is rejected) and also ends the decoding. -/
def decode {σ} (ops : CipherOps σ) (installs : List (σ × Bool)) (cipher : Option σ) (seq : Nat)
    (s : Bytes) : List (Option (Nat × Bytes)) :=
  match h : next ops cipher seq s with
  | .needMore => []
  | .bad => [none]
  | .packet payload cipher' consumed =>
    if isNewKeys payload then
      match installs with
      | [] => [some (seq, payload)]
      | (c, reset) :: installs =>
        some (seq, payload) :: decode ops installs (some c) (if reset then 0 else seq + 1) (s.drop consumed)
    else some (seq, payload) :: decode ops installs cipher' (seq + 1) (s.drop consumed)
termination_by s.length
decreasing_by
  all_goals
    have hc : 0 < consumed ∧ 4 ≤ s.length := by
      simp only [next] at h
      split at h
      · simp at h
      · split at h
        · split at h
          · simp at h
          · split at h
            · simp at h
            · split at h <;> simp at h
              omega
        · split at h
          · simp at h
          · split at h
            · simp at h
            · split at h
              · simp at h
              · split at h
                · simp at h
                · split at h <;> simp at h
                  omega
    rw [List.length_drop]; omega

/-- One packet put on the wire by a sender: the framed packet, its payload, and
– directly after a NEWKEYS – the new sending cipher, the peer's matching
receiving cipher, and whether the sequence number restarts. -/
structure Sent (σ : Type) where
  pkt : Bytes
  payload : Bytes
  switch : Option (σ × σ × Bool)

/-- The bytes of one packet and the cipher afterwards. -/
def protect {σ} (ops : CipherOps σ) (cipher : Option σ) (seq : Nat) (pkt : Bytes) :
    Option (Bytes × Option σ) :=
  match cipher with
  | none => some (pkt, none)
  | some tx => match ops.encrypt tx seq pkt with
    | none => none
    | some (e, tx') => some (e, some tx')

/-- The byte stream of a sequence of packets (`none`: encryption failed). -/
def transmit {σ} (ops : CipherOps σ) : Option σ → Nat → List (Sent σ) → Option Bytes
  | _, _, [] => some []
  | cipher, seq, x :: xs =>
    match protect ops cipher seq x.pkt with
    | none => none
    | some (e, cipher') =>
      (match x.switch with
        | none => transmit ops cipher' (seq + 1) xs
        | some (tx, _, reset) => transmit ops (some tx) (if reset then 0 else seq + 1) xs).map (e ++ ·)

/-- The sequence numbers the sender uses. -/
def numbered {σ} : Nat → List (Sent σ) → List (Nat × Bytes)
  | _, [] => []
  | seq, x :: xs => (seq, x.payload) ::
    (match x.switch with
      | none => numbered (seq + 1) xs
      | some (_, _, reset) => numbered (if reset then 0 else seq + 1) xs)

/-- The sequence number of the packet after those. -/
def nextSeq {σ} : Nat → List (Sent σ) → Nat
  | seq, [] => seq
  | seq, x :: xs => match x.switch with
    | none => nextSeq (seq + 1) xs
    | some (_, _, reset) => nextSeq (if reset then 0 else seq + 1) xs

/-- The receiving ciphers that the receiver installs. -/
def installsOf {σ} (xs : List (Sent σ)) : List (σ × Bool) :=
  xs.filterMap fun x => x.switch.map fun (_, rx, reset) => (rx, reset)

/-- A legal sequence of packets: each is a well-formed binary packet within the
size limit, and the cipher is switched exactly after each NEWKEYS, to a pair of
matching ciphers. -/
structure Legal {σ} (Matched : σ → σ → Prop) (xs : List (Sent σ)) : Prop where
  packets : ∀ x ∈ xs, x.payload ≠ [] ∧ x.pkt.length ≤ 35004 ∧
    ∃ blockSize aad, IsPacket x.pkt x.payload blockSize aad
  switches : ∀ x ∈ xs, (isNewKeys x.payload ↔ x.switch.isSome)
  matched : ∀ x ∈ xs, ∀ tx rx reset, x.switch = some (tx, rx, reset) → Matched tx rx

/-- Ideal authenticity of the encryption, for one sending history: in the state
the receiver is in after accepting the genuine packets so far, it accepts
nothing but the next genuine packet – and nothing at all once all of them were
received. -/
def Authentic {σ} (ops : CipherOps σ) : σ → σ → Nat → List (Sent σ) → Prop
  | _, rx, seq, [] => ∀ s p rx' n, next ops (some rx) seq s ≠ .packet p rx' n
  | tx, rx, seq, x :: xs =>
    (∀ s p rx' n, next ops (some rx) seq s = .packet p rx' n →
      ∃ tx', ops.encrypt tx seq x.pkt = some (s.take n, tx') ∧
        (x.switch = none → ∃ rx₁, rx' = some rx₁ ∧ Authentic ops tx' rx₁ (seq + 1) xs)) ∧
    (∀ tx₂ rx₂ reset, x.switch = some (tx₂, rx₂, reset) →
      Authentic ops tx₂ rx₂ (if reset then 0 else seq + 1) xs)

/-- What the owner of a connection asks its output side to do: send a framed
packet, or use a new sending cipher from now on (`reset`: the sequence number
restarts at zero). -/
inductive Submit (σ : Type)
  | packet (pkt : Bytes)
  | rekey (c : σ) (reset : Bool)
  deriving DecidableEq, Repr

/-- The byte stream these requests stand for: the packets in order, each
protected by the cipher in force when it was submitted, numbered consecutively.
The stream ends where a cipher fails. -/
def wire {σ} (ops : CipherOps σ) : Option σ → Nat → List (Submit σ) → Bytes
  | _, _, [] => []
  | _, seq, .rekey c reset :: xs => wire ops (some c) (if reset then 0 else seq) xs
  | cipher, seq, .packet pkt :: xs =>
    match protect ops cipher seq pkt with
    | none => []
    | some (e, cipher') => e ++ wire ops cipher' (seq + 1) xs

/-- A sequence of packets with their cipher switches as requests. -/
def submits {σ} (xs : List (Sent σ)) : List (Submit σ) :=
  xs.flatMap fun x => .packet x.pkt :: (match x.switch with
    | none => []
    | some (tx, _, reset) => [.rekey tx reset])

end Lukko.Spec
