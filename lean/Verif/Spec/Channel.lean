import Verif.Spec.Stream
import Verif.Spec.Kex
import Verif.Spec.Authentic
/-
  A connection as a channel for packets: which packets belong to which keys, and
  what an attacker on the network can get accepted.  Nothing here refers to the
  model.
-/
namespace Lukko.Spec

/-- What the owner of a connection has sent: a packet, or from now on new keys (with which the
sequence number may restart at zero). -/
inductive Outgoing
  | packet (payload : Bytes)
  | keys (enc mac : Bytes) (keys : Keys) (reset : Bool)
  deriving DecidableEq, Repr

def Outgoing.isKeys : Outgoing → Bool
  | .keys .. => true
  | _ => false

def Entry.isInstallIn : Entry → Bool
  | .installIn .. => true
  | _ => false

/-- The new keys. -/
def Outgoing.keys? : Outgoing → Option (Bytes × Bytes × Keys × Bool)
  | .keys enc mac k reset => some (enc, mac, k, reset)
  | _ => none

def Entry.out? : Entry → Option (Bytes × Bytes × Keys)
  | .installOut enc mac k => some (enc, mac, k)
  | _ => none

def Entry.in? : Entry → Option (Bytes × Bytes × Keys)
  | .installIn enc mac k => some (enc, mac, k)
  | _ => none

/-- What the key exchange sends (`reset`: sequence numbers restart with new keys). -/
def Entry.post? (reset : Bool) : Entry → Option Outgoing
  | .sent p => some (.packet p)
  | .installOut enc mac k => some (.keys enc mac k reset)
  | _ => none

/-- The sending cipher in force. -/
def lastCipher {σ} (make : Bytes → Bytes → Keys → σ) (posts : List Outgoing) : Option σ :=
  posts.foldl (fun c p => match p with
    | .keys enc mac k _ => some (make enc mac k)
    | .packet _ => c) none

/-- What is submitted to the output side: framed packets (the frame depends on the cipher in force),
and ciphers. -/
inductive Rendered {σ} (make : Bytes → Bytes → Keys → σ) (frame : Nat → Option σ → Bytes → Bytes) :
    List Outgoing → List (Submit σ) → Prop
  | nil : Rendered make frame [] []
  | packet {ps ss p} : Rendered make frame ps ss →
      Rendered make frame (ps ++ [.packet p]) (ss ++ [.packet (frame ps.length (lastCipher make ps) p)])
  | keys {ps ss enc mac k reset} : Rendered make frame ps ss →
      Rendered make frame (ps ++ [.keys enc mac k reset]) (ss ++ [.rekey (make enc mac k) reset])

/-- The packets until the next change of keys (the NEWKEYS which announces it is one of them). -/
def postsOfEpoch (rest : List Outgoing) : List Bytes :=
  (rest.takeWhile (!·.isKeys)).filterMap fun | .packet p => some p | _ => none

/-- The packets which were sent with these keys and numbered from zero. -/
def sentWith (enc mac : Bytes) (keys : Keys) (posts : List Outgoing) : List Bytes :=
  match posts.dropWhile (fun p => decide (p ≠ .keys enc mac keys true)) with
  | [] => []
  | _ :: rest => postsOfEpoch rest

/-- The packets received until the next change of keys. -/
def receivedOfEpoch (rest : List Entry) : List Bytes := received (rest.takeWhile (!·.isInstallIn))

/-- Ideal authenticity, for a receiving cipher `rx` which expects the sequence number `seq`: whatever
bytes arrive, it accepts nothing but the packets with these payloads, in this order, beginning with the
first one. -/
def AcceptsOnly {σ} (ops : CipherOps σ) : σ → Nat → List Bytes → Prop
  | rx, seq, [] => ∀ s p rx' n, next ops (some rx) seq s ≠ .packet p rx' n
  | rx, seq, x :: xs => ∀ s p rx' n, next ops (some rx) seq s = .packet p rx' n →
      p = x ∧ ∀ rx₁, rx' = some rx₁ → AcceptsOnly ops rx₁ (seq + 1) xs

/-- Somebody forged a signature of a host key that this client accepted, or a collision of the hash is
known. -/
def Broken {ι : Type} (verify : Bytes → Bytes → Bytes → Bool) (digest : Bytes → Bytes) (client : List Entry)
    (server : ι → List Entry) : Prop :=
  ∃ tr ∈ exchanges client,
    Forgery verify digest (fun t' => ∃ i, t' ∈ exchanges (server i)) tr.hostKey ∨
    ∃ i t', t' ∈ exchanges (server i) ∧ Collision digest tr t'

end Lukko.Spec
