import Verif.Model.Kex
import Verif.Proof.Messages
/-
  Invariant of the key exchange.
-/
namespace Lukko
open Spec Model

/-! ### Log functions -/

theorem phaseOf_snoc (l : List Entry) (x : Entry) :
    phaseOf (l ++ [x]) = (phaseOf l).bind (fun φ => φ.next x) := by
  simp only [phaseOf, List.foldlM_append, List.foldlM_cons, List.foldlM_nil, bind]
  congr 1; funext φ; simp [Option.bind]; split <;> simp_all

theorem toldBlocked_snoc (l : List Entry) (x : Entry) :
    toldBlocked (l ++ [x]) = (toldBlocked l).bind (fun told => match x with
      | .blocked => if told then none else some true
      | .unblocked => if told then some false else none
      | _ => some told) := by
  simp only [toldBlocked, List.foldlM_append, List.foldlM_cons, List.foldlM_nil, bind]
  congr 1; funext told; cases x <;> simp [Option.bind] <;> cases told <;> simp

theorem lastSent_snoc (n : UInt8) (l : List Entry) (x : Entry) :
    lastSent n (l ++ [x]) = match x with
      | .sent p => if isMsg n p then some p.tail else lastSent n l
      | _ => lastSent n l := by
  simp only [lastSent, List.reverse_append, List.reverse_cons, List.reverse_nil, List.nil_append,
    List.singleton_append, List.findSome?_cons]
  cases x <;> simp
  split <;> simp_all

theorem lastRecv_snoc (n : UInt8) (l : List Entry) (x : Entry) :
    lastRecv n (l ++ [x]) = match x with
      | .recv p => if isMsg n p then some p.tail else lastRecv n l
      | _ => lastRecv n l := by
  simp only [lastRecv, List.reverse_append, List.reverse_cons, List.reverse_nil, List.nil_append,
    List.singleton_append, List.findSome?_cons]
  cases x <;> simp
  split <;> simp_all

theorem peerVersion_snoc (l : List Entry) (x : Entry) :
    Spec.peerVersion (l ++ [x]) = match x with
      | .version v => some v
      | _ => Spec.peerVersion l := by
  simp only [Spec.peerVersion, List.reverse_append, List.reverse_cons, List.reverse_nil, List.nil_append,
    List.singleton_append, List.findSome?_cons]
  cases x <;> simp

theorem lastAgreed_snoc (l : List Entry) (x : Entry) :
    lastAgreed (l ++ [x]) = match x with
      | .agreed t => some t
      | _ => lastAgreed l := by
  simp only [lastAgreed, List.reverse_append, List.reverse_cons, List.reverse_nil, List.nil_append,
    List.singleton_append, List.findSome?_cons]
  cases x <;> simp

theorem firstAgreed_snoc (l : List Entry) (x : Entry) :
    firstAgreed (l ++ [x]) = match firstAgreed l, x with
      | some t, _ => some t
      | none, .agreed t => some t
      | none, _ => none := by
  simp only [firstAgreed, List.findSome?_append, List.findSome?_cons, List.findSome?_nil]
  cases h : List.findSome? (fun | Entry.agreed t => some t | _ => none) l <;> cases x <;> simp

theorem hasOut_snoc (l : List Entry) (x : Entry) :
    hasOut (l ++ [x]) = (hasOut l || match x with | .installOut .. => true | _ => false) := by
  simp only [hasOut, List.any_append, List.any_cons, List.any_nil, Bool.or_false]
  cases x <;> rfl

theorem hasIn_snoc (l : List Entry) (x : Entry) :
    hasIn (l ++ [x]) = (hasIn l || match x with | .installIn .. => true | _ => false) := by
  simp only [hasIn, List.any_append, List.any_cons, List.any_nil, Bool.or_false]
  cases x <;> rfl

/-- Something that holds of every event, given the history before it. -/
def Every (P : List Entry → Entry → Prop) (log : List Entry) : Prop :=
  ∀ pre x post, log = pre ++ x :: post → P pre x

theorem Every.nil {P} : Every P [] := by
  intro pre x post h; simp at h

theorem Every.snoc {P : List Entry → Entry → Prop} {l x} (h : Every P l) (hx : P l x) : Every P (l ++ [x]) := by
  intro pre y post e
  rcases List.eq_nil_or_concat post with rfl | ⟨post', z, rfl⟩
  · obtain ⟨rfl, h2⟩ := List.append_inj' e rfl
    simp at h2; subst h2; exact hx
  · rw [List.concat_eq_append, ← List.cons_append, ← List.append_assoc] at e
    obtain ⟨h1, _⟩ := List.append_inj' e rfl
    exact h pre y post' h1

@[simp] theorem emit_log (s : Kx) (x : Entry) : (s.emit x).log = s.log ++ [x] := rfl

/-! ### Hash and keys -/

theorem kexHashInput_eq (cv sv ck sk hk ce se sec : Bytes) :
    kexHashInput cv sv ck sk hk ce se sec = hashInput ⟨cv, sv, ck, sk, hk, ce, se, sec⟩ := by
  simp [kexHashInput, hashInput, str, u32Bytes_eq]

theorem keyBlocks_length {digest : Bytes → Bytes} {d : Nat} (hd : ∀ x, (digest x).length = d)
    (secret hash : Bytes) (l : UInt8) (sid : Bytes) (n : Nat) :
    (keyBlocks digest secret hash l sid n).length = (n + 1) * d := by
  induction n with
  | zero => simp [keyBlocks, hd]
  | succ n ih => simp only [keyBlocks, List.length_append, ih, hd]; rw [Nat.add_mul (n+1) 1 d]; simp

/-- The loop stops at the first block count that is long enough. -/
theorem deriveLoop_eq {digest : Bytes → Bytes} {d : Nat} (hd : ∀ x, (digest x).length = d) (hpos : 0 < d)
    (secret hash : Bytes) (l : UInt8) (sid : Bytes) (need : Nat) :
    ∀ fuel n, need ≤ (n + 1 + fuel) * d → (∀ k < n, (k + 1) * d < need) →
      ∃ m, deriveLoop digest secret hash need fuel (keyBlocks digest secret hash l sid n) =
          keyBlocks digest secret hash l sid m ∧ n ≤ m ∧ need ≤ (m + 1) * d ∧ ∀ k < m, (k + 1) * d < need := by
  intro fuel
  induction fuel with
  | zero => intro n hn hk; exact ⟨n, rfl, Nat.le_refl _, by simpa using hn, hk⟩
  | succ fuel ih =>
    intro n hn hk
    rw [deriveLoop, keyBlocks_length hd]
    split
    · rename_i hlt
      obtain ⟨m, h1, h2, h3, h4⟩ := ih (n + 1) (by rw [show n + 1 + 1 + fuel = n + 1 + (fuel + 1) by omega]; exact hn)
        (fun k hk' => by
          rcases Nat.lt_succ_iff_lt_or_eq.1 hk' with h | rfl
          · exact hk k h
          · exact hlt)
      exact ⟨m, h1, by omega, h3, h4⟩
    · rename_i hlt
      exact ⟨n, rfl, Nat.le_refl _, by omega, hk⟩

theorem deriveKey_eq {digest : Bytes → Bytes} {d : Nat} (hd : ∀ x, (digest x).length = d) (hpos : 0 < d)
    (id : UInt8) (need : Nat) (hash secret sid : Bytes) :
    ∃ m, deriveKey digest id need hash secret sid = keyBlocks digest secret hash id sid m ∧
      need ≤ (m + 1) * d ∧ ∀ k < m, (k + 1) * d < need := by
  obtain ⟨m, h1, _, h3, h4⟩ := deriveLoop_eq hd hpos secret hash id sid need need 0
    (by rw [Nat.add_mul]; have := Nat.mul_le_mul_left need hpos; omega) (by omega)
  exact ⟨m, h1, h3, h4⟩

/-- The direction of packets we send or receive. -/
def wayOf : Role → Direction → Way
  | .server, .incoming => .clientToServer
  | .server, .outgoing => .serverToClient
  | .client, .incoming => .serverToClient
  | .client, .outgoing => .clientToServer

theorem deriveKey_64 {digest : Bytes → Bytes} (hd : ∀ x, (digest x).length = 32)
    (id : UInt8) (hash secret sid : Bytes) :
    deriveKey digest id WE_NEED hash secret sid = keyBlocks digest secret hash id sid 1 := by
  obtain ⟨m, h1, h2, h3⟩ := deriveKey_eq hd (by omega) id WE_NEED hash secret sid
  have hm : m = 1 := by
    rcases Nat.lt_or_ge m 1 with h | h
    · obtain rfl : m = 0 := by omega
      simp [WE_NEED] at h2
    · rcases Nat.lt_or_ge 1 m with h' | h'
      · have := h3 1 h'; simp [WE_NEED] at this
      · omega
  rw [h1, hm]

theorem pickKeys_eq {digest : Bytes → Bytes} (hd : ∀ x, (digest x).length = 32)
    (hash secret sid : Bytes) (role : Role) (dir : Direction) :
    pickKeys digest hash secret sid role dir = keysFor digest secret hash sid 1 (wayOf role dir) := by
  cases role <;> cases dir <;> (simp only [pickKeys, deriveKey_64 hd]; rfl)

end Lukko
