import Verif.Proof.Wire
import Verif.Model.Messages
import Verif.Spec.Messages
/-
  Helper lemmas for message builders and parsers.
-/
namespace Lukko
open Model

/-- `w` appends `e` if it fits, and throws `PacketTooLarge` otherwise. -/
def Writes (w : Ser → Except SerError Ser) (e : Bytes) : Prop :=
  ∀ s, s.buf.length ≤ BUFFER_SIZE →
    w s = if s.buf.length + e.length ≤ BUFFER_SIZE then .ok ⟨s.buf ++ e⟩
      else .error .packetTooLarge

theorem Writes.ok {w e s} (h : Writes w e) (hs : s.buf.length + e.length ≤ BUFFER_SIZE) :
    w s = .ok ⟨s.buf ++ e⟩ := by
  rw [h s (by omega), if_pos hs]

theorem Writes.bind {w₁ w₂ e₁ e₂} (h₁ : Writes w₁ e₁) (h₂ : Writes w₂ e₂) :
    Writes (fun s => w₁ s >>= fun s => w₂ s) (e₁ ++ e₂) := by
  intro s hs
  simp only [h₁ s hs]
  by_cases h : s.buf.length + e₁.length ≤ BUFFER_SIZE
  · rw [if_pos h]
    show w₂ ⟨s.buf ++ e₁⟩ = _
    rw [h₂ _ (by simpa using h)]
    simp [Nat.add_assoc]
  · rw [if_neg h, if_neg (by simp only [List.length_append]; omega)]; rfl

theorem Writes.writeN (e : Bytes) : Writes (fun s => s.writeN e) e := by
  intro s hs
  simp only [Ser.writeN, Ser.size]
  by_cases h : s.buf.length + e.length ≤ BUFFER_SIZE
  · rw [if_pos h, if_neg (by omega)]
  · rw [if_neg h, if_pos (by omega)]

theorem Writes.u32 (n : Nat) : Writes (fun s => s.writeU32 n) (Spec.u32 n) := by
  rw [← u32Bytes_eq]; exact Writes.writeN _

theorem Writes.u8 (b : UInt8) : Writes (fun s => s.writeU8 b) [b] := Writes.writeN _

theorem Writes.bool (b : Bool) : Writes (fun s => s.writeBool b) (Spec.bool b) := Writes.writeN _

theorem Writes.str (v : Bytes) : Writes (fun s => s.writeString v) (Spec.str v) :=
  (Writes.u32 v.length).bind (Writes.writeN v)

theorem Writes.pure : Writes (fun s => pure s) [] := by
  intro s hs; simp [hs]; rfl

theorem commitLength_eq (s e : Bytes) :
    (Ser.commitLength ⟨s ++ Spec.u32 0 ++ e⟩ s.length).buf = s ++ Spec.str e := by
  simp only [Ser.commitLength, Ser.size, patch, u32Bytes_eq, Spec.str, u32_length]
  have hl : (s ++ Spec.u32 0 ++ e).length - s.length - 4 = e.length := by simp
  rw [hl]
  have h1 : List.take s.length (s ++ Spec.u32 0 ++ e) = s := by simp [List.append_assoc]
  have h2 : List.drop (s.length + 4) (s ++ Spec.u32 0 ++ e) = e := by
    have : s.length + 4 = (s ++ Spec.u32 0).length := by simp
    rw [this, List.drop_left]
  rw [h1, h2, List.append_assoc]

theorem Writes.withLength {w e} (h : Writes w e) : Writes (Ser.withLength w) (Spec.str e) := by
  intro s hs
  simp only [Ser.withLength, Ser.prepareLength, bind_assoc, pure_bind]
  have h0 : s.writeU32 0 = _ := Writes.u32 0 s hs
  rw [h0]
  have hl : (Spec.str e).length = 4 + e.length := by simp [Spec.str]
  by_cases h4 : s.buf.length + (Spec.u32 0).length ≤ BUFFER_SIZE
  · rw [if_pos h4]
    show (w ⟨s.buf ++ Spec.u32 0⟩ >>= fun s₁ => Pure.pure (s₁.commitLength s.size)) = _
    rw [h _ (by simpa using h4)]
    by_cases h5 : s.buf.length + (Spec.str e).length ≤ BUFFER_SIZE
    · rw [if_pos h5, if_pos (by simp; omega)]
      show Except.ok (Ser.commitLength _ s.buf.length) = _
      have := commitLength_eq s.buf e
      congr 1
      cases hc : Ser.commitLength ⟨s.buf ++ Spec.u32 0 ++ e⟩ s.buf.length
      rw [hc] at this; exact congrArg Ser.mk this
    · rw [if_neg h5, if_neg (by simp; omega)]; rfl
  · rw [if_neg h4, if_neg (by simp at h4; omega)]; rfl

theorem begin_length (n : UInt8) : (PacketSer.begin n).buf.length = 6 := rfl

/-- A `noexcept` builder either produces the message or terminates the process. -/
theorem Writes.noexcept_begin {w e} (h : Writes w e) (n : UInt8) :
    noexcept (w (PacketSer.begin n)) =
      if 6 + e.length ≤ BUFFER_SIZE then .ok ⟨[0, 0, 0, 0, 0, n] ++ e⟩ else .error .terminate := by
  rw [h _ (by rw [begin_length]; decide)]
  rw [begin_length]
  split <;> rfl

theorem Writes.begin {w e} (h : Writes w e) (n : UInt8) :
    w (PacketSer.begin n) =
      if 6 + e.length ≤ BUFFER_SIZE then .ok ⟨[0, 0, 0, 0, 0, n] ++ e⟩ else .error .packetTooLarge := by
  rw [h _ (by rw [begin_length]; decide)]; rfl

/-! ### parsing to the end -/

/-- On a whole packet `p` yields `v` exactly. -/
def ParsesTo {α} (p : Parser α) (e : Bytes) (v : α) : Prop := p.parse e = some v

/-- A parser that ends with `ExpectEnd`: reads `e`, rejects proper prefixes and
rejects trailing bytes. -/
structure Exact {α} (p : Parser α) (e : Bytes) (v : α) : Prop where
  reads : p e = some (v, [])
  trailing : ∀ t, t ≠ [] → p (e ++ t) = none
  truncated : ∀ e', ProperPrefix e' e → p e' = none

theorem Exact.bind {α β} {p : Parser α} {f : α → Parser β} {e₁ e₂ v w}
    (h₁ : Reads p e₁ v) (f₁ : FailsOnPrefix p e₁) (h₂ : Exact (f v) e₂ w) :
    Exact (p >>= f) (e₁ ++ e₂) w where
  reads := by rw [bind_apply, h₁]; exact h₂.reads
  trailing t ht := by rw [List.append_assoc, bind_apply, h₁]; exact h₂.trailing t ht
  truncated := FailsOnPrefix.bind h₁ f₁ h₂.truncated

theorem Exact.endPure {α} (v : α) : Exact (expectEnd >>= fun _ => pure v) [] v where
  reads := rfl
  trailing t ht := by cases t with
    | nil => exact absurd rfl ht
    | cons => rfl
  truncated := FailsOnPrefix.nil _

theorem Exact.parse {α} {p : Parser α} {e v} (h : Exact p e v) : p.parse e = some v := by
  simp [Parser.parse, h.reads]

/-- last field of a message -/
theorem Exact.last {α β} {p : Parser α} {f : α → Parser β} {e₁ v w}
    (h₁ : Reads p e₁ v) (f₁ : FailsOnPrefix p e₁) (h₂ : Exact (f v) [] w) :
    Exact (p >>= f) e₁ w := by
  have := Exact.bind h₁ f₁ h₂; simpa using this

end Lukko
