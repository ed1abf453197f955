import Verif.Proof.Messages
/-
  Sequences of wire values: glue between the primitives of the model and lists
  of typed values, and lemmas about it.
-/
namespace Lukko
open Model

namespace Spec

/-- A value of one of the RFC 4251 data types used by the protocol. -/
inductive Val
  | u8 (v : UInt8)
  | bool (v : Bool)
  | u32 (v : Nat)
  | str (v : Bytes)
  | raw (v : Bytes)
  deriving DecidableEq, Repr

/-- The type of a value (raw bytes have a length known from context). -/
inductive Ty
  | u8 | bool | u32 | str | raw (n : Nat)
  deriving DecidableEq, Repr

def Val.ty : Val → Ty
  | .u8 _ => .u8
  | .bool _ => .bool
  | .u32 _ => .u32
  | .str _ => .str
  | .raw v => .raw v.length

/-- Values that exist in the C++ program (`uint_least32_t` is 32 bit). -/
def Val.InRange : Val → Prop
  | .u32 v => v < 2 ^ 32
  | _ => True

end Spec

/-- The serializer call for each type of value. -/
def writeVal (v : Spec.Val) (s : Ser) : Except SerError Ser :=
  match v with
  | .u8 v => s.writeU8 v
  | .bool v => s.writeBool v
  | .u32 v => s.writeU32 v
  | .str v => s.writeString v
  | .raw v => s.writeN v

/-- A sequence of serializer calls. -/
def writeVals : List Spec.Val → Ser → Except SerError Ser
  | [], s => .ok s
  | v :: vs, s => writeVal v s >>= fun s => writeVals vs s

/-- The deserializer call for each type. -/
def readTy : Spec.Ty → Parser Spec.Val
  | .u8 => readU8 >>= fun v => pure (.u8 v)
  | .bool => readBool >>= fun v => pure (.bool v)
  | .u32 => readU32 >>= fun v => pure (.u32 v)
  | .str => readString >>= fun v => pure (.str v)
  | .raw n => readN n >>= fun v => pure (.raw v)

/-- A sequence of deserializer calls. -/
def readTys : List Spec.Ty → Parser (List Spec.Val)
  | [] => pure []
  | t :: ts => readTy t >>= fun v => readTys ts >>= fun vs => pure (v :: vs)

def encVal : Spec.Val → Bytes
  | .u8 v => [v]
  | .bool v => Spec.bool v
  | .u32 v => Spec.u32 v
  | .str v => Spec.str v
  | .raw v => v

def encVals (vs : List Spec.Val) : Bytes := (vs.map encVal).flatten

theorem writes_val (v : Spec.Val) : Writes (writeVal v) (encVal v) := by
  cases v with
  | u8 v => exact Writes.u8 v
  | bool v => exact Writes.bool v
  | u32 v => exact Writes.u32 v
  | str v => exact Writes.str v
  | raw v => exact Writes.writeN v

theorem writes_vals (vs : List Spec.Val) : Writes (writeVals vs) (encVals vs) := by
  induction vs with
  | nil => exact Writes.pure
  | cons v vs ih => exact (writes_val v).bind ih

theorem reads_pure {α β} {p : Parser α} {e v} (h : Reads p e v) (g : α → β) :
    Reads (p >>= fun v => pure (g v)) e (g v) := by
  intro rest; rw [bind_apply, h]; rfl

theorem fails_pure {α β} {p : Parser α} {e} (h : FailsOnPrefix p e) (g : α → β) :
    FailsOnPrefix (p >>= fun v => pure (g v)) e := by
  intro e' he; rw [bind_apply, h _ he]

theorem reads_val {v : Spec.Val} (hr : v.InRange) (hl : (encVal v).length < 2 ^ 32) :
    Reads (readTy v.ty) (encVal v) v := by
  cases v with
  | u8 v => exact reads_pure (readU8_reads v) _
  | bool v => exact reads_pure (readBool_reads v) _
  | u32 v => exact reads_pure (readU32_reads hr) _
  | str v =>
    refine reads_pure (readString_reads ?_) _
    simp [encVal, Spec.str] at hl; omega
  | raw v => exact reads_pure (readN_reads v) _

theorem fails_val {v : Spec.Val} (hl : (encVal v).length < 2 ^ 32) :
    FailsOnPrefix (readTy v.ty) (encVal v) := by
  cases v with
  | u8 v => exact fails_pure (readU8_prefix v) _
  | bool v => exact fails_pure (readBool_prefix v) _
  | u32 v => exact fails_pure (readU32_prefix v) _
  | str v =>
    refine fails_pure (readString_prefix ?_) _
    simp [encVal, Spec.str] at hl; omega
  | raw v => exact fails_pure (readN_prefix rfl) _

theorem reads_vals {vs : List Spec.Val} (hr : ∀ v ∈ vs, v.InRange)
    (hl : (encVals vs).length < 2 ^ 32) : Reads (readTys (vs.map (·.ty))) (encVals vs) vs := by
  induction vs with
  | nil => exact Reads.pure _
  | cons v vs ih =>
    simp only [encVals, List.map_cons, List.flatten_cons, List.length_append] at hl
    have hv := reads_val (hr v (by simp)) (by omega)
    have hvs := ih (fun w hw => hr w (by simp [hw])) (by simp only [encVals]; omega)
    exact hv.bind (reads_pure hvs _)

theorem fails_vals {vs : List Spec.Val} (hr : ∀ v ∈ vs, v.InRange)
    (hl : (encVals vs).length < 2 ^ 32) :
    FailsOnPrefix (readTys (vs.map (·.ty))) (encVals vs) := by
  induction vs with
  | nil => exact FailsOnPrefix.nil _
  | cons v vs ih =>
    simp only [encVals, List.map_cons, List.flatten_cons, List.length_append] at hl
    have hv := reads_val (hr v (by simp)) (by omega)
    have hf := fails_val (v := v) (by omega)
    have hvs := ih (fun w hw => hr w (by simp [hw])) (by simp only [encVals]; omega)
    exact FailsOnPrefix.bind hv hf (fails_pure hvs _)

/-! ### packets -/

theorem finishPacket_ok (h : Bytes) (hh : h.length = 5) (payload : Bytes) (k : Nat)
    (hk : k ≤ 4) (wh : Bool) (rnd : Nat → Bytes) (hrnd : ∀ n, (rnd n).length = n)
    (hfit : 5 + payload.length + padding (5 + payload.length - if wh then 4 else 0) (2 ^ k) ≤ BUFFER_SIZE) :
    ∃ pkt, Ser.finishPacket ⟨h ++ payload⟩ (2 ^ k) wh rnd = .ok pkt ∧
      Spec.IsPacket pkt payload (2 ^ k) (if wh then 4 else 0) := by
  simp only [Ser.finishPacket, HEADER_SIZE, Ser.size, List.length_append, hh]
  generalize hp : padding (5 + payload.length - if wh = true then 4 else 0) (2 ^ k) = pad at hfit ⊢
  rw [writeN_fits (by simp [hrnd, hh]; omega)]
  simp only
  refine ⟨_, rfl, ?_⟩
  have hk1 : pad ≤ 255 := by
    have := padding_le (5 + payload.length - if wh = true then 4 else 0) k
    have : 2 ^ k ≤ 2 ^ 4 := Nat.pow_le_pow_right (by decide) hk
    omega
  have hk2 : 4 ≤ pad := hp ▸ padding_ge _ k
  obtain ⟨a, b, c, d, e, rfl⟩ : ∃ a b c d e, h = [a, b, c, d, e] := by
    match h, hh with
    | [a, b, c, d, e], _ => exact ⟨a, b, c, d, e, rfl⟩
  have hpkt : patch (patch ([a, b, c, d, e] ++ payload ++ rnd pad) 4 [UInt8.ofNat pad]) 0
      (u32Bytes ((patch ([a, b, c, d, e] ++ payload ++ rnd pad) 4 [UInt8.ofNat pad]).length - 4))
      = Spec.u32 (1 + payload.length + (rnd pad).length) ++ [UInt8.ofNat (rnd pad).length]
        ++ payload ++ rnd pad := by
    have h1 : patch ([a, b, c, d, e] ++ payload ++ rnd pad) 4 [UInt8.ofNat pad]
        = [a, b, c, d] ++ ([UInt8.ofNat pad] ++ payload ++ rnd pad) := by
      simp [patch]
    rw [h1]
    have h2 : ([a, b, c, d] ++ ([UInt8.ofNat pad] ++ payload ++ rnd pad)).length - 4
        = 1 + payload.length + (rnd pad).length := by
      simp only [List.length_append, List.length_cons, List.length_nil]; omega
    rw [h2, u32Bytes_eq, hrnd]
    simp [patch]
  have hlen : (patch (patch ([a, b, c, d, e] ++ payload ++ rnd pad) 4 [UInt8.ofNat pad]) 0
      (u32Bytes ((patch ([a, b, c, d, e] ++ payload ++ rnd pad) 4 [UInt8.ofNat pad]).length - 4))).length
      = 5 + payload.length + pad := by
    rw [hpkt]; simp [hrnd]; omega
  refine ⟨⟨rnd pad, hpkt, ?_, ?_⟩, ?_, ?_⟩
  · rw [hrnd]; exact hk2
  · rw [hrnd]; exact hk1
  · rw [hlen]
    have := padding_aligned (5 + payload.length - if wh = true then 4 else 0) k hk
    rw [hp] at this
    cases wh
    · simpa using this
    · simp only [if_true] at this ⊢
      have e : 5 + payload.length + pad - 4 = 5 + payload.length - 4 + pad := by omega
      rw [e]; exact this
  · rw [hlen]
    have := padding_total_min (5 + payload.length - if wh = true then 4 else 0) k
    rw [hp] at this; omega

end Lukko
