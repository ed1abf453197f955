import Verif.Model.Wire
import Verif.Spec.Wire
/-
  Helper lemmas about the wire format.
-/
namespace Lukko
open Model

/-! ### u32 -/

theorem u32Bytes_eq (n : Nat) : u32Bytes n = Spec.u32 n := by
  have h : ∀ m, UInt8.ofNat (m % 256) = UInt8.ofNat m := by
    intro m; apply UInt8.toNat_inj.mp; simp
  simp only [u32Bytes, Spec.u32, Nat.shiftRight_eq_div_pow, h]

@[simp] theorem u32Bytes_length (n : Nat) : (u32Bytes n).length = 4 := rfl
@[simp] theorem u32_length (n : Nat) : (Spec.u32 n).length = 4 := rfl

/-- Reassembling the four bytes as the code does. -/
theorem or_shift (a b c d : UInt8) :
    (a.toNat <<< 24) ||| (b.toNat <<< 16) ||| (c.toNat <<< 8) ||| d.toNat
      = a.toNat * 2 ^ 24 + b.toNat * 2 ^ 16 + c.toNat * 2 ^ 8 + d.toNat := by
  have ha := a.toNat_lt; have hb := b.toNat_lt; have hc := c.toNat_lt; have hd := d.toNat_lt
  have h1 : (a.toNat <<< 24) ||| (b.toNat <<< 16) = (a.toNat * 2 ^ 8 + b.toNat) <<< 16 := by
    have : a.toNat <<< 24 = (a.toNat <<< 8) <<< 16 := by rw [← Nat.shiftLeft_add]
    rw [this, ← Nat.shiftLeft_or_distrib, ← Nat.shiftLeft_add_eq_or_of_lt hb]
    simp [Nat.shiftLeft_eq]
  have h2 : (a.toNat * 2 ^ 8 + b.toNat) <<< 16 ||| (c.toNat <<< 8)
      = ((a.toNat * 2 ^ 8 + b.toNat) * 2 ^ 8 + c.toNat) <<< 8 := by
    have : (a.toNat * 2 ^ 8 + b.toNat) <<< 16 = ((a.toNat * 2 ^ 8 + b.toNat) <<< 8) <<< 8 := by
      rw [← Nat.shiftLeft_add]
    rw [this, ← Nat.shiftLeft_or_distrib, ← Nat.shiftLeft_add_eq_or_of_lt hc]
    simp [Nat.shiftLeft_eq]
  rw [h1, h2, ← Nat.shiftLeft_add_eq_or_of_lt hd]
  simp [Nat.shiftLeft_eq]; omega

/-! ### reading -/

/-- `p` reads the value `v` off the encoding `e` and leaves whatever follows. -/
def Reads {α} (p : Parser α) (e : Bytes) (v : α) : Prop :=
  ∀ rest, p (e ++ rest) = some (v, rest)

/-- `p` fails on every proper prefix of `e`. -/
def FailsOnPrefix {α} (p : Parser α) (e : Bytes) : Prop :=
  ∀ e', ProperPrefix e' e → p e' = none

theorem bind_apply {α β} (p : Parser α) (f : α → Parser β) (s : Bytes) :
    (p >>= f) s = match p s with
      | none => none
      | some (a, s') => f a s' := rfl

theorem pure_apply {α} (a : α) (s : Bytes) : (pure a : Parser α) s = some (a, s) := rfl

theorem Reads.bind {α β} {p : Parser α} {f : α → Parser β} {e₁ e₂ v w}
    (h₁ : Reads p e₁ v) (h₂ : Reads (f v) e₂ w) : Reads (p >>= f) (e₁ ++ e₂) w := by
  intro rest
  rw [List.append_assoc, bind_apply, h₁]
  exact h₂ rest

theorem Reads.pure {α} (v : α) : Reads (pure v : Parser α) [] v := fun _ => rfl

theorem Reads.unique {α} {p : Parser α} {e₁ e₂ v₁ v₂ r₁ r₂}
    (h₁ : Reads p e₁ v₁) (h₂ : Reads p e₂ v₂) (h : e₁ ++ r₁ = e₂ ++ r₂) :
    v₁ = v₂ ∧ r₁ = r₂ := by
  have := h₁ r₁; rw [h, h₂ r₂] at this; simpa [eq_comm] using this

theorem ProperPrefix.append_cases {e' e₁ e₂ : Bytes} (h : ProperPrefix e' (e₁ ++ e₂)) :
    ProperPrefix e' e₁ ∨ ∃ t, e' = e₁ ++ t ∧ ProperPrefix t e₂ := by
  obtain ⟨t, ht, he⟩ := h
  rcases List.append_eq_append_iff.mp he with ⟨a, h1, h2⟩ | ⟨a, h1, h2⟩
  · cases a with
    | nil => right; refine ⟨[], by simpa using h1.symm, t, ht, by simpa using h2⟩
    | cons x xs => left; exact ⟨x :: xs, by simp, h1.symm⟩
  · right; exact ⟨a, h1, t, ht, h2.symm⟩

theorem FailsOnPrefix.bind {α β} {p : Parser α} {f : α → Parser β} {e₁ e₂ v}
    (h₁ : Reads p e₁ v) (f₁ : FailsOnPrefix p e₁) (f₂ : FailsOnPrefix (f v) e₂) :
    FailsOnPrefix (p >>= f) (e₁ ++ e₂) := by
  intro e' h
  rcases h.append_cases with h | ⟨t, rfl, h'⟩
  · rw [bind_apply, f₁ _ h]
  · rw [bind_apply, h₁]; exact f₂ _ h'

theorem FailsOnPrefix.nil {α} (p : Parser α) : FailsOnPrefix p [] := by
  rintro e' ⟨t, ht, h⟩; simp at h; exact absurd h.2 ht

theorem ProperPrefix.length_lt {e' e : Bytes} (h : ProperPrefix e' e) : e'.length < e.length := by
  obtain ⟨t, ht, rfl⟩ := h
  have : 0 < t.length := List.length_pos_iff.mpr ht
  simp; omega

theorem readN_reads (e : Bytes) : Reads (readN e.length) e e := by
  intro rest; simp [readN]

theorem readN_reads' {n : Nat} {e : Bytes} (h : e.length = n) : Reads (readN n) e e := h ▸ readN_reads e

theorem readN_prefix {n : Nat} {e : Bytes} (h : e.length = n) : FailsOnPrefix (readN n) e := by
  intro e' hp; have := hp.length_lt; simp [readN]; omega

theorem readU32_reads {n : Nat} (h : n < 2 ^ 32) : Reads readU32 (Spec.u32 n) n := by
  intro rest
  have h4 : readN 4 (Spec.u32 n ++ rest) = some (Spec.u32 n, rest) :=
    readN_reads' (u32_length n) rest
  simp only [readU32, h4]
  simp only [Spec.u32]
  rw [or_shift]
  simp only [UInt8.toNat_ofNat']
  congr 2
  omega

theorem readU32_prefix (n : Nat) : FailsOnPrefix readU32 (Spec.u32 n) := by
  intro e' hp; have := readN_prefix (u32_length n) e' hp; simp [readU32, this]

theorem readU32_lt {s n r} (h : readU32 s = some (n, r)) : n < 2 ^ 32 := by
  simp only [readU32] at h
  split at h
  · rename_i a b c d rest heq
    simp only [Option.some.injEq, Prod.mk.injEq] at h
    rw [or_shift] at h
    have ha := a.toNat_lt; have hb := b.toNat_lt; have hc := c.toNat_lt; have hd := d.toNat_lt
    omega
  · simp at h

theorem readU8_reads (b : UInt8) : Reads readU8 [b] b := by
  intro rest; simp [readU8, readN]

theorem readU8_prefix (b : UInt8) : FailsOnPrefix readU8 [b] := by
  intro e' hp; have := readN_prefix (n := 1) (e := [b]) rfl e' hp; simp [readU8, this]

theorem readBool_reads (b : Bool) : Reads readBool (Spec.bool b) b := by
  intro rest; cases b <;> simp [readBool, readN, Spec.bool]

theorem readBool_prefix (b : Bool) : FailsOnPrefix readBool (Spec.bool b) := by
  intro e' hp
  have := readN_prefix (n := 1) (e := Spec.bool b) rfl e' hp; simp [readBool, this]

theorem readString_reads {s : Bytes} (h : s.length < 2 ^ 32) : Reads readString (Spec.str s) s :=
  (readU32_reads h).bind (readN_reads s)

theorem readString_prefix {s : Bytes} (h : s.length < 2 ^ 32) :
    FailsOnPrefix readString (Spec.str s) :=
  FailsOnPrefix.bind (readU32_reads h) (readU32_prefix _) (readN_prefix rfl)

/-! ### writing -/

theorem writeN_ok {s s' : Ser} {src : Bytes} (h : s.writeN src = .ok s') :
    s'.buf = s.buf ++ src := by
  simp only [Ser.writeN] at h; split at h <;> simp at h; rw [← h]

theorem writeN_fits {s : Ser} {src : Bytes} (h : s.buf.length + src.length ≤ BUFFER_SIZE) :
    s.writeN src = .ok ⟨s.buf ++ src⟩ := by
  simp only [Ser.writeN, Ser.size]; rw [if_neg (by omega)]

theorem writeU32_ok {s s' : Ser} {n} (h : s.writeU32 n = .ok s') :
    s'.buf = s.buf ++ Spec.u32 n := by rw [writeN_ok h, u32Bytes_eq]

theorem writeString_ok {s s' : Ser} {v} (h : s.writeString v = .ok s') :
    s'.buf = s.buf ++ Spec.str v := by
  simp only [Ser.writeString, bind, Except.bind] at h
  split at h
  · simp at h
  · rename_i s₁ h₁
    rw [writeN_ok h, writeU32_ok h₁, Spec.str, List.append_assoc]

theorem writeBool_ok {s s' : Ser} {b} (h : s.writeBool b = .ok s') :
    s'.buf = s.buf ++ Spec.bool b := writeN_ok h

theorem writeU32_fits {s : Ser} {n} (h : s.buf.length + 4 ≤ BUFFER_SIZE) :
    s.writeU32 n = .ok ⟨s.buf ++ Spec.u32 n⟩ := by
  rw [Ser.writeU32, u32Bytes_eq]; exact writeN_fits (by simpa using h)

theorem writeString_fits {s : Ser} {v : Bytes} (h : s.buf.length + 4 + v.length ≤ BUFFER_SIZE) :
    s.writeString v = .ok ⟨s.buf ++ Spec.str v⟩ := by
  simp only [Ser.writeString, bind, Except.bind, writeU32_fits (s := s) (n := v.length) (by omega)]
  rw [writeN_fits (by simp; omega)]; simp [Spec.str]

theorem writeBool_fits {s : Ser} {b} (h : s.buf.length + 1 ≤ BUFFER_SIZE) :
    s.writeBool b = .ok ⟨s.buf ++ Spec.bool b⟩ := writeN_fits (by simpa using h)

/-! ### big numbers -/

theorem beValue_foldl (bs : Bytes) (n : Nat) :
    bs.foldl (fun n b => 256 * n + b.toNat) n = n * 256 ^ bs.length + Spec.beValue bs := by
  induction bs generalizing n with
  | nil => simp [Spec.beValue]
  | cons b t ih =>
    simp only [List.foldl_cons, List.length_cons, Spec.beValue]
    rw [ih, ih (256 * 0 + b.toNat), Nat.pow_succ]
    have : 256 * n * 256 ^ t.length = n * (256 ^ t.length * 256) := by
      rw [Nat.mul_comm 256 n, Nat.mul_assoc, Nat.mul_comm 256]
    rw [Nat.add_mul, this]; simp only [Nat.mul_zero, Nat.zero_add]; omega

theorem beValue_cons (b : UInt8) (t : Bytes) :
    Spec.beValue (b :: t) = b.toNat * 256 ^ t.length + Spec.beValue t := by
  simp only [Spec.beValue, List.foldl_cons]; rw [beValue_foldl]; simp [Spec.beValue]

@[simp] theorem beValue_nil : Spec.beValue [] = 0 := rfl

theorem beValue_zero_cons (t : Bytes) : Spec.beValue (0 :: t) = Spec.beValue t := by
  simp [beValue_cons]

theorem beValue_stripZeros (bs : Bytes) : Spec.beValue (stripZeros bs) = Spec.beValue bs := by
  induction bs with
  | nil => rfl
  | cons b t ih =>
    simp only [stripZeros]; split
    · rename_i h; rw [ih, h, beValue_zero_cons]
    · rfl

theorem stripZeros_head {bs : Bytes} {b t} (h : stripZeros bs = b :: t) : b ≠ 0 := by
  induction bs with
  | nil => simp [stripZeros] at h
  | cons c u ih =>
    simp only [stripZeros] at h; split at h
    · exact ih h
    · simp at h; rw [← h.1]; assumption

theorem stripZeros_eq_drop (bs : Bytes) : stripZeros bs = bs.drop (leadingZeros bs) := by
  induction bs with
  | nil => rfl
  | cons b t ih =>
    simp only [stripZeros, leadingZeros]; split
    · simpa using ih
    · simp

theorem leadingZeros_le (bs : Bytes) : leadingZeros bs ≤ bs.length := by
  induction bs with
  | nil => simp [leadingZeros]
  | cons b t ih => simp only [leadingZeros, List.length_cons]; split <;> omega

theorem msb_iff (b : UInt8) : (b &&& 0x80 != 0) = decide (128 ≤ b.toNat) := by
  have : ∀ n : Fin 256, ((UInt8.ofNat n.val) &&& 0x80 != 0) = decide (128 ≤ n.val) := by decide +kernel
  have h := this ⟨b.toNat, b.toNat_lt⟩
  simpa using h

/-- The contents `WriteBignum2` appends. -/
def mpintBytes (src : Bytes) : Bytes :=
  (if msbSet (stripZeros src) then [0] else []) ++ stripZeros src

theorem writeBignum2_ok {s s' : Ser} {src} (h : s.writeBignum2 src = .ok s') :
    s'.buf = s.buf ++ mpintBytes src := by
  simp only [Ser.writeBignum2, mpintBytes, bind, Except.bind, pure, Except.pure] at h ⊢
  by_cases hm : msbSet (stripZeros src) = true
  · simp only [hm, if_true] at h ⊢
    split at h
    · simp at h
    · rename_i s₁ h₁; rw [writeN_ok h, writeN_ok h₁]; simp
  · simp only [hm] at h ⊢; rw [writeN_ok h]; simp

theorem mpint_canonical (src : Bytes) : Spec.IsMpint (mpintBytes src) (Spec.beValue src) := by
  constructor
  · simp only [mpintBytes]; split
    · simp [beValue_zero_cons, beValue_stripZeros]
    · simp [beValue_stripZeros]
  · intro b hb
    simp only [mpintBytes] at hb
    split at hb
    · simp at hb; subst hb; decide
    · rename_i hm
      cases hs : stripZeros src with
      | nil => simp [hs] at hb
      | cons c t =>
        simp only [hs, List.nil_append, List.head?_cons, Option.some.injEq] at hb; subst hb
        simp only [hs, msbSet, msb_iff] at hm; simpa using hm
  · intro b c t h hb
    simp only [mpintBytes] at h
    split at h
    · rename_i hm
      simp only [List.cons_append, List.nil_append, List.cons.injEq] at h
      rw [h.2] at hm; simpa [msbSet, msb_iff] using hm
    · simp only [List.nil_append] at h
      exact absurd hb (stripZeros_head h)
  · intro h0
    have hnil : stripZeros src = [] := by
      cases hs : stripZeros src with
      | nil => rfl
      | cons c t =>
        have := beValue_stripZeros src
        rw [hs, beValue_cons, h0] at this
        have hc : c.toNat = 0 := by
          have hp : 0 < 256 ^ t.length := Nat.pow_pos (by decide)
          have : c.toNat * 256 ^ t.length = 0 := by omega
          rcases Nat.mul_eq_zero.mp this with h | h <;> omega
        exact absurd (UInt8.toNat_inj.mp (by simpa using hc)) (stripZeros_head hs)
    simp [mpintBytes, hnil, msbSet]

theorem commitBignum2_ok {s s' : Ser} {raw} (h : s.commitBignum2 raw = .ok s') :
    s'.buf = s.buf ++ mpintBytes raw := by
  simp only [Ser.commitBignum2] at h
  split at h
  · simp at h
  · have hle := leadingZeros_le raw
    have hdrop : (s.buf ++ raw.drop (leadingZeros raw)).drop
        ((s.buf ++ raw.drop (leadingZeros raw)).length - (raw.length - leadingZeros raw))
        = stripZeros raw := by
      rw [stripZeros_eq_drop, List.length_append, List.length_drop, Nat.add_sub_cancel,
        List.drop_left]
    simp only [Ser.size] at h
    rw [hdrop] at h
    split at h
    · rename_i hc
      simp only [Ser.insertNullByte, Ser.size] at h
      split at h
      · simp at h
      · split at h
        · simp at h
        · simp only [Except.ok.injEq] at h
          rw [← h]
          simp only [hdrop, mpintBytes, hc.2, if_true]
          have : (s.buf ++ raw.drop (leadingZeros raw)).length - (raw.length - leadingZeros raw)
              = s.buf.length := by simp
          rw [this]; simp
    · rename_i hc
      simp only [Except.ok.injEq] at h
      rw [← h]
      have hm : msbSet (stripZeros raw) = false := by
        cases hs : stripZeros raw with
        | nil => rfl
        | cons c t =>
          have : 0 < raw.length - leadingZeros raw := by
            have := congrArg List.length (stripZeros_eq_drop raw)
            rw [hs] at this; simp at this; omega
          rw [hs] at hc; simpa [this] using hc
      simp [mpintBytes, hm, ← stripZeros_eq_drop]

theorem beValue_lt (bs : Bytes) : Spec.beValue bs < 256 ^ bs.length := by
  induction bs with
  | nil => simp
  | cons b t ih =>
    rw [beValue_cons, List.length_cons, Nat.pow_succ]
    have := b.toNat_lt
    have : b.toNat * 256 ^ t.length ≤ 255 * 256 ^ t.length := Nat.mul_le_mul_right _ (by omega)
    omega

theorem beValue_inj {a b : Bytes} (hl : a.length = b.length)
    (hv : Spec.beValue a = Spec.beValue b) : a = b := by
  induction a generalizing b with
  | nil => cases b with
    | nil => rfl
    | cons => simp at hl
  | cons x t ih => cases b with
    | nil => simp at hl
    | cons y u =>
      simp only [List.length_cons, Nat.add_right_cancel_iff] at hl
      rw [beValue_cons, beValue_cons, hl] at hv
      have h1 := beValue_lt t; have h2 := beValue_lt u; rw [hl] at h1
      have hxy : x.toNat = y.toNat := by
        have e1 : (x.toNat * 256 ^ u.length + Spec.beValue t) / 256 ^ u.length = x.toNat := by
          rw [Nat.mul_comm, Nat.mul_add_div (Nat.pow_pos (by decide)), Nat.div_eq_of_lt h1]; rfl
        have e2 : (y.toNat * 256 ^ u.length + Spec.beValue u) / 256 ^ u.length = y.toNat := by
          rw [Nat.mul_comm, Nat.mul_add_div (Nat.pow_pos (by decide)), Nat.div_eq_of_lt h2]; rfl
        rw [← e1, ← e2, hv]
      have hx := UInt8.toNat_inj.mp hxy
      subst hx
      rw [ih hl (by omega)]

/-- bounds on the value of a canonical mpint -/
theorem isMpint_bounds {a : Bytes} {n : Nat} (h : Spec.IsMpint a n) (hne : a ≠ []) :
    2 * n < 256 ^ a.length ∧ 256 ^ (a.length - 1) ≤ 2 * n := by
  match a, hne with
  | b :: t, _ =>
    have hb := h.notNegative b rfl
    have hv := h.value
    rw [beValue_cons] at hv
    have ht := beValue_lt t
    have hp : 0 < 256 ^ t.length := Nat.pow_pos (by decide)
    refine ⟨?_, ?_⟩
    · rw [List.length_cons, Nat.pow_succ]
      have : b.toNat * 256 ^ t.length ≤ 127 * 256 ^ t.length := Nat.mul_le_mul_right _ (by omega)
      omega
    · simp only [List.length_cons, Nat.add_sub_cancel]
      by_cases h0 : b = 0
      · cases t with
        | nil =>
          have : n = 0 := by subst h0; simp at hv; exact hv.symm
          have := h.zeroEmpty this
          simp at this
        | cons c u =>
          have hc := h.shortest b c u rfl h0
          rw [beValue_cons] at hv
          have : 128 * 256 ^ u.length ≤ c.toNat * 256 ^ u.length := Nat.mul_le_mul_right _ hc
          rw [List.length_cons, Nat.pow_succ] at *
          omega
      · have hb1 : 1 ≤ b.toNat := by
          rcases Nat.eq_zero_or_pos b.toNat with h | h
          · exact absurd (UInt8.toNat_inj.mp (by simpa using h)) h0
          · exact h
        have : 1 * 256 ^ t.length ≤ b.toNat * 256 ^ t.length := Nat.mul_le_mul_right _ hb1
        omega

theorem isMpint_unique {a b : Bytes} {n : Nat} (ha : Spec.IsMpint a n) (hb : Spec.IsMpint b n) :
    a = b := by
  by_cases h0 : n = 0
  · rw [ha.zeroEmpty h0, hb.zeroEmpty h0]
  · have ha0 : a ≠ [] := by rintro rfl; exact h0 (by simpa using ha.value.symm)
    have hb0 : b ≠ [] := by rintro rfl; exact h0 (by simpa using hb.value.symm)
    have b1 := isMpint_bounds ha ha0
    have b2 := isMpint_bounds hb hb0
    have hl : a.length = b.length := by
      have la : 0 < a.length := List.length_pos_iff.mpr ha0
      have lb : 0 < b.length := List.length_pos_iff.mpr hb0
      rcases Nat.lt_trichotomy a.length b.length with h | h | h
      · have : 256 ^ a.length ≤ 256 ^ (b.length - 1) := Nat.pow_le_pow_right (by decide) (by omega)
        omega
      · exact h
      · have : 256 ^ b.length ≤ 256 ^ (a.length - 1) := Nat.pow_le_pow_right (by decide) (by omega)
        omega
    exact beValue_inj hl (by rw [ha.value, hb.value])

theorem stripZeros_idem (bs : Bytes) : stripZeros (stripZeros bs) = stripZeros bs := by
  cases h : stripZeros bs with
  | nil => rfl
  | cons b t => simp [stripZeros, stripZeros_head h]

theorem stripZeros_length_le (bs : Bytes) : (stripZeros bs).length ≤ bs.length := by
  rw [stripZeros_eq_drop]; simp

theorem stripZeros_mpint (raw : Bytes) : stripZeros (mpintBytes raw) = stripZeros raw := by
  simp only [mpintBytes]; split
  · simp [stripZeros, stripZeros_idem]
  · simp [stripZeros_idem]

theorem deserialize_mpint {raw : Bytes} (hl : raw.length ≤ MAX_BIGNUM) :
    deserializeBIGNUM Spec.beValue (mpintBytes raw) = some (Spec.beValue raw) := by
  have hm : msbSet (mpintBytes raw) = false := by
    have hc := (mpint_canonical raw).notNegative
    cases h : mpintBytes raw with
    | nil => rfl
    | cons b t =>
      have := hc b (by rw [h]; rfl)
      simp [msbSet, msb_iff]; omega
  have := stripZeros_length_le raw
  simp only [deserializeBIGNUM, hm]
  rw [stripZeros_mpint, if_neg (by simp), if_neg (by omega), beValue_stripZeros]

/-! ### packets -/

theorem padding_ge (size : Nat) (k : Nat) : 4 ≤ padding size (2 ^ k) := by
  simp only [padding, MIN_PACKET_SIZE, MIN_PADDING]
  rw [Nat.and_two_pow_sub_one_eq_mod]
  have := Nat.mod_lt (size + 4 - 1) (show 0 < 2 ^ k from Nat.pow_pos (by decide))
  split <;> omega

theorem padding_le (size k : Nat) : padding size (2 ^ k) ≤ max 16 (2 ^ k + 3) := by
  simp only [padding, MIN_PACKET_SIZE, MIN_PADDING]
  have := Nat.pow_pos (n := k) (show 0 < 2 by decide)
  split <;> omega

theorem padding_total_min (size k : Nat) : 16 ≤ size + padding size (2 ^ k) := by
  have := padding_ge size k
  by_cases h : size ≤ 12
  · simp [padding, MIN_PACKET_SIZE, MIN_PADDING, h]; omega
  · omega

theorem padding_aligned (size k : Nat) (hk : k ≤ 4) : 2 ^ k ∣ size + padding size (2 ^ k) := by
  simp only [padding, MIN_PACKET_SIZE, MIN_PADDING]
  split
  · have : size + (16 - size) = 16 := by omega
    rw [this]
    exact (Nat.pow_dvd_pow 2 hk : 2 ^ k ∣ 2 ^ 4)
  · rw [Nat.and_two_pow_sub_one_eq_mod]
    have hp := Nat.pow_pos (n := k) (show 0 < 2 by decide)
    have hm := Nat.mod_lt (size + 4 - 1) hp
    have hd := Nat.div_add_mod (size + 4 - 1) (2 ^ k)
    refine ⟨(size + 4 - 1) / 2 ^ k + 1, ?_⟩
    rw [Nat.mul_add, Nat.mul_one]; omega

end Lukko
