import Verif.Model.Rekey
import Verif.Proof.ServerKex
/-
  The timer and the counter which decide when keys are renewed.
-/
namespace Lukko
open Spec Model

/-! ### Histories -/

theorem entriesOf_append (a b : Book) : entriesOf (a ++ b) = entriesOf a ++ entriesOf b := by
  simp [entriesOf]

theorem exchanging_snoc (l : List Entry) (x : Entry) : exchanging (l ++ [x]) = exchangeStep (exchanging l) x := by
  simp [exchanging]

theorem sending_snoc (size) (l : List Entry) (x : Entry) : sending size (l ++ [x]) = volumeStep size (sending size l) x := by
  simp [sending]

theorem renewed_snoc (a : Book) (m) : renewed (a ++ [m]) = renewedStep (renewed a) m := by
  simp [renewed]

theorem loggedIn_snoc (a : Book) (t x) : loggedIn (a ++ [(t, Event.entry x)]) = loggedIn a := by
  simp [loggedIn]

theorem book_split {α} {l a b : List α} {x m : α} (h : l ++ [x] = a ++ m :: b) :
    (b = [] ∧ a = l ∧ m = x) ∨ ∃ b', b = b' ++ [x] ∧ l = a ++ m :: b' := by
  rcases List.eq_nil_or_concat b with rfl | ⟨b', z, rfl⟩
  · left
    have h' : l ++ [x] = a ++ [m] := h
    have := List.append_inj' h' rfl
    exact ⟨rfl, this.1.symm, by simpa using this.2.symm⟩
  · right
    rw [List.concat_eq_append] at h ⊢
    have h' : l ++ [x] = (a ++ m :: b') ++ [z] := by rw [h]; simp
    have := List.append_inj' h' rfl
    refine ⟨b', ?_, this.1⟩
    rw [show x = z by simpa using this.2]

/-! ### The invariant, in the middle of an event -/

/-- A packet that makes the volume too big is followed by a key exchange in the same second. -/
def Watched (e : RyEnv) (live : Prop) (y : Ry) : Prop :=
  ∀ a t p b, y.book = a ++ (t, .entry (.sent p)) :: b → loggedIn a = true →
    rekeyBytes ≤ volume e.size (entriesOf a ++ [.sent p]) → exchanging (entriesOf a ++ [.sent p]) = false →
    (∃ m ∈ b, m.1 = t ∧ begins m.2 = true) ∨ (t = y.now ∧ (live → y.timer = some y.now ∧ y.idle = true))

structure RyAt (e : RyEnv) (l : List Entry) (φ : Phase) (y : Ry) : Prop where
  entries : entriesOf y.book = l
  idle : y.idle = !exchanging l
  send : sending e.size l = (y.cipher, y.bytes)
  phase : phaseOf l = some φ
  exch : exchanging l = (φ.kexSent || φ.kexRecv)
  both : φ.newSent = true → φ.kexSent = true ∧ φ.kexRecv = true
  auth : y.sys.kx.authenticated = loggedIn y.book
  past : ∀ d, y.timer = some d → y.now ≤ d
  hour : φ.refused = false → hasIn l = true → y.idle = true →
    ∃ d, y.timer = some d ∧ d ≤ renewed y.book + rekeyInterval
  early : y.sys.kx.authenticated = false → ∀ d, y.timer = some d → d = renewed y.book + rekeyInterval ∧ hasIn l = true
  watched : Watched e (φ.refused = false) y

theorem next_exch {φ φ' : Phase} {x : Entry} {b : Bool} (hn : φ.next x = some φ') (he : b = (φ.kexSent || φ.kexRecv))
    (hb : φ.newSent = true → φ.kexSent = true ∧ φ.kexRecv = true) :
    exchangeStep b x = (φ'.kexSent || φ'.kexRecv) ∧ (φ'.newSent = true → φ'.kexSent = true ∧ φ'.kexRecv = true) ∧
    (φ'.refused = false → φ.refused = false) := by
  obtain ⟨a1, a2, a3, a4, a5, a6, a7⟩ := φ
  subst he
  cases x with
  | sent p =>
    simp only [Phase.next] at hn
    simp only [exchangeStep]
    split at hn
    · rename_i h1
      cases hn
      have : isMsg 20 p = false := by
        cases p with
        | nil => rfl
        | cons c t => simp [isMsg] at h1 ⊢; rw [h1]; decide
      simp_all
    · split at hn
      · cases hn
      · split at hn
        · cases hn
        · split at hn
          · split at hn
            · cases hn; simp_all
            · cases hn
          · split at hn
            · split at hn
              · cases hn; simp_all
              · cases hn
            · cases hn; simp_all
  | recv p =>
    simp only [Phase.next] at hn
    simp only [exchangeStep]
    split at hn
    · cases hn
    · split at hn
      · split at hn
        · cases hn; simp_all
        · cases hn
          cases a4 <;> cases a2 <;> cases a1 <;> simp_all
      · split at hn
        · split at hn
          · cases hn; simp_all
          · cases hn; simp_all
        · cases hn; simp_all
  | agreed t =>
    simp only [Phase.next] at hn
    split at hn
    · cases hn; simp_all [exchangeStep]
    · cases hn
  | installOut a b c =>
    simp only [Phase.next] at hn
    split at hn
    · cases hn; simp_all [exchangeStep]
    · cases hn
  | installIn a b c =>
    simp only [Phase.next] at hn
    split at hn
    · cases hn; simp_all [exchangeStep]
    · cases hn
  | version => simp only [Phase.next] at hn; cases hn; simp_all [exchangeStep]
  | encrypted => simp only [Phase.next] at hn; cases hn; simp_all [exchangeStep]
  | blocked => simp only [Phase.next] at hn; cases hn; simp_all [exchangeStep]
  | unblocked => simp only [Phase.next] at hn; cases hn; simp_all [exchangeStep]

/-- What an entry does, as seen by the invariant. -/
structure Effect (e : RyEnv) (y : Ry) (φ φ' : Phase) (x : Entry) (y' : Ry) : Prop where
  sys : y'.sys = y.sys
  now : y'.now = y.now
  idle : y.idle = (!(φ.kexSent || φ.kexRecv)) → y'.idle = (!(φ'.kexSent || φ'.kexRecv))
  send : (y'.cipher, y'.bytes) = volumeStep e.size (y.cipher, y.bytes) x
  /-- while idle, the timer is not cancelled -/
  timer : φ'.refused = false → y.idle = true → y'.idle = true →
    y'.timer = y.timer ∨ y'.timer = some y.now
  timers : (y'.timer = y.timer ∧ ∀ a b c, x ≠ .installIn a b c) ∨ y'.timer = none ∨ (y'.timer = some y.now ∧ y.sys.kx.authenticated = true) ∨
    (y'.timer = some (y.now + rekeyInterval) ∧ ∃ a b c, x = .installIn a b c)
  opened : φ'.refused = false → y.idle = false → y'.idle = true →
    y'.timer = some (y.now + rekeyInterval) ∧ ∃ a b c, x = .installIn a b c
  noInstall : y.idle = true → ∀ a b c, x ≠ .installIn a b c
  begun : y.idle = true → y'.idle = false → begins (.entry x) = true
  big : ∀ p, x = .sent p → y.sys.kx.authenticated = true → rekeyBytes ≤ (volumeStep e.size (y.cipher, y.bytes) x).2 →
    y'.idle = true → y'.cipher ≠ none → y'.timer = some y.now

theorem sent_effect (e : RyEnv) {y : Ry} {p : Bytes} {φ φ' : Phase} (hn : φ.next (.sent p) = some φ')
    (hi : y.idle = (!(φ.kexSent || φ.kexRecv))) (hb : φ.newSent = true → φ.kexSent = true ∧ φ.kexRecv = true) :
    Effect e y φ φ' (.sent p) (y.sent e p) := by
  have hx := next_exch hn rfl hb
  simp only [exchangeStep] at hx
  have h1 : (y.sent e p).idle = (y.idle && !isMsg 20 p) := by
    unfold Ry.sent
    simp only
    split
    · rfl
    · simp only [Bool.cond_eq_ite]; split <;> rfl
  have h2 : ((y.sent e p).cipher, (y.sent e p).bytes) = volumeStep e.size (y.cipher, y.bytes) (.sent p) := by
    unfold Ry.sent volumeStep
    simp only
    split
    · rename_i h; simp only [h]
    · rename_i c h
      simp only [h, Bool.cond_eq_ite]
      split <;> rfl
  have h3 : (y.sent e p).timer = y.timer ∨ ((y.sent e p).timer = some y.now ∧ y.sys.kx.authenticated = true) := by
    unfold Ry.sent
    simp only
    split
    · exact .inl rfl
    · simp only [Bool.cond_eq_ite]
      split
      · rename_i h
        simp only [Bool.and_eq_true] at h
        exact .inr ⟨rfl, h.1.1⟩
      · exact .inl rfl
  have hsys : (y.sent e p).sys = y.sys := by
    unfold Ry.sent
    simp only
    split
    · rfl
    · simp only [Bool.cond_eq_ite]; split <;> rfl
  have hnow : (y.sent e p).now = y.now := by
    unfold Ry.sent
    simp only
    split
    · rfl
    · simp only [Bool.cond_eq_ite]; split <;> rfl
  refine ⟨hsys, hnow, ?_, h2, ?_, ?_, ?_, ?_, ?_, ?_⟩
  · intro _
    rw [h1, hi, ← hx.1]
    cases φ.kexSent <;> cases φ.kexRecv <;> cases isMsg 20 p <;> rfl
  · intro _ _ _
    rcases h3 with h3 | h3
    · exact .inl h3
    · exact .inr h3.1
  · rcases h3 with h3 | h3
    · exact .inl ⟨h3, by simp⟩
    · exact .inr (.inr (.inl h3))
  · intro _ h4 h5
    rw [h1, h4] at h5
    exact absurd h5 (by simp)
  · intro _ a b c h; cases h
  · intro h4 h5
    rw [h1, h4] at h5
    simp only [begins]
    simp at h5
    simp [h5]
  · intro q hq ha hbig hid hc
    unfold Ry.sent at hid hc ⊢
    unfold volumeStep at hbig
    simp only at hid hc hbig ⊢
    cases hcy : y.cipher with
    | none => simp only [hcy] at hc; exact absurd rfl hc
    | some c =>
      simp only [hcy] at hid hc hbig ⊢
      have hid' : (y.idle && !isMsg 20 p) = true := by
        revert hid
        simp only [Bool.cond_eq_ite]
        split <;> exact id
      have : (y.sys.kx.authenticated && decide (rekeyBytes ≤ y.bytes + e.size c p) && (y.idle && !isMsg MSG_KEXINIT p)) = true := by
        rw [ha, hid']
        simp only [Bool.true_and, Bool.and_true]
        exact decide_eq_true hbig
      rw [this]
      rfl

theorem recv_effect (e : RyEnv) {y : Ry} {p : Bytes} {φ φ' : Phase} (hn : φ.next (.recv p) = some φ')
    (hi : y.idle = (!(φ.kexSent || φ.kexRecv))) (hb : φ.newSent = true → φ.kexSent = true ∧ φ.kexRecv = true) :
    Effect e y φ φ' (.recv p) (y.recv p) := by
  have hx := next_exch hn rfl hb
  simp only [exchangeStep] at hx
  unfold Ry.recv
  cases h20 : isMsg MSG_KEXINIT p with
  | true =>
    have h20' : isMsg 20 p = true := h20
    simp only [cond_true]
    refine ⟨rfl, rfl, ?_, rfl, ?_, .inr (.inl rfl), ?_, ?_, ?_, ?_⟩
    · intro _; rw [← hx.1, h20']; simp
    · intro _ _ h; cases h
    · intro _ _ h; cases h
    · intro _ a b c h; cases h
    · intro _ _; exact h20'
    · intro q hq; cases hq
  | false =>
    have h20' : isMsg 20 p = false := h20
    simp only [cond_false]
    rw [h20', Bool.or_false] at hx
    cases h21 : isMsg MSG_NEWKEYS p with
    | true =>
      have h21' : isMsg 21 p = true := h21
      simp only [cond_true]
      refine ⟨rfl, rfl, ?_, rfl, ?_, .inr (.inl rfl), ?_, ?_, ?_, ?_⟩
      · intro _; rw [← hx.1]; exact hi
      · intro hr hid _
        exfalso
        simp only [Phase.next, h20', h21'] at hn
        split at hn
        · cases hn
        · simp only [Bool.false_eq_true, if_false, if_true] at hn
          split at hn
          · rename_i h
            rw [Bool.and_eq_true] at h
            have := hb h.1
            rw [hi, this.1] at hid
            simp at hid
          · cases hn; cases hr
      · intro _ h4 h5; simp only at h5; rw [h4] at h5; cases h5
      · intro _ a b c h; cases h
      · intro h4 h5; simp only at h5; rw [h4] at h5; cases h5
      · intro q hq; cases hq
    | false =>
      simp only [cond_false]
      refine ⟨rfl, rfl, ?_, rfl, fun _ _ _ => .inl rfl, .inl ⟨rfl, by simp⟩, ?_, ?_, ?_, ?_⟩
      · intro _; rw [← hx.1]; exact hi
      · intro _ h4 h5; rw [h4] at h5; cases h5
      · intro _ a b c h; cases h
      · intro h4 h5; rw [h4] at h5; cases h5
      · intro q hq; cases hq

theorem entry_effect (e : RyEnv) {y : Ry} {x : Entry} {φ φ' : Phase} (hn : φ.next x = some φ')
    (hi : y.idle = (!(φ.kexSent || φ.kexRecv))) (hb : φ.newSent = true → φ.kexSent = true ∧ φ.kexRecv = true) :
    Effect e y φ φ' x (y.effect e x) := by
  have plain : φ' = φ ∨ φ' = { φ with secret := true } → (∀ p, x ≠ .sent p) → (∀ a b c, x ≠ .installIn a b c) →
      volumeStep e.size (y.cipher, y.bytes) x = (y.cipher, y.bytes) → Effect e y φ φ' x y := by
    intro h1 h2 h3 h4
    refine ⟨rfl, rfl, ?_, h4.symm, fun _ _ _ => .inl rfl, .inl ⟨rfl, h3⟩, ?_, fun _ => h3, ?_, ?_⟩
    · rcases h1 with rfl | rfl <;> exact id
    · intro _ h5 h6; rw [h5] at h6; cases h6
    · intro h5 h6; rw [h5] at h6; cases h6
    · intro p hp; exact absurd hp (h2 p)
  cases x with
  | sent p => exact sent_effect e hn hi hb
  | recv p => exact recv_effect e hn hi hb
  | agreed t =>
    simp only [Phase.next] at hn
    split at hn
    · cases hn; exact plain (.inr rfl) (by simp) (by simp) rfl
    · cases hn
  | installOut a b c =>
    simp only [Phase.next] at hn
    split at hn
    · rename_i h
      cases hn
      simp only [Bool.and_eq_true] at h
      have hs := hb h.1.1
      have hf : y.idle = false := by rw [hi, hs.1]; rfl
      unfold Ry.effect
      refine ⟨rfl, rfl, id, rfl, ?_, .inr (.inl rfl), ?_, ?_, ?_, ?_⟩
      · intro _ h5; rw [hf] at h5; cases h5
      · intro _ _ h5; simp only at h5; rw [hf] at h5; cases h5
      · intro h5; rw [hf] at h5; cases h5
      · intro h5; rw [hf] at h5; cases h5
      · intro p hp; cases hp
    · cases hn
  | installIn a b c =>
    simp only [Phase.next] at hn
    split at hn
    · rename_i h
      cases hn
      simp only [Bool.and_eq_true] at h
      have hf : y.idle = false := by rw [hi, h.1.1.1.1.1.1]; rfl
      unfold Ry.effect
      refine ⟨rfl, rfl, fun _ => rfl, rfl, ?_, .inr (.inr (.inr ⟨rfl, a, b, c, rfl⟩)), ?_, ?_, ?_, ?_⟩
      · intro _ h5; rw [hf] at h5; cases h5
      · intro _ _ _; exact ⟨rfl, a, b, c, rfl⟩
      · intro h5; rw [hf] at h5; cases h5
      · intro h5; rw [hf] at h5; cases h5
      · intro p hp; cases hp
    · cases hn
  | version => simp only [Phase.next] at hn; cases hn; exact plain (.inl rfl) (by simp) (by simp) rfl
  | encrypted => simp only [Phase.next] at hn; cases hn; exact plain (.inl rfl) (by simp) (by simp) rfl
  | blocked => simp only [Phase.next] at hn; cases hn; exact plain (.inl rfl) (by simp) (by simp) rfl
  | unblocked => simp only [Phase.next] at hn; cases hn; exact plain (.inl rfl) (by simp) (by simp) rfl

theorem sending_none (size) (l : List Entry) : (sending size l).1 = none → (sending size l).2 = 0 := by
  induction l using Aux.snoc_ind with
  | h0 => intro _; rfl
  | h1 l x ih =>
    rw [sending_snoc]
    intro h
    cases x with
    | sent p =>
      simp only [volumeStep] at h ⊢
      cases hc : (sending size l).1 with
      | none => simp only [hc]; exact ih hc
      | some c => simp only [hc] at h; cases h
    | installOut => rfl
    | _ => exact ih h

theorem entriesOf_snoc (a : Book) (t x) : entriesOf (a ++ [(t, Event.entry x)]) = entriesOf a ++ [x] := by
  simp [entriesOf, Event.entry?]

/-- One entry. -/
theorem RyAt.note {e : RyEnv} {l : List Entry} {φ φ' : Phase} {y : Ry} {x : Entry} (h : RyAt e l φ y)
    (hn : φ.next x = some φ') : RyAt e (l ++ [x]) φ' (y.note e x) := by
  have hid : y.idle = (!(φ.kexSent || φ.kexRecv)) := by rw [h.idle, h.exch]
  have E := entry_effect e hn hid h.both
  have X := next_exch hn h.exch h.both
  generalize hy' : y.effect e x = y' at E
  have hnote : y.note e x = { y' with book := y.book ++ [(y.now, .entry x)] } := by unfold Ry.note; rw [hy']
  rw [hnote]
  have hsys := E.sys
  have hren : renewed (y.book ++ [(y.now, Event.entry x)]) = renewed y.book ∨
      ((∃ a b c, x = .installIn a b c) ∧ renewed (y.book ++ [(y.now, Event.entry x)]) = y.now) := by
    rw [renewed_snoc]
    unfold renewedStep
    cases x with
    | installIn a b c => exact .inr ⟨⟨a, b, c, rfl⟩, rfl⟩
    | _ => exact .inl rfl
  have hren' : (∃ a b c, x = .installIn a b c) → renewed (y.book ++ [(y.now, Event.entry x)]) = y.now := by
    rintro ⟨a, b, c, rfl⟩
    rw [renewed_snoc]; rfl
  have hnoren : (∀ a b c, x ≠ .installIn a b c) → renewed (y.book ++ [(y.now, Event.entry x)]) = renewed y.book := by
    intro hx
    rcases hren with h1 | ⟨⟨a, b, c, h1⟩, -⟩
    · exact h1
    · exact absurd h1 (hx a b c)
  refine ⟨?_, ?_, ?_, ?_, ?_, X.2.1, ?_, ?_, ?_, ?_, ?_⟩
  · show entriesOf (y.book ++ [(y.now, Event.entry x)]) = _
    rw [entriesOf_snoc, h.entries]
  · show y'.idle = _
    rw [E.idle hid, exchanging_snoc, X.1]
  · show _ = (y'.cipher, y'.bytes)
    rw [E.send, sending_snoc, h.send]
  · rw [phaseOf_snoc, h.phase]; exact hn
  · rw [exchanging_snoc, X.1]
  · show y'.sys.kx.authenticated = loggedIn (y.book ++ [(y.now, Event.entry x)])
    rw [hsys, loggedIn_snoc]
    exact h.auth
  · intro d hd
    show y'.now ≤ d
    replace hd : y'.timer = some d := hd
    rw [E.now]
    rcases E.timers with h1 | h1 | h1 | h1
    · exact h.past d (h1.1 ▸ hd)
    · rw [h1] at hd; cases hd
    · rw [h1.1] at hd; cases hd; exact Nat.le_refl _
    · rw [h1.1] at hd; cases hd; exact Nat.le_add_right _ _
  · intro hr ha hi
    replace hi : y'.idle = true := hi
    show ∃ d, y'.timer = some d ∧ d ≤ renewed (y.book ++ [(y.now, Event.entry x)]) + rekeyInterval
    cases hiy : y.idle with
    | false =>
      obtain ⟨h1, h2⟩ := E.opened hr hiy hi
      refine ⟨_, h1, ?_⟩
      rw [hren' h2]
      exact Nat.le_refl _
    | true =>
      rw [hnoren (E.noInstall hiy)]
      have ha' : hasIn l = true := by
        rw [hasIn_snoc] at ha
        have h4 := E.noInstall hiy
        revert ha h4
        cases x <;> simp
      obtain ⟨d, h1, h2⟩ := h.hour (X.2.2 hr) ha' hiy
      rcases E.timer hr hiy hi with h3 | h3
      · exact ⟨d, h3.trans h1, h2⟩
      · exact ⟨_, h3, Nat.le_trans (h.past d h1) h2⟩
  · intro ha d hd
    replace ha : y.sys.kx.authenticated = false := by rw [← hsys]; exact ha
    replace hd : y'.timer = some d := hd
    show d = renewed (y.book ++ [(y.now, Event.entry x)]) + rekeyInterval ∧ _
    rw [hasIn_snoc]
    rcases E.timers with h1 | h1 | h1 | h1
    · obtain ⟨h2, h3⟩ := h.early ha d (h1.1 ▸ hd)
      rw [hnoren h1.2, h3]
      exact ⟨h2, rfl⟩
    · rw [h1] at hd; cases hd
    · rw [h1.2] at ha; cases ha
    · rw [h1.1] at hd
      cases hd
      rw [hren' h1.2]
      obtain ⟨a, b, c, rfl⟩ := h1.2
      exact ⟨rfl, by simp⟩
  · intro a t p b hab hl hv hex
    replace hab : y.book ++ [(y.now, Event.entry x)] = a ++ (t, .entry (.sent p)) :: b := hab
    show _ ∨ (t = y'.now ∧ (_ → y'.timer = some y'.now ∧ y'.idle = true))
    rw [E.now]
    rcases book_split hab with ⟨rfl, rfl, h1⟩ | ⟨b', rfl, h1⟩
    · cases h1
      refine .inr ⟨rfl, fun _ => ?_⟩
      have hi' : y'.idle = true := by
        rw [E.idle hid, ← X.1, ← exchanging_snoc, ← h.entries, hex]; rfl
      have hv' : rekeyBytes ≤ (volumeStep e.size (y.cipher, y.bytes) (.sent p)).2 := by
        rw [← h.send, ← sending_snoc, ← h.entries]; exact hv
      refine ⟨E.big p rfl (h.auth.trans hl) hv' hi' ?_, hi'⟩
      intro hc
      have := sending_none e.size (l ++ [.sent p])
      rw [sending_snoc, h.send, ← E.send] at this
      have h2 := this hc
      rw [← E.send] at hv'
      rw [h2] at hv'
      exact absurd hv' (by decide)
    · rcases h.watched a t p b' h1 hl hv hex with ⟨m, h2, h3⟩ | ⟨h2, h3⟩
      · exact .inl ⟨m, by simp [h2], h3⟩
      · cases hr : φ'.refused with
        | true => exact .inr ⟨h2, fun h4 => by cases h4⟩
        | false =>
          obtain ⟨h4, h5⟩ := h3 (X.2.2 hr)
          cases hi' : y'.idle with
          | false => exact .inl ⟨(y.now, .entry x), by simp, h2.symm, E.begun h5 hi'⟩
          | true =>
            refine .inr ⟨h2, fun _ => ⟨?_, rfl⟩⟩
            rcases E.timer hr h5 hi' with h6 | h6
            · exact h6.trans h4
            · exact h6

/-- What happens in one event. -/
theorem RyAt.notes {e : RyEnv} {ext : List Entry} : ∀ {l : List Entry} {φ φ' : Phase} {y : Ry}, RyAt e l φ y →
    phaseOf (l ++ ext) = some φ' → RyAt e (l ++ ext) φ' (ext.foldl (Ry.note e) y) := by
  induction ext with
  | nil =>
    intro l φ φ' y h hp
    rw [List.append_nil] at hp ⊢
    rw [h.phase] at hp
    cases hp
    exact h
  | cons x ext ih =>
    intro l φ φ' y h hp
    rw [show l ++ x :: ext = (l ++ [x]) ++ ext by simp] at hp ⊢
    cases hx : φ.next x with
    | none =>
      exfalso
      have : phaseOf (l ++ [x]) = none := by rw [phaseOf_snoc, h.phase]; exact hx
      unfold phaseOf at this hp
      rw [List.foldlM_append, this] at hp
      cases hp
    | some φ₁ =>
      exact ih (h.note hx) hp

theorem notes_now {e : RyEnv} (ext : List Entry) : ∀ (y : Ry), (ext.foldl (Ry.note e) y).now = y.now ∧
    (ext.foldl (Ry.note e) y).book = y.book ++ ext.map (fun x => (y.now, Event.entry x)) := by
  have h1 : ∀ (y : Ry) x, (y.note e x).now = y.now := by
    intro y x
    show (y.effect e x).now = y.now
    unfold Ry.effect
    split
    · unfold Ry.sent
      simp only
      split
      · rfl
      · simp only [Bool.cond_eq_ite]; split <;> rfl
    · unfold Ry.recv
      simp only [Bool.cond_eq_ite]
      split
      · rfl
      · split <;> rfl
    all_goals rfl
  induction ext with
  | nil => intro y; simp
  | cons x ext ih =>
    intro y
    obtain ⟨a, b⟩ := ih (y.note e x)
    rw [List.foldl_cons]
    refine ⟨a.trans (h1 y x), ?_⟩
    rw [b, h1]
    show (y.book ++ [(y.now, .entry x)]) ++ _ = _
    simp

/-! ### Between events -/

/-- What remains to be said after the end of the connection. -/
structure RyEnded (e : RyEnv) (x : Stop) (y : Ry) : Prop where
  watched : Watched e False y
  asserted : x = .assertFailed → loggedIn y.book = false ∧ hasIn (entriesOf y.book) = true ∧
    renewed y.book + rekeyInterval ≤ y.now

def RyInv (e : RyEnv) (role : Role) (y : Ry) : Prop :=
  match y.sys.stop with
  | none => ∃ φ, Rest e.kex role φ y.sys.kx ∧ RyAt e y.sys.kx.log φ y
  | some x => RyEnded e x y

theorem Watched.weaken {e : RyEnv} {P Q : Prop} {y y' : Ry} (h : Watched e P y) (hb : y'.book = y.book) (hn : y'.now = y.now)
    (hq : Q → P ∧ y'.timer = y.timer ∧ y'.idle = y.idle) : Watched e Q y' := by
  intro a t p b hab hl hv hex
  rcases h a t p b (hb ▸ hab) hl hv hex with h1 | ⟨h1, h2⟩
  · exact .inl h1
  · refine .inr ⟨hn ▸ h1, fun q => ?_⟩
    obtain ⟨h3, h4, h5⟩ := hq q
    rw [h4, h5, hn]
    exact h2 h3

/-- The rest of the connection is looked at only for `authenticated`. -/
theorem RyAt.withSys {e l φ} {y : Ry} (h : RyAt e l φ y) (sys : KxSys) (ha : sys.kx.authenticated = y.sys.kx.authenticated) :
    RyAt e l φ { y with sys := sys } :=
  ⟨h.entries, h.idle, h.send, h.phase, h.exch, h.both, ha.trans h.auth, h.past, h.hour,
    fun a => h.early (ha ▸ a), h.watched.weaken rfl rfl fun q => ⟨q, rfl, rfl⟩⟩

/-- While a key exchange is under way, the timer does not matter. -/
theorem RyAt.noTimer {e l φ} {y : Ry} (h : RyAt e l φ y) (hr : φ.refused = false) (hi : y.idle = false) :
    RyAt e l φ { y with timer := none } := by
  refine ⟨h.entries, h.idle, h.send, h.phase, h.exch, h.both, h.auth, by simp, ?_, by simp, ?_⟩
  · intro _ _ h1
    exact absurd (h1.symm.trans hi) (by simp)
  · intro a t p b hab hl hv hex
    rcases h.watched a t p b hab hl hv hex with h1 | ⟨_, h2⟩
    · exact .inl h1
    · exact absurd ((h2 hr).2.symm.trans hi) (by simp)

theorem ended_of {e l φ} {y : Ry} (h : RyAt e l φ y) {x : Stop} (hx : x ≠ .assertFailed) {y' : Ry} (hb : y'.book = y.book)
    (hn : y'.now = y.now) : RyEnded e x y' :=
  ⟨h.watched.weaken hb hn (fun q => q.elim), fun h1 => absurd h1 hx⟩

/-- The connection goes on. -/
theorem RyInv.absorb {e : RyEnv} {role : Role} {y : Ry} {φ : Phase} {sys : KxSys} (h : RyAt e y.sys.kx.log φ y)
    (hs : SysInv e.kex role sys) (hg : ∃ ext, sys.kx.log = y.sys.kx.log ++ ext)
    (ha : sys.kx.authenticated = y.sys.kx.authenticated) : RyInv e role (y.absorb e sys) := by
  obtain ⟨ext, hg⟩ := hg
  have hdrop : sys.kx.log.drop y.sys.kx.log.length = ext := by rw [hg]; simp
  unfold Ry.absorb
  rw [hdrop]
  have hsys : (ext.foldl (Ry.note e) y).sys = y.sys := by
    clear hg hdrop h
    induction ext generalizing y with
    | nil => rfl
    | cons x ext ih =>
      have h1 : (y.note e x).sys = y.sys := by
        show (y.effect e x).sys = y.sys
        unfold Ry.effect
        split
        · unfold Ry.sent
          simp only
          split
          · rfl
          · simp only [Bool.cond_eq_ite]; split <;> rfl
        · unfold Ry.recv
          simp only [Bool.cond_eq_ite]
          split
          · rfl
          · split <;> rfl
        all_goals rfl
      rw [List.foldl_cons, ih (y := y.note e x) (by rw [h1]; exact ha), h1]
  unfold SysInv at hs
  cases hst : sys.stop with
  | none =>
    rw [hst] at hs
    obtain ⟨φ', hs⟩ := hs
    have hp := hs.phase
    rw [hg] at hp
    have h1 := (h.notes hp).withSys sys (by rw [hsys]; exact ha)
    simp only [Option.isNone_none, cond_true]
    unfold RyInv
    simp only [hst]
    exact ⟨φ', hs, by rw [hg]; exact h1⟩
  | some x =>
    rw [hst] at hs
    obtain ⟨⟨⟨φ', hp⟩, -⟩, hx⟩ := hs
    rw [hg] at hp
    have h1 := h.notes hp
    simp only [Option.isNone_some, cond_false]
    unfold RyInv
    simp only [hst]
    exact ended_of h1 hx rfl rfl

theorem sendPlain_inv {e role} {y : KxSys} {φ : Phase} {p : Bytes} (h : Rest e role φ y.kx) (hs : y.stop = none) :
    SysInv e role (y.sendPlain p) ∧ (∃ ext, (y.sendPlain p).kx.log = y.kx.log ++ ext) ∧
    (y.sendPlain p).kx.authenticated = y.kx.authenticated := by
  unfold KxSys.sendPlain
  rw [hs]
  simp only [Option.isNone_none, Bool.and_true]
  cases hp : isPlain p && y.kx.outputEncrypted with
  | false =>
    refine ⟨?_, ⟨[], by simp⟩, rfl⟩
    unfold SysInv
    simp only [cond_false, hs]
    exact ⟨φ, h⟩
  | true =>
    simp only [cond_true]
    rw [Bool.and_eq_true] at hp
    have hp1 := hp.1
    simp only [isPlain, Bool.and_eq_true, Bool.not_eq_true'] at hp1
    refine ⟨?_, ⟨[.sent p], rfl⟩, rfl⟩
    unfold SysInv
    simp only [hs]
    refine ⟨φ, Rest.sent h ?_ ?_ ?_ ?_⟩ <;> grind

theorem kexinit_quiet {e : RyEnv} {y : Ry} {k : Bytes} (hk : isMsg 20 k = true) (d : Option Nat) :
    ({ y with timer := d }).note e (.sent k) = { y.note e (.sent k) with timer := d } ∧ (y.note e (.sent k)).timer = y.timer ∧
    (y.note e (.sent k)).idle = false := by
  have hk' : isMsg MSG_KEXINIT k = true := hk
  unfold Ry.note Ry.effect Ry.sent
  simp only [hk', Bool.not_true, Bool.and_false, cond_false]
  cases y.cipher <;> exact ⟨rfl, rfl, rfl⟩

theorem initiateRekey_ext {e : KexEnv} {s : Kx} (h1 : (s.initiateRekey e).2 = none) (h2 : s.flags.isIdle = true)
    (h3 : s.isEncrypted = true) (h4 : s.authenticated = true) :
    ∃ k, isMsg 20 k = true ∧ ((s.initiateRekey e).1.log = s.log ++ [.sent k] ∨
      (s.initiateRekey e).1.log = s.log ++ [.blocked, .sent k]) := by
  unfold Kx.initiateRekey at h1 ⊢
  simp only [h2, h3, h4, Bool.not_true, Bool.or_self, cond_false] at h1 ⊢
  unfold Kx.sendKexInit at h1 ⊢
  cases hb : (s.flags.kexinitSent || s.flags.newkeysSent || s.flags.newkeysReceived) with
  | true => simp only [hb, cond_true] at h1; cases h1
  | false =>
    simp only [hb, cond_false] at h1 ⊢
    cases hm : makeKexInit (e.cookie s.cookies) (e.proposal s.role) with
    | error x => simp only [hm] at h1; cases h1
    | ok ser =>
      simp only
      obtain ⟨hp1, hp2⟩ := makeKexInit_payload hm
      refine ⟨ser.since 5, by rw [hp1]; rfl, ?_⟩
      simp only [Bool.cond_eq_ite]
      split
      · right; simp [Kx.emit]
      · left; simp [Kx.emit]

/-- `idle` is what the flags say. -/
theorem idle_flags {e : RyEnv} {role φ} {y : Ry} (hr : Rest e.kex role φ y.sys.kx) (h : RyAt e y.sys.kx.log φ y) :
    y.idle = y.sys.kx.flags.isIdle := by
  rw [h.idle, h.exch, KexFlags.isIdle, hr.fSent, hr.fRecv, hr.fNewSent, hr.fNewRecv, hr.noNewRecv]
  have := hr.both
  cases h1 : φ.newSent
  · cases φ.kexSent <;> cases φ.kexRecv <;> rfl
  · obtain ⟨h2, h3⟩ := this h1
    rw [h2, h3]; rfl

theorem RyInv.login {e : RyEnv} {role φ} {y : Ry} (hd : Digest32 e.kex) (hs : y.sys.stop = none) (hr : Rest e.kex role φ y.sys.kx)
    (h : RyAt e y.sys.kx.log φ y) : RyInv e role (y.login e) := by
  unfold Ry.login
  cases ha : y.sys.kx.isEncrypted && !y.sys.kx.authenticated with
  | false =>
    simp only [cond_false]
    unfold RyInv
    rw [hs]
    exact ⟨φ, hr, h⟩
  | true =>
    simp only [cond_true]
    rw [Bool.and_eq_true, Bool.not_eq_true'] at ha
    have h1 := step_authenticated (e := e.kex) hs ha.1 ha.2
    have h2 : SysInv e.kex role (y.sys.step e.kex .authenticated) := by
      refine SysInv.step hd ?_ trivial
      unfold SysInv
      rw [hs]
      exact ⟨φ, hr⟩
    rw [h1] at h2 ⊢
    unfold SysInv at h2
    unfold RyInv
    simp only [hs] at h2 ⊢
    obtain ⟨φ', h2⟩ := h2
    have hφ : φ' = φ := by
      have h3 := h2.phase
      have h4 := hr.phase
      simp only at h3
      rw [h4] at h3
      cases h3
      rfl
    subst hφ
    have hno : loggedIn y.book = false := by rw [← h.auth]; exact ha.2
    refine ⟨φ', h2, ?_, h.idle, h.send, h.phase, h.exch, h.both, ?_, ?_, ?_, ?_, ?_⟩
    · show entriesOf (y.book ++ [(y.now, .login)]) = _
      rw [entriesOf_append, h.entries]
      simp [entriesOf, Event.entry?]
    · show true = loggedIn (y.book ++ [(y.now, .login)])
      simp [loggedIn]
    · intro d hd'
      cases hd'
      exact Nat.le_add_right _ _
    · intro _ _ _
      refine ⟨_, rfl, ?_⟩
      show _ ≤ renewed (y.book ++ [(y.now, .login)]) + _
      rw [renewed_snoc]
      exact Nat.le_refl _
    · intro h3; cases h3
    · intro a t p b hab hl _ _
      exfalso
      replace hab : y.book ++ [(y.now, .login)] = a ++ (t, .entry (.sent p)) :: b := hab
      rcases book_split hab with ⟨_, _, h3⟩ | ⟨b', _, h3⟩
      · cases h3
      · rw [h3] at hno
        simp only [loggedIn, List.any_append, Bool.or_eq_false_iff] at hno hl
        rw [hno.1] at hl
        cases hl

theorem Ry.due_iff {y : Ry} : y.due = true ↔ ∃ d, y.timer = some d ∧ d ≤ y.now := by
  unfold Ry.due
  cases y.timer <;> simp

theorem RyInv.fire {e : RyEnv} {role φ} {y : Ry} (hs : y.sys.stop = none) (hr : Rest e.kex role φ y.sys.kx)
    (h : RyAt e y.sys.kx.log φ y) : RyInv e role (y.fire e) := by
  have same : RyInv e role y := by
    unfold RyInv
    rw [hs]
    exact ⟨φ, hr, h⟩
  unfold Ry.fire
  cases hdue : y.due with
  | false => exact same
  | true =>
    simp only [cond_true]
    obtain ⟨d, hd1, hd2⟩ := Ry.due_iff.mp hdue
    cases ha : y.sys.kx.authenticated with
    | false =>
      have h1 : y.sys.kx.initiateRekey e.kex = (y.sys.kx, some .assertFailed) := by
        unfold Kx.initiateRekey
        simp [ha]
      rw [h1]
      unfold Ry.absorb KxSys.finish
      simp only [List.drop_length, List.foldl_nil, Option.isNone_some, cond_false]
      unfold RyInv
      refine ⟨h.watched.weaken rfl rfl (fun q => q.elim), fun _ => ?_⟩
      obtain ⟨h2, h3⟩ := h.early ha d hd1
      refine ⟨h.auth ▸ ha, ?_, ?_⟩
      · show hasIn (entriesOf y.book) = true
        rw [h.entries]; exact h3
      · show renewed y.book + rekeyInterval ≤ y.now
        rw [← h2]; exact hd2
    | true =>
      have hpost : SysInv e.kex role (.finish (y.sys.kx.initiateRekey e.kex)) := SysInv.finish (initiateRekey_post hr ha)
      have henc := hr.authEnc ha
      cases hi : y.sys.kx.flags.isIdle with
      | false =>
        have h1 : y.sys.kx.initiateRekey e.kex = (y.sys.kx, none) := by
          unfold Kx.initiateRekey
          simp [ha, hi, henc]
        rw [h1]
        unfold Ry.absorb KxSys.finish
        simp only [List.drop_length, List.foldl_nil, Option.isNone_none, cond_true]
        unfold RyInv
        refine ⟨φ, hr, (h.noTimer hr.alive ?_).withSys _ rfl⟩
        rw [idle_flags hr h]; exact hi
      | true =>
        cases hx : (y.sys.kx.initiateRekey e.kex).2 with
        | some x =>
          have hclosed : y.sys.kx.initiateRekey e.kex = (y.sys.kx, some .closed) := by
            have hp := initiateRekey_post hr ha
            unfold Post at hp
            rw [hx] at hp
            unfold Kx.initiateRekey at hx hp ⊢
            simp only [hi, henc, ha, Bool.not_true, Bool.or_self, cond_false] at hx hp ⊢
            unfold Kx.sendKexInit at hx hp ⊢
            cases hb : (y.sys.kx.flags.kexinitSent || y.sys.kx.flags.newkeysSent || y.sys.kx.flags.newkeysReceived) with
            | true =>
              simp only [hb, cond_true] at hx hp
              cases hx
              exact absurd rfl hp.2
            | false =>
              simp only [hb, cond_false] at hx ⊢
              cases hm : makeKexInit (e.kex.cookie y.sys.kx.cookies) (e.kex.proposal y.sys.kx.role) with
              | error z => rfl
              | ok ser => simp only [hm] at hx; cases hx
          rw [hclosed]
          unfold Ry.absorb KxSys.finish
          simp only [List.drop_length, List.foldl_nil, Option.isNone_some, cond_false]
          unfold RyInv
          exact ended_of h (by simp) rfl rfl
        | none =>
          obtain ⟨k, hk, hlog⟩ := initiateRekey_ext hx hi henc ha
          have hsys : KxSys.finish (y.sys.kx.initiateRekey e.kex) = ⟨(y.sys.kx.initiateRekey e.kex).1, none⟩ := by
            unfold KxSys.finish
            rw [hx]
          have hauth : (y.sys.kx.initiateRekey e.kex).1.authenticated = y.sys.kx.authenticated := by
            refine Tells.auth (s := y.sys.kx) ?_
            unfold Kx.initiateRekey
            simp only [Bool.cond_eq_ite]
            split
            · exact .rfl'
            · split
              · exact .rfl'
              · exact Tells.sendKexInit
          rw [hsys] at hpost ⊢
          generalize (y.sys.kx.initiateRekey e.kex).1 = kx at hlog hpost hauth
          obtain ⟨φ', hrest⟩ := hpost
          simp only at hrest
          have key : ∀ ext : List Entry, kx.log = y.sys.kx.log ++ ext →
              ext.foldl (Ry.note e) { y with timer := none } = { ext.foldl (Ry.note e) y with timer := none } →
              (ext.foldl (Ry.note e) y).idle = false → (ext.foldl (Ry.note e) y).sys = y.sys →
              RyInv e role (({ y with timer := none }).absorb e ⟨kx, none⟩) := by
            intro ext h1 h2 h3 h4
            have hp := hrest.phase
            rw [h1] at hp
            have h5 := ((h.notes hp).noTimer hrest.alive h3).withSys ⟨kx, none⟩ (by
              show kx.authenticated = (ext.foldl (Ry.note e) y).sys.kx.authenticated
              rw [h4]; exact hauth)
            unfold Ry.absorb
            have hdrop : kx.log.drop y.sys.kx.log.length = ext := by rw [h1]; simp
            simp only [hdrop, h2, Option.isNone_none, cond_true]
            unfold RyInv
            exact ⟨φ', hrest, by rw [h1]; exact h5⟩
          rcases hlog with h1 | h1
          · refine key _ h1 ?_ ?_ ?_
            · exact (kexinit_quiet hk none).1
            · exact (kexinit_quiet hk none).2.2
            · show (y.sent e k).sys = y.sys
              unfold Ry.sent
              simp only
              split
              · rfl
              · simp only [Bool.cond_eq_ite]; split <;> rfl
          · refine key _ h1 ?_ ?_ ?_
            · exact (kexinit_quiet (y := y.note e .blocked) hk none).1
            · exact (kexinit_quiet (y := y.note e .blocked) hk none).2.2
            · show ((y.note e .blocked).sent e k).sys = y.sys
              unfold Ry.sent
              simp only
              split
              · rfl
              · simp only [Bool.cond_eq_ite]; split <;> rfl

/-- Events which the theorems allow: the handlers leave the messages of the key exchange alone. -/
def RyOk : RyEvent → Prop
  | .kx ev => EventOk ev
  | _ => True

theorem RyInv.step {e : RyEnv} {role : Role} {y : Ry} {ev : RyEvent} (hd : Digest32 e.kex) (h : RyInv e role y) (hev : RyOk ev) :
    RyInv e role (y.step e ev) := by
  unfold Ry.step
  cases hs : y.sys.stop with
  | some x => exact h
  | none =>
    have h0 := h
    unfold RyInv at h
    rw [hs] at h
    obtain ⟨φ, hr, h⟩ := h
    have hsys : SysInv e.kex role y.sys := by
      unfold SysInv
      rw [hs]
      exact ⟨φ, hr⟩
    have go : ∀ ev', ev' ≠ .authenticated → EventOk ev' → RyInv e role (y.absorb e (y.sys.step e.kex ev')) := by
      intro ev' h1 h2
      have ht := step_tells (e := e.kex) (y := y.sys) h1
      obtain ⟨ext, hext, -⟩ := ht.log
      exact RyInv.absorb h (hsys.step hd h2) ⟨ext, hext⟩ ht.auth
    cases ev with
    | kx ev =>
      cases ev with
      | authenticated => exact RyInv.login hd hs hr h
      | rekeyTimer => exact h0
      | version v => exact go _ (by simp) hev
      | packet raw claim => exact go _ (by simp) hev
      | writable more => exact go _ (by simp) hev
    | send p =>
      obtain ⟨h1, h2, h3⟩ := sendPlain_inv (p := p) hr hs
      exact RyInv.absorb h h1 h2 h3
    | timer => exact RyInv.fire hs hr h
    | tick =>
      simp only
      cases hdue : y.due with
      | true => exact h0
      | false =>
        simp only [cond_false]
        have hnd : ∀ d, y.timer = some d → y.now < d := by
          intro d hd'
          apply Nat.not_le.mp
          intro hle
          have := Ry.due_iff.mpr ⟨d, hd', hle⟩
          rw [hdue] at this
          cases this
        unfold RyInv
        simp only [hs]
        refine ⟨φ, hr, h.entries, h.idle, h.send, h.phase, h.exch, h.both, h.auth, hnd, h.hour, h.early, ?_⟩
        intro a t p b hab hl hv hex
        rcases h.watched a t p b hab hl hv hex with h1 | ⟨_, h2⟩
        · exact .inl h1
        · exact absurd (hnd _ (h2 hr.alive).1) (Nat.lt_irrefl _)

theorem RyInv.init (e : RyEnv) (role : Role) : RyInv e role (.init role) := by
  have h := SysInv.init e.kex role
  obtain ⟨φ, hr⟩ := h
  have hφ : φ = {} := by
    have h1 := hr.phase
    cases h1
    rfl
  subst hφ
  refine ⟨{}, hr, rfl, rfl, rfl, rfl, rfl, by simp, rfl, fun d h => (by cases h), ?_, fun _ d h => (by cases h), ?_⟩
  · intro _ h1; cases h1
  · intro a t p b hab
    simp [Ry.init] at hab

theorem RyInv.run {e : RyEnv} {role : Role} (hd : Digest32 e.kex) {evs : List RyEvent} (hev : ∀ ev ∈ evs, RyOk ev) :
    RyInv e role ((Ry.init role).run e evs) := by
  have : ∀ (evs : List RyEvent) (y : Ry), RyInv e role y → (∀ ev ∈ evs, RyOk ev) → RyInv e role (y.run e evs) := by
    intro evs
    induction evs with
    | nil => intro y h _; exact h
    | cons ev evs ih =>
      intro y h hev
      exact ih _ (h.step hd (hev ev (by simp))) (fun x hx => hev x (by simp [hx]))
  exact this evs _ (.init e role) hev

end Lukko
