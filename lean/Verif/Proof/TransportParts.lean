import Verif.Proof.Transport
/-
  What the events of the two sides leave alone.
-/
namespace Lukko
open Spec Model

variable {σ : Type} {ops : CipherOps σ}

/-! ### Input -/

theorem decryptPacket_auto {i i' : Input σ} {r} (h : i.decryptPacket ops = .ok (r, i')) : i'.autoResetSeq = i.autoResetSeq := by
  unfold Input.decryptPacket at h
  split at h
  · cases h
  · simp only at h
    split at h
    · cases h; rfl
    · split at h
      · cases h
      · split at h
        · cases h
        · split at h
          · cases h
          · split at h
            · cases h
            · cases h; rfl

theorem runLoop_auto {i i' : Input σ} {list w} (h : i.runLoop ops list = .ok (i', w)) : i'.autoResetSeq = i.autoResetSeq := by
  have key : ∀ (i₁ : Input σ), i₁.autoResetSeq = i.autoResetSeq →
      (do
        let (decrypted, i) ← i₁.decryptPacket ops
        match decrypted with
        | none => pure (i, Worker.finish list false)
        | some d =>
          let i := { i with decryptSeq := i.decryptSeq + 1 }
          match d with
          | _ :: msg :: _ =>
            if msg = MSG_NEWKEYS then pure (i, .finish (list ++ [d]) true)
            else pure (i, .loop (list ++ [d]))
          | _ => .error .assertFailed : Except InputError (Input σ × Worker)) = .ok (i', w) → i'.autoResetSeq = i.autoResetSeq := by
    intro i₁ h1 h2
    cases hd : i₁.decryptPacket ops with
    | error er => rw [hd] at h2; cases h2
    | ok v =>
      obtain ⟨o, i₂⟩ := v
      have h3 := decryptPacket_auto hd
      rw [hd] at h2
      simp only [bind, Except.bind, pure, Except.pure] at h2
      split at h2
      · cases h2; rw [h3, h1]
      · split at h2
        · split at h2
          · cases h2; exact h3.trans h1
          · cases h2; exact h3.trans h1
        · cases h2
  unfold Input.runLoop at h
  split at h
  · split at h
    · cases h; rfl
    · split at h
      · cases h
      · split at h
        · cases h
        · rename_i c _ _ hdr c' _
          cases hp : parseHeader hdr with
          | error er => rw [hp] at h; cases h
          | ok n =>
            rw [hp] at h
            exact key { i with cipher := some c', packetLength := n } rfl h
  · exact key i rfl h

theorem readPacket_auto {i i' : Input σ} {r} (h : i.readPacket = .ok (r, i')) : i'.autoResetSeq = i.autoResetSeq := by
  unfold Input.readPacket at h
  split at h
  · simp only [bind, Except.bind, pure, Except.pure] at h
    split at h
    · cases h
    · cases h; rfl
  · unfold Input.readUnencryptedPacket at h
    split at h
    · cases h
    · have key : ∀ (i₁ : Input σ), i₁.autoResetSeq = i.autoResetSeq →
          (let r := i₁.rawBuffer
            if r.length < i₁.packetLength then pure (none, i₁)
            else match r with
            | [] => .error .assertFailed
            | front :: _ =>
              let paddingLength := front.toNat
              if paddingLength > i₁.packetLength - 2 then .error .protocol
              else
                let payload := (r.drop 1).take (i₁.packetLength - paddingLength - 1)
                let i := { i₁ with rawBuffer := r.drop i₁.packetLength, packetLength := 0 }
                match payload with
                | [] => .error .assertFailed
                | msg :: _ =>
                  if msg = MSG_NEWKEYS then pure (some payload, { i with waitingForNewCipher := true })
                  else pure (some payload, i) : Except InputError (Option Bytes × Input σ)) = .ok (r, i') →
          i'.autoResetSeq = i.autoResetSeq := by
        intro i₁ h1 h2
        simp only [pure, Except.pure] at h2
        split at h2
        · cases h2; exact h1
        · split at h2
          · cases h2
          · split at h2
            · cases h2
            · split at h2
              · cases h2
              · split at h2
                · cases h2; exact h1
                · cases h2; exact h1
      split at h
      · split at h
        · cases h; rfl
        · cases hp : parseHeader (i.rawBuffer.take HEADER_SIZE) with
          | error er => rw [hp] at h; cases h
          | ok n =>
            rw [hp] at h
            exact key { i with rawBuffer := i.rawBuffer.drop HEADER_SIZE, packetLength := n } rfl h
      · exact key i rfl h

/-- What matters for the connection. -/
structure SameIn (s s' : InputSys σ) : Prop where
  delivered : s'.delivered = s.delivered
  installs : s'.installs = s.installs
  auto : s'.input.autoResetSeq = s.input.autoResetSeq
  handling : s'.handling = s.handling
  installed : s'.installed = s.installed

theorem sameIn_refl (s : InputSys σ) : SameIn s s := ⟨rfl, rfl, rfl, rfl, rfl⟩

def quietIn : InputEvent σ → Bool
  | .feed _ => true
  | .runBegin _ => true
  | .runLoop => true
  | .runEnd _ => true
  | _ => false

theorem sameIn_step {s s' : InputSys σ} {e : InputEvent σ} (hq : quietIn e = true) (h : s.step ops e = some s') : SameIn s s' := by
  cases e with
  | feed chunk =>
    simp only [InputSys.step] at h
    split at h <;> cases h
    · exact sameIn_refl s
    · exact ⟨rfl, rfl, rfl, rfl, rfl⟩
  | runBegin k =>
    simp only [InputSys.step] at h
    split at h
    · split at h
      · cases h
        refine ⟨rfl, rfl, ?_, rfl, rfl⟩
        simp only [Input.runBegin]
        split <;> rfl
      · cases h; exact sameIn_refl s
    · cases h; exact sameIn_refl s
  | runLoop =>
    simp only [InputSys.step] at h
    split at h
    · split at h
      · cases h
      · cases h; exact ⟨rfl, rfl, rfl, rfl, rfl⟩
      · rename_i hr
        cases h; exact ⟨rfl, rfl, runLoop_auto hr, rfl, rfl⟩
    · cases h; exact sameIn_refl s
  | runEnd k =>
    simp only [InputSys.step] at h
    split at h
    · split at h
      · cases h
      · rename_i i hr
        cases h
        refine ⟨rfl, rfl, ?_, rfl, rfl⟩
        unfold Input.runEnd at hr
        split at hr
        · cases hr
        · cases hr; rfl
    · cases h; exact sameIn_refl s
  | read => cases hq
  | setCipher c => cases hq
  | autoResetSeq => cases hq
  | consume => cases hq

theorem run_in_snoc {s s' s'' : InputSys σ} {es : List (InputEvent σ)} {e : InputEvent σ} (h : s.run ops es = some s')
    (h' : s'.step ops e = some s'') : s.run ops (es ++ [e]) = some s'' := by
  induction es generalizing s with
  | nil => cases h; simp [InputSys.run, h']
  | cons a es ih =>
    simp only [InputSys.run, List.cons_append] at h ⊢
    cases ha : s.step ops a with
    | none => rw [ha] at h; cases h
    | some t => rw [ha] at h; exact ih h

/-! ### Output -/

structure SameOut (s s' : OutSys σ) : Prop where
  submitted : s'.submitted = s.submitted
  push : s'.output.pushCipher = s.output.pushCipher
  auto : s'.output.autoReset = s.output.autoReset

theorem sameOut_refl (s : OutSys σ) : SameOut s s := ⟨rfl, rfl, rfl⟩

def quietOut : OutEvent σ → Bool
  | .flush _ => true
  | .runBegin => true
  | .runEncrypt => true
  | .runEnd => true
  | _ => false

theorem flush_same {o o' : Output σ} {w r b} (h : o.flush w = (r, o', b)) :
    o'.pushCipher = o.pushCipher ∧ o'.autoReset = o.autoReset := by
  unfold Output.flush at h
  split at h
  · cases h; exact ⟨rfl, rfl⟩
  · generalize hg : (bif o.isEncrypted then
        { o with pending := o.pending.moveFrom o.encryptedQueue, encryptedQueue := [] } else o) = o₁ at h
    have h1 : o₁.pushCipher = o.pushCipher ∧ o₁.autoReset = o.autoReset := by
      rw [← hg]
      simp only [Bool.cond_eq_ite]
      split <;> exact ⟨rfl, rfl⟩
    simp only at h
    split at h
    · cases h; exact h1
    · cases h; exact h1
    · split at h
      · cases h; exact h1
      · cases h; exact h1
      · cases h; exact h1
      · split at h
        · cases h; exact h1
        · cases h; exact h1

theorem sameOut_step {s s' : OutSys σ} {e : OutEvent σ} (hq : quietOut e = true) (h : s.step ops e = some s') : SameOut s s' := by
  cases e with
  | flush w =>
    simp only [OutSys.step] at h
    split at h
    · cases h
    · rename_i r o b _ hf
      cases h
      exact ⟨rfl, (flush_same hf).1, (flush_same hf).2⟩
  | runBegin =>
    simp only [OutSys.step] at h
    split at h
    · cases h
      refine ⟨rfl, ?_, ?_⟩
      · simp only [Output.runBegin]; split <;> rfl
      · simp only [Output.runBegin]; split <;> rfl
    · cases h; exact sameOut_refl s
  | runEncrypt =>
    simp only [OutSys.step] at h
    split at h
    · split at h
      · cases h
      · rename_i o w hr
        cases h
        unfold Output.runEncrypt at hr
        split at hr
        · cases hr
        · split at hr
          · cases hr; exact ⟨rfl, rfl, rfl⟩
          · cases hr; exact ⟨rfl, rfl, rfl⟩
    · cases h; exact sameOut_refl s
  | runEnd =>
    simp only [OutSys.step] at h
    split at h
    · cases h; exact ⟨rfl, rfl, rfl⟩
    · cases h; exact sameOut_refl s
  | push p => cases hq
  | setCipher c => cases hq
  | autoReset => cases hq

theorem run_out_snoc {s s' s'' : OutSys σ} {es : List (OutEvent σ)} {e : OutEvent σ} (h : s.run ops es = some s')
    (h' : s'.step ops e = some s'') : s.run ops (es ++ [e]) = some s'' := by
  induction es generalizing s with
  | nil => cases h; simp [OutSys.run, h']
  | cons a es ih =>
    simp only [OutSys.run, List.cons_append] at h ⊢
    cases ha : s.step ops a with
    | none => rw [ha] at h; cases h
    | some t => rw [ha] at h; exact ih h

theorem always_snoc {P : OutSys σ → OutEvent σ → Prop} {s s' : OutSys σ} {es : List (OutEvent σ)} {e : OutEvent σ}
    (ha : OutSys.Always ops P s es) (h : s.run ops es = some s') (hp : P s' e) : OutSys.Always ops P s (es ++ [e]) := by
  induction es generalizing s with
  | nil => cases h; exact ⟨hp, fun _ _ => trivial⟩
  | cons a es ih =>
    refine ⟨ha.1, ?_⟩
    intro t ht
    simp only [OutSys.run, ht] at h
    exact ih (ha.2 t ht) h

/-- States of the output side which can be reached by a connection. -/
structure OutReach (ops : CipherOps σ) (s : OutSys σ) (rushed : Bool) : Prop where
  run : ∃ es, OutSys.Always ops OutSys.callerOk {} es ∧ (rushed = false → OutSys.Always ops OutSys.rekeyOk {} es) ∧
    ({} : OutSys σ).run ops es = some s
  shape : OutShape s

theorem OutReach.step (hn : EncNonempty ops) {s : OutSys σ} {q q' : Bool} (h : OutReach ops s q) {e : OutEvent σ} (hc : s.callerOk e)
    (hr : q' = false → q = false ∧ s.rekeyOk e) : ∃ s', s.step ops e = some s' ∧ OutReach ops s' q' := by
  obtain ⟨s', h1, h2⟩ := h.shape.step hn hc
  obtain ⟨es, ha, hq, hrun⟩ := h.run
  refine ⟨s', h1, ⟨es ++ [e], always_snoc ha hrun hc, ?_, run_out_snoc hrun h1⟩, h2⟩
  intro hq'
  exact always_snoc (hq (hr hq').1) hrun (hr hq').2

/-- … and of the input side. -/
structure InReach (ops : CipherOps σ) (s : InputSys σ) : Prop where
  run : ∃ es, ({} : InputSys σ).run ops es = some s
  inv : InputInv ops s

theorem InReach.step (hs : Sane ops) {s : InputSys σ} (h : InReach ops s) (e : InputEvent σ) :
    ∃ s', s.step ops e = some s' ∧ InReach ops s' := by
  obtain ⟨s', h1, h2⟩ := inv_step hs h.inv e
  obtain ⟨es, hr⟩ := h.run
  exact ⟨s', h1, ⟨es ++ [e], run_in_snoc hr h1⟩, h2⟩

end Lukko
