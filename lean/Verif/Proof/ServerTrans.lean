import Verif.Proof.ServerKex
import Verif.Proof.Channel
/-
  What an event of the transport layer changes, from the point of view of the layer above it.
-/
namespace Lukko
open Spec Model

variable {σ : Type} {x : TransEnv σ}

/-- Only packets of `l` are sent. -/
def Posted (l : List Entry) (t t' : Trans σ) : Prop :=
  ∃ ps, t'.posts = t.posts ++ ps ∧ (∀ p, Outgoing.packet p ∈ ps → Entry.sent p ∈ l) ∧ (l = [] → ps = [])

theorem Posted.rfl' {l} {t : Trans σ} : Posted l t t := ⟨[], by simp, by simp, by simp⟩

theorem input_only {t t' : Trans σ} {ev} (h : t.input x ev = some t') : ∃ i, t' = { t with inp := i } := by
  unfold Trans.input at h
  cases hi : t.inp.step x.ops ev with
  | none => rw [hi] at h; cases h
  | some i => rw [hi] at h; cases h; exact ⟨i, rfl⟩

theorem output_only {t t' : Trans σ} {ev} (h : t.output x ev = some t') : ∃ o, t' = { t with out := o } := by
  unfold Trans.output at h
  cases hi : t.out.step x.ops ev with
  | none => rw [hi] at h; cases h
  | some i => rw [hi] at h; cases h; exact ⟨i, rfl⟩

theorem sendPacket_posts {t t' : Trans σ} {p} (h : t.sendPacket x p = some t') :
    t'.kx = t.kx ∧ t'.closed = t.closed ∧ t'.posts = t.posts ++ [.packet p] := by
  unfold Trans.sendPacket at h
  obtain ⟨o, rfl⟩ := output_only h
  exact ⟨rfl, rfl, rfl⟩

theorem effect_posts {t t' : Trans σ} {e} (h : t.effect x e = some t') :
    t'.kx = t.kx ∧ t'.closed = t.closed ∧ Posted [e] t t' := by
  have same : some t = some t' → t'.kx = t.kx ∧ t'.closed = t.closed ∧ Posted [e] t t' := by
    intro h; cases h; exact ⟨rfl, rfl, .rfl'⟩
  cases e with
  | sent p =>
    obtain ⟨a, b, c⟩ := sendPacket_posts h
    exact ⟨a, b, _, c, by simp, by simp⟩
  | installOut enc mac k =>
    simp only [Trans.effect, Trans.setOutCipher] at h
    obtain ⟨o, rfl⟩ := output_only h
    exact ⟨rfl, rfl, _, rfl, by simp, by simp⟩
  | installIn enc mac k =>
    obtain ⟨i, rfl⟩ := input_only h
    exact ⟨rfl, rfl, [], by simp, by simp, by simp⟩
  | recv p => exact same h
  | version p => exact same h
  | agreed p => exact same h
  | encrypted => exact same h
  | blocked => exact same h
  | unblocked => exact same h

theorem effects_posts {l : List Entry} : ∀ {t t' : Trans σ}, t.effects x l = some t' →
    t'.kx = t.kx ∧ t'.closed = t.closed ∧ Posted l t t' := by
  induction l with
  | nil => intro t t' h; cases h; exact ⟨rfl, rfl, .rfl'⟩
  | cons e l ih =>
    intro t t' h
    simp only [Trans.effects] at h
    cases he : t.effect x e with
    | none => rw [he] at h; cases h
    | some t₁ =>
      rw [he, Option.bind_some] at h
      obtain ⟨a, b, ps, c, d, -⟩ := effect_posts he
      obtain ⟨a', b', ps', c', d', -⟩ := ih h
      refine ⟨a'.trans a, b'.trans b, ps ++ ps', by rw [c', c, List.append_assoc], ?_, by simp⟩
      intro p hp
      rcases List.mem_append.mp hp with hp | hp
      · have := d p hp
        simp only [List.mem_singleton] at this
        rw [this]; exact List.mem_cons_self ..
      · exact List.mem_cons_of_mem _ (d' p hp)

theorem absorb_posts {t t' : Trans σ} {ev} (h : t.absorb x ev = some t') :
    t'.kx = t.kx.step x.kex ev ∧ t'.closed = t.closed ∧
    Posted ((t.kx.step x.kex ev).kx.log.drop t.kx.kx.log.length) t t' := by
  unfold Trans.absorb at h
  simp only at h
  split at h
  · cases h
  · cases ha : t.autoReset x (t.kx.step x.kex ev).kx.inReset with
    | none => rw [ha] at h; cases h
    | some t₁ =>
      rw [ha, Option.bind_some] at h
      have h1 : ∃ i o, t₁ = { t with inp := i, out := o } := by
        unfold Trans.autoReset at ha
        cases hr : (t.kx.step x.kex ev).kx.inReset with
        | false => rw [hr] at ha; cases ha; exact ⟨_, _, rfl⟩
        | true =>
          rw [hr, cond_true] at ha
          cases hi : t.input x .autoResetSeq with
          | none => rw [hi] at ha; cases ha
          | some t₂ =>
            rw [hi, Option.bind_some] at ha
            obtain ⟨i, rfl⟩ := input_only hi
            obtain ⟨o, rfl⟩ := output_only ha
            exact ⟨i, o, rfl⟩
      obtain ⟨i, o, rfl⟩ := h1
      obtain ⟨a, b, c⟩ := effects_posts h
      exact ⟨a, b, c⟩

/-- Events which have nothing to do with packets. -/
theorem io_posts {t t' : Trans σ} {ev : TransEvent} (hio : ev.isIo = true) (h : t.step x ev = some t') :
    (t'.kx = t.kx ∧ t'.posts = t.posts ∨
      ∃ kev, kev ≠ .authenticated ∧ (∀ raw claim, kev ≠ .packet raw claim) ∧ t'.kx = t.kx.step x.kex kev ∧
        Posted ((t.kx.step x.kex kev).kx.log.drop t.kx.kx.log.length) t t') ∧
    (t'.live = true → t.live = true) := by
  have same : some t = some t' → (t'.kx = t.kx ∧ t'.posts = t.posts ∨
      ∃ kev, kev ≠ .authenticated ∧ (∀ raw claim, kev ≠ .packet raw claim) ∧ t'.kx = t.kx.step x.kex kev ∧
        Posted ((t.kx.step x.kex kev).kx.log.drop t.kx.kx.log.length) t t') ∧ (t'.live = true → t.live = true) := by
    intro h; cases h; exact ⟨.inl ⟨rfl, rfl⟩, id⟩
  have inp : ∀ {e}, t.input x e = some t' → (t'.kx = t.kx ∧ t'.posts = t.posts ∨
      ∃ kev, kev ≠ .authenticated ∧ (∀ raw claim, kev ≠ .packet raw claim) ∧ t'.kx = t.kx.step x.kex kev ∧
        Posted ((t.kx.step x.kex kev).kx.log.drop t.kx.kx.log.length) t t') ∧ (t'.live = true → t.live = true) := by
    intro e h; obtain ⟨i, rfl⟩ := input_only h; exact ⟨.inl ⟨rfl, rfl⟩, id⟩
  have out : ∀ {e}, t.output x e = some t' → (t'.kx = t.kx ∧ t'.posts = t.posts ∨
      ∃ kev, kev ≠ .authenticated ∧ (∀ raw claim, kev ≠ .packet raw claim) ∧ t'.kx = t.kx.step x.kex kev ∧
        Posted ((t.kx.step x.kex kev).kx.log.drop t.kx.kx.log.length) t t') ∧ (t'.live = true → t.live = true) := by
    intro e h; obtain ⟨i, rfl⟩ := output_only h; exact ⟨.inl ⟨rfl, rfl⟩, id⟩
  have abs : ∀ {kev}, kev ≠ .authenticated → (∀ raw claim, kev ≠ .packet raw claim) →
      (bif t.live then t.absorb x kev else some t) = some t' → (t'.kx = t.kx ∧ t'.posts = t.posts ∨
      ∃ kev, kev ≠ .authenticated ∧ (∀ raw claim, kev ≠ .packet raw claim) ∧ t'.kx = t.kx.step x.kex kev ∧
        Posted ((t.kx.step x.kex kev).kx.log.drop t.kx.kx.log.length) t t') ∧ (t'.live = true → t.live = true) := by
    intro kev h1 h2 h
    cases hl : t.live with
    | false => rw [hl] at h; rw [hl] at same; exact same h
    | true =>
      rw [hl, cond_true] at h
      obtain ⟨a, b, c⟩ := absorb_posts h
      exact ⟨.inr ⟨kev, h1, h2, a, c⟩, fun _ => rfl⟩
  cases ev with
  | ready => cases hio
  | send => cases hio
  | authenticated => cases hio
  | version v => exact abs (by simp) (by simp) h
  | rekeyTimer => exact abs (by simp) (by simp) h
  | feed c =>
    simp only [Trans.step, Bool.cond_eq_ite] at h
    split at h
    · exact inp h
    · exact same h
  | inBegin k => exact inp h
  | inLoop => exact inp h
  | inEnd k => exact inp h
  | outBegin => exact out h
  | outEncrypt => exact out h
  | outEnd => exact out h
  | writable w =>
    simp only [Trans.step] at h
    cases hc : t.closed with
    | true => rw [hc] at h; exact same h
    | false =>
      rw [hc, cond_false] at h
      unfold Trans.flush at h
      cases ha : t.absorb x (.writable (t.out.flushed w == .more)) with
      | none => rw [ha] at h; cases h
      | some t₁ =>
        rw [ha, Option.bind_some] at h
        obtain ⟨a, b, c⟩ := absorb_posts ha
        cases ho : t₁.output x (.flush w) with
        | none => rw [ho] at h; cases h
        | some t₂ =>
          rw [ho, Option.map_some] at h
          obtain ⟨o, rfl⟩ := output_only ho
          cases h
          refine ⟨.inr ⟨_, by simp, by simp, a, c⟩, ?_⟩
          intro hl
          simp only [Trans.live, Bool.and_eq_true, Option.isNone_iff_eq_none] at hl ⊢
          rw [a] at hl
          exact ⟨by rw [hc]; rfl, stop_back hl.2⟩

/-- A packet, or none. -/
theorem ready_posts {t t' : Trans σ} {claim} (hl : t.live = true) (hv : t.kx.kx.versionExchanged = true)
    (h : t.step x (.ready claim) = some t') :
    match t.incoming x with
    | none => t'.kx = t.kx ∧ t'.posts = t.posts
    | some p => t'.kx = t.kx.step x.kex (.packet p (claim p)) ∧ t'.closed = t.closed ∧
        Posted ((t.kx.step x.kex (.packet p (claim p))).kx.log.drop t.kx.kx.log.length) t t' := by
  simp only [Trans.step, hl, hv, Bool.and_self, cond_true] at h
  simp only [Trans.incoming, hl, hv, Bool.and_self, cond_true]
  cases hr : t.input x .read with
  | none => rw [hr] at h; cases h
  | some t₁ =>
    rw [hr, Option.bind_some] at h
    obtain ⟨i, rfl⟩ := input_only hr
    simp only [Trans.handle] at h ⊢
    cases hd : i.dead with
    | true => rw [hd] at h; cases h; exact ⟨rfl, rfl⟩
    | false =>
      rw [hd, cond_false] at h
      simp only [cond_false]
      cases hh : i.handling with
      | none => rw [hh] at h; cases h; exact ⟨rfl, rfl⟩
      | some p =>
        rw [hh] at h
        simp only at h ⊢
        cases ha : ({ t with inp := i } : Trans σ).absorb x (.packet p (claim p)) with
        | none => rw [ha] at h; cases h
        | some t₂ =>
          rw [ha, Option.bind_some] at h
          obtain ⟨a, b, c⟩ := absorb_posts ha
          have : ∃ i', t' = { t₂ with inp := i' } := by
            simp only [Bool.cond_eq_ite] at h
            split at h
            · exact input_only h
            · cases h; exact ⟨_, rfl⟩
          obtain ⟨i', rfl⟩ := this
          exact ⟨a, b, c⟩

theorem not_ready {t : Trans σ} (h : (t.live && t.kx.kx.versionExchanged) = false) {claim} :
    t.step x (.ready claim) = some t ∧ t.incoming x = none := by
  unfold Trans.step Trans.incoming
  rw [h]
  exact ⟨rfl, rfl⟩

/-- Packets sent by the layer above. -/
theorem sendAll_posts {ps : List Bytes} {role : Role} (hx : EnvOk x) : ∀ {t : Trans σ}, Fit x role t →
    ∃ t', t.sendAll x ps = some t' ∧ Fit x role t' ∧ t'.kx = t.kx ∧ t'.closed = t.closed ∧
      t'.posts = t.posts ++ bif t.live then ps.map .packet else [] := by
  induction ps with
  | nil => intro t h; exact ⟨t, rfl, h, rfl, rfl, by cases t.live <;> simp⟩
  | cons p ps ih =>
    intro t h
    obtain ⟨t₁, h1, h2⟩ := h.step hx (ev := .send p) trivial
    obtain ⟨t₂, h3, h4, h5, h6, h7⟩ := ih h2
    refine ⟨t₂, by simp only [Trans.sendAll, h1, Option.bind_some, h3], h4, ?_⟩
    simp only [Trans.step] at h1
    cases hl : t.live with
    | false =>
      rw [hl, cond_false] at h1
      cases h1
      rw [hl] at h7
      exact ⟨h5, h6, h7⟩
    | true =>
      rw [hl, cond_true] at h1
      obtain ⟨a, b, c⟩ := sendPacket_posts h1
      have hl1 : t₁.live = true := by rw [← hl]; simp only [Trans.live, a, b]
      rw [hl1, c] at h7
      exact ⟨h5.trans a, h6.trans b, by rw [h7]; simp⟩

end Lukko
