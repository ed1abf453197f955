import Verif.Proof.Host
/-
  Every event preserves the invariant of a connection with session channels.
-/
namespace Lukko
open Spec Model

variable {σ : Type} {x : HostEnv σ}

/-! ### The layers below -/

theorem sendAll_grows {t : TransEnv σ} {ps : List Bytes} : ∀ {a b : Model.Trans σ}, a.sendAll t ps = some b →
    (∃ qs, b.posts = a.posts ++ qs) ∧ (b.live = true → a.live = true) := by
  induction ps with
  | nil => intro a b h; cases h; exact ⟨⟨[], by simp⟩, id⟩
  | cons p ps ih =>
    intro a b h
    simp only [Trans.sendAll] at h
    obtain ⟨c, h1, h2⟩ := Option.bind_eq_some_iff.mp h
    obtain ⟨⟨qs, g1⟩, g2⟩ := ih h2
    simp only [Trans.step] at h1
    cases hl : a.live with
    | false => rw [hl] at h1; cases h1; exact ⟨⟨qs, g1⟩, fun hb => by rw [← hl]; exact g2 hb⟩
    | true =>
      rw [hl] at h1
      obtain ⟨_, _, e⟩ := sendPacket_posts h1
      exact ⟨⟨[.packet p] ++ qs, by rw [g1, e]; simp⟩, fun _ => rfl⟩

theorem settle_grows {sx : ServerEnv σ} {s s' : Server σ} {y : Auth} (h : s.settle sx y = some s') :
    (∃ qs, s'.trans.posts = s.trans.posts ++ qs) ∧ (s'.trans.live = true → s.trans.live = true) ∧
    (s'.auth = y ∨ s'.auth = y.step (s.cfg sx) .closed) ∧ (s'.live = true → s'.auth = y) := by
  unfold Server.settle at h
  obtain ⟨t, h1, h2⟩ := Option.bind_eq_some_iff.mp h
  obtain ⟨t', h3, h4⟩ := Option.map_eq_some_iff.mp h2
  obtain ⟨⟨qs, g1⟩, g2⟩ := sendAll_grows h3
  have ht : (∃ qs, t.posts = s.trans.posts ++ qs) ∧ (t.live = true → s.trans.live = true) := by
    cases hb : y.authenticated && !s.auth.authenticated with
    | false => rw [hb] at h1; cases h1; exact ⟨⟨[], by simp⟩, id⟩
    | true =>
      rw [hb] at h1
      simp only [cond_true, Trans.setAuthenticated] at h1
      cases hl : s.trans.live with
      | false => rw [hl] at h1; cases h1; exact ⟨⟨[], by simp⟩, fun h => by rw [hl] at h; exact h⟩
      | true =>
        rw [hl] at h1
        simp only [cond_true] at h1
        cases hc : s.trans.kx.kx.isEncrypted && !s.trans.kx.kx.authenticated with
        | false => rw [hc] at h1; cases h1
        | true =>
          rw [hc] at h1
          simp only [cond_true, Trans.step, hl] at h1
          obtain ⟨_, _, ps, e, _⟩ := absorb_posts h1
          exact ⟨⟨ps, e⟩, fun _ => rfl⟩
  obtain ⟨⟨qs', e⟩, hl⟩ := ht
  subst h4
  refine ⟨⟨qs' ++ qs, by rw [g1, e, List.append_assoc]⟩, fun h => hl (g2 h), ?_, ?_⟩
  · cases t'.live
    · exact .inr rfl
    · exact .inl rfl
  · intro h
    simp only [Server.live, Bool.and_eq_true] at h
    simp only [h.1, cond_true]

theorem closed_step (cfg : AuthCfg) (y : Auth) :
    ∃ tail, (y.step cfg .closed).log = y.log ++ tail ∧ tail.all plainEntry = true ∧
      (y.step cfg .closed).channels = y.channels := by
  cases hs : y.stop with
  | true => exact ⟨[], by simp [Auth.step, hs], rfl, by simp [Auth.step, hs]⟩
  | false => exact ⟨[.closed], by simp [Auth.step, hs, Auth.close], rfl, by simp [Auth.step, hs, Auth.close]⟩

/-- What an event does to both layers. -/
structure Below (sx : ServerEnv σ) (s s' : Server σ) : Prop where
  posts : ∃ qs, s'.trans.posts = s.trans.posts ++ qs
  live : s'.live = true → s.live = true
  chan : s.auth.channels = true → s'.auth.channels = true
  news : ∃ y es tail, s'.auth.log = s.auth.log ++ (es ++ tail) ∧ News s.auth y es ∧ tail.all plainEntry = true ∧
    (y.channels = true → s'.auth.channels = true)

theorem Below.rfl' {sx : ServerEnv σ} {s : Server σ} : Below sx s s :=
  ⟨⟨[], by simp⟩, id, id, ⟨s.auth, [], [], by simp, .calm rfl, rfl, id⟩⟩

theorem auth_chan {cfg : AuthCfg} {y : Auth} {ev : AuthEv} : y.channels = true → (y.step cfg ev).channels = true := by
  intro hc
  cases hs : y.stop with
  | true => simpa only [Auth.step, hs, cond_true] using hc
  | false =>
    cases ev with
    | packet m p d => exact (grew_message hs).2.2.2 hc
    | encrypted =>
      simp only [Auth.step, hs, cond_false]
      cases y.encrypted <;> exact hc
    | _ => exact (grew_other rfl).chan hc

theorem Below.of {sx : ServerEnv σ} {s s₁ s' : Server σ} {y : Auth} (h : s₁.settle sx y = some s') (ha : s₁.auth = s.auth)
    (hp : ∃ qs, s₁.trans.posts = s.trans.posts ++ qs) (hl : s₁.trans.live = true → s.trans.live = true)
    (hstop : y.stop = false → s.auth.stop = false)
    (hy : y = s.auth ∨ ∃ cfg ev, y = s.auth.step cfg ev) : Below sx s s' := by
  obtain ⟨⟨qs, g1⟩, g2, g3, g4⟩ := settle_grows h
  obtain ⟨qs', e⟩ := hp
  obtain ⟨es, n1, n2⟩ : ∃ es, y.log = s.auth.log ++ es ∧ News s.auth y es := by
    rcases hy with rfl | ⟨cfg, ev, rfl⟩
    · exact ⟨[], by simp, .calm rfl⟩
    · exact news_step cfg _ ev
  have hch : s.auth.channels = true → y.channels = true := by
    rcases hy with rfl | ⟨cfg, ev, rfl⟩
    · exact id
    · exact auth_chan
  obtain ⟨tail, t1, t2, t3⟩ : ∃ tail, s'.auth.log = y.log ++ tail ∧ tail.all plainEntry = true ∧ s'.auth.channels = y.channels := by
    rcases g3 with g3 | g3
    · exact ⟨[], by rw [g3]; simp, rfl, by rw [g3]⟩
    · rw [g3]; exact closed_step _ y
  refine ⟨⟨qs' ++ qs, by rw [g1, e, List.append_assoc]⟩, ?_, fun hc => by rw [t3]; exact hch hc,
    ⟨y, es, tail, by rw [t1, n1, List.append_assoc], n2, t2, fun hc => by rw [t3]; exact hc⟩⟩
  intro hl'
  rw [Server.live_iff] at hl' ⊢
  exact ⟨hl (g2 hl'.1), hstop (by rw [← g4 (Server.live_iff.mpr hl')]; exact hl'.2)⟩

theorem below_step {sx : ServerEnv σ} (hx : EnvOk sx.trans) {s s' : Server σ} (hi : SInv sx s) {ev : ServerEvent}
    (h : s.step sx ev = some s') : Below sx s s' := by
  have stopped : ∀ {cfg ev}, (s.auth.step cfg ev).stop = false → s.auth.stop = false := by
    intro cfg ev hz
    cases hs : s.auth.stop with
    | false => rfl
    | true => simp only [Auth.step, hs, cond_true] at hz; exact hz
  cases ev with
  | io ev =>
    simp only [Server.step] at h
    cases hg : ev.isIo && (s.live || !ev.needsLive) with
    | false => rw [hg] at h; cases h; exact .rfl'
    | true =>
      rw [hg] at h
      rw [Bool.and_eq_true] at hg
      obtain ⟨t, h1, h2⟩ := Option.bind_eq_some_iff.mp h
      obtain ⟨h3, h4⟩ := io_posts hg.1 h1
      refine .of h2 rfl ?_ h4 id (.inl rfl)
      rcases h3 with ⟨_, b⟩ | ⟨_, _, _, _, ps, b, _⟩
      · exact ⟨[], by simp [b]⟩
      · exact ⟨ps, b⟩
  | ready d =>
    simp only [Server.step] at h
    cases hl : s.live with
    | false => rw [hl] at h; cases h; exact .rfl'
    | true =>
      rw [hl] at h
      simp only [cond_true, Server.ready] at h
      obtain ⟨t, h1, h2⟩ := Option.bind_eq_some_iff.mp h
      have htl := (Server.live_iff.mp hl).1
      have hp : ∃ qs, t.posts = s.trans.posts ++ qs := by
        cases hv : s.trans.kx.kx.versionExchanged with
        | false =>
          obtain ⟨e1, e2⟩ := not_ready (x := sx.trans) (t := s.trans) (by rw [hv, Bool.and_false])
            (claim := bif s.auth.encrypted then s.auth.claim (s.cfg sx) d else fun _ => Claim.unclaimed)
          rw [h1] at e1
          cases e1
          exact ⟨[], by simp⟩
        | true =>
          have hp := ready_posts htl hv h1
          cases hin : s.trans.incoming sx.trans with
          | none => rw [hin] at hp; exact ⟨[], by simp [hp.2]⟩
          | some p => rw [hin] at hp; obtain ⟨_, _, ps, b, _⟩ := hp; exact ⟨ps, b⟩
      have plain : ∀ {z}, ({ s with trans := t } : Server σ).settle sx s.auth = some z → Below sx s z :=
        fun h => .of h rfl hp (fun _ => htl) id (.inl rfl)
      split at h2
      · cases he : s.auth.encrypted with
        | true =>
          rw [he] at h2
          simp only [cond_true] at h2
          cases hc : s.trans.kx.kx.isEncrypted with
          | false => rw [hc] at h2; cases h2
          | true =>
            rw [hc] at h2
            exact .of h2 rfl hp (fun _ => htl) stopped (.inr ⟨_, _, rfl⟩)
        | false =>
          rw [he] at h2
          simp only [cond_false] at h2
          cases hb : becameEncrypted s.trans.kx.kx t.kx.kx with
          | false => rw [hb] at h2; exact plain h2
          | true =>
            rw [hb] at h2
            obtain ⟨y, h3, h4⟩ := Option.bind_eq_some_iff.mp h2
            unfold Server.onEncrypted at h3
            cases hq : t.kx.kx.isEncrypted with
            | false => simp only [hq] at h3; cases h3
            | true =>
              simp only [hq, cond_true, Option.some.injEq] at h3
              subst h3
              exact .of h4 rfl hp (fun _ => htl) stopped (.inr ⟨_, _, rfl⟩)
      · exact plain h2
  | other ev =>
    simp only [Server.step] at h
    cases hg : s.live && ev.isOther with
    | false => rw [hg] at h; cases h; exact .rfl'
    | true =>
      rw [hg] at h
      exact .of h rfl ⟨[], by simp⟩ id stopped (.inr ⟨_, _, rfl⟩)
  | send p =>
    simp only [Server.step] at h
    cases hg : s.live && s.auth.channels with
    | false => rw [hg] at h; cases h; exact .rfl'
    | true =>
      rw [hg] at h
      rw [Bool.and_eq_true] at hg
      obtain ⟨t, h1, rfl⟩ := Option.map_eq_some_iff.mp h
      simp only [Trans.step, (Server.live_iff.mp hg.1).1, cond_true] at h1
      obtain ⟨_, _, e⟩ := sendPacket_posts h1
      exact ⟨⟨_, e⟩, fun _ => hg.1, id, ⟨s.auth, [], [], by simp, .calm rfl, rfl, id⟩⟩

/-- Messages of the channels are sent. -/
theorem send_run {sx : ServerEnv σ} (hx : EnvOk sx.trans) {ps : List Bytes} : ∀ {s : Server σ}, SInv sx s →
    ∃ s', s.run sx (ps.map .send) = some s' ∧ SInv sx s' ∧ s'.auth = s.auth ∧ (s'.live = true → s.live = true) ∧
      (s.live = true → s.auth.channels = true → packetsSent s'.trans.posts = packetsSent s.trans.posts ++ ps) := by
  induction ps with
  | nil => intro s h; exact ⟨s, rfl, h, rfl, id, fun _ _ => by simp⟩
  | cons p ps ih =>
    intro s h
    obtain ⟨s₁, h1, h2⟩ := h.step hx (.send p)
    obtain ⟨s₂, h3, h4, h5, h6, h7⟩ := ih h2
    have hb := below_step hx h h1
    refine ⟨s₂, by simp only [List.map_cons, Server.run, h1, Option.bind_some, h3], h4, ?_, fun hz => hb.live (h6 hz), ?_⟩
    · rw [h5]
      simp only [Server.step] at h1
      cases hg : s.live && s.auth.channels with
      | false => rw [hg] at h1; cases h1; rfl
      | true => rw [hg] at h1; obtain ⟨t, _, rfl⟩ := Option.map_eq_some_iff.mp h1; rfl
    · intro hl hc
      simp only [Server.step, hl, hc, Bool.and_self, cond_true] at h1
      obtain ⟨t, hq, rfl⟩ := Option.map_eq_some_iff.mp h1
      simp only [Trans.step, (Server.live_iff.mp hl).1, cond_true] at hq
      obtain ⟨a, b, e⟩ := sendPacket_posts hq
      have hl' : ({ s with trans := t } : Server σ).live = true := by
        rw [Server.live_iff] at hl ⊢
        exact ⟨by simp only [Trans.live, a, b] at hl ⊢; exact hl.1, hl.2⟩
      rw [h7 hl' hc, e, packetsSent_append, List.append_assoc]
      rfl

end Lukko
