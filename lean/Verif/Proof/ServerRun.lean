import Verif.Proof.Server
/-
  Every event preserves the invariant of a server connection, and no assertion fails.
-/
namespace Lukko
open Spec Model

variable {σ : Type} {x : ServerEnv σ}

theorem run_last {cfg : AuthCfg} {y : Auth} (h : ∃ evs, y = Auth.run cfg {} evs) (ev : AuthEv) :
    ∃ evs, y.step cfg ev = Auth.run cfg {} evs := by
  obtain ⟨evs, h⟩ := h
  refine ⟨evs ++ [ev], ?_⟩
  simp only [Auth.run, List.foldl_append, List.foldl_cons, List.foldl_nil] at h ⊢
  rw [← h]

theorem cfg_eq {t t' : Model.Trans σ} {y y' : Auth} (h : t'.kx.kx.ks.sessionId = t.kx.kx.ks.sessionId) :
    ({ trans := t', auth := y' } : Server σ).cfg x = ({ trans := t, auth := y } : Server σ).cfg x := by
  simp only [Server.cfg, h]

/-- Packets of the transport layer. -/
theorem posted_upper {l : List Entry} {t t' : Model.Trans σ} (h : Posted l t t') (hl : ∀ p, .sent p ∈ l → IsTransportMessage p) :
    upperSent t'.posts = upperSent t.posts := by
  obtain ⟨ps, h1, h2, -⟩ := h
  rw [h1, upperSent_append]
  have : upperSent ps = [] := by
    unfold upperSent
    rw [List.filter_eq_nil_iff]
    intro p hp
    obtain ⟨m, r, rfl, hm⟩ := hl p (h2 p (mem_packetsSent.mp hp))
    simp only [isUpper, List.headD_cons]
    intro hc
    have := UInt8.lt_iff_toNat_lt.mp hm
    have := UInt8.le_iff_toNat_le.mp (of_decide_eq_true hc)
    omega
  rw [this, List.append_nil]

/-- Packets of the transport layer. -/
theorem posted_ok {l : List Entry} {t t' : Model.Trans σ} (h : Posted l t t') (hl : ∀ p, .sent p ∈ l → IsTransportMessage p)
    (clear : ∀ p ∈ postsOfEpoch t.posts, IsTransportMessage p) :
    (∀ p ∈ postsOfEpoch t'.posts, IsTransportMessage p) ∧ (packetsSent t.posts).Sublist (packetsSent t'.posts) ∧
    (∀ p ∈ packetsSent t'.posts, IsTransportMessage p ∨ p ∈ packetsSent t.posts) ∧ upperSent t'.posts = upperSent t.posts := by
  have hu := posted_upper h hl
  obtain ⟨ps, h1, h2, -⟩ := h
  rw [h1] at hu ⊢
  refine ⟨clear_append clear fun _ p hp => hl p (h2 p hp), ?_, ?_, hu⟩
  · rw [packetsSent_append]; exact List.sublist_append_left ..
  · intro p hp
    rw [packetsSent_append] at hp
    rcases List.mem_append.mp hp with hp | hp
    · exact .inr hp
    · exact .inl (hl p (h2 p (mem_packetsSent.mp hp)))

theorem drop_sent {e} {y : KxSys} {ev : KxEvent} (h : Tells y.kx (y.step e ev).kx) :
    ∀ p, .sent p ∈ (y.step e ev).kx.log.drop y.kx.log.length → IsTransportMessage p := by
  obtain ⟨ext, h1, h2⟩ := h.log
  rw [h1, List.drop_left]
  exact h2

/-- Only the transport layer does something. -/
theorem SInv.below (hx : EnvOk x.trans) {s : Server σ} (h : SInv x s) {t : Model.Trans σ} (fit : Fit x.trans .server t)
    (htold : EncTold t.kx.kx)
    (henc : t.kx.kx.isEncrypted = s.trans.kx.kx.isEncrypted) (hsid : s.auth.encrypted = true → t.kx.kx.ks.sessionId = s.trans.kx.kx.ks.sessionId)
    (hauth : t.kx.kx.authenticated = s.trans.kx.kx.authenticated) (hlive : t.live = true → s.trans.live = true)
    (hrecv : receivedEncrypted s.trans.kx.kx.log <+: receivedEncrypted t.kx.kx.log)
    (hrecv' : t.live = true → receivedEncrypted t.kx.kx.log = receivedEncrypted s.trans.kx.kx.log)
    (hposts : (∀ p ∈ postsOfEpoch t.posts, IsTransportMessage p) ∧ (packetsSent s.trans.posts).Sublist (packetsSent t.posts) ∧
      (∀ p ∈ packetsSent t.posts, IsTransportMessage p ∨ p ∈ packetsSent s.trans.posts) ∧ upperSent t.posts = upperSent s.trans.posts) :
    ∃ s', ({ s with trans := t } : Server σ).settle x s.auth = some s' ∧ SInv x s' := by
  refine SInv.settle hx fit htold (by rw [henc]; exact h.enc) h.early ?_ ?_ id (fun _ => rfl) (h.recv.trans hrecv) ?_ hposts.1 ?_ ⟨[], by simp⟩ ?_ ?_
  · cases he : s.auth.encrypted with
    | false => exact (h.early he).run _
    | true => rw [cfg_eq (hsid he)]; exact h.auth
  · intro hl hs
    rw [hauth]
    exact h.flag (Server.live_iff.mpr ⟨hlive hl, hs⟩)
  · intro hl hs
    rw [hrecv' hl]
    exact h.recvEq (Server.live_iff.mpr ⟨hlive hl, hs⟩)
  · intro hl
    exact (h.answers (hlive hl)).trans hposts.2.1
  · intro hc p hp
    rcases hposts.2.2.1 p hp with hp | hp
    · exact .inl hp
    · exact h.upper hc p hp
  · intro hc
    rw [hposts.2.2.2]
    exact ⟨(h.exact hc).1, fun hl => (h.exact hc).2 (hlive hl)⟩

theorem SInv.io (hx : EnvOk x.trans) {s : Server σ} (h : SInv x s) {ev : TransEvent} (hio : ev.isIo = true) :
    ∃ s', ((s.trans.step x.trans ev).bind fun t => ({ s with trans := t } : Server σ).settle x s.auth) = some s' ∧ SInv x s' := by
  have hev : TransEventOk ev := by cases ev <;> first | trivial | cases hio
  obtain ⟨t, h1, h2⟩ := h.fit.step hx hev
  rw [h1, Option.bind_some]
  obtain ⟨h3, h4⟩ := io_posts hio h1
  rcases h3 with ⟨a, b⟩ | ⟨kev, k1, k2, a, b⟩
  · refine h.below hx h2 (by rw [a]; exact h.told) (by rw [a]) (fun _ => by rw [a]) (by rw [a]) h4 (by rw [a]; exact List.prefix_rfl) (fun _ => by rw [a]) ?_
    rw [b]
    exact ⟨h.clear, List.Sublist.refl _, fun p hp => .inr hp, rfl⟩
  · have ht := step_tells (e := x.trans.kex) (y := s.trans.kx) k1
    obtain ⟨⟨ext, hl, hr⟩, -, -⟩ := other_still (e := x.trans.kex) (y := s.trans.kx) k2
    have hk := other_keeps (e := x.trans.kex) (y := s.trans.kx) k2
    have hrec : received ext = [] := by
      simp only [received, List.filterMap_eq_nil_iff]
      intro z hz
      cases z <;> first | rfl | exact absurd hz (hr _)
    have hre : receivedEncrypted t.kx.kx.log = receivedEncrypted s.trans.kx.kx.log := by
      rw [a, hl]; exact receivedEncrypted_quiet hrec
    exact h.below hx h2 (by rw [a]; exact ht.told h.told) (by rw [a]; exact hk.1) (fun _ => by rw [a, hk.2]) (by rw [a]; exact ht.auth) h4
      (by rw [hre]; exact List.prefix_rfl) (fun _ => hre) (posted_ok b (drop_sent ht) h.clear)

/-- A packet. -/
theorem SInv.ready (hx : EnvOk x.trans) {s : Server σ} (h : SInv x s) (hl : s.live = true) (d : Bool) :
    ∃ s', s.ready x d = some s' ∧ SInv x s' := by
  obtain ⟨htl, hst⟩ := Server.live_iff.mp hl
  have hks := Trans.live_stop htl
  generalize hcl : (bif s.auth.encrypted then s.auth.claim (s.cfg x) d else fun _ => Claim.unclaimed) = claim
  have hok : ∀ raw, ClaimOk raw (claim raw) := by
    intro raw
    rw [← hcl]
    cases s.auth.encrypted with
    | false => exact .inl rfl
    | true => exact claim_ok raw
  obtain ⟨t, h1, h2⟩ := h.fit.step hx (ev := .ready claim) hok
  simp only [Server.ready, hcl, h1, Option.bind_some]
  have nothing : t.kx = s.trans.kx → t.posts = s.trans.posts →
      ∃ s', ({ s with trans := t } : Server σ).settle x s.auth = some s' ∧ SInv x s' := by
    intro a b
    refine h.below hx h2 (by rw [a]; exact h.told) (by rw [a]) (fun _ => by rw [a]) (by rw [a]) (fun _ => htl)
      (by rw [a]; exact List.prefix_rfl) (fun _ => by rw [a]) ?_
    rw [b]
    exact ⟨h.clear, List.Sublist.refl _, fun p hp => .inr hp, rfl⟩
  cases hv : s.trans.kx.kx.versionExchanged with
  | false =>
    obtain ⟨e1, e2⟩ := not_ready (x := x.trans) (t := s.trans) (by rw [hv, Bool.and_false]) (claim := claim)
    rw [h1] at e1
    cases e1
    rw [e2]
    exact nothing rfl rfl
  | true =>
    have hp := ready_posts htl hv h1
    cases hin : s.trans.incoming x.trans with
    | none =>
      rw [hin] at hp
      exact nothing hp.1 hp.2
    | some p =>
      rw [hin] at hp
      obtain ⟨a, b, c⟩ := hp
      have ht := step_tells (e := x.trans.kex) (y := s.trans.kx) (ev := .packet p (claim p)) (by simp)
      have htold : EncTold t.kx.kx := by rw [a]; exact ht.told h.told
      have hauth : t.kx.kx.authenticated = s.trans.kx.kx.authenticated := by rw [a]; exact ht.auth
      have hposts := posted_ok c (drop_sent ht) h.clear
      obtain ⟨ext, hadd, hrec, -⟩ := packet_adds hx h.fit hks hv (hok p)
      have hlog : t.kx.kx.log = s.trans.kx.kx.log ++ .recv p :: ext := by rw [a]; exact hadd.log
      have hsid : s.auth.encrypted = true → t.kx.kx.ks.sessionId = s.trans.kx.kx.ks.sessionId := by
        intro he
        rw [a]
        exact h.fit.session hx hks (by rw [← h.enc]; exact he) (hok p)
      have hcontains : t.kx.kx.isEncrypted = (s.trans.kx.kx.isEncrypted || ext.contains .encrypted) := by
        have h0 := h.told
        unfold EncTold at h0 htold
        rw [htold, hlog, h0]
        simp
      have hdrop : becameEncrypted s.trans.kx.kx t.kx.kx = ext.contains .encrypted := by
        unfold becameEncrypted
        rw [hlog, List.drop_left]
        simp
      have hin' := (h.fit.encrypted_iff hx hks).1
      cases p with
      | nil =>
        have hdead : t.live ≠ true := by
          intro hc
          have := Trans.live_stop hc
          rw [a] at this
          revert this
          generalize s.trans.kx = y at hks hv
          obtain ⟨k, st⟩ := y
          simp only at hks hv
          subst hks
          simp [KxSys.step, hv, Kx.handleRawPacket, KxSys.finish]
        have hie : t.kx.kx.isEncrypted = s.trans.kx.kx.isEncrypted := by
          rw [a]
          generalize s.trans.kx = y at hks hv
          obtain ⟨k, st⟩ := y
          simp only at hks hv
          subst hks
          simp [KxSys.step, hv, Kx.handleRawPacket, KxSys.finish, Kx.emit, Kx.isEncrypted]
        exact h.below hx h2 htold hie hsid hauth (fun _ => htl) (by rw [hlog]; exact receivedEncrypted_prefix)
          (fun hc => absurd hc hdead) hposts
      | cons m q =>
        simp only
        cases he : s.auth.encrypted with
        | true =>
          have hie : s.trans.kx.kx.isEncrypted = true := by rw [← h.enc]; exact he
          simp only [cond_true, hie]
          obtain ⟨⟨es, g1, g2⟩, g3, g4, g5⟩ := grew_message (cfg := s.cfg x) hst (m := m) (p := q) (d := d)
          have hre : receivedEncrypted t.kx.kx.log = receivedEncrypted s.trans.kx.kx.log ++ [m :: q] := by
            rw [hlog]; exact receivedEncrypted_some (by rw [← hin']; exact hie) hrec
          have hmsg : clientMessages (s.auth.step (s.cfg x) (.packet m q d)).log = receivedEncrypted t.kx.kx.log := by
            rw [g1, clientMessages_append, g2, hre, h.recvEq hl]
          refine SInv.settle hx h2 htold (by rw [g3, he, hcontains, hie]; rfl) (fun hc => by rw [g3, he] at hc; cases hc) ?_ ?_ g4
            (fun hc => by rw [hst] at hc; cases hc) (by rw [hmsg]; exact List.prefix_rfl) (fun _ _ => hmsg) hposts.1 ?_ ⟨es, g1⟩ ?_ ?_
          · rw [cfg_eq (hsid he)]
            exact run_last h.auth _
          · intro _ _
            rw [hauth]
            exact h.flag hl
          · intro _
            exact (h.answers htl).trans hposts.2.1
          · intro hc p hp
            rcases hposts.2.2.1 p hp with hp | hp
            · exact .inl hp
            · refine h.upper ?_ p hp
              cases hch : s.auth.channels with
              | false => rfl
              | true => rw [g5 hch] at hc; cases hc
          · intro hc
            rw [hposts.2.2.2]
            have hch : s.auth.channels = false := by
              cases hch : s.auth.channels with
              | false => rfl
              | true => rw [g5 hch] at hc; cases hc
            exact ⟨(h.exact hch).1, fun _ => (h.exact hch).2 htl⟩
        | false =>
          have hie : s.trans.kx.kx.isEncrypted = false := by rw [← h.enc]; exact he
          have hno : receivedEncrypted t.kx.kx.log = [] := by
            rw [hlog]; exact receivedEncrypted_first (by rw [← hin']; exact hie) hrec
          have hno₀ : receivedEncrypted s.trans.kx.kx.log = [] := by
            unfold receivedEncrypted
            rw [receivedEncrypted_none (by rw [← hin']; exact hie)]
            rfl
          simp only [cond_false, hdrop]
          cases hc : ext.contains Entry.encrypted with
          | false =>
            simp only [cond_false]
            exact h.below hx h2 htold (by rw [hcontains, hie, hc]; rfl) hsid hauth (fun _ => htl)
              (by rw [hno, hno₀]; exact List.prefix_rfl) (fun _ => by rw [hno, hno₀]) hposts
          | true =>
            have hte : t.kx.kx.isEncrypted = true := by rw [hcontains, hc, Bool.or_true]
            simp only [cond_true, Server.onEncrypted, hte, Option.bind_some]
            have hfresh := (h.early he).fresh hst
            have hmsg : clientMessages (s.auth.step (({ s with trans := t } : Server σ).cfg x) .encrypted).log = receivedEncrypted t.kx.kx.log := by
              rw [(grew_encrypted hst he).1, hno, hfresh]; rfl
            refine SInv.settle hx h2 htold (by rw [(grew_encrypted hst he).2.1, hte])
              (fun hz => by rw [(grew_encrypted hst he).2.1] at hz; cases hz) ?_ ?_ (fun hz => by rw [(grew_encrypted hst he).2.2]; exact hz)
              (fun hz => by rw [hst] at hz; cases hz) (by rw [hmsg]; exact List.prefix_rfl) (fun _ _ => hmsg) hposts.1 ?_
              ⟨_, (grew_encrypted hst he).1⟩ ?_ ?_
            · exact run_last ((h.early he).run _) _
            · intro _ _
              rw [hauth]
              exact h.flag hl
            · intro _
              exact (h.answers htl).trans hposts.2.1
            · intro _ p hp
              rcases hposts.2.2.1 p hp with hp | hp
              · exact .inl hp
              · exact h.upper (by rw [hfresh]) p hp
            · intro _
              rw [hposts.2.2.2]
              have hch : s.auth.channels = false := by rw [hfresh]
              exact ⟨(h.exact hch).1, fun _ => (h.exact hch).2 htl⟩

theorem SInv.other (hx : EnvOk x.trans) {s : Server σ} (h : SInv x s) (hl : s.live = true) {ev : AuthEv} (he : ev.isOther = true) :
    ∃ s', s.settle x (s.auth.step (s.cfg x) ev) = some s' ∧ SInv x s' := by
  obtain ⟨htl, hst⟩ := Server.live_iff.mp hl
  have hg := grew_other (cfg := s.cfg x) (y := s.auth) he
  obtain ⟨es, g1, g2⟩ := hg.log
  have hmsg : clientMessages (s.auth.step (s.cfg x) ev).log = clientMessages s.auth.log := by
    rw [g1, clientMessages_append, g2, List.append_nil]
  refine SInv.settle hx h.fit h.told (by rw [hg.enc]; exact h.enc) (fun hc => (h.early (by rw [← hg.enc]; exact hc)).other he)
    (run_last h.auth _) (fun _ _ => h.flag hl) hg.mono (fun hc => by rw [hst] at hc; cases hc) (by rw [hmsg]; exact h.recv)
    (fun _ _ => by rw [hmsg]; exact h.recvEq hl) h.clear h.answers ⟨es, g1⟩ ?_ ?_
  all_goals
    intro hc
    have hch : s.auth.channels = false := by
      cases hch : s.auth.channels with
      | false => rfl
      | true => rw [hg.chan hch] at hc; cases hc
  · exact h.upper hch
  · exact h.exact hch

theorem SInv.send (hx : EnvOk x.trans) {s : Server σ} (h : SInv x s) (hl : s.live = true) (hc : s.auth.channels = true) (p : Bytes) :
    ∃ s', ((s.trans.step x.trans (.send p)).map fun t => ({ s with trans := t } : Server σ)) = some s' ∧ SInv x s' := by
  obtain ⟨htl, hst⟩ := Server.live_iff.mp hl
  obtain ⟨t, h1, h2⟩ := h.fit.step hx (ev := .send p) trivial
  rw [h1, Option.map_some]
  refine ⟨_, rfl, ?_⟩
  simp only [Trans.step, htl, cond_true] at h1
  obtain ⟨a, b, c⟩ := sendPacket_posts h1
  have hlive : t.live = s.trans.live := by simp only [Trans.live, a, b]
  have henc : s.trans.kx.kx.isEncrypted = true := by
    rw [← h.enc]
    cases he : s.auth.encrypted with
    | true => rfl
    | false => rw [(h.early he).auth.2.1] at hc; cases hc
  have hsl : ({ s with trans := t } : Server σ).live = true → s.live = true := fun _ => hl
  refine ⟨h2, by rw [a]; exact h.told, by rw [a]; exact h.enc, h.early, ?_, fun _ => by rw [a]; exact h.flag hl, by rw [a]; exact h.recv,
    fun _ => by rw [a]; exact h.recvEq hl, ?_, ?_, ?_, ?_⟩
  · obtain ⟨tr, au⟩ := s
    rw [cfg_eq (t := tr) (y := au) (by rw [a])]
    exact h.auth
  · rw [c]
    exact clear_append h.clear fun hk => absurd hk ((h.fit.encrypted_iff hx (Trans.live_stop htl)).2 henc)
  · intro _
    rw [c, packetsSent_append]
    exact (h.answers htl).trans (List.sublist_append_left ..)
  · intro hz
    simp only [hc] at hz
    cases hz
  · intro hz
    simp only [hc] at hz
    cases hz

theorem SInv.step (hx : EnvOk x.trans) {s : Server σ} (h : SInv x s) (ev : ServerEvent) :
    ∃ s', s.step x ev = some s' ∧ SInv x s' := by
  cases ev with
  | io ev =>
    simp only [Server.step]
    cases hg : ev.isIo && (s.live || !ev.needsLive) with
    | false => exact ⟨s, rfl, h⟩
    | true =>
      rw [Bool.and_eq_true] at hg
      exact h.io hx hg.1
  | ready d =>
    simp only [Server.step]
    cases hl : s.live with
    | false => exact ⟨s, rfl, h⟩
    | true => exact h.ready hx hl d
  | other ev =>
    simp only [Server.step]
    cases hg : s.live && ev.isOther with
    | false => exact ⟨s, rfl, h⟩
    | true =>
      rw [Bool.and_eq_true] at hg
      exact h.other hx hg.1 hg.2
  | send p =>
    simp only [Server.step]
    cases hg : s.live && s.auth.channels with
    | false => exact ⟨s, rfl, h⟩
    | true =>
      rw [Bool.and_eq_true] at hg
      exact h.send hx hg.1 hg.2 p

theorem SInv.run (hx : EnvOk x.trans) {evs : List ServerEvent} : ∀ {s : Server σ}, SInv x s →
    ∃ s', s.run x evs = some s' ∧ SInv x s' := by
  induction evs with
  | nil => intro s h; exact ⟨s, rfl, h⟩
  | cons ev evs ih =>
    intro s h
    obtain ⟨s₁, h1, h2⟩ := h.step hx ev
    obtain ⟨s₂, h3, h4⟩ := ih h2
    exact ⟨s₂, by simp only [Server.run, h1, Option.bind_some, h3], h4⟩

end Lukko
