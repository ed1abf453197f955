import Verif.Proof.PairStage
/-
  Deliveries in a pair.
-/
namespace Lukko
open Spec Model

variable {eC eS : KexEnv} {hk : Nat} {alg : Bytes} {c s : Kx} {qc qs : List Bytes}

theorem Compatible.fitsC (h : Compatible eC eS hk alg) : PairFits eC .client where
  cookie := h.cookieC
  algs := by
    show allPublicKeyAlgorithms.length ≤ 60000
    have : allPublicKeyAlgorithms.length ≤ 100 := by decide +kernel
    omega

theorem Compatible.fitsS (h : Compatible eC eS hk alg) : PairFits eS .server where
  cookie := h.cookieS
  algs := h.algsFit

theorem pairClaim_kex {x : Bytes} (h : isKexMessage x = true) (handled : Bool) : pairClaim x handled = .unclaimed := by
  have : isPlain x = false := by
    cases hh : isPlain x with
    | false => rfl
    | true => rw [isPlain_not_kex hh] at h; exact absurd h (by decide)
  simp [pairClaim, this]

theorem kexMsg20 (b : Bytes) : isKexMessage (20 :: b) = true := rfl
theorem kexMsg21 : isKexMessage [21] = true := rfl
theorem kexMsg30 (b : Bytes) : isKexMessage (30 :: b) = true := rfl
theorem kexMsg31 (b : Bytes) : isKexMessage (31 :: b) = true := rfl

/-- A packet reaches the server. -/
theorem PState.deliverServer (hE : Compatible eC eS hk alg) {x : Bytes} (h : PState eC eS hk alg c s (x :: qc) qs)
    (hv : s.versionExchanged = true) (handled : Bool) :
    ∃ s' more, s.handleRawPacket eS x (pairClaim x handled) = (s', none) ∧ s'.versionExchanged = true ∧
      PState eC eS hk alg c s' qc (qs ++ more) ∧
      pairWork c s' qc (qs ++ more) < pairWork c s (x :: qc) qs := by
  obtain ⟨hcs, hss, hqc, hqs, kc, ks, hkc, hks, hst⟩ := h
  cases hx : isKexMessage x with
  | false =>
    obtain ⟨he, hp, hq⟩ := hkc.popPlain hx
    obtain ⟨s', more, hr, hside, hsame, hrec, hsent, hmore⟩ := handlePlain_pair (e := eS) hss he hp handled
    refine ⟨s', more, hr, hsame.vx.trans hv, ⟨hcs, hside, ?_, ?_, kc, ks, ?_, ?_, hst.congr .rfl' hsame⟩, ?_⟩
    · rw [hqc, hrec]; simp
    · rw [hsent, hqs]; simp
    · rw [hsame.inEnc]; exact hq
    · rcases hmore with rfl | ⟨⟨t, rfl⟩, _⟩
      · simpa using hks
      · exact hks.pushPlain rfl (hst.cleanS hcs hss (hss.inOut he))
    · unfold pairWork
      rw [hsame.flags, queueWork_append]
      have h1 : queueWork (x :: qc) = plainWork x + queueWork qc := rfl
      rw [h1]
      rcases hmore with rfl | ⟨⟨t, rfl⟩, h2, h3⟩
      · have : 0 < plainWork x := by
          unfold plainWork; rw [hx]; cases (isMsg 2 x || isMsg 3 x) <;> decide
        have h0 : queueWork [] = 0 := rfl
        omega
      · have h2 : plainWork x = 2 := by unfold plainWork; rw [hx, h2, h3]; rfl
        have h0 : queueWork [3 :: t] = 1 := rfl
        omega
  | true =>
    rw [pairClaim_kex hx]
    obtain ⟨k', rfl_k, hq1, hq2⟩ := hkc.popKex hx
    have hx0 : queueWork (x :: qc) = queueWork qc := by
      show plainWork x + queueWork qc = _
      unfold plainWork; rw [hx]; simp
    generalize hkk : kc = kc0 at hst
    cases hst with
    | answered => rw [rfl_k] at hkk; exact absurd hkk (by simp)
    | serverDone => rw [rfl_k] at hkk; exact absurd hkk (by simp)
    | crossing c1 s1 ha =>
      rw [rfl_k] at hkk
      simp only [List.cons.injEq] at hkk
      obtain ⟨rfl, rfl⟩ := hkk
      obtain ⟨s', hr, hside, hf, hv', hi, hmy, hrec, hsent, hag⟩ := handleNewKeys_pair (e := eS) hE.size hss s1 hv
      refine ⟨s', [], hr, hv', ⟨hcs, hside, ?_, ?_, [], [[21]], ?_, ?_, .serverDone false c1 hf (by rw [ha, hag])⟩, ?_⟩
      · rw [hqc, hrec]; simp
      · rw [hsent, hqs]; simp
      · rw [hi]; exact hq1
      · simpa using hks
      · unfold pairWork
        rw [hx0, hf, c1, s1, List.append_nil]
        simp [kexWork]
    | clientDone cs c1 s1 ha =>
      rw [rfl_k] at hkk
      simp only [List.cons.injEq] at hkk
      obtain ⟨rfl, rfl⟩ := hkk
      obtain ⟨s', hr, hside, hf, hv', hi, hmy, hrec, hsent, hag⟩ := handleNewKeys_pair (e := eS) hE.size hss s1 hv
      have hst' := Stage.hello (eC := eC) (eS := eS) (hk := hk) (c := c) (s := s') cs false false false 0 c1 hf (by rw [ha, hag])
        (fun h => absurd h (by decide)) (fun h => absurd h (by decide))
      refine ⟨s', [], hr, hv', ⟨hcs, hside, ?_, ?_, _, _, ?_, ?_, hst'⟩, ?_⟩
      · rw [hqc, hrec]; simp
      · rw [hsent, hqs]; simp
      · rw [hi]; simpa using hq1
      · simpa using hks
      · unfold pairWork
        rw [hx0, hf, c1, s1, List.append_nil]
        cases cs <;> simp [kexWork]
    | hello cs cr ss sr n c1 s1 ha h1 h2 =>
      cases hfirst : (cs && !sr) with
      | true =>
        rw [rfl_k, hfirst] at hkk
        simp only [cond_true, List.singleton_append, List.cons.injEq] at hkk
        obtain ⟨rfl, rfl⟩ := hkk
        simp only [Bool.and_eq_true, Bool.not_eq_true'] at hfirst
        obtain ⟨rfl, rfl⟩ := hfirst
        obtain ⟨i, hi⟩ := hcs.my (by rw [c1])
        obtain ⟨s', hr, g⟩ := handleKexInit_pair (e := eS) (ep := eC) (role := .server) (hk := hk) (alg := alg) hE.fitsS hE.fitsC (fun h => absurd h (by decide))
          (fun _ => hE.chosen) hss (by rw [s1]) (by rw [s1]) i
        rw [show kexBody eC (otherRole .server) i = c.myKexinit from hi.symm] at hr g
        obtain ⟨prec, pag, _, _, m, hm, psent⟩ := g.proj
        have hside := g.side hss (by rw [s1]) (by rw [s1]) hv
        rw [hss.roleEq, s1] at psent
        simp only [show ¬(Role.server = Role.client) by decide, if_false, List.append_nil] at psent
        have hmy : ss = true → s'.myKexinit = s.myKexinit := fun h => g.my (by rw [s1]; exact h)
        have hst' := Stage.hello (eC := eC) (eS := eS) (hk := hk) (c := c) (s := s') true cr true true n c1 g.flags (by rw [ha, pag])
          (fun h => ⟨rfl, rfl, by rw [hmy (h1 h).2.1]; exact (h1 h).2.2.1, (h1 h).2.2.2⟩) (fun _ => ⟨rfl, rfl, g.peerKexinit⟩)
        refine ⟨s', (bif ss then [] else [20 :: s'.myKexinit]), hr, g.vx.trans hv, ⟨hcs, hside, ?_, ?_, _, _, ?_, ?_, hst'⟩, ?_⟩
        · rw [hqc, prec]; simp
        · rw [psent, hqs]; simp
        · rw [g.inEnc]; simpa using hq2 (by simp)
        · cases ss with
          | true => rw [hmy rfl]; simpa using hks
          | false =>
            have : cr = false := by
              cases hcr : cr with
              | false => rfl
              | true => have := (h1 hcr).2.1; exact absurd this (by decide)
            subst this
            simpa using hks.pushKex (kexMsg20 s'.myKexinit)
        · unfold pairWork
          rw [hx0, queueWork_append, g.flags, c1, s1]
          have : queueWork (bif ss then [] else [20 :: s'.myKexinit]) = 0 := by cases ss <;> rfl
          rw [this]
          cases ss <;> cases cr <;> simp [kexWork]
      | false =>
        cases cr with
        | false => rw [rfl_k, hfirst] at hkk; exact absurd hkk (by simp)
        | true =>
          obtain ⟨rfl, rfl, hpk, hck⟩ := h1 rfl
          have hsr : sr = true := by simpa using hfirst
          subst hsr
          rw [rfl_k] at hkk
          simp only [Bool.not_true, Bool.and_false, cond_false, cond_true, List.nil_append, List.cons.injEq] at hkk
          obtain ⟨rfl, rfl⟩ := hkk
          obtain ⟨_, _, hpk'⟩ := h2 rfl
          obtain ⟨m, hm⟩ := hss.kex (by rw [s1]) (by rw [s1])
          obtain ⟨sec, hsec1, hsec2⟩ := hE.shared n m
          generalize ht : ({
            clientVersion := eC.ownVersion, serverVersion := eS.ownVersion, clientKexinit := c.myKexinit,
            serverKexinit := c.peerKexinit, hostKey := eS.hostKeyBlob hk, clientEph := eC.ephPub .curve25519 n,
            serverEph := eS.ephPub .curve25519 m, secret := sec } : Transcript) = t
          obtain ⟨sig, hsig, hsl, hver⟩ := hE.signs (eS.digest (hashInput t)) (hE.size _)
          have hbl := hE.blobFit
          have hce := hE.ephFitC n
          have hse := hE.ephFitS m
          obtain ⟨s', hr, g⟩ := handleECDHKexInit_pair (e := eS) hE.size hss s1 hv (ceph := eC.ephPub .curve25519 n) (sec := sec)
            (sig := sig) hm (by omega) (by simp [ecdhReplyBody, Spec.str, Spec.u32, BUFFER_SIZE]; omega) (by omega) (by omega) (by omega)
            hsec2 (t := t) (by rw [← ht, hpk', hpk]) hsig
          obtain ⟨prec, pag, _, _, psent⟩ := g.proj
          have hside := g.side hss s1 hv (by intro p hp; simp at hp; subst hp; rfl) rfl (by intro p hp; simp at hp; subst hp; rfl)
          have hst' := Stage.answered (eC := eC) (eS := eS) (hk := hk) (c := c) (s := s') n m t sig sec c1 g.flags (by rw [pag, ha])
            hck ht.symm hsec1 hsl (by rw [hE.digest]; exact hver)
          refine ⟨s', [31 :: ecdhReplyBody (eS.hostKeyBlob hk) (eS.ephPub .curve25519 m) sig, [21]], hr, g.vx.trans hv, ⟨hcs, hside, ?_, ?_, _, _, ?_, ?_, hst'⟩, ?_⟩
          · rw [hqc, prec]; simp
          · rw [psent, hqs]; simp
          · rw [g.inEnc]; simpa using hq2 (by simp)
          · have := hks.pushKexs (l := [31 :: ecdhReplyBody (eS.hostKeyBlob hk) (eS.ephPub .curve25519 m) sig, [21]])
              (by intro x hx; simp at hx; rcases hx with rfl | rfl <;> rfl)
            simpa using this
          · unfold pairWork
            rw [hx0, queueWork_append, g.flags, c1, s1]
            have : queueWork [31 :: ecdhReplyBody (eS.hostKeyBlob hk) (eS.ephPub .curve25519 m) sig, [21]] = 0 := rfl
            rw [this]
            simp [kexWork]

/-- A packet reaches the client. -/
theorem PState.deliverClient (hE : Compatible eC eS hk alg) {x : Bytes} (h : PState eC eS hk alg c s qc (x :: qs))
    (hv : c.versionExchanged = true) (handled : Bool) :
    ∃ c' more, c.handleRawPacket eC x (pairClaim x handled) = (c', none) ∧ c'.versionExchanged = true ∧
      PState eC eS hk alg c' s (qc ++ more) qs ∧
      pairWork c' s (qc ++ more) qs < pairWork c s qc (x :: qs) := by
  have hsize : ∀ x, (eC.digest x).length = 32 := by rw [hE.digest]; exact hE.size
  obtain ⟨hcs, hss, hqc, hqs, kc, ks, hkc, hks, hst⟩ := h
  cases hx : isKexMessage x with
  | false =>
    obtain ⟨he, hp, hq⟩ := hks.popPlain hx
    obtain ⟨c', more, hr, hside, hsame, hrec, hsent, hmore⟩ := handlePlain_pair (e := eC) hcs he hp handled
    refine ⟨c', more, hr, hsame.vx.trans hv, ⟨hside, hss, ?_, ?_, kc, ks, ?_, ?_, hst.congr hsame .rfl'⟩, ?_⟩
    · rw [hsent, hqc]; simp
    · rw [hqs, hrec]; simp
    · rcases hmore with rfl | ⟨⟨t, rfl⟩, _⟩
      · simpa using hkc
      · exact hkc.pushPlain rfl (hst.cleanC hcs hss (hcs.inOut he))
    · rw [hsame.inEnc]; exact hq
    · unfold pairWork
      rw [hsame.flags, queueWork_append]
      have h1 : queueWork (x :: qs) = plainWork x + queueWork qs := rfl
      rw [h1]
      rcases hmore with rfl | ⟨⟨t, rfl⟩, h2, h3⟩
      · have : 0 < plainWork x := by
          unfold plainWork; rw [hx]; cases (isMsg 2 x || isMsg 3 x) <;> decide
        have h0 : queueWork [] = 0 := rfl
        omega
      · have h2 : plainWork x = 2 := by unfold plainWork; rw [hx, h2, h3]; rfl
        have h0 : queueWork [3 :: t] = 1 := rfl
        omega
  | true =>
    rw [pairClaim_kex hx]
    obtain ⟨k', rfl_k, hq1, hq2⟩ := hks.popKex hx
    have hx0 : queueWork (x :: qs) = queueWork qs := by
      show plainWork x + queueWork qs = _
      unfold plainWork; rw [hx]; simp
    generalize hkk : ks = ks0 at hst
    cases hst with
    | clientDone => rw [rfl_k] at hkk; exact absurd hkk (by simp)
    | crossing c1 s1 ha =>
      rw [rfl_k] at hkk
      simp only [List.cons.injEq] at hkk
      obtain ⟨rfl, rfl⟩ := hkk
      obtain ⟨c', hr, hside, hf, hv', hi, hmy, hrec, hsent, hag⟩ := handleNewKeys_pair (e := eC) hsize hcs c1 hv
      refine ⟨c', [], hr, hv', ⟨hside, hss, ?_, ?_, [[21]], [], ?_, ?_, .clientDone false hf s1 (by rw [← ha, hag])⟩, ?_⟩
      · rw [hsent, hqc]; simp
      · rw [hqs, hrec]; simp
      · simpa using hkc
      · rw [hi]; exact hq1
      · unfold pairWork
        rw [hx0, hf, c1, s1, List.append_nil]
        simp [kexWork]
    | serverDone ss c1 s1 ha =>
      rw [rfl_k] at hkk
      simp only [List.cons.injEq] at hkk
      obtain ⟨rfl, rfl⟩ := hkk
      obtain ⟨c', hr, hside, hf, hv', hi, hmy, hrec, hsent, hag⟩ := handleNewKeys_pair (e := eC) hsize hcs c1 hv
      have hst' := Stage.hello (eC := eC) (eS := eS) (hk := hk) (c := c') (s := s) false false ss false 0 hf s1 (by rw [hag, ha])
        (fun h => absurd h (by decide)) (fun h => absurd h (by decide))
      refine ⟨c', [], hr, hv', ⟨hside, hss, ?_, ?_, _, _, ?_, ?_, hst'⟩, ?_⟩
      · rw [hsent, hqc]; simp
      · rw [hqs, hrec]; simp
      · simpa using hkc
      · rw [hi]; simpa using hq1
      · unfold pairWork
        rw [hx0, hf, c1, s1, List.append_nil]
        cases ss <;> simp [kexWork]
    | answered n m t sig sec c1 s1 ha hn ht hsec hsl hver =>
      rw [rfl_k] at hkk
      simp only [List.cons.injEq] at hkk
      obtain ⟨rfl, rfl⟩ := hkk
      have hbl := hE.blobFit
      have hse := hE.ephFitS m
      obtain ⟨c', hr, g⟩ := handleReply_pair (e := eC) hsize hcs c1 hv hn (blob := eS.hostKeyBlob hk) (seph := eS.ephPub .curve25519 m)
        (sig := sig) (by omega) (by omega) (by omega) hE.known hsec ht hver
      obtain ⟨prec, pag, _, _, psent⟩ := g.proj
      have hside := g.side hcs c1 hv (by simp) rfl (by simp)
      refine ⟨c', [[21]], hr, g.vx.trans hv, ⟨hside, hss, ?_, ?_, _, _, ?_, ?_, .crossing g.flags s1 (by rw [pag, ha])⟩, ?_⟩
      · rw [psent, hqc]; simp
      · rw [hqs, prec]; simp
      · simpa using hkc.pushKex kexMsg21
      · rw [g.inEnc]; exact hq2 (by simp)
      · unfold pairWork
        rw [hx0, queueWork_append, g.flags, c1, s1]
        have : queueWork [[21]] = 0 := rfl
        rw [this]
        simp [kexWork]
    | hello cs cr ss sr n c1 s1 ha h1 h2 =>
      cases hfirst : (ss && !cr) with
      | false => rw [rfl_k, hfirst] at hkk; exact absurd hkk (by simp)
      | true =>
        rw [rfl_k, hfirst] at hkk
        simp only [cond_true, List.cons.injEq] at hkk
        obtain ⟨rfl, rfl⟩ := hkk
        simp only [Bool.and_eq_true, Bool.not_eq_true'] at hfirst
        obtain ⟨rfl, rfl⟩ := hfirst
        obtain ⟨i, hi⟩ := hss.my (by rw [s1])
        obtain ⟨c', hr, g⟩ := handleKexInit_pair (e := eC) (ep := eS) (role := .client) (hk := hk) (alg := alg) hE.fitsC hE.fitsS (fun _ => hE.ephFitC)
          (fun h => absurd h (by decide)) hcs (by rw [c1]) (by rw [c1]) i
        rw [show kexBody eS (otherRole .client) i = s.myKexinit from hi.symm] at hr g
        obtain ⟨prec, pag, _, _, m, hm, psent⟩ := g.proj
        have hside := g.side hcs (by rw [c1]) (by rw [c1]) hv
        rw [hcs.roleEq, c1] at psent
        simp only [if_true] at psent
        have hmy : cs = true → c'.myKexinit = c.myKexinit := fun h => g.my (by rw [c1]; exact h)
        have hst' := Stage.hello (eC := eC) (eS := eS) (hk := hk) (c := c') (s := s) true true true sr m g.flags s1 (by rw [pag, ha])
          (fun _ => ⟨rfl, rfl, g.peerKexinit, hm⟩) (fun h => ⟨rfl, rfl, by rw [hmy (h2 h).2.1]; exact (h2 h).2.2⟩)
        refine ⟨c', ((bif cs then [] else [20 :: c'.myKexinit]) ++ [30 :: ecdhInitBody (eC.ephPub .curve25519 m)]), hr, g.vx.trans hv, ⟨hside, hss, ?_, ?_, _, _, ?_, ?_, hst'⟩, ?_⟩
        · rw [psent, hqc]; simp
        · rw [hqs, prec]; simp
        · cases cs with
          | true =>
            rw [hmy rfl]
            simpa using hkc.pushKex (kexMsg30 (ecdhInitBody (eC.ephPub .curve25519 m)))
          | false =>
            have : sr = false := by
              cases hsr : sr with
              | false => rfl
              | true => have := (h2 hsr).2.1; exact absurd this (by decide)
            subst this
            simpa using (hkc.pushKex (kexMsg20 c'.myKexinit)).pushKex (kexMsg30 (ecdhInitBody (eC.ephPub .curve25519 m)))
        · rw [g.inEnc]; simpa using hq2 (by simp)
        · unfold pairWork
          rw [hx0, queueWork_append, g.flags, c1, s1]
          have : queueWork ((bif cs then [] else [20 :: c'.myKexinit]) ++ [30 :: ecdhInitBody (eC.ephPub .curve25519 m)]) = 0 := by
            cases cs <;> rfl
          rw [this]
          cases cs <;> cases sr <;> simp [kexWork]

end Lukko
