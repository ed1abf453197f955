import Verif.Prop.Holder
import Verif.Prop.Gateway
/-
  The connection of a proxy to its target, seen as one of the holder of a key.
-/
namespace Lukko
open Model Spec

variable {σ : Type}

/-! ### What was sent with the first keys -/

theorem mem_sentWith {enc mac : Bytes} {keys : Keys} {posts : List Outgoing} {p : Bytes} (h : p ∈ sentWith enc mac keys posts) :
    p ∈ packetsSent posts := by
  unfold sentWith at h
  split at h
  · cases h
  · rename_i y rest hd
    obtain ⟨o, ho, hp⟩ := List.mem_filterMap.mp h
    refine List.mem_filterMap.mpr ⟨o, ?_, hp⟩
    have h1 : o ∈ posts.dropWhile (fun p => decide (p ≠ .keys enc mac keys true)) := by
      rw [hd]; exact List.mem_cons_of_mem _ ((List.takeWhile_prefix _).subset ho)
    exact (List.dropWhile_suffix _).subset h1

theorem packetsSent_keys (e m : Bytes) (k : Keys) (r : Bool) (b : List Outgoing) : packetsSent (.keys e m k r :: b) = packetsSent b := rfl

theorem sentWith_none {enc mac : Bytes} {keys : Keys} {posts : List Outgoing} (h : .keys enc mac keys true ∉ posts) :
    sentWith enc mac keys posts = [] := by
  have : posts.dropWhile (fun p => decide (p ≠ .keys enc mac keys true)) = [] := by
    have := List.dropWhile_append_of_pos (p := fun p => decide (p ≠ Outgoing.keys enc mac keys true)) (l₁ := posts) (l₂ := [])
      (fun p hp => by
        refine decide_eq_true fun e => h ?_
        rw [← e]; exact hp)
    simpa using this
  rw [sentWith, this]

theorem sentWith_at {enc mac : Bytes} {keys : Keys} {a b : List Outgoing} (h : ∀ o ∈ a, o.isKeys = false) :
    sentWith enc mac keys (a ++ .keys enc mac keys true :: b) = postsOfEpoch b := by
  rw [sentWith, List.dropWhile_append_of_pos, List.dropWhile_cons_of_neg (by simp)]
  intro o ho
  have := h o ho
  cases o <;> simp [Outgoing.isKeys] at this ⊢

theorem postsOfEpoch_prefix (b : List Outgoing) : postsOfEpoch b <+: packetsSent b := by
  obtain ⟨c, hc⟩ := List.takeWhile_prefix (l := b) (fun o => !o.isKeys)
  refine ⟨packetsSent c, ?_⟩
  conv => rhs; rw [← hc]
  rw [packetsSent_append]; rfl

theorem keys_split {posts : List Outgoing} : (∀ o ∈ posts, o.isKeys = false) ∨
    ∃ a e m k r b, posts = a ++ .keys e m k r :: b ∧ ∀ o ∈ a, o.isKeys = false := by
  induction posts with
  | nil => exact .inl (by simp)
  | cons o posts ih =>
    cases o with
    | keys e m k r => exact .inr ⟨[], e, m, k, r, posts, rfl, by simp⟩
    | packet p =>
      rcases ih with ih | ⟨a, e, m, k, r, b, rfl, ih⟩
      · exact .inl (List.forall_mem_cons.mpr ⟨rfl, ih⟩)
      · exact .inr ⟨.packet p :: a, e, m, k, r, b, rfl, List.forall_mem_cons.mpr ⟨rfl, ih⟩⟩

theorem no_keys {a : List Outgoing} (h : ∀ o ∈ a, o.isKeys = false) : a.filterMap Outgoing.keys? = [] := by
  rw [List.filterMap_eq_nil_iff]
  intro o ho
  have := h o ho
  cases o <;> first | rfl | cases this

theorem epoch_all {a b : List Outgoing} {e m : Bytes} {k : Keys} {r : Bool} (h : ∀ o ∈ a, o.isKeys = false) :
    postsOfEpoch (a ++ .keys e m k r :: b) = packetsSent a := by
  rw [postsOfEpoch, List.takeWhile_append_of_pos (by intro o ho; rw [h o ho]; rfl), List.takeWhile_cons_of_neg (by simp [Outgoing.isKeys]),
    List.append_nil]
  rfl

theorem transport_not_connection {l : List Bytes} (h : ∀ p ∈ l, IsTransportMessage p) : l.filter isConnection = [] := by
  rw [List.filter_eq_nil_iff]
  intro p hp hc
  obtain ⟨m, rest, rfl, hm⟩ := h p hp
  simp only [isConnection, List.headD_cons, decide_eq_true_eq, UInt8.le_iff_toNat_le] at hc
  rw [UInt8.lt_iff_toNat_lt] at hm
  have h1 : (50 : UInt8).toNat = 50 := rfl
  have h2 : (80 : UInt8).toNat = 80 := rfl
  omega

/-- The messages of the connection protocol which were sent with the first keys are the first ones. -/
theorem first_keys {posts : List Outgoing} {enc mac : Bytes} {keys : Keys} {r : Bool} {l : List (Bytes × Bytes × Keys)}
    (hc : ∀ p ∈ postsOfEpoch posts, IsTransportMessage p)
    (hk : posts.filterMap Outgoing.keys? = l.map fun (e, m, k) => (e, m, k, r))
    (hf : ∀ o, l.head? = some o → o = (enc, mac, keys)) :
    (sentWith enc mac keys posts).filter isConnection <+: connectionSent posts := by
  cases r with
  | false =>
    rw [sentWith_none]
    · exact List.nil_prefix
    · intro hm
      have : (enc, mac, keys, true) ∈ posts.filterMap Outgoing.keys? := List.mem_filterMap.mpr ⟨_, hm, rfl⟩
      rw [hk] at this
      obtain ⟨⟨e, m, k⟩, -, h⟩ := List.mem_map.mp this
      cases h
  | true =>
    rcases keys_split (posts := posts) with h | ⟨a, e, m, k, r, b, rfl, h⟩
    · rw [sentWith_none (fun hm => by cases h _ hm)]
      exact List.nil_prefix
    · rw [List.filterMap_append, no_keys h, List.nil_append] at hk
      cases l with
      | nil => cases hk
      | cons o l =>
        have h1 := hf o rfl
        subst h1
        have h2 : (e, m, k, r) = (enc, mac, keys, true) := (List.cons.inj hk).1
        cases h2
        rw [epoch_all h] at hc
        rw [connectionSent, packetsSent_append, List.filter_append, transport_not_connection hc, packetsSent_keys, sentWith_at h]
        exact (postsOfEpoch_prefix b).filter _

/-! ### The first agreement -/

theorem one_before_out : ∀ {log : List Entry} {φ}, phaseOf log = some φ → (∀ e m k, .installOut e m k ∉ log) →
    φ.outSet = false ∧ (φ.secret = false → ∀ t, .agreed t ∉ log) ∧ lastAgreed log = firstAgreed log := by
  intro log
  induction log using snocInd with
  | nil =>
    intro φ h _
    simp only [phaseOf, List.foldlM_nil, Option.pure_def, Option.some.injEq] at h
    subst h
    exact ⟨rfl, fun _ _ h => (List.not_mem_nil h), rfl⟩
  | snoc log x ih =>
    intro φ h hn
    rw [phaseOf_snoc] at h
    cases hl : phaseOf log with
    | none => rw [hl] at h; cases h
    | some φ₀ =>
      rw [hl, Option.bind_some] at h
      obtain ⟨h1, h2, h3⟩ := ih hl fun e m k hm => hn e m k (List.mem_append_left _ hm)
      by_cases hx : ∃ t, x = .agreed t
      · obtain ⟨t, rfl⟩ := hx
        simp only [Phase.next] at h
        split at h
        · rename_i hc
          simp only [Option.some.injEq] at h
          subst h
          simp only [Bool.and_eq_true, Bool.not_eq_true'] at hc
          refine ⟨h1, fun hs => absurd hs (by simp), ?_⟩
          rw [lastAgreed_snoc, firstAgreed_after (h2 hc.1.1.2)]
        · cases h
      · have hw : φ.outSet = false ∧ (φ.secret = false → φ₀.secret = false) := by
          cases x with
          | agreed t => exact absurd ⟨t, rfl⟩ hx
          | sent p =>
            simp only [Phase.next] at h
            repeat' split at h
            all_goals first | cases h | skip
            all_goals exact ⟨h1, id⟩
          | recv p =>
            simp only [Phase.next] at h
            repeat' split at h
            all_goals first | cases h | skip
            all_goals exact ⟨h1, id⟩
          | installOut a b c => exact absurd (List.mem_append_right _ (List.mem_singleton.mpr rfl)) (hn a b c)
          | installIn a b c =>
            simp only [Phase.next, h1, Bool.and_false, Bool.false_and, Bool.false_eq_true, if_false, reduceCtorEq] at h
          | _ => simp only [Phase.next, Option.some.injEq] at h; subst h; exact ⟨h1, id⟩
        refine ⟨hw.1, fun hs t hm => ?_, ?_⟩
        · rcases List.mem_append.mp hm with hm | hm
          · exact h2 (hw.2 hs) t hm
          · exact hx ⟨t, (List.mem_singleton.mp hm).symm⟩
        · rw [lastAgreed_later (fun t hm => hx ⟨t, (List.mem_singleton.mp hm).symm⟩), h3, firstAgreed, firstAgreed, List.findSome?_append]
          cases x <;> first | exact (Option.or_none).symm | exact absurd ⟨_, rfl⟩ hx

theorem first_agreed_at {log pre post : List Entry} {e : Entry} {φ} (h : phaseOf log = some φ) (hl : log = pre ++ e :: post)
    (hn : ∀ e m k, .installOut e m k ∉ pre) {t : Transcript} (ht : lastAgreed pre = some t) :
    firstAgreed pre = some t ∧ firstAgreed log = some t := by
  rw [hl] at h
  obtain ⟨φ₀, φ₁, g0, g1⟩ := phaseOf_prefix h
  have h1 := (one_before_out g0 hn).2.2
  rw [ht] at h1
  refine ⟨h1.symm, ?_⟩
  rw [hl, firstAgreed, List.findSome?_append]
  rw [firstAgreed] at h1
  rw [← h1]
  rfl

/-! ### The connection to a target, as one of the holder of the key -/

/-- The KEXINIT of a Lukko as a client. -/
theorem own_strict_client {e : KexEnv} {evs : List KxEvent} (hd : ∀ x, (e.digest x).length = 32) (hev : ∀ ev ∈ evs, EventOk ev)
    (hc : ∀ n, (e.cookie n).length = 16) {pre post k}
    (hl : ((KxSys.init .client).run e evs).kx.log = pre ++ post) (hz : Sized pre) (hk : lastSent 20 pre = some k) : AnnouncesStrict k := by
  have hs := run_safe (role := .client) hd hev
  have hlen := hz.lastSent hk
  obtain ⟨p, h1, h2, h3⟩ := lastSent_mem hk
  obtain ⟨a, b, hab⟩ := List.append_of_mem h1
  obtain ⟨i, ser, hser, hp⟩ := (hs.every a (.sent p) (b ++ post) (by rw [hl, hab]; simp)).2 h2
  obtain ⟨p1, p2⟩ := makeKexInit_payload hser
  have hkk : k = ser.since 6 := by rw [← h3, hp, p1]; rfl
  rw [hkk] at hlen ⊢
  rw [p2] at hlen ⊢
  simp only [Spec.kexInitBody, List.map_cons, List.flatten_cons, List.length_append, str_length] at hlen
  have := (C05_kexinit (e.cookie i) (e.proposal .client) (hc i)
    (by omega) (by omega) (by omega) (by omega) (by omega) (by omega) (by omega) (by omega) (by omega) (by omega)).2
  exact (kexinit_name_iff (p := _) (by rw [Parser.parse, this.1]; rfl) (by decide)).mpr (C17_announced (e := e) .client)

/-- The connection of a caller. -/
def callerSide (x : CallerEnv σ) (s : Caller σ) (t : Transcript) : ClientSide where
  first := t
  ephemeral e := 30 :: str e ∈ packetsSent s.trans.posts
  signs key request := (∃ k alg, x.login.hostKey = some (k, alg) ∧ IsKeyBlob k.pub key) ∧ ∃ sig, .sent 50 (request ++ str sig) ∈ s.login.log
  sent enc mac keys := sentWith enc mac keys s.trans.posts

theorem Fit.kex_sent {x : TransEnv σ} {role : Role} {t : Model.Trans σ} (hf : Fit x role t) {p : Bytes} (h : .sent p ∈ t.kx.kx.log) :
    p ∈ packetsSent t.posts :=
  List.mem_filterMap.mpr ⟨_, hf.posts.subset (List.mem_filterMap.mpr ⟨_, h, rfl⟩), rfl⟩

theorem callerSide_proper {x : CallerEnv σ} {s : Caller σ} (hx : EnvOk x.trans) (hi : CInv x s) (hv : x.trans.kex.ownVersion.length < 2 ^ 32)
    (hc : ∀ n, (x.trans.kex.cookie n).length = 16) (hz : Sized s.trans.kx.kx.log) {t : Transcript}
    (ht : firstAgreed s.trans.kx.kx.log = some t) : (callerSide x s t).Proper := by
  obtain ⟨kevs, hk, hkx⟩ := hi.fit.kx
  obtain ⟨p, q, hpq⟩ := firstAgreed_split ht
  have hs := run_safe (role := .client) hx.digest hk
  rw [← hkx] at hs
  have hca : ClientAgreed x.trans.kex p t := hs.every p (.agreed t) q hpq
  have hzp : Sized p := fun y hy => hz y (by rw [hpq]; exact List.mem_append_left _ hy)
  have henc := hca.encodable hzp hv
  obtain ⟨pre', sig, hp, -, -, -, -, h20, -, h30, -⟩ := hca
  refine ⟨henc, ?_, fun enc mac keys e he => mem_sentWith he, ?_⟩
  · obtain ⟨q', q1, q2, q3⟩ := lastSent_mem h30
    have : q' = 30 :: str t.clientEph := by
      cases q' with
      | nil => cases q2
      | cons n r =>
        simp only [isMsg, List.head?_cons, beq_iff_eq, Option.some.injEq] at q2
        rw [q2]
        exact congrArg _ q3
    show 30 :: str t.clientEph ∈ _
    rw [← this]
    exact hi.fit.kex_sent (by rw [hpq, hp]; simp [q1])
  · refine own_strict_client hx.digest hk hc (pre := pre') (post := [.recv (31 :: ecdhReplyBody t.hostKey t.serverEph sig)] ++ .agreed t :: q)
      ?_ (fun y hy => hzp y (by rw [hp]; exact List.mem_append_left _ hy)) h20
    rw [← hkx, hpq, hp]; simp

/-- The keys with which a caller sends first, if the server has had the same exchange. -/
theorem same_first_keys {x : CallerEnv σ} {s : Caller σ} (hx : EnvOk x.trans) (hi : CInv x s)
    (hc : ∀ n, (x.trans.kex.cookie n).length = 16) (hz : Sized s.trans.kx.kx.log) {τ : Type} {y : TransEnv τ} (hy : EnvOk y)
    {v : Model.Trans τ} (hf : Fit y .server v) (hyc : ∀ n, (y.kex.cookie n).length = 16) (hzv : Sized v.kx.kx.log)
    (hdig : x.trans.kex.digest = y.kex.digest)
    (ht : firstAgreed s.trans.kx.kx.log = firstAgreed v.kx.kx.log) {pre enc mac keys post}
    (hl : v.kx.kx.log = pre ++ .installIn enc mac keys :: post) (hp : hasIn pre = false) :
    (sentWith enc mac keys s.trans.posts).filter isConnection <+: connectionSent s.trans.posts := by
  refine first_keys hi.clear hi.fit.keys fun o ho => ?_
  obtain ⟨kevs, hk, hkx⟩ := hi.fit.kx
  obtain ⟨kevs', hk', hkx'⟩ := hf.kx
  obtain ⟨pre', post', hl', hn⟩ : ∃ pre' post', s.trans.kx.kx.log = pre' ++ .installOut o.1 o.2.1 o.2.2 :: post' ∧
      ∀ e m k, .installOut e m k ∉ pre' := by
    generalize s.trans.kx.kx.log = log at ho
    induction log with
    | nil => cases ho
    | cons z log ih =>
      by_cases hz : ∃ e m k, z = .installOut e m k
      · obtain ⟨e, m, k, rfl⟩ := hz
        cases ho
        exact ⟨[], log, rfl, by simp⟩
      · have h0 : Entry.out? z = none := by cases z <;> first | rfl | exact absurd ⟨_, _, _, rfl⟩ hz
        rw [List.filterMap_cons_none h0] at ho
        obtain ⟨a, b, h1, h2⟩ := ih ho
        refine ⟨z :: a, b, by rw [h1]; rfl, fun e m k hm => ?_⟩
        rcases List.mem_cons.mp hm with h | h
        · exact hz ⟨e, m, k, h.symm⟩
        · exact h2 e m k h
  -- the last agreement before it is the first one, for both
  obtain ⟨φ, hφ⟩ := (hi.fit.safe hx).phase
  obtain ⟨-, -, t, -, -, h1, -⟩ := install_origin (role := .client) hx.digest hk .out (by rw [← hkx]; exact hl')
  obtain ⟨g1, g2⟩ := first_agreed_at hφ hl' hn h1
  obtain ⟨a, b₁, tr, b₂, r1, ha, -, r3, r4, -⟩ := hf.exchange hy hl
  have ha' : a = [] := by
    rcases ha with ha | ⟨a', e, m, k, rfl⟩
    · exact ha
    · rw [r1] at hp
      simp [hasIn] at hp
  subst ha'
  rw [List.nil_append] at r1
  have f1 : firstAgreed pre = some tr := by rw [r1]; exact firstAgreed_after r3
  have f2 : firstAgreed v.kx.kx.log = some tr := by rw [hl, r1, List.append_assoc, List.cons_append]; exact firstAgreed_after r3
  rw [g2, f2] at ht
  cases ht
  have hpre : Sized pre' := fun z hz' => hz z (by rw [hl']; exact List.mem_append_left _ hz')
  have hpre' : Sized pre := fun z hz' => hzv z (by rw [hl]; exact List.mem_append_left _ hz')
  obtain ⟨-, -, k1, k2, k3⟩ := C83_protected hdig hx.digest hk hk' hc hyc (.inl ⟨by rw [← hkx]; exact hl', by rw [← hkx']; exact hl⟩)
    hpre hpre' (by rw [h1, r4])
  rw [k1, k2, k3 (by rw [g1, f1])]

end Lukko
