import Verif.Proof.TransportParts
/-
  Invariant of a connection as a whole.
-/
namespace Lukko
open Spec Model

variable {σ : Type} {x : TransEnv σ}

theorem lastCipher_packet (make : Bytes → Bytes → Keys → σ) (ps : List Outgoing) (p : Bytes) :
    lastCipher make (ps ++ [.packet p]) = lastCipher make ps := by
  simp [lastCipher]

theorem lastCipher_keys (make : Bytes → Bytes → Keys → σ) (ps : List Outgoing) (enc mac k r) :
    lastCipher make (ps ++ [.keys enc mac k r]) = some (make enc mac k) := by
  simp [lastCipher]

/-- What is needed of the primitives. -/
structure EnvOk (x : TransEnv σ) : Prop where
  sane : Sane x.ops
  enc : EncNonempty x.ops
  frame : ∀ n b h p, x.frame n b h p ≠ []
  digest : ∀ m, (x.kex.digest m).length = 32

/-- The output side with what was sent; `r`: will sequence numbers restart? -/
structure OutPart (x : TransEnv σ) (o : OutSys σ) (posts : List Outgoing) (q r : Bool) : Prop where
  reach : OutReach x.ops o q
  rendered : Rendered (x.makeCipher .outgoing) x.framed posts o.submitted
  push : o.output.pushCipher = lastCipher (x.makeCipher .outgoing) posts
  auto : o.output.autoReset = r

theorem framed_ne (hx : EnvOk x) (n : Nat) (c : Option σ) (p : Bytes) : x.framed n c p ≠ [] := by
  unfold TransEnv.framed
  cases c <;> exact hx.frame _ _ _ _

theorem OutPart.quiet (hx : EnvOk x) {o : OutSys σ} {posts q r} (h : OutPart x o posts q r) {e : OutEvent σ} (hq : quietOut e = true) :
    ∃ o', o.step x.ops e = some o' ∧ OutPart x o' posts q r := by
  have hc : o.callerOk e := by cases e <;> first | trivial | cases hq
  have hk : o.rekeyOk e := by cases e <;> first | trivial | cases hq
  obtain ⟨o', h1, h2⟩ := h.reach.step hx.enc hc (fun h => ⟨h, hk⟩)
  have hs := sameOut_step hq h1
  exact ⟨o', h1, h2, by rw [hs.submitted]; exact h.rendered, by rw [hs.push]; exact h.push, by rw [hs.auto]; exact h.auto⟩

theorem OutPart.send (hx : EnvOk x) {t : Trans σ} {r} (h : OutPart x t.out t.posts t.rushed r) (p : Bytes) :
    ∃ o, t.sendPacket x p = some { t with out := o, posts := t.posts ++ [.packet p] } ∧
      OutPart x o (t.posts ++ [.packet p]) t.rushed r := by
  have hc : t.out.callerOk (.push (x.framed t.posts.length t.out.output.pushCipher p)) := framed_ne hx _ _ _
  obtain ⟨o', h1, h2⟩ := h.reach.step hx.enc hc (fun h => ⟨h, trivial⟩)
  refine ⟨o', ?_, h2, ?_, ?_, ?_⟩
  · simp only [Trans.sendPacket, Trans.output, h1, Option.map_some]
  · cases h1
    simp only [h.push]
    exact .packet h.rendered
  · cases h1
    rw [lastCipher_packet, ← h.push]
    simp only [Output.push, Bool.cond_eq_ite]
    split
    · split <;> rfl
    · rfl
  · cases h1
    rw [← h.auto]
    simp only [Output.push, Bool.cond_eq_ite]
    split
    · split <;> rfl
    · rfl

theorem OutPart.cipher (hx : EnvOk x) {t : Trans σ} {r} (h : OutPart x t.out t.posts t.rushed r) (enc mac keys) :
    ∃ o q, t.setOutCipher x enc mac keys = some { t with out := o, posts := t.posts ++ [.keys enc mac keys r], rushed := q } ∧
      OutPart x o (t.posts ++ [.keys enc mac keys r]) q r := by
  obtain ⟨o', h1, h2⟩ := h.reach.step (q' := t.rushed || t.out.output.nextCipher.isSome) hx.enc
    (e := .setCipher (x.makeCipher .outgoing enc mac keys)) trivial (by
      intro h
      rw [Bool.or_eq_false_iff] at h
      exact ⟨h.1, Option.isNone_iff_eq_none.mp (by simpa using h.2)⟩)
  refine ⟨o', _, ?_, h2, ?_, ?_, ?_⟩
  · simp only [Trans.setOutCipher, Trans.output, h1, Option.map_some, h.auto]
  · cases h1
    simp only [h.auto]
    exact .keys h.rendered
  · cases h1
    rw [lastCipher_keys]
    rfl
  · cases h1
    exact h.auto

theorem OutPart.reset (hx : EnvOk x) {o : OutSys σ} {posts q r} (h : OutPart x o posts q r)
    (hc : lastCipher (x.makeCipher .outgoing) posts = none ∨ r = true) :
    ∃ o', o.step x.ops .autoReset = some o' ∧ OutPart x o' posts q true := by
  have hc' : o.callerOk .autoReset := by
    rcases hc with hc | hc
    · left; rw [Output.isEncrypted, h.push, hc]; rfl
    · right; rw [h.auto, hc]
  obtain ⟨o', h1, h2⟩ := h.reach.step hx.enc hc' (fun h => ⟨h, trivial⟩)
  refine ⟨o', h1, h2, ?_, ?_, ?_⟩
  · cases h1; exact h.rendered
  · cases h1; exact h.push
  · cases h1; rfl

/-- What is sent. -/
def postsFrom (r : Bool) (l : List Entry) : List Outgoing := l.filterMap (Entry.post? r)

theorem effects_out (hx : EnvOk x) {l : List Entry} (hl : ∀ e m k, .installIn e m k ∉ l) :
    ∀ {t : Trans σ} {r}, OutPart x t.out t.posts t.rushed r →
    ∃ o q, t.effects x l = some { t with out := o, posts := t.posts ++ postsFrom r l, rushed := q } ∧
      OutPart x o (t.posts ++ postsFrom r l) q r := by
  induction l with
  | nil => intro t r h; exact ⟨t.out, t.rushed, by simp [Trans.effects, postsFrom], by simpa [postsFrom] using h⟩
  | cons a l ih =>
    intro t r h
    have hl' : ∀ e m k, Entry.installIn e m k ∉ l := fun e m k hm => hl e m k (List.mem_cons_of_mem _ hm)
    have skip : a.post? r = none → t.effect x a = some t → ∃ o q, t.effects x (a :: l) =
        some { t with out := o, posts := t.posts ++ postsFrom r (a :: l), rushed := q } ∧ OutPart x o (t.posts ++ postsFrom r (a :: l)) q r := by
      intro h1 h2
      obtain ⟨o, q, h3, h4⟩ := ih hl' h
      have hp : postsFrom r (a :: l) = postsFrom r l := by simp [postsFrom, h1]
      rw [hp]
      exact ⟨o, q, by simp only [Trans.effects, h2, Option.bind_some, h3], h4⟩
    cases a with
    | sent p =>
      obtain ⟨o, h1, h2⟩ := h.send hx p
      obtain ⟨o', q', h3, h4⟩ := ih hl' (t := { t with out := o, posts := t.posts ++ [.packet p] }) h2
      have hp : t.posts ++ postsFrom r (.sent p :: l) = (t.posts ++ [.packet p]) ++ postsFrom r l := by
        simp [postsFrom, Entry.post?]
      rw [hp]
      exact ⟨o', q', by simp only [Trans.effects, Trans.effect, h1, Option.bind_some, h3], h4⟩
    | installOut enc mac k =>
      obtain ⟨o, q, h1, h2⟩ := h.cipher hx enc mac k
      obtain ⟨o', q', h3, h4⟩ := ih hl' (t := { t with out := o, posts := t.posts ++ [.keys enc mac k r], rushed := q }) h2
      have hp : t.posts ++ postsFrom r (.installOut enc mac k :: l) = (t.posts ++ [.keys enc mac k r]) ++ postsFrom r l := by
        simp [postsFrom, Entry.post?]
      rw [hp]
      exact ⟨o', q', by simp only [Trans.effects, Trans.effect, h1, Option.bind_some, h3], h4⟩
    | installIn enc mac k => exact absurd (List.mem_cons_self ..) (hl enc mac k)
    | recv p => exact skip rfl rfl
    | version p => exact skip rfl rfl
    | agreed p => exact skip rfl rfl
    | encrypted => exact skip rfl rfl
    | blocked => exact skip rfl rfl
    | unblocked => exact skip rfl rfl

/-- Invariant of a connection between two events. -/
structure Fit (x : TransEnv σ) (role : Role) (t : Trans σ) : Prop where
  kx : ∃ evs, (∀ ev ∈ evs, EventOk ev) ∧ t.kx = (KxSys.init role).run x.kex evs
  inp : InReach x.ops t.inp
  out : OutPart x t.out t.posts t.rushed t.kx.kx.outReset
  recv : t.inp.delivered.map (·.2) = received t.kx.kx.log
  inR : t.inp.input.autoResetSeq = t.kx.kx.inReset
  same : t.kx.kx.inReset = t.kx.kx.outReset
  installs : t.inp.installs = (t.kx.kx.log.filterMap Entry.in?).map fun (enc, mac, k) =>
    (x.makeCipher .incoming enc mac k, t.kx.kx.inReset)
  posts : (postsFrom t.kx.kx.outReset t.kx.kx.log).Sublist t.posts
  keys : t.posts.filterMap Outgoing.keys? = (t.kx.kx.log.filterMap Entry.out?).map fun (enc, mac, k) => (enc, mac, k, t.kx.kx.outReset)
  rest : t.live = true → t.inp.handling = none

theorem Fit.init (role : Role) : Fit x role (Trans.init role : Trans σ) where
  kx := ⟨[], by simp, rfl⟩
  inp := ⟨⟨[], rfl⟩, inv_init⟩
  out := ⟨⟨⟨[], trivial, fun _ => trivial, rfl⟩, OutShape.init⟩, .nil, rfl, rfl⟩
  recv := rfl
  inR := rfl
  same := rfl
  installs := rfl
  posts := by simp [postsFrom, Trans.init, KxSys.init]
  keys := rfl
  rest := fun _ => rfl

end Lukko
