import Verif.Proof.Rekey
import Verif.Prop.Kex
/-
  C102: keys are renewed.

  `(Ry.init role).run e evs`: a new connection in either role with a clock, after any sequence of
  events: everything of C12–C18, packets of any size sent by the application, seconds that pass, and
  the rekey timer, which is punctual. `e.size` is any function that tells how many bytes a packet makes.
-/
namespace Lukko
open Spec Model

/-- A toy environment: packets [94] are very big. -/
def demoRyEnv : RyEnv where
  kex := demoEnv
  size := fun _ p => if p = [94] then 600000000 else p.length + 20

def demoRyLogin : List RyEvent := demoServerEvents.map .kx ++ [.kx .authenticated]

/-- After a gibibyte with the same keys: a packet which makes the volume of the newest keys that big is followed by a
key exchange (or the end) in the same second, unless one is already under way. -/
theorem C102_volume (e : RyEnv) (role : Role) (hd : ∀ x, (e.kex.digest x).length = 32) (evs : List RyEvent) (hev : ∀ ev ∈ evs, RyOk ev)
    (a b : Book) (t : Nat) (p : Bytes)
    (hb : ((Ry.init role).run e evs).book = a ++ (t, .entry (.sent p)) :: b) (hl : loggedIn a = true)
    (hv : 2 ^ 30 ≤ volume e.size (entriesOf a ++ [.sent p])) (hx : exchanging (entriesOf a ++ [.sent p]) = false)
    (ht : t < ((Ry.init role).run e evs).now) :
    ∃ m ∈ b, m.1 = t ∧ begins m.2 = true := by
  have h := RyInv.run (e := e) (role := role) hd hev
  generalize (Ry.init role).run e evs = y at *
  unfold RyInv at h
  have done : ∀ P, Watched e P y → ∃ m ∈ b, m.1 = t ∧ begins m.2 = true := by
    intro P hw
    rcases hw a t p b hb hl hv hx with h1 | ⟨h1, -⟩
    · exact h1
    · rw [h1] at ht
      exact absurd ht (Nat.lt_irrefl _)
  split at h
  · obtain ⟨φ, -, h⟩ := h
    exact done _ h.watched
  · exact done _ h.watched

example : let y := (Ry.init .server).run demoRyEnv (demoRyLogin ++ [.tick, .send [94], .send [94], .tick, .timer, .tick])
    (y.now == 2 && y.book.any (fun m => m.1 == 1 && begins m.2) && decide (2 ^ 30 ≤ y.bytes) &&
      (y.book.filter fun m => m.2 == .entry (.sent [94])).length == 2) = true := by
  decide +kernel

/-- After an hour: while the connection lives and no key exchange is under way, the last one (or the login) is
not more than an hour ago. -/
theorem C102_interval (e : RyEnv) (role : Role) (hd : ∀ x, (e.kex.digest x).length = 32) (evs : List RyEvent) (hev : ∀ ev ∈ evs, RyOk ev)
    (hs : ((Ry.init role).run e evs).sys.stop = none) (hl : loggedIn ((Ry.init role).run e evs).book = true)
    (hx : exchanging (entriesOf ((Ry.init role).run e evs).book) = false) :
    ((Ry.init role).run e evs).now ≤ renewed ((Ry.init role).run e evs).book + 3600 := by
  have h := RyInv.run (e := e) (role := role) hd hev
  generalize (Ry.init role).run e evs = y at *
  unfold RyInv at h
  rw [hs] at h
  obtain ⟨φ, hr, h⟩ := h
  have henc := hr.authEnc (h.auth.trans hl)
  have hin : hasIn y.sys.kx.log = true := by
    rw [← hr.inEnc]
    simp only [Kx.isEncrypted, Bool.and_eq_true] at henc
    exact henc.1
  obtain ⟨d, h1, h2⟩ := h.hour hr.alive hin (by rw [h.idle, ← h.entries, hx]; rfl)
  exact Nat.le_trans (h.past d h1) h2

/-- The history is that of the connection. -/
theorem C102_history (e : RyEnv) (role : Role) (hd : ∀ x, (e.kex.digest x).length = 32) (evs : List RyEvent) (hev : ∀ ev ∈ evs, RyOk ev)
    (hs : ((Ry.init role).run e evs).sys.stop = none) :
    entriesOf ((Ry.init role).run e evs).book = ((Ry.init role).run e evs).sys.kx.log ∧
    volume e.size (entriesOf ((Ry.init role).run e evs).book) = ((Ry.init role).run e evs).bytes := by
  have h := RyInv.run (e := e) (role := role) hd hev
  generalize (Ry.init role).run e evs = y at *
  unfold RyInv at h
  rw [hs] at h
  obtain ⟨φ, hr, h⟩ := h
  refine ⟨h.entries, ?_⟩
  rw [h.entries, volume, h.send]

/-- Seconds pass. -/
theorem run_ticks {e : RyEnv} (n : Nat) : ∀ {y : Ry}, y.sys.stop = none → (∀ d, y.timer = some d → y.now + n ≤ d) →
    y.run e (List.replicate n .tick) = { y with now := y.now + n } := by
  induction n with
  | zero => intro y _ _; rfl
  | succ n ih =>
    intro y hs hd
    have h1 : y.due = false := by
      rw [Bool.eq_false_iff]
      intro h
      obtain ⟨d, h2, h3⟩ := Ry.due_iff.mp h
      have := hd d h2
      omega
    have h2 : y.step e .tick = { y with now := y.now + 1 } := by
      unfold Ry.step
      simp only [hs, h1, cond_false]
    rw [List.replicate_succ, Ry.run, List.foldl_cons, h2]
    have := ih (y := { y with now := y.now + 1 }) hs (by intro d h3; have := hd d h3; simp only; omega)
    rw [Ry.run] at this
    rw [this]
    simp only [Nat.add_assoc, Nat.add_comm 1 n]

/-- The timer is started after the first key exchange already, though it may only fire after the login. If nobody has
logged in for an hour, `assert(authenticated)` fails. -/
theorem C102_unattended_violated (e : RyEnv) (role : Role) (hd : ∀ x, (e.kex.digest x).length = 32) (evs : List RyEvent)
    (hev : ∀ ev ∈ evs, RyOk ev) (hs : ((Ry.init role).run e evs).sys.stop = none)
    (hl : loggedIn ((Ry.init role).run e evs).book = false)
    (hi : hasIn (entriesOf ((Ry.init role).run e evs).book) = true)
    (hx : exchanging (entriesOf ((Ry.init role).run e evs).book) = false) :
    ∃ n, ((Ry.init role).run e evs).now + n = renewed ((Ry.init role).run e evs).book + 3600 ∧
      ((Ry.init role).run e (evs ++ List.replicate n .tick ++ [.timer])).sys.stop = some .assertFailed := by
  have h := RyInv.run (e := e) (role := role) hd hev
  have split : ∀ n, (Ry.init role).run e (evs ++ List.replicate n .tick ++ [.timer]) =
      (((Ry.init role).run e evs).run e (List.replicate n .tick)).step e .timer := by
    intro n
    simp [Ry.run]
  simp only [split]
  generalize (Ry.init role).run e evs = y at *
  unfold RyInv at h
  rw [hs] at h
  obtain ⟨φ, hr, h⟩ := h
  have hin : hasIn y.sys.kx.log = true := by rw [← h.entries]; exact hi
  have ha : y.sys.kx.authenticated = false := h.auth.trans hl
  obtain ⟨d, h1, h2⟩ := h.hour hr.alive hin (by rw [h.idle, ← h.entries, hx]; rfl)
  have h3 := h.past d h1
  have h4 := (h.early ha d h1).1
  have h5 : renewed y.book + 3600 = d := h4.symm
  refine ⟨d - y.now, by omega, ?_⟩
  rw [run_ticks (d - y.now) hs (by intro d' h6; rw [h1] at h6; cases h6; omega)]
  have hn : y.now + (d - y.now) = d := by omega
  rw [hn]
  have hdue : Ry.due { y with now := d } = true := Ry.due_iff.mpr ⟨d, h1, Nat.le_refl _⟩
  unfold Ry.step
  simp only [hs]
  unfold Ry.fire
  rw [hdue]
  have h7 : y.sys.kx.initiateRekey e.kex = (y.sys.kx, some .assertFailed) := by
    unfold Kx.initiateRekey
    simp [ha]
  simp only [cond_true, h7]
  rfl

example : let y := (Ry.init .server).run demoRyEnv (demoServerEvents.map .kx)
    (y.sys.stop.isNone && !loggedIn y.book && hasIn (entriesOf y.book) && !exchanging (entriesOf y.book)) = true := by
  decide +kernel

/-- This is the only way in which an assertion fails: an hour without login after the first key exchange. -/
theorem C102_asserts_partial (e : RyEnv) (role : Role) (hd : ∀ x, (e.kex.digest x).length = 32) (evs : List RyEvent)
    (hev : ∀ ev ∈ evs, RyOk ev) (hs : ((Ry.init role).run e evs).sys.stop = some .assertFailed) :
    loggedIn ((Ry.init role).run e evs).book = false ∧ hasIn (entriesOf ((Ry.init role).run e evs).book) = true ∧
    renewed ((Ry.init role).run e evs).book + 3600 ≤ ((Ry.init role).run e evs).now := by
  have h := RyInv.run (e := e) (role := role) hd hev
  generalize (Ry.init role).run e evs = y at *
  unfold RyInv at h
  rw [hs] at h
  exact h.asserted rfl

example : ∃ evs, ((Ry.init .server).run demoRyEnv evs).sys.stop = some .assertFailed := by
  have hev : ∀ ev ∈ demoServerEvents.map RyEvent.kx, RyOk ev := by
    intro ev hev
    obtain ⟨x, hx, rfl⟩ := List.mem_map.mp hev
    exact eventOk_of (by decide) x hx
  obtain ⟨n, -, hn⟩ := C102_unattended_violated demoRyEnv .server demoEnv_digest (demoServerEvents.map .kx) hev
    (by decide +kernel) (by decide +kernel) (by decide +kernel) (by decide +kernel)
  exact ⟨_, hn⟩

/-- The peer begins a key exchange, and does not finish it. -/
def demoStall : List RyEvent := demoRyLogin ++
  [.tick, .kx (.packet (demoKexInit (ascii "curve25519-sha256") false) .unclaimed), .kx (.packet (30 :: str (List.replicate 32 8)) .unclaimed)]

/-- What can be said of a connection whose peer withholds NEWKEYS. -/
structure Withheld (start : Ry) (n : Nat) (y : Ry) : Prop where
  stop : y.sys.stop = none
  out : y.sys.kx.outputEncrypted = true
  timer : y.timer = none
  idle : y.idle = false
  cipher : ∃ c, y.cipher = some c
  now : y.now = start.now + n
  bytes : n ≤ y.bytes
  book : ∃ b, y.book = start.book ++ b ∧ ∀ m ∈ b, m.2 = .entry (.sent [94])

theorem Withheld.next {start y : Ry} {n : Nat} (h : Withheld start n y) :
    Withheld start (n + 1) (y.run demoRyEnv [.send [94], .tick]) := by
  obtain ⟨h1, h2, h3, h4, ⟨c, h5⟩, h6, h7, b, h8, h9⟩ := h
  have hs : y.sys.sendPlain [94] = ⟨y.sys.kx.emit (.sent [94]), none⟩ := by
    unfold KxSys.sendPlain
    simp only [h1, h2, show isPlain [94] = true from rfl, Bool.and_self, Option.isNone_none, cond_true]
  have e1 : y.step demoRyEnv (.send [94]) = { y.note demoRyEnv (.sent [94]) with sys := ⟨y.sys.kx.emit (.sent [94]), none⟩ } := by
    unfold Ry.step
    simp only [h1, hs]
    unfold Ry.absorb
    have : (y.sys.kx.emit (.sent [94])).log.drop y.sys.kx.log.length = [.sent [94]] := by simp [Kx.emit]
    simp only [this, List.foldl_cons, List.foldl_nil, Option.isNone_none, cond_true]
  have e2 : y.note demoRyEnv (.sent [94]) = { y with idle := false, bytes := y.bytes + 600000000, book := y.book ++ [(y.now, .entry (.sent [94]))] } := by
    unfold Ry.note Ry.effect Ry.sent
    simp only [h4, h5, Bool.false_and, Bool.and_false, cond_false]
    rfl
  rw [e2] at e1
  have e3 : y.run demoRyEnv [.send [94], .tick] = (y.step demoRyEnv (.send [94])).step demoRyEnv .tick := rfl
  rw [e3, e1]
  unfold Ry.step
  simp only
  have hdue : Ry.due { sys := ⟨y.sys.kx.emit (.sent [94]), none⟩, now := y.now, timer := y.timer, cipher := y.cipher,
                       bytes := y.bytes + 600000000, idle := false, book := y.book ++ [(y.now, .entry (.sent [94]))] } = false := by
    unfold Ry.due
    simp only [h3]
  rw [hdue]
  refine ⟨rfl, h2, h3, rfl, ⟨c, h5⟩, ?_, ?_, b ++ [(y.now, .entry (.sent [94]))], ?_, ?_⟩
  · show y.now + 1 = _
    omega
  · show n + 1 ≤ y.bytes + 600000000
    omega
  · show y.book ++ _ = _
    rw [h8, List.append_assoc]
  · intro m hm
    rcases List.mem_append.mp hm with hm | hm
    · exact h9 m hm
    · rw [List.mem_singleton] at hm
      rw [hm]

def demoStalls : Nat → List RyEvent
  | 0 => demoStall
  | n + 1 => demoStalls n ++ [.send [94], .tick]

theorem demoStalls_withheld (n : Nat) :
    Withheld ((Ry.init .server).run demoRyEnv demoStall) n ((Ry.init .server).run demoRyEnv (demoStalls n)) := by
  induction n with
  | zero =>
    refine ⟨by decide +kernel, by decide +kernel, by decide +kernel, by decide +kernel, ?_, (Nat.add_zero _).symm, Nat.zero_le _, [], (List.append_nil _).symm, by simp⟩
    have : ((Ry.init .server).run demoRyEnv demoStall).cipher.isSome = true := by decide +kernel
    exact Option.isSome_iff_exists.mp this
  | succ n ih =>
    have : (Ry.init .server).run demoRyEnv (demoStalls (n + 1)) =
        ((Ry.init .server).run demoRyEnv (demoStalls n)).run demoRyEnv [.send [94], .tick] := by
      simp only [demoStalls, Ry.run, List.foldl_append]
    rw [this]
    exact ih.next

theorem demoStalls_ok (n : Nat) : ∀ ev ∈ demoStalls n, RyOk ev := by
  induction n with
  | zero =>
    intro ev hev
    simp only [demoStalls, demoStall, demoRyLogin, demoServerEvents, List.map_cons, List.map_nil, List.cons_append, List.nil_append,
      List.mem_cons, List.not_mem_nil, or_false] at hev
    rcases hev with rfl | rfl | rfl | rfl | rfl | rfl | rfl | rfl <;> simp [RyOk, EventOk, ClaimOk]
  | succ n ih =>
    intro ev hev
    simp only [demoStalls, List.mem_append, List.mem_cons, List.not_mem_nil, or_false] at hev
    rcases hev with hev | rfl | rfl
    · exact ih ev hev
    · trivial
    · trivial

/-- A peer which never finishes a key exchange prevents every further one: any number of bytes are then sent with the
same keys, for any time. -/
theorem C102_stalled_violated (n : Nat) : ∃ evs, (∀ ev ∈ evs, RyOk ev) ∧
    ∃ a b, ((Ry.init .server).run demoRyEnv evs).book = a ++ b ∧ loggedIn a = true ∧
      (∃ t, (∀ m ∈ a, m.1 ≤ t) ∧ t + n ≤ ((Ry.init .server).run demoRyEnv evs).now) ∧
      (∀ m ∈ b, m.2 = .entry (.sent [94])) ∧
      n ≤ volume demoRyEnv.size (entriesOf ((Ry.init .server).run demoRyEnv evs).book) ∧
      ((Ry.init .server).run demoRyEnv evs).sys.stop = none := by
  have h := demoStalls_withheld n
  obtain ⟨b, hb, hm⟩ := h.book
  refine ⟨demoStalls n, demoStalls_ok n, _, b, hb, by decide +kernel, ⟨((Ry.init .server).run demoRyEnv demoStall).now, ?_, Nat.le_of_eq h.now.symm⟩, hm, ?_, h.stop⟩
  · intro m hma
    have : ((Ry.init .server).run demoRyEnv demoStall).book.all (fun m => decide (m.1 ≤ ((Ry.init .server).run demoRyEnv demoStall).now)) = true := by
      decide +kernel
    exact of_decide_eq_true (List.all_eq_true.mp this m hma)
  · rw [(C102_history demoRyEnv .server demoEnv_digest (demoStalls n) (demoStalls_ok n) h.stop).2]
    exact h.bytes

end Lukko
