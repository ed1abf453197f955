import Verif.Prop.Auth
import Verif.Proof.Prices
/-
  C101: what failed logins cost.
-/
namespace Lukko
open Spec Model

/-- **C101.** Whatever is done with a connection: the client is charged at least what the price list says about every
request which was not answered with "success". -/
theorem C101_prices (cfg : AuthCfg) (price : Bytes → Nat) (h : Listed cfg.world price) (evs : List AuthEv) :
    owed price (Auth.run cfg {} evs).log ≤ paid (Auth.tallies cfg {} evs) := price_all h evs

theorem str_append_inj {a b x y : Bytes} (h : str a ++ x = str b ++ y) (hl : (str b ++ y).length < 2 ^ 32) : a = b ∧ x = y := by
  have h1 : a.length < 2 ^ 32 := by
    rw [← h] at hl
    simp [str, u32] at hl
    omega
  have h2 : b.length < 2 ^ 32 := by
    simp [str, u32] at hl
    omega
  have h3 := readString_reads h1 x
  rw [h, show readString (str b ++ y) = some (b, y) from readString_reads h2 y] at h3
  simp only [Option.some.injEq, Prod.mk.injEq] at h3
  exact ⟨h3.1.symm, h3.2.symm⟩

theorem anyAuthRequest_inj {u s m r u' s' m' r' : Bytes} (h : anyAuthRequest u s m r = anyAuthRequest u' s' m' r')
    (hl : (anyAuthRequest u' s' m' r').length < 2 ^ 32) : u = u' ∧ s = s' ∧ m = m' ∧ r = r' := by
  have h1 := str_append_inj h hl
  have hl2 : (str s' ++ (str m' ++ r')).length < 2 ^ 32 := by
    simp only [anyAuthRequest, List.length_append] at hl ⊢; omega
  have h2 := str_append_inj h1.2 hl2
  have hl3 : (str m' ++ r').length < 2 ^ 32 := by
    simp only [List.length_append] at hl2 ⊢; omega
  have h3 := str_append_inj h2.2 hl3
  exact ⟨h1.1, h2.1, h3.1, h3.2⟩

/-- A wrong password. -/
def demoGuess : Bytes := anyAuthRequest (ascii "joe") (ascii "ssh-connection") (ascii "password") (0 :: str (ascii "secret"))

/-- Only this one costs anything. -/
def demoPrice (p : Bytes) : Nat := if p = demoGuess then 9000000000 else 0

theorem demoPrice_listed : Listed demoAuth.world demoPrice := by
  intro p n h
  unfold demoPrice
  by_cases hp : p = demoGuess
  · rw [if_pos hp]
    have hl : demoGuess.length < 2 ^ 32 := by decide +kernel
    have key := fun {u s m r} (h : anyAuthRequest u s m r = demoGuess) => anyAuthRequest_inj (u := u) (s := s) (m := m) (r := r) h hl
    cases h with
    | service h => exact absurd (key hp).2.1 h
    | user h1 _ => cases h1
    | key => exact absurd (key hp).2.2.1 (by decide)
    | none => exact absurd (key hp).2.2.1 (by decide)
    | host h => exact absurd (key hp).2.2.1 (by decide)
    | unknownHost h => exact absurd (key hp).2.2.1 (by decide)
    | change _ hb =>
      have := (key hp).2.2.2
      simp only [List.cons.injEq] at this
      exact absurd this.1 hb
    | empty =>
      have := (key hp).2.2.2
      simp only [List.cons.injEq, true_and] at this
      exact absurd this (by decide)
    | password => exact Nat.le_refl _
    | noPassword h => cases h
    | other _ _ _ h => exact absurd (key hp).2.2.1 h
  · rw [if_neg hp]; exact Nat.zero_le _

example : Listed demoAuth.world demoPrice ∧
    owed demoPrice (Auth.run demoAuth {} (demoGreeting ++ [demoPassword, .translated (some { ok := false }), .timer])).log = 9000000000 ∧
    paid (Auth.tallies demoAuth {} (demoGreeting ++ [demoPassword, .translated (some { ok := false }), .timer])) = 9000000000 :=
  ⟨demoPrice_listed, by decide +kernel⟩

/-- Illegal user names are expensive, too, although the client gets no answer. -/
example : paid (Auth.tallies demoAuth {} (demoGreeting ++ [.packet 50 (authRequest (ascii "../joe") (ascii "none") []) false])) =
    10000000000 := by decide +kernel

/-- Every wrong password is counted as a failed login with a password. -/
theorem C101_counted (cfg : AuthCfg) (evs : List AuthEv) :
    wrongPasswords (Auth.run cfg {} evs).log ≤ counted .passwordFailed (Auth.tallies cfg {} evs) := by
  have := wrong_run (cfg := cfg) evs (y := {}) (inv_init cfg)
  simpa [show wrongPasswords ({} : Auth).log = 0 from rfl] using this

example : wrongPasswords (Auth.run demoAuth {} (demoGreeting ++ [demoPassword, .translated (some { ok := false }), .timer])).log = 1 := by
  decide +kernel

end Lukko
