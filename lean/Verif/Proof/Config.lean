import Verif.Model.Config
import Verif.Proof.Lists
/-
  Proofs for C77.
-/
set_option linter.unusedSimpArgs false
set_option linter.unusedVariables false

namespace Lukko
open Model Spec

section
variable {α β ε : Type}

theorem ex_bind {x : Except ε α} {f : α → Except ε β} {b : β} : (x >>= f) = .ok b ↔ ∃ a, x = .ok a ∧ f a = .ok b := by
  cases x <;> simp [bind, Except.bind]

theorem ex_map {x : Except ε α} {f : α → β} {b : β} : x.map f = .ok b ↔ ∃ a, x = .ok a ∧ f a = b := by
  cases x <;> simp [Except.map]

theorem ex_pure {a b : α} : (pure a : Except ε α) = .ok b ↔ a = b := by simp [pure, Except.pure]

theorem cfgNeed_ok {x : CfgError} {o : Option α} {a : α} : cfgNeed x o = .ok a ↔ o = some a := by
  cases o <;> simp [cfgNeed]
end

variable {K : Type} {e : CfgEnv K} {decode : Bytes → Option Bytes}

theorem expectBool_ok {args b} : expectBool args = .ok b ↔ cfgBool args = some b := cfgNeed_ok
theorem expectValue_ok {args v} : expectValue args = .ok v ↔ cfgValue args = some v := cfgNeed_ok

theorem expectPositive_ok {args n} : expectPositive e args = .ok n ↔ (cfgValue args).bind e.positive = some n := by
  simp [expectPositive, ex_bind, cfgNeed_ok, expectValue_ok, Option.bind_eq_some_iff]

theorem expectAddr_ok {args p w a} : expectAddr e p w args = .ok a ↔ (cfgValue args).bind (e.addr · p w) = some a := by
  simp [expectAddr, ex_bind, cfgNeed_ok, expectValue_ok, Option.bind_eq_some_iff]

theorem expectFile_ok {args f} : expectFile e args = .ok f ↔ (cfgValue args).bind (e.file <| e.path ·) = some f := by
  simp [expectFile, ex_bind, cfgNeed_ok, expectValue_ok, Option.bind_eq_some_iff]

theorem expectMode_ok {args n} : expectMode e args = .ok n ↔ (cfgValue args).bind e.octal = some n ∧ n < 0o1000 := by
  simp only [expectMode, ex_bind, cfgNeed_ok, expectValue_ok, Option.bind_eq_some_iff]
  constructor
  · rintro ⟨v, hv, m, hm, h⟩
    split at h
    · cases h
    · cases h; exact ⟨⟨v, hv, hm⟩, by omega⟩
  · rintro ⟨⟨v, hv, hm⟩, h⟩
    exact ⟨v, hv, n, hm, by rw [if_neg (by omega)]⟩

/-! ### A line more -/

variable {b : List CfgLine} {w : Bytes} {args : List CfgToken}

theorem cfgArgs_snoc (n : String) : cfgArgs n (b ++ [.word w :: args]) = cfgArgs n b ++ if w = ascii n then [args] else [] := by
  simp only [cfgArgs, List.filterMap_append, List.filterMap_cons, List.filterMap_nil]
  split <;> simp_all

theorem cfgLast_snoc (n : String) :
    cfgLast n (b ++ [.word w :: args]) = if w = ascii n then cfgValue args else cfgLast n b := by
  rw [cfgLast, cfgArgs_snoc]
  split <;> simp [cfgLast]

theorem cfgFlag_snoc (n : String) (d : Bool) :
    cfgFlag n d (b ++ [.word w :: args]) = if w = ascii n then (cfgBool args).getD d else cfgFlag n d b := by
  rw [cfgFlag, cfgArgs_snoc]
  split <;> simp [cfgFlag]

theorem cfgValues_snoc (n : String) :
    cfgValues n (b ++ [.word w :: args]) = cfgValues n b ++ if w = ascii n then (cfgValue args).toList else [] := by
  rw [cfgValues, cfgArgs_snoc]
  split
  · simp only [List.filterMap_append, List.filterMap_cons, List.filterMap_nil, cfgValues]
    cases cfgValue args <;> simp
  · simp [cfgValues]

theorem keyFiles_snoc (n : String) :
    keyFiles e n (b ++ [.word w :: args]) =
      keyFiles e n b ++ if w = ascii n then ((cfgValue args).bind (e.file <| e.path ·)).toList else [] := by
  rw [keyFiles, cfgValues_snoc]
  split
  · simp only [List.filterMap_append, keyFiles]
    cases cfgValue args with
    | none => simp
    | some v => cases h : e.file (e.path v) <;> simp [h]
  · simp [keyFiles]

theorem zeroconfOf_snoc (names : List String) :
    zeroconfOf names (b ++ [.word w :: args]) =
      zeroconfOf names b ++ ((names.find? (w = ascii ·)).bind fun n => (cfgValue args).map (n, ·)).toList := by
  simp only [zeroconfOf, List.filterMap_append, List.filterMap_cons, List.filterMap_nil]
  split <;> simp_all

theorem targetOf_snoc :
    targetOf (b ++ [.word w :: args]) =
      (if w = ascii "proxy_to" then (cfgValue args).map .host
      else if w = ascii "proxy_to_zeroconf" then (cfgValue args).map .cluster else none).or (targetOf b) := by
  simp only [targetOf, List.filterMap_append, List.filterMap_cons, List.filterMap_nil]
  split
  · rename_i h; simp [h]
  · rename_i h; simp [h]

/-! ### The sections -/

/-- The settings of a listener as the code has them. -/
def listenerOf' (e : CfgEnv K) (decode : Bytes → Option Bytes) (b : List CfgLine) : ListenerCfg K :=
  { listenerOf e (loadFile decode) [] b with ackTimeout := (listenerOf e (loadFile decode) [] b).ackTimeout % 2 ^ 32 }

theorem parseZeroconf_none {names} : parseZeroconf e names w args = none ↔ names.find? (w = ascii ·) = none := by
  unfold parseZeroconf; split <;> simp_all

theorem listenerLine_value {data : CfgData K} {c' : ListenerCfg K}
    (h : listenerLine e decode data (listenerOf' e decode b) w args = .ok c') :
    c' = listenerOf' e decode (b ++ [.word w :: args]) := by
  unfold listenerLine at h
  by_cases h1 : w = ascii "bind"
  · subst h1
    rw [if_pos rfl] at h
    simp only [ex_bind, expectAddr_ok, ex_pure] at h
    obtain ⟨a, ha, rfl⟩ := h
    obtain ⟨v, hv, hf⟩ := Option.bind_eq_some_iff.mp ha
    simp (decide := true) [listenerOf', listenerOf, cfgLast_snoc, cfgFlag_snoc, keyFiles_snoc, zeroconfOf_snoc, targetOf_snoc, listenerZeroconf, hv, hf]
  rw [if_neg h1] at h
  by_cases h2 : w = ascii "interface"
  · subst h2
    rw [if_pos rfl] at h
    simp only [ex_bind, expectValue_ok, ex_pure] at h
    obtain ⟨a, ha, rfl⟩ := h
    simp (decide := true) [listenerOf', listenerOf, cfgLast_snoc, cfgFlag_snoc, keyFiles_snoc, zeroconfOf_snoc, targetOf_snoc, listenerZeroconf, ha]
  rw [if_neg h2] at h
  by_cases h3 : w = ascii "mode"
  · subst h3
    rw [if_pos rfl] at h
    split at h
    · cases h
    · simp only [ex_bind, expectMode_ok, ex_pure] at h
      obtain ⟨a, ha, rfl⟩ := h
      obtain ⟨v, hv, ho⟩ := Option.bind_eq_some_iff.mp ha.1
      simp (decide := true) [listenerOf', listenerOf, cfgLast_snoc, cfgFlag_snoc, keyFiles_snoc, zeroconfOf_snoc, targetOf_snoc, listenerZeroconf, hv, ho]
  rw [if_neg h3] at h
  by_cases h4 : w = ascii "mptcp"
  · subst h4
    rw [if_pos rfl] at h
    simp only [ex_bind, expectBool_ok, ex_pure] at h
    obtain ⟨a, ha, rfl⟩ := h
    simp (decide := true) [listenerOf', listenerOf, cfgLast_snoc, cfgFlag_snoc, keyFiles_snoc, zeroconfOf_snoc, targetOf_snoc, listenerZeroconf, ha]
  rw [if_neg h4] at h
  by_cases h5 : w = ascii "ack_timeout"
  · subst h5
    rw [if_pos rfl] at h
    simp only [ex_bind, expectPositive_ok, ex_pure] at h
    obtain ⟨a, ha, rfl⟩ := h
    obtain ⟨v, hv, hf⟩ := Option.bind_eq_some_iff.mp ha
    simp (decide := true) [listenerOf', listenerOf, cfgLast_snoc, cfgFlag_snoc, keyFiles_snoc, zeroconfOf_snoc, targetOf_snoc, listenerZeroconf, hv, hf]
  rw [if_neg h5] at h
  by_cases h6 : w = ascii "keepalive"
  · subst h6
    rw [if_pos rfl] at h
    simp only [ex_bind, expectBool_ok, ex_pure] at h
    obtain ⟨a, ha, rfl⟩ := h
    simp (decide := true) [listenerOf', listenerOf, cfgLast_snoc, cfgFlag_snoc, keyFiles_snoc, zeroconfOf_snoc, targetOf_snoc, listenerZeroconf, ha]
  rw [if_neg h6] at h
  by_cases h7 : w = ascii "v6only"
  · subst h7
    rw [if_pos rfl] at h
    simp only [ex_bind, expectBool_ok, ex_pure] at h
    obtain ⟨a, ha, rfl⟩ := h
    simp (decide := true) [listenerOf', listenerOf, cfgLast_snoc, cfgFlag_snoc, keyFiles_snoc, zeroconfOf_snoc, targetOf_snoc, listenerZeroconf, ha]
  rw [if_neg h7] at h
  by_cases h8 : w = ascii "reuse_port"
  · subst h8
    rw [if_pos rfl] at h
    simp only [ex_bind, expectBool_ok, ex_pure] at h
    obtain ⟨a, ha, rfl⟩ := h
    simp (decide := true) [listenerOf', listenerOf, cfgLast_snoc, cfgFlag_snoc, keyFiles_snoc, zeroconfOf_snoc, targetOf_snoc, listenerZeroconf, ha]
  rw [if_neg h8] at h
  cases hz : parseZeroconf e listenerZeroconf w args with
  | some r =>
    have hz' := hz
    unfold parseZeroconf at hz'
    split at hz'
    · cases hz'
    · rename_i n hn
      have hw : w = ascii n := by simpa using List.find?_some hn
      have hm := List.mem_of_find?_eq_some hn
      cases hz'
      simp only [hz] at h
      subst hw
      simp only [listenerZeroconf, List.mem_cons, List.not_mem_nil, or_false] at hm
      simp only [ex_bind, ex_pure] at h
      obtain ⟨z, hz', h⟩ := h
      obtain ⟨v, hv, h'⟩ := hz'
      rw [expectValue_ok] at hv
      split at h'
      · cases h'
        subst h
        rcases hm with rfl | rfl | rfl | rfl | rfl <;> simp (decide := true) [listenerOf', listenerOf, cfgLast_snoc, cfgFlag_snoc, keyFiles_snoc, zeroconfOf_snoc, targetOf_snoc, listenerZeroconf, hv]
      · cases h'

  | none =>
  rw [parseZeroconf_none] at hz
  simp only [parseZeroconf, hz] at h
  by_cases h9 : w = ascii "tag"
  · subst h9
    rw [if_pos rfl] at h
    simp only [ex_bind, expectValue_ok] at h
    obtain ⟨a, ha, h⟩ := h
    split at h
    · cases h
    · rw [ex_pure] at h
      subst h
      simp (decide := true) [listenerOf', listenerOf, cfgLast_snoc, cfgFlag_snoc, keyFiles_snoc, zeroconfOf_snoc, targetOf_snoc, listenerZeroconf, ha]
  rw [if_neg h9] at h
  by_cases h10 : w = ascii "host_key_file"
  · subst h10
    rw [if_pos rfl] at h
    simp only [ex_bind, expectFile_ok, cfgNeed_ok, ex_pure] at h
    obtain ⟨a, ha, k, hk, rfl⟩ := h
    obtain ⟨v, hv, hf⟩ := Option.bind_eq_some_iff.mp ha
    simp (decide := true) [listenerOf', listenerOf, cfgLast_snoc, cfgFlag_snoc, keyFiles_snoc, zeroconfOf_snoc, targetOf_snoc, listenerZeroconf, hv, hf, hk]
  rw [if_neg h10] at h
  by_cases h11 : w = ascii "authorized_host_key_file"
  · subst h11
    rw [if_pos rfl] at h
    simp only [ex_bind, expectFile_ok, ex_pure] at h
    obtain ⟨a, ha, rfl⟩ := h
    obtain ⟨v, hv, hf⟩ := Option.bind_eq_some_iff.mp ha
    simp (decide := true) [listenerOf', listenerOf, cfgLast_snoc, cfgFlag_snoc, keyFiles_snoc, zeroconfOf_snoc, targetOf_snoc, listenerZeroconf, hv, hf]
  rw [if_neg h11] at h
  by_cases h12 : w = ascii "proxy_to"
  · subst h12
    rw [if_pos rfl] at h
    split at h
    · cases h
    · rename_i hp
      simp only [ex_bind, expectValue_ok] at h
      obtain ⟨a, ha, h⟩ := h
      split at h
      · rw [ex_pure] at h
        subst h
        simp (decide := true) [listenerOf', listenerOf, cfgLast_snoc, cfgFlag_snoc, keyFiles_snoc, zeroconfOf_snoc, targetOf_snoc, listenerZeroconf, ha]
      · cases h
  rw [if_neg h12] at h
  by_cases h13 : w = ascii "proxy_to_zeroconf"
  · subst h13
    rw [if_pos rfl] at h
    split at h
    · cases h
    · rename_i hp
      simp only [ex_bind, expectValue_ok] at h
      obtain ⟨a, ha, h⟩ := h
      split at h
      · rw [ex_pure] at h
        subst h
        simp (decide := true) [listenerOf', listenerOf, cfgLast_snoc, cfgFlag_snoc, keyFiles_snoc, zeroconfOf_snoc, targetOf_snoc, listenerZeroconf, ha]
      · cases h
  rw [if_neg h13] at h
  by_cases h14 : w = ascii "max_connections_per_ip"
  · subst h14
    rw [if_pos rfl] at h
    simp only [ex_bind, expectPositive_ok, ex_pure] at h
    obtain ⟨a, ha, rfl⟩ := h
    obtain ⟨v, hv, hf⟩ := Option.bind_eq_some_iff.mp ha
    simp (decide := true) [listenerOf', listenerOf, cfgLast_snoc, cfgFlag_snoc, keyFiles_snoc, zeroconfOf_snoc, targetOf_snoc, listenerZeroconf, hv, hf]
  rw [if_neg h14] at h
  by_cases h15 : w = ascii "tarpit"
  · subst h15
    rw [if_pos rfl] at h
    simp only [ex_bind, expectBool_ok, ex_pure] at h
    obtain ⟨a, ha, rfl⟩ := h
    simp (decide := true) [listenerOf', listenerOf, cfgLast_snoc, cfgFlag_snoc, keyFiles_snoc, zeroconfOf_snoc, targetOf_snoc, listenerZeroconf, ha]
  rw [if_neg h15] at h
  by_cases h16 : w = ascii "verbose_errors"
  · subst h16
    rw [if_pos rfl] at h
    simp only [ex_bind, expectBool_ok, ex_pure] at h
    obtain ⟨a, ha, rfl⟩ := h
    simp (decide := true) [listenerOf', listenerOf, cfgLast_snoc, cfgFlag_snoc, keyFiles_snoc, zeroconfOf_snoc, targetOf_snoc, listenerZeroconf, ha]
  rw [if_neg h16] at h
  by_cases h17 : w = ascii "exec_reject_stderr"
  · subst h17
    rw [if_pos rfl] at h
    simp only [ex_bind, expectBool_ok, ex_pure] at h
    obtain ⟨a, ha, rfl⟩ := h
    simp (decide := true) [listenerOf', listenerOf, cfgLast_snoc, cfgFlag_snoc, keyFiles_snoc, zeroconfOf_snoc, targetOf_snoc, listenerZeroconf, ha]
  rw [if_neg h17] at h
  by_cases h18 : w = ascii "accept_client_address"
  · subst h18
    rw [if_pos rfl] at h
    simp only [ex_bind, expectBool_ok, ex_pure] at h
    obtain ⟨a, ha, rfl⟩ := h
    simp (decide := true) [listenerOf', listenerOf, cfgLast_snoc, cfgFlag_snoc, keyFiles_snoc, zeroconfOf_snoc, targetOf_snoc, listenerZeroconf, ha]
  rw [if_neg h18] at h
  by_cases h19 : w = ascii "proxy_skip_our_own"
  · subst h19
    rw [if_pos rfl] at h
    simp only [ex_bind, expectBool_ok, ex_pure] at h
    obtain ⟨a, ha, rfl⟩ := h
    simp (decide := true) [listenerOf', listenerOf, cfgLast_snoc, cfgFlag_snoc, keyFiles_snoc, zeroconfOf_snoc, targetOf_snoc, listenerZeroconf, ha]
  rw [if_neg h19] at h
  by_cases h20 : w = ascii "pond_server"
  · subst h20
    rw [if_pos rfl] at h
    simp only [ex_bind, expectAddr_ok, ex_pure] at h
    obtain ⟨a, ha, rfl⟩ := h
    obtain ⟨v, hv, hf⟩ := Option.bind_eq_some_iff.mp ha
    simp (decide := true) [listenerOf', listenerOf, cfgLast_snoc, cfgFlag_snoc, keyFiles_snoc, zeroconfOf_snoc, targetOf_snoc, listenerZeroconf, hv, hf]
  rw [if_neg h20] at h
  cases h

theorem listed_iff {table : List (String × CfgKind)} :
    CfgListed e table (.word w :: args) ↔ table.any (fun x => decide (w = ascii x.1) && x.2.fits e args) = true := by
  simp only [CfgListed, List.any_eq_true, Bool.and_eq_true, decide_eq_true_eq]
  constructor
  · rintro ⟨n, k, a, hm, hl, hf⟩
    cases hl
    exact ⟨_, hm, rfl, hf⟩
  · rintro ⟨x, hm, rfl, hf⟩
    exact ⟨_, _, _, hm, rfl, hf⟩

theorem ex_ex {α β : Type} {p : α → Prop} {f : α → β} : (∃ c, ∃ a, p a ∧ f a = c) ↔ ∃ a, p a :=
  ⟨fun ⟨_, a, h, _⟩ => ⟨a, h⟩, fun ⟨a, h⟩ => ⟨_, a, h, rfl⟩⟩

/-- When a line of a listener section is accepted. -/
def ListenerLineOk (e : CfgEnv K) (data : CfgData K) (c : ListenerCfg K) (w : Bytes) (args : List CfgToken) : Prop :=
  CfgListed e listenerTable (.word w :: args) ∧ (w = ascii "mode" → notLocal c.bind = false) ∧
  (w = ascii "tag" → ∀ v, cfgValue args = some v → v.length ≤ 256) ∧
  (w = ascii "proxy_to" → c.proxyTo = none ∧ ∀ v, cfgValue args = some v → data.targets.any (·.1 == v) = true) ∧
  (w = ascii "proxy_to_zeroconf" → c.proxyTo = none ∧ ∀ v, cfgValue args = some v → data.clusters.any (·.1 == v) = true)

set_option maxHeartbeats 1000000 in
theorem listenerLine_ok {data : CfgData K} {c : ListenerCfg K} :
    (∃ c', listenerLine e decode data c w args = .ok c') ↔ ListenerLineOk e data c w args := by
  unfold listenerLine
  by_cases h1 : w = ascii "bind"
  · subst h1
    rw [if_pos rfl]
    simp only [ex_bind, ex_pure, expectAddr_ok, ex_ex]
    simp (decide := true) [ListenerLineOk, listed_iff, listenerTable, CfgKind.fits, ex_bind, ex_pure, Option.isSome_iff_exists]
  rw [if_neg h1]
  by_cases h2 : w = ascii "interface"
  · subst h2
    rw [if_pos rfl]
    simp only [ex_bind, ex_pure, expectValue_ok, ex_ex]
    simp (decide := true) [ListenerLineOk, listed_iff, listenerTable, CfgKind.fits, ex_bind, ex_pure, Option.isSome_iff_exists]
  rw [if_neg h2]
  by_cases h3 : w = ascii "mode"
  · subst h3
    rw [if_pos rfl]
    cases hb : notLocal c.bind
    · simp only [ex_bind, ex_pure, expectMode_ok, ex_ex, Bool.false_eq_true, if_false]
      simp (decide := true) [ListenerLineOk, listed_iff, listenerTable, CfgKind.fits, ex_bind, ex_pure, Option.isSome_iff_exists, hb, Option.any_eq_true]
    · simp (decide := true) [ListenerLineOk, listed_iff, listenerTable, CfgKind.fits, ex_bind, ex_pure, Option.isSome_iff_exists, hb]
  rw [if_neg h3]
  by_cases h4 : w = ascii "mptcp"
  · subst h4
    rw [if_pos rfl]
    simp only [ex_bind, ex_pure, expectBool_ok, ex_ex]
    simp (decide := true) [ListenerLineOk, listed_iff, listenerTable, CfgKind.fits, ex_bind, ex_pure, Option.isSome_iff_exists]
  rw [if_neg h4]
  by_cases h5 : w = ascii "ack_timeout"
  · subst h5
    rw [if_pos rfl]
    simp only [ex_bind, ex_pure, expectPositive_ok, ex_ex]
    simp (decide := true) [ListenerLineOk, listed_iff, listenerTable, CfgKind.fits, ex_bind, ex_pure, Option.isSome_iff_exists]
  rw [if_neg h5]
  by_cases h6 : w = ascii "keepalive"
  · subst h6
    rw [if_pos rfl]
    simp only [ex_bind, ex_pure, expectBool_ok, ex_ex]
    simp (decide := true) [ListenerLineOk, listed_iff, listenerTable, CfgKind.fits, ex_bind, ex_pure, Option.isSome_iff_exists]
  rw [if_neg h6]
  by_cases h7 : w = ascii "v6only"
  · subst h7
    rw [if_pos rfl]
    simp only [ex_bind, ex_pure, expectBool_ok, ex_ex]
    simp (decide := true) [ListenerLineOk, listed_iff, listenerTable, CfgKind.fits, ex_bind, ex_pure, Option.isSome_iff_exists]
  rw [if_neg h7]
  by_cases h8 : w = ascii "reuse_port"
  · subst h8
    rw [if_pos rfl]
    simp only [ex_bind, ex_pure, expectBool_ok, ex_ex]
    simp (decide := true) [ListenerLineOk, listed_iff, listenerTable, CfgKind.fits, ex_bind, ex_pure, Option.isSome_iff_exists]
  rw [if_neg h8]
  cases hz : parseZeroconf e listenerZeroconf w args with
  | some r =>
    have hz' := hz
    unfold parseZeroconf at hz'
    split at hz'
    · cases hz'
    · rename_i n hn
      have hw : w = ascii n := by simpa using List.find?_some hn
      have hm := List.mem_of_find?_eq_some hn
      cases hz'
      simp only [hz]
      subst hw
      simp only [listenerZeroconf, List.mem_cons, List.not_mem_nil, or_false] at hm
      rcases hm with rfl | rfl | rfl | rfl | rfl <;>
        (cases hv : cfgValue args with
        | none => simp (decide := true) [ListenerLineOk, listed_iff, listenerTable, CfgKind.fits, ex_bind, ex_pure, Option.isSome_iff_exists, expectValue_ok, hv, -bind_pure_comp]
        | some v =>
          simp (decide := true) [ListenerLineOk, listed_iff, listenerTable, CfgKind.fits, ex_bind, ex_pure, Option.isSome_iff_exists, expectValue_ok, hv, -bind_pure_comp]
          split <;> simp_all <;> exact ⟨_, _, _, ⟨rfl, rfl⟩, rfl⟩)
  | none =>
  rw [parseZeroconf_none] at hz
  simp only [parseZeroconf, hz]
  by_cases h9 : w = ascii "tag"
  · subst h9
    rw [if_pos rfl]
    cases hv : cfgValue args with
    | none => simp (decide := true) [ListenerLineOk, listed_iff, listenerTable, CfgKind.fits, ex_bind, ex_pure, Option.isSome_iff_exists, expectValue_ok, hv, -bind_pure_comp]
    | some v =>
      by_cases hl : v.length > 256
      · simp (decide := true) [ListenerLineOk, listed_iff, listenerTable, CfgKind.fits, ex_bind, ex_pure, Option.isSome_iff_exists, expectValue_ok, hv, hl, -bind_pure_comp]
      · simp (decide := true) [ListenerLineOk, listed_iff, listenerTable, CfgKind.fits, ex_bind, ex_pure, Option.isSome_iff_exists, expectValue_ok, hv, hl, -bind_pure_comp]; omega
  rw [if_neg h9]
  by_cases h10 : w = ascii "host_key_file"
  · subst h10
    rw [if_pos rfl]
    simp only [ex_bind, ex_pure, expectFile_ok, cfgNeed_ok]
    cases hv : (cfgValue args).bind (e.file <| e.path ·) with
    | none => simp (decide := true) [ListenerLineOk, listed_iff, listenerTable, CfgKind.fits, ex_bind, ex_pure, Option.isSome_iff_exists, hv]
    | some f => simp (decide := true) [ListenerLineOk, listed_iff, listenerTable, CfgKind.fits, ex_bind, ex_pure, Option.isSome_iff_exists, ex_ex, hv]
  rw [if_neg h10]
  by_cases h11 : w = ascii "authorized_host_key_file"
  · subst h11
    rw [if_pos rfl]
    simp only [ex_bind, ex_pure, expectFile_ok, ex_ex]
    simp (decide := true) [ListenerLineOk, listed_iff, listenerTable, CfgKind.fits, ex_bind, ex_pure, Option.isSome_iff_exists]
  rw [if_neg h11]
  by_cases h12 : w = ascii "proxy_to"
  · subst h12
    rw [if_pos rfl]
    cases hb : c.proxyTo with
    | some t => simp (decide := true) [ListenerLineOk, hb]
    | none =>
      cases hv : cfgValue args with
      | none => simp (decide := true) [ListenerLineOk, listed_iff, listenerTable, CfgKind.fits, ex_bind, ex_pure, Option.isSome_iff_exists, expectValue_ok, hb, hv, -bind_pure_comp]
      | some v => cases hd : data.targets.any (·.1 == v) <;> simp (decide := true) [ListenerLineOk, listed_iff, listenerTable, CfgKind.fits, ex_bind, ex_pure, Option.isSome_iff_exists, expectValue_ok, hb, hv, hd, -bind_pure_comp, -List.any_eq_true, -List.any_eq_false]
  rw [if_neg h12]
  by_cases h13 : w = ascii "proxy_to_zeroconf"
  · subst h13
    rw [if_pos rfl]
    cases hb : c.proxyTo with
    | some t => simp (decide := true) [ListenerLineOk, hb]
    | none =>
      cases hv : cfgValue args with
      | none => simp (decide := true) [ListenerLineOk, listed_iff, listenerTable, CfgKind.fits, ex_bind, ex_pure, Option.isSome_iff_exists, expectValue_ok, hb, hv, -bind_pure_comp]
      | some v => cases hd : data.clusters.any (·.1 == v) <;> simp (decide := true) [ListenerLineOk, listed_iff, listenerTable, CfgKind.fits, ex_bind, ex_pure, Option.isSome_iff_exists, expectValue_ok, hb, hv, hd, -bind_pure_comp, -List.any_eq_true, -List.any_eq_false]
  rw [if_neg h13]
  by_cases h14 : w = ascii "max_connections_per_ip"
  · subst h14
    rw [if_pos rfl]
    simp only [ex_bind, ex_pure, expectPositive_ok, ex_ex]
    simp (decide := true) [ListenerLineOk, listed_iff, listenerTable, CfgKind.fits, ex_bind, ex_pure, Option.isSome_iff_exists]
  rw [if_neg h14]
  by_cases h15 : w = ascii "tarpit"
  · subst h15
    rw [if_pos rfl]
    simp only [ex_bind, ex_pure, expectBool_ok, ex_ex]
    simp (decide := true) [ListenerLineOk, listed_iff, listenerTable, CfgKind.fits, ex_bind, ex_pure, Option.isSome_iff_exists]
  rw [if_neg h15]
  by_cases h16 : w = ascii "verbose_errors"
  · subst h16
    rw [if_pos rfl]
    simp only [ex_bind, ex_pure, expectBool_ok, ex_ex]
    simp (decide := true) [ListenerLineOk, listed_iff, listenerTable, CfgKind.fits, ex_bind, ex_pure, Option.isSome_iff_exists]
  rw [if_neg h16]
  by_cases h17 : w = ascii "exec_reject_stderr"
  · subst h17
    rw [if_pos rfl]
    simp only [ex_bind, ex_pure, expectBool_ok, ex_ex]
    simp (decide := true) [ListenerLineOk, listed_iff, listenerTable, CfgKind.fits, ex_bind, ex_pure, Option.isSome_iff_exists]
  rw [if_neg h17]
  by_cases h18 : w = ascii "accept_client_address"
  · subst h18
    rw [if_pos rfl]
    simp only [ex_bind, ex_pure, expectBool_ok, ex_ex]
    simp (decide := true) [ListenerLineOk, listed_iff, listenerTable, CfgKind.fits, ex_bind, ex_pure, Option.isSome_iff_exists]
  rw [if_neg h18]
  by_cases h19 : w = ascii "proxy_skip_our_own"
  · subst h19
    rw [if_pos rfl]
    simp only [ex_bind, ex_pure, expectBool_ok, ex_ex]
    simp (decide := true) [ListenerLineOk, listed_iff, listenerTable, CfgKind.fits, ex_bind, ex_pure, Option.isSome_iff_exists]
  rw [if_neg h19]
  by_cases h20 : w = ascii "pond_server"
  · subst h20
    rw [if_pos rfl]
    simp only [ex_bind, ex_pure, expectAddr_ok, ex_ex]
    simp (decide := true) [ListenerLineOk, listed_iff, listenerTable, CfgKind.fits, ex_bind, ex_pure, Option.isSome_iff_exists]
  rw [if_neg h20]
  have hz5 : ∀ n ∈ listenerZeroconf, w ≠ ascii n := by
    intro n hn
    have := List.find?_eq_none.mp hz n hn
    simpa using this
  simp only [listenerZeroconf, List.mem_cons, List.not_mem_nil, or_false, forall_eq_or_imp, forall_eq] at hz5
  simp [ListenerLineOk, listed_iff, listenerTable, hz5, h1, h2, h3, h4, h5, h6, h7, h8, h9, h10, h11, h12, h13, h14, h15, h16, h17, h18, h19, h20]

theorem clusterLine_value {c'} (h : clusterLine e decode (clusterOf e (loadFile decode) [] b) w args = .ok c') : c' = clusterOf e (loadFile decode) [] (b ++ [.word w :: args]) := by
  unfold clusterLine at h
  cases hz : parseZeroconf e clusterZeroconf w args with
  | some r =>
    have hz' := hz
    unfold parseZeroconf at hz'
    split at hz'
    · cases hz'
    · rename_i n hn
      have hw : w = ascii n := by simpa using List.find?_some hn
      have hm := List.mem_of_find?_eq_some hn
      cases hz'
      simp only [hz] at h
      subst hw
      simp only [clusterZeroconf, List.mem_cons, List.not_mem_nil, or_false] at hm
      simp only [ex_bind, ex_pure] at h
      obtain ⟨z, hz', h⟩ := h
      obtain ⟨v, hv, h'⟩ := hz'
      rw [expectValue_ok] at hv
      split at h'
      · cases h'
        subst h
        rcases hm with rfl | rfl | rfl | rfl <;> simp (decide := true) [clusterOf, cfgLast_snoc, cfgFlag_snoc, keyFiles_snoc, zeroconfOf_snoc, clusterZeroconf, hv]
      · cases h'

  | none =>
  rw [parseZeroconf_none] at hz
  simp only [parseZeroconf, hz] at h
  by_cases h1 : w = ascii "host_key_file"
  · subst h1
    rw [if_pos rfl] at h
    simp only [ex_bind, expectFile_ok, ex_pure] at h
    obtain ⟨a, ha, rfl⟩ := h
    obtain ⟨v, hv, hf⟩ := Option.bind_eq_some_iff.mp ha
    simp (decide := true) [clusterOf, cfgLast_snoc, cfgFlag_snoc, keyFiles_snoc, zeroconfOf_snoc, clusterZeroconf, hv, hf]
  rw [if_neg h1] at h
  by_cases h2 : w = ascii "send_client_address"
  · subst h2
    rw [if_pos rfl] at h
    simp only [ex_bind, expectBool_ok, ex_pure] at h
    obtain ⟨a, ha, rfl⟩ := h
    simp (decide := true) [clusterOf, cfgLast_snoc, cfgFlag_snoc, keyFiles_snoc, zeroconfOf_snoc, clusterZeroconf, ha]
  rw [if_neg h2] at h
  cases h

theorem clusterLine_ok {c} : (∃ c', clusterLine e decode c w args = .ok c') ↔ CfgListed e clusterTable (.word w :: args) := by
  unfold clusterLine
  cases hz : parseZeroconf e clusterZeroconf w args with
  | some r =>
    have hz' := hz
    unfold parseZeroconf at hz'
    split at hz'
    · cases hz'
    · rename_i n hn
      have hw : w = ascii n := by simpa using List.find?_some hn
      have hm := List.mem_of_find?_eq_some hn
      cases hz'
      simp only [hz]
      subst hw
      simp only [clusterZeroconf, List.mem_cons, List.not_mem_nil, or_false] at hm
      rcases hm with rfl | rfl | rfl | rfl <;>
        (cases hv : cfgValue args with
        | none => simp (decide := true) [listed_iff, clusterTable, CfgKind.fits, ex_bind, ex_pure, Option.isSome_iff_exists, expectValue_ok, hv, -bind_pure_comp]
        | some v =>
          simp (decide := true) [listed_iff, clusterTable, CfgKind.fits, ex_bind, ex_pure, Option.isSome_iff_exists, expectValue_ok, hv, -bind_pure_comp]
          split <;> simp_all <;> exact ⟨_, _, _, ⟨rfl, rfl⟩, rfl⟩)
  | none =>
  rw [parseZeroconf_none] at hz
  simp only [parseZeroconf, hz]
  by_cases h1 : w = ascii "host_key_file"
  · subst h1
    rw [if_pos rfl]
    simp only [ex_bind, ex_pure, expectFile_ok, ex_ex]
    simp (decide := true) [listed_iff, clusterTable, CfgKind.fits, ex_bind, ex_pure, Option.isSome_iff_exists]
  rw [if_neg h1]
  by_cases h2 : w = ascii "send_client_address"
  · subst h2
    rw [if_pos rfl]
    simp only [ex_bind, ex_pure, expectBool_ok, ex_ex]
    simp (decide := true) [listed_iff, clusterTable, CfgKind.fits, ex_bind, ex_pure, Option.isSome_iff_exists]
  rw [if_neg h2]
  have hz5 : ∀ n ∈ clusterZeroconf, w ≠ ascii n := by
    intro n hn
    have := List.find?_eq_none.mp hz n hn
    simpa using this
  simp only [clusterZeroconf, List.mem_cons, List.not_mem_nil, or_false, forall_eq_or_imp, forall_eq] at hz5
  simp [listed_iff, clusterTable, hz5, h1, h2]

theorem exporterLine_value {c'} (h : exporterLine e (exporterOf e b) w args = .ok c') : c' = exporterOf e (b ++ [.word w :: args]) := by
  unfold exporterLine at h
  by_cases h1 : w = ascii "bind"
  · subst h1
    rw [if_pos rfl] at h
    simp only [ex_bind, expectAddr_ok, ex_pure] at h
    obtain ⟨a, ha, rfl⟩ := h
    obtain ⟨v, hv, hf⟩ := Option.bind_eq_some_iff.mp ha
    simp (decide := true) [exporterOf, cfgLast_snoc, cfgFlag_snoc, keyFiles_snoc, zeroconfOf_snoc, hv, hf]
  rw [if_neg h1] at h
  by_cases h2 : w = ascii "interface"
  · subst h2
    rw [if_pos rfl] at h
    simp only [ex_bind, expectValue_ok, ex_pure] at h
    obtain ⟨a, ha, rfl⟩ := h
    simp (decide := true) [exporterOf, cfgLast_snoc, cfgFlag_snoc, keyFiles_snoc, zeroconfOf_snoc, ha]
  rw [if_neg h2] at h
  by_cases h3 : w = ascii "mode"
  · subst h3
    rw [if_pos rfl] at h
    split at h
    · cases h
    · simp only [ex_bind, expectMode_ok, ex_pure] at h
      obtain ⟨a, ha, rfl⟩ := h
      obtain ⟨v, hv, ho⟩ := Option.bind_eq_some_iff.mp ha.1
      simp (decide := true) [exporterOf, cfgLast_snoc, cfgFlag_snoc, keyFiles_snoc, zeroconfOf_snoc, hv, ho]
  rw [if_neg h3] at h
  by_cases h4 : w = ascii "v6only"
  · subst h4
    rw [if_pos rfl] at h
    simp only [ex_bind, expectBool_ok, ex_pure] at h
    obtain ⟨a, ha, rfl⟩ := h
    simp (decide := true) [exporterOf, cfgLast_snoc, cfgFlag_snoc, keyFiles_snoc, zeroconfOf_snoc, ha]
  rw [if_neg h4] at h
  by_cases h5 : w = ascii "reuse_port"
  · subst h5
    rw [if_pos rfl] at h
    simp only [ex_bind, expectBool_ok, ex_pure] at h
    obtain ⟨a, ha, rfl⟩ := h
    simp (decide := true) [exporterOf, cfgLast_snoc, cfgFlag_snoc, keyFiles_snoc, zeroconfOf_snoc, ha]
  rw [if_neg h5] at h
  cases h

theorem exporterLine_ok {c} : (∃ c', exporterLine e c w args = .ok c') ↔ CfgListed e exporterTable (.word w :: args) ∧ (w = ascii "mode" → notLocal c.bind = false) := by
  unfold exporterLine
  by_cases h1 : w = ascii "bind"
  · subst h1
    rw [if_pos rfl]
    simp only [ex_bind, ex_pure, expectAddr_ok, ex_ex]
    simp (decide := true) [listed_iff, exporterTable, CfgKind.fits, ex_bind, ex_pure, Option.isSome_iff_exists]
  rw [if_neg h1]
  by_cases h2 : w = ascii "interface"
  · subst h2
    rw [if_pos rfl]
    simp only [ex_bind, ex_pure, expectValue_ok, ex_ex]
    simp (decide := true) [listed_iff, exporterTable, CfgKind.fits, ex_bind, ex_pure, Option.isSome_iff_exists]
  rw [if_neg h2]
  by_cases h3 : w = ascii "mode"
  · subst h3
    rw [if_pos rfl]
    cases hb : notLocal c.bind
    · simp only [ex_bind, ex_pure, expectMode_ok, ex_ex, Bool.false_eq_true, if_false]
      simp (decide := true) [listed_iff, exporterTable, CfgKind.fits, ex_bind, ex_pure, Option.isSome_iff_exists, Option.any_eq_true]
    · simp (decide := true) [listed_iff, exporterTable, CfgKind.fits, ex_bind, ex_pure, Option.isSome_iff_exists]
  rw [if_neg h3]
  by_cases h4 : w = ascii "v6only"
  · subst h4
    rw [if_pos rfl]
    simp only [ex_bind, ex_pure, expectBool_ok, ex_ex]
    simp (decide := true) [listed_iff, exporterTable, CfgKind.fits, ex_bind, ex_pure, Option.isSome_iff_exists]
  rw [if_neg h4]
  by_cases h5 : w = ascii "reuse_port"
  · subst h5
    rw [if_pos rfl]
    simp only [ex_bind, ex_pure, expectBool_ok, ex_ex]
    simp (decide := true) [listed_iff, exporterTable, CfgKind.fits, ex_bind, ex_pure, Option.isSome_iff_exists]
  rw [if_neg h5]
  simp [listed_iff, exporterTable, h1, h2, h3, h4, h5]

theorem controlLine_value {c'} (h : controlLine e (controlOf e b) w args = .ok c') : c' = controlOf e (b ++ [.word w :: args]) := by
  unfold controlLine at h
  by_cases h1 : w = ascii "bind"
  · subst h1
    rw [if_pos rfl] at h
    simp only [ex_bind, expectAddr_ok, ex_pure] at h
    obtain ⟨a, ha, rfl⟩ := h
    obtain ⟨v, hv, hf⟩ := Option.bind_eq_some_iff.mp ha
    simp (decide := true) [controlOf, cfgLast_snoc, cfgFlag_snoc, keyFiles_snoc, zeroconfOf_snoc, hv, hf]
  rw [if_neg h1] at h
  by_cases h2 : w = ascii "multicast_group"
  · subst h2
    rw [if_pos rfl] at h
    simp only [ex_bind, expectAddr_ok, ex_pure] at h
    obtain ⟨a, ha, rfl⟩ := h
    obtain ⟨v, hv, hf⟩ := Option.bind_eq_some_iff.mp ha
    simp (decide := true) [controlOf, cfgLast_snoc, cfgFlag_snoc, keyFiles_snoc, zeroconfOf_snoc, hv, hf]
  rw [if_neg h2] at h
  by_cases h3 : w = ascii "interface"
  · subst h3
    rw [if_pos rfl] at h
    simp only [ex_bind, expectValue_ok, ex_pure] at h
    obtain ⟨a, ha, rfl⟩ := h
    simp (decide := true) [controlOf, cfgLast_snoc, cfgFlag_snoc, keyFiles_snoc, zeroconfOf_snoc, ha]
  rw [if_neg h3] at h
  cases h

theorem controlLine_ok {c} : (∃ c', controlLine e c w args = .ok c') ↔ CfgListed e controlTable (.word w :: args) := by
  unfold controlLine
  by_cases h1 : w = ascii "bind"
  · subst h1
    rw [if_pos rfl]
    simp only [ex_bind, ex_pure, expectAddr_ok, ex_ex]
    simp (decide := true) [listed_iff, controlTable, CfgKind.fits, ex_bind, ex_pure, Option.isSome_iff_exists]
  rw [if_neg h1]
  by_cases h2 : w = ascii "multicast_group"
  · subst h2
    rw [if_pos rfl]
    simp only [ex_bind, ex_pure, expectAddr_ok, ex_ex]
    simp (decide := true) [listed_iff, controlTable, CfgKind.fits, ex_bind, ex_pure, Option.isSome_iff_exists]
  rw [if_neg h2]
  by_cases h3 : w = ascii "interface"
  · subst h3
    rw [if_pos rfl]
    simp only [ex_bind, ex_pure, expectValue_ok, ex_ex]
    simp (decide := true) [listed_iff, controlTable, CfgKind.fits, ex_bind, ex_pure, Option.isSome_iff_exists]
  rw [if_neg h3]
  simp [listed_iff, controlTable, h1, h2, h3]

end Lukko
