import Verif.Proof.Config
/-
  Proofs for C77: whole sections and files.
-/
namespace Lukko
open Model Spec

variable {K : Type} {e : CfgEnv K} {decode : Bytes → Option Bytes} {data : CfgData K} {items : List CfgItem}
variable {b : List CfgLine} {w : Bytes} {args : List CfgToken}

/-! ### Listener sections -/

/-- `ListenerGood` without the requirement of an address. -/
structure ListenerPre (e : CfgEnv K) (before : List CfgItem) (body : List CfgLine) : Prop where
  lines : ∀ l ∈ body, CfgListed e listenerTable l
  mode : ModeOk e 2200 body
  tag : ∀ t ∈ cfgValues "tag" body, t.length ≤ 256
  one : (cfgArgs "proxy_to" body).length + (cfgArgs "proxy_to_zeroconf" body).length ≤ 1
  cluster : ∀ n ∈ cfgValues "proxy_to_zeroconf" body, n ∈ (namedBlocks "zeroconf_cluster" before).map (·.1)
  host : ∀ n ∈ cfgValues "proxy_to" body, n ∈ (namedBlocks "target_host" before).map (·.1)

theorem modeOk_snoc {port : Nat} :
    ModeOk e port (b ++ [.word w :: args]) ↔ ModeOk e port b ∧
      (w = ascii "mode" → ∃ v adr, cfgLast "bind" b = some v ∧ e.addr v port true = some adr ∧ adr.isLocal = true) := by
  constructor
  · intro h
    refine ⟨fun x a y hx => ?_, fun hw => ?_⟩
    · exact h x a (y ++ [.word w :: args]) (by rw [hx]; simp)
    · subst hw; exact h b args [] rfl
  · rintro ⟨h1, h2⟩ x a y hx
    rcases Aux.snoc_split hx with ⟨rfl, rfl, hl⟩ | ⟨y', rfl, rfl⟩
    · cases hl; exact h2 rfl
    · exact h1 x a y' rfl

theorem modeOk_nil {port : Nat} : ModeOk e port [] := by
  intro a args b h; simp at h

theorem notLocal_iff {port : Nat} {o : Option Bytes} :
    notLocal (o.bind (e.addr · port true)) = false ↔
      ∃ v adr, o = some v ∧ e.addr v port true = some adr ∧ adr.isLocal = true := by
  simp only [notLocal, Bool.not_eq_false']
  cases o with
  | none => simp
  | some v => cases h : e.addr v port true <;> simp [h]

/-- The words "proxy_to" and "proxy_to_zeroconf" come with a value. -/
theorem listed_value (h : CfgListed e listenerTable (.word w :: args)) (hw : w = ascii "proxy_to" ∨ w = ascii "proxy_to_zeroconf") :
    ∃ v, cfgValue args = some v := by
  rw [listed_iff] at h
  rcases hw with rfl | rfl <;>
  · simp (decide := true) [listenerTable, CfgKind.fits] at h
    exact Option.isSome_iff_exists.mp h

theorem target_none (h : ∀ l ∈ b, CfgListed e listenerTable l) :
    targetOf b = none ↔ (cfgArgs "proxy_to" b).length + (cfgArgs "proxy_to_zeroconf" b).length = 0 := by
  induction b using Aux.snoc_ind with
  | h0 => simp [targetOf, cfgArgs]
  | h1 b l ih =>
    have ih := ih fun l hl => h l (by simp [hl])
    have hl := h l (by simp)
    obtain ⟨n, k, a, -, rfl, -⟩ := id hl
    rw [targetOf_snoc, cfgArgs_snoc, cfgArgs_snoc]
    by_cases h1 : ascii n = ascii "proxy_to"
    · obtain ⟨v, hv⟩ := listed_value hl (.inl h1)
      simp [h1, hv]
    · by_cases h2 : ascii n = ascii "proxy_to_zeroconf"
      · obtain ⟨v, hv⟩ := listed_value hl (.inr h2)
        simp (decide := true) [h2, hv]
      · simpa [h1, h2] using ih

theorem listenerPre_nil : ListenerPre e items [] where
  lines := by simp
  mode := modeOk_nil
  tag := by simp [cfgValues, cfgArgs]
  one := by simp [cfgArgs]
  cluster := by simp [cfgValues, cfgArgs]
  host := by simp [cfgValues, cfgArgs]

theorem listenerPre_snoc (hc : data.clusters.map (·.1) = (namedBlocks "zeroconf_cluster" items).map (·.1))
    (ht : data.targets.map (·.1) = (namedBlocks "target_host" items).map (·.1)) :
    ListenerPre e items (b ++ [.word w :: args]) ↔
      ListenerPre e items b ∧ ListenerLineOk e data (listenerOf' e decode b) w args := by
  have hm {α : Type} (l : List (Bytes × α)) (n : Bytes) : l.any (·.1 == n) = true ↔ n ∈ l.map (·.1) := by
    simp only [List.any_eq_true, beq_iff_eq, List.mem_map]
  have hp : (listenerOf' e decode b).proxyTo = targetOf b := rfl
  have hb : (listenerOf' e decode b).bind = (cfgLast "bind" b).bind (e.addr · 2200 true) := rfl
  simp only [ListenerLineOk, hm, hc, ht, hp, hb, notLocal_iff]
  constructor
  · intro h
    have hl : ∀ l ∈ b, CfgListed e listenerTable l := fun l hl => h.lines l (by simp [hl])
    have hm := modeOk_snoc.mp h.mode
    have ho := h.one
    rw [cfgArgs_snoc, cfgArgs_snoc] at ho
    simp only [List.length_append] at ho
    refine ⟨⟨hl, hm.1, fun t ht => h.tag t (by rw [cfgValues_snoc]; simp [ht]), by omega,
        fun t ht => h.cluster t (by rw [cfgValues_snoc]; simp [ht]),
        fun t ht => h.host t (by rw [cfgValues_snoc]; simp [ht])⟩,
      h.lines _ (by simp), hm.2, ?_, ?_, ?_⟩
    · intro hw v hv
      exact h.tag v (by rw [cfgValues_snoc]; simp [hw, hv])
    · intro hw
      refine ⟨(target_none hl).mpr ?_, fun v hv => h.host v (by rw [cfgValues_snoc]; simp [hw, hv])⟩
      simp only [hw, if_true, List.length_cons, List.length_nil] at ho; omega
    · intro hw
      refine ⟨(target_none hl).mpr ?_, fun v hv => h.cluster v (by rw [cfgValues_snoc]; simp [hw, hv])⟩
      simp only [hw, if_true, List.length_cons, List.length_nil] at ho; omega
  · rintro ⟨h, hl, h1, h2, h3, h4⟩
    have hx {n : String} {P : Bytes → Prop} (h : ∀ t ∈ cfgValues n b, P t) (h' : w = ascii n → ∀ v, cfgValue args = some v → P v) :
        ∀ t ∈ cfgValues n (b ++ [.word w :: args]), P t := by
      intro t ht
      rw [cfgValues_snoc] at ht
      rcases List.mem_append.mp ht with ht | ht
      · exact h t ht
      · split at ht
        · rename_i hw; exact h' hw t (by simpa using ht)
        · simp at ht
    refine ⟨?_, modeOk_snoc.mpr ⟨h.mode, h1⟩, hx h.tag h2, ?_, hx h.cluster fun hw => (h4 hw).2, hx h.host fun hw => (h3 hw).2⟩
    · intro l hm
      rcases List.mem_append.mp hm with hm | hm
      · exact h.lines l hm
      · simp only [List.mem_singleton] at hm; subst hm; exact hl
    · rw [cfgArgs_snoc, cfgArgs_snoc]
      have := h.one
      by_cases hw : w = ascii "proxy_to"
      · have := (target_none h.lines).mp (h3 hw).1
        simp (decide := true) [hw]; omega
      · by_cases hw' : w = ascii "proxy_to_zeroconf"
        · have := (target_none h.lines).mp (h4 hw').1
          simp (decide := true) [hw']; omega
        · simpa [hw, hw'] using this

/-- An address which was given was understood. -/
theorem bind_some {table : List (String × CfgKind)} {port : Nat} (ht : ∀ x ∈ table, ascii x.1 = ascii "bind" → x.2 = .addr port true)
    (h : ∀ l ∈ b, CfgListed e table l) : (cfgLast "bind" b).bind (e.addr · port true) = none ↔ cfgLast "bind" b = none := by
  induction b using Aux.snoc_ind with
  | h0 => simp [cfgLast, cfgArgs]
  | h1 b l ih =>
    have ih := ih fun l hl => h l (by simp [hl])
    obtain ⟨n, k, a, hk, rfl, hf⟩ := h l (by simp)
    rw [cfgLast_snoc]
    by_cases hn : ascii n = ascii "bind"
    · have : k = .addr port true := ht _ hk hn
      subst this
      rw [if_pos hn]
      simp only [CfgKind.fits] at hf
      obtain ⟨x, hx⟩ := Option.isSome_iff_exists.mp hf
      rw [hx]
      obtain ⟨v, hv, -⟩ := Option.bind_eq_some_iff.mp hx
      simp [hv]
    · simpa [hn] using ih

theorem listener_bind (h : ∀ l ∈ b, CfgListed e listenerTable l) :
    (listenerOf' e decode b).bind = none ↔ cfgLast "bind" b = none :=
  bind_some (port := 2200) (by decide) h

theorem exporter_bind (h : ∀ l ∈ b, CfgListed e exporterTable l) :
    (exporterOf e b).bind = none ↔ cfgLast "bind" b = none :=
  bind_some (port := 9100) (by decide) h

theorem control_bind (h : ∀ l ∈ b, CfgListed e controlTable l) :
    (controlOf e b).bind = none ↔ cfgLast "bind" b = none :=
  bind_some (port := 5478) (by decide) h

/-! ### Files -/

section
variable {x : CfgItem}

theorem blocksOf_snoc (kind : String) : blocksOf kind (items ++ [x]) = blocksOf kind items ++ blocksOf kind [x] := by
  simp [blocksOf]

theorem namedBlocks_snoc (kind : String) : namedBlocks kind (items ++ [x]) = namedBlocks kind items ++ namedBlocks kind [x] := by
  simp [namedBlocks]

theorem settingsOf_snoc : settingsOf (items ++ [x]) = settingsOf items ++ settingsOf [x] := by simp [settingsOf]

theorem cfgText_snoc : cfgText (items ++ [x]) = cfgText items ++ x.text := by simp [cfgText]

theorem fileGood_snoc {S : Type} {load : S → Bytes → S} {empty : S} {isEmpty : S → Bool} :
    FileGood e load empty isEmpty (items ++ [x]) ↔ FileGood e load empty isEmpty items ∧ ItemGood e load empty isEmpty items x := by
  constructor
  · intro h
    exact ⟨fun a y c hy => h a y (c ++ [x]) (by rw [hy]; simp), h items x [] rfl⟩
  · rintro ⟨h1, h2⟩ a y c hy
    rcases Aux.snoc_split hy with ⟨rfl, rfl, rfl⟩ | ⟨c', rfl, rfl⟩
    · exact h2
    · exact h1 a y c' rfl
end

/-- What was read so far. -/
structure DataOk (e : CfgEnv K) (decode : Bytes → Option Bytes) (items : List CfgItem) (data : CfgData K) : Prop where
  translation : data.translationServer = (cfgLast "translation_server" (settingsOf items)).getD []
  populate : data.populate = cfgFlag "populate_io_buffers" false (settingsOf items)
  listeners : data.listeners.reverse = (blocksOf "listener" items).map (listenerOf' e decode)
  clusters : data.clusters = (namedBlocks "zeroconf_cluster" items).map fun x => (x.1, clusterOf e (loadFile decode) [] x.2)
  targets : data.targets = []
  noTargets : namedBlocks "target_host" items = []
  exporters : data.exporters.reverse = (blocksOf "prometheus_exporter" items).map (exporterOf e)
  controls : data.controls.reverse = (blocksOf "control" items).map (controlOf e)

theorem dataOk_nil : DataOk e decode [] {} where
  translation := rfl
  populate := rfl
  listeners := rfl
  clusters := rfl
  targets := rfl
  noTargets := rfl
  exporters := rfl
  controls := rfl

/-- The section which is being read. -/
def ChildOk (e : CfgEnv K) (decode : Bytes → Option Bytes) (items : List CfgItem) (head : CfgLine) (body : List CfgLine) :
    CfgChild K → Prop
  | .listener c => head = [.word (ascii "listener")] ∧ ListenerPre e items body ∧ c = listenerOf' e decode body
  | .cluster n c => ∃ arg, head = [.word (ascii "zeroconf_cluster"), arg] ∧ cfgValue [arg] = some n ∧
      (∀ l ∈ body, CfgListed e clusterTable l) ∧ c = clusterOf e (loadFile decode) [] body
  | .target _ _ => False
  | .exporter c => head = [.word (ascii "prometheus_exporter")] ∧ (∀ l ∈ body, CfgListed e exporterTable l) ∧
      ModeOk e 9100 body ∧ c = exporterOf e body
  | .control c => head = [.word (ascii "control")] ∧ (∀ l ∈ body, CfgListed e controlTable l) ∧ c = controlOf e body
  | .spawn => head = [.word (ascii "spawn")] ∧ (∀ l ∈ body, e.spawn l = true) ∧ NoClose body

section
variable {head : CfgLine}

theorem mem_snoc {α : Type} {P : α → Prop} {l : List α} {x : α} : (∀ y ∈ l ++ [x], P y) ↔ (∀ y ∈ l, P y) ∧ P x := by
  simp only [List.mem_append, List.mem_singleton, or_imp, forall_and, forall_eq]

theorem DataOk.names (h : DataOk e decode items data) :
    data.clusters.map (·.1) = (namedBlocks "zeroconf_cluster" items).map (·.1) := by
  rw [h.clusters]; simp

theorem DataOk.hosts (h : DataOk e decode items data) :
    data.targets.map (·.1) = (namedBlocks "target_host" items).map (·.1) := by
  rw [h.targets, h.noTargets]; rfl

/-- A line of a section. -/
theorem childOk_line {c c' : CfgChild K} {l : CfgLine} (hd : DataOk e decode items data) (h : ChildOk e decode items head b c)
    (hl : ∀ r, l ≠ .closeBrace :: r) (hs : c.line e decode data l = .ok c') : ChildOk e decode items head (b ++ [l]) c' := by
  cases c with
  | spawn =>
    simp only [CfgChild.line] at hs
    split at hs
    · rename_i ho
      cases hs
      obtain ⟨h1, h2, h3⟩ := h
      refine ⟨h1, mem_snoc.mpr ⟨h2, ho⟩, ?_⟩
      exact mem_snoc.mpr ⟨h3, hl⟩
    · cases hs
  | listener c =>
    obtain ⟨h1, h2, rfl⟩ := h
    simp only [CfgChild.line] at hs
    split at hs
    · rename_i w args
      rw [ex_map] at hs
      obtain ⟨c', hs, rfl⟩ := hs
      exact ⟨h1, (listenerPre_snoc hd.names hd.hosts).mpr ⟨h2, listenerLine_ok.mp ⟨c', hs⟩⟩, listenerLine_value hs⟩
    · cases hs
  | cluster n c =>
    obtain ⟨arg, h1, h2, h3, rfl⟩ := h
    simp only [CfgChild.line] at hs
    split at hs
    · rename_i w args
      rw [ex_map] at hs
      obtain ⟨c', hs, rfl⟩ := hs
      exact ⟨arg, h1, h2, mem_snoc.mpr ⟨h3, clusterLine_ok.mp ⟨c', hs⟩⟩, clusterLine_value hs⟩
    · cases hs
  | target n c => exact h.elim
  | exporter c =>
    obtain ⟨h1, h2, h3, rfl⟩ := h
    simp only [CfgChild.line] at hs
    split at hs
    · rename_i w args
      rw [ex_map] at hs
      obtain ⟨c', hs, rfl⟩ := hs
      have ho := exporterLine_ok.mp ⟨c', hs⟩
      exact ⟨h1, mem_snoc.mpr ⟨h2, ho.1⟩, modeOk_snoc.mpr ⟨h3, fun hw => notLocal_iff.mp (ho.2 hw)⟩, exporterLine_value hs⟩
    · cases hs
  | control c =>
    obtain ⟨h1, h2, rfl⟩ := h
    simp only [CfgChild.line] at hs
    split at hs
    · rename_i w args
      rw [ex_map] at hs
      obtain ⟨c', hs, rfl⟩ := hs
      exact ⟨h1, mem_snoc.mpr ⟨h2, controlLine_ok.mp ⟨c', hs⟩⟩, controlLine_value hs⟩
    · cases hs

/-- Is the section good? -/
abbrev CfgGood (e : CfgEnv K) (decode : Bytes → Option Bytes) := ItemGood e (loadFile decode) [] (List.isEmpty : KeySet → Bool)

theorem zeroconfEnabled_iff (h : ∀ l ∈ b, CfgListed e clusterTable l) :
    zeroconfEnabled (zeroconfOf clusterZeroconf b) = true ↔ ∃ v, cfgLast "zeroconf_service" b = some v ∧ v ≠ [] := by
  induction b using Aux.snoc_ind with
  | h0 => simp [zeroconfEnabled, zeroconfOf, cfgLast, cfgArgs]
  | h1 b l ih =>
    have ih := ih fun l hl => h l (by simp [hl])
    obtain ⟨n, k, a, hk, rfl, hf⟩ := h l (by simp)
    rw [cfgLast_snoc, zeroconfOf_snoc]
    simp only [clusterTable, List.mem_cons, Prod.mk.injEq, List.not_mem_nil, or_false] at hk
    rcases hk with ⟨rfl, rfl⟩ | ⟨rfl, rfl⟩ | ⟨rfl, rfl⟩ | ⟨rfl, rfl⟩ | ⟨rfl, rfl⟩ | ⟨rfl, rfl⟩
    · simp only [CfgKind.fits] at hf
      cases hv : cfgValue a with
      | none => simp [hv] at hf
      | some v => simp (decide := true) [clusterZeroconf, zeroconfEnabled, List.filter_append]
    all_goals
      simp (decide := true) [clusterZeroconf, zeroconfEnabled, List.filter_append]
      simp only [zeroconfEnabled, clusterZeroconf] at ih
      cases hv : cfgValue a <;> simpa [List.filter_append] using ih

theorem dataOk_block {data' : CfgData K} (hd : DataOk e decode items data)
    (h1 : data'.translationServer = data.translationServer) (h2 : data'.populate = data.populate)
    (h3 : data'.listeners.reverse = data.listeners.reverse ++ (blocksOf "listener" [.block head b]).map (listenerOf' e decode))
    (h4 : data'.clusters = data.clusters ++
      (namedBlocks "zeroconf_cluster" [.block head b]).map fun x => (x.1, clusterOf e (loadFile decode) [] x.2))
    (h5 : data'.targets = data.targets) (h6 : namedBlocks "target_host" [.block head b] = [])
    (h7 : data'.exporters.reverse = data.exporters.reverse ++ (blocksOf "prometheus_exporter" [.block head b]).map (exporterOf e))
    (h8 : data'.controls.reverse = data.controls.reverse ++ (blocksOf "control" [.block head b]).map (controlOf e)) :
    DataOk e decode (items ++ [.block head b]) data' where
  translation := by rw [h1, hd.translation, settingsOf_snoc]; simp [settingsOf]
  populate := by rw [h2, hd.populate, settingsOf_snoc]; simp [settingsOf]
  listeners := by rw [h3, hd.listeners, blocksOf_snoc, List.map_append]
  clusters := by rw [h4, hd.clusters, namedBlocks_snoc, List.map_append]
  targets := by rw [h5, hd.targets]
  noTargets := by rw [namedBlocks_snoc, hd.noTargets, h6]; rfl
  exporters := by rw [h7, hd.exporters, blocksOf_snoc, List.map_append]
  controls := by rw [h8, hd.controls, blocksOf_snoc, List.map_append]

/-- The end of a section. -/
theorem childOk_finish {c : CfgChild K} {data' : CfgData K} (hd : DataOk e decode items data) (h : ChildOk e decode items head b c)
    (hs : c.finish e data = .ok data') : CfgGood e decode items (.block head b) ∧ DataOk e decode (items ++ [.block head b]) data' := by
  cases c with
  | target n c => exact h.elim
  | spawn =>
    obtain ⟨rfl, h2, h3⟩ := h
    cases hs
    refine ⟨.spawn _ h2 h3, dataOk_block hd rfl rfl ?_ ?_ rfl ?_ ?_ ?_⟩ <;> simp (decide := true) [blocksOf, namedBlocks]
  | listener c =>
    obtain ⟨rfl, h2, rfl⟩ := h
    simp only [CfgChild.finish, listenerEnd, Option.isNone_iff_eq_none] at hs
    split at hs
    · cases hs
    · rename_i hb
      cases hs
      refine ⟨.listener _ ⟨h2.lines, fun h => hb ((listener_bind h2.lines).mpr h), h2.mode, h2.tag, h2.one, h2.cluster, h2.host⟩,
        dataOk_block hd rfl rfl ?_ ?_ rfl ?_ ?_ ?_⟩ <;> simp (decide := true) [blocksOf, namedBlocks]
  | cluster n c =>
    obtain ⟨arg, rfl, h2, h3, rfl⟩ := h
    simp only [CfgChild.finish, clusterEnd] at hs
    split at hs
    · cases hs
    · rename_i h4
      split at hs
      · cases hs
      · rename_i h5
        split at hs
        · cases hs
        · rename_i h6
          split at hs
          · cases hs
          · rename_i h7
            cases hs
            refine ⟨.cluster arg n _ h2 ⟨h3, (zeroconfEnabled_iff h3).mp (by simpa [clusterOf] using h4), by simpa [clusterOf] using h5, by simpa using h6, ?_⟩,
              dataOk_block hd rfl rfl ?_ ?_ rfl ?_ ?_ ?_⟩
            · rw [← hd.names]
              intro hm
              apply h7
              rw [List.any_eq_true]
              obtain ⟨x, hx, hn⟩ := List.mem_map.mp hm
              exact ⟨x, hx, by simp [hn]⟩
            all_goals simp (decide := true) [blocksOf, namedBlocks, h2]
  | exporter c =>
    obtain ⟨rfl, h2, h3, rfl⟩ := h
    simp only [CfgChild.finish, exporterEnd, Option.isNone_iff_eq_none] at hs
    split at hs
    · cases hs
    · rename_i hb
      cases hs
      refine ⟨.exporter _ h2 (fun h => hb ((exporter_bind h2).mpr h)) h3,
        dataOk_block hd rfl rfl ?_ ?_ rfl ?_ ?_ ?_⟩ <;> simp (decide := true) [blocksOf, namedBlocks]
  | control c =>
    obtain ⟨rfl, h2, rfl⟩ := h
    simp only [CfgChild.finish, controlEnd, Option.isNone_iff_eq_none] at hs
    split at hs
    · cases hs
    · rename_i hb
      cases hs
      refine ⟨.control _ h2 (fun h => hb ((control_bind h2).mpr h)),
        dataOk_block hd rfl rfl ?_ ?_ rfl ?_ ?_ ?_⟩ <;> simp (decide := true) [blocksOf, namedBlocks]

/-- … is always reached if the section is good. -/
theorem finish_good {c : CfgChild K} (hd : DataOk e decode items data) (h : ChildOk e decode items head b c)
    (hg : CfgGood e decode items (.block head b)) : ∃ data', c.finish e data = .ok data' := by
  cases c with
  | target n c => exact h.elim
  | spawn => exact ⟨_, rfl⟩
  | listener c =>
    obtain ⟨rfl, h2, rfl⟩ := h
    have hb : cfgLast "bind" b ≠ none := by
      generalize hh : ascii "listener" = w at hg
      cases hg with
      | listener _ h => exact h.bind
      | exporter => exact absurd hh (by decide)
      | control => exact absurd hh (by decide)
      | spawn => exact absurd hh (by decide)
    simp only [CfgChild.finish, listenerEnd, Option.isNone_iff_eq_none]
    exact ⟨_, if_neg (fun h => hb ((listener_bind h2.lines).mp h))⟩
  | cluster n c =>
    obtain ⟨arg, rfl, h2, h3, rfl⟩ := h
    have hb : ClusterGood e (loadFile decode) [] (List.isEmpty : KeySet → Bool) items n b := by
      generalize hh : ascii "zeroconf_cluster" = w at hg
      cases hg with
      | cluster _ n' _ hn h => rw [h2] at hn; cases hn; exact h
      | target => exact absurd hh (by decide)
    have h7 : ¬ data.clusters.any (·.1 == n) = true := by
      rw [List.any_eq_true]
      rintro ⟨x, hx, hn⟩
      refine hb.unique ?_
      rw [← hd.names]
      exact List.mem_map.mpr ⟨x, hx, by simpa using hn⟩
    simp only [CfgChild.finish, clusterEnd]
    rw [if_neg, if_neg, if_neg, if_neg h7]
    · exact ⟨_, rfl⟩
    · simpa using hb.keys
    · simpa [clusterOf] using hb.ok
    · simpa [clusterOf] using (zeroconfEnabled_iff h3).mpr hb.service
  | exporter c =>
    obtain ⟨rfl, h2, h3, rfl⟩ := h
    have hb : cfgLast "bind" b ≠ none := by
      generalize hh : ascii "prometheus_exporter" = w at hg
      cases hg with
      | listener => exact absurd hh (by decide)
      | exporter _ _ h => exact h
      | control => exact absurd hh (by decide)
      | spawn => exact absurd hh (by decide)
    simp only [CfgChild.finish, exporterEnd, Option.isNone_iff_eq_none]
    exact ⟨_, if_neg (fun h => hb ((exporter_bind h2).mp h))⟩
  | control c =>
    obtain ⟨rfl, h2, rfl⟩ := h
    have hb : cfgLast "bind" b ≠ none := by
      generalize hh : ascii "control" = w at hg
      cases hg with
      | listener => exact absurd hh (by decide)
      | exporter => exact absurd hh (by decide)
      | control _ _ h => exact h
      | spawn => exact absurd hh (by decide)
    simp only [CfgChild.finish, controlEnd, Option.isNone_iff_eq_none]
    exact ⟨_, if_neg (fun h => hb ((control_bind h2).mp h))⟩

/-! ### What is accepted is good -/

abbrev GoodFile (e : CfgEnv K) (decode : Bytes → Option Bytes) := FileGood e (loadFile decode) [] (List.isEmpty : KeySet → Bool)

def CfgInv (e : CfgEnv K) (decode : Bytes → Option Bytes) (ls : List CfgLine) (p : CfgParser K) : Prop :=
  ∃ items, GoodFile e decode items ∧ DataOk e decode items p.data ∧
    match p.child with
    | none => ls = cfgText items
    | some c => ∃ head body, ls = cfgText items ++ (head ++ [.openBrace]) :: body ∧ ChildOk e decode items head body c

theorem lines_append {p : CfgParser K} {a c : List CfgLine} :
    p.lines e decode (a ++ c) = p.lines e decode a >>= fun p => p.lines e decode c := by
  induction a generalizing p with
  | nil => rfl
  | cons l a ih =>
    simp only [List.cons_append, CfgParser.lines]
    cases p.line e decode l with
    | error x => rfl
    | ok p' => exact ih

theorem lines_snoc {p : CfgParser K} {a : List CfgLine} {l : CfgLine} :
    p.lines e decode (a ++ [l]) = p.lines e decode a >>= fun p => p.line e decode l := by
  rw [lines_append]
  congr 1
  funext p
  simp only [CfgParser.lines]
  cases p.line e decode l <;> rfl

theorem expectOpen_ok {u : Unit} : expectOpen args = .ok u ↔ args = [.openBrace] := by
  unfold expectOpen; split <;> simp_all

theorem nextValue_ok {v : Bytes} {r : List CfgToken} : nextValue args = .ok (v, r) ↔ ∃ x, args = x :: r ∧ cfgValue [x] = some v := by
  unfold nextValue
  constructor
  · intro h
    split at h
    · cases h; exact ⟨_, rfl, rfl⟩
    · cases h; exact ⟨_, rfl, rfl⟩
    · cases h
  · rintro ⟨x, rfl, hx⟩
    cases x <;> simp_all [cfgValue]

theorem cfgInv_open {ls : List CfgLine} {p : CfgParser K} {c : CfgChild K} (hg : GoodFile e decode items)
    (hd : DataOk e decode items p.data) (hl : ls = cfgText items) (hc : ChildOk e decode items head [] c) :
    CfgInv e decode (ls ++ [head ++ [.openBrace]]) { p with child := some c } :=
  ⟨items, hg, hd, head, [], by rw [hl], hc⟩

theorem dataOk_setting (hd : DataOk e decode items data)
    (h1 : data'.translationServer = if w = ascii "translation_server" then (cfgValue args).getD [] else data.translationServer)
    (h2 : data'.populate = if w = ascii "populate_io_buffers" then (cfgBool args).getD false else data.populate)
    (h3 : data'.listeners = data.listeners) (h4 : data'.clusters = data.clusters) (h5 : data'.targets = data.targets)
    (h6 : data'.exporters = data.exporters) (h7 : data'.controls = data.controls) :
    DataOk e decode (items ++ [.setting (.word w :: args)]) data' := by
  have hs : settingsOf [.setting (.word w :: args)] = [.word w :: args] := rfl
  constructor
  · rw [h1, settingsOf_snoc, hs, cfgLast_snoc, hd.translation]; split <;> rfl
  · rw [h2, settingsOf_snoc, hs, cfgFlag_snoc, hd.populate]
  · rw [h3, hd.listeners, blocksOf_snoc]; simp [blocksOf]
  · rw [h4, hd.clusters, namedBlocks_snoc]; simp [namedBlocks]
  · rw [h5, hd.targets]
  · rw [namedBlocks_snoc, hd.noTargets]; rfl
  · rw [h6, hd.exporters, blocksOf_snoc]; simp [blocksOf]
  · rw [h7, hd.controls, blocksOf_snoc]; simp [blocksOf]

theorem cfgInv_setting {ls : List CfgLine} (hg : GoodFile e decode items)
    (hl : ls = cfgText items) (hx : CfgListed e topTable (.word w :: args))
    (hd : DataOk e decode (items ++ [.setting (.word w :: args)]) data) :
    CfgInv e decode (ls ++ [.word w :: args]) { data := data, child := none } :=
  ⟨items ++ [.setting (.word w :: args)], fileGood_snoc.mpr ⟨hg, .setting _ hx⟩, hd, by rw [hl, cfgText_snoc]; rfl⟩

theorem listenerOf'_nil : ListenerCfg.init = listenerOf' e decode [] := by
  simp [listenerOf', listenerOf, cfgLast, cfgFlag, cfgArgs, keyFiles, cfgValues, zeroconfOf, targetOf, ListenerCfg.init]

theorem cfgInv_top {ls : List CfgLine} {p p' : CfgParser K} (hn : p.child = none) (h : CfgInv e decode ls p)
    (hs : topLine p w args = .ok p') : CfgInv e decode (ls ++ [.word w :: args]) p' := by
  obtain ⟨items, hg, hd, hl⟩ := h
  simp only [hn] at hl
  unfold topLine at hs
  by_cases h1 : w = ascii "listener"
  · subst h1
    rw [if_pos rfl] at hs
    simp only [ex_bind, expectOpen_ok, ex_pure] at hs
    obtain ⟨-, rfl, rfl⟩ := hs
    exact cfgInv_open (head := [.word (ascii "listener")]) hg hd hl ⟨rfl, listenerPre_nil, listenerOf'_nil⟩
  rw [if_neg h1] at hs
  by_cases h2 : w = ascii "zeroconf_cluster"
  · subst h2
    rw [if_pos rfl] at hs
    simp only [ex_bind] at hs
    obtain ⟨⟨name, r⟩, hv, hs⟩ := hs
    simp only [ex_bind, expectOpen_ok, ex_pure] at hs
    obtain ⟨-, rfl, rfl⟩ := hs
    obtain ⟨x, rfl, hx⟩ := nextValue_ok.mp hv
    exact cfgInv_open (head := [.word (ascii "zeroconf_cluster"), x]) hg hd hl ⟨x, rfl, hx, by simp, rfl⟩
  rw [if_neg h2] at hs
  by_cases h3 : w = ascii "spawn"
  · subst h3
    rw [if_pos rfl] at hs
    simp only [ex_bind, expectOpen_ok, ex_pure] at hs
    obtain ⟨-, rfl, rfl⟩ := hs
    exact cfgInv_open (head := [.word (ascii "spawn")]) hg hd hl ⟨rfl, by simp, by simp [NoClose]⟩
  rw [if_neg h3] at hs
  by_cases h4 : w = ascii "prometheus_exporter"
  · subst h4
    rw [if_pos rfl] at hs
    simp only [ex_bind, expectOpen_ok, ex_pure] at hs
    obtain ⟨-, rfl, rfl⟩ := hs
    exact cfgInv_open (head := [.word (ascii "prometheus_exporter")]) hg hd hl ⟨rfl, by simp, modeOk_nil, rfl⟩
  rw [if_neg h4] at hs
  by_cases h5 : w = ascii "translation_server"
  · subst h5
    rw [if_pos rfl] at hs
    simp only [ex_bind, expectValue_ok, ex_pure] at hs
    obtain ⟨v, hv, rfl⟩ := hs
    rw [hn]
    refine cfgInv_setting hg hl (listed_iff.mpr (by simp (decide := true) [topTable, CfgKind.fits, hv])) (dataOk_setting hd ?_ ?_ rfl rfl rfl rfl rfl)
    · simp [hv]
    · simp (decide := true)
  rw [if_neg h5] at hs
  by_cases h6 : w = ascii "control"
  · subst h6
    rw [if_pos rfl] at hs
    simp only [ex_bind, expectOpen_ok, ex_pure] at hs
    obtain ⟨-, rfl, rfl⟩ := hs
    exact cfgInv_open (head := [.word (ascii "control")]) hg hd hl ⟨rfl, by simp, rfl⟩
  rw [if_neg h6] at hs
  by_cases h7 : w = ascii "populate_io_buffers"
  · subst h7
    rw [if_pos rfl] at hs
    simp only [ex_bind, expectBool_ok, ex_pure] at hs
    obtain ⟨v, hv, rfl⟩ := hs
    rw [hn]
    refine cfgInv_setting hg hl (listed_iff.mpr (by simp (decide := true) [topTable, CfgKind.fits, hv])) (dataOk_setting hd ?_ ?_ rfl rfl rfl rfl rfl)
    · simp (decide := true)
    · simp [hv]
  rw [if_neg h7] at hs
  cases hs

theorem cfgInv_line {ls : List CfgLine} {l : CfgLine} {p p' : CfgParser K} (h : CfgInv e decode ls p)
    (hs : p.line e decode l = .ok p') : CfgInv e decode (ls ++ [l]) p' := by
  unfold CfgParser.line at hs
  split at hs
  · rename_i hn
    split at hs
    · exact cfgInv_top hn h hs
    · cases hs
  · rename_i c hc
    obtain ⟨items, hg, hd, hl⟩ := h
    simp only [hc] at hl
    obtain ⟨head, body, hl, hk⟩ := hl
    split at hs
    · rename_i r
      split at hs
      · rename_i hr
        subst hr
        simp only [ex_bind, ex_pure] at hs
        obtain ⟨d, hf, rfl⟩ := hs
        obtain ⟨h1, h2⟩ := childOk_finish hd hk hf
        exact ⟨items ++ [.block head body], fileGood_snoc.mpr ⟨hg, h1⟩, h2, by rw [hl, cfgText_snoc]; simp [CfgItem.text]⟩
      · cases hs
    · rename_i hne
      simp only [ex_bind, ex_pure] at hs
      obtain ⟨c', hc', rfl⟩ := hs
      exact ⟨items, hg, hd, head, body ++ [l], by rw [hl]; simp, childOk_line hd hk (fun r hr => hne r hr) hc'⟩

theorem cfgInv_lines {p : CfgParser K} {ls : List CfgLine} (h : CfgParser.lines e decode {} ls = .ok p) : CfgInv e decode ls p := by
  induction ls using Aux.snoc_ind generalizing p with
  | h0 => cases h; exact ⟨[], by intro a x b h; simp at h, dataOk_nil, rfl⟩
  | h1 a l ih =>
    rw [lines_snoc, ex_bind] at h
    obtain ⟨q, hq, h⟩ := h
    exact cfgInv_line (ih hq) h

/-! ### What is good is accepted -/

/-- What is required of the lines of a section. -/
def BodyPre (e : CfgEnv K) (items : List CfgItem) : CfgChild K → List CfgLine → Prop
  | .listener _, b => ListenerPre e items b
  | .cluster _ _, b => ∀ l ∈ b, CfgListed e clusterTable l
  | .target _ _, _ => False
  | .exporter _, b => (∀ l ∈ b, CfgListed e exporterTable l) ∧ ModeOk e 9100 b
  | .control _, b => ∀ l ∈ b, CfgListed e controlTable l
  | .spawn, b => (∀ l ∈ b, e.spawn l = true) ∧ NoClose b

theorem listed_shape {table : List (String × CfgKind)} {l : CfgLine} (h : CfgListed e table l) : ∃ w args, l = .word w :: args := by
  obtain ⟨n, k, a, -, rfl, -⟩ := h; exact ⟨_, _, rfl⟩

theorem body_step {c : CfgChild K} {l : CfgLine} (hd : DataOk e decode items data) (h : ChildOk e decode items head b c)
    (hp : BodyPre e items c (b ++ [l])) :
    ∃ c', c.line e decode data l = .ok c' ∧ (∀ r, l ≠ .closeBrace :: r) ∧ ∀ x, BodyPre e items c' x ↔ BodyPre e items c x := by
  have hw {table : List (String × CfgKind)} (h : CfgListed e table l) : ∀ r, l ≠ .closeBrace :: r := by
    obtain ⟨w, a, rfl⟩ := listed_shape h; simp
  cases c with
  | target n c => exact h.elim
  | spawn =>
    obtain ⟨h1, h2⟩ := hp
    exact ⟨.spawn, by simp [CfgChild.line, h1 l (by simp)], h2 l (by simp), fun _ => .rfl⟩
  | listener c =>
    obtain ⟨-, -, rfl⟩ := h
    have hl := hp.lines l (by simp)
    obtain ⟨w, a, rfl⟩ := listed_shape hl
    obtain ⟨c', hc⟩ := (listenerLine_ok (decode := decode)).mpr ((listenerPre_snoc (decode := decode) hd.names hd.hosts).mp hp).2
    exact ⟨.listener c', by simp only [CfgChild.line, hc, Except.map], hw hl, fun _ => .rfl⟩
  | cluster n c =>
    obtain ⟨arg, -, -, -, rfl⟩ := h
    have hl := hp l (by simp)
    obtain ⟨w, a, rfl⟩ := listed_shape hl
    obtain ⟨c', hc⟩ := (clusterLine_ok (decode := decode) (c := clusterOf e (loadFile decode) [] b)).mpr hl
    exact ⟨.cluster n c', by simp only [CfgChild.line, hc, Except.map], hw hl, fun _ => .rfl⟩
  | exporter c =>
    obtain ⟨-, -, -, rfl⟩ := h
    have hl := hp.1 l (by simp)
    obtain ⟨w, a, rfl⟩ := listed_shape hl
    obtain ⟨c', hc⟩ := (exporterLine_ok (c := exporterOf e b)).mpr ⟨hl, fun hw => notLocal_iff.mpr ((modeOk_snoc.mp hp.2).2 hw)⟩
    exact ⟨.exporter c', by simp only [CfgChild.line, hc, Except.map], hw hl, fun _ => .rfl⟩
  | control c =>
    obtain ⟨-, -, rfl⟩ := h
    have hl := hp l (by simp)
    obtain ⟨w, a, rfl⟩ := listed_shape hl
    obtain ⟨c', hc⟩ := (controlLine_ok (c := controlOf e b)).mpr hl
    exact ⟨.control c', by simp only [CfgChild.line, hc, Except.map], hw hl, fun _ => .rfl⟩

theorem bodyPre_prefix {c : CfgChild K} {l : CfgLine} (hd : DataOk e decode items data) (hp : BodyPre e items c (b ++ [l])) :
    BodyPre e items c b := by
  cases c with
  | target n c => exact hp
  | spawn => exact ⟨(mem_snoc.mp hp.1).1, fun l hl => hp.2 l (by simp [hl])⟩
  | listener c =>
    obtain ⟨w, a, rfl⟩ := listed_shape (hp.lines l (by simp))
    exact ((listenerPre_snoc (decode := decode) hd.names hd.hosts).mp hp).1
  | cluster n c => exact (mem_snoc.mp hp).1
  | exporter c =>
    obtain ⟨w, a, rfl⟩ := listed_shape (hp.1 l (by simp))
    exact ⟨(mem_snoc.mp hp.1).1, (modeOk_snoc.mp hp.2).1⟩
  | control c => exact (mem_snoc.mp hp).1

theorem line_child {c : CfgChild K} {l : CfgLine} (hn : ∀ r, l ≠ .closeBrace :: r) :
    CfgParser.line e decode { data := data, child := some c } l =
      (c.line e decode data l).map fun c => { data := data, child := some c } := by
  unfold CfgParser.line
  split
  · rename_i h; cases h
  · rename_i h; cases h
    split
    · rename_i r; exact absurd rfl (hn r)
    · cases c.line e decode data l <;> rfl

theorem body_run {c0 : CfgChild K} (hd : DataOk e decode items data) (h0 : ChildOk e decode items head [] c0)
    (hp : BodyPre e items c0 b) :
    ∃ c, CfgParser.lines e decode { data := data, child := some c0 } b = .ok { data := data, child := some c } ∧
      ChildOk e decode items head b c ∧ ∀ x, BodyPre e items c x ↔ BodyPre e items c0 x := by
  induction b using Aux.snoc_ind with
  | h0 => exact ⟨c0, rfl, h0, fun _ => .rfl⟩
  | h1 b l ih =>
    obtain ⟨c, hc, hk, hi⟩ := ih (bodyPre_prefix hd hp)
    obtain ⟨c', hl, hn, hi'⟩ := body_step hd hk ((hi _).mpr hp)
    refine ⟨c', ?_, childOk_line hd hk hn hl, fun x => (hi' x).trans (hi x)⟩
    rw [lines_snoc, hc]
    simp only [bind, Except.bind, line_child hn, hl, Except.map]

theorem block_run {c0 : CfgChild K} (hd : DataOk e decode items data) (h0 : ChildOk e decode items head [] c0)
    (hp : BodyPre e items c0 b) (hg : CfgGood e decode items (.block head b)) :
    ∃ data', CfgParser.lines e decode { data := data, child := some c0 } (b ++ [[.closeBrace]]) = .ok { data := data', child := none } ∧
      DataOk e decode (items ++ [.block head b]) data' := by
  obtain ⟨c, hc, hk, -⟩ := body_run hd h0 hp
  obtain ⟨d, hf⟩ := finish_good hd hk hg
  refine ⟨d, ?_, (childOk_finish hd hk hf).2⟩
  rw [lines_snoc, hc]
  simp [bind, Except.bind, CfgParser.line, hf, pure, Except.pure]

theorem item_run {x : CfgItem} (hd : DataOk e decode items data) (hg : CfgGood e decode items x)
    (hn : ∀ args body, x ≠ .block (.word (ascii "target_host") :: args) body) :
    ∃ data', CfgParser.lines e decode { data := data, child := none } x.text = .ok { data := data', child := none } ∧
      DataOk e decode (items ++ [x]) data' := by
  have hgo := hg
  cases hg with
  | setting l h =>
    obtain ⟨w, a, rfl⟩ := listed_shape h
    rw [listed_iff] at h
    simp only [topTable, List.any_cons, List.any_nil, Bool.or_false, Bool.or_eq_true, Bool.and_eq_true, decide_eq_true_eq,
      CfgKind.fits, Option.isSome_iff_exists] at h
    rcases h with ⟨rfl, v, hv⟩ | ⟨rfl, v, hv⟩
    · refine ⟨{ data with translationServer := v }, ?_, dataOk_setting hd ?_ ?_ rfl rfl rfl rfl rfl⟩
      · simp (decide := true) [CfgItem.text, CfgParser.lines, CfgParser.line, topLine, expectValue, hv, cfgNeed, bind, Except.bind, pure, Except.pure]
      · simp [hv]
      · simp (decide := true)
    · refine ⟨{ data with populate := v }, ?_, dataOk_setting hd ?_ ?_ rfl rfl rfl rfl rfl⟩
      · simp (decide := true) [CfgItem.text, CfgParser.lines, CfgParser.line, topLine, expectBool, hv, cfgNeed, bind, Except.bind, pure, Except.pure]
      · simp (decide := true)
      · simp [hv]
  | listener body h =>
    obtain ⟨d, h1, h2⟩ := block_run (c0 := .listener ListenerCfg.init) hd ⟨rfl, listenerPre_nil, listenerOf'_nil⟩
      ⟨h.lines, h.mode, h.tag, h.one, h.cluster, h.host⟩ hgo
    refine ⟨d, ?_, h2⟩
    rw [← h1]; rfl
  | cluster arg name body hv h =>
    obtain ⟨d, h1, h2⟩ := block_run (c0 := .cluster name ⟨[], [], false⟩) hd ⟨arg, rfl, hv, by simp, rfl⟩ h.lines hgo
    refine ⟨d, ?_, h2⟩
    rw [← h1]
    cases arg <;> simp [cfgValue] at hv <;> subst hv <;> rfl
  | target arg name body hv h => exact absurd rfl (hn _ _)
  | exporter body h hb hm =>
    obtain ⟨d, h1, h2⟩ := block_run (c0 := .exporter ExporterSettings.init) hd ⟨rfl, by simp, modeOk_nil, rfl⟩ ⟨h, hm⟩ hgo
    refine ⟨d, ?_, h2⟩
    rw [← h1]; rfl
  | control body h hb =>
    obtain ⟨d, h1, h2⟩ := block_run (c0 := .control ControlSettings.init) hd ⟨rfl, by simp, rfl⟩ h hgo
    refine ⟨d, ?_, h2⟩
    rw [← h1]; rfl
  | spawn body h hc =>
    obtain ⟨d, h1, h2⟩ := block_run (c0 := .spawn) hd ⟨rfl, by simp, by simp [NoClose]⟩ ⟨h, hc⟩ hgo
    refine ⟨d, ?_, h2⟩
    rw [← h1]; rfl

theorem noTargets_iff (hg : GoodFile e decode items) : NoTargets items ↔ namedBlocks "target_host" items = [] := by
  constructor
  · intro h
    unfold namedBlocks
    rw [List.filterMap_eq_nil_iff]
    intro x hx
    split
    · split
      · rename_i hw; subst hw; exact absurd hx (h _ _)
      · rfl
    · rfl
  · intro h args body hm
    obtain ⟨a, b, rfl⟩ := List.append_of_mem hm
    have hx := hg a _ b rfl
    have h' := List.filterMap_eq_nil_iff.mp h _ hm
    simp only [if_pos] at h'
    generalize hy : CfgItem.block (.word (ascii "target_host") :: args) body = y at hx
    cases hx <;> simp (decide := true) at hy
    rename_i hn _
    obtain ⟨rfl, rfl⟩ := hy
    rw [hn] at h'; cases h'

theorem file_run (hg : GoodFile e decode items) (hn : NoTargets items) :
    ∃ data, CfgParser.lines e decode {} (cfgText items) = .ok { data := data, child := none } ∧ DataOk e decode items data := by
  induction items using Aux.snoc_ind with
  | h0 => exact ⟨{}, rfl, dataOk_nil⟩
  | h1 items x ih =>
    obtain ⟨hg, hx⟩ := fileGood_snoc.mp hg
    obtain ⟨d, hd, ho⟩ := ih hg fun a b hm => hn a b (by simp [hm])
    obtain ⟨d', hd', ho'⟩ := item_run ho hx fun a b hx => hn a b (by simp [hx])
    refine ⟨d', ?_, ho'⟩
    rw [cfgText_snoc, lines_append, hd]
    exact hd'

theorem loadConfig_accepts {ls : List CfgLine} (h : loadConfig e decode ls = .ok data) :
    ∃ items data0, ls = cfgText items ∧ GoodFile e decode items ∧ NoTargets items ∧ DataOk e decode items data0 ∧ data = data0.check e := by
  unfold loadConfig at h
  simp only [ex_bind] at h
  obtain ⟨p, hp, h⟩ := h
  obtain ⟨items, hg, hd, hl⟩ := cfgInv_lines hp
  split at h
  · cases h
  · rename_i hc
    cases h
    rw [hc] at hl
    exact ⟨items, p.data, hl, hg, (noTargets_iff hg).mpr hd.noTargets, hd, rfl⟩

theorem loadConfig_good (hg : GoodFile e decode items) (hn : NoTargets items) :
    ∃ data0, loadConfig e decode (cfgText items) = .ok (data0.check e) ∧ DataOk e decode items data0 := by
  obtain ⟨d, hd, ho⟩ := file_run hg hn
  exact ⟨d, by simp [loadConfig, hd, bind, Except.bind], ho⟩

end

end Lukko
