import Verif.Proof.ConfigFile
import Verif.Prop.KeyFile
/-
  C77: The configuration file.
-/
namespace Lukko
open Model Spec

section
variable {K : Type} (e : CfgEnv K) (decode : Bytes → Option Bytes)

/-! ### A file for the examples -/

def demoNumber (base : Nat) (v : Bytes) : Option Nat :=
  v.foldl (fun n c => n.bind fun n => if 48 ≤ c.toNat ∧ c.toNat < 48 + base then some (n * base + (c.toNat - 48)) else none) (some 0)

def demoCfgEnv : CfgEnv Bytes where
  addr v _ _ := some ⟨v.head? = some 47, v⟩
  path v := ascii "/etc/" ++ v
  file p := if p = ascii "/etc/keys" then some (ascii "ssh-rsa QQ\n") else if p = ascii "/etc/own" then some [1] else none
  key k := some k
  positive v := (demoNumber 10 v).filter (0 < ·)
  octal := demoNumber 8
  zeroconf _ _ := true
  zeroconfOk _ := true
  spawn _ := false
  anyAddr _ := ⟨false, ascii "*"⟩

def demoLine (w : String) (args : List CfgToken) : CfgLine := .word (ascii w) :: args
def demoSet (w v : String) : CfgLine := demoLine w [.word (ascii v)]

/-- A cluster and two listeners. -/
def demoItems : List CfgItem :=
  [.setting (demoSet "translation_server" "@translation"),
   .block (demoSet "zeroconf_cluster" "foo") [demoSet "zeroconf_service" "ssh", demoSet "host_key_file" "keys"],
   .block (demoLine "listener" []) [demoSet "bind" "*:22", demoSet "tag" "bar", demoSet "tarpit" "yes",
     demoSet "proxy_to_zeroconf" "foo", demoSet "ack_timeout" "30", demoSet "tag" "baz"],
   .block (demoLine "listener" []) [demoSet "bind" "/run/socket", demoSet "mode" "666", demoSet "host_key_file" "own"]]

/-- The documented section is not recognised. -/
def demoTargetItems : List CfgItem :=
  [.block (demoSet "target_host" "foo") [demoSet "address" "192.168.1.2", demoSet "host_key_file" "keys"],
   .block (demoLine "listener" []) [demoSet "bind" "*:22", demoSet "proxy_to" "foo"]]

/-! ### C77 -/

/-- **C77 (which files are accepted).** A file is accepted if and only if it consists of
settings and sections which follow the documentation and it has no "target_host" section
(that these are refused is a deviation from the documentation). -/
theorem C77_accepted_partial (ls : List CfgLine) :
    (∃ data, loadConfig e decode ls = .ok data) ↔
      ∃ items, ls = cfgText items ∧ FileGood e (loadFile decode) [] List.isEmpty items ∧ NoTargets items := by
  constructor
  · rintro ⟨data, h⟩
    obtain ⟨items, data0, h1, h2, h3, -⟩ := loadConfig_accepts h
    exact ⟨items, h1, h2, h3⟩
  · rintro ⟨items, rfl, h2, h3⟩
    obtain ⟨data0, h, -⟩ := loadConfig_good h2 h3
    exact ⟨_, h⟩

example : (∃ data, loadConfig demoCfgEnv demoDecode (cfgText demoItems) = .ok data) ∧
    -- not closed
    (loadConfig demoCfgEnv demoDecode [demoLine "listener" [.openBrace], demoSet "bind" "*"] = .error .notClosed) ∧
    -- no address
    (loadConfig demoCfgEnv demoDecode [demoLine "listener" [.openBrace], [.closeBrace]] = .error .missing) := by
  refine ⟨?_, by decide +kernel, by decide +kernel⟩
  have h : (loadConfig demoCfgEnv demoDecode (cfgText demoItems)).toOption.isSome = true := by decide +kernel
  cases hx : loadConfig demoCfgEnv demoDecode (cfgText demoItems) with
  | ok d => exact ⟨d, rfl⟩
  | error x => rw [hx] at h; cases h

theorem check_meaning {items : List CfgItem} {data : CfgData K} (hd : DataOk e decode items data) (hs : AckSmall e items) :
    (data.check e).meaning = meaningOf e (loadFile decode) [] items := by
  have hl : data.listeners.reverse = (blocksOf "listener" items).map (listenerOf e (loadFile decode) []) := by
    rw [hd.listeners]
    apply List.map_congr_left
    intro b hb
    have := hs b hb
    simp only [listenerOf']
    have hx : (listenerOf e (loadFile decode) [] b).ackTimeout % 2 ^ 32 = (listenerOf e (loadFile decode) [] b).ackTimeout :=
      Nat.mod_eq_of_lt this
    rw [hx]
  unfold CfgData.check
  split
  · rename_i h0
    rw [h0] at hl
    simp only [CfgData.meaning, meaningOf, ← hl, hd.translation, hd.populate, hd.clusters, hd.targets, hd.noTargets, hd.exporters,
      hd.controls, List.reverse_nil, List.map_nil, List.reverse_cons, List.nil_append, defaultListener,
      listenerOf, cfgLast, cfgFlag, cfgArgs, keyFiles, cfgValues, zeroconfOf, targetOf, List.filterMap_nil, List.getLast?_nil,
      Option.bind_none, Option.getD_none, List.foldl_nil, ListenerCfg.init]
  · rename_i h0
    have hne : data.listeners.reverse ≠ [] := by simpa using h0
    simp only [CfgData.meaning, meaningOf, ← hl, hd.translation, hd.populate, hd.clusters, hd.targets, hd.noTargets, hd.exporters,
      hd.controls, List.map_nil]

/-- **C77 (what it means).** The server does what the file says: every setting has the value
which was given last (key files accumulate), or its documented default, and if there is no
listener at all, a default one is used. -/
theorem C77_meaning_partial (items : List CfgItem) (hg : FileGood e (loadFile decode) [] List.isEmpty items)
    (hn : NoTargets items) (hs : AckSmall e items) :
    ∃ data, loadConfig e decode (cfgText items) = .ok data ∧ data.meaning = meaningOf e (loadFile decode) [] items := by
  obtain ⟨data0, h, hd⟩ := loadConfig_good hg hn
  exact ⟨_, h, check_meaning e decode hd hs⟩

/-- … and conversely, whatever file was accepted. -/
theorem C77_loaded_partial (ls : List CfgLine) (data : CfgData K) (h : loadConfig e decode ls = .ok data) :
    ∃ items, ls = cfgText items ∧ FileGood e (loadFile decode) [] List.isEmpty items ∧ NoTargets items ∧
      (AckSmall e items → data.meaning = meaningOf e (loadFile decode) [] items) := by
  obtain ⟨items, data0, h1, h2, h3, hd, rfl⟩ := loadConfig_accepts h
  exact ⟨items, h1, h2, h3, check_meaning e decode hd⟩

example : ∃ data, loadConfig demoCfgEnv demoDecode (cfgText demoItems) = .ok data ∧
    data.meaning = meaningOf demoCfgEnv (loadFile demoDecode) [] demoItems ∧
    data.meaning.listeners.map (·.tag) = [ascii "baz", []] ∧ data.meaning.listeners.map (·.mode) = [0, 0o666] ∧
    data.meaning.listeners.map (·.tarpit) = [true, false] ∧ data.meaning.listeners.map (·.ackTimeout) = [30000, 0] ∧
    data.meaning.listeners.map (·.proxyTo) = [some (.cluster (ascii "foo")), none] ∧
    data.meaning.listeners.map (·.hostKeys) = [[], [[1]]] := by
  have h : (loadConfig demoCfgEnv demoDecode (cfgText demoItems)).toOption.any (fun d =>
      d.meaning = meaningOf demoCfgEnv (loadFile demoDecode) [] demoItems ∧
      d.meaning.listeners.map (·.tag) = [ascii "baz", []] ∧ d.meaning.listeners.map (·.mode) = [0, 0o666] ∧
      d.meaning.listeners.map (·.tarpit) = [true, false] ∧ d.meaning.listeners.map (·.ackTimeout) = [30000, 0] ∧
      d.meaning.listeners.map (·.proxyTo) = [some (.cluster (ascii "foo")), none] ∧
      d.meaning.listeners.map (·.hostKeys) = [[], [[1]]]) = true := by decide +kernel
  cases hx : loadConfig demoCfgEnv demoDecode (cfgText demoItems) with
  | ok d => rw [hx] at h; exact ⟨d, rfl, by simpa [Except.toOption] using h⟩
  | error x => rw [hx] at h; cases h

/-- An empty file is the default listener. -/
example : (loadConfig demoCfgEnv demoDecode []).toOption.map (·.meaning.listeners.map fun l => (l.bind, l.ackTimeout, l.keepalive)) =
    some [(some ⟨false, ascii "*"⟩, 60000, true)] := by decide +kernel

/-- **C77 (keys).** A host key is known to a section if and only if one of the files given there
lists it. -/
theorem C77_keys (files : List Bytes) (key : Bytes) :
    KeySet.find (files.foldl (loadFile decode) []) key = files.findSome? (fileContains decode · key) := by
  have h : ∀ s : KeySet, KeySet.find (files.foldl (loadFile decode) s) key =
      (s.find key).or (files.findSome? (fileContains decode · key)) := by
    induction files with
    | nil => intro s; simp
    | cons f fs ih =>
      intro s
      rw [List.foldl_cons, ih]
      unfold loadFile
      rw [find_load]
      simp only [List.findSome?_cons, fileContains]
      cases s.find key with
      | some o => rfl
      | none => cases linesContain decode ((splitLines f).map cLine) key <;> rfl
  have := h []
  rw [this]; rfl

example : KeySet.find ([ascii "# none\n", ascii "ssh-rsa QQ\n"].foldl (loadFile demoDecode) []) [65] = some {} := by
  decide +kernel

theorem lookup_of_mem {α : Type} {n : Bytes} : ∀ {l : List (Bytes × α)}, n ∈ l.map (·.1) → ∃ x, l.lookup n = some x ∧ (n, x) ∈ l
  | [], h => by simp at h
  | (m, y) :: l, h => by
    by_cases hm : n = m
    · subst hm; exact ⟨y, by simp, by simp⟩
    · have h' : n ∈ l.map (·.1) := by simpa [hm] using h
      obtain ⟨x, h1, h2⟩ := lookup_of_mem h'
      exact ⟨x, by rw [List.lookup_cons, beq_eq_false_iff_ne.mpr hm]; exact h1, by simp [h2]⟩

theorem target_values {b : List CfgLine} {t : CfgTarget} (h : targetOf b = some t) :
    (∃ n, t = .host n ∧ n ∈ cfgValues "proxy_to" b) ∨ (∃ n, t = .cluster n ∧ n ∈ cfgValues "proxy_to_zeroconf" b) := by
  unfold targetOf at h
  have hm := List.mem_of_getLast? h
  obtain ⟨l, hl, hf⟩ := List.mem_filterMap.mp hm
  split at hf
  · rename_i w args
    have hv {name : String} (hw : w = ascii name) {n : Bytes} (hn : cfgValue args = some n) : n ∈ cfgValues name b := by
      unfold cfgValues cfgArgs
      rw [List.mem_filterMap]
      exact ⟨args, List.mem_filterMap.mpr ⟨_, hl, by simp [hw]⟩, hn⟩
    split at hf
    · rename_i hw
      cases hc : cfgValue args with
      | none => rw [hc] at hf; cases hf
      | some n => rw [hc] at hf; cases hf; exact .inl ⟨n, rfl, hv hw hc⟩
    · split at hf
      · rename_i hw
        cases hc : cfgValue args with
        | none => rw [hc] at hf; cases hf
        | some n => rw [hc] at hf; cases hf; exact .inr ⟨n, rfl, hv hw hc⟩
      · cases hf
  · cases hf

theorem mem_blocksOf {kind : String} {items : List CfgItem} {body : List CfgLine} (h : body ∈ blocksOf kind items) :
    .block [.word (ascii kind)] body ∈ items := by
  unfold blocksOf at h
  obtain ⟨x, hx, hf⟩ := List.mem_filterMap.mp h
  split at hf
  · split at hf
    · rename_i hw; subst hw; cases hf; exact hx
    · cases hf
  · cases hf

theorem mem_namedBlocks {kind : String} {items : List CfgItem} {n : Bytes} {body : List CfgLine} (h : (n, body) ∈ namedBlocks kind items) :
    ∃ args, .block (.word (ascii kind) :: args) body ∈ items ∧ cfgValue args = some n := by
  unfold namedBlocks at h
  obtain ⟨x, hx, hf⟩ := List.mem_filterMap.mp h
  split at hf
  · rename_i w args b
    split at hf
    · rename_i hw; subst hw
      cases hc : cfgValue args with
      | none => rw [hc] at hf; cases hf
      | some m => rw [hc] at hf; cases hf; exact ⟨args, hx, hc⟩
    · cases hf
  · cases hf

/-- **C77 (forwarding).** If a listener forwards connections, the cluster exists and the host keys
which it is expected to have are those of that section; there is at least one. -/
theorem C77_forward (ls : List CfgLine) (data : CfgData K) (h : loadConfig e decode ls = .ok data) (c : ListenerCfg K)
    (hc : c ∈ data.listeners) :
    (c.proxyTo = none ∧ loadProxyHostKeys data c = some none) ∨
    ∃ name args body, c.proxyTo = some (.cluster name) ∧
      (∃ items, ls = cfgText items ∧ .block (.word (ascii "zeroconf_cluster") :: args) body ∈ items) ∧ cfgValue args = some name ∧
      loadProxyHostKeys data c = some (some ((keyFiles e "host_key_file" body).foldl (loadFile decode) [])) ∧
      (keyFiles e "host_key_file" body).foldl (loadFile decode) [] ≠ [] := by
  obtain ⟨items, d, rfl, hg, hn, hd, rfl⟩ := loadConfig_accepts h
  unfold CfgData.check at hc ⊢
  split at hc
  · rename_i h0
    rw [if_pos h0]
    refine .inl ?_
    have : c.proxyTo = none := by
      rw [List.mem_singleton.mp hc]; rfl
    exact ⟨this, by simp [loadProxyHostKeys, this]⟩
  · rename_i h0
    rw [if_neg h0]
    have hm : c ∈ d.listeners.reverse := by simpa using hc
    rw [hd.listeners] at hm
    obtain ⟨b, hb, rfl⟩ := List.mem_map.mp hm
    obtain ⟨xs, ys, hxy⟩ := List.append_of_mem (mem_blocksOf hb)
    have hL : ListenerGood e xs b := by
      have hx := hg xs _ ys hxy
      generalize hy : CfgItem.block [.word (ascii "listener")] b = y at hx
      cases hx <;> simp (decide := true) at hy
      subst hy; assumption
    have hp : (listenerOf' e decode b).proxyTo = targetOf b := rfl
    cases ht : targetOf b with
    | none => exact .inl ⟨hp.trans ht, by simp [loadProxyHostKeys, hp, ht]⟩
    | some t =>
      rcases target_values ht with ⟨n, rfl, hv⟩ | ⟨n, rfl, hv⟩
      · exfalso
        have := hL.host n hv
        have h2 := hd.noTargets
        rw [hxy] at h2
        unfold namedBlocks at h2 this
        rw [List.filterMap_append] at h2
        rw [(List.append_eq_nil_iff.mp h2).1] at this
        simp at this
      · right
        have h1 := hL.cluster n hv
        have h2 : n ∈ d.clusters.map (·.1) := by
          rw [hd.clusters, List.map_map]
          obtain ⟨x, hx, hxn⟩ := List.mem_map.mp h1
          refine List.mem_map.mpr ⟨x, ?_, hxn⟩
          rw [hxy]
          unfold namedBlocks at hx ⊢
          rw [List.filterMap_append]
          exact List.mem_append_left _ hx
        obtain ⟨x, hx, hxm⟩ := lookup_of_mem h2
        rw [hd.clusters] at hxm
        obtain ⟨⟨n', body⟩, hmem, heq⟩ := List.mem_map.mp hxm
        cases heq
        obtain ⟨args, hblk, hval⟩ := mem_namedBlocks hmem
        refine ⟨_, args, body, hp.trans ht, ⟨items, rfl, hblk⟩, hval, ?_, ?_⟩
        · simp only [loadProxyHostKeys, hp, ht, hx, Option.map_some, clusterOf]
        · obtain ⟨us, vs, huv⟩ := List.append_of_mem hblk
          have hy := hg us _ vs huv
          generalize hz : CfgItem.block (.word (ascii "zeroconf_cluster") :: args) body = y at hy
          cases hy <;> simp (decide := true) at hz
          obtain ⟨rfl, rfl⟩ := hz
          rename_i hG
          have := hG.keys
          simpa [clusterOf] using this

/-- The first of the two listeners forwards to the cluster; the second one does not. -/
example : (loadConfig demoCfgEnv demoDecode (cfgText demoItems)).toOption.map
      (fun d => d.listeners.reverse.map fun c => (loadProxyHostKeys d c).map (·.map (·.map (·.1)))) =
    some [some (some [[65]]), some none] := by decide +kernel

/-- **C77 fails:** "target_host" sections are documented, but a file which has one is refused
(and with it every "proxy_to"). -/
theorem C77_target_violated (items : List CfgItem) (hg : FileGood e (loadFile decode) [] List.isEmpty items)
    (hn : ¬ NoTargets items) : loadConfig e decode (cfgText items) = .error .unknownOption := by
  suffices h : CfgParser.lines e decode {} (cfgText items) = .error .unknownOption by
    simp [loadConfig, h, bind, Except.bind]
  induction items using Aux.snoc_ind with
  | h0 => exact absurd (fun _ _ h => by simp at h) hn
  | h1 items x ih =>
    obtain ⟨hg', hx⟩ := fileGood_snoc.mp hg
    rw [cfgText_snoc, lines_append]
    by_cases h0 : NoTargets items
    · obtain ⟨d, hd, -⟩ := file_run hg' h0
      rw [hd]
      have : ∃ args body, x = .block (.word (ascii "target_host") :: args) body := by
        apply Classical.byContradiction
        intro hno
        apply hn
        intro a b hm
        rcases List.mem_append.mp hm with hm | hm
        · exact h0 a b hm
        · exact hno ⟨a, b, (List.mem_singleton.mp hm).symm⟩
      obtain ⟨args, body, rfl⟩ := this
      simp (decide := true) [bind, Except.bind, CfgItem.text, CfgParser.lines, CfgParser.line, topLine]
    · rw [ih hg' h0]; rfl

/-- The documented file is good and has such a section. -/
example : FileGood demoCfgEnv (loadFile demoDecode) [] List.isEmpty demoTargetItems ∧ ¬ NoTargets demoTargetItems := by
  have hnil : GoodFile demoCfgEnv demoDecode [] := by intro a x b h; simp at h
  refine ⟨(fileGood_snoc (items := [_])).mpr ⟨(fileGood_snoc (items := [])).mpr ⟨hnil, ?_⟩, ?_⟩, fun h => h _ _ (List.mem_cons_self ..)⟩
  · refine .target (.word (ascii "foo")) (ascii "foo") _ rfl ⟨?_, by decide +kernel, by decide +kernel, by simp [namedBlocks]⟩
    intro l hl
    simp only [List.mem_cons, List.not_mem_nil, or_false] at hl
    rcases hl with rfl | rfl
    · exact ⟨"address", .addr 22 false, [.word (ascii "192.168.1.2")], by simp [targetTable], rfl, by decide +kernel⟩
    · exact ⟨"host_key_file", .publicFile, [.word (ascii "keys")], by simp [targetTable], rfl, by decide +kernel⟩
  · refine .listener _ ⟨?_, by decide +kernel, ?_, by decide +kernel, by decide +kernel, by decide +kernel, by decide +kernel⟩
    · intro l hl
      simp only [List.mem_cons, List.not_mem_nil, or_false] at hl
      rcases hl with rfl | rfl
      · exact ⟨"bind", .addr 2200 true, [.word (ascii "*:22")], by simp [listenerTable], rfl, by decide +kernel⟩
      · exact ⟨"proxy_to", .text, [.word (ascii "foo")], by simp [listenerTable], rfl, by decide +kernel⟩
    · have h := (modeOk_snoc (e := demoCfgEnv) (port := 2200) (b := [demoSet "bind" "*:22"]) (w := ascii "proxy_to") (args := [.word (ascii "foo")])).mpr
        ⟨(modeOk_snoc (e := demoCfgEnv) (port := 2200) (b := []) (w := ascii "bind") (args := [.word (ascii "*:22")])).mpr
          ⟨modeOk_nil, fun h => absurd h (by decide +kernel)⟩, fun h => absurd h (by decide +kernel)⟩
      exact h

/-- **C77 fails:** a timeout of 4294968 seconds, which is a positive integer, becomes
704 milliseconds. -/
theorem C77_ack_violated :
    (loadConfig demoCfgEnv demoDecode [demoLine "listener" [.openBrace], demoSet "bind" "*:22", demoSet "ack_timeout" "4294968",
      [.closeBrace]]).toOption.map (·.meaning.listeners.map (·.ackTimeout)) = some [704] := by decide +kernel

end

end Lukko
