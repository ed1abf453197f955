import Verif.Model.Algorithms
import Verif.Spec.Algorithms
/-
  C11, C48, C49: algorithm negotiation.
-/
namespace Lukko
open Spec Model

theorem splitComma_ne_nil (s : Bytes) : splitComma s ≠ [] := by
  induction s with
  | nil => simp [splitComma]
  | cons c t ih => rw [splitComma]; split; · simp
                   · split <;> simp

theorem splitComma_name {n : Bytes} (h : (44 : UInt8) ∉ n) : splitComma n = [n] := by
  induction n with
  | nil => rfl
  | cons c t ih =>
    simp only [List.mem_cons, not_or] at h
    rw [splitComma, if_neg (by simpa using Ne.symm h.1), ih h.2]

theorem splitComma_append {n rest : Bytes} (h : (44 : UInt8) ∉ n) :
    splitComma (n ++ 44 :: rest) = n :: splitComma rest := by
  induction n with
  | nil => simp [splitComma]
  | cons c t ih =>
    simp only [List.mem_cons, not_or] at h
    rw [List.cons_append, splitComma, if_neg (by simpa using Ne.symm h.1), ih h.2]

theorem splitComma_nameList {ns : List Bytes} (hn : ∀ n ∈ ns, IsName n) (hne : ns ≠ []) :
    splitComma (nameList ns) = ns := by
  induction ns with
  | nil => exact absurd rfl hne
  | cons n ns ih =>
    cases ns with
    | nil => exact splitComma_name (hn n (by simp)).2
    | cons m ms =>
      rw [nameList, splitComma_append (hn n (by simp)).2]
      · rw [ih (fun x hx => hn x (List.mem_cons_of_mem _ hx)) (by simp)]
      · simp

/-- The names in a transmitted list (also for the empty list, whose only item
is the empty string). -/
theorem mem_splitComma_nameList {ns : List Bytes} (hn : ∀ n ∈ ns, IsName n) {x : Bytes} (hx : x ≠ []) :
    x ∈ splitComma (nameList ns) ↔ x ∈ ns := by
  cases ns with
  | nil => simp [nameList, splitComma, hx]
  | cons n ns => rw [splitComma_nameList hn (by simp)]

theorem findCommon_eq {client server : List Bytes} (hc : ∀ n ∈ client, IsName n)
    (hs : ∀ n ∈ server, IsName n) :
    findCommonAlgorithm (nameList client) (nameList server) = (firstCommon client server).getD [] := by
  unfold findCommonAlgorithm
  have key : ∀ l : List Bytes, (∀ n ∈ l, n ≠ []) →
      findCommonAlgorithm.go (nameList server) l = (firstCommon l server).getD [] := by
    intro l hl
    induction l with
    | nil => rfl
    | cons n l ih =>
      have hn := hl n (by simp)
      rw [findCommonAlgorithm.go, ih (fun x hx => hl x (List.mem_cons_of_mem _ hx))]
      simp only [stringListContains, List.contains_iff_mem, mem_splitComma_nameList hs hn, firstCommon,
        List.find?_cons]
      by_cases h : n ∈ server <;> simp [h]
  by_cases he : client = []
  · subst he
    simp only [nameList, splitComma, findCommonAlgorithm.go, firstCommon, List.find?_nil, Option.getD_none]
    split <;> rfl
  · rw [splitComma_nameList hc he]
    exact key _ (fun n h => (hc n h).1)

theorem firstCommon_none {client server : List Bytes} :
    firstCommon client server = none ↔ ∀ n ∈ client, n ∉ server := by
  simp [firstCommon]

/-- **C11.** Ciphers and MACs.  A server offering `S` and a client offering `C`
(each the same list for both directions, as lukko does), and any lists of the
peer: for both directions, the server's choice for a direction equals the
client's choice for the same direction, and it is the first name of the
client's list for that direction which the server offers as well; if there is
none, both get the empty name. -/
theorem C11_same_cipher (S C : List Bytes) (hS : ∀ n ∈ S, IsName n) (hC : ∀ n ∈ C, IsName n) :
    (findNegotiatedAlgorithm .server .incoming (nameList S) (nameList C) (nameList C) =
        (firstCommon C S).getD []) ∧
    (findNegotiatedAlgorithm .client .outgoing (nameList C) (nameList S) (nameList S) =
        (firstCommon C S).getD []) ∧
    (findNegotiatedAlgorithm .server .outgoing (nameList S) (nameList C) (nameList C) =
        (firstCommon C S).getD []) ∧
    (findNegotiatedAlgorithm .client .incoming (nameList C) (nameList S) (nameList S) =
        (firstCommon C S).getD []) := by
  refine ⟨?_, ?_, ?_, ?_⟩ <;> exact findCommon_eq hC hS

/-- **C11.** The same against any peer, whose lists for the two directions may
differ: in the server role the client's list for that direction decides. -/
theorem C11_server_choice (S c2s s2c : List Bytes) (hS : ∀ n ∈ S, IsName n) (h1 : ∀ n ∈ c2s, IsName n)
    (h2 : ∀ n ∈ s2c, IsName n) :
    (findNegotiatedAlgorithm .server .incoming (nameList S) (nameList c2s) (nameList s2c) =
        (firstCommon c2s S).getD []) ∧
    (findNegotiatedAlgorithm .server .outgoing (nameList S) (nameList c2s) (nameList s2c) =
        (firstCommon s2c S).getD []) :=
  ⟨findCommon_eq h1 hS, findCommon_eq h2 hS⟩

/-- **C11.** In the client role our own list decides, restricted to what the
server offers for that direction. -/
theorem C11_client_choice (C c2s s2c : List Bytes) (hC : ∀ n ∈ C, IsName n) (h1 : ∀ n ∈ c2s, IsName n)
    (h2 : ∀ n ∈ s2c, IsName n) :
    (findNegotiatedAlgorithm .client .outgoing (nameList C) (nameList c2s) (nameList s2c) =
        (firstCommon C c2s).getD []) ∧
    (findNegotiatedAlgorithm .client .incoming (nameList C) (nameList c2s) (nameList s2c) =
        (firstCommon C s2c).getD []) :=
  ⟨findCommon_eq hC h1, findCommon_eq hC h2⟩

/-- The names lukko offers. -/
def serverKexNames : List Bytes :=
  [ascii "curve25519-sha256", ascii "ecdh-sha2-nistp256", ascii "kex-strict-s-v00@openssh.com"]
def clientKexNames : List Bytes :=
  [ascii "curve25519-sha256", ascii "ecdh-sha2-nistp256", ascii "kex-strict-c-v00@openssh.com"]
def encryptionNames : List Bytes :=
  [ascii "chacha20-poly1305@openssh.com", ascii "aes128-ctr", ascii "aes192-ctr", ascii "aes256-ctr",
   ascii "aes128-gcm@openssh.com", ascii "aes256-gcm@openssh.com"]
def macNames : List Bytes := [ascii "hmac-sha2-256"]

instance (n : Bytes) : Decidable (IsName n) := inferInstanceAs (Decidable (_ ∧ _))

theorem offered_lists :
    allServerKexAlgorithms = nameList serverKexNames ∧ allClientKexAlgorithms = nameList clientKexNames ∧
    allEncryptionAlgorithms = nameList encryptionNames ∧ allMacAlgorithms = nameList macNames := by
  decide +kernel

theorem offered_names : (∀ n ∈ serverKexNames, IsName n) ∧ (∀ n ∈ clientKexNames, IsName n) ∧
    (∀ n ∈ encryptionNames, IsName n) ∧ (∀ n ∈ macNames, IsName n) := by
  decide +kernel

/-- What `makeKex` makes of one name. -/
theorem makeKex_name {n : Bytes} (h : (44 : UInt8) ∉ n) :
    makeKex n = if n = ascii "curve25519-sha256" then some .curve25519
      else if n = ascii "ecdh-sha2-nistp256" then some .ecdhNistp256 else none := by
  simp [makeKex, splitComma_name h, makeKex.go]

/-- **C11.** Key exchange methods: both roles pick the first name of the
client's list which the server also offers (`HandleKexInit`,
Connection.cxx:481-484); if this is a key exchange method (and not a
pseudo-algorithm such as `kex-strict-…`), that method is used, otherwise –
in particular when there is no common name – the exchange fails. -/
theorem C11_kex_method (peer : List Bytes) (hp : ∀ n ∈ peer, IsName n) :
    (makeKex (findCommonAlgorithm (nameList peer) allServerKexAlgorithms) =
      match firstCommon peer serverKexNames with
      | none => none
      | some n => if n = ascii "curve25519-sha256" then some .curve25519
        else if n = ascii "ecdh-sha2-nistp256" then some .ecdhNistp256 else none) ∧
    (makeKex (findCommonAlgorithm allClientKexAlgorithms (nameList peer)) =
      match firstCommon clientKexNames peer with
      | none => none
      | some n => if n = ascii "curve25519-sha256" then some .curve25519
        else if n = ascii "ecdh-sha2-nistp256" then some .ecdhNistp256 else none) := by
  obtain ⟨e1, e2, _, _⟩ := offered_lists
  obtain ⟨n1, n2, _, _⟩ := offered_names
  have hnil : makeKex [] = none := by decide
  constructor
  · rw [e1, findCommon_eq hp n1]
    cases h : firstCommon peer serverKexNames with
    | none => exact hnil
    | some n =>
      have : n ∈ peer := List.mem_of_find?_eq_some h
      exact makeKex_name (hp n this).2
  · rw [e2, findCommon_eq n2 hp]
    cases h : firstCommon clientKexNames peer with
    | none => exact hnil
    | some n =>
      have : n ∈ clientKexNames := List.mem_of_find?_eq_some h
      exact makeKex_name (n2 n this).2

/-- Example: the client's preference wins over the server's. -/
example : firstCommon [ascii "x", ascii "aes256-ctr", ascii "aes128-ctr"] encryptionNames =
      some (ascii "aes256-ctr") ∧
    findNegotiatedAlgorithm .server .incoming allEncryptionAlgorithms
      (ascii "x,aes256-ctr,aes128-ctr") (ascii "aes128-ctr") = ascii "aes256-ctr" := by decide +kernel

/-! ### C48 -/

theorem makeMac_go_auth {l : List Bytes} {next k : CipherKind} (h : makeMacCipher.go next l = some k) :
    k = .hmacSha256 next := by
  induction l with
  | nil => simp [makeMacCipher.go] at h
  | cons a l ih =>
    rw [makeMacCipher.go] at h
    split at h
    · simpa using h.symm
    · exact ih h

/-- **C48.** Whatever names were negotiated, a cipher that gets constructed is
authenticated: it is an AEAD, or a MAC wrapped around an AES-CTR cipher. -/
theorem C48_always_authenticated (enc mac : Bytes) (k : CipherKind) (h : makeCipher enc mac = some k) :
    k = .chacha20poly1305 ∨ (∃ n, k = .aesGcm n) ∨ (∃ n, k = .hmacSha256 (.aesCtr n)) := by
  have henc : ∀ l k, makeEncryptionCipher.go l = some k →
      k = .chacha20poly1305 ∨ (∃ n, k = .aesGcm n) ∨ (∃ n, k = .aesCtr n) := by
    intro l
    induction l with
    | nil => intro k h; simp [makeEncryptionCipher.go] at h
    | cons a l ih =>
      intro k h
      rw [makeEncryptionCipher.go] at h
      repeat' split at h
      all_goals first
        | (simp at h; subst h; simp)
        | exact ih k h
  unfold makeCipher at h
  split at h
  · simp at h
  · rename_i c hc
    have := henc _ _ hc
    split at h
    · rename_i ha
      have hk := makeMac_go_auth h
      rcases this with rfl | ⟨n, rfl⟩ | ⟨n, rfl⟩
      · simp [CipherKind.authSize] at ha
      · simp [CipherKind.authSize] at ha
      · exact .inr (.inr ⟨n, hk⟩)
    · rename_i ha
      simp at h; subst h
      rcases this with rfl | ⟨n, rfl⟩ | ⟨n, rfl⟩
      · exact .inl rfl
      · exact .inr (.inl ⟨n, rfl⟩)
      · simp [CipherKind.authSize] at ha

/-- **C48.** An unknown encryption algorithm, or an unauthenticated one without
a known MAC, yields no cipher (the callers then abort the key exchange,
Connection.cxx:404-408, 580-584). -/
theorem C48_unknown_refused (enc mac : List Bytes) (he : ∀ n ∈ enc, IsName n) (hm : ∀ n ∈ mac, IsName n) :
    ((∀ n ∈ enc, n ∉ encryptionNames) → makeCipher (nameList enc) (nameList mac) = none) ∧
    ((∀ n ∈ enc, n ≠ ascii "chacha20-poly1305@openssh.com" ∧ n ≠ ascii "aes128-gcm@openssh.com" ∧
        n ≠ ascii "aes256-gcm@openssh.com") → ascii "hmac-sha2-256" ∉ mac →
      makeCipher (nameList enc) (nameList mac) = none) := by
  have hmem : ∀ (ns : List Bytes), (∀ n ∈ ns, IsName n) → ∀ x ∈ splitComma (nameList ns), x = [] ∨ x ∈ ns := by
    intro ns hns x hx
    by_cases h : x = []
    · exact .inl h
    · exact .inr ((mem_splitComma_nameList hns h).1 hx)
  constructor
  · intro h
    have : ∀ l : List Bytes, (∀ x ∈ l, x ∉ encryptionNames) → makeEncryptionCipher.go l = none := by
      intro l hl
      induction l with
      | nil => rfl
      | cons a l ih =>
        have ha := hl a (by simp)
        simp only [encryptionNames, List.mem_cons, List.not_mem_nil, or_false, not_or] at ha
        rw [makeEncryptionCipher.go, if_neg ha.1, if_neg ha.2.1, if_neg ha.2.2.1, if_neg ha.2.2.2.1,
          if_neg ha.2.2.2.2.1, if_neg ha.2.2.2.2.2]
        exact ih (fun x hx => hl x (List.mem_cons_of_mem _ hx))
    unfold makeCipher makeEncryptionCipher
    rw [this]
    intro x hx
    rcases hmem enc he x hx with rfl | hx
    · decide +kernel
    · exact h x hx
  · intro h hmac
    have h1 : ∀ l : List Bytes, (∀ x ∈ l, x ≠ ascii "chacha20-poly1305@openssh.com" ∧
        x ≠ ascii "aes128-gcm@openssh.com" ∧ x ≠ ascii "aes256-gcm@openssh.com") →
        ∀ k, makeEncryptionCipher.go l = some k → ∃ n, k = .aesCtr n := by
      intro l hl
      induction l with
      | nil => intro k hk; simp [makeEncryptionCipher.go] at hk
      | cons a l ih =>
        intro k hk
        have ha := hl a (by simp)
        rw [makeEncryptionCipher.go, if_neg ha.1] at hk
        split at hk
        · simp at hk; exact ⟨_, hk.symm⟩
        · split at hk
          · simp at hk; exact ⟨_, hk.symm⟩
          · split at hk
            · simp at hk; exact ⟨_, hk.symm⟩
            · rw [if_neg ha.2.1, if_neg ha.2.2] at hk
              exact ih (fun x hx => hl x (List.mem_cons_of_mem _ hx)) k hk
    have h2 : ∀ (l : List Bytes) (k : CipherKind), (∀ x ∈ l, x ≠ ascii "hmac-sha2-256") →
        makeMacCipher.go k l = none := by
      intro l k hl
      induction l with
      | nil => rfl
      | cons a l ih =>
        rw [makeMacCipher.go, if_neg (hl a (by simp))]
        exact ih (fun x hx => hl x (List.mem_cons_of_mem _ hx))
    unfold makeCipher
    split
    · rfl
    · rename_i c hc
      obtain ⟨n, rfl⟩ := h1 _ (by
        intro x hx
        rcases hmem enc he x hx with rfl | hx
        · decide +kernel
        · exact h x hx) c hc
      rw [if_pos (show (CipherKind.aesCtr n).authSize = 0 from rfl)]
      refine h2 _ _ ?_
      intro x hx
      rcases hmem mac hm x hx with rfl | hx
      · decide +kernel
      · intro e; exact hmac (e ▸ hx)

example : makeCipher (ascii "aes128-ctr") (ascii "hmac-sha2-256") = some (.hmacSha256 (.aesCtr 16)) ∧
    makeCipher (ascii "aes128-ctr") (ascii "none") = none ∧
    makeCipher (ascii "aes128-cbc") (ascii "hmac-sha2-256") = none ∧
    makeCipher (ascii "chacha20-poly1305@openssh.com") [] = some .chacha20poly1305 := by decide +kernel

/-! ### C49 -/

/-- The names a key supports. -/
def HostKey.names (k : HostKey) : List Bytes := splitComma k.algorithms

/-- Invariant of the list: the map holds exactly the names of the keys, and each
entry's key supports the name and belongs to the list. -/
structure KeyListInv (l : SecretKeyList) : Prop where
  sound : ∀ a k, l.algorithmToKey.lookup a = some k → k ∈ l.keys ∧ a ∈ HostKey.names k
  complete : ∀ k ∈ l.keys, ∀ a ∈ HostKey.names k, (l.algorithmToKey.lookup a).isSome

theorem lookup_append_none {α β} [BEq α] {l m : List (α × β)} {a : α} (h : l.lookup a = none) :
    (l ++ m).lookup a = m.lookup a := by
  induction l with
  | nil => rfl
  | cons x l ih =>
    obtain ⟨k, v⟩ := x
    simp only [List.cons_append, List.lookup_cons] at h ⊢
    split
    · rename_i hk; simp [hk] at h
    · rename_i hk; simp only [hk] at h; exact ih h

theorem lookup_append_some {α β} [BEq α] {l m : List (α × β)} {a : α} {v : β} (h : l.lookup a = some v) :
    (l ++ m).lookup a = some v := by
  induction l with
  | nil => simp at h
  | cons x l ih =>
    obtain ⟨k, w⟩ := x
    simp only [List.cons_append, List.lookup_cons] at h ⊢
    split
    · rename_i hk; simpa [hk] using h
    · rename_i hk; simp only [hk] at h; exact ih h

theorem add_go_inv (key : HostKey) (as : List Bytes) (l : SecretKeyList)
    (has : ∀ a ∈ as, a ∈ HostKey.names key) (hk : key ∈ l.keys)
    (hs : ∀ a k, l.algorithmToKey.lookup a = some k → k ∈ l.keys ∧ a ∈ HostKey.names k) :
    (SecretKeyList.add.go key as l).keys = l.keys ∧
    (∀ a k, (SecretKeyList.add.go key as l).algorithmToKey.lookup a = some k →
      k ∈ l.keys ∧ a ∈ HostKey.names k) ∧
    (∀ a, (l.algorithmToKey.lookup a).isSome ∨ a ∈ as →
      ((SecretKeyList.add.go key as l).algorithmToKey.lookup a).isSome) := by
  induction as generalizing l with
  | nil => exact ⟨rfl, hs, fun a h => by simpa [SecretKeyList.add.go] using h⟩
  | cons a as ih =>
    have has' := fun x hx => has x (List.mem_cons_of_mem a hx)
    rw [SecretKeyList.add.go]
    split
    · rename_i v hv
      obtain ⟨h1, h2, h3⟩ := ih l has' hk hs
      refine ⟨h1, h2, fun b hb => h3 b ?_⟩
      rcases hb with hb | hb
      · exact .inl hb
      · rcases List.mem_cons.1 hb with rfl | hb
        · exact .inl (by simp [hv])
        · exact .inr hb
    · rename_i hn
      have hs' : ∀ b k, (l.algorithmToKey ++ [(a, key)]).lookup b = some k → k ∈ l.keys ∧ b ∈ HostKey.names k := by
        intro b k hb
        cases hl : l.algorithmToKey.lookup b with
        | some v =>
          rw [lookup_append_some hl] at hb
          exact hs b k (by rw [hl]; exact hb)
        | none =>
          rw [lookup_append_none hl] at hb
          simp only [List.lookup_cons, List.lookup_nil] at hb
          split at hb
          · rename_i he
            simp at hb he; subst hb; subst he
            exact ⟨hk, has b (by simp)⟩
          · simp at hb
      obtain ⟨h1, h2, h3⟩ := ih { l with algorithmToKey := l.algorithmToKey ++ [(a, key)], algorithms := _ } has' hk hs'
      refine ⟨h1, h2, fun b hb => h3 b ?_⟩
      simp only
      rcases hb with hb | hb
      · obtain ⟨v, hv⟩ := Option.isSome_iff_exists.1 hb
        exact .inl (by rw [lookup_append_some hv]; rfl)
      · rcases List.mem_cons.1 hb with rfl | hb
        · refine .inl ?_
          rw [lookup_append_none hn]
          simp
        · exact .inr hb

theorem KeyListInv.init : KeyListInv {} := ⟨by simp, by simp⟩

theorem KeyListInv.add {l : SecretKeyList} (h : KeyListInv l) (key : HostKey) : KeyListInv (l.add key) := by
  obtain ⟨h1, h2, h3⟩ := add_go_inv key (HostKey.names key) { l with keys := key :: l.keys }
    (fun _ h => h) (by simp) (fun a k hl => by
      obtain ⟨g1, g2⟩ := h.sound a k hl
      exact ⟨List.mem_cons_of_mem _ g1, g2⟩)
  have hk : (l.add key).keys = key :: l.keys := h1
  refine ⟨fun a k hl => by rw [hk]; exact h2 a k hl, fun k hkm a ha => ?_⟩
  rw [hk] at hkm
  refine h3 a ?_
  rcases List.mem_cons.1 hkm with rfl | hkm
  · exact .inr ha
  · exact .inl (h.complete k hkm a ha)

/-- The list of host keys after adding these keys. -/
def keyList (ks : List HostKey) : SecretKeyList := ks.foldl SecretKeyList.add {}

theorem keyList_inv (ks : List HostKey) : KeyListInv (keyList ks) ∧ ∀ k, k ∈ (keyList ks).keys ↔ k ∈ ks := by
  suffices H : ∀ l, KeyListInv l → KeyListInv (ks.foldl SecretKeyList.add l) ∧
      ∀ k, k ∈ (ks.foldl SecretKeyList.add l).keys ↔ k ∈ ks ∨ k ∈ l.keys by
    obtain ⟨h1, h2⟩ := H {} KeyListInv.init
    exact ⟨h1, fun k => by simp [keyList, h2]⟩
  induction ks with
  | nil => intro l h; exact ⟨h, by simp⟩
  | cons x ks ih =>
    intro l h
    obtain ⟨h1, h2⟩ := ih _ (h.add x)
    refine ⟨h1, fun k => ?_⟩
    have hk : (l.add x).keys = x :: l.keys :=
      (add_go_inv x (HostKey.names x) { l with keys := x :: l.keys }
        (fun _ h => h) (by simp) (fun a k hl => by
          obtain ⟨g1, g2⟩ := h.sound a k hl
          exact ⟨List.mem_cons_of_mem _ g1, g2⟩)).1
    simp only [List.foldl_cons, h2, hk, List.mem_cons]
    grind

/-- **C49.** For every set of host keys and every client list: the key chosen is
one of the server's own, it supports the chosen algorithm, and the algorithm is
the first in the client's list which any of the server's keys supports; if there
is none, no key is chosen (the caller aborts, Connection.cxx:517-521). -/
theorem C49_host_key_choice (ks : List HostKey) (client : List Bytes) (hc : ∀ n ∈ client, IsName n) :
    match client.find? (fun n => ks.any fun k => n ∈ splitComma k.algorithms) with
    | none => (keyList ks).choose (nameList client) = none
    | some n => ∃ k ∈ ks, n ∈ splitComma k.algorithms ∧
        (keyList ks).choose (nameList client) = some (k, n) := by
  obtain ⟨hinv, hk⟩ := keyList_inv ks
  have key : ∀ l : List Bytes, (∀ n ∈ l, n ≠ []) →
      match l.find? (fun n => ks.any fun k => n ∈ splitComma k.algorithms) with
      | none => SecretKeyList.choose.go (keyList ks) l = none
      | some n => ∃ k ∈ ks, n ∈ splitComma k.algorithms ∧
          SecretKeyList.choose.go (keyList ks) l = some (k, n) := by
    intro l hl
    induction l with
    | nil => simp [SecretKeyList.choose.go]
    | cons n l ih =>
      rw [SecretKeyList.choose.go, if_neg (hl n (by simp))]
      cases hany : ks.any fun k => n ∈ splitComma k.algorithms with
      | true =>
        simp only [List.find?_cons, hany]
        simp only [List.any_eq_true, decide_eq_true_eq] at hany
        obtain ⟨k, hk1, hk2⟩ := hany
        have := hinv.complete k ((hk k).2 hk1) n hk2
        obtain ⟨k', hk'⟩ := Option.isSome_iff_exists.1 this
        obtain ⟨g1, g2⟩ := hinv.sound n k' hk'
        exact ⟨k', (hk k').1 g1, g2, by rw [hk']⟩
      | false =>
        simp only [List.find?_cons, hany]
        have hno : (keyList ks).algorithmToKey.lookup n = none := by
          cases hl' : (keyList ks).algorithmToKey.lookup n with
          | none => rfl
          | some k =>
            obtain ⟨g1, g2⟩ := hinv.sound n k hl'
            have : (ks.any fun k => n ∈ splitComma k.algorithms) = true := by
              simp only [List.any_eq_true, decide_eq_true_eq]
              exact ⟨k, (hk k).1 g1, g2⟩
            rw [hany] at this; simp at this
        rw [hno]
        exact ih (fun x hx => hl x (List.mem_cons_of_mem _ hx))
  by_cases he : client = []
  · subst he
    simp [SecretKeyList.choose, nameList, splitComma, SecretKeyList.choose.go]
  · have := key client (fun n h => (hc n h).1)
    rw [← splitComma_nameList hc he] at this
    unfold SecretKeyList.choose
    rw [splitComma_nameList hc he] at this ⊢
    exact this

/-- Example: an ed25519 and an RSA key; the client prefers an algorithm the
server has no key for, then RSA. -/
example : (keyList [⟨0, ascii "ssh-ed25519"⟩, ⟨1, ascii "rsa-sha2-256,rsa-sha2-512,ssh-rsa"⟩]).choose
    (ascii "ecdsa-sha2-nistp256,rsa-sha2-512,ssh-ed25519") =
    some (⟨1, ascii "rsa-sha2-256,rsa-sha2-512,ssh-rsa"⟩, ascii "rsa-sha2-512") := by decide +kernel

end Lukko
