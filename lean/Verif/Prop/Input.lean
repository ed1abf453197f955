import Verif.Proof.Script
/-
  C02, C03, C07, C08: receiving packets.
-/
namespace Lukko
open Spec Model

variable {σ : Type} {ops : CipherOps σ}

/-- Nothing is left to be done: no packet is being handled, the worker thread
is idle and would find no complete packet, and asking for a packet yields none.
-/
def Quiet (ops : CipherOps σ) (s : InputSys σ) : Prop :=
  s.handling = none ∧ s.worker = .idle ∧ s.input.error = false ∧
  (∃ i, s.input.readPacket = .ok (none, i)) ∧
  (s.input.encrypted = true → s.input.rawBuffer = [] ∧
    ∃ i, s.input.runLoop ops [] = .ok (i, .finish [] false))

theorem quiet_complete (hs : Sane ops) {s : InputSys σ} (h : InputInv ops s) (hq : Quiet ops s) :
    s.delivered.map some = decode ops s.installs none 0 s.fed := by
  obtain ⟨hh, hw, he, ⟨i, hr⟩, hl⟩ := hq
  have e : s.all ops [] [] = decode ops s.installs none 0 s.fed := by simp [InputSys.all]
  rw [← e]
  rcases h with ⟨h1, h2, h3, h4, h5, h6, h7, b, hb, h8⟩ | ⟨h1, h2, h3, b, hb, hq, h8⟩ | h
  · rcases h8 with ⟨w, hn, hdr, hp, hd⟩ | ⟨w, hp, hi, ⟨p, hp', _⟩, hd⟩
    · rw [hd]
      have hrp : s.input.readPacket = s.input.readUnencryptedPacket := by
        simp [Input.readPacket, h1]
      rw [hrp] at hr
      rcases readUnencrypted_cases (ops := ops) hp w b with
        ⟨i', hdr', hr', hp', happ, ⟨n, hi'⟩, hnx⟩ | ⟨hr', hnx⟩ | ⟨p, n, hr', hne, hnx⟩
      · rw [List.append_nil, decode_needMore hnx]; simp
      · rw [hr'] at hr; simp at hr
      · rw [hr'] at hr; simp at hr
    · rw [hh] at hp'; simp at hp'
  · have hdl : s.input.decryptedList = [] := by
      cases hdl : s.input.decryptedList with
      | nil => rfl
      | cons d t => rw [readPacket_cons h1 h2 hdl] at hr; simp at hr
    have hpe : s.pending = [] := by simp [InputSys.pending, hdl, hw, Worker.list]
    rcases h8 with ⟨w, hf, hn, hse, c₀, hp, hd⟩ | ⟨hp, hw', hkk, hd⟩
    · obtain ⟨hraw, i', hrl⟩ := hl h1
      rw [hd, hpe, hraw]
      rcases runLoop_cases hs hp [] with ⟨i', hr', _, _, hnx⟩ | ⟨hr', hnx⟩ | ⟨d, c₂, n, hr', hnx⟩
      · rw [List.append_nil, List.append_nil, decode_needMore hnx]; simp [number]
      · rw [hr'] at hrl; simp at hrl
      · rw [hr'] at hrl
        simp only [Except.ok.injEq, Prod.mk.injEq] at hrl
        have := hrl.2
        split at this <;> simp at this
    · rcases hkk with ⟨_, pl, d, hpl, _⟩ | ⟨_, _, _, p, hp', _⟩
      · rw [hpe] at hpl; simp at hpl
      · rw [hh] at hp'; simp at hp'
  · rw [h.2.1] at he; simp at he

/-- The reference decoder on a stream of unencrypted packets. -/
theorem decode_plain (xs : List (Sent σ)) (hL : Legal (fun _ _ => True) xs)
    (hn : ∀ x ∈ xs, x.switch = none) (cs : List (σ × Bool)) (seq : Nat) (t : Bytes) :
    decode ops cs none seq ((xs.map (·.pkt)).flatten ++ t) =
      (numbered seq xs).map some ++ decode ops cs none (seq + xs.length) t := by
  induction xs generalizing seq with
  | nil => simp [numbered]
  | cons x xs ih =>
    obtain ⟨hne, hsz, bs, aad, hpk⟩ := hL.packets x (List.mem_cons_self ..)
    obtain ⟨hbe, hok, h4, hpo⟩ := payloadOf_packet hpk hne hsz
    have hx := hn x (List.mem_cons_self ..)
    have hnk : isNewKeys x.payload = false := by
      have := hL.switches x (List.mem_cons_self ..)
      rw [hx] at this
      cases h : isNewKeys x.payload <;> simp_all
    have hnx : ∀ t, next ops none seq (x.pkt ++ t) = .packet x.payload none x.pkt.length := by
      intro t
      unfold next
      rw [if_neg (by simp; omega)]
      simp only [List.take_append_of_le_length h4, hbe]
      rw [if_neg (by simpa using hok), if_neg (by simp; omega),
        List.drop_append_of_le_length h4, List.take_append_of_le_length (by simp),
        List.take_of_length_le (by simp), hpo]
      simp only [Next.packet.injEq, true_and]; omega
    simp only [List.map_cons, List.flatten_cons, List.append_assoc, numbered, hx, List.cons_append,
      List.length_cons]
    rw [decode_packet (hnx _) hnk, List.drop_left,
      ih ⟨fun y hy => hL.packets y (List.mem_cons_of_mem _ hy),
        fun y hy => hL.switches y (List.mem_cons_of_mem _ hy),
        fun y hy => hL.matched y (List.mem_cons_of_mem _ hy)⟩
        (fun y hy => hn y (List.mem_cons_of_mem _ hy))]
    have : seq + 1 + xs.length = seq + (xs.length + 1) := by omega
    rw [this]

theorem reachable_inv (hs : Sane ops) {es : List (InputEvent σ)} {s : InputSys σ}
    (hrun : ({} : InputSys σ).run ops es = some s) : InputInv ops s := by
  obtain ⟨s', hr', hinv⟩ := inv_run hs es (inv_init (ops := ops))
  rw [hrun] at hr'
  exact Option.some.inj hr' ▸ hinv

theorem numbered_payloads (xs : List (Sent σ)) (seq : Nat) :
    (numbered seq xs).map (·.2) = xs.map (·.payload) := by
  induction xs generalizing seq with
  | nil => rfl
  | cons x xs ih =>
    simp only [numbered, List.map_cons]
    cases x.switch with
    | none => simp [ih]
    | some v => simp [ih]

/-- `Quiet`, computed. -/
def quietB (ops : CipherOps σ) (s : InputSys σ) : Bool :=
  s.handling.isNone && s.worker == .idle && !s.input.error &&
  (match s.input.readPacket with | .ok (none, _) => true | _ => false) &&
  (!s.input.encrypted || (s.input.rawBuffer.isEmpty &&
    match s.input.runLoop ops [] with | .ok (_, .finish [] false) => true | _ => false))

theorem quiet_of_quietB {s : InputSys σ} (h : quietB ops s = true) : Quiet ops s := by
  simp only [quietB, Bool.and_eq_true, Bool.or_eq_true] at h
  obtain ⟨⟨⟨⟨h1, h2⟩, h3⟩, h4⟩, h5⟩ := h
  refine ⟨by simpa using h1, by simpa using h2, by simpa using h3, ?_, ?_⟩
  · split at h4
    · rename_i i h; exact ⟨i, h⟩
    · simp at h4
  · intro he
    rcases h5 with h5 | ⟨h5, h6⟩
    · simp [he] at h5
    · refine ⟨by simpa using h5, ?_⟩
      split at h6
      · rename_i i h; exact ⟨i, h⟩
      · simp at h6

theorem exists_of_check {α : Type} {o : Option α} {p : α → Bool} {P : α → Prop}
    (h : (o.map p) = some true) (hp : ∀ a, p a = true → P a) : ∃ a, o = some a ∧ P a := by
  cases o with
  | none => simp at h
  | some a => exact ⟨a, rfl, hp a (by simpa using h)⟩

/-! ## C02 -/

/-- **C02.** Unencrypted packets: whatever the peer sends as a sequence of
well-formed packets (none of them NEWKEYS), however the stream is cut into
chunks and however reading is interleaved with its arrival, the payloads
delivered so far are the first ones sent, in order and unaltered; and once
nothing is left to do, all of them have been delivered. -/
theorem C02_unencrypted_framing (hs : Sane ops) (xs : List (Sent σ))
    (hL : Legal (fun _ _ => True) xs) (hn : ∀ x ∈ xs, x.switch = none)
    (es : List (InputEvent σ)) {s : InputSys σ} (hrun : ({} : InputSys σ).run ops es = some s)
    (hfed : ∃ t, s.fed ++ t = (xs.map (·.pkt)).flatten) :
    s.delivered.map (·.2) <+: xs.map (·.payload) ∧
    (s.fed = (xs.map (·.pkt)).flatten → Quiet ops s → s.delivered.map (·.2) = xs.map (·.payload)) := by
  have hinv := reachable_inv hs hrun
  refine ⟨?_, fun hf hq => ?_⟩
  · obtain ⟨t, ht⟩ := hfed
    have hp := inv_delivered_ext hinv [] t
    have hd := decode_plain (ops := ops) xs hL hn (s.installs ++ []) 0 []
    rw [← ht, decode_needMore (s := []) (by simp [next]), List.append_nil (s.fed ++ t), List.append_nil (List.map _ _)] at hd
    rw [hd] at hp
    have := (prefix_of_map_some hp).map (·.2)
    rwa [numbered_payloads] at this
  · have hc := quiet_complete hs hinv hq
    have hd := decode_plain (ops := ops) xs hL hn s.installs 0 []
    rw [List.append_nil, decode_needMore (s := []) (by simp [next]), List.append_nil] at hd
    rw [hf, hd] at hc
    have := map_some_inj hc
    rw [this, numbered_payloads]

/-- **C02.** The same for any bytes at all: two receivers which got the same
bytes in different pieces, with different thread schedules, deliver the same
packets once they are quiet (provided they installed the same ciphers). -/
theorem C02_chunking_irrelevant (hs : Sane ops) (es₁ es₂ : List (InputEvent σ)) {s₁ s₂ : InputSys σ}
    (h₁ : ({} : InputSys σ).run ops es₁ = some s₁) (h₂ : ({} : InputSys σ).run ops es₂ = some s₂)
    (hf : s₁.fed = s₂.fed) (hi : s₁.installs = s₂.installs) (hq₁ : Quiet ops s₁) (hq₂ : Quiet ops s₂) :
    s₁.delivered = s₂.delivered := by
  have e₁ := quiet_complete hs (reachable_inv hs h₁) hq₁
  have e₂ := quiet_complete hs (reachable_inv hs h₂) hq₂
  rw [hf, hi, ← e₂] at e₁
  exact map_some_inj e₁

/-- Two packets in plaintext (`DEBUG` and `IGNORE`), in three chunks. -/
def demoPkt (msg : UInt8) : Bytes := [0, 0, 0, 12, 10, msg, 0, 0, 0, 0, 0, 0, 0, 0, 0, 0]

def demoSent (msg : UInt8) : Sent (List Bytes) := ⟨demoPkt msg, [msg], none⟩

theorem demo_packet (msg : UInt8) : IsPacket (demoPkt msg) [msg] 8 0 where
  layout := ⟨[0, 0, 0, 0, 0, 0, 0, 0, 0, 0], by
    refine ⟨?_, by decide, by decide⟩
    simp [demoPkt, u32]⟩
  aligned := ⟨2, rfl⟩
  minSize := by simp [demoPkt]

theorem demo_legal {M : List Bytes → List Bytes → Prop} : Legal M [demoSent 4, demoSent 2] where
  packets := by
    intro x hx
    simp at hx
    rcases hx with rfl | rfl
    · exact ⟨by simp [demoSent], by simp [demoSent, demoPkt], 8, 0, demo_packet 4⟩
    · exact ⟨by simp [demoSent], by simp [demoSent, demoPkt], 8, 0, demo_packet 2⟩
  switches := by
    intro x hx
    simp at hx
    rcases hx with rfl | rfl <;> decide
  matched := by
    intro x hx tx rx r h
    simp at hx
    rcases hx with rfl | rfl <;> simp [demoSent] at h

/-- The hypotheses of `C02_unencrypted_framing` are met by a run which gets the
stream torn inside a header and inside a body. -/
example : ∃ s : InputSys (List Bytes),
    ({} : InputSys (List Bytes)).run script
      [.feed [0, 0], .read, .feed ([0, 12, 10, 4, 0, 0, 0, 0, 0, 0, 0, 0, 0, 0, 0, 0, 0, 12]), .read,
       .consume, .read, .feed [10, 2, 0, 0, 0, 0, 0, 0, 0, 0, 0, 0], .read, .consume] = some s ∧
    s.fed = ([demoSent 4, demoSent 2].map (·.pkt)).flatten ∧ Quiet script s ∧
    s.delivered = [(0, [4]), (1, [2])] := by
  refine exists_of_check (p := fun s => s.fed == ([demoSent 4, demoSent 2].map (·.pkt)).flatten &&
    quietB script s && s.delivered == [(0, [4]), (1, [2])]) (by decide) ?_
  intro s h
  simp only [Bool.and_eq_true, beq_iff_eq] at h
  exact ⟨h.1.1, quiet_of_quietB h.1.2, h.2⟩

/-! ## C03 -/

/-- The first bytes of an unacceptable packet: its length field is below 2 or
above 35000, or its padding length leaves no byte of payload. -/
def Malformed (m : Bytes) : Prop :=
  4 ≤ m.length ∧
  (beValue (m.take 4) < 2 ∨ 35000 < beValue (m.take 4) ∨
    (4 + beValue (m.take 4) ≤ m.length ∧
      ∃ pad, m[4]? = some pad ∧ beValue (m.take 4) < pad.toNat + 2))

theorem malformed_bad {m : Bytes} (h : Malformed m) (seq : Nat) :
    next ops none seq m = .bad := by
  obtain ⟨h4, h⟩ := h
  unfold next
  rw [if_neg (by omega)]
  simp only
  by_cases hl : lengthOk (beValue (m.take 4))
  · rw [if_neg (by simpa using hl)]
    unfold lengthOk at hl
    rcases h with h | h | ⟨hlen, pad, hp, hlt⟩
    · omega
    · omega
    · rw [if_neg (by omega)]
      have : (m.drop 4).take (beValue (m.take 4)) = pad :: (m.drop 5).take (beValue (m.take 4) - 1) := by
        have hd : m.drop 4 = pad :: m.drop 5 := by
          have h5 : 4 < m.length := by omega
          rw [List.drop_eq_getElem_cons h5]
          rw [List.getElem?_eq_getElem h5] at hp
          simp at hp; rw [hp]
        have e : beValue (m.take 4) = (beValue (m.take 4) - 1) + 1 := by omega
        rw [hd, e, List.take_succ_cons]; simp
      rw [this]
      simp only [payloadOf]
      rw [if_neg]
      simp only [List.length_cons, List.length_take, List.length_drop]
      omega
  · rw [if_pos hl]

/-- **C03.** After any sequence of well-formed unencrypted packets, a malformed
one is never delivered, nor is anything behind it, whatever follows and however
it is cut; and the receiver does not come to rest: it reports the error. -/
theorem C03_malformed_unencrypted (hs : Sane ops) (xs : List (Sent σ))
    (hL : Legal (fun _ _ => True) xs) (hn : ∀ x ∈ xs, x.switch = none)
    (m t : Bytes) (hm : Malformed m)
    (es : List (InputEvent σ)) {s : InputSys σ} (hrun : ({} : InputSys σ).run ops es = some s)
    (hfed : s.fed = (xs.map (·.pkt)).flatten ++ m ++ t) :
    s.delivered.map (·.2) <+: xs.map (·.payload) ∧ ¬ Quiet ops s := by
  have hinv := reachable_inv hs hrun
  have hbad : next ops none (0 + xs.length) (m ++ t) = .bad :=
    next_bad (malformed_bad hm _) t
  have hd := decode_plain (ops := ops) xs hL hn s.installs 0 (m ++ t)
  rw [decode_bad hbad, ← List.append_assoc, ← hfed] at hd
  constructor
  · have hp := inv_delivered hinv
    rw [hd] at hp
    have := hp.filterMap id
    simp only [List.filterMap_append, List.filterMap_map] at this
    have := this.map (·.2)
    simp at this
    rwa [numbered_payloads] at this
  · intro hq
    have hc := quiet_complete hs hinv hq
    rw [hd] at hc
    have : none ∈ s.delivered.map some := by rw [hc]; simp
    simp at this

theorem decode_sizes (hs : Sane ops) {d : Nat × Bytes} (cs : List (σ × Bool)) (c : Option σ)
    (q : Nat) (F : Bytes) (hmem : some d ∈ decode ops cs c q F) :
    0 < d.2.length ∧ d.2.length < 35000 := by
  have hsize : ∀ (c : Option σ) q F p c' n, next ops c q F = .packet p c' n →
      0 < p.length ∧ p.length < 35000 := by
    have hpo : ∀ body p, payloadOf body = some p → body.length ≤ 35000 →
        0 < p.length ∧ p.length < 35000 := by
      intro body p h hb
      cases body with
      | nil => simp [payloadOf] at h
      | cons a r =>
        simp only [payloadOf] at h
        split at h
        · rename_i hp
          injection h with h
          subst h
          simp only [List.length_cons] at hp hb
          simp only [List.length_take, List.length_cons]
          omega
        · simp at h
    intro c q F p c' n h
    unfold next at h
    split at h
    · simp at h
    split at h
    · simp only at h
      split at h
      · simp at h
      rename_i hl
      split at h
      · simp at h
      split at h
      · simp at h
      rename_i hp
      injection h with h1; subst h1
      refine hpo _ _ hp ?_
      have := Decidable.not_not.1 hl
      unfold lengthOk at this
      rw [List.length_take]; omega
    · split at h
      · simp at h
      simp only at h
      split at h
      · simp at h
      rename_i hl
      split at h
      · simp at h
      split at h
      · simp at h
      rename_i hd
      split at h
      · simp at h
      rename_i hp
      injection h with h1; subst h1
      refine hpo _ _ hp ?_
      have := Decidable.not_not.1 hl
      unfold lengthOk at this
      have := hs.payload _ _ _ _ _ hd
      rw [List.length_take] at this; omega
  fun_induction decode ops cs c q F with
  | case1 => simp at hmem
  | case2 => simp at hmem
  | case3 c q F p c' n h hk =>
    simp at hmem; rw [hmem]; exact hsize _ _ _ _ _ _ h
  | case4 c q F p c' n h hk c₂ r cs ih =>
    rcases List.mem_cons.1 hmem with e | e
    · simp at e; rw [e]; exact hsize _ _ _ _ _ _ h
    · exact ih e
  | case5 cs c q F p c' n h hk ih =>
    rcases List.mem_cons.1 hmem with e | e
    · simp at e; rw [e]; exact hsize _ _ _ _ _ _ h
    · exact ih e

/-- **C03.** Whatever bytes arrive, encrypted or not: every delivered payload
has at least one byte, and is shorter than 35000 bytes. -/
theorem C03_delivered_size (hs : Sane ops) (es : List (InputEvent σ)) {s : InputSys σ}
    (hrun : ({} : InputSys σ).run ops es = some s) :
    ∀ d ∈ s.delivered, 0 < d.2.length ∧ d.2.length < 35000 := by
  have hinv := reachable_inv hs hrun
  intro d hd
  have hmem : some d ∈ decode ops s.installs none 0 s.fed :=
    (inv_delivered hinv).subset (List.mem_map_of_mem hd)
  exact decode_sizes hs _ _ _ _ hmem

/-- A malformed packet: padding length 11 in a packet of length 12. -/
example : Malformed [0, 0, 0, 12, 11, 2, 0, 0, 0, 0, 0, 0, 0, 0, 0, 0] :=
  ⟨by decide, .inr (.inr ⟨by decide, 11, rfl, by decide⟩)⟩

example : Malformed [0, 0, 136, 185] := ⟨by decide, .inr (.inl (by decide))⟩

example : ∃ s : InputSys (List Bytes),
    ({} : InputSys (List Bytes)).run script
      [.feed (demoPkt 4 ++ [0, 0, 0, 1]), .read, .consume, .read] = some s ∧
    s.delivered = [(0, [4])] ∧ s.dead = true := by
  refine exists_of_check (p := fun s => s.delivered == [(0, [4])] && s.dead) (by decide) ?_
  intro s h
  simp only [Bool.and_eq_true, beq_iff_eq] at h
  exact h

/-! ## C07 -/

/-- **C07.** No history – whatever the peer sends, whatever the interleaving of
the two threads – makes an assertion of the receiver fail. -/
theorem C07_no_assertion_fails (hs : Sane ops) (es : List (InputEvent σ)) :
    (({} : InputSys σ).run ops es).isSome := by
  obtain ⟨s', hr', _⟩ := inv_run hs es (inv_init (ops := ops))
  simp [hr']

/-- **C07.** A whole connection: packets in plaintext and under any number of
keys.  For every chunking and every interleaving of the event thread and the
worker thread, the receiver delivers a prefix of the packets sent, and all of
them when it is quiet. -/
theorem C07_encrypted_delivery {Matched : σ → σ → Prop} (hs : Sane ops) (hc : Contract ops Matched)
    (xs : List (Sent σ)) (hL : Legal Matched xs) {S : Bytes} (hS : transmit ops none 0 xs = some S)
    (es : List (InputEvent σ)) {s : InputSys σ} (hrun : ({} : InputSys σ).run ops es = some s)
    (hi : ∃ cs, s.installs ++ cs = installsOf xs) (hfed : ∃ t, s.fed ++ t = S) :
    s.delivered.map (·.2) <+: xs.map (·.payload) ∧
    (s.fed = S → s.installs = installsOf xs → Quiet ops s →
      s.delivered.map (·.2) = xs.map (·.payload)) := by
  have hinv := reachable_inv hs hrun
  obtain ⟨rx', _, hd⟩ := decode_transmit hc xs none none 0 S hL trivial hS
  have hd' := hd [] []
  rw [decode_needMore (s := []) (by simp [next]), List.append_nil, List.append_nil, List.append_nil] at hd'
  constructor
  · obtain ⟨cs, hcs⟩ := hi
    obtain ⟨t, ht⟩ := hfed
    have hp := inv_delivered_ext hinv cs t
    rw [hcs, ht, hd'] at hp
    have := (prefix_of_map_some hp).map (·.2)
    rwa [numbered_payloads] at this
  · intro hf hi' hq
    have e := quiet_complete hs hinv hq
    rw [hf, hi', hd'] at e
    have := map_some_inj e
    rw [this, numbered_payloads]

/-- **C07.** An attacker who controls every byte behind the first NEWKEYS: with
an authentic cipher the receiver still delivers nothing but a prefix of what was
sent – no altered, forged, repeated, reordered or skipped packet. -/
theorem C07_tampering_never_delivered {Matched : σ → σ → Prop} (hs : Sane ops)
    (hc : Contract ops Matched) (ps : List (Sent σ)) (k : Sent σ) (xs : List (Sent σ))
    (tx rx : σ) (reset : Bool) (hk : k.switch = some (tx, rx, reset))
    (hL : Legal Matched (ps ++ [k])) (hLx : Legal Matched xs)
    {S : Bytes} (hS : transmit ops none 0 (ps ++ [k]) = some S)
    (ha : Authentic ops tx rx (nextSeq 0 (ps ++ [k])) xs)
    (forged : Bytes)
    (es : List (InputEvent σ)) {s : InputSys σ} (hrun : ({} : InputSys σ).run ops es = some s)
    (hi : ∃ cs, s.installs ++ cs = installsOf (ps ++ [k]) ++ installsOf xs)
    (hfed : ∃ t, s.fed ++ t = S ++ forged) :
    s.delivered.map (·.2) <+: (ps ++ [k] ++ xs).map (·.payload) := by
  have hinv := reachable_inv hs hrun
  obtain ⟨rx', hlast, hd⟩ := decode_transmit hc (ps ++ [k]) none none 0 S hL trivial hS
  have hrx := hlast k tx rx reset (by simp) hk
  subst hrx
  obtain ⟨cs, hcs⟩ := hi
  obtain ⟨t, ht⟩ := hfed
  have hp := inv_delivered_ext hinv cs t
  rw [hcs, ht, hd] at hp
  have hm : Matched tx rx := hL.matched k (by simp) tx rx reset hk
  have := hp.filterMap id
  simp only [List.filterMap_append] at this
  have h2 := decode_authentic hc xs tx rx _ forged hLx hm ha
  have h3 : s.delivered <+: numbered 0 (ps ++ [k]) ++ numbered (nextSeq 0 (ps ++ [k])) xs := by
    refine List.IsPrefix.trans (by simpa using this) ?_
    exact (List.prefix_append_right_inj _).2 h2
  have := h3.map (·.2)
  rw [List.map_append, numbered_payloads, numbered_payloads] at this
  rw [List.map_append]; exact this

/-- **C07.** Once the worker found an error, nothing more is ever delivered –
also not what it had decrypted before. -/
theorem C07_error_is_final (hs : Sane ops) (es es' : List (InputEvent σ)) {s s' : InputSys σ}
    (hrun : ({} : InputSys σ).run ops es = some s) (herr : s.input.error = true)
    (hrun' : s.run ops es' = some s') : s'.delivered = s.delivered ∧ s'.input.error = true := by
  have hinv := reachable_inv hs hrun
  clear hrun
  induction es' generalizing s with
  | nil =>
    simp [InputSys.run] at hrun'; subst hrun'; exact ⟨rfl, herr⟩
  | cons e es' ih =>
    obtain ⟨s₁, h1, hinv₁⟩ := inv_step hs hinv e
    rw [InputSys.run, h1] at hrun'
    have he : s.input.encrypted = true ∧ s.worker = .idle ∧ s.settled := by
      rcases hinv with h | h | h
      · rw [h.2.1] at herr; simp at herr
      · rw [h.2.1] at herr; simp at herr
      · exact ⟨h.1, h.2.2.1, h.2.2.2.1⟩
    have hstep : s₁.input.error = true ∧ s₁.delivered = s.delivered := by
      cases e with
      | feed chunk =>
        simp only [InputSys.step] at h1
        split at h1 <;> injection h1 with h1 <;> subst h1 <;> exact ⟨herr, rfl⟩
      | read =>
        simp only [InputSys.step] at h1
        split at h1
        · injection h1 with h1; subst h1; exact ⟨herr, rfl⟩
        · rw [readPacket_error he.1 herr] at h1
          injection h1 with h1; subst h1; exact ⟨herr, rfl⟩
      | setCipher c =>
        simp only [InputSys.step] at h1
        split at h1
        · injection h1 with h1; subst h1; exact ⟨herr, rfl⟩
        · rename_i p hp
          split at h1
          · rename_i hx
            have := he.2.2 p hp ((isNewKeys_iff p).2 hx.1)
            simp [this] at hx
          · injection h1 with h1; subst h1; exact ⟨herr, rfl⟩
      | autoResetSeq => injection h1 with h1; subst h1; exact ⟨herr, rfl⟩
      | consume =>
        simp only [InputSys.step] at h1
        split at h1
        · injection h1 with h1; subst h1; exact ⟨herr, rfl⟩
        · split at h1
          · injection h1 with h1; subst h1; exact ⟨herr, rfl⟩
          · simp only [Input.consumePacket] at h1
            split at h1
            · simp at h1
            · rename_i hi
              injection h1 with h1; subst h1
              refine ⟨?_, rfl⟩
              split at hi
              · split at hi
                · simp at hi
                · injection hi with hi; subst hi; exact herr
              · injection hi with hi; subst hi; exact herr
      | runBegin k =>
        simp only [InputSys.step, he.2.1, he.1, if_true, Input.runBegin, herr, true_or] at h1
        injection h1 with h1; subst h1; exact ⟨herr, rfl⟩
      | runLoop =>
        simp only [InputSys.step, he.2.1] at h1
        injection h1 with h1; subst h1; exact ⟨herr, rfl⟩
      | runEnd k =>
        simp only [InputSys.step, he.2.1] at h1
        injection h1 with h1; subst h1; exact ⟨herr, rfl⟩
    obtain ⟨r1, r2⟩ := ih hstep.1 hrun' hinv₁
    exact ⟨by rw [r1, hstep.2], r2⟩

/-! ## C08 -/

/-- **C08.** For every history of packets and key changes, with or without
resetting: the sequence number the receiver holds for each packet it delivers
(the one it decrypted it with, and the one `GetSeq()` reports) is the number the
sender used for that packet. -/
theorem C08_sequence_numbers {Matched : σ → σ → Prop} (hs : Sane ops) (hc : Contract ops Matched)
    (xs : List (Sent σ)) (hL : Legal Matched xs) {S : Bytes} (hS : transmit ops none 0 xs = some S)
    (es : List (InputEvent σ)) {s : InputSys σ} (hrun : ({} : InputSys σ).run ops es = some s)
    (hi : ∃ cs, s.installs ++ cs = installsOf xs) (hfed : ∃ t, s.fed ++ t = S) :
    s.delivered <+: numbered 0 xs := by
  have hinv := reachable_inv hs hrun
  obtain ⟨rx', _, hd⟩ := decode_transmit hc xs none none 0 S hL trivial hS
  have hd' := hd [] []
  rw [decode_needMore (s := []) (by simp [next]), List.append_nil, List.append_nil, List.append_nil] at hd'
  obtain ⟨cs, hcs⟩ := hi
  obtain ⟨t, ht⟩ := hfed
  have hp := inv_delivered_ext hinv cs t
  rw [hcs, ht, hd'] at hp
  exact prefix_of_map_some hp

/-- What `numbered` means without strict key exchange: the packets are counted
through, whatever keys are changed. -/
theorem C08_numbers_without_reset (xs : List (Sent σ)) (seq : Nat)
    (h : ∀ x ∈ xs, ∀ tx rx reset, x.switch = some (tx, rx, reset) → reset = false) :
    (numbered seq xs).map (·.1) = List.range' seq xs.length := by
  induction xs generalizing seq with
  | nil => rfl
  | cons x xs ih =>
    have h' := fun y hy => h y (List.mem_cons_of_mem x hy)
    simp only [numbered, List.map_cons, List.length_cons, List.range'_succ]
    cases hx : x.switch with
    | none => simp [ih _ h']
    | some v =>
      obtain ⟨a, b, r⟩ := v
      have := h x (List.mem_cons_self ..) a b r hx
      simp [this, ih _ h']

/-- And with it: counting restarts at zero behind each NEWKEYS. -/
theorem C08_numbers_with_reset (xs : List (Sent σ)) (k : Sent σ) (ys : List (Sent σ)) (seq : Nat)
    (tx rx : σ) (h : k.switch = some (tx, rx, true)) :
    numbered seq (xs ++ k :: ys) = numbered seq (xs ++ [k]) ++ numbered 0 ys := by
  induction xs generalizing seq with
  | nil => simp [numbered, h]
  | cons x xs ih =>
    simp only [List.cons_append, numbered]
    cases x.switch with
    | none => simp [ih]
    | some v => simp [ih]

/-! Non-vacuity: one packet in plaintext, NEWKEYS, two encrypted packets, with
the sequence number reset (strict key exchange), read in torn chunks by two
interleaved threads. -/

def demoKey : List Bytes := [demoPkt 4, demoPkt 2]

def demoAll : List (Sent (List Bytes)) :=
  [demoSent 2, ⟨demoPkt 21, [21], some (demoKey, demoKey, true)⟩, demoSent 4, demoSent 2]

theorem demoAll_legal : Legal (fun a b => a = b) demoAll where
  packets := by
    intro x hx
    simp [demoAll] at hx
    rcases hx with rfl | rfl | rfl | rfl
    · exact ⟨by simp [demoSent], by simp [demoSent, demoPkt], 8, 0, demo_packet 2⟩
    · exact ⟨by simp, by simp [demoPkt], 8, 0, demo_packet 21⟩
    · exact ⟨by simp [demoSent], by simp [demoSent, demoPkt], 8, 0, demo_packet 4⟩
    · exact ⟨by simp [demoSent], by simp [demoSent, demoPkt], 8, 0, demo_packet 2⟩
  switches := by
    intro x hx
    simp [demoAll] at hx
    rcases hx with rfl | rfl | rfl | rfl <;> decide
  matched := by
    intro x hx tx rx r h
    simp [demoAll] at hx
    rcases hx with rfl | rfl | rfl | rfl <;> simp [demoSent] at h
    rw [← h.1, ← h.2.1]

def demoStream : Bytes := demoPkt 2 ++ demoPkt 21 ++ (demoPkt 4 ++ [0xAA]) ++ (demoPkt 2 ++ [0xAA])

example : transmit script none 0 demoAll = some demoStream := by decide

example : ∃ (s : InputSys (List Bytes)),
    ({} : InputSys (List Bytes)).run script
      [.autoResetSeq, .feed (demoStream.take 30), .read, .consume, .read,
       .feed ((demoStream.drop 30).take 20), .read,
       .setCipher demoKey, .consume, .runBegin 9, .runLoop, .feed (demoStream.drop 50), .read, .runEnd 100,
       .runBegin 5, .runLoop, .read, .runLoop, .runLoop, .runEnd 0, .read, .consume, .read, .consume,
       .runBegin 7, .runLoop, .runEnd 0]
      = some s ∧
    s.fed = demoStream ∧ s.installs = installsOf demoAll ∧
    s.delivered = [(0, [2]), (1, [21]), (0, [4]), (1, [2])] ∧ Quiet script s := by
  refine exists_of_check (p := fun s => s.fed == demoStream && s.installs == installsOf demoAll &&
    s.delivered == [(0, [2]), (1, [21]), (0, [4]), (1, [2])] && quietB script s) (by decide) ?_
  intro s h
  simp only [Bool.and_eq_true, beq_iff_eq] at h
  exact ⟨h.1.1.1, h.1.1.2, h.1.2, quiet_of_quietB h.2⟩

example : ∀ seq, Authentic script demoKey demoKey seq [demoSent 4, demoSent 2] :=
  script_authentic [demoSent 4, demoSent 2] (by simp [demoSent])

end Lukko
