import Verif.Proof.Wire
import Verif.Spec.Stream
/-
  Lemmas about the reference decoder.
-/
namespace Lukko.Spec
open Model

variable {σ : Type} {ops : CipherOps σ}

/-- A packet found in `s` is found in every extension of `s`. -/
theorem next_packet {cipher : Option σ} {seq s p c' n} (h : next ops cipher seq s = .packet p c' n) :
    4 < n ∧ n ≤ s.length ∧ ∀ t, next ops cipher seq (s ++ t) = .packet p c' n := by
  unfold next at h
  split at h
  · simp at h
  rename_i h4
  have ht : ∀ t : Bytes, ¬ (s ++ t).length < 4 := by intro t; simp; omega
  have htake : ∀ t : Bytes, (s ++ t).take 4 = s.take 4 := fun t =>
    List.take_append_of_le_length (by omega)
  split at h
  · simp only at h
    split at h
    · simp at h
    rename_i hlen
    split at h
    · simp at h
    rename_i hs
    split at h
    · simp at h
    rename_i pl hp
    injection h with h1 h2 h3
    subst h1 h2 h3
    have hl : lengthOk (beValue (s.take 4)) := Decidable.not_not.1 hlen
    refine ⟨by unfold lengthOk at hl; omega, by omega, fun t => ?_⟩
    unfold next
    rw [if_neg (ht t)]
    simp only [htake t]
    rw [if_neg hlen, if_neg (by simp; omega)]
    have : ((s ++ t).drop 4).take (beValue (s.take 4)) = (s.drop 4).take (beValue (s.take 4)) := by
      rw [List.drop_append_of_le_length (by omega), List.take_append_of_le_length (by simp; omega)]
    rw [this, hp]
  · rename_i c
    split at h
    · simp at h
    rename_i hdr c₁ hh
    simp only at h
    split at h
    · simp at h
    rename_i hlen
    split at h
    · simp at h
    rename_i hs
    split at h
    · simp at h
    rename_i body c₂ hb
    split at h
    · simp at h
    rename_i pl hp
    injection h with h1 h2 h3
    subst h1 h2 h3
    have hl : lengthOk (beValue hdr) := Decidable.not_not.1 hlen
    refine ⟨by unfold lengthOk at hl; omega, by omega, fun t => ?_⟩
    unfold next
    rw [if_neg (ht t)]
    simp only [htake t, hh]
    rw [if_neg hlen, if_neg (by simp; omega), List.take_append_of_le_length (by omega), hb]
    simp only [hp]

theorem next_bad {cipher : Option σ} {seq s} (h : next ops cipher seq s = .bad) :
    ∀ t, next ops cipher seq (s ++ t) = .bad := by
  intro t
  unfold next at h
  split at h
  · simp at h
  rename_i h4
  have ht : ¬ (s ++ t).length < 4 := by simp; omega
  have htake : (s ++ t).take 4 = s.take 4 := List.take_append_of_le_length (by omega)
  unfold next
  rw [if_neg ht]
  split at h
  · simp only [htake] at h ⊢
    split at h
    · rename_i hl; rw [if_pos hl]
    rename_i hl
    rw [if_neg hl]
    split at h
    · simp at h
    rename_i hs
    rw [if_neg (by simp; omega)]
    have : ((s ++ t).drop 4).take (beValue (s.take 4)) = (s.drop 4).take (beValue (s.take 4)) := by
      rw [List.drop_append_of_le_length (by omega), List.take_append_of_le_length (by simp; omega)]
    rw [this]
    exact h
  · simp only [htake]
    split at h
    · rfl
    rename_i hdr c₁ hh
    simp only at h ⊢
    split at h
    · rename_i hl; rw [if_pos hl]
    rename_i hl
    rw [if_neg hl]
    split at h
    · simp at h
    rename_i hs
    rw [if_neg (by simp; omega), List.take_append_of_le_length (by omega)]
    exact h

/-- What the decoder yields after a NEWKEYS. -/
def resume (ops : CipherOps σ) (installs : List (σ × Bool)) (seq : Nat) (s : Bytes) :
    List (Option (Nat × Bytes)) :=
  match installs with
  | [] => []
  | (c, reset) :: installs => decode ops installs (some c) (if reset then 0 else seq) s

theorem decode_packet {cs} {cipher : Option σ} {seq s p c' n}
    (h : next ops cipher seq s = .packet p c' n) (hn : isNewKeys p = false) :
    decode ops cs cipher seq s = some (seq, p) :: decode ops cs c' (seq + 1) (s.drop n) := by
  rw [decode]
  split <;> rename_i h' <;> rw [h] at h'
  · simp at h'
  · simp at h'
  · injection h' with h1 h2 h3; subst h1 h2 h3; rw [if_neg (by simp [hn])]

theorem decode_newkeys {cs} {cipher : Option σ} {seq s p c' n}
    (h : next ops cipher seq s = .packet p c' n) (hn : isNewKeys p = true) :
    decode ops cs cipher seq s = some (seq, p) :: resume ops cs (seq + 1) (s.drop n) := by
  rw [decode]
  split <;> rename_i h' <;> rw [h] at h'
  · simp at h'
  · simp at h'
  · injection h' with h1 h2 h3; subst h1 h2 h3; rw [if_pos hn]
    cases cs with
    | nil => rfl
    | cons x xs => rfl

theorem decode_needMore {cs} {cipher : Option σ} {seq s}
    (h : next ops cipher seq s = .needMore) : decode ops cs cipher seq s = [] := by
  rw [decode]; split <;> rename_i h' <;> rw [h] at h' <;> simp_all

theorem decode_bad {cs} {cipher : Option σ} {seq s}
    (h : next ops cipher seq s = .bad) : decode ops cs cipher seq s = [none] := by
  rw [decode]; split <;> rename_i h' <;> rw [h] at h' <;> simp_all

theorem beValue_four (a b c d : UInt8) :
    beValue [a, b, c, d] = a.toNat * 2 ^ 24 + b.toNat * 2 ^ 16 + c.toNat * 2 ^ 8 + d.toNat := by
  simp only [beValue_cons, beValue_nil, List.length_cons, List.length_nil]; omega

theorem beValue_u32 {n : Nat} (h : n < 2 ^ 32) : beValue (u32 n) = n := by
  have := readU32_reads h []
  unfold u32
  rw [beValue_four]
  simp only [UInt8.toNat_ofNat']
  omega

/-- The payload of a well-formed packet is what `payloadOf` finds. -/
theorem payloadOf_packet {pkt payload bs aad} (h : IsPacket pkt payload bs aad) (hne : payload ≠ [])
    (hl : pkt.length ≤ 35004) :
    beValue (pkt.take 4) = pkt.length - 4 ∧ lengthOk (pkt.length - 4) ∧ 4 ≤ pkt.length ∧
    payloadOf (pkt.drop 4) = some payload := by
  obtain ⟨pad, hpkt, h4, h255⟩ := h.layout
  have hlen : pkt.length = 5 + payload.length + pad.length := by
    rw [hpkt]; simp; omega
  have hp : 0 < payload.length := by cases payload <;> simp_all
  refine ⟨?_, ⟨by omega, by omega⟩, by omega, ?_⟩
  · have ht : pkt.take 4 = u32 (1 + payload.length + pad.length) := by
      rw [hpkt, List.append_assoc, List.append_assoc]; exact List.take_left' (u32_length _)
    rw [ht, beValue_u32 (by omega)]; omega
  · have : pkt.drop 4 = UInt8.ofNat pad.length :: (payload ++ pad) := by
      rw [hpkt, List.append_assoc, List.append_assoc]; exact List.drop_left' (u32_length _)
    rw [this]
    have hpad : (UInt8.ofNat pad.length).toNat = pad.length := by
      simp only [UInt8.toNat_ofNat']; omega
    simp only [payloadOf, hpad]
    rw [if_pos (by simp; omega)]
    congr 1
    rw [List.take_append_of_le_length (by simp; omega), List.take_of_length_le (by simp; omega)]

/-- Decoding what was transmitted, followed by anything. -/
theorem decode_transmit {Matched : σ → σ → Prop} (hc : Contract ops Matched) :
    ∀ (xs : List (Sent σ)) (tx rx : Option σ) (seq : Nat) (S : Bytes),
    Legal Matched xs →
    (match tx, rx with | none, none => True | some a, some b => Matched a b | _, _ => False) →
    transmit ops tx seq xs = some S →
    ∃ rx', (∀ x a b r, xs.getLast? = some x → x.switch = some (a, b, r) → rx' = some b) ∧
      ∀ cs t, decode ops (installsOf xs ++ cs) rx seq (S ++ t) =
      (numbered seq xs).map some ++ decode ops cs rx' (nextSeq seq xs) t := by
  intro xs
  induction xs with
  | nil =>
    intro tx rx seq S _ _ hS
    simp only [transmit, Option.some.injEq] at hS
    exact ⟨rx, by simp, fun cs t => by subst hS; simp [installsOf, numbered, nextSeq]⟩
  | cons x xs ih =>
    intro tx rx seq S hL hm hS
    have hL' : Legal Matched xs := ⟨fun y hy => hL.packets y (List.mem_cons_of_mem _ hy),
      fun y hy => hL.switches y (List.mem_cons_of_mem _ hy),
      fun y hy => hL.matched y (List.mem_cons_of_mem _ hy)⟩
    obtain ⟨hne, hsz, bs, aad, hpk⟩ := hL.packets x (List.mem_cons_self ..)
    have hsw := hL.switches x (List.mem_cons_self ..)
    have hma := hL.matched x (List.mem_cons_self ..)
    obtain ⟨hbe, hok, h4, hpo⟩ := payloadOf_packet hpk hne hsz
    -- one packet
    have key : ∃ e tx₁ rx₁, protect ops tx seq x.pkt = some (e, tx₁) ∧
        (match tx₁, rx₁ with | none, none => True | some a, some b => Matched a b | _, _ => False) ∧
        ∀ t, next ops rx seq (e ++ t) = .packet x.payload rx₁ e.length := by
      cases tx with
      | none =>
        cases rx with
        | some _ => simp at hm
        | none =>
          refine ⟨x.pkt, none, none, rfl, trivial, fun t => ?_⟩
          unfold next
          rw [if_neg (by simp; omega)]
          simp only [List.take_append_of_le_length h4, hbe]
          rw [if_neg (by simpa using hok), if_neg (by simp; omega),
            List.drop_append_of_le_length h4, List.take_append_of_le_length (by simp),
            List.take_of_length_le (by simp), hpo]
          simp only [Next.packet.injEq, true_and]; omega
      | some a =>
        cases rx with
        | none => simp at hm
        | some b =>
          have hp : ∃ e a', ops.encrypt a seq x.pkt = some (e, a') := by
            simp only [transmit, protect] at hS
            cases he : ops.encrypt a seq x.pkt with
            | none => simp [he] at hS
            | some v => exact ⟨v.1, v.2, rfl⟩
          obtain ⟨e, a', he⟩ := hp
          obtain ⟨hel, b₁, b', h1, h2, h3, h5, h6⟩ := hc.roundtrip a b seq x.pkt e a' hm h4 he
          refine ⟨e, some a', some b', by simp [protect, he], h6, fun t => ?_⟩
          unfold next
          rw [if_neg (by simp; omega)]
          simp only [List.take_append_of_le_length (show 4 ≤ e.length by omega), h1, hbe, h2]
          rw [if_neg (by simpa using hok), if_neg (by simp; omega)]
          have : 4 + (x.pkt.length - 4) + ops.authSize b = e.length := by omega
          rw [this, List.take_left, h3]
          simp only [hpo]
    obtain ⟨e, tx₁, rx₁, hp, hm₁, hn⟩ := key
    simp only [transmit, hp] at hS
    cases hxs : x.switch with
    | none =>
      simp only [hxs, Option.map_eq_some_iff] at hS
      obtain ⟨S', hS', rfl⟩ := hS
      obtain ⟨rx', hlast, hd⟩ := ih tx₁ rx₁ (seq + 1) S' hL' hm₁ hS'
      refine ⟨rx', ?_, fun cs t => ?_⟩
      · intro y a b r hy hyr
        cases hxs' : xs with
        | nil => subst hxs'; simp at hy; subst hy; simp [hxs] at hyr
        | cons z zs => rw [hxs', List.getLast?_cons_cons, ← hxs'] at hy; exact hlast y a b r hy hyr
      have hnk : isNewKeys x.payload = false := by
        rw [hxs] at hsw; cases h : isNewKeys x.payload <;> simp_all
      rw [List.append_assoc, decode_packet (hn _) hnk, List.drop_left]
      simp only [installsOf, hxs, List.filterMap_cons, Option.map_none, numbered, nextSeq, List.cons_append, List.map_cons]
      rw [← hd cs t]; rfl
    | some v =>
      obtain ⟨a, b, r⟩ := v
      simp only [hxs, Option.map_eq_some_iff] at hS
      obtain ⟨S', hS', rfl⟩ := hS
      obtain ⟨rx', hlast, hd⟩ := ih (some a) (some b) (if r then 0 else seq + 1) S' hL'
        (hma a b r hxs) hS'
      refine ⟨if xs = [] then some b else rx', ?_, fun cs t => ?_⟩
      · intro y a' b' r' hy hyr
        cases hxs' : xs with
        | nil =>
          subst hxs'; simp at hy; subst hy; rw [hxs] at hyr
          simp at hyr; simp [hyr.2.1]
        | cons z zs =>
          rw [hxs', List.getLast?_cons_cons, ← hxs'] at hy
          simp [hlast y a' b' r' hy hyr]
      have hif : xs = [] → ∀ cs t, decode ops cs (some b) (nextSeq (if r then 0 else seq + 1) xs) t
          = decode ops cs rx' (nextSeq (if r then 0 else seq + 1) xs) t := by
        rintro rfl cs t
        have := hd cs t
        simp only [transmit, Option.some.injEq] at hS'
        subst hS'
        simpa [installsOf, numbered, nextSeq] using this
      have hnk : isNewKeys x.payload = true := by
        rw [hxs] at hsw; simpa using hsw
      rw [List.append_assoc, decode_newkeys (hn _) hnk, List.drop_left]
      simp only [installsOf, hxs, List.filterMap_cons, Option.map_some, numbered, nextSeq, List.cons_append, List.map_cons,
        resume]
      by_cases hx : xs = []
      · rw [if_pos hx, hif hx, ← hd cs t]; rfl
      · rw [if_neg hx, ← hd cs t]; rfl

/-- With an authentic cipher nothing but a prefix of what was sent is decoded,
whatever bytes arrive. -/
theorem decode_authentic {Matched : σ → σ → Prop} (hc : Contract ops Matched) :
    ∀ (xs : List (Sent σ)) (tx rx : σ) (seq : Nat) (F : Bytes),
    Legal Matched xs → Matched tx rx → Authentic ops tx rx seq xs →
    (decode ops (installsOf xs) (some rx) seq F).filterMap id <+: numbered seq xs := by
  intro xs
  induction xs with
  | nil =>
    intro tx rx seq F _ _ ha
    cases hn : next ops (some rx) seq F with
    | needMore => rw [decode_needMore hn]; exact List.nil_prefix
    | bad => rw [decode_bad hn]; simp
    | packet p c n => exact absurd hn (ha F p c n)
  | cons x xs ih =>
    intro tx rx seq F hL hm ha
    have hL' : Legal Matched xs := ⟨fun y hy => hL.packets y (List.mem_cons_of_mem _ hy),
      fun y hy => hL.switches y (List.mem_cons_of_mem _ hy),
      fun y hy => hL.matched y (List.mem_cons_of_mem _ hy)⟩
    obtain ⟨hne, hsz, bs, aad, hpk⟩ := hL.packets x (List.mem_cons_self ..)
    have hsw := hL.switches x (List.mem_cons_self ..)
    have hma := hL.matched x (List.mem_cons_self ..)
    obtain ⟨hbe, hok, h4, hpo⟩ := payloadOf_packet hpk hne hsz
    cases hn : next ops (some rx) seq F with
    | needMore => rw [decode_needMore hn]; exact List.nil_prefix
    | bad => rw [decode_bad hn]; simp
    | packet p c n =>
      obtain ⟨tx', he, hrest⟩ := ha.1 F p c n hn
      obtain ⟨hn4, hnF, _⟩ := next_packet hn
      -- the accepted packet is the genuine one
      obtain ⟨hel, b₁, b', h1, h2, h3, h5, h6⟩ := hc.roundtrip tx rx seq x.pkt _ tx' hm h4 he
      have htt : (F.take n).take 4 = F.take 4 := by rw [List.take_take, Nat.min_eq_left (by omega)]
      have hp : p = x.payload ∧ c = some b' := by
        have hn' := hn
        unfold next at hn'
        rw [if_neg (by omega)] at hn'
        simp only [← htt, h1, hbe, h2] at hn'
        rw [if_neg (by simpa using hok)] at hn'
        have hnl : 4 + (x.pkt.length - 4) + ops.authSize rx = n := by
          rw [List.length_take, Nat.min_eq_left hnF] at hel; omega
        rw [hnl, if_neg (by omega), h3] at hn'
        simp only [hpo, Next.packet.injEq] at hn'
        exact ⟨hn'.1.symm, hn'.2.1.symm⟩
      obtain ⟨rfl, rfl⟩ := hp
      cases hxs : x.switch with
      | none =>
        have hnk : isNewKeys x.payload = false := by
          rw [hxs] at hsw; cases h : isNewKeys x.payload <;> simp_all
        obtain ⟨rx₁, hrx, ha'⟩ := hrest hxs
        obtain rfl := Option.some.inj hrx
        rw [decode_packet hn hnk]
        simp only [installsOf, hxs, List.filterMap_cons, Option.map_none, numbered, id_eq]
        exact List.prefix_cons_inj _ |>.2 (ih tx' b' (seq + 1) _ hL' h6 ha')
      | some v =>
        obtain ⟨a, b, r⟩ := v
        have hnk : isNewKeys x.payload = true := by
          rw [hxs] at hsw; simpa using hsw
        rw [decode_newkeys hn hnk]
        simp only [installsOf, hxs, List.filterMap_cons, Option.map_some, numbered, resume, id_eq]
        exact List.prefix_cons_inj _ |>.2
          (ih a b _ _ hL' (hma a b r hxs) (ha.2 a b r hxs))

end Lukko.Spec
