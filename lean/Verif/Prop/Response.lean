import Verif.Model.Response
/-
  C95: the answer of the translation server.
-/
namespace Lukko
open Spec Model

variable {R : Type}

theorem readAnswer_eq (f : PacketEffect R) (r : R) (s : Bytes) :
    readAnswer f r s =
      match firstPacket s with
      | none => .incomplete
      | some (c, p, t) =>
        match f r c p with
        | none => .refused
        | some (r, true) => .complete r t
        | some (r, false) => readAnswer f r t := by
  rw [readAnswer]
  split <;> rename_i h <;> simp only [h]
  rfl

/-- What follows once the payload of a packet is there. -/
def afterPacket (f : PacketEffect R) (r : R) (c : Nat) (p t : Bytes) : Answer R :=
  match f r c p with
  | none => .refused
  | some (r, true) => .complete r t
  | some (r, false) => readAnswer f r t

/-- The meaning of a state: what the answer is if `more` is still to come. -/
def Model.Receiver.means (f : PacketEffect R) (x : Receiver R) (more : Bytes) : Answer R :=
  match x.parser with
  | .part c need got =>
    if (x.buffer ++ more).length < need then .incomplete
    else afterPacket f x.response c (got ++ (x.buffer ++ more).take need) ((x.buffer ++ more).drop need)
  | _ => readAnswer f x.response (x.buffer ++ more)

/-- Something is missing of a payload that is being read. -/
def Model.PacketReader.Fine (p : PacketReader) : Prop := ∀ c need got, p = .part c need got → 0 < need

/-- The whole header is needed. -/
theorem start_zero {b : Bytes} (h : (PacketReader.start b).1 = 0) : b.length < 4 := by
  unfold PacketReader.start at h
  split at h
  · simp only at h; omega
  · rename_i hb
    match b, hb with
    | [], _ => simp
    | [_], _ => simp
    | [_, _], _ => simp
    | [_, _, _], _ => simp
    | a :: b :: c :: d :: l, hb => exact absurd rfl (hb a b c d l)

theorem start_header {b : Bytes} (h : (PacketReader.start b).1 = 0) : (PacketReader.start b).2 = .header := by
  unfold PacketReader.start at h ⊢
  split
  · simp only at h; omega
  · rfl

theorem firstPacket_short {b : Bytes} (h : b.length < 4) : firstPacket b = none := by
  unfold firstPacket
  split
  · simp at h; omega
  · rfl

/-- What `Feed` makes of the payload. -/
theorem payload_means (f : PacketEffect R) (r : R) (c need : Nat) (got b more : Bytes) :
    (match (PacketReader.payload c need got b).2.process f r with
      | none => Answer.refused
      | some (r, true) => .complete r (b.drop (PacketReader.payload c need got b).1 ++ more)
      | some (r, false) =>
        Receiver.means f ⟨r, (PacketReader.payload c need got b).2, b.drop (PacketReader.payload c need got b).1⟩ more) =
    if (b ++ more).length < need then .incomplete
    else afterPacket f r c (got ++ (b ++ more).take need) ((b ++ more).drop need) := by
  by_cases h : need ≤ b.length
  · have hm : min need b.length = need := Nat.min_eq_left h
    have hp : PacketReader.payload c need got b = (need, .packet c (got ++ b.take need)) := by
      simp [PacketReader.payload, hm]
    rw [hp, if_neg (by simp; omega), List.take_append_of_le_length h, List.drop_append_of_le_length h]
    simp only [PacketReader.process, afterPacket, Receiver.means]
  · have hm : min need b.length = b.length := Nat.min_eq_right (by omega)
    have hp : PacketReader.payload c need got b = (b.length, .part c (need - b.length) (got ++ b)) := by
      have : (b.length == need) = false := by simp; omega
      simp [PacketReader.payload, hm, this]
    rw [hp]
    simp only [PacketReader.process, Receiver.means, List.drop_length, List.nil_append]
    have h1 : (more.length < need - b.length) ↔ ((b ++ more).length < need) := by simp; omega
    by_cases h2 : (b ++ more).length < need
    · rw [if_pos h2, if_pos (h1.2 h2)]
    · rw [if_neg h2, if_neg (fun e => h2 (h1.1 e))]
      have h3 : (b ++ more).take need = b ++ more.take (need - b.length) := by
        rw [List.take_append, List.take_of_length_le (by omega)]
      have h4 : (b ++ more).drop need = more.drop (need - b.length) := by
        rw [List.drop_append, List.drop_of_length_le (by omega), List.nil_append]
      rw [h3, h4, List.append_assoc]

theorem payload_fine (c need : Nat) (got b : Bytes) : (PacketReader.payload c need got b).2.Fine := by
  intro c' need' got' e
  unfold PacketReader.payload at e
  simp only at e
  cases h : min need b.length == need with
  | true => rw [h] at e; cases e
  | false =>
    rw [h] at e
    simp only [cond_false] at e
    injection e with _ e2 _
    have : ¬ min need b.length = need := by simpa using h
    omega

theorem start_fine (b : Bytes) : (PacketReader.start b).2.Fine := by
  unfold PacketReader.start
  split
  · exact payload_fine _ _ _ _
  · intro c n g e; cases e

theorem feed_fine (p : PacketReader) (b : Bytes) : (p.feed b).2.Fine := by
  cases p with
  | part c need got => exact payload_fine _ _ _ _
  | header => exact start_fine b
  | packet c q => exact start_fine b

/-- One round of the inner loop does not change the meaning. -/
theorem feed_means (f : PacketEffect R) (x : Receiver R) (more : Bytes) (h : (x.parser.feed x.buffer).1 ≠ 0) :
    (match (x.parser.feed x.buffer).2.process f x.response with
      | none => Answer.refused
      | some (r, true) => .complete r (x.buffer.drop (x.parser.feed x.buffer).1 ++ more)
      | some (r, false) =>
        Receiver.means f ⟨r, (x.parser.feed x.buffer).2, x.buffer.drop (x.parser.feed x.buffer).1⟩ more) =
    x.means f more := by
  have start : ∀ b : Bytes, (PacketReader.start b).1 ≠ 0 →
      (match (PacketReader.start b).2.process f x.response with
      | none => Answer.refused
      | some (r, true) => .complete r (b.drop (PacketReader.start b).1 ++ more)
      | some (r, false) =>
        Receiver.means f ⟨r, (PacketReader.start b).2, b.drop (PacketReader.start b).1⟩ more) =
      readAnswer f x.response (b ++ more) := by
    intro b hb
    unfold PacketReader.start at hb ⊢
    split at hb
    · rename_i l₀ l₁ c₀ c₁ rest
      simp only
      have := payload_means f x.response (c₀.toNat + 256 * c₁.toNat) (l₀.toNat + 256 * l₁.toNat) [] rest more
      have hd : ∀ n, (l₀ :: l₁ :: c₀ :: c₁ :: rest).drop (4 + n) = rest.drop n := by
        intro n; rw [Nat.add_comm]; rfl
      simp only [hd]
      rw [this, readAnswer_eq]
      simp only [List.cons_append, firstPacket, List.nil_append]
      by_cases hl : (rest ++ more).length < l₀.toNat + 256 * l₁.toNat
      · rw [if_pos hl, if_pos hl]
      · rw [if_neg hl, if_neg hl]; rfl
    · exact absurd rfl hb
  obtain ⟨r, p, b⟩ := x
  cases p with
  | part c need got => exact payload_means f r c need got b more
  | header => exact start b h
  | packet c q => exact start b h

/-- The parser is at the beginning of a packet if it cannot go on. -/
theorem feed_stuck (f : PacketEffect R) (x : Receiver R) (hx : x.parser.Fine) (hb : x.buffer ≠ [])
    (h : (x.parser.feed x.buffer).1 = 0) :
    x.buffer.length < 4 ∧ (x.parser.feed x.buffer).2 = .header ∧
      ∀ more, Receiver.means f { x with parser := .header } more = x.means f more := by
  obtain ⟨r, p, b⟩ := x
  cases p with
  | part c need got =>
    exfalso
    have hn := hx c need got rfl
    have hl := List.length_pos_iff.2 hb
    simp only [PacketReader.feed, PacketReader.payload] at h
    simp only at hl
    cases hc : min need b.length == need <;> rw [hc] at h <;> simp only [cond_true, cond_false] at h <;> omega
  | header => exact ⟨start_zero h, start_header h, fun _ => rfl⟩
  | packet c q => exact ⟨start_zero h, start_header h, fun _ => rfl⟩

/-- What is left when the inner loop ends. -/
structure Model.Receiver.Idle (f : PacketEffect R) (x : Receiver R) : Prop where
  fine : x.parser.Fine
  short : x.buffer.length < 4
  incomplete : x.means f [] = .incomplete

/-- What the result of the inner loop says about the bytes. -/
def Model.Received.Says (f : PacketEffect R) (a : Bytes → Answer R) : Received R → Prop
  | .waiting x => x.Idle f ∧ ∀ more, x.means f more = a more
  | .answer r => ∀ more, a more = .complete r more
  | .excess => ∃ r t, t ≠ [] ∧ ∀ more, a more = .complete r (t ++ more)
  | .refused => ∀ more, a more = .refused
  | _ => False

theorem means_empty (f : PacketEffect R) {x : Receiver R} (hx : x.parser.Fine) (hb : x.buffer = []) :
    x.means f [] = .incomplete := by
  unfold Receiver.means
  rw [hb]
  split
  · rename_i c need got e
    rw [if_pos (by simpa using hx c need got e)]
  · rw [readAnswer_eq]; rfl

theorem drain_says (f : PacketEffect R) (x : Receiver R) (hx : x.parser.Fine) :
    (x.drain f).Says f (x.means f) := by
  fun_induction Receiver.drain f x with
  | case1 x h =>
    have hb : x.buffer = [] := by simpa using h
    exact ⟨⟨hx, by simp [hb], means_empty f hx hb⟩, fun _ => rfl⟩
  | case2 x h h' =>
    have hb : x.buffer ≠ [] := by intro e; simp [e] at h
    have hz : (x.parser.feed x.buffer).1 = 0 := h'.resolve_right hb
    obtain ⟨hl, hp, hm⟩ := feed_stuck f x hx hb hz
    rw [hp]
    refine ⟨⟨fun c n g e => (by cases e), hl, ?_⟩, hm⟩
    show readAnswer f x.response (x.buffer ++ []) = _
    rw [readAnswer_eq, firstPacket_short (by simpa using hl)]
  | case3 x h h' hp =>
    intro more
    have := feed_means f x more (fun e => h' (Or.inl e))
    rw [hp] at this
    exact this.symm
  | case4 x h h' r hp he =>
    have he' : x.buffer.drop (x.parser.feed x.buffer).1 = [] := by simpa using he
    intro more
    have := feed_means f x more (fun e => h' (Or.inl e))
    rw [hp] at this
    simp only [he', List.nil_append] at this
    exact this.symm
  | case5 x h h' r hp he =>
    have he' : x.buffer.drop (x.parser.feed x.buffer).1 ≠ [] := by
      intro e; simp [e] at he
    refine ⟨r, _, he', fun more => ?_⟩
    have := feed_means f x more (fun e => h' (Or.inl e))
    rw [hp] at this
    exact this.symm
  | case6 x h h' r hp ih =>
    have := ih (feed_fine _ _)
    have he : Receiver.means f ⟨r, (x.parser.feed x.buffer).2, x.buffer.drop (x.parser.feed x.buffer).1⟩ =
        x.means f := by
      funext more
      have := feed_means f x more (fun e => h' (Or.inl e))
      rw [hp] at this
      exact this
    rwa [he] at this

/-- The bytes received. -/
def receivedBytes : List RecvResult → Bytes
  | [] => []
  | .data b :: es => b ++ receivedBytes es
  | _ :: es => receivedBytes es

theorem receivedBytes_append (es es' : List RecvResult) :
    receivedBytes (es ++ es') = receivedBytes es ++ receivedBytes es' := by
  induction es with
  | nil => rfl
  | cons e es ih => cases e <;> simp [receivedBytes, ih]

/-- The state after some events, and what it says about all the bytes, `t` of which came
after the end. -/
def Model.Received.State (f : PacketEffect R) (r : R) (es : List RecvResult) : Received R → Prop
  | .waiting x => x.Idle f ∧ ∀ more, x.means f more = readAnswer f r (receivedBytes es ++ more)
  | .answer a => ∃ t, readAnswer f r (receivedBytes es) = .complete a t
  | .excess => ∃ a t, t ≠ [] ∧ readAnswer f r (receivedBytes es) = .complete a t
  | .refused => readAnswer f r (receivedBytes es) = .refused
  | .hungUp => ∃ es₁ es₂, es = es₁ ++ .eof :: es₂ ∧ readAnswer f r (receivedBytes es₁) = .incomplete
  | .socketError => RecvResult.error ∈ es
  | .full => False

theorem complete_more {f : PacketEffect R} {r a : R} {s t : Bytes} (h : readAnswer f r s = .complete a t)
    (more : Bytes) : readAnswer f r (s ++ more) = .complete a (t ++ more) := by
  have := drain_says f { response := r, buffer := s } (fun c n g e => (by cases e))
  have hm : ∀ u, Receiver.means f { response := r, buffer := s } u = readAnswer f r (s ++ u) := fun _ => rfl
  cases hd : Receiver.drain f { response := r, buffer := s } <;> rw [hd] at this
  · obtain ⟨hi, he⟩ := this
    have h0 := he []
    rw [hi.incomplete, hm, List.append_nil, h] at h0
    cases h0
  · have h0 := this []
    rw [hm, List.append_nil, h] at h0
    injection h0 with h1 h2
    subst h1 h2
    exact this more
  · cases this
  · cases this
  · cases this
  · obtain ⟨b, u, _, he⟩ := this
    have h0 := he []
    rw [hm, List.append_nil, h] at h0
    injection h0 with h1 h2
    rw [List.append_nil] at h2
    subst h1 h2
    exact he more
  · have h0 := this []
    rw [hm, List.append_nil, h] at h0
    cases h0

theorem refused_more {f : PacketEffect R} {r : R} {s : Bytes} (h : readAnswer f r s = .refused)
    (more : Bytes) : readAnswer f r (s ++ more) = .refused := by
  have := drain_says f { response := r, buffer := s } (fun c n g e => (by cases e))
  have hm : ∀ u, Receiver.means f { response := r, buffer := s } u = readAnswer f r (s ++ u) := fun _ => rfl
  cases hd : Receiver.drain f { response := r, buffer := s } <;> rw [hd] at this
  · obtain ⟨hi, he⟩ := this
    have h0 := he []
    rw [hi.incomplete, hm, List.append_nil, h] at h0
    cases h0
  · have h0 := this []
    rw [hm, List.append_nil, h] at h0
    cases h0
  · cases this
  · cases this
  · cases this
  · obtain ⟨b, u, _, he⟩ := this
    have h0 := he []
    rw [hm, List.append_nil, h] at h0
    cases h0
  · exact this more

theorem state_step {f : PacketEffect R} {r : R} {es : List RecvResult} {y : Received R} (h : y.State f r es)
    (e : RecvResult) : (y.step f e).State f r (es ++ [e]) := by
  have hb : receivedBytes (es ++ [e]) = receivedBytes es ++ receivedBytes [e] := receivedBytes_append es [e]
  cases y with
  | waiting x =>
    obtain ⟨hi, hm⟩ := h
    simp only [Received.step, Receiver.receive]
    rw [show decide (RESPONSE_BUFFER ≤ x.buffer.length) = false from
      decide_eq_false (by have := hi.short; simp only [RESPONSE_BUFFER]; omega)]
    simp only [cond_false]
    cases e with
    | data b =>
      simp only
      have hs := drain_says f { x with buffer := x.buffer ++ b } hi.fine
      have hmm : ∀ more, Receiver.means f { x with buffer := x.buffer ++ b } more =
          readAnswer f r (receivedBytes (es ++ [.data b]) ++ more) := by
        intro more
        rw [hb]
        simp only [receivedBytes, List.append_nil, List.append_assoc]
        rw [← hm]
        unfold Receiver.means
        simp only [List.append_assoc]
      cases hd : Receiver.drain f { x with buffer := x.buffer ++ b } <;> rw [hd] at hs
      · exact ⟨hs.1, fun more => by rw [hs.2, hmm]⟩
      · exact ⟨[], by rw [← List.append_nil (receivedBytes _), ← hmm]; exact hs []⟩
      · cases hs
      · cases hs
      · cases hs
      · obtain ⟨a, t, ht, hs⟩ := hs
        refine ⟨a, t, ht, ?_⟩
        rw [← List.append_nil (receivedBytes _), ← hmm, hs, List.append_nil]
      · show readAnswer _ _ _ = _
        rw [← List.append_nil (receivedBytes _), ← hmm, hs]
    | wouldBlock =>
      refine ⟨hi, fun more => ?_⟩
      rw [hm, hb]
      simp [receivedBytes]
    | error => exact List.mem_append_right _ (by simp)
    | eof =>
      refine ⟨es, [], rfl, ?_⟩
      have := hm []
      rw [hi.incomplete, List.append_nil] at this
      exact this.symm
  | answer a =>
    obtain ⟨t, h⟩ := h
    exact ⟨_, by rw [hb]; exact complete_more h _⟩
  | full => cases h
  | socketError => exact List.mem_append_left _ h
  | hungUp =>
    obtain ⟨es₁, es₂, rfl, h⟩ := h
    exact ⟨es₁, es₂ ++ [e], by simp, h⟩
  | excess =>
    obtain ⟨a, t, ht, h⟩ := h
    exact ⟨a, t ++ receivedBytes [e], by simp [ht], by rw [hb]; exact complete_more h _⟩
  | refused =>
    show readAnswer _ _ _ = _
    rw [hb]
    exact refused_more h _

theorem response_state (f : PacketEffect R) (r : R) (es : List RecvResult) :
    (receiveResponse f r es).State f r es := by
  have gen : ∀ (es es₀ : List RecvResult) (y : Received R), y.State f r es₀ →
      (es.foldl (Received.step f) y).State f r (es₀ ++ es) := by
    intro es
    induction es with
    | nil => intro es₀ y h; simpa using h
    | cons e es ih =>
      intro es₀ y h
      have := ih (es₀ ++ [e]) _ (state_step h e)
      simpa using this
  refine gen es [] _ ⟨⟨fun c n g e => (by cases e), by simp, ?_⟩, fun _ => rfl⟩
  exact means_empty f (fun c n g e => (by cases e)) rfl

/-- **C95 (answers).** Whatever the translation server sends, however it is cut and
whatever happens to the socket: an answer is used only if the bytes begin with it, all
its packets being complete; the connection is given up as incomplete only if the server
has closed it before the end of its answer, as broken only if a packet is refused, and
the receive buffer never overflows. -/
theorem C95_answer_sound (f : PacketEffect R) (r : R) (es : List RecvResult) :
    (∀ a, receiveResponse f r es = .answer a → ∃ t, readAnswer f r (receivedBytes es) = .complete a t) ∧
    (receiveResponse f r es = .refused → readAnswer f r (receivedBytes es) = .refused) ∧
    (receiveResponse f r es = .excess →
      ∃ a t, t ≠ [] ∧ readAnswer f r (receivedBytes es) = .complete a t) ∧
    (receiveResponse f r es = .hungUp →
      ∃ es₁ es₂, es = es₁ ++ .eof :: es₂ ∧ readAnswer f r (receivedBytes es₁) = .incomplete) ∧
    (receiveResponse f r es = .socketError → RecvResult.error ∈ es) ∧
    receiveResponse f r es ≠ .full := by
  have h := response_state f r es
  cases hr : receiveResponse f r es <;> rw [hr] at h
  · exact ⟨fun _ => nofun, nofun, nofun, nofun, nofun, nofun⟩
  · exact ⟨fun a e => (by injection e with e; subst e; exact h), nofun, nofun, nofun, nofun, nofun⟩
  · cases h
  · exact ⟨fun _ => nofun, nofun, nofun, nofun, fun _ => h, nofun⟩
  · exact ⟨fun _ => nofun, nofun, nofun, fun _ => h, nofun, nofun⟩
  · exact ⟨fun _ => nofun, nofun, fun _ => h, nofun, nofun, nofun⟩
  · exact ⟨fun _ => nofun, fun _ => h, nofun, nofun, nofun, nofun⟩

/-- **C95 (partial).** As long as the socket works: what becomes of an answer without
anything behind it depends only on its bytes, not on how they are cut - a complete one
is used, an incomplete one is waited for (fewer than four bytes being left in the
buffer), one with a bad packet is refused. If there are bytes behind it, nothing but
this answer is used. Missing: that such an answer is refused, see
`C95_excess_violated`. -/
theorem C95_answer_partial (f : PacketEffect R) (r : R) (es : List RecvResult)
    (he : RecvResult.eof ∉ es) (hs : RecvResult.error ∉ es) :
    match readAnswer f r (receivedBytes es) with
    | .complete a [] => receiveResponse f r es = .answer a
    | .complete a _ => receiveResponse f r es = .answer a ∨ receiveResponse f r es = .excess
    | .refused => receiveResponse f r es = .refused
    | .incomplete => ∃ x, receiveResponse f r es = .waiting x ∧ x.buffer.length < 4 := by
  have h := response_state f r es
  cases hr : receiveResponse f r es <;> rw [hr] at h
  · rename_i x
    have := h.2 []
    rw [h.1.incomplete, List.append_nil] at this
    rw [← this]
    exact ⟨x, rfl, h.1.short⟩
  · obtain ⟨t, h⟩ := h
    rw [h]
    cases t with
    | nil => rfl
    | cons b t => exact Or.inl rfl
  · cases h
  · exact absurd h hs
  · obtain ⟨es₁, es₂, rfl, _⟩ := h
    exact absurd (by simp) he
  · obtain ⟨a, t, ht, h⟩ := h
    rw [h]
    cases t with
    | nil => exact absurd rfl ht
    | cons b t => exact Or.inr rfl
  · rw [show readAnswer f r (receivedBytes es) = .refused from h]

/-- Packets for the examples: command 1 ends the answer, 2 adds its payload to it,
others are refused. -/
def demoEffect : PacketEffect Bytes := fun r c p =>
  if c = 1 then some (r, true) else if c = 2 then some (r ++ p, false) else none

/-- **C95 (violated).** "Excessive data" is noticed only if it arrives together with the
end of the answer: the same bytes are refused or accepted. -/
theorem C95_excess_violated :
    ∃ (f : PacketEffect Bytes) (r : Bytes) (es es' : List RecvResult),
      receivedBytes es = receivedBytes es' ∧
      receiveResponse f r es = .excess ∧ receiveResponse f r es' = .answer [104, 105] :=
  ⟨demoEffect, [], [.data [2, 0, 2, 0, 104, 105, 0, 0, 1, 0, 7]],
    [.data [2, 0, 2, 0, 104, 105, 0, 0, 1, 0], .data [7]], by decide +kernel⟩

example : receiveResponse demoEffect [] [.data [2], .wouldBlock, .data [0, 2, 0, 104], .data [105, 0], .data [0, 1, 0]]
    = .answer [104, 105] := by decide +kernel

example : receiveResponse demoEffect [] [.data [2, 0, 3, 0, 104, 105, 0, 0, 1, 0]] = .refused ∧
    receiveResponse demoEffect [] [.data [2, 0, 2, 0, 104], .eof] = .hungUp := by decide +kernel

end Lukko
