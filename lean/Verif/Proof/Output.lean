import Verif.Model.Output
import Verif.Proof.SendQueue
/-
  Invariant of the output side.
-/
namespace Lukko
open Spec Model

variable {σ : Type} {ops : CipherOps σ}

/-- Encrypting a packet yields at least one byte. -/
def EncNonempty (ops : CipherOps σ) : Prop :=
  ∀ c seq p e c', p ≠ [] → ops.encrypt c seq p = some (e, c') → e ≠ []

/-- The stream of completely processed requests, with the cipher and sequence
number afterwards. -/
def enc (ops : CipherOps σ) : Option σ → Nat → List (Submit σ) → Option (Bytes × Option σ × Nat)
  | c, n, [] => some ([], c, n)
  | _, n, .rekey c reset :: xs => enc ops (some c) (if reset then 0 else n) xs
  | c, n, .packet p :: xs =>
    match protect ops c n p with
    | none => none
    | some (e, c') => (enc ops c' (n + 1) xs).map fun r => (e ++ r.1, r.2)

theorem enc_append {xs ys : List (Submit σ)} {c n b c' n'} (h : enc ops c n xs = some (b, c', n')) :
    enc ops c n (xs ++ ys) = (enc ops c' n' ys).map fun r => (b ++ r.1, r.2) := by
  induction xs generalizing c n b with
  | nil =>
    simp only [enc, Option.some.injEq, Prod.mk.injEq] at h
    obtain ⟨rfl, rfl, rfl⟩ := h
    cases h : enc ops c n ys <;> simp [h]
  | cons x xs ih =>
    cases x with
    | rekey k r =>
      simp only [enc, List.cons_append] at h ⊢
      exact ih h
    | packet p =>
      simp only [enc, List.cons_append] at h ⊢
      cases hp : protect ops c n p with
      | none => simp [hp] at h
      | some r =>
        obtain ⟨e, k⟩ := r
        simp only [hp] at h ⊢
        cases hx : enc ops k (n + 1) xs with
        | none => simp [hx] at h
        | some r =>
          obtain ⟨b₁, c₁, n₁⟩ := r
          simp only [hx, Option.map_some, Option.some.injEq, Prod.mk.injEq] at h
          obtain ⟨rfl, rfl, rfl⟩ := h
          rw [ih hx]
          cases enc ops c₁ n₁ ys <;> simp

theorem wire_of_enc {xs ys : List (Submit σ)} {c n b c' n'} (h : enc ops c n xs = some (b, c', n')) :
    wire ops c n (xs ++ ys) = b ++ wire ops c' n' ys := by
  induction xs generalizing c n b with
  | nil =>
    simp only [enc, Option.some.injEq, Prod.mk.injEq] at h
    obtain ⟨rfl, rfl, rfl⟩ := h
    simp
  | cons x xs ih =>
    cases x with
    | rekey k r =>
      simp only [enc, wire, List.cons_append] at h ⊢
      exact ih h
    | packet p =>
      simp only [enc, wire, List.cons_append] at h ⊢
      cases hp : protect ops c n p with
      | none => simp [hp] at h
      | some r =>
        obtain ⟨e, k⟩ := r
        simp only [hp] at h ⊢
        cases hx : enc ops k (n + 1) xs with
        | none => simp [hx] at h
        | some r =>
          obtain ⟨b₁, c₁, n₁⟩ := r
          simp only [hx, Option.map_some, Option.some.injEq, Prod.mk.injEq] at h
          obtain ⟨rfl, rfl, rfl⟩ := h
          rw [ih hx]; simp

theorem wire_mono (xs ys : List (Submit σ)) (c n) : wire ops c n xs <+: wire ops c n (xs ++ ys) := by
  induction xs generalizing c n with
  | nil => simp [wire]
  | cons x xs ih =>
    cases x with
    | rekey k r => simpa only [wire, List.cons_append] using ih _ _
    | packet p =>
      simp only [wire, List.cons_append]
      cases protect ops c n p with
      | none => simp
      | some r => exact (List.prefix_append_right_inj _).2 (ih _ _)

/-- `wire` is `transmit` for sequences which can be encrypted. -/
theorem wire_of_transmit {xs : List (Sent σ)} {c n b} (h : transmit ops c n xs = some b) :
    wire ops c n (submits xs) = b := by
  induction xs generalizing c n b with
  | nil => simpa [transmit, submits, wire] using h
  | cons x xs ih =>
    simp only [transmit] at h
    simp only [submits, List.flatMap_cons, List.cons_append, wire]
    cases hp : protect ops c n x.pkt with
    | none => simp [hp] at h
    | some r =>
      obtain ⟨e, k⟩ := r
      simp only [hp] at h ⊢
      cases hs : x.switch with
      | none =>
        simp only [hs, Option.map_eq_some_iff] at h
        obtain ⟨b', hb, rfl⟩ := h
        rw [List.nil_append]
        exact congrArg (e ++ ·) (ih hb)
      | some t =>
        obtain ⟨tx, rx, reset⟩ := t
        simp only [hs, Option.map_eq_some_iff] at h
        obtain ⟨b', hb, rfl⟩ := h
        simp only [List.cons_append, List.nil_append, wire]
        exact congrArg (e ++ ·) (ih hb)

def Model.OutWorker.src : OutWorker → List Bytes
  | .idle => []
  | .body src _ => src

def Model.OutWorker.dest : OutWorker → List Bytes
  | .idle => []
  | .body _ dest => dest

/-- Submitted, but not encrypted yet. -/
def Model.OutSys.todo (s : OutSys σ) : List (Submit σ) :=
  (s.worker.src ++ s.output.plain).map .packet ++
  (match s.output.nextCipher with
    | none => []
    | some c => .rekey c s.output.autoReset :: s.output.nextPlain.map .packet)

/-- The part of the invariant that needs no discipline about rekeying. -/
structure OutShape (s : OutSys σ) : Prop where
  wf : s.output.pending.WF
  ne : ∀ b ∈ s.output.encryptedQueue ++ s.worker.dest ++ s.worker.src ++ s.output.plain ++
    s.output.nextPlain, b ≠ []
  unenc : s.output.pushCipher = none → s.output.cipher = none ∧ s.output.nextCipher = none ∧
    s.output.plain = [] ∧ s.output.nextPlain = [] ∧ s.output.encryptedQueue = [] ∧
    s.worker.src = [] ∧ s.worker.dest = [] ∧ s.output.error = false
  encr : s.output.pushCipher.isSome → s.output.nextCipher = none → s.output.cipher.isSome
  src : s.worker.src ≠ [] → s.output.cipher.isSome
  plain : s.output.plain ≠ [] → s.output.cipher.isSome
  next : s.output.nextCipher = none → s.output.nextPlain = []

theorem OutShape.init : OutShape ({} : OutSys σ) := by
  constructor <;> simp [SendQueue.wf_empty, OutWorker.src, OutWorker.dest]

/-- What `Flush` does. -/
theorem flush_spec {o : Output σ} (hw : o.pending.WF) (hq : ∀ b ∈ o.encryptedQueue, b ≠ [])
    (hu : o.pushCipher = none → o.encryptedQueue = [] ∧ o.error = false) (w : WriteResult) :
    ∃ r o' b, o.flush w = (r, o', b) ∧ r ≠ .assertFailed ∧
      o'.pending.WF ∧ (∀ b ∈ o'.encryptedQueue, b ≠ []) ∧
      (∃ q e, o' = { o with pending := q, encryptedQueue := e }) ∧
      (o.error = false → b ++ o'.pending.rest ++ o'.encryptedQueue.flatten =
        o.pending.rest ++ o.encryptedQueue.flatten) ∧
      (o.error = true → b = [] ∧ o' = o) ∧
      (o.pushCipher = none → o'.encryptedQueue = []) ∧
      (r = .done → o'.pending.queue = [] ∧ o'.encryptedQueue = []) := by
  unfold Output.flush
  by_cases he : o.error = true
  · have hen : o.pushCipher.isSome = true := by
      cases h : o.pushCipher with
      | none => rw [(hu h).2] at he; simp at he
      | some _ => rfl
    rw [if_pos (by simp [hen, he])]
    exact ⟨_, _, _, rfl, by simp, hw, hq, ⟨o.pending, o.encryptedQueue, rfl⟩, by simp [he], by simp,
      fun h => (hu h).1, by simp⟩
  · have he' : o.error = false := by simpa using he
    rw [if_neg (by simp [he'])]
    -- the state after moving the encrypted packets
    obtain ⟨q, hq1, hq2, hq3, hu'⟩ : ∃ q : SendQueue, q.WF ∧
        q.rest = o.pending.rest ++ o.encryptedQueue.flatten ∧
        (bif o.isEncrypted then
          { o with pending := o.pending.moveFrom o.encryptedQueue, encryptedQueue := [] } else o) =
        { o with pending := q, encryptedQueue := [] } ∧ True := by
      cases hp : o.pushCipher with
      | none =>
        have := (hu hp).1
        refine ⟨o.pending, hw, by simp [this], ?_, trivial⟩
        simp only [Output.isEncrypted, hp, Option.isSome_none, cond_false]
        cases o; simp_all
      | some c =>
        obtain ⟨h1, h2⟩ := SendQueue.moveFrom_wf hw hq
        refine ⟨_, h1, h2, ?_, trivial⟩
        simp [Output.isEncrypted, hp]
    simp only [hq3]
    obtain ⟨v, hv, hv1, hv2, hv3, hv4⟩ := SendQueue.prepare_spec hq1 (room := FLUSH_IOVECS) (by decide)
    simp only [hv]
    cases hve : v with
    | nil =>
      refine ⟨_, _, _, rfl, by simp, hq1, by simp, ⟨_, _, rfl⟩, ?_, by simp [he'], by simp, ?_⟩
      · intro _; simp [hq2]
      · intro _; exact ⟨hv3.1 hve, rfl⟩
    | cons x xs =>
      simp only
      rw [← hve]
      cases w with
      | blocking =>
        exact ⟨_, _, _, rfl, by simp, hq1, by simp, ⟨_, _, rfl⟩, by simp [hq2], by simp [he'], by simp, by simp⟩
      | destroyed =>
        exact ⟨_, _, _, rfl, by simp, hq1, by simp, ⟨_, _, rfl⟩, by simp [hq2], by simp [he'], by simp, by simp⟩
      | failed =>
        exact ⟨_, _, _, rfl, by simp, hq1, by simp, ⟨_, _, rfl⟩, by simp [hq2], by simp [he'], by simp, by simp⟩
      | accepted n =>
        simp only
        obtain ⟨q', h1, h2, h3⟩ := SendQueue.consume_spec hq1 (n := min n v.flatten.length)
          (Nat.le_trans (Nat.min_le_right ..) hv2.length_le)
        simp only [h1]
        refine ⟨_, _, _, rfl, ?_, h2, by simp, ⟨_, _, rfl⟩, ?_, by simp [he'], by simp, ?_⟩
        · split <;> simp
        · intro _
          simp only [h3, List.flatten_nil, List.append_nil]
          rw [← hq2]
          obtain ⟨t, ht⟩ := hv2
          rw [← ht, List.drop_append_of_le_length (Nat.min_le_right ..), ← List.append_assoc,
            List.take_append_drop]
        · intro hd
          split at hd
          · rename_i h; exact ⟨by simpa using h, rfl⟩
          · simp at hd

theorem OutShape.step (hn : EncNonempty ops) {s : OutSys σ} (h : OutShape s) {e : OutEvent σ}
    (hc : s.callerOk e) : ∃ s', s.step ops e = some s' ∧ OutShape s' := by
  cases e with
  | push p =>
    refine ⟨_, rfl, ?_⟩
    simp only [OutSys.callerOk] at hc
    obtain ⟨wf, ne, un, en, hs, hp, hx⟩ := h
    cases hpc : s.output.pushCipher with
    | none =>
      have e : s.output.push p = { s.output with pending := s.output.pending.push p, seq := s.output.seq + 1 } := by
        simp [Output.push, Output.isEncrypted, hpc]
      rw [e]
      exact ⟨(SendQueue.push_wf wf hc).1, ne, un, by simp [hpc], hs, hp, hx⟩
    | some c =>
      cases hnc : s.output.nextCipher with
      | none =>
        have e : s.output.push p = { s.output with plain := s.output.plain ++ [p] } := by
          simp [Output.push, Output.isEncrypted, hpc, hnc]
        rw [e]
        refine ⟨wf, ?_, by simp [hpc], en, hs, fun _ => en (by simp [hpc]) hnc, hx⟩
        intro b hb
        simp only [List.mem_append, List.mem_singleton] at hb ne
        rcases hb with (((hb | hb) | hb) | hb | hb) | hb <;> first | (subst hb; exact hc) | (exact ne b (by simp [hb]))
      | some c' =>
        have e : s.output.push p = { s.output with nextPlain := s.output.nextPlain ++ [p] } := by
          simp [Output.push, Output.isEncrypted, hpc, hnc]
        rw [e]
        refine ⟨wf, ?_, by simp [hpc], en, hs, hp, by simp [hnc]⟩
        intro b hb
        simp only [List.mem_append, List.mem_singleton] at hb ne
        rcases hb with (((hb | hb) | hb) | hb) | hb | hb <;> first | (subst hb; exact hc) | (exact ne b (by simp [hb]))
  | setCipher c =>
    obtain ⟨wf, ne, un, en, hs, hp, hx⟩ := h
    exact ⟨_, rfl, ⟨wf, ne, by simp [Output.setCipher], by simp [Output.setCipher], hs, hp,
      by simp [Output.setCipher]⟩⟩
  | autoReset =>
    obtain ⟨wf, ne, un, en, hs, hp, hx⟩ := h
    exact ⟨_, rfl, ⟨wf, ne, un, en, hs, hp, hx⟩⟩
  | flush w =>
    obtain ⟨wf, ne, un, en, hs, hp, hx⟩ := h
    obtain ⟨r, o', b, hf, hr, h1, h2, ⟨q, e, rfl⟩, h3, h4, h5, h6⟩ :=
      flush_spec (o := s.output) wf (fun b hb => ne b (by simp [hb])) (fun h => ⟨(un h).2.2.2.2.1, (un h).2.2.2.2.2.2.2⟩) w
    refine ⟨{ s with output := { s.output with pending := q, encryptedQueue := e }, written := s.written ++ b }, ?_, ?_⟩
    · simp only [OutSys.step, hf]
    · refine ⟨h1, ?_, ?_, en, hs, hp, hx⟩
      · intro b hb
        simp only [List.mem_append] at hb ne
        rcases hb with (((hb | hb) | hb) | hb) | hb
        · exact h2 b hb
        all_goals exact ne b (by simp [hb])
      · intro hu
        have := un hu
        simp only at this ⊢
        exact ⟨this.1, this.2.1, this.2.2.1, this.2.2.2.1, h5 hu, this.2.2.2.2.2⟩
  | runBegin =>
    simp only [OutSys.step]
    cases hw : s.worker with
    | body a b => exact ⟨_, rfl, h⟩
    | idle =>
      refine ⟨_, rfl, ?_⟩
      obtain ⟨wf, ne, un, en, hs, hp, hx⟩ := h
      simp only [hw, OutWorker.src, OutWorker.dest, List.append_nil] at ne un hs
      unfold Output.runBegin
      split
      · rename_i c h1 h2
        rw [h1] at ne
        refine ⟨wf, ?_, ?_, by simp, by simp, by simp, by simp⟩
        · intro b hb
          simp only [OutWorker.src, OutWorker.dest, List.append_nil] at hb
          exact ne b (by simpa using hb)
        · intro hu
          have := (un hu).2.1
          simp [this] at h2
      · refine ⟨wf, ?_, ?_, en, hp, by simp, hx⟩
        · intro b hb
          simp only [OutWorker.src, OutWorker.dest, List.append_nil] at hb
          exact ne b (by simpa using hb)
        · intro hu
          have := un hu
          simp only [OutWorker.src, OutWorker.dest] at this ⊢
          exact ⟨this.1, this.2.1, trivial, this.2.2.2.1, this.2.2.2.2.1, this.2.2.1, trivial, this.2.2.2.2.2.2.2⟩
  | runEncrypt =>
    simp only [OutSys.step]
    cases hw : s.worker with
    | idle => exact ⟨_, rfl, h⟩
    | body src dest =>
      cases src with
      | nil => exact ⟨_, rfl, h⟩
      | cons p src =>
        simp only
        obtain ⟨wf, ne, un, en, hs, hp, hx⟩ := h
        simp only [hw, OutWorker.src, OutWorker.dest] at ne un hs
        obtain ⟨c, hcc⟩ := Option.isSome_iff_exists.1 (hs (by simp))
        have hne : s.output.pushCipher ≠ none := fun hu => by simpa using (un hu).2.2.2.2.2.1
        unfold Output.runEncrypt
        simp only [hcc]
        cases hen : ops.encrypt c s.output.seq p with
        | none =>
          refine ⟨_, rfl, wf, ?_, fun h => absurd h hne, by simp, by simp, by simp, hx⟩
          intro b hb
          simp only [OutWorker.src, OutWorker.dest, List.append_nil, List.mem_append] at hb
          rcases hb with (hb | hb) | hb <;> exact ne b (by simp [hb])
        | some r =>
          obtain ⟨e, c'⟩ := r
          refine ⟨_, rfl, wf, ?_, fun h => absurd h hne, by simp, by simp, by simp, hx⟩
          intro b hb
          simp only [OutWorker.src, OutWorker.dest, List.mem_append, List.mem_singleton] at hb
          have := hn _ _ _ _ _ (ne p (by simp)) hen
          rcases hb with (((hb | hb | hb) | hb) | hb) | hb <;> first | (subst hb; exact this) | (exact ne b (by simp [hb]))
  | runEnd =>
    simp only [OutSys.step]
    cases hw : s.worker with
    | idle => exact ⟨_, rfl, h⟩
    | body src dest =>
      cases src with
      | cons p src => exact ⟨_, rfl, h⟩
      | nil =>
        obtain ⟨wf, ne, un, en, hs, hp, hx⟩ := h
        simp only [hw, OutWorker.src, OutWorker.dest] at ne un hs
        refine ⟨_, rfl, wf, ?_, ?_, en, by simp [Output.runEnd, OutWorker.src], hp, hx⟩
        · intro b hb
          simp only [Output.runEnd, OutWorker.src, OutWorker.dest, List.append_nil] at hb
          exact ne b (by simpa using hb)
        · intro hu
          have := un hu
          simp only [Output.runEnd, OutWorker.src, OutWorker.dest] at this ⊢
          refine ⟨this.1, this.2.1, this.2.2.1, this.2.2.2.1, ?_, trivial, trivial, this.2.2.2.2.2.2.2⟩
          simp [this.2.2.2.2.1, this.2.2.2.2.2.2.1]

/-- The part of the invariant about the contents. -/
structure OutContent (ops : CipherOps σ) (s : OutSys σ) : Prop where
  exact' : s.output.error = false → ∃ d, s.submitted = d ++ s.todo ∧
    enc ops none 0 d = some (s.written ++ s.output.pending.rest ++ s.output.encryptedQueue.flatten ++
      s.worker.dest.flatten, s.output.cipher, s.output.seq)
  sofar : s.written ++ s.output.pending.rest <+: wire ops none 0 s.submitted

theorem OutContent.init : OutContent ops ({} : OutSys σ) := by
  constructor
  · intro _; exact ⟨[], by simp [OutSys.todo, OutWorker.src, enc, SendQueue.rest_empty, OutWorker.dest]⟩
  · simp [SendQueue.rest_empty]

theorem OutContent.ofExact {s : OutSys σ} (he : s.output.error = false)
    (h : ∃ d, s.submitted = d ++ s.todo ∧
    enc ops none 0 d = some (s.written ++ s.output.pending.rest ++ s.output.encryptedQueue.flatten ++
      s.worker.dest.flatten, s.output.cipher, s.output.seq)) : OutContent ops s := by
  refine ⟨fun _ => h, ?_⟩
  obtain ⟨d, h1, h2⟩ := h
  rw [h1, wire_of_enc h2]
  simp only [List.append_assoc]
  rw [← List.append_assoc]
  exact List.prefix_append _ _

theorem OutContent.step (hn : EncNonempty ops) {s s' : OutSys σ} (hsh : OutShape s) (h : OutContent ops s)
    {e : OutEvent σ} (hc : s.callerOk e) (hr : s.rekeyOk e) (hst : s.step ops e = some s') :
    OutContent ops s' := by
  obtain ⟨hex, hpre⟩ := h
  obtain ⟨wf, ne, un, en, hs, hp, hx⟩ := hsh
  cases e with
  | push p =>
    simp only [OutSys.step, Option.some.injEq] at hst
    subst hst
    simp only [OutSys.callerOk] at hc
    cases hpc : s.output.pushCipher with
    | none =>
      have u := un hpc
      have e : s.output.push p = { s.output with pending := s.output.pending.push p, seq := s.output.seq + 1 } := by
        simp [Output.push, Output.isEncrypted, hpc]
      rw [e]
      refine OutContent.ofExact u.2.2.2.2.2.2.2 ?_
      obtain ⟨d, h1, h2⟩ := hex u.2.2.2.2.2.2.2
      refine ⟨d ++ [.packet p], ?_, ?_⟩
      · simp only [OutSys.todo, u.2.2.2.2.2.1, u.2.1, u.2.2.1, List.append_nil, List.map_nil] at h1 ⊢
        rw [h1]
      · rw [enc_append h2]
        simp [enc, u.1, protect, (SendQueue.push_wf wf hc).2, u.2.2.2.2.1, u.2.2.2.2.2.2.1]
    | some c =>
      have hpre' : ∀ o : Output σ, o.pending = s.output.pending →
          s.written ++ o.pending.rest <+: wire ops none 0 (s.submitted ++ [.packet p]) := by
        intro o ho
        rw [ho]; exact hpre.trans (wire_mono ..)
      cases hnc : s.output.nextCipher with
      | none =>
        have e : s.output.push p = { s.output with plain := s.output.plain ++ [p] } := by
          simp [Output.push, Output.isEncrypted, hpc, hnc]
        rw [e]
        refine ⟨fun he => ?_, hpre' _ rfl⟩
        obtain ⟨d, h1, h2⟩ := hex he
        exact ⟨d, by rw [h1]; simp [OutSys.todo, hnc], h2⟩
      | some c' =>
        have e : s.output.push p = { s.output with nextPlain := s.output.nextPlain ++ [p] } := by
          simp [Output.push, Output.isEncrypted, hpc, hnc]
        rw [e]
        refine ⟨fun he => ?_, hpre' _ rfl⟩
        obtain ⟨d, h1, h2⟩ := hex he
        exact ⟨d, by rw [h1]; simp [OutSys.todo, hnc], h2⟩
  | setCipher c =>
    simp only [OutSys.step, Option.some.injEq] at hst
    subst hst
    simp only [OutSys.rekeyOk] at hr
    refine ⟨fun he => ?_, hpre.trans (wire_mono ..)⟩
    obtain ⟨d, h1, h2⟩ := hex he
    refine ⟨d, ?_, h2⟩
    simp only [OutSys.todo, hr, hx hr, Output.setCipher, List.append_nil, List.map_nil] at h1 ⊢
    rw [h1, List.append_assoc]
  | autoReset =>
    simp only [OutSys.step, Option.some.injEq] at hst
    subst hst
    refine ⟨fun he => ?_, hpre⟩
    obtain ⟨d, h1, h2⟩ := hex he
    refine ⟨d, ?_, h2⟩
    rw [h1]
    simp only [OutSys.todo, Output.setAutoReset]
    simp only [OutSys.callerOk, Output.isEncrypted] at hc
    rcases hc with hc | hc
    · have : s.output.pushCipher = none := by simpa using hc
      rw [(un this).2.1]
    · rw [hc]
  | flush w =>
    obtain ⟨r, o', b, hf, hr, h1, h2, ⟨q, e, rfl⟩, h3, h4, h5, h6⟩ :=
      flush_spec (o := s.output) wf (fun b hb => ne b (by simp [hb])) (fun h => ⟨(un h).2.2.2.2.1, (un h).2.2.2.2.2.2.2⟩) w
    have hst : s' = { s with output := { s.output with pending := q, encryptedQueue := e }, written := s.written ++ b } := by
      simp only [OutSys.step, hf] at hst
      cases r <;> simp_all
    subst hst
    cases he : s.output.error with
    | false =>
      refine OutContent.ofExact (by simpa using he) ?_
      obtain ⟨d, g1, g2⟩ := hex he
      refine ⟨d, g1, ?_⟩
      have := h3 he
      simp only at this ⊢
      rw [g2]
      simp only [List.append_assoc] at this ⊢
      congr 2
      rw [List.append_cancel_left_eq]
      have h' := congrArg (· ++ s.worker.dest.flatten) this
      simpa using h'.symm
    | true =>
      obtain ⟨rfl, h⟩ := h4 he
      have hq : q = s.output.pending := congrArg Output.pending h
      refine ⟨fun h => ?_, ?_⟩
      · simp at h; rw [h] at he; simp at he
      · simp only [List.append_nil, hq]; exact hpre
  | runBegin =>
    simp only [OutSys.step] at hst
    cases hw : s.worker with
    | body a b => simp [hw] at hst; subst hst; exact ⟨hex, hpre⟩
    | idle =>
      simp only [hw, Option.some.injEq] at hst
      subst hst
      refine ⟨fun he => ?_, ?_⟩
      · have hes : s.output.error = false := by
          unfold Output.runBegin at he
          split at he <;> simpa using he
        obtain ⟨d, g1, g2⟩ := hex hes
        simp only [OutSys.todo, hw, OutWorker.src, OutWorker.dest, List.nil_append] at g1 g2
        unfold Output.runBegin
        split
        · rename_i c h1 h2
          simp only [h1, h2, List.map_nil, List.nil_append] at g1
          refine ⟨d ++ [.rekey c s.output.autoReset], ?_, ?_⟩
          · simp [OutSys.todo, OutWorker.src, g1]
          · rw [enc_append g2]; simp [enc, OutWorker.dest]
        · refine ⟨d, ?_, ?_⟩
          · simpa [OutSys.todo, OutWorker.src] using g1
          · rw [g2]; simp [OutWorker.dest]
      · unfold Output.runBegin
        split <;> exact hpre
  | runEncrypt =>
    simp only [OutSys.step] at hst
    cases hw : s.worker with
    | idle => simp [hw] at hst; subst hst; exact ⟨hex, hpre⟩
    | body src dest =>
      cases src with
      | nil => simp [hw] at hst; subst hst; exact ⟨hex, hpre⟩
      | cons p src =>
        simp only [hw, OutWorker.src, OutWorker.dest] at hs un
        obtain ⟨c, hcc⟩ := Option.isSome_iff_exists.1 (hs (by simp))
        simp only [hw, Output.runEncrypt, hcc] at hst
        cases hen : ops.encrypt c s.output.seq p with
        | none =>
          simp [hen] at hst
          subst hst
          exact ⟨by simp, hpre⟩
        | some r =>
          obtain ⟨e, c'⟩ := r
          simp [hen] at hst
          subst hst
          refine ⟨fun he => ?_, hpre⟩
          obtain ⟨d, g1, g2⟩ := hex he
          refine ⟨d ++ [.packet p], ?_, ?_⟩
          · rw [g1]; simp [OutSys.todo, hw, OutWorker.src]
          · rw [enc_append g2]
            simp [enc, protect, hcc, hen, hw, OutWorker.dest]
  | runEnd =>
    simp only [OutSys.step] at hst
    cases hw : s.worker with
    | idle => simp [hw] at hst; subst hst; exact ⟨hex, hpre⟩
    | body src dest =>
      cases src with
      | cons p src => simp [hw] at hst; subst hst; exact ⟨hex, hpre⟩
      | nil =>
        simp [hw] at hst
        subst hst
        refine ⟨fun he => ?_, hpre⟩
        obtain ⟨d, g1, g2⟩ := hex he
        refine ⟨d, ?_, ?_⟩
        · rw [g1]; simp [OutSys.todo, hw, OutWorker.src, Output.runEnd]
        · rw [g2]; simp [hw, OutWorker.dest, Output.runEnd]

theorem OutShape.run (hn : EncNonempty ops) {s : OutSys σ} (h : OutShape s) {es : List (OutEvent σ)}
    (hc : OutSys.Always ops OutSys.callerOk s es) : ∃ s', s.run ops es = some s' ∧ OutShape s' := by
  induction es generalizing s with
  | nil => exact ⟨_, rfl, h⟩
  | cons e es ih =>
    obtain ⟨s₁, h1, h2⟩ := h.step hn hc.1
    simp only [OutSys.run, h1]
    exact ih h2 (hc.2 _ h1)

theorem OutContent.run (hn : EncNonempty ops) {s s' : OutSys σ} (h : OutShape s) (h' : OutContent ops s)
    {es : List (OutEvent σ)}
    (hc : OutSys.Always ops OutSys.callerOk s es) (hr : OutSys.Always ops OutSys.rekeyOk s es)
    (hrun : s.run ops es = some s') : OutShape s' ∧ OutContent ops s' := by
  induction es generalizing s with
  | nil => simp [OutSys.run] at hrun; subst hrun; exact ⟨h, h'⟩
  | cons e es ih =>
    obtain ⟨s₁, h1, h2⟩ := h.step hn hc.1
    simp only [OutSys.run, h1] at hrun
    exact ih h2 (h'.step hn h hc.1 hr.1 h1) (hc.2 _ h1) (hr.2 _ h1) hrun

end Lukko
