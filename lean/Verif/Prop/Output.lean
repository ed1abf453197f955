import Verif.Proof.ConnOut
import Verif.Prop.Input
/-
  C09, C10, C60: sending packets (and the sending side of C07/C08).
-/
namespace Lukko
open Spec Model

variable {σ : Type} {ops : CipherOps σ}

/-! ### C10: partial writes -/

/-- What the owner of a send queue does: queue a block, queue several blocks,
or write: offer at most `room` blocks to the socket, which takes `n` bytes (or
all it was offered, if that is less). -/
inductive QueueOp
  | push (b : Bytes)
  | moveFrom (bs : List Bytes)
  | write (room n : Nat)

/-- Blocks are never empty, and the array offered to the socket has at least
one entry. -/
def QueueOp.Ok : QueueOp → Prop
  | .push b => b ≠ []
  | .moveFrom bs => ∀ b ∈ bs, b ≠ []
  | .write room _ => 0 < room

/-- The bytes queued by an operation. -/
def QueueOp.queued : QueueOp → Bytes
  | .push b => b
  | .moveFrom bs => bs.flatten
  | .write _ _ => []

/-- One operation on the model's queue and the bytes the socket has accepted. -/
def QueueOp.apply (s : SendQueue × Bytes) : QueueOp → Option (SendQueue × Bytes)
  | .push b => some (s.1.push b, s.2)
  | .moveFrom bs => some (s.1.moveFrom bs, s.2)
  | .write room n => do
    let v ← s.1.prepare room
    let n := min n v.flatten.length
    let q ← s.1.consume n
    pure (q, s.2 ++ v.flatten.take n)

def QueueOp.applyAll (s : SendQueue × Bytes) : List QueueOp → Option (SendQueue × Bytes)
  | [] => some s
  | o :: os => (o.apply s).bind (QueueOp.applyAll · os)

/-- **C10.** For every sequence of queued blocks and partial writes: no
assertion fails, and the bytes accepted by the socket followed by the bytes
still queued are exactly the bytes queued so far, in order. -/
theorem C10_partial_writes (os : List QueueOp) (hos : ∀ o ∈ os, o.Ok) :
    ∃ q written, QueueOp.applyAll ({}, []) os = some (q, written) ∧
      written ++ q.queue.flatten.drop q.consumed = (os.map (·.queued)).flatten := by
  suffices H : ∀ (q : SendQueue) (w : Bytes), q.WF →
      ∃ q' w', QueueOp.applyAll (q, w) os = some (q', w') ∧
        w' ++ q'.rest = w ++ q.rest ++ (os.map (·.queued)).flatten by
    obtain ⟨q, w, h1, h2⟩ := H {} [] SendQueue.wf_empty
    exact ⟨q, w, h1, by simpa [SendQueue.rest_empty, SendQueue.rest] using h2⟩
  induction os with
  | nil => intro q w _; exact ⟨q, w, rfl, by simp⟩
  | cons o os ih =>
    intro q w hq
    have ih := ih (fun x hx => hos x (List.mem_cons_of_mem _ hx))
    have ho := hos o (List.mem_cons_self ..)
    simp only [QueueOp.applyAll]
    cases o with
    | push b =>
      obtain ⟨h1, h2⟩ := SendQueue.push_wf hq ho
      obtain ⟨q', w', h3, h4⟩ := ih _ w h1
      exact ⟨q', w', h3, by rw [h4, h2]; simp [QueueOp.queued]⟩
    | moveFrom bs =>
      obtain ⟨h1, h2⟩ := SendQueue.moveFrom_wf hq ho
      obtain ⟨q', w', h3, h4⟩ := ih _ w h1
      exact ⟨q', w', h3, by rw [h4, h2]; simp [QueueOp.queued]⟩
    | write room n =>
      obtain ⟨v, hv, _, ⟨t, ht⟩, _⟩ := SendQueue.prepare_spec hq ho
      obtain ⟨q₁, h1, h2, h3⟩ := SendQueue.consume_spec hq (n := min n v.flatten.length)
        (by rw [← ht]; simp; omega)
      obtain ⟨q', w', h4, h5⟩ := ih q₁ (w ++ v.flatten.take (min n v.flatten.length)) h2
      refine ⟨q', w', by simp only [QueueOp.apply, hv, h1, h4, bind, Option.bind, pure], ?_⟩
      rw [h5, h3, ← ht, List.drop_append_of_le_length (Nat.min_le_right ..)]
      simp only [List.map_cons, QueueOp.queued, List.flatten_cons, List.nil_append, List.append_assoc]
      rw [← List.append_assoc (List.take _ _), List.take_append_drop]

/-- **C10.** A write that is offered a non-empty queue makes progress: at least
one byte is offered to the socket, so that a socket that takes anything at all
shrinks the queue. -/
theorem C10_offers_something (os : List QueueOp) (hos : ∀ o ∈ os, o.Ok) {q : SendQueue} {w : Bytes}
    (h : QueueOp.applyAll ({}, []) os = some (q, w)) (hne : q.queue ≠ []) (room : Nat) (hr : 0 < room) :
    ∃ v, q.prepare room = some v ∧ v.flatten ≠ [] ∧ v.flatten <+: q.queue.flatten.drop q.consumed := by
  have hw : ∀ (q₀ : SendQueue) w₀, q₀.WF → QueueOp.applyAll (q₀, w₀) os = some (q, w) → q.WF := by
    clear h
    induction os with
    | nil => intro q₀ w₀ h0 h; simp [QueueOp.applyAll] at h; exact h.1 ▸ h0
    | cons o os ih =>
      intro q₀ w₀ h0 h
      have ih := ih (fun x hx => hos x (List.mem_cons_of_mem _ hx))
      have ho := hos o (List.mem_cons_self ..)
      simp only [QueueOp.applyAll] at h
      cases o with
      | push b => exact ih _ _ (SendQueue.push_wf h0 ho).1 h
      | moveFrom bs => exact ih _ _ (SendQueue.moveFrom_wf h0 ho).1 h
      | write room n =>
        obtain ⟨v, hv, _, ⟨t, ht⟩, _⟩ := SendQueue.prepare_spec h0 ho
        obtain ⟨q₁, h1, h2, h3⟩ := SendQueue.consume_spec h0 (n := min n v.flatten.length)
          (by rw [← ht]; simp; omega)
        simp only [QueueOp.apply, hv, h1, bind, Option.bind, pure] at h
        exact ih _ _ h2 h
  obtain ⟨v, h1, _, h2, _, h3⟩ := SendQueue.prepare_spec (hw _ _ SendQueue.wf_empty h) hr
  exact ⟨v, h1, h3 hne, h2⟩

/-- Three blocks, written in pieces of 1, 3 (across a block boundary) and 9 bytes. -/
example : QueueOp.applyAll ({}, []) [.push [1, 2], .write 32 1, .moveFrom [[3, 4], [5, 6, 7]],
    .write 2 4, .write 32 9] = some ({}, [1, 2, 3, 4, 5, 6, 7]) := by decide

example : ∀ o ∈ [QueueOp.push [1, 2], .write 32 1, .moveFrom [[3, 4], [5, 6, 7]]], o.Ok := by
  simp [QueueOp.Ok]

/-! ### C09: order and cipher epochs -/

/-- **C09.** Under every interleaving no assertion fails. -/
theorem C09_no_assertion_fails (hn : EncNonempty ops) (es : List (OutEvent σ))
    (hc : OutSys.Always ops OutSys.callerOk {} es) : (({} : OutSys σ).run ops es).isSome := by
  obtain ⟨s, h, _⟩ := OutShape.init.run hn hc
  simp [h]

/-- **C09** (partial: a second new cipher is installed only after the worker
thread has switched to the first, see `C09_second_rekey_violated`).  Under every
interleaving of the event thread and the worker thread and all partial writes,
the bytes written are a prefix of the packets in submission order, each
encrypted once with the cipher in force when it was submitted and numbered
consecutively. -/
theorem C09_submission_order_partial (hn : EncNonempty ops) (es : List (OutEvent σ))
    (hc : OutSys.Always ops OutSys.callerOk {} es) (hr : OutSys.Always ops OutSys.rekeyOk {} es)
    {s : OutSys σ} (hrun : ({} : OutSys σ).run ops es = some s) :
    s.written <+: wire ops none 0 s.submitted := by
  obtain ⟨_, h⟩ := OutContent.run hn OutShape.init OutContent.init hc hr hrun
  exact (List.prefix_append _ _).trans h.sofar

/-- **C09** (partial, same restriction).  Nothing is lost: when all queues are
empty, no worker is running and no error is pending, everything submitted has
been written. -/
theorem C09_nothing_lost_partial (hn : EncNonempty ops) (es : List (OutEvent σ))
    (hc : OutSys.Always ops OutSys.callerOk {} es) (hr : OutSys.Always ops OutSys.rekeyOk {} es)
    {s : OutSys σ} (hrun : ({} : OutSys σ).run ops es = some s) (hw : s.worker = .idle)
    (he : s.output.error = false) (hemp : s.output.isEmpty = true) :
    s.written = wire ops none 0 s.submitted := by
  obtain ⟨hsh, h⟩ := OutContent.run hn OutShape.init OutContent.init hc hr hrun
  exact all_written hsh h he hemp hw

/-- **C09/C07 end to end** (partial, same restriction).  The bytes which one side
writes, cut into arbitrary chunks, are delivered by the other side as a prefix
of the packets submitted, with the same sequence numbers. -/
theorem C09_end_to_end_partial {Matched : σ → σ → Prop} (hs : Sane ops) (hcon : Contract ops Matched)
    (hn : EncNonempty ops) (xs : List (Sent σ)) (hL : Legal Matched xs)
    (hS : (transmit ops none 0 xs).isSome)
    (es : List (OutEvent σ)) (hc : OutSys.Always ops OutSys.callerOk {} es)
    (hr : OutSys.Always ops OutSys.rekeyOk {} es) {s : OutSys σ}
    (hrun : ({} : OutSys σ).run ops es = some s) (hsub : s.submitted = submits xs)
    (es' : List (InputEvent σ)) {t : InputSys σ} (hrun' : ({} : InputSys σ).run ops es' = some t)
    (hi : ∃ cs, t.installs ++ cs = installsOf xs) (hfed : t.fed <+: s.written) :
    t.delivered <+: numbered 0 xs := by
  obtain ⟨S, hS⟩ := Option.isSome_iff_exists.1 hS
  have h := C09_submission_order_partial hn es hc hr hrun
  rw [hsub, wire_of_transmit hS] at h
  obtain ⟨r, hr'⟩ := hfed.trans h
  exact C08_sequence_numbers hs hcon xs hL hS es' hrun' hi ⟨r, hr'⟩

/-- A toy cipher for examples: prefixes the packet with its key and the low
byte of the sequence number. -/
def toy : CipherOps UInt8 where
  blockSize := fun _ => 8
  authSize := fun _ => 2
  padWithoutHeader := fun _ => false
  decryptHeader := fun _ _ _ => none
  decryptPayload := fun _ _ _ => none
  encrypt := fun c seq p => some (c :: UInt8.ofNat seq :: p, c)

theorem toy_nonempty : EncNonempty toy := by
  intro c seq p e c' hp h
  simp [toy] at h
  rw [← h.1]; simp

instance {s : OutSys σ} {e : OutEvent σ} : Decidable (s.callerOk e) := by
  cases e <;> (simp only [OutSys.callerOk]; infer_instance)

instance {s : OutSys σ} {e : OutEvent σ} : Decidable (s.rekeyOk e) := by
  cases e <;> simp only [OutSys.rekeyOk]
  case setCipher => exact decidable_of_iff (s.output.nextCipher.isNone) (by simp)
  all_goals infer_instance

/-- Executable form of `Always`. -/
def alwaysB (ops : CipherOps σ) (P : OutSys σ → OutEvent σ → Bool) : OutSys σ → List (OutEvent σ) → Bool
  | _, [] => true
  | s, e :: es => P s e && (match s.step ops e with | none => true | some s' => alwaysB ops P s' es)

theorem always_of_alwaysB {P : OutSys σ → OutEvent σ → Prop} [∀ s e, Decidable (P s e)]
    {s : OutSys σ} {es : List (OutEvent σ)} (h : alwaysB ops (fun s e => decide (P s e)) s es = true) :
    OutSys.Always ops P s es := by
  induction es generalizing s with
  | nil => trivial
  | cons e es ih =>
    simp only [alwaysB, Bool.and_eq_true, decide_eq_true_eq] at h
    refine ⟨h.1, fun s' hs => ?_⟩
    have := h.2
    rw [hs] at this
    exact ih this

/-- A connection in plaintext, then two key exchanges, with packets queued while
the worker is busy and writes of a few bytes. -/
def demoOut : List (OutEvent UInt8) :=
  [.push [10, 11], .autoReset, .flush (.accepted 1), .push [12], .setCipher 1, .push [13],
   .runBegin, .push [14, 15], .setCipher 2, .push [16], .runEncrypt, .flush (.accepted 3),
   .runEnd, .runBegin, .flush .blocking, .flush (.accepted 2), .runEncrypt, .runEnd, .runBegin,
   .runEncrypt, .runEnd, .flush (.accepted 100)]

example : OutSys.Always toy OutSys.callerOk {} demoOut ∧ OutSys.Always toy OutSys.rekeyOk {} demoOut :=
  ⟨always_of_alwaysB (by decide), always_of_alwaysB (by decide)⟩

example : (({} : OutSys UInt8).run toy demoOut).map (·.written) =
    some [10, 11, 12, 1, 0, 13, 1, 1, 14, 15, 2, 0, 16] := by decide

/-- **C09 is false** without that restriction: if two ciphers are installed
before the worker thread gets to run (possible when a peer rushes through two
key exchanges), a packet submitted between the two is encrypted with the second
cipher. -/
theorem C09_second_rekey_violated :
    ∃ (es : List (OutEvent UInt8)) (s : OutSys UInt8), OutSys.Always toy OutSys.callerOk {} es ∧
      ({} : OutSys UInt8).run toy es = some s ∧
      ¬ s.written <+: wire toy none 0 s.submitted := by
  refine ⟨[.setCipher 1, .push [7], .setCipher 2, .runBegin, .runEncrypt, .runEnd,
    .flush (.accepted 100)], ?_⟩
  have h : ((({} : OutSys UInt8).run toy [.setCipher 1, .push [7], .setCipher 2, .runBegin, .runEncrypt, .runEnd,
    .flush (.accepted 100)]).map fun s => (s.written, s.submitted)) =
      some ([2, 0, 7], [.rekey 1 false, .packet [7], .rekey 2 false]) := by decide
  cases hr : ({} : OutSys UInt8).run toy [.setCipher 1, .push [7], .setCipher 2, .runBegin, .runEncrypt, .runEnd,
    .flush (.accepted 100)] with
  | none => rw [hr] at h; simp at h
  | some s =>
    rw [hr] at h
    simp only [Option.map_some, Option.some.injEq, Prod.mk.injEq] at h
    refine ⟨s, always_of_alwaysB (by decide), rfl, ?_⟩
    rw [h.1, h.2]
    decide

/-! ### C60: the DISCONNECT message -/

/-- What is known when `OnBufferedWrite` disposes the connection. -/
theorem closed_flushed {s s' : ConnOut σ} {es : List (ConnOutEvent σ)}
    (h : s.closed = some .flushed → s.dead = true ∧ s.sys.output.error = false ∧ s.sys.output.isEmpty = true)
    (hc : OutShape s.sys)
    (hn : EncNonempty ops) (hinv : ConnOutInv ops s)
    (hrun : s.run ops es = some s') :
    s'.closed = some .flushed → s'.dead = true ∧ s'.sys.output.error = false ∧ s'.sys.output.isEmpty = true := by
  induction es generalizing s with
  | nil => simp [ConnOut.run] at hrun; subst hrun; exact h
  | cons e es ih =>
    simp only [ConnOut.run] at hrun
    cases hst : s.step ops e with
    | none => rw [hst] at hrun; simp at hrun
    | some s₁ =>
      rw [hst] at hrun
      simp only at hrun
      have hinv₁ := hinv.step hn hst
      refine ih ?_ hinv₁.shape hinv₁ hrun
      have hst' := hst
      unfold ConnOut.step at hst
      split at hst
      · simp at hst
      rename_i hcl
      have hcl : s.closed = none := by simpa using hcl
      cases e with
      | writable w =>
        simp only at hst
        split at hst
        · simp at hst
        · rename_i t h1
          split at hst
          · rename_i hd
            simp at hst; subst hst
            intro hf
            simp only at hf
            split at hf
            · rename_i hde
              refine ⟨hde.1, ?_, hde.2⟩
              obtain ⟨r, o', b, hf', hr, g1, g2, ⟨q, e, rfl⟩, g3, g4, g5, g6⟩ :=
                flush_spec (o := s.sys.output) hinv.shape.wf (fun b hb => hinv.shape.ne b (by simp [hb]))
                  (fun h => ⟨(hinv.shape.unenc h).2.2.2.2.1, (hinv.shape.unenc h).2.2.2.2.2.2.2⟩) w
              have ht : t.output = { s.sys.output with pending := q, encryptedQueue := e } := by
                simp only [OutSys.step, hf'] at h1
                cases r <;> simp_all
                all_goals (rw [← h1])
              rw [ht]
              simp only [OutSys.flushed] at hd
              cases he : s.sys.output.error with
              | false => rfl
              | true =>
                have hen : s.sys.output.isEncrypted = true := by
                  cases hpc : s.sys.output.pushCipher with
                  | none => rw [(hinv.shape.unenc hpc).2.2.2.2.2.2.2] at he; simp at he
                  | some _ => simp [Output.isEncrypted, hpc]
                unfold Output.flush at hd
                rw [if_pos (by simp [hen, he])] at hd
                simp at hd
            · simp at hf
          · simp at hst; subst hst; simp [hcl]
          · simp at hst; subst hst; simp
      | disconnect p w =>
        simp only at hst
        split at hst
        · simp at hst
        · split at hst
          · simp at hst; subst hst; simp [hcl]
          · split at hst
            · simp at hst
            · split at hst
              · simp at hst; subst hst; simp [hcl]
              · split at hst
                · simp at hst
                · simp at hst; subst hst; simp
      | send p =>
        simp only at hst
        split at hst
        · simp at hst
        · simp only [Option.map_eq_some_iff] at hst; obtain ⟨t, _, rfl⟩ := hst; simp [hcl]
      | setCipher p =>
        simp only at hst
        split at hst
        · simp at hst
        · simp only [Option.map_eq_some_iff] at hst; obtain ⟨t, _, rfl⟩ := hst; simp [hcl]
      | autoReset =>
        simp only at hst
        split at hst
        · simp at hst
        · simp only [Option.map_eq_some_iff] at hst; obtain ⟨t, _, rfl⟩ := hst; simp [hcl]
      | runBegin => simp only [Option.map_eq_some_iff] at hst; obtain ⟨t, _, rfl⟩ := hst; simp [hcl]
      | runEncrypt => simp only [Option.map_eq_some_iff] at hst; obtain ⟨t, _, rfl⟩ := hst; simp [hcl]
      | runEnd => simp only [Option.map_eq_some_iff] at hst; obtain ⟨t, _, rfl⟩ := hst; simp [hcl]

/-- **C60** (partial: the worker thread is not inside `Run()` at the moment when
the connection is disposed, see `C60_disconnect_lost_violated`).  Whenever the
connection closes itself after a disconnect because everything is flushed, then
the DISCONNECT packet was the last one submitted and everything submitted has
been written. -/
theorem C60_disconnect_written_partial (hn : EncNonempty ops) (es : List (ConnOutEvent σ)) {s : ConnOut σ}
    (hrun : ({} : ConnOut σ).run ops es = some s) (hcl : s.closed = some .flushed)
    (hw : s.sys.worker = .idle) :
    (∃ xs p, s.sys.submitted = xs ++ [.packet p]) ∧ s.sys.written = wire ops none 0 s.sys.submitted := by
  have hinv := ConnOutInv.init.run hn hrun
  obtain ⟨hd, he, hemp⟩ := closed_flushed (by simp) OutShape.init hn ConnOutInv.init hrun hcl
  exact ⟨hinv.last hd, all_written hinv.shape hinv.content he hemp hw⟩

/-- **C60** (partial).  Nothing is ever submitted after the DISCONNECT, and what
was written is always a prefix of the submitted stream – so if DISCONNECT is
written at all, it is the last packet. -/
theorem C60_disconnect_last_partial (hn : EncNonempty ops) (es : List (ConnOutEvent σ)) {s : ConnOut σ}
    (hrun : ({} : ConnOut σ).run ops es = some s) (hd : s.dead = true) :
    (∃ xs p, s.sys.submitted = xs ++ [.packet p]) ∧ s.sys.written <+: wire ops none 0 s.sys.submitted := by
  have hinv := ConnOutInv.init.run hn hrun
  exact ⟨hinv.last hd, (List.prefix_append _ _).trans hinv.content.sofar⟩

/-- An encrypted connection which disconnects and closes after DISCONNECT (`[1, 9]`) was written. -/
example : ∃ s, ({} : ConnOut UInt8).run toy [.send [20], .setCipher 5, .disconnect [1, 9] .blocking,
    .runBegin, .runEncrypt, .runEnd, .writable (.accepted 3), .writable (.accepted 9)] = some s ∧
    (s.closed = some .flushed ∧ s.sys.worker = .idle ∧ s.sys.written = [20, 5, 1, 1, 9]) :=
  exists_of_check (p := fun s => decide (s.closed = some .flushed ∧ s.sys.worker = .idle ∧
    s.sys.written = [20, 5, 1, 1, 9])) (by decide) (fun s h => by simpa using h)

/-- **C60 is false.**  The socket becomes writable while the worker thread holds
the DISCONNECT packet: all four queues are empty, so the connection is closed
and DISCONNECT is never sent – without any error, hangup or timeout. -/
theorem C60_disconnect_lost_violated :
    ∃ (es : List (ConnOutEvent UInt8)) (s : ConnOut UInt8), ({} : ConnOut UInt8).run toy es = some s ∧
      s.closed = some .flushed ∧ s.sys.written = [] ∧
      s.sys.submitted = [.rekey 5 false, .packet [1, 9]] ∧
      wire toy none 0 s.sys.submitted = [5, 0, 1, 9] :=
  ⟨[.setCipher 5, .disconnect [1, 9] .blocking, .runBegin, .writable (.accepted 100)],
    exists_of_check (p := fun s => decide (s.closed = some .flushed ∧ s.sys.written = [] ∧
      s.sys.submitted = [.rekey 5 false, .packet [1, 9]] ∧
      wire toy none 0 s.sys.submitted = [5, 0, 1, 9])) (by decide) (fun s h => by simpa using h)⟩

end Lukko
