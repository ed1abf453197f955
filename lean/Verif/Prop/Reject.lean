import Verif.Proof.Reject
/-
  C91: UNIMPLEMENTED names the packet which it rejects.
  C92: how much a peer can make the server send.
-/
namespace Lukko
open Spec Model

variable {σ : Type} {x : TransEnv σ} {role : Role} {evs : List TransEvent} {t : Trans σ}

/-! ## C91 -/

/-- The number in UNIMPLEMENTED is the one of the stream. -/
theorem number_in_stream (hfit : Fit x role t) (hx : EnvOk x) {ps : List (Nat × Bytes)} (h1 : ps.map (·.2) = received t.kx.kx.log)
    (h2 : ps.map some <+: decode x.ops ((t.kx.kx.log.filterMap Entry.in?).map fun (enc, mac, k) =>
        (x.makeCipher .incoming enc mac k, t.kx.kx.inReset)) none 0 t.inp.fed)
    {a b q} (he : t.kx.kx.log = a ++ .sent (3 :: q) :: b) :
    ∃ a' n p, a = a' ++ [.recv p] ∧ ps[(received a').length]? = some (n, p) ∧ q = u32 n := by
  obtain ⟨es, hes, hk⟩ := hfit.kx
  have hn := run_named (role := role) (e := x.kex) hx.digest hes
  rw [← hk] at hn
  obtain ⟨a', p, rfl, rfl⟩ := hn a b q he
  have hlen : ps[(received a').length]?.map (·.2) = some p := by
    rw [← List.getElem?_map, h1, he, received_append, received_append, List.append_assoc,
      List.getElem?_append_right (Nat.le_refl _), Nat.sub_self]
    rfl
  cases hz : ps[(received a').length]? with
  | none => rw [hz] at hlen; cases hlen
  | some z =>
    obtain ⟨n, p'⟩ := z
    rw [hz] at hlen
    simp only [Option.map_some, Option.some.injEq] at hlen
    subst hlen
    refine ⟨a', n, p', rfl, hz, ?_⟩
    have hnum := decode_numbers (r := t.kx.kx.inReset) (by
      intro i hi
      simp only [List.mem_map] at hi
      obtain ⟨j, -, rfl⟩ := hi
      rfl) h2 hz
    simp only at hnum
    have htake : (ps.map (·.2)).take (received a').length = received a' := by
      rw [h1, he, received_append, received_append, List.append_assoc, List.take_left]
    rw [htake] at hnum
    rw [hnum]
    rfl

/-- **C91.** Every UNIMPLEMENTED message directly follows the packet which it is about, and it carries the
number which this packet has in the stream of the peer: the number a sequential reader of the bytes gives
to it. -/
theorem C91_named (hx : EnvOk x) (hev : ∀ ev ∈ evs, TransEventOk ev) (hrun : (Trans.init role).run x evs = some t) :
    ∃ ps : List (Nat × Bytes), ps.map (·.2) = received t.kx.kx.log ∧
      ps.map some <+: decode x.ops ((t.kx.kx.log.filterMap Entry.in?).map fun (enc, mac, k) =>
        (x.makeCipher .incoming enc mac k, t.kx.kx.inReset)) none 0 t.inp.fed ∧
      ∀ a b q, t.kx.kx.log = a ++ .sent (3 :: q) :: b →
        ∃ a' n p, a = a' ++ [.recv p] ∧ ps[(received a').length]? = some (n, p) ∧ q = u32 n := by
  obtain ⟨ps, h1, h2⟩ := C87_received hx hev hrun
  exact ⟨ps, h1, h2, fun a b q he => number_in_stream (fit_of_run hx hev hrun) hx h1 h2 he⟩

/-- **C91.** It is also the number which the input side has counted for this packet (`Input::GetSeq`), as
the code says. -/
theorem C91_counted (hx : EnvOk x) (hev : ∀ ev ∈ evs, TransEventOk ev) (hrun : (Trans.init role).run x evs = some t)
    {a b q} (he : t.kx.kx.log = a ++ .sent (3 :: q) :: b) :
    ∃ a' n p, a = a' ++ [.recv p] ∧ t.inp.delivered[(received a').length]? = some (n, p) ∧ q = u32 n := by
  have h := fit_of_run hx hev hrun
  have h2 := inv_delivered_ext h.inp.inv [] []
  rw [List.append_nil, List.append_nil, h.installs] at h2
  exact number_in_stream h hx h.recv h2 he

/-- **C91.** A packet of an unknown type which none of the handlers claims, on a live connection without an
ongoing key exchange, is answered in this way, and has no other effect. -/
theorem C91_answered {e : KexEnv} {y : KxSys} {msg : UInt8} {body : Bytes} (hs : y.stop = none)
    (hv : y.kx.versionExchanged = true) (hi : y.kx.inputEncrypted = true)
    (hm : msg ∉ [1, 2, 3, 20, 21, 30, 31]) :
    y.step e (.packet (msg :: body) .unclaimed) =
      { y with kx := { y.kx with log := y.kx.log ++ [.recv (msg :: body),
          .sent (3 :: u32 (packetNumber y.kx.inReset (received y.kx.log)))] } } := by
  obtain ⟨s, stop⟩ := y
  cases hs
  simp only at hv hi
  simp only [List.mem_cons, List.not_mem_nil, or_false, not_or] at hm
  obtain ⟨m1, m2, m3, m20, m21, m30, m31⟩ := hm
  have hd : (s.emit (.recv (msg :: body))).dispatch e msg body =
      (s.emit (.recv (msg :: body))).sendSer (makeUnimplemented (s.emit (.recv (msg :: body))).seqNo) := by
    unfold Kx.dispatch
    rw [if_neg m1, if_neg m2, if_neg m3, if_neg m20, if_neg m21, if_neg m30, if_neg m31]
  obtain ⟨ser, hser⟩ := makeUnimplemented_ok (s.emit (.recv (msg :: body))).seqNo
  have hp := unimplemented_exact hser
  have hst : (⟨s, none⟩ : KxSys).step e (.packet (msg :: body) .unclaimed) =
      .finish (s.handleRawPacket e (msg :: body) .unclaimed) := by
    simp only [KxSys.step, hv, cond_true]
  have hr : s.handleRawPacket e (msg :: body) .unclaimed = ((s.emit (.recv (msg :: body))).emit (.sent (ser.since 5)), none) := by
    unfold Kx.handleRawPacket Kx.handlePacket
    have : (s.emit (.recv (msg :: body))).inputEncrypted = true := hi
    simp only [this, cond_true]
    show (s.emit (.recv (msg :: body))).dispatch e msg body = _
    rw [hd, hser]
    rfl
  rw [hst, hr, hp, seqNo_recv]
  simp only [KxSys.finish, Kx.emit, List.append_assoc, List.cons_append, List.nil_append]

/-! ## C92 -/

/-- Events that come from the peer. -/
def Model.KxEvent.isPacket : KxEvent → Bool
  | .packet _ _ => true
  | _ => false

/-- **C92** (partial: see `C92_violated`).  What the transport layer sends on its own is limited by what it
receives: at most four packets for each packet, and at most two for each other event. -/
theorem C92_replies_partial {e : KexEnv} {evs : List KxEvent} :
    (sentPackets ((KxSys.init role).run e evs).kx.log).length ≤
      4 * (received ((KxSys.init role).run e evs).kx.log).length + 2 * evs.countP (!·.isPacket) := by
  induction evs using Aux.snoc_ind with
  | h0 => simp [KxSys.run, KxSys.init, sentPackets]
  | h1 evs ev ih =>
    rw [run_snoc, List.countP_append]
    cases hs : ((KxSys.init role).run e evs).stop with
    | some z => rw [step_stopped (by rw [hs]; simp)]; omega
    | none =>
      generalize (KxSys.init role).run e evs = y at *
      by_cases hp : ∃ raw claim, ev = .packet raw claim
      · obtain ⟨raw, claim, rfl⟩ := hp
        cases hv : y.kx.versionExchanged with
        | false =>
          have hy : y.step e (.packet raw claim) = y := by
            obtain ⟨s, stop⟩ := y
            cases hs
            simp only at hv
            simp only [KxSys.step, hv, cond_false]
          rw [hy]; omega
        | true =>
          rcases packet_says (e := e) (raw := raw) (claim := claim) hs hv with h | ⟨h1, -, -⟩
          · obtain ⟨ext, h1, -, h2, h3⟩ := h.log
            rw [h1, emit_log, sentPackets_append, sentPackets_append, received_append, received_append]
            simp only [List.length_append]
            have e1 : (sentPackets [Entry.recv raw]).length = 0 := rfl
            have e2 : (received [Entry.recv raw]).length = 1 := rfl
            omega
          · rw [h1, sentPackets_append, received_append]
            simp only [List.length_append]
            have e1 : (sentPackets [Entry.recv raw, .sent (3 :: u32 (y.kx.emit (.recv raw)).seqNo)]).length = 1 := rfl
            have e2 : (received [Entry.recv raw, .sent (3 :: u32 (y.kx.emit (.recv raw)).seqNo)]).length = 1 := rfl
            omega
      · obtain ⟨ext, h1, -, h2, -⟩ := (other_says (e := e) (y := y) (ev := ev) (fun raw claim h => hp ⟨raw, claim, h⟩)).log
        have hc : [ev].countP (!·.isPacket) = 1 := by
          cases ev <;> first | rfl | exact absurd ⟨_, _, rfl⟩ hp
        rw [h1, hc, sentPackets_append, received_append, List.length_append, List.length_append]
        omega

/-- A peer which sends unknown messages and does not read anything. -/
def floodRound : List TransEvent :=
  [.feed [0, 0, 0, 6, 4, 4, 0, 0, 0, 0], .ready fun _ => .unclaimed, .writable .blocking]

/-- The state of a server in the middle of this. -/
structure Flooded (n : Nat) (t : Trans σ) : Prop where
  open_ : t.closed = false
  input : t.inp.input = { readSeq := (n : Int) }
  idle : t.inp.handling = none
  alive : t.inp.dead = false
  stop : t.kx.stop = none
  version : t.kx.kx.versionExchanged = true
  plain : t.kx.kx.inputEncrypted = false
  first : t.kx.kx.flags.kexinitReceived = false
  reset : t.kx.kx.inReset = false
  noCipher : t.out.output.pushCipher = none
  consumed : t.out.output.pending.consumed = 0
  full : ∀ b ∈ t.out.output.pending.queue, b ≠ []
  many : t.out.output.pending.queue.length = n
  nothing : t.out.written = []

/-- The key exchange answers the unknown message. -/
theorem flood_kx {e : KexEnv} {y : KxSys} (hs : y.stop = none) (hv : y.kx.versionExchanged = true)
    (hi : y.kx.inputEncrypted = false) (hk : y.kx.flags.kexinitReceived = false) :
    ∃ q, y.step e (.packet [4] .unclaimed) =
      { y with kx := { y.kx with firstPacketWasKexinit := false, log := y.kx.log ++ [.recv [4], .sent q] } } := by
  obtain ⟨s, stop⟩ := y
  cases hs
  simp only at hv hi hk
  let s0 : Kx := { s.emit (.recv [4]) with firstPacketWasKexinit := false }
  obtain ⟨ser, hser⟩ := makeUnimplemented_ok s0.seqNo
  refine ⟨ser.since 5, ?_⟩
  have hr : s.handleRawPacket e [4] .unclaimed = (s0.emit (.sent (ser.since 5)), none) := by
    unfold Kx.handleRawPacket Kx.handlePacket
    simp only [Bool.cond_eq_ite]
    have h1 : (s.emit (.recv [4])).inputEncrypted = false := hi
    have h2 : (s.emit (.recv [4])).flags.kexinitReceived = false := hk
    rw [if_neg (by rw [h1]; simp), if_pos (by rw [h2]; rfl)]
    have h3 : ((s.emit (.recv [4])).firstPacketWasKexinit && (4 : UInt8) == MSG_KEXINIT) = false := by
      rw [show ((4 : UInt8) == MSG_KEXINIT) = false by decide, Bool.and_false]
    rw [h3]
    show s0.sendSer (makeUnimplemented s0.seqNo) = _
    rw [hser]
    rfl
  have hst : (⟨s, none⟩ : KxSys).step e (.packet [4] .unclaimed) = .finish (s.handleRawPacket e [4] .unclaimed) := by
    simp only [KxSys.step, hv, cond_true]
  rw [hst, hr]
  simp only [KxSys.finish, Kx.emit, s0, List.append_assoc, List.cons_append, List.nil_append]

theorem prepareLoop_some {l : List Bytes} (h : ∀ b ∈ l, b ≠ []) (hl : l ≠ []) (room : Nat) :
    ∃ a v, SendQueue.prepareLoop 0 l room = some (a :: v) := by
  induction l generalizing room with
  | nil => exact absurd rfl hl
  | cons b l ih =>
    have hb : b.length > 0 := List.length_pos_iff.mpr (h b (by simp))
    rw [SendQueue.prepareLoop, if_neg (not_not_intro hb)]
    split
    · exact ⟨_, _, rfl⟩
    · cases l with
      | nil => exact ⟨_, _, rfl⟩
      | cons c l =>
        obtain ⟨a, v, h1⟩ := ih (fun z hz => h z (by simp [hz])) (by simp) (room - 1)
        rw [h1]
        exact ⟨_, _, rfl⟩

theorem write_quiet {s : Kx} {more : Bool} : ∃ wb ext, s.onBufferedWrite more = { s with writeBlocked := wb, log := s.log ++ ext } ∧
    ∀ t : Trans σ, t.effects x ext = some t := by
  unfold Kx.onBufferedWrite
  simp only [Bool.cond_eq_ite]
  cases more with
  | false =>
    simp only [Bool.false_eq_true, if_false]
    split
    · exact ⟨false, [.unblocked], rfl, fun _ => rfl⟩
    · exact ⟨false, [], by simp, fun _ => rfl⟩
  | true =>
    simp only [if_true]
    split <;> split
    · exact ⟨true, [.unblocked, .blocked], by simp [Kx.emit], fun _ => rfl⟩
    · exact ⟨true, [.unblocked], rfl, fun _ => rfl⟩
    · exact ⟨true, [.blocked], rfl, fun _ => rfl⟩
    · exact ⟨true, [], by simp, fun _ => rfl⟩

theorem Flooded.round {n : Nat} {t : Trans σ} (hx : EnvOk x) (h : Flooded n t) :
    ∃ t', t.run x floodRound = some t' ∧ Flooded (n + 1) t' := by
  obtain ⟨⟨i, w, hd, inst, dead, fed, installs, delivered⟩, ⟨kx, stop⟩, ⟨o, ow, sub, wr⟩, closed, posts, rushed⟩ := t
  obtain ⟨h1, h2, h3, h4, h5, h6, h7, h8, h9, h10, h11, h12, h13, h14⟩ := h
  simp only at h1 h2 h3 h4 h5 h6 h7 h8 h9 h10 h11 h12 h13 h14
  subst h1 h2 h3 h4 h5 h14
  obtain ⟨q, hq⟩ := flood_kx (e := x.kex) (y := ⟨kx, none⟩) rfl h6 h7 h8
  have hread : (Input.readPacket (σ := σ) { readSeq := (n : Int), rawBuffer := [0, 0, 0, 6, 4, 4, 0, 0, 0, 0] }) =
      .ok (some [4], { readSeq := (n : Int) }) := by rfl
  have hfeed : (Input.feed (σ := σ) { readSeq := (n : Int) } [0, 0, 0, 6, 4, 4, 0, 0, 0, 0]) =
      { readSeq := (n : Int), rawBuffer := [0, 0, 0, 6, 4, 4, 0, 0, 0, 0] } := rfl
  have hcons : (Input.consumePacket (σ := σ) { readSeq := (n : Int) }) = .ok { readSeq := ((n + 1 : Nat) : Int) } := rfl
  let t₁ : Trans σ := ⟨⟨{ readSeq := (n : Int), rawBuffer := [0, 0, 0, 6, 4, 4, 0, 0, 0, 0] }, w, none, inst, false,
    fed ++ [0, 0, 0, 6, 4, 4, 0, 0, 0, 0], installs, delivered⟩, ⟨kx, none⟩, ⟨o, ow, sub, []⟩, false, posts, rushed⟩
  let p : Bytes := x.framed posts.length o.pushCipher q
  let kx' : Kx := { kx with firstPacketWasKexinit := false, log := kx.log ++ [.recv [4], .sent q] }
  let t₂ : Trans σ := ⟨⟨{ readSeq := ((n + 1 : Nat) : Int) }, w, none, false, false,
    fed ++ [0, 0, 0, 6, 4, 4, 0, 0, 0, 0], installs, delivered ++ [((n : Int).toNat, [4])]⟩, ⟨kx', none⟩,
    ⟨o.push p, ow, sub ++ [.packet p], []⟩, false, posts ++ [Outgoing.packet q], rushed⟩
  have s1 : Trans.step x ⟨⟨{ readSeq := (n : Int) }, w, none, inst, false, fed, installs, delivered⟩, ⟨kx, none⟩,
      ⟨o, ow, sub, []⟩, false, posts, rushed⟩ (.feed [0, 0, 0, 6, 4, 4, 0, 0, 0, 0]) = some t₁ := by
    simp only [Trans.step, Trans.live, h6, Option.isNone_none, Bool.not_false, Bool.and_true, cond_true, Trans.input, InputSys.step]
    rfl
  have s2 : t₁.step x (.ready fun _ => .unclaimed) = some t₂ := by
    let t₁' : Trans σ := { t₁ with inp := ⟨{ readSeq := (n : Int) }, w, some [4], false, false,
      fed ++ [0, 0, 0, 6, 4, 4, 0, 0, 0, 0], installs, delivered ++ [((n : Int).toNat, [4])]⟩ }
    let t₁'' : Trans σ := { t₁' with kx := ⟨kx', none⟩, out := ⟨o.push p, ow, sub ++ [.packet p], []⟩,
                                     posts := posts ++ [Outgoing.packet q] }
    have hin1 : t₁.input x .read = some t₁' := by
      simp only [t₁, Trans.input, InputSys.step, hread, Bool.false_eq_true, Option.isSome_none, or_self, if_false, Option.map_some]
      rfl
    have hab : t₁'.absorb x (.packet [4] .unclaimed) = some t₁'' := by
      unfold Trans.absorb
      have hstep : t₁'.kx.step x.kex (.packet [4] .unclaimed) = ⟨kx', none⟩ := hq
      have hin : kx'.inReset = false := h9
      simp only [hstep, reduceCtorEq, if_false, hin, Trans.autoReset, cond_false, Option.bind_some]
      rw [show kx'.log.drop t₁'.kx.kx.log.length = [.recv [4], .sent q] from List.drop_left]
      rfl
    have hcs : t₁''.input x .consume = some t₂ := by
      unfold Trans.input
      have : t₁''.inp.step x.ops .consume = some t₂.inp := by
        simp only [InputSys.step, t₁'', t₁']
        rw [if_neg (by decide)]
        rfl
      rw [this]
      rfl
    show (bif t₁.live && t₁.kx.kx.versionExchanged then (t₁.input x .read).bind fun t => t.handle x fun _ => .unclaimed else some t₁) = _
    rw [show (t₁.live && t₁.kx.kx.versionExchanged) = true from by simp [t₁, Trans.live, h6], cond_true, hin1]
    show (t₁'.absorb x (.packet [4] .unclaimed)).bind _ = _
    rw [hab]
    exact hcs
  have hpush : o.push p = { o with pending := o.pending.push p, seq := o.seq + 1 } := by
    unfold Output.push
    simp only [Output.isEncrypted, h10, Option.isSome_none, cond_false]
  have hp : p ≠ [] := by
    simp only [p, TransEnv.framed, h10]
    exact hx.frame _ _ _ _
  have hfull : ∀ b ∈ (o.push p).pending.queue, b ≠ [] := by
    rw [hpush]
    intro b hb
    simp only [SendQueue.push, List.mem_append, List.mem_singleton] at hb
    rcases hb with hb | rfl
    · exact h12 b hb
    · exact hp
  have hflush : (o.push p).flush .blocking = (.more, o.push p, []) := by
    obtain ⟨a, v, hv⟩ := prepareLoop_some hfull (by rw [hpush]; simp [SendQueue.push]) FLUSH_IOVECS
    have hc : (o.push p).pending.consumed = 0 := by rw [hpush]; exact h11
    have hpr : (o.push p).pending.prepare FLUSH_IOVECS = some (a :: v) := by
      rw [SendQueue.prepare, if_neg (by decide), hc, hv]
    have he : (o.push p).isEncrypted = false := by rw [hpush]; simp only [Output.isEncrypted, h10, Option.isSome_none]
    unfold Output.flush
    simp only [he, Bool.false_and, Bool.false_eq_true, if_false, cond_false, hpr]
  obtain ⟨wb, ext, hw, hext⟩ := write_quiet (x := x) (s := kx') (more := true)
  let t₃ : Trans σ := { t₂ with kx := ⟨{ kx' with writeBlocked := wb, log := kx'.log ++ ext }, none⟩ }
  have s3 : t₂.step x (.writable .blocking) = some t₃ := by
    have hfl : t₂.out.flushed .blocking = .more := by simp only [t₂, OutSys.flushed, hflush]
    have hab : t₂.absorb x (.writable true) = some t₃ := by
      unfold Trans.absorb
      have hstep : t₂.kx.step x.kex (.writable true) = ⟨{ kx' with writeBlocked := wb, log := kx'.log ++ ext }, none⟩ := by
        show (⟨kx'.onBufferedWrite true, none⟩ : KxSys) = _
        rw [hw]
      have hin : ({ kx' with writeBlocked := wb, log := kx'.log ++ ext } : Kx).inReset = false := h9
      simp only [hstep, reduceCtorEq, if_false, hin, Trans.autoReset, cond_false, Option.bind_some]
      rw [show (kx'.log ++ ext).drop t₂.kx.kx.log.length = ext from List.drop_left]
      exact hext _
    show (bif t₂.closed then some t₂ else t₂.flush x .blocking) = _
    rw [show t₂.closed = false from rfl, cond_false]
    unfold Trans.flush
    rw [hfl, show ((FlushResult.more == FlushResult.more) = true) from rfl, hab]
    simp only [Option.bind_some, Trans.output, OutSys.step]
    rw [show t₃.out.output.flush .blocking = (.more, o.push p, []) from hflush]
    rfl
  refine ⟨t₃, by simp only [floodRound, Trans.run, s1, s2, s3, Option.bind_some], ?_⟩
  exact {
    open_ := rfl, input := rfl, idle := rfl, alive := rfl, stop := rfl, version := h6, plain := h7, first := h8, reset := h9
    noCipher := by show (o.push p).pushCipher = none; rw [hpush]; exact h10
    consumed := by show (o.push p).pending.consumed = 0; rw [hpush]; exact h11
    full := hfull
    many := by show (o.push p).pending.queue.length = n + 1; rw [hpush]; simp [SendQueue.push, h13]
    nothing := rfl }

theorem trans_run_append {as bs : List TransEvent} {t : Trans σ} :
    t.run x (as ++ bs) = (t.run x as).bind fun t => t.run x bs := by
  induction as generalizing t with
  | nil => rfl
  | cons ev as ih =>
    simp only [List.cons_append, Trans.run]
    cases t.step x ev with
    | none => rfl
    | some t' => exact ih

/-- Events before authentication, without any help of the server, where nothing can be written. -/
def Unread : TransEvent → Prop
  | .version _ | .feed _ | .ready _ => True
  | .writable w => w = .blocking
  | _ => False

/-- **C92** is violated: before authentication, a peer that does not read what it is sent can make the
server store any number of packets.  Reading goes on while the output is blocked (Connection.cxx:920-947),
and the queue has no limit (Output.cxx:45-70). -/
theorem C92_violated (hx : EnvOk x) (n : Nat) :
    ∃ evs t, (∀ ev ∈ evs, TransEventOk ev ∧ Unread ev) ∧ (Trans.init .server).run x evs = some t ∧ t.live = true ∧
      t.out.written = [] ∧ t.out.output.pending.queue.length = n := by
  suffices h : ∃ evs t, (∀ ev ∈ evs, TransEventOk ev ∧ Unread ev) ∧ (Trans.init .server).run x evs = some t ∧ Flooded n t by
    obtain ⟨evs, t, h1, h2, h3⟩ := h
    refine ⟨evs, t, h1, h2, ?_, h3.nothing, h3.many⟩
    simp [Trans.live, h3.open_, h3.stop]
  induction n with
  | zero =>
    refine ⟨[.version []], _, by simp [TransEventOk, Unread], rfl, ?_⟩
    exact ⟨rfl, rfl, rfl, rfl, rfl, rfl, rfl, rfl, rfl, rfl, rfl, (by intro b hb; cases hb), rfl, rfl⟩
  | succ n ih =>
    obtain ⟨evs, t, h1, h2, h3⟩ := ih
    obtain ⟨t', h4, h5⟩ := h3.round hx
    refine ⟨evs ++ floodRound, t', ?_, by rw [trans_run_append, h2]; exact h4, h5⟩
    intro ev hm
    rcases List.mem_append.mp hm with hm | hm
    · exact h1 ev hm
    · simp only [floodRound, List.mem_cons, List.not_mem_nil, or_false] at hm
      rcases hm with rfl | rfl | rfl
      · exact ⟨trivial, trivial⟩
      · exact ⟨fun _ => .inl rfl, trivial⟩
      · exact ⟨trivial, rfl⟩

/-! ## Examples -/

/-- The server exchanges keys, and gets an unknown message between two others. -/
def demoUnknown : List TransEvent :=
  [.version (ascii "SSH-2.0-client")] ++ (demoPlain [20 :: (lastSent 20 (demoEndClient demoPairC)).getD [],
    30 :: (lastSent 30 (demoEndClient demoPairC)).getD [], [21]] ++
    demoDecrypt (demoSealed [2] ++ demoSealed [193] ++ demoSealed [2]) 3)

/-- Accepts the packets after the key exchange. -/
def demoLinkU : TransEnv (Nat × List Bytes) := demoLink demoEndS 0 [[2], [193], [2]]

/-- Non-vacuity (C91): after the numbers have restarted, the fifth packet has the number one. -/
example : EnvOk demoLinkU ∧ (∀ ev ∈ demoUnknown, TransEventOk ev) ∧
    ((Trans.init .server).run demoLinkU demoUnknown).map (fun t =>
      (((received t.kx.kx.log).map List.head?), (sentPackets t.kx.kx.log).filter (isMsg 3), t.live)) =
    some ([some 20, some 30, some 21, some 2, some 193, some 2], [[3, 0, 0, 0, 1]], true) :=
  ⟨demoLink_ok (demoEnd_digest _ _) 0 _,
    ok_append (by simp [TransEventOk]) (ok_append (plain_ok _) (decrypt_ok _ 3)), by decide +kernel⟩

/-- Non-vacuity (C92): one packet is answered by two, KEX_ECDH_REPLY and NEWKEYS. -/
example : ((KxSys.init .server).run demoEndS [.version (ascii "SSH-2.0-client"),
      .packet (20 :: (lastSent 20 (demoEndClient demoPairC)).getD []) .unclaimed,
      .packet (30 :: (lastSent 30 (demoEndClient demoPairC)).getD []) .unclaimed]).kx.log.map (fun
        | .sent p => p.head?
        | .recv _ => some 0
        | _ => none) = [none, some 0, some 20, some 0, some 31, none, some 21, none] := by decide +kernel

/-- Non-vacuity (C92, violated): there are such environments. -/
example : EnvOk demoLinkS := demoLink_ok (demoEnd_digest _ _) 0 []

end Lukko
