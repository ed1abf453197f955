import Verif.Proof.LedgerFull
import Verif.Prop.Farewell
/-
  C115: data which is sent to the client comes from the channel under whose number it is sent.
-/
namespace Lukko
open Spec Model

variable {σ : Type} {x : HouseEnv σ}

/-- The data messages for what the channels have passed on, each with the number which the client has given the channel. -/
def House.dataSaid (h : House σ) : List Bytes :=
  h.sessions.flatMap (fun s => s.ch.s.log.filterMap (sessionData s.peer)) ++
    (h.tunnels.flatMap Tunnel.dataSaid ++ h.board.calls.flatMap fun c => Tunnel.dataSaid c.line)

theorem count_filters {Q : Bytes → Bool} {p : Bytes} (hp : Q p = true) {a b : List Bytes} (h : a.filter Q = b.filter fits) :
    a.count p ≤ b.count p ∧ (fits p = true → a.count p = b.count p) := by
  have h1 : a.count p = (b.filter fits).count p := by rw [← h, List.count_filter hp]
  rw [h1]
  exact ⟨List.filter_sublist.count_le _, fun hf => List.count_filter hf⟩

theorem flatMap_filters {Q : Bytes → Bool} {α : Type} {f g : α → List Bytes} : ∀ {l : List α}, (∀ a ∈ l, (f a).filter Q = (g a).filter fits) →
    (l.flatMap f).filter Q = (l.flatMap g).filter fits
  | [], _ => rfl
  | a :: l, h => by
    rw [List.flatMap_cons, List.flatMap_cons, List.filter_append, List.filter_append, h a (by simp), flatMap_filters fun b hb => h b (by simp [hb])]

theorem house_data {F : List Bytes} {h : House σ} (hl : LInv F h) : (houseSays h).filter isData = (House.dataSaid h).filter fits := by
  unfold houseSays House.dataSaid
  simp only [List.filter_append]
  rw [flatMap_filters (f := sessionSays) fun s _ => filterMap_data (session_data s.peer) _,
    flatMap_filters (f := Tunnel.out) fun t ht => (hl.tunnels t ht).said,
    flatMap_filters (f := callSays) (g := fun c => Tunnel.dataSaid c.line) fun c hc => (hl.calls c hc).said]

theorem answer_data (e : AuthEntry) : (authAnswer e).toList.filter isFlow = (targetData e).toList.filter isFlow := by
  cases e with
  | serviceAccepted name => exact serialized_other (Writes.noexcept_begin (Writes.str _) 6) rfl
  | failure methods => exact serialized_other (Writes.noexcept_begin ((Writes.str _).bind (Writes.bool _)) 51) rfl
  | keyOk alg key => exact serialized_other (Writes.noexcept_begin ((Writes.str _).bind (Writes.str _)) 60) rfl
  | _ => rfl

theorem target_count {p : Bytes} (hp : isFlow p = true) (l : List AuthEntry) :
    (l.filterMap authAnswer).count p = (l.filterMap targetData).count p := by
  rw [← List.count_filter hp, ← List.count_filter (l := l.filterMap targetData) hp]
  congr 1
  induction l with
  | nil => rfl
  | cons e l ih =>
    have hc : ∀ k : AuthEntry → Option Bytes, (e :: l).filterMap k = (k e).toList ++ l.filterMap k := by
      intro k
      rw [List.filterMap_cons]
      cases k e <;> rfl
    rw [hc, hc, List.filter_append, List.filter_append, answer_data, ih]

/-- **C115.** Nothing is invented, and nothing is sent twice: a message with data is sent at most as often as a channel which has this number
has passed on these bytes (or the server to which the connection is passed on as a whole has sent it, or an agent channel has). -/
theorem C115_nothing_invented (hx : EnvOk x.host.server.trans) {evs : List HouseEvent} {h : House σ}
    (hr : ({} : House σ).fullRun x evs = some h) {p : Bytes} (hp : isData p = true) :
    (packetsSent h.server.trans.posts).count p ≤
      (h.server.auth.log.filterMap targetData).count p + (House.dataSaid h).count p + (evs.flatMap HouseEvent.foreign).count p := by
  have hl := LInv.full hx evs (.inl HoInv.init) LInv.init hr
  have h1 := hl.most p (isData_flow hp)
  have h2 := (count_filters hp (house_data hl)).1
  rw [target_count (isData_flow hp)] at h1
  rw [List.nil_append] at h1
  omega

/-- **C115.** Nothing is lost: while the connection exists, it is sent exactly as often (unless it does not fit into a packet). -/
theorem C115_nothing_lost (hx : EnvOk x.host.server.trans) {evs : List HouseEvent} {h : House σ}
    (hr : ({} : House σ).fullRun x evs = some h) (hv : h.server.live = true) {p : Bytes} (hp : isData p = true)
    (hF : (evs.flatMap HouseEvent.foreign).count p = 0) (hs : p.length ≤ 65531) :
    (packetsSent h.server.trans.posts).count p = (h.server.auth.log.filterMap targetData).count p + (House.dataSaid h).count p := by
  have hl := LInv.full hx evs (.inl HoInv.init) LInv.init hr
  have h1 := hl.exact hv p (isData_flow hp) hF
  have h2 := (count_filters hp (house_data hl)).2 (decide_eq_true hs)
  rw [target_count (isData_flow hp)] at h1
  omega

/-- Where a message with data comes from. -/
inductive DataOrigin (h : House σ) (evs : List HouseEvent) (p : Bytes) : Prop
  /-- a session has passed on the output of its process, or a message for the user -/
  | session (s : Session) (f : Stream) (bs : Bytes) : s ∈ h.sessions → .sent f bs ∈ s.ch.s.log →
      p = (if f = .stderr then 95 :: channelExtendedDataBody s.peer 1 bs else 94 :: channelDataBody s.peer bs) → DataOrigin h evs p
  /-- a host to which the client is connected has sent it -/
  | tunnel (t : Tunnel) (r : Relay) (bs : Bytes) : t ∈ h.tunnels → t.relay = some r → .toClient bs ∈ r.log →
      p = 94 :: channelDataBody t.peer bs → DataOrigin h evs p
  /-- somebody who has connected to a listener has sent it -/
  | call (c : Incoming) (r : Relay) (bs : Bytes) : c ∈ h.board.calls → c.line.relay = some r → .toClient bs ∈ r.log →
      p = 94 :: channelDataBody c.line.peer bs → DataOrigin h evs p
  /-- it has come from the server to which the connection is passed on -/
  | target (m : UInt8) (q : Bytes) : .toClient m q ∈ h.server.auth.log → p = m :: q → DataOrigin h evs p
  /-- an agent channel sends it -/
  | agent (c : Chance) : .server (.send p) c ∈ evs → DataOrigin h evs p

theorem said_origin {t : Tunnel} {p : Bytes} (h : p ∈ Tunnel.dataSaid t) :
    ∃ r bs, t.relay = some r ∧ .toClient bs ∈ r.log ∧ p = 94 :: channelDataBody t.peer bs := by
  unfold Tunnel.dataSaid at h
  cases hr : t.relay with
  | none => rw [hr] at h; cases h
  | some r =>
    rw [hr] at h
    obtain ⟨e, h1, h2⟩ := List.mem_filterMap.mp h
    cases e with
    | toClient bs => exact ⟨r, bs, rfl, h1, (Option.some.inj h2).symm⟩
    | _ => cases h2

/-- **C115.** Data which is sent to the client comes from the channel under whose number it is sent. -/
theorem C115_origin (hx : EnvOk x.host.server.trans) {evs : List HouseEvent} {h : House σ}
    (hr : ({} : House σ).fullRun x evs = some h) {p : Bytes} (hp : isData p = true) (hm : p ∈ packetsSent h.server.trans.posts) :
    DataOrigin h evs p := by
  have h1 := C115_nothing_invented hx hr hp
  have h2 := List.count_pos_iff.mpr hm
  have h3 : p ∈ h.server.auth.log.filterMap targetData ∨ p ∈ House.dataSaid h ∨ p ∈ evs.flatMap HouseEvent.foreign := by
    apply Classical.byContradiction
    intro hn
    rw [not_or, not_or] at hn
    rw [List.count_eq_zero.mpr hn.1, List.count_eq_zero.mpr hn.2.1, List.count_eq_zero.mpr hn.2.2] at h1
    omega
  rcases h3 with h3 | h3 | h3
  · obtain ⟨e, e1, e2⟩ := List.mem_filterMap.mp h3
    cases e with
    | toClient m q => exact .target m q e1 (Option.some.inj e2).symm
    | _ => cases e2
  · rcases List.mem_append.mp h3 with h3 | h3
    · obtain ⟨s, s1, s2⟩ := List.mem_flatMap.mp h3
      obtain ⟨e, e1, e2⟩ := List.mem_filterMap.mp s2
      cases e with
      | sent f bs =>
        refine .session s f bs s1 e1 ?_
        cases f <;> exact (Option.some.inj e2).symm
      | _ => cases e2
    · rcases List.mem_append.mp h3 with h3 | h3
      · obtain ⟨t, t1, t2⟩ := List.mem_flatMap.mp h3
        obtain ⟨r, bs, a, b, c⟩ := said_origin t2
        exact .tunnel t r bs t1 a b c
      · obtain ⟨t, t1, t2⟩ := List.mem_flatMap.mp h3
        obtain ⟨r, bs, a, b, c⟩ := said_origin t2
        exact .call t r bs t1 a b c
  · obtain ⟨ev, e1, e2⟩ := List.mem_flatMap.mp h3
    unfold HouseEvent.foreign at e2
    split at e2
    · rename_i q c
      rw [List.mem_filter, List.mem_singleton] at e2
      rw [e2.1]
      exact .agent c e1
    · cases e2

/-- What is sent afterwards. -/
def demoSpeech : List HouseEvent :=
  [.session 0 (.writes .stderr [6, 6]), .session 0 (.pipeReady .stderr 100), .desk (.relay 0 (.hostSends [1])),
   .desk (.relay 0 (.ready none true 0 false))]

/-- Non-vacuity (C115): a session, which the client calls 0, and a connection to a listener, which it calls 6, have both sent something… -/
example : EnvOk demoCourt.host.server.trans ∧ (demoParty ++ demoSpeech).flatMap HouseEvent.foreign = [] ∧
    (({} : House (Nat × List Bytes)).fullRun demoCourt (demoParty ++ demoSpeech)).map (fun h =>
      (h.server.live, (packetsSent h.server.trans.posts).filter isData)) =
      some (true, [94 :: channelDataBody 6 [7, 8], 94 :: channelDataBody 0 [9], 95 :: channelExtendedDataBody 0 1 [6, 6],
        94 :: channelDataBody 6 [1]]) :=
  ⟨demoCourt_ok, by decide +kernel, by decide +kernel⟩

/-- … and these are their records. -/
example :
    (({} : House (Nat × List Bytes)).fullRun demoCourt (demoParty ++ demoSpeech)).map (fun h =>
      (h.sessions.map (fun s => s.peer), h.board.calls.map (fun c => c.line.peer), House.dataSaid h)) =
      some ([0], [6], [94 :: channelDataBody 0 [9], 95 :: channelExtendedDataBody 0 1 [6, 6], 94 :: channelDataBody 6 [7, 8],
        94 :: channelDataBody 6 [1]]) := by
  decide +kernel

/-- … when the connection has ended, what they would send is not sent any more, and the account is the same as before. -/
example :
    (({} : House (Nat × List Bytes)).fullRun demoCourt (demoParty ++ demoSlip ++ demoSpeech)).map (fun h =>
      (h.server.live, (packetsSent h.server.trans.posts).filter isData, House.dataSaid h)) =
      some (false, [94 :: channelDataBody 6 [7, 8], 94 :: channelDataBody 0 [9]], [94 :: channelDataBody 0 [9], 94 :: channelDataBody 6 [7, 8]]) := by
  decide +kernel

end Lukko
