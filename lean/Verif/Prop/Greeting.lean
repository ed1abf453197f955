import Verif.Model.Greeting
import Verif.Prop.Version
import Verif.Prop.Input
import Verif.Prop.Output
import Verif.Prop.Messages
import Verif.Prop.Ciphers
/-
  C81: identification, and clients that are turned away.  C09: what is sent on a connection is understood
  from the first byte on.
-/
namespace Lukko
open Spec Model

/-- The version number fits into the identification line. -/
structure GoodVersion (version : Bytes) : Prop where
  line : (10 : UInt8) ∉ version
  short : version.length ≤ 200

/-- The first line, without the line feed. -/
def ownLine (version : Bytes) : Bytes := ascii "SSH-2.0-Lukko_" ++ version ++ ascii " CM4all" ++ [13]

theorem ownVersion_eq (version : Bytes) : ownVersion version = ascii "SSH-2.0-Lukko_" ++ version ++ ascii " CM4all" := by
  unfold ownVersion identificationString
  rw [List.take_append_of_le_length (by simp; omega), List.take_of_length_le (by simp; omega)]

theorem ownLine_first {version : Bytes} (h : GoodVersion version) (rest : Bytes) :
    FirstLine (identificationString version ++ rest) (ownLine version) rest := by
  refine ⟨by simp [identificationString, ownLine], ?_⟩
  have h1 : (10 : UInt8) ∉ ascii "SSH-2.0-Lukko_" := by decide +kernel
  have h2 : (10 : UInt8) ∉ ascii " CM4all" := by decide +kernel
  simp only [ownLine, List.mem_append, not_or]
  exact ⟨⟨⟨h1, h.line⟩, h2⟩, by decide⟩

theorem ownLine_ssh (version : Bytes) : IsSshLine (ownLine version) :=
  ⟨ascii "2.0-Lukko_" ++ version ++ ascii " CM4all" ++ [13], by
    have : ascii "SSH-2.0-Lukko_" = ascii "SSH-" ++ ascii "2.0-Lukko_" := by decide +kernel
    simp only [ownLine, this, List.append_assoc]⟩

theorem ownLine_identification (version : Bytes) : identification (ownLine version) = ownVersion version := by
  rw [ownVersion_eq]
  unfold identification ownLine
  simp

theorem ownLine_short {version : Bytes} (h : GoodVersion version) : (ownLine version).length < 255 := by
  have := h.short
  have h1 : (ascii "SSH-2.0-Lukko_").length = 14 := by decide +kernel
  have h2 : (ascii " CM4all").length = 7 := by decide +kernel
  simp only [ownLine, List.length_append, h1, h2, List.length_singleton]
  omega

/-- The peer (client or server) gets the identification, in whatever pieces it arrives. -/
theorem greeting_received {version : Bytes} (hv : GoodVersion version) (client : Bool) (es : List VersionEvent) {rest : Bytes}
    (h : versionBytes es = identificationString version ++ rest) :
    (VersionSys.run client {} es).peerVersion = some (ownVersion version) ∧
    (VersionSys.run client {} es).disposed = false ∧
    (VersionSys.run client {} es).fed ++ (VersionSys.run client {} es).buffer = rest := by
  have hf : FirstLine (versionBytes es) (ownLine version) rest := h ▸ ownLine_first hv rest
  obtain ⟨h1, h2⟩ := (C51_accepted_partial client es hf (ownLine_short hv)).1 (ownLine_ssh version)
  obtain ⟨l, r, hf', _, _, h3, _⟩ := C51_first_line client es h1
  rw [ownLine_identification] at h1
  rw [(firstLine_unique hf' hf).2] at h3
  exact ⟨h1, h2, h3⟩

/-- If only a part has arrived, only a part of the packets is passed on. -/
theorem greeting_prefix {version : Bytes} (hv : GoodVersion version) (client : Bool) (es : List VersionEvent) {stream : Bytes}
    (h : versionBytes es <+: identificationString version ++ stream) : (VersionSys.run client {} es).fed <+: stream := by
  cases hp : (VersionSys.run client {} es).peerVersion with
  | none => rw [(C51_nothing_before client es hp).1]; exact List.nil_prefix
  | some v =>
    obtain ⟨l, r, ⟨hf, hn⟩, _, _, h3, _⟩ := C51_first_line client es hp
    obtain ⟨u, hu⟩ := h
    have h1 : FirstLine (identificationString version ++ stream) l (r ++ u) := ⟨by rw [← hu, hf]; simp, hn⟩
    have h2 := (firstLine_unique h1 (ownLine_first hv stream)).2
    rw [← h2, ← h3]
    exact ⟨(VersionSys.run client {} es).buffer ++ u, by simp⟩

variable {σ : Type} {ops : CipherOps σ}

/-- What each side puts into the exchange hash as its own identification is what the other
side has received, in whatever pieces it arrived. -/
theorem C81_identification {version : Bytes} (hv : GoodVersion version) (client : Bool) (es : List VersionEvent) {rest : Bytes}
    (h : versionBytes es = identificationString version ++ rest) :
    (VersionSys.run client {} es).peerVersion = some (ownVersion version) :=
  (greeting_received hv client es h).1

/-- The identification, cut inside "SSH-", with the beginning of a packet in the last piece. -/
def demoGreetingPieces : List VersionEvent :=
  [⟨ascii "SS", 9⟩, ⟨ascii "H-2.0-Lukko_0.42 CM4a", 9⟩, ⟨ascii "ll\r\n" ++ [0, 0], 9⟩]

example : GoodVersion (ascii "0.42") ∧
    versionBytes demoGreetingPieces = identificationString (ascii "0.42") ++ [0, 0] :=
  ⟨⟨by decide +kernel, by decide +kernel⟩, by decide +kernel⟩

/-- Everything a connection sends, from the first byte on: however it is cut into pieces,
the peer delivers the packets which were submitted, in order and with the same numbers.
(Partial for the same reason as C09: no second new cipher before the worker thread has
switched to the first.) -/
theorem C09_from_first_byte_partial {Matched : σ → σ → Prop} (hs : Sane ops) (hcon : Contract ops Matched)
    (hn : EncNonempty ops) (xs : List (Sent σ)) (hL : Legal Matched xs) (hS : (transmit ops none 0 xs).isSome)
    (es : List (OutEvent σ)) (hc : OutSys.Always ops OutSys.callerOk {} es)
    (hr : OutSys.Always ops OutSys.rekeyOk {} es) {s : OutSys σ}
    (hrun : ({} : OutSys σ).run ops es = some s) (hsub : s.submitted = submits xs)
    {version : Bytes} (hv : GoodVersion version) (client : Bool) (vs : List VersionEvent)
    (hrecv : versionBytes vs <+: identificationString version ++ s.written)
    (es' : List (InputEvent σ)) {t : InputSys σ} (hrun' : ({} : InputSys σ).run ops es' = some t)
    (hi : ∃ cs, t.installs ++ cs = installsOf xs) (hfed : t.fed <+: (VersionSys.run client {} vs).fed) :
    t.delivered <+: numbered 0 xs :=
  C09_end_to_end_partial hs hcon hn xs hL hS es hc hr hrun hsub es' hrun' hi (hfed.trans (greeting_prefix hv client vs hrecv))

theorem script_nonempty : EncNonempty script := by
  intro c seq p e c' hp h
  cases c with
  | nil => simp [script] at h
  | cons x c =>
    simp only [script] at h
    split at h
    · simp only [Option.some.injEq, Prod.mk.injEq] at h
      rw [← h.1]; simp
    · simp at h

/-- A connection with a key exchange, written in pieces of a few bytes and received in
other ones. -/
def demoSending : List (OutEvent (List Bytes)) :=
  [.autoReset, .push (demoPkt 2), .push (demoPkt 21), .flush (.accepted 20), .setCipher demoKey, .push (demoPkt 4), .runBegin,
   .runEncrypt, .push (demoPkt 2), .runEnd, .runBegin, .runEncrypt, .runEnd, .flush (.accepted 30), .flush (.accepted 100)]

def demoArriving : List VersionEvent :=
  [⟨ascii "SS", 9⟩, ⟨ascii "H-2.0-Lukko_0.42 CM4a", 9⟩, ⟨ascii "ll\r\n" ++ demoStream.take 7, 3⟩, ⟨demoStream.drop 7, 100⟩]

example : OutSys.Always script OutSys.callerOk {} demoSending ∧ OutSys.Always script OutSys.rekeyOk {} demoSending ∧
    (({} : OutSys (List Bytes)).run script demoSending).map (fun s => (s.submitted, s.written)) = some (submits demoAll, demoStream) ∧
    versionBytes demoArriving = identificationString (ascii "0.42") ++ demoStream ∧
    (VersionSys.run true {} demoArriving).fed = demoStream :=
  ⟨always_of_alwaysB (by decide +kernel), always_of_alwaysB (by decide +kernel), by decide +kernel, by decide +kernel, by decide +kernel⟩

/-- A client which is turned away because it has too many connections is sent an
identification line and one message, DISCONNECT with the reason; it gets that in whatever
pieces it arrives. -/
theorem C81_turned_away (hs : Sane ops) {version : Bytes} (hv : GoodVersion version) (rnd : Nat → Bytes)
    (hrnd : ∀ n, (rnd n).length = n) :
    ∃ bytes, turnAway version rnd = .ok bytes ∧
      ∀ (client : Bool) (vs : List VersionEvent), versionBytes vs = bytes →
        (VersionSys.run client {} vs).peerVersion = some (ownVersion version) ∧
        ∀ (es : List (InputEvent σ)) {t : InputSys σ}, ({} : InputSys σ).run ops es = some t →
          t.fed = (VersionSys.run client {} vs).fed → (VersionSys.run client {} vs).buffer = [] → Quiet ops t →
          t.delivered.map (·.2) = [1 :: disconnectBody 12 (ascii "Too many connections") (ascii "en")] := by
  have hb := (C05_disconnect TOO_MANY_CONNECTIONS (ascii "Too many connections") (by decide) (by decide +kernel)).1
  have hlen : (disconnectBody TOO_MANY_CONNECTIONS (ascii "Too many connections") (ascii "en")).length = 34 := by decide +kernel
  have hmk : makeDisconnect TOO_MANY_CONNECTIONS (ascii "Too many connections") =
      .ok ⟨[0, 0, 0, 0, 0] ++ (1 :: disconnectBody TOO_MANY_CONNECTIONS (ascii "Too many connections") (ascii "en"))⟩ := by
    unfold Builds at hb
    rw [hb, if_pos (by rw [hlen]; decide)]
    rfl
  obtain ⟨pkt, hp, hpk⟩ := C01_unencrypted [0, 0, 0, 0, 0]
    (1 :: disconnectBody TOO_MANY_CONNECTIONS (ascii "Too many connections") (ascii "en")) rfl rnd hrnd (by
      rw [List.length_cons, hlen]; decide)
  refine ⟨identificationString version ++ pkt, ?_, fun client vs hvs => ?_⟩
  · unfold turnAway sendEarlyDisconnect
    rw [hmk]
    have hp' : Ser.finishPacket ⟨[0, 0, 0, 0, 0] ++ (1 :: disconnectBody TOO_MANY_CONNECTIONS (ascii "Too many connections") (ascii "en"))⟩
      8 false rnd = .ok pkt := hp
    show ((Ser.finishPacket _ 8 false rnd).bind fun p => .ok (identificationString version ++ p)) = _
    rw [hp']; rfl
  · obtain ⟨h1, _, h3⟩ := greeting_received hv client vs hvs
    refine ⟨h1, fun es t hrun hfed hbuf hq => ?_⟩
    rw [hbuf, List.append_nil, ← hfed] at h3
    have hsz : pkt.length ≤ 35004 := by
      obtain ⟨⟨pad, e, _, h⟩, _, _⟩ := hpk
      rw [e]
      simp only [List.length_append, List.length_cons, hlen, List.length_nil]
      have : (u32 (1 + (34 + 1) + pad.length)).length = 4 := by simp [u32]
      omega
    have hL : Legal (σ := σ) (fun _ _ => True)
        [⟨pkt, 1 :: disconnectBody TOO_MANY_CONNECTIONS (ascii "Too many connections") (ascii "en"), none⟩] := by
      refine ⟨fun x hx => ?_, fun x hx => ?_, fun x hx => ?_⟩
      · simp only [List.mem_singleton] at hx; subst hx; exact ⟨by simp, hsz, 8, 0, hpk⟩
      · simp only [List.mem_singleton] at hx; subst hx; simp [isNewKeys]
      · simp only [List.mem_singleton] at hx; subst hx; simp
    have := (C02_unencrypted_framing hs _ hL (by simp) es hrun ⟨[], by simp [h3]⟩).2 (by simp [h3]) hq
    simpa using this

/-- The bytes in two pieces, with zeros as padding. -/
example : (turnAway (ascii "0.42") (fun n => List.replicate n 0)).toOption =
      some (versionBytes [⟨ascii "SSH-2.0-Lukko_0.42 CM4all\r\n" ++ [0, 0], 0⟩,
        ⟨[0, 44, 8, 1, 0, 0, 0, 12, 0, 0, 0, 20] ++ ascii "Too many connections" ++ [0, 0, 0, 2] ++ ascii "en" ++ List.replicate 8 0, 99⟩]) ∧
    (VersionSys.run true {} [⟨ascii "SSH-2.0-Lukko_0.42 CM4all\r\n" ++ [0, 0], 0⟩,
        ⟨[0, 44, 8, 1, 0, 0, 0, 12, 0, 0, 0, 20] ++ ascii "Too many connections" ++ [0, 0, 0, 2] ++ ascii "en" ++ List.replicate 8 0, 99⟩]).buffer = [] := by
  decide +kernel

end Lukko
