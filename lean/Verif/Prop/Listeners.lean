import Verif.Proof.Listeners
import Verif.Prop.Auth
/-
  Property C76: remote port forwarding.
-/
namespace Lukko
open Model Spec

variable {cfg : AuthCfg} {evs : List RfwEv} {a b : List FwEntry}

/-- **C76.** A connection is offered to the client only with the address and port of a
forwarding which is in effect. -/
theorem C76_offered {c : Nat} {host : Bytes} {port : Nat} (h : (Rfw.run cfg {} evs).log = a ++ .offered c host port :: b) :
    (host, port) ∈ forwardings a :=
  (rfwHist_run cfg evs _ _ _ h).1

/-- **C76.** A forwarding is granted only if the client has asked for it (with this address
and port), and only once. -/
theorem C76_granted {n : Nat} {host : Bytes} {port : Nat} (h : (Rfw.run cfg {} evs).log = a ++ .granted n host port :: b) :
    .asked n host port ∈ a ∧ .failed n ∉ a ∧ (∀ h p, .granted n h p ∉ a) ∧ .ended ∉ a :=
  rfwHist_run cfg evs _ _ _ h

/-- **C76.** … and it may ask only if it is logged in, may execute programs, is not forbidden
to use port forwarding, and does not have a network of its own. -/
theorem C76_permitted {n : Nat} {host : Bytes} {port : Nat} (h : .asked n host port ∈ (Rfw.run cfg {} evs).log) :
    ∃ a b, (Rfw.run cfg {} evs).auth.log = a ++ AuthEntry.bindTcp host port :: b ∧
      (∃ l, .loggedIn l ∈ a ∧ l.exec = true) ∧ (∃ r, inEffect a = some r ∧ r.noForwarding = false) ∧
      ∀ u p acct, lastAccount a = some (u, p, acct) → acct.shell = true → acct.ownNetwork = false := by
  obtain ⟨⟨es, hr⟩, hi⟩ := rfwInv_run cfg evs
  have hb : .bindTcp host port ∈ (Rfw.run cfg {} evs).auth.log := by
    rcases hi with ⟨_, hi⟩ | ⟨_, hi⟩
    · exact hi.asked n host port h
    · exact hi.asked n host port h
  obtain ⟨a, b, e⟩ := List.append_of_mem hb
  exact ⟨a, b, e, C39_tcp_partial cfg es (.inr rfl) (by rw [← hr]; exact e)⟩

/-- **C76.** A request to end a forwarding succeeds exactly if there is one with this address
and port (and there is none afterwards: see `forwardings`). -/
theorem C76_cancel {host : Bytes} {port : Nat} {ok : Bool} (h : (Rfw.run cfg {} evs).log = a ++ .cancel host port ok :: b) :
    (ok = true ↔ (host, port) ∈ forwardings a) ∧ (host, port) ∉ forwardings (a ++ [.cancel host port ok]) := by
  have h1 := (rfwHist_run cfg evs _ _ _ h).1
  refine ⟨h1, ?_⟩
  rw [forwardings_snoc]
  cases ok with
  | true => simp [forwardings₁]
  | false => exact fun hm => by simpa using h1.mpr hm

/-- **C76.** The client joins only connections which were offered to it, at most once each,
and whose forwarding has not been ended since. -/
theorem C76_joined {c : Nat} (h : (Rfw.run cfg {} evs).log = a ++ .joined c :: b) :
    ∃ host port a1 a2, a = a1 ++ .offered c host port :: a2 ∧
      .joined c ∉ a2 ∧ .dropped c ∉ a2 ∧ .cancel host port true ∉ a2 ∧ .ended ∉ a2 := by
  obtain ⟨host, port, a1, a2, h⟩ := rfwHist_run cfg evs _ _ _ h
  exact ⟨host, port, a1, a2, h⟩

/-- **C76.** When the connection to the client ends, that is the last thing that happens:
everything is closed. -/
theorem C76_ended (h : (Rfw.run cfg {} evs).log = a ++ .ended :: b) :
    b = [] ∧ (Rfw.run cfg {} evs).pending = [] ∧ (Rfw.run cfg {} evs).listeners = [] ∧ (Rfw.run cfg {} evs).waiting = [] := by
  obtain ⟨_, ⟨_, hi⟩ | ⟨_, hi⟩⟩ := rfwInv_run cfg evs
  · exact absurd (by rw [h]; simp) hi.alive
  · refine ⟨?_, hi.none⟩
    obtain ⟨l, hl⟩ := hi.last
    rw [hl] at h
    rcases Aux.snoc_split h with ⟨rfl, _⟩ | ⟨b', rfl, rfl⟩
    · rfl
    · exact absurd (by simp) (hi.hist _ _ _ hl : FwOk _ .ended)

/-- … and it does happen when the connection stops. -/
theorem C76_stopped (h : (Rfw.run cfg {} evs).auth.stop = true) : ∃ l, (Rfw.run cfg {} evs).log = l ++ [.ended] := by
  obtain ⟨_, ⟨hs, _⟩ | ⟨_, hi⟩⟩ := rfwInv_run cfg evs
  · rw [h] at hs; exact nomatch hs
  · exact hi.last

def demoForward (n : String) (port : Nat) : RfwEv :=
  .client (.packet 80 (str (ascii n) ++ (1 :: (str (ascii "h") ++ u32 port))) false)

def demoFwLogin : List RfwEv := (demoLogin 8).map .client

/-- asked, granted, used, cancelled -/
def demoFw : List RfwEv := demoFwLogin ++ [demoForward "tcpip-forward" 80, .bound 0 (some 80), .accept 0 true, .accept 0 true,
  .confirmed 1, demoForward "cancel-tcpip-forward" 80, demoForward "cancel-tcpip-forward" 80]

example : (Rfw.run demoAuth {} demoFw).log = [.asked 0 (ascii "h") 80, .granted 0 (ascii "h") 80, .arrived 0 80,
    .offered 0 (ascii "h") 80, .arrived 1 80, .offered 1 (ascii "h") 80, .joined 1, .cancel (ascii "h") 80 true,
    .dropped 0, .cancel (ascii "h") 80 false] := by decide +kernel

example : (Rfw.run demoAuth {} (demoFw ++ [.client .closed])).log.getLast? = some .ended ∧
    (Rfw.run demoAuth {} (demoFw ++ [.client .closed])).auth.stop = true := by decide +kernel

/-- … but not with a key which forbids it -/
example : (Rfw.run demoAuth {} ((demoLogin 7).map .client ++ [demoForward "tcpip-forward" 80])).log = [] := by decide +kernel

/-- **C76** is false: while the port is being bound, a request to end the forwarding has no
effect; connections are offered afterwards. -/
theorem C76_violated : ∃ (cfg : AuthCfg) (evs : List RfwEv), ¬ CancelWorks (Rfw.run cfg {} evs).log := by
  refine ⟨demoAuth, demoFwLogin ++ [demoForward "tcpip-forward" 80, demoForward "cancel-tcpip-forward" 80,
    .bound 0 (some 80), .accept 0 true], fun h => ?_⟩
  refine h [.asked 0 (ascii "h") 80] (ascii "h") 80 false [.granted 0 (ascii "h") 80, .arrived 0 80, .offered 0 (ascii "h") 80]
    (by decide +kernel) (by simp) 0 (by simp)

/-- **C76**, the part that holds: after the request, nothing is offered until the client asks
again, unless it has asked before and not yet been answered. -/
theorem C76_cancelled_partial {host : Bytes} {port : Nat} {ok : Bool}
    (h : (Rfw.run cfg {} evs).log = a ++ .cancel host port ok :: b) (hu : ¬ Unanswered a host port)
    (hn : ∀ n, .asked n host port ∉ b) (c : Nat) : .offered c host port ∉ b := by
  intro hm
  obtain ⟨b1, b2, rfl⟩ := List.append_of_mem hm
  have h1 := C76_offered (a := a ++ .cancel host port ok :: b1) (b := b2) (c := c) (host := host) (port := port) (by rw [h]; simp)
  have h2 := (C76_cancel h).2
  rw [show a ++ .cancel host port ok :: b1 = (a ++ [.cancel host port ok]) ++ b1 by simp, forwardings_append] at h1
  obtain ⟨b3, n, b4, rfl⟩ := granted_of_mem b1 _ h2 h1
  obtain ⟨h3, h4, h5, _⟩ := C76_granted (a := a ++ .cancel host port ok :: b3) (n := n) (host := host) (port := port)
    (b := b4 ++ .offered c host port :: b2) (by rw [h]; simp)
  refine hu ⟨n, ?_, fun hf => h4 (by simp [hf]), fun h' p' hf => h5 h' p' (by simp [hf])⟩
  rcases List.mem_append.mp h3 with h3 | h3
  · exact h3
  · have : .asked n host port ∈ b3 := by simpa using h3
    exact absurd (by simp [this]) (hn n)

example : ¬ Unanswered [.asked 0 (ascii "h") 80, .granted 0 (ascii "h") 80] (ascii "h") 80 := by
  rintro ⟨n, h1, _, h2⟩
  have : n = 0 := by simpa using h1
  subst this
  exact h2 (ascii "h") 80 (by simp)

/-- **C76** is false: if the client leaves the choice of the port to the server, it is told
port 0 for each connection, and not the port at which the connection has arrived. -/
theorem C76_port_violated : ∃ (cfg : AuthCfg) (evs : List RfwEv) (c q : Nat) (host : Bytes) (port : Nat),
    .arrived c q ∈ (Rfw.run cfg {} evs).log ∧ .offered c host port ∈ (Rfw.run cfg {} evs).log ∧ port ≠ q :=
  ⟨demoAuth, demoFwLogin ++ [demoForward "tcpip-forward" 0, .bound 0 (some 4000), .accept 0 true], 0, 4000, ascii "h", 0,
    by decide +kernel⟩

/-- **C76**, the part that holds: with a port chosen by the client. -/
theorem C76_port_partial {c : Nat} {host : Bytes} {port : Nat} (h : (Rfw.run cfg {} evs).log = a ++ .offered c host port :: b)
    (hp : port ≠ 0) : .arrived c port ∈ a ∧ ∀ q, .arrived c q ∈ (Rfw.run cfg {} evs).log → q = port := by
  have hh := rfwHist_run cfg evs
  obtain ⟨_, q, hq, he⟩ := hh _ _ _ h
  rw [he hp] at hq
  refine ⟨hq, fun q' hq' => ?_⟩
  -- a connection arrives only once
  have h1 : .arrived c port ∈ (Rfw.run cfg {} evs).log := by rw [h]; simp [hq]
  generalize (Rfw.run cfg {} evs).log = log at hh h1 hq'
  obtain ⟨x, y, rfl⟩ := List.append_of_mem h1
  rcases List.mem_append.mp hq' with hm | hm
  · exact absurd hm ((hh x _ y rfl).1 q')
  · rcases List.mem_cons.mp hm with hm | hm
    · exact (FwEntry.arrived.inj hm).2
    · obtain ⟨y1, y2, rfl⟩ := List.append_of_mem hm
      exact absurd (by simp) ((hh (x ++ .arrived c port :: y1) (.arrived c q') y2 (by simp)).1 port)

end Lukko
