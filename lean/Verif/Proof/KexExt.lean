import Verif.Proof.KexFrame
import Verif.Proof.KexStrict
import Verif.Proof.Lists
import Verif.Spec.ExtInfo
/-
  EXT_INFO: when it is sent, and what it says.
-/
namespace Lukko
open Spec Model

theorem sentPackets_append (l l' : List Entry) : sentPackets (l ++ l') = sentPackets l ++ sentPackets l' := by
  simp [sentPackets]

/-! ### Name-lists -/

theorem splitComma_ne (l : Bytes) : splitComma l ≠ [] := by
  cases l with
  | nil => simp [splitComma]
  | cons c l =>
    rw [splitComma]
    split
    · simp
    · split <;> simp

theorem nameList_splitComma (l : Bytes) : nameList (splitComma l) = l := by
  induction l with
  | nil => rfl
  | cons c l ih =>
    rw [splitComma]
    split
    · rename_i hc
      subst hc
      have := splitComma_ne l
      cases h : splitComma l with
      | nil => exact absurd h this
      | cons x xs =>
        rw [h] at ih
        rw [nameList, ih]
        · rfl
        · simp
    · cases h : splitComma l with
      | nil => exact absurd h (splitComma_ne l)
      | cons x xs =>
        rw [h] at ih
        cases xs with
        | nil => simp only [nameList] at ih ⊢; rw [ih]
        | cons y ys => simp only [nameList, List.cons_append] at ih ⊢; rw [ih]

theorem splitComma_comma (a b : Bytes) : splitComma (a ++ 44 :: b) = splitComma a ++ splitComma b := by
  induction a with
  | nil => simp [splitComma, COMMA]
  | cons c a ih =>
    simp only [List.cons_append, splitComma]
    rw [ih]
    split
    · rfl
    · cases h : splitComma a with
      | nil => exact absurd h (splitComma_ne a)
      | cons x xs => rfl

theorem splitComma_noComma {a : Bytes} (h : (44 : UInt8) ∉ a) : splitComma a = [a] := by
  induction a with
  | nil => rfl
  | cons c a ih =>
    simp only [List.mem_cons, not_or] at h
    rw [splitComma, if_neg (fun hc => h.1 hc.symm), ih h.2]

theorem mem_splitComma {ns : List Bytes} {x : Bytes} (hx : (44 : UInt8) ∉ x) (h : x ∈ ns) : x ∈ splitComma (nameList ns) := by
  induction ns with
  | nil => cases h
  | cons n ns ih =>
    cases ns with
    | nil =>
      rw [List.mem_singleton] at h
      subst h
      rw [nameList, splitComma_noComma hx]; exact List.mem_singleton.mpr rfl
    | cons m ms =>
      rw [nameList, splitComma_comma]
      · rcases List.mem_cons.mp h with rfl | h
        · rw [splitComma_noComma hx]; simp
        · exact List.mem_append_right _ (ih h)
      · simp

theorem parseKexInit_kex {k : Bytes} {p : PKexInit} (h : parseKexInit.parse k = some p) :
    ∃ cookie rest, cookie.length = 16 ∧ p.kex.length < 2 ^ 32 ∧ k = cookie ++ (str p.kex ++ rest) := by
  obtain ⟨r, h⟩ := parse_inv h
  unfold parseKexInit at h
  obtain ⟨c, r1, h1, h⟩ := bind_inv h
  obtain ⟨x, r2, h2, h⟩ := bind_inv h
  obtain ⟨_, r3, _, h⟩ := bind_inv h
  obtain ⟨_, r3, _, h⟩ := bind_inv h
  obtain ⟨_, r3, _, h⟩ := bind_inv h
  obtain ⟨_, r3, _, h⟩ := bind_inv h
  obtain ⟨_, r3, _, h⟩ := bind_inv h
  obtain ⟨_, r3, _, h⟩ := bind_inv h
  obtain ⟨_, r3, _, h⟩ := bind_inv h
  obtain ⟨_, r3, _, h⟩ := bind_inv h
  obtain ⟨_, r3, _, h⟩ := bind_inv h
  obtain ⟨_, r3, _, h⟩ := bind_inv h
  obtain ⟨_, r3, _, h⟩ := bind_inv h
  obtain ⟨_, r3, _, h⟩ := bind_inv h
  cases h
  obtain ⟨e1, hc⟩ := readN_inv h1
  obtain ⟨e2, hx⟩ := readString_inv h2
  exact ⟨c, r2, hc, hx, by rw [e1, e2]⟩

/-- A name in the first name-list. -/
theorem kexinit_name_iff {k : Bytes} {p : PKexInit} (h : parseKexInit.parse k = some p) {name : Bytes} (hn : (44 : UInt8) ∉ name) :
    (∃ cookie names rest, cookie.length = 16 ∧ (nameList names).length < 2 ^ 32 ∧
      k = cookie ++ (str (nameList names) ++ rest) ∧ name ∈ names) ↔ stringListContains p.kex name = true := by
  obtain ⟨c, r, hc, hl, rfl⟩ := parseKexInit_kex h
  simp only [stringListContains, List.contains_iff_mem]
  constructor
  · rintro ⟨c', ns, r', hc', hl', he, hm⟩
    obtain ⟨rfl, he'⟩ := List.append_inj he (by omega)
    have h7 := congrArg readString he'
    rw [readString_reads hl, readString_reads hl', Option.some.injEq, Prod.mk.injEq] at h7
    replace h7 := h7.1
    rw [h7]
    exact mem_splitComma hn hm
  · intro hm
    exact ⟨c, splitComma p.kex, r, hc, by rw [nameList_splitComma]; exact hl, by rw [nameList_splitComma], hm⟩

theorem asksExtInfo_iff {k : Bytes} {p : PKexInit} (h : parseKexInit.parse k = some p) :
    AsksExtInfo k ↔ stringListContains p.kex (ascii "ext-info-c") = true := kexinit_name_iff h (by decide)

/-! ### What is sent -/

/-- Packets which are neither EXT_INFO nor (on the server) NEWKEYS. -/
def Dull (role : Role) (ext : List Entry) : Prop :=
  ∀ p, .sent p ∈ ext → isMsg 7 p = false ∧ (role = .server → isMsg 21 p = false)

/-- Only dull packets are sent; what was asked for is the same. -/
structure Calm (s s' : Kx) : Prop where
  log : ∃ ext, s'.log = s.log ++ ext ∧ Dull s.role ext
  role : s'.role = s.role
  wants : s'.peerWantsExtInfo = s.peerWantsExtInfo
  peer : s'.peerKexinit = s.peerKexinit
  kex : s'.kex.isSome = true → s.kex.isSome = true

theorem Calm.rfl' {s : Kx} : Calm s s := ⟨⟨[], by simp, by simp [Dull]⟩, rfl, rfl, rfl, id⟩

theorem Calm.trans {a b c : Kx} (h : Calm a b) (h' : Calm b c) : Calm a c := by
  obtain ⟨⟨x, e1, d1⟩, h1, h2, h3, h4⟩ := h
  obtain ⟨⟨y, e2, d2⟩, h1', h2', h3', h4'⟩ := h'
  refine ⟨⟨x ++ y, by rw [e2, e1, List.append_assoc], ?_⟩, h1'.trans h1, h2'.trans h2, h3'.trans h3, fun h => h4 (h4' h)⟩
  intro p hp
  rcases List.mem_append.mp hp with hp | hp
  · exact d1 p hp
  · rw [← h1]; exact d2 p hp

theorem Calm.emit {s : Kx} {x : Entry} (h : ∀ p, x = .sent p → isMsg 7 p = false ∧ (s.role = .server → isMsg 21 p = false)) :
    Calm s (s.emit x) := by
  refine ⟨⟨[x], rfl, ?_⟩, rfl, rfl, rfl, id⟩
  intro p hp
  exact h p (List.mem_singleton.mp hp).symm

theorem Calm.say {s : Kx} {x : Entry} (h : ∀ p, x ≠ .sent p) : Calm s (s.emit x) :=
  Calm.emit fun p hp => absurd hp (h p)

theorem Calm.andThen {s : Kx} {r : KRes} {f : Kx → KRes} (h : Calm s r.1) (hf : ∀ x, Calm x (f x).1) :
    Calm s (r.andThen f).1 := by
  unfold KRes.andThen
  split
  · exact h.trans (hf _)
  · exact h

theorem Calm.sendSer {s : Kx} {p} (h : ∀ ser, p = .ok ser → ∃ n t, ser.since 5 = n :: t ∧ n ≠ 7 ∧ n ≠ 21) :
    Calm s (s.sendSer p).1 := by
  unfold Kx.sendSer
  split
  · rename_i ser
    obtain ⟨n, t, e, h1, h2⟩ := h ser rfl
    refine Calm.emit ?_
    intro q hq
    cases hq
    rw [e]
    simp [isMsg, h1, h2]
  · exact Calm.rfl'

theorem Calm.sendKexInit {e} {s : Kx} : Calm s (s.sendKexInit e).1 := by
  unfold Kx.sendKexInit
  rw [Bool.cond_eq_ite]
  split
  · exact Calm.rfl'
  · split
    · exact Calm.rfl'
    · rename_i ser hser
      have hp := (makeKexInit_payload hser).1
      simp only
      refine Calm.trans ?_ (Calm.emit (by intro q hq; cases hq; rw [hp]; simp [isMsg]))
      rw [Bool.cond_eq_ite]
      split
      · refine Calm.trans ?_ (Calm.say (by simp))
        exact ⟨⟨[], by simp, by simp [Dull]⟩, rfl, rfl, rfl, id⟩
      · exact ⟨⟨[], by simp, by simp [Dull]⟩, rfl, rfl, rfl, id⟩

theorem Calm.ensureKexInit {e} {s : Kx} : Calm s (s.ensureKexInit e).1 := by
  unfold Kx.ensureKexInit
  rw [Bool.cond_eq_ite]
  split
  · exact Calm.rfl'
  · exact Calm.sendKexInit

theorem Calm.sendECDHKexInit {e} {s : Kx} : Calm s (s.sendECDHKexInit e).1 := by
  unfold Kx.sendECDHKexInit
  split
  · exact Calm.rfl'
  · rw [Bool.cond_eq_ite]
    split
    · exact Calm.rfl'
    · exact Calm.sendSer fun ser h => ⟨_, _, makeECDHKexInit_payload h, by decide, by decide⟩

theorem Calm.deriveKeys {e} {s : Kx} {t hash} : Calm s (s.deriveKeys e t hash).1 := by
  unfold Kx.deriveKeys
  split
  · exact Calm.rfl'
  · refine Calm.trans ?_ (Calm.say (by simp))
    exact ⟨⟨[], by simp, by simp [Dull]⟩, rfl, rfl, rfl, by simp⟩

theorem Calm.sendReply {e} {s : Kx} {ceph} : Calm s (s.sendECDHKexInitReply e ceph).1 := by
  unfold Kx.sendECDHKexInitReply
  split
  · exact Calm.rfl'
  · exact Calm.rfl'
  · rw [Bool.cond_eq_ite]
    split
    · exact Calm.rfl'
    · simp only
      split
      · exact Calm.rfl'
      · split
        · exact Calm.rfl'
        · exact Calm.andThen (Calm.sendSer fun ser h => ⟨_, _, makeECDHKexInitReply_payload h, by decide, by decide⟩)
            (fun _ => Calm.deriveKeys)

/-- Nothing is sent or received. -/
def Mute (l : List Entry) : Prop := ∀ x ∈ l, (∀ p, x ≠ .sent p) ∧ ∀ p, x ≠ .recv p

theorem Mute.sent {l : List Entry} (h : Mute l) : sentPackets l = [] := by
  simp only [sentPackets, List.filterMap_eq_nil_iff]
  intro x hx
  have := (h x hx).1
  cases x <;> simp_all

theorem Mute.recv {l : List Entry} (h : Mute l) : received l = [] := by
  simp only [received, List.filterMap_eq_nil_iff]
  intro x hx
  have := (h x hx).2
  cases x <;> simp_all

/-- NEWKEYS was sent. -/
structure Switched (s s' : Kx) : Prop where
  log : ∃ tail, s'.log = s.log ++ .sent [21] :: tail ∧ Mute tail
  role : s'.role = s.role
  wants : s'.peerWantsExtInfo = s.peerWantsExtInfo
  peer : s'.peerKexinit = s.peerKexinit
  kex : s'.kex = s.kex

theorem sendNewKeys_switched {s : Kx} : (s.sendNewKeys.1 = s ∧ s.sendNewKeys.2 ≠ none) ∨ Switched s s.sendNewKeys.1 := by
  unfold Kx.sendNewKeys
  rw [Bool.cond_eq_ite]
  split
  · exact .inl ⟨rfl, by simp⟩
  · right
    simp only
    split
    · exact ⟨⟨[], rfl, by simp [Mute]⟩, rfl, rfl, rfl, rfl⟩
    · simp only [Kx.emit, Bool.cond_eq_ite]
      split <;> split <;>
        refine ⟨⟨_, by simp only [List.append_assoc]; rfl, ?_⟩, rfl, rfl, rfl, rfl⟩
      all_goals simp [Mute]

theorem Calm.sendNewKeys {s : Kx} (h : s.role = .client) : Calm s s.sendNewKeys.1 := by
  rcases sendNewKeys_switched (s := s) with h1 | h1
  · rw [h1.1]; exact Calm.rfl'
  · obtain ⟨⟨t, e, m⟩, h2, h3, h4, h5⟩ := h1
    refine ⟨⟨_, e, ?_⟩, h2, h3, h4, by rw [h5]; exact id⟩
    intro p hp
    rcases List.mem_cons.mp hp with hp | hp
    · cases hp; exact ⟨rfl, by simp [h]⟩
    · exact absurd rfl ((m _ hp).1 p)

theorem Calm.handleReply {e} {s : Kx} {body} : Calm s (s.handleECDHKexInitReply e body).1 := by
  unfold Kx.handleECDHKexInitReply
  cases hr : s.role != .client with
  | true => exact Calm.rfl'
  | false =>
    have hrole : s.role = .client := by simpa using hr
    rw [cond_false, Bool.cond_eq_ite]
    split
    · exact Calm.rfl'
    split
    · exact Calm.rfl'
    · exact Calm.rfl'
    · exact Calm.rfl'
    · rw [Bool.cond_eq_ite]
      split
      · exact Calm.rfl'
      simp only
      split
      · exact Calm.rfl'
      · rw [Bool.cond_eq_ite]
        split
        · exact Calm.rfl'
        · unfold KRes.andThen
          split
          · exact Calm.deriveKeys.trans (Calm.sendNewKeys (Calm.deriveKeys.role.trans hrole))
          · exact Calm.deriveKeys

theorem Calm.ite {s a b : Kx} {c : Prop} [Decidable c] (h : Calm s a) (h' : Calm s b) : Calm s (if c then a else b) := by
  split <;> assumption

theorem Calm.handleNewKeys {s : Kx} : Calm s s.handleNewKeys.1 := by
  unfold Kx.handleNewKeys
  simp only [Bool.cond_eq_ite]
  split
  · exact Calm.rfl'
  split
  · exact ⟨⟨[], by simp, by simp [Dull]⟩, rfl, rfl, rfl, id⟩
  split
  · exact ⟨⟨[], by simp, by simp [Dull]⟩, rfl, rfl, rfl, id⟩
  · simp only [Kx.emit]
    refine Calm.ite ?_ ?_ <;> refine ⟨⟨_, by simp only [List.append_assoc]; rfl, ?_⟩, rfl, rfl, rfl, id⟩
    all_goals simp [Dull]

theorem Calm.handleKexInit₂ {e} {s : Kx} {p neg} : Calm s (s.handleKexInit₂ e p neg).1 := by
  unfold Kx.handleKexInit₂
  rw [Bool.cond_eq_ite]
  split
  · exact Calm.rfl'
  split
  · split
    · exact ⟨⟨[], by simp, by simp [Dull]⟩, rfl, rfl, rfl, id⟩
    · refine Calm.trans ?_ (Calm.andThen Calm.ensureKexInit fun x => ?_)
      · exact ⟨⟨[], by simp, by simp [Dull]⟩, rfl, rfl, rfl, id⟩
      · exact ⟨⟨[], by simp, by simp [Dull]⟩, rfl, rfl, rfl, id⟩
  · exact Calm.andThen Calm.ensureKexInit fun x => Calm.sendECDHKexInit

/-- What is known about the peer's wish while a key exchange is in progress. -/
def Wish (s : Kx) : Prop :=
  s.kex.isSome = true → ∃ p, parseKexInit.parse s.peerKexinit = some p ∧
    s.peerWantsExtInfo = stringListContains p.kex (if s.role = Role.server then ascii "ext-info-c" else ascii "ext-info-s")

theorem Wish.calm {s s' : Kx} (h : Wish s) (hc : Calm s s') : Wish s' := by
  intro hk
  obtain ⟨p, h1, h2⟩ := h (hc.kex hk)
  exact ⟨p, by rw [hc.peer]; exact h1, by rw [hc.wants, hc.role]; exact h2⟩

/-- After KEXINIT: only dull packets, and the wish is known. -/
theorem handleKexInit_wish {e} {s : Kx} {body} (h : Wish s) : Wish (s.handleKexInit e body).1 ∧
    (s.handleKexInit e body).1.role = s.role ∧
    ∃ ext, (s.handleKexInit e body).1.log = s.log ++ ext ∧ Dull s.role ext := by
  unfold Kx.handleKexInit
  simp only
  rw [Bool.cond_eq_ite]
  split
  · exact ⟨h, rfl, [], by simp, by simp [Dull]⟩
  split
  · exact ⟨h, rfl, [], by simp, by simp [Dull]⟩
  · rename_i p hp
    split
    · refine ⟨?_, rfl, [], by simp, by simp [Dull]⟩
      intro hk
      cases hk
    · refine ⟨Wish.calm ?_ Calm.handleKexInit₂, Calm.handleKexInit₂.role, ?_⟩
      · intro _
        exact ⟨p, hp, rfl⟩
      · obtain ⟨ext, h1, h2⟩ := Calm.handleKexInit₂.log
        exact ⟨ext, h1, h2⟩

/-! ### Histories -/

/-- Where an element of `l ++ m` can be. -/
theorem split_either {α} {l m a b : List α} {x : α} (h : l ++ m = a ++ x :: b) :
    (∃ b', l = a ++ x :: b' ∧ b = b' ++ m) ∨ (∃ a', a = l ++ a' ∧ m = a' ++ x :: b) := by
  rcases List.append_eq_append_iff.mp h with ⟨a', h1, h2⟩ | ⟨c, h1, h2⟩
  · exact .inr ⟨a', h1, h2⟩
  · cases c with
    | nil => exact .inr ⟨[], by simpa using h1.symm, by simpa using h2.symm⟩
    | cons y c =>
      rw [List.cons_append, List.cons.injEq] at h2
      obtain ⟨rfl, h2⟩ := h2
      exact .inl ⟨c, h1, h2⟩

/-- EXT_INFO is sent only directly after NEWKEYS, and only if it was asked for. -/
def OnlyAsked (role : Role) (log : List Entry) : Prop :=
  ∀ a p b, log = a ++ .sent p :: b → isMsg 7 p = true → role = .server ∧ p = serverExtInfo ∧
    (sentPackets a).getLast? = some [21] ∧ ∃ k, lastRecv 20 a = some k ∧ AsksExtInfo k

/-- It is sent whenever it was asked for. -/
def AllAsked (role : Role) (log : List Entry) : Prop :=
  ∀ a p b k, log = a ++ .sent p :: b → isMsg 21 p = true → role = .server → lastRecv 20 a = some k → AsksExtInfo k →
    ∃ c d, b = c ++ .sent serverExtInfo :: d ∧ Mute c

theorem OnlyAsked.append {role : Role} {l ext : List Entry} (h : OnlyAsked role l) (hd : Dull role ext) :
    OnlyAsked role (l ++ ext) := by
  intro a p b he h7
  rcases split_either he with ⟨b', h1, -⟩ | ⟨a', -, h2⟩
  · exact h a p b' h1 h7
  · rw [(hd p (by rw [h2]; simp)).1] at h7; cases h7

theorem AllAsked.grow {role : Role} {l ext : List Entry} {a b' : List Entry} {p k : Bytes} (h : AllAsked role l)
    (h1 : l = a ++ .sent p :: b') (h21 : isMsg 21 p = true) (hr : role = .server) (hk : lastRecv 20 a = some k)
    (hx : AsksExtInfo k) : ∃ c d, b' ++ ext = c ++ .sent serverExtInfo :: d ∧ Mute c := by
  obtain ⟨c, d, rfl, hm⟩ := h a p b' k h1 h21 hr hk hx
  exact ⟨c, d ++ ext, by simp, hm⟩

theorem AllAsked.append {role : Role} {l ext : List Entry} (h : AllAsked role l) (hd : Dull role ext) :
    AllAsked role (l ++ ext) := by
  intro a p b k he h21 hr hk hx
  rcases split_either he with ⟨b', h1, rfl⟩ | ⟨a', -, h2⟩
  · exact h.grow h1 h21 hr hk hx
  · rw [(hd p (by rw [h2]; simp)).2 hr] at h21; cases h21

/-- What holds after a function. -/
structure ExtRes (role : Role) (r : KRes) : Prop where
  same : r.1.role = role
  only : OnlyAsked role r.1.log
  rest : r.2 = none → Wish r.1 ∧ AllAsked role r.1.log

/-- What holds before it. -/
structure ExtPre (s : Kx) : Prop where
  only : OnlyAsked s.role s.log
  wish : Wish s
  all : AllAsked s.role s.log

theorem ExtPre.calm {s s' : Kx} (h : ExtPre s) (hc : Calm s s') : ExtPre s' := by
  obtain ⟨ext, e, d⟩ := hc.log
  refine ⟨?_, h.wish.calm hc, ?_⟩
  · rw [e, hc.role]; exact h.only.append d
  · rw [e, hc.role]; exact h.all.append d

theorem ExtPre.res {s : Kx} {r : KRes} (h : ExtPre s) (hc : Calm s r.1) : ExtRes s.role r := by
  have h' := h.calm hc
  refine ⟨hc.role, ?_, fun _ => ⟨h'.wish, ?_⟩⟩
  · rw [← hc.role]; exact h'.only
  · rw [← hc.role]; exact h'.all

theorem makeExtInfo_payload {ser : Ser} (h : makeExtInfo = .ok ser) : ser.since 5 = serverExtInfo := by
  have hw := (Writes.u32 2).bind ((Writes.str (ascii "server-sig-algs")).bind
    ((Writes.str allPublicKeyAlgorithms).bind ((Writes.str (ascii "agent-forward")).bind
    (Writes.str (ascii "0")))))
  have := (sinceBegin hw MSG_EXT_INFO h).1
  rw [this]
  decide

theorem makeExtInfo_ok : ∃ ser, makeExtInfo = .ok ser := by
  have hw := (Writes.u32 2).bind ((Writes.str (ascii "server-sig-algs")).bind
    ((Writes.str allPublicKeyAlgorithms).bind ((Writes.str (ascii "agent-forward")).bind
    (Writes.str (ascii "0")))))
  have := Writes.begin hw MSG_EXT_INFO
  exact ⟨_, this.trans (if_pos (by decide +kernel))⟩

theorem sentPackets_mute {l : List Entry} (h : Mute l) (p : Bytes) : sentPackets (.sent p :: l) = [p] := by
  have := h.sent
  simp only [sentPackets, List.filterMap_cons] at this ⊢
  rw [this]

theorem lastRecv_append_none {n : UInt8} {l m : List Entry} (h : ∀ p, .recv p ∉ m) : lastRecv n (l ++ m) = lastRecv n l := by
  induction m using Aux.snoc_ind with
  | h0 => simp
  | h1 m x ih =>
    rw [← List.append_assoc, lastRecv_snoc]
    have := h
    cases x with
    | recv p => exact absurd (by simp) (h p)
    | _ => exact ih (fun p hp => h p (by simp [hp]))

/-- Nothing is received meanwhile. -/
theorem sendReply_norecv {e} {s : Kx} {ceph} {ext : List Entry} (h : (s.sendECDHKexInitReply e ceph).1.log = s.log ++ ext) :
    ∀ p, .recv p ∉ ext := by
  obtain ⟨ext', h1, h2⟩ := (Frame.sendReply (e := e) (s := s) (ceph := ceph)).log
  have : ext' = ext := List.append_cancel_left (h1.symm.trans h)
  subst this
  intro p hp
  rw [h1] at h2
  simp only [received, List.filterMap_append, List.append_right_eq_self, List.filterMap_eq_nil_iff] at h2
  have := h2 _ hp
  simp at this

theorem handleECDHKexInit_ext {e} {s : Kx} {body} (h : ExtPre s)
    (hk : s.flags.kexinitReceived = true → lastRecv 20 s.log = some s.peerKexinit) :
    ExtRes s.role (s.handleECDHKexInit e body) := by
  unfold Kx.handleECDHKexInit
  cases hr : s.role != .server with
  | true => exact h.res Calm.rfl'
  | false =>
    have hrole : s.role = .server := by simpa using hr
    rw [cond_false]
    cases hrd : s.kexReady with
    | false => exact h.res Calm.rfl'
    | true =>
      rw [Bool.not_true, cond_false]
      simp only [Kx.kexReady, Bool.and_eq_true] at hrd
      obtain ⟨p, hp, hw⟩ := h.wish hrd.2
      rw [if_pos hrole] at hw
      have hlast := hk hrd.1.1.1.2
      split
      · exact h.res Calm.rfl'
      · rename_i ceph hceph
        have c1 : Calm s (s.sendECDHKexInitReply e ceph).1 := Calm.sendReply
        have h1 := h.calm c1
        obtain ⟨x1, e1, d1⟩ := c1.log
        have n1 := sendReply_norecv e1
        generalize hg1 : s.sendECDHKexInitReply e ceph = r1 at c1 h1 e1
        obtain ⟨s1, st1⟩ := r1
        simp only at c1 h1 e1
        have hl1 : lastRecv 20 s1.log = some s.peerKexinit := by rw [e1, lastRecv_append_none n1]; exact hlast
        cases st1 with
        | some st => exact h.res (r := (s1, some st)) c1
        | none =>
          show ExtRes s.role ((s1.sendNewKeys).andThen _)
          have hsw := sendNewKeys_switched (s := s1)
          generalize s1.sendNewKeys = r2 at hsw
          obtain ⟨s2, st2⟩ := r2
          rcases hsw with ⟨g1, g2⟩ | hs
          · simp only at g1 g2
            subst g1
            cases st2 with
            | none => exact absurd rfl g2
            | some st => exact h.res (r := (s2, some st)) c1
          · simp only at hs
            obtain ⟨⟨tail, e2, m2⟩, r2, w2, p2, k2⟩ := hs
            have norecv : ∀ q, Entry.recv q ∉ Entry.sent [21] :: tail := by
              intro q hq
              rcases List.mem_cons.mp hq with hq | hq
              · cases hq
              · exact (m2 _ hq).2 q rfl
            have hl2 : lastRecv 20 s2.log = some s.peerKexinit := by rw [e2, lastRecv_append_none norecv]; exact hl1
            have only2 : OnlyAsked s.role s2.log := by
              intro a q b he h7
              rw [e2] at he
              rcases split_either he with ⟨b', h3, -⟩ | ⟨a', -, h3⟩
              · have := h1.only a q b' h3 h7
                rwa [c1.role] at this
              · rcases a' with _ | ⟨y, a'⟩
                · simp only [List.nil_append, List.cons.injEq, Entry.sent.injEq] at h3
                  rw [← h3.1] at h7; cases h7
                · simp only [List.cons_append, List.cons.injEq] at h3
                  exact absurd rfl ((m2 (.sent q) (by rw [h3.2]; simp)).1 q)
            have wish2 : Wish s2 := by
              intro hk2
              rw [k2] at hk2
              obtain ⟨p', h3, h4⟩ := h1.wish hk2
              exact ⟨p', by rw [p2]; exact h3, by rw [w2, r2]; exact h4⟩
            cases st2 with
            | some st => exact (⟨r2.trans c1.role, only2, by simp⟩ : ExtRes s.role (s2, some st))
            | none =>
              show ExtRes s.role (bif s2.peerWantsExtInfo then s2.sendSer makeExtInfo else (s2, none))
              have hwant : s2.peerWantsExtInfo = stringListContains p.kex (ascii "ext-info-c") := by
                rw [w2, c1.wants]; exact hw
              cases hwb : s2.peerWantsExtInfo with
              | false =>
                rw [cond_false]
                refine ⟨r2.trans c1.role, only2, fun _ => ⟨wish2, ?_⟩⟩
                intro a q b k he h21 hr' hk' hx
                rw [e2] at he
                rcases split_either he with ⟨b', h3, rfl⟩ | ⟨a', h4, h3⟩
                · have := h1.all
                  rw [c1.role] at this
                  exact this.grow h3 h21 hr' hk' hx
                · rcases a' with _ | ⟨y, a'⟩
                  · exfalso
                    rw [List.append_nil] at h4
                    rw [h4, hl1, Option.some.injEq] at hk'
                    subst hk'
                    rw [asksExtInfo_iff hp, ← hwant, hwb] at hx
                    cases hx
                  · simp only [List.cons_append, List.cons.injEq] at h3
                    exact absurd rfl ((m2 (.sent q) (by rw [h3.2]; simp)).1 q)
              | true =>
                rw [cond_true]
                obtain ⟨ser, hser⟩ := makeExtInfo_ok
                have hpay := makeExtInfo_payload hser
                rw [hser]
                show ExtRes s.role (s2.emit (.sent (ser.since 5)), none)
                rw [hpay]
                have hask : AsksExtInfo s.peerKexinit := by rw [asksExtInfo_iff hp, ← hwant, hwb]
                refine ⟨r2.trans c1.role, ?_, fun _ => ⟨wish2, ?_⟩⟩
                · intro a q b he h7
                  rcases Aux.snoc_split he with ⟨-, rfl, hq⟩ | ⟨b', -, h3⟩
                  · cases hq
                    refine ⟨hrole, rfl, ?_, _, hl2, hask⟩
                    rw [e2, sentPackets_append, sentPackets_mute m2]; exact List.getLast?_concat
                  · exact only2 a q b' h3 h7
                · intro a q b k he h21 hr' hk' hx
                  rcases Aux.snoc_split he with ⟨-, rfl, hq⟩ | ⟨b', rfl, h3⟩
                  · cases hq; exact absurd h21 (by decide)
                  · rw [e2] at h3
                    rcases split_either h3 with ⟨b'', h4, rfl⟩ | ⟨a', h4, h5⟩
                    · have := h1.all
                      rw [c1.role] at this
                      rw [List.append_assoc]
                      exact this.grow h4 h21 hr' hk' hx
                    · rcases a' with _ | ⟨y, a'⟩
                      · simp only [List.nil_append, List.cons.injEq, Entry.sent.injEq] at h5
                        obtain ⟨-, rfl⟩ := h5
                        exact ⟨tail, [], by simp, m2⟩
                      · simp only [List.cons_append, List.cons.injEq] at h5
                        exact absurd rfl ((m2 (.sent q) (by rw [h5.2]; simp)).1 q)

theorem handlePacket₂_ext {e} {s : Kx} {msg body claim} (h : ExtPre s)
    (hk : msg ≠ 20 → s.flags.kexinitReceived = true → lastRecv 20 s.log = some s.peerKexinit) :
    ExtRes s.role (s.handlePacket₂ e msg body claim) := by
  unfold Kx.handlePacket₂
  split
  · exact h.res Calm.rfl'
  · exact h.res Calm.rfl'
  · unfold Kx.dispatch
    split
    · split <;> exact h.res Calm.rfl'
    split
    · exact h.res Calm.rfl'
    split
    · exact h.res Calm.rfl'
    split
    · obtain ⟨w, r, ext, e1, d⟩ := handleKexInit_wish (e := e) (body := body) h.wish
      refine ⟨r, ?_, fun _ => ⟨w, ?_⟩⟩
      · rw [e1]; exact h.only.append d
      · rw [e1]; exact h.all.append d
    split
    · exact h.res Calm.handleNewKeys
    split
    · rename_i hm
      exact handleECDHKexInit_ext h (hk (by rw [hm]; decide))
    split
    · exact h.res Calm.handleReply
    · exact h.res (Calm.sendSer fun ser hser => by
        obtain ⟨t, ht⟩ := unimplemented_payload hser
        exact ⟨_, t, ht, by decide, by decide⟩)

/-- The bookkeeping of strict key exchange does not matter here. -/
theorem Calm.withStrict {s : Kx} (f i : Bool) : Calm s (s.withStrict f i) :=
  ⟨⟨[], by simp [Model.Kx.withStrict], by simp [Dull]⟩, rfl, rfl, rfl, id⟩

theorem handleRawPacket_ext {e} {s : Kx} {raw claim} (h : ExtPre s)
    (hk : s.flags.kexinitReceived = true → lastRecv 20 s.log = some s.peerKexinit) :
    ExtRes s.role (s.handleRawPacket e raw claim) := by
  have c0 : Calm s (s.emit (.recv raw)) := Calm.say (by simp)
  have h0 := h.calm c0
  unfold Kx.handleRawPacket
  cases raw with
  | nil => exact h.res c0
  | cons msg body =>
    have hk0 : msg ≠ 20 → (s.emit (.recv (msg :: body))).flags.kexinitReceived = true →
        lastRecv 20 (s.emit (.recv (msg :: body))).log = some (s.emit (.recv (msg :: body))).peerKexinit := by
      intro hm hf
      have hm' : isMsg 20 (msg :: body) = false := by simp [isMsg, hm]
      rw [emit_log, lastRecv_snoc]
      simp only [hm']
      exact hk hf
    have hrole : (s.emit (.recv (msg :: body))).role = s.role := rfl
    rw [← hrole]
    simp only
    generalize s.emit (.recv (msg :: body)) = s0 at h0 hk0
    have hst : ∀ f i, ExtRes s0.role ((s0.withStrict f i).handlePacket₂ e msg body claim) := fun f i =>
      handlePacket₂_ext (h0.calm (Calm.withStrict f i)) hk0
    unfold Kx.handlePacket
    simp only [Bool.cond_eq_ite]
    split
    · exact handlePacket₂_ext h0 hk0
    split
    · exact hst _ s0.ignoreNextKexPacket
    split
    · split
      · exact h0.res (Calm.withStrict s0.firstPacketWasKexinit false)
      · exact hst s0.firstPacketWasKexinit false
    split
    · exact h0.res Calm.rfl'
    · exact handlePacket₂_ext h0 hk0

theorem Calm.onBufferedWrite {s : Kx} {more} : Calm s (s.onBufferedWrite more) := by
  unfold Kx.onBufferedWrite
  simp only [Bool.cond_eq_ite]
  cases more with
  | false =>
    simp only [Bool.false_eq_true, if_false]
    split
    · exact ⟨⟨_, rfl, by simp [Dull]⟩, rfl, rfl, rfl, id⟩
    · exact ⟨⟨[], by simp, by simp [Dull]⟩, rfl, rfl, rfl, id⟩
  | true =>
    simp only [if_true]
    split <;> split
    · exact ⟨⟨_, by simp only [Kx.emit, List.append_assoc]; rfl, by simp [Dull]⟩, rfl, rfl, rfl, id⟩
    · exact ⟨⟨_, rfl, by simp [Dull]⟩, rfl, rfl, rfl, id⟩
    · exact ⟨⟨_, rfl, by simp [Dull]⟩, rfl, rfl, rfl, id⟩
    · exact ⟨⟨[], by simp, by simp [Dull]⟩, rfl, rfl, rfl, id⟩

theorem Calm.onVersion {e} {s : Kx} {v} : Calm s (s.onVersion e v).1 := by
  unfold Kx.onVersion
  have h1 : Calm s ({ s with peerVersion := v, versionExchanged := true }.emit (.version v)) :=
    Calm.trans (b := { s with peerVersion := v, versionExchanged := true })
      ⟨⟨[], by simp, by simp [Dull]⟩, rfl, rfl, rfl, id⟩ (Calm.say (by simp))
  simp only [Bool.cond_eq_ite]
  split
  · exact h1.trans Calm.sendKexInit
  · exact h1

theorem Calm.initiateRekey {e} {s : Kx} : Calm s (s.initiateRekey e).1 := by
  unfold Kx.initiateRekey
  simp only [Bool.cond_eq_ite]
  split
  · exact Calm.rfl'
  split
  · exact Calm.rfl'
  · exact Calm.sendKexInit

theorem Calm.setAuthenticated {s : Kx} : Calm s s.setAuthenticated.1 := by
  unfold Kx.setAuthenticated
  simp only [Bool.cond_eq_ite]
  split
  · exact Calm.rfl'
  · exact ⟨⟨[], by simp, by simp [Dull]⟩, rfl, rfl, rfl, id⟩

/-- What holds of every connection. -/
structure ExtSys (role : Role) (y : KxSys) : Prop where
  same : y.kx.role = role
  only : OnlyAsked role y.kx.log
  rest : y.stop = none → ExtPre y.kx

theorem ExtRes.finish {role : Role} {r : KRes} (h : ExtRes role r) : ExtSys role (.finish r) := by
  obtain ⟨s, st⟩ := r
  have hr : s.role = role := h.same
  unfold KxSys.finish
  cases st with
  | none =>
    obtain ⟨hw, ha⟩ := h.rest rfl
    exact ⟨hr, h.only, fun _ => ⟨by rw [hr]; exact h.only, hw, by rw [hr]; exact ha⟩⟩
  | some st =>
    cases st with
    | disconnect =>
      refine ⟨hr, ?_, by simp⟩
      exact h.only.append (ext := [.sent [MSG_DISCONNECT]]) (by intro p hp; simp at hp; subst hp; exact ⟨rfl, fun _ => rfl⟩)
    | closed => exact ⟨hr, h.only, by simp⟩
    | assertFailed => exact ⟨hr, h.only, by simp⟩

theorem step_ext {e role} {y : KxSys} {ev} (h : ExtSys role y) (hi : SysInv e role y) : ExtSys role (y.step e ev) := by
  unfold KxSys.step
  cases hs : y.stop with
  | some x => exact h
  | none =>
    have hp := h.rest hs
    rw [SysInv, hs] at hi
    obtain ⟨φ, hi⟩ := hi
    have hk : y.kx.flags.kexinitReceived = true → lastRecv 20 y.kx.log = some y.kx.peerKexinit := by
      intro hf
      exact hi.peerRecv (by rw [← hi.fRecv]; exact hf)
    have fin : ∀ {r : KRes}, ExtRes y.kx.role r → ExtSys role (.finish r) := by
      intro r hr
      rw [h.same] at hr
      exact hr.finish
    simp only [Bool.cond_eq_ite]
    cases ev with
    | version v =>
      simp only
      split
      · exact h
      · exact fin (hp.res Calm.onVersion)
    | packet raw claim =>
      simp only
      split
      · exact fin (handleRawPacket_ext hp hk)
      · exact h
    | authenticated =>
      simp only
      split
      · exact fin (hp.res Calm.setAuthenticated)
      · exact h
    | rekeyTimer =>
      simp only
      split
      · exact fin (hp.res Calm.initiateRekey)
      · exact h
    | writable more =>
      have h' := hp.calm (Calm.onBufferedWrite (more := more))
      have hr : (y.kx.onBufferedWrite more).role = role := Calm.onBufferedWrite.role.trans h.same
      exact ⟨hr, by rw [← hr]; exact h'.only, fun _ => h'⟩

theorem run_ext {e role} {evs : List KxEvent} (hd : Digest32 e) (hev : ∀ ev ∈ evs, EventOk ev) :
    ExtSys role ((KxSys.init role).run e evs) := by
  induction evs using Aux.snoc_ind with
  | h0 =>
    refine ⟨rfl, ?_, fun _ => ⟨?_, ?_, ?_⟩⟩
    · intro a p b h; simp [KxSys.run, KxSys.init] at h
    · intro a p b h; simp [KxSys.run, KxSys.init] at h
    · intro h; cases h
    · intro a p b k h; simp [KxSys.run, KxSys.init] at h
  | h1 evs ev ih =>
    rw [run_snoc]
    exact step_ext (ih fun x hx => hev x (by simp [hx])) ((SysInv.init e role).run hd fun x hx => hev x (by simp [hx]))

end Lukko
