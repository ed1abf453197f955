import Verif.Model.Listeners
import Verif.Proof.Deadline
import Verif.Proof.AuthFwd
import Verif.Proof.Lists
/-
  The invariant behind Prop/Listeners.
-/
namespace Lukko
open Model Spec

/-! ### The log of Model/Auth only grows -/

theorem auth_log_grows (cfg : AuthCfg) (evs : List AuthEv) (ev : AuthEv) :
    ∃ d, ((Auth.run cfg {} evs).step cfg ev).log = (Auth.run cfg {} evs).log ++ d := by
  have hinv := inv_run (cfg := cfg) evs
  generalize Auth.run cfg {} evs = y at hinv
  cases hs : y.stop with
  | true => exact ⟨[], by simp [Auth.step, hs]⟩
  | false =>
    rcases hinv with ⟨hp, _⟩ | hp
    · by_cases he : ev = .authTimeout
      · subst he
        simp only [Auth.step, hs, cond_false]
        cases y.authenticated
        · exact ⟨[.disconnected 10], rfl⟩
        · exact ⟨[], by simp⟩
      · obtain ⟨⟨r, d, hl, _⟩, _⟩ := shape_step hp hs he
        exact ⟨r ++ d, by rw [hl]⟩
    · obtain ⟨d, hd, _⟩ := (fwd_step hp ev).log
      exact ⟨d, hd⟩

/-! ### Specification -/

theorem forwardings_append (a b : List FwEntry) : forwardings (a ++ b) = b.foldl forwardings₁ (forwardings a) := by
  simp [forwardings]

@[simp] theorem forwardings_snoc (a : List FwEntry) (e : FwEntry) :
    forwardings (a ++ [e]) = forwardings₁ (forwardings a) e := by simp [forwardings_append]

/-- What is in effect now and was not before has been granted in between. -/
theorem granted_of_mem {x : Bytes × Nat} : ∀ (b : List FwEntry) (l : List (Bytes × Nat)), x ∉ l → x ∈ b.foldl forwardings₁ l →
    ∃ b1 n b2, b = b1 ++ .granted n x.1 x.2 :: b2 := by
  intro b
  induction b with
  | nil => intro l h h'; exact absurd h' h
  | cons e b ih =>
    intro l h h'
    by_cases hx : x ∈ forwardings₁ l e
    · cases e with
      | granted n host port =>
        have : x = (host, port) := by simpa [forwardings₁, h] using hx
        exact ⟨[], n, b, by rw [this]; rfl⟩
      | cancel host port ok =>
        cases ok
        · exact absurd hx h
        · exact absurd (List.mem_filter.mp hx).1 h
      | ended => exact absurd hx (by simp [forwardings₁])
      | _ => exact absurd hx h
    · obtain ⟨b1, n, b2, rfl⟩ := ih _ hx h'
      exact ⟨e :: b1, n, b2, rfl⟩

/-! ### Entries with their past -/

/-- The connection was offered, and is still waiting. -/
def Standing (log : List FwEntry) (c : Nat) (host : Bytes) (port : Nat) : Prop :=
  ∃ a b, log = a ++ .offered c host port :: b ∧
    .joined c ∉ b ∧ .dropped c ∉ b ∧ .cancel host port true ∉ b ∧ .ended ∉ b

/-- What is true of the past when something happens. -/
def FwOk (a : List FwEntry) : FwEntry → Prop
  | .asked n _ _ => ∀ h p, .asked n h p ∉ a
  | .granted n host port => .asked n host port ∈ a ∧ .failed n ∉ a ∧ (∀ h p, .granted n h p ∉ a) ∧ .ended ∉ a
  | .failed n => (∃ h p, .asked n h p ∈ a) ∧ .failed n ∉ a ∧ (∀ h p, .granted n h p ∉ a) ∧ .ended ∉ a
  | .cancel host port ok => (ok = true ↔ (host, port) ∈ forwardings a) ∧ .ended ∉ a
  | .arrived c _ => (∀ q, .arrived c q ∉ a) ∧ .ended ∉ a
  | .offered c host port =>
    (host, port) ∈ forwardings a ∧ ∃ q, .arrived c q ∈ a ∧ (port ≠ 0 → q = port)
  | .joined c => ∃ h p, Standing a c h p
  | .dropped _ => .ended ∉ a
  | .ended => .ended ∉ a

def FwHist (log : List FwEntry) : Prop := ∀ a e b, log = a ++ e :: b → FwOk a e

theorem FwHist.snoc {log : List FwEntry} (h : FwHist log) {e : FwEntry} (he : FwOk log e) : FwHist (log ++ [e]) := by
  intro a x b hx
  rcases Aux.snoc_split hx with ⟨rfl, rfl, rfl⟩ | ⟨b', rfl, rfl⟩
  · exact he
  · exact h _ _ _ rfl

theorem fwHist_nil : FwHist [] := by intro a e b h; simp at h

theorem Standing.snoc {log : List FwEntry} {c : Nat} {host : Bytes} {port : Nat} (h : Standing log c host port) {e : FwEntry}
    (h1 : e ≠ .joined c) (h2 : e ≠ .dropped c) (h3 : e ≠ .cancel host port true) (h4 : e ≠ .ended) :
    Standing (log ++ [e]) c host port := by
  obtain ⟨a, b, rfl, g1, g2, g3, g4⟩ := h
  exact ⟨a, b ++ [e], by simp, by simp [g1, Ne.symm h1], by simp [g2, Ne.symm h2], by simp [g3, Ne.symm h3],
    by simp [g4, Ne.symm h4]⟩

theorem hist_dropped (cs : List Nat) {log : List FwEntry} (h : FwHist log) (he : .ended ∉ log) :
    FwHist (log ++ cs.map .dropped) := by
  induction cs using Aux.snoc_ind with
  | h0 => simpa using h
  | h1 cs c ih =>
    have e : log ++ (cs ++ [c]).map FwEntry.dropped = (log ++ cs.map .dropped) ++ [.dropped c] := by simp
    rw [e]
    refine ih.snoc ?_
    simp [FwOk, he]

theorem forwardings_dropped (cs : List Nat) (log : List FwEntry) :
    forwardings (log ++ cs.map .dropped) = forwardings log := by
  induction cs using Aux.snoc_ind with
  | h0 => simp
  | h1 cs c ih => rw [List.map_append, ← List.append_assoc, List.map_cons, List.map_nil, forwardings_snoc]; exact ih

theorem Standing.droppedOther {log : List FwEntry} {c : Nat} {host : Bytes} {port : Nat} (h : Standing log c host port)
    {cs : List Nat} (hc : c ∉ cs) : Standing (log ++ cs.map .dropped) c host port := by
  obtain ⟨a, b, rfl, g1, g2, g3, g4⟩ := h
  exact ⟨a, b ++ cs.map .dropped, by simp, by simp [g1], by simp [g2, hc], by simp [g3], by simp [g4]⟩

/-! ### The invariant -/

/-- … while the connection is alive; `A`: what has happened in Model/Auth. -/
structure RfwCore (A : List AuthEntry) (s : Rfw) : Prop where
  hist : FwHist s.log
  alive : .ended ∉ s.log
  fw : forwardings s.log = s.listeners.map fun l => (l.host, l.port)
  pend : ∀ n h p, (n, h, p) ∈ s.pending → .asked n h p ∈ s.log ∧ .failed n ∉ s.log ∧ ∀ h p, .granted n h p ∉ s.log
  reqs : ∀ n h p, .asked n h p ∈ s.log → n < s.req
  conns : ∀ c q, .arrived c q ∈ s.log → c < s.conn
  wait : ∀ c h p, (c, h, p) ∈ s.waiting → Standing s.log c h p ∧ c < s.conn
  distinct : s.waiting.Pairwise fun v w => v.1 ≠ w.1
  bd : ∀ l ∈ s.listeners, l.port ≠ 0 → l.bound = l.port
  asked : ∀ n h p, .asked n h p ∈ s.log → .bindTcp h p ∈ A

variable {cfg : AuthCfg} {A : List AuthEntry} {s : Rfw}

theorem core_forward (h : RfwCore A s) {host : Bytes} {port : Nat} (ha : .bindTcp host port ∈ A) :
    RfwCore A (s.forward host port) where
  hist := h.hist.snoc fun h' p' hm => Nat.lt_irrefl _ (h.reqs _ _ _ hm)
  alive := by simp [Rfw.forward, Rfw.say, h.alive]
  fw := by simp [Rfw.forward, Rfw.say, forwardings₁, h.fw]
  pend := by
    intro n h' p' hm
    simp only [Rfw.forward, Rfw.say, List.mem_append, List.mem_singleton, Prod.mk.injEq, FwEntry.asked.injEq, reduceCtorEq,
      or_false] at hm ⊢
    rcases hm with hm | ⟨rfl, rfl, rfl⟩
    · exact ⟨.inl (h.pend _ _ _ hm).1, (h.pend _ _ _ hm).2⟩
    · refine ⟨.inr ⟨rfl, rfl, rfl⟩, fun hm => ?_, fun h'' p'' hm => ?_⟩
      · obtain ⟨a, b, e⟩ := List.append_of_mem hm
        obtain ⟨⟨h1, p1, hx⟩, _⟩ := h.hist _ _ _ e
        exact Nat.lt_irrefl _ (h.reqs _ h1 p1 (by rw [e]; simp [hx]))
      · obtain ⟨a, b, e⟩ := List.append_of_mem hm
        exact Nat.lt_irrefl _ (h.reqs _ h'' p'' (by rw [e]; simp [(h.hist _ _ _ e).1]))
  reqs := by
    intro n h' p' hm
    simp only [Rfw.forward, Rfw.say, List.mem_append, List.mem_singleton, FwEntry.asked.injEq] at hm ⊢
    rcases hm with hm | ⟨rfl, _⟩
    · exact Nat.lt_succ_of_lt (h.reqs _ _ _ hm)
    · exact Nat.lt_succ_self _
  conns := by
    intro c q hm
    simp only [Rfw.forward, Rfw.say, List.mem_append, List.mem_singleton, reduceCtorEq, or_false] at hm ⊢
    exact h.conns _ _ hm
  wait := fun c h' p' hm => ⟨(h.wait _ _ _ hm).1.snoc (by simp) (by simp) (by simp) (by simp), (h.wait _ _ _ hm).2⟩
  distinct := h.distinct
  bd := h.bd
  asked := by
    intro n h' p' hm
    simp only [Rfw.forward, Rfw.say, List.mem_append, List.mem_singleton, FwEntry.asked.injEq] at hm
    rcases hm with hm | ⟨_, rfl, rfl⟩
    · exact h.asked _ _ _ hm
    · exact ha

theorem cancel_ok (h : RfwCore A s) (host : Bytes) (port : Nat) :
    s.listeners.any (·.isBindAddress host port) = true ↔ (host, port) ∈ forwardings s.log := by
  simp [h.fw, FwListener.isBindAddress]

theorem core_cancel (h : RfwCore A s) (host : Bytes) (port : Nat) : RfwCore A (s.cancel host port) := by
  generalize hcs : (s.waiting.filter fun w => w.2 == (host, port)).map (·.1) = cs
  generalize hok : s.listeners.any (·.isBindAddress host port) = ok
  have hlog : (s.cancel host port).log = (s.log ++ [.cancel host port ok]) ++ cs.map .dropped := by
    simp [Rfw.cancel, ← hcs, ← hok, Function.comp_def]
  have hok' : ok = true ↔ (host, port) ∈ forwardings s.log := by rw [← hok]; exact cancel_ok h host port
  have hmem : ∀ e, e ∈ (s.cancel host port).log ↔ e ∈ s.log ∨ e = .cancel host port ok ∨ ∃ c ∈ cs, e = .dropped c := by
    intro e; rw [hlog]; simp [eq_comm]
  have hh : FwHist (s.log ++ [.cancel host port ok]) := h.hist.snoc ⟨hok', h.alive⟩
  refine ⟨?_, ?_, ?_, ?_, ?_, ?_, ?_, ?_, ?_, ?_⟩
  · rw [hlog]; exact hist_dropped _ hh (by simp [h.alive])
  · rw [hmem]; simp [h.alive]
  · rw [hlog, forwardings_dropped, forwardings_snoc, h.fw]
    have hl : (s.cancel host port).listeners = s.listeners.filter fun l => !l.isBindAddress host port := rfl
    rw [hl]
    cases ok with
    | true =>
      simp only [forwardings₁, List.filter_map]
      congr 1
      apply List.filter_congr
      intro l _
      simp [FwListener.isBindAddress, Bool.beq_eq_decide_eq]
    | false =>
      simp only [forwardings₁]
      rw [List.filter_eq_self.mpr]
      intro l hl
      have := List.any_eq_false.mp hok l hl
      simpa using this
  · intro n h' p' hm
    have := h.pend n h' p' hm
    simp only [hmem, reduceCtorEq, false_or, or_false, and_false, exists_false]
    exact this
  · intro n h' p' hm
    simp only [hmem, reduceCtorEq, false_or, or_false, and_false, exists_false] at hm
    exact h.reqs _ _ _ hm
  · intro n h' hm
    simp only [hmem, reduceCtorEq, false_or, or_false, and_false, exists_false] at hm
    exact h.conns _ _ hm
  · intro c h' p' hm
    obtain ⟨hm, hne⟩ := List.mem_filter.mp hm
    replace hne : (h', p') ≠ (host, port) := by simpa using hne
    refine ⟨?_, (h.wait _ _ _ hm).2⟩
    rw [hlog]
    refine ((h.wait _ _ _ hm).1.snoc (by simp) (by simp) ?_ (by simp)).droppedOther ?_
    · intro e
      simp only [FwEntry.cancel.injEq] at e
      exact hne (by rw [e.1, e.2.1])
    · rw [← hcs]
      intro hc
      obtain ⟨w, hw, rfl⟩ := List.mem_map.mp hc
      obtain ⟨hw, he⟩ := List.mem_filter.mp hw
      have he : w.2 = (host, port) := by simpa using he
      -- the same connection is not waiting twice
      have := h.distinct
      by_cases hww : w = (w.1, h', p')
      · exact hne (by rw [← he, hww])
      · obtain ⟨a, b, hab⟩ := List.append_of_mem hm
        rw [hab] at hw this
        rw [List.pairwise_append, List.pairwise_cons] at this
        rcases List.mem_append.mp hw with hw | hw
        · exact this.2.2 w hw (w.1, h', p') (by simp) rfl
        · rcases List.mem_cons.mp hw with hw | hw
          · exact hww hw
          · exact this.2.1.1 w hw rfl
  · exact h.distinct.filter _
  · intro l hl
    exact h.bd l (List.mem_filter.mp hl).1
  · intro n h' p' hm
    simp only [hmem, reduceCtorEq, false_or, or_false, and_false, exists_false] at hm
    exact h.asked _ _ _ hm

theorem core_effects : ∀ (d : List AuthEntry) {s : Rfw}, RfwCore A s → (∀ e ∈ d, e ∈ A) → RfwCore A (d.foldl Rfw.effect s) := by
  intro d
  induction d with
  | nil => intro s h _; exact h
  | cons e d ih =>
    intro s h hd
    refine ih ?_ fun x hx => hd x (by simp [hx])
    cases e with
    | bindTcp host port => exact core_forward h (hd _ (by simp))
    | unbindTcp host port => exact core_cancel h host port
    | _ => exact h

/-- One more entry which does not concern the rest of the state. -/
theorem core_bound (h : RfwCore A s) (n : Nat) (res : Option Nat) : RfwCore A (s.bound n res) := by
  unfold Rfw.bound
  cases hf : s.pending.find? (·.1 == n) with
  | none => exact h
  | some r =>
    obtain ⟨n', host, port⟩ := r
    have hn : n' = n := by simpa using List.find?_some hf
    subst hn
    obtain ⟨h1, h2, h3⟩ := h.pend _ _ _ (List.mem_of_find?_eq_some hf)
    cases res with
    | none =>
      simp only [Rfw.say]
      refine ⟨h.hist.snoc ⟨⟨_, _, h1⟩, h2, h3, h.alive⟩, by simp [h.alive], by simp [forwardings₁, h.fw], ?_, ?_, ?_, ?_, h.distinct,
        h.bd, ?_⟩
      · intro m h' p' hm
        obtain ⟨hm, hne⟩ := List.mem_filter.mp hm
        have hne : m ≠ n' := by simpa using hne
        obtain ⟨g1, g2, g3⟩ := h.pend _ _ _ hm
        simp [g1, g2, g3, hne]
      · intro m h' p' hm; exact h.reqs m h' p' (by simpa using hm)
      · intro m h' hm; exact h.conns m h' (by simpa using hm)
      · intro c h' p' hm
        exact ⟨(h.wait _ _ _ hm).1.snoc (by simp) (by simp) (by simp) (by simp), (h.wait _ _ _ hm).2⟩
      · intro m h' p' hm; exact h.asked m h' p' (by simpa using hm)
    | some q =>
      simp only [Rfw.say]
      refine ⟨h.hist.snoc ⟨h1, h2, h3, h.alive⟩, by simp [h.alive], by simp [forwardings₁, h.fw], ?_, ?_, ?_, ?_, h.distinct, ?_, ?_⟩
      · intro m h' p' hm
        obtain ⟨hm, hne⟩ := List.mem_filter.mp hm
        have hne : m ≠ n' := by simpa using hne
        obtain ⟨g1, g2, g3⟩ := h.pend _ _ _ hm
        simp [g1, g2, g3, hne]
      · intro m h' p' hm; exact h.reqs m h' p' (by simpa using hm)
      · intro m h' hm; exact h.conns m h' (by simpa using hm)
      · intro c h' p' hm
        exact ⟨(h.wait _ _ _ hm).1.snoc (by simp) (by simp) (by simp) (by simp), (h.wait _ _ _ hm).2⟩
      · intro l hl hp
        rcases List.mem_append.mp hl with hl | hl
        · exact h.bd l hl hp
        · rw [List.mem_singleton.mp hl] at hp ⊢
          exact if_neg hp
      · intro m h' p' hm; exact h.asked m h' p' (by simpa using hm)

theorem core_accept (h : RfwCore A s) (i : Nat) (room : Bool) : RfwCore A (s.accept i room) := by
  unfold Rfw.accept
  cases hi : s.listeners[i]? with
  | none => exact h
  | some l =>
    have hl : l ∈ s.listeners := List.mem_of_getElem? hi
    have hh : FwHist (s.log ++ [.arrived s.conn l.bound]) :=
      h.hist.snoc ⟨fun q hm => Nat.lt_irrefl _ (h.conns _ _ hm), h.alive⟩
    have hst : ∀ c h' p', (c, h', p') ∈ s.waiting → ∀ e, e = .dropped s.conn ∨ e = .offered s.conn l.host l.port →
        Standing (s.log ++ [.arrived s.conn l.bound] ++ [e]) c h' p' := by
      intro c h' p' hm e he
      have hc : c ≠ s.conn := Nat.ne_of_lt (h.wait _ _ _ hm).2
      refine (((h.wait _ _ _ hm).1.snoc (by simp) (by simp) (by simp) (by simp))).snoc ?_ ?_ ?_ ?_ <;>
        rcases he with rfl | rfl <;> simp [Ne.symm hc]
    cases room with
    | false =>
      simp only [Rfw.say, cond_false]
      refine ⟨hh.snoc (by simp [FwOk, h.alive]), by simp [h.alive], by rw [forwardings_snoc, forwardings_snoc]; exact h.fw, ?_, ?_, ?_, ?_, h.distinct, h.bd, ?_⟩
      · intro n h' p' hm; simpa using h.pend n h' p' hm
      · intro n h' p' hm; exact h.reqs n h' p' (by simpa using hm)
      · intro c q hm
        have hm : .arrived c q ∈ s.log ∨ c = s.conn ∧ q = l.bound := by simpa using hm
        rcases hm with hm | ⟨rfl, _⟩
        · exact Nat.lt_succ_of_lt (h.conns _ _ hm)
        · exact Nat.lt_succ_self _
      · intro c h' p' hm
        exact ⟨hst _ _ _ hm _ (.inl rfl), Nat.lt_succ_of_lt (h.wait _ _ _ hm).2⟩
      · intro n h' p' hm; exact h.asked n h' p' (by simpa using hm)
    | true =>
      simp only [Rfw.say, cond_true]
      have hin : (l.host, l.port) ∈ forwardings s.log := by rw [h.fw]; exact List.mem_map.mpr ⟨l, hl, rfl⟩
      refine ⟨hh.snoc ⟨by simpa [forwardings₁] using hin, l.bound, by simp, fun hp => h.bd l hl hp⟩, by simp [h.alive],
        by rw [forwardings_snoc, forwardings_snoc]; exact h.fw, ?_, ?_, ?_, ?_, ?_, h.bd, ?_⟩
      · intro n h' p' hm; simpa using h.pend n h' p' hm
      · intro n h' p' hm; exact h.reqs n h' p' (by simpa using hm)
      · intro c q hm
        have hm : .arrived c q ∈ s.log ∨ c = s.conn ∧ q = l.bound := by simpa using hm
        rcases hm with hm | ⟨rfl, _⟩
        · exact Nat.lt_succ_of_lt (h.conns _ _ hm)
        · exact Nat.lt_succ_self _
      · intro c h' p' hm
        rcases List.mem_append.mp hm with hm | hm
        · exact ⟨hst _ _ _ hm _ (.inr rfl), Nat.lt_succ_of_lt (h.wait _ _ _ hm).2⟩
        · have hm : c = s.conn ∧ h' = l.host ∧ p' = l.port := by simpa using hm
          obtain ⟨rfl, rfl, rfl⟩ := hm
          exact ⟨⟨_, [], rfl, by simp, by simp, by simp, by simp⟩, Nat.lt_succ_self _⟩
      · refine List.pairwise_append.mpr ⟨h.distinct, List.pairwise_singleton _ _, ?_⟩
        intro v hv w hw
        rw [List.mem_singleton.mp hw]
        exact Nat.ne_of_lt (h.wait v.1 v.2.1 v.2.2 hv).2
      · intro n h' p' hm; exact h.asked n h' p' (by simpa using hm)

theorem core_resolve (h : RfwCore A s) (c : Nat) {e : FwEntry} (he : e = .joined c ∨ e = .dropped c) :
    RfwCore A (s.resolve c e) := by
  unfold Rfw.resolve
  cases hw : s.waiting.any (·.1 == c) with
  | false => exact h
  | true =>
    obtain ⟨⟨c', h', p'⟩, hm, hc⟩ := List.any_eq_true.mp hw
    have hc : c' = c := by simpa using hc
    subst hc
    have hok : FwOk s.log e := by
      rcases he with rfl | rfl
      · exact ⟨h', p', (h.wait _ _ _ hm).1⟩
      · exact h.alive
    simp only [cond_true, Rfw.say]
    refine ⟨h.hist.snoc hok, ?_, ?_, ?_, ?_, ?_, ?_, h.distinct.filter _, h.bd, ?_⟩
    · rcases he with rfl | rfl <;> simp [h.alive]
    · rcases he with rfl | rfl <;> simp [forwardings₁, h.fw]
    · intro n h' p' hm
      have := h.pend n h' p' hm
      rcases he with rfl | rfl <;> simpa using this
    · intro n h' p' hm; exact h.reqs n h' p' (by rcases he with rfl | rfl <;> simpa using hm)
    · intro n h' hm; exact h.conns n h' (by rcases he with rfl | rfl <;> simpa using hm)
    · intro c h' p' hm
      obtain ⟨hm, hne⟩ := List.mem_filter.mp hm
      have hne : c ≠ c' := by simpa using hne
      refine ⟨(h.wait _ _ _ hm).1.snoc ?_ ?_ ?_ ?_, (h.wait _ _ _ hm).2⟩ <;> rcases he with rfl | rfl <;> simp [Ne.symm hne]
    · intro n h' p' hm; exact h.asked n h' p' (by rcases he with rfl | rfl <;> simpa using hm)

/-- At the end. -/
structure RfwEnd (A : List AuthEntry) (s : Rfw) : Prop where
  hist : FwHist s.log
  last : ∃ l, s.log = l ++ [.ended]
  none : s.pending = [] ∧ s.listeners = [] ∧ s.waiting = []
  asked : ∀ n h p, .asked n h p ∈ s.log → .bindTcp h p ∈ A

theorem core_finish (h : RfwCore A s) : RfwEnd A s.finish := by
  have e : s.finish.log = (s.log ++ (s.waiting.map (·.1)).map .dropped) ++ [.ended] := by
    simp [Rfw.finish, Function.comp_def]
  refine ⟨?_, ⟨_, e⟩, ⟨rfl, rfl, rfl⟩, ?_⟩
  · rw [e]
    exact (hist_dropped _ h.hist h.alive).snoc (by simp [FwOk, h.alive])
  · intro n h' p' hm
    rw [e] at hm
    exact h.asked n h' p' (by simpa using hm)

/-- Its requests come from Model/Auth. -/
def RfwInv (cfg : AuthCfg) (s : Rfw) : Prop :=
  (∃ evs, s.auth = Auth.run cfg {} evs) ∧
  ((s.auth.stop = false ∧ RfwCore s.auth.log s) ∨ (s.auth.stop = true ∧ RfwEnd s.auth.log s))

theorem RfwCore.mono {B : List AuthEntry} (h : RfwCore A s) (y : Auth) (hAB : ∀ e ∈ A, e ∈ B) : RfwCore B { s with auth := y } :=
  ⟨h.hist, h.alive, h.fw, h.pend, h.reqs, h.conns, h.wait, h.distinct, h.bd, fun n h' p' hm => hAB _ (h.asked n h' p' hm)⟩

theorem auth_effects : ∀ (d : List AuthEntry) (s : Rfw), (d.foldl Rfw.effect s).auth = s.auth := by
  intro d
  induction d with
  | nil => intro s; rfl
  | cons e d ih =>
    intro s
    rw [List.foldl_cons, ih]
    cases e <;> rfl

theorem rfwInv_client (h : RfwInv cfg s) (ev : AuthEv) : RfwInv cfg (s.client cfg ev) := by
  obtain ⟨⟨evs, hr⟩, h⟩ := h
  have hr' : s.auth.step cfg ev = Auth.run cfg {} (evs ++ [ev]) := by rw [hr]; simp [Auth.run]
  obtain ⟨d, hd⟩ := auth_log_grows cfg evs ev
  rw [← hr] at hd
  unfold Rfw.client
  simp only
  rw [hd, List.drop_left]
  generalize s.auth.step cfg ev = y at hd hr'
  rcases h with ⟨hs, h⟩ | ⟨hs, h⟩
  · have h1 : RfwCore y.log (d.foldl Rfw.effect { s with auth := y }) := by
      refine core_effects d (h.mono y ?_) ?_ <;> intro e he <;> rw [hd] <;> simp [he]
    have h2 := auth_effects d { s with auth := y }
    simp only [hs, Bool.not_false, Bool.and_true]
    cases hy : y.stop with
    | true =>
      simp only [cond_true]
      have h3 : (d.foldl Rfw.effect { s with auth := y }).finish.auth = y := h2
      exact ⟨⟨_, h3.trans hr'⟩, .inr ⟨by rw [h3, hy], by rw [h3]; exact core_finish h1⟩⟩
    | false =>
      simp only [cond_false]
      exact ⟨⟨_, h2.trans hr'⟩, .inl ⟨by rw [h2, hy], by rw [h2]; exact h1⟩⟩
  · -- nothing happens on a connection which has ended
    have hy : y = s.auth := by
      rw [hr', hr]
      have : (Auth.run cfg {} evs).stop = true := by rw [← hr]; exact hs
      simp [Auth.run] at this ⊢
      simp [Auth.step, this]
    have hd' : d = [] := by
      have := congrArg List.length hd
      rw [hy, List.length_append] at this
      exact List.eq_nil_of_length_eq_zero (by omega)
    subst hd' hy
    simp only [List.foldl_nil, hs, Bool.not_true, Bool.and_false, cond_false]
    exact ⟨⟨_, hr⟩, .inr ⟨hs, h⟩⟩

theorem auth_bound (s : Rfw) (n : Nat) (res : Option Nat) : (s.bound n res).auth = s.auth := by
  unfold Rfw.bound
  split
  · rfl
  · cases res <;> rfl

theorem auth_accept (s : Rfw) (i : Nat) (room : Bool) : (s.accept i room).auth = s.auth := by
  unfold Rfw.accept
  split
  · rfl
  · cases room <;> rfl

theorem auth_resolve (s : Rfw) (c : Nat) (e : FwEntry) : (s.resolve c e).auth = s.auth := by
  unfold Rfw.resolve
  cases s.waiting.any (·.1 == c) <;> rfl

theorem rfwInv_step (h : RfwInv cfg s) (ev : RfwEv) : RfwInv cfg (s.step cfg ev) := by
  cases ev with
  | client ev => exact rfwInv_client h ev
  | bound n res =>
    obtain ⟨hr, h⟩ := h
    refine ⟨by rw [Rfw.step, auth_bound]; exact hr, ?_⟩
    rw [Rfw.step, auth_bound]
    rcases h with ⟨hs, h⟩ | ⟨hs, h⟩
    · exact .inl ⟨hs, core_bound h n res⟩
    · rw [show s.bound n res = s by simp [Rfw.bound, h.none.1]]; exact .inr ⟨hs, h⟩
  | accept i room =>
    obtain ⟨hr, h⟩ := h
    refine ⟨by rw [Rfw.step, auth_accept]; exact hr, ?_⟩
    rw [Rfw.step, auth_accept]
    rcases h with ⟨hs, h⟩ | ⟨hs, h⟩
    · exact .inl ⟨hs, core_accept h i room⟩
    · rw [show s.accept i room = s by simp [Rfw.accept, h.none.2.1]]; exact .inr ⟨hs, h⟩
  | confirmed c =>
    obtain ⟨hr, h⟩ := h
    refine ⟨by rw [Rfw.step, auth_resolve]; exact hr, ?_⟩
    rw [Rfw.step, auth_resolve]
    rcases h with ⟨hs, h⟩ | ⟨hs, h⟩
    · exact .inl ⟨hs, core_resolve h c (.inl rfl)⟩
    · rw [show s.resolve c (.joined c) = s by simp [Rfw.resolve, h.none.2.2]]; exact .inr ⟨hs, h⟩
  | refused c =>
    obtain ⟨hr, h⟩ := h
    refine ⟨by rw [Rfw.step, auth_resolve]; exact hr, ?_⟩
    rw [Rfw.step, auth_resolve]
    rcases h with ⟨hs, h⟩ | ⟨hs, h⟩
    · exact .inl ⟨hs, core_resolve h c (.inr rfl)⟩
    · rw [show s.resolve c (.dropped c) = s by simp [Rfw.resolve, h.none.2.2]]; exact .inr ⟨hs, h⟩

theorem rfwInv_run (cfg : AuthCfg) (evs : List RfwEv) : RfwInv cfg (Rfw.run cfg {} evs) := by
  induction evs using Aux.snoc_ind with
  | h0 =>
    refine ⟨⟨[], rfl⟩, .inl ⟨rfl, fwHist_nil, ?_, rfl, ?_, ?_, ?_, ?_, List.Pairwise.nil, ?_, ?_⟩⟩ <;> simp [Rfw.run]
  | h1 evs ev ih =>
    have e : Rfw.run cfg {} (evs ++ [ev]) = (Rfw.run cfg {} evs).step cfg ev := by simp [Rfw.run]
    rw [e]
    exact rfwInv_step ih ev

theorem rfwHist_run (cfg : AuthCfg) (evs : List RfwEv) : FwHist (Rfw.run cfg {} evs).log := by
  obtain ⟨_, ⟨_, h⟩ | ⟨_, h⟩⟩ := rfwInv_run cfg evs
  · exact h.hist
  · exact h.hist

end Lukko
