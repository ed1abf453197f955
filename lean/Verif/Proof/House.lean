import Verif.Model.House
import Verif.Proof.Reverse
import Verif.Prop.Host
/-
  A connection with channels of all kinds: each kind by itself is as in Host.lean, Tunnel.lean and Reverse.lean.
-/
namespace Lukko
open Spec Model

variable {σ : Type}

/-! ### Which numbers are in use -/

/-- The number is in use. -/
def numberIn {α : Type} (o : α → Bool) (k : α → Nat) (l : List α) (n : Nat) : Bool := l.any fun a => o a && (k a == n)

abbrev inSessions := numberIn Session.isOpen Session.number
abbrev inTunnels := numberIn Tunnel.isOpen Tunnel.number
abbrev inCalls := numberIn (fun c : Incoming => c.line.isOpen) (fun c : Incoming => c.line.number)

theorem numberIn_iff {α : Type} {o : α → Bool} {k : α → Nat} {l : List α} {n : Nat} :
    numberIn o k l n = true ↔ ∃ a ∈ l, o a = true ∧ k a = n := by
  simp [numberIn]

theorem numberIn_map {α : Type} {o : α → Bool} {k : α → Nat} {f : α → α} (hf : ∀ a, k (f a) = k a ∧ (o (f a) = true → o a = true))
    {l : List α} {n : Nat} (h : numberIn o k (l.map f) n = true) : numberIn o k l n = true := by
  obtain ⟨a, ha, h1, h2⟩ := numberIn_iff.mp h
  obtain ⟨b, hb, rfl⟩ := List.mem_map.mp ha
  exact numberIn_iff.mpr ⟨b, hb, (hf b).2 h1, (hf b).1 ▸ h2⟩

theorem numberIn_modify {α : Type} {o : α → Bool} {k : α → Nat} {f : α → α} (hf : ∀ a, k (f a) = k a ∧ (o (f a) = true → o a = true))
    {n : Nat} : ∀ {l : List α} {i : Nat}, numberIn o k (l.modify i f) n = true → numberIn o k l n = true
  | [], i, h => by cases i <;> exact h
  | a :: l, 0, h => by
    simp only [List.modify_zero_cons, numberIn, List.any_cons, Bool.or_eq_true] at h ⊢
    rcases h with h | h
    · rw [Bool.and_eq_true, (hf a).1] at h
      exact .inl (by rw [(hf a).2 h.1, h.2]; rfl)
    · exact .inr h
  | a :: l, i + 1, h => by
    simp only [List.modify_succ_cons, numberIn, List.any_cons, Bool.or_eq_true] at h ⊢
    rcases h with h | h
    · exact .inl h
    · exact .inr (numberIn_modify hf h)

theorem numberIn_more {α : Type} {o : α → Bool} {k : α → Nat} {a : α} {l : List α} {n : Nat}
    (h : numberIn o k (l ++ [a]) n = true) : numberIn o k l n = true ∨ n = k a := by
  simp only [numberIn, List.any_append, List.any_cons, List.any_nil, Bool.or_false, Bool.or_eq_true, Bool.and_eq_true, beq_iff_eq] at h
  rcases h with h | h
  · exact .inl h
  · exact .inr h.2.symm

/-- Nothing is passed to a channel which does not exist. -/
theorem numberIn_same {α : Type} {o : α → Bool} {k : α → Nat} {f : α → α} {l : List α} {n : Nat} (h : numberIn o k l n = false) :
    (l.map fun a => bif o a && (k a == n) then f a else a) = l := by
  induction l with
  | nil => rfl
  | cons a l ih =>
    simp only [numberIn, List.any_cons, Bool.or_eq_false_iff] at h
    rw [List.map_cons, h.1, ih h.2]
    rfl

theorem callsLater_in {old new : List Incoming} (h : CallsLater old new) {n : Nat} (hn : inCalls new n = true) : inCalls old n = true := by
  obtain ⟨c', hc', h1, h2⟩ := numberIn_iff.mp hn
  obtain ⟨c, hc, hl⟩ := h.mem c' hc'
  exact numberIn_iff.mpr ⟨c, hc, hl.isOpen h1, hl.number ▸ h2⟩

/-- No number is in use for two kinds of channels. -/
structure Kinds (ss : List Session) (ts : List Tunnel) (cs : List Incoming) : Prop where
  st : ∀ n, inSessions ss n = true → inTunnels ts n = true → False
  sc : ∀ n, inSessions ss n = true → inCalls cs n = true → False
  tc : ∀ n, inTunnels ts n = true → inCalls cs n = true → False

/-- Only one kind of channels changes; `n` is the number of a new channel. -/
inductive OneKind (n : Nat) (ss : List Session) (ts : List Tunnel) (cs : List Incoming) (ss' : List Session) (ts' : List Tunnel)
    (cs' : List Incoming) : Prop
  | sessions : ts' = ts → cs' = cs → (∀ k, inSessions ss' k = true → inSessions ss k = true ∨ (k = n ∧ n < 64)) →
      OneKind n ss ts cs ss' ts' cs'
  | tunnels : ss' = ss → cs' = cs → (∀ k, inTunnels ts' k = true → inTunnels ts k = true ∨ (k = n ∧ n < 64)) →
      OneKind n ss ts cs ss' ts' cs'
  | calls : ss' = ss → ts' = ts → (∀ k, inCalls cs' k = true → inCalls cs k = true ∨ (k = n ∧ n < 64)) →
      OneKind n ss ts cs ss' ts' cs'

/-- The number is not in use. -/
structure FreeNumber (n : Nat) (ss : List Session) (ts : List Tunnel) (cs : List Incoming) : Prop where
  s : n < 64 → inSessions ss n = false
  t : n < 64 → inTunnels ts n = false
  c : n < 64 → inCalls cs n = false

theorem OneKind.kinds {n ss ts cs ss' ts' cs'} (h : OneKind n ss ts cs ss' ts' cs') (hk : Kinds ss ts cs)
    (hf : FreeNumber n ss ts cs) : Kinds ss' ts' cs' := by
  have absurd' : ∀ {b : Bool}, b = false → b = true → False := by intro b h1 h2; rw [h1] at h2; cases h2
  cases h with
  | sessions h1 h2 h3 =>
    subst h1 h2
    refine ⟨fun k hs ht => ?_, fun k hs hc => ?_, hk.tc⟩
    · rcases h3 k hs with h | ⟨rfl, h⟩
      · exact hk.st k h ht
      · exact absurd' (hf.t h) ht
    · rcases h3 k hs with h | ⟨rfl, h⟩
      · exact hk.sc k h hc
      · exact absurd' (hf.c h) hc
  | tunnels h1 h2 h3 =>
    subst h1 h2
    refine ⟨fun k hs ht => ?_, hk.sc, fun k ht hc => ?_⟩
    · rcases h3 k ht with h | ⟨rfl, h⟩
      · exact hk.st k hs h
      · exact absurd' (hf.s h) hs
    · rcases h3 k ht with h | ⟨rfl, h⟩
      · exact hk.tc k h hc
      · exact absurd' (hf.c h) hc
  | calls h1 h2 h3 =>
    subst h1 h2
    refine ⟨hk.st, fun k hs hc => ?_, fun k ht hc => ?_⟩
    · rcases h3 k hc with h | ⟨rfl, h⟩
      · exact hk.sc k hs h
      · exact absurd' (hf.s h) hs
    · rcases h3 k hc with h | ⟨rfl, h⟩
      · exact hk.tc k ht h
      · exact absurd' (hf.t h) ht

theorem house_number {h : House σ} {n : Nat} : FreeNumber (h.number n) h.sessions h.tunnels h.board.calls := by
  unfold House.number
  cases ht : h.taken n with
  | true =>
    have : ¬ (bif true then MAX_CHANNELS else n) < 64 := by rw [cond_true]; decide
    exact ⟨fun h => absurd h this, fun h => absurd h this, fun h => absurd h this⟩
  | false =>
    simp only [House.taken, Bool.or_eq_false_iff] at ht
    exact ⟨fun _ => ht.1.1, fun _ => ht.1.2, fun _ => ht.2⟩

/-! ### A message is for one kind of channels -/

theorem event_number {c : Chance} {m p n ev n' ev'} (h : channelEvent c m p = some (n, ev)) (h' : tunnelEvent c m p = some (n', ev')) :
    n = n' := by
  unfold channelEvent at h
  unfold tunnelEvent at h'
  repeat' split at h
  all_goals first
    | contradiction
    | (obtain ⟨q, hq, he⟩ := Option.map_eq_some_iff.mp h
       simp_all)

theorem sessLater_in {f : Session → Session} (hf : ∀ s, SessLater s (f s)) : ∀ a, (f a).number = a.number ∧ ((f a).isOpen = true → a.isOpen = true) :=
  fun a => ⟨(hf a).number, (hf a).isOpen⟩

theorem tunnelLater_in {f : Tunnel → Tunnel} (hf : ∀ s, TunnelLater s (f s)) : ∀ a, (f a).number = a.number ∧ ((f a).isOpen = true → a.isOpen = true) :=
  fun a => ⟨(hf a).number, (hf a).isOpen⟩

theorem deliverTo_in {n ev ss k} (h : inSessions (deliverTo n ev ss) k = true) : inSessions ss k = true :=
  numberIn_map (sessLater_in fun s => by
    cases s.isOpen && (s.number == n)
    · exact .rfl'
    · exact .handle s _) h

theorem routeTo_in {nd n ev ts k} (h : inTunnels (routeTo nd n ev ts) k = true) : inTunnels ts k = true :=
  numberIn_map (tunnelLater_in fun s => by
    cases s.isOpen && (s.number == n)
    · exact .rfl'
    · exact .handle s _) h

theorem board_message {nd c m p} (b : Board) : CallsLater b.calls (b.message nd c m p).calls := by
  unfold Board.message
  split
  · split
    · exact .rfl'
    · refine pop_later (fun w c => ?_) _
      cases w
      · exact .bury c _
      · exact .join c _ _
  · split
    · split
      · exact .rfl'
      · exact pop_later (fun _ c => .refuse c) _
    · split
      · exact .rfl'
      · rename_i n ev _
        refine .map (fun i => ?_) _
        cases i.line.isOpen && (i.line.number == n)
        · exact .rfl'
        · exact .handle i _

theorem message_kind {x : HostEnv σ} {y : Auth} {nd : Bool} {c : Chance} {m p q} {ss : List Session} {ts : List Tunnel} {b : Board}
    (hk : Kinds ss ts b.calls) :
    OneKind c.number ss ts b.calls (deliver x y c q (.channelMessage m p) ss) (route nd c q (.channelMessage m p) ts)
      (b.message nd c m p).calls := by
  have no : ∀ {b : Bool}, (b = true → False) → b = false := by intro b h; cases b; rfl; exact absurd rfl h
  have hc := board_message (nd := nd) (c := c) (m := m) (p := p) b
  by_cases h91 : m = MSG_CHANNEL_OPEN_CONFIRMATION ∨ m = MSG_CHANNEL_OPEN_FAILURE
  · have h1 : channelEvent c m p = none := by rcases h91 with rfl | rfl <;> rfl
    have h2 : tunnelEvent c m p = none := by rcases h91 with rfl | rfl <;> rfl
    refine .calls ?_ ?_ fun k hk => .inl (callsLater_in hc hk)
    · simp only [deliver, h1]
    · simp only [route, h2]
  rw [not_or] at h91
  cases he : tunnelEvent c m p with
  | none =>
    refine .sessions (by simp only [route, he]) (by simp only [Board.message, h91.1, h91.2, if_false, he]) fun k hk => .inl ?_
    simp only [deliver] at hk
    split at hk
    · exact deliverTo_in hk
    · exact hk
  | some q' =>
    obtain ⟨n, ev⟩ := q'
    have hs : inSessions ss n = false → deliver x y c q (.channelMessage m p) ss = ss := by
      intro hn
      simp only [deliver]
      split
      · rename_i n' ev' he'
        obtain rfl := event_number he' he
        exact numberIn_same hn
      · rfl
    have ht : inTunnels ts n = false → route nd c q (.channelMessage m p) ts = ts := by
      intro hn
      simp only [route, he]
      exact numberIn_same hn
    have hb : inCalls b.calls n = false → (b.message nd c m p).calls = b.calls := by
      intro hn
      simp only [Board.message, h91.1, h91.2, if_false, he]
      exact numberIn_same (o := fun c : Incoming => c.line.isOpen) (k := fun c : Incoming => c.line.number) (f := fun i => i.handle nd ev) hn
    cases gs : inSessions ss n with
    | true =>
      refine .sessions (ht (no fun h => hk.st n gs h)) (hb (no fun h => hk.sc n gs h)) fun k hk => .inl ?_
      simp only [deliver] at hk
      split at hk
      · exact deliverTo_in hk
      · exact hk
    | false =>
      cases gt : inTunnels ts n with
      | true =>
        refine .tunnels (hs gs) (hb (no fun h => hk.tc n gt h)) fun k hk => .inl ?_
        simp only [route, he] at hk
        exact routeTo_in hk
      | false => exact .calls (hs gs) (ht gt) fun k hk => .inl (callsLater_in hc hk)

theorem entry_calls {nd c} {b : Board} {e} (h : ∀ m p, e ≠ .channelMessage m p) : (b.entry nd c e).calls = b.calls := by
  cases e <;> first | rfl | exact absurd rfl (h _ _)

/-- What happens on the connection changes one kind of channels only. -/
theorem one_kind {x : HostEnv σ} {nd : Bool} {old new z : Auth} {es tail : List AuthEntry} (hn : News old z es)
    (ht : tail.all plainEntry = true) {ss : List Session} {ts : List Tunnel} {b : Board} (hk : Kinds ss ts b.calls) (c : Chance) :
    OneKind c.number ss ts b.calls (deliverAll x new c [] (es ++ tail) ss) (routeAll nd c [] (es ++ tail) ts)
      ((es ++ tail).foldl (Board.entry nd c) b).calls := by
  have two : ∀ {m p e}, (∀ m p, e ≠ .received m p) → es = [.received m p, e] →
      deliverAll x new c [] (es ++ tail) ss = deliver x new c p e ss ∧ routeAll nd c [] (es ++ tail) ts = route nd c p e ts ∧
      (es ++ tail).foldl (Board.entry nd c) b = b.entry nd c e := by
    rintro m p e hne rfl
    refine ⟨?_, ?_, ?_⟩
    · have : deliverAll x new c [] ([.received m p, e] ++ tail) ss = deliverAll x new c p tail (deliver x new c p e ss) := by
        cases e <;> first | rfl | (exact absurd rfl (hne _ _))
      rw [this, deliverAll_plain ht]
    · have : routeAll nd c [] ([.received m p, e] ++ tail) ts = routeAll nd c p tail (route nd c p e ts) := by
        cases e <;> first | rfl | (exact absurd rfl (hne _ _))
      rw [this, routeAll_plain ht]
    · show tail.foldl (Board.entry nd c) (b.entry nd c e) = _
      rw [entry_plain ht]
  cases hn with
  | calm hp =>
    have hall : (es ++ tail).all plainEntry = true := by rw [List.all_append, hp, ht]; rfl
    rw [deliverAll_plain hall, routeAll_plain hall, entry_plain hall]
    exact .sessions rfl rfl fun k h => .inl h
  | other hp hm =>
    rename_i m p es
    have hall : (es ++ tail).all plainEntry = true := by rw [List.all_append, hp, ht]; rfl
    simp only [List.cons_append, deliverAll, routeAll, List.foldl_cons]
    rw [deliverAll_plain hall, routeAll_plain hall, entry_plain hall]
    exact .sessions rfl rfl fun k h => .inl h
  | opened hc hq hs =>
    obtain ⟨h1, h2, h3⟩ := two (fun _ _ h => by cases h) rfl
    rw [h1, h2, h3]
    refine .sessions rfl rfl fun k h => ?_
    simp only [deliver, openSession, hq] at h
    revert h
    cases hg : decide (c.number < MAX_CHANNELS) && !(ss.any fun s => s.isOpen && (s.number == c.number)) with
    | false => exact fun h => .inl h
    | true =>
      intro h
      rw [Bool.and_eq_true, decide_eq_true_iff] at hg
      rcases numberIn_more h with h | h
      · exact .inl h
      · exact .inr ⟨h, hg.1⟩
  | forward hc hq ha =>
    rename_i p q e
    have hr : route nd c p e ts = openTunnel c p e ts ∧ deliver x new c p e ss = ss ∧ (b.entry nd c e).calls = b.calls ∧ ∀ m p, e ≠ .received m p := by
      rcases asks_what ha with ⟨_, _, rfl⟩ | ⟨_, rfl⟩ <;> exact ⟨rfl, rfl, rfl, nofun⟩
    obtain ⟨h1, h2, h3⟩ := two hr.2.2.2 rfl
    rw [h1, h2, h3, hr.1]
    refine .tunnels hr.2.1 hr.2.2.1 fun k h => ?_
    simp only [openTunnel, hq] at h
    revert h
    cases hg : decide (c.number < MAX_CHANNELS) && !(ts.any fun s => s.isOpen && (s.number == c.number)) with
    | false => exact fun h => .inl h
    | true =>
      intro h
      rw [Bool.and_eq_true, decide_eq_true_iff] at hg
      rcases numberIn_more h with h | h
      · exact .inl h
      · exact .inr ⟨h, hg.1⟩
  | bind hc ha =>
    rename_i p e
    have hr : route nd c p e ts = ts ∧ deliver x new c p e ss = ss ∧ (b.entry nd c e).calls = b.calls ∧ ∀ m p, e ≠ .received m p := by
      cases ha <;> exact ⟨rfl, rfl, rfl, nofun⟩
    obtain ⟨h1, h2, h3⟩ := two hr.2.2.2 rfl
    rw [h1, h2, h3]
    exact .calls hr.2.1 hr.1 fun k h => .inl (by rw [hr.2.2.1] at h; exact h)
  | restricted hr =>
    rename_i p r
    obtain ⟨h1, h2, h3⟩ := two (fun _ _ h => by cases h) rfl
    rw [h1, h2, h3]
    refine .sessions rfl rfl fun k h => .inl ?_
    exact numberIn_map (sessLater_in fun s => by
      cases s.isOpen
      · exact .rfl'
      · exact .handle s _) h
  | message hc =>
    rename_i m p
    obtain ⟨h1, h2, h3⟩ := two (fun _ _ h => by cases h) rfl
    rw [h1, h2, h3]
    exact message_kind hk

/-! ### Nothing is sent for channels which do not change -/

theorem newMessages_same : ∀ ss : List Session, newMessages ss ss = []
  | [] => rfl
  | s :: ss => by simp only [newMessages, List.drop_length, List.filterMap_nil, List.nil_append]; exact newMessages_same ss

theorem tunnelMessages_same : ∀ ts : List Tunnel, tunnelMessages ts ts = []
  | [] => rfl
  | s :: ss => by simp only [tunnelMessages, List.drop_length, List.nil_append]; exact tunnelMessages_same ss

theorem callMessages_same : ∀ cs : List Incoming, callMessages cs cs = []
  | [] => rfl
  | s :: ss => by simp only [callMessages, List.drop_length, List.nil_append]; exact callMessages_same ss

/-! ### What other channels send -/

theorem send_keeps {sx : ServerEnv σ} {s s' : Server σ} {p} (h : s.step sx (.send p) = some s') : s'.auth = s.auth ∧ s'.live = s.live := by
  simp only [Server.step] at h
  cases hg : s.live && s.auth.channels with
  | false => rw [hg] at h; cases h; exact ⟨rfl, rfl⟩
  | true =>
    rw [hg] at h
    obtain ⟨t, hq, rfl⟩ := Option.map_eq_some_iff.mp h
    refine ⟨rfl, ?_⟩
    rw [Bool.and_eq_true] at hg
    simp only [Trans.step, (Server.live_iff.mp hg.1).1, cond_true] at hq
    obtain ⟨a, b, e⟩ := sendPacket_posts hq
    rw [hg.1, Server.live_iff]
    have hl := Server.live_iff.mp hg.1
    exact ⟨by simp only [Trans.live, a, b] at hl ⊢; exact hl.1, hl.2⟩

theorem host_append {x : HostEnv σ} {a b : List HostEvent} : ∀ {h : Host σ}, h.run x (a ++ b) = (h.run x a).bind fun h => h.run x b := by
  induction a with
  | nil => intro h; rfl
  | cons ev a ih =>
    intro h
    simp only [List.cons_append, Host.run]
    cases h.step x ev with
    | none => rfl
    | some h' => simp only [Option.bind_some]; exact ih

theorem hub_append {x : HubEnv σ} {a b : List HubEvent} : ∀ {h : Hub σ}, h.run x (a ++ b) = (h.run x a).bind fun h => h.run x b := by
  induction a with
  | nil => intro h; rfl
  | cons ev a ih =>
    intro h
    simp only [List.cons_append, Hub.run]
    cases h.step x ev with
    | none => rfl
    | some h' => simp only [Option.bind_some]; exact ih

theorem desk_append {x : HubEnv σ} {a b : List DeskEvent} : ∀ {h : Desk σ}, h.run x (a ++ b) = (h.run x a).bind fun h => h.run x b := by
  induction a with
  | nil => intro h; rfl
  | cons ev a ih =>
    intro h
    simp only [List.cons_append, Desk.run]
    cases h.step x ev with
    | none => rfl
    | some h' => simp only [Option.bind_some]; exact ih

theorem host_sends {x : HostEnv σ} {ss : List Session} {c : Chance} {ps : List Bytes} : ∀ {s s' : Server σ},
    s.run x.server (ps.map .send) = some s' →
    (⟨s, ss⟩ : Host σ).run x (ps.map fun p => .server (.send p) c) = some ⟨s', ss⟩ := by
  induction ps with
  | nil => intro s s' h; cases h; rfl
  | cons p ps ih =>
    intro s s' h
    obtain ⟨s₁, h1, h2⟩ := Option.bind_eq_some_iff.mp h
    have hk := (send_keeps h1).1
    have : (⟨s, ss⟩ : Host σ).step x (.server (.send p) c) = some ⟨s₁, ss⟩ := by
      simp only [Host.step, h1, Option.bind_some, hk, List.drop_length, deliverAll, Host.settle, newMessages_same]
      rfl
    simp only [List.map_cons, Host.run, this, Option.bind_some]
    exact ih h2

theorem hub_sends {x : HubEnv σ} {ts : List Tunnel} {c : Chance} {ps : List Bytes} : ∀ {s s' : Server σ},
    s.run x.server (ps.map .send) = some s' →
    (⟨s, ts⟩ : Hub σ).run x (ps.map fun p => .server (.send p) c) = some ⟨s', ts⟩ := by
  induction ps with
  | nil => intro s s' h; cases h; rfl
  | cons p ps ih =>
    intro s s' h
    obtain ⟨s₁, h1, h2⟩ := Option.bind_eq_some_iff.mp h
    have hk := (send_keeps h1).1
    have : (⟨s, ts⟩ : Hub σ).step x (.server (.send p) c) = some ⟨s₁, ts⟩ := by
      simp only [Hub.step, h1, Option.bind_some, hk, List.drop_length, routeAll, Hub.settle, tunnelMessages_same]
      rfl
    simp only [List.map_cons, Hub.run, this, Option.bind_some]
    exact ih h2

theorem desk_sends {x : HubEnv σ} {b : Board} {c : Chance} {ps : List Bytes} : ∀ {s s' : Server σ},
    s.run x.server (ps.map .send) = some s' →
    (⟨s, b⟩ : Desk σ).run x (ps.map fun p => .server (.send p) c) = some ⟨s', b⟩ ∧ s'.live = s.live := by
  induction ps with
  | nil => intro s s' h; cases h; exact ⟨rfl, rfl⟩
  | cons p ps ih =>
    intro s s' h
    obtain ⟨s₁, h1, h2⟩ := Option.bind_eq_some_iff.mp h
    obtain ⟨hk, hl⟩ := send_keeps h1
    have : (⟨s, b⟩ : Desk σ).step x (.server (.send p) c) = some ⟨s₁, b⟩ := by
      simp only [Desk.step, h1, Option.bind_some, hk, List.drop_length, List.foldl_nil, Bool.cond_self, Desk.settle, callMessages_same]
      simp only [List.map_nil, Server.run, Option.map_some, hl]
      cases s.live <;> rfl
    simp only [List.map_cons, Desk.run, this, Option.bind_some]
    obtain ⟨g1, g2⟩ := ih h2
    exact ⟨g1, g2.trans hl⟩

/-! ### The invariant -/

structure HoInv (x : HouseEnv σ) (h : House σ) : Prop where
  host : ∃ evs, ({} : Host σ).run x.host evs = some ⟨h.server, h.sessions⟩
  hub : ∃ evs, ({} : Hub σ).run x.hub evs = some ⟨h.server, h.tunnels⟩
  desk : ∃ evs, ({} : Desk σ).run x.hub evs = some ⟨h.server, h.board⟩
  kinds : Kinds h.sessions h.tunnels h.board.calls

theorem HoInv.init {x : HouseEnv σ} : HoInv x ({} : House σ) where
  host := ⟨[], rfl⟩
  hub := ⟨[], rfl⟩
  desk := ⟨[], rfl⟩
  kinds := ⟨fun _ h => (by cases h), fun _ h => (by cases h), fun _ h => (by cases h)⟩

/-- The listeners when the connection ends. -/
def ending (live live' : Bool) (b : Board) : Board := bif live && !live' then { b with fw := b.fw.finish } else b

theorem HoInv.settle {x : HouseEnv σ} (hx : EnvOk x.host.server.trans) {h : House σ} (hi : HoInv x h) {s : Server σ}
    (hs : SInv x.host.server s) {ss ts} {b : Board} {n : Nat} (hf : FreeNumber n h.sessions h.tunnels h.board.calls)
    (ho : OneKind n h.sessions h.tunnels h.board.calls ss ts b.calls)
    (hS : ∀ s', s.run x.host.server ((newMessages h.sessions ss).map .send) = some s' →
      ∃ evs, (⟨h.server, h.sessions⟩ : Host σ).run x.host evs = some ⟨s', ss⟩)
    (hT : ∀ s', s.run x.host.server ((tunnelMessages h.tunnels ts).map .send) = some s' →
      ∃ evs, (⟨h.server, h.tunnels⟩ : Hub σ).run x.hub evs = some ⟨s', ts⟩)
    (hC : ∀ s', s.run x.host.server ((callMessages h.board.calls b.calls).map .send) = some s' →
      ∃ evs, (⟨h.server, h.board⟩ : Desk σ).run x.hub evs = some ⟨s', ending h.server.live s'.live b⟩) :
    ∃ h', h.settle x s ss ts b = some h' ∧ HoInv x h' := by
  have hk := ho.kinds hi.kinds hf
  obtain ⟨s', h1, h2, h3, h4, h5⟩ := send_run hx
    (ps := newMessages h.sessions ss ++ tunnelMessages h.tunnels ts ++ callMessages h.board.calls b.calls) hs
  refine ⟨⟨s', ss, ts, ending h.server.live s'.live b⟩, by rw [House.settle, h1]; rfl, ?_⟩
  have hk' : Kinds ss ts (ending h.server.live s'.live b).calls := by
    unfold ending
    cases h.server.live && !s'.live <;> exact hk
  have joinS : (∃ evs, (⟨h.server, h.sessions⟩ : Host σ).run x.host evs = some ⟨s', ss⟩) →
      ∃ evs, ({} : Host σ).run x.host evs = some ⟨s', ss⟩ := by
    rintro ⟨b, hb⟩
    obtain ⟨a, ha⟩ := hi.host
    exact ⟨a ++ b, by rw [host_append, ha]; exact hb⟩
  have joinT : (∃ evs, (⟨h.server, h.tunnels⟩ : Hub σ).run x.hub evs = some ⟨s', ts⟩) →
      ∃ evs, ({} : Hub σ).run x.hub evs = some ⟨s', ts⟩ := by
    rintro ⟨b, hb⟩
    obtain ⟨a, ha⟩ := hi.hub
    exact ⟨a ++ b, by rw [hub_append, ha]; exact hb⟩
  have joinC : (∃ evs, (⟨h.server, h.board⟩ : Desk σ).run x.hub evs = some ⟨s', ending h.server.live s'.live b⟩) →
      ∃ evs, ({} : Desk σ).run x.hub evs = some ⟨s', ending h.server.live s'.live b⟩ := by
    rintro ⟨b, hb⟩
    obtain ⟨a, ha⟩ := hi.desk
    exact ⟨a ++ b, by rw [desk_append, ha]; exact hb⟩
  have sendS : ∀ {ps : List Bytes}, ss = h.sessions → s.run x.host.server (ps.map .send) = some s' →
      ∃ evs, (⟨h.server, h.sessions⟩ : Host σ).run x.host evs = some ⟨s', ss⟩ := by
    intro ps he hr
    obtain ⟨a, ha⟩ := hS s (by rw [he, newMessages_same]; rfl)
    exact ⟨_, by rw [host_append, ha]; exact host_sends (x := x.host) (c := { number := 0 }) hr⟩
  have sendT : ∀ {ps : List Bytes}, ts = h.tunnels → s.run x.host.server (ps.map .send) = some s' →
      ∃ evs, (⟨h.server, h.tunnels⟩ : Hub σ).run x.hub evs = some ⟨s', ts⟩ := by
    intro ps he hr
    obtain ⟨a, ha⟩ := hT s (by rw [he, tunnelMessages_same]; rfl)
    exact ⟨_, by rw [hub_append, ha]; exact hub_sends (x := x.hub) (c := { number := 0 }) hr⟩
  have sendC : ∀ {ps : List Bytes}, b.calls = h.board.calls → s.run x.host.server (ps.map .send) = some s' →
      ∃ evs, (⟨h.server, h.board⟩ : Desk σ).run x.hub evs = some ⟨s', ending h.server.live s'.live b⟩ := by
    intro ps he hr
    obtain ⟨a, ha⟩ := hC s (by rw [he, callMessages_same]; rfl)
    obtain ⟨g1, g2⟩ := desk_sends (x := x.hub) (b := ending h.server.live s.live b) (c := { number := 0 }) hr
    exact ⟨_, by rw [desk_append, ha, g2]; exact g1⟩
  cases ho with
  | sessions e1 e2 _ =>
    rw [e1, e2, tunnelMessages_same, callMessages_same, List.append_nil, List.append_nil] at h1
    exact ⟨joinS (hS s' h1), joinT (sendT e1 h1), joinC (sendC e2 h1), hk'⟩
  | tunnels e1 e2 _ =>
    rw [e1, e2, newMessages_same, callMessages_same, List.append_nil, List.nil_append] at h1
    exact ⟨joinS (sendS e1 h1), joinT (hT s' h1), joinC (sendC e2 h1), hk'⟩
  | calls e1 e2 _ =>
    rw [e1, e2, newMessages_same, tunnelMessages_same, List.nil_append] at h1
    exact ⟨joinS (sendS e1 h1), joinT (sendT e2 h1), joinC (hC s' h1), hk'⟩

/-- The number for a connection which arrives. -/
def deskNumber : DeskEvent → Nat
  | .accept _ n _ _ => n
  | _ => 64

theorem happens_in {nd : Bool} {b : Board} (ev : DeskEvent) {k : Nat} (h : inCalls (b.happens nd ev).calls k = true) :
    inCalls b.calls k = true ∨ (k = deskNumber ev ∧ deskNumber ev < 64) := by
  cases ev with
  | server => exact .inl h
  | bound n res => exact .inl h
  | hangup i =>
    simp only [Board.happens] at h
    split at h <;> exact .inl h
  | relay i ev =>
    refine .inl (callsLater_in (.modify (fun c => ?_) _ _) h)
    cases ev.isLocal
    · exact .rfl'
    · exact .line c ev
  | accept i n origin originPort =>
    simp only [Board.happens, Board.accept] at h
    split at h
    · exact .inl h
    · revert h
      cases hg : decide (n < MAX_CHANNELS) && !(b.calls.any fun c => c.line.isOpen && (c.line.number == n)) with
      | false => exact fun h => .inl h
      | true =>
        rw [Bool.and_eq_true, decide_eq_true_iff] at hg
        intro h
        simp only [cond_true] at h
        split at h
        · exact .inl h
        · rcases numberIn_more h with h | h
          · exact .inl h
          · exact .inr ⟨h, hg.1⟩

theorem free64 {ss ts cs} : FreeNumber 64 ss ts cs :=
  ⟨fun h => absurd h (by decide), fun h => absurd h (by decide), fun h => absurd h (by decide)⟩

theorem house_deskNumber {h : House σ} (ev : DeskEvent) : FreeNumber (deskNumber (h.deskEvent ev)) h.sessions h.tunnels h.board.calls := by
  cases ev with
  | accept i n origin originPort => exact house_number
  | _ => exact free64

theorem onTunnel_later {nd : Bool} (ev : HubEvent) : ∀ t, TunnelLater t ((ev.onTunnel nd).2 t) := by
  intro t
  cases ev with
  | server => exact .rfl'
  | connected i => exact .connected t
  | failed i text => exact .failed t text
  | relay i ev =>
    simp only [HubEvent.onTunnel]
    cases ev.isLocal
    · exact .rfl'
    · exact .handle t ev

theorem modify_zero_id {α : Type} : ∀ l : List α, l.modify 0 id = l
  | [] => rfl
  | _ :: _ => rfl

theorem run_none {sx : ServerEnv σ} {s s' : Server σ} {l : List Bytes} (h : s.run sx (l.map .send) = some s') (hl : l = []) : s' = s := by
  subst hl
  cases h
  rfl

theorem ending_same (l : Bool) (b : Board) : ending l l b = b := by cases l <;> rfl

theorem desk_local {x : HubEnv σ} {d : Desk σ} (ev : DeskEvent) :
    d.board.happens x.ndebug ev = d.board ∨ d.step x ev = d.settle x d.server (d.board.happens x.ndebug ev) := by
  cases ev <;> first | exact .inr rfl | exact .inl rfl

theorem HoInv.server {x : HouseEnv σ} (hx : EnvOk x.host.server.trans) {h : House σ} (hi : HoInv x h) : SInv x.host.server h.server := by
  obtain ⟨evs, he⟩ := hi.host
  obtain ⟨h', h1, h2⟩ := HInv.run (x := x.host) hx evs HInv.init
  rw [he] at h1
  cases h1
  exact h2.server

theorem HoInv.step {x : HouseEnv σ} (hx : EnvOk x.host.server.trans) {h : House σ} (hi : HoInv x h) (ev : HouseEvent) :
    ∃ h', h.step x ev = some h' ∧ HoInv x h' := by
  have hs := hi.server hx
  have stayS : ∀ s', h.server.run x.host.server ((newMessages h.sessions h.sessions).map .send) = some s' →
      ∃ evs, (⟨h.server, h.sessions⟩ : Host σ).run x.host evs = some ⟨s', h.sessions⟩ := by
    intro s' hr
    rw [run_none hr (newMessages_same _)]
    exact ⟨[], rfl⟩
  have stayT : ∀ s', h.server.run x.host.server ((tunnelMessages h.tunnels h.tunnels).map .send) = some s' →
      ∃ evs, (⟨h.server, h.tunnels⟩ : Hub σ).run x.hub evs = some ⟨s', h.tunnels⟩ := by
    intro s' hr
    rw [run_none hr (tunnelMessages_same _)]
    exact ⟨[], rfl⟩
  have stayC : ∀ s', h.server.run x.host.server ((callMessages h.board.calls h.board.calls).map .send) = some s' →
      ∃ evs, (⟨h.server, h.board⟩ : Desk σ).run x.hub evs = some ⟨s', ending h.server.live s'.live h.board⟩ := by
    intro s' hr
    rw [run_none hr (callMessages_same _), ending_same]
    exact ⟨[], rfl⟩
  cases ev with
  | session i ev =>
    simp only [House.step]
    cases hl : ev.isLocal with
    | false => exact ⟨h, rfl, hi⟩
    | true =>
      simp only [cond_true]
      refine hi.settle hx hs free64 (.sessions rfl rfl fun k hk => .inl ?_) ?_ stayT stayC
      · exact numberIn_modify (sessLater_in fun s => .handle s ev) hk
      · intro s' hr
        refine ⟨[.session i ev], ?_⟩
        simp only [Host.run, Host.step, hl, cond_true, Host.settle, hr, Option.map_some, Option.bind_some]
  | tunnel ev =>
    simp only [House.step]
    refine hi.settle hx hs free64 (.tunnels rfl rfl fun k hk => .inl ?_) stayS ?_ stayC
    · exact numberIn_modify (tunnelLater_in (onTunnel_later ev)) hk
    · intro s' hr
      cases ev with
      | server ev c =>
        simp only [HubEvent.onTunnel, modify_zero_id] at hr ⊢
        exact stayT s' hr
      | connected i =>
        exact ⟨[.connected i], by simp only [Hub.run, Hub.step, Hub.settle]; rw [show x.hub.server = x.host.server from rfl, show x.hub.ndebug = x.ndebug from rfl, hr]; rfl⟩
      | failed i text =>
        exact ⟨[.failed i text], by simp only [Hub.run, Hub.step, Hub.settle]; rw [show x.hub.server = x.host.server from rfl, show x.hub.ndebug = x.ndebug from rfl, hr]; rfl⟩
      | relay i ev =>
        exact ⟨[.relay i ev], by simp only [Hub.run, Hub.step, Hub.settle]; rw [show x.hub.server = x.host.server from rfl, show x.hub.ndebug = x.ndebug from rfl, hr]; rfl⟩
  | desk ev =>
    simp only [House.step]
    refine hi.settle hx hs (house_deskNumber ev) (.calls rfl rfl fun k hk => happens_in _ hk) stayS stayT ?_
    intro s' hr
    rcases desk_local (x := x.hub) (d := ⟨h.server, h.board⟩) (h.deskEvent ev) with hd | hd
    · rw [show x.hub.ndebug = x.ndebug from rfl] at hd
      rw [hd] at hr ⊢
      exact stayC s' hr
    · refine ⟨[h.deskEvent ev], ?_⟩
      simp only [Desk.run, hd, Desk.settle]
      rw [show x.hub.server = x.host.server from rfl, show x.hub.ndebug = x.ndebug from rfl, hr]
      rfl
  | server ev c =>
    obtain ⟨s', h1, h2⟩ := hs.step hx ev
    simp only [House.step, h1, Option.bind_some, House.deliver]
    generalize hc' : ({ c with number := h.number c.number } : Chance) = c'
    have hn : c'.number = h.number c.number := by rw [← hc']
    refine hi.settle hx h2 (n := c'.number) (by rw [hn]; exact house_number) ?_ ?_ ?_ ?_
    · cases hl : h.server.live with
      | true =>
        obtain ⟨z, es, tail, n1, n2, n3, n4⟩ := (below_step hx hs h1).news
        have hdr : s'.auth.log.drop h.server.auth.log.length = es ++ tail := by rw [n1, List.drop_left]
        rw [hdr]
        exact one_kind n2 n3 hi.kinds c'
      | false =>
        obtain ⟨tail, t1, t2⟩ := dead_step hl h1
        have hdr : s'.auth.log.drop h.server.auth.log.length = tail := by rw [t1, List.drop_left]
        rw [hdr, deliverAll_plain t2, routeAll_plain t2]
        exact .sessions rfl rfl fun k h => .inl h
    · intro s'' hr
      refine ⟨[.server ev c'], ?_⟩
      simp only [Host.run, Host.step, h1, Option.bind_some, Host.settle, hr, Option.map_some]
    · intro s'' hr
      refine ⟨[.server ev c'], ?_⟩
      simp only [Hub.run, Hub.step, Hub.settle]
      rw [show x.hub.server = x.host.server from rfl, show x.hub.ndebug = x.ndebug from rfl, h1]
      simp only [Option.bind_some, hr, Option.map_some]
    · intro s'' hr
      refine ⟨[.server ev c'], ?_⟩
      simp only [Desk.run, Desk.step, Desk.settle]
      rw [show x.hub.server = x.host.server from rfl, show x.hub.ndebug = x.ndebug from rfl, h1]
      simp only [Option.bind_some, hr, Option.map_some]
      rfl

theorem HoInv.run {x : HouseEnv σ} (hx : EnvOk x.host.server.trans) (evs : List HouseEvent) : ∀ {h : House σ}, HoInv x h →
    ∃ h', h.run x evs = some h' ∧ HoInv x h' := by
  induction evs with
  | nil => intro h hi; exact ⟨h, rfl, hi⟩
  | cons ev evs ih =>
    intro h hi
    obtain ⟨h1, e1, i1⟩ := hi.step hx ev
    obtain ⟨h2, e2, i2⟩ := ih i1
    exact ⟨h2, by simp only [House.run, e1, Option.bind_some, e2], i2⟩

end Lukko
