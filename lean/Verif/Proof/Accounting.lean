import Verif.Proof.Throttle
/-
  Invariants of the client accounting (for C45, C46).
-/
namespace Lukko
open Model Spec

/-- Every element of a list, together with what precedes it. -/
def EachPrev {α} (Q : List α → α → Prop) (l : List α) : Prop := ∀ a e b, l = a ++ e :: b → Q a e

theorem eachPrev_nil {α} (Q : List α → α → Prop) : EachPrev Q [] := fun a e b h => by simp at h

theorem eachPrev_snoc {α} {Q : List α → α → Prop} {l : List α} {x : α} (h : EachPrev Q l) (hx : Q l x) :
    EachPrev Q (l ++ [x]) := by
  intro a e b he
  rcases Aux.snoc_split he with ⟨_, rfl, rfl⟩ | ⟨b', _, hb⟩
  · exact hx
  · exact h a e b' hb

theorem live_snoc (log : List AcctEntry) (e : AcctEntry) : live (log ++ [e]) = liveStep (live log) e := by
  simp [live]

theorem charges_snoc (log : List AcctEntry) (e : AcctEntry) (a : Bytes) :
    chargesOf (log ++ [e]) a = chargesStep a (chargesOf log a) e := by simp [chargesOf]

/-- Apply `f` to the entry of this client. -/
def touch (client : Option Bytes) (f : PerClient → PerClient) (es : List PerClient) : List PerClient :=
  es.map fun e => bif client == some e.addr then f e else e

theorem modify_touch (s : Acct) (a : Bytes) (f) : s.modify a f = { s with entries := touch (some a) f s.entries } := by
  unfold Acct.modify touch
  congr 1
  apply List.map_congr_left
  intro e _
  by_cases h : e.addr = a
  · subst h; simp
  · have h1 : (e.addr == a) = false := by simpa using h
    have h2 : ((some a : Option Bytes) == some e.addr) = false := by simpa using fun h' => h h'.symm
    rw [h1, h2]

theorem touch_none (f) (es : List PerClient) : touch none f es = es := by
  unfold touch
  induction es with
  | nil => rfl
  | cons e es ih => rw [List.map_cons, ih]; rfl

theorem create_eq (s : Acct) (client : Option Bytes) (d : Bool) :
    s.create client d = { s with
      conns := s.conns ++ [{ id := s.nextId, client, delayed := d }], nextId := s.nextId + 1,
      entries := touch client (fun e => { e with conns := e.conns ++ [s.nextId] }) s.entries } := by
  unfold Acct.create
  cases client with
  | none => simp only [touch_none]
  | some a => simp only [Acct.addConnection, modify_touch]; rfl

/-- The state is consistent. -/
structure AcctShape (s : Acct) : Prop where
  uniq : s.entries.Pairwise (·.addr ≠ ·.addr)
  ids : s.conns.Pairwise (·.id ≠ ·.id)
  lt : ∀ c ∈ s.conns, c.id < s.nextId
  entry : ∀ e ∈ s.entries, e.conns = (s.conns.filter (·.client == some e.addr)).map (·.id)
  have_ : ∀ c ∈ s.conns, ∀ a, c.client = some a → ∃ e ∈ s.entries, e.addr = a
  ok : s.crashed = false

theorem mem_touch {client : Option Bytes} {f : PerClient → PerClient} {es : List PerClient} {e' : PerClient} (h : e' ∈ touch client f es) :
    ∃ e ∈ es, e' = bif client == some e.addr then f e else e := by
  obtain ⟨e, he, rfl⟩ := List.mem_map.mp h
  exact ⟨e, he, rfl⟩

theorem touch_addr {client : Option Bytes} {f : PerClient → PerClient} (hf : ∀ e, (f e).addr = e.addr) (e : PerClient) :
    (bif client == some e.addr then f e else e).addr = e.addr := by
  cases client == some e.addr
  · rfl
  · exact hf e

theorem touch_pairwise {client : Option Bytes} {f : PerClient → PerClient} (hf : ∀ e, (f e).addr = e.addr) {es : List PerClient}
    (h : es.Pairwise (·.addr ≠ ·.addr)) : (touch client f es).Pairwise (·.addr ≠ ·.addr) := by
  unfold touch
  rw [List.pairwise_map]
  exact h.imp fun {a b} hab => by rw [touch_addr hf, touch_addr hf]; exact hab

theorem exists_touch {client : Option Bytes} {f : PerClient → PerClient} (hf : ∀ e, (f e).addr = e.addr) {es : List PerClient} {a : Bytes} :
    (∃ e ∈ touch client f es, e.addr = a) ↔ ∃ e ∈ es, e.addr = a := by
  constructor
  · rintro ⟨e, he, rfl⟩
    obtain ⟨e', he', rfl⟩ := mem_touch he
    exact ⟨e', he', (touch_addr hf e').symm⟩
  · rintro ⟨e, he, rfl⟩
    exact ⟨_, List.mem_map.mpr ⟨e, he, rfl⟩, touch_addr hf e⟩

theorem shape_create {s : Acct} (h : AcctShape s) (client : Option Bytes) (d : Bool)
    (hc : ∀ a, client = some a → ∃ e ∈ s.entries, e.addr = a) : AcctShape (s.create client d) := by
  rw [create_eq]
  refine ⟨touch_pairwise (by simp) h.uniq, ?_, ?_, ?_, ?_, h.ok⟩
  · simp only [List.pairwise_append, List.mem_singleton]
    refine ⟨h.ids, by simp, ?_⟩
    rintro c hc _ rfl
    exact Nat.ne_of_lt (h.lt c hc)
  · intro c hc
    simp only [List.mem_append, List.mem_singleton] at hc
    rcases hc with hc | rfl
    · exact Nat.lt_succ_of_lt (h.lt c hc)
    · exact Nat.lt_succ_self _
  · intro e' he'
    obtain ⟨e, he, rfl⟩ := mem_touch he'
    have := h.entry e he
    simp only [List.filter_append, List.map_append]
    by_cases hcl : client = some e.addr
    · subst hcl; simp [this]
    · have : (client == some e.addr) = false := by simpa using hcl
      simp [this, h.entry e he]
  · intro c hc' a ha
    refine (exists_touch (by simp)).mpr ?_
    simp only [List.mem_append, List.mem_singleton] at hc'
    rcases hc' with hc' | rfl
    · exact h.have_ c hc' a ha
    · exact hc a ha

theorem conn_unique {s : Acct} (h : AcctShape s) {c c' : AcctConn} (hc : c ∈ s.conns) (hc' : c' ∈ s.conns) (e : c.id = c'.id) : c = c' := by
  have := h.ids
  revert hc hc' this
  generalize s.conns = l
  intro hc hc' hp
  induction l with
  | nil => simp at hc
  | cons x l ih =>
    rw [List.pairwise_cons] at hp
    simp only [List.mem_cons] at hc hc'
    rcases hc with rfl | hc
    · rcases hc' with rfl | hc'
      · rfl
      · exact absurd e (hp.1 _ hc')
    · rcases hc' with rfl | hc'
      · exact absurd e.symm (hp.1 _ hc)
      · exact ih hc hc' hp.2

/-- The cleanup timer after something may have become idle. -/
def CleanupStep (s s' : Acct) : Prop := s'.cleanup = s.cleanup ∨ (s.cleanup = none ∧ s'.cleanup = some (s.now + 60000000000))

theorem find_mem {s : Acct} {a : Bytes} {e : PerClient} (h : s.find a = some e) : e ∈ s.entries ∧ e.addr = a := by
  refine ⟨List.mem_of_find?_eq_some h, ?_⟩
  have := List.find?_some h
  simpa using this

theorem find_exists {s : Acct} {a : Bytes} (h : ∃ e ∈ s.entries, e.addr = a) : ∃ e, s.find a = some e := by
  obtain ⟨e, he, rfl⟩ := h
  cases hf : s.find e.addr with
  | some e' => exact ⟨e', rfl⟩
  | none =>
    have := List.find?_eq_none.mp hf e he
    simp at this

theorem entry_unique {l : List PerClient} (hu : l.Pairwise (·.addr ≠ ·.addr)) {e e' : PerClient} (h1 : e ∈ l) (he' : e' ∈ l)
    (h2 : e.addr = e'.addr) : e = e' := by
  induction l with
  | nil => simp at he'
  | cons x l ih =>
    rw [List.pairwise_cons] at hu
    simp only [List.mem_cons] at he' h1
    rcases he' with rfl | he'
    · rcases h1 with rfl | h1
      · rfl
      · exact absurd h2.symm (hu.1 _ h1)
    · rcases h1 with rfl | h1
      · exact absurd h2 (hu.1 _ he')
      · exact ih hu.2 h1 he'

theorem destroy_eq {s : Acct} (h : AcctShape s) {c : AcctConn} (hc : c ∈ s.conns) :
    ∃ cl, s.destroy c = { s with
        conns := s.conns.filter (·.id ≠ c.id), cleanup := cl,
        entries := touch c.client (fun e => e.remove c.id s.now) s.entries } ∧
      (cl = s.cleanup ∨ (s.cleanup = none ∧ cl = some (s.now + 60000000000))) ∧
      ((∃ e ∈ s.entries, c.client = some e.addr ∧ (e.remove c.id s.now).conns = []) → cl ≠ none) := by
  unfold Acct.destroy
  cases hcl : c.client with
  | none => exact ⟨s.cleanup, by simp only [touch_none], .inl rfl, by simp⟩
  | some a =>
    simp only
    obtain ⟨e, he⟩ := find_exists (s := { s with conns := s.conns.filter (·.id ≠ c.id) }) (h.have_ c hc a hcl)
    have hm := find_mem he
    unfold Acct.removeConnection
    rw [he]
    simp only [modify_touch]
    cases hemp : (e.remove c.id s.now).conns.isEmpty
    · refine ⟨s.cleanup, rfl, .inl rfl, ?_⟩
      rintro ⟨e', he', ha', hn⟩
      have : e = e' := entry_unique h.uniq hm.1 he' (by rw [hm.2]; simpa using ha')
      subst this
      rw [hn] at hemp
      simp at hemp
    · simp only [cond_true, Acct.scheduleCleanup]
      cases hs : s.cleanup with
      | some t => exact ⟨some t, by simp only [hs], .inl rfl, by simp⟩
      | none => exact ⟨some (s.now + 60000000000), by simp only [hs], .inr ⟨rfl, rfl⟩, by simp⟩

theorem shape_destroy {s : Acct} (h : AcctShape s) {c : AcctConn} (hc : c ∈ s.conns) : AcctShape (s.destroy c) := by
  obtain ⟨cl, e, _, _⟩ := destroy_eq h hc
  rw [e]
  refine ⟨touch_pairwise (by simp [PerClient.remove]) h.uniq, h.ids.filter _, ?_, ?_, ?_, h.ok⟩
  · intro x hx; exact h.lt x (List.mem_filter.mp hx).1
  · intro e' he'
    obtain ⟨e, he, rfl⟩ := mem_touch he'
    have hent := h.entry e he
    by_cases hcl : c.client = some e.addr
    · simp only [hcl, BEq.rfl, cond_true, PerClient.remove, hent]
      rw [List.filter_map, List.filter_filter, List.filter_filter]
      congr 1
      apply List.filter_congr
      intro x _
      simp [Bool.and_comm]
    · have hf : (c.client == some e.addr) = false := by simpa using hcl
      simp only [hf, cond_false, hent]
      rw [List.filter_filter]
      congr 1
      apply List.filter_congr
      intro x hx
      by_cases hid : x.id = c.id
      · have := conn_unique h hx hc hid
        subst this
        simp [hf]
      · simp [hid]
  · intro x hx a ha
    refine (exists_touch (by simp [PerClient.remove])).mpr ?_
    exact h.have_ x (List.mem_filter.mp hx).1 a ha


/-- What must precede an entry of the log. -/
def AcctOk (cfg : AcctCfg) (p : List AcctEntry) : AcctEntry → Prop
  | .opened _ (some c) d =>
    (cfg.maxConnections = 0 ∨ liveCount p c < cfg.maxConnections) ∧
    d = (if cfg.tarpit then Throttle.run {} (chargesOf p c) else {}).delay ∧ Chronological (chargesOf p c)
  | .opened _ none d => d = 0
  | .rejected c => 0 < cfg.maxConnections ∧ cfg.maxConnections ≤ liveCount p c
  | .discarded c t => liveCount p c = 0 ∧ ∀ id t', .closed id (some c) t' ∈ p → t' + 300000000000 ≤ t
  | _ => True

structure AcctInv (cfg : AcctCfg) (s : Acct) : Prop where
  shape : AcctShape s
  live : live s.log = s.conns.map fun c => (c.id, c.client)
  thr : ∀ e ∈ s.entries, e.throttle = if cfg.tarpit then Throttle.run {} (chargesOf s.log e.addr) else {}
  forgot : ∀ a, (¬ ∃ e ∈ s.entries, e.addr = a) → chargesOf s.log a = []
  chron : ∀ a, Chronological (chargesOf s.log a) ∧ ∀ x ∈ chargesOf s.log a, x.1 ≤ s.now
  closed : ∀ id a t, .closed id (some a) t ∈ s.log → t ≤ s.now ∧
    (t + 300000000000 ≤ s.now ∨ ∃ e ∈ s.entries, e.addr = a ∧ t + 300000000000 ≤ e.expires)
  prev : EachPrev (AcctOk cfg) s.log

theorem liveCount_eq {s : Acct} (hl : live s.log = s.conns.map fun c => (c.id, c.client)) (a : Bytes) :
    liveCount s.log a = (s.conns.filter (·.client == some a)).length := by
  unfold liveCount
  rw [hl, List.countP_map, List.countP_eq_length_filter]
  congr 1
  apply List.filter_congr
  intro c _
  by_cases h : c.client = some a <;> simp [h]

theorem entry_count {cfg s} (h : AcctInv cfg s) {e : PerClient} (he : e ∈ s.entries) : e.conns.length = liveCount s.log e.addr := by
  rw [liveCount_eq h.live, h.shape.entry e he, List.length_map]

theorem inv_change {cfg s s'} (h : AcctInv cfg s) (hs : AcctShape s') (hn : s'.now = s.now) (x : AcctEntry) (hl : s'.log = s.log ++ [x])
    (hlive : liveStep (Spec.live s.log) x = s'.conns.map fun c => (c.id, c.client)) (hch : ∀ a l, chargesStep a l x = l)
    (hent : ∀ e' ∈ s'.entries, ∃ e ∈ s.entries, e'.addr = e.addr ∧ e'.throttle = e.throttle)
    (hent' : ∀ e ∈ s.entries, ∃ e' ∈ s'.entries, e'.addr = e.addr ∧ (e.expires ≤ e'.expires ∨ s.now + 300000000000 ≤ e'.expires))
    (hcl : ∀ id a t, x = .closed id (some a) t → t = s.now ∧ ∃ e' ∈ s'.entries, e'.addr = a ∧ s.now + 300000000000 ≤ e'.expires)
    (hok : AcctOk cfg s.log x) : AcctInv cfg s' := by
  have hc : ∀ a, chargesOf s'.log a = chargesOf s.log a := by intro a; rw [hl, charges_snoc, hch]
  refine ⟨hs, by rw [hl, live_snoc, hlive], ?_, ?_, ?_, ?_, by rw [hl]; exact eachPrev_snoc h.prev hok⟩
  · intro e' he'
    obtain ⟨e, he, h1, h2⟩ := hent e' he'
    rw [h2, h.thr e he, hc, h1]
  · intro a ha
    rw [hc]
    refine h.forgot a ?_
    rintro ⟨e, he, h1⟩
    obtain ⟨e', he', h2, _⟩ := hent' e he
    exact ha ⟨e', he', by rw [h2]; exact h1⟩
  · intro a; rw [hc, hn]; exact h.chron a
  · intro id a t ht
    rw [hn]
    rw [hl] at ht
    simp only [List.mem_append, List.mem_singleton] at ht
    rcases ht with ht | ht
    · obtain ⟨h1, h2 | ⟨e, he, h2, h3⟩⟩ := h.closed id a t ht
      · exact ⟨h1, .inl h2⟩
      · obtain ⟨e', he', h4, h5⟩ := hent' e he
        exact ⟨h1, .inr ⟨e', he', by rw [h4]; exact h2, by omega⟩⟩
    · obtain ⟨h1, e', he', h2, h3⟩ := hcl id a t ht.symm
      exact ⟨by omega, .inr ⟨e', he', h2, by omega⟩⟩

theorem acct_inv_say {cfg s} (h : AcctInv cfg s) (x : AcctEntry) (hlive : liveStep (Spec.live s.log) x = Spec.live s.log)
    (hch : ∀ a l, chargesStep a l x = l) (hcl : ∀ id a t, x ≠ .closed id (some a) t) (hok : AcctOk cfg s.log x) : AcctInv cfg (s.say x) :=
  inv_change h ⟨h.shape.uniq, h.shape.ids, h.shape.lt, h.shape.entry, h.shape.have_, h.shape.ok⟩ rfl x rfl (by rw [hlive]; exact h.live) hch
    (fun e he => ⟨e, he, rfl, rfl⟩) (fun e he => ⟨e, he, rfl, .inl (Nat.le_refl _)⟩) (fun id a t e => absurd e (hcl id a t)) hok

theorem touch_ent {client : Option Bytes} {f : PerClient → PerClient} (hf : ∀ e, (f e).addr = e.addr ∧ (f e).throttle = e.throttle)
    {es : List PerClient} : ∀ e' ∈ touch client f es, ∃ e ∈ es, e'.addr = e.addr ∧ e'.throttle = e.throttle := by
  intro e' he'
  obtain ⟨e, he, rfl⟩ := mem_touch he'
  refine ⟨e, he, ?_⟩
  cases client == some e.addr
  · exact ⟨rfl, rfl⟩
  · exact hf e

theorem touch_ent' {client : Option Bytes} {f : PerClient → PerClient} {n : Nat}
    (hf : ∀ e, (f e).addr = e.addr ∧ (e.expires ≤ (f e).expires ∨ n ≤ (f e).expires))
    {es : List PerClient} : ∀ e ∈ es, ∃ e' ∈ touch client f es, e'.addr = e.addr ∧ (e.expires ≤ e'.expires ∨ n ≤ e'.expires) := by
  intro e he
  refine ⟨_, List.mem_map.mpr ⟨e, he, rfl⟩, ?_⟩
  cases client == some e.addr
  · exact ⟨rfl, .inl (Nat.le_refl _)⟩
  · exact hf e

theorem shape_say {s : Acct} (h : AcctShape s) (x : AcctEntry) : AcctShape (s.say x) := ⟨h.uniq, h.ids, h.lt, h.entry, h.have_, h.ok⟩

theorem inv_create {cfg s} (h : AcctInv cfg s) (client : Option Bytes) (d : Bool)
    (hc : ∀ a, client = some a → ∃ e ∈ s.entries, e.addr = a) (delay : Nat) (hok : AcctOk cfg s.log (.opened s.nextId client delay)) :
    AcctInv cfg ((s.create client d).say (.opened s.nextId client delay)) := by
  have hs := shape_say (shape_create h.shape client d hc) (.opened s.nextId client delay)
  rw [create_eq] at hs ⊢
  refine inv_change h hs rfl _ rfl ?_ (fun _ _ => rfl) (touch_ent (by simp)) (touch_ent' (n := s.now + 300000000000) (by simp)) (by simp) hok
  simp only [liveStep, h.live, Acct.say, List.map_append, List.map_cons, List.map_nil]

theorem filter_live {s : Acct} (hl : Spec.live s.log = s.conns.map fun c => (c.id, c.client)) (id : Nat) :
    (Spec.live s.log).filter (fun c => c.1 ≠ id) = (s.conns.filter (·.id ≠ id)).map fun c => (c.id, c.client) := by
  rw [hl, List.filter_map]
  rfl

theorem acct_inv_close {cfg s} (h : AcctInv cfg s) {c : AcctConn} (hc : c ∈ s.conns) :
    AcctInv cfg ((s.destroy c).say (.closed c.id c.client s.now)) := by
  have hs := shape_say (shape_destroy h.shape hc) (.closed c.id c.client s.now)
  obtain ⟨cl, e, _, _⟩ := destroy_eq h.shape hc
  rw [e] at hs ⊢
  refine inv_change h hs rfl _ rfl ?_ (fun _ _ => rfl) (touch_ent (by simp [PerClient.remove]))
    (touch_ent' (n := s.now + 300000000000) (by simp [PerClient.remove])) ?_ trivial
  · simp only [liveStep]
    exact filter_live h.live c.id
  · intro id a t hx
    simp only [AcctEntry.closed.injEq] at hx
    obtain ⟨rfl, hcl, rfl⟩ := hx
    refine ⟨rfl, ?_⟩
    obtain ⟨e0, he0, rfl⟩ := h.shape.have_ c hc a hcl
    refine ⟨_, List.mem_map.mpr ⟨e0, he0, rfl⟩, ?_⟩
    simp [hcl, PerClient.remove]

theorem find_id {s : Acct} {id : Nat} {c : AcctConn} (h : s.conn id = some c) : c ∈ s.conns ∧ c.id = id :=
  ⟨List.mem_of_find?_eq_some h, by simpa using List.find?_some h⟩

theorem filter_id {s : Acct} (h : AcctShape s) {c : AcctConn} (hc : c ∈ s.conns) : s.conns.filter (·.id = c.id) = [c] := by
  have := h.ids
  revert hc this
  generalize s.conns = l
  intro hc hp
  induction l with
  | nil => simp at hc
  | cons x l ih =>
    rw [List.pairwise_cons] at hp
    simp only [List.mem_cons] at hc
    rcases hc with rfl | hc
    · have : l.filter (·.id = c.id) = [] := by
        rw [List.filter_eq_nil_iff]
        intro y hy
        simpa using (hp.1 y hy).symm
      simp [this]
    · have hne : x.id ≠ c.id := hp.1 c hc
      simp [hne, ih hc hp.2]

theorem inv_expire {cfg s} (h : AcctInv cfg s) {c : AcctConn} (hc : c ∈ s.conns) (ok : Bool) : AcctInv cfg (s.expire c ok) := by
  cases ok
  · exact acct_inv_close h hc
  · simp only [Acct.expire, cond_true]
    have h1 := shape_create h.shape c.client false (h.shape.have_ c hc)
    have hc1 : c ∈ (s.create c.client false).conns := by rw [create_eq]; simp [hc]
    have h2 := shape_say (shape_destroy h1 hc1) (.promoted c.id s.nextId)
    obtain ⟨cl, e, _, _⟩ := destroy_eq h1 hc1
    rw [e, create_eq] at h2 ⊢
    refine inv_change h h2 rfl _ rfl ?_ (fun _ _ => rfl) ?_ ?_ (by simp) trivial
    · simp only [liveStep]
      rw [filter_live h.live c.id, h.live, List.filter_map]
      have hne : s.nextId ≠ c.id := Nat.ne_of_gt (h.shape.lt c hc)
      have := filter_id h.shape hc
      simp only [Function.comp_def, this]
      simp [Acct.say, hne]
    · intro e' he'
      obtain ⟨e, he, h3, h4⟩ := touch_ent (by simp [PerClient.remove]) e' he'
      obtain ⟨e0, he0, h5, h6⟩ := touch_ent (by simp) e he
      exact ⟨e0, he0, h3.trans h5, h4.trans h6⟩
    · intro e0 he0
      obtain ⟨e, he, h3, h4⟩ := touch_ent' (n := s.now + 300000000000) (client := c.client)
        (f := fun e => { e with conns := e.conns ++ [s.nextId] }) (by simp) e0 he0
      obtain ⟨e', he', h5, h6⟩ := touch_ent' (n := s.now + 300000000000) (client := c.client)
        (f := fun e => e.remove c.id s.now) (by simp [PerClient.remove]) e he
      exact ⟨e', he', h5.trans h3, by omega⟩

theorem inv_get {cfg s} (h : AcctInv cfg s) (a : Bytes) : AcctInv cfg (s.get a) ∧ ∃ e ∈ (s.get a).entries, e.addr = a := by
  unfold Acct.get
  cases hany : s.entries.any (·.addr == a)
  · have hno : ¬ ∃ e ∈ s.entries, e.addr = a := by
      rintro ⟨e, he, rfl⟩
      have := List.any_eq_false.mp hany e he
      simp at this
    simp only [cond_false]
    refine ⟨⟨⟨?_, h.shape.ids, h.shape.lt, ?_, ?_, h.shape.ok⟩, h.live, ?_, ?_, h.chron, ?_, h.prev⟩, { addr := a }, by simp, rfl⟩
    · simp only [List.pairwise_append, List.mem_singleton]
      exact ⟨h.shape.uniq, by simp, by rintro e he _ rfl rfl; exact hno ⟨e, he, rfl⟩⟩
    · intro e he
      simp only [List.mem_append, List.mem_singleton] at he
      rcases he with he | rfl
      · exact h.shape.entry e he
      · symm
        simp only [List.map_eq_nil_iff, List.filter_eq_nil_iff]
        intro c hc hcl
        exact hno (h.shape.have_ c hc a (by simpa using hcl))
    · intro c hc b hb
      obtain ⟨e, he, h1⟩ := h.shape.have_ c hc b hb
      exact ⟨e, by simp [he], h1⟩
    · intro e he
      simp only [List.mem_append, List.mem_singleton] at he
      rcases he with he | rfl
      · exact h.thr e he
      · simp only [h.forgot a hno]
        split <;> rfl
    · intro b hb
      refine h.forgot b ?_
      rintro ⟨e, he, h1⟩
      exact hb ⟨e, by simp [he], h1⟩
    · intro id b t ht
      obtain ⟨h1, h2⟩ := h.closed id b t ht
      refine ⟨h1, h2.imp (fun h => h) ?_⟩
      rintro ⟨e, he, h3⟩
      exact ⟨e, by simp [he], h3⟩
  · refine ⟨h, ?_⟩
    obtain ⟨e, he, h1⟩ := List.any_eq_true.mp hany
    exact ⟨e, he, by simpa using h1⟩

theorem inv_charge {cfg s} (h : AcctInv cfg s) {a : Bytes} (ha : ∃ e ∈ s.entries, e.addr = a) (cost : Nat) :
    AcctInv cfg (s.charge cfg a cost) ∧ ∃ e ∈ (s.charge cfg a cost).entries, e.addr = a := by
  have hs : s.charge cfg a cost =
      { s with log := s.log ++ [.charged a s.now cost], entries := touch (some a) (fun e => bif cfg.tarpit then { e with throttle := e.throttle.update s.now cost } else e) s.entries } := by
    unfold Acct.charge
    cases cfg.tarpit
    · simp only [cond_false, Acct.say]
      congr 1
      unfold touch
      symm
      refine (List.map_congr_left (g := id) ?_).trans (List.map_id _)
      intro e _
      cases (some a : Option Bytes) == some e.addr <;> rfl
    · simp only [cond_true, modify_touch]; rfl
  have hf : ∀ e : PerClient, (bif cfg.tarpit then { e with throttle := e.throttle.update s.now cost } else e).addr = e.addr ∧
      (bif cfg.tarpit then { e with throttle := e.throttle.update s.now cost } else e).conns = e.conns ∧
      (bif cfg.tarpit then { e with throttle := e.throttle.update s.now cost } else e).expires = e.expires := by
    intro e; cases cfg.tarpit <;> exact ⟨rfl, rfl, rfl⟩
  have hb : ∀ b, chargesOf (s.log ++ [.charged a s.now cost]) b = if a = b then chargesOf s.log b ++ [(s.now, cost)] else chargesOf s.log b := by
    intro b; rw [charges_snoc]; rfl
  rw [hs]
  refine ⟨⟨⟨touch_pairwise (fun e => (hf e).1) h.shape.uniq, h.shape.ids, h.shape.lt, ?_, ?_, h.shape.ok⟩, ?_, ?_, ?_, ?_, ?_, ?_⟩, ?_⟩
  · intro e' he'
    obtain ⟨e, he, rfl⟩ := mem_touch he'
    have := h.shape.entry e he
    cases (some a : Option Bytes) == some e.addr
    · exact this
    · simp only [cond_true, hf e]; exact this
  · intro c hc b hb
    exact (exists_touch (fun e => (hf e).1)).mpr (h.shape.have_ c hc b hb)
  · rw [live_snoc]; exact h.live
  · intro e' he'
    obtain ⟨e, he, rfl⟩ := mem_touch he'
    have ht := h.thr e he
    by_cases hae : a = e.addr
    · subst hae
      simp only [BEq.rfl, cond_true, hf e, hb, if_pos]
      cases hct : cfg.tarpit
      · simpa [hct] using ht
      · simp only [hct, if_true] at ht
        simp [throttle_snoc, ht]
    · have : ((some a : Option Bytes) == some e.addr) = false := by simpa using hae
      simp only [this, cond_false, hb, if_neg hae]
      exact ht
  · intro b hnb
    have hnb : ¬ ∃ e ∈ s.entries, e.addr = b := fun hx => hnb ((exists_touch (fun e => (hf e).1)).mpr hx)
    have hab : a ≠ b := by rintro rfl; exact hnb ha
    simp only [hb, if_neg hab]
    exact h.forgot b hnb
  · intro b
    simp only [hb]
    obtain ⟨h1, h2⟩ := h.chron b
    split
    · refine ⟨?_, ?_⟩
      · simp only [Chronological, List.pairwise_append, List.mem_singleton]
        exact ⟨h1, by simp, by rintro x hx _ rfl; exact h2 x hx⟩
      · intro x hx
        simp only [List.mem_append, List.mem_singleton] at hx
        rcases hx with hx | rfl
        · exact h2 x hx
        · exact Nat.le_refl _
    · exact ⟨h1, h2⟩
  · intro id b t ht
    simp only [List.mem_append, List.mem_singleton, reduceCtorEq, or_false] at ht
    obtain ⟨h1, h2⟩ := h.closed id b t ht
    refine ⟨h1, h2.imp (fun h => h) ?_⟩
    rintro ⟨e, he, h3, h4⟩
    refine ⟨_, List.mem_map.mpr ⟨e, he, rfl⟩, ?_⟩
    cases (some a : Option Bytes) == some e.addr
    · exact ⟨h3, h4⟩
    · simp only [cond_true, hf e]; exact ⟨h3, h4⟩
  · exact eachPrev_snoc h.prev trivial
  · exact (exists_touch (fun e => (hf e).1)).mpr ha


theorem live_discards (log : List AcctEntry) (l : List PerClient) (t : Nat) :
    Spec.live (log ++ l.map fun e => .discarded e.addr t) = Spec.live log := by
  induction l using Aux.snoc_ind with
  | h0 => simp
  | h1 l e ih =>
    rw [List.map_append, ← List.append_assoc, List.map_singleton, live_snoc, ih]
    rfl

theorem charges_discards (log : List AcctEntry) (l : List PerClient) (t : Nat) (a : Bytes) :
    ((∃ e ∈ l, e.addr = a) → chargesOf (log ++ l.map fun e => .discarded e.addr t) a = []) ∧
    ((¬ ∃ e ∈ l, e.addr = a) → chargesOf (log ++ l.map fun e => .discarded e.addr t) a = chargesOf log a) := by
  induction l using Aux.snoc_ind with
  | h0 => simp
  | h1 l e ih =>
    rw [List.map_append, ← List.append_assoc, List.map_singleton, charges_snoc]
    simp only [chargesStep]
    constructor
    · rintro ⟨x, hx, rfl⟩
      split
      · rfl
      · rename_i hne
        simp only [List.mem_append, List.mem_singleton] at hx
        rcases hx with hx | rfl
        · exact ih.1 ⟨x, hx, rfl⟩
        · exact absurd rfl hne
    · intro hn
      rw [if_neg (fun h => hn ⟨e, by simp, h⟩)]
      exact ih.2 fun ⟨x, hx, h⟩ => hn ⟨x, by simp [hx], h⟩

theorem prev_discards {cfg : AcctCfg} {log : List AcctEntry} {l : List PerClient} {t : Nat} (h : EachPrev (AcctOk cfg) log)
    (hl : ∀ e ∈ l, liveCount log e.addr = 0 ∧ ∀ id t', .closed id (some e.addr) t' ∈ log → t' + 300000000000 ≤ t) :
    EachPrev (AcctOk cfg) (log ++ l.map fun e => .discarded e.addr t) := by
  induction l using Aux.snoc_ind with
  | h0 => simpa using h
  | h1 l e ih =>
    rw [List.map_append, ← List.append_assoc, List.map_singleton]
    refine eachPrev_snoc (ih fun x hx => hl x (by simp [hx])) ?_
    obtain ⟨h1, h2⟩ := hl e (by simp)
    refine ⟨?_, ?_⟩
    · simp only [liveCount, live_discards] at h1 ⊢; exact h1
    · intro id t' ht
      simp only [List.mem_append, List.mem_map, reduceCtorEq, and_false, exists_false, or_false] at ht
      exact h2 id t' ht

theorem inv_cleanup_field {cfg s} (h : AcctInv cfg s) (cl) : AcctInv cfg { s with cleanup := cl } :=
  ⟨⟨h.shape.uniq, h.shape.ids, h.shape.lt, h.shape.entry, h.shape.have_, h.shape.ok⟩, h.live, h.thr, h.forgot, h.chron, h.closed, h.prev⟩

theorem inv_schedule {cfg s} (h : AcctInv cfg s) : AcctInv cfg s.scheduleCleanup := by
  unfold Acct.scheduleCleanup
  split
  · exact h
  · exact inv_cleanup_field h _

theorem inv_onCleanup {cfg s} (h : AcctInv cfg s) : AcctInv cfg s.onCleanup := by
  have key : AcctInv cfg { s with
      cleanup := none
      entries := s.entries.filter fun e => !e.stale s.now
      log := s.log ++ (s.entries.filter (·.stale s.now)).map fun e => .discarded e.addr s.now } := by
    have hsub : ∀ {e}, e ∈ s.entries.filter (fun e => !e.stale s.now) → e ∈ s.entries := fun he => (List.mem_filter.mp he).1
    have hstale : ∀ {e}, e ∈ s.entries.filter (·.stale s.now) → e ∈ s.entries ∧ e.conns = [] ∧ e.expires ≤ s.now := by
      intro e he
      obtain ⟨h1, h2⟩ := List.mem_filter.mp he
      simp only [PerClient.stale, Bool.and_eq_true, List.isEmpty_iff, decide_eq_true_eq] at h2
      exact ⟨h1, h2⟩
    have hkeep : ∀ {e}, e ∈ s.entries.filter (fun e => !e.stale s.now) → ¬ ∃ x ∈ s.entries.filter (·.stale s.now), x.addr = e.addr := by
      rintro e he ⟨x, hx, hxe⟩
      have := entry_unique h.shape.uniq (hstale hx).1 (hsub he) hxe
      subst this
      have h1 := (List.mem_filter.mp he).2
      have h2 := (List.mem_filter.mp hx).2
      rw [h2] at h1
      simp at h1
    refine ⟨⟨h.shape.uniq.filter _, h.shape.ids, h.shape.lt, fun e he => h.shape.entry e (hsub he), ?_, h.shape.ok⟩,
      by simp only [live_discards]; exact h.live, ?_, ?_, ?_, ?_, ?_⟩
    · intro c hc a ha
      obtain ⟨e, he, rfl⟩ := h.shape.have_ c hc a ha
      refine ⟨e, List.mem_filter.mpr ⟨he, ?_⟩, rfl⟩
      have := h.shape.entry e he
      have hm : c.id ∈ e.conns := by rw [this]; exact List.mem_map.mpr ⟨c, by simp [hc, ha], rfl⟩
      cases hcn : e.conns with
      | nil => rw [hcn] at hm; simp at hm
      | cons x l => simp [PerClient.stale, hcn]
    · intro e he
      rw [(charges_discards s.log _ s.now e.addr).2 (hkeep he)]
      exact h.thr e (hsub he)
    · intro a ha
      by_cases hd : ∃ e ∈ s.entries.filter (·.stale s.now), e.addr = a
      · exact (charges_discards s.log _ s.now a).1 hd
      · rw [(charges_discards s.log _ s.now a).2 hd]
        refine h.forgot a ?_
        rintro ⟨e, he, rfl⟩
        cases hst : e.stale s.now
        · exact ha ⟨e, List.mem_filter.mpr ⟨he, by simp [hst]⟩, rfl⟩
        · exact hd ⟨e, List.mem_filter.mpr ⟨he, hst⟩, rfl⟩
    · intro a
      by_cases hd : ∃ e ∈ s.entries.filter (·.stale s.now), e.addr = a
      · rw [(charges_discards s.log _ s.now a).1 hd]; exact ⟨List.Pairwise.nil, by simp⟩
      · rw [(charges_discards s.log _ s.now a).2 hd]; exact h.chron a
    · intro id a t ht
      simp only [List.mem_append, List.mem_map, reduceCtorEq, and_false, exists_false, or_false] at ht
      obtain ⟨h1, h2 | ⟨e, he, h3, h4⟩⟩ := h.closed id a t ht
      · exact ⟨h1, .inl h2⟩
      · cases hst : e.stale s.now
        · exact ⟨h1, .inr ⟨e, List.mem_filter.mpr ⟨he, by simp [hst]⟩, h3, h4⟩⟩
        · have := (hstale (List.mem_filter.mpr ⟨he, hst⟩)).2.2
          exact ⟨h1, .inl (by simp only; omega)⟩
    · refine prev_discards h.prev fun e he => ⟨?_, ?_⟩
      · rw [← entry_count h (hstale he).1, (hstale he).2.1]; rfl
      · intro id t' ht
        obtain ⟨h1, h2 | ⟨e', he', h3, h4⟩⟩ := h.closed id _ t' ht
        · exact h2
        · have := entry_unique h.shape.uniq he' (hstale he).1 h3
          subst this
          have := (hstale he).2.2
          omega
  unfold Acct.onCleanup
  simp only [Bool.cond_eq_ite]
  split
  · exact inv_schedule key
  · exact key

theorem inv_construct {cfg s} (h : AcctInv cfg s) (client : Option Bytes) (ok : Bool)
    (hc : ∀ a, client = some a → ∃ e ∈ s.entries, e.addr = a) (hok : AcctOk cfg s.log (.opened s.nextId client 0)) :
    AcctInv cfg (s.construct client ok) := by
  cases ok
  · exact acct_inv_say h (.failed client) rfl (fun _ _ => rfl) (by simp) trivial
  · exact inv_create h client false hc 0 hok

theorem inv_admit {cfg s} (h : AcctInv cfg s) {e : PerClient} (hm : e ∈ s.entries) (ok : Bool) : AcctInv cfg (s.admit cfg e.addr e ok) := by
  have hcnt := entry_count h hm
  have hthr := h.thr e hm
  have ha : ∀ a, some e.addr = some a → ∃ e ∈ s.entries, e.addr = a := by
    intro a ha
    simp only [Option.some.injEq] at ha
    exact ⟨e, hm, ha⟩
  unfold Acct.admit
  cases hck : e.check cfg
  · refine acct_inv_say h (.rejected e.addr) rfl (fun _ _ => rfl) (by simp) ?_
    simp only [PerClient.check, Bool.or_eq_false_iff, beq_eq_false_iff_ne, decide_eq_false_iff_not] at hck
    exact ⟨by omega, by omega⟩
  · have hck : cfg.maxConnections = 0 ∨ liveCount s.log e.addr < cfg.maxConnections := by
      simp only [PerClient.check, Bool.or_eq_true, beq_iff_eq, decide_eq_true_eq] at hck
      omega
    simp only [Bool.not_true, cond_false]
    simp only [Bool.cond_eq_ite]
    split
    · refine inv_create h (some e.addr) true ha _ ?_
      exact ⟨hck, by rw [hthr], (h.chron _).1⟩
    · rename_i hd
      have hd : e.throttle.delay = 0 := by simpa using hd
      refine inv_construct h (some e.addr) ok ha ?_
      exact ⟨hck, by rw [← hthr, hd], (h.chron _).1⟩

theorem acct_inv_accept {cfg s} (h : AcctInv cfg s) (address : Option Bytes) (ok : Bool) : AcctInv cfg (s.accept cfg address ok) := by
  unfold Acct.accept
  split
  · exact inv_construct h none ok (by simp) rfl
  · rename_i a _
    obtain ⟨h1, ha1⟩ := inv_get h a
    obtain ⟨h2, ha2⟩ := inv_charge h1 ha1 1000000000
    obtain ⟨e, he⟩ := find_exists ha2
    simp only
    rw [he]
    obtain ⟨hm, rfl⟩ := find_mem he
    exact inv_admit h2 hm ok

theorem inv_acct_step {cfg s} (h : AcctInv cfg s) (ev : AcctEv) : AcctInv cfg (s.step cfg ev) := by
  cases ev with
  | accept address ok => exact acct_inv_accept h address ok
  | expire id ok =>
    simp only [Acct.step]
    split
    · exact h
    · rename_i c hc
      cases c.delayed
      · exact h
      · exact inv_expire h (find_id hc).1 ok
  | close id =>
    simp only [Acct.step]
    split
    · exact h
    · rename_i c hc
      exact acct_inv_close h (find_id hc).1
  | charge id cost =>
    simp only [Acct.step]
    split
    · exact h
    · rename_i c hc
      split
      · exact h
      · rename_i a ha
        have := h.shape.have_ c (find_id hc).1 a ha
        have hany : s.entries.any (·.addr == a) = true := by
          obtain ⟨e, he, h1⟩ := this
          exact List.any_eq_true.mpr ⟨e, he, by simpa using h1⟩
        rw [hany]
        exact (inv_charge h this cost).1
  | cleanup =>
    simp only [Acct.step]
    split
    · exact h
    · simp only [Bool.cond_eq_ite]
      split
      · exact inv_onCleanup h
      · exact h
  | tick d =>
    refine ⟨⟨h.shape.uniq, h.shape.ids, h.shape.lt, h.shape.entry, h.shape.have_, h.shape.ok⟩, h.live, h.thr, h.forgot, ?_, ?_, h.prev⟩
    · intro a
      exact ⟨(h.chron a).1, fun x hx => Nat.le_trans ((h.chron a).2 x hx) (Nat.le_add_right _ _)⟩
    · intro id a t ht
      obtain ⟨h1, h2⟩ := h.closed id a t ht
      exact ⟨Nat.le_trans h1 (Nat.le_add_right _ _), h2.imp (fun h => Nat.le_trans h (Nat.le_add_right _ _)) (fun h => h)⟩

theorem acct_run_snoc (cfg s evs ev) : Acct.run cfg s (evs ++ [ev]) = (Acct.run cfg s evs).step cfg ev := by simp [Acct.run]

theorem inv_acct (cfg : AcctCfg) (evs : List AcctEv) : AcctInv cfg (Acct.run cfg {} evs) := by
  induction evs using Aux.snoc_ind with
  | h0 =>
    refine ⟨⟨List.Pairwise.nil, List.Pairwise.nil, ?_, ?_, ?_, rfl⟩, rfl, ?_, fun _ _ => rfl, fun _ => ⟨List.Pairwise.nil, ?_⟩, ?_, eachPrev_nil _⟩ <;>
      simp [Acct.run, chargesOf]
  | h1 evs ev ih => rw [acct_run_snoc]; exact inv_acct_step ih ev

end Lukko
