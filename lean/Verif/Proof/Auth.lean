import Verif.Model.Auth
import Verif.Proof.Lists
import Verif.Prop.KeyFile
import Verif.Prop.Messages
/-
  Invariants of user authentication.
-/
namespace Lukko
open Model Spec

/-! ### Histories -/

/-- `Q` holds for every entry and everything before it. -/
def AllPrev (Q : List AuthEntry → AuthEntry → Prop) (log : List AuthEntry) : Prop :=
  ∀ a e b, log = a ++ e :: b → Q a e

theorem allPrev_nil (Q) : AllPrev Q [] := by
  intro a e b h; simp at h

theorem allPrev_snoc {Q log e} (h : AllPrev Q log) (he : Q log e) : AllPrev Q (log ++ [e]) := by
  intro a x b hx
  rcases Aux.snoc_split hx with ⟨rfl, rfl, rfl⟩ | ⟨b', rfl, rfl⟩
  · exact he
  · exact h a x b' rfl

@[simp] theorem lastRequest_snoc (log : List AuthEntry) (e : AuthEntry) :
    lastRequest (log ++ [e]) = (match e with
      | .received m p => if m = 50 then some p else lastRequest log
      | _ => lastRequest log) := by
  simp only [lastRequest, List.foldl_append, List.foldl_cons, List.foldl_nil]
  cases e <;> rfl

@[simp] theorem lastAccount_snoc (log : List AuthEntry) (e : AuthEntry) :
    lastAccount (log ++ [e]) = (match e with
      | .account u p a => some (u, p, a)
      | _ => lastAccount log) := by
  simp only [lastAccount, List.foldl_append, List.foldl_cons, List.foldl_nil]
  cases e <;> rfl

@[simp] theorem homeText_snoc (log : List AuthEntry) (e : AuthEntry) :
    homeText (log ++ [e]) = (match e with
      | .received m _ => if m = 50 then none else homeText log
      | .homeKeys t => t
      | _ => homeText log) := by
  simp only [homeText, List.foldl_append, List.foldl_cons, List.foldl_nil]
  cases e <;> rfl

@[simp] theorem inEffect_snoc (log : List AuthEntry) (e : AuthEntry) :
    inEffect (log ++ [e]) = (match e with
      | .loggedIn l => some l.restrictions
      | .restricted r => some r
      | _ => inEffect log) := by
  simp only [inEffect, List.foldl_append, List.foldl_cons, List.foldl_nil]
  cases e <;> rfl

@[simp] theorem attempts_snoc (log : List AuthEntry) (e : AuthEntry) :
    attempts (log ++ [e]) = attempts log + (match e with | .received m _ => if m = 50 then 1 else 0 | _ => 0) := by
  simp only [attempts, List.countP_append, List.countP_cons, List.countP_nil, Nat.zero_add]
  cases e <;> simp

/-! ### Keys -/

theorem not_grants {decode : Bytes → Option Bytes} {line key : Bytes} (h : lineContains decode line key = none)
    (r : Restrictions) : ¬ Grants decode line key r := by
  rintro ⟨b64, os, g1, g2, g3⟩
  have hs := setAll_spec os {}
  have g3' : applyOptions ({} : KeyOptions).restrictions os = some r := g3
  rw [g3'] at hs
  simp only [Option.map_eq_some_iff] at hs
  obtain ⟨o', _, rfl⟩ := hs
  have := (C37_line (decode := decode) line key o').mpr ⟨b64, os, g1, g2, g3⟩
  rw [h] at this
  simp at this

theorem linesContain_some {decode : Bytes → Option Bytes} {ls : List Bytes} {key : Bytes} {o : KeyOptions}
    (h : linesContain decode ls key = some o) : GrantedIn decode ls key o.restrictions := by
  unfold linesContain at h
  rw [findSome_iff] at h
  obtain ⟨pre, line, post, h1, h2, h3⟩ := h
  exact ⟨pre, line, post, h1, (C37_line _ _ _).mp h2, fun l hl r => not_grants (h3 l hl) r⟩

theorem linesContain_none {decode : Bytes → Option Bytes} {ls : List Bytes} {key : Bytes}
    (h : linesContain decode ls key = none) (r : Restrictions) : ¬ GrantedIn decode ls key r := by
  rintro ⟨pre, line, post, h1, h2, _⟩
  unfold linesContain at h
  rw [List.findSome?_eq_none_iff] at h
  exact not_grants (h line (by simp [h1])) r h2

theorem textContains_some {decode : Bytes → Option Bytes} {text key : Bytes} {o : KeyOptions}
    (h : textContains decode text key = some o) : TextGrants decode text key o.restrictions :=
  ⟨_, splitLines_spec text, linesContain_some h⟩

theorem textContains_none {decode : Bytes → Option Bytes} {text key : Bytes}
    (h : textContains decode text key = none) (r : Restrictions) : ¬ TextGrants decode text key r := by
  rintro ⟨ls, h1, h2⟩
  rw [← linesOf_unique (splitLines_spec text) h1] at h2
  exact linesContain_none h r h2

theorem fileContains_some {decode : Bytes → Option Bytes} {text key : Bytes} {o : KeyOptions}
    (h : fileContains decode text key = some o) : FileGrants decode text key o.restrictions :=
  ⟨_, splitLines_spec text, linesContain_some (ls := (splitLines text).map cLine) h⟩

/-- The environment as seen by the specification. -/
def Model.AuthCfg.world (cfg : AuthCfg) : AuthWorld where
  translation := cfg.translation
  knownUser := cfg.getpwnam
  decode := cfg.decode
  validKey k := cfg.parseKey k = true
  verify k m s := cfg.verify k m s = some true
  sessionId := cfg.sessionId
  globalKey k := (cfg.globalKeys.find k).map KeyOptions.restrictions
  hostKey k := (cfg.hostKeys.find k).map KeyOptions.restrictions

theorem findKey_some {cfg : AuthCfg} {y : Auth} {blob : Bytes} {o : KeyOptions} (h : y.findKey cfg blob = some o)
    (home : Option Bytes) :
    KeyGrants cfg.world ((y.translation.map (·.account)).bind (·.keys)) home blob o.restrictions := by
  unfold Auth.findKey at h
  have e : (y.translation.map (·.account)).bind (·.keys) = y.translation.bind (·.account.keys) := by
    cases y.translation <;> rfl
  rw [e]
  generalize y.translation.bind (·.account.keys) = t at h ⊢
  cases t with
  | none =>
    refine .global (by simp) ?_
    simp only [Option.bind_none, Option.none_or] at h
    simp [AuthCfg.world, h]
  | some t =>
    simp only [Option.bind_some] at h
    cases ht : textContains cfg.decode t blob with
    | some o' =>
      rw [ht] at h
      simp only [Option.some_or, Option.some.injEq] at h
      subst h
      exact .text rfl (textContains_some ht)
    | none =>
      rw [ht] at h
      simp only [Option.none_or] at h
      refine .global ?_ (by simp [AuthCfg.world, h])
      intro t' ht' r
      simp only [Option.some.injEq] at ht'
      subst ht'
      exact textContains_none ht r

theorem findKey_none {cfg : AuthCfg} {y : Auth} {blob : Bytes} (h : y.findKey cfg blob = none) {t : Bytes}
    {o : KeyOptions} (ht : fileContains cfg.decode t blob = some o) :
    KeyGrants cfg.world ((y.translation.map (·.account)).bind (·.keys)) (some t) blob o.restrictions := by
  unfold Auth.findKey at h
  have e : (y.translation.map (·.account)).bind (·.keys) = y.translation.bind (·.account.keys) := by
    cases y.translation <;> rfl
  rw [e]
  generalize y.translation.bind (·.account.keys) = k at h ⊢
  rw [Option.or_eq_none_iff] at h
  refine .home ?_ (by simp [AuthCfg.world, h.2]) rfl (fileContains_some ht)
  intro t' ht' r
  rw [ht'] at h
  exact textContains_none h.1 r

/-! ### Parsing -/

theorem consumed_append (a b : Bytes) : consumed (a ++ b) b = a := by
  simp [consumed]

theorem readBool_inv {s v r} (h : readBool s = some (v, r)) : ∃ b, s = b :: r ∧ v = (b != 0) := by
  simp only [readBool] at h
  split at h
  · rename_i b rest hn
    obtain ⟨rfl, _⟩ := readN_inv hn
    simp only [Option.some.injEq, Prod.mk.injEq] at h
    obtain ⟨rfl, rfl⟩ := h
    exact ⟨b, rfl, rfl⟩
  · simp at h

theorem getRest_inv {s v r} (h : getRest s = some (v, r)) : v = s ∧ r = s := by
  simp only [getRest, Option.some.injEq, Prod.mk.injEq] at h
  exact ⟨h.1.symm, h.2.symm⟩

theorem parseAuthReq_inv {payload r} (h : parseAuthReq payload = some r) :
    r.payload = payload ∧ payload = str r.user ++ (str r.service ++ (str r.method ++ r.rest)) := by
  unfold parseAuthReq at h
  split at h
  · simp at h
  · rename_i r' _ hp
    simp only [Option.some.injEq] at h
    subst h
    obtain ⟨v1, s1, h1, h⟩ := bind_inv hp
    obtain ⟨v2, s2, h2, h⟩ := bind_inv h
    obtain ⟨v3, s3, h3, h⟩ := bind_inv h
    obtain ⟨v4, s4, h4, h⟩ := bind_inv h
    rw [pure_apply] at h
    simp only [Option.some.injEq, Prod.mk.injEq] at h
    obtain ⟨rfl, _⟩ := h
    obtain ⟨rfl, _⟩ := readString_inv h1
    obtain ⟨rfl, _⟩ := readString_inv h2
    obtain ⟨rfl, _⟩ := readString_inv h3
    obtain ⟨rfl, _⟩ := getRest_inv h4
    exact ⟨rfl, rfl⟩

theorem parseKeyReq_inv {s k r} (h : parseKeyReq s = some (k, r)) :
    ∃ b, s = b :: (str k.alg ++ (str k.blob ++ k.rest)) ∧ k.withSig = (b != 0) := by
  obtain ⟨v1, s1, h1, h⟩ := bind_inv h
  obtain ⟨v2, s2, h2, h⟩ := bind_inv h
  obtain ⟨v3, s3, h3, h⟩ := bind_inv h
  obtain ⟨v4, s4, h4, h⟩ := bind_inv h
  rw [pure_apply] at h
  simp only [Option.some.injEq, Prod.mk.injEq] at h
  obtain ⟨rfl, _⟩ := h
  obtain ⟨b, rfl, rfl⟩ := readBool_inv h1
  obtain ⟨rfl, _⟩ := readString_inv h2
  obtain ⟨rfl, _⟩ := readString_inv h3
  obtain ⟨rfl, _⟩ := getRest_inv h4
  exact ⟨b, rfl, rfl⟩

theorem parseHostReq_inv {s h' r} (h : parseHostReq s = some (h', r)) :
    s = str h'.alg ++ (str h'.blob ++ (str h'.host ++ (str h'.user ++ h'.rest))) ∧ h'.rest = str h'.sig := by
  obtain ⟨v1, s1, h1, h⟩ := bind_inv h
  obtain ⟨v2, s2, h2, h⟩ := bind_inv h
  obtain ⟨v3, s3, h3, h⟩ := bind_inv h
  obtain ⟨v4, s4, h4, h⟩ := bind_inv h
  obtain ⟨v5, s5, h5, h⟩ := bind_inv h
  obtain ⟨v6, s6, h6, h⟩ := bind_inv h
  obtain ⟨v7, s7, h7, h⟩ := bind_inv h
  rw [pure_apply] at h
  simp only [Option.some.injEq, Prod.mk.injEq] at h
  obtain ⟨rfl, _⟩ := h
  obtain ⟨rfl, _⟩ := readString_inv h1
  obtain ⟨rfl, _⟩ := readString_inv h2
  obtain ⟨rfl, _⟩ := readString_inv h3
  obtain ⟨rfl, _⟩ := readString_inv h4
  obtain ⟨rfl, rfl⟩ := getRest_inv h5
  obtain ⟨hs, _⟩ := readString_inv h6
  obtain ⟨rfl, rfl⟩ := expectEnd_inv h7
  refine ⟨rfl, ?_⟩
  simpa using hs

theorem parseSignature_inv {s sig r} (h : parseSignature s = some (sig, r)) : s = str sig := by
  obtain ⟨v1, s1, h1, h⟩ := bind_inv h
  obtain ⟨v2, s2, h2, h⟩ := bind_inv h
  rw [pure_apply] at h
  simp only [Option.some.injEq, Prod.mk.injEq] at h
  obtain ⟨rfl, _⟩ := h
  obtain ⟨rfl, _⟩ := readString_inv h1
  obtain ⟨rfl, rfl⟩ := expectEnd_inv h2
  simp

theorem parsePassword_inv {s c p r} (h : parsePassword s = some ((c, p), r)) :
    ∃ b, s = b :: str p ∧ c = (b != 0) := by
  obtain ⟨v1, s1, h1, h⟩ := bind_inv h
  obtain ⟨v2, s2, h2, h⟩ := bind_inv h
  obtain ⟨v3, s3, h3, h⟩ := bind_inv h
  rw [pure_apply] at h
  simp only [Option.some.injEq, Prod.mk.injEq] at h
  obtain ⟨⟨rfl, rfl⟩, _⟩ := h
  obtain ⟨b, rfl, rfl⟩ := readBool_inv h1
  obtain ⟨rfl, _⟩ := readString_inv h2
  obtain ⟨rfl, rfl⟩ := expectEnd_inv h3
  exact ⟨b, by simp, rfl⟩

theorem signedData_ok {sid part m : Bytes} (h : signedData sid part = .ok m) : m = signedBytes sid part := by
  simp only [signedData, bind, Except.bind] at h
  split at h
  · simp at h
  · rename_i s1 h1
    split at h
    · simp at h
    · rename_i s2 h2
      split at h
      · simp at h
      · rename_i s3 h3
        simp only [pure, Except.pure, Except.ok.injEq] at h
        subst h
        have e1 := writeString_ok h1
        have e2 := writeN_ok h2
        have e3 := writeN_ok h3
        simp [e1, e2, e3, signedBytes, Ser.empty]

theorem isValidUsername_iff (u : Bytes) : isValidUsername u = true ↔ ValidUser u := by
  simp only [isValidUsername, ValidUser, Bool.and_eq_true, decide_eq_true_eq, List.all_eq_true,
    Bool.or_eq_true, beq_iff_eq, Bool.not_eq_true', List.isEmpty_eq_false_iff]
  constructor
  · rintro ⟨⟨h1, h2⟩, h3⟩
    exact ⟨h2, h1, fun c hc => by have := h3 c hc; grind⟩
  · rintro ⟨h1, h2, h3⟩
    exact ⟨⟨h2, h1⟩, fun c hc => by have := h3 c hc; grind⟩

end Lukko
