import Verif.Base
/-
  Proxy clusters: which servers were announced, and which one a client is sent
  to.  Nothing here refers to the model.
-/
namespace Lukko.Spec

/-- A server announced under some key. -/
structure ClusterNode where
  address : Nat
  arch : Nat
  ourOwn : Bool := false
  deriving DecidableEq, Repr

/-- Announcements (new or changed) and withdrawals. -/
inductive Announcement
  | add (key : Nat) (node : ClusterNode)
  | remove (key : Nat)
  deriving DecidableEq, Repr

/-- The server known under a key: the latest announcement that was not
withdrawn since. -/
def member (as : List Announcement) (key : Nat) : Option ClusterNode :=
  as.foldl (fun cur a => match a with
    | .add k n => if k = key then some n else cur
    | .remove k => if k = key then none else cur) none

/-- A comparison function usable for sorting (strict weak order). -/
structure StrictWeak {α : Type} (lt : α → α → Bool) : Prop where
  irrefl : ∀ a, lt a a = false
  trans : ∀ a b c, lt a b = true → lt b c = true → lt a c = true
  incomp : ∀ a b c, lt a b = false → lt b a = false → lt b c = false → lt c b = false →
    lt a c = false ∧ lt c a = false

/-- What `std::sort` does: some permutation in which no element is less than an
earlier one.  How it arranges equivalent elements is not determined. -/
structure IsSort {α : Type} (sort : (α → α → Bool) → List α → List α) : Prop where
  perm : ∀ lt l, (sort lt l).Perm l
  sorted : ∀ lt l, StrictWeak lt → (sort lt l).Pairwise fun a b => lt b a = false

/-- No two different addresses have the same rank for this client. -/
def NoTies (lt : ClusterNode → ClusterNode → Bool) : Prop :=
  ∀ a b, lt a b = false → lt b a = false → a.address = b.address ∧ a.ourOwn = b.ourOwn

end Lukko.Spec
