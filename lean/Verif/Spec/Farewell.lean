import Verif.Base
/-
  Two lists of the same length, compared entry by entry.  Nothing here refers to the model.
-/
namespace Lukko.Spec

structure Pointwise {α β : Type} (R : α → β → Prop) (as : List α) (bs : List β) : Prop where
  length : bs.length = as.length
  each : ∀ (i : Nat) (a : α) (b : β), as[i]? = some a → bs[i]? = some b → R a b

end Lukko.Spec
