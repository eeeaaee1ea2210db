/-!
# Pools that do not grow

Independent of the code: objects are numbered in the order in which they are constructed.
-/

set_option autoImplicit false

namespace Verif.Spec

/-- Numbers of a stretch of the naturals that are all in a list are not more than the list is long. -/
def AllIn (from_ to_ : Nat) (l : List Nat) : Prop := ∀ i, from_ ≤ i → i < to_ → i ∈ l

end Verif.Spec
