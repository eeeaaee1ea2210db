import Verif.Spec.Builder
import Verif.Props.C34
/-!
# What the script that prints registers should print
-/

set_option autoImplicit false

namespace Verif.Spec
open Verif

/-- `a` comes before `b` in a dictionary: it is a beginning of `b`, or has the smaller character where they first differ. -/
def InFront (a b : Str) : Prop := a <+: b ∨ ∃ p x y s t, a = p ++ x :: s ∧ b = p ++ y :: t ∧ x.toNat < y.toNat

/-- The lines `out` for the table `rows` (below the chosen node): in the order of the names, no name twice, and the lines are those of all nodes whose name is wanted and which are not
write-only, each with the bits of its mask in the register at its address. -/
structure Dumped (rows : List Row) (wanted : Str → Bool) (reg : W → W) (out : List (Str × W)) : Prop where
  order : out.Pairwise fun a b => InFront a.1 b.1 ∧ a.1 ≠ b.1
  lines : ∀ s x, (s, x) ∈ out ↔ ∃ r ∈ rows, r.path.tail ≠ [] ∧ (".".toList).intercalate r.path.tail = s ∧ wanted s = true ∧ r.perm ≠ .write ∧ x = fieldOf r.mask (reg r.addr)

end Verif.Spec
