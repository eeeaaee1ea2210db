import Verif.Model.Client
/-!
# Packets that nobody else touches

Written without reference to the pool: objects have names, places hold lists of names.
-/

set_option autoImplicit false

namespace Verif.Spec

/-- No place holds an object twice, and no two places hold the same one. -/
def Apart (places : List (List Nat)) : Prop :=
  (∀ l ∈ places, l.Nodup) ∧ places.Pairwise fun a b => ∀ i ∈ a, i ∉ b

/-- What has been sent is what was handed over first, unchanged and in the same order. -/
def SentAsGiven (given sent : List Buf) : Prop := ∃ waiting, given = sent ++ waiting

end Verif.Spec
