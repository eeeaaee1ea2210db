import Verif.Model.Classes
/-!
# Classes and handlers, as the language has them

Nothing here uses `chain`, `rethrown` or the translators.
-/

set_option autoImplicit false

namespace Verif.Spec

open Verif.Cls

/-- `c` is `t` or derived from it. -/
inductive Derives (ds : List Decl) : Any → Any → Prop
  | self (d : Decl) (h : d ∈ ds) : Derives ds d.name d.name
  | base (d : Decl) (b t : Any) (h : d ∈ ds) (hb : d.base = some b) (hd : Derives ds b t) : Derives ds d.name t

/-- Declarations that a compiler takes: no class twice, and bases are declared (they are further back in the list). -/
def Compiles : List Decl → Prop
  | [] => True
  | d :: ds => (∀ x ∈ ds, x.name ≠ d.name) ∧ (∀ b, d.base = some b → ∃ x ∈ ds, x.name = b) ∧ Compiles ds

/-- Time ran out, at the client or between ControlHub and target. -/
def TimedOut (x : Cause) : Prop := x = .deadline ∨ x = .returned .controlHubTargetTimeout ∨ x = .connect true

/-- The error codes of the protocols come from here. -/
def Real : Cause → Prop
  | .returned e => ∃ y : Exc, ofExc y = some e
  | _ => True

end Verif.Spec
