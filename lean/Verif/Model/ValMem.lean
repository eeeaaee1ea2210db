import Verif.Model.Validate
/-!
# Reading validated memory

Paths are relative to `/repo/uhal/uhal`.
-/

set_option autoImplicit false

namespace Verif

/-- Result of reading a handle: data, `exception::NonValidatedMemory`, undefined behaviour (shift by 32). -/
inductive ValOut
  | data (ws : List W)
  | nonValidated
  | ub
deriving DecidableEq, Repr

/-- `ValWord<T>::value`, src/common/ValMem.cpp:141-153; `ValVector<T>::value`, 375-387; a `ValHeader` only has its
validity. -/
def Handle.read (wrapNeg : Bool) (h : Heap) : Handle → ValOut
  | .hdr o => if h.valid o then .data [] else .nonValidated
  | .word o m =>
    if h.valid o then
      match maskedValue wrapNeg (h.word (.data o 0)) m with
      | some x => .data [x]
      | none => .ub
    else .nonValidated
  | .vec o n => if h.valid o then .data ((List.range n).map fun i => h.word (.data o i)) else .nonValidated

end Verif
