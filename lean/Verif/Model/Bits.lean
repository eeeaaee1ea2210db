import Verif.Model.Header
/-!
# Masked access

Paths are relative to `/repo/uhal/uhal`.
-/

set_option autoImplicit false

namespace Verif

/-- `utilities::TrailingRightBits`, src/common/utilities/bits.cpp:44-81, with the negation at line 48
evaluated with wrap-around. -/
def trbWrap (x0 : W) : Nat :=
  let x := x0 &&& (-x0)
  let r := 32
  let r := if x ≠ 0#32 then r - 1 else r
  let r := if x &&& 0x0000FFFF#32 ≠ 0#32 then r - 16 else r
  let r := if x &&& 0x00FF00FF#32 ≠ 0#32 then r - 8 else r
  let r := if x &&& 0x0F0F0F0F#32 ≠ 0#32 then r - 4 else r
  let r := if x &&& 0x33333333#32 ≠ 0#32 then r - 2 else r
  let r := if x &&& 0x55555555#32 ≠ 0#32 then r - 1 else r
  r

/-- `TrailingRightBits` with the C++ rule for `-signed(aValue)` (bits.cpp:48): negating `INT_MIN`
(argument `0x80000000`) overflows, which is undefined behaviour (`none`) unless the compiler defines
signed overflow to wrap (`wrapNeg`, e.g. gcc's `-fwrapv`). -/
def trb (wrapNeg : Bool) (x : W) : Option Nat :=
  if wrapNeg = false ∧ x = 0x80000000#32 then none else some (trbWrap x)

/-- `x << n` / `x >> n` of a `uint32_t`: undefined (`none`) when `n ≥ 32`. -/
def shl (x : W) (n : Nat) : Option W := if n < 32 then some (x <<< n) else none
/-- See `shl`. -/
def shr (x : W) (n : Nat) : Option W := if n < 32 then some (x >>> n) else none

/-- Outcome of the argument check in the masked `ClientInterface::write`. -/
inductive MaskedArg
  /-- the terms passed to `implementRMWbits`: AND term and OR term -/
  | rmw (andTerm orTerm : W)
  /-- `BitsSetWhichAreForbiddenByBitMask` -/
  | forbidden
  /-- undefined behaviour (shift by 32, negation overflow) -/
  | ub
deriving DecidableEq, Repr

/-- The computation in `ClientInterface::write(addr, source, mask)`,
src/common/ClientInterface.cpp:415-442, up to the call of `implementRMWbits`. -/
def maskedArg (wrapNeg : Bool) (source mask : W) : MaskedArg :=
  match trb wrapNeg mask with
  | none => .ub
  | some lShiftSize =>
    match shl source lShiftSize with
    | none => .ub
    | some lBitShiftedSource =>
      match shr lBitShiftedSource lShiftSize with
      | none => .ub
      | some back =>
        if back ≠ source then .forbidden
        else if lBitShiftedSource &&& ~~~mask ≠ 0#32 then .forbidden
        else .rmw (~~~mask) (lBitShiftedSource &&& mask)

/-- The expression returned by `ValWord<T>::value()` on valid memory,
src/common/ValMem.cpp:141-146. `none` = undefined behaviour. -/
def maskedValue (wrapNeg : Bool) (value mask : W) : Option W :=
  match trb wrapNeg mask with
  | none => none
  | some n => shr (value &&& mask) n

end Verif
