import Verif.Model.Xml
/-!
# Formatting of integers

Model of `_Integer< T , IntFmt< … > >::print`, /repo/uhal/log/include/uhal/log/log_inserters.integer.hxx:60-252, and of `sign_helper`,
/repo/uhal/log/src/common/log_inserters.integer.cpp:39-74. A number of type `T` is a bit vector, with a flag that says whether `T` is signed.
Simplifications: shifting a bit into or out of the sign of a signed `T` shifts bits (as the compilers do); the address
`lCharacterMappingCenter + tmp_value - ( value * 10 )` is the integer with this value, although the intermediate result `lCharacterMappingCenter + tmp_value`
is outside of the array; memory is little-endian. Writing behind `lBuffer` or reading outside of the tables is undefined (`none`).
-/

set_option autoImplicit false

namespace Verif.Fmt

/-- `int32_t i ( WIDTH-n ); if ( i > 0 ) for ( ; i!=0 ; --i ) aStr.put ( '0' )`, 64-73, 105-114, 129-138. -/
def pad (width n : Nat) : Str :=
  let i := (BitVec.ofNat 32 width - BitVec.ofNat 32 n).toInt
  if 0 < i then List.replicate i.toNat '0' else []

/-- `lMask` after 77 (and 168): the highest bit. -/
def top (n : Nat) : BitVec n := 1#n <<< (n - 1)

/-- The loop of 78-82; the first argument counts the remaining turns. -/
def binLoop {n : Nat} : Nat → BitVec n → Str
  | 0, _ => []
  | k + 1, v => (if v &&& top n ≠ 0#n then '1' else '0') :: binLoop k (v <<< 1)

/-- `IntFmt<bin , fixed , WIDTH>`, 60-83. -/
def binFixed (width : Nat) {n : Nat} (v : BitVec n) : Str := ['0', 'b'] ++ pad width n ++ binLoop n v

/-- The loop of 171-182. -/
def binVarLoop {n : Nat} : Nat → Bool → BitVec n → Str
  | 0, _, _ => []
  | k + 1, pr, v =>
    let cur : Bool := v &&& top n ≠ 0#n
    let pr := pr || cur
    (if pr then [if cur then '1' else '0'] else []) ++ binVarLoop k pr (v <<< 1)

/-- `IntFmt<bin , variable , WIDTH>`, 155-184. -/
def binVar {n : Nat} (v : BitVec n) : Str := if v = 0#n then ['0', 'b', '0'] else ['0', 'b'] ++ binVarLoop n false v

/-- `lCharacterMapping` for hexadecimal numbers, 127, 218. -/
def hexMap : Str := "0123456789ABCDEF".toList

/-- Byte `i` in memory. -/
def byteAt {n : Nat} (v : BitVec n) (i : Nat) : Nat := (v >>> (8 * i)).toNat % 256

/-- The loop of 142-148; `k`: the index of the byte that `lPtr` points to before `--lPtr`. -/
def hexLoop {n : Nat} (v : BitVec n) : Nat → Option Str
  | 0 => some []
  | k + 1 => do
    let a ← hexMap[(byteAt v k &&& 0xF0) >>> 4]?
    let b ← hexMap[byteAt v k &&& 0x0F]?
    let r ← hexLoop v k
    return a :: b :: r

/-- `IntFmt<hex , fixed , WIDTH>`, 124-149, for a type of `k` bytes. -/
def hexFixed (width k : Nat) (v : BitVec (8 * k)) : Option Str := do
  let r ← hexLoop v k
  return ['0', 'x'] ++ pad width (2 * k) ++ r

/-- The loop of 233-250. -/
def hexVarLoop {n : Nat} (v : BitVec n) : Nat → Bool → Option Str
  | 0, _ => some []
  | k + 1, pr => do
    let hi := (byteAt v k &&& 0xF0) >>> 4
    let pr := pr || hi != 0
    let a ← if pr then (hexMap[hi]?).map fun c => [c] else some []
    let lo := byteAt v k &&& 0x0F
    let pr := pr || lo != 0
    let b ← if pr then (hexMap[lo]?).map fun c => [c] else some []
    let r ← hexVarLoop v k pr
    return a ++ b ++ r

/-- `IntFmt<hex , variable , WIDTH>`, 216-252. -/
def hexVar (k : Nat) (v : BitVec (8 * k)) : Option Str :=
  if v = 0#(8 * k) then some ['0', 'x', '0']
  else do
    let r ← hexVarLoop v k false
    return ['0', 'x'] ++ r

/-- `lCharacterMapping` for decimal numbers, 89, 190; the centre is character 9. -/
def decMap : Str := "9876543210123456789".toList

/-- The value of a number of type `T`. -/
def value (signed : Bool) {n : Nat} (v : BitVec n) : Int := if signed then v.toInt else v.toNat

/-- The loop of 97-103 and 198-204: the characters in `lBuffer`. The first argument is the room left. -/
def decLoop : Nat → Int → Option Str
  | 0, _ => none
  | room + 1, tmp =>
    let v := tmp.tdiv 10
    let i := 9 + tmp - v * 10
    if i < 0 then none
    else do
      let c ← decMap[i.toNat]?
      if v = 0 then return [c]
      else
        let r ← decLoop room v
        return c :: r

/-- `sign_helper`, log_inserters.integer.cpp:39-74 for signed types, log_inserters.integer.hxx:55-56 for the others. -/
def sign (signed : Bool) (x : Int) : Str := if signed ∧ x < 0 then ['-'] else []

/-- `IntFmt<dec , fixed , WIDTH>`, 87-120. -/
def decFixed (width : Nat) (signed : Bool) {n : Nat} (v : BitVec n) : Option Str := do
  let b ← decLoop 24 (value signed v)
  return sign signed (value signed v) ++ pad width b.length ++ b.reverse

/-- `IntFmt<dec , variable , WIDTH>`, 188-211. -/
def decVar (signed : Bool) {n : Nat} (v : BitVec n) : Option Str := do
  let b ← decLoop 24 (value signed v)
  return sign signed (value signed v) ++ b.reverse

/-- The response code in the text of `IPbusCoreResponseCodeSet`, /repo/uhal/uhal/src/common/ProtocolIPbusCore.cpp:98:
`"0x" << std::hex << Integer( aResponseCode )` with the default format (decimal, variable width; log_inserters.integer.hpp:62-65). -/
def codeText (code : BitVec 8) : Option Str := do
  let r ← decVar false code
  return ['0', 'x'] ++ r

end Verif.Fmt
