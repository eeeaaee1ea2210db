/-!
# IPbus transaction headers

Paths are relative to `/repo/uhal/uhal`.
-/

set_option autoImplicit false

namespace Verif

/-- A `uint32_t`. -/
abbrev W := BitVec 32

/-- The two protocol versions instantiated in the code:
`IPbus<1,3>` and `IPbus<2,0>` (src/common/ClientFactory.cpp:71-81). -/
inductive Ver
  | v1
  | v2
deriving DecidableEq, Repr

/-- `IPbusTransactionType`, include/uhal/ProtocolIPbusCore.hpp:72-83. -/
inductive Ty
  | bot
  | read
  | write
  | rmwBits
  | rmwSum
  | rai
  | niRead
  | niWrite
  | configRead
deriving DecidableEq, Repr

/-- The type code chosen by the `switch` of `IPbus<1,m>::CalculateHeader`,
src/common/ProtocolIPbus.cpp:110-144. `none` = the `ValidationError` thrown at 138-143. -/
def typeCode1 : Ty → Option (BitVec 8)
  | .bot => some 0xF8
  | .read => some 0x18
  | .write => some 0x20
  | .rmwBits => some 0x28
  | .rmwSum => some 0x30
  | .rai => some 0xF0
  | .niRead => some 0x40
  | .niWrite => some 0x48
  | .configRead => none

/-- The type code chosen by the `switch` of `IPbus<2,m>::CalculateHeader`,
src/common/ProtocolIPbus.cpp:315-352. `none` = the `ValidationError`s thrown at 319-324, 346-351. -/
def typeCode2 : Ty → Option (BitVec 8)
  | .bot => none
  | .read => some 0x00
  | .write => some 0x10
  | .niRead => some 0x20
  | .niWrite => some 0x30
  | .rmwBits => some 0x40
  | .rmwSum => some 0x50
  | .configRead => some 0x60
  | .rai => none

/-- `IPbus<1,m>::CalculateHeader`, src/common/ProtocolIPbus.cpp:108-147. `none` = throws. -/
def calcHeader1 (ty : Ty) (wc id : W) (info : BitVec 8) : Option W :=
  (typeCode1 ty).map fun t =>
    0x10000000#32 ||| ((id &&& 0x7ff#32) <<< 17) ||| ((wc &&& 0x1ff#32) <<< 8)
      ||| t.setWidth 32 ||| (info &&& 0x7#8).setWidth 32

/-- `IPbus<2,m>::CalculateHeader`, src/common/ProtocolIPbus.cpp:312-355. `none` = throws. -/
def calcHeader2 (ty : Ty) (wc id : W) (info : BitVec 8) : Option W :=
  (typeCode2 ty).map fun t =>
    0x20000000#32 ||| ((id &&& 0xfff#32) <<< 16) ||| ((wc &&& 0xff#32) <<< 8)
      ||| t.setWidth 32 ||| (info &&& 0xF#8).setWidth 32

/-- The out-parameters of `ExtractHeader`. -/
structure Hdr where
  ty : Ty
  wc : W
  id : W
  info : BitVec 8
deriving DecidableEq, Repr

/-- The `switch ( aHeader & 0xF8 )` of `IPbus<1,m>::ExtractHeader`,
src/common/ProtocolIPbus.cpp:168-197. -/
def decodeType1 (h : W) : Option Ty :=
  let c := h &&& 0xF8#32
  if c = 0xF8#32 then some .bot
  else if c = 0x18#32 then some .read
  else if c = 0x20#32 then some .write
  else if c = 0x28#32 then some .rmwBits
  else if c = 0x30#32 then some .rmwSum
  else if c = 0xF0#32 then some .rai
  else if c = 0x40#32 then some .niRead
  else if c = 0x48#32 then some .niWrite
  else none

/-- The `switch ( aHeader & 0xF0 )` of `IPbus<2,m>::ExtractHeader`,
src/common/ProtocolIPbus.cpp:376-402. -/
def decodeType2 (h : W) : Option Ty :=
  let c := h &&& 0xF0#32
  if c = 0x00#32 then some .read
  else if c = 0x10#32 then some .write
  else if c = 0x20#32 then some .niRead
  else if c = 0x30#32 then some .niWrite
  else if c = 0x40#32 then some .rmwBits
  else if c = 0x50#32 then some .rmwSum
  else if c = 0x60#32 then some .configRead
  else none

/-- `IPbus<1,m>::ExtractHeader`, src/common/ProtocolIPbus.cpp:157-203. `none` = returns false.
(The log messages are not modelled.) -/
def extractHeader1 (h : W) : Option Hdr :=
  if (h >>> 28) &&& 0xF#32 ≠ 1#32 then none
  else (decodeType1 h).map fun ty =>
    { ty, wc := (h >>> 8) &&& 0x1ff#32, id := (h >>> 17) &&& 0x7ff#32,
      info := (h &&& 0x3#32).setWidth 8 }

/-- `IPbus<2,m>::ExtractHeader`, src/common/ProtocolIPbus.cpp:365-408. `none` = returns false. -/
def extractHeader2 (h : W) : Option Hdr :=
  if (h >>> 28) &&& 0xF#32 ≠ 2#32 then none
  else (decodeType2 h).map fun ty =>
    { ty, wc := (h >>> 8) &&& 0xff#32, id := (h >>> 16) &&& 0xfff#32,
      info := (h &&& 0xf#32).setWidth 8 }

/-- `implementCalculateHeader`, src/common/ProtocolIPbus.cpp:206-210 and 411-415. -/
def calcHeader : Ver → Ty → W → W → BitVec 8 → Option W
  | .v1 => calcHeader1
  | .v2 => calcHeader2

/-- `implementExtractHeader`, src/common/ProtocolIPbus.cpp:213-217 and 418-422. -/
def extractHeader : Ver → W → Option Hdr
  | .v1 => extractHeader1
  | .v2 => extractHeader2

/-- `ExpectedHeader`, src/common/ProtocolIPbus.cpp:150-154 (v1: `aInfoCode | 0x4`) and 358-362 (v2). -/
def expectedHeader : Ver → Ty → W → W → BitVec 8 → Option W
  | .v1, ty, wc, id, info => calcHeader1 ty wc id (info ||| 0x4#8)
  | .v2, ty, wc, id, info => calcHeader2 ty wc id info

/-- `requestTransactionInfoCode`, include/uhal/ProtocolIPbus.hpp:150-153, 279-282. -/
def reqInfo : Ver → BitVec 8
  | .v1 => 0x0
  | .v2 => 0xF

/-- `getMaxTransactionWordCount`, include/uhal/ProtocolIPbus.hpp:156-159, 285-288. -/
def maxWC : Ver → W
  | .v1 => 0x1ff
  | .v2 => 0xff

end Verif
