import Verif.Model.Bits
/-!
# The packets of the performance tester

The macros of /repo/controlhub/scripts/perf_tester.escript: requests, and the replies that are expected. As lists of 32-bit words, all in big-endian order in the script.
-/

set_option autoImplicit false

namespace Verif.PerfPackets

/-- `0:(32*n)` -/
def zeros (n : Nat) : List W := List.replicate n 0#32

/-- `IPBUS_TXFULL_REQ`, 19-26. -/
def txReq : List W := [0x200000f0#32, 0x2cbaff1f#32, 0x1000#32] ++ zeros 0xff ++ [0x20006c1f#32, 0x1000#32] ++ zeros 0x6c

/-- `IPBUS_TXFULL_REP`, 27-30. -/
def txRep : List W := [0x200000f0#32, 0x2cbaff10#32, 0x20006c10#32]

/-- `IPBUS_BOTHFULL_REQ`, 33-44. -/
def bothReq : List W :=
  [0x200000f0#32, 0x2cbaff1f#32, 0x1000#32] ++ zeros 0xff ++ [0x2abcff0f#32, 0x1000#32, 0x2def561f#32, 0x1000#32] ++ zeros 0x56 ++ [0x2fed5a0f#32, 0x1000#32]

/-- `IPBUS_BOTHFULL_REP`, 45-52. -/
def bothRep : List W := [0x200000f0#32, 0x2cbaff10#32, 0x2abcff00#32] ++ zeros 0xff ++ [0x2def5610#32, 0x2fed5a00#32] ++ zeros 0x5a

/-- `IPBUS_TXFULL_PRAM_REQ`, 55-65. -/
def pramTxReq : List W :=
  [0x200000f0#32, 0x2000011f#32, 0x00002000#32, 0#32, 0x2000ff3f#32, 0x00002001#32] ++ zeros 0xff ++ [0x20005c3f#32, 0x00002001#32] ++ zeros 0x5c

/-- `IPBUS_TXFULL_PRAM_REP`, 66-70. -/
def pramTxRep : List W := [0x200000f0#32, 0x20000110#32, 0x2000ff30#32, 0x20005c30#32]

/-- `IPBUS_RXFULL_PRAM_REQ`, 73-81. -/
def pramRxReq : List W := [0x200000f0#32, 0x2000011f#32, 0x00002000#32, 0#32, 0x2000ff2f#32, 0x00002001#32, 0x20005c2f#32, 0x00002001#32]

/-- `IPBUS_RXFULL_PRAM_REP`, 82-88. -/
def pramRxRep : List W := [0x200000f0#32, 0x20000110#32, 0x2000ff20#32] ++ zeros 0xff ++ [0x20005c20#32] ++ zeros 0x5c

/-- `IPBUS_BOTHFULL_PRAM_REQ`, 91-108, which is not used. -/
def pramBothReq : List W :=
  [0x200000f0#32, 0x2000011f#32, 0x00002000#32, 0#32, 0x2000ff3f#32, 0x00002001#32] ++ zeros 0xff ++ [0x2000553f#32, 0x00002001#32] ++ zeros 0x55 ++
    [0x2000011f#32, 0x00002000#32, 0#32, 0x2000ff2f#32, 0x20002001#32, 0x20005c2f#32, 0x00002001#32]

/-- `IPBUS_BOTHFULL_PRAM_REP`, 109-118. -/
def pramBothRep : List W :=
  [0x200000f0#32, 0x20000110#32, 0x2000ff30#32, 0x20005530#32, 0x20000110#32, 0x2000ff20#32] ++ zeros 0xff ++ [0x20005c20#32] ++ zeros 0x5c

end Verif.PerfPackets
