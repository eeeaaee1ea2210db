import Verif.Model.Make
import Verif.Model.Paged
/-!
# What the packet builder takes from a PCIe or mmap client

`getMaxSendSize` and `getMaxReplySize` connect first (ProtocolPCIe.cpp:425-440, ProtocolMmap.cpp:370-385), so that the packet sizes are those that `connect` leaves
(`PCl.connect` of `Verif/Model/Paged.lean`).
-/

set_option autoImplicit false

namespace Verif.Make

/-- The largest packet, in words, of a client whose URI says `packet` (0: nothing), for pages of `size` words: ProtocolPCIe.cpp:469-470, ProtocolMmap.cpp:411-412. -/
def pktWords (packet size : Nat) : Nat := if packet = 0 ∨ packet ≥ size then (size + 2 ^ 32 - 1) % 2 ^ 32 else packet

/-- A PCIe or mmap client for pages of `size` words: the constants of its transport and of its packet builder. The mmap client takes pages of more than 4096 words for ones of 4096
(ProtocolMmap.cpp:410). -/
def Client.paged (wrapNeg : Bool) (size : Nat) : Client → Option (PCfg × Cfg)
  | .pcie _ _ events _ inFlight packet wa =>
    some (⟨if events.isSome then .intr else .poll, inFlight, packet, wa⟩,
      ⟨.v2, none, BitVec.ofNat 32 (4 * pktWords packet size), BitVec.ofNat 32 (4 * pktWords packet size), wrapNeg⟩)
  | .mmap _ _ _ inFlight packet =>
    some (⟨.mmap, inFlight, packet, false⟩,
      ⟨.v2, none, BitVec.ofNat 32 (4 * pktWords packet (min 4096 size)), BitVec.ofNat 32 (4 * pktWords packet (min 4096 size)), wrapNeg⟩)
  | _ => none

end Verif.Make
