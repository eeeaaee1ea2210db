import Verif.Model.Target
import Verif.Model.Tcp
import Verif.Model.TraMgr
/-!
# Words of the client and bytes on the wire

The client (uHAL) keeps packets as 32-bit words in memory and writes the memory to the socket; the ControlHub sees bytes. The client runs
on a little-endian host.
-/

set_option autoImplicit false

namespace Verif
open Verif.Hub (Bytes)

/-- A word in the memory of a little-endian host. -/
def leBytes (w : W) : Bytes := [w.toNat % 256, w.toNat / 256 % 256, w.toNat / 65536 % 256, w.toNat / 16777216]

/-- Words in memory. -/
def wordBytes (ws : List W) : Bytes := ws.flatMap leBytes

/-- Memory as words. -/
def ofLE : Bytes → List W
  | a :: b :: c :: d :: r => BitVec.ofNat 32 (a + 256 * b + 65536 * c + 16777216 * d) :: ofLE r
  | _ => []

/-- What is written for a frame, /repo/uhal/uhal/src/common/ProtocolTCP.cpp:225-243: the number of bytes, through `htonl`, and the words. -/
def TcpFrame.bytes (f : TcpFrame) : Bytes := wordBytes (htonl f.count :: f.words)

/-- The target of the model in `Verif/Model/Target.lean` as a target of the model in `Verif/Model/Hub.lean`: the body of a control packet
is executed by the loop of `analyze` (/repo/uhal/uhal/src/common/IPbusInspector.cpp:93-178). What it does with a body that it refuses is
not modelled: nothing happens and the reply is empty. -/
def execBytes {σ : Type} (tg : Spec.Target σ) (m : σ) (body : Bytes) : σ × Bytes :=
  match analyzeLoop .v2 tg (ofLE body).length (ofLE body) m [] with
  | .done r m' => (m', wordBytes r)
  | _ => (m, [])

/-- The address of the target in the preamble of a client, as the ControlHub reads it: the client has applied `htonl` and `htons`
(/repo/uhal/uhal/src/common/ProtocolControlHub.cpp:151-152). -/
def hubAddr (ip : W) (port : BitVec 16) : TraMgr.Addr := ⟨(htonl ip).toNat, (bswap16 port).toNat⟩

end Verif
