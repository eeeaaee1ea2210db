import Verif.Model.Inspector
import Verif.Model.HubWire
import Verif.Model.Hub
/-!
# The dummy hardware

Model of `DummyHardware` (/repo/uhal/tests/src/common/DummyHardware.cpp, /repo/uhal/tests/include/uhal/tests/DummyHardware.hpp) with its histories, on the model of
`HostToTargetInspector` from which it is derived, and of `UDPDummyHardware` and `TCPDummyHardware`. Line numbers without a file refer to DummyHardware.cpp.

Simplifications: the delay of replies (120-126) and the debugging inspectors (101-109, 130-137) are left out; so are packets longer than the buffer of 100000 words.
If a packet causes an exception and, later on, a read behind its end, the result is `ub`.
What lies in `mReceive` behind the words received (from earlier packets) is not modelled: reading it is `ub`.
-/

set_option autoImplicit false

namespace Verif.Dummy
open Verif.Insp (HCall Req Out hostAnalyze)
open Verif.Hub (Bytes)

/-- `BUFFER_SIZE`, DummyHardware.hpp:62. -/
def bufferSize : Nat := 100000

/-- Members of `DummyHardware`, DummyHardware.hpp:195-222, and those members of `HostToTargetInspector` that it reads after the analysis, IPbusInspector.hpp:64-80.
`hist`, `traffic`, `rcvd` and `sent` are deques, front first. `ty = none`: `mType` has not been set (the constructor of the inspector does not set it). `dead`: an
exception has left `analyze`. `mPacketCounter` and `mPacketType` are always taken from `mPacketHeader` (IPbusInspector.cpp:75-78); all are 0 in IPbus 1.3. -/
structure DH where
  mem : W → W
  cfg : List W
  reply : List W
  hist : List (W × List W)
  last : W
  traffic : List (BitVec 8)
  rcvd : List W
  sent : List W
  hack : Bool
  ty : Option Ty
  wc : W
  id : W
  pkt : W
  dead : Bool

/-- The constructor, 56-71; `pid`: `uint16_t ( getpid() )`. The memory is allocated, with zeros, when it is used first. -/
def DH.init (pid : BitVec 16) (hack : Bool) : DH where
  mem := fun _ => 0
  cfg := (List.range 10).map fun i => pid.setWidth 32 <<< 16 ||| BitVec.ofNat 32 i
  reply := List.replicate bufferSize 0
  hist := List.replicate 5 (0, List.replicate bufferSize 0)
  last := 0x200000f0
  traffic := List.replicate 16 0
  rcvd := List.replicate 4 0
  sent := List.replicate 4 0
  hack := hack
  ty := none
  wc := 0
  id := 0
  pkt := 0
  dead := false

/-- `push_back`, then `pop_front`. -/
def push {α : Type} (q : List α) (x : α) : List α := (q ++ [x]).drop 1

/-- `mPacketCounter`, IPbusInspector.cpp:76. -/
def DH.cnt (d : DH) : W := (d.pkt >>> 8) &&& 0xFFFF#32

/-- `mPacketType`, IPbusInspector.cpp:77. -/
def DH.pktType (d : DH) : W := d.pkt &&& 0xF#32

/-- `lTemp`, 382-387, 413-418: the ID of the packet expected next. -/
def DH.expected (d : DH) : W :=
  let t := (((d.last >>> 8) &&& 0xFFFF#32) + 1#32) &&& 0xFFFF#32
  if t = 0#32 then 1#32 else t

/-- `GetEndpoint`, `SetEndpoint` and `mConfigurationSpace`; behind the end of the latter 0 (then `dead` is set). -/
def DH.tg (d : DH) : Spec.Target (W → W) := dummyTarget fun a => d.cfg.getD a.toNat 0

/-- What the functions for transactions have in common, e.g. 181-186: the headers of the packet and of the reply go to the histories; a header and data go to the
reply. -/
def DH.answer (d : DH) (hw : W) (ds : List W) : DH :=
  { d with rcvd := push d.rcvd d.pkt, reply := d.reply ++ hw :: ds, sent := push d.sent hw }

/-- The fields that `ExtractHeader` sets, IPbusInspector.cpp:97. -/
def DH.header (d : DH) (h : Hdr) : DH := { d with ty := some h.ty, wc := h.wc, id := h.id }

/-- Four bytes of the traffic history as a word, 425-438. -/
def quad : List (BitVec 8) → W
  | a :: b :: c :: e :: _ => (((a.setWidth 32 <<< 8 ||| b.setWidth 32) <<< 8 ||| c.setWidth 32) <<< 8) ||| e.setWidth 32
  | _ => 0

/-- The traffic history in words. -/
def DH.trafficWords (d : DH) : List W := (List.range 4).map fun i => quad (d.traffic.drop (4 * i))

/-- The word with the ID that is expected next, 420. -/
def DH.nextHeader (d : DH) : W := (d.last &&& 0xFF0000FF#32) ||| ((d.expected <<< 8) &&& 0x00FFFF00#32)

/-- The virtual functions, 178-480. The flag is the result of `control_packet_header`. -/
def cb (v : Ver) (d : DH) : HCall → DH × Bool
  | .control p =>
    let d := { d with pkt := p }
    if d.cnt ≠ 0#32 ∧ d.cnt ≠ d.expected then ({ d with traffic := push d.traffic 5 }, false)
    else
      let d := if d.cnt ≠ 0#32 then { d with last := p } else d
      ({ d with reply := d.reply ++ [p], traffic := push d.traffic 2 }, true)
  | .status p =>
    let d := { d with pkt := p }
    ({ d with
        reply := d.reply ++ [p, BitVec.ofNat 32 (bufferSize * 4), 5, d.nextHeader] ++ d.trafficWords ++ d.rcvd ++ d.sent
        traffic := push d.traffic 3 }, true)
  | .resend p =>
    let d := { d with pkt := p }
    let r := match d.hist.reverse.find? fun e => decide (e.1 = d.cnt) with
      | some e => e.2
      | none => d.reply
    ({ d with reply := r, traffic := push d.traffic 4 }, true)
  | .unknownPacket p => ({ d with pkt := p, traffic := push d.traffic 5 }, true)
  | .txn _ h .bot => ((d.header h).answer (replyHdr v h.ty 0 h.id) [], true)
  | .txn _ h (.niRead a) =>
    ({ (d.header h).answer (replyHdr v h.ty h.wc h.id) (rdLoop d.tg false h.wc.toNat a d.mem).1 with wc := 0 }, true)
  | .txn _ h (.read a) =>
    ({ (d.header h).answer (replyHdr v h.ty h.wc h.id) (rdLoop d.tg true h.wc.toNat a d.mem).1 with wc := 0 }, true)
  | .txn _ h (.cfgRead a) =>
    ({ (d.header h).answer (replyHdr v h.ty h.wc h.id) (cfgLoop d.tg h.wc.toNat a d.mem).1 with
        wc := 0
        dead := d.dead || (List.range h.wc.toNat).any fun i => decide (d.cfg.length ≤ (a + BitVec.ofNat 32 i).toNat) }, true)
  | .txn _ h (.niWrite a ds) =>
    ({ (d.header h).answer (replyHdr v h.ty (match v with | .v1 => 0 | .v2 => h.wc) h.id) [] with mem := wrLoop d.tg false ds a d.mem }, true)
  | .txn _ h (.write a ds) =>
    ({ (d.header h).answer (replyHdr v h.ty (match v with | .v1 => 0 | .v2 => h.wc) h.id) [] with mem := wrLoop d.tg true ds a d.mem }, true)
  | .txn _ h (.rmwSum a x) =>
    let r := d.tg.rd d.mem a
    let z := r.1 + x
    ({ (d.header h).answer (replyHdr v h.ty 1 h.id) [match v with | .v1 => z | .v2 => r.1] with mem := d.tg.wr r.2 a z }, true)
  | .txn _ h (.rmwBits a x o) =>
    let r := d.tg.rd d.mem a
    let z := (r.1 &&& x) ||| o
    ({ (d.header h).answer (replyHdr v h.ty 1 h.id) [match v with | .v1 => z | .v2 => r.1] with mem := d.tg.wr r.2 a z }, true)
  | .unknownType _ h => ((d.header h).answer ((expectedHeader v h.ty 0 h.id 1).getD 0) [], true)
  | .unparsable _ => (d, true)
  | .badInfo _ h => (d.header h, true)

/-- What happens to a packet. `threw`: `std::out_of_range` leaves the handler (and ends `run`). `ub`: an uninitialised `mType` decides what is sent, or words are
read that were not received. -/
inductive Res
  | ok (d : DH)
  | threw
  | ub

/-- Whether the words received are byte-swapped, 84-96. -/
def swapsIn (v : Ver) (hack : Bool) (ws : List W) : Bool :=
  match v, ws with
  | .v2, w :: _ => hack || decide (w = 0xF1000020#32) || decide (w &&& 0xFF0000FF#32 = 0xF2000020#32)
  | _, _ => false

/-- `AnalyzeReceivedAndCreateReply`, 80-155; `ws`: the words received. The reply is in the member `reply`. -/
def DH.process (v : Ver) (d : DH) (ws : List W) : Res :=
  match hostAnalyze v (cb v) true (if swapsIn v d.hack ws then ws.map htonl else ws) d with
  | .ub => .ub
  | .spins => .ub
  | .ret ok d _ =>
    if d.dead then .threw
    else
      let r := if ok then some d.reply
        else d.ty.bind fun ty => (expectedHeader v ty d.wc d.id (match v with | .v1 => 2 | .v2 => 1)).map fun h => d.reply ++ [h]
      match r with
      | none => .ub
      | some r =>
        let d := { d with hist := if d.pktType = 0#32 ∧ r ≠ [] then push d.hist (d.cnt, r) else d.hist }
        .ok { d with reply := if v = .v2 ∧ (d.hack = true ∨ d.pktType = 1#32) then r.map htonl else r }

/-- What happens to a datagram or to a message of a TCP connection, and what is sent: an answer, or nothing. -/
inductive Sent
  | ok (d : DH) (answer : Option Bytes)
  | threw
  | ub

/-- `UDPDummyHardware::handle_receive`, UDPDummyHardware.cpp:22-42. -/
def DH.udp (v : Ver) (d : DH) (pkt : Bytes) : Sent :=
  match DH.process v { d with reply := [] } (ofLE pkt) with
  | .ok d => .ok d (if d.reply = [] then none else some (wordBytes d.reply))
  | .threw => .threw
  | .ub => .ub

/-- `TCPDummyHardware::handle_read_chunk_payload`, TCPDummyHardware.cpp:62-97; `pkt`: what follows the byte count. -/
def DH.tcp (v : Ver) (d : DH) (pkt : Bytes) : Sent :=
  match DH.process v { d with reply := [0] } (ofLE pkt) with
  | .ok d => match d.reply with
    | _ :: w :: r => .ok { d with reply := htonl (BitVec.ofNat 32 (4 * (r.length + 1))) :: w :: r }
        (some (wordBytes (htonl (BitVec.ofNat 32 (4 * (r.length + 1))) :: w :: r)))
    | _ => .ok d none
  | .threw => .threw
  | .ub => .ub

/-- The 48 bytes of a status reply that are of no importance to the ControlHub: traffic history, headers received, headers sent. -/
def DH.junk (d : DH) : Bytes := wordBytes ((d.trafficWords ++ d.rcvd ++ d.sent).map htonl)

/-- Bytes as words, in one of two byte orders. -/
def unBytes (big : Bool) (b : Bytes) : List W := if big then (ofLE b).map htonl else ofLE b

/-- Words as bytes, in one of two byte orders. -/
def toBytes (big : Bool) (ws : List W) : Bytes := wordBytes (if big then ws.map htonl else ws)

/-- `execBytes` of `Verif/Model/HubWire.lean` for both byte orders. -/
def execIn (big : Bool) (tg : Spec.Target (W → W)) (m : W → W) (body : Bytes) : (W → W) × Bytes :=
  match analyzeLoop .v2 tg (unBytes big body).length (unBytes big body) m [] with
  | .done r m' => (m', toBytes big r)
  | _ => (m, [])

/-- A sequence of datagrams; `none` if the program has not survived. Result: state and answers. -/
def DH.udps (v : Ver) (d : DH) : List Bytes → Option (DH × List (Option Bytes))
  | [] => some (d, [])
  | p :: ps => match d.udp v p with
    | .ok d r => (d.udps v ps).map fun x => (x.1, r :: x.2)
    | _ => none

end Verif.Dummy
