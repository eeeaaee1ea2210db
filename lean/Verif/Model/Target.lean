import Verif.Model.Header
import Verif.Spec.Seq
/-!
# The test target

Models `HostToTargetInspector::analyze` (uhal/src/common/IPbusInspector.cpp:60-194) together with the overrides of
`DummyHardware` (uhal/tests/src/common/DummyHardware.cpp:80-404), paths relative to `/repo/uhal`.

Simplifications: the memory is any `Spec.Target` (`dummyTarget` is the one of `DummyHardware`); the configuration space is
total (`mConfigurationSpace.at` throws behind its ten entries); the histories (traffic, headers, replies) and status and
resend packets are not modelled; `mBigEndianHack` is off; after a bad header the reply is not modelled (`refused`).
-/

set_option autoImplicit false

namespace Verif
open Spec

/-- Outcome of `analyze`: reply words and memory; a bad header; undefined behaviour (reading behind the request). -/
inductive AOut (σ : Type)
  | done (reply : List W) (m : σ)
  | refused
  | ub

variable {σ : Type}

/-- Reads of `n` words: the loops of `read` and `ni_read`, DummyHardware.cpp:191-223. -/
def rdLoop (tg : Target σ) (inc : Bool) : Nat → W → σ → List W × σ
  | 0, _, m => ([], m)
  | n + 1, a, m =>
    let r := tg.rd m a
    let q := rdLoop tg inc n (if inc then a + 1 else a) r.2
    (r.1 :: q.1, q.2)

/-- `readConfigurationSpace`, DummyHardware.cpp:227-241. -/
def cfgLoop (tg : Target σ) : Nat → W → σ → List W × σ
  | 0, _, m => ([], m)
  | n + 1, a, m =>
    let r := tg.cfg m a
    let q := cfgLoop tg n (a + 1) r.2
    (r.1 :: q.1, q.2)

/-- The loops of `write` and `ni_write`, DummyHardware.cpp:245-299. -/
def wrLoop (tg : Target σ) (inc : Bool) : List W → W → σ → σ
  | [], _, m => m
  | d :: ds, a, m => wrLoop tg inc ds (if inc then a + 1 else a) (tg.wr m a d)

/-- Reply header; `CalculateHeader` throws for unsupported types (not reached, `ExtractHeader` has accepted the type). -/
def replyHdr (v : Ver) (ty : Ty) (wc id : W) : W := (expectedHeader v ty wc id 0).getD 0

/-- One transaction: reply words, memory and the words behind it; `none`: unknown type; `some none`: reads behind the
request. IPbusInspector.cpp:131-176, DummyHardware.cpp:179-374. -/
def execTxn (v : Ver) (tg : Target σ) (h : Hdr) (t : List W) (m : σ) : Option (Option (List W × σ × List W)) :=
  match h.ty with
  | .bot => some (some ([replyHdr v .bot 0 h.id], m, t))
  | .niRead => match t with
    | a :: t => let q := rdLoop tg false h.wc.toNat a m; some (some (replyHdr v .niRead h.wc h.id :: q.1, q.2, t))
    | _ => some none
  | .read => match t with
    | a :: t => let q := rdLoop tg true h.wc.toNat a m; some (some (replyHdr v .read h.wc h.id :: q.1, q.2, t))
    | _ => some none
  | .configRead => match t with
    | a :: t => let q := cfgLoop tg h.wc.toNat a m; some (some (replyHdr v .configRead h.wc h.id :: q.1, q.2, t))
    | _ => some none
  | .niWrite => match t with
    | a :: t =>
      if h.wc.toNat ≤ t.length then
        some (some ([replyHdr v .niWrite (match v with | .v1 => 0 | .v2 => h.wc) h.id],
          wrLoop tg false (t.take h.wc.toNat) a m, t.drop h.wc.toNat))
      else some none
    | _ => some none
  | .write => match t with
    | a :: t =>
      if h.wc.toNat ≤ t.length then
        some (some ([replyHdr v .write (match v with | .v1 => 0 | .v2 => h.wc) h.id],
          wrLoop tg true (t.take h.wc.toNat) a m, t.drop h.wc.toNat))
      else some none
    | _ => some none
  | .rmwSum => match t with
    | a :: x :: t =>
      let r := tg.rd m a
      let z := r.1 + x
      some (some ([replyHdr v .rmwSum 1 h.id, match v with | .v1 => z | .v2 => r.1], tg.wr r.2 a z, t))
    | _ => some none
  | .rmwBits => match t with
    | a :: x :: o :: t =>
      let r := tg.rd m a
      let z := (r.1 &&& x) ||| o
      some (some ([replyHdr v .rmwBits 1 h.id, match v with | .v1 => z | .v2 => r.1], tg.wr r.2 a z, t))
    | _ => some none
  | .rai => none

/-- The `do`-`while` loop of `analyze`, IPbusInspector.cpp:93-178. In IPbus 2.0 an unparsable header ends the packet
silently (103-111, `aContinueOnError` is its default: it re-enters `analyze`, not modelled: `refused`). -/
def analyzeLoop (v : Ver) (tg : Target σ) : Nat → List W → σ → List W → AOut σ
  | 0, _, _, _ => .ub
  | _ + 1, [], _, _ => .ub
  | fuel + 1, w :: t, m, reply =>
    match extractHeader v w with
    | none => .refused
    | some h =>
      if h.info ≠ reqInfo v then .refused
      else match execTxn v tg h t m with
        | none => .refused
        | some none => .ub
        | some (some (r, m', t')) => if t' = [] then .done (reply ++ r) m' else analyzeLoop v tg fuel t' m' (reply ++ r)

/-- State of the target: memory and `mLastPacketHeader`. -/
structure Dev (σ : Type) where
  mem : σ
  last : W

/-- `AnalyzeReceivedAndCreateReply` on a control packet, DummyHardware.cpp:80-124, with `control_packet_header`, 378-404.
`none`: no (modelled) reply. -/
def dummyReply (v : Ver) (tg : Target σ) (d : Dev σ) (ws : List W) : Option (List W) × Dev σ :=
  match v with
  | .v1 =>
    match analyzeLoop .v1 tg ws.length ws d.mem [] with
    | .done r m => (some r, { d with mem := m })
    | _ => (none, d)
  | .v2 =>
    match ws with
    | [] => (none, d)
    | p :: t =>
      if p &&& 0xF#32 ≠ 0#32 then (none, d)
      else
        let cnt := (p >>> 8) &&& 0xFFFF#32
        let lTemp := (((d.last >>> 8) &&& 0xFFFF#32) + 1#32) &&& 0xFFFF#32
        let next := if lTemp = 0#32 then 1#32 else lTemp
        if cnt ≠ 0#32 ∧ cnt ≠ next then (none, d)
        else
          let d' := if cnt ≠ 0#32 then { d with last := p } else d
          match analyzeLoop .v2 tg t.length t d.mem [p] with
          | .done r m => (some r, { d' with mem := m })
          | _ => (none, d')

/-- `SetEndpoint`, `GetEndpoint`, DummyHardware.cpp:160-175, and a constant configuration space. -/
def dummyTarget (cfg : W → W) : Target (W → W) where
  rd m a := (m (a &&& 0x00FFFFFF), m)
  wr m a d := fun b => if b = a &&& 0x00FFFFFF then d else m b
  cfg m a := (cfg a, m)

/-- `htonl` on a little-endian host. -/
def htonl (w : W) : W :=
  BitVec.ofNat 32 (w.toNat % 256 * 16777216 + w.toNat / 256 % 256 * 65536 + w.toNat / 65536 % 256 * 256 + w.toNat / 16777216)

/-- A ControlHub in front of the target that forwards every packet: the reply is preceded by the byte count and the
target's address with error code 0 (/repo/controlhub/src/ch_transaction_manager.erl:191). Without a ControlHub the target itself.
C51 relates this to the model of the ControlHub. -/
def viaHub (c : Cfg) (tg : Target σ) (d : Dev σ) (ws : List W) : Option (List W) × Dev σ :=
  match c.hub with
  | none => dummyReply c.ver tg d ws
  | some (ip, port) =>
    let r := dummyReply c.ver tg d (ws.drop 2)
    (r.1.map fun ws => htonl (BitVec.ofNat 32 (4 * ws.length + 8)) :: ip :: port.setWidth 32 :: ws, r.2)

end Verif
