import Verif.Spec.Prog
/-!
# When a reply answers a packet

Independent of `validate`: fields of the header words, the parser of `Spec.Txn` for the request, and the
assignment of slots to transactions of `Spec.Prog`.
-/

set_option autoImplicit false

namespace Verif.Spec

/-- Type field of a transaction. -/
def Txn.ty : Txn → Ty
  | .bot => .bot
  | .read inc _ _ => if inc then .read else .niRead
  | .write inc _ _ => if inc then .write else .niWrite
  | .rmwBits .. => .rmwBits
  | .rmwSum .. => .rmwSum
  | .cfgRead .. => .configRead

/-- What is wrong with the reply header `w` of a request with id `id` and type `ty`; `none`: nothing. -/
def verdict (v : Ver) (id : Nat) (ty : Ty) (w : W) : Option Exc :=
  if field w 28 4 ≠ verNibble v ∨ tyOf v (field w (tyLow v) (8 - tyLow v)) = none then some .unparsableReply
  else if field w (28 - idBits v) (idBits v) ≠ id ∨ tyOf v (field w (tyLow v) (8 - tyLow v)) ≠ some ty then
    some .fieldsIncorrect
  else if field w 0 (infoBits v) ≠ 0 then some (.responseCode (BitVec.ofNat 8 (field w 0 (infoBits v))))
  else none

/-- First complaint about the reply headers of a list of requests with their header locations. -/
def verdicts (v : Ver) (rd : Loc → W) (l : List ((Nat × Txn) × Loc)) : Option Exc :=
  l.findSome? fun p => verdict v p.1.1 p.1.2.ty (rd p.2)

/-- What a ControlHub's answer says: address words must echo the device, the error code (network order, upper
half) must be 0; 1, 3 and 4 are timeouts. -/
def hubVerdict (ip port a p : Nat) : Option Exc :=
  let code := p / 2 ^ 24 % 256 + p / 2 ^ 16 % 256 * 256
  if a ≠ ip then some .hubAddress
  else if p % 2 ^ 16 ≠ port then some .hubAddress
  else if code = 0 then none
  else if code = 1 ∨ code = 3 ∨ code = 4 then some .hubTimeout
  else some .hubError

/-- The whole verdict on the memory `rd` after a reply to packet `b` of a client has been received: the
ControlHub words, the packet header (IPbus 2.0 targets return the header sent), the transactions in order. -/
def packetVerdict (c : Cfg) (rd : Loc → W) (b : Buf) : Option (Option Exc) :=
  match c.hub, b.reply with
  | some (ip, port), _ :: a :: p :: sl =>
    match hubVerdict ip.toNat port.toNat (rd a.loc).toNat (rd p.loc).toNat with
    | some e => some (some e)
    | none => inner (b.send.drop 2) sl
  | some _, _ => none
  | none, sl => inner b.send sl
where
  /-- The IPbus part. -/
  inner (ws : List W) (sl : List Slot) : Option (Option Exc) :=
    match parsePacket c.ver ws with
    | none => none
    | some (_, txns) =>
      match c.ver, ws, sl with
      | .v1, _, sl => body txns sl
      | .v2, h :: _, p :: sl => if rd p.loc ≠ h then some (some .packetHeader) else body txns sl
      | .v2, _, _ => none
  /-- The transactions. -/
  body (txns : List (Nat × Txn)) (sl : List Slot) : Option (Option Exc) :=
    (assign (txns.map Prod.snd) sl).map fun l =>
      verdicts c.ver rd (txns.zip (l.map fun q => q.2.1))

end Verif.Spec

namespace Verif.Spec

/-- A reply header that answers the request `(id, ty)`: version, type, id, success code. -/
def HeaderOK (v : Ver) (id : Nat) (ty : Ty) (w : W) : Prop :=
  field w 28 4 = verNibble v ∧ tyOf v (field w (tyLow v) (8 - tyLow v)) = some ty ∧
  field w (28 - idBits v) (idBits v) = id ∧ field w 0 (infoBits v) = 0

/-- The memory `rd` holds a complete and successful answer to packet `b`: the ControlHub words echo the device
with error code 0, the packet header (IPbus 2.0) is the one sent, and the header slot of every transaction
holds a matching header. -/
structure Answers (c : Cfg) (rd : Loc → W) (b : Buf) : Prop where
  hub : ∀ ip port, c.hub = some (ip, port) → ∃ s0 a p sl, b.reply = s0 :: a :: p :: sl ∧ rd a.loc = ip ∧
    (rd p.loc).toNat = port.toNat
  pkt : c.ver = .v2 → ∃ h t p sl, ipbusPart c.hub b.send = h :: t ∧
    b.reply.drop (if c.hub.isSome then 3 else 0) = p :: sl ∧ rd p.loc = h
  txns : ∃ id txns l, parsePacket c.ver (ipbusPart c.hub b.send) = some (id, txns) ∧
    assign (txns.map Prod.snd) (b.reply.drop ((if c.hub.isSome then 3 else 0) + (match c.ver with | .v1 => 0 | .v2 => 1)))
      = some l ∧
    ∀ q ∈ txns.zip (l.map fun q => q.2.1), HeaderOK c.ver q.1.1 q.1.2.ty (rd q.2)

end Verif.Spec
