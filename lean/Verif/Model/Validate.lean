import Verif.Model.Client
/-!
# Receiving and validating replies

Models the memory replies are received into, the scattering of a received reply over the reply slots, and
`validate` of `IPbusCore`, `IPbus<2,0>`, `ControlHub` and `ClientInterface`. Paths are relative to
`/repo/uhal/uhal`.

Simplifications:
* Replies are lists of whole 32-bit words.
* `mReceivePacketHeader` and `mPreambles` are deques whose elements are named by the number of the preamble
  (`Loc.pkt`, `Loc.hub`); popping an element ends its lifetime in the C++ and is not modelled.
* The text of the error messages is not modelled, except that producing them reads the word behind the
  request header (ProtocolIPbusCore.cpp:159, 174, 198, 207), which may lie outside the allocation.
-/

set_option autoImplicit false

namespace Verif

/-- Memory of the user's objects (`_ValHeader_`, `_ValWord_`, `_ValVector_`, include/uhal/ValMem.hpp) and of
the packet headers: the words, and the `valid` flag of each object. -/
structure Heap where
  word : Loc → W
  valid : Nat → Bool

/-- Fresh objects are zero and invalid (src/common/ValMem.cpp:43-66). -/
def Heap.fresh : Heap := ⟨fun _ => 0, fun _ => false⟩

/-- The location `i` words behind a pointer. Only values of objects are larger than one word. -/
def Loc.plus : Loc → Nat → Loc
  | .data o off, i => .data o (off + i)
  | l, _ => l

/-- Store one word. -/
def Heap.set (h : Heap) (l : Loc) (w : W) : Heap := { h with word := fun l' => if l' = l then w else h.word l' }

/-- `memcpy` of words to a pointer. -/
def Heap.copy (h : Heap) (l : Loc) : Nat → List W → Heap
  | _, [] => h
  | i, w :: ws => (h.set (l.plus i) w).copy l (i + 1) ws

/-- The loop that distributes the received bytes over the reply slots, src/common/ProtocolUDP.cpp:344-355
(`break` when everything has been copied); TCP does the same through a scattered `boost::asio::read`
(ProtocolTCP.cpp:446-458), PCIe and mmap through the loops of their `read` functions. -/
def scatter (h : Heap) : List Slot → List W → Heap
  | [], _ => h
  | s :: ss, ws => if ws = [] then h else scatter (h.copy s.loc 0 (ws.take s.len)) ss (ws.drop s.len)

/-- Result of `validate`: null pointer, exception, undefined behaviour. -/
inductive VOut
  | ok
  | err (e : Exc)
  | ub
deriving DecidableEq, Repr

/-- Words by which `aSendBufferStart` advances, src/common/ProtocolIPbusCore.cpp:219-240. -/
def sendAdvance (h : Hdr) : Nat :=
  match h.ty with
  | .bot => 1
  | .rai => 1
  | .niRead => 2
  | .read => 2
  | .configRead => 2
  | .niWrite => 2 + h.wc.toNat
  | .write => 2 + h.wc.toNat
  | .rmwSum => 3
  | .rmwBits => 4

/-- Whether `aReplyStartIt` advances by two slots, src/common/ProtocolIPbusCore.cpp:244-261. -/
def replyTwo : Ty → Bool
  | .bot => false
  | .niWrite => false
  | .write => false
  | _ => true

/-- The slots after the advance (`rest`: those behind `aReplyStartIt`); `none`: `( aReplyStartIt+1 )->second`
is read behind the end of the deque. -/
def replyAdvance (ty : Ty) (rest : List Slot) : Option (List Slot) :=
  if replyTwo ty then
    match rest with
    | [] => none
    | _ :: r => some r
  else some rest

/-- The error returns of `IPbusCore::validate`: `cap` is the number of words from `aSendBufferStart` to the
end of the allocation; the message contains the word at `aSendBufferStart+4`. -/
def vfail (cap : Nat) (e : Exc) : VOut := if 2 ≤ cap then .err e else .ub

/-- The `do`-`while` loop of `IPbusCore::validate`, src/common/ProtocolIPbusCore.cpp:154-263. `send`: words
from `aSendBufferStart` to `aSendBufferEnd`; `slots`: reply slots from `aReplyStartIt` to `aReplyEndIt`;
`rd`: the memory. Reading outside of the packet (or an empty slot), or stepping over the end of the slots
is `ub`; when the send pointer steps over `aSendBufferEnd` the loop only ends if the slots end as well.
`fuel` bounds the number of iterations; every iteration advances. -/
def coreValidate (v : Ver) (rd : Loc → W) : Nat → Nat → List W → List Slot → VOut
  | 0, _, _, _ => .ub
  | _ + 1, _, [], _ => .ub
  | fuel + 1, cap, h :: t, slots =>
    match extractHeader v h with
    | none => vfail cap .unparsableSend
    | some hs =>
      match slots with
      | [] => .ub
      | sl :: rest =>
        if sl.len = 0 then .ub
        else
          match extractHeader v (rd sl.loc) with
          | none => vfail cap .unparsableReply
          | some hr =>
            if hs.id ≠ hr.id ∨ hs.ty ≠ hr.ty then vfail cap .fieldsIncorrect
            else if hr.info ≠ 0#8 then vfail cap (.responseCode hr.info)
            else
              let n := sendAdvance hs
              match replyAdvance hr.ty rest with
              | none => .ub
              | some slots' =>
                if n = (h :: t).length ∨ slots' = [] then .ok
                else if (h :: t).length < n then .ub
                else coreValidate v rd fuel (cap - n) ((h :: t).drop n) slots'

/-- `IPbus<1,m>` uses `IPbusCore::validate`; `IPbus<2,m>::validate`, src/common/ProtocolIPbus.cpp:284-307. -/
def ipbusValidate (v : Ver) (rd : Loc → W) (cap : Nat) (send : List W) (slots : List Slot) : VOut :=
  match v with
  | .v1 => coreValidate .v1 rd send.length cap send slots
  | .v2 =>
    match send, slots with
    | h :: t, sl :: rest =>
      if sl.len = 0 then .ub
      else if h ≠ rd sl.loc then .err .packetHeader
      else coreValidate .v2 rd t.length (cap - 1) t rest
    | _, _ => .ub

/-- `ControlHub::validate`, src/common/ProtocolControlHub.cpp:213-276; the slots for port and error code are
one word (port in the low half). -/
def hubValidate (v : Ver) (ip : W) (port : BitVec 16) (rd : Loc → W) (cap : Nat) (send : List W)
    (slots : List Slot) : VOut :=
  match slots with
  | _ :: a :: p :: rest =>
    if a.len = 0 ∨ p.len = 0 then .ub
    else if rd a.loc ≠ ip then .err .hubAddress
    else if (rd p.loc).setWidth 16 ≠ port then .err .hubAddress
    else
      let code := bswap16 ((rd p.loc >>> 16).setWidth 16)
      if code ≠ 0#16 then
        if code = 1#16 ∨ code = 3#16 ∨ code = 4#16 then .err .hubTimeout else .err .hubError
      else ipbusValidate v rd (cap - 2) (send.drop 2) rest
  | _ => .ub

/-- The virtual `validate` of a client. The allocation holds `getMaxSendSize()` bytes. -/
def validateBuf (c : Cfg) (rd : Loc → W) (b : Buf) : VOut :=
  match c.hub with
  | none => ipbusValidate c.ver rd (c.maxSend.toNat / 4) b.send b.reply
  | some (ip, port) => hubValidate c.ver ip port rd (c.maxSend.toNat / 4) b.send b.reply

/-- `Buffers::validate`, src/common/Buffers.cpp:99-111. -/
def Heap.markValid (h : Heap) (adds : List Nat) : Heap :=
  { h with valid := fun o => decide (o ∈ adds) || h.valid o }

/-- `ClientInterface::validate ( std::shared_ptr<Buffers> )`, src/common/ClientInterface.cpp:187-202. -/
def clientValidate (c : Cfg) (h : Heap) (b : Buf) : VOut × Heap :=
  match validateBuf c h.word b with
  | .ok => (.ok, h.markValid b.adds)
  | r => (r, h)

/-- One reply: scatter it, then validate. -/
def receiveReply (c : Cfg) (h : Heap) (b : Buf) (ws : List W) : VOut × Heap :=
  clientValidate c (scatter h b.reply ws) b

end Verif
