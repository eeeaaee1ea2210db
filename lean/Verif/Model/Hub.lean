/-!
# The ControlHub and an IPbus 2.0 target

Models the device client of the ControlHub for IPbus 2.0 targets (/repo/controlhub/src/ch_device_client.erl), the target as in
/repo/uhal/tests/src/common/DummyHardware.cpp, and UDP between them.

Simplifications (all of them):
* A binary is a list of bytes, a byte a natural number; nothing depends on bytes being smaller than 256.
* Executing the body of a control packet is the function `exec` (it is modelled in `Verif/Model/Target.lean`).
* The target accepts packet headers in both byte orders. (A `DummyHardware` accepts one, depending on `mBigEndianHack`.)
* Of a status reply, the 48 bytes of traffic history are chosen by the environment (C71 relates this target to the model of `DummyHardware`).
* The network may lose, duplicate, delay and reorder datagrams: every datagram that was ever sent can be delivered at any time
  and any number of times. The mailbox of the device client belongs to the network: a datagram is delivered when the process
  takes it from the mailbox. In each of its states the process takes what its `receive` matches there, and time may run out
  at any time.
* The UDP process (lines 826-881), statistics and logging are left out. So are requests that are still in the mailbox when the
  process stops (`reply_to_all_pending_requests_in_msg_inbox`): they are never sent (see `Verif/Model/HubFirst.lean`).
* The first exchange, in which the device client learns the number of buffers and the next packet ID of the target (`handle_cast`
  212-237), is the initial state `start`. (The first request is sent even if the number of buffers is 0; not so here, but in
  `Verif/Model/HubFirst.lean`.)
* `last_timeout` serves for logging only.
-/

set_option autoImplicit false

namespace Verif.Hub

abbrev Bytes := List Nat

inductive Endness
  | big | little
deriving DecidableEq, Repr

/-- `ipbus2_pkt_header`, ch_device_client.erl:568-571. -/
def pktHeader (id : Nat) : Endness → Bytes
  | .big => [0x20, id / 256, id % 256, 0xf0]
  | .little => [0xf0, id % 256, id / 256, 0x20]

/-- `parse_ipbus_control_pkt`, ch_device_client.erl:550-559. -/
inductive Ctrl
  | v2 (e : Endness) | v1 (e : Endness) | invalid
deriving DecidableEq, Repr

@[inherit_doc Ctrl]
def parseControl : Bytes → Ctrl
  | a :: b :: c :: d :: _ =>
    if a = 0x20 ∧ d = 0xf0 then .v2 .big
    else if a = 0xf0 ∧ d = 0x20 then .v2 .little
    else if a / 16 = 1 ∧ c = 0 ∧ d / 8 = 0x1f ∧ d % 4 = 0 then .v1 .big
    else if a / 8 = 0x1f ∧ a % 4 = 0 ∧ b = 0 ∧ d / 16 = 1 then .v1 .little
    else .invalid
  | _ => .invalid

/-- `decrement_pkt_id/1`, ch_device_client.erl:581-587. -/
def decId (id : Nat) : Nat := if id = 1 then 0xffff else id - 1

/-- `decrement_pkt_id/2`, ch_device_client.erl:596-599. -/
def decIdN (id : Nat) : Nat → Nat
  | 0 => id
  | n + 1 => decIdN (decId id) n

/-- `increment_pkt_id`, ch_device_client.erl:608-614. -/
def incId (id : Nat) : Nat := if id = 0xffff then 1 else id + 1

/-- `resend_request_pkt`, ch_device_client.erl:673-679. -/
def resendPkt : Bytes → Bytes
  | a :: b :: c :: d :: _ =>
    if a = 0x20 ∧ d = 0xf0 then [0x20, b, c, 0xf2] else [0x20, c, b, 0xf2]
  | _ => []

/-- The status request for IPbus 2.0, ch_device_client.erl:725. -/
def statusReq : Bytes := [0x20, 0, 0, 0xf1] ++ List.replicate 60 0

/-- The result of `parse_ipbus_packet` for a packet that begins with `16#200000f1`, ch_device_client.erl:628-665, as far as
`get_device_status` distinguishes it; no clause of the inner `case` may match (`crash`). -/
inductive Status
  | next (id : Nat) | malformed | crash
deriving DecidableEq, Repr

@[inherit_doc Status]
def parseStatus (p : Bytes) : Status :=
  if p.length ≠ 64 then .malformed
  else if p = statusReq then .malformed
  else match p.drop 12 with
    | a :: b :: c :: d :: _ => if a = 0x20 ∧ d = 0xf0 then .next (b * 256 + c) else .crash
    | _ => .crash

/-- An entry of the queue of packets in flight: client, its packet header, the header that was sent, the body. -/
structure Flight where
  pid : Nat
  orig : Bytes
  hdr : Bytes
  body : Bytes
deriving DecidableEq, Repr

/-- What the packet looked like on the network. -/
def Flight.sent (f : Flight) : Bytes := f.hdr ++ f.body

/-- A message to a client (transaction manager): the error code and the packet. -/
structure Msg where
  pid : Nat
  code : Nat
  pkt : Bytes
deriving DecidableEq, Repr

/-- Where the process waits: `device_client_loop` (normal), `get_device_status` within the `n`-th recovery with `left` attempts
left, the `receive` at the end of the `n`-th recovery, or not at all any more. -/
inductive Mode
  | normal
  | status (n left : Nat)
  | resent (n : Nat) (lostRequest : Bool)
  | stopped
  | crashed
deriving DecidableEq, Repr

/-- State of the process, ch_device_client.erl:43-61. -/
structure Hub where
  mode : Mode
  next : Nat
  nr : Nat
  q : List Flight
  maxFl : Nat
  out : List Msg
deriving DecidableEq, Repr

/-- The messages that `MsgForTransactionManager` causes when recovery fails, ch_device_client.erl:322-329: one for every packet
in flight. The process stops. -/
def Hub.giveUp (h : Hub) (code : Nat) : Hub :=
  { h with mode := .stopped, out := h.out ++ h.q.map fun f => ⟨f.pid, code, []⟩ }

/-- `send_request` for IPbus 2.0, ch_device_client.erl:336-349. Result: state and datagrams sent. -/
def Hub.sendRequest (h : Hub) (pkt : Bytes) (pid : Nat) : Hub × List Bytes :=
  match parseControl pkt with
  | .v2 e =>
    ({ h with next := incId h.next, nr := h.nr + 1, q := h.q ++ [⟨pid, pkt.take 4, pktHeader h.next e, pkt.drop 4⟩] },
      [pktHeader h.next e ++ pkt.drop 4])
  | _ => ({ h with out := h.out ++ [⟨pid, 6, []⟩] }, [])

/-- `forward_reply` for IPbus 2.0, ch_device_client.erl:364-375 and 381-392 (nothing in flight: ignored). A packet of less than
four bytes matches neither clause of the `case`. -/
def Hub.forward (h : Hub) (pkt : Bytes) : Hub :=
  match h.q with
  | [] => h
  | f :: q' =>
    if pkt.length < 4 then { h with mode := .crashed }
    else if pkt.take 4 = f.hdr then
      { h with nr := h.nr - 1, q := q', out := h.out ++ [⟨f.pid, 0, f.orig ++ pkt.drop 4⟩] }
    else h

/-- Whether the process, in its present state, takes a UDP packet from its mailbox: all in `device_client_loop`, those beginning
with one of two headers in `get_device_status` (ch_device_client.erl:747-753), the reply to the oldest packet in flight at the end
of `recover_from_timeout` (ch_device_client.erl:452-456). -/
def Hub.takes (h : Hub) (pkt : Bytes) : Bool :=
  match h.mode with
  | .normal => true
  | .status _ _ => decide (pkt.take 4 = [0x20, 0, 0, 0xf1]) || decide (pkt.take 4 = [0xfc, 0, 0, 0x10])
  | .resent _ _ => match h.q with
    | f :: _ => decide (pkt.take 4 = f.hdr)
    | [] => false
  | .stopped => false
  | .crashed => false

/-- A UDP packet taken from the mailbox. In `get_device_status` (747-764) and `recover_from_timeout` (416-478): a status reply
decides whether requests are sent again or replies are asked for (with nothing in flight, `queue:peek` does not match).
Result: state and datagrams sent. -/
def Hub.recv (h : Hub) (pkt : Bytes) : Hub × List Bytes :=
  match h.mode with
  | .normal => (h.forward pkt, [])
  | .status n _ =>
    if pkt.take 4 = [0xfc, 0, 0, 0x10] then ({ h with mode := .crashed }, [])
    else match parseStatus pkt with
      | .crash => ({ h with mode := .crashed }, [])
      | .malformed => (h.giveUp 5, [])
      | .next id =>
        if h.q = [] then ({ h with mode := .crashed }, [])
        else if id = decIdN h.next h.nr then ({ h with mode := .resent n true }, h.q.map Flight.sent)
        else ({ h with mode := .resent n false }, h.q.map fun f => resendPkt f.hdr)
  | .resent _ _ => (({ h with mode := .normal } : Hub).forward pkt, [])
  | .stopped => (h, [])
  | .crashed => (h, [])

/-- Time runs out: in `device_client_loop` (258-296) recovery begins if there are packets in flight (or none are allowed),
otherwise the process stops; in `get_device_status` (711-714, 765-769) after five attempts recovery fails; at the end of the fifth `recover_from_timeout`
(457-464) it fails too. Result: state and datagrams sent. -/
def Hub.timeout (h : Hub) : Hub × List Bytes :=
  match h.mode with
  | .normal => if h.nr ≠ 0 ∨ h.maxFl = 0 then ({ h with mode := .status 0 5 }, [statusReq]) else ({ h with mode := .stopped }, [])
  | .status n left => if left = 1 then (h.giveUp 3, []) else ({ h with mode := .status n (left - 1) }, [statusReq])
  | .resent n lost =>
    if n + 1 = 5 then (h.giveUp (if lost then 1 else 4), []) else ({ h with mode := .status (n + 1) 5 }, [statusReq])
  | .stopped => (h, [])
  | .crashed => (h, [])

/-! ## The target -/

/-- The target: the ID of the last control packet, the replies kept (newest first), the state of the hardware, and all packets
executed so far. DummyHardware.hpp:195-215. -/
structure Tgt (σ : Type) where
  last : Nat
  hist : List (Nat × Bytes)
  depth : Nat
  st : σ
  log : List Bytes

/-- The ID of the packet that is expected next, DummyHardware.cpp:382-387 and 413-418. -/
def Tgt.expected {σ : Type} (t : Tgt σ) : Nat := if (t.last + 1) % 65536 = 0 then 1 else (t.last + 1) % 65536

/-- The ID in a control packet header, IPbusInspector.cpp:76-79. -/
def headerId : Bytes → Option Nat
  | a :: b :: c :: d :: _ =>
    if a = 0x20 ∧ d = 0xf0 then some (b * 256 + c)
    else if a = 0xf0 ∧ d = 0x20 then some (c * 256 + b)
    else none
  | _ => none

/-- `status_packet_header`, DummyHardware.cpp:408-449. The second word is the size of the buffer, 400000 bytes. -/
def Tgt.status {σ : Type} (t : Tgt σ) (junk : Bytes) : Bytes :=
  [0x20, 0, 0, 0xf1] ++ [0, 6, 0x1a, 0x80] ++ [t.depth / 16777216, t.depth / 65536 % 256, t.depth / 256 % 256, t.depth % 256]
    ++ [0x20, t.expected / 256, t.expected % 256, 0xf0] ++ junk

/-- A datagram arrives, `AnalyzeReceivedAndCreateReply` DummyHardware.cpp:80-155 with `control_packet_header` 378-404 (packets
with ID 0 are executed whenever they arrive), `status_packet_header`, `resend_packet_header` 453-467. Result: state and reply. -/
def Tgt.recv {σ : Type} (exec : σ → Bytes → σ × Bytes) (t : Tgt σ) (pkt junk : Bytes) : Tgt σ × List Bytes :=
  match headerId pkt with
  | some id =>
    if id ≠ 0 ∧ id ≠ t.expected then (t, [])
    else
      let r := pkt.take 4 ++ (exec t.st (pkt.drop 4)).2
      ({ t with
          last := if id = 0 then t.last else id
          hist := ((id, r) :: t.hist).take t.depth
          st := (exec t.st (pkt.drop 4)).1
          log := t.log ++ [pkt] }, [r])
  | none => match pkt with
    | a :: b :: c :: d :: _ =>
      if a = 0x20 ∧ d = 0xf1 then (t, [t.status junk])
      else if a = 0x20 ∧ d = 0xf2 then match t.hist.find? (fun e => decide (e.1 = b * 256 + c)) with
        | some e => (t, [e.2])
        | none => (t, [])
      else (t, [])
    | _ => (t, [])

/-! ## The system -/

/-- Hub, target and all datagrams ever sent, each with the number of control packets that had been accepted by then. `accepted`
is the list of these packets (a ghost: the code does not keep it). -/
structure Sys (σ : Type) where
  hub : Hub
  tgt : Tgt σ
  toT : List (Nat × Bytes)
  toH : List (Nat × Bytes)
  accepted : List Flight

inductive Ev
  | request (pkt : Bytes) (pid : Nat)
  | toTarget (i : Nat) (junk : Bytes)
  | toHub (i : Nat)
  | timeout
deriving DecidableEq, Repr

/-- One step; `none` if it is not possible. Requests are taken from the mailbox only in `device_client_loop` and only if fewer
packets than `maxFl` are in flight (247-256). -/
def Sys.step {σ : Type} (exec : σ → Bytes → σ × Bytes) (s : Sys σ) : Ev → Option (Sys σ)
  | .request pkt pid =>
    if s.hub.mode = .normal ∧ s.hub.nr < s.hub.maxFl then
      let r := s.hub.sendRequest pkt pid
      let acc := s.accepted ++ r.1.q.drop s.hub.q.length
      some { s with hub := r.1, accepted := acc, toT := s.toT ++ r.2.map fun b => (acc.length, b) }
    else none
  | .toTarget i junk => match s.toT[i]? with
    | none => none
    | some d =>
      if junk.length = 48 then
        let r := s.tgt.recv exec d.2 junk
        some { s with tgt := r.1, toH := s.toH ++ r.2.map fun b => (s.accepted.length, b) }
      else none
  | .toHub i => match s.toH[i]? with
    | none => none
    | some d =>
      if s.hub.takes d.2 then
        let r := s.hub.recv d.2
        some { s with hub := r.1, toT := s.toT ++ r.2.map fun b => (s.accepted.length, b) }
      else none
  | .timeout =>
    if s.hub.mode = .stopped ∨ s.hub.mode = .crashed then none
    else
      let r := s.hub.timeout
      some { s with hub := r.1, toT := s.toT ++ r.2.map fun b => (s.accepted.length, b) }

/-- The device client after it has learnt the state of the target, `handle_cast` ch_device_client.erl:224-231. -/
def start {σ : Type} (t : Tgt σ) (absMax : Nat) : Sys σ where
  hub := ⟨.normal, t.expected, 0, [], min t.depth absMax, []⟩
  tgt := t
  toT := []
  toH := []
  accepted := []

/-- A sequence of steps. -/
def Sys.run {σ : Type} (exec : σ → Bytes → σ × Bytes) (s : Sys σ) : List Ev → Option (Sys σ)
  | [] => some s
  | e :: es => match s.step exec e with
    | some s' => s'.run exec es
    | none => none

end Verif.Hub
