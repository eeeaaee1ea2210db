import Verif.Model.Hub
/-!
# The whole life of a device client

Models the device client of the ControlHub (/repo/controlhub/src/ch_device_client.erl) from its first request to its end: the
exchange in which it learns what the target is (`handle_cast` 212-237, `get_device_status` 704-770), the loop for IPbus 2.0 targets
(`Verif/Model/Hub.lean`), the loop for IPbus 1.3 targets, and the requests in its mailbox, which are answered when it gives up
(`reply_to_all_pending_requests_in_msg_inbox` 482-489).

Simplifications, in addition to those of `Verif/Model/Hub.lean`:
* UDP packets that the present `receive` does not match stay in the mailbox in the code; here they are events that are not possible. `Verif/Model/HubProc.lean`
  has the mailbox; every run there is one here (C74).
* `handle_call`, `handle_info` and messages of other kinds are left out (`handle_info` and other messages: `Verif/Model/HubProc.lean`).
* The host is little-endian (`16#100000f8:32/native`).
-/

set_option autoImplicit false

namespace Verif.Hub

/-- The version of the first request, `parse_ipbus_packet` ch_device_client.erl:628-665, as far as `handle_cast` uses it: `some true`
is IPbus 1.3. `none`: the result is `malformed`, which does not match in line 214, or no clause matches. -/
def firstVersion (p : Bytes) : Option Bool :=
  match p with
  | a :: b :: c :: d :: _ =>
    if a = 0x20 ∧ d / 16 = 15 then
      if d % 16 = 0 then some false
      else if d % 16 = 1 ∧ b = 0 ∧ c = 0 ∧ p.length = 64 then
        if p = statusReq then some false
        else match p.drop 12 with
          | a :: _ :: _ :: d :: _ => if a = 0x20 ∧ d = 0xf0 then some false else none
          | _ => none
      else if d % 16 = 2 ∧ p.length = 4 then some false
      else none
    else if a / 16 = 15 ∧ d = 0x20 then (if a % 16 = 0 then some false else none)
    else if a / 16 = 1 ∧ c = 0 ∧ d / 8 = 0x1f ∧ d % 4 = 0 then some true
    else if a / 8 = 0x1f ∧ a % 4 = 0 ∧ b = 0 ∧ d / 16 = 1 then some true
    else none
  | _ => none

/-- The status request for IPbus 1.3: ten byte-order transactions, ch_device_client.erl:724. -/
def statusReq13 : Bytes := (List.replicate 10 [0xf8, 0, 0, 0x10]).flatten

/-- What is sent at an attempt, ch_device_client.erl:728-745: for IPbus 1.3 only the first time. -/
def askDgrams (v1 : Bool) (left : Nat) : List Bytes :=
  if v1 then (if left = 5 then [statusReq13] else []) else [statusReq]

/-- The number of buffers in a status reply, ch_device_client.erl:662. -/
def nBuffers (p : Bytes) : Nat := ((p.drop 8).take 4).foldl (fun s b => s * 256 + b) 0

/-- The `receive` of `get_device_status`, ch_device_client.erl:747-753. -/
def askTakes (p : Bytes) : Bool := decide (p.take 4 = [0x20, 0, 0, 0xf1]) || decide (p.take 4 = [0xfc, 0, 0, 0x10])

/-- Where the process is: before the first request, in `get_device_status` on account of the first request, in the loop for
IPbus 2.0 targets, in the loop for IPbus 1.3 targets (with the number of the recovery attempt, if there is one, 394-413), at its end; `failed`: an error on account of the
first request, from client `pid`. (An error in the loop for IPbus 2.0 is the mode `crashed` of `Hub`.) -/
inductive Phase
  | idle
  | asking (v1 : Bool) (left : Nat) (pkt : Bytes) (pid : Nat)
  | two
  | one (attempt : Option Nat)
  | ended
  | failed (pid : Nat)
deriving DecidableEq, Repr

/-- State of the process. `h`: its state in the loop for IPbus 2.0, with the messages sent to clients; `flight`: the packet in flight
to an IPbus 1.3 target, with its client; `rest`: the messages sent to clients other than by the loop for IPbus 2.0. -/
structure DC where
  phase : Phase
  h : Hub
  flight : Option (Nat × Bytes)
  inbox : List (Bytes × Nat)
  rest : List Msg
deriving DecidableEq, Repr

/-- After `init`. -/
def DC.init : DC := ⟨.idle, ⟨.normal, 0, 0, [], 0, []⟩, none, [], []⟩

/-- No process. -/
def DC.gone (d : DC) : Bool :=
  match d.phase with
  | .ended | .failed _ => true
  | .two => decide (d.h.mode = .stopped ∨ d.h.mode = .crashed)
  | _ => false

/-- `reply_to_all_pending_requests_in_msg_inbox`, ch_device_client.erl:482-489. -/
def DC.drain (d : DC) (code : Nat) : DC :=
  { d with rest := d.rest ++ d.inbox.map (fun x => ⟨x.2, code, []⟩), inbox := [] }

/-- `send_request` for IPbus 1.3, ch_device_client.erl:350-361. -/
def DC.send13 (d : DC) (pkt : Bytes) (pid : Nat) : DC × List Bytes :=
  match parseControl pkt with
  | .v1 _ => ({ d with flight := some (pid, pkt) }, [pkt])
  | _ => ({ d with rest := d.rest ++ [⟨pid, 6, []⟩] }, [])

/-- `forward_reply` for IPbus 1.3, ch_device_client.erl:376-380; with nothing in flight 381-392. -/
def DC.forward13 (d : DC) (pkt : Bytes) : DC :=
  match d.flight with
  | some f => { d with flight := none, rest := d.rest ++ [⟨f.1, 0, pkt⟩] }
  | none => d

/-- `get_device_status` fails on the first request, ch_device_client.erl:232-236. -/
def DC.refuse (d : DC) (pid code : Nat) : DC :=
  ({ d with phase := .ended, rest := d.rest ++ [⟨pid, code, []⟩] } : DC).drain code

/-- The error code of a failed recovery (the message is `MsgForTransactionManager`, 298-330), if the process has just given up. -/
def DC.after (d : DC) (old : Hub) (code : Nat) : DC :=
  if d.h.mode = .stopped ∧ old.mode ≠ .normal then d.drain code else d

/-- The error code when a recovery fails because time runs out: 1 or 4 at the end of `recover_from_timeout` (ch_device_client.erl:459-461),
otherwise 3 in `get_device_status` (714). -/
def errCode : Mode → Nat
  | .resent _ lost => if lost then 1 else 4
  | _ => 3

/-- The process takes a request from its mailbox: the first one, 213-231; in the loops, 250-253, if fewer than the maximum number of
packets are in flight (for IPbus 1.3: one). Result: state and datagrams sent. -/
def DC.take (d : DC) : Option (DC × List Bytes) :=
  match d.inbox with
  | [] => none
  | x :: r =>
    match d.phase with
    | .idle => match firstVersion x.1 with
      | some v1 => some ({ d with phase := .asking v1 5 x.1 x.2, inbox := r }, askDgrams v1 5)
      | none => some ({ d with phase := .failed x.2, inbox := r }, [])
    | .two =>
      if d.h.mode = .normal ∧ d.h.nr < d.h.maxFl then
        let s := d.h.sendRequest x.1 x.2
        some ({ d with h := s.1, inbox := r }, s.2)
      else none
    | .one none => if d.flight = none then some (({ d with inbox := r } : DC).send13 x.1 x.2) else none
    | _ => none

/-- The code of the message that a malformed status reply causes is 5 (`?ERRCODE_MALFORMED_STATUS`). -/
def DC.udp (d : DC) (absMax : Nat) (p : Bytes) : Option (DC × List Bytes) :=
  match d.phase with
  | .asking _ _ pkt pid =>
    if askTakes p then
      if p.take 4 = [0xfc, 0, 0, 0x10] then some (({ d with phase := .one none } : DC).send13 pkt pid)
      else match parseStatus p with
        | .crash => some ({ d with phase := .failed pid }, [])
        | .malformed => some (d.refuse pid 5, [])
        | .next id =>
          let s := (⟨.normal, id, 0, [], min (nBuffers p) absMax, []⟩ : Hub).sendRequest pkt pid
          some ({ d with phase := .two, h := s.1 }, s.2)
    else none
  | .two =>
    if d.h.takes p then
      let s := d.h.recv p
      some (({ d with h := s.1 } : DC).after d.h 5, s.2)
    else none
  | .one _ => some ({ d.forward13 p with phase := .one none }, [])
  | _ => none

/-- Time runs out. In the loops the process stops if there is nothing in flight, unless there is a request in its mailbox, which it would
take (246-277). -/
def DC.timeout (d : DC) : Option (DC × List Bytes) :=
  match d.phase with
  | .asking v1 left pkt pid =>
    if left = 1 then some (d.refuse pid 3, []) else some ({ d with phase := .asking v1 (left - 1) pkt pid }, askDgrams v1 (left - 1))
  | .two =>
    if d.h.mode = .stopped ∨ d.h.mode = .crashed then none
    else if d.h.mode = .normal ∧ d.h.nr < d.h.maxFl ∧ d.inbox ≠ [] then none
    else
      let s := d.h.timeout
      some (({ d with h := s.1 } : DC).after d.h (errCode d.h.mode), s.2)
  | .one n => match d.flight with
    | none => if d.inbox = [] then some ({ d with phase := .ended }, []) else none
    | some f => match n with
      | none => some ({ d with phase := .one (some 0) }, [])
      | some k =>
        if k + 1 = 3 then some (({ d with phase := .ended, flight := none, rest := d.rest ++ [⟨f.1, 1, []⟩] } : DC).drain 1, [])
        else some ({ d with phase := .one (some (k + 1)) }, [])
  | _ => none

inductive DEv
  | cast (pkt : Bytes) (pid : Nat)
  | take
  | udp (p : Bytes)
  | timeout
deriving DecidableEq, Repr

/-- One event; `none` if it is not possible. What is cast to a process that is gone is lost. -/
def DC.step (absMax : Nat) (d : DC) : DEv → Option (DC × List Bytes)
  | .cast pkt pid => if d.gone then some (d, []) else some ({ d with inbox := d.inbox ++ [(pkt, pid)] }, [])
  | .take => if d.gone then none else d.take
  | .udp p => if d.gone then none else d.udp absMax p
  | .timeout => if d.gone then none else d.timeout

/-- A sequence of events, with all datagrams sent. -/
def DC.run (absMax : Nat) (d : DC) : List DEv → Option (DC × List Bytes)
  | [] => some (d, [])
  | e :: es => match d.step absMax e with
    | some (d', out) => (d'.run absMax es).map fun r => (r.1, out ++ r.2)
    | none => none

/-- All messages sent to clients. -/
def DC.msgs (d : DC) : List Msg := d.h.out ++ d.rest

/-! ## With a target and the network -/

/-- Device client, target and all datagrams ever sent, each with the number of requests that had been sent to the target by then.
`sent` is the list of these requests (a ghost: the code does not keep it). As in `Verif/Model/Hub.lean`, a datagram may be delivered at
any time and any number of times. -/
structure World (τ : Type) where
  dc : DC
  tgt : τ
  toT : List (Nat × Bytes)
  toH : List (Nat × Bytes)
  sent : List Flight

inductive WEv
  | cast (pkt : Bytes) (pid : Nat)
  | take
  | toTarget (i : Nat) (junk : Bytes)
  | toHub (i : Nat)
  | timeout
deriving DecidableEq, Repr

/-- The requests sent in a step of the process. -/
def newSent (d d' : DC) : List Flight :=
  d'.h.q.drop d.h.q.length ++ match d.flight, d'.flight with
    | none, some f => [⟨f.1, [], [], f.2⟩]
    | _, _ => []

/-- A step of the process. -/
def World.proc {τ : Type} (absMax : Nat) (s : World τ) (e : DEv) : Option (World τ) :=
  match s.dc.step absMax e with
  | some r =>
    let sent := s.sent ++ newSent s.dc r.1
    some { s with dc := r.1, sent := sent, toT := s.toT ++ r.2.map fun b => (sent.length, b) }
  | none => none

/-- One step; `none` if it is not possible. The target answers a datagram with `recv`. -/
def World.step {τ : Type} (recv : τ → Bytes → Bytes → τ × List Bytes) (absMax : Nat) (s : World τ) : WEv → Option (World τ)
  | .cast pkt pid => s.proc absMax (.cast pkt pid)
  | .take => s.proc absMax .take
  | .toTarget i junk => match s.toT[i]? with
    | none => none
    | some d =>
      if junk.length = 48 then
        let r := recv s.tgt d.2 junk
        some { s with tgt := r.1, toH := s.toH ++ r.2.map fun b => (s.sent.length, b) }
      else none
  | .toHub i => match s.toH[i]? with
    | none => none
    | some d => s.proc absMax (.udp d.2)
  | .timeout => s.proc absMax .timeout

/-- A sequence of steps. -/
def World.run {τ : Type} (recv : τ → Bytes → Bytes → τ × List Bytes) (absMax : Nat) (s : World τ) : List WEv → Option (World τ)
  | [] => some s
  | e :: es => match s.step recv absMax e with
    | some s' => s'.run recv absMax es
    | none => none

/-- The process has been started, nothing has been sent. -/
def World.init {τ : Type} (t : τ) : World τ := ⟨DC.init, t, [], [], []⟩

end Verif.Hub
