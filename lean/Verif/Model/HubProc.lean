import Verif.Model.HubFirst
/-!
# The two processes of a device client and their mailboxes

Models the UDP process of a device client (`udp_proc_loop`, /repo/controlhub/src/ch_device_client.erl:837-880) and the way in which the device
client takes messages from its mailbox: `gen_server` before the first request (`handle_info` 501-503), the clauses `send` and `recv` of `device_client_loop`
(247-294), and the `receive` of `get_device_status` and `recover_from_timeout`. What the device client does with a message is that of
`Verif/Model/HubFirst.lean`. In contrast to there, messages that the present `receive` does not match stay in the mailbox, and there are
datagrams that do not come from the target (its address and port), which the UDP process passes on (867-868).

Simplifications:
* Which of the two `receive` of the UDP process takes a message is left open where datagrams from the target are concerned: they may overtake.
* `inet_reply` messages do not occur: `gen_udp:send` is used (`bypass_gen_udp_send` is defined for Erlang up to release 19 only, rebar.config:27).
* The UDP process does not end after the device client; this makes no difference to the device client.
* Calls (`handle_call` 197-200) and casts of other kinds (240-242) are left out: nothing in the ControlHub makes them.
-/

set_option autoImplicit false

namespace Verif.HubProc
open Verif.Hub (Bytes DC DEv Msg)

/-- A message in the mailbox of the device client: a request with its client; a datagram from the target, `i`th of those it has sent (the number is a ghost);
anything else: datagrams that come from elsewhere. -/
inductive Item
  | cast (pkt : Bytes) (pid : Nat)
  | udp (i : Nat) (p : Bytes)
  | other
deriving DecidableEq, Repr

/-- A message in the mailbox of the UDP process. -/
inductive UItem
  | send (b : Bytes)
  | udp (i : Nat) (p : Bytes)
  | stranger
deriving DecidableEq, Repr

/-- The requests in a mailbox. -/
def reqs : List Item → List (Bytes × Nat)
  | [] => []
  | .cast pkt pid :: l => (pkt, pid) :: reqs l
  | _ :: l => reqs l

/-- The datagrams still to be sent. -/
def sends : List UItem → List Bytes
  | [] => []
  | .send b :: l => b :: sends l
  | _ :: l => sends l

/-- `receive`, with the messages that its clauses match: the first such message in the mailbox, and the others. -/
def pick {α : Type} (w : α → Bool) : List α → Option (α × List α)
  | [] => none
  | x :: r => if w x then some (x, r) else (pick w r).map fun y => (y.1, x :: y.2)

/-- In `device_client_loop`, with fewer packets in flight than allowed (247 and 277; for IPbus 1.3 one is allowed). -/
def room (d : DC) : Bool :=
  match d.phase with
  | .two => decide (d.h.mode = .normal ∧ d.h.nr < d.h.maxFl)
  | .one none => decide (d.flight = none)
  | _ => false

/-- The messages that match in the `receive` at which the device client is. `sending`: the clause of `device_client_loop`. 252-261, 278-281 and 289-292;
`gen_server`; 747-753; 453-456; for recovery with IPbus 1.3 404-406. -/
def wants (d : DC) (sending : Bool) : Item → Bool
  | .cast _ _ => match d.phase with
    | .idle => true
    | _ => room d && sending
  | .udp _ p => match d.phase with
    | .idle => true
    | .asking _ _ _ _ => Hub.askTakes p
    | .two => d.h.takes p
    | .one _ => true
    | _ => false
  | .other => match d.phase with
    | .idle => true
    | _ => room d && sending

/-- The two processes, the target and the network. `dc`: the state of the device client, without its mailbox; `box`: its mailbox; `sending`: the clause of
`device_client_loop` that is next; `stopped`: it has been stopped by `handle_info`, or by the end of the UDP process, to which it is linked; `ubox`: the
mailbox of the UDP process; `toT` and `toH`: all datagrams ever sent to the target and by the target. -/
structure Net (τ : Type) where
  dc : DC
  box : List Item
  sending : Bool
  stopped : Bool
  ubox : List UItem
  tgt : τ
  toT : List Bytes
  toH : List Bytes

inductive Ev
  /-- a request arrives in the mailbox of the device client -/
  | cast (pkt : Bytes) (pid : Nat)
  /-- a datagram from elsewhere arrives at the socket -/
  | stranger
  /-- the `i`th datagram arrives at the target; `junk`: the parts of a status reply that are not modelled -/
  | toTarget (i : Nat) (junk : Bytes)
  /-- the `i`th datagram from the target arrives at the socket -/
  | toHub (i : Nat)
  /-- the UDP process: the first `receive` (838-840) -/
  | fwd
  /-- the UDP process: the second `receive` (842-869) -/
  | next
  /-- the same, and `gen_udp:send` returns an error (880) -/
  | sendFails
  /-- the device client takes a message -/
  | recv
  /-- the device client finds no message in the `recv` clause that does not wait (282-283) -/
  | turn
  /-- time runs out in the device client -/
  | timeout
deriving DecidableEq, Repr

/-- The device client with the requests in its mailbox. -/
def Net.view {τ : Type} (s : Net τ) : DC := { s.dc with inbox := reqs s.box }

/-- What is left in the mailbox, if `inbox` are the requests left: all requests have been taken (`reply_to_all_pending_requests_in_msg_inbox` 482-489), or none
of them. -/
def remain (box : List Item) (inbox : List (Bytes × Nat)) : List Item :=
  if inbox = [] then box.filter fun x => match x with
    | .cast _ _ => false
    | _ => true
  else box

/-- The clause of `device_client_loop` after a message or a timeout: 223, 231, 255, 258, 281 and 292; 303 (after a recovery). -/
def clause (d : DC) (sending : Bool) : DEv → Bool
  | .take => false
  | .udp p => match d.phase with
    | .asking _ _ _ _ => !decide (p.take 4 = [0xfc, 0, 0, 0x10])
    | _ => if room d then sending else true
  | _ => sending

/-- The device client does something, with the other messages in its mailbox. Datagrams are given to the UDP process. -/
def Net.proc {τ : Type} (absMax : Nat) (s : Net τ) (e : DEv) (rest : List Item) : Option (Net τ) :=
  match s.view.step absMax e with
  | some r => some { s with dc := { r.1 with inbox := [] }, box := remain rest r.1.inbox, sending := clause s.dc s.sending e,
                            ubox := s.ubox ++ r.2.map .send }
  | none => none

/-- The device client takes the first message that matches. Before the first request, `handle_info` (501-503) ends the process on anything but a request. 247-294. -/
def Net.recv {τ : Type} (absMax : Nat) (s : Net τ) : Option (Net τ) :=
  match pick (wants s.dc s.sending) s.box with
  | none => none
  | some (.cast _ _, rest) => s.proc absMax .take rest
  | some (.udp _ p, rest) => if s.dc.phase = .idle then some { s with stopped := true } else s.proc absMax (.udp p) rest
  | some (.other, rest) => if s.dc.phase = .idle then some { s with stopped := true } else some { s with box := rest }

/-- The UDP process deals with one message: 840, 843-844, 867-868. -/
def Net.pass {τ : Type} (s : Net τ) (x : UItem) (rest : List UItem) : Net τ :=
  match x with
  | .send b => { s with ubox := rest, toT := s.toT ++ [b] }
  | .udp i p => { s with ubox := rest, box := s.box ++ [.udp i p] }
  | .stranger => { s with ubox := rest, box := s.box ++ [.other] }

/-- There is no device client any more. -/
def Net.gone {τ : Type} (s : Net τ) : Bool := s.stopped || s.dc.gone

/-- One step; `none` if it is not possible. -/
def Net.step {τ : Type} (recv : τ → Bytes → Bytes → τ × List Bytes) (absMax : Nat) (s : Net τ) : Ev → Option (Net τ)
  | .cast pkt pid => some (if s.gone then s else { s with box := s.box ++ [.cast pkt pid] })
  | .stranger => some { s with ubox := s.ubox ++ [.stranger] }
  | .toTarget i junk => match s.toT[i]? with
    | none => none
    | some b =>
      if junk.length = 48 then
        let r := recv s.tgt b junk
        some { s with tgt := r.1, toH := s.toH ++ r.2 }
      else none
  | .toHub i => match s.toH[i]? with
    | none => none
    | some p => some { s with ubox := s.ubox ++ [.udp i p] }
  | .fwd => match pick (fun x => match x with
      | .udp _ _ => true
      | _ => false) s.ubox with
    | none => none
    | some (x, rest) => some (s.pass x rest)
  | .next => match s.ubox with
    | [] => none
    | x :: rest => some (s.pass x rest)
  | .sendFails => match s.ubox with
    | .send _ :: rest => some { s with ubox := rest, stopped := true }
    | _ => none
  | .recv => if s.gone then none else s.recv absMax
  | .turn => if s.gone then none else if room s.dc && !s.sending && (pick (wants s.dc s.sending) s.box).isNone then
      some { s with sending := true } else none
  | .timeout =>
    if s.gone then none
    else if (pick (wants s.dc s.sending) s.box).isSome || (room s.dc && !s.sending) then none
    else s.proc absMax .timeout s.box

/-- A sequence of steps. -/
def Net.run {τ : Type} (recv : τ → Bytes → Bytes → τ × List Bytes) (absMax : Nat) (s : Net τ) : List Ev → Option (Net τ)
  | [] => some s
  | e :: es => match s.step recv absMax e with
    | some s' => s'.run recv absMax es
    | none => none

/-- The processes have been started, nothing has been sent. 146-175. -/
def Net.init {τ : Type} (t : τ) : Net τ := ⟨DC.init, [], true, false, [], t, [], []⟩

end Verif.HubProc
