import Verif.Model.Bits
/-!
# The loops of the performance tester

Model of the loops of /repo/controlhub/unittest/ch_unittest_common.erl that perf_tester.escript (/repo/controlhub/scripts/perf_tester.escript:180-333) runs: they send the same request again and
again, keep some of them in flight, and compare every reply with the expected one. Line numbers without a file refer to ch_unittest_common.erl.

Simplifications: messages arrive in portions, one before each `receive` (`after T`: those that arrive within the time T); the end of the list of portions is the end of the observation. Packets are
lists of bytes. Sockets are in the mode `{active, true}`, as in perf_tester.escript:13, 16. `sent` and `got` are ghosts: the requests sent and the messages taken for replies, in order.
-/

set_option autoImplicit false

namespace Verif.Perf

/-- A packet. -/
abbrev Pkt := List UInt8

/-- A message in the mailbox. -/
inductive Msg
  /-- `{udp, Socket, TargetIP, TargetPort, Pkt}`, `{tcp, Socket, Pkt}`, or a message of a device client -/
  | pkt (p : Pkt)
  /-- `{inet_reply, Socket, ok}`, or another status -/
  | sendStatus (ok : Bool)
  /-- `{tcp_closed, Socket}` -/
  | closed
  /-- anything else, for example from another address -/
  | other
deriving DecidableEq

/-- The arguments that change, and the mailbox. -/
structure St where
  box : List Msg
  inFlight : Int
  left : Int
  sent : Nat
  got : List Msg
deriving DecidableEq

/-- How a loop ends, or that it has not ended. -/
inductive Out
  | ok (s : St)
  /-- `fail` after a wrong packet -/
  | wrong (p : Pkt)
  /-- `fail` after the time -/
  | late (s : St)
  /-- an exception: `force_quit = yes`, `throw`, `case_clause` -/
  | crash
  | running (s : St)
deriving DecidableEq

/-- `receive`: the first message in the mailbox that a clause matches is removed. -/
def pick (f : Msg → Bool) : List Msg → Option (Msg × List Msg)
  | [] => none
  | m :: ms => if f m then some (m, ms) else (pick f ms).map fun r => (r.1, m :: r.2)

/-- The clauses of lines 24-33 and 39-48. -/
def Msg.udp : Msg → Bool
  | .pkt _ => true
  | .sendStatus _ => true
  | _ => false

/-- `udp_client_loop`, lines 19-53. -/
def udpLoop (reply : Pkt) (max : Int) : List (List Msg) → St → Out
  | arr, s =>
    if s.inFlight = 0 ∧ s.left = 0 then .ok s
    else match arr with
    | [] => .running s
    | a :: arr =>
      if 0 < s.left ∧ s.inFlight < max then
        match pick Msg.udp (s.box ++ a) with
        | some (.pkt p, box) =>
          if p = reply then udpLoop reply max arr { s with box := box, left := s.left - 1, sent := s.sent + 1, got := s.got ++ [.pkt p] } else .wrong p
        | some (.sendStatus true, box) => udpLoop reply max arr { s with box := box, inFlight := s.inFlight + 1, left := s.left - 1, sent := s.sent + 1 }
        | some _ => .crash
        | none => udpLoop reply max arr { s with box := s.box ++ a, inFlight := s.inFlight + 1, left := s.left - 1, sent := s.sent + 1 }
      else
        match pick Msg.udp (s.box ++ a) with
        | some (.pkt p, box) => if p = reply then udpLoop reply max arr { s with box := box, inFlight := s.inFlight - 1, got := s.got ++ [.pkt p] } else .wrong p
        | some (.sendStatus true, box) => udpLoop reply max arr { s with box := box }
        | some _ => .crash
        | none => .late s

/-- `async_tcp_send`, lines 91-100, with what is in the mailbox: `none` if it throws. -/
def asyncSend (box : List Msg) : Option (List Msg) :=
  match pick (fun m => match m with | .sendStatus _ => true | _ => false) box with
  | some (.sendStatus true, rest) => some rest
  | some _ => none
  | none => some box

/-- The clauses of `tcp_recv` with `{active, true}`, lines 222-230. -/
def Msg.tcp : Msg → Bool
  | .pkt _ => true
  | .closed => true
  | _ => false

/-- `tcp_client_loop`, lines 64-87. A closed connection is a `case_clause`. -/
def tcpLoop (reply : Pkt) (max : Int) : List (List Msg) → St → Out
  | arr, s =>
    if s.inFlight = 0 ∧ s.left = 0 then .ok s
    else match arr with
    | [] => .running s
    | a :: arr =>
      if 0 < s.left ∧ s.inFlight < max then
        match asyncSend (s.box ++ a) with
        | none => .crash
        | some box =>
          match pick Msg.tcp box with
          | some (.pkt p, box) =>
            if p = reply then tcpLoop reply max arr { s with box := box, left := s.left - 1, sent := s.sent + 1, got := s.got ++ [.pkt p] } else .wrong p
          | some _ => .crash
          | none => tcpLoop reply max arr { s with box := box, inFlight := s.inFlight + 1, left := s.left - 1, sent := s.sent + 1 }
      else
        match pick Msg.tcp (s.box ++ a) with
        | some (.pkt p, box) => if p = reply then tcpLoop reply max arr { s with box := box, inFlight := s.inFlight - 1, got := s.got ++ [.pkt p] } else .wrong p
        | some _ => .crash
        | none => .late s

/-- `gencast_msg_client_loop`, lines 103-127. `Any` is not bound: the first clause takes every message. -/
def castLoop (max : Int) : List (List Msg) → St → Out
  | arr, s =>
    if s.inFlight = 0 ∧ s.left = 0 then .ok s
    else match arr with
    | [] => .running s
    | a :: arr =>
      if 0 < s.left ∧ s.inFlight < max then
        match s.box ++ a with
        | m :: box => castLoop max arr { s with box := box, left := s.left - 1, sent := s.sent + 1, got := s.got ++ [m] }
        | [] => castLoop max arr { s with box := [], inFlight := s.inFlight + 1, left := s.left - 1, sent := s.sent + 1 }
      else
        match s.box ++ a with
        | m :: box => castLoop max arr { s with box := box, inFlight := s.inFlight - 1, got := s.got ++ [m] }
        | [] => .late s

/-- The first call: `{0, NrInFlight}, NrItns`, perf_tester.escript:185-328. -/
def start (n : Nat) : St := ⟨[], 0, n, 0, []⟩

end Verif.Perf
