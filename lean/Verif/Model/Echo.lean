/-!
The servers that the tests of the ControlHub talk to, other than the emulator:
controlhub/unittest/ch_unittest_common.erl:129-230, and how
controlhub/scripts/perf_tester.escript:219-236 starts them.  Line numbers without a file
refer to ch_unittest_common.erl.

Simplified: sockets open and sending on a TCP socket succeeds; packets are lists of bytes;
a TCP connection is the list of what comes in on it.
-/

set_option autoImplicit false

namespace Verif.Echo

abbrev Bytes := List Nat

/-! ### UDP -/

/-- Messages to the UDP server (lines 136-143): a datagram, the confirmation of an
asynchronous send, anything else (which stays in the mailbox). -/
inductive UMsg where
  | udp (ip : Nat × Nat × Nat × Nat) (port : Nat) (packet : Bytes)
  | inetReply (ok : Bool)
  | other
deriving DecidableEq, Repr

/-- `udp_async_send`, lines 197-200: the command for the driver of the socket. -/
def udpAsyncSend (ip : Nat × Nat × Nat × Nat) (port : Nat) (data : Bytes) : Bytes :=
  [(port >>> 8) &&& 0xff, port &&& 0xff] ++
  [ip.1 &&& 0xff, ip.2.1 &&& 0xff, ip.2.2.1 &&& 0xff, ip.2.2.2 &&& 0xff] ++ data

/-- `udp_echo_server_loop`, lines 135-145: the commands sent, and whether it still runs
(`force_quit = yes` is a `badmatch`). -/
def udpServer : List UMsg → List Bytes × Bool
  | [] => ([], true)
  | .udp ip port p :: ms => let r := udpServer ms; (udpAsyncSend ip port p :: r.1, r.2)
  | .inetReply true :: ms => udpServer ms
  | .inetReply false :: _ => ([], false)
  | .other :: ms => udpServer ms

/-! ### TCP -/

/-- The option `active` of a socket. -/
inductive Active where
  | no | once | yes
deriving DecidableEq, Repr

/-- What comes in on a connection. -/
inductive TEv where
  | data (p : Bytes)
  | closed
deriving DecidableEq, Repr

/-- What `tcp_recv` gives. -/
inductive Rcv where
  | pkt (p : Bytes)
  | tcpClosed
  -- `case_clause`
  | crash
deriving DecidableEq, Repr

/-- `tcp_recv` without a timeout, lines 203-230: the result and whether the socket
delivers again.  For a passive socket `gen_tcp:recv` gives `{error, closed}` at the end,
for which there is no clause (lines 204-211).  An active socket sends messages; with
`once` it sends one and the code switches it on again after data (line 215). -/
def tcpRecv : Active → TEv → Rcv × Bool
  | .no, .data p => (.pkt p, true)
  | .no, .closed => (.crash, true)
  | .once, .data p => (.pkt p, true)
  | .once, .closed => (.tcpClosed, false)
  | .yes, .data p => (.pkt p, true)
  | .yes, .closed => (.tcpClosed, true)

/-- How the server stands with a client. -/
inductive TEnd where
  | serving
  -- back to waiting for the next client
  | waiting
  | crashed
  -- the socket does not deliver
  | stuck
deriving DecidableEq, Repr

/-- The second clause of `tcp_echo_server_loop`, lines 158-167. -/
def serve (mode : Active) : Bool → List TEv → List Bytes × TEnd
  | _, [] => ([], .serving)
  | false, _ :: _ => ([], .stuck)
  | true, e :: es =>
    match tcpRecv mode e with
    | (.pkt p, on) => let r := serve mode on es; (p :: r.1, r.2)
    | (.tcpClosed, _) => ([], .waiting)
    | (.crash, _) => ([], .crashed)

/-- `tcp_echo_server_loop`, lines 153-167, over the clients in the order in which they are
accepted: what each one gets. -/
def tcpServer (mode : Active) : List (List TEv) → List (List Bytes) × TEnd
  | [] => ([], .waiting)
  | c :: cs =>
    match serve mode true c with
    | (sent, .waiting) => let r := tcpServer mode cs; (sent :: r.1, r.2)
    | (sent, e) => ([sent], e)

/-! ### The dummy device client -/

/-- One turn: the time at the check (line 178), the message taken and the time at which it
is put into the queue (line 192). -/
structure Turn where
  now : Int
  msg : Option (Bytes × Nat)
  stamp : Int

/-- An entry of the queue: `{TimeRcvd, Bin, TargetPid}`, line 177. -/
structure Entry where
  time : Int
  bin : Bytes
  pid : Nat
deriving DecidableEq, Repr

/-- `{device_client_response, TargetIP, TargetPort, 0, Bin}` and its receiver, line 182;
with the time, which is not part of the message. -/
structure Resp where
  pid : Nat
  code : Nat
  bin : Bytes
  at_ : Int
deriving DecidableEq, Repr

/-- The first part of the loop, lines 175-189; times in microseconds. -/
def answer (now : Int) : List Entry → List Resp × List Entry
  | [] => ([], [])
  | e :: q => if now - e.time > 100 then ([⟨e.pid, 0, e.bin, now⟩], q) else ([], e :: q)

/-- The second part, lines 190-195. -/
def enqueue (t : Turn) (q : List Entry) : List Entry :=
  match t.msg with
  | some (p, pid) => q ++ [⟨t.stamp, p, pid⟩]
  | none => q

/-- `dummy_device_client_loop`, lines 170-195. -/
def device : List Turn → List Entry → List Resp × List Entry
  | [], q => ([], q)
  | t :: ts, q =>
    let (sent, q') := answer t.now q
    let r := device ts (enqueue t q')
    (sent ++ r.1, r.2)

/-! ### Starting the servers -/

/-- The exports, lines 13-15, that matter here: name and number of arguments. -/
def exports : List (String × Nat) :=
  [("dummy_device_client_loop", 2), ("start_udp_echo_server", 2), ("start_tcp_echo_server", 2)]

/-- A call `ch_unittest_common:F(...)`: it fails with `undef` unless it is exported with
this number of arguments. -/
def defined (f : String) (arity : Nat) : Bool := exports.contains (f, arity)

/-- The calls of perf_tester.escript:221, 236: numbers of arguments. -/
def calls : List (String × Nat) := [("start_udp_echo_server", 1), ("start_tcp_echo_server", 2)]

end Verif.Echo
