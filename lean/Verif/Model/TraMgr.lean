import Verif.Model.Hub
/-!
# The connection of a uHAL client to the ControlHub

Models the transaction manager, the process that serves one TCP connection
(/repo/controlhub/src/ch_transaction_manager.erl), and its interplay with the device client of `Verif/Model/Hub.lean`.

Simplifications (all of them):
* The socket is in the mode `{packet, 4}` (ch_config.erl:24): what arrives is a sequence of messages, each preceded on the wire
  by its length (`packet4`), and the length is written before every message that is sent. A message from the client is one event.
* The process that owns the socket (`tcp_proc_loop`, 134-160) hands messages on in order in both directions and is left out.
* An I/O list is the list of its bytes. Statistics and logging are left out.
* `ch_device_client_registry:get_pid` is called at most once per chunk; its result is part of the event (`Lookup`).
-/

set_option autoImplicit false

namespace Verif.TraMgr
open Verif.Hub (Bytes)

/-- `<<N:16>>`. -/
def be16 (n : Nat) : Bytes := [n / 256 % 256, n % 256]

/-- `<<N:32>>`. -/
def be32 (n : Nat) : Bytes := [n / 16777216 % 256, n / 65536 % 256, n / 256 % 256, n % 256]

/-- The number whose bytes, most significant first, are these. -/
def ofBE (bs : Bytes) : Nat := bs.foldl (fun s b => s * 256 + b) 0

/-- The IP address and the port of a target. -/
structure Addr where
  ip : Nat
  port : Nat
deriving DecidableEq, Repr

/-- What `ch_device_client_registry:get_pid` returns. For `{error, …}` no clause in `enqueue_request` matches. -/
inductive Lookup
  | pid (p : Nat)
  | blocked
  | error
deriving DecidableEq, Repr

/-- Result of `unpack_and_enqueue`: an error response, a target (or `unknown`) and a number of packets, or no result at all. -/
inductive Unpacked
  | error (response : Bytes)
  | done (target : Option Addr) (nr : Nat)
  | crash
deriving DecidableEq, Repr

/-- Where `enqueue_request` sends a packet, ch_transaction_manager.erl:252-267: to the given process, if there is one. -/
def dest (look : Lookup) : Option Nat → Lookup
  | some p => .pid p
  | none => look

/-- `unpack_and_enqueue` and `enqueue_request`, ch_transaction_manager.erl:229-272: result and the packets that are cast to device
clients. `pid` is the process the previous packet of the chunk went to, `nr` the number of packets so far. The first argument
bounds the number of packets; the length of the binary will do. -/
def unpack (look : Lookup) : Nat → Bytes → Option Nat → Nat → Unpacked × List (Nat × Bytes)
  | 0, _, _, nr => (.done none nr, [])
  | fuel + 1, bin, pid, nr =>
    let target : Addr := ⟨ofBE (bin.take 4), ofBE ((bin.drop 4).take 2)⟩
    let words := ofBE ((bin.drop 6).take 2)
    let req := (bin.drop 8).take (4 * words)
    let tail := (bin.drop 8).drop (4 * words)
    if 8 + 4 * words ≤ bin.length then
      match dest look pid with
      | .blocked => (.error (be32 8 ++ be32 target.ip ++ be16 target.port ++ be16 7), [])
      | .error => (.crash, [])
      | .pid p =>
        if 0 < tail.length then
          let r := unpack look fuel tail (some p) (nr + 1)
          (r.1, (p, req) :: r.2)
        else (.done (some target) (nr + 1), [(p, req)])
    else if bin.length < 12 then (.done none nr, [])
    else (.done (some target) nr, [])

/-- State of the process, ch_transaction_manager.erl:28-43, and what it has sent (ghosts). `running` is false once the loop was left,
`crashed` if that was because of an exception. -/
structure TM where
  target : Option Addr
  inFlight : Int
  q : List Nat
  acc : Bytes
  nrAcc : Nat
  running : Bool
  crashed : Bool
  /-- messages sent to the client -/
  sent : List Bytes
  /-- messages sent to device clients -/
  casts : List (Nat × Bytes)
deriving DecidableEq, Repr

/-- `InitialState`, ch_transaction_manager.erl:80-91. -/
def TM.init : TM := ⟨none, 0, [], [], 0, true, false, [], []⟩

/-- What the device client sends back: `{device_client_response, Ip, Port, ErrorCode, Data}`. -/
structure Resp where
  addr : Addr
  code : Nat
  data : Bytes
deriving DecidableEq, Repr

/-- A response as it is written to the client, ch_transaction_manager.erl:191, 196. -/
def Resp.bytes (r : Resp) : Bytes :=
  be32 (r.data.length + 8) ++ be32 r.addr.ip ++ be16 r.addr.port ++ be16 r.code ++ r.data

inductive Ev
  /-- a message from the client; what the registry would answer for its first packet -/
  | chunk (bin : Bytes) (look : Lookup)
  | response (r : Resp)
  /-- a message that matches none of the other clauses -/
  | stray
  /-- `tcp_closed` or `tcp_error` -/
  | closed
deriving DecidableEq, Repr

/-- The arm for messages from the client, ch_transaction_manager.erl:166-184. -/
def TM.chunk (s : TM) (bin : Bytes) (look : Lookup) : TM :=
  if bin.length % 4 = 0 then
    let r := unpack look (bin.length + 1) bin none 0
    let s := { s with casts := s.casts ++ r.2 }
    match r.1 with
    | .error response => { s with sent := s.sent ++ [response] }
    | .done target nr => { s with target := target, inFlight := s.inFlight + nr, q := s.q ++ [nr] }
    | .crash => { s with running := false, crashed := true }
  else s

/-- The arm for responses of the device client, ch_transaction_manager.erl:186-199. It matches only responses from the present
target; others are ignored (221-223). Without anything in the queue `element(2, empty)` fails. -/
def TM.response (s : TM) (r : Resp) : TM :=
  if some r.addr = s.target then
    match s.q with
    | [] => { s with running := false, crashed := true }
    | n :: q' =>
      if s.nrAcc + 1 = n then
        { s with inFlight := s.inFlight - 1, q := q', acc := [], nrAcc := 0, sent := s.sent ++ [s.acc ++ r.bytes] }
      else { s with inFlight := s.inFlight - 1, acc := s.acc ++ r.bytes, nrAcc := s.nrAcc + 1 }
  else s

/-- `transaction_manager_loop`, ch_transaction_manager.erl:163-224. -/
def TM.step (s : TM) : Ev → TM
  | .chunk bin look => if s.running then s.chunk bin look else s
  | .response r => if s.running then s.response r else s
  | .stray => s
  | .closed => { s with running := false }

def TM.run (s : TM) : List Ev → TM
  | [] => s
  | e :: es => (s.step e).run es

/-! ## With a device client -/

/-- One connection, the device client of its target, and the network. `taken` of the packets cast have been taken from the mailbox
of the device client, `got` of the messages from there have been taken from the mailbox of the transaction manager.
`evs`: what has happened at the device client so far (ghost). -/
structure World (σ : Type) where
  tm : TM
  dc : Hub.Sys σ
  taken : Nat
  got : Nat
  evs : List Hub.Ev

inductive WEv
  /-- a message from the client; the device client is registered -/
  | chunk (bin : Bytes)
  /-- the device client takes the next packet of this connection -/
  | request
  /-- the device client takes a packet of another connection -/
  | other (pkt : Bytes) (pid : Nat)
  /-- something else happens at the device client or in the network -/
  | toTarget (i : Nat) (junk : Bytes)
  | toHub (i : Nat)
  | timeout
  /-- the transaction manager takes the next message from the device client -/
  | response
deriving DecidableEq, Repr

/-- One event at the device client. -/
def World.dev {σ : Type} (exec : σ → Bytes → σ × Bytes) (w : World σ) (e : Hub.Ev) : Option (World σ) :=
  match w.dc.step exec e with
  | some dc => some { w with dc := dc, evs := w.evs ++ [e] }
  | none => none

/-- The connection `me` to the target `a`, whose device client is the process `p`. Messages between two processes arrive in the order
in which they were sent. A device client sends its address with every message (ch_device_client.erl:347, 369, 461, 714), but with
error code 5 it sends the IP address as a tuple (ch_device_client.erl:763), which matches no `target_ip_u32`. -/
def World.step {σ : Type} (exec : σ → Bytes → σ × Bytes) (me p : Nat) (a : Addr) (w : World σ) : WEv → Option (World σ)
  | .chunk bin => some { w with tm := w.tm.step (.chunk bin (.pid p)) }
  | .request => match w.tm.casts[w.taken]? with
    | some c => match w.dev exec (.request c.2 me) with
      | some w => some { w with taken := w.taken + 1 }
      | none => none
    | none => none
  | .other pkt pid => if pid = me then none else w.dev exec (.request pkt pid)
  | .toTarget i junk => w.dev exec (.toTarget i junk)
  | .toHub i => w.dev exec (.toHub i)
  | .timeout => w.dev exec .timeout
  | .response => match (w.dc.hub.out.filter (fun m => m.pid = me))[w.got]? with
    | some m => some { w with tm := w.tm.step (if m.code = 5 then .stray else .response ⟨a, m.code, m.pkt⟩), got := w.got + 1 }
    | none => none

def World.run {σ : Type} (exec : σ → Bytes → σ × Bytes) (me p : Nat) (a : Addr) (w : World σ) : List WEv → Option (World σ)
  | [] => some w
  | e :: es => match w.step exec me p a e with
    | some w => w.run exec me p a es
    | none => none

/-- A new connection. -/
def World.init {σ : Type} (t : Hub.Tgt σ) (absMax : Nat) : World σ := ⟨TM.init, Hub.start t absMax, 0, 0, []⟩

/-! ## The wire -/

/-- `{packet, 4}`: the first message in a stream, and the rest; nothing if it is not complete. -/
def packet4 (bs : Bytes) : Option (Bytes × Bytes) :=
  if bs.length < 4 then none
  else if (bs.drop 4).length < ofBE (bs.take 4) then none
  else some ((bs.drop 4).take (ofBE (bs.take 4)), (bs.drop 4).drop (ofBE (bs.take 4)))

end Verif.TraMgr
