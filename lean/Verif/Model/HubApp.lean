import Verif.Model.TraMgr
/-!
# The processes of a ControlHub, and its statistics

Models the TCP listener (/repo/controlhub/src/ch_tcp_listener.erl), the beginning and the end of the transaction managers
(ch_transaction_manager.erl:59-108, 207-224) with their socket processes (118-164), and the statistics server (ch_stats.erl).

Simplifications (all of them):
* The processes of the supervisor (`ch_sup.erl`) live: nobody stops them, and the number of processes and tables is not limited.
* Messages from one process to another arrive in the order in which they were sent and may be handled at any later time; those of different
  processes in any order. Each process has the messages it has sent that are not yet handled. Because of this what a transaction manager does from the
  return of `gen_tcp:accept` to the loop is one step.
* An ETS table is the numbers of its counters. The table of a process that ends goes to the heir, the statistics server, as a message.
* The texts of the report, and time stamps, are left out here (see `HubText`). A report is the numbers in it.
-/

set_option autoImplicit false

namespace Verif.HubApp
open Verif.Hub (Bytes)
open Verif.TraMgr (TM Addr Lookup Resp)

/-- The counters, ch_stats.erl:465-495. -/
inductive Key
  | requestsIn | requestsMalformed | responsesSent
  | udpSent | udpRcvd | timeoutNormal | lostRequest | lostResponse | timeoutRecovered | timeoutResend | timeoutStatus
deriving DecidableEq, Repr

/-- Content of a table. A counter that the table does not have is 0. -/
abbrev Table := Key → Nat

/-- `new_transaction_manager_table`, `new_device_client_table`. -/
def Table.zero : Table := fun _ => 0

/-- `ets:update_counter`. -/
def Table.add (t : Table) (k : Key) (n : Nat) : Table := fun x => if x = k then t x + n else t x

/-- The counters of device clients, ch_stats.erl:387-395. -/
def deviceKeys : List Key := [.udpSent, .udpRcvd, .timeoutNormal, .lostRequest, .lostResponse, .timeoutRecovered, .timeoutResend, .timeoutStatus]

/-- What device clients count: the calls of `ch_stats` in ch_device_client.erl:343, 370, 419-424, 455, 768. -/
def deviceCounts : List Key := [.udpSent, .udpRcvd, .timeoutNormal, .timeoutResend, .lostRequest, .lostResponse, .timeoutRecovered, .timeoutStatus]

/-- The counters of transaction managers, ch_stats.erl:402-404. -/
def clientKeys : List Key := [.requestsIn, .requestsMalformed, .responsesSent]

/-- The loop `lists:foreach(fun(X) -> ets:update_counter(T0, X, ets:lookup_element(T1, X, 2)) end, …)`, ch_stats.erl:386, 401. -/
def Table.merge (t0 t1 : Table) : List Key → Table
  | [] => t0
  | k :: ks => Table.merge (t0.add k (t1 k)) t1 ks

/-- Messages for the statistics server. -/
inductive Msg
  | connected
  | disconnected
  | newTable
  /-- `ETS-TRANSFER` -/
  | transfer
deriving DecidableEq, Repr

inductive Kind
  | manager
  | device
deriving DecidableEq, Repr

/-- What a process is doing, or how it has ended. -/
inductive Phase
  /-- in `gen_tcp:accept` -/
  | accepting
  /-- in its loop -/
  | running
  /-- left the loop since the socket was closed (a device client: left its loop) -/
  | closed
  /-- an exception, or killed by the link to the socket process -/
  | crashed
  /-- `gen_tcp:accept` has failed -/
  | failed
  /-- `inet:peername` has failed -/
  | unnamed
deriving DecidableEq, Repr

/-- The socket process of a transaction manager: waits for `start` (`tcp_proc_init`, ch_transaction_manager.erl:118-125), in its loop (139-164), ended. -/
inductive Sock
  | waiting
  | serving
  | gone
deriving DecidableEq, Repr

/-- A transaction manager or device client. -/
structure Proc where
  kind : Kind
  phase : Phase
  sock : Sock
  tm : TM
  /-- its table, as long as it exists -/
  table : Option Table
  /-- casts to the listener that have not been handled -/
  toListener : Nat
  toStats : List Msg

/-- A transaction manager as it is started, ch_transaction_manager.erl:59-71. -/
def Proc.acceptor : Proc := ⟨.manager, .accepting, .waiting, TM.init, none, 0, []⟩

/-- A device client after its `init` (ch_device_client.erl:160). -/
def Proc.device : Proc := ⟨.device, .running, .gone, TM.init, some Table.zero, 0, [.newTable]⟩

/-- The state of ch_stats.erl:40-48, and all the processes there have ever been. A table is known by the number of its process. `ok` is false
if the statistics server has crashed. -/
structure App where
  procs : List Proc
  active : Int
  peak : Int
  cumulative : Int
  oldClients : Table
  oldDevices : Table
  clients : List Nat
  devices : List Nat
  ok : Bool

/-- After the start: the listener has started one acceptor (ch_tcp_listener.erl:91). -/
def App.init : App := ⟨[Proc.acceptor], 0, 0, 0, Table.zero, Table.zero, [], [], true⟩

/-- How `gen_tcp:accept` and `inet:peername` turn out. -/
inductive Accept
  | error
  | unnamed
  | named
deriving DecidableEq, Repr

/-- `tcp_acceptor`, ch_transaction_manager.erl:68-108. -/
def Proc.accept (p : Proc) : Accept → Proc
  | .error => { p with phase := .failed, toListener := p.toListener + 1 }
  | .unnamed => { p with phase := .unnamed, toListener := p.toListener + 1, toStats := p.toStats ++ [.connected, .disconnected] }
  | .named => { p with phase := .running, sock := .serving, toListener := p.toListener + 1, table := some Table.zero,
                       toStats := p.toStats ++ [.connected, .newTable] }

/-- Whether `unpack_and_enqueue` calls `client_request_malformed` (ch_transaction_manager.erl:245-252); the same recursion as `TraMgr.unpack`. -/
def malformed (look : Lookup) : Nat → Bytes → Option Nat → Bool
  | 0, _, _ => true
  | fuel + 1, bin, pid =>
    let words := TraMgr.ofBE ((bin.drop 6).take 2)
    let tail := (bin.drop 8).drop (4 * words)
    if 8 + 4 * words ≤ bin.length then
      match TraMgr.dest look pid with
      | .pid p => if 0 < tail.length then malformed look fuel tail (some p) else false
      | _ => false
    else true

/-- What the loop of a transaction manager adds to its counters when it takes a message, ch_transaction_manager.erl:173-205. -/
def count (s : TM) (t : Table) : TraMgr.Ev → Table
  | .chunk bin look =>
    if bin.length % 4 = 0 then
      let t := if malformed look (bin.length + 1) bin none then t.add .requestsMalformed 1 else t
      match (TraMgr.unpack look (bin.length + 1) bin none 0).1 with
      | .done _ nr => t.add .requestsIn nr
      | _ => t
    else t.add .requestsMalformed 1
  | .response r =>
    if some r.addr = s.target then
      match s.q with
      | [] => t
      | n :: _ => if s.nrAcc + 1 = n then t.add .responsesSent n else t
    else t
  | _ => t

/-- A transaction manager in its loop takes a message, ch_transaction_manager.erl:173-229. If it ends, the socket process sees this and ends too
(`tcp_proc_init` has linked it, 122). -/
def Proc.take (p : Proc) (e : TraMgr.Ev) : Proc :=
  let p := { p with tm := p.tm.step e, table := p.table.map fun t => count p.tm t e }
  if p.tm.running then p
  else if p.tm.crashed then { p with phase := .crashed, sock := .gone, toStats := p.toStats ++ [.transfer] }
  else { p with phase := .closed, sock := .gone, toStats := p.toStats ++ [.disconnected, .transfer] }

/-- The socket process cannot send (`ok = gen_tcp:send(…)` does not match, 134): it ends with an exception, and the link ends the transaction manager, which
does not trap exits. -/
def Proc.sendFails (p : Proc) : Proc := { p with phase := .crashed, sock := .gone, toStats := p.toStats ++ [.transfer] }

inductive Ev
  /-- `gen_tcp:accept` of process `i` returns -/
  | accept (i : Nat) (r : Accept)
  /-- transaction manager `i` takes a message -/
  | take (i : Nat) (e : TraMgr.Ev)
  /-- the socket process of `i` cannot send a message to its client -/
  | sendFails (i : Nat)
  /-- the registry starts a device client -/
  | device
  /-- device client `i` counts something -/
  | count (i : Nat) (k : Key)
  /-- device client `i` ends -/
  | exit (i : Nat)
  /-- the listener handles a cast of `i` -/
  | listen (i : Nat)
  /-- the statistics server handles the next message of `i` -/
  | stats (i : Nat)
deriving DecidableEq, Repr

/-- `lists:keydelete(Pid, 1, L)`. -/
def keydelete (i : Nat) : List Nat → List Nat
  | [] => []
  | x :: xs => if x = i then xs else x :: keydelete i xs

def App.set (a : App) (i : Nat) (p : Proc) : App := { a with procs := a.procs.set i p }

/-- `handle_cast` and `handle_info` of the statistics server, ch_stats.erl:338-413. -/
def App.handle (a : App) (i : Nat) (p : Proc) : Msg → App
  | .connected => { a with active := a.active + 1, cumulative := a.cumulative + 1,
                           peak := if a.peak < a.active + 1 then a.active + 1 else a.peak }
  | .disconnected => { a with active := a.active - 1 }
  | .newTable => match p.kind with
    | .manager => { a with clients := i :: a.clients }
    | .device => { a with devices := i :: a.devices }
  | .transfer => match p.table with
    | none => { a with ok := false }
    | some t => match p.kind with
      | .device => { a.set i { p with table := none } with oldDevices := a.oldDevices.merge t deviceKeys, devices := keydelete i a.devices }
      | .manager => { a.set i { p with table := none } with oldClients := a.oldClients.merge t clientKeys, clients := keydelete i a.clients }

/-- One step; `none` if it cannot happen. -/
def App.step (a : App) : Ev → Option App
  | .accept i r => match a.procs[i]? with
    | some p => if p.kind = .manager ∧ p.phase = .accepting then some (a.set i (p.accept r)) else none
    | none => none
  | .take i e => match a.procs[i]? with
    | some p => if p.kind = .manager ∧ p.phase = .running then some (a.set i (p.take e)) else none
    | none => none
  | .sendFails i => match a.procs[i]? with
    | some p => if p.kind = .manager ∧ p.phase = .running ∧ p.tm.sent ≠ [] then some (a.set i p.sendFails) else none
    | none => none
  | .device => some { a with procs := a.procs ++ [Proc.device] }
  | .count i k => match a.procs[i]? with
    | some p =>
      if p.kind = .device ∧ p.phase = .running ∧ k ∈ deviceCounts then some (a.set i { p with table := p.table.map fun t => t.add k 1 }) else none
    | none => none
  | .exit i => match a.procs[i]? with
    | some p => if p.kind = .device ∧ p.phase = .running then some (a.set i { p with phase := .closed, toStats := p.toStats ++ [.transfer] }) else none
    | none => none
  | .listen i => match a.procs[i]? with
    | some p => match p.toListener with
      | 0 => none
      | n + 1 => let a := a.set i { p with toListener := n }
        some { a with procs := a.procs ++ [Proc.acceptor] }
    | none => none
  | .stats i => match a.procs[i]? with
    | some p => match p.toStats with
      | [] => none
      | m :: ms => if a.ok then some ((a.set i { p with toStats := ms }).handle i { p with toStats := ms } m) else none
    | none => none

def App.run (a : App) : List Ev → Option App
  | [] => some a
  | e :: es => match a.step e with
    | some a => a.run es
    | none => none

/-- The numbers in a report, ch_stats.erl:440-453. -/
structure Report where
  connections : Int
  active : Int
  peak : Int
  clients : List Table
  oldClients : Table
  devices : List Table
  oldDevices : Table

/-- `stats_table_to_string`: without the table no clause matches what `ets:info` returns. -/
def App.tables (a : App) : List Nat → Option (List Table)
  | [] => some []
  | i :: is => match (a.procs[i]?).bind (·.table), a.tables is with
    | some t, some ts => some (t :: ts)
    | _, _ => none

/-- `report_to_string`; `none`: an exception. -/
def App.report (a : App) : Option Report :=
  match a.tables a.clients, a.tables a.devices with
  | some cs, some ds => some ⟨a.cumulative, a.active, a.peak, cs, a.oldClients, ds, a.oldDevices⟩
  | _, _ => none

end Verif.HubApp
