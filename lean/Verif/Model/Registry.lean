import Verif.Model.Allow
/-!
# The registry of device clients of the ControlHub

Models /repo/controlhub/src/ch_device_client_registry.erl: the process that starts at most one device client per target, with
`get_pid`, which is run by the processes that ask, and the life of the device clients as far as the registry can see it.

Simplifications (all of them):
* A process is a number; numbers are not used again (Erlang reuses process identifiers only after many millions).
* The look-up in the table (an atomic read), the sending of the call and the handling of one message are one step each. A call ends
  when its message is handled; the time limit of five seconds of `gen_server:call` is left out.
* What a device client does is left to `Verif/Model/Hub.lean`; here it may end at any time. Its exit signal is delivered later.
* The registry itself does not end (its supervisor would end all device clients with it), and there are no other messages.
-/

set_option autoImplicit false

namespace Verif.Registry
open Verif.TraMgr (Addr Lookup)
open Verif.Allow (Mode Param)

/-- A message to the registry: a call by `caller`, or the end of a linked process. -/
inductive Msg
  | register (caller : Nat) (a : Addr)
  | exit (p : Nat)
deriving DecidableEq, Repr

/-- What `get_pid` comes to for the process that called it. -/
inductive Answer
  | result (r : Lookup)
  | crash
deriving DecidableEq, Repr

/-- The registry, its surroundings, and what has happened so far. -/
structure State where
  /-- `device_client_index`. -/
  index : List (Addr × Nat) := []
  /-- `device_client_reverse_index`. -/
  rindex : List (Nat × Addr) := []
  /-- Messages to the registry that are not handled yet, oldest first. -/
  mailbox : List Msg := []
  /-- Processes that have ended and whose exit signal is under way. -/
  signals : List Nat := []
  /-- Device clients that run, with their targets. -/
  alive : List (Nat × Addr) := []
  /-- All device clients ever started (history). -/
  started : List (Nat × Addr) := []
  /-- The next process number. -/
  next : Nat := 0
  /-- What `get_pid` returned to whom for which target, latest first (history). -/
  answers : List (Nat × Addr × Answer) := []
  /-- All calls of `get_pid` (history). -/
  asked : List (Nat × Addr) := []
deriving DecidableEq, Repr

/-- `ets:lookup` in the index. -/
def lookup (ix : List (Addr × Nat)) (a : Addr) : Option Nat := (ix.find? fun e => e.1 == a).map (·.2)

/-- `ets:lookup` in the reverse index. -/
def rlookup (ix : List (Nat × Addr)) (p : Nat) : Option Addr := (ix.find? fun e => e.1 == p).map (·.2)

/-- `ets:insert` in a table of type `set`: an entry with the same key is replaced. -/
def insert {α β : Type} [BEq α] (ix : List (α × β)) (k : α) (v : β) : List (α × β) := (k, v) :: ix.filter fun e => !(e.1 == k)

/-- `ets:delete`. -/
def delete {α β : Type} [BEq α] (ix : List (α × β)) (k : α) : List (α × β) := ix.filter fun e => !(e.1 == k)

/-- What can happen. -/
inductive Event
  /-- Process `caller` runs `get_pid` up to its result or the call. -/
  | ask (caller : Nat) (a : Addr)
  /-- The registry handles the next message; `ok` tells whether a device client can be started (a UDP port can be opened). -/
  | handle (ok : Bool)
  /-- A device client ends. -/
  | die (p : Nat)
  /-- An exit signal arrives. -/
  | signal (p : Nat)
deriving DecidableEq, Repr

/-- `get_pid`, ch_device_client_registry.erl:66-85. -/
def ask (mode : Mode) (par : Param) (s : State) (c : Nat) (a : Addr) : State :=
  let s := { s with asked := (c, a) :: s.asked }
  match lookup s.index a with
  | some p => { s with answers := (c, a, .result (.pid p)) :: s.answers }
  | none =>
    match Allow.verdict mode par a with
    | .register => { s with mailbox := s.mailbox ++ [.register c a] }
    | .blocked => { s with answers := (c, a, .result .blocked) :: s.answers }
    | .crash => { s with answers := (c, a, .crash) :: s.answers }

/-- `handle_call({register, …})` and `create_and_register_device_client`, ch_device_client_registry.erl:134-143, 212-222. A process
whose `init` fails ends and its exit signal is sent as well. -/
def register (s : State) (ok : Bool) (c : Nat) (a : Addr) : State :=
  match lookup s.index a with
  | some p => { s with answers := (c, a, .result (.pid p)) :: s.answers }
  | none =>
    if ok then
      { s with
        index := insert s.index a s.next
        rindex := insert s.rindex s.next a
        alive := (s.next, a) :: s.alive
        started := (s.next, a) :: s.started
        next := s.next + 1
        answers := (c, a, .result (.pid s.next)) :: s.answers }
    else
      { s with
        signals := s.next :: s.signals
        next := s.next + 1
        answers := (c, a, .result .error) :: s.answers }

/-- `handle_info({'EXIT', …})`, ch_device_client_registry.erl:174-183. -/
def onExit (s : State) (p : Nat) : State :=
  match rlookup s.rindex p with
  | some a => { s with index := delete s.index a, rindex := delete s.rindex p }
  | none => s

/-- One step; an event that cannot happen leaves the state as it is. -/
def step (mode : Mode) (par : Param) (s : State) : Event → State
  | .ask c a => ask mode par s c a
  | .handle ok =>
    match s.mailbox with
    | [] => s
    | .register c a :: ms => register { s with mailbox := ms } ok c a
    | .exit p :: ms => onExit { s with mailbox := ms } p
  | .die p =>
    if p ∈ s.alive.map (·.1) then { s with alive := delete s.alive p, signals := p :: s.signals } else s
  | .signal p =>
    if p ∈ s.signals then { s with signals := s.signals.erase p, mailbox := s.mailbox ++ [.exit p] } else s

/-- All steps. -/
def run (mode : Mode) (par : Param) (s : State) (es : List Event) : State := es.foldl (step mode par) s

end Verif.Registry
