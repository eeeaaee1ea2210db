/-!
The scripts that start, stop and ask the ControlHub: controlhub/rel/files/controlhub
(`start`, `stop`, `status`, `info`, `stats`) and what they use of
controlhub/rel/files/nodetool; controlhub/scripts/controlhub_* only call them and say what
the exit codes mean.

What the node does is an input of each call of nodetool.  Not modelled: the part of the
script before line 199 (paths, names; it ends with 1 if something is missing), what is
printed, the time between the calls.
-/

set_option autoImplicit false

namespace Verif.HubCtl

/-- What one call of nodetool meets (nodetool:35-45, 305-313). -/
structure Contact where
  -- `net_kernel:hidden_connect_node` succeeds
  connect : Bool
  -- `net_adm:ping` gives `pong`
  pong : Bool
  -- the remote call succeeds
  rpc : Bool
  -- the answer to `os:getpid`
  pid : Nat := 2
  -- `controlhub` is in the list of running applications
  app : Bool := true
deriving DecidableEq, Repr

/-- What nodetool prints, as far as the script looks at it. -/
inductive Text where
  | pong
  | pid (n : Nat)
  | other
deriving DecidableEq, Repr

inductive Tool where
  | ping | getpid | status | info | stats | stop
deriving DecidableEq, Repr

/-- nodetool:34-97: exit code and output.  `safe_rpc` halts with 2 (nodetool:302-313); a
failed match ends an escript with 127 (status, nodetool:57). -/
def nodetool (t : Tool) (c : Contact) : Nat × Text :=
  if c.connect && c.pong then
    match t with
    | .ping => (0, .pong)
    | .getpid => if c.rpc then (0, .pid c.pid) else (2, .other)
    | .status => if c.rpc then (if c.app then (0, .other) else (127, .other)) else (2, .other)
    | .info | .stats | .stop => if c.rpc then (0, .other) else (2, .other)
  else (1, .other)

/-- What `start` meets: the first ping, whether the configuration is right, the exit code
of the launch, and the pings afterwards. -/
structure StartEnv where
  first : Contact
  configOk : Bool
  -- launched by `run_erl`, whose exit code is not looked at (rel/files/controlhub:236-258)
  redirect : Bool
  launch : Nat
  later : Nat → Contact

/-- The loop of rel/files/controlhub:275-286: is one of the pings `i, i+1, ...` answered? -/
def waitUp (later : Nat → Contact) : Nat → Nat → Bool
  | 0, _ => false
  | n + 1, i => if (nodetool .ping (later i)).1 = 0 then true else waitUp later n (i + 1)

/-- `start`, rel/files/controlhub:199-291. -/
def start (e : StartEnv) : Nat :=
  if (nodetool .ping e.first).2 = .pong then 1
  else if !e.configOk then 4
  else if !e.redirect && e.launch ≠ 0 then e.launch
  else if waitUp e.later 30 1 then 0
  else 4

/-- `get_pid`, rel/files/controlhub:181-196. -/
def getPid (c : Contact) : Nat × Option Nat :=
  match nodetool .getpid c with
  | (0, .pid n) => if n ≤ 1 then (1, some n) else (0, some n)
  | _ => (1, none)

/-- What `stop` meets: the ping, the question for the process, the call to stop; after how
many looks the process is gone and the ping is no longer answered (`none`: never). -/
structure StopEnv where
  ping : Contact
  pid : Contact
  stop : Contact
  gone : Option Nat
  silent : Option Nat

/-- `stop`, rel/files/controlhub:293-340 and 518; `none` if it does not end. -/
def stop (e : StopEnv) : Option Nat :=
  if (nodetool .ping e.ping).2 ≠ .pong then some 1
  else
    let (gpr, pid) := getPid e.pid
    if gpr ≠ 0 ∨ pid = none then some gpr
    else
      let es := (nodetool .stop e.stop).1
      if es ≠ 0 then some es
      else if e.gone.isNone || e.silent.isNone then none
      else some 0

/-- `status`, `info` and `stats`, rel/files/controlhub:370-386. -/
def ask (t : Tool) (c : Contact) : Nat := (nodetool t c).1

end Verif.HubCtl
