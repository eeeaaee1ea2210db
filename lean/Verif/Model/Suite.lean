/-!
The test suite uhal/tests/scripts/uhal_test_suite.py; line numbers refer to this file.

What commands do is an input: the exit code that `run_command` gives, whether a background
process is still there when it is terminated, and where Ctrl-C comes.  Simplified: texts are
lists of characters, `lower` is that of ASCII; what is printed is left out except for the
two numbers at the end; the questions for the status of hub and dummy
hardware after an error (line 464) succeed; a background process is in its list when the next command starts.
-/

set_option autoImplicit false

namespace Verif.Suite

/-- A command and what comes of it (lines 424-471). -/
inductive Cmd where
  -- `run_command` gives this code (lines 258-315): the exit code, minus the signal, -1 after
  -- a timeout, -2 after one Ctrl-C
  | run (code : Int)
  -- `DummyHardware...`, line 446; `alive`: it is still running when it is terminated
  | dummy (alive : Bool)
  -- `KILL_BACKGROUND_PROCS`, line 436
  | kill
  -- Ctrl-C outside of the handler of `run_command`, for example the second one in 5 seconds
  -- (lines 308-313), during this command
  | interrupted
deriving DecidableEq, Repr

/-- How the script ends: exit status, and the two numbers that are printed if it comes to
the end (line 481). -/
structure End where
  status : Nat
  report : Option (Nat × Nat) := none
deriving DecidableEq, Repr

/-- `sys.exit(code)`: the status has eight bits. -/
def sysExit (code : Int) : Nat := (code % 256).toNat

/-- `os.killpg` for each process (lines 185-187, 438-442): an exception for a process that
is gone already.  It is not caught: the script ends with status 1. -/
def killAll (bg : List Bool) (next : End) : End := if bg.all id then next else ⟨1, none⟩

/-- The variables of lines 413-417. -/
structure St where
  nrRun : Nat := 0
  nrErr : Nat := 0
  bg : List Bool := []

/-- Lines 418-483 for the commands of all sections to be run, one after the other.
The results of the cleanup commands (lines 189-191) are not used. -/
def loop (quit : Bool) : List Cmd → St → End
  | [], s => killAll s.bg ⟨if s.nrErr > 0 then 1 else 0, some (s.nrRun, s.nrErr)⟩
  | .kill :: cs, s => killAll s.bg (loop quit cs { s with nrRun := s.nrRun + 1, bg := [] })
  | .dummy alive :: cs, s => loop quit cs { s with nrRun := s.nrRun + 1, bg := alive :: s.bg }
  | .interrupted :: _, s => killAll s.bg ⟨0, none⟩
  | .run code :: cs, s =>
    if code ≠ 0 then
      if quit then killAll s.bg ⟨sysExit code, none⟩
      else loop quit cs { s with nrRun := s.nrRun + 1, nrErr := s.nrErr + 1 }
    else loop quit cs { s with nrRun := s.nrRun + 1 }

/-- `a in b` for texts. -/
def isIn (a : List Char) : List Char → Bool
  | [] => a.isEmpty
  | c :: b => a.isPrefixOf (c :: b) || isIn a b

def lower (s : List Char) : List Char := s.map Char.toLower

/-- `skip_section`, lines 386-392. -/
def skip (search : Option (List Char)) (name : List Char) : Bool :=
  match search with
  | none => false
  | some x => if isIn (lower x) (lower name) then false else true

/-- The sections to be run, line 393. -/
def toRun (search : Option (List Char)) (sections : List (List Char × List Cmd)) :
    List (List Char × List Cmd) :=
  sections.filter fun s => !skip search s.1

/-- The script from line 393 on with commands run (no `-l`). -/
def main (quit : Bool) (search : Option (List Char)) (sections : List (List Char × List Cmd)) : End :=
  loop quit ((toRun search sections).flatMap (·.2)) {}

/-- The exit codes of `controlhub_start`, `controlhub_status` and `controlhub_stop` in one
turn of the command of the first section, line 72. -/
structure HubTurn where
  start : Nat
  status : Nat
  stop : Nat

/-- The exit code of the `for` of line 72, as the shell gives it: that of the last command,
`controlhub_stop`.  The texts of the errors are only printed. -/
def hubLoop (turns : List HubTurn) : Nat := (turns.getLast?.map (·.stop)).getD 0

end Verif.Suite
