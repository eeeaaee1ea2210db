import Verif.Model.Xml
/-!
# Log output

Model of /repo/uhal/log/src/common/log.cpp (levels), /repo/uhal/log/src/common/LogLevels.cpp (beginning and end of a message) and of the function templates `log`
of /repo/uhal/log/include/uhal/log/log.hxx, used by several threads.

Levels are numbered as in `log.cpp`: 0 Fatal, 1 Error, 2 Warning, 3 Notice, 4 Info, 5 Debug. All levels write to the same stream (`std::cout`, LogLevels.hpp:95).
A step of a thread reads or writes one flag, takes or releases the mutex, or inserts one argument into the stream. The flags are plain `bool`s that are read and written
without the mutex, which C++ leaves undefined if threads do it at the same time; the model takes them one after the other. Errors of the stream
are not modelled.
-/

set_option autoImplicit false

namespace Verif.Log

/-- Which `LOGGING_EXCLUDE_*` macros are defined. -/
abbrev Excl := Nat → Bool

/-- A level is compiled only if neither it nor any more severe one is excluded (the nested `#ifndef`s of log.cpp and log.hxx). -/
def compiled (x : Excl) (l : Nat) : Bool := (List.range (l + 1)).all fun i => !x i

/-- The flags `log_configuration::mLoggingIncludes*`. -/
abbrev Flags := Nat → Bool

/-- `mLoggingIncludesFatal = true` … `mLoggingIncludesDebug = false`, log.cpp:267-272. -/
def Flags.init : Flags := fun l => decide (l ≤ 4)

/-- The assignments of `setLogLevelTo`, log.cpp:87-97 (Fatal), 107-119 (Error), 131-145, 159-175, 191-209, 227-247 (Debug), in their order: `true` for the level and
the more severe ones, up to the first that is excluded; and, if none of these is, `false` for the others. -/
def setActs (x : Excl) (l : Nat) : List (Nat × Bool) :=
  ((List.range (l + 1)).takeWhile fun i => !x i).map (fun i => (i, true)) ++
    if compiled x l then ((List.range 6).drop (l + 1)).map (fun i => (i, false)) else []

/-- `disableLogging`, log.cpp:64-72. -/
def disableActs : List (Nat × Bool) := (List.range 6).map fun i => (i, false)

/-- `LoggingIncludes`, log.cpp:99-105 and so on. -/
def includes (x : Excl) (f : Flags) (l : Nat) : Bool := compiled x l && f l

/-- A message: level and arguments as `insert` writes them. -/
structure Msg where
  level : Nat
  args : List Str
deriving DecidableEq, Repr

/-- What is inserted into the stream. -/
inductive Piece
  | text (s : Str)
  /-- `Time< … > ( Now() )` -/
  | now
  /-- `ThisThreadID()` -/
  | me
deriving DecidableEq, Repr

/-- The colours and names, LogLevels.cpp:28-132. -/
def levelName : Nat → Str × Str
  | 0 => ("\x1B[0;31m".toList, " FATAL - ".toList)
  | 1 => ("\x1B[0;31m".toList, " ERROR - ".toList)
  | 2 => ("\x1B[0;33m".toList, " WARNING - ".toList)
  | 3 => ("\x1B[0;32m".toList, " NOTICE - ".toList)
  | 4 => ("\x1B[0;36m".toList, " INFO - ".toList)
  | _ => ("\x1B[0;34m".toList, " DEBUG - ".toList)

/-- `head ( )`, the arguments, `tail ( )`: log.hxx:36-42. -/
def Msg.pieces (m : Msg) : List Piece :=
  [.text (levelName m.level).1, .now, .text " [".toList, .me, .text "]".toList, .text (levelName m.level).2] ++ m.args.map .text ++ [.text "\x1B[0m".toList, .text ['\n']]

/-- What a program does with the log. -/
inductive Op
  | log (m : Msg)
  | set (l : Nat)
  | disable
  /-- `setLogLevelFromEnvironment ( aEnvVar )`; `val`: the value of the variable -/
  | env (name : Str) (val : Option Str)
deriving DecidableEq, Repr

/-- Steps outside of the critical section. -/
inductive Act
  | log (m : Msg)
  | flag (l : Nat) (b : Bool)
deriving DecidableEq, Repr

/-- `Quote`, /repo/uhal/log/include/uhal/log/log_inserters.quote.hxx:40-45. -/
def quote (s : Str) : Str := ['"'] ++ s ++ ['"']

/-- The cases of `setLogLevelFromEnvironment`, log.cpp:27-57. -/
def envLevel (c : Char) : Option Nat :=
  if c = 'f' ∨ c = 'F' then some 0
  else if c = 'e' ∨ c = 'E' then some 1
  else if c = 'w' ∨ c = 'W' then some 2
  else if c = 'n' ∨ c = 'N' then some 3
  else if c = 'i' ∨ c = 'I' then some 4
  else if c = 'd' ∨ c = 'D' then some 5
  else none

def flags (l : List (Nat × Bool)) : List Act := l.map fun p => .flag p.1 p.2

/-- What an operation consists of. -/
def Op.acts (x : Excl) : Op → List Act
  | .log m => [.log m]
  | .set l => flags (setActs x l)
  | .disable => flags disableActs
  -- log.cpp:18-24
  | .env name none =>
    .log ⟨2, ["No environment variable ".toList, quote name, " set. Using level ".toList, quote "Info".toList, " instead.".toList]⟩ :: flags (setActs x 4)
  | .env _ (some v) =>
    -- the first character, or the terminating zero
    match envLevel (v.head?.getD '\x00') with
    | some l => flags (setActs x l)
    -- log.cpp:54-56
    | none => .log ⟨2, ["Environment varible has invalid value ".toList, quote v, ". Using level ".toList, quote "Info".toList, " instead.".toList]⟩ :: flags (setActs x 4)

/-- Where a thread is. -/
inductive Pc
  | out
  /-- at the `lock_guard` -/
  | wait (m : Msg)
  /-- in the critical section, with what is left to insert -/
  | inside (m : Msg) (rest : List Piece)
deriving DecidableEq, Repr

structure Thr where
  pc : Pc
  todo : List Act
deriving DecidableEq, Repr

/-- What is in the stream. -/
inductive Out
  | text (s : Str)
  | stamp (time : Nat)
  | id (thread : Nat)
deriving DecidableEq, Repr

structure St where
  flags : Flags
  lock : Option Nat
  out : List Out
  thr : Nat → Thr

/-- Threads with programs. -/
def St.init (x : Excl) (progs : Nat → List Op) : St := ⟨.init, none, [], fun t => ⟨.out, (progs t).flatMap (Op.acts x)⟩⟩

def upd {α : Type} (f : Nat → α) (i : Nat) (a : α) : Nat → α := fun j => if j = i then a else f j

/-- What a piece puts into the stream, in thread `t` at time `now`. -/
def Piece.put (t now : Nat) : Piece → Out
  | .text s => .text s
  | .now => .stamp now
  | .me => .id t

/-- One step of thread `t` at time `now`; `none`: it has nothing to do or has to wait. -/
def St.step (x : Excl) (s : St) (t now : Nat) : Option St :=
  match (s.thr t).pc, (s.thr t).todo with
  | .out, [] => none
  | .out, .flag l b :: r => some { s with flags := upd s.flags l b, thr := upd s.thr t ⟨.out, r⟩ }
  | .out, .log m :: r => some { s with thr := upd s.thr t ⟨if includes x s.flags m.level then .wait m else .out, r⟩ }
  | .wait m, r => if s.lock = none then some { s with lock := some t, thr := upd s.thr t ⟨.inside m m.pieces, r⟩ } else none
  | .inside m (p :: ps), r => some { s with out := s.out ++ [p.put t now], thr := upd s.thr t ⟨.inside m ps, r⟩ }
  | .inside _ [], r => some { s with lock := none, thr := upd s.thr t ⟨.out, r⟩ }

/-- A schedule: which thread makes a step, and when. -/
def St.run (x : Excl) (s : St) : List (Nat × Nat) → Option St
  | [] => some s
  | (t, now) :: r => (s.step x t now).bind fun s => s.run x r

/-- All programs have ended. -/
def St.done (s : St) : Prop := ∀ t, s.thr t = ⟨.out, []⟩

end Verif.Log
