import Verif.Model.Xml
/-!
# Texts of exceptions

Model of `uhal::exception::exception` (/repo/uhal/log/src/common/exception.cpp, /repo/uhal/log/include/uhal/log/exception.hpp) and of
`log ( exception::exception& , … )` (/repo/uhal/log/include/uhal/log/log.hxx:6665-7546).

A C string in memory is the list of its characters before the terminating zero; writing outside of the allocated block, copying a
string onto itself with `strcpy` and losing the terminating zero are undefined (`none`). The time stamp and the text that
`log` also writes to the log output are not modelled. One character is one byte.
-/

set_option autoImplicit false

namespace Verif

/-- What `c_str()` means to a C function: the characters before the first zero. -/
def cstr (s : Str) : Str := s.takeWhile fun c => c ≠ '\x00'

/-- `malloc ( 65536 )`, exception.cpp:55, 65. -/
def excCap : Nat := 65536

/-- `strcpy ( dst , src )` into a block of `excCap` bytes. -/
def cStrcpy (src : Str) : Option Str := if src.length + 1 ≤ excCap then some src else none

/-- `strncat ( dst , src , n )`: at most `n` characters of `src`, and then a zero. -/
def cStrncat (dst src : Str) (n : Nat) : Option Str :=
  if dst.length + (src.take n).length + 1 ≤ excCap then some (dst ++ src.take n) else none

/-- `strncpy ( dst , src , n )`: exactly `n` bytes; without a zero if `src` has `n` characters or more. -/
def cStrncpy (src : Str) (n : Nat) : Option Str := if n ≤ excCap ∧ src.length < n then some src else none

/-- An exception: what the virtual function `description` returns (exception.hpp:48-56), and the text in `mString`. -/
structure ExcObj where
  desc : Str
  text : Str
deriving DecidableEq, Repr

/-- `exception::exception ( )`, exception.cpp:53-59. -/
def ExcObj.new (desc : Str) : ExcObj := ⟨desc, []⟩

/-- `append`, exception.cpp:104-107. -/
def ExcObj.append (e : ExcObj) (s : Str) : Option ExcObj :=
  (cStrncat e.text (cstr s) (65536 - e.text.length)).map fun t => { e with text := t }

/-- `exception ( const exception& )`, exception.cpp:62-68. The type is that of the original (`throw ClassName ( *this )`, exception.hpp:53). -/
def ExcObj.copy (e : ExcObj) : Option ExcObj := (cStrcpy e.text).map fun t => ⟨e.desc, t⟩

/-- `operator=`, exception.cpp:70-75, for two different objects. -/
def ExcObj.assign (e f : ExcObj) : Option ExcObj := (cStrcpy f.text).map fun t => { e with text := t }

/-- `" (no additional info)"`, exception.cpp:97. -/
def noInfo : Str := " (no additional info)".toList

/-- `what`, exception.cpp:87-102. -/
def ExcObj.what (e : ExcObj) : Option (ExcObj × Str) :=
  if e.text.length ≠ 0 then some (e, e.text)
  else (cStrncpy (cstr (e.desc ++ noInfo)) 65536).map fun t => ({ e with text := t }, t)

/-- What a program does with exceptions. They are numbered in the order of their construction. -/
inductive ExcOp
  | create (desc : Str)
  | append (i : Nat) (s : Str)
  /-- `log ( lExc , … )`; `s`: what the arguments insert into the stream -/
  | log (i : Nat) (s : Str)
  | copy (i : Nat)
  | assign (i j : Nat)
  | what (i : Nat)
  | destroy (i : Nat)
deriving DecidableEq, Repr

/-- Exceptions that exist; what `what` has returned so far. -/
structure ExcSt where
  objs : List (Option ExcObj)
  shown : List Str
deriving DecidableEq, Repr

def ExcSt.init : ExcSt := ⟨[], []⟩

/-- The exception with a number, if it exists. -/
def ExcSt.get (s : ExcSt) (i : Nat) : Option ExcObj := (s.objs[i]?).join

def ExcSt.put (s : ExcSt) (i : Nat) (e : ExcObj) : ExcSt := { s with objs := s.objs.set i (some e) }

/-- One step; `none`: undefined behaviour, or an exception is used that does not exist. -/
def ExcSt.step (s : ExcSt) : ExcOp → Option ExcSt
  | .create d => some { s with objs := s.objs ++ [some (.new d)] }
  | .append i t => (s.get i).bind fun e => (e.append t).map (s.put i)
  -- `aExc.append( ( lStr.str() + "\n" ).c_str() )`, log.hxx:6672
  | .log i t => (s.get i).bind fun e => (e.append (t ++ ['\n'])).map (s.put i)
  | .copy i => (s.get i).bind fun e => e.copy.map fun f => { s with objs := s.objs ++ [some f] }
  -- `strcpy ( mString , mString )` is undefined
  | .assign i j => (s.get i).bind fun e => (s.get j).bind fun f => if i = j then none else (e.assign f).map (s.put i)
  | .what i => (s.get i).bind fun e => e.what.map fun (f, t) => { s.put i f with shown := s.shown ++ [t] }
  | .destroy i => (s.get i).map fun _ => { s with objs := s.objs.set i none }

def ExcSt.run (s : ExcSt) : List ExcOp → Option ExcSt
  | [] => some s
  | op :: ops => (s.step op).bind fun s => s.run ops

end Verif
