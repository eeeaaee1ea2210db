import Verif.Model.Link
import Verif.Spec.Prog
/-!
# Vocabulary for statements about memory

Which locations a reply is received into, which object a location belongs to, the failures in a log.
-/

set_option autoImplicit false

namespace Verif

/-- The object a location belongs to; none for packet preambles. -/
def Loc.obj? : Loc → Option Nat
  | .hdr o _ => some o
  | .data o _ => some o
  | _ => none

/-- Whether a location is a transaction header. -/
def Loc.isHdr : Loc → Bool
  | .hdr .. => true
  | _ => false

/-- The locations of a slot. -/
def slotLocs (s : Slot) : List Loc := (List.range s.len).map s.loc.plus

/-- The locations a reply to a buffer is received into, in order. -/
def bufLocs (b : Buf) : List Loc := b.reply.flatMap slotLocs

/-- Object `o` has a reply slot in packet `b`. -/
def Buf.touches (b : Buf) (o : Nat) : Prop := ∃ sl ∈ b.reply, sl.loc.obj? = some o

/-- The failures of validation in a log, in order. -/
def errsOf (log : List Rx) : List Exc := log.filterMap fun e => match e.out with
  | .err x => some x
  | _ => none

/-- The exceptions among the results of a program, in order. -/
def excsOf (rs : List Res) : List Exc := rs.filterMap fun r => match r with
  | .exc x => some x
  | _ => none

end Verif
