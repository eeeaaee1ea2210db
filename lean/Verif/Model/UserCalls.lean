import Verif.Model.Link
import Verif.Model.Bits
import Verif.Spec.Prog
/-!
# Calls of user code on the value types

`ValHeader`, `ValWord` and `ValVector` as user code sees them, mixed with calls of the client. Paths are relative
to `/repo/uhal/uhal`.

* All copies of a handle share one object (`std::shared_ptr` members, include/uhal/ValMem.hpp; copy constructors
  src/common/ValMem.cpp:98-102, 196-200; `ValHeader` made from a `ValWord` or `ValVector`,
  include/uhal/TemplateDefinitions/ValMem.hxx:38-51), so a call is identified by the object, not by the copy.
* Only objects that come from the client are modelled; those that user code constructs are never given to a client.
* Resizing a vector whose reply has not arrived yet moves or frees the storage the transport is going to write to.
  The model makes any such call undefined behaviour at once, also where the storage happens to stay.
* `data`, `begin`, ... return pointers; the model returns what they point to at that moment.
-/

set_option autoImplicit false

namespace Verif
open Spec

/-- Member functions. `const_iterator`s are represented by one call each. -/
inductive Call
  | valid | setValid (b : Bool) | value | assign (v : W) | setValue (v : W) | mask | setMask (m : W)
  | pushBack (v : W) | index (i : Nat) | at_ (i : Nat) | size | data | clear | begin_ | end_ | rbegin | rend
  | setVec (ws : List W)
deriving DecidableEq, Repr

/-- Results of member functions. `illTyped`: the class has no such member (does not compile) or the user has no
such handle. -/
inductive UOut
  | unit | flag (b : Bool) | word (w : W) | words (ws : List W) | num (n : Nat)
  | nonValidated | immutable | outOfRange | illTyped
deriving DecidableEq, Repr

/-- The client, and what user code has changed in the objects: `mask` is `mMembers->mask` where it differs from
the one the handle was created with, `size` is `mMembers->value.size()` likewise. -/
structure US (ρ : Type) where
  st : St (Link ρ)
  mask : Nat → Option W
  size : Nat → Option Nat
  handles : List Handle

variable {ρ : Type}

/-- Initial state. -/
def US.init (s : St (Link ρ)) : US ρ := ⟨s, fun _ => none, fun _ => none, []⟩

def US.heap (u : US ρ) : Heap := u.st.tr.heap
def US.setHeap (u : US ρ) (h : Heap) : US ρ := { u with st := { u.st with tr := { u.st.tr with heap := h } } }
/-- `mMembers->valid = b` -/
def US.setFlag (u : US ρ) (o : Nat) (b : Bool) : US ρ :=
  u.setHeap { u.heap with valid := fun o' => if o' = o then b else u.heap.valid o' }
/-- The first `n` words of an object. -/
def US.content (u : US ρ) (o n : Nat) : List W := (List.range n).map fun i => u.heap.word (.data o i)

/-- A packet that is being filled or that waits for its reply has a reply slot in the object. -/
def US.outstanding (u : US ρ) (o : Nat) : Bool :=
  (u.st.cur.toList ++ u.st.tr.pending).any fun b => b.reply.any fun sl => (match sl.loc with
    | .data o' _ => o' == o
    | _ => false)

/-- Member functions of `ValHeader` (src/common/ValMem.cpp:71-85), `ValWord` (88-183) and `ValVector` (188-405;
`assign`: include/uhal/TemplateDefinitions/ValMem.hxx:54-66). `none`: undefined behaviour. -/
def Call.run (wrapNeg : Bool) (h : Handle) (k : Call) (u : US ρ) : Option (UOut × US ρ) :=
  match h, k with
  | h, .valid => some (.flag (u.heap.valid h.obj), u)
  | h, .setValid b => some (.unit, u.setFlag h.obj b)
  | .word o m, .value =>
    if u.heap.valid o then (maskedValue wrapNeg (u.heap.word (.data o 0)) ((u.mask o).getD m)).map fun w => (.word w, u)
    else some (.nonValidated, u)
  | .word o _, .assign v => some (.unit, u.setHeap (u.heap.set (.data o 0) v))
  | .word o _, .setValue v =>
    if u.heap.valid o then some (.immutable, u) else some (.unit, u.setHeap (u.heap.set (.data o 0) v))
  | .word o m, .mask => some (.word ((u.mask o).getD m), u)
  | .word o _, .setMask m => some (.unit, { u with mask := fun o' => if o' = o then some m else u.mask o' })
  | .vec o n, .pushBack v =>
    if u.heap.valid o then some (.immutable, u)
    else if u.outstanding o then none
    else some (.unit, { u.setHeap (u.heap.set (.data o ((u.size o).getD n)) v) with
      size := fun o' => if o' = o then some ((u.size o).getD n + 1) else u.size o' })
  | .vec o n, .index i =>
    if u.heap.valid o then if i < (u.size o).getD n then some (.word (u.heap.word (.data o i)), u) else none
    else some (.nonValidated, u)
  | .vec o n, .at_ i =>
    if u.heap.valid o then if i < (u.size o).getD n then some (.word (u.heap.word (.data o i)), u) else some (.outOfRange, u)
    else some (.nonValidated, u)
  | .vec o n, .size => some (.num ((u.size o).getD n), u)
  | .vec o _, .clear =>
    if u.outstanding o then none
    else some (.unit, { u.setFlag o false with size := fun o' => if o' = o then some 0 else u.size o' })
  | .vec o n, .value => if u.heap.valid o then some (.words (u.content o ((u.size o).getD n)), u) else some (.nonValidated, u)
  | .vec o n, .data => if u.heap.valid o then some (.words (u.content o ((u.size o).getD n)), u) else some (.nonValidated, u)
  | .vec o n, .begin_ => if u.heap.valid o then some (.words (u.content o ((u.size o).getD n)), u) else some (.nonValidated, u)
  | .vec o n, .end_ => if u.heap.valid o then some (.words (u.content o ((u.size o).getD n)), u) else some (.nonValidated, u)
  | .vec o n, .rbegin => if u.heap.valid o then some (.words (u.content o ((u.size o).getD n)), u) else some (.nonValidated, u)
  | .vec o n, .rend => if u.heap.valid o then some (.words (u.content o ((u.size o).getD n)), u) else some (.nonValidated, u)
  | .vec o _, .setVec ws =>
    if u.heap.valid o then some (.immutable, u)
    else if u.outstanding o then none
    else some (.unit, { u.setHeap (u.heap.copy (.data o 0) 0 ws) with
      size := fun o' => if o' = o then some ws.length else u.size o' })
  | _, _ => some (.illTyped, u)

/-- Statements of a user program. -/
inductive UOp
  | client (op : Op)
  | user (h : Handle) (k : Call)
deriving DecidableEq, Repr

/-- Their results. -/
inductive URes
  | client (r : Res)
  | user (r : UOut)
deriving DecidableEq

/-- Run a user program; `none`: undefined behaviour. -/
def urun (c : Cfg) (T : Transport (Link ρ)) : List UOp → US ρ → Option (List URes × US ρ)
  | [], u => some ([], u)
  | .client op :: ps, u =>
    match op.run c T u.st with
    | .ok h s => (urun c T ps { u with st := s, handles := u.handles ++ h.toList }).map fun p => (.client (.ok h) :: p.1, p.2)
    | .exc e s => (urun c T ps { u with st := s }).map fun p => (.client (.exc e) :: p.1, p.2)
    | .ub => none
    | .loops => none
  | .user h k :: ps, u =>
    if h ∈ u.handles then
      match k.run c.wrapNeg h u with
      | some (r, u') => (urun c T ps u').map fun p => (.user r :: p.1, p.2)
      | none => none
    else (urun c T ps u).map fun p => (.user .illTyped :: p.1, p.2)

end Verif
