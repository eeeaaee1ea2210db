import Verif.Model.ValMem
import Verif.Model.Uri
/-!
# Values in Python

Model of what the Python package makes of validated memory: /repo/uhal/python/src/common/cactus_pycohal.cpp (cited as pycohal.cpp) and /repo/uhal/python/pkg/uhal/__init__.py
(cited as `__init__.py`), with ValMem.cpp for /repo/uhal/uhal/src/common/ValMem.cpp.

Simplifications: Python 3; a `float` is a finite one, a fraction; the arithmetic of Python's `int` is that of integers and a parameter here; texts other than those of vectors are left out;
`size_t` has 64 and `int` 32 bits.
-/

set_option autoImplicit false

namespace Verif.Py
open Verif

/-- The outcome of a call from Python. -/
inductive Out (α : Type)
  | ok (a : α)
  | nonValidated
  /-- `IndexError` -/
  | index
  /-- `ValueError` -/
  | value
  /-- `TypeError` -/
  | type
  /-- `std::out_of_range` of `std::vector::at` (which pybind11 makes an `IndexError`) -/
  | range
  | ub
deriving DecidableEq, Repr

/-- `_ValVector_`, ValMem.cpp: the words and the flag. -/
structure Vec where
  valid : Bool
  vals : List W
deriving DecidableEq, Repr

/-- `ValVector::at`, ValMem.cpp:276-288. -/
def Vec.at (v : Vec) (i : Nat) : Out W :=
  if v.valid then
    match v.vals[i]? with
    | some x => .ok x
    | none => .range
  else .nonValidated

/-- `__getitem__` with an integer, pycohal.cpp:157-169; an integer that no `int` can hold matches no overload. -/
def Vec.getItem (v : Vec) (i : Int) : Out W :=
  if i < -2 ^ 31 ∨ 2 ^ 31 ≤ i then .type
  else if (BitVec.ofNat 32 v.vals.length).toInt ≤ i then .index
  else
    let j : Int := if i < 0 then ((BitVec.ofInt 64 i + BitVec.ofNat 64 v.vals.length).setWidth 32).toInt else i
    if j < 0 then .index else v.at (BitVec.ofInt 64 j).toNat

/-- A Python `slice`. -/
structure Slice where
  start : Option Int := none
  stop : Option Int := none
  step : Option Int := none
deriving DecidableEq, Repr

/-- One end of a slice in CPython's `PySlice_AdjustIndices`. -/
def adjust (len : Int) (neg : Bool) (x : Int) : Int :=
  if x < 0 then
    if x + len < 0 then (if neg then -1 else 0) else x + len
  else if len ≤ x then (if neg then len - 1 else len)
  else x

/-- The first end, where a missing one is the end of the vector. -/
def Slice.first (s : Slice) (len : Nat) (neg : Bool) : Int :=
  match s.start with
  | some x => adjust len neg x
  | none => if neg then len - 1 else 0

/-- The second end. -/
def Slice.last (s : Slice) (len : Nat) (neg : Bool) : Int :=
  match s.stop with
  | some x => adjust len neg x
  | none => if neg then -1 else len

/-- `slice.compute`, i. e. CPython's `PySlice_GetIndicesEx`: start, step and number of items. -/
def Slice.compute (s : Slice) (len : Nat) : Option (Int × Int × Nat) :=
  let step := s.step.getD 1
  if step = 0 then none
  else
    let neg := decide (step < 0)
    let start := s.first len neg
    let stop := s.last len neg
    let n : Int := if neg then (if stop < start then (start - stop - 1) / (-step) + 1 else 0) else if start < stop then (stop - start - 1) / step + 1 else 0
    some (start, step, n.toNat)

/-- The loop of `getSlice`, pycohal.cpp:178-182. -/
def Vec.sliceLoop (v : Vec) : Nat → BitVec 64 → BitVec 64 → Out (List W)
  | 0, _, _ => .ok []
  | n + 1, start, step =>
    match v.at start.toNat with
    | .ok x => match sliceLoop v n (start + step) step with
      | .ok xs => .ok (x :: xs)
      | e => e
    | .nonValidated => .nonValidated
    | .range => .range
    | .index => .index
    | .value => .value
    | .type => .type
    | .ub => .ub

/-- `__getitem__` with a slice, pycohal.cpp:171-183. -/
def Vec.getSlice (v : Vec) (s : Slice) : Out (List W) :=
  match s.compute v.vals.length with
  | none => .value
  | some (start, step, n) => v.sliceLoop n (BitVec.ofInt 64 start) (BitVec.ofInt 64 step)

/-- `value`, ValMem.cpp:375-387. -/
def Vec.value (v : Vec) : Out (List W) := if v.valid then .ok v.vals else .nonValidated

/-- The loop of `__str__`, pycohal.cpp:197-205, from item `i` on. -/
def Vec.strLoop (v : Vec) : Nat → Nat → Out Str
  | 0, _ => .ok []
  | k + 1, i =>
    match v.at i with
    | .ok x => match strLoop v k (i + 1) with
      | .ok s => .ok ((toString x.toNat).toList ++ (if i ≠ v.vals.length - 1 then ", ".toList else []) ++ s)
      | e => e
    | .nonValidated => .nonValidated
    | .range => .range
    | .index => .index
    | .value => .value
    | .type => .type
    | .ub => .ub

/-- `__str__` of vectors, pycohal.cpp:191-209. -/
def Vec.str (v : Vec) : Out Str :=
  match v.strLoop v.vals.length 0 with
  | .ok s => .ok (['['] ++ s ++ [']'])
  | e => e

/-- The buffer (`numpy.array(v)`, `memoryview(v)`), pycohal.cpp:291-301. -/
def Vec.buffer (v : Vec) : Out (List W) := if v.valid then .ok v.vals else .ok []

/-! ### Iteration

`__iter__` of vectors, pycohal.cpp:290: two iterators of the `std::vector`, and nothing that keeps it alive (`py::keep_alive` is missing; `Node` has it, pycohal.cpp:329). The vector is shared
by the Python object and the buffers of the client in which it is filled (Buffers.cpp:71-110), which are cleared when they are used again: a queue, of ten at first,
/repo/uhal/uhal/src/common/ClientInterface.cpp:339-361. -/

/-- What happens during an iteration over the vector `v`. -/
inductive Step
  /-- the loop asks for the next item -/
  | next
  /-- the last Python reference to the vector disappears -/
  | drop
  /-- the client fills one more buffer and dispatches it; the vectors in it -/
  | use (vs : List Nat)
deriving DecidableEq, Repr

/-- The state of an iteration: whether Python still has the vector; the client's buffers; the place. -/
structure Iter where
  py : Bool := true
  pool : List (List Nat) := List.replicate 10 []
  at_ : Nat := 0
deriving DecidableEq, Repr

/-- Someone has a reference to the memory of the vector. -/
def Iter.alive (s : Iter) (id : Nat) : Bool := s.py || s.pool.any fun b => b.contains id

/-- One step; what the loop gets (`none`: `StopIteration`). -/
def Iter.step (v : Vec) (id : Nat) (s : Iter) : Step → Iter × Option (Out (Option W))
  | .next =>
    if s.alive id then
      match v.vals[s.at_]? with
      | some x => ({ s with at_ := s.at_ + 1 }, some (.ok (some x)))
      | none => (s, some (.ok none))
    else (s, some .ub)
  | .drop => ({ s with py := false }, none)
  | .use vs => ({ s with pool := (if s.pool = [] then List.replicate 10 [] else s.pool).drop 1 ++ [vs] }, none)

/-- What the loop gets. -/
def Iter.run (v : Vec) (id : Nat) : Iter → List Step → List (Out (Option W))
  | _, [] => []
  | s, x :: xs => match Iter.step v id s x with
    | (s', some o) => o :: Iter.run v id s' xs
    | (s', none) => Iter.run v id s' xs

/-- The loop, from `iter(v)` on. -/
def Vec.iterate (v : Vec) (id : Nat) (s : Iter) (steps : List Step) : List (Out (Option W)) := if v.valid then Iter.run v id s steps else [.nonValidated]

/-! ### Words -/

/-- An operand in Python: an integer, a `ValWord` (`none`: not validated), a float, something that `int()` refuses. -/
inductive Obj
  | int (i : Int)
  | word (w : Option W)
  | float (num : Int) (den : Nat)
  | other
deriving DecidableEq, Repr

/-- `int(x)` -/
def Obj.toInt : Obj → Out Int
  | .int i => .ok i
  | .word (some w) => .ok w.toNat
  | .word none => .nonValidated
  | .float n d => .ok (n.tdiv d)
  | .other => .type

/-- The methods that are added to `ValWord_uint32`, `__init__.py`:52-75. -/
def methods : List String :=
  ["__invert__", "__neg__", "__pos__", "__add__", "__radd__", "__sub__", "__rsub__", "__mul__", "__rmul__", "__mod__", "__rmod__", "__pow__", "__rpow__", "__lshift__", "__rlshift__",
   "__rshift__", "__rrshift__", "__and__", "__rand__", "__or__", "__ror__", "__xor__", "__rxor__", "__format__", "__bool__", "__lt__", "__le__", "__eq__", "__ne__", "__gt__", "__ge__"]

/-- A binary operator: its method, the method of the right operand, and what `int` computes. -/
structure BinOp (β : Type) where
  left : String
  right : String
  f : Int → Int → β

/-- The method of the left `ValWord`, `__init__.py`:32-41. -/
def leftMethod {β : Type} (op : BinOp β) (self : Option W) (b : Obj) : Out β :=
  match (Obj.word self).toInt with
  | .ok x => match b.toInt with
    | .ok y => .ok (op.f x y)
    | .nonValidated => .nonValidated
    | _ => .type
  | _ => .nonValidated

/-- The method of the right `ValWord`: `int.__rop__`. -/
def rightMethod {β : Type} (op : BinOp β) (self : Option W) (b : Obj) : Out β :=
  match (Obj.word self).toInt with
  | .ok x => match b.toInt with
    | .ok y => .ok (op.f y x)
    | .nonValidated => .nonValidated
    | _ => .type
  | _ => .nonValidated

/-- `a op b` where at least one is a `ValWord`; the methods of `int` and `float` know nothing about `ValWord`. -/
def binary {β : Type} (op : BinOp β) : Obj → Obj → Out β
  | .word w, b =>
    if op.left ∈ methods then leftMethod op w b
    else .type
  | a, .word w => if op.right ∈ methods then rightMethod op w a else .type
  | _, _ => .type

/-- A unary operator, `__init__.py`:28-31. -/
def unary {β : Type} (name : String) (f : Int → β) (self : Option W) : Out β :=
  if name ∈ methods then
    match (Obj.word self).toInt with
    | .ok x => .ok (f x)
    | _ => .nonValidated
  else .type

end Verif.Py
