import Verif.Model.HwStruct
import Verif.Spec.Dump
/-!
# What the Python copy of the hardware should hold
-/

set_option autoImplicit false

namespace Verif.Spec
open Verif

/-- All nodes below an item and itself. -/
inductive HwAttr : HwStruct.Item → List HwStruct.Entry → Prop
  | mk {e : HwStruct.Entry} {kids : List HwStruct.Item} {ls : List (List HwStruct.Entry)} : kids.length = ls.length →
      (∀ (i : Nat) k l, kids[i]? = some k → ls[i]? = some l → HwAttr k l) → HwAttr (.mk e kids) (e :: ls.flatten)

/-- The attributes that belong to a line of an address table. -/
def hwLine (r : Row) : HwStruct.Entry where
  id := (".".toList).intercalate r.path.tail
  parent := (".".toList).intercalate r.path.tail.dropLast
  addr := r.addr
  mode := r.mode
  perm := r.perm
  mask := r.mask
  size := r.size
  tags := r.info.tags

/-- Items below the one with the id `p`: they name it as their parent and are in the order of their names, no two with the same; and so on below. -/
inductive HwTidy : Str → List HwStruct.Item → Prop
  | mk {p : Str} {l : List HwStruct.Item} : (l.Pairwise fun a b => ∀ e ks e' ks', a = .mk e ks → b = .mk e' ks' → InFront e.id e'.id ∧ e.id ≠ e'.id) →
      (∀ e ks, .mk e ks ∈ l → e.parent = p) → (∀ e ks, .mk e ks ∈ l → HwTidy e.id ks) → HwTidy p l

/-- The items are a copy of the table: in all, they have the attributes of its lines (without that of the device itself), one item for each line. -/
structure HwCopy (rows : List Row) (l : List HwStruct.Item) : Prop where
  tidy : HwTidy [] l
  lines : ∃ ls : List (List HwStruct.Entry), l.length = ls.length ∧ (∀ (i : Nat) k x, l[i]? = some k → ls[i]? = some x → HwAttr k x) ∧ ls.flatten.Perm ((rows.filter fun r => r.path.tail ≠ []).map hwLine)

end Verif.Spec
