import Verif.Spec.Reply
import Verif.Spec.Xml
/-!
# What a reader of the log should see

Independent of the inspectors: transactions of `Spec.Txn`, numerals of `Spec.Xml`.
-/

set_option autoImplicit false

namespace Verif.Spec

/-- A reply whose headers announce what follows them: version, type, id and, for reads, the number of words. Info codes are free. -/
inductive FullReply (v : Ver) : List (Nat × Txn × List W) → List W → Prop
  | nil : FullReply v [] []
  | cons {id : Nat} {t : Txn} {ds : List W} {l : List (Nat × Txn × List W)} {hw : W} {r : List W} :
      field hw 28 4 = verNibble v → tyOf v (field hw (tyLow v) (8 - tyLow v)) = some t.ty →
      field hw (28 - idBits v) (idBits v) = id → ds.length = (dataWords t).getD 0 →
      (t.ty = .read ∨ t.ty = .niRead ∨ t.ty = .configRead → field hw 8 (wcBits v) = ds.length) →
      FullReply v l r → FullReply v ((id, t, ds) :: l) (hw :: ds ++ r)

/-- A line that shows the word `w` with eight hexadecimal digits, and then `rest`. -/
def Shows (line : Str) (w : W) (rest : Str) : Prop :=
  ∃ ds, line = ['0', 'x'] ++ ds ++ rest ∧ Numeral hexTable 16 ds w.toNat ∧ ds.length = 8

/-- A decimal number without zeros in front. -/
def Decimal (s : Str) (n : Nat) : Prop := Numeral decTable 10 s n ∧ (s.head? = some '0' → s = ['0'])

/-- Names of transactions. -/
def Txn.title : Txn → String
  | .bot => "BOT"
  | .read true _ _ => "Incrementing read"
  | .read false _ _ => "Non-incrementing read"
  | .write true _ _ => "Incrementing write"
  | .write false _ _ => "Non-incrementing write"
  | .rmwBits .. => "Read-modify-write bits"
  | .rmwSum .. => "Read-modify-write sum"
  | .cfgRead .. => "Incrementing 'configuration space' read"

/-- Size of block transfers. -/
def Txn.size : Txn → Option Nat
  | .read _ _ n => some n
  | .write _ _ ds => some ds.length
  | .cfgRead _ n => some n
  | _ => none

/-- The text behind the header word of a transaction. -/
def TitleLine (id : Nat) (t : Txn) (size : Option Nat) (s : Str) : Prop :=
  ∃ z i, s = " | ".toList ++ t.title.toList ++ z ++ ", transaction ID ".toList ++ i ∧ Decimal i id ∧
    (match size with
      | none => z = []
      | some n => ∃ d, z = ", size ".toList ++ d ∧ Decimal d n)

/-- The texts behind data words numbered from `k` on. -/
def DataLines : Nat → List W → List Str → Prop
  | _, [], ls => ls = []
  | k, d :: ds, ls => ∃ l r i, ls = l :: r ∧ Shows l d (" |  > Data [".toList ++ i ++ "]".toList) ∧ Decimal i k ∧ DataLines (k + 1) ds r

/-- The lines for one transaction of a request, `hw` being its header. -/
def TxnLines (id : Nat) (t : Txn) (hw : W) (ls : List Str) : Prop :=
  ∃ l r s, ls = l :: r ∧ Shows l hw s ∧ TitleLine id t t.size s ∧
    (match t with
      | .bot => r = []
      | .read _ a _ => ∃ x, r = [x] ∧ Shows x a " |  > Address".toList
      | .cfgRead a _ => ∃ x, r = [x] ∧ Shows x a " |  > Address".toList
      | .write _ a ds => ∃ x y, r = x :: y ∧ Shows x a " |  > Address".toList ∧ DataLines 0 ds y
      | .rmwSum a d => ∃ x y, r = [x, y] ∧ Shows x a " |  > Address".toList ∧ Shows y d " |  > Addend".toList
      | .rmwBits a m o => ∃ x y z, r = [x, y, z] ∧ Shows x a " |  > Address".toList ∧ Shows y m " |  > And-term".toList ∧ Shows z o " |  > Or-term".toList)

/-- The lines for one transaction of a reply. IPbus 1.3 targets send word count 0 in replies to writes, hence the free size. -/
def ReplyLines (id : Nat) (t : Txn) (ds : List W) (hw : W) (ls : List Str) : Prop :=
  ∃ l r s, ls = l :: r ∧ Shows l hw s ∧
    (match t with
      | .bot => r = [] ∧ TitleLine id t none s
      | .read _ _ n => DataLines 0 ds r ∧ TitleLine id t (some n) s
      | .cfgRead _ _ => False
      | .write _ _ _ => r = [] ∧ ∃ n, TitleLine id t (some n) s
      | .rmwSum _ _ => (∃ x d, ds = [d] ∧ r = [x] ∧ Shows x d " |  > Data".toList) ∧ TitleLine id t none s
      | .rmwBits _ _ _ => (∃ x d, ds = [d] ∧ r = [x] ∧ Shows x d " |  > Data".toList) ∧ TitleLine id t none s)

/-- The line for the header of a control packet. -/
def PacketLine (p : W) (l : Str) : Prop :=
  ∃ n, Shows l p (" | Control (Instruction) Packet Header , Packet Counter ".toList ++ n) ∧ Decimal n (field p 8 16)

/-- Requests as in `parseTxns`, but leniently: in IPbus 1.3 the bit that marks replies may be set, and read-modify-write requests may have any word count. -/
inductive Loose (v : Ver) : List W → List (Nat × Txn) → Prop
  | nil : Loose v [] []
  | cons {w : W} {t rest : List W} {n : Nat} {ty : Ty} {txn : Txn} {l : List (Nat × Txn)} :
      field w 28 4 = verNibble v → field w 0 (infoBits v) = reqCode v → tyOf v (field w (tyLow v) (8 - tyLow v)) = some ty →
      (n = field w 8 (wcBits v) ∨ ((ty = .rmwBits ∨ ty = .rmwSum) ∧ n = 1)) → parseBody n t ty = some (txn, rest) → Loose v rest l →
      Loose v (w :: t) ((field w (28 - idBits v) (idBits v), txn) :: l)

end Verif.Spec
