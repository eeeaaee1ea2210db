import Verif.Model.HwProg
import Verif.Props.C34
import Verif.Props.C48
import Verif.Props.C15Tcp
import Verif.Props.C15Paged
/-!
# C60: from the address table to the target

A program that names nodes by their ids performs exactly the accesses that the address table declares for these ids. Puts together C32 (address
files), C33 (lookup), C34, C35 (access), C16 (client), and the transports.
-/

set_option autoImplicit false
set_option linter.unusedSimpArgs false

namespace Verif
open Node

namespace Spec

/-- The line of the table for an id: the ids of the path below the top, joined by dots. -/
def rowAt (rows : List Row) (id : Str) : Option Row := rows.find? fun r => decide ((".".toList).intercalate r.path.tail = id)

/-- How many words, and from where, may be accessed in one call on a node with all bits. With `offset` the call says from where. -/
def Row.allows (r : Row) (offset : Option Nat) (len : Nat) : Bool :=
  match r.mode, offset with
  | .single, none => decide (len = 1 ∧ r.size ≠ 0#32)
  | .nonIncremental, none => decide (r.size = 1#32 ∨ len ≤ r.size.toNat)
  | .incremental, o => decide (o.getD 0 + len ≤ r.size.toNat)
  | _, _ => false

/-- The word accesses that a call on a declared node stands for. `none`: it must be refused. -/
def Row.means (r : Row) : NodeCall → Option (List Acc)
  | .write x =>
    if r.perm = .read then none
    else if r.mask = 0xFFFFFFFF#32 then some [.wr r.addr x]
    else if r.perm = .readWrite then
      match lowBit r.mask with
      | none => none
      | some k => if FitsMask r.mask x k then some [.bits r.addr (~~~r.mask) (BitVec.ofNat 32 (x.toNat * 2 ^ k))] else none
    else none
  | .read => if r.perm = .write then none else some [.rd r.addr]
  | .writeBlock vs =>
    if r.perm ≠ .read ∧ r.mask = 0xFFFFFFFF#32 ∧ r.allows none vs.length = true then
      some (List.zipWith .wr (addrs (decide (r.mode = .incremental)) r.addr vs.length) vs) else none
  | .writeBlockOffset vs off =>
    if r.perm ≠ .read ∧ r.mask = 0xFFFFFFFF#32 ∧ r.allows (some off.toNat) vs.length = true then
      some (List.zipWith .wr (addrs (decide (r.mode = .incremental)) (r.addr + off) vs.length) vs) else none
  | .readBlock k =>
    if r.perm ≠ .write ∧ r.mask = 0xFFFFFFFF#32 ∧ r.allows none k.toNat = true then
      some ((addrs (decide (r.mode = .incremental)) r.addr k.toNat).map .rd) else none
  | .readBlockOffset k off =>
    if r.perm ≠ .write ∧ r.mask = 0xFFFFFFFF#32 ∧ r.allows (some off.toNat) k.toNat = true then
      some ((addrs (decide (r.mode = .incremental)) (r.addr + off) k.toNat).map .rd) else none

/-- What the user sees of the words read. -/
def Row.shows (r : Row) : NodeCall → List W → List W
  | .read, ws => ws.map (fieldOf r.mask)
  | .readBlock _, ws => ws
  | .readBlockOffset _ _, ws => ws
  | _, _ => []

/-- A program on a declared device, executed one call after the other. -/
def tableRun {σ : Type} (v : Ver) (tg : Target σ) (rows : List Row) : List DevCall → σ → List (Option (List W)) × σ
  | [], m => ([], m)
  | .dispatch :: rest, m => let q := tableRun v tg rows rest m; (some [] :: q.1, q.2)
  | .node id call :: rest, m =>
    match (rowAt rows id).bind fun r => (r.means call).map fun as => (r, as) with
    | none => let q := tableRun v tg rows rest m; (none :: q.1, q.2)
    | some (r, as) =>
      let x := execAccs v tg as m
      let q := tableRun v tg rows rest x.2
      (some (r.shows call x.1) :: q.1, q.2)

/-- The calls for which the code does what the table says: block calls only on nodes that are registers, ports or blocks with all bits,
within the limits of the number types; more than one word only on blocks of declared size; no mask 0 (and on some platforms not
only the highest bit). -/
def Row.Proper (c : Cfg) (r : Row) : NodeCall → Prop
  | .write _ => r.mask ≠ 0#32 ∧ (c.wrapNeg = true ∨ r.mask ≠ 0x80000000#32)
  | .read => r.mask ≠ 0#32 ∧ (c.wrapNeg = true ∨ r.mask ≠ 0x80000000#32)
  | .writeBlock vs => r.mode ≠ .hierarchical ∧ r.mask = 0xFFFFFFFF#32 ∧ (r.mode = .incremental → r.size = 1#32 → vs.length ≤ 1) ∧ vs.length < 2 ^ 29
  | .writeBlockOffset vs _ => r.mode ≠ .hierarchical ∧ r.mask = 0xFFFFFFFF#32 ∧ vs.length < 2 ^ 29
  | .readBlock k => r.mode ≠ .hierarchical ∧ r.mask = 0xFFFFFFFF#32 ∧ (r.mode = .incremental → r.size = 1#32 → k.toNat ≤ 1) ∧ k.toNat < 2 ^ 29
  | .readBlockOffset k off => r.mode ≠ .hierarchical ∧ r.mask = 0xFFFFFFFF#32 ∧ k.toNat + off.toNat < 2 ^ 32 ∧ k.toNat < 2 ^ 29

/-- All calls of the program are of this kind. -/
def ProperProg (c : Cfg) (rows : List Row) (prog : List DevCall) : Prop :=
  ∀ id call, .node id call ∈ prog → ∀ r, rowAt rows id = some r → r.Proper c call

end Spec
open Spec

/-! ### The table and the tree -/

/-- The line of a node. -/
def rowOf (path : List Str) (d : NodeData) : Row := ⟨path, d.addr, d.mode, d.mask, d.perm, d.size, d.info⟩

theorem mem_table (n : Node) (r : Row) : r ∈ n.table ↔ ∃ p v, n.sub? p = some v ∧ r = rowOf (n.d.uid :: n.ids p) v.d := by
  induction n using Node.ind generalizing r with
  | h d kids ih =>
    rw [Node.table_mk, List.mem_cons, List.mem_map]
    constructor
    · rintro (rfl | ⟨r', hr', rfl⟩)
      · exact ⟨[], _, sub?_nil _, rfl⟩
      · obtain ⟨k, hk, hr'⟩ := List.mem_flatMap.1 hr'
        obtain ⟨i, hi⟩ := List.getElem?_of_mem hk
        obtain ⟨p, v, hv, rfl⟩ := (ih k hk r').1 hr'
        refine ⟨i :: p, v, by rw [sub?_cons]; simp only [kids_mk, hi]; exact hv, ?_⟩
        simp only [Row.under, rowOf, d_mk, ids, lineage, kids_mk, hi, List.map_cons]
    · rintro ⟨p, v, hv, rfl⟩
      cases p with
      | nil => rw [sub?_nil] at hv; cases hv; exact .inl rfl
      | cons i p =>
        rw [sub?_cons] at hv
        simp only [kids_mk] at hv
        cases hk : kids[i]? with
        | none => rw [hk] at hv; simp at hv
        | some k =>
          rw [hk] at hv
          have hm := List.mem_of_getElem? hk
          refine .inr ⟨rowOf (k.d.uid :: k.ids p) v.d, List.mem_flatMap.2 ⟨k, hm, (ih k hm _).2 ⟨p, v, hv, rfl⟩⟩, ?_⟩
          simp only [Row.under, rowOf, d_mk, ids, lineage, kids_mk, hk, List.map_cons]

theorem dots_eq (l : List Str) : dots l = (".".toList).intercalate l := by
  induction l with
  | nil => rfl
  | cons x l ih =>
    cases l with
    | nil => simp [dots, List.intercalate]
    | cons y l =>
      rw [dots, ih]
      simp [List.intercalate]

/-- Lookup in the tree is lookup in the table. -/
theorem devNode_row {n : Node} (hg : n.GoodIds) (hu : n.UniqueIds) {rows : List Row} (hp : n.table.Perm rows) (id : Str) :
    (∀ d, devNode n id = some d → ∃ path, rowAt rows id = some (rowOf path d)) ∧ (devNode n id = none → rowAt rows id = none) := by
  have uniq : ∀ r, rowAt rows id = some r → ∃ p v, n.sub? p = some v ∧ n.getNode id = some p ∧ r = rowOf (n.d.uid :: n.ids p) v.d := by
    intro r hr
    have h1 := List.mem_of_find?_eq_some hr
    have h2 := List.find?_some hr
    simp only [decide_eq_true_eq] at h2
    obtain ⟨p, v, hv, rfl⟩ := (mem_table n r).1 (hp.mem_iff.2 h1)
    refine ⟨p, v, hv, (C33_lookup hg hu id p).2 ⟨⟨v, hv⟩, ?_⟩, rfl⟩
    rw [relPath_eq hg, dots_eq]; exact h2
  constructor
  · intro d hd
    unfold devNode at hd
    cases hgn : n.getNode id with
    | none => rw [hgn] at hd; cases hd
    | some p =>
      rw [hgn] at hd
      obtain ⟨⟨v, hv⟩, hrel⟩ := (C33_lookup hg hu id p).1 hgn
      simp only [Option.bind_some, hv, Option.map_some, Option.some.injEq] at hd
      subst hd
      cases hr : rowAt rows id with
      | none =>
        exfalso
        have hm : rowOf (n.d.uid :: n.ids p) v.d ∈ rows := hp.mem_iff.1 ((mem_table n _).2 ⟨p, v, hv, rfl⟩)
        have := List.find?_eq_none.1 hr _ hm
        apply this
        simp only [decide_eq_true_eq]
        show (".".toList).intercalate (n.ids p) = id
        rw [← dots_eq, ← relPath_eq hg]; exact hrel
      | some r =>
        obtain ⟨p', v', hv', hgn', rfl⟩ := uniq r hr
        rw [hgn] at hgn'; cases hgn'
        rw [hv] at hv'; cases hv'
        exact ⟨_, rfl⟩
  · intro hd
    cases hr : rowAt rows id with
    | none => rfl
    | some r =>
      obtain ⟨p, v, hv, hgn, _⟩ := uniq r hr
      unfold devNode at hd
      rw [hgn] at hd
      simp [hv] at hd

/-! ### One call -/

/-- What a call on a node asks of the client. -/
def nodeOp (d : NodeData) (call : NodeCall) : Option Op := match d.access call with
  | .call op => some op
  | .throws _ => none

theorem fieldOf_full (x : W) : fieldOf 0xFFFFFFFF#32 x = x := by
  unfold fieldOf; rw [lowBit_full]
  show (x &&& 0xFFFFFFFF#32) >>> 0 = x
  have : (0xFFFFFFFF#32) = BitVec.allOnes 32 := by decide
  rw [this, BitVec.and_allOnes]; simp

theorem canWrite_iff (p : Permission) : p.canWrite = true ↔ p ≠ .read := by cases p <;> simp [Permission.canWrite]
theorem canRead_iff (p : Permission) : p.canRead = true ↔ p ≠ .write := by cases p <;> simp [Permission.canRead]

theorem inc_eq (m : Mode) : m.inc = decide (m = .incremental) := by cases m <;> rfl

theorem allows_plain (path : List Str) (d : NodeData) (len : Nat) (h1 : d.mode ≠ .hierarchical)
    (h2 : d.mode = .incremental → d.size = 1#32 → len ≤ 1) :
    (rowOf path d).allows none len = true ↔ ¬ (d.mode = .single ∧ len ≠ 1) ∧ ¬ (d.size ≠ 1#32 ∧ len > d.size.toNat) := by
  have hz : d.size = 1#32 ↔ d.size.toNat = 1 := ⟨fun e => by rw [e]; rfl, fun e => BitVec.eq_of_toNat_eq e⟩
  have hz0 : d.size = 0#32 ↔ d.size.toNat = 0 := ⟨fun e => by rw [e]; rfl, fun e => BitVec.eq_of_toNat_eq e⟩
  unfold Spec.Row.allows
  simp only [rowOf]
  rw [hz] at h2
  cases hm : d.mode with
  | hierarchical => exact absurd hm h1
  | single => simp only [decide_eq_true_eq, ne_eq, hz, hz0, true_and]; omega
  | nonIncremental => simp [hz]; omega
  | incremental => have := h2 hm; simp [hz]; omega

theorem allows_offset (path : List Str) (d : NodeData) (off len : Nat) (h1 : d.mode ≠ .hierarchical) :
    (rowOf path d).allows (some off) len = true ↔ d.mode ≠ .nonIncremental ∧ d.mode ≠ .single ∧ ¬ (len + off > d.size.toNat) := by
  unfold Spec.Row.allows
  simp only [rowOf]
  cases hm : d.mode with
  | hierarchical => exact absurd hm h1
  | single => simp
  | nonIncremental => simp
  | incremental =>
    show decide (off + len ≤ d.size.toNat) = true ↔ _
    rw [decide_eq_true_eq]
    constructor
    · intro h; exact ⟨by decide, by decide, by omega⟩
    · rintro ⟨_, _, h⟩; omega

/-- On proper calls, `access` is what the table says. -/
theorem nodeOp_means (c : Cfg) (path : List Str) (d : NodeData) (call : NodeCall) (v : Ver) (h : (rowOf path d).Proper c call) :
    (∀ op, nodeOp d call = some op → op.ok c ∧ op.maskOK c.wrapNeg ∧ opAccs v op = (rowOf path d).means call ∧
      ∀ ws, opShow op ws = (rowOf path d).shows call ws) ∧
    (nodeOp d call = none → (rowOf path d).means call = none) := by
  unfold nodeOp
  cases call with
  | write x =>
    obtain ⟨h1, h2⟩ := h
    simp only [rowOf] at h1 h2
    by_cases hm : d.mask = 0xFFFFFFFF#32
    · cases hp : d.perm <;> simp [NodeData.access, hp, hm, Permission.canWrite, Spec.Row.means, rowOf, Op.ok, Op.maskOK, opAccs, opShow, Spec.Row.shows]
    · cases hp : d.perm <;>
        simp [NodeData.access, hp, hm, Permission.canWrite, Permission.canRead, Spec.Row.means, rowOf, Op.ok, Op.maskOK, opAccs, opShow,
          Spec.Row.shows, h1, h2, FitsMask]
      cases lowBit d.mask with
      | none => rfl
      | some k => rfl
  | read =>
    obtain ⟨h1, h2⟩ := h
    simp only [rowOf] at h1 h2
    by_cases hm : d.mask = 0xFFFFFFFF#32
    · have hf : fieldOf 0xFFFFFFFF#32 = id := funext fun x => fieldOf_full x
      cases hp : d.perm <;> simp [NodeData.access, hp, hm, Permission.canRead, Spec.Row.means, rowOf, Op.ok, Op.maskOK, opAccs, opShow, Spec.Row.shows, hf]
    · cases hp : d.perm <;>
        simp [NodeData.access, hp, hm, Permission.canRead, Spec.Row.means, rowOf, Op.ok, Op.maskOK, opAccs, opShow, Spec.Row.shows, fieldOf, MaskOK, h1, h2]
  | writeBlock vs =>
    obtain ⟨h1, h0, h2, h3⟩ := h
    have ha := allows_plain path d vs.length h1 h2
    have hw := canWrite_iff d.perm
    simp only [Spec.Row.means, NodeData.access]
    by_cases a1 : d.mode = .single ∧ vs.length ≠ 1
    · rw [if_pos a1, if_neg (by rw [ha]; exact fun h => h.2.2.1 a1)]; simp
    · rw [if_neg a1]
      by_cases a2 : d.size ≠ 1#32 ∧ vs.length > d.size.toNat
      · rw [if_pos a2, if_neg (by rw [ha]; exact fun h => h.2.2.2 a2)]; simp
      · rw [if_neg a2]
        by_cases a3 : d.perm.canWrite = true
        · rw [if_pos a3, if_pos ⟨hw.1 a3, h0, ha.2 ⟨a1, a2⟩⟩]
          simp only [Option.some.injEq, forall_eq', Op.ok, Op.maskOK, opAccs, opShow, Spec.Row.shows, inc_eq, rowOf]
          exact ⟨⟨h3, trivial, rfl, fun _ => trivial⟩, by simp⟩
        · rw [if_neg a3, if_neg (fun h => a3 (hw.2 h.1))]; simp
  | writeBlockOffset vs off =>
    obtain ⟨h1, h0, h3⟩ := h
    have ha := allows_offset path d off.toNat vs.length h1
    have hw := canWrite_iff d.perm
    have hmod : (vs.length + off.toNat) % 2 ^ 64 = vs.length + off.toNat := Nat.mod_eq_of_lt (by have := off.isLt; omega)
    simp only [Spec.Row.means, NodeData.access, hmod]
    by_cases a1 : d.mode = .nonIncremental
    · rw [if_pos a1, if_neg (by rw [ha]; exact fun h => h.2.2.1 a1)]; simp
    · rw [if_neg a1]
      by_cases a2 : d.mode = .single
      · rw [if_pos a2, if_neg (by rw [ha]; exact fun h => h.2.2.2.1 a2)]; simp
      · rw [if_neg a2]
        by_cases a4 : vs.length + off.toNat > d.size.toNat
        · rw [if_pos a4, if_neg (by rw [ha]; exact fun h => h.2.2.2.2 a4)]; simp
        · rw [if_neg a4]
          by_cases a3 : d.perm.canWrite = true
          · rw [if_pos a3, if_pos ⟨hw.1 a3, h0, ha.2 ⟨a1, a2, a4⟩⟩]
            simp only [Option.some.injEq, forall_eq', Op.ok, Op.maskOK, opAccs, opShow, Spec.Row.shows, inc_eq, rowOf]
            exact ⟨⟨h3, trivial, rfl, fun _ => trivial⟩, by simp⟩
          · rw [if_neg a3, if_neg (fun h => a3 (hw.2 h.1))]; simp
  | readBlock k =>
    obtain ⟨h1, h0, h2, h3⟩ := h
    have ha := allows_plain path d k.toNat h1 h2
    have hw := canRead_iff d.perm
    have hk : k ≠ 1#32 ↔ k.toNat ≠ 1 := not_congr ⟨fun e => by rw [e]; rfl, fun e => BitVec.eq_of_toNat_eq e⟩
    simp only [Spec.Row.means, NodeData.access, hk]
    by_cases a1 : d.mode = .single ∧ k.toNat ≠ 1
    · rw [if_pos a1, if_neg (by rw [ha]; exact fun h => h.2.2.1 a1)]; simp
    · rw [if_neg a1]
      by_cases a2 : d.size ≠ 1#32 ∧ k.toNat > d.size.toNat
      · rw [if_pos a2, if_neg (by rw [ha]; exact fun h => h.2.2.2 a2)]; simp
      · rw [if_neg a2]
        by_cases a3 : d.perm.canRead = true
        · rw [if_pos a3, if_pos ⟨hw.1 a3, h0, ha.2 ⟨a1, a2⟩⟩]
          simp only [Option.some.injEq, forall_eq', Op.ok, Op.maskOK, opAccs, opShow, Spec.Row.shows, inc_eq, rowOf]
          exact ⟨⟨h3, trivial, rfl, fun _ => trivial⟩, by simp⟩
        · rw [if_neg a3, if_neg (fun h => a3 (hw.2 h.1))]; simp
  | readBlockOffset k off =>
    obtain ⟨h1, h0, h2, h3⟩ := h
    have ha := allows_offset path d off.toNat k.toNat h1
    have hw := canRead_iff d.perm
    have hmod : (k + off).toNat = k.toNat + off.toNat := by rw [BitVec.toNat_add]; exact Nat.mod_eq_of_lt h2
    simp only [Spec.Row.means, NodeData.access, hmod]
    by_cases a1 : d.mode = .nonIncremental
    · rw [if_pos a1, if_neg (by rw [ha]; exact fun h => h.2.2.1 a1)]; simp
    · rw [if_neg a1]
      by_cases a2 : d.mode = .single
      · rw [if_pos a2, if_neg (by rw [ha]; exact fun h => h.2.2.2.1 a2)]; simp
      · rw [if_neg a2]
        by_cases a4 : k.toNat + off.toNat > d.size.toNat
        · rw [if_pos a4, if_neg (by rw [ha]; exact fun h => h.2.2.2.2 a4)]; simp
        · rw [if_neg a4]
          by_cases a3 : d.perm.canRead = true
          · rw [if_pos a3, if_pos ⟨hw.1 a3, h0, ha.2 ⟨a1, a2, a4⟩⟩]
            simp only [Option.some.injEq, forall_eq', Op.ok, Op.maskOK, opAccs, opShow, Spec.Row.shows, inc_eq, rowOf]
            exact ⟨⟨h3, trivial, rfl, fun _ => trivial⟩, by simp⟩
          · rw [if_neg a3, if_neg (fun h => a3 (hw.2 h.1))]; simp

/-! ### Programs -/

/-- What each call asks of the client, if anything. -/
def devOp (n : Node) : DevCall → Option Op
  | .dispatch => some .dispatch
  | .node id call => (devNode n id).bind fun d => nodeOp d call

/-- The client calls of a program. -/
def devOps (n : Node) (prog : List DevCall) : List Op := prog.filterMap (devOp n)

/-- What the user sees of the outcome of a call; `f` for the outcomes of client calls. -/
def devShow {β : Type} (f : Res → Option β) : DevRes → Option β
  | .client r => f r
  | _ => none

/-- Put the calls that do not reach the client back between those that do. -/
def weaveDev {β : Type} (n : Node) : List DevCall → List (Option β) → List (Option β)
  | [], _ => []
  | x :: rest, ys => match devOp n x with
    | none => none :: weaveDev n rest ys
    | some _ => match ys with
      | [] => []
      | y :: ys => y :: weaveDev n rest ys

theorem weaveDev_none {β : Type} {n : Node} {x : DevCall} (h : devOp n x = none) (rest : List DevCall) (ys : List (Option β)) :
    weaveDev n (x :: rest) ys = none :: weaveDev n rest ys := by simp [weaveDev.eq_def n (x :: rest), h]

theorem weaveDev_some {β : Type} {n : Node} {x : DevCall} {op : Op} (h : devOp n x = some op) (rest : List DevCall)
    (y : Option β) (ys : List (Option β)) : weaveDev n (x :: rest) (y :: ys) = y :: weaveDev n rest ys := by
  simp [weaveDev.eq_def n (x :: rest), h]

theorem runDev_ops {τ : Type} {c : Cfg} {T : Transport τ} {n : Node} (prog : List DevCall) (s0 : St τ) :
    (∀ rs s, runDev c T n prog s0 = some (rs, s) → ∃ rs', runOps c T (devOps n prog) s0 = some (rs', s) ∧
      ∀ {β : Type} (f : Res → Option β), rs.map (devShow f) = weaveDev n prog (rs'.map f)) ∧
    (runDev c T n prog s0 = none → runOps c T (devOps n prog) s0 = none) := by
  induction prog generalizing s0 with
  | nil =>
    refine ⟨fun rs s h => ?_, fun h => by simp [runDev] at h⟩
    rw [runDev] at h; cases h; exact ⟨[], rfl, fun f => rfl⟩
  | cons x rest ih =>
    -- a call that does not reach the client
    have skip : ∀ r : DevRes, (∀ {β : Type} (f : Res → Option β), devShow f r = none) → devOp n x = none →
        runDev c T n (x :: rest) s0 = ((runDev c T n rest s0).map fun p => (r :: p.1, p.2)) →
        (∀ rs s, runDev c T n (x :: rest) s0 = some (rs, s) → ∃ rs', runOps c T (devOps n (x :: rest)) s0 = some (rs', s) ∧
          ∀ {β : Type} (f : Res → Option β), rs.map (devShow f) = weaveDev n (x :: rest) (rs'.map f)) ∧
        (runDev c T n (x :: rest) s0 = none → runOps c T (devOps n (x :: rest)) s0 = none) := by
      intro r hr hx he
      have ho : devOps n (x :: rest) = devOps n rest := by simp [devOps, hx]
      rw [he, ho]
      obtain ⟨i1, i2⟩ := ih s0
      constructor
      · intro rs s h
        rw [Option.map_eq_some_iff] at h
        obtain ⟨⟨rs1, s1⟩, h1, h2⟩ := h
        cases h2
        obtain ⟨rs', g1, g2⟩ := i1 rs1 s1 h1
        refine ⟨rs', g1, fun f => ?_⟩
        rw [List.map_cons, hr f, g2 f, weaveDev_none hx]
      · intro h
        exact i2 (Option.map_eq_none_iff.1 h)
    -- a call that does
    have step : ∀ op, devOp n x = some op → runDev c T n (x :: rest) s0 =
        (match op.run c T s0 with
          | .ok h s' => (runDev c T n rest s').map fun p => (.client (.ok h) :: p.1, p.2)
          | .exc e s' => (runDev c T n rest s').map fun p => (.client (.exc e) :: p.1, p.2)
          | .ub => none
          | .loops => none) →
        (∀ rs s, runDev c T n (x :: rest) s0 = some (rs, s) → ∃ rs', runOps c T (devOps n (x :: rest)) s0 = some (rs', s) ∧
          ∀ {β : Type} (f : Res → Option β), rs.map (devShow f) = weaveDev n (x :: rest) (rs'.map f)) ∧
        (runDev c T n (x :: rest) s0 = none → runOps c T (devOps n (x :: rest)) s0 = none) := by
      intro op hx he
      have ho : devOps n (x :: rest) = op :: devOps n rest := by simp [devOps, hx]
      rw [he, ho, runOps]
      have both : ∀ (r : Res) (s' : St τ),
          (∀ rs s, ((runDev c T n rest s').map fun p => (.client r :: p.1, p.2)) = some (rs, s) →
            ∃ rs', ((runOps c T (devOps n rest) s').map fun p => (r :: p.1, p.2)) = some (rs', s) ∧
            ∀ {β : Type} (f : Res → Option β), rs.map (devShow f) = weaveDev n (x :: rest) (rs'.map f)) ∧
          (((runDev c T n rest s').map fun p => (DevRes.client r :: p.1, p.2)) = none →
            ((runOps c T (devOps n rest) s').map fun p => (r :: p.1, p.2)) = none) := by
        intro r s'
        obtain ⟨i1, i2⟩ := ih s'
        constructor
        · intro rs s h
          rw [Option.map_eq_some_iff] at h
          obtain ⟨⟨rs1, s1⟩, h1, h2⟩ := h
          cases h2
          obtain ⟨rs', g1, g2⟩ := i1 rs1 s1 h1
          refine ⟨r :: rs', by rw [g1]; rfl, fun f => ?_⟩
          rw [List.map_cons, List.map_cons, weaveDev_some hx, g2 f]
          rfl
        · intro h
          rw [i2 (Option.map_eq_none_iff.1 h)]; rfl
      cases op.run c T s0 with
      | ok h s' => exact both (.ok h) s'
      | exc e s' => exact both (.exc e) s'
      | ub => exact ⟨(by intro rs s h; cases h), fun _ => rfl⟩
      | loops => exact ⟨(by intro rs s h; cases h), fun _ => rfl⟩
    cases x with
    | dispatch => exact step .dispatch rfl rfl
    | node id call =>
      cases hd : devNode n id with
      | none => exact skip .noNode (fun f => rfl) (by simp [devOp, hd]) (by rw [runDev, hd])
      | some d =>
        cases ha : d.access call with
        | throws e => exact skip (.nodeExc e) (fun f => rfl) (by simp [devOp, hd, nodeOp, ha]) (by rw [runDev, hd]; simp only [NodeData.run, ha])
        | call op =>
          refine step op (by simp [devOp, hd, nodeOp, ha]) ?_
          rw [runDev, hd]; simp only [NodeData.run, ha]
          cases op.run c T s0 <;> rfl

/-- A program on declared nodes is the program of its client calls. -/
theorem tableRun_ops {σ : Type} {tg : Target σ} {c : Cfg} {n : Node} (hg : n.GoodIds) (hu : n.UniqueIds) {rows : List Row}
    (hp : n.table.Perm rows) (prog : List DevCall) (hpr : ProperProg c rows prog) (m : σ) :
    (∀ op ∈ devOps n prog, op.ok c ∧ op.maskOK c.wrapNeg) ∧
    tableRun c.ver tg rows prog m = (weaveDev n prog (seqRun c.ver tg (devOps n prog) m).1, (seqRun c.ver tg (devOps n prog) m).2) := by
  induction prog generalizing m with
  | nil => exact ⟨by simp [devOps], rfl⟩
  | cons x rest ih =>
    have ih' := fun m => ih (fun id call hm => hpr id call (by simp [hm])) m
    cases x with
    | dispatch =>
      have ho : devOps n (.dispatch :: rest) = .dispatch :: devOps n rest := by simp [devOps, devOp]
      rw [ho]
      refine ⟨?_, ?_⟩
      · intro op hop
        rcases List.mem_cons.1 hop with rfl | hop
        · exact ⟨trivial, trivial⟩
        · exact (ih' m).1 op hop
      · rw [tableRun, seqRun]
        simp only [opAccs, execAccs, opShow, (ih' m).2]
        rw [weaveDev_some (op := .dispatch) rfl]
    | node id call =>
      obtain ⟨r1, r2⟩ := devNode_row hg hu hp id
      cases hd : devNode n id with
      | none =>
        have hx : devOp n (.node id call) = none := by simp [devOp, hd]
        have ho : devOps n (.node id call :: rest) = devOps n rest := by simp [devOps, hx]
        rw [ho]
        refine ⟨(ih' m).1, ?_⟩
        rw [tableRun, weaveDev_none hx, r2 hd]
        simp only [Option.bind_none, (ih' m).2]
      | some d =>
        obtain ⟨path, hr⟩ := r1 d hd
        obtain ⟨m1, m2⟩ := nodeOp_means c path d call c.ver (hpr id call (by simp) _ hr)
        cases hn : nodeOp d call with
        | none =>
          have hx : devOp n (.node id call) = none := by simp [devOp, hd, hn]
          have ho : devOps n (.node id call :: rest) = devOps n rest := by simp [devOps, hx]
          rw [ho]
          refine ⟨(ih' m).1, ?_⟩
          rw [tableRun, weaveDev_none hx, hr]
          simp only [Option.bind_some, m2 hn, Option.map_none, (ih' m).2]
        | some op =>
          obtain ⟨k1, k2, k3, k4⟩ := m1 op hn
          have hx : devOp n (.node id call) = some op := by simp [devOp, hd, hn]
          have ho : devOps n (.node id call :: rest) = op :: devOps n rest := by simp [devOps, hx]
          rw [ho]
          refine ⟨?_, ?_⟩
          · intro op' hop
            rcases List.mem_cons.1 hop with rfl | hop
            · exact ⟨k1, k2⟩
            · exact (ih' m).1 op' hop
          · rw [tableRun, hr, seqRun, k3]
            simp only [Option.bind_some]
            cases hme : (rowOf path d).means call with
            | none => simp only [Option.map_none, (ih' m).2]; rw [weaveDev_some hx]
            | some as => simp only [Option.map_some, (ih' _).2, k4]; rw [weaveDev_some hx]

theorem weaveDev_map {β γ : Type} {n : Node} (f : β → γ) (prog : List DevCall) (ys : List (Option β)) :
    weaveDev n prog (ys.map (Option.map f)) = (weaveDev n prog ys).map (Option.map f) := by
  induction prog generalizing ys with
  | nil => rfl
  | cons x rest ih =>
    cases hx : devOp n x with
    | none => rw [weaveDev_none hx, weaveDev_none hx, ih]; rfl
    | some op =>
      cases ys with
      | nil => simp [weaveDev.eq_def n (x :: rest), hx]
      | cons y ys => rw [List.map_cons, weaveDev_some hx, weaveDev_some hx, ih]; rfl

theorem devOps_dispatch (n : Node) (prog : List DevCall) : devOps n (prog ++ [.dispatch]) = devOps n prog ++ [.dispatch] := by
  simp [devOps, devOp]

theorem ProperProg.append_dispatch {c : Cfg} {rows : List Row} {prog : List DevCall} (h : ProperProg c rows prog) :
    ProperProg c rows (prog ++ [.dispatch]) := by
  intro id call hm
  exact h id call (by simpa using hm)

/-- The tree built from files in which no two nodes have the same path. -/
theorem built_ids {env : BuildEnv} (hs : env.Sorts) (hp : env.Protocols) {k k' : NodeCache} (hc : Coherent env k) {e cur : Str}
    {t : Decl} (h : Declared env disjJ e cur t) (hn : ((t.rows 0#32).map Row.path).Nodup) {F : Nat} {n : Node}
    (hb : getNodeTree env true F e cur k = .ok n k') : n.GoodIds ∧ n.UniqueIds ∧ n.table.Perm (t.rows 0#32) := by
  have hperm := (C32_sum_partial hs hp hc h).2.2.1 F n k' hb
  obtain ⟨D, hD⟩ := h
  refine ⟨goodIds_of_table n fun r hr => ?_, uniqueIds_of_table n ?_, hperm⟩
  · exact FileDeclares.ids D e cur t hD 0#32 r (hperm.mem_iff.1 hr)
  · exact ((hperm.map Row.path).nodup_iff).2 hn

section
variable {env : BuildEnv} {k k' : NodeCache} {e cur : Str} {t : Decl} {F : Nat} {n : Node} {c : Cfg} {σ ρ : Type} {tg : Target σ}
  {mem : ρ → σ} {resp : ρ → List W → Option (List W) × ρ}

/-- **C60**: the files of an address table declare nodes; a program of calls on nodes by id, executed on the tree that uhal builds from
the files, does to a conforming target what the calls, read off the declared table, say, and shows the user the same. Here every
packet is answered; the other transports below.

Missing for C60: the address of a node must be a sum without carries (`C32_violated_or`), and `ProperProg` leaves out the calls
where uhal deviates from the table (`C34_violated_block`, `C35_violated_wrap`, `C35_violated_one`). -/
theorem C60_partial (hs : env.Sorts) (hp : env.Protocols) (hco : Coherent env k) (hd : Declared env disjJ e cur t)
    (hn : ((t.rows 0#32).map Row.path).Nodup) (hb : getNodeTree env true F e cur k = .ok n k')
    (hw : WF c) (hcap : CapOK c) (hr : c.ver = .v2 → Roomy c) (hc : Conforms c tg mem resp)
    (prog : List DevCall) (hpr : ProperProg c (t.rows 0#32) prog) (e0 : ρ) (sched : List (Nat × Nat)) :
    ∃ rs s, runDev c (linkT c resp) n (prog ++ [.dispatch]) (St.init (Link.init e0 sched)) = some (rs, s) ∧
      rs.map (devShow (resShow c.wrapNeg s.tr.heap)) =
        (tableRun c.ver tg (t.rows 0#32) (prog ++ [.dispatch]) (mem e0)).1.map (Option.map ValOut.data) ∧
      mem s.tr.env = (tableRun c.ver tg (t.rows 0#32) (prog ++ [.dispatch]) (mem e0)).2 := by
  obtain ⟨g1, g2, g3⟩ := built_ids hs hp hco hd hn hb
  obtain ⟨o1, _⟩ := tableRun_ops (tg := tg) g1 g2 g3 prog hpr (mem e0)
  obtain ⟨_, o2⟩ := tableRun_ops (tg := tg) g1 g2 g3 _ (ProperProg.append_dispatch hpr) (mem e0)
  obtain ⟨rs', s, r1, r2, r3⟩ := C16_refinement hw hcap hr hc (devOps n prog) o1 e0 sched
  rw [← devOps_dispatch] at r1 r2 r3
  obtain ⟨d1, d2⟩ := runDev_ops (c := c) (T := linkT c resp) (n := n) (prog ++ [.dispatch]) (St.init (Link.init e0 sched))
  cases hx : runDev c (linkT c resp) n (prog ++ [.dispatch]) (St.init (Link.init e0 sched)) with
  | none => rw [d2 hx] at r1; cases r1
  | some p =>
    obtain ⟨rs, s1⟩ := p
    obtain ⟨rs1, q1, q2⟩ := d1 rs s1 hx
    rw [r1] at q1; cases q1
    refine ⟨rs, s, rfl, ?_, ?_⟩
    · rw [q2, r2, weaveDev_map, o2]
    · rw [r3, o2]

/-- C60 over UDP. -/
theorem C60_udp_partial {N : Nat} (hs : env.Sorts) (hp : env.Protocols) (hco : Coherent env k) (hd : Declared env disjJ e cur t)
    (hn : ((t.rows 0#32).map Row.path).Nodup) (hb : getNodeTree env true F e cur k = .ok n k')
    (h0 : 0 < N) (hN : N < 2 ^ 32) (hw : WF c) (hcap : CapOK c) (hr : c.ver = .v2 → Roomy c) (hc : Conforms c tg mem resp)
    (prog : List DevCall) (hpr : ProperProg c (t.rows 0#32) prog) (plan : List (List Ev)) (rs : List DevRes) (s : St UdpT)
    (h : runDev c (udpT c N) n (prog ++ [.dispatch]) (St.init ⟨.init, plan, 0, []⟩) = some (rs, s)) (hdy : s.tr.u.dirty = false)
    (e0 eEnd : ρ) (hf : Follows resp e0 s.tr.u.outcomes eEnd) :
    rs.map (devShow (resShow c.wrapNeg s.tr.u.heap)) =
        (tableRun c.ver tg (t.rows 0#32) (prog ++ [.dispatch]) (mem e0)).1.map (Option.map ValOut.data) ∧
      mem eEnd = (tableRun c.ver tg (t.rows 0#32) (prog ++ [.dispatch]) (mem e0)).2 := by
  obtain ⟨g1, g2, g3⟩ := built_ids hs hp hco hd hn hb
  obtain ⟨o1, _⟩ := tableRun_ops (tg := tg) g1 g2 g3 prog hpr (mem e0)
  obtain ⟨_, o2⟩ := tableRun_ops (tg := tg) g1 g2 g3 _ (ProperProg.append_dispatch hpr) (mem e0)
  obtain ⟨rs', r1, q2⟩ := (runDev_ops _ _).1 rs s h
  rw [devOps_dispatch] at r1
  obtain ⟨r2, r3⟩ := C16_udp h0 hN hw hcap hr hc (devOps n prog) o1 plan rs' s r1 hdy e0 eEnd hf
  rw [← devOps_dispatch] at r2 r3
  exact ⟨by rw [q2, r2, weaveDev_map, o2], by rw [r3, o2]⟩

/-- C60 over TCP. -/
theorem C60_tcp_partial {nn N : Nat} (hs : env.Sorts) (hp : env.Protocols) (hco : Coherent env k) (hd : Declared env disjJ e cur t)
    (hn : ((t.rows 0#32).map Row.path).Nodup) (hb : getNodeTree env true F e cur k = .ok n k')
    (hpar : TPar nn N) (hw : WF c) (hcap : CapOK c) (hr : c.ver = .v2 → Roomy c) (hc : Conforms c tg mem resp)
    (prog : List DevCall) (hpr : ProperProg c (t.rows 0#32) prog) (plan : List (List TEv × Bool)) (rs : List DevRes) (s : St TcpT)
    (h : runDev c (tcpT c nn N) n (prog ++ [.dispatch]) (St.init (TcpT.init plan)) = some (rs, s)) (hdy : s.tr.u.dirty = false)
    (hst : s.tr.u.stale = false) (e0 eEnd : ρ) (hf : Follows resp e0 s.tr.u.outcomes eEnd) :
    rs.map (devShow (resShow c.wrapNeg s.tr.u.heap)) =
        (tableRun c.ver tg (t.rows 0#32) (prog ++ [.dispatch]) (mem e0)).1.map (Option.map ValOut.data) ∧
      mem eEnd = (tableRun c.ver tg (t.rows 0#32) (prog ++ [.dispatch]) (mem e0)).2 := by
  obtain ⟨g1, g2, g3⟩ := built_ids hs hp hco hd hn hb
  obtain ⟨o1, _⟩ := tableRun_ops (tg := tg) g1 g2 g3 prog hpr (mem e0)
  obtain ⟨_, o2⟩ := tableRun_ops (tg := tg) g1 g2 g3 _ (ProperProg.append_dispatch hpr) (mem e0)
  obtain ⟨rs', r1, q2⟩ := (runDev_ops _ _).1 rs s h
  rw [devOps_dispatch] at r1
  obtain ⟨r2, r3⟩ := C16_tcp hpar hw hcap hr hc (devOps n prog) o1 plan rs' s r1 hdy hst e0 eEnd hf
  rw [← devOps_dispatch] at r2 r3
  exact ⟨by rw [q2, r2, weaveDev_map, o2], by rw [r3, o2]⟩

/-- C60 over PCIe or mmap, with other clients on the same device. -/
theorem C60_paged_partial {ps : Nat → PCfg} {i pages size start : Nat} {count0 : W} {e0 : ρ} (hs : env.Sorts) (hp : env.Protocols) (hco : Coherent env k)
    (hd : Declared env disjJ e cur t)
    (hn : ((t.rows 0#32).map Row.path).Nodup) (hb : getNodeTree env true F e cur k = .ok n k')
    (hw : WF c) (hcap : CapOK c) (hr : Roomy c) (hv : c.ver = .v2) (hc : Conforms c tg mem resp)
    (hsz : c.maxSend.toNat ≤ 4 * (size - 1)) (hrz : c.maxReply.toNat ≤ 4 * (size - 1))
    (hph : PHyp ps resp (PW.init ps pages size start count0 e0).dev)
    (prog : List DevCall) (hpr : ProperProg c (t.rows 0#32) prog) (plan : List (List PAct))
    (hplan : ∀ as ∈ plan, ∀ a ∈ as, a.tame i) (rs : List DevRes) (s : St (PagedT ρ))
    (h : runDev c (pagedT c ps resp i) n (prog ++ [.dispatch]) (St.init (PagedT.init ps pages size start count0 e0 plan)) = some (rs, s)) :
    rs.map (devShow (resShow c.wrapNeg (s.tr.w.cl i).heap)) =
        (tableRun c.ver tg (t.rows 0#32) (prog ++ [.dispatch]) (mem e0)).1.map (Option.map ValOut.data) ∧
      mem s.tr.w.dev.env = (tableRun c.ver tg (t.rows 0#32) (prog ++ [.dispatch]) (mem e0)).2 := by
  obtain ⟨g1, g2, g3⟩ := built_ids hs hp hco hd hn hb
  obtain ⟨o1, _⟩ := tableRun_ops (tg := tg) g1 g2 g3 prog hpr (mem e0)
  obtain ⟨_, o2⟩ := tableRun_ops (tg := tg) g1 g2 g3 _ (ProperProg.append_dispatch hpr) (mem e0)
  obtain ⟨rs', r1, q2⟩ := (runDev_ops _ _).1 rs s h
  rw [devOps_dispatch] at r1
  obtain ⟨r2, r3⟩ := C16_paged_device hw hcap hr hv hc hsz hrz hph (devOps n prog) o1 plan hplan rs' s r1
  rw [← devOps_dispatch] at r2 r3
  exact ⟨by rw [q2, r2, weaveDev_map, o2], by rw [r3, o2]⟩

end

/-! ### Non-vacuity

The two files of `demoEnv`: register R, module M with field F (bits 4 to 7) and block B (8 words, read only). -/

def tableProg : List DevCall :=
  [.node "R".toList (.write 7#32), .node "R".toList .read, .node "M.F".toList (.write 0xA#32), .node "M.F".toList .read,
   .node "M.B".toList (.readBlock 3#32), .node "M.B".toList (.writeBlock [1#32]), .node "M.X".toList .read, .node "M.F".toList (.write 0x10#32),
   .node "M.B".toList (.readBlock 9#32)]

theorem demo_disj : Declared (demoEnv "0x1000") disjJ "a".toList [] (demoDecl 0x1100#32) :=
  demo_declared (r := 0x1000#32) (by decide +kernel) ⟨by decide, by decide⟩

theorem demo_proper : ProperProg smallCfg ((demoDecl 0x1100#32).rows 0#32) tableProg := by
  intro id call hm r hr
  simp only [tableProg, List.mem_cons, List.not_mem_nil, or_false, DevCall.node.injEq] at hm
  rcases hm with ⟨rfl, rfl⟩ | ⟨rfl, rfl⟩ | ⟨rfl, rfl⟩ | ⟨rfl, rfl⟩ | ⟨rfl, rfl⟩ | ⟨rfl, rfl⟩ | ⟨rfl, rfl⟩ | ⟨rfl, rfl⟩ | ⟨rfl, rfl⟩ <;>
    (cases hr <;> (simp only [Row.Proper]; decide))

/-- The hypotheses of `C60_partial` and of the theorems for the transports. -/
example : ((demoDecl 0x1100#32).rows 0#32).map Row.path |>.Nodup := by decide +kernel

/-- What the program stands for, every register holding 5: refused are the write to the block, the access to the missing node, the value
that does not fit, and the read of more words than the block has. -/
example : (tableRun .v2 (dummyTarget fun _ => 0) ((demoDecl 0x1100#32).rows 0#32) tableProg (fun _ => 5)).1 =
    [some [], some [7], some [], some [0xA], some [5, 5, 5], none, none, none, none] := by decide +kernel

example : (tableRun .v2 (dummyTarget fun _ => 0) ((demoDecl 0x1100#32).rows 0#32) tableProg (fun _ => 5)).2 0x1102#32 = 0xA5#32 := by decide +kernel

/-- What the code does. -/
def tableTree : Option Node := match getNodeTree (demoEnv "0x1000") true 4 "a".toList [] [] with | .ok n _ => some n | _ => none

example : (tableTree.bind fun n => runDev smallCfg (linkT smallCfg (viaHub smallCfg (dummyTarget fun _ => 0))) n (tableProg ++ [.dispatch])
      (St.init (Link.init ⟨fun _ => 5, 0⟩ []))).map (fun p => (p.1.map (devShow (resShow true p.2.tr.heap)), p.2.tr.env.mem 0x1102#32)) = some
    ([some (.data []), some (.data [7]), some (.data []), some (.data [0xA]), some (.data [5, 5, 5]), none, none, none, none, some (.data [])], 0xA5#32) := by
  decide +kernel

/-- Over UDP and TCP: the read of the field, answered by the target. -/
example : (tableTree.bind fun n => runDev smallCfg (udpT smallCfg 16) n [.node "M.F".toList .read, .dispatch]
      (St.init ⟨.init, [[], [.sendDone true, .recvBegin (some [0x200000F0, 0x20000100, 0x95]), .recvEnd]], 0, []⟩)).map
      (fun p => (p.1.map (devShow (resShow true p.2.tr.u.heap)), p.2.tr.u.dirty)) = some
    ([some (.data [9]), some (.data [])], false) := by decide +kernel

example : (tableTree.bind fun n => runDev smallCfg (udpT smallCfg 16) n [.node "M.F".toList .read, .dispatch]
      (St.init ⟨.init, [[], [.sendDone true, .recvBegin (some [0x200000F0, 0x20000100, 0x95]), .recvEnd]], 0, []⟩)).map
      (fun p => p.2.tr.u.outcomes.map fun x => (x.1.send, x.2)) = some
    [([0x200000F0, 0x2000010F, 0x1102], some [0x200000F0, 0x20000100, 0x95])] := by decide +kernel

example : (tableTree.bind fun n => runDev smallCfg (tcpT smallCfg 2 16) n [.node "M.F".toList .read, .dispatch]
      (St.init (TcpT.init ([[], [], [.sendDone true, .recvHdr (some 3), .recvBody (some [0x200000F0, 0x20000100, 0x95]), .recvEnd]].map fun es => (es, true))))).map
      (fun p => (p.1.map (devShow (resShow true p.2.tr.u.heap)), p.2.tr.u.dirty, p.2.tr.u.stale)) = some
    ([some (.data [9]), some (.data [])], false, false) := by decide +kernel

/-- Over PCIe. -/
example : (tableTree.bind fun n => runDev pageCfg (pagedT pageCfg (allOf .poll 2) (viaHub pageCfg (dummyTarget fun _ => 0)) 0) n
      [.node "M.F".toList .read, .dispatch] (St.init (PagedT.init (allOf .poll 2) 4 8 0 0xFFFFFFFF#32 ⟨fun _ => 0x95, 0⟩
        [[.connect 0, .flock 0, .start 0, .write 0], [.dev, .poll 0, .fetch 0, .unlock 0, .finish 0]]))).map
      (fun p => (p.1.map (devShow (resShow true (p.2.tr.w.cl 0).heap)), p.2.tr.w.dev.env.mem 0x1102)) = some
    ([some (.data [9]), some (.data [])], 0x95) := by decide +kernel

end Verif
