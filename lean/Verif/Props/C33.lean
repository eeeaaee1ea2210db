import Verif.Lemmas.Node
/-!
# C33: listing and looking up nodes agree; C41: copies of node trees
-/

set_option autoImplicit false

namespace Verif
open Node

/-- **C33** (listing): `getNodes()` lists the relative paths of the positions visited by the iterator; every
descendant is visited, exactly once, and never after something below it; however long the loop is run. -/
theorem C33_list (n : Node) :
    n.getNodes = (positions n).map n.relPath ∧
    (∀ pos, pos ∈ positions n ↔ pos ≠ [] ∧ ∃ v, n.sub? pos = some v) ∧
    (positions n).Nodup ∧
    (positions n).Pairwise (fun earlier later => ¬ later <+: earlier) ∧
    (∀ fuel, n.count ≤ fuel → iterate n fuel {} = positions n) := by
  have hp : (positions n).Pairwise (fun earlier later => ¬ later <+: earlier) := by
    have := pairwise_pre n
    rw [pre_eq, List.pairwise_cons] at this
    rw [positions_eq]; exact this.2
  refine ⟨rfl, mem_positions n, ?_, hp, ?_⟩
  · exact hp.imp (fun {a b} h (e : a = b) => h (by rw [e]; exact List.prefix_refl _))
  · intro fuel h; rw [iterate_fuel n fuel h, positions_eq]

/-- **C33** (lookup): with well-formed ids that are unique among siblings, `getNode(s)` returns the node at a
position exactly when that is a node of the tree and its relative path is `s`. -/
theorem C33_lookup {n : Node} (hg : GoodIds n) (hu : UniqueIds n) (s : Str) (pos : List Nat) :
    n.getNode s = some pos ↔ (∃ v, n.sub? pos = some v) ∧ n.relPath pos = s := by
  unfold getNode
  by_cases hs : s = []
  · rw [if_pos hs]
    subst hs
    constructor
    · intro h; cases h; exact ⟨⟨_, sub?_nil n⟩, by simp [relPath, lineage, joinIds]⟩
    · rintro ⟨⟨v, hv⟩, h⟩
      by_cases hp : pos = []
      · rw [hp]
      · exfalso
        rw [relPath_eq hg] at h
        refine dots_ne ?_ ?_ h
        · simp only [ids, ne_eq, List.map_eq_nil_iff]; exact lineage_ne hp hv
        · intro x hx
          obtain ⟨k, hk, rfl⟩ := List.mem_map.1 hx
          exact (lineage_good hg pos k hk).1
  · rw [if_neg hs]
    constructor
    · intro h
      obtain ⟨h1, h2⟩ := descend_sound h
      refine ⟨h2, ?_⟩
      rw [relPath_eq hg, h1, dots_splitDots]; rfl
    · rintro ⟨⟨v, hv⟩, h⟩
      have hp : pos ≠ [] := by
        intro e; subst e; apply hs; rw [← h]; simp [relPath, lineage, joinIds]
      rw [← h, relPath_eq hg, splitDots_dots]
      · exact descend_ids hu hv
      · simp only [ids, ne_eq, List.map_eq_nil_iff]; exact lineage_ne hp hv
      · intro x hx
        obtain ⟨k, hk, rfl⟩ := List.mem_map.1 hx
        exact (lineage_good hg pos k hk).2

/-- **C33** (every listed path leads to its node). -/
theorem C33_listed {n : Node} (hg : GoodIds n) (hu : UniqueIds n) (pos : List Nat) (h : pos ∈ positions n) :
    n.getNode (n.relPath pos) = some pos :=
  (C33_lookup hg hu _ _).2 ⟨((mem_positions n pos).1 h).2, rfl⟩

/-- **C33**: listed paths are different from each other. -/
theorem C33_distinct {n : Node} (hg : GoodIds n) (hu : UniqueIds n) : n.getNodes.Nodup := by
  show ((positions n).map n.relPath).Nodup
  unfold List.Nodup
  rw [List.pairwise_map]
  have h := (C33_list n).2.2.1
  refine List.Pairwise.imp_of_mem ?_ h
  intro a b ha hb hne e
  apply hne
  have h1 := C33_listed hg hu a ha
  have h2 := C33_listed hg hu b hb
  rw [e, h2] at h1
  cases h1; rfl

/-- **C33** (`hasNode`): for every tree and string, `hasNode` is true exactly when `getNode` does not throw. -/
theorem C33_has (n : Node) (s : Str) : n.hasNode s = true ↔ ∃ pos, n.getNode s = some pos := by
  unfold hasNode getNode
  by_cases hs : s = []
  · simp [hs]
  · rw [if_neg hs, if_neg hs, hasLoop_iff]
    cases n.descend (splitDots s []) <;> simp

/-- Without uniqueness: what is found has the path asked for, and at every step it is the child inserted first. -/
theorem C33_found {n : Node} (hg : GoodIds n) (s : Str) (pos : List Nat) (h : n.getNode s = some pos) :
    (∃ v, n.sub? pos = some v) ∧ n.relPath pos = s := by
  unfold getNode at h
  by_cases hs : s = []
  · rw [if_pos hs] at h; cases h; subst hs
    exact ⟨⟨_, sub?_nil n⟩, by simp [relPath, lineage, joinIds]⟩
  · rw [if_neg hs] at h
    obtain ⟨h1, h2⟩ := descend_sound h
    refine ⟨h2, ?_⟩
    rw [relPath_eq hg, h1, dots_splitDots]; rfl

/-! ## Copies -/

/-- What a user can see of a node itself (everything but the bookkeeping of the parent's map). -/
def NodeData.view (d : NodeData) : NodeData := { d with rank := 0 }

theorem cloneKids_getElem? (l : List Node) (i j : Nat) :
    (cloneKids l i)[j]? = l[j]?.map (fun k => mk { (clone k).d with rank := i + j } (clone k).kids) := by
  induction l generalizing i j with
  | nil => simp [cloneKids]
  | cons k ks ih =>
    rw [cloneKids]
    cases j with
    | zero => simp
    | succ j =>
      rw [List.getElem?_cons_succ, ih (i + 1) j, List.getElem?_cons_succ]
      rw [show i + 1 + j = i + (j + 1) by omega]


/-- The node at a position of the clone: the attributes are those of the original. -/
theorem clone_sub? (n : Node) (pos : List Nat) :
    ((clone n).sub? pos).map (fun v => v.d.view) = (n.sub? pos).map (fun v => v.d.view) ∧
    ((clone n).sub? pos).map (fun v => v.kids.length) = (n.sub? pos).map (fun v => v.kids.length) := by
  induction pos generalizing n with
  | nil =>
    simp only [sub?_nil, Option.map_some, clone_d, clone_kids, true_and]
    have : ∀ (l : List Node) (i : Nat), (cloneKids l i).length = l.length := by
      intro l; induction l with
      | nil => intro i; rfl
      | cons k ks ih => intro i; rw [cloneKids, List.length_cons, ih, List.length_cons]
    rw [this]
  | cons i is ih =>
    rw [sub?_cons, sub?_cons, clone_kids, cloneKids_getElem?]
    cases hk : n.kids[i]? with
    | none => simp
    | some k =>
      simp only [Option.map_some, Option.bind_some]
      cases is with
      | nil =>
        have := ih k
        simp only [sub?_nil, Option.map_some, Option.some.injEq] at this ⊢
        exact ⟨this.1, this.2⟩
      | cons j js =>
        have h := ih k
        rw [sub?_cons] at h ⊢
        exact h

theorem cloneKids_length (l : List Node) (i : Nat) : (cloneKids l i).length = l.length := by
  induction l generalizing i with
  | nil => rfl
  | cons k ks ih => rw [cloneKids, List.length_cons, ih, List.length_cons]

theorem preL_clone : ∀ (l : List Node) (i j : Nat), (∀ k ∈ l, preL (clone k).kids 0 = preL k.kids 0) →
    preL (cloneKids l j) i = preL l i := by
  intro l
  induction l with
  | nil => intro i j _; rfl
  | cons k ks ih =>
    intro i j h
    rw [cloneKids, preL_cons_ne, preL_cons_ne, ih (i + 1) (j + 1) (fun x hx => h x (by simp [hx]))]
    simp only [kids_mk]
    rw [h k (by simp)]

theorem positions_clone (n : Node) : positions (clone n) = positions n := by
  rw [positions_eq, positions_eq]
  induction n using Node.ind with
  | h d kids ih => rw [clone_kids, kids_mk]; exact preL_clone kids 0 0 ih

theorem clone_ids (n : Node) (pos : List Nat) : (clone n).ids pos = n.ids pos := by
  induction pos generalizing n with
  | nil => rfl
  | cons i is ih =>
    unfold ids
    rw [lineage, lineage, clone_kids, cloneKids_getElem?]
    cases hk : n.kids[i]? with
    | none => rfl
    | some k =>
      simp only [Option.map_some, List.map_cons, List.cons.injEq]
      refine ⟨by simp [clone_d], ?_⟩
      have : ∀ d, (mk d (clone k).kids).lineage is = (clone k).lineage is := by
        intro d; cases is with
        | nil => rfl
        | cons j js => rw [lineage, lineage]; rfl
      rw [this]
      exact ih k

theorem map_uid_clone (l : List Node) (i : Nat) : (cloneKids l i).map (fun k => k.d.uid) = l.map (fun k => k.d.uid) := by
  induction l generalizing i with
  | nil => rfl
  | cons k ks ih => rw [cloneKids, List.map_cons, List.map_cons, ih]; simp [clone_d]

/-- The names of the path only depend on the ids. -/
theorem joinIds_congr (l m : List Node) (h : l.map (fun k => k.d.uid) = m.map (fun k => k.d.uid)) : joinIds l = joinIds m := by
  have : ∀ l : List Node, joinIds l =
      ((l.map (fun k => k.d.uid)).flatMap (fun u => if u.length ≠ 0 then u ++ ['.'] else [])).dropLast := by
    intro l
    unfold joinIds
    rw [List.flatMap_map]
  rw [this, this, h]

/-- **C41** (copy construction, `clone`): every position carries the same attributes (id, addresses, mask,
permission, mode, size, tags, description, module, class, parameters, firmware info), and listing and paths
are the same. -/
theorem C41_clone (n : Node) :
    (∀ pos, ((clone n).sub? pos).map (fun v => v.d.view) = (n.sub? pos).map (fun v => v.d.view)) ∧
    (clone n).getNodes = n.getNodes ∧ (∀ pos, (clone n).relPath pos = n.relPath pos) ∧
    (∀ pos, (clone n).fullPath pos = n.fullPath pos) := by
  have hr : ∀ pos, (clone n).relPath pos = n.relPath pos := fun pos =>
    joinIds_congr _ _ (clone_ids n pos)
  refine ⟨fun pos => (clone_sub? n pos).1, ?_, hr, ?_⟩
  · show (positions (clone n)).map (clone n).relPath = (positions n).map n.relPath
    rw [positions_clone]
    exact List.map_congr_left (fun p _ => hr p)
  · intro pos
    refine joinIds_congr _ _ ?_
    rw [List.map_cons, List.map_cons, clone_d]
    congr 1
    exact clone_ids n pos

/-- Children with the same id are in `mChildren` in the order in which they were inserted into the map. -/
inductive Ordered : Node → Prop
  | mk {d : NodeData} {kids : List Node} :
      kids.Pairwise (fun a b => a.d.uid = b.d.uid → a.d.rank < b.d.rank) → (∀ k ∈ kids, Ordered k) → Ordered (mk d kids)

theorem Node.UniqueIds.ordered {n : Node} (h : UniqueIds n) : Ordered n := by
  induction n using Node.ind with
  | h d kids ih =>
    cases h with
    | mk h1 h2 =>
      refine .mk ?_ (fun k hk => ih k hk (h2 k hk))
      unfold List.Nodup at h1
      rw [List.pairwise_map] at h1
      exact h1.imp (fun h e => absurd e h)

theorem lookup_first {n : Node} {uid : Str} (ho : n.kids.Pairwise (fun a b => a.d.uid = b.d.uid → a.d.rank < b.d.rank)) :
    n.lookup uid = n.kids.findIdx? (fun k => decide (k.d.uid = uid)) := by
  cases hl : n.lookup uid with
  | none =>
    symm
    rw [List.findIdx?_eq_none_iff]
    intro k hk
    simpa using (lookup_none n uid).1 hl k hk
  | some i =>
    symm
    obtain ⟨k, h1, h2, h3⟩ := lookup_some hl
    obtain ⟨hi, ei⟩ := List.getElem?_eq_some_iff.1 h1
    rw [List.findIdx?_eq_some_iff_getElem]
    refine ⟨hi, by simp [ei, h2], ?_⟩
    intro j hj
    simp only [decide_eq_true_eq]
    intro e
    have hr := (List.pairwise_iff_getElem.1 ho) j i (by omega) hi hj (by rw [e, ei, h2])
    have := h3 n.kids[j] (List.getElem_mem _) e
    rw [ei] at hr
    omega

theorem lookup_clone {n : Node} {uid : Str} (ho : n.kids.Pairwise (fun a b => a.d.uid = b.d.uid → a.d.rank < b.d.rank)) :
    (clone n).lookup uid = n.lookup uid := by
  rw [lookup_first ho, lookup_first]
  · have : ∀ l : List Node, l.findIdx? (fun k => decide (k.d.uid = uid)) = (l.map (fun k => k.d.uid)).findIdx? (fun u => decide (u = uid)) := by
      intro l; rw [List.findIdx?_map]; rfl
    rw [this, this, clone_kids, map_uid_clone]
  · rw [clone_kids, List.pairwise_iff_getElem]
    intro i j hi hj hij _
    rw [cloneKids_length] at hi hj
    have a := cloneKids_getElem? n.kids 0 i
    have b := cloneKids_getElem? n.kids 0 j
    rw [List.getElem?_eq_getElem (by rw [cloneKids_length]; exact hi), List.getElem?_eq_getElem hi] at a
    rw [List.getElem?_eq_getElem (by rw [cloneKids_length]; exact hj), List.getElem?_eq_getElem hj] at b
    simp only [Option.map_some, Option.some.injEq] at a b
    rw [a, b]
    simpa using hij

theorem descend_mk (d d' : NodeData) (kids : List Node) (xs : List Str) : (mk d kids).descend xs = (mk d' kids).descend xs := by
  cases xs with
  | nil => rw [descend, descend]
  | cons x xs => rw [descend, descend]; rfl

theorem descend_clone {n : Node} (ho : Ordered n) (xs : List Str) : (clone n).descend xs = n.descend xs := by
  induction xs generalizing n with
  | nil => rw [descend, descend]
  | cons x xs ih =>
    cases ho with
    | mk h1 h2 =>
      rename_i d kids
      rw [descend, descend, lookup_clone (n := mk d kids) h1]
      cases (mk d kids).lookup x with
      | none => rfl
      | some i =>
        simp only [clone_kids, cloneKids_getElem?, kids_mk]
        cases hk : kids[i]? with
        | none => rfl
        | some k =>
          simp only [Option.map_some]
          have := ih (h2 k (List.mem_of_getElem? hk))
          rw [descend_mk _ (clone k).d, ← clone_kids, eta, this]

/-- **C41** (lookup in a copy): the same answers, for every tree in which children with equal ids are kept in the
order of insertion, in particular for every tree with unique sibling ids. -/
theorem C41_lookup {n : Node} (ho : Ordered n) (s : Str) :
    (clone n).getNode s = n.getNode s ∧ (clone n).hasNode s = n.hasNode s := by
  have h : (clone n).getNode s = n.getNode s := by
    unfold getNode
    rw [descend_clone ho]
  refine ⟨h, ?_⟩
  have e : ∀ m : Node, m.hasNode s = (m.getNode s).isSome := by
    intro m
    unfold hasNode getNode
    by_cases hs : s = []
    · simp [hs]
    · rw [if_neg hs, if_neg hs, hasLoop_iff]
  rw [e, e, h]

theorem C41_unique {n : Node} (hu : UniqueIds n) (s : Str) :
    (clone n).getNode s = n.getNode s ∧ (clone n).hasNode s = n.hasNode s := C41_lookup hu.ordered s

/-- A copy of any tree is in insertion order, so copies of copies answer alike. -/
theorem C41_copy_of_copy (n : Node) (s : Str) : (clone (clone n)).getNode s = (clone n).getNode s := by
  refine (C41_lookup ?_ s).1
  induction n using Node.ind with
  | h d kids ih =>
    rw [← eta (clone (mk d kids)), clone_kids]
    refine .mk ?_ ?_
    · rw [kids_mk, List.pairwise_iff_getElem]
      intro i j hi hj hij _
      rw [cloneKids_length] at hi hj
      have a := cloneKids_getElem? kids 0 i
      have b := cloneKids_getElem? kids 0 j
      rw [List.getElem?_eq_getElem (by rw [cloneKids_length]; exact hi), List.getElem?_eq_getElem hi] at a
      rw [List.getElem?_eq_getElem (by rw [cloneKids_length]; exact hj), List.getElem?_eq_getElem hj] at b
      simp only [Option.map_some, Option.some.injEq] at a b
      rw [a, b]
      simpa using hij
    · intro k hk
      obtain ⟨j, hj⟩ := List.getElem?_of_mem hk
      rw [kids_mk, cloneKids_getElem?] at hj
      cases hx : kids[j]? with
      | none => rw [hx] at hj; cases hj
      | some x =>
        rw [hx] at hj
        simp only [Option.map_some, Option.some.injEq] at hj
        subst hj
        have := ih x (List.mem_of_getElem? hx)
        rw [← eta (clone x)] at this
        cases this with
        | mk h1 h2 => exact .mk h1 h2

/-- **C41** (assignment), the part that holds: everything but the firmware info of the node assigned to (and its C++ class, which an assignment
cannot change). -/
theorem C41_assign_partial (self src : Node) :
    ({ (assign self src).d with fw := src.d.fw, ty := src.d.ty } : NodeData).view = src.d.view ∧
    (∀ i is, ((assign self src).sub? (i :: is)).map (fun v => v.d.view) = (src.sub? (i :: is)).map (fun v => v.d.view)) ∧
    (assign self src).getNodes = src.getNodes ∧
    (Ordered src → ∀ s, (assign self src).getNode s = src.getNode s) := by
  have hk : (assign self src).kids = (clone src).kids := by rw [clone_kids]; rfl
  refine ⟨rfl, ?_, ?_, ?_⟩
  · intro i is
    have := (clone_sub? src (i :: is)).1
    rw [sub?_cons] at this
    rw [sub?_cons, hk]; exact this
  · rw [← (C41_clone src).2.1]
    show (positions (assign self src)).map _ = (positions (clone src)).map _
    rw [positions_eq, positions_eq, hk]
    refine List.map_congr_left ?_
    intro p _
    unfold relPath
    congr 1
    cases p with
    | nil => rfl
    | cons i is => rw [lineage, lineage, hk]
  · intro ho s
    rw [← (C41_lookup ho s).1]
    unfold getNode
    split
    · rfl
    · rw [← eta (assign self src), hk, descend_mk _ (clone src).d, eta]

/-- **C41** is violated by assignment: the firmware info is not copied. -/
theorem C41_violated_assign : ∃ self src : Node, (assign self src).d.fw ≠ src.d.fw := by
  refine ⟨mk {} [], mk { fw := [("type".toList, "endpoint".toList)] } [], ?_⟩
  decide

/-- A tree as the builder leaves it: the second `a` (rank 1) has the smaller address and stands first. -/
def dupTree : Node :=
  mk {} [mk { uid := ['a'], addr := 1#32, part := 1#32, mode := .hierarchical, rank := 1 }
      [mk { uid := ['b'], addr := 1#32, mode := .single } []],
    mk { uid := ['a'], addr := 2#32, part := 2#32, mode := .single, rank := 0 } []]

/-- **C33** and **C41** need unique ids: with a repeated sibling id a listed path is not found, and a copy finds
another node than the original. (An address table for which this happens: `C33_violated_built` in `Verif/Props/C48.lean`.) -/
theorem C33_violated_dup : "a.b".toList ∈ dupTree.getNodes ∧ dupTree.hasNode "a.b".toList = false ∧
    (clone dupTree).hasNode "a.b".toList = true ∧
    dupTree.getNode "a".toList = some [1] ∧ (clone dupTree).getNode "a".toList = some [0] := by
  decide +kernel

/-- A tree with unique ids. -/
def demoTree : Node :=
  mk { uid := "top".toList } [mk { uid := ['a'], addr := 1#32 } [mk { uid := ['b'], addr := 1#32, mask := 3#32 } [],
    mk { uid := ['c'], addr := 2#32 } []], mk { uid := ['d'], addr := 4#32 } []]

theorem demoTree_ok : GoodIds demoTree ∧ UniqueIds demoTree := by
  constructor
  · refine .mk (by decide) ?_
    intro k hk
    simp only [List.mem_cons, List.not_mem_nil, or_false] at hk
    rcases hk with rfl | rfl
    · refine .mk (by decide) ?_
      intro k hk
      simp only [List.mem_cons, List.not_mem_nil, or_false] at hk
      rcases hk with rfl | rfl <;> exact .mk (by decide) (by simp)
    · exact .mk (by decide) (by simp)
  · refine .mk (by decide) ?_
    intro k hk
    simp only [List.mem_cons, List.not_mem_nil, or_false] at hk
    rcases hk with rfl | rfl
    · refine .mk (by decide) ?_
      intro k hk
      simp only [List.mem_cons, List.not_mem_nil, or_false] at hk
      rcases hk with rfl | rfl <;> exact .mk (by decide) (by simp)
    · exact .mk (by decide) (by simp)

example : demoTree.getNodes = ["a".toList, "a.b".toList, "a.c".toList, "d".toList] ∧
    demoTree.getNode "a.c".toList = some [0, 1] ∧ demoTree.fullPath [0, 1] = "top.a.c".toList ∧
    demoTree.getNode "a.".toList = none ∧ (clone demoTree).getNode "a.b".toList = some [0, 0] := by decide +kernel

end Verif
