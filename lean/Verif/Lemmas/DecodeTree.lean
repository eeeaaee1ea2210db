import Verif.Lemmas.DecodeAssign
/-!
# The tree of the script is the tree of the nodes
-/

set_option autoImplicit false
set_option linter.unusedSimpArgs false

namespace Verif
namespace Gen
open GNode

variable (int : Str → Option Nat)

/-- A node of the script for a node of uhal. -/
def leaf (name : List Str) (d : NodeData) (desc : List GNode) : GNode :=
  .mk name d.addr.toNat (decide (d.fw.lookup "type".toList = some "endpoint".toList))
    (if d.mode = .incremental then d.size.toNat else 1) ((d.fw.lookup "width".toList).bind int) desc

mutual
/-- The whole tree of nodes. -/
def mirror (p : List Str) : Node → GNode
  | .mk d kids => leaf int (p ++ [d.uid]) d (mirrorL (p ++ [d.uid]) kids)
def mirrorL (p : List Str) : List Node → List GNode
  | [] => []
  | k :: ks => mirror p k :: mirrorL p ks
end

mutual
/-- The nodes one by one, parents first. -/
def flat (p : List Str) : Node → List GNode
  | .mk d kids => leaf int (p ++ [d.uid]) d [] :: flatL (p ++ [d.uid]) kids
def flatL (p : List Str) : List Node → List GNode
  | [] => []
  | k :: ks => flat p k ++ flatL p ks
end

variable {int}

theorem mirrorL_eq (p : List Str) (l : List Node) : mirrorL int p l = l.map (mirror int p) := by
  induction l with
  | nil => rfl
  | cons k ks ih => rw [mirrorL, ih]; rfl

theorem mirror_eq (p : List Str) (n : Node) : mirror int p n = leaf int (p ++ [n.d.uid]) n.d (mirrorL int (p ++ [n.d.uid]) n.kids) := by
  cases n; rw [mirror]; rfl

theorem flat_eq (p : List Str) (n : Node) : flat int p n = leaf int (p ++ [n.d.uid]) n.d [] :: flatL int (p ++ [n.d.uid]) n.kids := by
  cases n; rw [flat]; rfl

/-! ### Insertion -/

theorem flat_name (n : Node) : ∀ p, ∀ g ∈ flat int p n, ∃ ys, g.name = p ++ n.d.uid :: ys := by
  induction n using Node.ind with
  | h d kids ih =>
    intro p g hg
    rw [flat_eq, List.mem_cons] at hg
    rcases hg with rfl | hg
    · exact ⟨[], rfl⟩
    · have : ∀ (l : List Node), (∀ k ∈ l, k ∈ kids) → g ∈ flatL int (p ++ [d.uid]) l → ∃ y ys, g.name = (p ++ [d.uid]) ++ y :: ys := by
        intro l
        induction l with
        | nil => intro _ h; rw [flatL] at h; cases h
        | cons k ks ihl =>
          intro hl h
          rw [flatL, List.mem_append] at h
          rcases h with h | h
          · obtain ⟨ys, e⟩ := ih k (hl k (by simp)) _ g h
            exact ⟨_, ys, e⟩
          · exact ihl (fun k hk => hl k (by simp [hk])) h
      obtain ⟨y, ys, e⟩ := this kids (fun k hk => hk) hg
      exact ⟨y :: ys, by rw [e]; simp⟩

/-- `add` seen from a node that is on the way. -/
def addRel (p : List Str) (t g : GNode) : GNode := addTo g p (g.name.drop p.length) t

theorem add_eq (t g : GNode) : add t g = addRel [] t g := rfl

theorem addTo_name (g : GNode) (p r : List Str) (t : GNode) : (addTo g p r t).name = t.name := by
  cases r with
  | nil => rfl
  | cons x r =>
    cases t with
    | mk nm a f s w desc =>
      rw [addTo]
      split <;> rfl

theorem addRel_new {p : List Str} {u : Str} {g : GNode} (hg : g.name = p ++ [u]) {nm : List Str} {a : Nat} {f : Bool} {s : Nat} {w : Option Nat}
    {D : List GNode} (hD : ∀ k ∈ D, k.name ≠ p ++ [u]) : addRel p (.mk nm a f s w D) g = .mk nm a f s w (D ++ [g]) := by
  unfold addRel
  rw [hg, List.drop_left, addTo]
  have : D.findIdx? (fun k => decide (k.name = p ++ [u])) = none := by
    rw [List.findIdx?_eq_none_iff]
    intro k hk
    simp only [decide_eq_false_iff_not]
    exact hD k hk
  rw [this]

theorem addRel_inside {p : List Str} {u y : Str} {ys : List Str} {g m : GNode} (hg : g.name = p ++ u :: y :: ys) (hm : m.name = p ++ [u])
    {nm : List Str} {a : Nat} {f : Bool} {s : Nat} {w : Option Nat} {D : List GNode} (hD : ∀ k ∈ D, k.name ≠ p ++ [u]) :
    addRel p (.mk nm a f s w (D ++ [m])) g = .mk nm a f s w (D ++ [addRel (p ++ [u]) m g]) := by
  unfold addRel
  have hdrop : g.name.drop p.length = u :: y :: ys := by rw [hg, List.drop_left]
  have hdrop' : g.name.drop (p ++ [u]).length = y :: ys := by
    have : g.name = (p ++ [u]) ++ y :: ys := by rw [hg]; simp
    rw [this, List.drop_left]
  rw [hdrop, hdrop', addTo]
  have : (D ++ [m]).findIdx? (fun k => decide (k.name = p ++ [u])) = some D.length := by
    refine Decoder.findIdx?_first (x := m) (by simp) (by simp [hm]) ?_
    intro i hi z hz
    rw [List.getElem?_append_left hi] at hz
    simp only [decide_eq_false_iff_not]
    exact hD z (List.mem_of_getElem? hz)
  rw [this]
  simp only []
  congr 1
  have : ∀ (F : GNode → GNode) (D : List GNode), (D ++ [m]).modify D.length F = D ++ [F m] := by
    intro F D
    induction D with
    | nil => rfl
    | cons a D ih => simp only [List.cons_append, List.length_cons, List.modify_succ_cons, ih]
  exact this _ D

theorem foldl_inside {p : List Str} {u : Str} {nm : List Str} {a : Nat} {f : Bool} {s : Nat} {w : Option Nat} {D : List GNode}
    (hD : ∀ k ∈ D, k.name ≠ p ++ [u]) : ∀ (gs : List GNode) (m : GNode), m.name = p ++ [u] → (∀ g ∈ gs, ∃ y ys, g.name = p ++ u :: y :: ys) →
    gs.foldl (addRel p) (.mk nm a f s w (D ++ [m])) = .mk nm a f s w (D ++ [gs.foldl (addRel (p ++ [u])) m]) := by
  intro gs
  induction gs with
  | nil => intro m _ _; rfl
  | cons g gs ih =>
    intro m hm hgs
    obtain ⟨y, ys, hg⟩ := hgs g (by simp)
    rw [List.foldl_cons, List.foldl_cons, addRel_inside hg hm hD, ih _ (by rw [addRel, addTo_name]; exact hm) (fun g hg => hgs g (by simp [hg]))]

/-- Adding the nodes of some children one by one gives their trees. -/
theorem foldl_flatL : ∀ (n : Node), n.UniqueIds → ∀ (p : List Str) (nm : List Str) (a : Nat) (f : Bool) (s : Nat) (w : Option Nat),
    (flatL int p n.kids).foldl (addRel p) (.mk nm a f s w []) = .mk nm a f s w (mirrorL int p n.kids) := by
  intro n
  induction n using Node.ind with
  | h d kids ih =>
    intro hu p nm a f s w
    obtain ⟨hu1, hu2⟩ := hu
    have list : ∀ (l : List Node), (∀ k ∈ l, k ∈ kids) → (l.map fun k => k.d.uid).Nodup → ∀ D : List GNode,
        (∀ k ∈ l, ∀ g ∈ D, g.name ≠ p ++ [k.d.uid]) →
        (flatL int p l).foldl (addRel p) (.mk nm a f s w D) = .mk nm a f s w (D ++ mirrorL int p l) := by
      intro l
      induction l with
      | nil => intro _ _ D _; simp [flatL, mirrorL]
      | cons k ks ihl =>
        intro hl hn D hD
        rw [List.map_cons, List.nodup_cons] at hn
        rw [flatL, flat_eq, List.cons_append, List.foldl_cons, List.foldl_append, addRel_new rfl (hD k (by simp)),
          foldl_inside (hD k (by simp)) _ _ rfl]
        · rw [leaf, ih k (hl k (by simp)) (hu2 k (hl k (by simp)))]
          have : (GNode.mk (p ++ [k.d.uid]) k.d.addr.toNat (decide (List.lookup "type".toList k.d.fw = some "endpoint".toList))
              (if k.d.mode = Mode.incremental then k.d.size.toNat else 1) ((List.lookup "width".toList k.d.fw).bind int)
              (mirrorL int (p ++ [k.d.uid]) k.kids)) = mirror int p k := by rw [mirror_eq]; rfl
          rw [this, ihl (fun k hk => hl k (by simp [hk])) hn.2]
          · rw [mirrorL]; simp
          · intro k' hk' g hg
            rcases List.mem_append.1 hg with hg | hg
            · exact hD k' (by simp [hk']) g hg
            · rw [List.mem_singleton.1 hg, mirror_eq]
              intro e
              have e : p ++ [k.d.uid] = p ++ [k'.d.uid] := e
              simp only [List.append_cancel_left_eq, List.cons.injEq, and_true] at e
              exact hn.1 (List.mem_map.2 ⟨k', hk', e.symm⟩)
        · intro g hg
          have : ∀ (l : List Node), g ∈ flatL int (p ++ [k.d.uid]) l → ∃ y ys, g.name = (p ++ [k.d.uid]) ++ y :: ys := by
            intro l
            induction l with
            | nil => intro h; rw [flatL] at h; cases h
            | cons k ks ihl =>
              intro h
              rw [flatL, List.mem_append] at h
              rcases h with h | h
              · obtain ⟨ys, e⟩ := flat_name k _ g h
                exact ⟨_, ys, e⟩
              · exact ihl h
          obtain ⟨y, ys, e⟩ := this k.kids hg
          exact ⟨y, ys, by rw [e]; simp⟩
    have := list kids (fun k hk => hk) hu1 [] (by simp)
    simpa using this

/-! ### The nodes of the script are those of uhal -/

/-- The node of the script for a position. -/
def at_ (int : Str → Option Nat) (p : List Str) (n : Node) (pos : List Nat) : Option GNode := (n.sub? pos).map fun v => leaf int (p ++ n.ids pos) v.d []

theorem at_cons {p : List Str} {n k : Node} {i : Nat} (hk : n.kids[i]? = some k) (q : List Nat) :
    at_ int p n (i :: q) = at_ int (p ++ [k.d.uid]) k q := by
  unfold at_
  rw [Node.sub?_cons, hk]
  simp only [Option.bind_some, Node.ids, Node.lineage, hk, List.map_cons]
  simp

theorem pre_flat (n : Node) : ∀ p, (Node.pre n).map (at_ int p n) = some (leaf int p n.d []) :: ((flatL int p n.kids).map some) := by
  induction n using Node.ind with
  | h d kids ih =>
    intro p
    rw [Node.pre, List.map_cons]
    congr 1
    · simp [at_, Node.ids, Node.lineage]
    · have list : ∀ (l : List Node) (i : Nat), (∀ j k, l[j]? = some k → kids[i + j]? = some k) →
          (Node.preL l i).map (at_ int p (.mk d kids)) = (flatL int p l).map some := by
        intro l
        induction l with
        | nil => intro i _; rfl
        | cons k ks ihl =>
          intro i hl
          have hk : kids[i]? = some k := by simpa using hl 0 k rfl
          rw [Node.preL, flatL, List.map_append, List.map_append, ihl (i + 1) (fun j x hx => by
            have := hl (j + 1) x (by simpa using hx)
            rw [← this]; congr 1; omega)]
          congr 1
          rw [List.map_map]
          have : (at_ int p (.mk d kids)) ∘ (fun q => i :: q) = at_ int (p ++ [k.d.uid]) k := by
            funext q
            exact at_cons (n := .mk d kids) hk q
          rw [this, ih k (List.mem_of_getElem? hk), flat_eq]
          rfl
      exact list kids 0 (fun j k h => by simpa using h)

theorem positions_flat (n : Node) : (Node.positions n).map (at_ int [] n) = (flatL int [] n.kids).map some := by
  have := pre_flat (int := int) n []
  rw [Node.pre_eq, List.map_cons, List.cons.injEq] at this
  rw [Node.positions_eq]
  exact this.2

theorem widthEntry_some {fw : List (Str × Str)} {w : Option Nat} (h : widthEntry int fw = some w) : w = (fw.lookup "width".toList).bind int := by
  unfold widthEntry at h
  cases hl : fw.lookup "width".toList with
  | none => rw [hl] at h; cases h; rfl
  | some s =>
    rw [hl] at h
    simp only [Option.map_eq_some_iff] at h
    obtain ⟨x, h1, rfl⟩ := h
    simp [h1]

theorem entry_pos {n : Node} (hg : n.GoodIds) (hu : n.UniqueIds) {pos : List Nat} (hp : pos ∈ Node.positions n) {g : GNode}
    (h : entry int n (n.relPath pos) = some g) : at_ int [] n pos = some g := by
  obtain ⟨hne, v, hv⟩ := (Node.mem_positions n pos).1 hp
  have hgn := C33_listed hg hu pos hp
  unfold entry devNode at h
  rw [hgn] at h
  simp only [Option.bind_some, hv, Option.map_some, Option.map_eq_some_iff] at h
  obtain ⟨w, hw, rfl⟩ := h
  unfold at_
  rw [hv]
  simp only [Option.map_some, List.nil_append, leaf, widthEntry_some hw]
  congr 2
  rw [Node.relPath_eq hg, Node.splitDots_dots]
  · simp only [Node.ids, ne_eq, List.map_eq_nil_iff]; exact Node.lineage_ne hne hv
  · intro x hx
    obtain ⟨k, hk, rfl⟩ := List.mem_map.1 hx
    exact (Node.lineage_good hg pos k hk).2

/-- The tree of the script. -/
theorem tree_mirror {n : Node} (hg : n.GoodIds) (hu : n.UniqueIds) {t : GNode} (h : tree int n = some t) :
    t = .mk ["TOP".toList] 0 false 0 ((n.d.fw.lookup "width".toList).bind int) (mirrorL int [] n.kids) := by
  unfold tree at h
  rw [Option.bind_eq_some_iff] at h
  obtain ⟨w, hw, h⟩ := h
  rw [Option.map_eq_some_iff] at h
  obtain ⟨es, hes, rfl⟩ := h
  rw [mapAll_some] at hes
  have hes' : es = flatL int [] n.kids := by
    have h1 := positions_flat (int := int) n
    have h2 : (Node.positions n).map (at_ int [] n) = es.map some := by
      rw [← hes]
      unfold Node.getNodes
      rw [List.map_map]
      apply List.map_congr_left
      intro pos hp
      have hmem : entry int n (n.relPath pos) ∈ es.map some := by
        rw [← hes]
        exact List.mem_map_of_mem (List.mem_map_of_mem hp)
      obtain ⟨g, _, hg'⟩ := List.mem_map.1 hmem
      simp only [Function.comp]
      rw [← hg', entry_pos hg hu hp hg'.symm]
    rw [h1] at h2
    exact ((List.map_inj_right (by intro _ _ h; cases h; rfl)).1 h2).symm
  have : GNode.add = addRel [] := by funext t g; rfl
  rw [hes', this, foldl_flatL n hu, widthEntry_some hw]

/-! ### The names of the tree of the script, and its lines -/

theorem mirror_named (n : Node) : n.UniqueIds → ∀ p, Named p (mirrorL int p n.kids) := by
  induction n using Node.ind with
  | h d kids ih =>
    intro hu p
    obtain ⟨hu1, hu2⟩ := hu
    rw [Node.kids_mk, mirrorL_eq]
    refine .mk ?_ ?_ ?_
    · rw [List.map_map]
      have : name ∘ mirror int p = fun k => p ++ [k.d.uid] := by funext k; simp [mirror_eq, leaf]
      rw [this]
      unfold List.Nodup at hu1 ⊢
      rw [List.pairwise_map] at hu1 ⊢
      exact hu1.imp fun h e => h (by simpa using e)
    · intro k hk
      obtain ⟨k', _, rfl⟩ := List.mem_map.1 hk
      exact ⟨k'.d.uid, by simp [mirror_eq, leaf]⟩
    · intro k hk
      obtain ⟨k', hk', rfl⟩ := List.mem_map.1 hk
      have := ih k' hk' (hu2 k' hk') (p ++ [k'.d.uid])
      simpa [mirror_eq, leaf] using this

/-- The nodes of the tree. -/
theorem mem_mirror (n : Node) : ∀ (p : List Str) (g : GNode), g ∈ getDescL (mirrorL int p n.kids) ↔
    ∃ i q v, n.sub? (i :: q) = some v ∧ g = leaf int (p ++ n.ids (i :: q)) v.d (mirrorL int (p ++ n.ids (i :: q)) v.kids) := by
  induction n using Node.ind with
  | h d kids ih =>
    intro p g
    have step : ∀ i k q, kids[i]? = some k → p ++ Node.ids (.mk d kids) (i :: q) = (p ++ [k.d.uid]) ++ k.ids q := by
      intro i k q hk
      simp [Node.ids, Node.lineage, hk]
    rw [mem_getDescL, Node.kids_mk, mirrorL_eq]
    constructor
    · rintro ⟨m, hm, hg⟩
      obtain ⟨k, hk, rfl⟩ := List.mem_map.1 hm
      obtain ⟨i, hi⟩ := List.getElem?_of_mem hk
      rcases hg with rfl | hg
      · refine ⟨i, [], k, by rw [Node.sub?_cons, Node.kids_mk, hi]; rfl, ?_⟩
        rw [step i k [] hi, mirror_eq]
        simp [Node.ids, Node.lineage]
      · rw [getDesc_eq, mirror_eq] at hg
        obtain ⟨j, q, v, hv, rfl⟩ := (ih k hk _ _).1 hg
        exact ⟨i, j :: q, v, by rw [Node.sub?_cons, Node.kids_mk, hi]; exact hv, by rw [step i k _ hi]⟩
    · rintro ⟨i, q, v, hv, rfl⟩
      rw [Node.sub?_cons, Node.kids_mk] at hv
      cases hi : kids[i]? with
      | none => rw [hi] at hv; cases hv
      | some k =>
        rw [hi] at hv
        have hv : k.sub? q = some v := hv
        have hk := List.mem_of_getElem? hi
        refine ⟨mirror int p k, List.mem_map_of_mem hk, ?_⟩
        rw [step i k q hi]
        cases q with
        | nil =>
          rw [Node.sub?_nil] at hv
          cases hv
          left
          rw [mirror_eq]
          simp [Node.ids, Node.lineage]
        | cons j q =>
          right
          rw [getDesc_eq, mirror_eq]
          exact (ih k hk _ _).2 ⟨j, q, v, hv, rfl⟩

end Gen
end Verif
