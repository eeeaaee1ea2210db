import Verif.Model.AddrDesc
import Verif.Props.C36
import Verif.Props.C48
/-!
# C58: the nodes named in an error message

The text that says which nodes an address belongs to names exactly those nodes. The specification of the addresses of a node is
`Spec.Uses` of C36.
-/

set_option autoImplicit false

namespace Verif
open Node

namespace Spec

/-- `p` is above all of `ms`. -/
def Above (p : List Nat) (ms : List (List Nat)) : Prop := ∀ q ∈ ms, ∃ i r, q = p ++ i :: r

/-- `p` is above all of `ms`, and so is nothing below `p`. -/
def Deepest (p : List Nat) (ms : List (List Nat)) : Prop := Above p ms ∧ ∀ p', Above p' ms → p' <+: p

end Spec
open Spec

/-- No block reaches the end of the address space. -/
def NodeData.Inside (d : NodeData) : Prop := d.mode = .incremental → d.addr.toNat + d.size.toNat < 2 ^ 32

theorem covers_iff {d : NodeData} (h : d.Inside) (a : W) : d.covers a = true ↔ Uses d a.toNat := by
  unfold NodeData.covers Uses
  cases hm : d.mode with
  | hierarchical => simp
  | single => simp only [decide_eq_true_eq]; exact ⟨fun e => by rw [e], fun e => (BitVec.eq_of_toNat_eq e).symm⟩
  | nonIncremental => simp only [decide_eq_true_eq]; exact ⟨fun e => by rw [e], fun e => (BitVec.eq_of_toNat_eq e).symm⟩
  | incremental =>
    have := h hm
    simp only [Bool.and_eq_true, decide_eq_true_eq, BitVec.toNat_add]
    rw [Nat.mod_eq_of_lt this]

/-- C58: the nodes found are exactly those that stand for the address, each once.

Partial: false for blocks that reach the end of the address space (`C58_violated_top`). -/
theorem C58_matching_partial (n : Node) (hr : ∀ p v, n.sub? p = some v → v.d.Inside) (a : W) :
    (∀ p, p ∈ n.matching a ↔ ∃ v, n.sub? p = some v ∧ Uses v.d a.toNat) ∧ (n.matching a).Nodup := by
  constructor
  · intro p
    unfold Node.matching
    rw [List.mem_filter, List.mem_cons, mem_positions]
    constructor
    · rintro ⟨_, h⟩
      cases hv : n.sub? p with
      | none => rw [hv] at h; simp at h
      | some v =>
        rw [hv] at h
        exact ⟨v, rfl, (covers_iff (hr p v hv) a).1 (by simpa using h)⟩
    · rintro ⟨v, hv, hu⟩
      refine ⟨?_, by rw [hv]; simpa using (covers_iff (hr p v hv) a).2 hu⟩
      by_cases hp : p = []
      · exact .inl hp
      · exact .inr ⟨hp, v, hv⟩
  · unfold Node.matching
    have hn : ([] :: positions n).Nodup :=
      List.nodup_cons.2 ⟨fun h => ((mem_positions n []).1 h).1 rfl, (C33_list n).2.2.1⟩
    exact List.Pairwise.filter _ hn

/-! ### The deepest common ancestor -/

/-- Longest common prefix. -/
def lcp : List Nat → List Nat → List Nat
  | i :: p, j :: q => if i = j then i :: lcp p q else []
  | _, _ => []

theorem prefix_lcp (p c d : List Nat) : p <+: lcp c d ↔ p <+: c ∧ p <+: d := by
  induction p generalizing c d with
  | nil => simp
  | cons i p ih =>
    cases c with
    | nil => simp [lcp]
    | cons j c =>
      cases d with
      | nil => simp [lcp]
      | cons k d =>
        rw [lcp]
        by_cases h : j = k
        · subst h
          rw [if_pos rfl, List.cons_prefix_cons, List.cons_prefix_cons, List.cons_prefix_cons, ih]
          constructor
          · rintro ⟨a, b, c⟩; exact ⟨⟨a, b⟩, a, c⟩
          · rintro ⟨⟨a, b⟩, _, c⟩; exact ⟨a, b, c⟩
        · rw [if_neg h, List.cons_prefix_cons, List.cons_prefix_cons]
          constructor
          · intro h'; simp at h'
          · rintro ⟨⟨rfl, _⟩, rfl, _⟩; exact absurd rfl h

theorem prefs_head (p : List Nat) : ∃ t, prefs p = [] :: t := by cases p <;> exact ⟨_, rfl⟩

theorem commonLen_map (i : Nat) (l m : List (List Nat)) : commonLen (l.map (i :: ·)) (m.map (i :: ·)) = commonLen l m := by
  induction l generalizing m with
  | nil => simp [commonLen]
  | cons a l ih =>
    cases m with
    | nil => simp [commonLen]
    | cons b m => simp [commonLen, ih]

theorem commonLen_prefs (c d : List Nat) : commonLen (prefs c) (prefs d) = (lcp c d).length + 1 := by
  induction c generalizing d with
  | nil =>
    obtain ⟨t, ht⟩ := prefs_head d
    rw [ht]; simp [prefs, commonLen, lcp]
  | cons i c ih =>
    cases d with
    | nil => simp [prefs, commonLen, lcp]
    | cons j d =>
      by_cases h : i = j
      · subst h
        simp [prefs, commonLen, lcp, commonLen_map, ih]
      · obtain ⟨t, ht⟩ := prefs_head c
        obtain ⟨u, hu⟩ := prefs_head d
        simp [prefs, commonLen, lcp, h, ht, hu]

theorem lcp_prefix_right (c d : List Nat) : lcp c d <+: d := ((prefix_lcp _ c d).1 (List.prefix_refl _)).2

theorem prefs_getElem (p d : List Nat) (h : p <+: d) : (prefs d)[p.length]? = some p ∧ (prefs d).take (p.length + 1) = prefs p := by
  induction p generalizing d with
  | nil => obtain ⟨t, ht⟩ := prefs_head d; rw [ht]; simp [prefs]
  | cons i p ih =>
    cases d with
    | nil => simp at h
    | cons j d =>
      rw [List.cons_prefix_cons] at h
      obtain ⟨rfl, h⟩ := h
      obtain ⟨h1, h2⟩ := ih d h
      constructor
      · simp [prefs, h1]
      · rw [prefs, prefs, List.length_cons, List.take_succ_cons, ← List.map_take, h2]

theorem lineagePos_ne {q : List Nat} (h : q ≠ []) : lineagePos q = some (prefs q.dropLast) := by
  cases q with
  | nil => exact absurd rfl h
  | cons i q => rfl

theorem ancestorLoop_eq (qs : List (List Nat)) (hq : ∀ q ∈ qs, q ≠ []) (anc c : List Nat) :
    ∃ c', ancestorLoop qs (anc, prefs c) = some (if qs = [] then anc else c', prefs c') ∧
      ∀ p, p <+: c' ↔ p <+: c ∧ ∀ q ∈ qs, p <+: q.dropLast := by
  induction qs generalizing anc c with
  | nil => exact ⟨c, by simp [ancestorLoop], by simp⟩
  | cons q qs ih =>
    have h1 := prefs_getElem (lcp c q.dropLast) q.dropLast (lcp_prefix_right _ _)
    obtain ⟨c', h2, h3⟩ := ih (fun x hx => hq x (by simp [hx])) (lcp c q.dropLast) (lcp c q.dropLast)
    refine ⟨if qs = [] then lcp c q.dropLast else c', ?_, ?_⟩
    · rw [ancestorLoop, lineagePos_ne (hq q (by simp))]
      simp only [commonLen_prefs, h1.1, h1.2, h2]
      by_cases hqs : qs = []
      · subst hqs
        have : prefs c' = prefs (lcp c q.dropLast) := by
          rw [ancestorLoop] at h2
          simp only [Option.some.injEq, Prod.mk.injEq] at h2
          exact h2.2.symm
        simp [this]
      · simp [hqs]
    · intro p
      by_cases hqs : qs = []
      · subst hqs; simp [prefix_lcp]
      · rw [if_neg hqs, h3, prefix_lcp]
        simp [and_assoc]

theorem prefix_dropLast {p q : List Nat} (hq : q ≠ []) : p <+: q.dropLast ↔ ∃ i r, q = p ++ i :: r := by
  constructor
  · rintro ⟨t, ht⟩
    have := List.dropLast_concat_getLast hq
    rw [← ht, List.append_assoc] at this
    cases t with
    | nil => exact ⟨q.getLast hq, [], this.symm⟩
    | cons a t => exact ⟨a, t ++ [q.getLast hq], this.symm⟩
  · rintro ⟨i, r, rfl⟩
    rw [List.dropLast_append_of_ne_nil (by simp)]
    exact List.prefix_append _ _

/-- The loops find the deepest node above all matches, unless the root itself matches. -/
theorem ancestor_deepest (p q : List Nat) (rest : List (List Nat)) (h : ∀ x ∈ p :: q :: rest, x ≠ []) :
    ∃ l anc lin, lineagePos p = some l ∧ ancestorLoop (q :: rest) (p, l) = some (anc, lin) ∧ Deepest anc (p :: q :: rest) := by
  obtain ⟨c', h1, h2⟩ := ancestorLoop_eq (q :: rest) (fun x hx => h x (by simp [List.mem_cons.1 hx])) p p.dropLast
  refine ⟨_, c', _, lineagePos_ne (h p (by simp)), by rw [h1]; simp; rfl, ?_⟩
  have key : ∀ r, r <+: c' ↔ Above r (p :: q :: rest) := by
    intro r
    rw [h2]
    constructor
    · rintro ⟨h3, h4⟩ x hx
      rcases List.mem_cons.1 hx with rfl | hx'
      · exact (prefix_dropLast (h _ (by simp))).1 h3
      · exact (prefix_dropLast (h x (by simp [List.mem_cons.1 hx']))).1 (h4 x hx')
    · intro h3
      exact ⟨(prefix_dropLast (h _ (by simp))).2 (h3 p (by simp)), fun x hx =>
        (prefix_dropLast (h x (by simp [List.mem_cons.1 hx]))).2 (h3 x (by simp [List.mem_cons.1 hx]))⟩
  exact ⟨(key c').1 (List.prefix_refl _), fun p' hp' => (key p').2 hp'⟩

/-! ### Paths -/

theorem lineage_append (n : Node) (p r : List Nat) (v : Node) (h : n.sub? p = some v) :
    n.lineage (p ++ r) = n.lineage p ++ v.lineage r := by
  induction p generalizing n with
  | nil => rw [sub?_nil] at h; cases h; simp [lineage]
  | cons i p ih =>
    rw [sub?_cons] at h
    rw [List.cons_append, lineage, lineage]
    cases hk : n.kids[i]? with
    | none => rw [hk] at h; simp at h
    | some k => rw [hk] at h; simp only [List.cons_append]; rw [ih k h]

/-- The concatenation before the last character is cut off. -/
def idsDots (l : List Node) : Str := l.flatMap (fun k => if k.d.uid.length ≠ 0 then k.d.uid ++ ['.'] else [])

theorem idsDots_ends (l : List Node) (h : ∃ k ∈ l, k.d.uid ≠ []) : ∃ s, idsDots l = s ++ ['.'] := by
  induction l with
  | nil => simp at h
  | cons k l ih =>
    by_cases hl : ∃ k ∈ l, k.d.uid ≠ []
    · obtain ⟨s, hs⟩ := ih hl
      exact ⟨_, by rw [idsDots, List.flatMap_cons, ← idsDots, hs, ← List.append_assoc]⟩
    · have hk : k.d.uid ≠ [] := by
        obtain ⟨x, hx, hu⟩ := h
        rcases List.mem_cons.1 hx with rfl | hx
        · exact hu
        · exact absurd ⟨x, hx, hu⟩ hl
      have hz : idsDots l = [] := by
        unfold idsDots
        rw [List.flatMap_eq_nil_iff]
        intro x hx
        have : x.d.uid = [] := Classical.byContradiction fun hc => hl ⟨x, hx, hc⟩
        simp [this]
      refine ⟨k.d.uid, ?_⟩
      rw [idsDots, List.flatMap_cons, ← idsDots, hz, if_pos (by simpa using hk), List.append_nil]

theorem joinIds_append (l m : List Node) (hl : ∃ k ∈ l, k.d.uid ≠ []) (hm : ∃ k ∈ m, k.d.uid ≠ []) :
    joinIds (l ++ m) = joinIds l ++ '.' :: joinIds m := by
  obtain ⟨s, hs⟩ := idsDots_ends l hl
  obtain ⟨t, ht⟩ := idsDots_ends m hm
  have h1 : joinIds (l ++ m) = (idsDots l ++ idsDots m).dropLast := by
    unfold joinIds idsDots; rw [List.flatMap_append]
  have h2 : joinIds l = (idsDots l).dropLast := rfl
  have h3 : joinIds m = (idsDots m).dropLast := rfl
  rw [h1, h2, h3, hs, ht, ← List.append_assoc, List.dropLast_concat, List.dropLast_concat, List.dropLast_concat]
  simp

/-- The path of a node below another that is not the root: path, dot, path from there. -/
theorem fullPath_below {n v w : Node} (hg : GoodIds n) {p : List Nat} (hp : p ≠ []) (hv : n.sub? p = some v) {i : Nat} {r : List Nat}
    (hw : n.sub? (p ++ i :: r) = some w) : n.fullPath (p ++ i :: r) = n.fullPath p ++ '.' :: v.relPath (i :: r) := by
  have hl := lineage_append n p (i :: r) v hv
  unfold fullPath relPath
  rw [hl, ← List.cons_append]
  have hgood := lineage_good hg (p ++ i :: r)
  rw [hl] at hgood
  refine joinIds_append _ _ ?_ ?_
  · cases p with
    | nil => exact absurd rfl hp
    | cons j p =>
      cases hk : n.kids[j]? with
      | none => rw [sub?_cons, hk] at hv; simp at hv
      | some k =>
        have hm : k ∈ n.lineage (j :: p) := by rw [lineage, hk]; simp
        exact ⟨k, by simp [hm], (hgood k (by simp [hm])).1⟩
  · cases hk : v.kids[i]? with
    | none =>
      have : n.sub? (p ++ i :: r) = none := by rw [sub?_append, hv]; simp [sub?_cons, hk]
      rw [this] at hw; cases hw
    | some k =>
      have hm : k ∈ v.lineage (i :: r) := by rw [lineage, hk]; simp
      exact ⟨k, hm, (hgood k (by simp [hm])).1⟩

/-! ### The text -/

namespace Spec

/-- In quotes, separated by commas. -/
def listing (names : List Str) : Str := (", ".toList).intercalate (names.map fun s => "\"".toList ++ s ++ "\"".toList)

/-- What the text should be when several nodes stand for the address: `paths` their paths, `top` the path of the deepest node
above them all unless this is the root. -/
def Several (paths : List Str) (top : Option Str) (maxList : Nat) (t : Str) : Prop :=
  match top with
  | none =>
    if maxList = 0 ∨ paths.length ≤ maxList then t = "nodes ".toList ++ listing paths
    else t = (toString paths.length).toList ++ " nodes match".toList
  | some top =>
    if maxList = 0 ∨ paths.length ≤ maxList then
      ∃ names, paths = names.map (fun s => top ++ ".".toList ++ s) ∧
        t = "nodes ".toList ++ listing names ++ " under \"".toList ++ top ++ "\"".toList
    else t = (toString paths.length).toList ++ " nodes under \"".toList ++ top ++ "\" match".toList

end Spec

theorem quotedList_eq (l : List Str) : quotedList l = listing l := by
  cases l with
  | nil => rfl
  | cons x xs =>
    unfold quotedList listing
    induction xs generalizing x with
    | nil => simp [quoted, List.intercalate]
    | cons y ys ih =>
      have h := ih y
      simp only [List.intercalate, List.map_cons, List.intersperse_cons_cons, List.flatten_cons] at h ⊢
      rw [← h]
      simp [quoted]

theorem substr_all (l : List (List Nat)) (f : List Nat → Str) : l.mapM (fun q => substr (f q) 0) = some (l.map f) := by
  induction l with
  | nil => rfl
  | cons q l ih => rw [List.mapM_cons, ih]; simp [substr]

theorem substr_below (l : List (List Nat)) (f g : List Nat → Str) (top : Str) (h : ∀ q ∈ l, f q = top ++ '.' :: g q) :
    l.mapM (fun q => substr (f q) (top.length + 1)) = some (l.map g) := by
  induction l with
  | nil => rfl
  | cons q l ih =>
    rw [List.mapM_cons, ih (fun x hx => h x (by simp [hx]))]
    have : substr (f q) (top.length + 1) = some (g q) := by
      rw [h q (by simp), substr, if_pos (by simp), ← List.drop_drop, List.drop_left]; rfl
    simp [this]

/-- C58: unless the root itself stands for the address there is a text, and it is the one the specification asks for.

Partial: with a root that stands for the address and another node that does there is an exception (`C58_violated_root`); the
nodes are those of `C58_matching_partial`. -/
theorem C58_text_partial (n : Node) (hg : GoodIds n) (a : W) (maxList : Nat) (hroot : [] ∉ n.matching a) :
    (n.matching a = [] → n.describe a maxList = some "no matching nodes".toList) ∧
    (∀ p, n.matching a = [p] → n.describe a maxList = some ("node \"".toList ++ n.fullPath p ++ "\"".toList)) ∧
    (2 ≤ (n.matching a).length → ∃ top t, Deepest top (n.matching a) ∧ n.describe a maxList = some t ∧
      Several ((n.matching a).map n.fullPath) (if top = [] then none else some (n.fullPath top)) maxList t) := by
  refine ⟨fun h => by rw [describe, h], fun p h => by rw [describe, h]; simp [quoted], fun h2 => ?_⟩
  have hsub : ∀ q ∈ n.matching a, ∃ v, n.sub? q = some v := by
    intro q hq
    rw [Node.matching, List.mem_filter] at hq
    cases hv : n.sub? q with
    | none => rw [hv] at hq; simp at hq
    | some v => exact ⟨v, rfl⟩
  cases hms : n.matching a with
  | nil => rw [hms] at h2; simp at h2
  | cons p rest =>
    cases rest with
    | nil => rw [hms] at h2; simp at h2
    | cons q rest =>
      rw [hms] at hroot hsub
      obtain ⟨l, anc, lin, h3, h4, h5⟩ := ancestor_deepest p q rest (fun x hx e => hroot (e ▸ hx))
      refine ⟨anc, ?_⟩
      by_cases ha : anc = []
      · subst ha
        by_cases hmx : maxList ≠ 0 ∧ maxList < (p :: q :: rest).length
        · refine ⟨_, h5, by simp only [describe, hms, h3, h4]; rw [if_pos hmx]; simp; rfl, ?_⟩
          rw [if_pos rfl, Several, if_neg (by simp only [List.length_map]; omega)]
          simp
        · refine ⟨_, h5, by simp only [describe, hms, h3, h4]; rw [if_neg hmx]; simp only [if_true, substr_all]; rfl, ?_⟩
          rw [if_pos rfl, Several, if_pos (by simp only [List.length_map]; omega), quotedList_eq]
          simp
      · have hv : ∃ v, n.sub? anc = some v := by
          obtain ⟨i, r, e⟩ := h5.1 p (by simp)
          obtain ⟨w, hw⟩ := hsub p (by simp)
          rw [e, sub?_append] at hw
          cases hv : n.sub? anc with
          | none => rw [hv] at hw; simp at hw
          | some v => exact ⟨v, rfl⟩
        obtain ⟨v, hv⟩ := hv
        have hpath : ∀ x ∈ p :: q :: rest, n.fullPath x = n.fullPath anc ++ '.' :: v.relPath (x.drop anc.length) := by
          intro x hx
          obtain ⟨i, r, e⟩ := h5.1 x hx
          obtain ⟨w, hw⟩ := hsub x hx
          rw [e] at hw ⊢
          rw [fullPath_below hg ha hv hw, List.drop_left]
        by_cases hmx : maxList ≠ 0 ∧ maxList < (p :: q :: rest).length
        · refine ⟨_, h5, by simp only [describe, hms, h3, h4]; rw [if_pos hmx, if_neg ha], ?_⟩
          rw [if_neg ha, Several]
          rw [if_neg (by simp only [List.length_map]; omega)]
          simp [quoted]
        · refine ⟨_, h5, by
            simp only [describe, hms, h3, h4]; rw [if_neg hmx]
            simp only [if_neg ha]
            rw [substr_below _ _ _ _ hpath], ?_⟩
          rw [if_neg ha, Several]
          rw [if_pos (by simp only [List.length_map]; omega)]
          refine ⟨(p :: q :: rest).map fun x => v.relPath (x.drop anc.length), ?_, ?_⟩
          · rw [List.map_map]
            exact List.map_congr_left fun x hx => by rw [hpath x hx]; simp
          · rw [quotedList_eq]; simp [quoted]

/-! ### Where it fails -/

/-- One file: a block that reaches the end of the address space. -/
def topEnv : BuildEnv where
  open_ e _ := some [("file".toList, e)]
  file _ _ := some (.el [] [.el [(Attr.id.name, "RAM".toList), (Attr.address.name, "0xFFFFFF00".toList), (Attr.mode.name, "block".toList),
    (Attr.size.name, "0x100".toList)] []])
  known _ := false
  sort := stableSort (fun n => n.d.addr.toNat)

/-- **C58** is violated for a block at the end of the address space, which the builder accepts: its addresses match no node. -/
theorem C58_violated_top :
    ((getNodeTree topEnv true 2 "f".toList [] []).tree?).map (fun n => (n.sub? [0]).map fun v => (v.d.mode, v.d.addr.toNat, v.d.size.toNat)) =
      some (some (.incremental, 0xFFFFFF00, 0x100)) ∧
    ((getNodeTree topEnv true 2 "f".toList [] []).tree?).map (fun n => n.describe 0xFFFFFF10#32 5) =
      some (some "no matching nodes".toList) := by
  decide +kernel

/-- One file: a register with two fields, directly under the root. -/
def rootEnv : BuildEnv where
  open_ e _ := some [("file".toList, e)]
  file _ _ := some (.el [] [.el [(Attr.id.name, "A".toList), (Attr.mask.name, "0x1".toList)] [],
    .el [(Attr.id.name, "B".toList), (Attr.mask.name, "0x2".toList)] []])
  known _ := false
  sort := stableSort (fun n => n.d.addr.toNat)

/-- **C58** is violated when the root is itself a register: the builder makes it one when all its children have masks. The
description of its address is an exception instead of a text. -/
theorem C58_violated_root :
    ((getNodeTree rootEnv true 2 "f".toList [] []).tree?).map (fun n => (n.matching 0#32, n.describe 0#32 5)) =
      some ([[], [0], [1]], none) := by
  decide +kernel

/-! ### Examples -/

/-- A register with two fields below a module, and a block. -/
def descTree : Node :=
  mk { mode := .hierarchical } [
    mk { uid := "M".toList, addr := 0x100#32, mode := .hierarchical } [
      mk { uid := "R".toList, addr := 0x100#32, mode := .single } [
        mk { uid := "A".toList, addr := 0x100#32, mask := 1#32, mode := .single } [],
        mk { uid := "B".toList, addr := 0x100#32, mask := 2#32, mode := .single } []],
      mk { uid := "S".toList, addr := 0x100#32, mode := .single } []],
    mk { uid := "RAM".toList, addr := 0x200#32, mode := .incremental, size := 16#32 } [],
    mk { uid := "WIN".toList, addr := 0x208#32, mode := .incremental, size := 4#32 } []]

theorem descTree_ids : GoodIds descTree := by
  refine .mk (by decide) ?_
  intro k hk
  simp only [List.mem_cons, List.not_mem_nil, or_false] at hk
  rcases hk with rfl | rfl | rfl
  · refine .mk (by decide) ?_
    intro k hk
    simp only [List.mem_cons, List.not_mem_nil, or_false] at hk
    rcases hk with rfl | rfl
    · refine .mk (by decide) ?_
      intro k hk
      simp only [List.mem_cons, List.not_mem_nil, or_false] at hk
      rcases hk with rfl | rfl <;> exact .mk (by decide) (by simp)
    · exact .mk (by decide) (by simp)
  · exact .mk (by decide) (by simp)
  · exact .mk (by decide) (by simp)

/-- Non-vacuity of `C58_text_partial`: all four kinds of text. -/
example : descTree.describe 0x100#32 5 = some "nodes \"R\", \"R.A\", \"R.B\", \"S\" under \"M\"".toList ∧
    descTree.describe 0x100#32 3 = some "4 nodes under \"M\" match".toList ∧
    descTree.describe 0x209#32 5 = some "nodes \"RAM\", \"WIN\"".toList ∧
    descTree.describe 0x209#32 1 = some "2 nodes match".toList ∧
    descTree.describe 0x20F#32 5 = some "node \"RAM\"".toList ∧
    descTree.describe 0x210#32 5 = some "no matching nodes".toList ∧
    [] ∉ descTree.matching 0x100#32 ∧ 2 ≤ (descTree.matching 0x100#32).length := by
  decide +kernel

/-- Non-vacuity of `C58_matching_partial`. -/
example : (∀ p v, descTree.sub? p = some v → v.d.Inside) ∧ descTree.matching 0x209#32 = [[1], [2]] := by
  refine ⟨?_, by decide +kernel⟩
  intro p v h
  by_cases hp : p = []
  · subst hp; rw [sub?_nil] at h; cases h; intro h'; exact absurd h' (by decide)
  · have hm := (mem_positions descTree p).2 ⟨hp, v, h⟩
    have hall : ∀ p ∈ positions descTree, ((descTree.sub? p).all fun v => decide (v.d.addr.toNat + v.d.size.toNat < 2 ^ 32)) = true := by
      decide +kernel
    have := hall p hm
    rw [h] at this
    intro _
    simpa using this

end Verif
