import Verif.Props.C33
/-!
# C36: the report of address overlaps
-/

set_option autoImplicit false

namespace Verif
open Node

namespace Spec

/-- The addresses that a node stands for: none for a branch of the tree, the declared block for incremental nodes,
one register for the others. -/
def Uses (d : NodeData) (a : Nat) : Prop :=
  match d.mode with
  | .hierarchical => False
  | .incremental => d.addr.toNat ≤ a ∧ a < d.addr.toNat + d.size.toNat
  | .single => a = d.addr.toNat
  | .nonIncremental => a = d.addr.toNat

/-- `q` is the position of a child of `p`. -/
def Child (p q : List Nat) : Prop := ∃ i, q = p ++ [i]

/-- Two registers whose masks have no bit in common, or a register and a bit-field (child) of it. -/
def Harmless (p q : List Nat) (a b : NodeData) : Prop :=
  a.mode = .single ∧ b.mode = .single ∧
    ((∀ i, ¬ (a.mask.getLsbD i = true ∧ b.mask.getLsbD i = true)) ∨ (a.mask = 0xFFFFFFFF#32 ∧ Child p q) ∨
      (b.mask = 0xFFFFFFFF#32 ∧ Child q p))

/-- Two nodes that the report should list. -/
def Clash (p q : List Nat) (a b : NodeData) : Prop := (∃ x, Uses a x ∧ Uses b x) ∧ ¬ Harmless p q a b

end Spec
open Spec

theorem and_eq_zero_bits (a b : W) : a &&& b = 0#32 ↔ ∀ i, ¬ (a.getLsbD i = true ∧ b.getLsbD i = true) := by
  constructor
  · intro h i ⟨h1, h2⟩
    have := congrArg (fun x => BitVec.getLsbD x i) h
    simp [BitVec.getLsbD_and, h1, h2] at this
  · intro h
    apply BitVec.eq_of_getLsbD_eq
    intro i hi
    rw [BitVec.getLsbD_and, BitVec.getLsbD_zero]
    have := h i
    cases ha : a.getLsbD i <;> cases hb : b.getLsbD i <;> simp_all

theorem isChildPos_iff (p q : List Nat) : isChildPos q p = true ↔ Child p q := by
  unfold isChildPos Child
  constructor
  · intro h
    split at h
    · cases h
    · rename_i hq
      rw [decide_eq_true_eq] at h
      refine ⟨q.getLast hq, ?_⟩
      rw [← h]; exact (List.dropLast_concat_getLast hq).symm
  · rintro ⟨i, rfl⟩
    cases p with
    | nil => simp
    | cons x xs =>
      simp only [List.cons_append]
      rw [decide_eq_true_eq, ← List.cons_append, List.dropLast_concat]

theorem overlapPair_iff (x y : List Nat × NodeData) :
    overlapPair x y = true ↔ y.2.mode ≠ .hierarchical ∧ ¬ Harmless x.1 y.1 x.2 y.2 := by
  unfold overlapPair Harmless
  by_cases h1 : y.2.mode = .hierarchical
  · simp [h1]
  · rw [if_neg h1]
    by_cases h2 : x.2.mode ≠ .single ∨ y.2.mode ≠ .single
    · rw [if_pos h2]
      simp only [true_iff]
      refine ⟨h1, ?_⟩
      rintro ⟨a, b, _⟩
      rcases h2 with h2 | h2
      · exact h2 a
      · exact h2 b
    · rw [if_neg h2]
      simp only [ne_eq, not_or, Decidable.not_not] at h2
      by_cases h3 : ∀ i, ¬ (x.2.mask.getLsbD i = true ∧ y.2.mask.getLsbD i = true)
      · rw [if_neg (fun h => h ((and_eq_zero_bits _ _).2 h3))]
        simp only [Bool.false_eq_true, false_iff]
        intro ⟨_, hh⟩; exact hh ⟨h2.1, h2.2, .inl h3⟩
      · rw [if_pos (fun h => h3 ((and_eq_zero_bits _ _).1 h))]
        by_cases h4 : x.2.mask = 0xFFFFFFFF#32 ∧ Child x.1 y.1
        · rw [if_pos ⟨h4.1, (isChildPos_iff _ _).2 h4.2⟩]
          simp only [Bool.false_eq_true, false_iff]
          intro ⟨_, hh⟩; exact hh ⟨h2.1, h2.2, .inr (.inl h4)⟩
        · rw [if_neg (fun h => h4 ⟨h.1, (isChildPos_iff _ _).1 h.2⟩)]
          by_cases h5 : y.2.mask = 0xFFFFFFFF#32 ∧ Child y.1 x.1
          · rw [if_pos ⟨h5.1, (isChildPos_iff _ _).2 h5.2⟩]
            simp only [Bool.false_eq_true, false_iff]
            intro ⟨_, hh⟩; exact hh ⟨h2.1, h2.2, .inr (.inr h5)⟩
          · rw [if_neg (fun h => h5 ⟨h.1, (isChildPos_iff _ _).1 h.2⟩)]
            simp only [true_iff]
            refine ⟨h1, ?_⟩
            rintro ⟨_, _, h | h | h⟩
            · exact h3 h
            · exact h4 h
            · exact h5 h

/-- The declared range is not empty and does not pass the end of the address space. -/
def NodeData.RangeOK (d : NodeData) : Prop :=
  d.mode = .incremental → 1 ≤ d.size.toNat ∧ d.addr.toNat + d.size.toNat ≤ 2 ^ 32

instance (d : NodeData) : Decidable d.RangeOK := by unfold NodeData.RangeOK; infer_instance

theorem maxAddr_toNat {d : NodeData} (h : d.RangeOK) : d.maxAddr.toNat =
    if d.mode = .incremental then d.addr.toNat + d.size.toNat - 1 else d.addr.toNat := by
  unfold NodeData.maxAddr
  by_cases hm : d.mode = .incremental
  · rw [if_pos hm, if_pos hm]
    obtain ⟨h1, h2⟩ := h hm
    rw [BitVec.toNat_sub, BitVec.toNat_add]
    simp only [BitVec.toNat_ofNat]
    by_cases e : d.addr.toNat + d.size.toNat = 2 ^ 32
    · rw [e]
    · rw [Nat.mod_eq_of_lt (a := d.addr.toNat + d.size.toNat) (by omega)]; omega
  · rw [if_neg hm, if_neg hm]

/-- For nodes in order of address, the test of the loops is the intersection of the ranges. -/
theorem uses_iff {a b : NodeData} (ha : a.RangeOK) (hb : b.RangeOK) (hle : a.addr.toNat ≤ b.addr.toNat) :
    (∃ x, Uses a x ∧ Uses b x) ↔ a.mode ≠ .hierarchical ∧ b.mode ≠ .hierarchical ∧ b.addr.toNat ≤ a.maxAddr.toNat := by
  rw [maxAddr_toNat ha]
  unfold NodeData.RangeOK at ha hb
  unfold Uses
  constructor
  · rintro ⟨x, h1, h2⟩
    cases hma : a.mode <;> cases hmb : b.mode <;> simp [hma, hmb] at ha hb h1 h2 ⊢ <;> omega
  · rintro ⟨h1, h2, h3⟩
    refine ⟨b.addr.toNat, ?_, ?_⟩
    · cases hma : a.mode <;> simp [hma] at ha h1 h3 ⊢ <;> omega
    · cases hmb : b.mode <;> simp [hmb] at hb h2 ⊢ <;> omega

theorem Spec.Harmless.symm {p q : List Nat} {a b : NodeData} (h : Harmless p q a b) : Harmless q p b a := by
  obtain ⟨h1, h2, h | h | h⟩ := h
  · exact ⟨h2, h1, .inl (fun i hi => h i ⟨hi.2, hi.1⟩)⟩
  · exact ⟨h2, h1, .inr (.inr h)⟩
  · exact ⟨h2, h1, .inr (.inl h)⟩

theorem Spec.Clash.symm {p q : List Nat} {a b : NodeData} (h : Clash p q a b) : Clash q p b a := by
  obtain ⟨⟨x, h1, h2⟩, h3⟩ := h
  exact ⟨⟨x, h2, h1⟩, fun hh => h3 hh.symm⟩

/-- The nodes of the list are in order of address. -/
abbrev AddrLe (a b : List Nat × NodeData) : Prop := a.2.addr.toNat ≤ b.2.addr.toNat

theorem takeWhile_sorted (m : Nat) (l : List (List Nat × NodeData)) (h : l.Pairwise AddrLe) :
    l.takeWhile (fun n => decide (n.2.addr.toNat ≤ m)) = l.filter (fun n => decide (n.2.addr.toNat ≤ m)) := by
  induction l with
  | nil => rfl
  | cons x xs ih =>
    rw [List.pairwise_cons] at h
    rw [List.takeWhile_cons, List.filter_cons]
    split
    · rw [ih h.2]
    · rename_i hx
      symm
      rw [List.filter_eq_nil_iff]
      intro y hy
      have := h.1 y hy
      simp only [decide_eq_true_eq, Nat.not_le] at hx ⊢
      exact Nat.lt_of_lt_of_le hx this

/-- What the loops report, for a sorted list: the clashing pairs, in the order of the list. -/
theorem mem_overlapScan (l : List (List Nat × NodeData)) (hs : l.Pairwise AddrLe) (hr : ∀ x ∈ l, x.2.RangeOK)
    (x y : List Nat × NodeData) :
    (x, y) ∈ overlapScan l ↔ [x, y].Sublist l ∧ Clash x.1 y.1 x.2 y.2 := by
  induction l with
  | nil => simp [overlapScan]
  | cons n rest ih =>
    rw [List.pairwise_cons] at hs
    rw [overlapScan, List.mem_append, ih hs.2 (fun z hz => hr z (by simp [hz]))]
    have hhead : (x, y) ∈ (if n.2.mode = .hierarchical then []
        else ((rest.takeWhile fun n2 => decide (n2.2.addr.toNat ≤ n.2.maxAddr.toNat)).filter (overlapPair n)).map fun n2 => (n, n2)) ↔
        x = n ∧ y ∈ rest ∧ Clash x.1 y.1 x.2 y.2 := by
      rw [takeWhile_sorted _ _ hs.2]
      by_cases hh : n.2.mode = .hierarchical
      · rw [if_pos hh]
        simp only [List.not_mem_nil, false_iff]
        rintro ⟨rfl, hy, ⟨⟨z, hz, _⟩, _⟩⟩
        unfold Uses at hz; rw [hh] at hz; exact hz
      · rw [if_neg hh]
        simp only [List.mem_map, List.mem_filter, Prod.mk.injEq, decide_eq_true_eq, overlapPair_iff]
        constructor
        · rintro ⟨z, ⟨⟨h1, h2⟩, h3, h4⟩, rfl, rfl⟩
          exact ⟨rfl, h1, (uses_iff (hr _ (by simp)) (hr _ (by simp [h1])) (hs.1 _ h1)).2 ⟨hh, h3, h2⟩, h4⟩
        · rintro ⟨rfl, h1, h2, h3⟩
          obtain ⟨_, h5, h6⟩ := (uses_iff (hr _ (by simp)) (hr _ (by simp [h1])) (hs.1 _ h1)).1 h2
          exact ⟨y, ⟨⟨h1, h6⟩, h5, h3⟩, rfl, rfl⟩
    rw [hhead]
    constructor
    · rintro (⟨rfl, h1, h2⟩ | ⟨h1, h2⟩)
      · exact ⟨List.Sublist.cons_cons _ (List.singleton_sublist.2 h1), h2⟩
      · exact ⟨h1.cons _, h2⟩
    · rintro ⟨h1, h2⟩
      cases h1 with
      | cons _ h => exact .inr ⟨h, h2⟩
      | cons_cons _ h => exact .inl ⟨rfl, List.singleton_sublist.1 h, h2⟩

/-- The descendants, with their positions. -/
def Node.entries (n : Node) : List (List Nat × NodeData) := (positions n).filterMap fun p => (n.sub? p).map fun v => (p, v.d)

theorem mem_entries (n : Node) (x : List Nat × NodeData) :
    x ∈ n.entries ↔ x.1 ≠ [] ∧ ∃ v, n.sub? x.1 = some v ∧ v.d = x.2 := by
  unfold entries
  simp only [List.mem_filterMap, Option.map_eq_some_iff]
  constructor
  · rintro ⟨p, hp, v, hv, rfl⟩
    exact ⟨((mem_positions n p).1 hp).1, v, hv, rfl⟩
  · rintro ⟨h1, v, h2, h3⟩
    exact ⟨x.1, (mem_positions n x.1).2 ⟨h1, v, h2⟩, v, h2, by rw [h3]⟩

theorem entries_nodup (n : Node) : (n.entries.map Prod.fst).Nodup := by
  have : n.entries.map Prod.fst = positions n := by
    unfold entries
    rw [List.map_filterMap]
    have : ∀ l : List (List Nat), (∀ p ∈ l, ∃ v, n.sub? p = some v) →
        l.filterMap (fun p => Option.map Prod.fst (Option.map (fun v => (p, v.d)) (n.sub? p))) = l := by
      intro l
      induction l with
      | nil => intro _; rfl
      | cons p ps ih =>
        intro h
        obtain ⟨v, hv⟩ := h p (by simp)
        rw [List.filterMap_cons, hv]
        simp only [Option.map_some]
        rw [ih (fun q hq => h q (by simp [hq]))]
    exact this _ (fun p hp => ((mem_positions n p).1 hp).2)
  rw [this]
  exact (C33_list n).2.2.1

theorem two_sublist_or {α : Type} {x y : α} {l : List α} (hx : x ∈ l) (hy : y ∈ l) (hne : x ≠ y) :
    [x, y].Sublist l ∨ [y, x].Sublist l := by
  induction l with
  | nil => cases hx
  | cons z zs ih =>
    rw [List.mem_cons] at hx hy
    rcases hx with rfl | hx
    · rcases hy with rfl | hy
      · exact absurd rfl hne
      · exact .inl (List.Sublist.cons_cons _ (List.singleton_sublist.2 hy))
    · rcases hy with rfl | hy
      · exact .inr (List.Sublist.cons_cons _ (List.singleton_sublist.2 hx))
      · rcases ih hx hy with h | h
        · exact .inl (h.cons _)
        · exact .inr (h.cons _)

theorem two_sublist_nodup {α : Type} {x y : α} {l : List α} (hn : l.Nodup) (h : [x, y].Sublist l) : x ≠ y ∧ ¬ [y, x].Sublist l := by
  induction l with
  | nil => cases h
  | cons z zs ih =>
    rw [List.nodup_cons] at hn
    cases h with
    | cons _ h =>
      obtain ⟨h1, h2⟩ := ih hn.2 h
      refine ⟨h1, fun hh => ?_⟩
      cases hh with
      | cons _ hh => exact h2 hh
      | cons_cons _ hh =>
        have : y ∈ zs := h.subset (by simp)
        exact hn.1 this
    | cons_cons _ h =>
      have hy := List.singleton_sublist.1 h
      refine ⟨fun e => hn.1 (e ▸ hy), fun hh => ?_⟩
      cases hh with
      | cons _ hh => exact hn.1 (hh.subset (by simp))
      | cons_cons _ hh => exact hn.1 hy

/-- **C36**, for every tree whose blocks are not empty and do not pass the end of the address space: two descendants
are reported (once, the one with the lower address first) exactly when the ranges of addresses that they stand for
intersect and they are neither masked apart nor a register and its bit-field. -/
theorem C36_report_partial (n : Node) (hr : ∀ p v, n.sub? p = some v → v.d.RangeOK) :
    (∀ x y, (x, y) ∈ n.overlaps → x ∈ n.entries ∧ y ∈ n.entries ∧ x.1 ≠ y.1 ∧ x.2.addr.toNat ≤ y.2.addr.toNat ∧
      Clash x.1 y.1 x.2 y.2 ∧ (y, x) ∉ n.overlaps) ∧
    (∀ p q v w, p ≠ [] → q ≠ [] → p ≠ q → n.sub? p = some v → n.sub? q = some w → Clash p q v.d w.d →
      ((p, v.d), (q, w.d)) ∈ n.overlaps ∨ ((q, w.d), (p, v.d)) ∈ n.overlaps) := by
  let le : List Nat × NodeData → Nat := fun e => e.2.addr.toNat
  have hperm : (stableSort le n.entries).Perm n.entries := stableSort_perm _ _
  have hsorted : (stableSort le n.entries).Pairwise AddrLe := stableSort_sorted _ _
  have hrange : ∀ x ∈ stableSort le n.entries, x.2.RangeOK := by
    intro x hx
    obtain ⟨_, v, hv, e⟩ := (mem_entries n x).1 (hperm.mem_iff.1 hx)
    rw [← e]; exact hr _ v hv
  have hmem : ∀ x y, (x, y) ∈ n.overlaps ↔ [x, y].Sublist (stableSort le n.entries) ∧ Clash x.1 y.1 x.2 y.2 :=
    fun x y => mem_overlapScan _ hsorted hrange x y
  have hnd : ((stableSort le n.entries).map Prod.fst).Nodup := (hperm.map _).nodup_iff.2 (entries_nodup n)
  have hnd' : (stableSort le n.entries).Nodup := by
    have := hnd
    unfold List.Nodup at this ⊢
    rw [List.pairwise_map] at this
    exact this.imp (fun {a b} h (e : a = b) => h (by rw [e]))
  refine ⟨?_, ?_⟩
  · intro x y h
    obtain ⟨h1, h2⟩ := (hmem x y).1 h
    have hx : x ∈ n.entries := hperm.mem_iff.1 (h1.subset (by simp))
    have hy : y ∈ n.entries := hperm.mem_iff.1 (h1.subset (by simp))
    refine ⟨hx, hy, ?_, ?_, h2, ?_⟩
    · have := two_sublist_nodup hnd (h1.map Prod.fst)
      exact this.1
    · have := hsorted.sublist h1
      simpa using this
    · intro hh
      exact (two_sublist_nodup hnd' h1).2 ((hmem y x).1 hh).1
  · intro p q v w hp hq hpq hv hw hc
    have hx : (p, v.d) ∈ n.entries := (mem_entries n _).2 ⟨hp, v, hv, rfl⟩
    have hy : (q, w.d) ∈ n.entries := (mem_entries n _).2 ⟨hq, w, hw, rfl⟩
    rcases two_sublist_or (hperm.mem_iff.2 hx) (hperm.mem_iff.2 hy) (fun e => hpq (congrArg Prod.fst e)) with h | h
    · exact .inl ((hmem _ _).2 ⟨h, hc⟩)
    · exact .inr ((hmem _ _).2 ⟨h, hc.symm⟩)

/-- **C36** is violated when a block passes the end of the address space: the block of four words from 0xFFFFFFFE and the
register 0xFFFFFFFF overlap, and nothing is reported. -/
theorem C36_violated_missing : ∃ (n : Node) (v w : Node), n.sub? [0] = some v ∧ n.sub? [1] = some w ∧ Clash [0] [1] v.d w.d ∧
    n.overlaps = [] := by
  refine ⟨mk {} [mk { uid := ['a'], addr := 0xFFFFFFFE#32, mode := .incremental, size := 4#32 } [],
    mk { uid := ['b'], addr := 0xFFFFFFFF#32, mode := .single } []], _, _, rfl, rfl, ?_, by decide +kernel⟩
  refine ⟨⟨0xFFFFFFFF, ?_, ?_⟩, ?_⟩
  · show (0xFFFFFFFE : Nat) ≤ 0xFFFFFFFF ∧ (0xFFFFFFFF : Nat) < 0xFFFFFFFE + 4; omega
  · show (0xFFFFFFFF : Nat) = 0xFFFFFFFF; rfl
  · rintro ⟨h, _⟩; cases h

/-- **C36** is violated by an empty block at address 0 (accepted by the builder: `size="0"`): it is reported to overlap
with everything. -/
theorem C36_violated_spurious : ∃ (n : Node) (v w : Node), n.sub? [0] = some v ∧ n.sub? [1] = some w ∧
    ¬ Clash [0] [1] v.d w.d ∧ (([0], v.d), ([1], w.d)) ∈ n.overlaps := by
  refine ⟨mk {} [mk { uid := ['a'], addr := 0#32, mode := .incremental, size := 0#32 } [],
    mk { uid := ['b'], addr := 0x1234#32, mode := .single } []], _, _, rfl, rfl, ?_, by decide +kernel⟩
  rintro ⟨⟨x, h, _⟩, _⟩
  have : (0 : Nat) ≤ x ∧ x < 0 + 0 := h
  omega

/-- A register with two bit-fields, a block, and a register inside the block. -/
def overlapTree : Node :=
  mk {} [mk { uid := ['a'], addr := 1#32, mode := .single } [mk { uid := ['b'], addr := 1#32, mask := 3#32, mode := .single } [],
      mk { uid := ['c'], addr := 1#32, mask := 6#32, mode := .single } []],
    mk { uid := ['d'], addr := 0x10#32, mode := .incremental, size := 8#32 } [],
    mk { uid := ['e'], addr := 0x13#32, mode := .single } []]

example : overlapTree.overlaps.map (fun x => (x.1.1, x.2.1)) = [([0, 0], [0, 1]), ([1], [2])] := by decide +kernel

example : ∀ p v, overlapTree.sub? p = some v → v.d.RangeOK := by
  intro p v hv
  by_cases hp : p = []
  · subst hp; rw [sub?_nil] at hv; cases hv; decide
  · have := (mem_positions overlapTree p).2 ⟨hp, v, hv⟩
    have e : positions overlapTree = [[0], [0, 0], [0, 1], [1], [2]] := by decide +kernel
    rw [e] at this
    simp only [List.mem_cons, List.not_mem_nil, or_false] at this
    rcases this with rfl | rfl | rfl | rfl | rfl <;> cases hv <;> decide

end Verif
