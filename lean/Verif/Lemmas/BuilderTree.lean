import Verif.Lemmas.Builder
import Verif.Lemmas.Node
/-!
# Trees and their tables
-/

set_option autoImplicit false
set_option linter.unusedSimpArgs false

namespace Verif
open Spec

mutual
/-- A node as a declaration (absolute addresses and what the table does not show left out). -/
def Node.decl : Node → Decl
  | .mk d kids => .mk d.uid d.part d.mask d.perm d.mode d.size d.info (Node.declL kids)
def Node.declL : List Node → List Decl
  | [] => []
  | k :: ks => k.decl :: Node.declL ks
end

mutual
/-- The table of a node and everything below it: the addresses, modes, ... that the nodes have. -/
def Node.table : Node → List Row
  | .mk d kids => ⟨[d.uid], d.addr, d.mode, d.mask, d.perm, d.size, d.info⟩ :: (Node.tableL kids).map (Row.under d.uid)
def Node.tableL : List Node → List Row
  | [] => []
  | k :: ks => k.table ++ Node.tableL ks
end

theorem Node.declL_eq (l : List Node) : Node.declL l = l.map Node.decl := by
  induction l with
  | nil => rfl
  | cons k ks ih => rw [Node.declL, ih]; rfl

theorem Node.tableL_eq (l : List Node) : Node.tableL l = l.flatMap Node.table := by
  induction l with
  | nil => rfl
  | cons k ks ih => rw [Node.tableL, ih]; rfl

theorem Decl.rowsL_eq (b : W) (l : List Decl) : Decl.rowsL b l = l.flatMap (Decl.rows b) := by
  induction l with
  | nil => rfl
  | cons k ks ih => rw [Decl.rowsL, ih]; rfl

theorem Decl.BlocksOKL_iff (l : List Decl) : Decl.BlocksOKL l ↔ ∀ k ∈ l, k.BlocksOK := by
  induction l with
  | nil => simp [Decl.BlocksOKL]
  | cons k ks ih => rw [Decl.BlocksOKL, ih]; simp

theorem Node.decl_mk (d : NodeData) (kids : List Node) :
    (Node.mk d kids).decl = .mk d.uid d.part d.mask d.perm d.mode d.size d.info (kids.map Node.decl) := by
  rw [Node.decl, Node.declL_eq]

theorem Node.decl_eq (n : Node) : n.decl = .mk n.d.uid n.d.part n.d.mask n.d.perm n.d.mode n.d.size n.d.info (n.kids.map Node.decl) := by
  cases n; rw [Node.decl_mk]; rfl

theorem Node.table_mk (d : NodeData) (kids : List Node) :
    (Node.mk d kids).table = ⟨[d.uid], d.addr, d.mode, d.mask, d.perm, d.size, d.info⟩ :: (kids.flatMap Node.table).map (Row.under d.uid) := by
  rw [Node.table, Node.tableL_eq]

theorem Decl.rows_mk (b : W) (u : Str) (p m : W) (pe : Permission) (mo : Mode) (z : W) (i : Info) (ks : List Decl) :
    (Decl.mk u p m pe mo z i ks).rows b = ⟨[u], b + p, finalMode mo (ks.map Decl.mask), m, pe, z, i⟩ ::
      (ks.flatMap (Decl.rows (b + p))).map (Row.under u) := by
  rw [Decl.rows, Decl.rowsL_eq]

theorem Decl.blocks_mk (u : Str) (p m : W) (pe : Permission) (mo : Mode) (z : W) (i : Info) (ks : List Decl) :
    (Decl.mk u p m pe mo z i ks).BlocksOK ↔ BlockOK mo p z ∧ ∀ k ∈ ks, k.BlocksOK := by
  rw [Decl.BlocksOK, Decl.BlocksOKL_iff]

/-! ## Trees with the same table -/

/-- What children contribute: their tables, masks and blocks, in any order. -/
structure SameKids (l k : List Decl) : Prop where
  rows : ∀ b, (l.flatMap (Decl.rows b)).Perm (k.flatMap (Decl.rows b))
  masks : (l.map Decl.mask).Perm (k.map Decl.mask)
  blocks : (∀ t ∈ l, t.BlocksOK) ↔ ∀ t ∈ k, t.BlocksOK

/-- Two declared trees with the same table: the same attributes of the outermost node (the mode up to what becomes of it)
and the same children. -/
structure LikeD (s t : Decl) : Prop where
  uid : s.uid = t.uid
  part : s.part = t.part
  mask : s.mask = t.mask
  perm : s.perm = t.perm
  size : s.size = t.size
  info : s.info = t.info
  mode : finalMode s.mode (s.kids.map Decl.mask) = finalMode t.mode (t.kids.map Decl.mask)
  kids : SameKids s.kids t.kids

theorem SameKids.refl (l : List Decl) : SameKids l l := ⟨fun _ => .refl _, .refl _, Iff.rfl⟩
theorem SameKids.trans {l k m : List Decl} (h : SameKids l k) (h' : SameKids k m) : SameKids l m :=
  ⟨fun b => (h.rows b).trans (h'.rows b), h.masks.trans h'.masks, h.blocks.trans h'.blocks⟩
theorem SameKids.symm {l k : List Decl} (h : SameKids l k) : SameKids k l := ⟨fun b => (h.rows b).symm, h.masks.symm, h.blocks.symm⟩

theorem LikeD.refl (t : Decl) : LikeD t t := ⟨rfl, rfl, rfl, rfl, rfl, rfl, rfl, .refl _⟩
theorem LikeD.trans {s t u : Decl} (h : LikeD s t) (h' : LikeD t u) : LikeD s u :=
  ⟨h.uid.trans h'.uid, h.part.trans h'.part, h.mask.trans h'.mask, h.perm.trans h'.perm, h.size.trans h'.size, h.info.trans h'.info, h.mode.trans h'.mode,
    h.kids.trans h'.kids⟩
theorem LikeD.symm {s t : Decl} (h : LikeD s t) : LikeD t s :=
  ⟨h.uid.symm, h.part.symm, h.mask.symm, h.perm.symm, h.size.symm, h.info.symm, h.mode.symm, h.kids.symm⟩

theorem finalMode_perm (m : Mode) {l k : List W} (h : l.Perm k) : finalMode m l = finalMode m k := by
  unfold finalMode
  have : (m = .hierarchical ∧ ∀ x ∈ l, x ≠ 0xFFFFFFFF#32) ↔ (m = .hierarchical ∧ ∀ x ∈ k, x ≠ 0xFFFFFFFF#32) := by
    constructor
    · rintro ⟨a, b⟩; exact ⟨a, fun x hx => b x (h.mem_iff.2 hx)⟩
    · rintro ⟨a, b⟩; exact ⟨a, fun x hx => b x (h.mem_iff.1 hx)⟩
  by_cases hh : m = .hierarchical ∧ ∀ x ∈ l, x ≠ 0xFFFFFFFF#32
  · rw [if_pos hh, if_pos (this.1 hh)]
  · rw [if_neg hh, if_neg (fun h => hh (this.2 h))]

theorem finalMode_idem (m : Mode) (l : List W) : finalMode (finalMode m l) l = finalMode m l := by
  unfold finalMode
  by_cases h : m = .hierarchical ∧ ∀ x ∈ l, x ≠ 0xFFFFFFFF#32
  · rw [if_pos h]; simp
  · rw [if_neg h, if_neg h]

theorem finalMode_inc (m : Mode) (l : List W) : finalMode m l = .incremental ↔ m = .incremental := by
  unfold finalMode
  by_cases h : m = .hierarchical ∧ ∀ x ∈ l, x ≠ 0xFFFFFFFF#32
  · rw [if_pos h, h.1]; simp
  · rw [if_neg h]

theorem LikeD.rows {s t : Decl} (h : LikeD s t) (b : W) : (s.rows b).Perm (t.rows b) := by
  obtain ⟨su, sp, sm, spe, smo, sz, si, sk⟩ := s
  obtain ⟨tu, tp, tm, tpe, tmo, tz, ti, tk⟩ := t
  obtain ⟨h1, h2, h3, h4, h5, h8, h6, h7⟩ := h
  simp only [Decl.uid, Decl.part, Decl.mask, Decl.perm, Decl.size, Decl.info, Decl.mode, Decl.kids] at h1 h2 h3 h4 h5 h8 h6 h7
  subst h1 h2 h3 h4 h5 h8
  rw [Decl.rows_mk, Decl.rows_mk, h6]
  exact List.Perm.cons _ ((h7.rows _).map _)

theorem LikeD.blocks {s t : Decl} (h : LikeD s t) : s.BlocksOK ↔ t.BlocksOK := by
  obtain ⟨su, sp, sm, spe, smo, sz, si, sk⟩ := s
  obtain ⟨tu, tp, tm, tpe, tmo, tz, ti, tk⟩ := t
  obtain ⟨h1, h2, h3, h4, h5, h8, h6, h7⟩ := h
  simp only [Decl.uid, Decl.part, Decl.mask, Decl.perm, Decl.size, Decl.info, Decl.mode, Decl.kids] at h1 h2 h3 h4 h5 h8 h6 h7
  subst h1 h2 h3 h4 h5 h8
  rw [Decl.blocks_mk, Decl.blocks_mk, h7.blocks]
  have : smo = .incremental ↔ tmo = .incremental := by
    rw [← finalMode_inc smo (sk.map Decl.mask), h6, finalMode_inc]
  unfold BlockOK
  rw [this]

theorem SameKids.cons {s t : Decl} {l k : List Decl} (h : LikeD s t) (h' : SameKids l k) : SameKids (s :: l) (t :: k) := by
  refine ⟨fun b => ?_, ?_, ?_⟩
  · rw [List.flatMap_cons, List.flatMap_cons]; exact (h.rows b).append (h'.rows b)
  · rw [List.map_cons, List.map_cons, h.mask]; exact List.Perm.cons _ h'.masks
  · simp only [List.forall_mem_cons, h.blocks, h'.blocks]

theorem SameKids.of_perm {l k : List Decl} (h : l.Perm k) : SameKids l k :=
  ⟨fun _ => h.flatMap_right _, h.map _, ⟨fun hh t ht => hh t (h.mem_iff.2 ht), fun hh t ht => hh t (h.mem_iff.1 ht)⟩⟩

/-- Put another head on the same children. -/
theorem LikeD.head {s t : Decl} (h : LikeD s t) (u : Str) (p : W) (i : Info) :
    LikeD (.mk u p s.mask s.perm s.mode s.size i s.kids) (.mk u p t.mask t.perm t.mode t.size i t.kids) :=
  ⟨rfl, rfl, h.mask, h.perm, h.size, rfl, h.mode, h.kids⟩

theorem LikeD.of_kids {u : Str} {p m : W} {pe : Permission} {mo : Mode} {z : W} {i : Info} {l k : List Decl} (h : SameKids l k) :
    LikeD (.mk u p m pe mo z i l) (.mk u p m pe mo z i k) :=
  ⟨rfl, rfl, rfl, rfl, rfl, rfl, finalMode_perm _ h.masks, h⟩

/-! ## Copies, classes, the children map -/

theorem Node.decl_core {d d' : NodeData} (h : d.core = d'.core) (hi : d.info = d'.info) (k : List Node) : (Node.mk d k).decl = (Node.mk d' k).decl := by
  simp only [NodeData.core, Prod.mk.injEq] at h
  obtain ⟨h1, h2, h3, h4, h5, h6⟩ := h
  rw [Node.decl_mk, Node.decl_mk, h1, h2, h3, h4, h5, h6, hi]

theorem cloneKids_map {β : Type} (f : Node → β) (hf : ∀ (d : NodeData) (r : Nat) (k : List Node), f (.mk { d with rank := r } k) = f (.mk d k))
    (l : List Node) (i : Nat) : (Node.cloneKids l i).map f = (l.map Node.clone).map f := by
  induction l generalizing i with
  | nil => rfl
  | cons k ks ih =>
    rw [Node.cloneKids, List.map_cons, List.map_cons, List.map_cons, ih, hf]
    rw [Node.eta]

theorem Node.decl_clone (n : Node) : n.clone.decl = n.decl := by
  induction n using Node.ind with
  | h d kids ih =>
    rw [Node.decl_eq, Node.clone_d, Node.clone_kids, Node.decl_mk]
    simp only [Node.d_mk, Node.kids_mk]
    rw [cloneKids_map Node.decl (fun d r k => Node.decl_core rfl rfl k), List.map_map]
    congr 1
    exact List.map_congr_left ih

theorem Node.table_clone (n : Node) : n.clone.table = n.table := by
  induction n using Node.ind with
  | h d kids ih =>
    rw [← Node.eta (Node.clone _), Node.table_mk, Node.clone_d, Node.clone_kids, Node.table_mk]
    simp only [Node.d_mk, Node.kids_mk]
    rw [List.flatMap_def, List.flatMap_def,
      cloneKids_map Node.table (fun d r k => by rw [Node.table_mk, Node.table_mk]; rfl), List.map_map]
    congr 3
    exact List.map_congr_left ih

theorem withClass_decl (env : BuildEnv) (n : Node) : (withClass env n).decl = n.decl := by
  unfold withClass; split
  · exact (Node.decl_core (d' := n.clone.d) rfl rfl n.clone.kids).trans (by rw [Node.eta]; exact Node.decl_clone n)
  · rfl

theorem ranked_decl (l : List Node) (i : Nat) : (ranked l i).map Node.decl = l.map Node.decl := by
  induction l generalizing i with
  | nil => rfl
  | cons k ks ih =>
    rw [ranked, List.map_cons, List.map_cons, ih]
    congr 1
    exact (Node.decl_core (d' := k.d) rfl rfl k.kids).trans (by rw [Node.eta])

/-! ## Addresses -/

/-- `std::sort` rearranges. -/
def BuildEnv.Sorts (env : BuildEnv) : Prop :=
  ∀ l, (env.sort l).Perm l ∧ (env.sort l).Pairwise (fun a b => a.d.addr.toNat ≤ b.d.addr.toNat)

theorem Node.decl_mask (n : Node) : n.decl.mask = n.d.mask := by rw [Node.decl_eq]; rfl

theorem settledMode_eq (m : Mode) (kids : List Node) : settledMode m kids = finalMode m ((kids.map Node.decl).map Decl.mask) := by
  unfold settledMode finalMode
  by_cases h : m = .hierarchical
  · rw [if_pos h]
    by_cases h2 : kids = []
    · subst h2; simp [h]
    · rw [if_neg h2]
      have : (kids.all fun k => decide (k.d.mask ≠ 0xFFFFFFFF#32)) = true ↔
          ∀ x ∈ (kids.map Node.decl).map Decl.mask, x ≠ 0xFFFFFFFF#32 := by
        simp [Node.decl_mask]
      by_cases h3 : (kids.all fun k => decide (k.d.mask ≠ 0xFFFFFFFF#32)) = true
      · rw [if_pos h3, if_pos ⟨h, this.1 h3⟩]
      · rw [if_neg h3, if_neg (fun hh => h3 (this.2 hh.2))]
  · rw [if_neg h, if_neg (fun hh => h hh.1)]

theorem blockOK_iff (m : Mode) (p z : W) :
    ¬ (m = .incremental ∧ (p.toNat + (z - 1#32).toNat) >>> 32 ≠ 0) ↔ BlockOK m p z := by
  unfold BlockOK
  rw [Nat.shiftRight_eq_div_pow]
  constructor
  · intro h hm
    have h1 : ¬ (p.toNat + (z - 1#32).toNat) / 2 ^ 32 ≠ 0 := fun h' => h ⟨hm, h'⟩
    omega
  · rintro h ⟨hm, h'⟩
    have := h hm
    omega

/-- What `calculateHierarchicalAddresses` does to a tree: it refuses it exactly if a block is too large; the table of
addresses it produces is the declared one; as a declaration the tree stays the same. -/
theorem calc_spec {env : BuildEnv} (hs : env.Sorts) (n : Node) : ∀ base,
    (∀ n', n.calc env base = .ok n' → n.decl.BlocksOK ∧ LikeD n'.decl n.decl ∧ n'.table.Perm (n.decl.rows base)) ∧
    (n.decl.BlocksOK → ∃ n', n.calc env base = .ok n') := by
  induction n using Node.ind with
  | h d kids ih =>
    intro base
    have hkids : ∀ (l : List Node), (∀ k ∈ l, ∀ base, (∀ n', k.calc env base = .ok n' → k.decl.BlocksOK ∧ LikeD n'.decl k.decl ∧
          n'.table.Perm (k.decl.rows base)) ∧ (k.decl.BlocksOK → ∃ n', k.calc env base = .ok n')) → ∀ base,
        (∀ ks, Node.calcKids env l base = .ok ks → (∀ k ∈ l, k.decl.BlocksOK) ∧
          SameKids (ks.map Node.decl) (l.map Node.decl) ∧
          (ks.flatMap Node.table).Perm ((l.map Node.decl).flatMap (Decl.rows base))) ∧
        ((∀ k ∈ l, k.decl.BlocksOK) → ∃ ks, Node.calcKids env l base = .ok ks) := by
      intro l
      induction l with
      | nil =>
        intro _ base
        refine ⟨?_, fun _ => ⟨[], by rw [Node.calcKids]⟩⟩
        intro ks h
        rw [Node.calcKids] at h
        cases h
        exact ⟨by simp, .refl _, .refl _⟩
      | cons k l ihl =>
        intro hk base
        obtain ⟨i1, i2⟩ := hk k (by simp) base
        obtain ⟨j1, j2⟩ := ihl (fun x hx => hk x (by simp [hx])) base
        refine ⟨?_, ?_⟩
        · intro ks h
          rw [Node.calcKids] at h
          cases hc : k.calc env base with
          | error e => rw [hc] at h; cases h
          | ok n' =>
            rw [hc] at h
            simp only at h
            cases hcs : Node.calcKids env l base with
            | error e => rw [hcs] at h; cases h
            | ok ns =>
              rw [hcs] at h
              cases h
              obtain ⟨a1, a2, a3⟩ := i1 n' hc
              obtain ⟨b1, b2, b3⟩ := j1 ns hcs
              refine ⟨?_, ?_, ?_⟩
              · intro x hx
                rw [List.mem_cons] at hx
                rcases hx with rfl | hx
                · exact a1
                · exact b1 x hx
              · rw [List.map_cons, List.map_cons]; exact .cons a2 b2
              · rw [List.flatMap_cons, List.map_cons, List.flatMap_cons]; exact a3.append b3
        · intro hb
          obtain ⟨n', hn⟩ := i2 (hb k (by simp))
          obtain ⟨ns, hns⟩ := j2 (fun x hx => hb x (by simp [hx]))
          exact ⟨n' :: ns, by rw [Node.calcKids, hn]; simp only; rw [hns]⟩
    obtain ⟨k1, k2⟩ := hkids kids ih (d.part + base)
    rw [Node.decl_mk, Decl.blocks_mk]
    refine ⟨?_, ?_⟩
    · intro n' h
      rw [Node.calc] at h
      split at h
      · cases h
      rename_i hb
      rw [blockOK_iff] at hb
      cases hc : Node.calcKids env kids (d.part + base) with
      | error e => rw [hc] at h; cases h
      | ok ks =>
        rw [hc] at h
        cases h
        obtain ⟨a1, a2, a3⟩ := k1 ks hc
        have hperm := (hs ks).1
        have hsame : SameKids ((env.sort ks).map Node.decl) (kids.map Node.decl) := (SameKids.of_perm (hperm.map _)).trans a2
        refine ⟨⟨?_, by simpa using a1⟩, ?_, ?_⟩
        · intro hm
          exact hb (by rw [settledMode_eq, finalMode_inc]; exact hm)
        · rw [Node.decl_mk]
          refine ⟨rfl, rfl, rfl, rfl, rfl, rfl, ?_, hsame⟩
          show finalMode (settledMode d.mode kids) _ = finalMode d.mode _
          rw [settledMode_eq]
          exact (finalMode_perm _ hsame.masks).trans (finalMode_idem _ _)
        · rw [Node.table_mk, Decl.rows_mk, settledMode_eq, BitVec.add_comm base d.part]
          exact List.Perm.cons _ (((hperm.flatMap_right _).trans a3).map _)
    · rintro ⟨hb, hks⟩
      obtain ⟨ks, hk⟩ := k2 (by simpa using hks)
      have hn : ¬ (settledMode d.mode kids = .incremental ∧ (d.part.toNat + (d.size - 1#32).toNat) >>> 32 ≠ 0) := by
        rw [blockOK_iff]
        intro hm
        refine hb ?_
        rw [settledMode_eq, finalMode_inc] at hm
        exact hm
      exact ⟨_, by rw [Node.calc, if_neg hn, hk]⟩

end Verif
