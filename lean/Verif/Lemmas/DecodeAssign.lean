import Verif.Lemmas.Decode
/-!
# Widths, and the checks of the address decoder generator
-/

set_option autoImplicit false
set_option linter.unusedSimpArgs false

namespace Verif
namespace GNode

variable {clog : Nat → Nat}

theorem assign_eq (g : GNode) : assign clog g = (assignL clog g.desc).bind fun ks => finish clog (.mk g.name g.addr g.flag g.size g.width (stableSort addr ks)) := by
  cases g; rw [assign]; rfl

theorem assignIn_eq (g : GNode) : assignIn clog g = (assignL clog g.desc).map fun ks => .mk g.name g.addr g.flag g.size g.width ks := by
  cases g; rw [assignIn]; rfl

/-- What `_assign_width` leaves behind. -/
theorem assign_some {g g' : GNode} (h : assign clog g = some g') : ∃ ks w, assignL clog g.desc = some ks ∧
    g' = .mk g.name g.addr g.flag g.size (some w) (stableSort addr ks) ∧
    widthOf clog (.mk g.name g.addr g.flag g.size g.width (stableSort addr ks)) = some w ∧ g.addr % 2 ^ w = 0 := by
  rw [assign_eq] at h
  cases hl : assignL clog g.desc with
  | none => rw [hl] at h; cases h
  | some ks =>
    rw [hl] at h
    simp only [Option.bind_some, finish] at h
    cases hw : widthOf clog (.mk g.name g.addr g.flag g.size g.width (stableSort addr ks)) with
    | none => rw [hw] at h; cases h
    | some w =>
      rw [hw] at h
      dsimp only at h
      split at h
      · cases h
      · rename_i ha
        cases h
        exact ⟨ks, w, rfl, rfl, hw, Decidable.not_not.1 ha⟩

theorem assignL_some {l l' : List GNode} (h : assignL clog l = some l') :
    l.map (fun k => if k.flag then assign clog k else assignIn clog k) = l'.map some := by
  induction l generalizing l' with
  | nil => rw [assignL] at h; cases h; rfl
  | cons k ks ih =>
    rw [assignL] at h
    cases hk : (if k.flag then assign clog k else assignIn clog k) with
    | none => rw [hk] at h; cases h
    | some k' =>
      rw [hk] at h
      cases hm : assignL clog ks with
      | none => rw [hm] at h; cases h
      | some ks' => rw [hm] at h; cases h; simp only [List.map_cons, ih hm, hk]

theorem assign_flag {g g' : GNode} (h : assign clog g = some g') : g'.flag = g.flag ∧ g'.name = g.name ∧ g'.addr = g.addr ∧ g'.size = g.size := by
  obtain ⟨ks, w, _, rfl, _, _⟩ := assign_some h
  exact ⟨rfl, rfl, rfl, rfl⟩

theorem assignIn_flag {g g' : GNode} (h : assignIn clog g = some g') : g'.flag = g.flag ∧ g'.name = g.name ∧ g'.addr = g.addr ∧ g'.size = g.size := by
  rw [assignIn_eq, Option.map_eq_some_iff] at h
  obtain ⟨ks, _, rfl⟩ := h
  exact ⟨rfl, rfl, rfl, rfl⟩

/-- The endpoints after the assignment are those before it, each with its width. -/
theorem assignL_flagged {l l' : List GNode} (h : assignL clog l = some l') : (flaggedL l).map (assign clog) = (flaggedL l').map some := by
  have list : ∀ l : List GNode, (∀ k ∈ l, ∀ g', assignIn clog k = some g' → (flagged k).map (assign clog) = (flagged g').map some) →
      ∀ l', assignL clog l = some l' → (flaggedL l).map (assign clog) = (flaggedL l').map some := by
    intro l
    induction l with
    | nil => intro _ l' h; rw [assignL] at h; cases h; rfl
    | cons k ks ih =>
      intro hP l' h
      have hm := assignL_some h
      cases l' with
      | nil => simp at hm
      | cons k' ks' =>
        simp only [List.map_cons, List.cons.injEq] at hm
        have hks : assignL clog ks = some ks' := by
          rw [assignL] at h
          cases hk : (if k.flag then assign clog k else assignIn clog k) with
          | none => rw [hk] at h; cases h
          | some k' =>
            rw [hk] at h
            cases hm : assignL clog ks with
            | none => rw [hm] at h; cases h
            | some ks' => rw [hm] at h; cases h; rfl
        rw [flaggedL, flaggedL, List.map_append, List.map_append, ih (fun k hk => hP k (by simp [hk])) ks' hks]
        congr 1
        cases hf : k.flag with
        | true =>
          have h1 := hm.1
          rw [hf] at h1; simp only [if_true] at h1
          have := (assign_flag h1).1
          rw [this, hf]; simp [h1]
        | false =>
          have h1 := hm.1
          rw [hf] at h1; simp only [Bool.false_eq_true, if_false] at h1
          have := (assignIn_flag h1).1
          rw [this, hf]
          simp only [Bool.false_eq_true, if_false]
          exact hP k (by simp) k' h1
  have key : ∀ k : GNode, ∀ g', assignIn clog k = some g' → (flagged k).map (assign clog) = (flagged g').map some := by
    intro k
    induction k using ind with
    | h nm a f s w desc ih =>
      intro g' hg
      rw [assignIn_eq, Option.map_eq_some_iff] at hg
      obtain ⟨ks, h1, rfl⟩ := hg
      rw [flagged_eq, flagged_eq]
      exact list _ ih ks h1
  exact list l (fun k _ => key k) l' h

/-- Without endpoints nothing changes. -/
theorem assignL_plain {l : List GNode} (h : flaggedL l = []) : assignL clog l = some l := by
  have list : ∀ l : List GNode, (∀ k ∈ l, flagged k = [] → assignIn clog k = some k) → flaggedL l = [] → assignL clog l = some l := by
    intro l
    induction l with
    | nil => intro _ _; rfl
    | cons k ks ih =>
      intro hP h
      rw [flaggedL, List.append_eq_nil_iff] at h
      obtain ⟨h1, h2⟩ := h
      cases hf : k.flag with
      | true => rw [hf] at h1; simp at h1
      | false =>
        rw [hf] at h1
        simp only [Bool.false_eq_true, if_false] at h1
        rw [assignL, hf]
        simp only [Bool.false_eq_true, if_false]
        rw [hP k (by simp) h1, ih (fun k hk => hP k (by simp [hk])) h2]
        rfl
  have key : ∀ k : GNode, flagged k = [] → assignIn clog k = some k := by
    intro k
    induction k using ind with
    | h nm a f s w desc ih =>
      intro h
      rw [flagged_eq] at h
      rw [assignIn_eq, desc_mk, list _ ih h]
      rfl
  exact list l (fun k _ => key k) h

/-- The leaves outside endpoints stay the same. -/
theorem assignL_leaves {l l' : List GNode} (h : assignL clog l = some l') :
    (getLeavesL l).map (fun g => (g.name, g.addr, g.size)) = (getLeavesL l').map (fun g => (g.name, g.addr, g.size)) := by
  have list : ∀ l : List GNode, (∀ k ∈ l, ∀ g', assignIn clog k = some g' →
        (getLeaves k).map (fun g => (g.name, g.addr, g.size)) = (getLeaves g').map (fun g => (g.name, g.addr, g.size)) ∧ (k.desc = [] ↔ g'.desc = [])) →
      ∀ l', assignL clog l = some l' → (getLeavesL l).map (fun g => (g.name, g.addr, g.size)) = (getLeavesL l').map (fun g => (g.name, g.addr, g.size)) := by
    intro l
    induction l with
    | nil => intro _ l' h; rw [assignL] at h; cases h; rfl
    | cons k ks ih =>
      intro hP l' h
      rw [assignL] at h
      cases hk : (if k.flag then assign clog k else assignIn clog k) with
      | none => rw [hk] at h; cases h
      | some k' =>
        rw [hk] at h
        cases hm : assignL clog ks with
        | none => rw [hm] at h; cases h
        | some ks' =>
          rw [hm] at h; cases h
          rw [getLeavesL, getLeavesL, List.map_append, List.map_append, ih (fun k hk => hP k (by simp [hk])) ks' hm]
          congr 1
          cases hf : k.flag with
          | true =>
            rw [hf] at hk; simp only [if_true] at hk
            rw [(assign_flag hk).1, hf]; simp
          | false =>
            rw [hf] at hk; simp only [Bool.false_eq_true, if_false] at hk
            obtain ⟨f1, f2, f3, f4⟩ := assignIn_flag hk
            obtain ⟨p1, p2⟩ := hP k (by simp) k' hk
            rw [f1, hf]
            simp only [Bool.false_eq_true, if_false]
            cases hd : k.desc with
            | nil => rw [p2.1 hd]; simp [f2, f3, f4]
            | cons x xs =>
              cases hd' : k'.desc with
              | nil => rw [p2.2 hd'] at hd; cases hd
              | cons y ys => simpa using p1
  have key : ∀ k : GNode, ∀ g', assignIn clog k = some g' →
      (getLeaves k).map (fun g => (g.name, g.addr, g.size)) = (getLeaves g').map (fun g => (g.name, g.addr, g.size)) ∧ (k.desc = [] ↔ g'.desc = []) := by
    intro k
    induction k using ind with
    | h nm a f s w desc ih =>
      intro g' hg
      rw [assignIn_eq, Option.map_eq_some_iff] at hg
      obtain ⟨ks, h1, rfl⟩ := hg
      rw [getLeaves_eq, getLeaves_eq]
      refine ⟨list _ ih ks h1, ?_⟩
      have := congrArg List.length (assignL_some h1)
      simp only [List.length_map, desc_mk] at this
      simp only [desc_mk]
      rw [← List.length_eq_zero_iff, ← List.length_eq_zero_iff, this]
  exact list l (fun k _ => key k) l' h

end GNode

namespace Decoder

theorem clashes_false {l : List GNode} (h : clashes l = false) : ∀ (i j : Nat) (a b : GNode), l[i]? = some a → l[j]? = some b → i ≠ j → clash a b = false := by
  induction l with
  | nil => intro i j a b ha; simp at ha
  | cons x l ih =>
    rw [clashes, Bool.or_eq_false_iff] at h
    obtain ⟨h1, h2⟩ := h
    rw [List.any_eq_false] at h1
    intro i j a b ha hb hij
    cases i with
    | zero =>
      cases j with
      | zero => exact absurd rfl hij
      | succ j =>
        simp only [List.getElem?_cons_zero, Option.some.injEq, List.getElem?_cons_succ] at ha hb
        subst ha
        have := h1 b (List.mem_of_getElem? hb)
        simp at this; exact this.1
    | succ i =>
      cases j with
      | zero =>
        simp only [List.getElem?_cons_zero, Option.some.injEq, List.getElem?_cons_succ] at ha hb
        subst hb
        have := h1 a (List.mem_of_getElem? ha)
        simp at this; exact this.2
      | succ j => exact ih h2 i j a b (by simpa using ha) (by simpa using hb) (by omega)

/-- The slave of an endpoint. -/
theorem slaveOf_some {g : GNode} {s : Slave} (h : slaveOf g = some s) :
    s.id = g.name ∧ s.base.toNat = g.addr ∧ s.width = g.width.getD 0 ∧ s.width ≤ 32 ∧ g.addr % 2 ^ s.width = 0 := by
  unfold slaveOf at h
  dsimp only at h
  split at h
  · rename_i hlt
    obtain ⟨l1, l2⟩ := hlt
    split at h
    · cases h
    · rename_i ha
      cases h
      simp only [ne_eq, Decidable.not_not] at ha
      have hb : (BitVec.ofNat 32 g.addr).toNat = g.addr := by rw [BitVec.toNat_ofNat]; omega
      refine ⟨rfl, hb, rfl, ?_, ?_⟩
      · refine Classical.byContradiction fun hc => ?_
        have : 2 ^ 33 ≤ 2 ^ g.width.getD 0 := Nat.pow_le_pow_right (by omega) (by simp only [] at hc; omega)
        omega
      · have := congrArg BitVec.toNat ha
        rw [BitVec.toNat_and, hb, BitVec.toNat_ofNat, Nat.mod_eq_of_lt (by omega), Nat.and_two_pow_sub_one_eq_mod] at this
        simpa using this
  · cases h

/-- What is known when the file is written. -/
theorem ofTree_some {t : GNode} {d : Decoder} (h : ofTree t = some d) :
    (GNode.flagged t).map slaveOf = d.slaves.map some ∧ Good d.slaves ∧
    d.consts = d.slaves.mapIdx (fun i s => (constName s.id, i)) ∧
    d.rules = (if d.slaves.length < 2 then [] else d.slaves.map fun s => pattern (addrMask d.slaves &&& hiMask s.width) s.base) ∧
    d.selWidth = (if d.slaves.length = 0 then 1 else d.slaves.length.log2 + 1) := by
  unfold ofTree at h
  dsimp only at h
  cases hc : clashes (GNode.flagged t) with
  | true => rw [hc] at h; simp at h
  | false =>
    rw [hc] at h
    simp only [Bool.false_eq_true, if_false, Option.map_eq_some_iff] at h
    obtain ⟨ss, hss, rfl⟩ := h
    rw [mapAll_some] at hss
    refine ⟨hss, ⟨?_, ?_⟩, rfl, rfl, rfl⟩
    · intro s hs
      have : some s ∈ (GNode.flagged t).map slaveOf := by rw [hss]; exact List.mem_map_of_mem hs
      obtain ⟨g, _, hg⟩ := List.mem_map.1 this
      obtain ⟨_, h2, h3, _, h5⟩ := slaveOf_some hg
      rw [h2]; exact h5
    · intro i j s t' hi hj hij hh
      have look : ∀ (i : Nat) (s : Slave), ss[i]? = some s → ∃ g, (GNode.flagged t)[i]? = some g ∧ slaveOf g = some s := by
        intro i s hi
        have : ((GNode.flagged t).map slaveOf)[i]? = some (some s) := by rw [hss, List.getElem?_map, hi]; rfl
        rw [List.getElem?_map, Option.map_eq_some_iff] at this
        exact this
      obtain ⟨a, ha, ha'⟩ := look i s hi
      obtain ⟨b, hb, hb'⟩ := look j t' hj
      obtain ⟨_, a2, a3, _, _⟩ := slaveOf_some ha'
      obtain ⟨_, b2, _, _, _⟩ := slaveOf_some hb'
      have := clashes_false hc i j a b ha hb hij
      unfold clash at this
      simp only [decide_eq_false_iff_not] at this
      apply this
      obtain ⟨h1, h2⟩ := hh
      rw [a2, b2] at h1
      rw [a2, b2, a3] at h2
      exact ⟨h1, by omega⟩

theorem selWidth_fits {t : GNode} {d : Decoder} (h : ofTree t = some d) : d.slaves.length < 2 ^ d.selWidth := by
  obtain ⟨_, _, _, _, hw⟩ := ofTree_some h
  rw [hw]
  by_cases h0 : d.slaves.length = 0
  · rw [if_pos h0, h0]; decide
  · rw [if_neg h0]; exact Nat.lt_log2_self

/-- The decoder selects slave `j` for the addresses of slave `j`. -/
theorem sel_range {t : GNode} {d : Decoder} (h : ofTree t = some d) {j : Nat} {s : Slave} (hj : d.slaves[j]? = some s) {a : W} (ha : s.has a) :
    d.sel a = j := by
  obtain ⟨_, hg, _, hr, _⟩ := ofTree_some h
  have hf := selWidth_fits h
  have hlt : j < d.slaves.length := (List.getElem?_eq_some_iff.1 hj).1
  unfold sel
  by_cases h2 : d.slaves.length < 2
  · rw [if_pos h2, Nat.zero_mod]; omega
  · rw [if_neg h2, hr, if_neg h2, findIdx_rule hg hj ha]
    show j % 2 ^ d.selWidth = j
    exact Nat.mod_eq_of_lt (by omega)

end Decoder
end Verif
