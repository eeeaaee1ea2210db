import Verif.Lemmas.DecodeTree
/-!
# A run of the decoder generator
-/

set_option autoImplicit false
set_option linter.unusedSimpArgs false

namespace Verif
namespace GNode

variable {clog : Nat → Nat}

theorem flaggedL_sublist (l : List GNode) : (flaggedL l).Sublist (getDescL l) := by
  have list : ∀ l : List GNode, (∀ k ∈ l, (flagged k).Sublist (getDesc k)) → (flaggedL l).Sublist (getDescL l) := by
    intro l
    induction l with
    | nil => intro _; exact List.Sublist.refl _
    | cons k ks ih =>
      intro h
      rw [flaggedL, getDescL]
      refine List.Sublist.append ?_ (ih fun k hk => h k (by simp [hk]))
      by_cases hf : k.flag = true
      · rw [if_pos hf]; exact List.Sublist.cons_cons _ (List.nil_sublist _)
      · rw [if_neg hf]; exact List.Sublist.cons _ (h k (by simp))
  have key : ∀ k : GNode, (flagged k).Sublist (getDesc k) := by
    intro k
    induction k using ind with
    | h nm a f s w desc ih =>
      rw [flagged_eq, getDesc_eq]
      exact list desc ih
  exact list l fun k _ => key k

/-- What is below something below is below. -/
theorem getDesc_trans {k g x : GNode} (hg : g ∈ getDesc k) (hx : x ∈ getDesc g) : x ∈ getDesc k := by
  induction k using ind with
  | h nm a f s w desc ih =>
    rw [getDesc_eq, desc_mk, mem_getDescL] at hg ⊢
    obtain ⟨k, hk, rfl | hg⟩ := hg
    · exact ⟨g, hk, .inr hx⟩
    · exact ⟨k, hk, .inr (ih k hk hg)⟩

theorem getDescL_trans {l : List GNode} {g x : GNode} (hg : g ∈ getDescL l) (hx : x ∈ getDesc g) : x ∈ getDescL l := by
  have := getDesc_trans (k := .mk [] 0 false 0 none l) (g := g) (x := x) (by rw [getDesc_eq]; exact hg) hx
  rw [getDesc_eq] at this
  exact this

/-- Induction over everything below. -/
theorem ind_desc {P : GNode → Prop} (h : ∀ g, (∀ k ∈ getDesc g, P k) → P g) : ∀ g, P g := by
  have : ∀ g : GNode, P g ∧ ∀ k ∈ getDesc g, P k := by
    intro g
    induction g using ind with
    | h nm a f s w desc ih =>
      have hd : ∀ k ∈ getDesc (mk nm a f s w desc), P k := by
        intro k hk
        rw [getDesc_eq, desc_mk, mem_getDescL] at hk
        obtain ⟨m, hm, rfl | hk⟩ := hk
        · exact (ih k hm).1
        · exact (ih m hm).2 k hk
      exact ⟨h _ hd, hd⟩
  exact fun g => (this g).1

theorem Named.of_kid {p : List Str} {l : List GNode} (h : Named p l) {g : GNode} (hg : g ∈ getDescL l) : Named g.name g.desc := by
  induction h with
  | @mk p l h1 h2 h3 ih =>
    obtain ⟨k, hk, rfl | hg⟩ := mem_getDescL.1 hg
    · exact h3 g hk
    · rw [getDesc_eq] at hg; exact ih k hk hg

/-- A name longer than that of the node above. -/
theorem Named.longer {p : List Str} {l : List GNode} (h : Named p l) {g x : GNode} (hg : g ∈ getDescL l) (hx : x ∈ getDesc g) :
    g.name <+: x.name ∧ x.name ≠ g.name := by
  rw [getDesc_eq] at hx
  obtain ⟨y, ys, e⟩ := (h.of_kid hg).under hx
  rw [e]
  exact ⟨⟨_, rfl⟩, by simp⟩

/-- The node with a name. -/
theorem Named.inj {p : List Str} {l : List GNode} (h : Named p l) {g x : GNode} (hg : g ∈ getDescL l) (hx : x ∈ getDescL l) (e : g.name = x.name) : g = x :=
  nodup_name h.nodup hg hx e

/-- Everything under an endpoint, at any depth. -/
theorem Named.inside {p : List Str} {l : List GNode} (h : Named p l) {b g : GNode} (hb : b ∈ getDescL l) (hg : g ∈ getDescL l)
    (hp : b.name <+: g.name) : g = b ∨ g ∈ getDesc b := by
  induction h with
  | @mk p l h1 h2 h3 ih =>
    obtain ⟨k, hk, hkb⟩ := mem_getDescL.1 hb
    have hkp : k.name <+: b.name := by
      rcases hkb with rfl | hkb
      · exact List.prefix_rfl
      · exact (Named.longer (.mk h1 h2 h3) (mem_getDescL.2 ⟨k, hk, .inl rfl⟩) hkb).1
    have hgk := Named.kid (.mk h1 h2 h3) hk hg (hkp.trans hp)
    rcases hkb with rfl | hkb
    · exact hgk
    · rcases hgk with rfl | hgk
      · have := Named.longer (.mk h1 h2 h3) (mem_getDescL.2 ⟨g, hk, .inl rfl⟩) hkb
        exact absurd (List.IsPrefix.eq_of_length hp (Nat.le_antisymm hp.length_le this.1.length_le)) this.2
      · rw [getDesc_eq] at hkb hgk
        exact ih k hk hkb hgk

theorem maxAddr_mem {l : List GNode} (h : l ≠ []) : ∃ g ∈ l, maxAddr l = g.addr + 2 ^ g.width.getD 0 := by
  unfold maxAddr
  rw [← List.dropLast_concat_getLast h, List.foldl_append]
  exact ⟨l.getLast h, by simp, rfl⟩

theorem maxAddr_pos {l : List GNode} (h : l ≠ []) : 0 < maxAddr l := by
  obtain ⟨g, _, e⟩ := maxAddr_mem h
  have := Nat.two_pow_pos (g.width.getD 0)
  omega

/-- The width of an endpoint that contains none. -/
theorem widthOf_bottom {g : GNode} (h : flagged g = []) {w : Nat} : widthOf clog g = some w ↔
    w = g.width.getD 0 ∧ g.size ≤ 2 ^ w ∧ ∀ i ∈ getDesc g, i.addr + i.size ≤ g.addr + 2 ^ w := by
  unfold widthOf
  rw [h]
  dsimp only
  by_cases h1 : g.size > 2 ^ g.width.getD 0
  · rw [if_pos h1]
    constructor
    · intro h; cases h
    · rintro ⟨rfl, h, _⟩; omega
  · rw [if_neg h1]
    by_cases h2 : (getDesc g).any (fun i => decide (i.addr + i.size > g.addr + 2 ^ g.width.getD 0)) = true
    · rw [if_pos h2]
      constructor
      · intro h; cases h
      · rintro ⟨rfl, _, h⟩
        obtain ⟨i, hi, e⟩ := List.any_eq_true.1 h2
        have := h i hi
        simp only [gt_iff_lt, decide_eq_true_eq] at e
        omega
    · rw [if_neg h2]
      have h3 := List.any_eq_false.1 (Bool.not_eq_true _ ▸ h2)
      simp only [gt_iff_lt, decide_eq_true_eq, Nat.not_lt] at h3
      constructor
      · intro h; cases h; exact ⟨rfl, by omega, fun i hi => h3 i hi⟩
      · rintro ⟨rfl, _, _⟩; rfl

/-- The width of an endpoint that contains some. -/
theorem widthOf_outer {g : GNode} (h : flagged g ≠ []) {w : Nat} : widthOf clog g = some w ↔
    getLeaves g = [] ∧ (∀ x, g.width = some x → w = x ∧ maxAddr (flagged g) ≤ g.addr + 2 ^ x) ∧
    (g.width = none → g.addr < maxAddr (flagged g) ∧ w = clog (maxAddr (flagged g) - g.addr)) := by
  unfold widthOf
  split
  · contradiction
  · rename_i l _
    by_cases h1 : getLeaves g = []
    · rw [h1]
      simp only [List.isEmpty_nil, Bool.true_eq_false, if_false, true_and]
      cases hw : g.width with
      | none =>
        simp only [reduceCtorEq, false_implies, implies_true, true_and, forall_const]
        by_cases h2 : maxAddr (flagged g) ≤ g.addr
        · rw [if_pos h2]
          constructor
          · intro h; cases h
          · intro h; omega
        · rw [if_neg h2, Option.some_inj]
          constructor
          · intro h; exact ⟨by omega, h.symm⟩
          · intro h; exact h.2.symm
      | some x =>
        simp only [Option.some_inj, reduceCtorEq, false_implies, and_true, forall_eq']
        by_cases h2 : maxAddr (flagged g) > g.addr + 2 ^ x
        · rw [if_pos h2]
          constructor
          · intro h; cases h
          · intro h; omega
        · rw [if_neg h2, Option.some_inj]
          constructor
          · intro h; exact ⟨h.symm, by omega⟩
          · intro h; exact h.1.symm
    · have : (getLeaves g).isEmpty = false := by cases hx : getLeaves g with
        | nil => exact absurd hx h1
        | cons => rfl
      rw [if_pos this]
      constructor
      · intro h; cases h
      · intro h; exact absurd h.1 h1

theorem widthOf_dec {g : GNode} {w : Nat} (h : widthOf clog g = some w) {x : Nat} (hx : g.width = some x) : w = x := by
  by_cases hf : flagged g = []
  · rw [(widthOf_bottom hf).1 h |>.1, hx]; rfl
  · exact (((widthOf_outer hf).1 h).2.1 x hx).1

/-- An endpoint that contains none: the range is as declared, and the content is inside. -/
theorem assign_bottom {g g' : GNode} (hf : flagged g = []) (h : assign clog g = some g') :
    g'.width = some (g.width.getD 0) ∧ g.size ≤ 2 ^ g.width.getD 0 ∧ ∀ i ∈ getDesc g, i.addr + i.size ≤ g.addr + 2 ^ g.width.getD 0 := by
  obtain ⟨ks, w, h1, rfl, h2, _⟩ := assign_some h
  rw [flagged_eq] at hf
  rw [assignL_plain hf, Option.some_inj] at h1
  subst h1
  have hperm := Node.stableSort_perm addr g.desc
  have hf' : flagged (mk g.name g.addr g.flag g.size g.width (stableSort addr g.desc)) = [] := by
    rw [flagged_eq, desc_mk]
    exact List.Perm.eq_nil (hf ▸ flaggedL_perm hperm)
  obtain ⟨rfl, h3, h4⟩ := (widthOf_bottom hf').1 h2
  refine ⟨rfl, h3, fun i hi => h4 i ?_⟩
  rw [getDesc_eq] at hi ⊢
  exact (getDescL_perm hperm).mem_iff.2 hi

theorem assign_bottom_ok {g : GNode} (hf : flagged g = []) (h1 : g.size ≤ 2 ^ g.width.getD 0)
    (h2 : ∀ i ∈ getDesc g, i.addr + i.size ≤ g.addr + 2 ^ g.width.getD 0) (h3 : g.addr % 2 ^ g.width.getD 0 = 0) :
    ∃ g', assign clog g = some g' := by
  have hf2 := hf
  rw [flagged_eq] at hf2
  have hperm := Node.stableSort_perm addr g.desc
  have hf' : flagged (mk g.name g.addr g.flag g.size g.width (stableSort addr g.desc)) = [] := by
    rw [flagged_eq, desc_mk]
    exact List.Perm.eq_nil (hf2 ▸ flaggedL_perm hperm)
  have hw : widthOf clog (mk g.name g.addr g.flag g.size g.width (stableSort addr g.desc)) = some (g.width.getD 0) := by
    refine (widthOf_bottom hf').2 ⟨rfl, h1, fun i hi => h2 i ?_⟩
    rw [getDesc_eq] at hi ⊢
    exact (getDescL_perm hperm).mem_iff.1 hi
  rw [assign_eq, assignL_plain hf2]
  simp only [Option.bind_some, finish, hw]
  exact ⟨_, if_neg (by simpa using h3)⟩

theorem assignL_ok {l : List GNode} (h : ∀ e ∈ flaggedL l, ∃ e', assign clog e = some e') : ∃ l', assignL clog l = some l' := by
  have list : ∀ l : List GNode, (∀ k ∈ l, (∀ e ∈ flagged k, ∃ e', assign clog e = some e') → ∃ k', assignIn clog k = some k') →
      (∀ e ∈ flaggedL l, ∃ e', assign clog e = some e') → ∃ l', assignL clog l = some l' := by
    intro l
    induction l with
    | nil => intro _ _; exact ⟨[], rfl⟩
    | cons k ks ih =>
      intro hP h
      obtain ⟨ks', hks⟩ := ih (fun k hk => hP k (by simp [hk])) (fun e he => h e (by rw [flaggedL]; exact List.mem_append_right _ he))
      have : ∃ k', (if k.flag then assign clog k else assignIn clog k) = some k' := by
        by_cases hf : k.flag = true
        · rw [if_pos hf]
          exact h k (by rw [flaggedL, if_pos hf]; simp)
        · rw [if_neg hf]
          refine hP k (by simp) fun e he => h e ?_
          rw [flaggedL, if_neg hf]
          exact List.mem_append_left _ he
      obtain ⟨k', hk⟩ := this
      exact ⟨k' :: ks', by rw [assignL, hk, hks]; rfl⟩
  have key : ∀ k : GNode, (∀ e ∈ flagged k, ∃ e', assign clog e = some e') → ∃ k', assignIn clog k = some k' := by
    intro k
    induction k using ind with
    | h nm a f s w desc ih =>
      intro h
      rw [flagged_eq] at h
      obtain ⟨l', hl⟩ := list desc ih h
      exact ⟨_, by rw [assignIn_eq, desc_mk, hl]; rfl⟩
  exact list l (fun k _ => key k) h

/-- The end of the last inner endpoint is the largest one, everywhere. -/
def Tidy (g : GNode) : Prop := ∀ i ∈ flagged g, i.addr + 2 ^ i.width.getD 0 ≤ maxAddr (flagged g)

theorem nested_fits (hc : ∀ x, x ≤ 2 ^ 33 → x ≤ 2 ^ clog x) (hc' : ∀ x, 2 ^ 33 < x → 33 ≤ clog x) : ∀ g g' : GNode, assign clog g = some g' →
    (∀ x, x = g' ∨ x ∈ getDesc g' → x.flag = true → Tidy x) → g.flag = true →
    (∀ x y, x = g ∨ x ∈ getDesc g → x.flag = true → y ∈ getDesc x → x.addr ≤ y.addr) →
    ∀ b, b = g ∨ b ∈ getDesc g → b.flag = true → flagged b = [] → ∀ i, i = b ∨ i ∈ getDesc b →
    33 ≤ g'.width.getD 0 ∨ i.addr + i.size ≤ g.addr + 2 ^ g'.width.getD 0 := by
  intro g
  induction g using ind_desc with
  | h g ih =>
    intro g' h ht hgf hw b hb hbf hb0 i hi
    by_cases hf : flagged g = []
    · -- nothing inside
      have : b = g := by
        rcases hb with rfl | hb
        · rfl
        · rw [getDesc_eq] at hb
          obtain ⟨e, he, _⟩ := flagged_above hb hbf
          rw [flagged_eq] at hf
          rw [hf] at he; cases he
      subst this
      obtain ⟨w1, w2, w3⟩ := assign_bottom hf h
      right
      rw [w1]
      rcases hi with rfl | hi
      · simp only [Option.getD_some]; omega
      · exact w3 i hi
    · obtain ⟨ks, w, h1, rfl, h2, _⟩ := assign_some h
      have hperm := Node.stableSort_perm addr ks
      have hfl := assignL_flagged h1
      rw [← flagged_eq] at hfl
      -- the endpoint around `b`
      rcases hb with rfl | hb
      · exact absurd hb0 hf
      · rw [getDesc_eq] at hb
        obtain ⟨e, he, hbe⟩ := flagged_above hb hbf
        have hed := flagged_desc he
        rw [← getDesc_eq] at hed
        rw [← flagged_eq] at he
        have hm : assign clog e ∈ (flaggedL ks).map some := by rw [← hfl]; exact List.mem_map_of_mem he
        obtain ⟨e', he', hee⟩ := List.mem_map.1 hm
        have hes := assign_flag hee.symm
        have he2 : e' ∈ flaggedL (stableSort addr ks) := (flaggedL_perm hperm).mem_iff.2 he'
        have hed' := flagged_desc he2
        have hP := ih e hed.2 e' hee.symm (fun x hx hxf => ht x (.inr (by
          rw [getDesc_eq, desc_mk]
          rcases hx with rfl | hx
          · exact hed'.2
          · exact getDescL_trans hed'.2 hx)) hxf) hed.1 (fun x y hx hxf hy => hw x y (.inr (by
          rcases hx with rfl | hx
          · exact hed.2
          · exact getDesc_trans hed.2 hx)) hxf hy) b hbe hbf hb0 i hi
        have hmax := ht _ (.inl rfl) hgf e' (by rw [flagged_eq, desc_mk]; exact he2)
        rw [hes.2.2.1, flagged_eq, desc_mk] at hmax
        have hle := hw g e (.inl rfl) hgf hed.2
        have hf' : flagged (mk g.name g.addr g.flag g.size g.width (stableSort addr ks)) ≠ [] := by
          intro h0
          rw [flagged_eq, desc_mk] at h0
          rw [h0] at he2; cases he2
        obtain ⟨_, hx, hn⟩ := (widthOf_outer hf').1 h2
        rw [flagged_eq, desc_mk] at hx hn
        simp only [width_mk, addr_mk] at hx hn
        show 33 ≤ w ∨ i.addr + i.size ≤ g.addr + 2 ^ w
        have big : 2 ^ 33 ≤ 2 ^ w → 33 ≤ w := fun h => (Nat.pow_le_pow_iff_right (by omega)).1 h
        cases hgw : g.width with
        | some x =>
          obtain ⟨rfl, hxx⟩ := hx x hgw
          rcases hP with hP | hP
          · left
            have : 2 ^ 33 ≤ 2 ^ e'.width.getD 0 := Nat.pow_le_pow_right (by omega) hP
            exact big (by omega)
          · right; omega
        | none =>
          obtain ⟨h3, rfl⟩ := hn hgw
          by_cases hbig : 2 ^ 33 < maxAddr (flaggedL (stableSort addr ks)) - g.addr
          · left; exact hc' _ hbig
          · have := hc _ (Nat.not_lt.1 hbig)
            rcases hP with hP | hP
            · left
              have : 2 ^ 33 ≤ 2 ^ e'.width.getD 0 := Nat.pow_le_pow_right (by omega) hP
              exact big (by omega)
            · right; omega

end GNode

namespace Decoder

theorem clashes_ok {l : List GNode} (h : l.Pairwise fun a b => clash a b = false ∧ clash b a = false) : clashes l = false := by
  induction l with
  | nil => rfl
  | cons a l ih =>
    rw [List.pairwise_cons] at h
    rw [clashes, ih h.2, Bool.or_false, List.any_eq_false]
    intro b hb
    have := h.1 b hb
    simp [this.1, this.2]

theorem slaveOf_ok {g : GNode} (h1 : g.addr < 2 ^ 32) (h2 : g.width.getD 0 ≤ 32) (h3 : g.addr % 2 ^ g.width.getD 0 = 0) : ∃ s, slaveOf g = some s := by
  unfold slaveOf
  dsimp only
  have hp : 2 ^ g.width.getD 0 ≤ 2 ^ 32 := Nat.pow_le_pow_right (by omega) h2
  have hp' := Nat.two_pow_pos (g.width.getD 0)
  have hlt : 2 ^ g.width.getD 0 - 1 < 2 ^ 32 := by omega
  rw [if_pos ⟨h1, hlt⟩]
  refine ⟨_, if_neg ?_⟩
  simp only [ne_eq, Decidable.not_not]
  apply BitVec.eq_of_toNat_eq
  rw [BitVec.toNat_and, BitVec.toNat_ofNat, BitVec.toNat_ofNat, Nat.mod_eq_of_lt h1, Nat.mod_eq_of_lt hlt, Nat.and_two_pow_sub_one_eq_mod, h3]
  rfl

end Decoder

theorem mapAll_ok {α β : Type} {f : α → Option β} {l : List α} (h : ∀ x ∈ l, ∃ y, f x = some y) : ∃ l', mapAll f l = some l' := by
  induction l with
  | nil => exact ⟨[], rfl⟩
  | cons x l ih =>
    obtain ⟨y, hy⟩ := h x (by simp)
    obtain ⟨l', hl⟩ := ih fun x hx => h x (by simp [hx])
    exact ⟨y :: l', by rw [mapAll, hy, hl]; rfl⟩

namespace Gen
open GNode

variable {int : Str → Option Nat} {clog : Nat → Nat}

/-- What a run that writes the file has done. -/
theorem run_some {n : Node} (hg : n.GoodIds) (hu : n.UniqueIds) {d : Decoder} (h : run int clog n = some d) : ∃ ks w,
    assignL clog (mirrorL int [] n.kids) = some ks ∧
    widthOf clog (.mk ["TOP".toList] 0 false 0 ((n.d.fw.lookup "width".toList).bind int) (stableSort addr ks)) = some w ∧
    Decoder.ofTree (.mk ["TOP".toList] 0 false 0 (some w) (stableSort addr ks)) = some d := by
  unfold run at h
  rw [Option.bind_eq_some_iff] at h
  obtain ⟨t, ht, h⟩ := h
  rw [Option.bind_eq_some_iff] at h
  obtain ⟨t', ht', h⟩ := h
  rw [tree_mirror hg hu ht] at ht'
  obtain ⟨ks, w, h1, rfl, h2, _⟩ := assign_some ht'
  exact ⟨ks, w, h1, h2, h⟩

/-- The slave of an outermost endpoint. -/
theorem run_slave {n : Node} (hg : n.GoodIds) (hu : n.UniqueIds) {d : Decoder} (h : run int clog n = some d) {e : GNode}
    (he : e ∈ flaggedL (mirrorL int [] n.kids)) : ∃ (e' : GNode) (j : Nat) (s : Slave), assign clog e = some e' ∧ d.slaves[j]? = some s ∧
      s.id = e.name ∧ s.base.toNat = e.addr ∧ s.width = e'.width.getD 0 ∧ s.width ≤ 32 := by
  obtain ⟨ks, w, h1, h2, h3⟩ := run_some hg hu h
  obtain ⟨o1, _⟩ := Decoder.ofTree_some h3
  have hm : assign clog e ∈ (flaggedL ks).map some := by rw [← assignL_flagged h1]; exact List.mem_map_of_mem he
  obtain ⟨e', he', hee⟩ := List.mem_map.1 hm
  have he2 : e' ∈ flaggedL (stableSort addr ks) := (flaggedL_perm (Node.stableSort_perm addr ks)).mem_iff.2 he'
  obtain ⟨j, hj⟩ := List.getElem?_of_mem he2
  have := congrArg (fun l => l[j]?) o1
  simp only [flagged_eq, desc_mk, List.getElem?_map, hj, Option.map_some] at this
  cases hs : d.slaves[j]? with
  | none => rw [hs] at this; cases this
  | some s =>
    rw [hs, Option.map_some, Option.some_inj] at this
    obtain ⟨s1, s2, s3, s4, _⟩ := Decoder.slaveOf_some this
    obtain ⟨_, f2, f3, _⟩ := assign_flag hee.symm
    exact ⟨e', j, s, hee.symm, hs, by rw [s1, f2], by rw [s2, f3], s3, s4⟩

/-- The ids of the slaves. -/
theorem run_ids {n : Node} (hg : n.GoodIds) (hu : n.UniqueIds) {d : Decoder} (h : run int clog n = some d) :
    (d.slaves.map Slave.id).Perm ((flaggedL (mirrorL int [] n.kids)).map name) := by
  obtain ⟨ks, w, h1, h2, h3⟩ := run_some hg hu h
  obtain ⟨o1, _⟩ := Decoder.ofTree_some h3
  have e1 : d.slaves.map Slave.id = (flaggedL (stableSort addr ks)).map name := by
    have : ∀ (l : List GNode) (ss : List Slave), l.map Decoder.slaveOf = ss.map some → ss.map Slave.id = l.map name := by
      intro l
      induction l with
      | nil => intro ss h; cases ss with
        | nil => rfl
        | cons => simp at h
      | cons g l ih =>
        intro ss h
        cases ss with
        | nil => simp at h
        | cons s ss =>
          simp only [List.map_cons, List.cons.injEq] at h
          rw [List.map_cons, List.map_cons, ih ss h.2, (Decoder.slaveOf_some h.1).1]
    rw [flagged_eq] at o1
    exact this _ _ o1
  have e2 : (flaggedL ks).map name = (flaggedL (mirrorL int [] n.kids)).map name := by
    have : ∀ (l l' : List GNode), l.map (assign clog) = l'.map some → l'.map name = l.map name := by
      intro l
      induction l with
      | nil => intro l' h; cases l' with
        | nil => rfl
        | cons => simp at h
      | cons g l ih =>
        intro l' h
        cases l' with
        | nil => simp at h
        | cons g' l' =>
          simp only [List.map_cons, List.cons.injEq] at h
          rw [List.map_cons, List.map_cons, ih l' h.2, (assign_flag h.1).2.1]
    exact this _ _ (assignL_flagged h1)
  rw [e1, ← e2]
  exact (flaggedL_perm (Node.stableSort_perm addr ks)).map name

/-- No leaf outside the endpoints. -/
theorem run_leaves {n : Node} (hg : n.GoodIds) (hu : n.UniqueIds) {d : Decoder} (h : run int clog n = some d)
    (hne : flaggedL (mirrorL int [] n.kids) ≠ []) : getLeavesL (mirrorL int [] n.kids) = [] := by
  obtain ⟨ks, w, h1, h2, h3⟩ := run_some hg hu h
  have hperm := Node.stableSort_perm addr ks
  have hf : flagged (.mk ["TOP".toList] 0 false 0 ((n.d.fw.lookup "width".toList).bind int) (stableSort addr ks)) ≠ [] := by
    rw [flagged_eq, desc_mk]
    intro h0
    have := List.Perm.eq_nil (h0 ▸ (flaggedL_perm hperm).symm)
    have hfl := assignL_flagged h1
    rw [this] at hfl
    simp only [List.map_nil, List.map_eq_nil_iff] at hfl
    exact hne hfl
  have hl := ((widthOf_outer hf).1 h2).1
  rw [getLeaves_eq, desc_mk] at hl
  have := List.Perm.eq_nil (hl ▸ (getLeavesL_perm hperm).symm)
  have e := assignL_leaves h1
  rw [this] at e
  simpa using e

end Gen
end Verif
