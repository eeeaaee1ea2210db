import Verif.Model.Gui
import Verif.Props.C33
/-!
# The graphical user interface: lemmas
-/

set_option autoImplicit false
set_option linter.unusedSimpArgs false

namespace Verif.Gui
open Verif Node

/-! ### The tree -/

mutual
/-- The entry of a node. -/
def canon (ord : List Item → List Item) : Node → Item
  | .mk d kids => .mk false d.uid d.addr d.mask (if kids.isEmpty then none else some (ord (canonL ord kids)))
def canonL (ord : List Item → List Item) : List Node → List Item
  | [] => []
  | k :: ks => canon ord k :: canonL ord ks
end

theorem canonL_eq (ord : List Item → List Item) (l : List Node) : canonL ord l = l.map (canon ord) := by
  induction l with
  | nil => rfl
  | cons k ks ih => rw [canonL, ih]; rfl

theorem canon_id (ord : List Item → List Item) (n : Node) : (canon ord n).id = n.d.uid := by cases n; rw [canon]; rfl

theorem canon_kids (ord : List Item → List Item) (n : Node) : (canon ord n).kids = if n.kids.isEmpty then none else some (ord (canonL ord n.kids)) := by
  cases n; rw [canon]; rfl

theorem dot_mem_dots (l : List Str) (h : ∀ x ∈ l, '.' ∉ x) : '.' ∈ dots l ↔ 2 ≤ l.length := by
  match l with
  | [] => simp [dots]
  | [x] => simpa [dots] using h x (by simp)
  | x :: y :: l => simp [dots]

theorem ids_length {n v : Node} {pos : List Nat} (hv : n.sub? pos = some v) : (n.ids pos).length = pos.length := by
  induction pos generalizing n with
  | nil => simp [ids, lineage]
  | cons i is ih =>
    rw [sub?_cons] at hv
    cases hk : n.kids[i]? with
    | none => rw [hk] at hv; cases hv
    | some k =>
      rw [hk] at hv
      have : n.ids (i :: is) = k.d.uid :: k.ids is := by simp [ids, lineage, hk]
      rw [this, List.length_cons, ih hv, List.length_cons]

theorem ids_good {n : Node} (hg : GoodIds n) (pos : List Nat) : ∀ x ∈ n.ids pos, x ≠ [] ∧ '.' ∉ x := by
  intro x hx
  obtain ⟨k, hk, rfl⟩ := List.mem_map.1 hx
  exact lineage_good hg pos k hk

theorem mem_top {n v : Node} (hg : GoodIds n) {pos : List Nat} (hne : pos ≠ []) (hv : n.sub? pos = some v) : n.relPath pos ∈ top n ↔ pos.length = 1 := by
  have hm : n.relPath pos ∈ n.getNodes := List.mem_map.2 ⟨pos, (mem_positions n pos).2 ⟨hne, v, hv⟩, rfl⟩
  have hd := dot_mem_dots (n.ids pos) (fun x hx => (ids_good hg pos x hx).2)
  rw [ids_length hv, ← relPath_eq hg] at hd
  have hpos : 0 < pos.length := List.length_pos_iff.2 hne
  unfold top
  rw [List.mem_filter]
  simp only [hm, true_and, List.contains_iff_mem, Bool.not_eq_true', decide_eq_false_iff_not, List.contains_eq_mem, hd]
  omega

theorem getNodes_nil (n : Node) : n.getNodes = [] ↔ n.kids = [] := by
  unfold getNodes
  rw [List.map_eq_nil_iff, positions_eq]
  cases n.kids with
  | nil => simp [preL]
  | cons k ks => simp [preL, pre_eq]

/-- What the loop makes of a position. -/
def pick (ord : List Item → List Item) (n : Node) : List Nat → Option Item
  | [i] => (n.kids[i]?).map (canon ord)
  | _ => none

theorem buildLoop_eq (ord : List Item → List Item) (rec : Node → Option (List Item)) {n : Node} (hg : GoodIds n) (hu : UniqueIds n)
    (hrec : ∀ k ∈ n.kids, rec k = some (ord (canonL ord k.kids))) : ∀ L : List (List Nat), (∀ p ∈ L, p ∈ positions n) →
    buildLoop rec n (L.map n.relPath) = some (L.filterMap (pick ord n)) := by
  intro L
  induction L with
  | nil => intro _; rfl
  | cons p L ih =>
    intro h
    have hp := h p (by simp)
    obtain ⟨hne, v, hv⟩ := (mem_positions n p).1 hp
    rw [List.map_cons, buildLoop, C33_listed hg hu p hp]
    simp only [Option.bind_some, hv]
    rw [ih fun q hq => h q (by simp [hq])]
    by_cases h1 : p.length = 1
    · rw [if_pos ((mem_top hg hne hv).2 h1)]
      obtain ⟨i, rfl⟩ := List.length_eq_one_iff.1 h1
      have hk : n.kids[i]? = some v := by
        rw [sub?_cons] at hv
        cases hk : n.kids[i]? with
        | none => rw [hk] at hv; cases hv
        | some k => rw [hk] at hv; simpa using hv
      have hc := canon_kids ord v
      have hpk : pick ord n [i] = some (canon ord v) := by simp [pick, hk]
      rw [List.filterMap_cons_some hpk]
      have hcv : canon ord v = .mk false v.d.uid v.d.addr v.d.mask (if v.kids.isEmpty then none else some (ord (canonL ord v.kids))) := by
        cases v; rw [canon]; rfl
      by_cases hkk : v.kids = []
      · rw [if_pos ((getNodes_nil v).2 hkk), hcv]
        simp [hkk]
      · rw [if_neg (fun e => hkk ((getNodes_nil v).1 e)), hrec v (List.mem_of_getElem? hk), hcv]
        simp [hkk]
    · rw [if_neg (fun e => h1 ((mem_top hg hne hv).1 e))]
      have hpk : pick ord n p = none := by
        match p, h1 with
        | [], _ => rfl
        | [i], h1 => simp at h1
        | _ :: _ :: _, _ => rfl
      rw [List.filterMap_cons_none hpk]

theorem pick_preL (ord : List Item → List Item) (n : Node) : ∀ (l : List Node) (i : Nat), (∀ j k, l[j]? = some k → n.kids[i + j]? = some k) →
    (preL l i).filterMap (pick ord n) = canonL ord l := by
  intro l
  induction l with
  | nil => intro i _; rfl
  | cons k ks ih =>
    intro i h
    rw [preL, List.filterMap_append, ih (i + 1) (fun j k' hk => by have := h (j + 1) k' (by simpa using hk); rwa [show i + 1 + j = i + (j + 1) from by omega])]
    have h0 : n.kids[i]? = some k := by simpa using h 0 k (by simp)
    have hpk : pick ord n [i] = some (canon ord k) := by simp [pick, h0]
    rw [pre_eq, List.map_cons, List.filterMap_cons_some hpk, canonL]
    have : ((preL k.kids 0).map fun p => i :: p).filterMap (pick ord n) = [] := by
      rw [List.filterMap_eq_nil_iff]
      intro p hp
      obtain ⟨q, hq, rfl⟩ := List.mem_map.1 hp
      have hq' : q ≠ [] := by
        have := (mem_positions k q).1 (by rw [positions_eq]; exact hq)
        exact this.1
      match q, hq' with
      | _ :: _, _ => rfl
    rw [this]
    rfl

theorem count_kid {n k : Node} (h : k ∈ n.kids) : k.count < n.count := by
  cases n with
  | mk d kids =>
    have : ∀ l : List Node, k ∈ l → k.count ≤ countL l := by
      intro l
      induction l with
      | nil => intro h; cases h
      | cons x l ih =>
        intro h
        rw [countL]
        rcases List.mem_cons.1 h with rfl | h
        · omega
        · have := ih h; omega
    rw [count]
    have := this kids h
    omega

theorem build_eq (ord : List Item → List Item) (n : Node) : GoodIds n → UniqueIds n → ∀ fuel, n.count ≤ fuel → build ord fuel n = some (ord (canonL ord n.kids)) := by
  induction n using Node.ind with
  | h d kids ih =>
    intro hg hu fuel hf
    cases fuel with
    | zero => have := count_pos (mk d kids); omega
    | succ fuel =>
      rw [build]
      have hrec : ∀ k ∈ (mk d kids).kids, build ord fuel k = some (ord (canonL ord k.kids)) := by
        intro k hk
        have hc := count_kid hk
        obtain ⟨i, hi⟩ := List.getElem?_of_mem hk
        exact ih k hk (hg.kid hi).2 (hu.kid hi).2 fuel (by omega)
      have h1 := buildLoop_eq ord (build ord fuel) hg hu hrec (positions (mk d kids)) (fun p hp => hp)
      rw [getNodes, h1, positions_eq, pick_preL ord (mk d kids) _ 0 (by intro j k h; simpa using h)]
      rfl

/-! ### Finding the selected item -/

theorem find_kid {ord : List Item → List Item} (hord : ∀ l, (ord l).Perm l) {l : List Item} (hn : (l.map Item.id).Nodup) {k : Item} (hk : k ∈ l) :
    (ord l).find? (fun x => decide (x.id = k.id)) = some k := by
  have hn' : ((ord l).map Item.id).Nodup := ((hord l).map _).nodup_iff.2 hn
  have hk' := (hord l).mem_iff.2 hk
  generalize ord l = m at hn' hk'
  induction m with
  | nil => cases hk'
  | cons x m ih =>
    rw [List.map_cons, List.nodup_cons] at hn'
    rcases List.mem_cons.1 hk' with rfl | h
    · simp
    · have : x.id ≠ k.id := fun e => hn'.1 (e ▸ List.mem_map.2 ⟨k, h, rfl⟩)
      rw [List.find?_cons_of_neg (by simpa using this)]
      exact ih hn'.2 h

theorem walk_ids {ord : List Item → List Item} (hord : ∀ l, (ord l).Perm l) {n v : Node} (hu : UniqueIds n) {pos : List Nat} (hv : n.sub? pos = some v) (hne : pos ≠ []) (st : Option Item) :
    walk (n.ids pos) st (some (ord (canonL ord n.kids))) = some (some (canon ord v), (canon ord v).kids) := by
  induction pos generalizing n st with
  | nil => exact absurd rfl hne
  | cons i is ih =>
    rw [sub?_cons] at hv
    cases hk : n.kids[i]? with
    | none => rw [hk] at hv; cases hv
    | some k =>
      rw [hk] at hv
      obtain ⟨h1, h2⟩ := hu.kid hk
      have hi : n.ids (i :: is) = k.d.uid :: k.ids is := by simp [ids, lineage, hk]
      have hnd : ((canonL ord n.kids).map Item.id).Nodup := by
        rw [canonL_eq, List.map_map]
        have : (Item.id ∘ canon ord) = fun k : Node => k.d.uid := by funext x; exact canon_id ord x
        rw [this]; exact h1
      have hf := find_kid hord hnd (k := canon ord k) (by rw [canonL_eq]; exact List.mem_map.2 ⟨k, List.mem_of_getElem? hk, rfl⟩)
      rw [canon_id] at hf
      rw [hi, walk, hf]
      simp only []
      cases is with
      | nil =>
        simp only [Option.bind_some, sub?_nil, Option.some.injEq] at hv
        subst hv
        simp [ids, lineage, walk]
      | cons j js =>
        have hkk : k.kids.isEmpty = false := by
          simp only [Option.bind_some, sub?_cons] at hv
          cases hkj : k.kids[j]? with
          | none => rw [hkj] at hv; cases hv
          | some x => cases hkk : k.kids with
            | nil => rw [hkk] at hkj; simp at hkj
            | cons => rfl
        rw [canon_kids, hkk]
        exact ih h2 hv (by simp) _

/-! ### Rows -/

/-- The row of a node at a position below `n`, whose path begins with `P`. -/
def rowOfPos (P : List Str) (n : Node) (p : List Nat) : Option GRow :=
  (n.sub? p).map fun w => ⟨dots (P ++ n.ids p), w.d.addr, w.d.mask, if w.kids.isEmpty then .zero else .na⟩

theorem dots_snoc (P : List Str) (x : Str) (hP : ∀ y ∈ P, y ≠ []) (hx : x ≠ []) : rowId (dots P) x = dots (P ++ [x]) := by
  unfold rowId
  cases P with
  | nil => simp [dots, hx]
  | cons y P =>
    have hne : dots (y :: P) ≠ [] := dots_ne (by simp) hP
    rw [if_neg (fun h => hne h.1)]
    clear hne hP
    induction P generalizing y with
    | nil => simp [dots]
    | cons z P ih =>
      rw [dots, List.cons_append, List.cons_append, dots]
      · rw [← List.cons_append, ← ih z]
        simp
      

theorem fills_eq (s : Str) (a : List Item) : fills s a = a.flatMap (fill s) := by
  induction a with
  | nil => rfl
  | cons x a ih => rw [fills, ih]; rfl

theorem fills_perm (s : Str) (a b : List Item) (h : a.Perm b) : (fills s a).Perm (fills s b) := by
  rw [fills_eq, fills_eq]
  exact h.flatMap_right _

theorem fills_kids {ord : List Item → List Item} {n : Node} {Q : List Str}
    (ih : ∀ k ∈ n.kids, (fill (dots Q) (canon ord k)).Perm ((pre k).filterMap (rowOfPos (Q ++ [k.d.uid]) k))) :
    ∀ (l : List Node) (i : Nat), (∀ j k, l[j]? = some k → n.kids[i + j]? = some k) →
      (fills (dots Q) (l.map (canon ord))).Perm ((preL l i).filterMap (rowOfPos Q n)) := by
  intro l
  induction l with
  | nil => intro i _; simp [fills, preL]
  | cons k ks ihl =>
    intro i h
    have h0 : n.kids[i]? = some k := by simpa using h 0 k (by simp)
    rw [List.map_cons, fills, preL, List.filterMap_append]
    refine List.Perm.append ?_ (ihl (i + 1) (fun j k' hk' => by have := h (j + 1) k' (by simpa using hk'); rwa [show i + 1 + j = i + (j + 1) from by omega]))
    refine (ih k (List.mem_of_getElem? h0)).trans ?_
    rw [List.filterMap_map]
    refine List.Perm.of_eq ?_
    congr 1
    funext p
    simp only [Function.comp_apply, rowOfPos, sub?_cons, h0, Option.bind_some]
    have : n.ids (i :: p) = k.d.uid :: k.ids p := by simp [ids, lineage, h0]
    rw [this]
    simp

theorem fill_perm {ord : List Item → List Item} (hord : ∀ l, (ord l).Perm l) (v : Node) : GoodIds v → v.d.uid ≠ [] → ∀ P : List Str, (∀ y ∈ P, y ≠ []) →
    (fill (dots P) (canon ord v)).Perm ((pre v).filterMap (rowOfPos (P ++ [v.d.uid]) v)) := by
  induction v using Node.ind with
  | h d kids ih =>
    intro hg hne P hP
    have hid := dots_snoc P d.uid hP hne
    rw [canon, pre_eq]
    have hhead : rowOfPos (P ++ [(mk d kids).d.uid]) (mk d kids) [] = some ⟨dots (P ++ [d.uid]), d.addr, d.mask, if kids.isEmpty then .zero else .na⟩ := by
      simp only [rowOfPos, ids, lineage, sub?_nil, Option.map_some, List.map_nil, List.append_nil]
      rfl
    rw [List.filterMap_cons_some hhead]
    cases hk : kids.isEmpty with
    | true =>
      have hk' : kids = [] := List.isEmpty_iff.1 hk
      subst hk'
      simp [fill, hid, preL]
    | false =>
      simp only [Bool.false_eq_true, if_false]
      rw [fill, hid]
      refine List.Perm.cons _ ?_
      refine (fills_perm _ _ _ (hord _)).trans ?_
      rw [canonL_eq]
      refine fills_kids (n := mk d kids) ?_ kids 0 (by intro j k h; simpa using h)
      intro k hk
      obtain ⟨i, hi⟩ := List.getElem?_of_mem hk
      have hgk := GoodIds.kid hg (i := i) (k := k) hi
      refine ih k hk hgk.2 hgk.1.1 (P ++ [d.uid]) ?_
      intro y hy
      rcases List.mem_append.1 hy with hy | hy
      · exact hP y hy
      · rw [List.mem_singleton.1 hy]; exact hne

/-- The rows of a device. -/
theorem fills_device {ord : List Item → List Item} (hord : ∀ l, (ord l).Perm l) {n : Node} (hg : GoodIds n) :
    (fills [] (ord (canonL ord n.kids))).Perm ((positions n).filterMap (rowOfPos [] n)) := by
  refine (fills_perm _ _ _ (hord _)).trans ?_
  rw [canonL_eq, positions_eq]
  refine fills_kids (n := n) (Q := []) ?_ n.kids 0 (by intro j k h; simpa using h)
  intro k hk
  obtain ⟨i, hi⟩ := List.getElem?_of_mem hk
  have hgk := GoodIds.kid hg hi
  exact fill_perm hord k hgk.2 hgk.1.1 [] (by simp)

/-! ### Names -/

theorem prefixNodes_eq (name : Str) (l : List Str) (h : ∀ x, l.getLast? = some x → x ∉ l.dropLast) : prefixNodes (name :: l) = l.dropLast := by
  unfold prefixNodes
  match l with
  | [] => rfl
  | [x] => rfl
  | x :: y :: l =>
    rw [if_neg (by simp)]
    simp only [List.headD_cons, List.erase_cons_head]
    obtain ⟨init, z, e⟩ : ∃ init z, x :: y :: l = init ++ [z] := ⟨_, _, (List.dropLast_concat_getLast (by simp : x :: y :: l ≠ [])).symm⟩
    rw [e] at h ⊢
    have hz := h z (by simp)
    rw [List.dropLast_concat] at hz ⊢
    have : (init ++ [z]).getLastD [] = z := by rw [List.getLastD_eq_getLast?]; simp
    rw [this, List.erase_append_right _ hz]
    simp

theorem join_eq (l : List Str) : join l = dots l := by
  match l with
  | [] => rfl
  | [x] => rfl
  | x :: y :: l => rw [join, dots, join_eq (y :: l)]; simp

theorem completeId_eq (l : List Str) (h : rootText ∉ l) : completeId (l.reverse ++ [rootText]) = l := by
  have key : ∀ r : List Str, rootText ∉ r → completeId (r ++ [rootText]) = r.reverse := by
    intro r
    induction r with
    | nil => intro _; simp [completeId]
    | cons t r ih =>
      intro h
      rw [List.cons_append, completeId, if_neg (fun e => h (by simp [e])), ih (fun hm => h (by simp [hm]))]
      simp
  rw [key _ (by simpa using h), List.reverse_reverse]

/-! ### Positions and paths -/

theorem ids_append {n v : Node} {p : List Nat} (h : n.sub? p = some v) (q : List Nat) : n.ids (p ++ q) = n.ids p ++ v.ids q := by
  induction p generalizing n with
  | nil => rw [sub?_nil] at h; cases h; simp [ids, lineage]
  | cons i is ih =>
    rw [sub?_cons] at h
    cases hk : n.kids[i]? with
    | none => rw [hk] at h; cases h
    | some k =>
      rw [hk] at h
      have e : ∀ is, n.ids (i :: is) = k.d.uid :: k.ids is := by intro is; simp [ids, lineage, hk]
      rw [List.cons_append, e, e, ih h]; rfl

theorem ids_inj {n v w : Node} (hu : UniqueIds n) {p q : List Nat} (hv : n.sub? p = some v) (hw : n.sub? q = some w) (h : n.ids p = n.ids q) : p = q := by
  have h1 := descend_ids hu hv
  have h2 := descend_ids hu hw
  rw [h, h2] at h1
  exact (Option.some.inj h1).symm

theorem ids_take {n v : Node} {p : List Nat} (hv : n.sub? p = some v) (k : Nat) : n.ids (p.take k) = (n.ids p).take k := by
  induction p generalizing n k with
  | nil => simp [ids, lineage]
  | cons i is ih =>
    rw [sub?_cons] at hv
    cases hk : n.kids[i]? with
    | none => rw [hk] at hv; cases hv
    | some x =>
      rw [hk] at hv
      have e : ∀ is, n.ids (i :: is) = x.d.uid :: x.ids is := by intro is; simp [ids, lineage, hk]
      cases k with
      | zero => simp [ids, lineage]
      | succ k => rw [List.take_succ_cons, e, e, List.take_succ_cons, ih hv]

/-- A path below a node is that of a position below the node's. -/
theorem prefix_pos {n v w : Node} (hu : UniqueIds n) {p q : List Nat} (hv : n.sub? p = some v) (hw : n.sub? q = some w) (h : n.ids p <+: n.ids q) :
    ∃ s, q = p ++ s ∧ v.sub? s = some w := by
  have hlen := h.length_le
  rw [ids_length hv, ids_length hw] at hlen
  have e : q.take p.length = p := by
    have hs : ∃ x, n.sub? (q.take p.length) = some x := by
      have := hw
      rw [← List.take_append_drop p.length q, sub?_append] at this
      cases hx : n.sub? (q.take p.length) with
      | none => rw [hx] at this; cases this
      | some x => exact ⟨x, rfl⟩
    obtain ⟨x, hx⟩ := hs
    refine ids_inj hu hx hv ?_
    rw [ids_take hw, ← ids_length hv]
    exact (List.prefix_iff_eq_take.1 h).symm
  refine ⟨q.drop p.length, ?_, ?_⟩
  · conv => lhs; rw [← List.take_append_drop p.length q, e]
  · rw [← List.take_append_drop p.length q, e, sub?_append, hv] at hw
    simpa using hw

theorem dots_inj {a b : List Str} (ha : ∀ x ∈ a, x ≠ [] ∧ '.' ∉ x) (hb : ∀ x ∈ b, x ≠ [] ∧ '.' ∉ x) (h : dots a = dots b) : a = b := by
  cases a with
  | nil =>
    cases b with
    | nil => rfl
    | cons y b => exact absurd h.symm (dots_ne (by simp) fun x hx => (hb x hx).1)
  | cons x a =>
    cases b with
    | nil => exact absurd h (dots_ne (by simp) fun x hx => (ha x hx).1)
    | cons y b =>
      have h1 := splitDots_dots (x :: a) (by simp) fun z hz => (ha z hz).2
      have h2 := splitDots_dots (y :: b) (by simp) fun z hz => (hb z hz).2
      rw [h, h2] at h1
      exact h1.symm

theorem positions_nodup (n : Node) : (pre n).Nodup := by
  refine (pairwise_pre n).imp ?_
  intro a b h e
  exact h (e ▸ List.prefix_rfl)

/-- Different rows have different names. -/
theorem rows_nodup {n v : Node} (hg : GoodIds n) (hu : UniqueIds n) {p : List Nat} (hv : n.sub? p = some v) {L : List (List Nat)} (hL : L.Sublist (pre v)) :
    ((L.filterMap (rowOfPos (n.ids p) v)).map GRow.id).Nodup := by
  have hn : L.Nodup := hL.nodup (positions_nodup v)
  have hm : ∀ q ∈ L, ∃ w, v.sub? q = some w := fun q hq => (mem_pre v q).1 (hL.subset hq)
  clear hL
  induction L with
  | nil => simp
  | cons q L ih =>
    rw [List.nodup_cons] at hn
    obtain ⟨w, hw⟩ := hm q (by simp)
    have hq : rowOfPos (n.ids p) v q = some ⟨dots (n.ids p ++ v.ids q), w.d.addr, w.d.mask, if w.kids.isEmpty then .zero else .na⟩ := by
      simp [rowOfPos, hw]
    rw [List.filterMap_cons_some hq, List.map_cons, List.nodup_cons]
    refine ⟨?_, ih hn.2 fun x hx => hm x (by simp [hx])⟩
    intro hmem
    obtain ⟨g, hg1, hg2⟩ := List.mem_map.1 hmem
    obtain ⟨q', hq', hg3⟩ := List.mem_filterMap.1 hg1
    obtain ⟨w', hw'⟩ := hm q' (by simp [hq'])
    simp only [rowOfPos, hw', Option.map_some, Option.some.injEq] at hg3
    subst hg3
    simp only [] at hg2
    rw [← ids_append hv, ← ids_append hv] at hg2
    have e := dots_inj (ids_good hg _) (ids_good hg _) hg2
    have e2 := ids_inj hu (v := w') (w := w) (by rw [sub?_append, hv]; exact hw') (by rw [sub?_append, hv]; exact hw) e
    rw [List.append_cancel_left e2] at hq'
    exact hn.1 hq'

/-! ### Substrings -/

theorem isIn_iff (x s : Str) : isIn x s = true ↔ x <:+: s := by
  induction s with
  | nil => simp [isIn]
  | cons c s ih => rw [isIn, Bool.or_eq_true, ih, List.isPrefixOf_iff_prefix, List.infix_cons_iff]

/-! ### The values read -/

theorem dict_lookup {see : DevRes → Option ValOut} {f : Str → Option ValOut} (s : Str) : ∀ (L : List Str) (rs : List DevRes) (E : List (Option ValOut)), rs.map see = L.map f ++ E →
    (dict see L rs).lookup s = if s ∈ L then f s else none := by
  intro L
  induction L with
  | nil => intro rs E _; simp [dict]
  | cons x L ih =>
    intro rs E h
    cases rs with
    | nil => simp at h
    | cons r rs =>
      rw [List.map_cons, List.map_cons, List.cons_append, List.cons.injEq] at h
      rw [dict, h.1]
      cases hf : f x with
      | none =>
        simp only []
        rw [ih rs E h.2]
        by_cases e : s = x
        · subst e; simp [hf]
        · simp [e]
      | some v =>
        simp only []
        rw [List.lookup_cons]
        by_cases e : s = x
        · subst e; simp [hf]
        · have : (s == x) = false := by simpa using e
          rw [this]
          simp only []
          rw [ih rs E h.2]
          simp [e]

end Verif.Gui
