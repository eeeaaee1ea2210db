import Verif.Model.Node
/-!
# Lemmas about node trees: iteration, lookup, copying
-/

set_option autoImplicit false

namespace Verif
namespace Node

/-- Induction over trees. -/
theorem ind {P : Node → Prop} (h : ∀ d kids, (∀ k ∈ kids, P k) → P (mk d kids)) : ∀ n, P n := by
  intro n
  exact Node.rec (motive_1 := P) (motive_2 := fun l => ∀ k ∈ l, P k) (fun d kids ih => h d kids ih)
    (by simp) (fun k ks h1 h2 x hx => by
      rcases List.mem_cons.1 hx with e | e
      · rw [e]; exact h1
      · exact h2 x e) n

theorem eta (n : Node) : mk n.d n.kids = n := by cases n; rfl

@[simp] theorem d_mk (d : NodeData) (k : List Node) : (mk d k).d = d := rfl
@[simp] theorem kids_mk (d : NodeData) (k : List Node) : (mk d k).kids = k := rfl

@[simp] theorem sub?_nil (n : Node) : n.sub? [] = some n := by cases n; rfl

theorem sub?_cons (n : Node) (i : Nat) (is : List Nat) : n.sub? (i :: is) = n.kids[i]?.bind (fun k => k.sub? is) := by
  cases n with
  | mk d kids =>
    show (match kids[i]? with | none => none | some k => k.sub? is) = _
    cases h : kids[i]? <;> simp [h]

theorem sub?_append (n : Node) (p q : List Nat) : n.sub? (p ++ q) = (n.sub? p).bind (fun k => k.sub? q) := by
  induction p generalizing n with
  | nil => simp
  | cons i p ih =>
    rw [List.cons_append, sub?_cons, sub?_cons]
    cases n.kids[i]? with
    | none => rfl
    | some k => simpa using ih k

/-! ## Iteration -/

mutual
/-- The positions of a tree, parents first. -/
def pre : Node → List (List Nat)
  | mk _ kids => [] :: preL kids 0
/-- The positions in a list of trees, numbered from `i`. -/
def preL : List Node → Nat → List (List Nat)
  | [], _ => []
  | k :: ks, i => (pre k).map (fun p => i :: p) ++ preL ks (i + 1)
end

theorem pre_eq (n : Node) : pre n = [] :: preL n.kids 0 := by cases n; rw [pre]; rfl

/-- The positions after the subtree at a position. -/
def skip : Node → List Nat → List (List Nat)
  | _, [] => []
  | n, i :: is => match n.kids[i]? with
    | none => []
    | some k => (skip k is).map (fun p => i :: p) ++ preL (n.kids.drop (i + 1)) (i + 1)

theorem skip_snoc (n : Node) (q : List Nat) (i : Nat) (parent : Node) (hq : n.sub? q = some parent) (hi : i < parent.kids.length) :
    skip n (q ++ [i]) = (preL (parent.kids.drop (i + 1)) (i + 1)).map (fun p => q ++ p) ++ skip n q := by
  induction q generalizing n with
  | nil =>
    simp only [sub?_nil, Option.some.injEq] at hq
    subst hq
    simp [skip, List.getElem?_eq_getElem hi]
  | cons j q ih =>
    rw [sub?_cons] at hq
    cases hk : n.kids[j]? with
    | none => rw [hk] at hq; cases hq
    | some k =>
      rw [hk] at hq
      have := ih k hq
      rw [List.cons_append, skip, skip, hk]
      simp only [this]
      simp [List.map_append, List.map_map, Function.comp_def]

/-- The positions after a position. -/
def rest (n : Node) (p : List Nat) (v : Node) : List (List Nat) :=
  (preL v.kids 0).map (fun r => p ++ r) ++ skip n p

theorem preL_cons_ne (k : Node) (ks : List Node) (i : Nat) :
    preL (k :: ks) i = [i] :: ((preL k.kids 0).map (fun p => i :: p) ++ preL ks (i + 1)) := by
  rw [preL, pre_eq]; rfl

theorem eq_nil_or_snoc (p : List Nat) : p = [] ∨ ∃ q i, p = q ++ [i] := by
  rcases List.eq_nil_or_concat p with h | ⟨q, i, h⟩
  · exact .inl h
  · exact .inr ⟨q, i, by rw [h, List.concat_eq_append]⟩

theorem sub?_snoc {n v : Node} {q : List Nat} {i : Nat} (h : n.sub? (q ++ [i]) = some v) :
    ∃ parent, n.sub? q = some parent ∧ parent.kids[i]? = some v := by
  rw [sub?_append] at h
  cases hq : n.sub? q with
  | none => rw [hq] at h; cases h
  | some parent =>
    rw [hq] at h
    refine ⟨parent, rfl, ?_⟩
    simp only [Option.bind_some, sub?_cons] at h
    cases hk : parent.kids[i]? with
    | none => rw [hk] at h; cases h
    | some k => rw [hk] at h; simpa using h

/-- Leaving a subtree: the loop of `next` finds the first position behind it. -/
theorem up_spec (n : Node) (p : List Nat) (v : Node) (hp : n.sub? p = some v) :
    (skip n p = [] ∧ Iter.up n p.reverse = ⟨false, []⟩) ∨
    ∃ q w t, skip n p = q :: t ∧ Iter.up n p.reverse = ⟨true, q.reverse⟩ ∧ n.sub? q = some w ∧ rest n q w = t := by
  generalize hn : p.length = k
  induction k generalizing p v with
  | zero =>
    rw [List.length_eq_zero_iff] at hn; subst hn
    exact .inl ⟨by cases n; rfl, rfl⟩
  | succ k ih =>
    rcases eq_nil_or_snoc p with h | ⟨q, i, h⟩
    · subst h; simp at hn
    subst h
    obtain ⟨parent, hq, hi⟩ := sub?_snoc hp
    have hlt : i < parent.kids.length := (List.getElem?_eq_some_iff.1 hi).1
    rw [skip_snoc n q i parent hq hlt]
    have hup : Iter.up n (q ++ [i]).reverse =
        if i + 1 ≠ parent.kids.length then ⟨true, (i + 1) :: q.reverse⟩ else Iter.up n q.reverse := by
      rw [List.reverse_append]
      show Iter.up n (i :: q.reverse) = _
      rw [Iter.up, List.reverse_reverse, hq]
    rw [hup]
    by_cases hl : i + 1 = parent.kids.length
    · rw [if_neg (by simpa using hl), List.drop_eq_nil_of_le (by omega), preL]
      simpa using ih q parent hq (by simpa using hn)
    · rw [if_pos hl]
      right
      have hlt2 : i + 1 < parent.kids.length := by omega
      rw [List.drop_eq_getElem_cons hlt2, preL_cons_ne]
      have hw : n.sub? (q ++ [i + 1]) = some parent.kids[i + 1] := by
        rw [sub?_append, hq]; simp [sub?_cons, List.getElem?_eq_getElem hlt2]
      refine ⟨q ++ [i + 1], parent.kids[i + 1], _, rfl, by simp, hw, ?_⟩
      rw [rest, skip_snoc n q (i + 1) parent hq hlt2]
      simp [List.map_append, List.map_map, Function.comp_def, List.append_assoc]

theorem next_spec (n : Node) (p : List Nat) (v : Node) (hp : n.sub? p = some v) :
    (rest n p v = [] ∧ (Iter.next n ⟨true, p.reverse⟩).2 = false) ∨
    ∃ q w t, rest n p v = q :: t ∧ Iter.next n ⟨true, p.reverse⟩ = (⟨true, q.reverse⟩, true) ∧
      n.sub? q = some w ∧ rest n q w = t := by
  unfold Iter.next
  simp only [Bool.true_eq_false, if_false]
  by_cases hv : v.kids = []
  · have hr : rest n p v = skip n p := by simp [rest, hv, preL]
    rw [hr]
    cases hpr : p.reverse with
    | nil =>
      have : p = [] := by simpa using hpr
      subst this
      simp only [sub?_nil, Option.some.injEq] at hp
      subst hp
      left
      refine ⟨by cases n; rfl, ?_⟩
      simp [hv]
    | cons i st =>
      simp only [Iter.value]
      have : (i :: st).reverse = p := by rw [← hpr, List.reverse_reverse]
      rw [this, hp]
      simp only [hv, List.length_nil, ne_eq, not_true_eq_false, if_false]
      rcases up_spec n p v hp with ⟨a, b⟩ | ⟨q, w, t, a, b, c⟩
      · left; rw [← hpr, b]; exact ⟨a, rfl⟩
      · right; rw [← hpr, b]; exact ⟨q, w, t, a, rfl, c⟩
  · right
    obtain ⟨k, ks, hk⟩ := List.exists_cons_of_ne_nil hv
    have hr : rest n p v = (p ++ [0]) :: ((preL k.kids 0).map (fun r => (p ++ [0]) ++ r) ++
        ((preL ks 1).map (fun r => p ++ r) ++ skip n p)) := by
      rw [rest, hk, preL_cons_ne]
      simp [List.map_append, List.map_map, Function.comp_def, List.append_assoc]
    have hlt : 0 < v.kids.length := by rw [hk]; simp
    have hw : n.sub? (p ++ [0]) = some k := by
      rw [sub?_append, hp]; simp [sub?_cons, hk]
    refine ⟨p ++ [0], k, _, hr, ?_, hw, ?_⟩
    · cases hpr : p.reverse with
      | nil =>
        have : p = [] := by simpa using hpr
        subst this
        simp only [sub?_nil, Option.some.injEq] at hp
        subst hp
        simp [hk]
      | cons i st =>
        simp only [Iter.value]
        have : (i :: st).reverse = p := by rw [← hpr, List.reverse_reverse]
        rw [this, hp]
        simp only [List.reverse_append, hpr]
        rw [if_pos (by omega)]
        rfl
    · rw [rest, skip_snoc n p 0 v hp hlt]
      simp [hk]

theorem iterate_rest (n : Node) (fuel : Nat) (p : List Nat) (v : Node) (hp : n.sub? p = some v) :
    iterate n fuel ⟨true, p.reverse⟩ = (rest n p v).take fuel := by
  induction fuel generalizing p v with
  | zero => simp [iterate]
  | succ fuel ih =>
    rw [iterate]
    rcases next_spec n p v hp with ⟨h1, h2⟩ | ⟨q, w, t, h1, h2, h3, h4⟩
    · rw [h1]
      generalize Iter.next n ⟨true, p.reverse⟩ = x at h2 ⊢
      obtain ⟨a, b⟩ := x
      simp only at h2
      subst h2
      rfl
    · rw [h1, h2]
      simp only [List.reverse_reverse, List.take_succ_cons]
      rw [ih q w h3, h4]

theorem length_preL : ∀ (l : List Node) (i : Nat), (∀ k ∈ l, (pre k).length = k.count) → (preL l i).length = countL l := by
  intro l
  induction l with
  | nil => intro i _; rfl
  | cons k ks ih =>
    intro i h
    rw [preL, countL, List.length_append, List.length_map, h k (by simp), ih (i + 1) (fun x hx => h x (by simp [hx]))]

theorem length_pre (n : Node) : (pre n).length = n.count := by
  induction n using ind with
  | h d kids ih => rw [pre, count, List.length_cons, length_preL kids 0 ih]; omega

theorem count_pos (n : Node) : 0 < n.count := by cases n; rw [count]; omega

theorem length_preL_kids (n : Node) : (preL n.kids 0).length + 1 = n.count := by
  rw [← length_pre, pre_eq]; rfl

/-- The iteration ends by itself: more turns change nothing. -/
theorem iterate_fuel (n : Node) (fuel : Nat) (h : n.count ≤ fuel) : iterate n fuel {} = preL n.kids 0 := by
  have := iterate_rest n fuel [] n (by simp)
  have hr : rest n [] n = preL n.kids 0 := by
    have : skip n [] = [] := by cases n; rfl
    simp [rest, this]
  rw [hr] at this
  have hl := length_preL_kids n
  rw [List.take_of_length_le (by omega)] at this
  exact this

theorem positions_eq (n : Node) : positions n = preL n.kids 0 := iterate_fuel n n.count (Nat.le_refl _)

theorem mem_preL : ∀ (l : List Node) (i : Nat) (p : List Nat),
    (∀ k ∈ l, ∀ q, q ∈ pre k ↔ ∃ v, k.sub? q = some v) →
    (p ∈ preL l i ↔ ∃ j q k v, p = (i + j) :: q ∧ l[j]? = some k ∧ k.sub? q = some v) := by
  intro l
  induction l with
  | nil => intro i p _; simp [preL]
  | cons k ks ih =>
    intro i p h
    rw [preL, List.mem_append, ih (i + 1) p (fun x hx => h x (by simp [hx])), List.mem_map]
    constructor
    · rintro (⟨q, hq, rfl⟩ | ⟨j, q, k', v, rfl, h1, h2⟩)
      · obtain ⟨v, hv⟩ := (h k (by simp) q).1 hq
        exact ⟨0, q, k, v, by simp, by simp, hv⟩
      · exact ⟨j + 1, q, k', v, by simp; omega, by simpa using h1, h2⟩
    · rintro ⟨j, q, k', v, rfl, h1, h2⟩
      cases j with
      | zero =>
        simp only [List.getElem?_cons_zero, Option.some.injEq] at h1
        subst h1
        exact .inl ⟨q, (h k (by simp) q).2 ⟨v, h2⟩, by simp⟩
      | succ j =>
        exact .inr ⟨j, q, k', v, by simp; omega, by simpa using h1, h2⟩

theorem mem_pre (n : Node) (p : List Nat) : p ∈ pre n ↔ ∃ v, n.sub? p = some v := by
  induction n using ind generalizing p with
  | h d kids ih =>
    rw [pre, List.mem_cons, mem_preL kids 0 p ih]
    constructor
    · rintro (rfl | ⟨j, q, k, v, rfl, h1, h2⟩)
      · exact ⟨_, sub?_nil _⟩
      · exact ⟨v, by rw [sub?_cons]; simp [h1, h2]⟩
    · rintro ⟨v, hv⟩
      cases p with
      | nil => exact .inl rfl
      | cons j q =>
        right
        rw [sub?_cons] at hv
        cases hk : kids[j]? with
        | none => simp [hk] at hv
        | some k => exact ⟨j, q, k, v, by simp, hk, by simpa [hk] using hv⟩

theorem mem_positions (n : Node) (p : List Nat) : p ∈ positions n ↔ p ≠ [] ∧ ∃ v, n.sub? p = some v := by
  rw [positions_eq]
  have h := mem_pre n p
  rw [pre_eq, List.mem_cons] at h
  have hne : p ∈ preL n.kids 0 → p ≠ [] := by
    intro hp
    obtain ⟨j, q, k, v, rfl, _, _⟩ := (mem_preL n.kids 0 p (fun k _ q => mem_pre k q)).1 hp
    simp
  constructor
  · intro hp; exact ⟨hne hp, h.1 (.inr hp)⟩
  · rintro ⟨h1, h2⟩
    rcases h.2 h2 with e | e
    · exact absurd e h1
    · exact e

/-- Every position in front of another one is neither equal to it nor below it. -/
theorem pairwise_preL : ∀ (l : List Node) (i : Nat),
    (∀ k ∈ l, (pre k).Pairwise (fun a b => ¬ b <+: a)) → (preL l i).Pairwise (fun a b => ¬ b <+: a) := by
  intro l
  induction l with
  | nil => intro i _; simp [preL]
  | cons k ks ih =>
    intro i h
    rw [preL, List.pairwise_append]
    refine ⟨?_, ih (i + 1) (fun x hx => h x (by simp [hx])), ?_⟩
    · rw [List.pairwise_map]
      refine (h k (by simp)).imp ?_
      intro a b hab hp
      exact hab (List.cons_prefix_cons.1 hp).2
    · intro a ha b hb hp
      obtain ⟨q, _, rfl⟩ := List.mem_map.1 ha
      obtain ⟨j, q', k', v, rfl, _, _⟩ := (mem_preL ks (i + 1) b (fun k _ q => mem_pre k q)).1 hb
      have := (List.cons_prefix_cons.1 hp).1
      omega

theorem pairwise_pre (n : Node) : (pre n).Pairwise (fun a b => ¬ b <+: a) := by
  induction n using ind with
  | h d kids ih =>
    rw [pre, List.pairwise_cons]
    refine ⟨?_, pairwise_preL kids 0 ih⟩
    intro a ha hp
    obtain ⟨j, q, k, v, rfl, _, _⟩ := (mem_preL kids 0 a (fun k _ q => mem_pre k q)).1 ha
    simp at hp

/-! ## Lookup -/

theorem lookupFrom_spec (uid : Str) (l seen : List Node) (best : Option (Nat × Nat))
    (hb : match best with
      | none => ∀ k ∈ seen, k.d.uid ≠ uid
      | some b => ∃ k, seen[b.1]? = some k ∧ k.d.uid = uid ∧ k.d.rank = b.2 ∧ ∀ k' ∈ seen, k'.d.uid = uid → b.2 ≤ k'.d.rank) :
    match lookupFrom uid l seen.length best with
      | none => ∀ k ∈ seen ++ l, k.d.uid ≠ uid
      | some b => ∃ k, (seen ++ l)[b.1]? = some k ∧ k.d.uid = uid ∧ k.d.rank = b.2 ∧ ∀ k' ∈ seen ++ l, k'.d.uid = uid → b.2 ≤ k'.d.rank := by
  induction l generalizing seen best with
  | nil => simpa [lookupFrom] using hb
  | cons k l ih =>
    rw [lookupFrom]
    have e : seen ++ k :: l = (seen ++ [k]) ++ l := by simp
    have el : seen.length + 1 = (seen ++ [k]).length := by simp
    rw [e, el]
    apply ih
    by_cases hk : k.d.uid = uid
    · cases best with
      | none =>
        rw [if_pos ⟨hk, rfl⟩]
        refine ⟨k, by simp, hk, rfl, ?_⟩
        intro k' h' hu
        rcases List.mem_append.1 h' with h | h
        · exact absurd hu (hb k' h)
        · rw [List.mem_singleton] at h; subst h; exact Nat.le_refl _
      | some b =>
        obtain ⟨k0, h1, h2, h3, h4⟩ := hb
        by_cases hr : k.d.rank < b.2
        · rw [if_pos ⟨hk, by simpa using hr⟩]
          refine ⟨k, by simp, hk, rfl, ?_⟩
          intro k' h' hu
          show k.d.rank ≤ _
          rcases List.mem_append.1 h' with h | h
          · have := h4 k' h hu; omega
          · rw [List.mem_singleton] at h; subst h; exact Nat.le_refl _
        · rw [if_neg (by rintro ⟨_, h⟩; exact hr (by simpa using h))]
          refine ⟨k0, ?_, h2, h3, ?_⟩
          · rw [List.getElem?_append_left (List.getElem?_eq_some_iff.1 h1).1]; exact h1
          · intro k' h' hu
            rcases List.mem_append.1 h' with h | h
            · exact h4 k' h hu
            · rw [List.mem_singleton] at h; subst h; omega
    · rw [if_neg (fun h => hk h.1)]
      cases best with
      | none =>
        intro k' h'
        rcases List.mem_append.1 h' with h | h
        · exact hb k' h
        · rw [List.mem_singleton] at h; subst h; exact hk
      | some b =>
        obtain ⟨k0, h1, h2, h3, h4⟩ := hb
        refine ⟨k0, ?_, h2, h3, ?_⟩
        · rw [List.getElem?_append_left (List.getElem?_eq_some_iff.1 h1).1]; exact h1
        · intro k' h' hu
          rcases List.mem_append.1 h' with h | h
          · exact h4 k' h hu
          · rw [List.mem_singleton] at h; subst h; exact absurd hu hk

theorem lookup_none (n : Node) (uid : Str) : n.lookup uid = none ↔ ∀ k ∈ n.kids, k.d.uid ≠ uid := by
  have h := lookupFrom_spec uid n.kids [] none (by simp)
  simp only [List.length_nil, List.nil_append] at h
  unfold lookup
  cases hl : lookupFrom uid n.kids 0 none with
  | none => rw [hl] at h; simpa using h
  | some b =>
    rw [hl] at h
    obtain ⟨k, h1, h2, _⟩ := h
    simp only [Option.map_some, reduceCtorEq, false_iff]
    intro hall
    exact hall k (List.mem_of_getElem? h1) h2

theorem lookup_some {n : Node} {uid : Str} {i : Nat} (h : n.lookup uid = some i) :
    ∃ k, n.kids[i]? = some k ∧ k.d.uid = uid ∧ ∀ k' ∈ n.kids, k'.d.uid = uid → k.d.rank ≤ k'.d.rank := by
  have hs := lookupFrom_spec uid n.kids [] none (by simp)
  simp only [List.length_nil, List.nil_append] at hs
  unfold lookup at h
  cases hl : lookupFrom uid n.kids 0 none with
  | none => rw [hl] at h; cases h
  | some b =>
    rw [hl] at h hs
    simp only [Option.map_some, Option.some.injEq] at h
    subst h
    obtain ⟨k, h1, h2, h3, h4⟩ := hs
    exact ⟨k, h1, h2, fun k' a b => h3 ▸ h4 k' a b⟩

/-- With distinct ids the child with the id is found. -/
theorem lookup_unique {n k : Node} {i : Nat} (hn : (n.kids.map (fun k => k.d.uid)).Nodup) (hk : n.kids[i]? = some k) :
    n.lookup k.d.uid = some i := by
  cases hl : n.lookup k.d.uid with
  | none => exact absurd rfl ((lookup_none _ _).1 hl k (List.mem_of_getElem? hk))
  | some j =>
    obtain ⟨k', h1, h2, _⟩ := lookup_some hl
    obtain ⟨hj, ej⟩ := List.getElem?_eq_some_iff.1 h1
    obtain ⟨hi, ei⟩ := List.getElem?_eq_some_iff.1 hk
    rw [List.nodup_iff_pairwise_ne, List.pairwise_iff_getElem] at hn
    rcases Nat.lt_trichotomy j i with h | h | h
    · refine absurd ?_ (hn j i (by simpa using hj) (by simpa using hi) h)
      simp [ej, ei, h2]
    · rw [h]
    · refine absurd ?_ (hn i j (by simpa using hi) (by simpa using hj) h)
      simp [ej, ei, h2]

/-! ## Paths -/

/-- Ids of the descendants are not empty and contain no dots. -/
inductive GoodIds : Node → Prop
  | mk {d : NodeData} {kids : List Node} : (∀ k ∈ kids, k.d.uid ≠ [] ∧ '.' ∉ k.d.uid) → (∀ k ∈ kids, GoodIds k) →
      GoodIds (mk d kids)

/-- Siblings have different ids, everywhere below. -/
inductive UniqueIds : Node → Prop
  | mk {d : NodeData} {kids : List Node} : (kids.map (fun k => k.d.uid)).Nodup → (∀ k ∈ kids, UniqueIds k) →
      UniqueIds (mk d kids)

theorem GoodIds.kid {n k : Node} {i : Nat} (h : GoodIds n) (hk : n.kids[i]? = some k) :
    (k.d.uid ≠ [] ∧ '.' ∉ k.d.uid) ∧ GoodIds k := by
  cases h with
  | mk h1 h2 => exact ⟨h1 k (List.mem_of_getElem? hk), h2 k (List.mem_of_getElem? hk)⟩

theorem UniqueIds.kid {n k : Node} {i : Nat} (h : UniqueIds n) (hk : n.kids[i]? = some k) :
    (n.kids.map (fun k => k.d.uid)).Nodup ∧ UniqueIds k := by
  cases h with
  | mk h1 h2 => exact ⟨h1, h2 k (List.mem_of_getElem? hk)⟩

/-- Ids joined by dots. -/
def dots : List Str → Str
  | [] => []
  | [x] => x
  | x :: y :: l => x ++ '.' :: dots (y :: l)

theorem splitDots_acc (s acc : Str) (h : '.' ∉ s) : splitDots s acc = [acc.reverse ++ s] := by
  induction s generalizing acc with
  | nil => simp [splitDots]
  | cons ch s ih =>
    have hc : ch ≠ '.' := fun e => h (by simp [e])
    rw [splitDots, ih (ch :: acc) (fun hm => h (by simp [hm]))]
    · simp
    · intro e; exact hc e

theorem splitDots_dot (x s acc : Str) (h : '.' ∉ x) :
    splitDots (x ++ '.' :: s) acc = (acc.reverse ++ x) :: splitDots s [] := by
  induction x generalizing acc with
  | nil => simp [splitDots]
  | cons ch x ih =>
    have hc : ch ≠ '.' := fun e => h (by simp [e])
    rw [List.cons_append, splitDots, ih (ch :: acc) (fun hm => h (by simp [hm]))]
    · simp
    · intro e; exact hc e

theorem splitDots_dots (l : List Str) (hl : l ≠ []) (h : ∀ x ∈ l, '.' ∉ x) : splitDots (dots l) [] = l := by
  induction l with
  | nil => exact absurd rfl hl
  | cons x l ih =>
    cases l with
    | nil => rw [dots, splitDots_acc _ _ (h x (by simp))]; simp
    | cons y l =>
      rw [dots, splitDots_dot _ _ _ (h x (by simp)), ih (by simp) (fun z hz => h z (by simp [hz]))]
      simp

theorem splitDots_ne (s acc : Str) : splitDots s acc ≠ [] := by
  induction s generalizing acc with
  | nil => simp [splitDots]
  | cons ch s ih =>
    by_cases hc : ch = '.'
    · subst hc; simp [splitDots]
    · rw [splitDots]
      · exact ih _
      · exact hc

theorem dots_splitDots (s acc : Str) : dots (splitDots s acc) = acc.reverse ++ s := by
  induction s generalizing acc with
  | nil => simp [splitDots, dots]
  | cons ch s ih =>
    by_cases hc : ch = '.'
    · subst hc
      have : splitDots ('.' :: s) acc = acc.reverse :: splitDots s [] := by simp [splitDots]
      rw [this]
      obtain ⟨y, l, hyl⟩ := List.exists_cons_of_ne_nil (splitDots_ne s [])
      rw [hyl, dots, ← hyl, ih []]
      simp
    · rw [splitDots, ih]
      · simp
      · exact hc

theorem joinIds_eq (l : List Node) (h : ∀ k ∈ l, k.d.uid ≠ []) : joinIds l = dots (l.map (fun k => k.d.uid)) := by
  unfold joinIds
  induction l with
  | nil => rfl
  | cons k l ih =>
    have hk : k.d.uid.length ≠ 0 := by
      have := h k (by simp)
      intro e; exact this (List.length_eq_zero_iff.1 e)
    rw [List.flatMap_cons, if_pos hk]
    cases l with
    | nil => simp [dots]
    | cons y l =>
      have hy : y.d.uid.length ≠ 0 := by
        have := h y (by simp)
        intro e; exact this (List.length_eq_zero_iff.1 e)
      have ih' := ih (fun z hz => h z (by simp [hz]))
      have hne : (y :: l).flatMap (fun k => if k.d.uid.length ≠ 0 then k.d.uid ++ ['.'] else []) ≠ [] := by
        rw [List.flatMap_cons, if_pos hy]; simp
      rw [List.dropLast_append_of_ne_nil hne, ih']
      simp [dots]

theorem lineage_good {n : Node} (h : GoodIds n) (pos : List Nat) :
    ∀ k ∈ n.lineage pos, k.d.uid ≠ [] ∧ '.' ∉ k.d.uid := by
  induction pos generalizing n with
  | nil => simp [lineage]
  | cons i is ih =>
    rw [lineage]
    cases hk : n.kids[i]? with
    | none => simp
    | some k =>
      obtain ⟨h1, h2⟩ := h.kid hk
      simp only [List.mem_cons]
      rintro x (e | e)
      · subst e; exact h1
      · exact ih h2 x e

theorem lineage_ne {n v : Node} {pos : List Nat} (hp : pos ≠ []) (hv : n.sub? pos = some v) : n.lineage pos ≠ [] := by
  cases pos with
  | nil => exact absurd rfl hp
  | cons i is =>
    rw [sub?_cons] at hv
    rw [lineage]
    cases hk : n.kids[i]? with
    | none => rw [hk] at hv; cases hv
    | some k => simp

/-- The ids along a position. -/
def ids (n : Node) (pos : List Nat) : List Str := (n.lineage pos).map (fun k => k.d.uid)

/-- With unique ids the descent along the ids of a position leads there. -/
theorem descend_ids {n v : Node} (h : UniqueIds n) {pos : List Nat} (hv : n.sub? pos = some v) :
    n.descend (n.ids pos) = some pos := by
  induction pos generalizing n with
  | nil => rw [ids, lineage]; simp [descend]
  | cons i is ih =>
    rw [sub?_cons] at hv
    cases hk : n.kids[i]? with
    | none => rw [hk] at hv; cases hv
    | some k =>
      rw [hk] at hv
      obtain ⟨h1, h2⟩ := h.kid hk
      have : n.ids (i :: is) = k.d.uid :: k.ids is := by simp [ids, lineage, hk]
      rw [this, descend, lookup_unique h1 hk]
      simp only [hk]
      rw [ih h2 hv]

/-- The descent leads to a position with exactly these ids. -/
theorem descend_sound {n : Node} {xs : List Str} {pos : List Nat} (h : n.descend xs = some pos) :
    n.ids pos = xs ∧ ∃ v, n.sub? pos = some v := by
  induction xs generalizing n pos with
  | nil => rw [descend] at h; cases h; exact ⟨by simp [ids, lineage], _, sub?_nil n⟩
  | cons x xs ih =>
    rw [descend] at h
    cases hl : n.lookup x with
    | none => rw [hl] at h; cases h
    | some i =>
      rw [hl] at h
      simp only [] at h
      cases hk : n.kids[i]? with
      | none => rw [hk] at h; cases h
      | some k =>
        rw [hk] at h
        simp only [] at h
        cases hd : k.descend xs with
        | none => rw [hd] at h; cases h
        | some is =>
          rw [hd] at h
          cases h
          obtain ⟨e1, v, e2⟩ := ih hd
          obtain ⟨k', h1, h2, _⟩ := lookup_some hl
          rw [hk] at h1; cases h1
          refine ⟨?_, v, by rw [sub?_cons, hk]; exact e2⟩
          have : n.ids (i :: is) = k.d.uid :: k.ids is := by simp [ids, lineage, hk]
          rw [this, e1, h2]

/-- The Boolean loop agrees with the descent. -/
theorem hasLoop_iff (n : Node) (xs : List Str) : n.hasLoop xs = (n.descend xs).isSome := by
  induction xs generalizing n with
  | nil => simp [hasLoop, descend]
  | cons x xs ih =>
    rw [hasLoop, descend]
    cases n.lookup x with
    | none => rfl
    | some i =>
      simp only []
      cases n.kids[i]? with
      | none => rfl
      | some k =>
        simp only []
        rw [ih]
        cases k.descend xs <;> rfl

theorem relPath_eq {n : Node} (h : GoodIds n) (pos : List Nat) : n.relPath pos = dots (n.ids pos) :=
  joinIds_eq _ (fun k hk => (lineage_good h pos k hk).1)

theorem dots_ne {l : List Str} (hl : l ≠ []) (h : ∀ x ∈ l, x ≠ []) : dots l ≠ [] := by
  cases l with
  | nil => exact absurd rfl hl
  | cons x l =>
    cases l with
    | nil => rw [dots]; exact h x (by simp)
    | cons y l => rw [dots]; simp

theorem insertBy_perm {α : Type} (key : α → Nat) (x : α) (l : List α) : (insertBy key x l).Perm (x :: l) := by
  induction l with
  | nil => exact List.Perm.refl _
  | cons y ys ih =>
    rw [insertBy]
    split
    · exact List.Perm.refl _
    · exact (List.Perm.cons y ih).trans (List.Perm.swap x y ys)

theorem stableSort_perm {α : Type} (key : α → Nat) (l : List α) : (stableSort key l).Perm l := by
  induction l with
  | nil => exact List.Perm.refl _
  | cons x xs ih => exact (insertBy_perm key x _).trans (List.Perm.cons x ih)

theorem insertBy_sorted {α : Type} (key : α → Nat) (x : α) (l : List α) (h : l.Pairwise (fun a b => key a ≤ key b)) :
    (insertBy key x l).Pairwise (fun a b => key a ≤ key b) := by
  induction l with
  | nil => simp [insertBy]
  | cons y ys ih =>
    rw [insertBy]
    split
    · rename_i hxy
      refine List.pairwise_cons.2 ⟨?_, h⟩
      intro z hz
      rw [List.mem_cons] at hz
      rcases hz with rfl | hz
      · exact hxy
      · exact Nat.le_trans hxy ((List.pairwise_cons.1 h).1 z hz)
    · rename_i hxy
      refine List.pairwise_cons.2 ⟨?_, ih (List.pairwise_cons.1 h).2⟩
      intro z hz
      have := (insertBy_perm key x ys).mem_iff.1 hz
      rw [List.mem_cons] at this
      rcases this with rfl | hz
      · omega
      · exact (List.pairwise_cons.1 h).1 z hz

theorem stableSort_sorted {α : Type} (key : α → Nat) (l : List α) : (stableSort key l).Pairwise (fun a b => key a ≤ key b) := by
  induction l with
  | nil => exact List.Pairwise.nil
  | cons x xs ih => exact insertBy_sorted key x _ ih

theorem clone_d (n : Node) : (clone n).d = n.d := by cases n; rw [clone]; rfl
theorem clone_kids (n : Node) : (clone n).kids = cloneKids n.kids 0 := by cases n; rw [clone]; rfl

end Node
end Verif
