import Verif.Model.PyVal
/-!
# C82: values in Python

In Python a block of words is the list of its words, and a word is its number.
-/

set_option autoImplicit false
set_option linter.unusedSimpArgs false

namespace Verif
open Py

namespace Spec

/-- `l[i]` for Python lists. -/
def pyItem (l : List W) (i : Int) : Option W :=
  if 0 ≤ i then l[i.toNat]? else if 0 ≤ i + l.length then l[(i + l.length).toNat]? else none

/-- An end of a slice, counted from the beginning. -/
def fromFront (len : Nat) (x : Int) : Int := if x < 0 then x + len else x

/-- Where a slice begins, forwards and backwards. -/
def firstUp (len : Nat) (s : Slice) : Int := match s.start with | some x => max 0 (fromFront len x) | none => 0
def firstDown (len : Nat) (s : Slice) : Int := match s.start with | some x => min (len - 1) (fromFront len x) | none => len - 1

/-- The indices of `l[i:j:k]` in their order. Forwards: those from `i` on before `j` in steps of `k`, where `i` before the first item means the first; backwards: those from `i` down after
`j`, where `i` after the last item means the last. -/
def sliceIndices (len : Nat) (s : Slice) (k : Int) : List Nat :=
  if 0 < k then
    (List.range len).filter fun x => decide (firstUp len s ≤ x ∧ (∀ y, s.stop = some y → (x : Int) < fromFront len y) ∧ k ∣ x - firstUp len s)
  else
    (List.range len).reverse.filter fun x => decide ((x : Int) ≤ firstDown len s ∧ (∀ y, s.stop = some y → fromFront len y < x) ∧ -k ∣ firstDown len s - x)

/-- `l[i:j:k]` for Python lists; `none`: `ValueError`. -/
def pySlice (l : List W) (s : Slice) : Option (List W) :=
  let k := s.step.getD 1
  if k = 0 then none else some ((sliceIndices l.length s k).map fun i => l[i]?.getD 0#32)

end Spec
open Spec

/-! ### Lists in order -/

theorem eq_of_ordered {R : Nat → Nat → Prop} (ha : ∀ x y, R x y → ¬ R y x) : ∀ {a b : List Nat}, a.Pairwise R → b.Pairwise R → (∀ x, x ∈ a ↔ x ∈ b) → a = b := by
  intro a
  induction a with
  | nil =>
    intro b _ _ h
    cases b with
    | nil => rfl
    | cons y b => exact absurd ((h y).2 (by simp)) (by simp)
  | cons x a ih =>
    intro b h1 h2 h
    cases b with
    | nil => exact absurd ((h x).1 (by simp)) (by simp)
    | cons y b =>
      rw [List.pairwise_cons] at h1 h2
      have e : x = y := by
        have hx := (h x).1 (by simp)
        have hy := (h y).2 (by simp)
        rcases List.mem_cons.1 hx with e | hx
        · exact e
        rcases List.mem_cons.1 hy with e | hy
        · exact e.symm
        exact absurd (h1.1 y hy) (ha _ _ (h2.1 x hx))
      subst e
      refine congrArg (x :: ·) (ih h1.2 h2.2 ?_)
      intro z
      have irr : ∀ z, z ∈ a → z ≠ x := fun z hz e => by have := h1.1 z hz; rw [e] at this; exact ha _ _ this this
      have irr' : ∀ z, z ∈ b → z ≠ x := fun z hz e => by have := h2.1 z hz; rw [e] at this; exact ha _ _ this this
      constructor
      · intro hz
        rcases List.mem_cons.1 ((h z).1 (by simp [hz])) with e | hz'
        · exact absurd e (irr z hz)
        · exact hz'
      · intro hz
        rcases List.mem_cons.1 ((h z).2 (by simp [hz])) with e | hz'
        · exact absurd e (irr' z hz)
        · exact hz'

theorem steps_iff {s t k : Int} (hk : 0 < k) (x : Int) : (∃ i : Nat, (i : Int) < (t - s - 1) / k + 1 ∧ x = s + i * k) ↔ s ≤ x ∧ x < t ∧ k ∣ x - s := by
  constructor
  · rintro ⟨i, h1, rfl⟩
    have h2 : (i : Int) ≤ (t - s - 1) / k := by omega
    rw [Int.le_ediv_iff_mul_le hk] at h2
    have h3 : 0 ≤ (i : Int) * k := Int.mul_nonneg (by omega) (by omega)
    exact ⟨by omega, by omega, ⟨i, by rw [Int.mul_comm]; omega⟩⟩
  · rintro ⟨h1, h2, j, hj⟩
    have hj0 : 0 ≤ j := by
      rcases Int.lt_or_le j 0 with hn | hn
      · have := Int.mul_neg_of_pos_of_neg hk hn
        omega
      · exact hn
    refine ⟨j.toNat, ?_, ?_⟩
    · have : j ≤ (t - s - 1) / k := by rw [Int.le_ediv_iff_mul_le hk, Int.mul_comm]; omega
      omega
    · rw [Int.toNat_of_nonneg hj0, Int.mul_comm]; omega

/-! ### Vectors -/

theorem C82_item_partial (v : Vec) (hv : v.valid = true) (hl : v.vals.length < 2 ^ 31) (i : Int) (hi : -2 ^ 31 ≤ i ∧ i < 2 ^ 31) :
    v.getItem i = match pyItem v.vals i with | some x => .ok x | none => .index := by
  have e1 : (BitVec.ofNat 32 v.vals.length).toInt = v.vals.length := by
    rw [BitVec.toInt_ofNat']
    simp only [Nat.reducePow] at *
    rw [Int.bmod_def]
    split <;> omega
  unfold Vec.getItem pyItem
  rw [if_neg (by omega), e1]
  by_cases h1 : (v.vals.length : Int) ≤ i
  · rw [if_pos h1, if_pos (by omega), List.getElem?_eq_none (by omega)]
  · rw [if_neg h1]
    by_cases h0 : 0 ≤ i
    · have hn : ¬ i < 0 := by omega
      simp only [if_neg hn, if_pos h0]
      have e2 : (BitVec.ofInt 64 i).toNat = i.toNat := by
        rw [BitVec.toNat_ofInt]; omega
      rw [Vec.at, if_pos hv, e2, List.getElem?_eq_getElem (by omega)]
    · have hn : i < 0 := by omega
      have e3 : ((BitVec.ofInt 64 i + BitVec.ofNat 64 v.vals.length).setWidth 32).toInt = i + v.vals.length := by
        have : BitVec.ofNat 64 v.vals.length = BitVec.ofInt 64 v.vals.length := by
          apply BitVec.eq_of_toNat_eq
          rw [BitVec.toNat_ofInt, BitVec.toNat_ofNat]
          omega
        rw [this, ← BitVec.ofInt_add]
        rw [BitVec.toInt_setWidth, BitVec.toNat_ofInt]
        rw [Int.bmod_def]
        simp only [Nat.reducePow] at *
        split <;> omega
      simp only [e3, if_pos hn, if_neg h0]
      by_cases h2 : 0 ≤ i + v.vals.length
      · rw [if_neg (by omega), if_pos h2]
        have e2 : (BitVec.ofInt 64 (i + v.vals.length)).toNat = (i + v.vals.length).toNat := by
          rw [BitVec.toNat_ofInt]; omega
        rw [Vec.at, if_pos hv, e2, List.getElem?_eq_getElem (by omega)]
      · rw [if_pos (by omega), if_neg h2]

theorem sliceLoop_eq (v : Vec) (hv : v.valid = true) (hl : v.vals.length < 2 ^ 64) (k : Int) : ∀ (n : Nat) (s : Int), (∀ i : Nat, i < n → 0 ≤ s + i * k ∧ s + i * k < v.vals.length) →
    v.sliceLoop n (BitVec.ofInt 64 s) (BitVec.ofInt 64 k) = .ok ((List.range n).map fun (i : Nat) => v.vals[(s + i * k).toNat]?.getD 0#32) := by
  intro n
  induction n with
  | zero => intro s _; rfl
  | succ n ih =>
    intro s h
    have h0 := h 0 (by omega)
    simp only [Int.natCast_zero, Int.zero_mul, Int.add_zero] at h0
    have e2 : (BitVec.ofInt 64 s).toNat = s.toNat := by rw [BitVec.toNat_ofInt]; omega
    have hlt : s.toNat < v.vals.length := by omega
    rw [Vec.sliceLoop, Vec.at, if_pos hv, e2, List.getElem?_eq_getElem hlt]
    simp only []
    rw [← BitVec.ofInt_add, ih (s + k) (by
      intro i hi
      have := h (i + 1) (by omega)
      have e : s + k + (i : Int) * k = s + ((i + 1 : Nat) : Int) * k := by rw [Int.natCast_add, Int.add_mul]; omega
      rw [e]; exact this)]
    simp only []
    rw [List.range_succ_eq_map, List.map_cons, List.map_map]
    have e1 : (v.vals[(s + ((0 : Nat) : Int) * k).toNat]?).getD 0#32 = v.vals[s.toNat] := by
      simp [List.getElem?_eq_getElem hlt]
    rw [e1]
    congr 2
    apply List.map_congr_left
    intro i _
    have e : s + k + (i : Int) * k = s + ((Nat.succ i : Nat) : Int) * k := by rw [Nat.succ_eq_add_one, Int.natCast_add, Int.add_mul]; omega
    simp only [Function.comp_apply, e]

/-- The items of a slice. -/
theorem compute_spec (s : Slice) (len : Nat) :
    (s.step.getD 1 = 0 → s.compute len = none) ∧
    (s.step.getD 1 ≠ 0 → ∃ a n, s.compute len = some (a, s.step.getD 1, n) ∧
      (∀ i : Nat, i < n → 0 ≤ a + i * s.step.getD 1 ∧ a + i * s.step.getD 1 < len) ∧
      (List.range n).map (fun (i : Nat) => (a + i * s.step.getD 1).toNat) = sliceIndices len s (s.step.getD 1)) := by
  constructor
  · intro h; simp [Slice.compute, h]
  intro hk
  unfold Slice.compute
  simp only [if_neg hk]
  generalize s.step.getD 1 = k at hk
  rcases Int.lt_or_lt_of_ne hk with hneg | hpos
  · -- backwards
    simp only [hneg, decide_true, if_true]
    refine ⟨_, _, rfl, ?_⟩
    generalize ha : s.first len true = a
    generalize ht : s.last len true = t
    have ha1 : -1 ≤ a ∧ a < len := by
      subst ha; unfold Slice.first; cases s.start <;> simp only [adjust, if_true] <;> (try split) <;> (try split) <;> omega
    have ht1 : -1 ≤ t ∧ t < len := by
      subst ht; unfold Slice.last; cases s.stop <;> simp only [adjust, if_true] <;> (try split) <;> (try split) <;> omega
    have hmem : ∀ i : Nat, i < (if t < a then (a - t - 1) / (-k) + 1 else 0 : Int).toNat ↔ t < a ∧ (i : Int) < (a - t - 1) / (-k) + 1 := by
      intro i
      split
      · omega
      · simp; omega
    have hst := fun x => steps_iff (s := -a) (t := -t) (k := -k) (by omega) x
    have e0 : -t - -a - 1 = a - t - 1 := by omega
    rw [e0] at hst
    have hst' : ∀ x : Int, (∃ i : Nat, (i : Int) < (a - t - 1) / (-k) + 1 ∧ x = a + i * k) ↔ x ≤ a ∧ t < x ∧ -k ∣ a - x := by
      intro x
      have := hst (-x)
      have e1 : -x - -a = a - x := by omega
      rw [e1] at this
      constructor
      · rintro ⟨i, h1, h2⟩
        have := this.1 ⟨i, h1, by rw [Int.mul_neg]; omega⟩
        exact ⟨by omega, by omega, this.2.2⟩
      · rintro ⟨h1, h2, h3⟩
        obtain ⟨i, i1, i2⟩ := this.2 ⟨by omega, by omega, h3⟩
        exact ⟨i, i1, by rw [Int.mul_neg] at i2; omega⟩
    refine ⟨?_, ?_⟩
    · intro i hi
      obtain ⟨h1, h2⟩ := (hmem i).1 hi
      have := (hst' (a + i * k)).1 ⟨i, h2, rfl⟩
      omega
    · unfold sliceIndices
      rw [if_neg (show ¬ 0 < k by omega)]
      apply eq_of_ordered (R := fun x y => y < x) (by omega)
      · rw [List.pairwise_map]
        refine List.Pairwise.imp_of_mem ?_ List.pairwise_lt_range
        intro i j hi hj hij
        rw [List.mem_range] at hi hj
        obtain ⟨h1, h2⟩ := (hmem j).1 hj
        have b1 := (hst' (a + j * k)).1 ⟨j, h2, rfl⟩
        have : (i : Int) * k > j * k := Int.mul_lt_mul_of_neg_right (by omega) hneg
        omega
      · refine List.Pairwise.filter _ ?_
        rw [List.pairwise_reverse]
        exact List.pairwise_lt_range
      · intro x
        rw [List.mem_map, List.mem_filter, List.mem_reverse, List.mem_range, decide_eq_true_eq]
        have hx := hst' x
        generalize hlo : firstDown len s = lo
        have hla : a = lo ∨ (lo < 0 ∧ a = -1) := by
          subst hlo ha
          unfold firstDown Slice.first
          cases s.start with
          | none => left; rfl
          | some y =>
            simp only [adjust, fromFront, if_true]
            split
            · split <;> omega
            · split <;> omega
        have hstop : x < len → ((∀ y, s.stop = some y → fromFront len y < (x : Int)) ↔ t < x) := by
          intro hxl
          subst ht
          unfold Slice.last
          cases s.stop with
          | none => simp; omega
          | some y =>
            simp only [Option.some.injEq, forall_eq', adjust, fromFront, if_true]
            split
            · split <;> omega
            · split <;> omega
        constructor
        · rintro ⟨i, hi, rfl⟩
          obtain ⟨h1, h2⟩ := (hmem i).1 (List.mem_range.1 hi)
          have b1 := (hst' (a + i * k)).1 ⟨i, h2, rfl⟩
          have e : ((a + i * k).toNat : Int) = a + i * k := Int.toNat_of_nonneg (by omega)
          have hl : (a + i * k).toNat < len := by omega
          have hs := hstop hl
          rw [e] at hs ⊢
          rw [hs]
          rcases hla with rfl | ⟨hla, hla'⟩
          · exact ⟨by omega, by omega, b1.2.1, b1.2.2⟩
          · omega
        · rintro ⟨h1, h2, h3, h4⟩
          rw [hstop h1] at h3
          rcases hla with rfl | ⟨hla, hla'⟩
          · obtain ⟨i, i1, i2⟩ := hx.2 ⟨h2, h3, h4⟩
            exact ⟨i, List.mem_range.2 ((hmem i).2 ⟨by omega, i1⟩), by omega⟩
          · omega
  · -- forwards
    have hnn : ¬ k < 0 := by omega
    simp only [hnn, decide_false, Bool.false_eq_true, if_false]
    refine ⟨_, _, rfl, ?_⟩
    generalize ha : s.first len false = a
    generalize ht : s.last len false = t
    have ha1 : 0 ≤ a ∧ a ≤ len := by
      subst ha; unfold Slice.first; cases s.start <;> simp only [adjust, Bool.false_eq_true, if_false] <;> (try split) <;> (try split) <;> omega
    have ht1 : 0 ≤ t ∧ t ≤ len := by
      subst ht; unfold Slice.last; cases s.stop <;> simp only [adjust, Bool.false_eq_true, if_false] <;> (try split) <;> (try split) <;> omega
    have hmem : ∀ i : Nat, i < (if a < t then (t - a - 1) / k + 1 else 0 : Int).toNat ↔ a < t ∧ (i : Int) < (t - a - 1) / k + 1 := by
      intro i
      split
      · omega
      · simp; omega
    have hst := fun x => steps_iff (s := a) (t := t) (k := k) hpos x
    refine ⟨?_, ?_⟩
    · intro i hi
      obtain ⟨h1, h2⟩ := (hmem i).1 hi
      have := (hst (a + i * k)).1 ⟨i, h2, rfl⟩
      omega
    · unfold sliceIndices
      rw [if_pos hpos]
      apply eq_of_ordered (R := fun x y => x < y) (by omega)
      · rw [List.pairwise_map]
        refine List.Pairwise.imp_of_mem ?_ List.pairwise_lt_range
        intro i j hi hj hij
        rw [List.mem_range] at hi hj
        obtain ⟨h1, h2⟩ := (hmem i).1 hi
        have b1 := (hst (a + i * k)).1 ⟨i, h2, rfl⟩
        have : (i : Int) * k < j * k := Int.mul_lt_mul_of_pos_right (by omega) hpos
        omega
      · exact List.Pairwise.filter _ List.pairwise_lt_range
      · intro x
        rw [List.mem_map, List.mem_filter, List.mem_range, decide_eq_true_eq]
        have hx := hst x
        generalize hlo : firstUp len s = lo
        have hla : a = lo ∨ (len ≤ lo ∧ a = len) := by
          subst hlo ha
          unfold firstUp Slice.first
          cases s.start with
          | none => left; rfl
          | some y =>
            simp only [adjust, fromFront, Bool.false_eq_true, if_false]
            split
            · split <;> omega
            · split <;> omega
        have hstop : x < len → ((∀ y, s.stop = some y → (x : Int) < fromFront len y) ↔ x < t) := by
          intro hxl
          subst ht
          unfold Slice.last
          cases s.stop with
          | none => simp; omega
          | some y =>
            simp only [Option.some.injEq, forall_eq', adjust, fromFront, Bool.false_eq_true, if_false]
            split
            · split <;> omega
            · split <;> omega
        constructor
        · rintro ⟨i, hi, rfl⟩
          obtain ⟨h1, h2⟩ := (hmem i).1 (List.mem_range.1 hi)
          have b1 := (hst (a + i * k)).1 ⟨i, h2, rfl⟩
          have e : ((a + i * k).toNat : Int) = a + i * k := Int.toNat_of_nonneg (by omega)
          have hxl : (a + i * k).toNat < len := by omega
          rw [hstop hxl, e]
          rcases hla with rfl | ⟨hla, hla'⟩
          · exact ⟨hxl, by omega, by omega, b1.2.2⟩
          · omega
        · rintro ⟨h1, h2, h3, h4⟩
          rw [hstop h1] at h3
          rcases hla with rfl | ⟨hla, hla'⟩
          · obtain ⟨i, i1, i2⟩ := hx.2 ⟨h2, h3, h4⟩
            exact ⟨i, List.mem_range.2 ((hmem i).2 ⟨by omega, i1⟩), by omega⟩
          · omega

/-- A slice of a validated block is the slice of the list of its words, for all ends and steps. -/
theorem C82_slice (v : Vec) (hv : v.valid = true) (hl : v.vals.length < 2 ^ 64) (s : Slice) :
    v.getSlice s = match pySlice v.vals s with | some l => .ok l | none => .value := by
  obtain ⟨c1, c2⟩ := compute_spec s v.vals.length
  unfold Vec.getSlice pySlice
  by_cases hk : s.step.getD 1 = 0
  · rw [c1 hk]; simp [hk]
  · obtain ⟨a, n, h1, h2, h3⟩ := c2 hk
    rw [h1]
    simp only [if_neg hk]
    rw [sliceLoop_eq v hv hl _ n a h2, ← h3, List.map_map]
    rfl

/-- All words. -/
theorem C82_value (v : Vec) (hv : v.valid = true) : v.value = .ok v.vals ∧ v.buffer = .ok v.vals := by simp [Vec.value, Vec.buffer, hv]

theorem strLoop_eq (v : Vec) (hv : v.valid = true) : ∀ (k i : Nat), i + k = v.vals.length →
    v.strLoop k i = .ok ((", ".toList).intercalate ((v.vals.drop i).map fun x => (toString x.toNat).toList)) := by
  intro k
  induction k with
  | zero =>
    intro i h
    rw [Vec.strLoop, List.drop_eq_nil_of_le (by omega)]
    rfl
  | succ k ih =>
    intro i h
    have hlt : i < v.vals.length := by omega
    rw [Vec.strLoop, Vec.at, if_pos hv, List.getElem?_eq_getElem hlt]
    simp only []
    rw [ih (i + 1) (by omega), List.drop_eq_getElem_cons hlt, List.map_cons]
    simp only []
    by_cases he : i = v.vals.length - 1
    · rw [if_neg (by simpa using he), List.drop_eq_nil_of_le (show v.vals.length ≤ i + 1 by omega)]
      simp [List.intercalate]
    · rw [if_pos he]
      obtain ⟨y, l, e⟩ : ∃ y l, v.vals.drop (i + 1) = y :: l := List.exists_cons_of_ne_nil (by rw [Ne, List.drop_eq_nil_iff]; omega)
      rw [e]
      simp [List.intercalate, List.append_assoc]

/-- The text of a block is that of the list: decimal numbers between brackets with commas between. -/
theorem C82_str (v : Vec) (hv : v.valid = true) : v.str = .ok ("[".toList ++ (", ".toList).intercalate (v.vals.map fun x => (toString x.toNat).toList) ++ "]".toList) := by
  rw [Vec.str, strLoop_eq v hv _ 0 (by omega)]
  rfl

/-- Nothing of a block that is not yet validated is given away by indexing: there is an exception. -/
theorem C82_early_item (v : Vec) (hv : v.valid = false) (i : Int) (x : W) : v.getItem i ≠ .ok x ∧ v.value = .nonValidated ∧ ∀ id s steps, v.iterate id s steps = [.nonValidated] := by
  refine ⟨?_, by simp [Vec.value, hv], by simp [Vec.iterate, hv]⟩
  unfold Vec.getItem
  split
  · simp
  split
  · simp
  simp only [Vec.at, hv, Bool.false_eq_true, if_false]
  intro h
  (repeat' split at h) <;> cases h

/-- Slices and texts: an exception, unless they are empty. -/
theorem C82_early_partial (v : Vec) (hv : v.valid = false) : (∀ s l, v.getSlice s = .ok l → l = []) ∧ (v.vals ≠ [] → v.str = .nonValidated) := by
  constructor
  · intro s l h
    unfold Vec.getSlice at h
    split at h
    · cases h
    · rename_i start step n _
      cases n with
      | zero => simp only [Vec.sliceLoop] at h; cases h; rfl
      | succ n => simp [Vec.sliceLoop, Vec.at, hv] at h
  · intro h
    cases hl : v.vals with
    | nil => exact absurd hl h
    | cons x l => simp [Vec.str, Vec.strLoop, Vec.at, hv, hl]

/-! ### Iteration -/

namespace Spec

/-- What a loop over a list gets when it asks `k` times, beginning with item `i`. -/
def loopItems (l : List W) (i : Nat) : Nat → List (Py.Out (Option W))
  | 0 => []
  | k + 1 => .ok l[i]? :: loopItems l (i + 1) k

end Spec

def asks (steps : List Py.Step) : Nat := (steps.filter fun x => decide (x = .next)).length

theorem loopItems_end (l : List W) : ∀ k i, l.length ≤ i → loopItems l i k = loopItems l (i + 1) k := by
  intro k
  induction k with
  | zero => intro i _; rfl
  | succ k ih =>
    intro i h
    rw [loopItems, loopItems, List.getElem?_eq_none h, List.getElem?_eq_none (by omega), ih (i + 1) (by omega)]

theorem run_kept (v : Vec) (id : Nat) : ∀ (steps : List Py.Step) (s : Iter), (∀ k, (List.foldl (fun t x => (Iter.step v id t x).1) s (steps.take k)).alive id = true) →
    Iter.run v id s steps = loopItems v.vals s.at_ (asks steps) := by
  intro steps
  induction steps with
  | nil => intro s _; rfl
  | cons x steps ih =>
    intro s h
    have h0 : s.alive id = true := h 0
    have h1 : ∀ k, (List.foldl (fun t x => (Iter.step v id t x).1) (Iter.step v id s x).1 (steps.take k)).alive id = true := fun k => h (k + 1)
    have ih' := ih _ h1
    cases x with
    | next =>
      have ha : asks (.next :: steps) = asks steps + 1 := by simp [asks]
      rw [ha, loopItems, Iter.run]
      rw [Iter.step, if_pos h0] at ih' ⊢
      cases hx : v.vals[s.at_]? with
      | some y => simp only [hx] at ih' ⊢; rw [ih']
      | none =>
        simp only [hx] at ih' ⊢
        rw [ih', loopItems_end _ _ _ (List.getElem?_eq_none_iff.1 hx)]
    | drop =>
      have ha : asks (.drop :: steps) = asks steps := by simp [asks]
      rw [ha, Iter.run]
      simp only [Iter.step] at ih' ⊢
      exact ih'
    | use vs =>
      have ha : asks (.use vs :: steps) = asks steps := by simp [asks]
      rw [ha, Iter.run]
      simp only [Iter.step] at ih' ⊢
      exact ih'

theorem py_kept (v : Vec) (id : Nat) : ∀ (steps : List Py.Step) (s : Iter), .drop ∉ steps → s.py = true → (List.foldl (fun t x => (Iter.step v id t x).1) s steps).py = true := by
  intro steps
  induction steps with
  | nil => intro s _ h; exact h
  | cons x steps ih =>
    intro s h hs
    rw [List.foldl_cons]
    refine ih _ (fun hm => h (by simp [hm])) ?_
    cases x with
    | next => simp only [Iter.step]; split; (split <;> exact hs); exact hs
    | drop => simp at h
    | use vs => exact hs

/-- A loop over a block that the program keeps gets its words in order. `partial`: the block has a name. -/
theorem C82_loop_partial (v : Vec) (hv : v.valid = true) (id : Nat) (s : Iter) (hs : s.py = true) (h0 : s.at_ = 0) (steps : List Py.Step) (hd : .drop ∉ steps) :
    v.iterate id s steps = loopItems v.vals 0 (asks steps) := by
  rw [Vec.iterate, if_pos hv, ← h0]
  apply run_kept
  intro k
  rw [Iter.alive, py_kept v id _ s (fun hm => hd (List.mem_of_mem_take hm)) hs]
  rfl

def uses (steps : List Py.Step) : Nat := (steps.filter fun x => match x with
  | .use _ => true
  | _ => false).length

theorem pool_kept (v : Vec) (id : Nat) (vs : List Nat) (hid : id ∈ vs) : ∀ (steps : List Py.Step) (s : Iter) (ps qs : List (List Nat)), s.pool = ps ++ vs :: qs → uses steps ≤ ps.length →
    (List.foldl (fun t x => (Iter.step v id t x).1) s steps).alive id = true := by
  intro steps
  induction steps with
  | nil =>
    intro s ps qs h _
    simp [Iter.alive, h, hid]
  | cons x steps ih =>
    intro s ps qs h hn
    rw [List.foldl_cons]
    cases x with
    | next =>
      refine ih _ ps qs ?_ (by simpa [uses] using hn)
      simp only [Iter.step]
      split
      · split <;> exact h
      · exact h
    | drop => exact ih _ ps qs h (by simpa [uses] using hn)
    | use ws =>
      have hn' : uses steps + 1 ≤ ps.length := by simpa [uses] using hn
      cases ps with
      | nil => simp at hn'
      | cons p ps =>
        refine ih _ ps (qs ++ [ws]) ?_ (by simpa using hn')
        simp [Iter.step, h]

/-- A loop over a block that the program does not keep, but that was read with the buffer last used, gets its words in order as long as the client uses fewer than ten more buffers. -/
theorem C82_loop_buffer_partial (v : Vec) (hv : v.valid = true) (id : Nat) (s : Iter) (hp : s.pool.length = 10) (h0 : s.at_ = 0) (vs : List Nat) (hid : id ∈ vs) (steps : List Py.Step)
    (hu : uses steps < 10) : v.iterate id (Iter.step v id s (.use vs)).1 steps = loopItems v.vals 0 (asks steps) := by
  have hne : s.pool ≠ [] := by intro h; rw [h] at hp; simp at hp
  have e : (Iter.step v id s (.use vs)).1 = { s with pool := s.pool.drop 1 ++ [vs] } := by simp only [Iter.step, if_neg hne]
  rw [Vec.iterate, if_pos hv, e, ← h0]
  apply run_kept
  intro k
  refine pool_kept v id vs hid _ _ (s.pool.drop 1) [] rfl ?_
  have h1 : uses (steps.take k) ≤ uses steps := ((List.take_sublist k steps).filter _).length_le
  rw [List.length_drop, hp]
  omega

/-- Non-vacuity: a block of two words; Python has dropped it, and the client has used nine more buffers. -/
example : let v : Vec := ⟨true, [1, 2]⟩
    let steps : List Py.Step := [.drop, .next] ++ List.replicate 9 (.use []) ++ [.next, .next]
    uses steps < 10 ∧ v.iterate 0 (Iter.step v 0 {} (.use [0])).1 steps = [.ok (some 1), .ok (some 2), .ok none] := by decide

/-- A loop over a block without a name (`for x in f():`) that uses the client in its body: after ten more buffers the memory of the block is free, and the loop reads from it. -/
theorem C82_violated_loop : ∃ (v : Vec) (id : Nat) (s : Iter) (steps : List Py.Step), v.valid = true ∧ s.alive id = true ∧ s.py = true ∧ .ub ∈ v.iterate id s steps :=
  ⟨⟨true, [1, 2]⟩, 0, (Iter.step ⟨true, [1, 2]⟩ 0 {} (.use [0])).1, [.drop, .next] ++ List.replicate 10 (.use []) ++ [.next], by decide⟩

/-! ### Words -/

/-- Operators between words and integers are those between numbers. -/
theorem C82_int {β : Type} (op : BinOp β) (hl : op.left ∈ methods) (hr : op.right ∈ methods) (w : W) (i : Int) :
    binary op (.word (some w)) (.int i) = .ok (op.f w.toNat i) ∧ binary op (.int i) (.word (some w)) = .ok (op.f i w.toNat) := by
  simp [binary, hl, hr, leftMethod, rightMethod, Obj.toInt]

/-- Operators between words. -/
theorem C82_words {β : Type} (op : BinOp β) (hl : op.left ∈ methods) (v w : W) : binary op (.word (some v)) (.word (some w)) = .ok (op.f v.toNat w.toNat) := by
  simp [binary, hl, leftMethod, Obj.toInt]

theorem C82_unary {β : Type} (name : String) (f : Int → β) (h : name ∈ methods) (w : W) : unary name f (some w) = .ok (f w.toNat) := by simp [unary, h, Obj.toInt]

/-- Words that are not validated are never used. -/
theorem C82_early_word {β : Type} (op : BinOp β) (b : Obj) (y : β) : binary op (.word none) b ≠ .ok y ∧ binary op b (.word none) ≠ .ok y ∧ ∀ name (f : Int → β), unary name f none ≠ .ok y := by
  refine ⟨?_, ?_, ?_⟩
  · simp only [binary, leftMethod, Obj.toInt]; split <;> simp
  · cases b with
    | int i => simp only [binary, rightMethod, Obj.toInt]; split <;> simp
    | word w =>
      cases w with
      | none => simp only [binary, leftMethod, Obj.toInt]; split <;> simp
      | some w => simp only [binary, leftMethod, Obj.toInt]; split <;> simp
    | float n d => simp only [binary, rightMethod, Obj.toInt]; split <;> simp
    | other => simp only [binary, rightMethod, Obj.toInt]; split <;> simp
  · intro name f
    simp only [unary, Obj.toInt]; split <;> simp

namespace Spec

/-- The binary operators of Python's integers and their methods. -/
def pyOperators : List (String × String × String) :=
  [("+", "__add__", "__radd__"), ("-", "__sub__", "__rsub__"), ("*", "__mul__", "__rmul__"), ("%", "__mod__", "__rmod__"), ("**", "__pow__", "__rpow__"), ("<<", "__lshift__", "__rlshift__"),
   (">>", "__rshift__", "__rrshift__"), ("&", "__and__", "__rand__"), ("|", "__or__", "__ror__"), ("^", "__xor__", "__rxor__"), ("<", "__lt__", "__gt__"), ("<=", "__le__", "__ge__"),
   ("==", "__eq__", "__eq__"), ("!=", "__ne__", "__ne__"), (">", "__gt__", "__lt__"), (">=", "__ge__", "__le__"), ("/", "__truediv__", "__rtruediv__"), ("//", "__floordiv__", "__rfloordiv__")]

end Spec

/-- For every operator but divisions, words behave as their numbers, on both sides. -/
theorem C82_operators_partial {β : Type} (f : Int → Int → β) (v w : W) (i : Int) : ∀ o ∈ pyOperators, o.1 ≠ "/" → o.1 ≠ "//" →
    binary ⟨o.2.1, o.2.2, f⟩ (.word (some w)) (.int i) = .ok (f w.toNat i) ∧ binary ⟨o.2.1, o.2.2, f⟩ (.int i) (.word (some w)) = .ok (f i w.toNat) ∧
    binary ⟨o.2.1, o.2.2, f⟩ (.word (some v)) (.word (some w)) = .ok (f v.toNat w.toNat) := by
  intro o ho h1 h2
  have hm : ∀ o ∈ pyOperators, o.1 ≠ "/" → o.1 ≠ "//" → o.2.1 ∈ methods ∧ o.2.2 ∈ methods := by decide
  obtain ⟨m1, m2⟩ := hm o ho h1 h2
  have := C82_int ⟨o.2.1, o.2.2, f⟩ m1 m2 w i
  exact ⟨this.1, this.2, C82_words ⟨o.2.1, o.2.2, f⟩ m1 v w⟩

def lessThan : BinOp Bool := ⟨"__lt__", "__gt__", fun x y => decide (x < y)⟩
def equals : BinOp Bool := ⟨"__eq__", "__eq__", fun x y => decide (x = y)⟩
def plus : BinOp Int := ⟨"__add__", "__radd__", fun x y => x + y⟩
def floorDiv : BinOp Int := ⟨"__floordiv__", "__rfloordiv__", fun x y => x / y⟩

/-- Floats are cut to integers: 2 is not less than 2.5, 2 equals 2.5, 2 + 2.5 is 4, 0 equals -0.5. -/
theorem C82_violated_float : binary lessThan (.word (some 2)) (.float 5 2) = .ok false ∧ binary equals (.word (some 2)) (.float 5 2) = .ok true ∧
    binary plus (.word (some 2)) (.float 5 2) = .ok 4 ∧ binary plus (.float 5 2) (.word (some 2)) = .ok 4 ∧ binary equals (.word (some 0)) (.float (-1) 2) = .ok true := by decide

/-- Divisions are missing. -/
theorem C82_violated_division (a b : Obj) : binary floorDiv a b = .type := by
  have h1 : "__floordiv__" ∉ methods := by decide
  have h2 : "__rfloordiv__" ∉ methods := by decide
  cases a <;> cases b <;> simp [binary, floorDiv, h1, h2]

/-- Indices that no `int` can hold raise `TypeError`, not `IndexError`; of a block of 2^31 words no item is found. -/
theorem C82_violated_index : (∀ v : Vec, v.getItem (2 ^ 31) = .type) ∧ ∃ v : Vec, v.valid = true ∧ (∃ x, pyItem v.vals 0 = some x) ∧ v.getItem 0 = .index := by
  refine ⟨fun v => by simp [Vec.getItem], ?_⟩
  obtain ⟨n, hn⟩ : ∃ n : Nat, n = 2 ^ 31 := ⟨_, rfl⟩
  refine ⟨⟨true, List.replicate n 7#32⟩, rfl, ⟨7#32, ?_⟩, ?_⟩
  · simp only [pyItem, List.length_replicate]
    rw [if_pos (by omega)]
    simp only [Int.toNat_zero, List.getElem?_replicate]
    rw [if_pos (by omega)]
  · unfold Vec.getItem
    rw [if_neg (by decide)]
    simp only [List.length_replicate]
    have : (BitVec.ofNat 32 n).toInt ≤ 0 := by subst hn; decide
    rw [if_pos this]

/-- Comparing a word with something that is no number raises `TypeError`; numbers are just different from it. -/
theorem C82_violated_none : binary equals (.word (some 2)) .other = .type := by decide

/-- The buffer of a block that is not validated is empty: no exception. So are empty slices, and the text of an empty block. -/
theorem C82_violated_early : ∃ v : Vec, v.valid = false ∧ v.vals.length = 4 ∧ v.buffer = .ok [] ∧ v.getSlice { start := some 2, stop := some 2 } = .ok [] :=
  ⟨⟨false, [0, 0, 0, 0]⟩, by decide⟩

/-! ### Non-vacuity -/

def fiveWords : Vec := ⟨true, [10, 11, 12, 13, 14]⟩

example : fiveWords.getItem (-1) = .ok 14 ∧ fiveWords.getItem 4 = .ok 14 ∧ fiveWords.getItem (-6) = .index ∧ fiveWords.getItem 5 = .index := by decide
example : pySlice fiveWords.vals { start := some (-2), stop := none, step := some (-2) } = some [13, 11] ∧ pySlice fiveWords.vals { start := some (-100), stop := some 100, step := some 2 } = some [10, 12, 14] ∧
    pySlice fiveWords.vals { step := some 0 } = none := by decide +kernel
example : fiveWords.getSlice { start := some (-2), stop := none, step := some (-2) } = .ok [13, 11] ∧ fiveWords.getSlice { start := some 100, step := some (-1) } = .ok [14, 13, 12, 11, 10] := by decide +kernel
example : fiveWords.str = .ok "[10, 11, 12, 13, 14]".toList := by decide +kernel
example : fiveWords.iterate 0 {} [.next, .use [], .next, .next] = [.ok (some 10), .ok (some 11), .ok (some 12)] := by decide
example : plus.left ∈ methods ∧ plus.right ∈ methods ∧ lessThan.left ∈ methods ∧ lessThan.right ∈ methods ∧ "__bool__" ∈ methods := by decide

end Verif
