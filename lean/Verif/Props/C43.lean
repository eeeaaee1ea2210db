import Verif.Model.Stats
/-!
# C43: the time-interval statistics
-/

set_option autoImplicit false

namespace Verif.Stats

/-- The measurements since construction or the last `clear()`, oldest first. -/
def since : List Op → List Int
  | [] => []
  | .add d :: os => if Op.clear ∈ os then since os else d :: since os
  | .clear :: os => since os

/-- All measurements ever. -/
def ever : List Op → List Int
  | [] => []
  | .add d :: os => d :: ever os
  | .clear :: os => ever os

/-- `m` is the least element. -/
def IsLeast (l : List Int) (m : Int) : Prop := m ∈ l ∧ ∀ x ∈ l, m ≤ x
/-- `m` is the greatest element. -/
def IsGreatest (l : List Int) (m : Int) : Prop := m ∈ l ∧ ∀ x ∈ l, x ≤ m

/-- The last five. -/
def lastFive (l : List Int) : List Int := l.drop (l.length - 5)

theorem since_snoc_add (os : List Op) (d : Int) : since (os ++ [.add d]) = since os ++ [d] := by
  induction os with
  | nil => rfl
  | cons o os ih =>
    cases o with
    | clear => rw [List.cons_append, since, since, ih]
    | add x =>
      rw [List.cons_append, since, since, ih]
      have : Op.clear ∈ os ++ [.add d] ↔ Op.clear ∈ os := by simp
      by_cases h : Op.clear ∈ os
      · rw [if_pos (this.2 h), if_pos h]
      · rw [if_neg (fun h' => h (this.1 h')), if_neg h]; rfl

theorem since_snoc_clear (os : List Op) : since (os ++ [.clear]) = [] := by
  induction os with
  | nil => rfl
  | cons o os ih =>
    cases o with
    | clear => rw [List.cons_append, since, ih]
    | add x => rw [List.cons_append, since, if_pos (by simp), ih]

theorem runAll_snoc (s : Stats) (os : List Op) (o : Op) :
    runAll s (os ++ [o]) = match runAll s os with
      | .ok s' => o.run s'
      | .ub => .ub := by
  induction os generalizing s with
  | nil =>
    simp only [List.nil_append, runAll]
    cases o.run s <;> rfl
  | cons p os ih =>
    rw [List.cons_append, runAll, runAll]
    cases p.run s with
    | ok s' => exact ih s'
    | ub => rfl

theorem popN_ub (k : Nat) (q : List Int) : popN k q = .ub ↔ q.length < k := by
  induction k generalizing q with
  | zero => simp [popN]
  | succ k ih =>
    cases q with
    | nil => simp [popN]
    | cons a q => rw [popN, ih]; simp

theorem popN_ok {k : Nat} {q : List Int} (h : k ≤ q.length) : popN k q = .ok (q.drop k) := by
  induction k generalizing q with
  | zero => simp [popN]
  | succ k ih =>
    cases q with
    | nil => simp at h
    | cons a q => rw [popN, ih (by simpa using h)]; rfl

theorem lastFive_snoc (l : List Int) (d : Int) :
    lastFive (l ++ [d]) = if (lastFive l ++ [d]).length > 5 then (lastFive l ++ [d]).tail else lastFive l ++ [d] := by
  unfold lastFive
  rw [List.length_append, List.length_append, List.length_drop, List.length_singleton]
  by_cases h : l.length < 5
  · have h1 : l.length - 5 = 0 := by omega
    have h2 : l.length + 1 - 5 = 0 := by omega
    rw [h1, h2, if_neg (by omega)]; rfl
  · rw [if_pos (by omega), List.drop_append_of_le_length (by omega)]
    have h3 : l.length + 1 - 5 = (l.length - 5) + 1 := by omega
    rw [h3, ← List.tail_drop]
    cases hd : l.drop (l.length - 5) with
    | nil =>
      have := congrArg List.length hd
      rw [List.length_drop] at this
      simp at this
      omega
    | cons a r => rfl

/-- The state agrees with the measurements since the last `clear()` (except for the sum). -/
structure Good (s : Stats) (l : List Int) : Prop where
  n : s.n = l.length
  latest : s.latest = lastFive l
  mn : l ≠ [] → IsLeast l s.mn
  mx : l ≠ [] → IsGreatest l s.mx

theorem Good.add {s : Stats} {l : List Int} (h : Good s l) (d : Int) : Good (Stats.add s d) (l ++ [d]) := by
  refine ⟨by simp [Stats.add, h.n], ?_, fun _ => ?_, fun _ => ?_⟩
  · rw [lastFive_snoc, ← h.latest]; rfl
  · simp only [Stats.add, IsLeast]
    by_cases hl : l = []
    · subst hl
      rw [if_pos (.inl (by simpa using h.n))]; simp
    · obtain ⟨h1, h2⟩ := h.mn hl
      have hn : s.n ≠ 0 := by rw [h.n]; simpa using hl
      split
      · rename_i hc
        have hlt : d < s.mn := by rcases hc with hc | hc; exact absurd hc hn; exact hc
        refine ⟨by simp, fun x hx => ?_⟩
        simp only [List.mem_append, List.mem_singleton] at hx
        rcases hx with hx | rfl
        · have := h2 x hx; omega
        · omega
      · rename_i hc
        refine ⟨by simp [h1], fun x hx => ?_⟩
        simp only [List.mem_append, List.mem_singleton] at hx
        rcases hx with hx | rfl
        · exact h2 x hx
        · have : ¬ x < s.mn := fun h' => hc (.inr h'); omega
  · simp only [Stats.add, IsGreatest]
    by_cases hl : l = []
    · subst hl
      rw [if_pos (.inl (by simpa using h.n))]; simp
    · obtain ⟨h1, h2⟩ := h.mx hl
      have hn : s.n ≠ 0 := by rw [h.n]; simpa using hl
      split
      · rename_i hc
        have hlt : d > s.mx := by rcases hc with hc | hc; exact absurd hc hn; exact hc
        refine ⟨by simp, fun x hx => ?_⟩
        simp only [List.mem_append, List.mem_singleton] at hx
        rcases hx with hx | rfl
        · have := h2 x hx; omega
        · omega
      · rename_i hc
        refine ⟨by simp [h1], fun x hx => ?_⟩
        simp only [List.mem_append, List.mem_singleton] at hx
        rcases hx with hx | rfl
        · exact h2 x hx
        · have : ¬ x > s.mx := fun h' => hc (.inr h'); omega

/-- `clear()` is called only when at most five measurements have been made since the last time. -/
def ClearsEarly (os : List Op) : Prop := ∀ ps qs, os = ps ++ .clear :: qs → (since ps).length ≤ 5

theorem ClearsEarly.init {os : List Op} {o : Op} (h : ClearsEarly (os ++ [o])) : ClearsEarly os := by
  intro ps qs he
  exact h ps (qs ++ [o]) (by rw [he]; simp)

theorem length_lastFive (l : List Int) : (lastFive l).length = min l.length 5 := by
  unfold lastFive; rw [List.length_drop]; omega

/-- **C43** (minimum, maximum, size, latest measurements): for every sequence of calls in which `clear()` never follows more than five
measurements, whatever was in memory before the constructor. The sum is that of all measurements ever, plus what was in memory.
Missing for C43: `clear()` after more than five measurements (`C43_violated_clear`), the mean (`C43_mean_partial`,
`C43_violated_mean`, `C43_violated_init`). -/
theorem C43_partial (junk : Int × Int × Int) (os : List Op) (h : ClearsEarly os) :
    ∃ s, runAll (init junk) os = .ok s ∧ s.n = (since os).length ∧ s.latest = lastFive (since os) ∧
      (since os ≠ [] → IsLeast (since os) s.mn ∧ IsGreatest (since os) s.mx) ∧ s.sum = junk.2.2 + (ever os).sum := by
  suffices hs : ∃ s, runAll (init junk) os = .ok s ∧ Good s (since os) ∧ s.sum = junk.2.2 + (ever os).sum by
    obtain ⟨s, h1, h2, h3⟩ := hs
    exact ⟨s, h1, h2.n, h2.latest, fun hne => ⟨h2.mn hne, h2.mx hne⟩, h3⟩
  have ever_snoc : ∀ (os : List Op) (o : Op), ever (os ++ [o]) = ever os ++ ever [o] := by
    intro os o
    induction os with
    | nil => rfl
    | cons p os ih => cases p <;> simp [ever, ih]
  obtain ⟨k, hk⟩ : ∃ k, os.length = k := ⟨_, rfl⟩
  induction k generalizing os with
  | zero =>
    have : os = [] := by simpa using hk
    subst this
    exact ⟨init junk, rfl, ⟨rfl, rfl, by simp [since], by simp [since]⟩, by simp [init, ever]⟩
  | succ k ih =>
    rcases List.eq_nil_or_concat os with rfl | ⟨os', o, rfl⟩
    · simp at hk
    rw [List.concat_eq_append] at h hk ⊢
    obtain ⟨s, h1, h2, h3⟩ := ih os' h.init (by simpa using hk)
    rw [runAll_snoc, h1, ever_snoc]
    cases o with
    | add d =>
      refine ⟨Stats.add s d, rfl, ?_, ?_⟩
      · rw [since_snoc_add]; exact h2.add d
      · simp [Stats.add, h3, ever]; omega
    | clear =>
      have hle : (since os').length ≤ 5 := h os' [] rfl
      have hlen : s.n ≤ s.latest.length := by rw [h2.n, h2.latest, length_lastFive]; omega
      refine ⟨{ s with latest := s.latest.drop s.n, n := 0 }, by simp [Op.run, Stats.clear, popN_ok hlen], ?_, by simp [h3, ever]⟩
      rw [since_snoc_clear]
      refine ⟨rfl, ?_, by simp, by simp⟩
      have : s.latest.length ≤ s.n := by rw [h2.n, h2.latest, length_lastFive]; omega
      show s.latest.drop s.n = _
      rw [List.drop_eq_nil_of_le this]; rfl

/-- **C43** (mean): right if the memory happened to be zero and `clear()` has not been called.
Missing for C43: everything else; see `C43_violated_mean`, `C43_violated_init`. -/
theorem C43_mean_partial (a b : Int) (ds : List Int) (hne : ds ≠ []) (hpos : ∀ d ∈ ds, 0 ≤ d) (hbound : ds.sum < 2 ^ 63) :
    ∃ s, runAll (init (a, b, 0)) (ds.map .add) = .ok s ∧ mean s = .ok (ds.sum / ds.length) := by
  have hne' : ∀ l : List Int, Op.clear ∉ l.map Op.add := by intro l; simp
  have hc : ClearsEarly (ds.map .add) := by
    intro ps qs he
    exact absurd (by rw [he]; simp) (hne' ds)
  have h1 : since (ds.map .add) = ds := by
    clear hne hpos hbound hc
    induction ds with
    | nil => rfl
    | cons d ds ih => rw [List.map_cons, since, if_neg (hne' ds), ih]
  have h2 : ever (ds.map .add) = ds := by
    clear hne hpos hbound hc h1
    induction ds with
    | nil => rfl
    | cons d ds ih => rw [List.map_cons, ever, ih]
  obtain ⟨s, e1, e2, e3, e4, e5⟩ := C43_partial (a, b, 0) _ hc
  refine ⟨s, e1, ?_⟩
  have hnn : 0 ≤ ds.sum := by
    clear hne hbound hc h1 h2 e1 e2 e3 e4 e5
    induction ds with
    | nil => simp
    | cons d ds ih =>
      rw [List.sum_cons]
      have := ih (fun x hx => hpos x (by simp [hx]))
      have := hpos d (by simp)
      omega
  rw [h1] at e2
  rw [h2] at e5
  unfold mean
  have hz : s.n ≠ 0 := by rw [e2]; simpa using hne
  rw [if_neg hz, e5, e2]
  simp only [Int.zero_add]
  rw [Int.emod_eq_of_lt hnn (by omega)]

/-- Non-trivial instance: seven measurements, negative ones too, after a `clear()`. -/
example : ClearsEarly [.add 5, .add (-3), .clear, .add 4, .add 9, .add 1, .add 7, .add 2, .add 6, .add 8] := by
  intro ps qs he
  have hl := congrArg List.length he
  have : ∀ k, k < 10 → ps.length = k → (since ps).length ≤ 5 := by
    intro k hk hp
    have h := congrArg (List.take k) he
    rw [List.take_append_of_le_length (by omega), List.take_of_length_le (by omega : ps.length ≤ k)] at h
    rw [← h]
    have := congrArg (fun l => l[k]?) he
    simp only [List.getElem?_append_right (by omega : ps.length ≤ k), hp, Nat.sub_self, List.getElem?_cons_zero] at this
    revert this
    have hk' : k ∈ List.range 10 := List.mem_range.2 hk
    revert hk'
    clear hp hl he h hk
    revert k
    decide
  refine this ps.length ?_ rfl
  simp only [List.length_append, List.length_cons, List.length_nil] at hl
  omega

/-- **C43 is violated**: `clear()` after six measurements pops from an empty queue; more generally after any number above five. -/
theorem C43_violated_clear (junk : Int × Int × Int) (ds : List Int) (h : 5 < ds.length) :
    runAll (init junk) (ds.map .add ++ [.clear]) = .ub := by
  have hne' : ∀ l : List Int, Op.clear ∉ l.map Op.add := by intro l; simp
  have hc : ClearsEarly (ds.map .add) := by
    intro ps qs he
    exact absurd (by rw [he]; simp) (hne' ds)
  have h1 : since (ds.map .add) = ds := by
    clear h hc
    induction ds with
    | nil => rfl
    | cons d ds ih => rw [List.map_cons, since, if_neg (hne' ds), ih]
  obtain ⟨s, e1, e2, e3, _⟩ := C43_partial junk _ hc
  rw [runAll_snoc, e1]
  simp only [Op.run, Stats.clear]
  have : popN s.n s.latest = .ub := by
    rw [popN_ub, e2, e3, length_lastFive, h1]; omega
  rw [this]

/-- **C43 is violated**: `clear()` does not reset the sum. After measuring 10, `clear()` and measuring 20 the mean is 30. -/
theorem C43_violated_mean : ∃ s, runAll (init (0, 0, 0)) [.add 10, .clear, .add 20] = .ok s ∧ mean s = .ok 30 ∧
    since [.add 10, .clear, .add 20] = [20] := ⟨⟨[20], 20, 20, 30, 1⟩, by decide, by decide, by decide⟩

/-- **C43 is violated**: the constructor does not initialise the sum, so the mean of the measurement 10 is whatever was in memory plus
10. -/
theorem C43_violated_init (j : Int) (h : 0 ≤ j) (hj : j < 2 ^ 63) : ∃ s, runAll (init (0, 0, j)) [.add 10] = .ok s ∧ mean s = .ok (j + 10) := by
  refine ⟨Stats.add (init (0, 0, j)) 10, rfl, ?_⟩
  have : (j + 10) % 2 ^ 64 = j + 10 := Int.emod_eq_of_lt (by omega) (by omega)
  simp only [mean, Stats.add, init, Nat.zero_add, Nat.one_ne_zero, if_false]
  rw [this]; simp

/-- `mean()` without measurements divides by zero. -/
theorem C43_violated_empty (junk : Int × Int × Int) : mean (init junk) = .ub := rfl

end Verif.Stats
