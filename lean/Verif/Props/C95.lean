import Verif.Lemmas.HwStruct
/-!
# C95: the Python copy of the hardware is complete

`HardwareStruct` has for each device of the connection file one item for each line of its address table, with the full name, the attributes and the parent.
-/

set_option autoImplicit false

namespace Verif
open Node Spec HwStruct

/-- All devices, in the order of the list, each with a copy of its table. `partial`: names without dots and not empty, different among the children of a node. -/
theorem C95_copy_partial (devs : List (Str × Node)) (hok : ∀ d ∈ devs, GoodIds d.2 ∧ UniqueIds d.2) :
    ∃ out, load devs = some out ∧ out.map Prod.fst = devs.map Prod.fst ∧ ∀ (i : Nat) name n l, devs[i]? = some (name, n) → (out[i]?).map Prod.snd = some l → HwCopy n.table l := by
  induction devs with
  | nil => exact ⟨[], rfl, rfl, by intro i name n l h; simp at h⟩
  | cons d ds ih =>
    obtain ⟨out, h1, h2, h3⟩ := ih fun x hx => hok x (by simp [hx])
    obtain ⟨l, h4, h5⟩ := device_ok (hok d (by simp)).1 (hok d (by simp)).2
    refine ⟨(d.1, l) :: out, ?_, by simp [h2], ?_⟩
    · unfold load at h1 ⊢
      rw [List.mapM_cons, h4, h1]
      rfl
    · intro i name n l' h6 h7
      cases i with
      | zero =>
        simp only [List.getElem?_cons_zero, Option.some.injEq, Option.map_some] at h6 h7
        subst h6 h7
        exact h5
      | succ i => exact h3 i name n l' (by simpa using h6) (by simpa using h7)

theorem hwAttr_unique {it : HwStruct.Item} {x : List Entry} (h : HwAttr it x) : x = it.flat := by
  induction h with
  | @mk e kids ls hl _ ih =>
    rw [HwStruct.Item.flat, flats_eq]
    congr 2
    refine List.ext_getElem? fun i => ?_
    rw [List.getElem?_map]
    cases hk : kids[i]? with
    | none =>
      rw [List.getElem?_eq_none_iff] at hk
      simp [hl ▸ hk]
    | some k =>
      obtain ⟨hi, _⟩ := List.getElem?_eq_some_iff.1 hk
      obtain ⟨x, hx⟩ : ∃ x, ls[i]? = some x := ⟨ls[i]'(by omega), List.getElem?_eq_getElem _⟩
      rw [hx, ih i k _ hk hx]
      rfl

theorem hwCopy_flats {rows : List Row} {l : List HwStruct.Item} (h : HwCopy rows l) : (flats l).Perm ((rows.filter fun r => r.path.tail ≠ []).map hwLine) := by
  obtain ⟨ls, hl, ha, hp⟩ := h.lines
  have : ls = l.map HwStruct.Item.flat := by
    refine List.ext_getElem? fun i => ?_
    rw [List.getElem?_map]
    cases hk : l[i]? with
    | none =>
      rw [List.getElem?_eq_none_iff] at hk
      simp [hl ▸ hk]
    | some k =>
      obtain ⟨hi, _⟩ := List.getElem?_eq_some_iff.1 hk
      obtain ⟨x, hx⟩ : ∃ x, ls[i]? = some x := ⟨ls[i]'(by omega), List.getElem?_eq_getElem _⟩
      rw [hx, hwAttr_unique (ha i k _ hk hx)]
      rfl
  rw [flats_eq, ← this]
  exact hp

/-- Two devices. -/
def hwDevs : List (Str × Node) := [("fc7".toList, demoTree), ("glib".toList, demoTree)]

/-- The hypotheses of `C95_copy_partial` are met, and what comes out of it. -/
example : (∀ d ∈ hwDevs, GoodIds d.2 ∧ UniqueIds d.2) ∧
    (load hwDevs).map (fun l => l.map Prod.fst) = some ["fc7".toList, "glib".toList] ∧
    (device demoTree).map (fun l => (flats l).map fun e => e.id) = some ["a".toList, "a.b".toList, "a.c".toList, "d".toList] ∧
    (device demoTree).map (fun l => (flats l).map fun e => e.parent) = some [[], "a".toList, "a".toList, []] ∧
    (device demoTree).map (fun l => (flats l).map fun e => e.addr) = some [1#32, 1#32, 2#32, 4#32] := by
  refine ⟨?_, by decide +kernel, by decide +kernel, by decide +kernel, by decide +kernel⟩
  intro d hd
  simp only [hwDevs, List.mem_cons, List.not_mem_nil, or_false] at hd
  rcases hd with rfl | rfl <;> exact demoTree_ok

/-! ### Where the code goes wrong -/

/-- Of two children with the same name (`C33_violated_built`: address tables may have them) one is copied twice and the other is missing. -/
theorem C95_violated_same : ¬ ∃ l, device dupTree = some l ∧ HwCopy dupTree.table l := by
  rintro ⟨l, h1, h2⟩
  have h := hwCopy_flats h2
  have e : (device dupTree).map (fun l => (flats l).map fun e => e.addr) = some [2#32, 2#32] := by decide +kernel
  rw [h1] at e
  simp only [Option.map_some, Option.some.injEq] at e
  have h3 := (h.map fun e => e.addr).length_eq
  rw [e] at h3
  revert h3
  decide +kernel

/-- A child with a dot in its name is left out. -/
theorem C95_violated_dot : ¬ ∃ l, device (mk {} [mk { uid := "a.b".toList } []]) = some l ∧ HwCopy (mk {} [mk { uid := "a.b".toList } []]).table l := by
  rintro ⟨l, h1, h2⟩
  have h := (hwCopy_flats h2).length_eq
  have e : (device (mk {} [mk { uid := "a.b".toList } []])).map (fun l => (flats l).length) = some 0 := by decide +kernel
  rw [h1] at e
  simp only [Option.map_some, Option.some.injEq] at e
  rw [e] at h
  revert h
  decide +kernel

end Verif
