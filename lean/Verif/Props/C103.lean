import Verif.Model.GuiLoad

/-!
C103: the loader of the GUI.
-/

set_option autoImplicit false

namespace Verif.Spec
open GuiLoad

/-- The class of a module that comes first in the order of the names. -/
def FirstClass (m : Module) (c : Member) : Prop :=
  c ∈ m.members ∧ c.isClass = true ∧ ∀ d ∈ m.members, d.isClass = true → c.name ≤ d.name

def HasClass (m : Module) : Prop := ∃ c ∈ m.members, c.isClass = true

end Verif.Spec

namespace Verif
open Verif.GuiLoad Verif.Spec

theorem getmembers_sorted (m : Module) :
    (getmembers m).Pairwise fun a b => a.name ≤ b.name := by
  have := List.pairwise_mergeSort (le := fun a b : Member => decide (a.name ≤ b.name))
    (fun a b c h1 h2 => by
      simp only [decide_eq_true_eq] at *; exact String.le_trans h1 h2)
    (fun a b => by
      simp only [Bool.or_eq_true, decide_eq_true_eq]; exact String.le_total a.name b.name)
    m.members
  simpa [getmembers] using this

theorem find_first (l : List Member) (h : l.Pairwise fun a b => a.name ≤ b.name) (c : Member)
    (hf : l.find? (·.isClass) = some c) (d : Member) (hd : d ∈ l) (hc : d.isClass = true) :
    c.name ≤ d.name := by
  induction l with
  | nil => simp at hd
  | cons x l ih =>
    rw [List.pairwise_cons] at h
    by_cases hx : x.isClass = true
    · simp [hx] at hf
      subst hf
      rcases List.mem_cons.1 hd with rfl | hd
      · exact String.le_refl _
      · exact h.1 d hd
    · simp [hx] at hf
      rcases List.mem_cons.1 hd with rfl | hd
      · exact absurd hc hx
      · exact ih h.2 hf hd

theorem dynamicLoader_some (m : Module) (c : Member) (h : dynamicLoader m = some c) :
    FirstClass m c := by
  refine ⟨?_, by simpa using List.find?_some h, fun d hd hc =>
    find_first _ (getmembers_sorted m) c h d (by simpa [getmembers] using hd) hc⟩
  have := List.mem_of_find?_eq_some h
  simpa [getmembers] using this

theorem dynamicLoader_none (m : Module) : dynamicLoader m = none ↔ ¬ HasClass m := by
  unfold dynamicLoader HasClass
  rw [List.find?_eq_none]
  simp [getmembers]

/-- If every module has a class, one window per module is opened, in order, of the first
class by name and with the name of the module as title, and the test says OK. -/
theorem C103_windows_partial (gs : List Module) (h : ∀ g ∈ gs, HasClass g) :
    ∃ ws, onInit gs = .ok ws ∧ ws.map (·.2) = gs.map (·.name) ∧ test gs = .ok "OK" ∧
      ∀ (i : Nat) (g : Module), gs[i]? = some g → ∃ w, ws[i]? = some w ∧ FirstClass g w.1 := by
  induction gs with
  | nil => exact ⟨[], rfl, rfl, rfl, by simp⟩
  | cons g gs ih =>
    obtain ⟨ws, h1, h2, h3, h4⟩ := ih (fun x hx => h x (by simp [hx]))
    cases hd : dynamicLoader g with
    | none => exact absurd (h g (by simp)) ((dynamicLoader_none g).1 hd)
    | some c =>
      refine ⟨(c, g.name) :: ws, by simp [onInit, hd, h1], by simp [h2], by simp [test, hd, h3], ?_⟩
      intro i x hx
      cases i with
      | zero =>
        simp at hx
        subst hx
        exact ⟨(c, g.name), by simp, dynamicLoader_some _ _ hd⟩
      | succ i => simpa using h4 i x (by simpa using hx)

/-- With a module without a class both raise `TypeError`: the test never says FAILED. -/
theorem C103_violated_failed (gs : List Module) :
    ((∃ g ∈ gs, ¬ HasClass g) → onInit gs = .typeError ∧ test gs = .typeError) ∧
    test gs ≠ .ok "FAILED" := by
  induction gs with
  | nil => simp [test]
  | cons g gs ih =>
    cases hd : dynamicLoader g with
    | none => simp [onInit, test, hd]
    | some c =>
      have hg : HasClass g := by
        by_cases h : HasClass g
        · exact h
        · rw [(dynamicLoader_none g).2 h] at hd; simp at hd
      refine ⟨?_, by simpa [test, hd] using ih.2⟩
      rintro ⟨x, hx, hn⟩
      rcases List.mem_cons.1 hx with rfl | hx
      · exact absurd hg hn
      · have := ih.1 ⟨x, hx, hn⟩
        simp [onInit, test, hd, this]

/-- A class that the module only imports is taken if its name comes first. -/
theorem C103_violated_imported (m : Module) (own imported : Member)
    (h2 : imported ∈ m.members) (hi : imported.isClass = true)
    (hlt : imported.name < own.name) : dynamicLoader m ≠ some own := by
  intro h
  have := (dynamicLoader_some m own h).2.2 imported h2 hi
  exact absurd hlt (String.not_lt.2 this)

/-- With a list of its own a call gives this list and the default GUI if asked for and
imported, whatever calls there were before. -/
theorem C103_own_list (dflt : Module) (shared : List Module) (cs : List Call) (i : Nat) (c : Call)
    (l : List Module) (hc : cs[i]? = some c) (hl : c.guilist = some l) :
    (calls dflt shared cs)[i]? =
      some (l ++ if c.default && c.imported then [dflt] else []) := by
  induction cs generalizing shared i with
  | nil => simp at hc
  | cons x cs ih =>
    cases i with
    | zero => simp at hc; subst hc; simp [calls, loader, hl]
    | succ i => simpa [calls] using ih _ i (by simpa using hc)

/-- The first call without a list gives the default GUI; the one after n others gives it
n+1 times. -/
theorem C103_violated_shared (dflt : Module) (n : Nat) :
    (calls dflt [] (List.replicate (n + 1) ⟨true, none, true⟩))[n]? =
      some (List.replicate (n + 1) dflt) := by
  have key : ∀ n k, (calls dflt (List.replicate k dflt)
      (List.replicate (n + 1) ⟨true, none, true⟩))[n]? = some (List.replicate (k + n + 1) dflt) := by
    intro n
    induction n with
    | zero =>
      intro k
      simp [calls, loader, List.replicate_succ']
    | succ n ih =>
      intro k
      have := ih (k + 1)
      rw [List.replicate_succ]
      simp only [calls, loader, Bool.and_self, if_true, List.getElem?_cons_succ]
      rw [← List.replicate_succ', this]
      congr 2
      omega
  simpa using key n 0

/-- A module with an imported class `Alpha` and its own class `Gui`. -/
example : dynamicLoader ⟨"m", [⟨"Gui", true⟩, ⟨"zeta", false⟩, ⟨"Alpha", true⟩]⟩ =
    some ⟨"Alpha", true⟩ := by
  have h := dynamicLoader_none ⟨"m", [⟨"Gui", true⟩, ⟨"zeta", false⟩, ⟨"Alpha", true⟩]⟩
  cases hd : dynamicLoader ⟨"m", [⟨"Gui", true⟩, ⟨"zeta", false⟩, ⟨"Alpha", true⟩]⟩ with
  | none => exact absurd ⟨⟨"Gui", true⟩, by simp⟩ (h.1 hd)
  | some c =>
    obtain ⟨h1, h2, h3⟩ := dynamicLoader_some _ _ hd
    have h4 := h3 ⟨"Alpha", true⟩ (by simp) rfl
    simp at h1
    rcases h1 with rfl | rfl | rfl
    · exact absurd h4 (by decide)
    · simp at h2
    · rfl

example : HasClass ⟨"m", [⟨"Gui", true⟩]⟩ ∧ ¬ HasClass ⟨"m", [⟨"x", false⟩]⟩ := by
  simp [HasClass]

end Verif
