import Verif.Model.ChkConfig

/-!
C102: the check of the configuration files of the ControlHub.
-/

set_option autoImplicit false

namespace Verif.Spec
open ChkConfig

/-- One file refers to another. -/
def CfgRefers (fs : String → Content) (f g : String) : Prop :=
  ∃ l, fs f = .items l ∧ Item.file g ∈ l

/-- Files that are read when one is read. -/
inductive CfgReach (fs : String → Content) : String → String → Prop
  | self (f : String) : CfgReach fs f f
  | step (f g h : String) : CfgRefers fs f g → CfgReach fs g h → CfgReach fs f h

/-- A file that is a list and defines only parameters with known names. -/
def CfgGood (fs : String → Content) (f : String) : Prop :=
  ∃ l, fs f = .items l ∧ ∀ ks, Item.controlhub ks ∈ l → ∀ k ∈ ks, k ∈ valid

end Verif.Spec

namespace Verif
open Verif.ChkConfig Verif.Spec

theorem mem_defined (l : List Item) (k : String) :
    k ∈ defined l ↔ ∃ ks, Item.controlhub ks ∈ l ∧ k ∈ ks := by
  induction l with
  | nil => simp [defined]
  | cons i l ih =>
    cases i with
    | controlhub ks =>
      simp only [defined, List.mem_append, ih, List.mem_cons, Item.controlhub.injEq]
      constructor
      · rintro (h | ⟨js, h1, h2⟩)
        · exact ⟨ks, .inl rfl, h⟩
        · exact ⟨js, .inr h1, h2⟩
      · rintro ⟨js, rfl | h1, h2⟩
        · exact .inl h2
        · exact .inr ⟨js, h1, h2⟩
    | file f => simp [defined, ih]
    | other => simp [defined, ih]

theorem mem_referenced (l : List Item) (f : String) :
    f ∈ referenced l ↔ Item.file f ∈ l := by
  induction l with
  | nil => simp [referenced]
  | cons i l ih => cases i <;> simp [referenced, ih]

theorem checkAll_some (g : String → Option Bool) (fs : List String) (b : Bool)
    (h : checkAll g fs = some b) :
    (∀ f ∈ fs, ∃ c, g f = some c) ∧ (b = true ↔ ∀ f ∈ fs, g f = some true) := by
  induction fs generalizing b with
  | nil => simp [checkAll] at h; simp [h]
  | cons f fs ih =>
    simp only [checkAll] at h
    split at h
    · rename_i a c ha hc
      obtain ⟨h1, h2⟩ := ih c hc
      simp at h
      subst h
      refine ⟨?_, ?_⟩
      · intro x hx
        rcases List.mem_cons.1 hx with rfl | hx
        · exact ⟨a, ha⟩
        · exact h1 x hx
      · simp [ha, h2]
    · simp at h

theorem checkAll_none (g : String → Option Bool) (fs : List String) (f : String) (hf : f ∈ fs)
    (h : g f = none) : checkAll g fs = none := by
  induction fs with
  | nil => simp at hf
  | cons x fs ih =>
    rcases List.mem_cons.1 hf with rfl | hf
    · simp [checkAll, h]
    · simp [checkAll, ih hf]

theorem checkAll_ends (g : String → Option Bool) (fs : List String) (h : ∀ f ∈ fs, g f ≠ none) :
    checkAll g fs ≠ none := by
  induction fs with
  | nil => simp [checkAll]
  | cons f fs ih =>
    have h1 := h f (by simp)
    have h2 := ih (fun x hx => h x (by simp [hx]))
    obtain ⟨a, ha⟩ := Option.ne_none_iff_exists'.1 h1
    obtain ⟨b, hb⟩ := Option.ne_none_iff_exists'.1 h2
    simp [checkAll, ha, hb]

/-- If the check ends, it succeeds exactly if every file that is read is a list and defines
only known parameters. -/
theorem C102_check_partial (fs : String → Content) (n : Nat) (f : String) (b : Bool)
    (h : check fs n f = some b) : b = true ↔ ∀ g, CfgReach fs f g → CfgGood fs g := by
  induction n generalizing f b with
  | zero => simp [check] at h
  | succ n ih =>
    simp only [check] at h
    split at h
    · rename_i l hl
      obtain ⟨c, hc, hb⟩ := Option.map_eq_some_iff.1 h
      obtain ⟨h1, h2⟩ := checkAll_some _ _ _ hc
      subst hb
      have hinv : ((defined l).filter fun k => !valid.contains k).isEmpty = true ↔
          ∀ ks, Item.controlhub ks ∈ l → ∀ k ∈ ks, k ∈ valid := by
        rw [List.isEmpty_iff, List.filter_eq_nil_iff]
        simp only [mem_defined, Bool.not_eq_true', Bool.not_eq_false, List.contains_iff_mem]
        constructor
        · intro hh ks hks k hk; exact hh k ⟨ks, hks, hk⟩
        · rintro hh k ⟨ks, hks, hk⟩; exact hh ks hks k hk
      rw [Bool.and_eq_true, hinv, h2]
      constructor
      · rintro ⟨ha, hr⟩ g hg
        cases hg with
        | self => exact ⟨l, hl, ha⟩
        | step _ x _ hx hxg =>
          obtain ⟨l', hl', hm⟩ := hx
          have : l' = l := by rw [hl] at hl'; exact (Content.items.inj hl').symm
          subst this
          exact (ih x true (hr x ((mem_referenced _ _).2 hm))).1 rfl g hxg
      · intro hh
        refine ⟨?_, ?_⟩
        · obtain ⟨l', hl', ha⟩ := hh f (.self f)
          have : l' = l := by rw [hl] at hl'; exact (Content.items.inj hl').symm
          subst this
          exact ha
        · intro x hx
          obtain ⟨cx, hcx⟩ := h1 x hx
          have := (ih x cx hcx).2 (fun g hg =>
            hh g (.step f x g ⟨l, hl, (mem_referenced _ _).1 hx⟩ hg))
          rw [hcx, this]
    · rename_i hne
      simp at h
      subst h
      simp only [Bool.false_eq_true, false_iff]
      intro hh
      obtain ⟨l, hl, _⟩ := hh f (.self f)
      exact hne l hl

/-- The check ends if the references have an order. -/
theorem C102_ends (fs : String → Content) (rank : String → Nat)
    (hr : ∀ f g, CfgRefers fs f g → rank g < rank f) (f : String) (n : Nat) (hn : rank f < n) :
    check fs n f ≠ none := by
  induction n generalizing f with
  | zero => omega
  | succ n ih =>
    simp only [check]
    split
    · rename_i l hl
      intro hh
      refine checkAll_ends (check fs n) (referenced l) ?_ (Option.map_eq_none_iff.1 hh)
      intro g hg
      have := hr f g ⟨l, hl, (mem_referenced _ _).1 hg⟩
      exact ih g (by omega)
    · simp

/-- The check does not end if files refer to each other in a circle. -/
theorem C102_violated_circle (fs : String → Content) (S : String → Prop)
    (hS : ∀ f, S f → ∃ g, S g ∧ CfgRefers fs f g) (f : String) (hf : S f) (n : Nat) :
    check fs n f = none := by
  induction n generalizing f with
  | zero => rfl
  | succ n ih =>
    obtain ⟨g, hg, l, hl, hm⟩ := hS f hf
    simp [check, hl, checkAll_none _ _ g ((mem_referenced _ _).2 hm) (ih g hg)]

/-- Every parameter that the hub reads has a known name. -/
theorem C102_known (k : String) (h : k ∈ reads) : k ∈ valid := by
  simp only [reads, List.mem_cons, List.not_mem_nil, or_false] at h
  rcases h with rfl | rfl | rfl | rfl | rfl | rfl <;> simp [valid]

/-- A file can pass although it defines parameters that the hub does not read. -/
theorem C102_violated_unused (k : String) (h : k = "tcp_socket_opts" ∨ k = "device_allowlist")
    (fs : String → Content) (f : String) (hf : fs f = .items [.controlhub [k]]) :
    check fs 1 f = some true ∧ k ∉ reads := by
  rcases h with rfl | rfl <;> simp [check, hf, defined, referenced, checkAll, valid, reads]

/-- The files that come with the hub, and one with a misspelt name. -/
def cfgSample : String → Content := fun f =>
  if f = "sys.config" then .items [.file "core.config", .controlhub ["max_udp_in_flight"]]
  else if f = "core.config" then .items [.other]
  else if f = "old.config" then .items [.file "sys.config", .controlhub ["max_in_flight"]]
  else .error

example : check cfgSample 3 "sys.config" = some true := by decide +kernel
example : check cfgSample 3 "old.config" = some false := by decide +kernel
example : check cfgSample 3 "none" = some false := by decide +kernel

/-- The configuration that `ipbus_perf_suite.py` writes for the hub (line 392) defines
`max_in_flight`: it does not pass. -/
example : check (fun _ => .items [.other, .controlhub ["max_in_flight"]]) 1 "sys.config" =
    some false := by decide +kernel

example : ∃ rank : String → Nat, ∀ f g, CfgRefers cfgSample f g → rank g < rank f := by
  refine ⟨fun f => if f = "old.config" then 2 else if f = "sys.config" then 1 else 0, ?_⟩
  rintro f g ⟨l, hl, hm⟩
  unfold cfgSample at hl
  split at hl
  · rename_i h; subst h; cases hl; simp at hm; subst hm; decide
  · split at hl
    · cases hl; simp at hm
    · split at hl
      · rename_i h; subst h; cases hl; simp at hm; subst hm; decide
      · cases hl

end Verif
