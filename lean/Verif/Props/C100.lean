import Verif.Model.Suite

/-!
C100: the test suite reports failures.
-/

set_option autoImplicit false

namespace Verif.Spec

/-- A command that went well: exit code 0; a background process that lived until it was
terminated. -/
def SuiteGood : Suite.Cmd → Prop
  | .run code => code = 0
  | .dummy alive => alive = true
  | _ => True

/-- The codes that a process or `run_command` can give. -/
def SuiteCode : Suite.Cmd → Prop
  | .run code => -256 < code ∧ code < 256
  | _ => True

/-- The number of commands that give a code other than 0. -/
def suiteFailures (cs : List Suite.Cmd) : Nat :=
  (cs.filter fun c => match c with | .run code => code ≠ 0 | _ => false).length

/-- A section is selected if the text to search is part of its name, in whatever case. -/
def SuiteSelected (search : Option (List Char)) (name : List Char) : Prop :=
  ∀ x, search = some x →
    ∃ a b, name.map Char.toLower = a ++ x.map Char.toLower ++ b

end Verif.Spec

namespace Verif
open Verif.Suite Verif.Spec

/-! ## Lemmas -/

theorem sysExit_ne (code : Int) (h : code ≠ 0) (h1 : -256 < code) (h2 : code < 256) :
    sysExit code ≠ 0 := by
  unfold sysExit; omega

theorem isIn_iff (a b : List Char) : isIn a b = true ↔ ∃ x y, b = x ++ a ++ y := by
  induction b with
  | nil =>
    simp only [isIn, List.isEmpty_iff]
    constructor
    · rintro rfl; exact ⟨[], [], rfl⟩
    · rintro ⟨x, y, h⟩
      have := congrArg List.length h
      simp at this
      exact List.length_eq_zero_iff.1 (by omega)
  | cons c b ih =>
    simp only [isIn, Bool.or_eq_true, ih, List.isPrefixOf_iff_prefix]
    constructor
    · rintro (⟨y, h⟩ | ⟨x, y, h⟩)
      · exact ⟨[], y, by simp [h]⟩
      · exact ⟨c :: x, y, by simp [h]⟩
    · rintro ⟨x, y, h⟩
      cases x with
      | nil => exact .inl ⟨y, by simpa using h.symm⟩
      | cons d x => exact .inr ⟨x, y, by simp at h; simp [h.2]⟩

theorem toRun_mem (search : Option (List Char)) (sections : List (List Char × List Cmd))
    (s : List Char × List Cmd) :
    s ∈ toRun search sections ↔ s ∈ sections ∧ SuiteSelected search s.1 := by
  unfold toRun skip SuiteSelected
  cases search with
  | none => simp
  | some x =>
    simp only [List.mem_filter, Option.some.injEq, forall_eq', lower]
    rw [← isIn_iff]
    by_cases h : isIn (List.map Char.toLower x) (List.map Char.toLower s.1) = true <;> simp [h]

theorem killAll_status (bg : List Bool) (e : End) :
    (killAll bg e).status = 0 ↔ (∀ b ∈ bg, b = true) ∧ e.status = 0 := by
  unfold killAll
  by_cases h : bg.all id = true
  · simp only [h, if_true]
    simp at h
    simp
    intro _ hf
    exact h hf
  · simp only [h]
    simp at h
    simp
    intro hf
    exact absurd h hf

theorem loop_status (quit : Bool) (cs : List Cmd) (s : St)
    (hc : quit = true → ∀ c ∈ cs, SuiteCode c) (hi : Cmd.interrupted ∉ cs) :
    (loop quit cs s).status = 0 ↔
      s.nrErr = 0 ∧ (∀ b ∈ s.bg, b = true) ∧ ∀ c ∈ cs, SuiteGood c := by
  induction cs generalizing s with
  | nil =>
    simp only [loop, killAll_status]
    by_cases h : s.nrErr > 0 <;> simp [h] <;> omega
  | cons c cs ih =>
    have ih' := fun s => ih s (fun hq c hm => hc hq c (by simp [hm])) (fun h => hi (by simp [h]))
    cases c with
    | kill =>
      simp only [loop, killAll_status, ih']
      simp [SuiteGood]
      constructor <;> (rintro ⟨a, b, c⟩; exact ⟨b, a, c⟩)
    | dummy alive =>
      simp only [loop, ih', List.forall_mem_cons]
      have : SuiteGood (.dummy alive) ↔ alive = true := Iff.rfl
      rw [this]
      constructor
      · rintro ⟨a, ⟨b, c⟩, d⟩; exact ⟨a, c, b, d⟩
      · rintro ⟨a, c, b, d⟩; exact ⟨a, ⟨b, c⟩, d⟩
    | interrupted => simp at hi
    | run code =>
      simp only [loop]
      by_cases h0 : code = 0
      · simp [h0, ih', SuiteGood]
      · cases quit with
        | true =>
          have hcc := hc rfl (.run code) (by simp)
          have := sysExit_ne code h0 hcc.1 hcc.2
          simp [h0, killAll_status, this, SuiteGood]
        | false => simp [h0, ih', SuiteGood]

theorem loop_report (cs : List Cmd) (s : St) (n m : Nat)
    (h : (loop false cs s).report = some (n, m)) :
    n = s.nrRun + cs.length ∧ m = s.nrErr + suiteFailures cs := by
  induction cs generalizing s with
  | nil =>
    simp only [loop, killAll] at h
    split at h
    · simp at h; simp [suiteFailures, h]
    · simp at h
  | cons c cs ih =>
    cases c with
    | kill =>
      simp only [loop, killAll] at h
      split at h
      · have := ih _ h
        simp [suiteFailures] at this ⊢
        omega
      · simp at h
    | dummy alive =>
      have := ih _ h
      simp [suiteFailures] at this ⊢
      omega
    | interrupted =>
      simp only [loop, killAll] at h
      split at h <;> simp at h
    | run code =>
      simp only [loop] at h
      by_cases h0 : code = 0
      · simp only [h0] at h
        have := ih _ h
        simp [suiteFailures, h0] at this ⊢
        omega
      · simp [h0] at h
        have := ih _ h
        simp [suiteFailures, h0] at this ⊢
        omega

/-! ## The property -/

/-- Without Ctrl-C outside of a command the exit status is 0 exactly if every command of
every selected section gives code 0 and every dummy hardware lives until it is terminated. -/
theorem C100_status_partial (quit : Bool) (search : Option (List Char))
    (sections : List (List Char × List Cmd))
    (hc : ∀ s ∈ sections, ∀ c ∈ s.2, SuiteCode c)
    (hi : ∀ s ∈ sections, Cmd.interrupted ∉ s.2) :
    (main quit search sections).status = 0 ↔
      ∀ s ∈ sections, SuiteSelected search s.1 → ∀ c ∈ s.2, SuiteGood c := by
  unfold main
  rw [loop_status]
  · simp only [List.not_mem_nil, false_implies, implies_true, true_and, List.mem_flatMap]
    constructor
    · intro h s hs hsel c hcm
      exact h c ⟨s, (toRun_mem _ _ _).2 ⟨hs, hsel⟩, hcm⟩
    · rintro h c ⟨s, hs, hcm⟩
      have := (toRun_mem _ _ _).1 hs
      exact h s this.1 this.2 c hcm
  · intro _ c hcm
    obtain ⟨s, hs, hm⟩ := List.mem_flatMap.1 hcm
    exact hc s ((toRun_mem _ _ _).1 hs).1 c hm
  · intro hcm
    obtain ⟨s, hs, hm⟩ := List.mem_flatMap.1 hcm
    exact hi s ((toRun_mem _ _ _).1 hs).1 hm

open Classical in
/-- The numbers that are printed: of the commands of the selected sections, and of those of
them with a code other than 0. -/
theorem C100_report (search : Option (List Char)) (sections : List (List Char × List Cmd))
    (n m : Nat) (h : (main false search sections).report = some (n, m)) :
    let cs := (sections.filter fun s => decide (SuiteSelected search s.1)).flatMap (·.2)
    n = cs.length ∧ m = suiteFailures cs := by
  have heq : toRun search sections =
      sections.filter fun s => decide (SuiteSelected search s.1) := by
    unfold toRun
    apply List.filter_congr
    intro s hs
    have h1 := toRun_mem search [s] s
    simp only [toRun, List.mem_filter, List.mem_singleton, true_and] at h1
    rw [Bool.eq_iff_iff, h1, decide_eq_true_iff]
  have := loop_report _ _ _ _ h
  rw [heq] at this
  simpa using this

/-- Three sections, one of them selected by a text in other case. -/
def suiteSample : List (List Char × List Cmd) :=
  [("TEST UDP".toList, [.dummy true, .run 0, .run 3, .run (-11), .kill]),
   ("TEST TCP".toList, [.dummy true, .run 0, .kill]), ("PYTHON".toList, [.run 0])]

example : main false none suiteSample = ⟨1, some (9, 2)⟩ := by decide +kernel
example : main true none suiteSample = ⟨3, none⟩ := by decide +kernel
example : main false (some "tcp".toList) suiteSample = ⟨0, some (3, 0)⟩ := by decide +kernel
example : (main false none [("A".toList, [.dummy false, .run 0])]).status = 1 := by decide +kernel
example : (∀ s ∈ suiteSample, ∀ c ∈ s.2, SuiteCode c) ∧
    ∀ s ∈ suiteSample, Cmd.interrupted ∉ s.2 := by
  simp [suiteSample, SuiteCode]

/-- After Ctrl-C the status is 0 whatever has failed before. -/
theorem C100_violated_interrupt (cs rest : List Cmd) (name : List Char)
    (hb : ∀ c ∈ cs, c ≠ .dummy false) :
    (main false none [(name, cs ++ .interrupted :: rest)]).status = 0 := by
  have key : ∀ (cs : List Cmd) (s : St), (∀ b ∈ s.bg, b = true) → (∀ c ∈ cs, c ≠ .dummy false) →
      (loop false (cs ++ .interrupted :: rest) s).status = 0 := by
    intro cs
    induction cs with
    | nil => intro s hs _; simp only [List.nil_append, loop, killAll_status]; exact ⟨hs, trivial⟩
    | cons c cs ih =>
      intro s hs hb
      have hb' : ∀ c ∈ cs, c ≠ .dummy false := fun c hc => hb c (by simp [hc])
      cases c with
      | kill =>
        simp only [List.cons_append, loop, killAll_status]
        exact ⟨hs, ih _ (by simp) hb'⟩
      | dummy alive =>
        have ha : alive = true := by
          cases alive with
          | true => rfl
          | false => exact absurd rfl (hb (.dummy false) (by simp))
        exact ih _ (by simpa [ha] using hs) hb'
      | interrupted =>
        simp only [List.cons_append, loop, killAll_status]
        exact ⟨hs, trivial⟩
      | run code =>
        simp only [List.cons_append, loop]
        by_cases h0 : code = 0
        · simpa [h0] using ih { s with nrRun := s.nrRun + 1 } hs hb'
        · simpa [h0] using ih { s with nrRun := s.nrRun + 1, nrErr := s.nrErr + 1 } hs hb'
  simpa [main, toRun, skip] using key cs {} (by simp) hb

example : (main false none [("A".toList, [.run 1, .run 139, .interrupted])]).status = 0 := by
  decide +kernel

/-- If no section is selected nothing is run and the status is 0. -/
theorem C100_violated_none (quit : Bool) (search : Option (List Char))
    (sections : List (List Char × List Cmd))
    (h : ∀ s ∈ sections, ¬ SuiteSelected search s.1) :
    main quit search sections = ⟨0, some (0, 0)⟩ := by
  have : toRun search sections = [] := by
    apply List.eq_nil_iff_forall_not_mem.2
    intro s hs
    have := (toRun_mem _ _ _).1 hs
    exact h s this.1 this.2
  simp [main, this, loop, killAll]

example : main false (some "usb".toList) suiteSample = ⟨0, some (0, 0)⟩ := by decide +kernel

/-- The first section tests that the ControlHub starts.  If it never starts, in any of the
turns, but the last `controlhub_stop` succeeds, the suite ends with status 0. -/
theorem C100_violated_start (turns : List HubTurn) (last : HubTurn) (h : last.stop = 0)
    (name : List Char) :
    main false none [(name, [.run (hubLoop (turns ++ [last]))])] = ⟨0, some (1, 0)⟩ := by
  simp [main, toRun, skip, hubLoop, h, loop, killAll]

example : (main false none [("A".toList,
    [.run (hubLoop (List.replicate 100 ⟨1, 1, 0⟩))])]).status = 0 := by decide +kernel

end Verif
