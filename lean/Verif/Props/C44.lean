import Verif.Model.SigBus
/-!
# C44: SIGBUS protection restores the previous signal state
-/

set_option autoImplicit false
set_option linter.unusedSimpArgs false

namespace Verif.SigBus

/-- No system call fails except possibly `sigaction` in the constructor, and constructors find SIGBUS blocked. -/
def Orderly (s : St) : Nat × Ev → Prop
  | (i, .sigmask f) => f = false ∧ (s.th i).mask SIGBUS = true
  | (_, .restoreHandler f) => f = false
  | (_, .restoreMask f) => f = false
  | _ => True

/-- All steps of a sequence are orderly. -/
def OrderlyRun (s : St) : List (Nat × Ev) → Prop
  | [] => True
  | p :: es => Orderly s p ∧ ∀ s', s.step p.1 p.2 = some s' → OrderlyRun s' es

/-- What holds of the thread that owns the mutex. -/
def Inside (s : St) (t : Thread) : Prop :=
  match t.pc with
  | .out => False
  | .locked => s.handler = s.wantHandler ∧ t.mask = t.wantMask
  | .installed o => s.handler = .uhal ∧ o = s.wantHandler ∧ t.mask = t.wantMask
  | .guarded o m => s.handler = .uhal ∧ o = s.wantHandler ∧ m = t.wantMask ∧ t.mask = guardMask
  | .access o m jm => s.handler = .uhal ∧ o = s.wantHandler ∧ m = t.wantMask ∧ t.mask = guardMask ∧ jm = guardMask
  | .leaving m => s.handler = s.wantHandler ∧ m = t.wantMask
  | .unlocking => s.handler = s.wantHandler ∧ t.mask = t.wantMask

/-- The invariant. -/
structure Inv (s : St) : Prop where
  /-- the others -/
  others : ∀ i, s.mutex ≠ some i → (s.th i).pc = .out ∧ (s.th i).mask = (s.th i).wantMask
  owner : ∀ i, s.mutex = some i → Inside s (s.th i)
  free : s.mutex = none → s.handler = s.wantHandler
  lost : s.lost = false

theorem set_th (s : St) (i j : Nat) (t : Thread) : (s.set i t).th j = if j = i then t else s.th j := rfl

theorem Inv.out {s : St} (h : Inv s) {i : Nat} (hp : (s.th i).pc = .out) : s.mutex ≠ some i := by
  intro hm
  have := h.owner i hm
  unfold Inside at this
  rw [hp] at this
  exact this

theorem Inv.own {s : St} (h : Inv s) {i : Nat} (hp : (s.th i).pc ≠ .out) : s.mutex = some i :=
  Classical.byContradiction fun hm => hp (h.others i hm).1

/-- A step of the owner that keeps the mutex and what user code wants. -/
theorem Inv.inside {s s' : St} (h : Inv s) {i : Nat} {t : Thread} (hm : s.mutex = some i) (hmu : s'.mutex = s.mutex)
    (hth : s'.th = fun j => if j = i then t else s.th j) (hl : s'.lost = false)
    (ht : Inside s' t) : Inv s' := by
  refine ⟨?_, ?_, ?_, hl⟩
  · intro j hj
    rw [hmu, hm] at hj
    have hji : j ≠ i := fun e => hj (by rw [e])
    rw [hth]
    simp only [hji, if_false]
    exact h.others j (by rw [hm]; exact fun e => hji (by simpa using e.symm))
  · intro j hj
    rw [hmu, hm] at hj
    have : j = i := by simpa using hj.symm
    subst this
    rw [hth]; simpa using ht
  · intro hn; rw [hmu, hm] at hn; cases hn

theorem Inv.step {s s' : St} (h : Inv s) {i : Nat} {e : Ev} (ho : Orderly s (i, e)) (hs : s.step i e = some s') : Inv s' := by
  unfold St.step at hs
  cases hp : (s.th i).pc with
  | out =>
    have hm := h.out hp
    cases e <;> simp only [hp, reduceCtorEq] at hs
    · -- setMask
      cases hs
      refine ⟨?_, ?_, h.free, h.lost⟩
      · intro j hj
        rw [set_th]
        split
        · exact ⟨rfl, rfl⟩
        · exact h.others j hj
      · intro j hj
        rw [set_th]
        have hji : j ≠ i := fun e => hm (by rw [← e]; exact hj)
        rw [if_neg hji]
        exact h.owner j hj
    · -- setHandler
      split at hs
      · rename_i hmn
        cases hs
        refine ⟨h.others, ?_, fun _ => rfl, h.lost⟩
        intro j hj
        have : s.mutex = some j := hj
        rw [hmn] at this; cases this
      · cases hs
    · -- lock
      split at hs
      · rename_i hmn
        cases hs
        refine ⟨?_, ?_, ?_, h.lost⟩
        · intro j hj
          have hji : j ≠ i := fun e => hj (by rw [e]; rfl)
          rw [set_th, if_neg hji]
          exact h.others j (by rw [hmn]; simp)
        · intro j hj
          have : i = j := by simpa [St.set] using hj
          subst this
          rw [set_th, if_pos rfl]
          exact ⟨h.free hmn, (h.others i hm).2⟩
        · intro hn; cases hn
      · cases hs
  | locked =>
    have hm := h.own (i := i) (by rw [hp]; simp)
    have hin := h.owner i hm
    unfold Inside at hin
    rw [hp] at hin
    cases e <;> simp only [hp, reduceCtorEq] at hs
    rename_i f
    cases f <;> simp only [Option.some.injEq] at hs <;> subst hs
    · exact h.inside (t := { s.th i with pc := .installed s.handler }) hm rfl rfl h.lost ⟨rfl, hin.1, hin.2⟩
    · exact h.inside (t := { s.th i with pc := .unlocking }) hm rfl rfl h.lost hin
  | installed o =>
    have hm := h.own (i := i) (by rw [hp]; simp)
    have hin := h.owner i hm
    unfold Inside at hin
    rw [hp] at hin
    cases e <;> simp only [hp, reduceCtorEq] at hs
    rename_i f
    obtain ⟨hf, hb⟩ := ho
    subst hf
    simp only [hb, if_true, Option.some.injEq] at hs
    subst hs
    exact h.inside (t := { s.th i with mask := guardMask, pc := .guarded o (s.th i).mask }) hm rfl rfl h.lost
      ⟨hin.1, hin.2.1, hin.2.2, rfl⟩
  | guarded o m =>
    have hm := h.own (i := i) (by rw [hp]; simp)
    have hin := h.owner i hm
    unfold Inside at hin
    rw [hp] at hin
    cases e <;> simp only [hp, reduceCtorEq] at hs
    · cases hs
      exact h.inside (t := { s.th i with pc := .access o m (s.th i).mask }) hm rfl rfl h.lost
        ⟨hin.1, hin.2.1, hin.2.2.1, hin.2.2.2, hin.2.2.2⟩
    · rename_i f
      have hf : f = false := ho
      subst hf
      cases hs
      exact h.inside (t := { s.th i with pc := .leaving m }) hm rfl rfl h.lost ⟨hin.2.1, hin.2.2.1⟩
  | access o m jm =>
    have hm := h.own (i := i) (by rw [hp]; simp)
    have hin := h.owner i hm
    unfold Inside at hin
    rw [hp] at hin
    obtain ⟨h1, h2, h3, h4, h5⟩ := hin
    cases e <;> simp only [hp, reduceCtorEq] at hs
    · cases hs
      exact h.inside (t := { s.th i with pc := .guarded o m }) hm rfl rfl h.lost ⟨h1, h2, h3, h4⟩
    · cases hs
      exact h.inside (t := { s.th i with pc := .guarded o m }) hm rfl rfl h.lost ⟨h1, h2, h3, h4⟩
    · rw [if_pos ⟨by rw [h4]; rfl, h1⟩] at hs
      cases hs
      exact h.inside (t := { s.th i with pc := .guarded o m, mask := jm }) hm rfl rfl h.lost ⟨h1, h2, h3, h5⟩
  | leaving m =>
    have hm := h.own (i := i) (by rw [hp]; simp)
    have hin := h.owner i hm
    unfold Inside at hin
    rw [hp] at hin
    cases e <;> simp only [hp, reduceCtorEq] at hs
    rename_i f
    have hf : f = false := ho
    subst hf
    cases hs
    exact h.inside (t := { s.th i with pc := .unlocking, mask := m }) hm rfl rfl h.lost hin
  | unlocking =>
    have hm := h.own (i := i) (by rw [hp]; simp)
    have hin := h.owner i hm
    unfold Inside at hin
    rw [hp] at hin
    cases e <;> simp only [hp, reduceCtorEq] at hs
    cases hs
    refine ⟨?_, ?_, fun _ => hin.1, h.lost⟩
    · intro j _
      rw [set_th]
      split
      · exact ⟨rfl, hin.2⟩
      · rename_i hji
        exact h.others j (by rw [hm]; exact fun e => hji (by simpa using e.symm))
    · intro j hj; cases hj

theorem Inv.run {s s' : St} (h : Inv s) {es : List (Nat × Ev)} (ho : OrderlyRun s es) (hs : s.run es = some s') : Inv s' := by
  induction es generalizing s with
  | nil => cases hs; exact h
  | cons p es ih =>
    obtain ⟨i, e⟩ := p
    rw [St.run] at hs
    cases hst : s.step i e with
    | none => rw [hst] at hs; cases hs
    | some s1 => rw [hst] at hs; exact ih (h.step ho.1 hst) (ho.2 s1 hst) hs

theorem start_inv (h : Nat) (masks : Nat → Mask) : Inv (start h masks) :=
  ⟨fun _ _ => ⟨rfl, rfl⟩, (fun _ h => by cases h), fun _ => rfl, rfl⟩

/-- **C44**: any number of threads, any interleaving, any number of guards, accesses that complete, throw or raise SIGBUS: whenever
no guard exists the SIGBUS handler is the one last set by user code; whenever a thread has no guard its signal mask is the one it last
set itself; and no SIGBUS of a protected access is lost.
Missing for C44: a constructor that finds SIGBUS not blocked (`C44_violated_unblocked`), and failing system calls other than the
constructor's `sigaction` (`C44_violated_sigmask`). -/
theorem C44_restored_partial (h : Nat) (masks : Nat → Mask) (es : List (Nat × Ev)) (s : St) (ho : OrderlyRun (start h masks) es)
    (hs : (start h masks).run es = some s) :
    (s.mutex = none → s.handler = s.wantHandler) ∧ (∀ i, (s.th i).pc = .out → (s.th i).mask = (s.th i).wantMask) ∧ s.lost = false := by
  have hi := (start_inv h masks).run ho hs
  exact ⟨hi.free, fun i hp => (hi.others i (hi.out hp)).2, hi.lost⟩

/-- **C44**: while a thread has a guard no other thread has one, SIGBUS goes to uHAL's handler, and in the thread with the guard it is
not blocked. -/
theorem C44_protected_partial (h : Nat) (masks : Nat → Mask) (es : List (Nat × Ev)) (s : St) (ho : OrderlyRun (start h masks) es)
    (hs : (start h masks).run es = some s) {i : Nat} {o : Handler} {m jm : Mask} (hp : (s.th i).pc = .access o m jm) :
    s.handler = .uhal ∧ (s.th i).mask SIGBUS = false ∧ ∀ j, j ≠ i → (s.th j).pc = .out := by
  have hi := (start_inv h masks).run ho hs
  have hm := hi.own (i := i) (by rw [hp]; simp)
  have hin := hi.owner i hm
  unfold Inside at hin
  rw [hp] at hin
  refine ⟨hin.1, by rw [hin.2.2.2.1]; rfl, fun j hj => (hi.others j ?_).1⟩
  rw [hm]
  exact fun e => hj (by simpa using e.symm)

/-- A run in which two threads use guards, one access raising SIGBUS, one throwing. -/
def demoRun : List (Nat × Ev) :=
  [(0, .lock), (1, .setMask (fun n => n == SIGBUS || n == 3)), (0, .sigaction false), (0, .sigmask false), (0, .protect), (0, .sigbus),
    (0, .restoreHandler false), (0, .restoreMask false), (0, .unlock), (1, .setHandler 5), (1, .lock), (1, .sigaction false),
    (1, .sigmask false), (1, .protect), (1, .throw), (1, .restoreHandler false), (1, .restoreMask false), (1, .unlock),
    (2, .lock), (2, .sigaction true), (2, .unlock)]

/-- Non-trivial instance of the hypotheses. -/
example : OrderlyRun (start 0 (fun _ n => n == SIGBUS)) demoRun ∧
    (((start 0 (fun _ n => n == SIGBUS)).run demoRun).map fun s => (s.handler, (s.th 1).mask 3, (s.th 0).mask 3, s.lost)) =
      some (.user 5, true, false, false) := by
  refine ⟨?_, by decide⟩
  unfold demoRun
  repeat' first
    | exact trivial
    | (refine ⟨by first | exact trivial | rfl | exact ⟨rfl, rfl⟩, fun s' hs => ?_⟩; cases hs)

/-- **C44 is violated**: a thread that has not blocked SIGBUS tries to construct a guard. The constructor throws, but uHAL's handler
stays registered, and nearly all signals stay blocked in the thread. -/
theorem C44_violated_unblocked (h : Nat) :
    (((start h (fun _ _ => false)).run [(0, .lock), (0, .sigaction false), (0, .sigmask false), (0, .unlock)]).map fun s =>
      (s.mutex, s.handler, s.wantHandler, (s.th 0).mask 15, (s.th 0).wantMask 15)) = some (none, .uhal, .user h, true, false) := rfl

/-- **C44 is violated**, for good: every later guard takes uHAL's handler for the original one and restores it. -/
theorem C44_violated_for_good (h : Nat) :
    (((start h (fun i n => i == 1 && n == SIGBUS)).run [(0, .lock), (0, .sigaction false), (0, .sigmask false), (0, .unlock),
      (1, .lock), (1, .sigaction false), (1, .sigmask false), (1, .protect), (1, .done), (1, .restoreHandler false),
      (1, .restoreMask false), (1, .unlock)]).map fun s => (s.mutex, s.handler, s.wantHandler)) = some (none, .uhal, .user h) := rfl

/-- **C44 is violated**: if `pthread_sigmask` fails in the constructor, uHAL's handler stays registered. -/
theorem C44_violated_sigmask (h : Nat) :
    (((start h (fun _ n => n == SIGBUS)).run [(0, .lock), (0, .sigaction false), (0, .sigmask true), (0, .unlock)]).map fun s =>
      (s.mutex, s.handler, s.wantHandler)) = some (none, .uhal, .user h) := rfl

end Verif.SigBus
