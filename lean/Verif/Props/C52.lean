import Verif.Lemmas.Registry
/-!
# C52: one device client per target

In every execution of the registry — any number of processes asking for any targets at any time, device clients ending at any time,
exit signals delayed at will, starts that fail — at most one device client per target is running, and every process that asks for a
target gets a device client that was started for this target and no other, or is refused for the reason the allowlist gives.
-/

set_option autoImplicit false

namespace Verif.Registry
open Verif.TraMgr (Addr Lookup)
open Verif.Allow (Mode Param)

/-- **C52.** At no time do two device clients run for the same target, nor one device client for two targets. -/
theorem C52_one_per_target (mode : Mode) (par : Param) (es : List Event) (p q : Nat) (a b : Addr)
    (hp : (p, a) ∈ (run mode par {} es).alive) (hq : (q, b) ∈ (run mode par {} es).alive) : p = q ↔ a = b := by
  have I := inv_run mode par es {} (inv_init mode par)
  have h1 := (find?_key _ _ _ I.ndIndex).mpr (I.aliveIn _ _ hp)
  have h2 := (find?_key _ _ _ I.ndIndex).mpr (I.aliveIn _ _ hq)
  have h3 := (find?_key _ _ _ I.ndAlive).mpr hp
  have h4 := (find?_key _ _ _ I.ndAlive).mpr hq
  constructor
  · rintro rfl
    rw [h3] at h4
    exact Option.some.inj h4
  · rintro rfl
    rw [h1] at h2
    exact Option.some.inj h2

/-- **C52.** A process identifier that is returned belongs to a device client that was started for the target asked for, and for no
other target. -/
theorem C52_right_target (mode : Mode) (par : Param) (es : List Event) (c p : Nat) (a : Addr)
    (h : (c, a, Answer.result (.pid p)) ∈ (run mode par {} es).answers) :
    (p, a) ∈ (run mode par {} es).started ∧ ∀ b, (p, b) ∈ (run mode par {} es).started → b = a := by
  have I := inv_run mode par es {} (inv_init mode par)
  have h1 : (p, a) ∈ (run mode par {} es).started := I.answersOk _ h
  refine ⟨h1, fun b hb => ?_⟩
  have h2 := (find?_key _ _ _ I.ndStarted).mpr h1
  have h3 := (find?_key _ _ _ I.ndStarted).mpr hb
  rw [h2] at h3
  exact (Option.some.inj h3).symm

/-- **C52.** Every question is answered exactly once, except those that still wait for the registry. -/
theorem C52_answered (mode : Mode) (par : Param) (es : List Event) :
    ((run mode par {} es).answers.map (fun x => (x.1, x.2.1)) ++ pending (run mode par {} es).mailbox).Perm
      (run mode par {} es).asked :=
  (inv_run mode par es {} (inv_init mode par)).counted

/-- **C52.** The allowlist decides: a device client is started only for targets that may be accessed, `blocked` is returned only for
targets that are to be blocked, and those never get anything else. -/
theorem C52_blocked (mode : Mode) (par : Param) (es : List Event) :
    (∀ p a, (p, a) ∈ (run mode par {} es).started → Allow.verdict mode par a = .register) ∧
    (∀ c a r, (c, a, r) ∈ (run mode par {} es).answers →
      (r = .result .blocked ↔ Allow.verdict mode par a = .blocked)) := by
  have I := inv_run mode par es {} (inv_init mode par)
  refine ⟨I.allowStarted, fun c a r h => ?_⟩
  have ok := I.answersOk _ h
  rcases r with (p | _ | _) | _
  · have : Allow.verdict mode par a = .register := I.allowStarted _ _ ok
    simp [this]
  · simpa [AnswerOk] using ok
  · simp only [AnswerOk] at ok
    simp [ok]
  · simp only [AnswerOk] at ok
    simp [ok]

/-- **C52.** An answer is true when it is given: when a process identifier is returned, it is the one that is registered, and the
device client either runs or its end has not been noticed yet. -/
theorem C52_current (mode : Mode) (par : Param) (es : List Event) (e : Event) (c p : Nat) (a : Addr)
    (h : (run mode par {} (es ++ [e])).answers = (c, a, Answer.result (.pid p)) :: (run mode par {} es).answers) :
    let s := run mode par {} (es ++ [e])
    lookup s.index a = some p ∧ ((p, a) ∈ s.alive ∨ p ∈ s.signals ∨ Msg.exit p ∈ s.mailbox) := by
  intro s
  have I := inv_run mode par (es ++ [e]) {} (inv_init mode par)
  have key : lookup s.index a = some p := by
    have hs : s = step mode par (run mode par {} es) e := by
      simp only [s, run_append]
      rfl
    rw [show run mode par {} (es ++ [e]) = step mode par (run mode par {} es) e from by rw [run_append]; rfl] at h
    rw [hs]
    generalize run mode par {} es = s0 at h
    have no : ∀ {l : List (Nat × Addr × Answer)} {x : Nat × Addr × Answer}, l ≠ x :: l := by
      intro l x h
      have := congrArg List.length h
      simp at this
    cases e with
    | ask c' a' =>
      simp only [step, ask] at h ⊢
      cases hl : lookup s0.index a' with
      | some q =>
        simp only [hl] at h ⊢
        simp only [List.cons.injEq, Prod.mk.injEq, Answer.result.injEq, Lookup.pid.injEq, and_true] at h
        obtain ⟨_, rfl, rfl⟩ := h
        exact hl
      | none =>
        simp only [hl] at h
        cases hv : Allow.verdict mode par a' <;> simp only [hv] at h
        · exact absurd h no
        · simp at h
        · simp at h
    | handle ok =>
      simp only [step] at h ⊢
      cases hm : s0.mailbox with
      | nil =>
        simp only [hm] at h
        exact absurd h no
      | cons m ms =>
        cases m with
        | register c' a' =>
          simp only [hm, register] at h ⊢
          cases hl : lookup s0.index a' with
          | some q =>
            simp only [hl] at h ⊢
            simp only [List.cons.injEq, Prod.mk.injEq, Answer.result.injEq, Lookup.pid.injEq, and_true] at h
            obtain ⟨_, rfl, rfl⟩ := h
            exact hl
          | none =>
            cases ok with
            | true =>
              simp only [hl, if_true] at h ⊢
              simp only [List.cons.injEq, Prod.mk.injEq, Answer.result.injEq, Lookup.pid.injEq, and_true] at h
              obtain ⟨_, rfl, rfl⟩ := h
              simp [lookup, insert]
            | false =>
              simp [hl] at h
        | exit q =>
          simp only [hm, onExit] at h
          cases hr : rlookup s0.rindex q <;> simp only [hr] at h
          · exact absurd h no
          · exact absurd h no
    | die q =>
      simp only [step] at h
      split at h
      · exact absurd h no
      · exact absurd h no
    | signal q =>
      simp only [step] at h
      split at h
      · exact absurd h no
      · exact absurd h no
  exact ⟨key, I.indexIn _ _ ((find?_key _ _ _ I.ndIndex).mp key)⟩

/-- **C52.** Once all messages and signals have been dealt with, the index holds exactly the device clients that run. -/
theorem C52_settled (mode : Mode) (par : Param) (es : List Event) (hm : (run mode par {} es).mailbox = [])
    (hs : (run mode par {} es).signals = []) (a : Addr) (p : Nat) :
    lookup (run mode par {} es).index a = some p ↔ (p, a) ∈ (run mode par {} es).alive := by
  have I := inv_run mode par es {} (inv_init mode par)
  constructor
  · intro h
    rcases I.indexIn _ _ ((find?_key _ _ _ I.ndIndex).mp h) with h | h | h
    · exact h
    · simp [hs] at h
    · simp [hm] at h
  · intro h
    exact (find?_key _ _ _ I.ndIndex).mpr (I.aliveIn _ _ h)

/-! ## What does not hold -/

/-- A target. -/
def tgtA : Addr := ⟨3232235777, 50001⟩

/-- Another one. -/
def tgtB : Addr := ⟨3232235777, 50002⟩

/-- **C52, violated.** A process that asks can get a device client that has ended already: what it then sends is lost. -/
theorem C52_violated_dead :
    ∃ es : List Event, ∃ c p a, (run .permissive .none {} es).answers.head? = some (c, a, Answer.result (.pid p)) ∧
      (p, a) ∈ (run .permissive .none {} es).started ∧ (p, a) ∉ (run .permissive .none {} es).alive :=
  ⟨[.ask 0 tgtA, .handle true, .die 0, .ask 1 tgtA], 1, 0, tgtA, by decide +kernel⟩

/-! ## Cases -/

/-- Two processes ask for the same target at once: one device client. A third asks for another target. The first one ends, its exit
signal comes in, and a new one is started. -/
def busy : List Event :=
  [.ask 0 tgtA, .ask 1 tgtA, .ask 2 tgtB, .handle true, .handle true, .handle true, .die 0, .ask 3 tgtA, .signal 0, .handle true,
    .ask 4 tgtA, .handle true, .ask 5 tgtA]

example : (run .permissive .none {} busy).alive = [(2, tgtA), (1, tgtB)] := by decide +kernel

example : (run .permissive .none {} busy).answers =
    [(5, tgtA, .result (.pid 2)), (4, tgtA, .result (.pid 2)), (3, tgtA, .result (.pid 0)), (2, tgtB, .result (.pid 1)),
      (1, tgtA, .result (.pid 0)), (0, tgtA, .result (.pid 0))] := by decide +kernel

example : (run .permissive .none {} busy).mailbox = [] ∧ (run .permissive .none {} busy).signals = [] := by decide +kernel

/-- With a list that names one port of the address, the other port is blocked. -/
example : (run .enforcing (.list [(Allow.ipKey tgtA.ip, .is (some 50001))]) {} busy).answers.map (·.2) =
    [(tgtA, .result (.pid 1)), (tgtA, .result (.pid 1)), (tgtA, .result (.pid 0)), (tgtA, .result (.pid 0)), (tgtA, .result (.pid 0)),
      (tgtB, .result .blocked)] := by decide +kernel

end Verif.Registry
