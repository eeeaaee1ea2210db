import Verif.Lemmas.Sim
/-!
Runs on transports that can also hang or crash: as long as a run comes to an end, it is a run on a transport that always
returns or throws, so that what is proved for those (`Transport.Total`) holds for it.
-/

set_option autoImplicit false

namespace Verif
open Spec

/-- A transport, where `Good` holds throughout, that does not throw the argument checker's exception. It may hang or crash. -/
structure Transport.Decent {τ : Type} (T : Transport τ) (Good : τ → Prop) : Prop where
  disp : ∀ t b, Good t → match T.disp t b with
    | .ok _ t' => Good t'
    | .exc e t' => Good t' ∧ e ≠ .bitsForbidden
    | _ => True
  flush : ∀ t, Good t → match T.flush t with
    | .ok _ t' => Good t'
    | .exc e t' => Good t' ∧ e ≠ .bitsForbidden
    | _ => True
  handler : ∀ t, Good t → Good (T.handler t)

/-- The outcome, if it is one that a `Total` transport can have. -/
def Out.orElse {σ : Type} (t : σ) : Out σ Unit → Out σ Unit
  | .ok _ t' => .ok () t'
  | .exc e t' => if e = .bitsForbidden then .ok () t else .exc e t'
  | _ => .ok () t

/-- The transport without its other outcomes. -/
def Transport.completed {τ : Type} (T : Transport τ) : Transport τ where
  disp t b := (T.disp t b).orElse t
  flush t := (T.flush t).orElse t
  handler := T.handler

theorem Transport.completed_total {τ : Type} (T : Transport τ) : T.completed.Total := by
  have key : ∀ (t : τ) (o : Out τ Unit), (∃ t', o.orElse t = .ok () t') ∨ ∃ e t', o.orElse t = .exc e t' ∧ e ≠ .bitsForbidden := by
    intro t o
    cases o with
    | ok a t' => exact .inl ⟨t', rfl⟩
    | exc e t' =>
      by_cases h : e = .bitsForbidden
      · exact .inl ⟨t, by simp [Out.orElse, h]⟩
      · exact .inr ⟨e, t', by simp [Out.orElse, h], h⟩
    | ub => exact .inl ⟨t, rfl⟩
    | loops => exact .inl ⟨t, rfl⟩
  exact ⟨fun t b => key t _, fun t => key t _⟩

section
variable {τ : Type} {c : Cfg} {T : Transport τ} {Good : τ → Prop}

theorem completed_sim (h : T.Decent Good) :
    TSim T T.completed 0 0 (fun _ => True) (fun _ => True) (fun t t' => t' = t ∧ Good t) (fun t t' => t' = t ∧ Good t) := by
  refine ⟨?_, ?_, ?_, fun _ _ _ _ _ => trivial, fun _ _ _ _ => trivial, fun _ _ => trivial⟩
  · rintro t t' b _ _ ⟨rfl, hg⟩
    rw [Buf.shift_zero]
    have := h.disp t' b hg
    simp only [Transport.completed]
    cases hd : T.disp t' b with
    | ok a t1 => rw [hd] at this; exact ⟨t1, rfl, rfl, this⟩
    | exc e t1 => rw [hd] at this; exact ⟨t1, by simp [Out.orElse, this.2], rfl, this.1⟩
    | ub => trivial
    | loops => trivial
  · rintro t t' _ ⟨rfl, hg⟩
    have := h.flush t' hg
    simp only [Transport.completed]
    cases hd : T.flush t' with
    | ok a t1 => rw [hd] at this; exact ⟨t1, rfl, rfl, this⟩
    | exc e t1 => rw [hd] at this; exact ⟨t1, by simp [Out.orElse, this.2], rfl, this.1⟩
    | ub => trivial
    | loops => trivial
  · rintro t t' _ ⟨rfl, hg⟩
    exact ⟨rfl, h.handler t' hg⟩

theorem resShift0 (rs : List Res) : rs.map (Res.shift 0) = rs := by
  have : Res.shift 0 = id := by
    funext r
    cases r with
    | ok h => cases h <;> simp [Res.shift, Handle.shift_zero]
    | exc e => rfl
  rw [this, List.map_id]

/-- A run that comes to an end is a run on the completed transport. -/
theorem run_completed (h : T.Decent Good) (ops : List Op) {t : τ} {rs : List Res} {s : St τ} (ht : Good t)
    (hrun : runOps c T ops (St.init t) = some (rs, s)) : runOps c T.completed ops (St.init t) = some (rs, s) ∧ Good s.tr := by
  have h0 : SRel 0 0 [] [] (fun t t' => t' = t ∧ Good t) (St.init t) (St.init t) :=
    ⟨rfl, rfl, rfl, rfl, ⟨rfl, ht⟩, [], rfl, rfl⟩
  obtain ⟨_, s1, h1, h2⟩ := sim_run (completed_sim h) ops hrun ⟨fun _ _ => trivial, trivial⟩ h0
  rw [resShift0] at h1
  have hz : Buf.shift 0 0 = id := funext Buf.shift_zero
  obtain ⟨a, b, d, e, ⟨f, g⟩, H, i, j⟩ := h2
  refine ⟨?_, g⟩
  rw [h1]
  congr 2
  cases s; cases s1
  simp only [hz, Option.map_id, id_eq, Nat.add_zero, List.map_id, List.nil_append] at a b d e f i j
  subst a b d e f
  rw [j, i]

end
end Verif
