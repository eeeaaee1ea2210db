import Verif.Model.Robust
import Verif.Spec.Robust
/-!
# C87: the session mutex

Any number of threads execute the sections of clients instruction by instruction, in any order, and may die at any moment.
-/

set_option autoImplicit false
set_option linter.unusedSimpArgs false

namespace Verif.Robust
open Verif.Spec.Session

/-- The client of a deed. -/
def who : Deed → Nat
  | .start i | .look i _ | .finish i | .half i => i

/-- The section of a deed. -/
def sect : Deed → Sect
  | .start _ | .half _ => .start
  | .look _ _ => .look
  | .finish _ => .finish

/-- The sections that client `i` has begun, without those that only write to the device. -/
def calls (i : Nat) : List Act → List Sect
  | [] => []
  | .call j s :: as => if j = i ∧ s ≠ .write then s :: calls i as else calls i as
  | _ :: as => calls i as

/-- The sections that are deeds of client `i`. -/
def doneBy (i : Nat) (L : List Deed) : List Sect := (L.filter fun d => decide (who d = i)).map sect

/-- In the beginning. -/
def begin_ (cl : Nat → Cl) : State := ⟨0, false, fun i => ⟨(cl i).sess, (cl i).ext⟩⟩

theorem deeds_append (s : State) (L : List Deed) (d : Deed) : s.deeds (L ++ [d]) = (s.deeds L).deed d := by
  induction L generalizing s with
  | nil => rfl
  | cons e L ih => exact ih _

theorem doneBy_append (i : Nat) (L : List Deed) (d : Deed) : doneBy i (L ++ [d]) = doneBy i L ++ (if who d = i then [sect d] else []) := by
  unfold doneBy
  rw [List.filter_append, List.map_append]
  by_cases h : who d = i <;> simp [h]

theorem calls_append (i : Nat) (as : List Act) (a : Act) : calls i (as ++ [a]) = calls i as ++ calls i [a] := by
  induction as with
  | nil => rfl
  | cons b as ih => cases b <;> simp only [List.cons_append, calls, ih]; split <;> simp

theorem run_append {x y : Sys} {as : List Act} (h : x.run as = some y) (a : Act) : x.run (as ++ [a]) = y.step a := by
  induction as generalizing x with
  | nil => cases h; simp only [List.nil_append, Sys.run]; cases y.step a <;> rfl
  | cons b as ih =>
    simp only [Sys.run, List.cons_append] at h ⊢
    cases hb : x.step b with
    | none => rw [hb] at h; cases h
    | some z => rw [hb] at h; exact ih h

theorem run_last {x y : Sys} {as : List Act} {a : Act} (h : x.run (as ++ [a]) = some y) : ∃ z, x.run as = some z ∧ z.step a = some y := by
  induction as generalizing x with
  | nil =>
    simp only [List.nil_append, Sys.run] at h
    cases hb : x.step a with
    | none => rw [hb] at h; cases h
    | some z => rw [hb] at h; cases h; exact ⟨x, rfl, hb⟩
  | cons b as ih =>
    simp only [Sys.run, List.cons_append] at h ⊢
    cases hb : x.step b with
    | none => rw [hb] at h; cases h
    | some z => rw [hb] at h; exact ih h

/-- The client's members are what it has noted. -/
def Noted (B : State) (x : Sys) (i : Nat) : Prop := (B.note i).number = (x.cl i).sess ∧ (B.note i).other = (x.cl i).ext

/-- The shared memory is as after the deeds. -/
def Same (B : State) (x : Sys) : Prop := x.count = B.number ∧ x.active = B.active

/-- Client `i` is before instruction `k` of section `s`, and the deeds before this section have led to `B`. -/
def Mid (B : State) (x : Sys) (i : Nat) : Sect → Ins → Prop
  | .start, .load => Same B x ∧ Noted B x i
  | .start, .store => Same B x ∧ Noted B x i ∧ (x.cl i).reg = B.number
  | .start, .activate => x.count = B.number + 1 ∧ x.active = B.active ∧ Noted B x i
  | .start, .bump => x.count = B.number + 1 ∧ x.active = true ∧ Noted B x i
  | .start, .test => x.count = B.number + 1 ∧ x.active = true ∧ (x.cl i).sess = (B.note i).number + 1 ∧ (x.cl i).ext = (B.note i).other
  | .start, .isActive => x.count = B.number + 1 ∧ x.active = true ∧ B.stale i
  | .start, .getCounter => x.count = B.number + 1 ∧ x.active = true ∧ B.stale i ∧ (x.cl i).ext = false
  | .start, .unlock => Same (B.deed (.start i)) x ∧ Noted (B.deed (.start i)) x i
  | .look, .isActive => Same B x ∧ Noted B x i
  | .look, .getCounter => Same B x ∧ (x.cl i).ext = (B.active && !(x.cl i).have_)
  | .look, .unlock => Same (B.deed (.look i (x.cl i).have_)) x ∧ Noted (B.deed (.look i (x.cl i).have_)) x i
  | .finish, .deactivate => Same B x ∧ Noted B x i
  | .finish, .unlock => Same (B.deed (.finish i)) x ∧ Noted (B.deed (.finish i)) x i
  | .write, .unlock => Same B x ∧ Noted B x i
  | _, _ => False

/-- The section that a client is in, if it is a deed. -/
def pend : Pc → List Sect
  | .wait s | .told s | .at s _ => if s = .write then [] else [s]
  | _ => []

/-- The client starts a session. -/
def starting : Pc → Bool
  | .wait .start | .told .start | .at .start _ => true
  | _ => false

structure Inv (cl : Nat → Cl) (as : List Act) (x : Sys) (L : List Deed) : Prop where
  robust : x.mutex.robust = true
  lost : x.mutex.lost = false
  own : ∀ i, x.mutex.owner = some i ↔ (∃ s, (x.cl i).pc = .told s) ∨ ∃ s k, (x.cl i).pc = .at s k
  told : ∀ i s, (x.cl i).pc = .told s → x.mutex.inconsistent = true
  ats : ∀ i s k, (x.cl i).pc = .at s k → x.mutex.inconsistent = false ∧ Mid ((begin_ cl).deeds L) x i s k
  free : (∀ i s k, (x.cl i).pc ≠ .at s k) → Same ((begin_ cl).deeds L) x
  note : ∀ i, (x.cl i).pc ≠ .dead → (∀ s k, (x.cl i).pc ≠ .at s k) → Noted ((begin_ cl).deeds L) x i
  thrown : ∀ i, (x.cl i).pc ≠ .thrown
  have_ : ∀ i, starting (x.cl i).pc = true → (x.cl i).have_ = true
  done : ∀ i, (x.cl i).pc ≠ .dead → calls i as = doneBy i L ++ pend (x.cl i).pc
  gone : ∀ i, (x.cl i).pc = .dead → ∃ p : List Sect, p.length ≤ 1 ∧ calls i as = doneBy i L ++ p
  half : ∀ i, .half i ∈ L → (x.cl i).pc = .dead

theorem inv_init (cl : Nat → Cl) : Inv cl [] (Sys.init cl) [] where
  robust := rfl
  lost := rfl
  own := fun i => by simp [Sys.init, Mutex.init]
  told := fun i s h => by cases h
  ats := fun i s k h => by cases h
  free := fun _ => ⟨rfl, rfl⟩
  note := fun i _ _ => ⟨rfl, rfl⟩
  thrown := fun i h => by cases h
  have_ := fun i h => by cases h
  done := fun i _ => rfl
  gone := fun i h => by cases h
  half := fun i h => by cases h

theorem set_same (x : Sys) (i : Nat) (c : Cl) : (x.set i c).cl i = c := by simp [Sys.set]

theorem set_other (x : Sys) {i j : Nat} (c : Cl) (h : j ≠ i) : (x.set i c).cl j = x.cl j := by simp [Sys.set, h]

/-- A deed changes the note of its client only. -/
theorem deed_note (B : State) (d : Deed) {j : Nat} (h : j ≠ who d) : (B.deed d).note j = B.note j := by
  cases d <;> simp_all [State.deed, State.put, who]

/-- At most one client is in a section. -/
theorem Inv.one {cl : Nat → Cl} {as : List Act} {x : Sys} {L : List Deed} (h : Inv cl as x L) {i j : Nat} {s t : Sect} {k l : Ins}
    (hi : (x.cl i).pc = .at s k) (hj : (x.cl j).pc = .at t l) : i = j := by
  have a := (h.own i).2 (.inr ⟨s, k, hi⟩)
  have b := (h.own j).2 (.inr ⟨t, l, hj⟩)
  rw [a] at b; exact Option.some.inj b

/-- A step of client `i` that neither takes nor releases the mutex, and adds nothing to the deeds. -/
theorem Inv.upd {cl : Nat → Cl} {as : List Act} {x y : Sys} {L : List Deed} (h : Inv cl as x L) {i : Nat} {c : Cl} {a : Act}
    (hy : ∀ j, j ≠ i → y.cl j = x.cl j) (hc : y.cl i = c) (hm : y.mutex = x.mutex) (hn : ∀ j, calls j [a] = [])
    {s : Sect} {k l : Ins} (hpc : (x.cl i).pc = .at s k) (hpc' : c.pc = .at s l) (hh : c.have_ = (x.cl i).have_)
    (hmid : Mid ((begin_ cl).deeds L) y i s l) : Inv cl (as ++ [a]) y L where
  robust := by rw [hm]; exact h.robust
  lost := by rw [hm]; exact h.lost
  own := fun j => by
    rw [hm, h.own j]
    by_cases e : j = i
    · subst e; rw [hc, hpc, hpc']; simp
    · rw [hy j e]
  told := fun j t ht => by
    by_cases e : j = i
    · subst e; rw [hc, hpc'] at ht; cases ht
    · rw [hy j e] at ht; rw [hm]; exact h.told j t ht
  ats := fun j t m ht => by
    by_cases e : j = i
    · subst e; rw [hc, hpc'] at ht; cases ht; exact ⟨by rw [hm]; exact (h.ats j s k hpc).1, hmid⟩
    · rw [hy j e] at ht; exact absurd (h.one ht hpc) e
  free := fun hf => absurd (by rw [hc, hpc']) (hf i s l)
  note := fun j h1 h2 => by
    by_cases e : j = i
    · subst e; exact absurd (by rw [hc, hpc']) (h2 s l)
    · rw [hy j e] at h1 h2
      have := h.note j h1 h2
      unfold Noted at this ⊢
      rw [hy j e]; exact this
  thrown := fun j ht => by
    by_cases e : j = i
    · subst e; rw [hc, hpc'] at ht; cases ht
    · rw [hy j e] at ht; exact h.thrown j ht
  have_ := fun j ht => by
    by_cases e : j = i
    · subst e; rw [hc] at ht ⊢; rw [hpc'] at ht; rw [hh]; refine h.have_ j ?_
      rw [hpc]; cases s <;> first | rfl | cases ht
    · rw [hy j e] at ht ⊢; exact h.have_ j ht
  done := fun j ht => by
    rw [calls_append, hn, List.append_nil]
    by_cases e : j = i
    · subst e; rw [hc, hpc', h.done j (by rw [hpc]; simp), hpc]; rfl
    · rw [hy j e] at ht ⊢; exact h.done j ht
  gone := fun j ht => by
    rw [calls_append, hn, List.append_nil]
    by_cases e : j = i
    · subst e; rw [hc, hpc'] at ht; cases ht
    · rw [hy j e] at ht; exact h.gone j ht
  half := fun j ht => by
    have := h.half j ht
    by_cases e : j = i
    · subst e; rw [hpc] at this; cases this
    · rw [hy j e]; exact this

/-- Client `i` leaves its section, or dies in it, when `ds` has happened. -/
theorem Inv.leave {cl : Nat → Cl} {as : List Act} {x y : Sys} {L ds : List Deed} (h : Inv cl as x L) {i : Nat} {a : Act}
    (hy : ∀ j, j ≠ i → y.cl j = x.cl j) (hr : y.mutex.robust = true) (hlo : y.mutex.lost = false) (how : y.mutex.owner = none)
    (hn : ∀ j, calls j [a] = []) {s : Sect} {k : Ins} (hpc : (x.cl i).pc = .at s k)
    (hds : ds = [] ∨ ∃ d, ds = [d] ∧ who d = i ∧ sect d = s) (hhalf : .half i ∈ ds → (y.cl i).pc = .dead)
    (hs : Same ((begin_ cl).deeds (L ++ ds)) y)
    (hpc' : ((y.cl i).pc = .out ∧ pend (.at s k) = ds.map sect ∧ Noted ((begin_ cl).deeds (L ++ ds)) y i) ∨ ((y.cl i).pc = .dead ∧ (s = .write → ds = []))) :
    Inv cl (as ++ [a]) y (L ++ ds) := by
  have hnot : ∀ j t l, (y.cl j).pc ≠ .at t l := by
    intro j t l ht
    by_cases e : j = i
    · subst e; rcases hpc' with ⟨h1, _⟩ | ⟨h1, _⟩ <;> rw [h1] at ht <;> cases ht
    · rw [hy j e] at ht; exact e (h.one ht hpc)
  have hnt : ∀ j t, (y.cl j).pc ≠ .told t := by
    intro j t ht
    by_cases e : j = i
    · subst e; rcases hpc' with ⟨h1, _⟩ | ⟨h1, _⟩ <;> rw [h1] at ht <;> cases ht
    · rw [hy j e] at ht
      have a := (h.own i).2 (.inr ⟨s, k, hpc⟩)
      have b := (h.own j).2 (.inl ⟨t, ht⟩)
      rw [a] at b; exact e (Option.some.inj b).symm
  have hdone : ∀ j, j ≠ i → doneBy j (L ++ ds) = doneBy j L := by
    intro j e
    rcases hds with rfl | ⟨d, rfl, hw, _⟩
    · rw [List.append_nil]
    · rw [doneBy_append, hw, if_neg (fun e' => e e'.symm), List.append_nil]
  have hdi : doneBy i (L ++ ds) = doneBy i L ++ ds.map sect := by
    rcases hds with rfl | ⟨d, rfl, hw, _⟩
    · simp
    · rw [doneBy_append, if_pos hw]; rfl
  have hold := h.done i (by rw [hpc]; simp)
  rw [hpc] at hold
  have hlen : ds.length ≤ 1 := by rcases hds with rfl | ⟨d, rfl, _⟩ <;> simp
  refine ⟨hr, hlo, ?_, fun j t ht => absurd ht (hnt j t), fun j t l ht => absurd ht (hnot j t l), fun _ => hs, ?_, ?_, ?_, ?_, ?_, ?_⟩
  · intro j
    rw [how]
    constructor
    · intro e; cases e
    · rintro (⟨t, ht⟩ | ⟨t, l, ht⟩)
      · exact absurd ht (hnt j t)
      · exact absurd ht (hnot j t l)
  · intro j h1 _
    by_cases e : j = i
    · subst e
      rcases hpc' with ⟨_, _, h3⟩ | ⟨h2, _⟩
      · exact h3
      · exact absurd h2 h1
    · have h1' := h1
      rw [hy j e] at h1
      have := h.note j h1 (fun t l ht => e (h.one ht hpc))
      unfold Noted at this ⊢
      rw [hy j e]
      rcases hds with rfl | ⟨d, rfl, hw, _⟩
      · rw [List.append_nil]; exact this
      · rw [deeds_append, deed_note _ _ (by rw [hw]; exact e)]; exact this
  · intro j ht
    by_cases e : j = i
    · subst e; rcases hpc' with ⟨h1, _⟩ | ⟨h1, _⟩ <;> rw [h1] at ht <;> cases ht
    · rw [hy j e] at ht; exact h.thrown j ht
  · intro j ht
    by_cases e : j = i
    · subst e; rcases hpc' with ⟨h1, _⟩ | ⟨h1, _⟩ <;> rw [h1] at ht <;> cases ht
    · rw [hy j e] at ht ⊢; exact h.have_ j ht
  · intro j ht
    rw [calls_append, hn, List.append_nil]
    by_cases e : j = i
    · subst e
      rcases hpc' with ⟨h1, h2, _⟩ | ⟨h1, _⟩
      · rw [h1, hdi, hold, h2]; simp [pend]
      · exact absurd h1 ht
    · rw [hy j e] at ht ⊢
      rw [hdone j e]; exact h.done j ht
  · intro j ht
    rw [calls_append, hn, List.append_nil]
    by_cases e : j = i
    · subst e
      rcases hpc' with ⟨h1, _⟩ | ⟨_, hw⟩
      · rw [h1] at ht; cases ht
      · rcases hds with rfl | ⟨d, rfl, hw', hs'⟩
        · refine ⟨pend (.at s k), ?_, by rw [List.append_nil]; exact hold⟩
          simp only [pend]; split <;> simp
        · refine ⟨[], by simp, ?_⟩
          rw [hdi, hold, List.append_nil]
          simp only [pend]
          split
          · rename_i e; exact absurd (hw e) (by simp)
          · simp [hs']
    · rw [hy j e] at ht
      rw [hdone j e]; exact h.gone j ht
  · intro j ht
    by_cases e : j = i
    · subst e
      rcases List.mem_append.1 ht with h1 | h1
      · have := h.half j h1
        rw [hpc] at this; cases this
      · exact hhalf h1
    · rw [hy j e]
      rcases List.mem_append.1 ht with h1 | h1
      · exact h.half j h1
      · rcases hds with rfl | ⟨d, rfl, hw, _⟩
        · cases h1
        · rw [← List.mem_singleton.1 h1] at hw; exact absurd hw e

theorem mid_entry {B : State} {x : Sys} {i : Nat} (s : Sect) (h1 : Same B x) (h2 : Noted B x i) : Mid B x i s s.entry := by
  cases s <;> exact ⟨h1, h2⟩

/-- A step of client `i`, which is not in a section, that changes neither the shared memory nor what the client has noted. -/
theorem Inv.move {cl : Nat → Cl} {as : List Act} {x y : Sys} {L : List Deed} (h : Inv cl as x L) {i : Nat} {a : Act}
    (hy : ∀ j, j ≠ i → y.cl j = x.cl j) (hc : y.count = x.count) (ha : y.active = x.active)
    (hsess : (y.cl i).sess = (x.cl i).sess) (hext : (y.cl i).ext = (x.cl i).ext)
    (hr : y.mutex.robust = true) (hlo : y.mutex.lost = false)
    (hnot : ∀ s k, (x.cl i).pc ≠ .at s k) (hdead : (x.cl i).pc ≠ .dead)
    (hoth : ∀ j, j ≠ i → (y.mutex.owner = some j ↔ x.mutex.owner = some j))
    (hown : y.mutex.owner = some i ↔ (∃ s, (y.cl i).pc = .told s) ∨ ∃ s k, (y.cl i).pc = .at s k)
    (hinc : ∀ j, j ≠ i → x.mutex.owner = some j → y.mutex.inconsistent = x.mutex.inconsistent)
    (htold : ∀ s, (y.cl i).pc = .told s → y.mutex.inconsistent = true)
    (hat : ∀ s k, (y.cl i).pc = .at s k → y.mutex.inconsistent = false ∧ k = s.entry ∧ ∀ j t l, (x.cl j).pc ≠ .at t l)
    (hthr : (y.cl i).pc ≠ .thrown)
    (hhave : starting (y.cl i).pc = true → (y.cl i).have_ = true)
    (hdone : (y.cl i).pc ≠ .dead → pend (x.cl i).pc ++ calls i [a] = pend (y.cl i).pc)
    (hgone : (y.cl i).pc = .dead → calls i [a] = []) (hcalls : ∀ j, j ≠ i → calls j [a] = []) : Inv cl (as ++ [a]) y L := by
  have hsame : Same ((begin_ cl).deeds L) x → Same ((begin_ cl).deeds L) y := by
    intro hs; unfold Same at hs ⊢; rw [hc, ha]; exact hs
  have hnote : ∀ j, (x.cl j).pc ≠ .dead → (∀ s k, (x.cl j).pc ≠ .at s k) → Noted ((begin_ cl).deeds L) y j := by
    intro j h1 h2
    have := h.note j h1 h2
    unfold Noted at this ⊢
    by_cases e : j = i
    · subst e; rw [hsess, hext]; exact this
    · rw [hy j e]; exact this
  refine ⟨hr, hlo, ?_, ?_, ?_, ?_, ?_, ?_, ?_, ?_, ?_, ?_⟩
  · intro j
    by_cases e : j = i
    · subst e; exact hown
    · rw [hoth j e, hy j e]; exact h.own j
  · intro j t ht
    by_cases e : j = i
    · subst e; exact htold t ht
    · rw [hy j e] at ht
      rw [hinc j e ((h.own j).2 (.inl ⟨t, ht⟩))]; exact h.told j t ht
  · intro j t l ht
    by_cases e : j = i
    · subst e
      obtain ⟨h1, rfl, h3⟩ := hat t l ht
      exact ⟨h1, mid_entry t (hsame (h.free h3)) (hnote j hdead hnot)⟩
    · rw [hy j e] at ht
      obtain ⟨h1, h2⟩ := h.ats j t l ht
      refine ⟨by rw [hinc j e ((h.own j).2 (.inr ⟨t, l, ht⟩))]; exact h1, ?_⟩
      revert h2
      generalize (begin_ cl).deeds L = B
      cases t <;> cases l <;> simp only [Mid, Same, Noted, hc, ha, hy j e] <;> exact id
  · intro hf
    refine hsame (h.free fun j t l ht => ?_)
    by_cases e : j = i
    · subst e; exact hnot t l ht
    · exact hf j t l (by rw [hy j e]; exact ht)
  · intro j h1 h2
    by_cases e : j = i
    · subst e; exact hnote j hdead hnot
    · rw [hy j e] at h1 h2; exact hnote j h1 h2
  · intro j ht
    by_cases e : j = i
    · subst e; exact hthr ht
    · rw [hy j e] at ht; exact h.thrown j ht
  · intro j ht
    by_cases e : j = i
    · subst e; exact hhave ht
    · rw [hy j e] at ht ⊢; exact h.have_ j ht
  · intro j ht
    rw [calls_append]
    by_cases e : j = i
    · subst e; rw [h.done j hdead, List.append_assoc, hdone ht]
    · rw [hcalls j e, List.append_nil]; rw [hy j e] at ht ⊢; exact h.done j ht
  · intro j ht
    rw [calls_append]
    by_cases e : j = i
    · subst e
      refine ⟨pend (x.cl j).pc, ?_, by rw [hgone ht, List.append_nil]; exact h.done j hdead⟩
      cases (x.cl j).pc <;> simp only [pend] <;> first | (split <;> simp) | simp
    · rw [hcalls j e, List.append_nil]; rw [hy j e] at ht; exact h.gone j ht
  · intro j ht
    have := h.half j ht
    by_cases e : j = i
    · subst e; exact absurd this hdead
    · rw [hy j e]; exact this

/-- Every instruction. -/
theorem Inv.exec {cl : Nat → Cl} {as : List Act} {x : Sys} {L : List Deed} (h : Inv cl as x L) {i : Nat} {s : Sect} {k : Ins}
    (hpc : (x.cl i).pc = .at s k) : ∃ ds, Inv cl (as ++ [.ins i]) (x.ins i s k) (L ++ ds) := by
  have hn : ∀ j, calls j [.ins i] = [] := fun j => rfl
  obtain ⟨hinc, hm⟩ := h.ats i s k hpc
  have hv := h.have_ i
  rw [hpc] at hv
  have stay : ∀ {y : Sys} {c : Cl} {l : Ins}, x.ins i s k = y.set i c → y.cl = x.cl → y.mutex = x.mutex → c.pc = .at s l → c.have_ = (x.cl i).have_ →
      Mid ((begin_ cl).deeds L) (y.set i c) i s l → ∃ ds, Inv cl (as ++ [.ins i]) (x.ins i s k) (L ++ ds) := by
    intro y c l e h1 h2 h3 h4 h5
    refine ⟨[], ?_⟩
    rw [List.append_nil, e]
    exact h.upd (fun j e => by rw [set_other _ _ e, h1]) (set_same _ _ _) h2 hn hpc h3 h4 h5
  generalize hB : (begin_ cl).deeds L = B at hm stay
  cases k with
  | load =>
    cases s <;> try exact hm.elim
    exact stay (y := x) rfl rfl rfl rfl rfl ⟨hm.1, by simpa [Noted, set_same] using hm.2, by rw [set_same]; exact hm.1.1⟩
  | store =>
    cases s <;> try exact hm.elim
    refine stay (y := { x with count := (x.cl i).reg + 1 }) rfl rfl rfl rfl rfl ⟨?_, hm.1.2, by simpa [Noted, set_same] using hm.2.1⟩
    show (x.cl i).reg + 1 = _
    rw [hm.2.2]
  | activate =>
    cases s <;> try exact hm.elim
    exact stay (y := { x with active := true }) rfl rfl rfl rfl rfl ⟨hm.1, rfl, by simpa [Noted, set_same] using hm.2.2⟩
  | bump =>
    cases s <;> try exact hm.elim
    refine stay (y := x) rfl rfl rfl rfl rfl ⟨hm.1, hm.2.1, ?_, ?_⟩
    · rw [set_same, hm.2.2.1]
    · rw [set_same, hm.2.2.2]
  | test =>
    cases s <;> try exact hm.elim
    obtain ⟨h1, h2, h3, h4⟩ := hm
    have hst : ((x.cl i).ext = true ∨ x.count ≠ (x.cl i).sess) ↔ B.stale i := by
      unfold State.stale
      rw [h4, h1, h3, ne_eq, ne_eq]
      have : (B.number + 1 = (B.note i).number + 1) ↔ B.number = (B.note i).number := by
        constructor
        · intro e
          have := congrArg (· - 1#64) e
          simpa [BitVec.add_sub_cancel] using this
        · intro e; rw [e]
      rw [this]
    by_cases c : (x.cl i).ext = true ∨ x.count ≠ (x.cl i).sess
    · refine stay (y := x) (l := .isActive) rfl rfl rfl ?_ rfl ⟨h1, h2, hst.1 c⟩
      show Pc.at _ _ = _
      rw [if_pos c]
    · refine stay (y := x) (l := .unlock) rfl rfl rfl ?_ rfl ?_
      · show Pc.at _ _ = _
        rw [if_neg c]
      · have hns : ¬ B.stale i := fun e => c (hst.2 e)
        refine ⟨⟨h1, h2⟩, ?_⟩
        simp only [Noted, set_same, State.deed, State.put, if_neg hns, if_true]
        exact ⟨h3.symm, h4.symm⟩
  | isActive =>
    cases s <;> try exact hm.elim
    · refine stay (y := x) (l := .getCounter) rfl rfl rfl rfl rfl ⟨hm.1, hm.2.1, hm.2.2, ?_⟩
      rw [set_same]
      show (x.active && !(x.cl i).have_) = false
      rw [hv rfl]; simp
    · refine stay (y := x) (l := .getCounter) rfl rfl rfl rfl rfl ⟨hm.1, ?_⟩
      rw [set_same]
      show (x.active && !(x.cl i).have_) = _
      rw [hm.1.2]
  | getCounter =>
    cases s <;> try exact hm.elim
    · obtain ⟨h1, h2, h3, h4⟩ := hm
      refine stay (y := x) (l := .unlock) rfl rfl rfl rfl rfl ⟨⟨h1, h2⟩, ?_⟩
      simp only [Noted, set_same, State.deed, State.put, if_pos h3, if_true]
      exact ⟨h1.symm, h4.symm⟩
    · obtain ⟨h1, h2⟩ := hm
      refine stay (y := x) (l := .unlock) rfl rfl rfl rfl rfl ⟨h1, ?_⟩
      simp only [Noted, set_same, State.deed, State.put, if_true]
      exact ⟨h1.1.symm, h2.symm⟩
  | deactivate =>
    cases s <;> try exact hm.elim
    exact stay (y := { x with active := false }) (l := .unlock) rfl rfl rfl rfl rfl ⟨⟨hm.1.1, rfl⟩, by simpa [Noted, set_same, State.deed] using hm.2⟩
  | unlock =>
    have key : ∀ ds : List Deed, (ds = [] ∨ ∃ d, ds = [d] ∧ who d = i ∧ sect d = s) → Same ((begin_ cl).deeds (L ++ ds)) x → Noted ((begin_ cl).deeds (L ++ ds)) x i → .half i ∉ ds →
        pend (.at s .unlock) = ds.map sect → ∃ ds, Inv cl (as ++ [.ins i]) (x.ins i s .unlock) (L ++ ds) := by
      intro ds h1 h2 h3 hh h4
      refine ⟨ds, h.leave (fun j e => set_other _ _ e) h.robust ?_ rfl hn hpc h1 (fun e => absurd e hh) h2 (.inl ⟨by simp only [Sys.ins, set_same], h4, ?_⟩)⟩
      · show (x.mutex.lost || x.mutex.inconsistent) = false
        rw [h.lost, hinc]; rfl
      · simpa [Noted, Sys.ins, set_same] using h3
    cases s
    · exact key [.start i] (.inr ⟨_, rfl, rfl, rfl⟩) (by rw [deeds_append, hB]; exact hm.1) (by rw [deeds_append, hB]; exact hm.2) (by simp) rfl
    · exact key [.look i (x.cl i).have_] (.inr ⟨_, rfl, rfl, rfl⟩) (by rw [deeds_append, hB]; exact hm.1) (by rw [deeds_append, hB]; exact hm.2) (by simp) rfl
    · exact key [.finish i] (.inr ⟨_, rfl, rfl, rfl⟩) (by rw [deeds_append, hB]; exact hm.1) (by rw [deeds_append, hB]; exact hm.2) (by simp) rfl
    · exact key [] (.inl rfl) (by rw [List.append_nil, hB]; exact hm.1) (by rw [List.append_nil, hB]; exact hm.2) (by simp) rfl

/-- Death in a section. -/
theorem Inv.cut {cl : Nat → Cl} {as : List Act} {x : Sys} {L : List Deed} (h : Inv cl as x L) {i : Nat} {s : Sect} {k : Ins}
    (hpc : (x.cl i).pc = .at s k) :
    ∃ ds, Inv cl (as ++ [.die i]) ({ x with mutex := x.mutex.died i }.set i { x.cl i with pc := .dead }) (L ++ ds) := by
  obtain ⟨_, hm⟩ := h.ats i s k hpc
  have hown := (h.own i).2 (.inr ⟨s, k, hpc⟩)
  have hd : x.mutex.died i = { x.mutex with owner := none, inconsistent := true } := by
    unfold Mutex.died; rw [if_pos ⟨hown, h.robust⟩]
  have key : ∀ ds : List Deed, (ds = [] ∨ ∃ d, ds = [d] ∧ who d = i ∧ sect d = s) → Same ((begin_ cl).deeds (L ++ ds)) x → (s = .write → ds = []) →
      ∃ ds, Inv cl (as ++ [.die i]) ({ x with mutex := x.mutex.died i }.set i { x.cl i with pc := .dead }) (L ++ ds) := by
    intro ds h1 h2 h3
    rw [hd]
    exact ⟨ds, h.leave (fun j e => set_other _ _ e) h.robust h.lost rfl (fun j => rfl) hpc h1 (fun _ => by rw [set_same]) h2 (.inr ⟨by rw [set_same], h3⟩)⟩
  have none_ : Same ((begin_ cl).deeds L) x → _ := fun e => key [] (.inl rfl) (by rw [List.append_nil]; exact e) (fun _ => rfl)
  have full : s = .start → x.count = ((begin_ cl).deeds L).number + 1 → x.active = true → _ := fun e e1 e2 =>
    key [.start i] (.inr ⟨_, rfl, rfl, e.symm⟩) (by rw [deeds_append]; exact ⟨e1, e2⟩) (fun e' => by rw [e] at e'; cases e')
  cases s <;> cases k <;> first | exact hm.elim | skip
  · exact none_ hm.1
  · exact none_ hm.1
  · exact key [.half i] (.inr ⟨_, rfl, rfl, rfl⟩) (by rw [deeds_append]; exact ⟨hm.1, hm.2.1⟩) (fun e => by cases e)
  · exact full rfl hm.1 hm.2.1
  · exact full rfl hm.1 hm.2.1
  · exact full rfl hm.1 hm.2.1
  · exact full rfl hm.1 hm.2.1
  · exact full rfl hm.1.1 hm.1.2
  · exact none_ hm.1
  · exact none_ hm.1
  · exact none_ hm.1
  · exact none_ hm.1
  · exact key [.finish i] (.inr ⟨_, rfl, rfl, rfl⟩) (by rw [deeds_append]; exact hm.1) (fun e => by cases e)
  · exact none_ hm.1

theorem Inv.step {cl : Nat → Cl} {as : List Act} {x y : Sys} {L : List Deed} (h : Inv cl as x L) {a : Act} (hs : x.step a = some y) :
    ∃ ds, Inv cl (as ++ [a]) y (L ++ ds) := by
  have out : ∀ {i : Nat} {p : Pc}, (x.cl i).pc = p → (∀ s, p ≠ .told s) → (∀ s k, p ≠ .at s k) → x.mutex.owner ≠ some i := by
    intro i p e h1 h2 e'
    rcases (h.own i).1 e' with ⟨s, hs⟩ | ⟨s, k, hs⟩
    · exact h1 s (e ▸ hs)
    · exact h2 s k (e ▸ hs)
  cases a with
  | file i b =>
    simp only [Sys.step] at hs
    split at hs <;> cases hs
    rename_i hp
    refine ⟨[], ?_⟩
    rw [List.append_nil]
    have ho := out hp (by simp) (by simp)
    exact h.move (i := i) (fun j e => set_other _ _ e) rfl rfl (by rw [set_same]) (by rw [set_same]) h.robust h.lost (by simp [hp]) (by simp [hp]) (fun j _ => Iff.rfl)
      (by simp [set_same, hp]; exact ho) (fun _ _ _ => rfl) (by simp [set_same, hp]) (by simp [set_same, hp]) (by simp [set_same, hp]) (by simp [set_same, hp, starting])
      (by simp [set_same, hp, calls]) (by simp [set_same, hp]) (fun j _ => rfl)
  | call i s =>
    simp only [Sys.step] at hs
    split at hs <;> cases hs
    rename_i hp
    obtain ⟨hp, hst⟩ := hp
    refine ⟨[], ?_⟩
    rw [List.append_nil]
    have ho := out hp (by simp) (by simp)
    refine h.move (i := i) (fun j e => set_other _ _ e) rfl rfl (by rw [set_same]) (by rw [set_same]) h.robust h.lost (by simp [hp]) (by simp [hp]) (fun j _ => Iff.rfl)
      (by simp [set_same, hp]; exact ho) (fun _ _ _ => rfl) (by simp [set_same, hp]) (by simp [set_same, hp]) (by simp [set_same, hp]) ?_ ?_ (by simp [set_same, hp]) ?_
    · rw [set_same]
      intro e
      cases s <;> first | exact hst rfl | cases e
    · rw [set_same, hp]
      intro _
      cases s <;> simp [pend, calls]
    · intro j e
      simp only [calls]
      rw [if_neg (fun e' => e e'.1.symm)]
  | lock i =>
    simp only [Sys.step] at hs
    split at hs
    · rename_i s hp
      have ho := out hp (by simp) (by simp)
      have hl := h.lost
      cases how : x.mutex.owner with
      | some j => simp only [Mutex.lock, hl, how] at hs; cases hs
      | none =>
        have hm : x.mutex.lock i = some (if x.mutex.inconsistent then .ownerDead else .zero, { x.mutex with owner := some i }) := by
          simp only [Mutex.lock, hl, how]; rfl
        rw [hm] at hs
        cases hs
        have hno : ∀ j t l, (x.cl j).pc ≠ .at t l := fun j t l e => by
          have := (h.own j).2 (.inr ⟨t, l, e⟩)
          rw [how] at this; cases this
        refine ⟨[], ?_⟩
        rw [List.append_nil]
        refine h.move (i := i) (fun j e => set_other _ _ e) rfl rfl (by rw [set_same]) (by rw [set_same]) h.robust h.lost (by simp [hp]) (by simp [hp]) ?_ ?_ ?_ ?_ ?_ ?_ ?_ ?_ ?_
          (fun j _ => rfl)
        · intro j e
          show some i = some j ↔ _
          rw [how]
          constructor
          · intro e'; exact absurd (Option.some.inj e').symm e
          · intro e'; cases e'
        · rw [set_same]
          refine ⟨fun _ => ?_, fun _ => rfl⟩
          cases x.mutex.inconsistent <;> simp [afterLock]
        · intro j _ e; rw [how] at e; cases e
        · intro t e
          rw [set_same] at e
          show x.mutex.inconsistent = true
          cases hi : x.mutex.inconsistent
          · rw [hi] at e; cases e
          · rfl
        · intro t l e
          rw [set_same] at e
          show x.mutex.inconsistent = false ∧ _
          cases hi : x.mutex.inconsistent
          · rw [hi] at e; cases e; exact ⟨rfl, rfl, hno⟩
          · rw [hi] at e; cases e
        · rw [set_same]; cases x.mutex.inconsistent <;> simp [afterLock]
        · rw [set_same]
          have := h.have_ i
          rw [hp] at this
          intro e
          refine this ?_
          revert e
          cases x.mutex.inconsistent <;> cases s <;> simp [afterLock, starting]
        · rw [set_same, hp]
          intro _
          cases x.mutex.inconsistent <;> simp [afterLock, pend, calls]
        · rw [set_same]
          cases x.mutex.inconsistent <;> simp [afterLock]
    · cases hs
  | consistent i =>
    simp only [Sys.step] at hs
    split at hs
    · rename_i s hp
      cases hs
      have ho := (h.own i).2 (.inl ⟨s, hp⟩)
      have hno : ∀ j t l, (x.cl j).pc ≠ .at t l := fun j t l e => by
        have := (h.own j).2 (.inr ⟨t, l, e⟩)
        rw [ho] at this; cases this; rw [hp] at e; cases e
      refine ⟨[], ?_⟩
      rw [List.append_nil]
      refine h.move (i := i) (fun j e => set_other _ _ e) rfl rfl (by rw [set_same]) (by rw [set_same]) h.robust h.lost (by simp [hp]) (by simp [hp]) (fun j _ => Iff.rfl) ?_ ?_ ?_ ?_ ?_ ?_ ?_ ?_
        (fun j _ => rfl)
      · rw [set_same]; exact ⟨fun _ => .inr ⟨_, _, rfl⟩, fun _ => ho⟩
      · intro j e e'; rw [ho] at e'; exact absurd (Option.some.inj e').symm e
      · intro t e; rw [set_same] at e; cases e
      · intro t l e; rw [set_same] at e; cases e; exact ⟨rfl, rfl, hno⟩
      · rw [set_same]; simp
      · rw [set_same]
        have := h.have_ i
        rw [hp] at this
        intro e
        refine this ?_
        revert e
        cases s <;> simp [starting]
      · rw [set_same, hp]; intro _; simp [pend, calls]
      · rw [set_same]; simp
    · cases hs
  | ins i =>
    simp only [Sys.step] at hs
    split at hs
    · rename_i s k hp
      cases hs
      exact h.exec hp
    · cases hs
  | die i =>
    simp only [Sys.step] at hs
    split at hs
    · cases hs
    · rename_i hnd
      cases hs
      by_cases c : ∃ s k, (x.cl i).pc = .at s k
      · obtain ⟨s, k, hp⟩ := c
        exact h.cut hp
      · have hnot : ∀ s k, (x.cl i).pc ≠ .at s k := fun s k e => c ⟨s, k, e⟩
        refine ⟨[], ?_⟩
        rw [List.append_nil]
        by_cases ho : x.mutex.owner = some i
        · have hd : x.mutex.died i = { x.mutex with owner := none, inconsistent := true } := by
            unfold Mutex.died; rw [if_pos ⟨ho, h.robust⟩]
          rw [hd]
          refine h.move (i := i) (fun j e => set_other _ _ e) rfl rfl (by rw [set_same]) (by rw [set_same]) h.robust h.lost hnot hnd ?_ (by rw [set_same]; simp [Sys.set]) ?_ (by simp [set_same])
            (by simp [set_same]) (by simp [set_same]) (by simp [set_same, starting]) (by simp [set_same]) (fun _ => rfl) (fun j _ => rfl)
          · intro j e
            rw [ho]
            constructor
            · intro e'; cases e'
            · intro e'; exact absurd (Option.some.inj e').symm e
          · intro j e e'; rw [ho] at e'; exact absurd (Option.some.inj e').symm e
        · have hd : x.mutex.died i = x.mutex := by
            unfold Mutex.died; rw [if_neg (fun e => ho e.1)]
          rw [hd]
          exact h.move (i := i) (fun j e => set_other _ _ e) rfl rfl (by rw [set_same]) (by rw [set_same]) h.robust h.lost hnot hnd (fun j _ => Iff.rfl) (by rw [set_same]; simp [Sys.set, ho])
            (fun _ _ _ => rfl) (by simp [set_same])
            (by simp [set_same]) (by simp [set_same]) (by simp [set_same, starting]) (by simp [set_same]) (fun _ => rfl) (fun j _ => rfl)

theorem inv_run (cl : Nat → Cl) {as : List Act} {x : Sys} (h : (Sys.init cl).run as = some x) : ∃ L, Inv cl as x L := by
  suffices H : ∀ (n : Nat) (as : List Act) (x : Sys), as.length = n → (Sys.init cl).run as = some x → ∃ L, Inv cl as x L from H _ as x rfl h
  intro n
  induction n with
  | zero =>
    intro as x hl h
    cases List.length_eq_zero_iff.1 hl
    cases h
    exact ⟨[], inv_init cl⟩
  | succ n ih =>
    intro as x hl h
    rcases List.eq_nil_or_concat as with rfl | ⟨bs, b, rfl⟩
    · cases hl
    · rw [List.concat_eq_append] at h hl ⊢
      obtain ⟨z, h1, h2⟩ := run_last h
      obtain ⟨L, hL⟩ := ih bs z (by simpa using hl) h1
      obtain ⟨ds, hds⟩ := hL.step h2
      exact ⟨_, hds⟩

/-! ## Sections happen one at a time -/

/-- The deeds `L` are what has happened in the execution `as`, which has led to `x`. -/
structure Fits (cl : Nat → Cl) (as : List Act) (x : Sys) (L : List Deed) : Prop where
  /-- when nobody is in a section the shared memory is as after the deeds -/
  memory : (∀ i s k, (x.cl i).pc ≠ .at s k) → x.count = ((begin_ cl).deeds L).number ∧ x.active = ((begin_ cl).deeds L).active
  /-- clients that are not in a section know what they have noted in their deeds -/
  notes : ∀ i, (x.cl i).pc ≠ .dead → (∀ s k, (x.cl i).pc ≠ .at s k) →
    (x.cl i).sess = (((begin_ cl).deeds L).note i).number ∧ (x.cl i).ext = (((begin_ cl).deeds L).note i).other
  /-- clients outside have done all sections they have begun, in their order, once -/
  outside : ∀ i, (x.cl i).pc = .out → doneBy i L = calls i as
  /-- clients that live have done all sections they have begun, but the one they are in -/
  living : ∀ i, (x.cl i).pc ≠ .dead → calls i as = doneBy i L ++ pend (x.cl i).pc
  /-- of the sections of a dead client at most the last one is missing -/
  dead : ∀ i, (x.cl i).pc = .dead → ∃ p : List Sect, p.length ≤ 1 ∧ calls i as = doneBy i L ++ p
  /-- only dead clients have left something half done, and this is the last thing they did -/
  half : ∀ i, .half i ∈ L → (x.cl i).pc = .dead

theorem Inv.fits {cl : Nat → Cl} {as : List Act} {x : Sys} {L : List Deed} (h : Inv cl as x L) : Fits cl as x L where
  memory := h.free
  notes := fun i h1 h2 => ⟨(h.note i h1 h2).1.symm, (h.note i h1 h2).2.symm⟩
  outside := fun i e => by
    have := h.done i (by rw [e]; simp)
    rw [e] at this
    simpa [pend] using this.symm
  living := h.done
  dead := h.gone
  half := h.half

theorem run_two {x y z : Sys} {as bs : List Act} (h : x.run as = some y) (h' : y.run bs = some z) : x.run (as ++ bs) = some z := by
  induction as generalizing x with
  | nil => cases h; exact h'
  | cons b as ih =>
    simp only [Sys.run, List.cons_append] at h ⊢
    cases hb : x.step b with
    | none => rw [hb] at h; cases h
    | some w => rw [hb] at h; exact ih h

theorem Inv.more {cl : Nat → Cl} {bs : List Act} {y : Sys} : ∀ {as : List Act} {x : Sys} {L : List Deed}, Inv cl as x L → x.run bs = some y →
    ∃ M, Inv cl (as ++ bs) y (L ++ M) := by
  induction bs with
  | nil => intro as x L h e; cases e; exact ⟨[], by simpa using h⟩
  | cons b bs ih =>
    intro as x L h e
    simp only [Sys.run] at e
    cases hb : x.step b with
    | none => rw [hb] at e; cases e
    | some z =>
      rw [hb] at e
      obtain ⟨ds, hds⟩ := h.step hb
      obtain ⟨M, hM⟩ := ih hds e
      exact ⟨ds ++ M, by simpa [List.append_assoc] using hM⟩

/-- Whatever the threads do and wherever they die, sections happen one at a time and as a whole, each between its beginning and its end; only the start of a
session may be left half done, by a client that has died. -/
theorem C87_atomic (cl : Nat → Cl) {as bs : List Act} {x y : Sys} (h : (Sys.init cl).run as = some x) (h' : x.run bs = some y) :
    ∃ L M, Fits cl as x L ∧ Fits cl (as ++ bs) y (L ++ M) := by
  obtain ⟨L, hL⟩ := inv_run cl h
  obtain ⟨M, hM⟩ := hL.more h'
  exact ⟨L, M, hL.fits, hM.fits⟩

/-- Two clients are never in sections at the same time. -/
theorem C87_exclusion (cl : Nat → Cl) {as : List Act} {x : Sys} (h : (Sys.init cl).run as = some x) {i j : Nat} {s t : Sect} {k l : Ins}
    (hi : (x.cl i).pc = .at s k) (hj : (x.cl j).pc = .at t l) : i = j :=
  (inv_run cl h).elim fun _ hL => hL.one hi hj

/-! ## Nobody waits for the dead -/

/-- Instructions left in a section, at most. -/
def Ins.rank : Ins → Nat
  | .load => 8 | .store => 7 | .activate => 6 | .bump => 5 | .test => 4 | .isActive => 3 | .getCounter => 2 | .deactivate => 2 | .unlock => 1

theorem leaves (i : Nat) : ∀ (n : Nat) (x : Sys) (s : Sect) (k : Ins), k.rank = n → (x.cl i).pc = .at s k →
    ∃ m y, m ≤ n ∧ x.run (List.replicate m (.ins i)) = some y ∧ (y.cl i).pc = .out := by
  intro n
  induction n using Nat.strongRecOn with
  | _ n ih =>
    intro x s k hk hp
    have hstep : x.step (.ins i) = some (x.ins i s k) := by simp only [Sys.step, hp]
    by_cases hu : k = .unlock
    · subst hu
      refine ⟨1, x.ins i s .unlock, by rw [← hk]; exact Nat.le_refl _, ?_, by simp only [Sys.ins, set_same]⟩
      show x.run [.ins i] = _
      simp only [Sys.run, hstep]
    · have : ∃ l, ((x.ins i s k).cl i).pc = .at s l ∧ l.rank < n := by
        rw [← hk]
        cases k <;> first | exact absurd rfl hu | skip
        case test => exact ⟨_, by simp only [Sys.ins, set_same]; rfl, by split <;> decide⟩
        all_goals exact ⟨_, by simp only [Sys.ins, set_same]; rfl, by decide⟩
      obtain ⟨l, h1, h2⟩ := this
      obtain ⟨m, y, h3, h4, h5⟩ := ih _ h2 _ s l rfl h1
      refine ⟨m + 1, y, by omega, ?_, h5⟩
      rw [List.replicate_succ]
      simp only [Sys.run, hstep]
      exact h4

/-- A client in a section leaves it after at most eight instructions of its own. A client that waits when nobody alive has the mutex gets it, also when it was locked by a client
that has died, or by one that has died on getting it from a dead one; only a client that is alive can keep others waiting. `lock` never throws. -/
theorem C87_progress (cl : Nat → Cl) {as : List Act} {x : Sys} (h : (Sys.init cl).run as = some x) :
    (∀ i s k, (x.cl i).pc = .at s k → ∃ m y, m ≤ 8 ∧ x.run (List.replicate m (.ins i)) = some y ∧ (y.cl i).pc = .out) ∧
    (∀ i s, (x.cl i).pc = .told s → ∃ y, x.step (.consistent i) = some y ∧ (y.cl i).pc = .at s s.entry) ∧
    (∀ i s, (x.cl i).pc = .wait s → (∀ j t, (x.cl j).pc ≠ .told t) → (∀ j t k, (x.cl j).pc ≠ .at t k) →
      ∃ y, x.step (.lock i) = some y ∧ ((y.cl i).pc = .at s s.entry ∨ (y.cl i).pc = .told s)) ∧
    (∀ i, (x.cl i).pc ≠ .thrown) := by
  obtain ⟨L, hL⟩ := inv_run cl h
  refine ⟨?_, ?_, ?_, hL.thrown⟩
  · intro i s k hp
    obtain ⟨m, y, h1, h2, h3⟩ := leaves i _ x s k rfl hp
    exact ⟨m, y, Nat.le_trans h1 (by cases k <;> decide), h2, h3⟩
  · intro i s hp
    refine ⟨{ x with mutex := x.mutex.consistent }.set i { x.cl i with pc := .at s s.entry }, by simp only [Sys.step, hp], by rw [set_same]⟩
  · intro i s hp h1 h2
    have how : x.mutex.owner = none := by
      cases e : x.mutex.owner with
      | none => rfl
      | some j =>
        rcases (hL.own j).1 e with ⟨t, ht⟩ | ⟨t, k, ht⟩
        · exact absurd ht (h1 j t)
        · exact absurd ht (h2 j t k)
    have hm : x.mutex.lock i = some (if x.mutex.inconsistent then .ownerDead else .zero, { x.mutex with owner := some i }) := by
      simp only [Mutex.lock, hL.lost, how]; rfl
    refine ⟨{ x with mutex := { x.mutex with owner := some i } }.set i { x.cl i with pc := afterLock s (if x.mutex.inconsistent then .ownerDead else .zero) },
      by simp only [Sys.step, hp, hm], ?_⟩
    rw [set_same]
    cases x.mutex.inconsistent
    · exact .inl rfl
    · exact .inr rfl

/-! ## What the counter tells -/

theorem number_deeds (L : List Deed) : ∀ s : State, (s.deeds L).number = s.number + BitVec.ofNat 64 (L.countP Deed.counts) := by
  induction L with
  | nil => intro s; simp [State.deeds]
  | cons d L ih =>
    intro s
    rw [State.deeds, ih]
    cases d <;> simp [State.deed, State.put, Deed.counts, List.countP_cons, BitVec.ofNat_add] <;> ac_rfl

theorem note_deeds (i : Nat) (L : List Deed) : ∀ s : State, (∀ e ∈ L, e.notes i = false) → (s.deeds L).note i = s.note i := by
  induction L with
  | nil => intro s _; rfl
  | cons d L ih =>
    intro s h
    rw [State.deeds, ih _ fun e he => h e (List.mem_cons_of_mem _ he)]
    have := h d List.mem_cons_self
    cases d with
    | start j =>
      have hj : ¬ i = j := fun e => by subst e; simp [Deed.notes] at this
      simp [State.deed, State.put, hj]
    | look j b =>
      have hj : ¬ i = j := fun e => by subst e; simp [Deed.notes] at this
      simp [State.deed, State.put, hj]
    | finish j => rfl
    | half j => rfl

/-- A session of another client was going on when client `i` looked. -/
def sawOther (s : State) : Deed → Bool
  | .look _ h => s.active && !h
  | _ => false

theorem deeds_two (s : State) (L M : List Deed) : s.deeds (L ++ M) = (s.deeds L).deeds M := by
  induction L generalizing s with
  | nil => rfl
  | cons e L ih => exact ih _

theorem stale_iff (s : State) (i : Nat) (L1 L2 : List Deed) (d : Deed) (hd : d.notes i = true) (h2 : ∀ e ∈ L2, e.notes i = false) :
    (s.deeds (L1 ++ d :: L2)).stale i ↔ sawOther (s.deeds L1) d = true ∨ L2.countP Deed.counts % 2 ^ 64 ≠ 0 := by
  rw [deeds_two]
  generalize s.deeds L1 = t
  show ((t.deed d).deeds L2).stale i ↔ _
  unfold State.stale
  rw [note_deeds i L2 _ h2, number_deeds]
  have hz : ∀ n : BitVec 64, (n + BitVec.ofNat 64 (L2.countP Deed.counts) ≠ n) ↔ L2.countP Deed.counts % 2 ^ 64 ≠ 0 := by
    intro n
    rw [ne_eq, ne_eq, ← BitVec.toNat_inj, BitVec.toNat_add, BitVec.toNat_ofNat]
    have := n.isLt
    omega
  have key : ((t.deed d).note i).number = (t.deed d).number ∧ ((t.deed d).note i).other = sawOther t d := by
    cases d with
    | start j =>
      simp only [Deed.notes, beq_iff_eq] at hd
      subst hd
      by_cases c : t.stale j
      · simp [State.deed, State.put, c, sawOther]
      · have c' := c
        unfold State.stale at c'
        simp only [not_or, ne_eq, Decidable.not_not, Bool.not_eq_true] at c'
        simp [State.deed, State.put, c, sawOther, c'.1, c'.2]
    | look j b =>
      simp only [Deed.notes, beq_iff_eq] at hd
      subst hd
      simp [State.deed, State.put, sawOther]
    | finish j => cases hd
    | half j => cases hd
  rw [key.1, key.2, hz]

/-- The number that clients see counts the sessions there have been (also those of clients that died), modulo 2⁶⁴; none is lost. -/
theorem C87_number (cl : Nat → Cl) {as : List Act} {x : Sys} (h : (Sys.init cl).run as = some x) (hf : ∀ i s k, (x.cl i).pc ≠ .at s k) :
    ∃ L, Fits cl as x L ∧ x.count = BitVec.ofNat 64 (L.countP Deed.counts) := by
  obtain ⟨L, hL⟩ := inv_run cl h
  refine ⟨L, hL.fits, ?_⟩
  rw [(hL.free hf).1, number_deeds]
  show 0#64 + _ = _
  simp

theorem last_note {i : Nat} {L : List Deed} (h : ∃ e ∈ L, e.notes i = true) :
    ∃ L1 d L2, L = L1 ++ d :: L2 ∧ d.notes i = true ∧ ∀ e ∈ L2, e.notes i = false := by
  induction L with
  | nil => obtain ⟨e, he, _⟩ := h; cases he
  | cons a L ih =>
    by_cases c : ∃ e ∈ L, e.notes i = true
    · obtain ⟨L1, d, L2, h1, h2, h3⟩ := ih c
      exact ⟨a :: L1, d, L2, by rw [h1]; rfl, h2, h3⟩
    · refine ⟨[], a, L, rfl, ?_, ?_⟩
      · obtain ⟨e, he, hn⟩ := h
        rcases List.mem_cons.1 he with rfl | he
        · exact hn
        · exact absurd ⟨e, he, hn⟩ c
      · intro e he
        cases hn : e.notes i
        · rfl
        · exact absurd ⟨e, he, hn⟩ c

/-- What the counter is for. When a client that has connected starts a session, it reads the status of the device again if and only if a session of another client was active when it last looked,
or the number of sessions that others have begun since then is not a multiple of 2⁶⁴. Its own session is not counted yet in the deeds `L1 ++ d :: L2`. -/
theorem C87_most_recent (cl : Nat → Cl) {as : List Act} {x : Sys} (h : (Sys.init cl).run as = some x) {i : Nat}
    (hp : (x.cl i).pc = .at .start .test) (hlook : .look ∈ calls i as) :
    ∃ L1 d L2, Fits cl as x (L1 ++ d :: L2) ∧ d.notes i = true ∧ (∀ e ∈ L2, e.notes i = false) ∧
      ∃ y, x.step (.ins i) = some y ∧
        ((y.cl i).pc = .at .start .isActive ↔ sawOther ((begin_ cl).deeds L1) d = true ∨ L2.countP Deed.counts % 2 ^ 64 ≠ 0) ∧
        ((y.cl i).pc = .at .start .unlock ↔ ¬ (sawOther ((begin_ cl).deeds L1) d = true ∨ L2.countP Deed.counts % 2 ^ 64 ≠ 0)) := by
  obtain ⟨L, hL⟩ := inv_run cl h
  have hd := hL.done i (by rw [hp]; simp)
  rw [hd, hp] at hlook
  have : .look ∈ doneBy i L := by
    rcases List.mem_append.1 hlook with h1 | h1
    · exact h1
    · simp [pend] at h1
  obtain ⟨e, he, hes⟩ := List.mem_map.1 this
  obtain ⟨he1, he2⟩ := List.mem_filter.1 he
  obtain ⟨L1, d, L2, rfl, h2, h3⟩ := last_note (i := i) ⟨e, he1, by
    cases e <;> simp [sect] at hes
    simpa [Deed.notes, who] using of_decide_eq_true he2⟩
  refine ⟨L1, d, L2, hL.fits, h2, h3, x.ins i .start .test, by simp only [Sys.step, hp], ?_⟩
  obtain ⟨_, h4, h5, h6, h7⟩ := hL.ats i _ _ hp
  have hst : ((x.cl i).ext = true ∨ x.count ≠ (x.cl i).sess) ↔ ((begin_ cl).deeds (L1 ++ d :: L2)).stale i := by
    unfold State.stale
    rw [h7, h4, h6, ne_eq, ne_eq]
    generalize (begin_ cl).deeds (L1 ++ d :: L2) = B
    have : (B.number + 1 = (B.note i).number + 1) ↔ B.number = (B.note i).number := by
      constructor
      · intro e
        have := congrArg (· - 1#64) e
        simpa [BitVec.add_sub_cancel] using this
      · intro e; rw [e]
    rw [this]
  rw [← stale_iff _ i L1 L2 d h2 h3, ← hst]
  simp only [Sys.ins, set_same]
  by_cases c : (x.cl i).ext = true ∨ x.count ≠ (x.cl i).sess
  · simp [c]
  · simp [c]

/-! ## Examples -/

def demoCl : Nat → Cl := fun _ => ⟨.out, false, true, 77, 5⟩

/-- Client 0 connects, starts a session and dies after counting it; client 1, which has connected before, is told that the owner is dead, starts its session and looks again. -/
def demoActs : List Act :=
  [.call 1 .look, .lock 1, .ins 1, .ins 1, .ins 1, .call 0 .look, .lock 0, .ins 0, .ins 0, .ins 0,
   .file 0 true, .call 0 .start, .lock 0, .ins 0, .ins 0, .file 1 true, .call 1 .start, .die 0,
   .lock 1, .consistent 1, .ins 1, .ins 1, .ins 1, .ins 1]

example : ((Sys.init demoCl).run demoActs).map (fun x => (x.count, x.active, (x.cl 0).pc, (x.cl 1).pc, (x.cl 1).sess)) =
    some (2, true, .dead, .at .start .test, 1) ∧
    ((Sys.init demoCl).run (demoActs ++ [.ins 1])).map (fun x => (x.cl 1).pc) = some (.at .start .isActive) ∧
    .look ∈ calls 1 demoActs := by decide +kernel

/-- The session of client 0 is left half done: counted, but not active. Then client 1 goes on, and at the end all is as the deeds say. -/
example : ((Sys.init demoCl).run (demoActs.take 18)).map (fun x => (x.count, x.active, x.mutex.inconsistent)) = some (1, false, true) ∧
    ((Sys.init demoCl).run (demoActs ++ List.replicate 4 (.ins 1))).map (fun x => ((x.count, x.active, (x.cl 1).sess), (x.cl 1).ext, (x.cl 1).pc, x.mutex.owner)) =
      some ((2, true, 2), false, .out, none) ∧
    (fun B : State => (B.number, B.active, B.note 1)) ((begin_ demoCl).deeds [.look 1 false, .look 0 false, .half 0, .start 1]) = (2, true, ⟨2, false⟩) := by
  decide +kernel

end Verif.Robust
