import Verif.Model.Hw
import Verif.Props.C33
/-!
# C59: devices can be copied

Whatever programs do with `HwInterface` objects, calls on the nodes of an object go to the client of this object, and its nodes are those
of the address table.
-/

set_option autoImplicit false

namespace Verif
open Node

namespace Spec

/-- What a device object stands for: a client and an address table. -/
abbrev Dev := Nat × Node

/-- What device objects stand for, step by step. -/
def devStep (f : Nat → Option Dev) : HwOp → Nat → Option Dev
  | .create a c n => fun x => if x = a then some (c, n) else f x
  | .copy a s => fun x => if x = a then f s else f x
  | .assign d s => fun x => if x = d then f s else f x
  | .destroy a => fun x => if x = a then none else f x

/-- What device objects stand for after a history. -/
def devs (ops : List HwOp) : Nat → Option Dev := ops.foldl devStep fun _ => none

/-- No object that has been assigned from (the list) is assigned to or destroyed. -/
def Careful : List Nat → List HwOp → Prop
  | _, [] => True
  | used, .assign d s :: ops => d ∉ used ∧ Careful (s :: used) ops
  | used, .destroy a :: ops => a ∉ used ∧ Careful used ops
  | used, .create _ _ _ :: ops => Careful used ops
  | used, .copy _ _ :: ops => Careful used ops

/-- Two trees are the same as far as users can see: attributes and paths at all positions. -/
def SameTree (m n : Node) : Prop :=
  (∀ p, (m.sub? p).map (fun v => v.d.view) = (n.sub? p).map (fun v => v.d.view)) ∧ m.getNodes = n.getNodes ∧
  ∀ p, m.fullPath p = n.fullPath p

end Spec
open Spec

theorem Spec.SameTree.rfl' (n : Node) : SameTree n n := ⟨fun _ => rfl, rfl, fun _ => rfl⟩

theorem Spec.SameTree.clone {m n : Node} (h : SameTree m n) : SameTree m.clone n :=
  ⟨fun p => ((C41_clone m).1 p).trans (h.1 p), (C41_clone m).2.1.trans h.2.1, fun p => ((C41_clone m).2.2.2 p).trans (h.2.2 p)⟩

theorem claimNode_some (h : Nat) (n v : Node) (p : List Nat) (hv : n.sub? p = some v) : claimNode h n p = some h := by
  induction p generalizing n with
  | nil => rfl
  | cons i p ih =>
    rw [sub?_cons] at hv
    rw [claimNode]
    cases hk : n.kids[i]? with
    | none => rw [hk] at hv; simp at hv
    | some k => rw [hk] at hv; exact ih k hv

/-- Invariant: `f` what the objects stand for, `used` the objects that have been assigned from. -/
structure HwInv (w : HwWorld) (f : Nat → Option Dev) (used : List Nat) : Prop where
  live : ∀ a, (w.objs.lookup a).isSome = (f a).isSome
  good : ∀ a o c n, w.objs.lookup a = some o → f a = some (c, n) → o.client = c ∧ ∃ t h o', w.trees.lookup o.tree = some t ∧
    SameTree t.node n ∧ (∀ p v, t.node.sub? p = some v → t.hw p = some h) ∧ w.objs.lookup h = some o' ∧ o'.client = o.client ∧
    (h = a ∨ h ∈ used)
  fresh : ∀ i t, w.trees.lookup i = some t → i < w.next

theorem lookup_filter_key {α : Type} (l : List (Nat × α)) (P : Nat → Bool) (x : Nat) :
    (l.filter fun e => P e.1).lookup x = if P x then l.lookup x else none := by
  induction l with
  | nil => simp
  | cons e l ih =>
    obtain ⟨k, b⟩ := e
    rw [List.lookup_cons]
    by_cases hk : P k = true
    · rw [List.filter_cons_of_pos (by simpa using hk), List.lookup_cons, ih]
      by_cases hx : x = k
      · subst hx; simp [hk]
      · have hb : (x == k) = false := by simpa using hx
        simp only [hb]
    · rw [List.filter_cons_of_neg (by simpa using hk), ih]
      by_cases hx : x = k
      · subst hx; simp [hk]
      · have hb : (x == k) = false := by simpa using hx
        simp only [hb]

theorem lookup_filter_ne {α : Type} (l : List (Nat × α)) (a x : Nat) (h : x ≠ a) :
    (l.filter fun e => decide (e.1 ≠ a)).lookup x = l.lookup x := by
  rw [lookup_filter_key l (fun i => decide (i ≠ a)), if_pos (by simpa using h)]

theorem lookup_filter_eq {α : Type} (l : List (Nat × α)) (a : Nat) :
    (l.filter fun e => decide (e.1 ≠ a)).lookup a = none := by
  rw [lookup_filter_key l (fun i => decide (i ≠ a)), if_neg (by simp)]

theorem any_of_lookup {l : List (Nat × HwObj)} {a : Nat} {o : HwObj} (h : l.lookup a = some o) :
    (l.any fun x => decide (x.2.tree = o.tree)) = true := by
  induction l with
  | nil => simp at h
  | cons e l ih =>
    obtain ⟨k, b⟩ := e
    rw [List.lookup_cons] at h
    by_cases hk : a = k
    · subst hk; simp at h; subst h; simp
    · have : (a == k) = false := by simpa using hk
      rw [this] at h
      simp [ih h]

/-- A tree that a live object refers to is not deleted. -/
theorem gc_lookup {w : HwWorld} {a : Nat} {o : HwObj} (h : w.objs.lookup a = some o) :
    w.gc.trees.lookup o.tree = w.trees.lookup o.tree := by
  unfold HwWorld.gc
  simp only
  rw [lookup_filter_key w.trees (fun i => w.objs.any fun x => decide (x.2.tree = i)), if_pos (any_of_lookup h)]

theorem gc_fresh {w : HwWorld} {i : Nat} {t : HwTree} (h : w.gc.trees.lookup i = some t) : w.trees.lookup i = some t := by
  unfold HwWorld.gc at h
  simp only at h
  rw [lookup_filter_key w.trees (fun i => w.objs.any fun x => decide (x.2.tree = i))] at h
  split at h
  · exact h
  · cases h

theorem add_inv {w : HwWorld} {f : Nat → Option Dev} {used : List Nat} (hi : HwInv w f used) {a c : Nat} {m n : Node}
    (ha : w.objs.lookup a = none) (hs : SameTree m n) : HwInv (w.add a c m) (fun x => if x = a then some (c, n) else f x) used := by
  constructor
  · intro x
    unfold HwWorld.add
    simp only [List.lookup_cons]
    by_cases hx : x = a
    · subst hx; simp
    · have : (x == a) = false := by simpa using hx
      rw [this, if_neg hx]; exact hi.live x
  · intro x o c' n' ho hf
    unfold HwWorld.add at ho ⊢
    simp only [List.lookup_cons] at ho ⊢
    by_cases hx : x = a
    · subst hx
      simp only [BEq.rfl, Option.some.injEq, if_true, Prod.mk.injEq] at ho hf
      subst ho
      obtain ⟨rfl, rfl⟩ := hf
      refine ⟨rfl, ⟨m, claimNode x m⟩, x, ⟨c, w.next⟩, by simp, hs, fun p v hv => claimNode_some x m v p hv, by simp, rfl, .inl rfl⟩
    · have hb : (x == a) = false := by simpa using hx
      rw [hb] at ho
      rw [if_neg hx] at hf
      obtain ⟨h1, t, h, o', h2, h3, h4, h5, h6, h7⟩ := hi.good x o c' n' ho hf
      refine ⟨h1, t, h, o', ?_, h3, h4, ?_, h6, h7⟩
      · have := hi.fresh _ _ h2
        have hb : (o.tree == w.next) = false := by simp; omega
        rw [hb]; exact h2
      · have : h ≠ a := by intro e; subst e; rw [ha] at h5; cases h5
        have hb : (h == a) = false := by simpa using this
        rw [hb]; exact h5
  · intro i t h
    unfold HwWorld.add at h ⊢
    simp only [List.lookup_cons] at h ⊢
    by_cases hx : i = w.next
    · omega
    · have hb : (i == w.next) = false := by simpa using hx
      rw [hb] at h
      have := hi.fresh i t h
      omega

theorem step_inv {w w' : HwWorld} {f : Nat → Option Dev} {used : List Nat} (hi : HwInv w f used) (op : HwOp) (ops : List HwOp)
    (hc : Careful used (op :: ops)) (h : w.step op = some w') : ∃ used', HwInv w' (devStep f op) used' ∧ Careful used' ops := by
  cases op with
  | create a c n =>
    rw [HwWorld.step] at h
    cases ha : w.objs.lookup a with
    | some o => rw [ha] at h; cases h
    | none => rw [ha] at h; cases h; exact ⟨used, add_inv hi ha (Spec.SameTree.rfl' n), hc⟩
  | copy a s =>
    rw [HwWorld.step] at h
    cases ha : w.objs.lookup a with
    | some o => rw [ha] at h; cases h
    | none =>
      cases hs : w.objs.lookup s with
      | none => rw [ha, hs] at h; cases h
      | some o =>
        rw [ha, hs] at h
        have hl := hi.live s
        rw [hs] at hl
        obtain ⟨⟨c, n⟩, hf⟩ := Option.isSome_iff_exists.1 hl.symm
        obtain ⟨h1, t, hh, o', h2, h3, h4, h5, h6, h7⟩ := hi.good s o c n hs hf
        simp only [h2] at h
        cases h
        refine ⟨used, ?_, hc⟩
        have := add_inv (c := o.client) hi ha (Spec.SameTree.clone h3)
        show HwInv _ (fun x => if x = a then f s else f x) used
        rw [hf]
        rw [h1] at this ⊢
        exact this
  | assign d s =>
    rw [HwWorld.step] at h
    cases hd : w.objs.lookup d with
    | none => rw [hd] at h; cases h
    | some od =>
      cases hs : w.objs.lookup s with
      | none => rw [hd, hs] at h; cases h
      | some o =>
        rw [hd, hs] at h
        simp only [Option.some.injEq] at h
        subst h
        obtain ⟨hu, hc⟩ := hc
        have look : ∀ x, ((d, o) :: w.objs.filter fun e => decide (e.1 ≠ d)).lookup x = if x = d then some o else w.objs.lookup x := by
          intro x
          rw [List.lookup_cons]
          by_cases hx : x = d
          · subst hx; simp
          · have hb : (x == d) = false := by simpa using hx
            rw [hb, if_neg hx, lookup_filter_ne _ _ _ hx]
        refine ⟨s :: used, ⟨?_, ?_, ?_⟩, hc⟩
        · intro x
          show (((d, o) :: w.objs.filter fun e => decide (e.1 ≠ d)).lookup x).isSome = _
          rw [look]
          unfold devStep
          simp only
          by_cases hx : x = d
          · rw [if_pos hx, if_pos hx, ← hi.live, hs]
          · rw [if_neg hx, if_neg hx, hi.live]
        · intro x ox c n ho hf
          have ho' := ho
          change ((d, o) :: w.objs.filter fun e => decide (e.1 ≠ d)).lookup x = some ox at ho
          rw [look] at ho
          have key : ∃ y, w.objs.lookup y = some ox ∧ f y = some (c, n) ∧ (y = x ∧ x ≠ d ∨ y = s ∧ x = d) := by
            unfold devStep at hf
            simp only at hf
            by_cases hx : x = d
            · rw [if_pos hx] at ho hf; cases ho; exact ⟨s, hs, hf, .inr ⟨rfl, hx⟩⟩
            · rw [if_neg hx] at ho hf; exact ⟨x, ho, hf, .inl ⟨rfl, hx⟩⟩
          obtain ⟨y, hy, hfy, hxy⟩ := key
          obtain ⟨h1, t, h, o', h2, h3, h4, h5, h6, h7⟩ := hi.good y ox c n hy hfy
          refine ⟨h1, t, h, ?_⟩
          have hg := gc_lookup (w := { w with objs := (d, o) :: w.objs.filter fun e => decide (e.1 ≠ d) }) (a := x) (o := ox) ho'
          by_cases hhd : h = d
          · subst hhd
            have hys : y = h := by
              rcases h7 with h7 | h7
              · exact h7.symm
              · exact absurd h7 hu
            refine ⟨o, hg.trans h2, h3, h4, by show ((h, o) :: _).lookup h = _; rw [look, if_pos rfl], ?_, ?_⟩
            · rcases hxy with ⟨rfl, hne⟩ | ⟨rfl, rfl⟩
              · exact absurd hys hne
              · rw [hs] at hy; cases hy; rfl
            · rcases hxy with ⟨rfl, hne⟩ | ⟨rfl, rfl⟩
              · exact absurd hys hne
              · exact .inl rfl
          · refine ⟨o', hg.trans h2, h3, h4, by show ((d, o) :: _).lookup h = _; rw [look, if_neg hhd]; exact h5, h6, ?_⟩
            rcases hxy with ⟨rfl, hne⟩ | ⟨rfl, rfl⟩
            · rcases h7 with h7 | h7
              · exact .inl h7
              · exact .inr (by simp [h7])
            · rcases h7 with h7 | h7
              · exact .inr (by simp [h7])
              · exact .inr (by simp [h7])
        · intro i t h
          have h' := gc_fresh h
          exact hi.fresh i t h'
  | destroy a =>
    rw [HwWorld.step] at h
    cases ha : w.objs.lookup a with
    | none => rw [ha] at h; cases h
    | some oa =>
      rw [ha] at h
      simp only [Option.some.injEq] at h
      subst h
      obtain ⟨hu, hc⟩ := hc
      refine ⟨used, ⟨?_, ?_, ?_⟩, hc⟩
      · intro x
        show ((w.objs.filter fun e => decide (e.1 ≠ a)).lookup x).isSome = _
        unfold devStep
        simp only
        by_cases hx : x = a
        · subst hx; rw [lookup_filter_eq, if_pos rfl]; rfl
        · rw [lookup_filter_ne _ _ _ hx, if_neg hx, hi.live]
      · intro x o c n ho hf
        have ho' := ho
        change (w.objs.filter fun e => decide (e.1 ≠ a)).lookup x = some o at ho
        have hx : x ≠ a := by rintro rfl; rw [lookup_filter_eq] at ho; cases ho
        rw [lookup_filter_ne _ _ _ hx] at ho
        unfold devStep at hf
        simp only [if_neg hx] at hf
        obtain ⟨h1, t, h, o', h2, h3, h4, h5, h6, h7⟩ := hi.good x o c n ho hf
        have hh : h ≠ a := by
          rintro rfl
          rcases h7 with h7 | h7
          · exact hx h7.symm
          · exact hu h7
        exact ⟨h1, t, h, o', (gc_lookup (w := { w with objs := w.objs.filter fun e => decide (e.1 ≠ a) }) (a := x) ho').trans h2, h3, h4,
          (by show (w.objs.filter _).lookup h = _; rw [lookup_filter_ne _ _ _ hh]; exact h5), h6, h7⟩
      · intro i t h
        have h' := gc_fresh h
        exact hi.fresh i t h'

theorem run_inv {w w' : HwWorld} {f : Nat → Option Dev} {used : List Nat} (hi : HwInv w f used) (ops : List HwOp) (hc : Careful used ops)
    (h : w.run ops = some w') : ∃ used', HwInv w' (ops.foldl devStep f) used' := by
  induction ops generalizing w f used with
  | nil => rw [HwWorld.run] at h; cases h; exact ⟨used, hi⟩
  | cons op ops ih =>
    rw [HwWorld.run] at h
    cases hs : w.step op with
    | none => rw [hs] at h; cases h
    | some w1 =>
      rw [hs] at h
      obtain ⟨used', h1, h2⟩ := step_inv hi op ops hc hs
      exact ih h1 h2 h

theorem HwInv.start : HwInv {} (fun _ => none) [] := ⟨fun _ => rfl, by intro a o c n h; simp at h, by intro i t h; simp at h⟩

/-- C59: after any history of constructions, copies, assignments and destructions in which no object that has been assigned from is later
assigned to or destroyed, every object has the client and the nodes it stands for, and calls on each of its nodes go to this client.

Partial: false for other histories (`C59_violated_temporary`, `C59_violated_other`). -/
theorem C59_partial (ops : List HwOp) (hc : Careful [] ops) (w : HwWorld) (h : HwWorld.run {} ops = some w) (a : Nat) :
    (∀ c n, devs ops a = some (c, n) → ∃ o t, w.objs.lookup a = some o ∧ w.trees.lookup o.tree = some t ∧ SameTree t.node n ∧
      o.client = c ∧ ∀ p, w.use a p = if (n.sub? p).isSome then .client c else .noNode) ∧
    (devs ops a = none → w.objs.lookup a = none) := by
  obtain ⟨used, hi⟩ := run_inv HwInv.start ops hc h
  constructor
  · intro c n hd
    have hl := hi.live a
    rw [show ops.foldl devStep (fun _ => none) a = devs ops a from rfl, hd] at hl
    obtain ⟨o, ho⟩ := Option.isSome_iff_exists.1 hl
    obtain ⟨h1, t, hh, o', h2, h3, h4, h5, h6, _⟩ := hi.good a o c n ho hd
    refine ⟨o, t, ho, h2, h3, h1, fun p => ?_⟩
    have hp := h3.1 p
    unfold HwWorld.use
    simp only [ho, h2]
    cases hv : t.node.sub? p with
    | none =>
      rw [hv] at hp
      have : n.sub? p = none := by
        cases hn : n.sub? p with
        | none => rfl
        | some v => rw [hn] at hp; cases hp
      simp [this]
    | some v =>
      rw [hv] at hp
      have : (n.sub? p).isSome = true := by
        cases hn : n.sub? p with
        | none => rw [hn] at hp; cases hp
        | some v => rfl
      simp [this, h4 p v hv, h5, h6, h1]
  · intro hd
    have hl := hi.live a
    rw [show ops.foldl devStep (fun _ => none) a = devs ops a from rfl, hd] at hl
    cases ho : w.objs.lookup a with
    | none => rfl
    | some o => rw [ho] at hl; cases hl

/-- C59 without assignments: any history of constructions, copies and destructions. -/
theorem C59_copies (ops : List HwOp) (hn : ∀ d s, HwOp.assign d s ∉ ops) (w : HwWorld) (h : HwWorld.run {} ops = some w) (a c : Nat)
    (n : Node) (hd : devs ops a = some (c, n)) (p : List Nat) (hp : (n.sub? p).isSome) : w.use a p = .client c := by
  have hc : ∀ l : List HwOp, (∀ d s, HwOp.assign d s ∉ l) → Careful [] l := by
    intro l
    induction l with
    | nil => intro _; trivial
    | cons op l ih =>
      intro hl
      have ih' := ih fun d s hm => hl d s (by simp [hm])
      cases op with
      | create _ _ _ => exact ih'
      | copy _ _ => exact ih'
      | destroy _ => exact ⟨by simp, ih'⟩
      | assign d s => exact absurd (by simp) (hl d s)
  obtain ⟨o, t, _, _, _, _, hu⟩ := (C59_partial ops (hc ops hn) w h a).1 c n hd
  rw [hu p, if_pos hp]

/-- The histories of `C59_partial` do not get stuck as long as new objects get addresses that are not in use and steps use objects that
are alive. -/
theorem C59_possible (ops : List HwOp) (hc : Careful [] ops) (w : HwWorld) (h : HwWorld.run {} ops = some w) (a s : Nat)
    (ha : devs ops a = none) (hs : (devs ops s).isSome) : (w.step (.copy a s)).isSome := by
  obtain ⟨used, hi⟩ := run_inv HwInv.start ops hc h
  have h1 := (C59_partial ops hc w h a).2 ha
  obtain ⟨⟨c, n⟩, hd⟩ := Option.isSome_iff_exists.1 hs
  obtain ⟨o, t, h2, h3, _⟩ := (C59_partial ops hc w h s).1 c n hd
  rw [HwWorld.step, h1, h2]
  simp only [h3, Option.isSome_some]

/-! ### Where it fails -/

/-- A tree with one register. -/
def oneReg : Node := mk {} [mk { uid := "R".toList, addr := 1#32, mode := .single } []]

/-- `hw = manager.getDevice(…)`: an object at 0, a temporary at 1, assigned to 0 and destroyed. -/
def assignTemporary (c c' : Nat) : List HwOp := [.create 0 c oneReg, .create 1 c' oneReg, .assign 0 1, .destroy 1]

/-- **C59** is violated by assignment: after an object has been assigned a temporary, calls on its nodes use a pointer to the temporary. -/
theorem C59_violated_temporary (c c' : Nat) : ∃ w, HwWorld.run {} (assignTemporary c c') = some w ∧
    (devs (assignTemporary c c') 0).map (·.1) = some c' ∧ w.use 0 [0] = .ub := by
  refine ⟨_, rfl, rfl, rfl⟩

/-- **C59** is violated by assignment: when a new object happens to get the address of the temporary, the calls go to its client, without
any error. -/
theorem C59_violated_other (c c' c'' : Nat) : ∃ w, HwWorld.run {} (assignTemporary c c' ++ [.create 1 c'' oneReg]) = some w ∧
    (devs (assignTemporary c c' ++ [.create 1 c'' oneReg]) 0).map (·.1) = some c' ∧ w.use 0 [0] = .client c'' := by
  refine ⟨_, rfl, rfl, rfl⟩

/-- **C58** is violated by copies: after a copy has been made and destroyed, the text about an address is empty although the original object
and its nodes are there. -/
theorem C58_violated_copy (c : Nat) : ∃ w, HwWorld.run {} [.create 0 c oneReg, .copy 1 0, .destroy 1] = some w ∧
    w.use 0 [0] = .client c ∧ w.message c 1#32 5 = some [] ∧ oneReg.describe 1#32 5 = some "node \"R\"".toList := by
  refine ⟨_, rfl, rfl, ?_, by decide +kernel⟩
  simp [HwWorld.message, HwWorld.add, HwWorld.gc]
  rfl

/-! ### Examples -/

/-- Copies, an assignment between objects that stay, and the end of others. -/
def hwHistory : List HwOp :=
  [.create 0 7 oneReg, .copy 1 0, .create 2 8 oneReg, .destroy 0, .assign 1 2, .copy 3 1, .destroy 1, .create 0 9 oneReg]

/-- Non-vacuity of `C59_partial`. -/
example : Careful [] hwHistory ∧ (HwWorld.run {} hwHistory).map (fun w => (w.use 0 [0], w.use 1 [0], w.use 2 [0], w.use 3 [0], w.use 3 [1])) =
    some (.client 9, .noNode, .client 8, .client 8, .noNode) ∧
    (devs hwHistory 3).map (·.1) = some 8 ∧ (devs hwHistory 1).map (·.1) = none := by
  refine ⟨by simp [Careful, hwHistory], by decide +kernel, by decide +kernel, by decide +kernel⟩

/-- Non-vacuity of `C59_copies` and `C59_possible`. -/
example : (HwWorld.run {} [.create 0 7 oneReg, .copy 1 0, .destroy 0]).map (fun w => (w.use 1 [0], (w.step (.copy 0 1)).isSome)) =
    some (.client 7, true) := by
  decide +kernel

end Verif
