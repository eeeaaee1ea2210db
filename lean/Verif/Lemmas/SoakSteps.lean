import Verif.Lemmas.SoakRam
/-!
# The steps of the validation test

They stay in the region, and what they expect is what memory gives.
-/

set_option autoImplicit false
set_option linter.unusedSimpArgs false

namespace Verif.Soak
open Spec

/-- No overflow in `rand() + rand()`, or it wraps around. -/
def NoOverflow (wrap : Bool) (g : Rnd) : Prop := wrap = true ∨ ∀ n, (g n).toNat < 2 ^ 30

theorem NoOverflow.shift {wrap : Bool} {g : Rnd} (h : NoOverflow wrap g) (k : Nat) : NoOverflow wrap fun n => g (n + k) := by
  rcases h with h | h
  · exact .inl h
  · exact .inr fun n => h _

theorem buffer_ok {wrap : Bool} {g : Rnd} (h : NoOverflow wrap g) (n : Nat) :
    ∃ ws, (getRandomBuffer wrap n g).1 = some ws ∧ ws.length = n ∧ NoOverflow wrap (getRandomBuffer wrap n g).2 := by
  induction n generalizing g with
  | zero => exact ⟨[], rfl, rfl, h⟩
  | succ n ih =>
    obtain ⟨ws, w1, w2, w3⟩ := ih (h.shift 2)
    have ha : addInts wrap (g 0) (g 1) = some ((g 0).setWidth 32 + (g 1).setWidth 32) := by
      unfold addInts
      rw [if_pos]
      rcases h with h | h
      · exact .inl h
      · have := h 0; have := h 1; right; omega
    simp only [getRandomBuffer, ha, w1]
    exact ⟨_, rfl, by simp [w2], w3⟩

theorem NoOverflow.rand {wrap : Bool} {g : Rnd} (h : NoOverflow wrap g) : NoOverflow wrap g.rand.2 := h.shift 1

/-! ## Validation tests -/

section
variable {c : Cfg} {base depth : W} {v : Ver}

theorem region_lt {a : W} (h : InRegion base depth a) : (base + depth - a).toNat = depth.toNat - (a - base).toNat ∧ (a - base).toNat < depth.toNat := by
  refine ⟨?_, h⟩
  have h1 : (a - base).toNat < depth.toNat := h
  have := base.isLt
  have := a.isLt
  have := depth.isLt
  simp only [BitVec.toNat_sub, BitVec.toNat_add] at h1 ⊢
  omega

theorem region_add {a : W} (h : InRegion base depth a) {i n : Nat} (hi : i < n) (hn : n ≤ (base + depth - a).toNat) :
    InRegion base depth (a + BitVec.ofNat 32 i) ∧ (a + BitVec.ofNat 32 i - base).toNat = (a - base).toNat + i := by
  obtain ⟨h1, h2⟩ := region_lt h
  have := base.isLt
  have := a.isLt
  have := depth.isLt
  have key : (a + BitVec.ofNat 32 i - base).toNat = (a - base).toNat + i := by
    rw [show a + BitVec.ofNat 32 i - base = (a - base) + BitVec.ofNat 32 i by
      rw [BitVec.sub_eq_add_neg, BitVec.sub_eq_add_neg, BitVec.add_assoc, BitVec.add_comm (BitVec.ofNat 32 i), ← BitVec.add_assoc]]
    rw [BitVec.toNat_add, BitVec.toNat_ofNat]
    omega
  exact ⟨by unfold InRegion; omega, key⟩

theorem exec_block (v : Ver) (a : W) (ws : List W) (m : W → W) (n : W) (hn : ws.length = n.toNat) :
    (execAccs v ram ((addrs true a n.toNat).map .rd) (fun b => ws.getD (b - a).toNat (m b))).1 = ws := by
  rw [exec_reads]
  have := n.isLt
  apply List.ext_getElem
  · simp [addrs, hn]
  · intro i h1 h2
    simp only [addrs, List.map_map, List.length_map, List.length_range, List.getElem_map, List.getElem_range, Function.comp_apply, if_true] at h1 ⊢
    have e : (a + BitVec.ofNat 32 i - a).toNat = i := by
      have := a.isLt
      simp only [BitVec.toNat_sub, BitVec.toNat_add, BitVec.toNat_ofNat]
      omega
    rw [e]
    simp [List.getD_eq_getElem?_getD, h2]

/-- A sequence of steps that is right whatever the content of the memory. -/
structure Fine (c : Cfg) (v : Ver) (base depth : W) (l : List Step) : Prop where
  sane : Sane c (InRegion base depth) l
  right : ∀ m, Right v l m

theorem Fine.append {a b : List Step} (ha : Fine c v base depth a) (hb : Fine c v base depth b) : Fine c v base depth (a ++ b) :=
  ⟨ha.sane.append hb.sane, fun m => (right_append v a b m).2 ⟨ha.right m, hb.right _⟩⟩

theorem Fine.nil : Fine c v base depth [] := ⟨.nil, right_nil v⟩

theorem exec_write (v : Ver) (m : W → W) (a d : W) : execAccs v ram [.wr a d] m = ([], fun b => if b = a then d else m b) := rfl
theorem exec_read (v : Ver) (m : W → W) (a : W) : execAccs v ram [.rd a] m = ([m a], m) := rfl
theorem exec_bits (v : Ver) (m : W → W) (a x o : W) : execAccs v ram [.bits a x o] m =
    ([match v with | .v1 => (m a &&& x) ||| o | .v2 => m a], fun b => if b = a then (m a &&& x) ||| o else m b) := rfl
theorem exec_sum (v : Ver) (m : W → W) (a x : W) : execAccs v ram [.sum a x] m =
    ([match v with | .v1 => m a + x | .v2 => m a], fun b => if b = a then m a + x else m b) := rfl

theorem exec_none (v : Ver) (m : W → W) : execAccs v ram [] m = ([], m) := rfl

theorem StepOK.silent {op : Op} (h : op.ok c) (hl : opLen op = some 0) : StepOK c (.call op none) := ⟨h, ⟨_, hl⟩, fun _ => hl, fun _ h => by cases h⟩
theorem StepOK.keeps {op : Op} {w : List W} (h : op.ok c) (hl : opLen op = some w.length) : StepOK c (.call op (some w)) :=
  ⟨h, ⟨_, hl⟩, (fun h => by cases h), fun _ e => by cases e; exact hl⟩

theorem maybe_sane {R : W → Prop} (per : Bool) : Sane c R (maybe per) := by
  cases per
  · exact .nil
  · refine ⟨fun x hx => ?_, fun d => rfl, fun op ho => ?_⟩
    · simp only [maybe, if_true, List.mem_singleton] at hx
      subst hx
      exact .silent trivial rfl
    · simp only [maybe, if_true, ops_call, ops_nil, List.mem_singleton] at ho
      subst ho
      trivial

theorem maybe_right (per : Bool) (l : List Step) (m : W → W) : Right v (maybe per ++ l) m ↔ Right v l m := by
  cases per
  · exact Iff.rfl
  · simp only [maybe, if_true, List.singleton_append]
    rw [right_call v .dispatch none l m [] rfl]
    simp [exec_none]

theorem Sane.call {R : W → Prop} {op : Op} (h : op.ok c) (hl : opLen op = some 0) (ht : Touches R op) : Sane c R [.call op none] := by
  refine ⟨fun x hx => ?_, fun d => rfl, fun o ho => ?_⟩
  · simp only [List.mem_singleton] at hx; subst hx; exact .silent h hl
  · simp only [ops_call, ops_nil, List.mem_singleton] at ho; subst ho; exact ht

/-- A call whose result is looked at after a dispatch. -/
theorem Sane.looked {R : W → Prop} {op : Op} {w : List W} (h : op.ok c) (hl : opLen op = some w.length) (ht : Touches R op) :
    Sane c R [.call op (some w), .call .dispatch none, .check] := by
  refine ⟨fun x hx => ?_, fun d => ⟨rfl, rfl⟩, fun o ho => ?_⟩
  · simp only [List.mem_cons, List.not_mem_nil, or_false] at hx
    rcases hx with rfl | rfl | rfl
    · exact .keeps h hl
    · exact .silent trivial rfl
    · trivial
  · simp only [ops_call, ops_check, ops_nil, List.mem_cons, List.not_mem_nil, or_false] at ho
    rcases ho with rfl | rfl
    · exact ht
    · trivial

theorem r_disp (l : List Step) (m : W → W) : Right v (.call .dispatch none :: l) m ↔ Right v l m := by
  rw [right_call v .dispatch none l m [] rfl]; simp [exec_none]
theorem r_write (a d : W) (l : List Step) (m : W → W) : Right v (.call (.write a d) none :: l) m ↔ Right v l fun b => if b = a then d else m b := by
  rw [right_call v _ none l m [.wr a d] rfl]; simp [exec_write]
theorem r_read (a x : W) (l : List Step) (m : W → W) : Right v (.call (.read a) (some [x]) :: l) m ↔ m a = x ∧ Right v l m := by
  rw [right_call v _ _ l m [.rd a] rfl]; simp [exec_read, opShow]
theorem r_bits (a x o z : W) (l : List Step) (m : W → W) : Right v (.call (.rmwBits a x o) (some [z]) :: l) m ↔
    (match v with | .v1 => (m a &&& x) ||| o | .v2 => m a) = z ∧ Right v l fun b => if b = a then (m a &&& x) ||| o else m b := by
  rw [right_call v _ _ l m [.bits a x o] rfl]; simp [exec_bits, opShow]
theorem r_sum (a x z : W) (l : List Step) (m : W → W) : Right v (.call (.rmwSum a x) (some [z]) :: l) m ↔
    (match v with | .v1 => m a + x | .v2 => m a) = z ∧ Right v l fun b => if b = a then m a + x else m b := by
  rw [right_call v _ _ l m [.sum a x] rfl]; simp [exec_sum, opShow]
theorem r_wblock (a : W) (ws : List W) (want : Option (List W)) (hw : ∀ w, want = some w → w = []) (l : List Step) (m : W → W) (h : ws.length < 2 ^ 32) :
    Right v (.call (.writeBlock a ws true) want :: l) m ↔ Right v l fun b => ws.getD (b - a).toNat (m b) := by
  rw [right_call v _ _ l m _ rfl, exec_writes v ws a m h]
  simp only [opShow, and_iff_right_iff_imp]
  intro _ w e
  exact (hw w e).symm
theorem r_rblock (a n : W) (ws : List W) (l : List Step) (m : W → W) :
    Right v (.call (.readBlock a n true) (some ws) :: l) m ↔ (addrs true a n.toNat).map m = ws ∧ Right v l m := by
  rw [right_call v _ _ l m _ rfl, exec_reads]; simp [opShow]

theorem single_fine {a : W} (h : InRegion base depth a) (per : Bool) (g : Rnd) : Fine c v base depth (singleWriteRead a per g).1 := by
  constructor
  · refine Sane.append (Sane.append (Sane.call ?_ ?_ ?_) (maybe_sane per)) (Sane.looked ?_ ?_ ?_)
    all_goals first | exact h | rfl | trivial
  · intro m
    simp only [singleWriteRead, List.cons_append, List.nil_append, List.append_assoc]
    rw [r_write, maybe_right, r_read, r_disp, right_check]
    exact ⟨by simp, right_nil v _⟩

theorem bits_fine {a : W} (h : InRegion base depth a) (per : Bool) (g : Rnd) : Fine c v base depth (writeRmwBitsRead (decide (v = .v2)) a per g).1 := by
  constructor
  · refine Sane.append (Sane.append (Sane.call ?_ ?_ ?_) (maybe_sane per)) (Sane.append (a := [_, _, _]) (b := [_, _, _]) (Sane.looked ?_ ?_ ?_) (Sane.looked ?_ ?_ ?_))
    all_goals first | exact h | rfl | trivial
  · intro m
    simp only [writeRmwBitsRead, List.cons_append, List.nil_append, List.append_assoc]
    rw [r_write, maybe_right, r_bits, r_disp, right_check, r_read, r_disp, right_check]
    exact ⟨by cases v <;> simp, by simp, right_nil v _⟩

theorem sum_fine {a : W} (h : InRegion base depth a) (per : Bool) (g : Rnd) : Fine c v base depth (writeRmwSumRead (decide (v = .v2)) a per g).1 := by
  constructor
  · refine Sane.append (Sane.append (Sane.call ?_ ?_ ?_) (maybe_sane per)) (Sane.append (a := [_, _, _]) (b := [_, _, _]) (Sane.looked ?_ ?_ ?_) (Sane.looked ?_ ?_ ?_))
    all_goals first | exact h | rfl | trivial
  · intro m
    simp only [writeRmwSumRead, List.cons_append, List.nil_append, List.append_assoc]
    rw [r_write, maybe_right, r_sum, r_disp, right_check, r_read, r_disp, right_check]
    exact ⟨by cases v <;> simp, by simp, right_nil v _⟩

theorem block_fine {a n : W} (h : InRegion base depth a) (hn : n.toNat ≤ (base + depth - a).toNat) (hd : depth.toNat < 2 ^ 29) (per : Bool) {wrap : Bool} {g : Rnd} (hg : NoOverflow wrap g) :
    Fine c v base depth (blockWriteRead wrap a n per g).1 ∧ NoOverflow wrap (blockWriteRead wrap a n per g).2 := by
  obtain ⟨ws, w1, w2, w3⟩ := buffer_ok hg n.toNat
  obtain ⟨d1, d2⟩ := region_lt h
  have hl : ws.length < 2 ^ 29 := by omega
  have hr : ∀ i < n.toNat, InRegion base depth (a + BitVec.ofNat 32 i) := fun i hi => (region_add h hi hn).1
  simp only [blockWriteRead, w1]
  refine ⟨⟨?_, ?_⟩, w3⟩
  · refine Sane.append (Sane.append (Sane.call ?_ ?_ ?_) (maybe_sane per)) (Sane.looked ?_ ?_ ?_)
    · exact hl
    · rfl
    · exact ⟨rfl, by rw [w2]; exact hr⟩
    · show n.toNat < _; omega
    · rw [w2]; rfl
    · exact ⟨rfl, hr⟩
  · intro m
    simp only [List.cons_append, List.nil_append, List.append_assoc]
    rw [r_wblock _ _ _ (by simp) _ _ (by omega), maybe_right, r_rblock, r_disp, right_check]
    refine ⟨?_, right_nil v _⟩
    have := exec_block v a ws m n w2
    rw [exec_reads] at this
    exact this

theorem twice_fine {test : W → Bool → Rnd → List Step × Rnd} {wrap : Bool} (ht : ∀ a per g, InRegion base depth a → NoOverflow wrap g →
    Fine c v base depth (test a per g).1 ∧ NoOverflow wrap (test a per g).2) (each : Bool) (as : List W) (has : ∀ a ∈ as, InRegion base depth a) {g : Rnd} (hg : NoOverflow wrap g) :
    Fine c v base depth (twice test each as g).1 ∧ NoOverflow wrap (twice test each as g).2 := by
  induction as generalizing g with
  | nil => exact ⟨.nil, hg⟩
  | cons a as ih =>
    obtain ⟨s1, s2⟩ := ht a true g (has a (by simp)) hg
    obtain ⟨t1, t2⟩ := ht a each _ (has a (by simp)) s2
    obtain ⟨q1, q2⟩ := ih (fun b hb => has b (by simp [hb])) t2
    exact ⟨(s1.append t1).append q1, q2⟩

theorem blocks_fine (hd : depth.toNat < 2 ^ 29) {wrap : Bool} (each : Bool) (as : List W) (has : ∀ a ∈ as, InRegion base depth a) {g : Rnd} (hg : NoOverflow wrap g) :
    Fine c v base depth (blocks wrap base depth each as g).1 ∧ NoOverflow wrap (blocks wrap base depth each as g).2 := by
  induction as generalizing g with
  | nil => exact ⟨.nil, hg⟩
  | cons a as ih =>
    have ha := has a (by simp)
    obtain ⟨d1, d2⟩ := region_lt ha
    have one : BitVec.toNat (1 : W) = 1 := rfl
    have hne : (base + depth - a + 1 : W).toNat = (base + depth - a).toNat + 1 := by rw [BitVec.toNat_add, one]; omega
    have hz : ¬ (base + depth - a + 1 : W) = 0 := by
      intro he
      rw [he] at hne
      simp at hne
    have hn : (g.rand.1 % (base + depth - a + 1) : W).toNat ≤ (base + depth - a).toNat := by
      rw [BitVec.toNat_umod, hne]
      have := Nat.mod_lt g.rand.1.toNat (show (base + depth - a).toNat + 1 > 0 by omega)
      omega
    simp only [blocks, if_neg hz]
    obtain ⟨s1, s2⟩ := block_fine (c := c) (v := v) ha hn hd true hg.rand
    obtain ⟨t1, t2⟩ := block_fine (c := c) (v := v) ha hn hd each s2
    obtain ⟨q1, q2⟩ := ih (fun b hb => has b (by simp [hb])) t2
    exact ⟨(s1.append t1).append q1, q2⟩

theorem region_rand (hd : depth ≠ 0) (x : W) : InRegion base depth (base + x % depth) := by
  unfold InRegion
  have h0 : 0 < depth.toNat := Nat.pos_of_ne_zero fun h => hd (BitVec.eq_of_toNat_eq h)
  have := Nat.mod_lt x.toNat h0
  rw [show base + x % depth - base = x % depth by rw [BitVec.add_comm, BitVec.add_sub_cancel], BitVec.toNat_umod]
  exact this

theorem randomAddrs_ok (hd : depth ≠ 0) (n : Nat) {wrap : Bool} {g : Rnd} (hg : NoOverflow wrap g) :
    (∀ a ∈ (randomAddrs base depth n g).1, InRegion base depth a) ∧ NoOverflow wrap (randomAddrs base depth n g).2 := by
  induction n generalizing g with
  | zero => exact ⟨by simp [randomAddrs], hg⟩
  | succ n ih =>
    obtain ⟨h1, h2⟩ := ih hg.rand
    refine ⟨?_, h2⟩
    intro a ha
    simp only [randomAddrs, List.mem_cons] at ha
    rcases ha with rfl | ha
    · exact region_rand hd _
    · exact h1 a ha

theorem basic_fine (hd : depth ≠ 0) (hd' : depth.toNat < 2 ^ 29) {uri : Str} (hu : looksV2 uri = decide (v = .v2)) (each : Bool) {wrap : Bool} {g : Rnd} (hg : NoOverflow wrap g) :
    Fine c v base depth (basicSteps wrap uri base depth each g).1 ∧ NoOverflow wrap (basicSteps wrap uri base depth each g).2 := by
  have h0 : 0 < depth.toNat := Nat.pos_of_ne_zero fun h => hd (BitVec.eq_of_toNat_eq h)
  obtain ⟨r1, r2⟩ := randomAddrs_ok (base := base) hd 2498 hg
  simp only [basicSteps, if_neg hd, hu]
  generalize hA : base :: (base + depth - 1) :: (randomAddrs base depth 2498 g).1 = A
  have hr : ∀ a ∈ A, InRegion base depth a := by
    rw [← hA]
    intro a ha
    simp only [List.mem_cons] at ha
    rcases ha with rfl | rfl | ha
    · show (a - a).toNat < _; simpa using h0
    · show (base + depth - 1 - base).toNat < _
      have one : BitVec.toNat (1 : W) = 1 := rfl
      have := base.isLt
      have := depth.isLt
      simp only [BitVec.toNat_sub, BitVec.toNat_add, one]
      omega
    · exact r1 a ha
  obtain ⟨a1, a2⟩ := twice_fine (c := c) (v := v) (test := singleWriteRead) (fun a per g ha hg => ⟨single_fine ha per g, hg.rand⟩) each A hr r2
  obtain ⟨b1, b2⟩ := blocks_fine (c := c) (v := v) hd' each A hr a2
  obtain ⟨c1, c2⟩ := twice_fine (c := c) (v := v) (test := writeRmwBitsRead (decide (v = .v2))) (fun a per g ha hg => ⟨bits_fine ha per g, hg.rand.rand.rand⟩) each A hr b2
  obtain ⟨e1, e2⟩ := twice_fine (c := c) (v := v) (test := writeRmwSumRead (decide (v = .v2))) (fun a per g ha hg => ⟨sum_fine ha per g, hg.rand.rand⟩) each A hr c2
  exact ⟨((a1.append b1).append c1).append e1, e2⟩

/-! ## Soak test -/

/-- The array has the content of the region. -/
structure Regs (base depth : W) (regs : List W) (m : W → W) : Prop where
  len : regs.length = depth.toNat
  val : ∀ a, InRegion base depth a → regs[(a - base).toNat]? = some (m a)

theorem Regs.write {regs : List W} {m : W → W} (h : Regs base depth regs m) {a : W} (ha : InRegion base depth a) (x : W) :
    Regs base depth (regs.set (a - base).toNat x) fun b => if b = a then x else m b := by
  refine ⟨by simp [h.len], fun b hb => ?_⟩
  rw [List.getElem?_set]
  by_cases hab : b = a
  · subst hab
    simp only [if_true]
    rw [if_pos (by rw [h.len]; exact ha)]
  · have hne : ¬ (a - base).toNat = (b - base).toNat := by
      intro he
      apply hab
      have h1 := BitVec.eq_of_toNat_eq he
      have := congrArg (· + base) h1
      simpa using this.symm
    rw [if_neg hne, if_neg hab, h.val b hb]

theorem Regs.block {regs ws : List W} {m : W → W} (h : Regs base depth regs m) {a : W} (ha : InRegion base depth a) (hw : (a - base).toNat + ws.length ≤ depth.toNat) :
    Regs base depth (regs.take (a - base).toNat ++ ws ++ regs.drop ((a - base).toNat + ws.length)) fun b => ws.getD (b - a).toNat (m b) := by
  have hl := h.len
  refine ⟨by simp only [List.length_append, List.length_take, List.length_drop]; omega, fun b hb => ?_⟩
  have hb' : (b - base).toNat < depth.toNat := hb
  have ha' : (a - base).toNat < depth.toNat := ha
  have hd := depth.isLt
  have hoff : (b - a).toNat = if (a - base).toNat ≤ (b - base).toNat then (b - base).toNat - (a - base).toNat else 2 ^ 32 + (b - base).toNat - (a - base).toNat := by
    have e : b - a = (b - base) - (a - base) := by
      rw [BitVec.sub_sub, BitVec.add_comm base, BitVec.sub_add_cancel]
    rw [e, BitVec.toNat_sub]
    split <;> omega
  by_cases h1 : (b - base).toNat < (a - base).toNat
  · rw [List.append_assoc, List.getElem?_append_left (by rw [List.length_take]; omega), List.getElem?_take_of_lt h1, h.val b hb, hoff, if_neg (by omega), List.getD_eq_getElem?_getD,
      List.getElem?_eq_none (by omega)]
    rfl
  · rw [if_pos (by omega)] at hoff
    have htake : (regs.take (a - base).toNat).length = (a - base).toNat := by rw [List.length_take]; omega
    rw [List.append_assoc, List.getElem?_append_right (by omega), htake, hoff]
    by_cases h2 : (b - base).toNat - (a - base).toNat < ws.length
    · rw [List.getElem?_append_left h2, List.getD_eq_getElem?_getD, List.getElem?_eq_getElem h2]
      rfl
    · rw [List.getElem?_append_right (by omega), List.getElem?_drop, List.getD_eq_getElem?_getD, List.getElem?_eq_none (l := ws) (by omega), Option.getD_none, ← h.val b hb]
      congr 1
      omega

theorem Regs.read {regs : List W} {m : W → W} (h : Regs base depth regs m) {a : W} (ha : InRegion base depth a) {n : Nat} (hn : n ≤ (base + depth - a).toNat) :
    (addrs true a n).map m = (regs.drop (a - base).toNat).take n := by
  have hl := h.len
  obtain ⟨d1, d2⟩ := region_lt ha
  apply List.ext_getElem?
  intro i
  by_cases hi : i < n
  · obtain ⟨r1, r2⟩ := region_add ha hi hn
    rw [List.getElem?_take_of_lt hi, List.getElem?_drop, ← r2, h.val _ r1]
    simp [addrs, hi]
  · rw [List.getElem?_eq_none (by simp [addrs]; omega), List.getElem?_eq_none (by simp; omega)]

theorem blockSize_le (fsize : W → W → W) (mx : W) (g : Rnd) : (getRandomBlockSize fsize mx g).1.toNat ≤ mx.toNat := by
  simp only [getRandomBlockSize]
  split
  · exact Nat.le_refl _
  · next h => exact BitVec.not_lt.1 h

/-- A random transaction: its call stays in the region and the contract, what is expected is right, and the array has the content of the region again. -/
theorem transaction_ok {wrap : Bool} {fsize : W → W → W} {type a : W} {regs : List W} {m : W → W} {g : Rnd} (h : Regs base depth regs m) (ha : InRegion base depth a)
    (hd : depth.toNat < 2 ^ 29) (hg : NoOverflow wrap g) :
    ∃ op want regs' n m', (transaction v wrap fsize base depth type a regs g).1 = some (op, want, regs', n) ∧ StepOK c (.call op (some want)) ∧ Touches (InRegion base depth) op ∧ op ≠ .dispatch ∧
      Regs base depth regs' m' ∧ (∀ l, Right v (.call op (some want) :: l) m ↔ Right v l m') ∧ NoOverflow wrap (transaction v wrap fsize base depth type a regs g).2 := by
  obtain ⟨d1, d2⟩ := region_lt ha
  have hl := h.len
  have hv := h.val a ha
  have hbs := blockSize_le fsize (base + depth - a) g
  unfold transaction
  by_cases t0 : type = 0
  · rw [if_pos t0]
    refine ⟨_, _, _, _, m, if_pos (by omega), ?_, ?_, by simp, h, ?_, hg.rand⟩
    · refine .keeps (by show _ < _; omega) ?_
      rw [List.length_take, List.length_drop, Nat.min_eq_left (by omega)]
      rfl
    · exact ⟨rfl, fun i hi => (region_add ha hi hbs).1⟩
    · intro l
      rw [r_rblock, h.read ha hbs]
      simp
  · rw [if_neg t0]
    by_cases t1 : type = 1
    · rw [if_pos t1]
      obtain ⟨ws, w1, w2, w3⟩ := buffer_ok (g := (getRandomBlockSize fsize (base + depth - a) g).2) hg.rand (getRandomBlockSize fsize (base + depth - a) g).1.toNat
      simp only [w1]
      refine ⟨_, _, _, _, _, if_pos (by omega), ?_, ?_, by simp, h.block ha (by omega), ?_, w3⟩
      · exact .keeps (by show ws.length < _; omega) rfl
      · exact ⟨rfl, fun i hi => (region_add ha (by omega) hbs).1⟩
      · intro l
        exact r_wblock _ _ _ (by intro w hw; cases hw; rfl) _ _ (by omega)
    · rw [if_neg t1]
      by_cases t2 : type = 2
      · rw [if_pos t2]
        simp only [hv]
        refine ⟨_, _, _, _, _, rfl, .keeps trivial rfl, ha, by simp, h.write ha _, ?_, hg.rand.rand⟩
        intro l
        rw [r_bits]
        cases v <;> simp
      · rw [if_neg t2]
        simp only [hv]
        refine ⟨_, _, _, _, _, rfl, .keeps trivial rfl, ha, by simp, h.write ha _, ?_, hg.rand⟩
        intro l
        rw [r_sum]
        cases v <;> simp

theorem soakLoop_ok (hd : depth ≠ 0) (hd' : depth.toNat < 2 ^ 29) {wrap : Bool} (fsize : W → W → W) (each : Bool) (left : Nat) {regs : List W} {m : W → W} (h : Regs base depth regs m) (words : W)
    {g : Rnd} (hg : NoOverflow wrap g) :
    (∀ x ∈ (soakLoop v wrap fsize base depth each left regs words g).1, StepOK c x) ∧
    (∀ op ∈ ops (soakLoop v wrap fsize base depth each left regs words g).1, Touches (InRegion base depth) op) ∧
    (∀ d p, (left = 0 → p = false) → Ordered d p (soakLoop v wrap fsize base depth each left regs words g).1) ∧
    Right v (soakLoop v wrap fsize base depth each left regs words g).1 m ∧ NoOverflow wrap (soakLoop v wrap fsize base depth each left regs words g).2 := by
  induction left generalizing regs m words g with
  | zero => exact ⟨by simp [soakLoop], by simp [soakLoop], fun d p hp => hp rfl, right_nil v m, hg⟩
  | succ left ih =>
    obtain ⟨op, want, regs', n, m', e1, e2, e3, e4, e5, e6, e7⟩ := transaction_ok (c := c) (v := v) (fsize := fsize) (type := g.rand.1 % 4) h (region_rand hd g.rand.2.rand.1) hd' hg.rand.rand
    simp only [soakLoop, e1]
    generalize hnow : (each || decide (words + n > 20000000) || decide (left = 0)) = now
    obtain ⟨i1, i2, i3, i4, i5⟩ := ih e5 (if now = true then 0 else words + n) e7
    generalize soakLoop v wrap fsize base depth each left regs' (if now = true then 0 else words + n) (transaction v wrap fsize base depth (g.rand.1 % 4) (base + g.rand.2.rand.1 % depth) regs g.rand.2.rand.2).2 = q at i1 i2 i3 i4 i5 ⊢
    have hsd : StepOK c (.call .dispatch none) := .silent trivial rfl
    refine ⟨?_, ?_, ?_, ?_, i5⟩
    · intro x hx
      simp only [List.mem_cons, List.mem_append] at hx
      rcases hx with rfl | hx | hx
      · exact e2
      · cases now
        · simp at hx
        · simp only [if_true, List.mem_cons, List.not_mem_nil, or_false] at hx
          rcases hx with rfl | rfl | rfl
          · exact hsd
          · exact hsd
          · trivial
      · exact i1 x hx
    · intro o ho
      simp only [ops_call, ops_append, List.mem_cons, List.mem_append] at ho
      rcases ho with rfl | ho | ho
      · exact e3
      · cases now
        · simp at ho
        · simp only [if_true, ops_call, ops_check, ops_nil, List.mem_cons, List.not_mem_nil, or_false, or_self] at ho
          subst ho; trivial
      · exact i2 o ho
    · intro d p _
      simp only [Ordered, decide_eq_false e4]
      cases now
      · refine i3 _ _ ?_
        intro hl0
        simp [hl0] at hnow
      · exact ⟨rfl, i3 _ _ fun _ => rfl⟩
    · rw [e6]
      cases now
      · exact i4
      · simp only [if_true, List.cons_append, List.nil_append]
        rw [r_disp, r_disp, right_check]
        exact i4

theorem soak_fine (hd : depth ≠ 0) (hd' : depth.toNat < 2 ^ 29) {uri : Str} (hu : vsn uri = some v) (fsize : W → W → W) (iters : Nat) (each : Bool) {wrap : Bool} {g : Rnd} (hg : NoOverflow wrap g) :
    ∃ s, soakSteps wrap fsize uri base depth iters each g = some s ∧ Fine c v base depth s.1 ∧ NoOverflow wrap s.2 := by
  have hregs : ∀ m : W → W, Regs base depth (List.replicate depth.toNat 0) fun b => (List.replicate depth.toNat (0 : W)).getD (b - base).toNat (m b) := by
    intro m
    refine ⟨by simp, fun a ha => ?_⟩
    have ha' : (a - base).toNat < depth.toNat := ha
    rw [List.getD_eq_getElem?_getD, List.getElem?_replicate, if_pos ha']
    rfl
  have hin : ∀ i < depth.toNat, InRegion base depth (base + BitVec.ofNat 32 i) := by
    intro i hi
    have h0 : InRegion base depth base := by show (base - base).toNat < _; simp; omega
    refine (region_add h0 hi ?_).1
    rw [BitVec.add_comm, BitVec.add_sub_cancel]
    exact Nat.le_refl _
  refine ⟨_, by rw [soakSteps, hu, Option.map_some, if_neg (fun h => hd h.1)], ?_⟩
  obtain ⟨i1, i2, i3, _, i5⟩ := soakLoop_ok (c := c) (v := v) hd hd' fsize each iters (hregs fun _ => 0) 0 hg
  refine ⟨⟨?_, ?_⟩, i5⟩
  · refine Sane.append (Sane.append (a := [_]) (b := [_]) (Sane.call ?_ ?_ ?_) (Sane.call ?_ ?_ ?_)) ⟨i1, fun d => i3 d false fun _ => rfl, i2⟩
    · show (List.replicate depth.toNat (0 : W)).length < _; simpa using hd'
    · rfl
    · exact ⟨rfl, by simpa using hin⟩
    · trivial
    · rfl
    · trivial
  · intro m
    simp only [List.cons_append, List.nil_append]
    rw [r_wblock _ _ _ (by simp) _ _ (by rw [List.length_replicate]; omega), r_disp]
    exact (soakLoop_ok (c := c) (v := v) hd hd' fsize each iters (hregs m) 0 hg).2.2.2.1

end

end Verif.Soak
