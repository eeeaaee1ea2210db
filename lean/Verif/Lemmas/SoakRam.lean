import Verif.Lemmas.Soak
import Verif.Spec.Soak
/-!
# The expected values of the validation test are those of memory
-/

set_option autoImplicit false
set_option linter.unusedSimpArgs false

namespace Verif.Soak
open Spec

/-! ## Memory -/

theorem addrs_cons (a : W) (n : Nat) : addrs true a (n + 1) = a :: addrs true (a + 1) n := addrs_succ true a n

theorem exec_reads (v : Ver) (m : W → W) (as : List W) : execAccs v ram (as.map .rd) m = (as.map m, m) := by
  induction as with
  | nil => rfl
  | cons a as ih => simp [execAccs, Acc.exec, ram] at ih ⊢; simp [ih]

theorem exec_writes (v : Ver) (src : List W) (a : W) (m : W → W) (h : src.length < 2 ^ 32) :
    execAccs v ram (List.zipWith .wr (addrs true a src.length) src) m = ([], fun b => src.getD (b - a).toNat (m b)) := by
  induction src generalizing a m with
  | nil => simp [execAccs]
  | cons x src ih =>
    simp only [List.length_cons] at h
    rw [List.length_cons, addrs_cons, List.zipWith_cons_cons]
    simp only [execAccs, Acc.exec, ih (a + 1) _ (by omega), List.nil_append, Prod.mk.injEq, true_and]
    funext b
    simp only [ram]
    have one : BitVec.toNat (1 : W) = 1 := rfl
    have hs : (b - (a + 1)).toNat = if b = a then 2 ^ 32 - 1 else (b - a).toNat - 1 := by
      have := b.isLt
      have := a.isLt
      split
      · next he => subst he; simp only [BitVec.toNat_sub, BitVec.toNat_add, one]; omega
      · next he =>
        have : b.toNat ≠ a.toNat := fun hh => he (BitVec.eq_of_toNat_eq hh)
        simp only [BitVec.toNat_sub, BitVec.toNat_add, one]; omega
    by_cases he : b = a
    · rw [if_pos he] at hs
      rw [hs, List.getD_eq_getElem?_getD, List.getElem?_eq_none (by omega)]
      simp [he]
    · rw [if_neg he] at hs
      have h1 : 1 ≤ (b - a).toNat := by
        have : b.toNat ≠ a.toNat := fun hh => he (BitVec.eq_of_toNat_eq hh)
        have := b.isLt
        have := a.isLt
        simp only [BitVec.toNat_sub]; omega
      rw [hs]
      obtain ⟨k, hk⟩ : ∃ k, (b - a).toNat = k + 1 := ⟨_, (Nat.sub_add_cancel h1).symm⟩
      rw [hk]
      simp [List.getD_cons_succ, he]

/-! ## Right expectations -/

/-- On memory with content `m` the calls give what is expected. -/
def Right (v : Ver) (l : List Step) (m : W → W) : Prop := Agree (wants l) (seqRun v ram (ops l) m).1
/-- The content afterwards. -/
def after (v : Ver) (l : List Step) (m : W → W) : W → W := (seqRun v ram (ops l) m).2

theorem after_append (v : Ver) (a b : List Step) (m : W → W) : after v (a ++ b) m = after v b (after v a m) := by
  simp [after, seqRun_append]

theorem agree_append {a b c d : List (Option (List W))} (h : a.length = b.length) : Agree (a ++ c) (b ++ d) ↔ Agree a b ∧ Agree c d := by
  constructor
  · intro hA
    constructor
    · intro k w hk
      have hl := (List.getElem?_eq_some_iff.1 hk).1
      have := hA k w (by rw [List.getElem?_append_left hl]; exact hk)
      rwa [List.getElem?_append_left (by omega)] at this
    · intro k w hk
      have := hA (a.length + k) w (by rw [List.getElem?_append_right (by omega)]; simpa using hk)
      rw [List.getElem?_append_right (by omega)] at this
      simpa [h] using this
  · rintro ⟨h1, h2⟩ k w hk
    by_cases hl : k < a.length
    · rw [List.getElem?_append_left hl] at hk
      rw [List.getElem?_append_left (by omega)]
      exact h1 k w hk
    · rw [List.getElem?_append_right (by omega)] at hk
      rw [List.getElem?_append_right (by omega), ← h]
      exact h2 _ w hk

theorem right_append (v : Ver) (a b : List Step) (m : W → W) : Right v (a ++ b) m ↔ Right v a m ∧ Right v b (after v a m) := by
  unfold Right after
  rw [wants_append, ops_append, seqRun_append]
  exact agree_append (by rw [wants_length, seqRun_length])

theorem right_nil (v : Ver) (m : W → W) : Right v [] m := by intro k w hk; simp at hk
theorem after_nil (v : Ver) (m : W → W) : after v [] m = m := rfl
theorem right_check (v : Ver) (l : List Step) (m : W → W) : Right v (.check :: l) m ↔ Right v l m := Iff.rfl
theorem after_check (v : Ver) (l : List Step) (m : W → W) : after v (.check :: l) m = after v l m := rfl

theorem right_call (v : Ver) (op : Op) (want : Option (List W)) (l : List Step) (m : W → W) (as : List Acc) (h : opAccs v op = some as) :
    Right v (.call op want :: l) m ↔ (∀ w, want = some w → opShow op (execAccs v ram as m).1 = w) ∧ Right v l (execAccs v ram as m).2 := by
  unfold Right
  rw [wants_call, ops_call, seqRun, h]
  have := @agree_append [want] [some (opShow op (execAccs v ram as m).1)] (wants l) (seqRun v ram (ops l) (execAccs v ram as m).2).1 rfl
  rw [List.singleton_append, List.singleton_append] at this
  refine Iff.trans this (and_congr_left fun _ => ?_)
  constructor
  · intro hA w hw
    have := hA 0 w (by simp [hw])
    simpa using this
  · intro hA k w hk
    cases k with
    | zero => simp only [List.getElem?_cons_zero, Option.some.injEq] at hk ⊢; exact hA w hk
    | succ k => simp at hk

theorem after_call (v : Ver) (op : Op) (want : Option (List W)) (l : List Step) (m : W → W) (as : List Acc) (h : opAccs v op = some as) :
    after v (.call op want :: l) m = after v l (execAccs v ram as m).2 := by
  unfold after
  rw [ops_call, seqRun, h]

/-- The addresses of a call. -/
def Touches (R : W → Prop) : Op → Prop
  | .write a _ => R a
  | .writeBlock a src inc => inc = true ∧ ∀ i < src.length, R (a + BitVec.ofNat 32 i)
  | .read a => R a
  | .readBlock a n inc => inc = true ∧ ∀ i < n.toNat, R (a + BitVec.ofNat 32 i)
  | .rmwBits a _ _ => R a
  | .rmwSum a _ => R a
  | .dispatch => True
  | _ => False

/-- Steps that stay within the contract of the client and the region, and look at results after a dispatch. -/
structure Sane (c : Cfg) (R : W → Prop) (l : List Step) : Prop where
  ok : ∀ x ∈ l, StepOK c x
  ord : ∀ d, Ordered d false l
  touch : ∀ op ∈ ops l, Touches R op

theorem Sane.append {c : Cfg} {R : W → Prop} {a b : List Step} (ha : Sane c R a) (hb : Sane c R b) : Sane c R (a ++ b) := by
  refine ⟨fun x hx => ?_, fun d => (ha.ord d).append hb.ord, fun op ho => ?_⟩
  · rcases List.mem_append.1 hx with hx | hx
    · exact ha.ok x hx
    · exact hb.ok x hx
  · rw [ops_append] at ho
    rcases List.mem_append.1 ho with ho | ho
    · exact ha.touch op ho
    · exact hb.touch op ho

theorem Sane.nil {c : Cfg} {R : W → Prop} : Sane c R [] := ⟨by simp, fun _ => rfl, by simp⟩

/-! ## Another target -/

section
variable {σ : Type} {v : Ver} {tg : Target σ} {R : W → Prop} {get : σ → W → W}

def Acc.inR (R : W → Prop) : Acc → Prop
  | .rd a => R a
  | .wr a _ => R a
  | .bits a _ _ => R a
  | .sum a _ => R a
  | .cfg _ => False

theorem sim_accs (h : ActsAsRam tg R get) (as : List Acc) (has : ∀ a ∈ as, Acc.inR R a) (s : σ) (m : W → W) (hs : ∀ a, R a → get s a = m a) :
    (execAccs v tg as s).1 = (execAccs v ram as m).1 ∧ ∀ a, R a → get (execAccs v tg as s).2 a = (execAccs v ram as m).2 a := by
  induction as generalizing s m with
  | nil => exact ⟨rfl, hs⟩
  | cons x as ih =>
    have hx := has x (by simp)
    have has' : ∀ a ∈ as, Acc.inR R a := fun a ha => has a (by simp [ha])
    simp only [execAccs]
    have hw : ∀ s m a d, (∀ b, R b → get s b = m b) → R a → ∀ b, R b → get (tg.wr s a d) b = ram.wr m a d b := by
      intro s m a d hs ha b hb
      rw [h.wr s a d b ha hb]
      simp only [ram, hs b hb]
    have key : (x.exec v tg s).1 = (x.exec v ram m).1 ∧ ∀ b, R b → get (x.exec v tg s).2 b = (x.exec v ram m).2 b := by
      cases x with
      | rd a =>
        obtain ⟨r1, r2⟩ := h.rd s a hx
        simp only [Acc.exec, r1, hs a hx, ram, true_and]
        intro b hb; rw [r2 b hb, hs b hb]
      | wr a d => exact ⟨rfl, hw s m a d hs hx⟩
      | bits a y o =>
        obtain ⟨r1, r2⟩ := h.rd s a hx
        have e : (tg.rd s a).1 = m a := by rw [r1, hs a hx]
        simp only [Acc.exec, e]
        exact ⟨rfl, hw _ m a _ (fun b hb => by rw [r2 b hb, hs b hb]) hx⟩
      | sum a y =>
        obtain ⟨r1, r2⟩ := h.rd s a hx
        have e : (tg.rd s a).1 = m a := by rw [r1, hs a hx]
        simp only [Acc.exec, e]
        exact ⟨rfl, hw _ m a _ (fun b hb => by rw [r2 b hb, hs b hb]) hx⟩
      | cfg a => exact hx.elim
    obtain ⟨i1, i2⟩ := ih has' _ _ key.2
    exact ⟨by rw [key.1, i1], i2⟩

theorem touches_accs {op : Op} (h : Touches R op) : ∃ as, opAccs v op = some as ∧ ∀ a ∈ as, Acc.inR R a := by
  cases op with
  | writeMasked a d m => exact h.elim
  | readMasked a m => exact h.elim
  | readConfig a m => exact h.elim
  | write a d => exact ⟨_, rfl, by simp only [List.mem_singleton]; rintro x rfl; exact h⟩
  | read a => exact ⟨_, rfl, by simp only [List.mem_singleton]; rintro x rfl; exact h⟩
  | rmwBits a x o => exact ⟨_, rfl, by simp only [List.mem_singleton]; rintro x rfl; exact h⟩
  | rmwSum a x => exact ⟨_, rfl, by simp only [List.mem_singleton]; rintro x rfl; exact h⟩
  | dispatch => exact ⟨_, rfl, by simp⟩
  | readBlock a n inc =>
    obtain ⟨rfl, h⟩ := h
    refine ⟨_, rfl, ?_⟩
    intro x hx
    simp only [addrs, List.map_map, List.mem_map, List.mem_range, Function.comp_apply, if_true] at hx
    obtain ⟨i, hi, rfl⟩ := hx
    exact h i hi
  | writeBlock a s inc =>
    obtain ⟨rfl, h⟩ := h
    refine ⟨_, rfl, ?_⟩
    intro x hx
    rw [List.mem_iff_getElem] at hx
    obtain ⟨i, hi, rfl⟩ := hx
    simp only [List.length_zipWith, addrs, List.length_map, List.length_range, Nat.min_self] at hi
    simp only [List.getElem_zipWith, addrs, List.getElem_map, List.getElem_range, if_true]
    exact h i hi

theorem sim_ops (h : ActsAsRam tg R get) (os : List Op) (hos : ∀ op ∈ os, Touches R op) (s : σ) (m : W → W) (hs : ∀ a, R a → get s a = m a) :
    (seqRun v tg os s).1 = (seqRun v ram os m).1 := by
  induction os generalizing s m with
  | nil => rfl
  | cons op os ih =>
    obtain ⟨as, h1, h2⟩ := touches_accs (v := v) (hos op (by simp))
    obtain ⟨i1, i2⟩ := sim_accs (v := v) h as h2 s m hs
    simp only [seqRun, h1, i1, ih (fun o ho => hos o (by simp [ho])) _ _ i2]

/-- Where the expectations are right, they are met if and only if the results are those of memory. -/
theorem agree_iff {c : Cfg} {l : List Step} {s : σ} {m : W → W} (hok : ∀ x ∈ l, StepOK c x) (hr : Right v l m) :
    Agree (wants l) (seqRun v tg (ops l) s).1 ↔ (seqRun v tg (ops l) s).1 = (seqRun v ram (ops l) m).1 := by
  constructor
  · intro hA
    apply List.ext_getElem? 
    intro k
    by_cases hk : k < (ops l).length
    · have hw : k < (wants l).length := by rw [wants_length]; exact hk
      obtain ⟨st, hst, e1, e2⟩ : ∃ st ∈ l, st = .call (ops l)[k] (wants l)[k] ∧ True := by
        clear hA hr
        induction l generalizing k with
        | nil => simp at hk
        | cons x l ih =>
          cases x with
          | call op w =>
            cases k with
            | zero => exact ⟨_, by simp, rfl, trivial⟩
            | succ k =>
              simp only [ops_call, List.length_cons, Nat.add_lt_add_iff_right] at hk
              obtain ⟨st, s1, s2, _⟩ := ih (fun x hx => hok x (by simp [hx])) k hk (by rw [wants_length]; exact hk)
              exact ⟨st, by simp [s1], by simpa using s2, trivial⟩
          | check =>
            simp only [ops_check] at hk
            obtain ⟨st, s1, s2, _⟩ := ih (fun x hx => hok x (by simp [hx])) k hk (by rw [wants_length]; exact hk)
            exact ⟨st, by simp [s1], by simpa using s2, trivial⟩
          | undef => exact (hok .undef (by simp)).elim
      subst e1
      obtain ⟨_, _, o3, o4⟩ := hok _ hst
      cases hwk : (wants l)[k] with
      | none =>
        obtain ⟨z, z1, z2⟩ := seqRun_at (v := v) (tg := tg) (m := s) (List.getElem?_eq_getElem hk) (o3 hwk)
        obtain ⟨y, y1, y2⟩ := seqRun_at (v := v) (tg := ram) (m := m) (List.getElem?_eq_getElem hk) (o3 hwk)
        rw [z1, y1, List.eq_nil_of_length_eq_zero z2, List.eq_nil_of_length_eq_zero y2]
      | some w =>
        have hwk' : (wants l)[k]? = some (some w) := by rw [List.getElem?_eq_getElem hw, hwk]
        rw [hA k w hwk', hr k w hwk']
    · rw [List.getElem?_eq_none (by rw [seqRun_length]; omega), List.getElem?_eq_none (by rw [seqRun_length]; omega)]
  · intro he
    rw [he]
    exact hr

end

end Verif.Soak
