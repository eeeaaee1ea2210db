import Verif.Model.Soak
import Verif.Props.C15
import Verif.Props.C16
/-!
# Steps of the validation test

What a sequence of calls and checks does if the calls behave as one-at-a-time accesses of a target.
-/

set_option autoImplicit false
set_option linter.unusedSimpArgs false

namespace Verif.Soak
open Spec

/-- The calls. -/
def ops (l : List Step) : List Op := l.filterMap fun | .call op _ => some op | _ => none
/-- For each call the expected value. -/
def wants (l : List Step) : List (Option (List W)) := l.filterMap fun | .call _ w => some w | _ => none

@[simp] theorem ops_append (a b : List Step) : ops (a ++ b) = ops a ++ ops b := by simp [ops]
@[simp] theorem wants_append (a b : List Step) : wants (a ++ b) = wants a ++ wants b := by simp [wants]
@[simp] theorem ops_nil : ops [] = [] := rfl
@[simp] theorem wants_nil : wants [] = [] := rfl
@[simp] theorem ops_call (op : Op) (w : Option (List W)) (l : List Step) : ops (.call op w :: l) = op :: ops l := rfl
@[simp] theorem wants_call (op : Op) (w : Option (List W)) (l : List Step) : wants (.call op w :: l) = w :: wants l := rfl
@[simp] theorem ops_check (l : List Step) : ops (.check :: l) = ops l := rfl
@[simp] theorem wants_check (l : List Step) : wants (.check :: l) = wants l := rfl

theorem wants_length (l : List Step) : (wants l).length = (ops l).length := by
  induction l with
  | nil => rfl
  | cons x l ih => cases x <;> simp_all [ops, wants]

/-- Number of words that a call returns; the calls of the test. -/
def opLen : Op → Option Nat
  | .write .. => some 0
  | .writeBlock .. => some 0
  | .read _ => some 1
  | .readBlock _ n _ => some n.toNat
  | .rmwBits .. => some 1
  | .rmwSum .. => some 1
  | .dispatch => some 0
  | _ => none

/-- A step within the contract of the client, whose expected value has the right number of words. -/
def StepOK (c : Cfg) : Step → Prop
  | .call op want => op.ok c ∧ (∃ n, opLen op = some n) ∧ (want = none → opLen op = some 0) ∧ ∀ w, want = some w → opLen op = some w.length
  | .check => True
  | .undef => False

/-- Results are looked at after a dispatch only, and none is left. `d`: the last call was a dispatch; `p`: results are kept. -/
def Ordered : Bool → Bool → List Step → Prop
  | _, p, [] => p = false
  | d, _, .check :: l => d = true ∧ Ordered d false l
  | _, p, .call op w :: l => Ordered (decide (op = .dispatch)) (p || w.isSome) l
  | _, _, .undef :: _ => False

theorem Ordered.append {d p : Bool} {a b : List Step} (ha : Ordered d p a) (hb : ∀ d', Ordered d' false b) : Ordered d p (a ++ b) := by
  induction a generalizing d p with
  | nil => simp only [Ordered] at ha; subst ha; exact hb d
  | cons x a ih =>
    cases x with
    | call op w => exact ih ha
    | check => exact ⟨ha.1, ih ha.2⟩
    | undef => exact ha.elim

/-- The expected values are the results. -/
def Agree (ws rs : List (Option (List W))) : Prop := ∀ (k : Nat) (w : List W), ws[k]? = some (some w) → rs[k]? = some (some w)

/-- A program over this transport behaves as `C16` says. -/
def Refines {τ σ : Type} (c : Cfg) (T : Transport τ) (heap : τ → Heap) (s0 : St τ) (tg : Target σ) (m : σ) : Prop :=
  ∀ ops, (∀ op ∈ ops, op.ok c ∧ op.maskOK c.wrapNeg) → ∃ rs s, runOps c T (ops ++ [.dispatch]) s0 = some (rs, s) ∧
    rs.map (resShow c.wrapNeg (heap s.tr)) = (seqRun c.ver tg (ops ++ [.dispatch]) m).1.map (Option.map ValOut.data)

section
variable {σ τ : Type} {v : Ver} {tg : Target σ}

theorem seqRun_append (a b : List Op) (m : σ) : seqRun v tg (a ++ b) m =
    ((seqRun v tg a m).1 ++ (seqRun v tg b (seqRun v tg a m).2).1, (seqRun v tg b (seqRun v tg a m).2).2) := by
  induction a generalizing m with
  | nil => rfl
  | cons op a ih =>
    simp only [List.cons_append, seqRun]
    split <;> simp [ih]

theorem seqRun_length (a : List Op) (m : σ) : (seqRun v tg a m).1.length = a.length := by
  induction a generalizing m with
  | nil => rfl
  | cons op a ih =>
    simp only [seqRun]
    split <;> simp [ih]

theorem execAccs_rds (as : List W) (m : σ) : (execAccs v tg (as.map .rd) m).1.length = as.length := by
  induction as generalizing m with
  | nil => rfl
  | cons a as ih => simp [execAccs, Acc.exec, ih]

theorem opLen_maskOK {op : Op} {n : Nat} (h : opLen op = some n) (w : Bool) : op.maskOK w := by
  cases op <;> first | trivial | cases h

theorem opLen_accs {op : Op} {n : Nat} (h : opLen op = some n) : ∃ as, opAccs v op = some as ∧ ∀ m : σ, (opShow op (execAccs v tg as m).1).length = n := by
  cases op with
  | write a d => cases h; exact ⟨_, rfl, fun m => by simp [opShow]⟩
  | writeBlock a d inc => cases h; exact ⟨_, rfl, fun m => by simp [opShow]⟩
  | read a => cases h; exact ⟨_, rfl, fun m => by simp [opShow, execAccs, Acc.exec]⟩
  | readBlock a k inc =>
    cases h
    exact ⟨_, rfl, fun m => by simp only [opShow]; rw [execAccs_rds]; simp [addrs]⟩
  | rmwBits a x o => cases h; exact ⟨_, rfl, fun m => by simp [opShow, execAccs, Acc.exec]⟩
  | rmwSum a x => cases h; exact ⟨_, rfl, fun m => by simp [opShow, execAccs, Acc.exec]⟩
  | dispatch => cases h; exact ⟨_, rfl, fun m => by simp [opShow, execAccs]⟩
  | writeMasked a d m => cases h
  | readMasked a m => cases h
  | readConfig a m => cases h

/-- The result of each call of the test is there and has its number of words. -/
theorem seqRun_at {a : List Op} {m : σ} {k n : Nat} {op : Op} (hk : a[k]? = some op) (hn : opLen op = some n) :
    ∃ ws, (seqRun v tg a m).1[k]? = some (some ws) ∧ ws.length = n := by
  induction a generalizing m k with
  | nil => simp at hk
  | cons x a ih =>
    cases k with
    | zero =>
      simp only [List.getElem?_cons_zero, Option.some.injEq] at hk
      subst hk
      obtain ⟨as, h1, h2⟩ := opLen_accs (v := v) (tg := tg) hn
      refine ⟨_, ?_, h2 m⟩
      simp [seqRun, h1]
    | succ k =>
      simp only [List.getElem?_cons_succ] at hk
      simp only [seqRun]
      split <;> simpa using ih hk

theorem checkRes_eq {w : Bool} {h : Heap} {hd : Option Handle} {ws want : List W} (hs : resShow w h (.ok hd) = some (.data ws)) (hl : ws.length = want.length) :
    checkRes w h hd want = if ws = want then .same else .differs := by
  have cmp : ∀ ws want : List W, ws.length = want.length → cmpLoop ws want = if ws = want then .same else .differs := by
    intro ws
    induction ws with
    | nil => intro want hl; simp only [List.length_nil] at hl; rw [List.eq_nil_of_length_eq_zero hl.symm]; rfl
    | cons x ws ih =>
      intro want hl
      cases want with
      | nil => simp at hl
      | cons y want =>
        simp only [List.length_cons, Nat.add_right_cancel_iff] at hl
        simp only [cmpLoop, ih want hl, List.cons.injEq]
        by_cases hxy : x = y <;> simp [hxy]
  cases hd with
  | none =>
    simp only [resShow, Option.some.injEq, ValOut.data.injEq] at hs
    subst hs
    simp only [List.length_nil] at hl
    rw [List.eq_nil_of_length_eq_zero hl.symm]
    rfl
  | some hd =>
    simp only [resShow, Option.some.injEq] at hs
    cases hd with
    | hdr o =>
      simp only [Handle.read] at hs
      simp only [checkRes]
      split at hs
      · simp only [ValOut.data.injEq] at hs
        subst hs
        simp only [List.length_nil] at hl
        rw [List.eq_nil_of_length_eq_zero hl.symm]
        simp_all
      · cases hs
    | word o m => simp only [checkRes, hs]; exact cmp _ _ hl
    | vec o n => simp only [checkRes, hs]; exact cmp _ _ hl

theorem checkAll_eq {w : Bool} {h : Heap} {q : List (Option Handle × List W)} {val : Option Handle × List W → List W}
    (hs : ∀ x ∈ q, resShow w h (.ok x.1) = some (.data (val x)) ∧ (val x).length = x.2.length) :
    (checkAll w h q = .same ∧ ∀ x ∈ q, val x = x.2) ∨ (checkAll w h q = .differs ∧ ∃ x ∈ q, val x ≠ x.2) := by
  induction q with
  | nil => exact .inl ⟨rfl, fun x hx => by cases hx⟩
  | cons x q ih =>
    obtain ⟨h1, h2⟩ := hs x (by simp)
    have hc := checkRes_eq h1 h2
    obtain ⟨hd, want⟩ := x
    by_cases hx : val (hd, want) = want
    · rw [if_pos hx] at hc
      simp only [checkAll, hc]
      rcases ih fun y hy => hs y (by simp [hy]) with ⟨i1, i2⟩ | ⟨i1, y, i2, i3⟩
      · exact .inl ⟨i1, fun y hy => by
          rcases List.mem_cons.1 hy with rfl | hy
          · exact hx
          · exact i2 y hy⟩
      · exact .inr ⟨i1, y, by simp [i2], i3⟩
    · rw [if_neg hx] at hc
      simp only [checkAll, hc]
      exact .inr ⟨trivial, _, by simp, hx⟩

end

section
variable {σ τ : Type} {tg : Target σ} {c : Cfg} {T : Transport τ} {heap : τ → Heap} {s0 : St τ} {m : σ}

/-- Where the steps have got to: the calls `P`, with expected values `ws`, have been made and returned the handles `hs`; `q` is what is kept. -/
structure At (c : Cfg) (T : Transport τ) (s0 : St τ) (tg : Target σ) (m : σ) (P : List Op) (ws : List (Option (List W))) (d p : Bool) (hs : List (Option Handle)) (s : St τ)
    (q : List (Option Handle × List W)) : Prop where
  run : runOps c T P s0 = some (hs.map .ok, s)
  ok : ∀ op ∈ P, op.ok c ∧ op.maskOK c.wrapNeg
  len : ws.length = P.length
  disp : d = true → ∃ P', P = P' ++ [.dispatch]
  keep : p = false → q = []
  wlen : ∀ (k : Nat) (op : Op) (w : List W), P[k]? = some op → ws[k]? = some (some w) → opLen op = some w.length
  queue : ∀ x ∈ q, ∃ k : Nat, hs[k]? = some x.1 ∧ ws[k]? = some (some x.2)
  all : ∀ (k : Nat) (w : List W), ws[k]? = some (some w) → (seqRun c.ver tg P m).1[k]? = some (some w) ∨ ∃ h, hs[k]? = some h ∧ (h, w) ∈ q

theorem runOps_length {P : List Op} {s s' : St τ} {rs : List Res} (h : runOps c T P s = some (rs, s')) : rs.length = P.length := by
  induction P generalizing s rs s' with
  | nil => simp only [runOps, Option.some.injEq, Prod.mk.injEq] at h; rw [← h.1]; rfl
  | cons op P ih =>
    simp only [runOps] at h
    split at h
    all_goals first | cases h | skip
    all_goals
      simp only [Option.map_eq_some_iff, Prod.mk.injEq] at h
      obtain ⟨p, h1, h2, h3⟩ := h
      rw [← h2, List.length_cons, List.length_cons, ih (rs := p.1) (s' := p.2) h1]

theorem At.step (hR : Refines c T heap s0 tg m) {P ws d p hs} {s : St τ} {q} (h : At c T s0 tg m P ws d p hs s q) {op : Op} {want : Option (List W)}
    (hok : StepOK c (.call op want)) :
    ∃ hd s', op.run c T s = .ok hd s' ∧
      At c T s0 tg m (P ++ [op]) (ws ++ [want]) (decide (op = .dispatch)) (p || want.isSome) (hs ++ [hd]) s' (q ++ want.toList.map fun w => (hd, w)) := by
  obtain ⟨o1, ⟨n, o2⟩, o3, o4⟩ := hok
  have hall : ∀ o ∈ P ++ [op], o.ok c ∧ o.maskOK c.wrapNeg := by
    intro o ho
    rcases List.mem_append.1 ho with ho | ho
    · exact h.ok o ho
    · simp only [List.mem_singleton] at ho; subst ho; exact ⟨o1, opLen_maskOK o2 _⟩
  obtain ⟨rs, t, r1, r2⟩ := hR (P ++ [op]) hall
  have hlen := runOps_length h.run
  rw [List.length_map] at hlen
  rw [List.append_assoc, runOps_append, h.run, Option.bind_some, List.singleton_append, runOps] at r1
  obtain ⟨ws', hres, _⟩ := seqRun_at (v := c.ver) (tg := tg) (a := P ++ [op] ++ [.dispatch]) (m := m) (k := P.length) (op := op) (by simp) o2
  have hk := congrArg (fun l => l[P.length]?) r2
  simp only [List.getElem?_map, hres, Option.map_some] at hk
  cases hrun : op.run c T s with
  | ub => simp [hrun] at r1
  | loops => simp [hrun] at r1
  | exc e s' =>
    simp only [hrun, Option.map_map, Option.map_eq_some_iff] at r1
    obtain ⟨y, _, y2⟩ := r1
    simp only [Function.comp_apply, Prod.mk.injEq] at y2
    rw [← y2.1] at hk
    rw [List.getElem?_append_right (by simp [hlen])] at hk
    simp [hlen, resShow] at hk
  | ok hd s' =>
    refine ⟨hd, s', rfl, ?_⟩
    refine ⟨?_, hall, by simp [h.len], ?_, ?_, ?_, ?_, ?_⟩
    · rw [runOps_append, h.run, Option.bind_some, runOps, hrun]; simp [runOps]
    · intro hd; simp only [decide_eq_true_eq] at hd; subst hd; exact ⟨P, rfl⟩
    · intro hp
      simp only [Bool.or_eq_false_iff, Option.isSome_eq_false_iff, Option.isNone_iff_eq_none] at hp
      rw [h.keep hp.1, hp.2]; rfl
    · intro k o w hk1 hk2
      by_cases hkl : k < P.length
      · rw [List.getElem?_append_left hkl] at hk1
        rw [List.getElem?_append_left (by rw [h.len]; exact hkl)] at hk2
        exact h.wlen k o w hk1 hk2
      · rw [List.getElem?_append_right (by omega)] at hk1
        rw [List.getElem?_append_right (by rw [h.len]; omega), h.len] at hk2
        rw [List.getElem?_singleton] at hk1 hk2
        split at hk1
        · next hz =>
          rw [if_pos hz] at hk2
          simp only [Option.some.injEq] at hk1 hk2
          subst hk1
          exact o4 w hk2
        · cases hk1
    · intro x hx
      rcases List.mem_append.1 hx with hx | hx
      · obtain ⟨k, k1, k2⟩ := h.queue x hx
        have hk1 : k < hs.length := (List.getElem?_eq_some_iff.1 k1).1
        exact ⟨k, by rw [List.getElem?_append_left hk1]; exact k1, by rw [List.getElem?_append_left (by rw [h.len, ← hlen]; exact hk1)]; exact k2⟩
      · cases want with
        | none => simp at hx
        | some w =>
          simp only [Option.toList_some, List.map_cons, List.map_nil, List.mem_singleton] at hx
          subst hx
          exact ⟨P.length, by rw [List.getElem?_append_right (by omega)]; simp [hlen], by rw [List.getElem?_append_right (by rw [h.len]; omega)]; simp [h.len]⟩
    · intro k w hk2
      by_cases hkl : k < P.length
      · rw [List.getElem?_append_left (by rw [h.len]; exact hkl)] at hk2
        rcases h.all k w hk2 with ha | ⟨hd', a1, a2⟩
        · left; rw [seqRun_append, List.getElem?_append_left (by rw [seqRun_length]; exact hkl)]; exact ha
        · right; exact ⟨hd', by rw [List.getElem?_append_left (by omega)]; exact a1, by simp [a2]⟩
      · rw [List.getElem?_append_right (by rw [h.len]; omega), h.len, List.getElem?_singleton] at hk2
        split at hk2
        · next hz =>
          simp only [Option.some.injEq] at hk2
          subst hk2
          right
          refine ⟨hd, ?_, by simp⟩
          rw [List.getElem?_append_right (by omega)]
          simp [show k - hs.length = 0 by omega]
        · cases hk2

theorem At.checked (hR : Refines c T heap s0 tg m) {P ws p hs} {s : St τ} {q} (h : At c T s0 tg m P ws true p hs s q) :
    (checkAll c.wrapNeg (heap s.tr) q = .same ∧ At c T s0 tg m P ws true false hs s []) ∨
    (checkAll c.wrapNeg (heap s.tr) q = .differs ∧ ∃ (k : Nat) (w : List W), k < P.length ∧ ws[k]? = some (some w) ∧ (seqRun c.ver tg P m).1[k]? ≠ some (some w)) := by
  obtain ⟨P', hP⟩ := h.disp rfl
  obtain ⟨rs, t, r1, r2⟩ := hR P' fun op ho => h.ok op (by rw [hP]; simp [ho])
  rw [← hP, h.run] at r1
  simp only [Option.some.injEq, Prod.mk.injEq] at r1
  obtain ⟨r0, rfl⟩ := r1
  rw [← r0, ← hP] at r2
  have hlen := runOps_length h.run
  rw [List.length_map] at hlen
  have key : ∀ (k : Nat) (hd : Option Handle) (w : List W), hs[k]? = some hd → ws[k]? = some (some w) →
      ∃ z, (seqRun c.ver tg P m).1[k]? = some (some z) ∧ z.length = w.length ∧ resShow c.wrapNeg (heap s.tr) (.ok hd) = some (.data z) := by
    intro k hd w h1 h2
    have hk : k < P.length := by rw [← hlen]; exact (List.getElem?_eq_some_iff.1 h1).1
    obtain ⟨z, z1, z2⟩ := seqRun_at (v := c.ver) (tg := tg) (m := m) (List.getElem?_eq_getElem hk) (h.wlen k _ w (List.getElem?_eq_getElem hk) h2)
    refine ⟨z, z1, z2, ?_⟩
    have := congrArg (fun l => l[k]?) r2
    simpa [h1, z1] using this
  have hv : ∃ val : Option Handle × List W → List W, ∀ x ∈ q, resShow c.wrapNeg (heap s.tr) (.ok x.1) = some (.data (val x)) ∧ (val x).length = x.2.length := by
    refine ⟨fun x => match resShow c.wrapNeg (heap s.tr) (.ok x.1) with | some (.data z) => z | _ => [], ?_⟩
    intro x hx
    obtain ⟨k, k1, k2⟩ := h.queue x hx
    obtain ⟨z, _, z2, z3⟩ := key k _ _ k1 k2
    show _ = some (ValOut.data (match resShow c.wrapNeg (heap s.tr) (.ok x.1) with | some (.data z) => z | _ => [])) ∧
      List.length (match resShow c.wrapNeg (heap s.tr) (.ok x.1) with | some (.data z) => z | _ => []) = _
    simp only [z3]
    exact ⟨trivial, z2⟩
  obtain ⟨val, hv⟩ := hv
  have same : ∀ (k : Nat) (x : Option Handle × List W), x ∈ q → hs[k]? = some x.1 → ws[k]? = some (some x.2) → (seqRun c.ver tg P m).1[k]? = some (some (val x)) := by
    intro k x hx k1 k2
    obtain ⟨z, z1, _, z3⟩ := key k _ _ k1 k2
    have := (hv x hx).1
    rw [z3] at this
    simp only [Option.some.injEq, ValOut.data.injEq] at this
    rw [z1, this]
  rcases checkAll_eq hv with ⟨c1, c2⟩ | ⟨c1, x, c2, c3⟩
  · refine .inl ⟨c1, h.run, h.ok, h.len, h.disp, fun _ => rfl, h.wlen, by simp, ?_⟩
    intro k w hk
    rcases h.all k w hk with ha | ⟨hd, a1, a2⟩
    · exact .inl ha
    · left
      rw [same k (hd, w) a2 a1 hk, c2 _ a2]
  · refine .inr ⟨c1, ?_⟩
    obtain ⟨k, k1, k2⟩ := h.queue x c2
    refine ⟨k, x.2, by rw [← hlen]; exact (List.getElem?_eq_some_iff.1 k1).1, k2, ?_⟩
    rw [same k x c2 k1 k2]
    simpa using c3

/-- The steps end well if and only if the values are as expected; otherwise a difference is found. -/
theorem At.steps (hR : Refines c T heap s0 tg m) (l : List Step) {P ws d p hs} {s : St τ} {q} (h : At c T s0 tg m P ws d p hs s q) (hok : ∀ x ∈ l, StepOK c x) (ho : Ordered d p l) :
    (Agree (ws ++ wants l) (seqRun c.ver tg (P ++ ops l) m).1 ∧
      ∃ d' hs' s', runSteps c T heap l s q = .done s' [] ∧ At c T s0 tg m (P ++ ops l) (ws ++ wants l) d' false hs' s' []) ∨
    (¬ Agree (ws ++ wants l) (seqRun c.ver tg (P ++ ops l) m).1 ∧ runSteps c T heap l s q = .differs) := by
  induction l generalizing P ws d p hs s q with
  | nil =>
    simp only [Ordered] at ho
    subst ho
    have hq := h.keep rfl
    subst hq
    refine .inl ⟨?_, d, hs, s, rfl, by simpa using h⟩
    intro k w hk
    simp only [wants_nil, List.append_nil, ops_nil] at hk ⊢
    rcases h.all k w hk with ha | ⟨_, _, a2⟩
    · exact ha
    · cases a2
  | cons x l ih =>
    cases x with
    | undef => exact ho.elim
    | call op want =>
      obtain ⟨hd, s', r1, r2⟩ := h.step hR (hok (.call op want) (by simp))
      have := ih r2 (fun y hy => hok y (by simp [hy])) ho
      simp only [List.append_assoc, List.singleton_append] at this
      simpa only [ops_call, wants_call, runSteps, r1] using this
    | check =>
      obtain ⟨rfl, ho⟩ := ho
      rcases h.checked hR with ⟨c1, c2⟩ | ⟨c1, k, w, c2, c3, c4⟩
      · have := ih c2 (fun y hy => hok y (by simp [hy])) ho
        simpa only [ops_check, wants_check, runSteps, c1] using this
      · refine .inr ⟨?_, by simp only [runSteps, c1]⟩
        intro hA
        have hk := hA k w (by simp only [wants_check]; rw [List.getElem?_append_left (by rw [h.len]; exact c2)]; exact c3)
        rw [ops_check, seqRun_append, List.getElem?_append_left (by rw [seqRun_length]; exact c2)] at hk
        exact c4 hk

theorem At.start : At c T s0 tg m [] [] false false [] s0 [] :=
  ⟨rfl, by simp, rfl, by simp, fun _ => rfl, by simp, by simp, by simp⟩

theorem At.idle {P ws d p hs} {s : St τ} {q} (h : At c T s0 tg m P ws d p hs s q) : At c T s0 tg m P ws false p hs s q :=
  ⟨h.run, h.ok, h.len, by simp, h.keep, h.wlen, h.queue, h.all⟩

end

end Verif.Soak
