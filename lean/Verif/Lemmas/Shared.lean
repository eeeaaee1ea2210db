import Verif.Spec.Shared
import Verif.Lemmas.Seq
/-!
# A shared target as a target

A target that is shared is a target with more state: what others are going to do before each of the accesses.
-/

set_option autoImplicit false
set_option linter.unusedSimpArgs false

namespace Verif
open Spec

section
variable {σ β : Type} (v : Ver) (tg : Target σ) (other : σ → β → σ)

/-- The target with what is done for others before each of the next accesses. -/
def gapped : Target (σ × List (List β)) where
  rd s a := let r := tg.rd ((s.2.headD []).foldl other s.1) a; (r.1, (r.2, s.2.tail))
  wr s a d := (tg.wr ((s.2.headD []).foldl other s.1) a d, s.2.tail)
  cfg s a := let r := tg.cfg ((s.2.headD []).foldl other s.1) a; (r.1, (r.2, s.2.tail))

/-- A read-modify-write is two accesses; nothing happens between them. -/
def expand : List Acc → List (List β) → List (List β)
  | [], g => g
  | .bits .. :: as, g => g.headD [] :: [] :: expand as g.tail
  | .sum .. :: as, g => g.headD [] :: [] :: expand as g.tail
  | _ :: as, g => g.headD [] :: expand as g.tail

theorem exec_gapped (a : Acc) (as : List Acc) (m : σ) (g : List (List β)) :
    a.exec v (gapped tg other) (m, expand (a :: as) g) =
      ((a.exec v tg ((g.headD []).foldl other m)).1, ((a.exec v tg ((g.headD []).foldl other m)).2, expand as g.tail)) := by
  cases a <;> cases v <;> rfl

/-- Nothing is done for others meanwhile. -/
theorem execAccs_alone (as R : List Acc) (m : σ) (g : List (List β)) :
    execAccs v (gapped tg other) as (m, expand (as ++ R) (as.map (fun _ => []) ++ g)) =
      ((execAccs v tg as m).1, ((execAccs v tg as m).2, expand R g)) := by
  induction as generalizing m with
  | nil => rfl
  | cons a as ih =>
    simp only [execAccs, List.cons_append, List.map_cons]
    rw [exec_gapped]
    simp only [List.headD_cons, List.foldl_nil, List.tail_cons, ih]

theorem execTxns_alone (ts : List Txn) (R : List Acc) (m : σ) (g : List (List β)) :
    execTxns v (gapped tg other) ts (m, expand (ts.flatMap Txn.accs ++ R) ((ts.flatMap Txn.accs).map (fun _ => []) ++ g)) =
      ((execTxns v tg ts m).1, ((execTxns v tg ts m).2, expand R g)) := by
  induction ts generalizing m with
  | nil => rfl
  | cons t ts ih =>
    simp only [execTxns, List.flatMap_cons, List.append_assoc, List.map_append]
    rw [execAccs_alone]
    simp only [ih]

/-- Packets one after the other. -/
def execPks (v : Ver) (tg : Target σ) : List (List Txn) → σ → List (List (List W)) × σ
  | [], m => ([], m)
  | ts :: ps, m =>
    let r := execTxns v tg ts m
    let q := execPks v tg ps r.2
    (r.1 :: q.1, q.2)

theorem exec_other (a : Acc) (m : σ) (b : β) (g : List β) (r : List (List β)) :
    a.exec v (gapped tg other) (m, (b :: g) :: r) = a.exec v (gapped tg other) (other m b, g :: r) := by
  cases a <;> rfl

theorem execAccs_other {as : List Acc} (h : as ≠ []) (m : σ) (b : β) (g : List β) (r : List (List β)) :
    execAccs v (gapped tg other) as (m, (b :: g) :: r) = execAccs v (gapped tg other) as (other m b, g :: r) := by
  cases as with
  | nil => exact absurd rfl h
  | cons a as => simp only [execAccs, exec_other]

theorem execTxns_none {tg' : Target σ} (ts : List Txn) (h : ts.flatMap Txn.accs = []) (m : σ) :
    execTxns v tg' ts m = (ts.map fun _ => [], m) := by
  induction ts generalizing m with
  | nil => rfl
  | cons t ts ih =>
    simp only [List.flatMap_cons, List.append_eq_nil_iff] at h
    simp only [execTxns, h.1, execAccs, ih h.2, List.map_cons]

theorem execTxns_other {ts : List Txn} (h : ts.flatMap Txn.accs ≠ []) (m : σ) (b : β) (g : List β) (r : List (List β)) :
    execTxns v (gapped tg other) ts (m, (b :: g) :: r) = execTxns v (gapped tg other) ts (other m b, g :: r) := by
  induction ts with
  | nil => simp at h
  | cons t ts ih =>
    by_cases ht : t.accs = []
    · simp only [execTxns, ht, execAccs]
      rw [ih (by simpa [ht] using h)]
    · simp only [execTxns, execAccs_other v tg other ht]

/-- The accesses of packets. -/
def pkAccs (ps : List (List Txn)) : List Acc := ps.flatMap fun ts => ts.flatMap Txn.accs

theorem execPks_none {tg' : Target σ} (ps : List (List Txn)) (h : pkAccs ps = []) (m : σ) :
    execPks v tg' ps m = (ps.map fun ts => ts.map fun _ => [], m) := by
  induction ps generalizing m with
  | nil => rfl
  | cons t ts ih =>
    simp only [pkAccs, List.flatMap_cons, List.append_eq_nil_iff] at h
    simp only [execPks, execTxns_none v t h.1, ih h.2, List.map_cons]

theorem execPks_other {ps : List (List Txn)} (h : pkAccs ps ≠ []) (m : σ) (b : β) (g : List β) (r : List (List β)) :
    execPks v (gapped tg other) ps (m, (b :: g) :: r) = execPks v (gapped tg other) ps (other m b, g :: r) := by
  induction ps with
  | nil => simp [pkAccs] at h
  | cons ts ps ih =>
    by_cases ht : ts.flatMap Txn.accs = []
    · simp only [execPks, execTxns_none v ts ht]
      rw [ih (by simpa [pkAccs, ht] using h)]
    · simp only [execPks, execTxns_other v tg other ht]

theorem expand_cons {as : List Acc} (h : as ≠ []) : ∃ f : List (List β) → List (List β), ∀ g gs, expand as (g :: gs) = g :: f gs := by
  cases as with
  | nil => exact absurd rfl h
  | cons a as => exact ⟨fun gs => (expand (a :: as) ([] :: gs)).tail, fun g gs => by cases a <;> rfl⟩

/-- Packets of this client, executed as a whole, interleaved with what is done for others. -/
inductive SharedPks (v : Ver) (tg : Target σ) (other : σ → β → σ) : σ → List (List Txn) → List β → List (List (List W)) → σ → Prop
  | done (m : σ) : SharedPks v tg other m [] [] [] m
  | mine {m m' : σ} {ts : List Txn} {ps : List (List Txn)} {bs : List β} {vs : List (List (List W))} :
      SharedPks v tg other (execTxns v tg ts m).2 ps bs vs m' → SharedPks v tg other m (ts :: ps) bs ((execTxns v tg ts m).1 :: vs) m'
  | other {m m' : σ} {ps : List (List Txn)} {b : β} {bs : List β} {vs : List (List (List W))} :
      SharedPks v tg other (other m b) ps bs vs m' → SharedPks v tg other m ps (b :: bs) vs m'

variable {v tg other}

/-- What is done for others, distributed over the accesses. -/
theorem SharedPks.gaps {m m' : σ} {ps : List (List Txn)} {bs : List β} {vs : List (List (List W))} (h : SharedPks v tg other m ps bs vs m') :
    ∃ gaps rest m1, gaps.length = (pkAccs ps).length ∧ gaps.flatten ++ rest = bs ∧ m' = rest.foldl other m1 ∧
      execPks v (gapped tg other) ps (m, expand (pkAccs ps) gaps) = (vs, (m1, [])) := by
  induction h with
  | done m => exact ⟨[], [], m, rfl, rfl, rfl, rfl⟩
  | @mine m m' ts ps bs vs _ ih =>
    obtain ⟨gaps, rest, m1, h1, h2, h3, h4⟩ := ih
    refine ⟨(ts.flatMap Txn.accs).map (fun _ => []) ++ gaps, rest, m1, ?_, ?_, h3, ?_⟩
    · rw [List.length_append, List.length_map, h1]; simp [pkAccs]
    · rw [← h2, List.flatten_append]
      simp
    · rw [execPks, show pkAccs (ts :: ps) = ts.flatMap Txn.accs ++ pkAccs ps from rfl, execTxns_alone]
      simp only [h4]
  | @other m m' ps b bs vs _ ih =>
    obtain ⟨gaps, rest, m1, h1, h2, h3, h4⟩ := ih
    by_cases hps : pkAccs ps = []
    · rw [hps] at h1 h4
      have hg : gaps = [] := by simpa using h1
      subst hg
      rw [execPks_none v ps hps] at h4
      obtain ⟨rfl, h5⟩ := Prod.mk.inj h4
      obtain ⟨rfl, _⟩ := Prod.mk.inj h5
      refine ⟨[], b :: rest, m, by simp [hps], by simpa using h2, h3, ?_⟩
      rw [hps, execPks_none v ps hps]
      rfl
    · cases gaps with
      | nil => exact absurd (List.length_eq_zero_iff.1 h1.symm) hps
      | cons g gs =>
        refine ⟨(b :: g) :: gs, rest, m1, h1, by simpa using h2, h3, ?_⟩
        obtain ⟨f, hf⟩ := expand_cons (β := β) hps
        rw [hf] at h4 ⊢
        rw [execPks_other v tg other hps, h4]

/-! ### From the shared target to the calls -/

theorem SharedExec.others {m m' : σ} {as : List Acc} {bs : List β} {ws : List W} (g : List β)
    (h : SharedExec v tg other (g.foldl other m) as bs ws m') : SharedExec v tg other m as (g ++ bs) ws m' := by
  induction g generalizing m with
  | nil => exact h
  | cons b g ih => exact .other (ih h)

theorem shared_accs (as R : List Acc) (m : σ) (g g' : List (List β)) (hg : g.length = as.length) :
    ∃ ws m1, execAccs v (gapped tg other) as (m, expand (as ++ R) (g ++ g')) = (ws, (m1, expand R g')) ∧
      SharedExec v tg other m as g.flatten ws m1 := by
  induction as generalizing m g with
  | nil =>
    have : g = [] := by simpa using hg
    subst this
    exact ⟨[], m, rfl, .done m⟩
  | cons a as ih =>
    cases g with
    | nil => simp at hg
    | cons x g =>
      obtain ⟨ws, m1, h1, h2⟩ := ih (a.exec v tg (x.foldl other m)).2 g (by simpa using hg)
      refine ⟨_, m1, ?_, SharedExec.others x (.mine h2)⟩
      simp only [execAccs, List.cons_append]
      rw [exec_gapped]
      simp only [List.headD_cons, List.tail_cons, h1]

/-- The accesses of a program. -/
def progAccs (v : Ver) (ops : List Op) : List Acc := ops.flatMap fun op => (opAccs v op).getD []

theorem shared_run (ops : List Op) (m : σ) (g : List (List β)) (rest : List β) (hg : g.length = (progAccs v ops).length) :
    ∃ m1, (seqRun v (gapped tg other) ops (m, expand (progAccs v ops) g)).2 = (m1, []) ∧
      SharedRun v tg other m ops (g.flatten ++ rest) (seqRun v (gapped tg other) ops (m, expand (progAccs v ops) g)).1 (rest.foldl other m1) := by
  induction ops generalizing m g with
  | nil =>
    have : g = [] := by simpa [progAccs] using hg
    subst this
    exact ⟨m, rfl, .done m rest⟩
  | cons op ops ih =>
    cases ho : opAccs v op with
    | none =>
      have hp : progAccs v (op :: ops) = progAccs v ops := by simp [progAccs, ho]
      rw [hp] at hg ⊢
      obtain ⟨m1, h1, h2⟩ := ih m g hg
      refine ⟨m1, ?_, ?_⟩
      · simp only [seqRun, ho]; exact h1
      · simp only [seqRun, ho]; exact .refused ho h2
    | some as =>
      have hp : progAccs v (op :: ops) = as ++ progAccs v ops := by simp [progAccs, ho]
      rw [hp] at hg ⊢
      rw [List.length_append] at hg
      obtain ⟨ws, m0, e1, e2⟩ := shared_accs (v := v) (tg := tg) (other := other) as (progAccs v ops) m (g.take as.length)
        (g.drop as.length) (by rw [List.length_take]; omega)
      rw [List.take_append_drop] at e1
      obtain ⟨m1, h1, h2⟩ := ih m0 (g.drop as.length) (by rw [List.length_drop]; omega)
      refine ⟨m1, ?_, ?_⟩
      · simp only [seqRun, ho, e1]; exact h1
      · simp only [seqRun, ho, e1]
        have hf : g.flatten ++ rest = (g.take as.length).flatten ++ ((g.drop as.length).flatten ++ rest) := by
          rw [← List.append_assoc, ← List.flatten_append, List.take_append_drop]
        rw [hf]
        exact .call ho e2 h2

/-! ### When the others cannot be noticed -/

section
variable {R : σ → σ → Prop}

theorem SharedExec.unseen {m m' : σ} {as : List Acc} {bs : List β} {ws : List W} (h : SharedExec v tg other m as bs ws m')
    (hmine : ∀ a ∈ as, ∀ x y, R x y → (a.exec v tg x).1 = (a.exec v tg y).1 ∧ R (a.exec v tg x).2 (a.exec v tg y).2)
    (hother : ∀ b ∈ bs, ∀ x y, R x y → R (other x b) y) {k : σ} (hR : R m k) :
    ws = (execAccs v tg as k).1 ∧ R m' (execAccs v tg as k).2 := by
  induction h generalizing k with
  | done m => exact ⟨rfl, hR⟩
  | @mine m m' a as bs ws _ ih =>
    obtain ⟨h1, h2⟩ := hmine a (by simp) m k hR
    obtain ⟨h3, h4⟩ := ih (fun a ha => hmine a (by simp [ha])) hother h2
    simp only [execAccs]
    exact ⟨by rw [h1, h3], h4⟩
  | @other m m' as b bs ws _ ih => exact ih hmine (fun b hb => hother b (by simp [hb])) (hother b (by simp) m k hR)

theorem SharedRun.unseen {m m' : σ} {ops : List Op} {bs : List β} {rs : List (Option (List W))} (h : SharedRun v tg other m ops bs rs m')
    (hmine : ∀ a ∈ progAccs v ops, ∀ x y, R x y → (a.exec v tg x).1 = (a.exec v tg y).1 ∧ R (a.exec v tg x).2 (a.exec v tg y).2)
    (hother : ∀ b ∈ bs, ∀ x y, R x y → R (other x b) y) {k : σ} (hR : R m k) :
    rs = (seqRun v tg ops k).1 ∧ R m' (seqRun v tg ops k).2 := by
  induction h generalizing k with
  | done m bs =>
    refine ⟨rfl, ?_⟩
    clear hmine
    induction bs generalizing m with
    | nil => exact hR
    | cons b bs ih => exact ih _ (fun b hb => hother b (by simp [hb])) (hother b (by simp) m k hR)
  | @refused m m' op ops bs rs hn _ ih =>
    have hp : progAccs v (op :: ops) = progAccs v ops := by simp [progAccs, hn]
    rw [hp] at hmine
    obtain ⟨h1, h2⟩ := ih hmine hother hR
    simp only [seqRun, hn]
    exact ⟨by rw [h1], h2⟩
  | @call m m1 m' op as ops bs bs' ws rs ho hx _ ih =>
    have hp : progAccs v (op :: ops) = as ++ progAccs v ops := by simp [progAccs, ho]
    rw [hp] at hmine
    obtain ⟨h1, h2⟩ := SharedExec.unseen hx (fun a ha => hmine a (by simp [ha])) (fun b hb => hother b (by simp [hb])) hR
    obtain ⟨h3, h4⟩ := ih (fun a ha => hmine a (by simp [ha])) (fun b hb => hother b (by simp [hb])) h2
    simp only [seqRun, ho]
    exact ⟨by rw [h1, h3], h4⟩

end
end
end Verif
