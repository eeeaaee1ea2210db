import Verif.Model.HubApp
/-!
# The invariant of the processes of a ControlHub

Lemmas for `Verif/Props/C68.lean`.
-/

set_option autoImplicit false
set_option linter.unusedSimpArgs false

namespace Verif.HubApp
open Verif.Hub (Bytes)
open Verif.TraMgr (TM Addr Lookup Resp)

/-! ## Sums -/

/-- Sum over the processes. -/
def total (f : Proc → Int) (l : List Proc) : Int := (l.map f).sum

theorem total_cons (f : Proc → Int) (p : Proc) (l : List Proc) : total f (p :: l) = f p + total f l := by simp [total]

theorem total_append (f : Proc → Int) (l m : List Proc) : total f (l ++ m) = total f l + total f m := by
  simp [total]

theorem total_set (f : Proc → Int) : ∀ (l : List Proc) (i : Nat) (p q : Proc), l[i]? = some p →
    total f (l.set i q) = total f l - f p + f q := by
  intro l
  induction l with
  | nil => intro i p q h; simp at h
  | cons x l ih =>
    intro i p q h
    cases i with
    | zero =>
      simp only [List.getElem?_cons_zero, Option.some.injEq] at h
      subst h
      simp only [List.set_cons_zero, total_cons]; omega
    | succ i =>
      simp only [List.getElem?_cons_succ] at h
      have := ih i p q h
      simp only [List.set_cons_succ, total_cons]; omega

theorem total_nonneg (f : Proc → Int) : ∀ (l : List Proc), (∀ (i : Nat) (p : Proc), l[i]? = some p → 0 ≤ f p) → 0 ≤ total f l := by
  intro l
  induction l with
  | nil => intro _; simp [total]
  | cons x l ih =>
    intro h
    have h0 := h 0 x (by simp)
    have := ih fun i p hi => h (i + 1) p (by simpa using hi)
    rw [total_cons]; omega

/-- Sum over the first numbers. -/
def sumTo (f : Nat → Nat) : Nat → Nat
  | 0 => 0
  | n + 1 => sumTo f n + f n

theorem sumTo_congr {f g : Nat → Nat} : ∀ (n : Nat), (∀ i, i < n → f i = g i) → sumTo f n = sumTo g n := by
  intro n
  induction n with
  | zero => intro _; rfl
  | succ n ih =>
    intro h
    rw [sumTo, sumTo, ih fun i hi => h i (by omega), h n (by omega)]

theorem sumTo_change {f g : Nat → Nat} {j : Nat} : ∀ (n : Nat), j < n → (∀ i, i ≠ j → f i = g i) → sumTo g n + f j = sumTo f n + g j := by
  intro n
  induction n with
  | zero => intro h; omega
  | succ n ih =>
    intro hj h
    rw [sumTo, sumTo]
    by_cases hn : j = n
    · subst hn
      rw [sumTo_congr (f := g) (g := f) j fun i hi => (h i (by omega)).symm]; omega
    · have := ih (by omega) h
      rw [h n (by omega)]; omega

/-! ## Counters -/

theorem add_apply (t : Table) (k : Key) (n : Nat) (x : Key) : t.add k n x = t x + (if x = k then n else 0) := by
  unfold Table.add; split <;> simp

theorem merge_not (t1 : Table) (ks : List Key) : ∀ (t0 : Table) (x : Key), x ∉ ks → t0.merge t1 ks x = t0 x := by
  induction ks with
  | nil => intro t0 x _; rfl
  | cons k ks ih =>
    intro t0 x h
    simp only [List.mem_cons, not_or] at h
    rw [Table.merge, ih _ _ h.2, add_apply, if_neg h.1]; rfl

theorem merge_mem (t1 : Table) (ks : List Key) : ∀ (t0 : Table) (x : Key), ks.Nodup → x ∈ ks → t0.merge t1 ks x = t0 x + t1 x := by
  induction ks with
  | nil => intro t0 x _ h; simp at h
  | cons k ks ih =>
    intro t0 x hn h
    rw [List.nodup_cons] at hn
    rw [Table.merge]
    by_cases hx : x = k
    · subst hx
      rw [merge_not _ _ _ _ hn.1, add_apply, if_pos rfl]
    · rw [ih _ _ hn.2 (by simpa [hx] using h), add_apply, if_neg hx]; omega

/-- Counting starts from what there is. -/
theorem count_add (s : TM) (t : Table) (e : TraMgr.Ev) (k : Key) : count s t e k = t k + count s Table.zero e k := by
  cases e with
  | chunk bin look =>
    simp only [count]
    by_cases h : bin.length % 4 = 0
    · simp only [h, if_true]
      by_cases hm : malformed look (bin.length + 1) bin none = true
      · simp only [hm, if_true]
        cases (TraMgr.unpack look (bin.length + 1) bin none 0).1 <;> simp only [add_apply, Table.zero] <;> omega
      · simp only [hm, if_false]
        cases (TraMgr.unpack look (bin.length + 1) bin none 0).1 <;> simp [add_apply, Table.zero]
    · simp only [h, if_false, add_apply, Table.zero]; omega
  | response r =>
    simp only [count]
    by_cases h : some r.addr = s.target
    · simp only [h, if_true]
      cases s.q with
      | nil => simp [Table.zero]
      | cons n q =>
        by_cases hn : s.nrAcc + 1 = n
        · simp only [hn, if_true, add_apply, Table.zero]; omega
        · simp [hn, Table.zero]
    · simp [h, Table.zero]
  | stray => simp [count, Table.zero]
  | closed => simp [count, Table.zero]

theorem count_keys (s : TM) (e : TraMgr.Ev) (k : Key) (hk : k ∉ clientKeys) : count s Table.zero e k = 0 := by
  have h1 : k ≠ .requestsIn := fun h => hk (by rw [h]; decide)
  have h2 : k ≠ .requestsMalformed := fun h => hk (by rw [h]; decide)
  have h3 : k ≠ .responsesSent := fun h => hk (by rw [h]; decide)
  cases e with
  | chunk bin look =>
    simp only [count]
    by_cases h : bin.length % 4 = 0
    · simp only [h, if_true]
      by_cases hm : malformed look (bin.length + 1) bin none = true
      · simp only [hm, if_true]
        cases (TraMgr.unpack look (bin.length + 1) bin none 0).1 <;> simp [add_apply, Table.zero, h1, h2]
      · simp only [hm, if_false]
        cases (TraMgr.unpack look (bin.length + 1) bin none 0).1 <;> simp [add_apply, Table.zero, h1]
    · simp [h, add_apply, Table.zero, h2]
  | response r =>
    simp only [count]
    by_cases h : some r.addr = s.target
    · simp only [h, if_true]
      cases s.q with
      | nil => simp [Table.zero]
      | cons n q =>
        by_cases hn : s.nrAcc + 1 = n
        · simp [hn, add_apply, Table.zero, h3]
        · simp [hn, Table.zero]
    · simp [h, Table.zero]
  | stray => simp [count, Table.zero]
  | closed => simp [count, Table.zero]

/-- What process `i` counts in a step. -/
def made (a : App) (i : Nat) : Ev → Table
  | .take j e => if j = i then match a.procs[i]? with
    | some p => count p.tm Table.zero e
    | none => Table.zero else Table.zero
  | .count j k => if j = i then Table.zero.add k 1 else Table.zero
  | _ => Table.zero

/-- What process `i` counts in a run. -/
def counted (a : App) (i : Nat) : List Ev → Table
  | [] => Table.zero
  | e :: es => match a.step e with
    | some a' => fun k => made a i e k + counted a' i es k
    | none => Table.zero

/-! ## Lists of tables -/

theorem mem_keydelete {i j : Nat} : ∀ {l : List Nat}, l.Nodup → (j ∈ keydelete i l ↔ j ∈ l ∧ j ≠ i) := by
  intro l
  induction l with
  | nil => intro _; simp [keydelete]
  | cons x l ih =>
    intro h
    rw [List.nodup_cons] at h
    rw [keydelete]
    by_cases hx : x = i
    · subst hx
      rw [if_pos rfl]
      constructor
      · intro hj
        exact ⟨List.mem_cons_of_mem _ hj, fun e => h.1 (e ▸ hj)⟩
      · rintro ⟨hj, hne⟩
        simpa [hne] using hj
    · rw [if_neg hx, List.mem_cons, List.mem_cons, ih h.2]
      constructor
      · rintro (e | ⟨h1, h2⟩)
        · subst e; exact ⟨.inl rfl, hx⟩
        · exact ⟨.inr h1, h2⟩
      · rintro ⟨e | h1, h2⟩
        · exact .inl e
        · exact .inr ⟨h1, h2⟩

theorem nodup_keydelete {i : Nat} : ∀ {l : List Nat}, l.Nodup → (keydelete i l).Nodup := by
  intro l
  induction l with
  | nil => intro _; simp [keydelete]
  | cons x l ih =>
    intro h
    have h' := h
    rw [List.nodup_cons] at h
    rw [keydelete]
    by_cases hx : x = i
    · rw [if_pos hx]; exact h.2
    · rw [if_neg hx, List.nodup_cons]
      exact ⟨fun hm => h.1 ((mem_keydelete h.2).mp hm).1, ih h.2⟩

/-! ## The invariant -/

/-- All messages of a process to the statistics server. -/
def full : Kind → Phase → List Msg
  | .manager, .accepting => []
  | .manager, .running => [.connected, .newTable]
  | .manager, .closed => [.connected, .newTable, .disconnected, .transfer]
  | .manager, .crashed => [.connected, .newTable, .transfer]
  | .manager, .failed => []
  | .manager, .unnamed => [.connected, .disconnected]
  | .device, .running => [.newTable]
  | .device, .closed => [.newTable, .transfer]
  | .device, _ => []

structure PInv (p : Proc) : Prop where
  q : p.toStats <:+ full p.kind p.phase
  t : p.table.isSome = true ↔ (p.phase = .running ∨ .transfer ∈ p.toStats)
  dev : p.kind = .device → p.phase = .running ∨ p.phase = .closed
  init : p.kind = .manager → p.phase = .accepting → p.tm = TM.init
  run : p.kind = .manager → p.phase = .running → p.tm.running = true ∧ p.tm.crashed = false
  wait : p.kind = .manager → (p.sock = .waiting ↔ p.phase = .accepting ∨ p.phase = .failed ∨ p.phase = .unnamed)
  serve : p.kind = .manager → (p.sock = .serving ↔ p.phase = .running)
  dsock : p.kind = .device → p.sock = .gone

/-- 1 or 0. -/
def one (b : Prop) [Decidable b] : Int := if b then 1 else 0

/-- Acceptors, and those that will be started. -/
def accA (p : Proc) : Int := one (p.kind = .manager ∧ p.phase = .accepting) + p.toListener

/-- Clients that the statistics server has to regard as active. -/
def actB (p : Proc) : Int :=
  one (p.kind = .manager ∧ (p.phase = .running ∨ p.phase = .crashed)) - p.toStats.count .connected + p.toStats.count .disconnected

/-- Connections that the statistics server knows of. -/
def cumC (p : Proc) : Int :=
  one (p.kind = .manager ∧ (p.phase = .running ∨ p.phase = .closed ∨ p.phase = .crashed ∨ p.phase = .unnamed)) - p.toStats.count .connected

/-- The table is on the list of the statistics server. -/
def Listed (k : Kind) (p : Proc) : Prop := p.kind = k ∧ p.table.isSome = true ∧ .newTable ∉ p.toStats

/-- What a process of this kind has left behind. -/
def left (a : App) (c : Nat → Table) (kd : Kind) (k : Key) (i : Nat) : Nat :=
  match a.procs[i]? with
  | some p => if p.kind = kd ∧ p.table.isNone = true then c i k else 0
  | none => 0

structure Inv (n : Int) (a : App) (c : Nat → Table) : Prop where
  procs : ∀ (i : Nat) (p : Proc), a.procs[i]? = some p → PInv p
  acc : total accA a.procs = n
  act : total actB a.procs = a.active
  cum : total cumC a.procs = a.cumulative
  peak : a.active ≤ a.peak
  ok : a.ok = true
  cnd : a.clients.Nodup
  cls : ∀ i, i ∈ a.clients ↔ ∃ p, a.procs[i]? = some p ∧ Listed .manager p
  dnd : a.devices.Nodup
  dvs : ∀ i, i ∈ a.devices ↔ ∃ p, a.procs[i]? = some p ∧ Listed .device p
  tab : ∀ (i : Nat) (p : Proc) (t : Table), a.procs[i]? = some p → p.table = some t → t = c i
  fresh : ∀ i, a.procs.length ≤ i → c i = Table.zero
  early : ∀ (i : Nat) (p : Proc), a.procs[i]? = some p → p.kind = .manager →
    (p.phase = .accepting ∨ p.phase = .failed ∨ p.phase = .unnamed) → c i = Table.zero
  ckeys : ∀ (i : Nat) (p : Proc) (k : Key), a.procs[i]? = some p → p.kind = .manager → k ∉ clientKeys → c i k = 0
  dkeys : ∀ (i : Nat) (p : Proc) (k : Key), a.procs[i]? = some p → p.kind = .device → k ∉ deviceKeys → c i k = 0
  oldc : ∀ k, a.oldClients k = sumTo (left a c .manager k) a.procs.length
  oldd : ∀ k, a.oldDevices k = sumTo (left a c .device k) a.procs.length

theorem inv_init : Inv 1 App.init (fun _ => Table.zero) := by
  have h0 : ∀ (i : Nat) (p : Proc), App.init.procs[i]? = some p → i = 0 ∧ p = Proc.acceptor := by
    intro i p h
    cases i with
    | zero => simp [App.init] at h; exact ⟨rfl, h.symm⟩
    | succ i => simp [App.init] at h
  refine ⟨?_, by decide, by decide, by decide, by decide, rfl, by decide, ?_, by decide, ?_, ?_, fun _ _ => rfl, fun _ _ _ _ _ => rfl, fun _ _ _ _ _ _ => rfl,
    fun _ _ _ _ _ _ => rfl, ?_, ?_⟩
  · intro i p h
    obtain ⟨-, rfl⟩ := h0 i p h
    constructor <;> simp [Proc.acceptor, full]
  · intro i
    constructor
    · intro h; simp [App.init] at h
    · rintro ⟨p, h, hl⟩
      obtain ⟨-, rfl⟩ := h0 i p h
      simp [Listed, Proc.acceptor] at hl
  · intro i
    constructor
    · intro h; simp [App.init] at h
    · rintro ⟨p, h, hl⟩
      obtain ⟨-, rfl⟩ := h0 i p h
      simp [Listed, Proc.acceptor] at hl
  · intro i p t h ht
    obtain ⟨-, rfl⟩ := h0 i p h
    simp [Proc.acceptor] at ht
  · intro k; simp [App.init, sumTo, left, Proc.acceptor, Table.zero]
  · intro k; simp [App.init, sumTo, left, Proc.acceptor, Table.zero]

/-- What a process of this kind has left behind. -/
def leftOf (p : Proc) (ci : Table) (kd : Kind) (k : Key) : Nat := if p.kind = kd ∧ p.table.isNone = true then ci k else 0

/-- One process changes. -/
theorem Inv.update {n n' : Int} {a a' : App} {c c' : Nat → Table} {i : Nat} {p q : Proc} (h : Inv n a c) (hp : a.procs[i]? = some p) (hq : PInv q)
    (hpr : a'.procs = a.procs.set i q)
    (hA : n' = n - accA p + accA q) (hB : a'.active = a.active - actB p + actB q) (hC : a'.cumulative = a.cumulative - cumC p + cumC q)
    (hpk : a'.active ≤ a'.peak) (hok : a'.ok = true)
    (hcn : a'.clients.Nodup) (hci : i ∈ a'.clients ↔ Listed .manager q) (hcj : ∀ j, j ≠ i → (j ∈ a'.clients ↔ j ∈ a.clients))
    (hdn : a'.devices.Nodup) (hdi : i ∈ a'.devices ↔ Listed .device q) (hdj : ∀ j, j ≠ i → (j ∈ a'.devices ↔ j ∈ a.devices))
    (hc : ∀ j, j ≠ i → c' j = c j) (ht : ∀ t, q.table = some t → t = c' i)
    (he : q.kind = .manager → (q.phase = .accepting ∨ q.phase = .failed ∨ q.phase = .unnamed) → c' i = Table.zero)
    (hck : ∀ k, q.kind = .manager → k ∉ clientKeys → c' i k = 0) (hdk : ∀ k, q.kind = .device → k ∉ deviceKeys → c' i k = 0)
    (holc : ∀ k, a'.oldClients k + leftOf p (c i) .manager k = a.oldClients k + leftOf q (c' i) .manager k)
    (hold : ∀ k, a'.oldDevices k + leftOf p (c i) .device k = a.oldDevices k + leftOf q (c' i) .device k) :
    Inv n' a' c' := by
  have hlt : i < a.procs.length := by
    rcases Nat.lt_or_ge i a.procs.length with hl | hl
    · exact hl
    · rw [List.getElem?_eq_none hl] at hp; simp at hp
  have hgi : a'.procs[i]? = some q := by rw [hpr, List.getElem?_set_self hlt]
  have hgj : ∀ j, j ≠ i → a'.procs[j]? = a.procs[j]? := fun j hj => by rw [hpr, List.getElem?_set_ne (Ne.symm hj)]
  have hlen : a'.procs.length = a.procs.length := by rw [hpr, List.length_set]
  have hside : ∀ (l l' : List Nat) (kd : Kind), (∀ j, j ∈ l ↔ ∃ p, a.procs[j]? = some p ∧ Listed kd p) → (i ∈ l' ↔ Listed kd q) →
      (∀ j, j ≠ i → (j ∈ l' ↔ j ∈ l)) → ∀ j, j ∈ l' ↔ ∃ p, a'.procs[j]? = some p ∧ Listed kd p := by
    intro l l' kd h1 h2 h3 j
    by_cases hj : j = i
    · subst hj
      rw [h2, hgi]; simp
    · rw [h3 j hj, h1 j, hgj j hj]
  have hsum : ∀ (kd : Kind) (k : Key),
      sumTo (left a' c' kd k) a'.procs.length + leftOf p (c i) kd k = sumTo (left a c kd k) a.procs.length + leftOf q (c' i) kd k := by
    intro kd k
    rw [hlen]
    have e1 : left a c kd k i = leftOf p (c i) kd k := by simp only [left, hp, leftOf]
    have e2 : left a' c' kd k i = leftOf q (c' i) kd k := by simp only [left, hgi, leftOf]
    rw [← e1, ← e2]
    refine sumTo_change _ hlt fun j hj => ?_
    simp only [left, hgj j hj, hc j hj]
  refine ⟨?_, ?_, ?_, ?_, hpk, hok, hcn, hside _ _ _ h.cls hci hcj, hdn, hside _ _ _ h.dvs hdi hdj, ?_, ?_, ?_, ?_, ?_, ?_, ?_⟩
  · intro j r hr
    by_cases hj : j = i
    · subst hj; rw [hgi] at hr; injection hr with hr; subst hr; exact hq
    · rw [hgj j hj] at hr; exact h.procs j r hr
  · rw [hpr, total_set _ _ _ _ _ hp, h.acc, hA]
  · rw [hpr, total_set _ _ _ _ _ hp, h.act, hB]
  · rw [hpr, total_set _ _ _ _ _ hp, h.cum, hC]
  · intro j r t hr hrt
    by_cases hj : j = i
    · subst hj; rw [hgi] at hr; injection hr with hr; subst hr; exact ht t hrt
    · rw [hgj j hj] at hr; rw [hc j hj]; exact h.tab j r t hr hrt
  · intro j hj
    rw [hlen] at hj
    rw [hc j (by omega)]; exact h.fresh j hj
  · intro j r hr
    by_cases hj : j = i
    · subst hj; rw [hgi] at hr; injection hr with hr; subst hr; exact he
    · rw [hgj j hj] at hr; rw [hc j hj]; exact h.early j r hr
  · intro j r k hr
    by_cases hj : j = i
    · subst hj; rw [hgi] at hr; injection hr with hr; subst hr; exact hck k
    · rw [hgj j hj] at hr; rw [hc j hj]; exact h.ckeys j r k hr
  · intro j r k hr
    by_cases hj : j = i
    · subst hj; rw [hgi] at hr; injection hr with hr; subst hr; exact hdk k
    · rw [hgj j hj] at hr; rw [hc j hj]; exact h.dkeys j r k hr
  · intro k
    have := hsum .manager k; have := holc k; have := h.oldc k
    omega
  · intro k
    have := hsum .device k; have := hold k; have := h.oldd k
    omega

/-- A process is added. -/
theorem Inv.push {n n' : Int} {a : App} {c : Nat → Table} {x : Proc} (h : Inv n a c) (hx : PInv x) (hA : n' = n + accA x) (hB : actB x = 0) (hC : cumC x = 0)
    (hl : ∀ kd, ¬ Listed kd x) (ht : ∀ t, x.table = some t → t = Table.zero) : Inv n' { a with procs := a.procs ++ [x] } c := by
  have hz : c a.procs.length = Table.zero := h.fresh _ (Nat.le_refl _)
  have hg : ∀ (j : Nat) (r : Proc), (a.procs ++ [x])[j]? = some r → a.procs[j]? = some r ∨ (j = a.procs.length ∧ r = x) := by
    intro j r hr
    rcases Nat.lt_or_ge j a.procs.length with hj | hj
    · rw [List.getElem?_append_left hj] at hr; exact .inl hr
    · rw [List.getElem?_append_right hj] at hr
      have : j - a.procs.length = 0 := by
        rcases Nat.eq_zero_or_pos (j - a.procs.length) with h0 | h0
        · exact h0
        · rw [List.getElem?_eq_none (by simp only [List.length_singleton]; omega)] at hr; simp at hr
      rw [this] at hr
      simp only [List.getElem?_cons_zero, Option.some.injEq] at hr
      exact .inr ⟨by omega, hr.symm⟩
  have hg' : ∀ (j : Nat) (r : Proc), a.procs[j]? = some r → (a.procs ++ [x])[j]? = some r := by
    intro j r hr
    have hj : j < a.procs.length := by
      rcases Nat.lt_or_ge j a.procs.length with hj | hj
      · exact hj
      · rw [List.getElem?_eq_none hj] at hr; simp at hr
    rw [List.getElem?_append_left hj]; exact hr
  have hside : ∀ (l : List Nat) (kd : Kind), (∀ j, j ∈ l ↔ ∃ p, a.procs[j]? = some p ∧ Listed kd p) →
      ∀ j, j ∈ l ↔ ∃ p, (a.procs ++ [x])[j]? = some p ∧ Listed kd p := by
    intro l kd h1 j
    rw [h1 j]
    constructor
    · rintro ⟨p, hp, hl⟩; exact ⟨p, hg' j p hp, hl⟩
    · rintro ⟨p, hp, hlp⟩
      rcases hg j p hp with hp | ⟨-, rfl⟩
      · exact ⟨p, hp, hlp⟩
      · exact absurd hlp (hl kd)
  have hsum : ∀ (kd : Kind) (k : Key),
      sumTo (left { a with procs := a.procs ++ [x] } c kd k) (a.procs ++ [x]).length = sumTo (left a c kd k) a.procs.length := by
    intro kd k
    rw [List.length_append, List.length_singleton, sumTo]
    have e1 : left { a with procs := a.procs ++ [x] } c kd k a.procs.length = 0 := by
      simp only [left, hz, Table.zero]
      split <;> simp
    rw [e1, Nat.add_zero]
    refine sumTo_congr _ fun j hj => ?_
    simp only [left, List.getElem?_append_left hj]
  have htot : ∀ f, total f (a.procs ++ [x]) = total f a.procs + f x := fun f => by
    rw [total_append]; simp [total]
  refine ⟨?_, ?_, ?_, ?_, h.peak, h.ok, h.cnd, hside _ _ h.cls, h.dnd, hside _ _ h.dvs, ?_, ?_, ?_, ?_, ?_, ?_, ?_⟩
  · intro j r hr
    rcases hg j r hr with hr | ⟨-, rfl⟩
    · exact h.procs j r hr
    · exact hx
  · show total accA (a.procs ++ [x]) = n'
    rw [htot, h.acc, hA]
  · show total actB (a.procs ++ [x]) = a.active
    rw [htot, h.act, hB]; omega
  · show total cumC (a.procs ++ [x]) = a.cumulative
    rw [htot, h.cum, hC]; omega
  · intro j r t hr hrt
    rcases hg j r hr with hr | ⟨hj, rfl⟩
    · exact h.tab j r t hr hrt
    · rw [hj, hz]; exact ht t hrt
  · intro j hj
    have hj : (a.procs ++ [x]).length ≤ j := hj
    exact h.fresh j (by simp at hj; omega)
  · intro j r hr
    rcases hg j r hr with hr | ⟨hj, rfl⟩
    · exact h.early j r hr
    · intro _ _; rw [hj, hz]
  · intro j r k hr
    rcases hg j r hr with hr | ⟨hj, rfl⟩
    · exact h.ckeys j r k hr
    · intro _ _; rw [hj, hz]; rfl
  · intro j r k hr
    rcases hg j r hr with hr | ⟨hj, rfl⟩
    · exact h.dkeys j r k hr
    · intro _ _; rw [hj, hz]; rfl
  · intro k
    show a.oldClients k = _
    rw [h.oldc k]; exact (hsum .manager k).symm
  · intro k
    show a.oldDevices k = _
    rw [h.oldd k]; exact (hsum .device k).symm

/-- One process changes, and not the statistics server. -/
theorem Inv.one {n n' : Int} {a : App} {c c' : Nat → Table} {i : Nat} {p q : Proc} (h : Inv n a c) (hp : a.procs[i]? = some p) (hq : PInv q)
    (hA : n' = n - accA p + accA q) (hB : actB q = actB p) (hC : cumC q = cumC p) (hL : ∀ kd, Listed kd q ↔ Listed kd p)
    (hc : ∀ j, j ≠ i → c' j = c j) (ht : ∀ t, q.table = some t → t = c' i)
    (he : q.kind = .manager → (q.phase = .accepting ∨ q.phase = .failed ∨ q.phase = .unnamed) → c' i = Table.zero)
    (hck : ∀ k, q.kind = .manager → k ∉ clientKeys → c' i k = 0) (hdk : ∀ k, q.kind = .device → k ∉ deviceKeys → c' i k = 0)
    (hl : ∀ kd k, leftOf p (c i) kd k = leftOf q (c' i) kd k) : Inv n' (a.set i q) c' := by
  refine h.update hp hq rfl hA ?_ ?_ h.peak h.ok h.cnd ?_ (fun j _ => Iff.rfl) h.dnd ?_ (fun j _ => Iff.rfl) hc ht he hck hdk ?_ ?_
  · show a.active = _
    rw [hB]; omega
  · show a.cumulative = _
    rw [hC]; omega
  · show i ∈ a.clients ↔ _
    rw [h.cls i, hL, hp]; simp
  · show i ∈ a.devices ↔ _
    rw [h.dvs i, hL, hp]; simp
  · intro k
    show a.oldClients k + _ = _
    rw [hl]
  · intro k
    show a.oldDevices k + _ = _
    rw [hl]

theorem suffix_nil {l : List Msg} (h : l <:+ []) : l = [] := by simpa using h

/-! ## Steps -/

theorem step_accept {n : Int} {a : App} {c : Nat → Table} {i : Nat} {p : Proc} (h : Inv n a c) (hp : a.procs[i]? = some p) (hk : p.kind = .manager)
    (hph : p.phase = .accepting) (r : Accept) : Inv n (a.set i (p.accept r)) c := by
  have hP := h.procs i p hp
  have hq : p.toStats = [] := suffix_nil (by simpa [hk, hph, full] using hP.q)
  have htb : p.table = none := by
    have := hP.t
    simp only [hph, hq, List.not_mem_nil, or_false, reduceCtorEq, iff_false, Bool.not_eq_true, Option.isSome_eq_false_iff, Option.isNone_iff_eq_none] at this
    exact this
  have htm := hP.init hk hph
  have hz := h.early i p hp hk (.inl hph)
  have hw := (hP.wait hk).mpr (.inl hph)
  cases r with
  | error =>
    refine h.one hp ?_ ?_ ?_ ?_ ?_ (fun _ _ => rfl) ?_ (fun _ _ => hz) (fun k _ _ => by rw [hz]; rfl) (fun k _ _ => by rw [hz]; rfl) ?_
    · constructor <;> simp [Proc.accept, hk, hph, full, hq, htb, hw]
    · simp [accA, Proc.accept, hk, hph, HubApp.one]; omega
    · simp [actB, Proc.accept, hk, hph, HubApp.one]
    · simp [cumC, Proc.accept, hk, hph, HubApp.one]
    · intro kd; simp [Listed, Proc.accept]
    · intro t ht; simp [Proc.accept, htb] at ht
    · intro kd k; simp [leftOf, Proc.accept]
  | unnamed =>
    refine h.one hp ?_ ?_ ?_ ?_ ?_ (fun _ _ => rfl) ?_ (fun _ _ => hz) (fun k _ _ => by rw [hz]; rfl) (fun k _ _ => by rw [hz]; rfl) ?_
    · constructor <;> simp [Proc.accept, hk, hph, full, hq, htb, hw]
    · simp [accA, Proc.accept, hk, hph, HubApp.one]; omega
    · simp [actB, Proc.accept, hk, hph, hq, HubApp.one]
    · simp [cumC, Proc.accept, hk, hph, hq, HubApp.one]
    · intro kd; simp [Listed, Proc.accept, htb]
    · intro t ht; simp [Proc.accept, htb] at ht
    · intro kd k; simp [leftOf, Proc.accept]
  | named =>
    refine h.one hp ?_ ?_ ?_ ?_ ?_ (fun _ _ => rfl) ?_ (fun _ _ => hz) (fun k _ _ => by rw [hz]; rfl) (fun k _ _ => by rw [hz]; rfl) ?_
    · constructor <;> simp [Proc.accept, hk, hph, full, hq, htb, hw, htm, TM.init]
    · simp [accA, Proc.accept, hk, hph, HubApp.one]; omega
    · simp [actB, Proc.accept, hk, hph, hq, HubApp.one]
    · simp [cumC, Proc.accept, hk, hph, hq, HubApp.one]
    · intro kd; simp [Listed, Proc.accept, htb]
    · intro t ht; simp [Proc.accept] at ht; rw [hz, ht]
    · intro kd k; simp [leftOf, Proc.accept, htb, hz, Table.zero]

theorem end_suffix {l m x : List Msg} (h : l <:+ m) : l ++ x <:+ m ++ x := by
  obtain ⟨t, rfl⟩ := h
  exact ⟨t, by simp⟩

theorem no_transfer {l : List Msg} (h : l <:+ [.connected, .newTable]) : .transfer ∉ l ∧ .disconnected ∉ l := by
  obtain ⟨t, ht⟩ := h
  constructor <;> intro hm <;> have : _ ∈ t ++ l := List.mem_append_right t hm <;> rw [ht] at this <;> simp at this

/-- A running transaction manager becomes another one, which may have ended. -/
theorem step_running {n : Int} {a : App} {c c' : Nat → Table} {i : Nat} {p q : Proc} (h : Inv n a c) (hp : a.procs[i]? = some p) (hk : p.kind = .manager)
    (hph : p.phase = .running) (hqk : q.kind = .manager) (hqt : q.toListener = p.toListener) (t t' : Table) (hpt : p.table = some t)
    (hqtb : q.table = some t') (hc : ∀ j, j ≠ i → c' j = c j) (hci : c' i = t') (hck : ∀ k, k ∉ clientKeys → c' i k = 0)
    (hcase : (q.phase = .running ∧ q.sock = p.sock ∧ q.toStats = p.toStats ∧ q.tm.running = true ∧ q.tm.crashed = false) ∨
      (q.phase = .crashed ∧ q.sock = .gone ∧ q.toStats = p.toStats ++ [.transfer]) ∨
      (q.phase = .closed ∧ q.sock = .gone ∧ q.toStats = p.toStats ++ [.disconnected, .transfer])) : Inv n (a.set i q) c' := by
  have hP := h.procs i p hp
  have hq : p.toStats <:+ [.connected, .newTable] := by simpa [hk, hph, full] using hP.q
  have hno := no_transfer hq
  have hpq : p.phase ≠ .accepting := by rw [hph]; simp
  have hs := (hP.serve hk).mpr hph
  rcases hcase with ⟨h1, h2, h3, h4, h5⟩ | ⟨h1, h2, h3⟩ | ⟨h1, h2, h3⟩
  · refine h.one hp ?_ ?_ ?_ ?_ ?_ hc ?_ ?_ (fun k _ => hck k) ?_ ?_
    · constructor <;> simp [hqk, h1, h2, h3, h4, h5, hs, full, hqtb, hq]
    · simp [accA, hqk, hk, h1, hph, hqt]
    · simp [actB, hqk, hk, h1, hph, h3]
    · simp [cumC, hqk, hk, h1, hph, h3]
    · intro kd; simp [Listed, hqk, hk, hqtb, hpt, h3]
    · intro x hx; rw [hqtb] at hx; injection hx with hx; rw [hci, hx]
    · intro _ he; simp [h1] at he
    · intro k hd; rw [hqk] at hd; cases hd
    · intro kd k; simp [leftOf, hqtb, hpt]
  · refine h.one hp ?_ ?_ ?_ ?_ ?_ hc ?_ ?_ (fun k _ => hck k) ?_ ?_
    · constructor <;> simp [hqk, h1, h2, h3, full, hqtb]
      exact end_suffix (x := [.transfer]) hq
    · simp [accA, hqk, hk, h1, hph, hqt, HubApp.one]
    · simp [actB, hqk, hk, h1, hph, h3, HubApp.one]
    · simp [cumC, hqk, hk, h1, hph, h3, HubApp.one]
    · intro kd; simp [Listed, hqk, hk, hqtb, hpt, h3]
    · intro x hx; rw [hqtb] at hx; injection hx with hx; rw [hci, hx]
    · intro _ he; simp [h1] at he
    · intro k hd; rw [hqk] at hd; cases hd
    · intro kd k; simp [leftOf, hqtb, hpt]
  · refine h.one hp ?_ ?_ ?_ ?_ ?_ hc ?_ ?_ (fun k _ => hck k) ?_ ?_
    · constructor <;> simp [hqk, h1, h2, h3, full, hqtb]
      exact end_suffix (x := [.disconnected, .transfer]) hq
    · simp [accA, hqk, hk, h1, hph, hqt, HubApp.one]
    · simp [actB, hqk, hk, h1, hph, h3, HubApp.one]; omega
    · simp [cumC, hqk, hk, h1, hph, h3, HubApp.one]
    · intro kd; simp [Listed, hqk, hk, hqtb, hpt, h3]
    · intro x hx; rw [hqtb] at hx; injection hx with hx; rw [hci, hx]
    · intro _ he; simp [h1] at he
    · intro k hd; rw [hqk] at hd; cases hd
    · intro kd k; simp [leftOf, hqtb, hpt]

theorem table_running {p : Proc} (hP : PInv p) (hph : p.phase = .running) : ∃ t, p.table = some t :=
  Option.isSome_iff_exists.mp (hP.t.mpr (.inl hph))

theorem step_take {n : Int} {a : App} {c : Nat → Table} {i : Nat} {p : Proc} (h : Inv n a c) (hp : a.procs[i]? = some p) (hk : p.kind = .manager)
    (hph : p.phase = .running) (e : TraMgr.Ev) : Inv n (a.set i (p.take e)) (fun j k => c j k + made a j (.take i e) k) := by
  have hP := h.procs i p hp
  obtain ⟨t, ht⟩ := table_running hP hph
  have hti := h.tab i p t hp ht
  have hm : ∀ k, made a i (.take i e) k = count p.tm Table.zero e k := fun k => by simp [made, hp]
  refine step_running h hp hk hph (t := t) (t' := count p.tm t e) ?_ ?_ ht ?_ ?_ ?_ ?_ ?_
  · unfold Proc.take; simp only []; repeat' split
    all_goals exact hk
  · unfold Proc.take; simp only []; repeat' split
    all_goals rfl
  · unfold Proc.take; simp only []; repeat' split
    all_goals simp [ht]
  · intro j hj
    funext k; simp [made, Ne.symm hj, Table.zero]
  · funext k
    rw [hm, count_add p.tm t, hti]
  · intro k hkk
    show c i k + made a i (.take i e) k = 0
    rw [hm, count_keys _ _ _ hkk, h.ckeys i p k hp hk hkk]
  · unfold Proc.take
    simp only []
    by_cases h1 : (p.tm.step e).running = true
    · rw [if_pos h1]
      refine .inl ⟨hph, rfl, rfl, h1, ?_⟩
      have hcr := (hP.run hk hph).2
      cases e with
      | chunk bin look =>
        simp only [TM.step, (hP.run hk hph).1, if_true] at h1 ⊢
        unfold TM.chunk at h1 ⊢
        by_cases hl : bin.length % 4 = 0
        · simp only [hl, if_true] at h1 ⊢
          split <;> simp_all
        · simp only [hl, if_false]; exact hcr
      | response r =>
        simp only [TM.step, (hP.run hk hph).1, if_true] at h1 ⊢
        unfold TM.response at h1 ⊢
        by_cases hl : some r.addr = p.tm.target
        · simp only [hl, if_true] at h1 ⊢
          split
          · simp_all
          · split <;> exact hcr
        · simp only [hl, if_false]; exact hcr
      | stray => exact hcr
      | closed => simp [TM.step] at h1
    · rw [if_neg h1]
      by_cases h2 : (p.tm.step e).crashed = true
      · rw [if_pos h2]; exact .inr (.inl ⟨rfl, rfl, rfl⟩)
      · rw [if_neg h2]; exact .inr (.inr ⟨rfl, rfl, rfl⟩)

theorem step_sendFails {n : Int} {a : App} {c : Nat → Table} {i : Nat} {p : Proc} (h : Inv n a c) (hp : a.procs[i]? = some p) (hk : p.kind = .manager)
    (hph : p.phase = .running) : Inv n (a.set i p.sendFails) c := by
  have hP := h.procs i p hp
  obtain ⟨t, ht⟩ := table_running hP hph
  exact step_running h hp hk hph hk rfl t t ht ht (fun _ _ => rfl) (h.tab i p t hp ht).symm (fun k hkk => h.ckeys i p k hp hk hkk) (.inr (.inl ⟨rfl, rfl, rfl⟩))

theorem step_count {n : Int} {a : App} {c : Nat → Table} {i : Nat} {p : Proc} (h : Inv n a c) (hp : a.procs[i]? = some p) (hk : p.kind = .device)
    (hph : p.phase = .running) (x : Key) (hx' : x ∈ deviceCounts) :
    Inv n (a.set i { p with table := p.table.map fun t => t.add x 1 }) (fun j k => c j k + made a j (.count i x) k) := by
  have hx : x ∈ deviceKeys := (by decide : ∀ k ∈ deviceCounts, k ∈ deviceKeys) x hx'
  have hP := h.procs i p hp
  obtain ⟨t, ht⟩ := table_running hP hph
  have hti := h.tab i p t hp ht
  have hm : ∀ k, made a i (.count i x) k = Table.zero.add x 1 k := fun k => by simp [made]
  refine h.one hp ?_ (by show n = n - accA p + accA p; omega) rfl rfl ?_ ?_ ?_ ?_ ?_ ?_ ?_
  · exact ⟨hP.q, by simpa [ht] using hP.t, hP.dev, hP.init, hP.run, hP.wait, hP.serve, hP.dsock⟩
  · intro kd; simp [Listed]
  · intro j hj; funext k; simp [made, Ne.symm hj, Table.zero]
  · intro t' ht'
    simp only [ht, Option.map_some, Option.some.injEq] at ht'
    subst ht'
    funext k
    rw [hm, hti, add_apply, add_apply]; simp [Table.zero]
  · intro hd; simp [hk] at hd
  · intro k hd; simp [hk] at hd
  · intro k _ hkk
    show c i k + made a i (.count i x) k = 0
    rw [hm, h.dkeys i p k hp hk hkk, add_apply, if_neg (fun e : k = x => hkk (e ▸ hx))]; rfl
  · intro kd k; simp [leftOf, ht]

theorem step_exit {n : Int} {a : App} {c : Nat → Table} {i : Nat} {p : Proc} (h : Inv n a c) (hp : a.procs[i]? = some p) (hk : p.kind = .device)
    (hph : p.phase = .running) : Inv n (a.set i { p with phase := .closed, toStats := p.toStats ++ [.transfer] }) c := by
  have hP := h.procs i p hp
  obtain ⟨t, ht⟩ := table_running hP hph
  have hq : p.toStats <:+ [.newTable] := by simpa [hk, hph, full] using hP.q
  refine h.one hp ?_ ?_ ?_ ?_ ?_ (fun _ _ => rfl) ?_ ?_ ?_ ?_ ?_
  · constructor <;> simp [hk, full, ht, hP.dsock hk]
    exact end_suffix (x := [.transfer]) hq
  · simp [accA, hk, HubApp.one]
  · simp [actB, hk, HubApp.one]
  · simp [cumC, hk, HubApp.one]
  · intro kd; simp [Listed]
  · intro t' ht'; exact h.tab i p t' hp ht'
  · intro hd; simp [hk] at hd
  · intro k hd; simp [hk] at hd
  · intro k _ hkk; exact h.dkeys i p k hp hk hkk
  · intro kd k; simp [leftOf, ht]

theorem step_listen {n : Int} {a : App} {c : Nat → Table} {i m : Nat} {p : Proc} (h : Inv n a c) (hp : a.procs[i]? = some p)
    (hm : p.toListener = m + 1) :
    Inv n { (a.set i { p with toListener := m }) with procs := (a.set i { p with toListener := m }).procs ++ [Proc.acceptor] } c := by
  have hP := h.procs i p hp
  refine Inv.push (n := n - 1) (x := Proc.acceptor) (h.one hp ?_ ?_ rfl rfl (fun _ => Iff.rfl) (fun _ _ => rfl) (fun t ht => h.tab i p t hp ht)
    (fun hk => h.early i p hp hk) (fun k hk => h.ckeys i p k hp hk) (fun k hk => h.dkeys i p k hp hk) (fun _ _ => rfl)) ?_ ?_ ?_ ?_ ?_ ?_
  · exact ⟨hP.q, hP.t, hP.dev, hP.init, hP.run, hP.wait, hP.serve, hP.dsock⟩
  · simp [accA, hm]; omega
  · constructor <;> simp [Proc.acceptor, full]
  · simp [accA, Proc.acceptor, HubApp.one]
  · simp [actB, Proc.acceptor, HubApp.one]
  · simp [cumC, Proc.acceptor, HubApp.one]
  · intro kd; simp [Listed, Proc.acceptor]
  · intro t ht; simp [Proc.acceptor] at ht

theorem kinds (p : Proc) : p.kind = .manager ∨ p.kind = .device := by cases p.kind <;> simp

theorem shape {kd : Kind} {ph : Phase} {m : Msg} {ms : List Msg} (h : m :: ms <:+ full kd ph) :
    (m = .transfer → ms = [] ∧ ph ≠ .running) ∧ (m = .newTable → .newTable ∉ ms ∧ (ph = .running ∨ .transfer ∈ ms)) := by
  cases kd <;> cases ph <;> simp [full, List.suffix_cons_iff] at h
  all_goals
    first
    | (rcases h with ⟨rfl, rfl⟩ | ⟨rfl, rfl⟩ | ⟨rfl, rfl⟩ | ⟨rfl, rfl⟩ <;> simp_all)
    | (rcases h with ⟨rfl, rfl⟩ | ⟨rfl, rfl⟩ | ⟨rfl, rfl⟩ <;> simp_all)
    | (rcases h with ⟨rfl, rfl⟩ | ⟨rfl, rfl⟩ <;> simp_all)
    | (rcases h with ⟨rfl, rfl⟩; simp_all)

theorem step_stats {n : Int} {a : App} {c : Nat → Table} {i : Nat} {p : Proc} {m : Msg} {ms : List Msg} (h : Inv n a c) (hp : a.procs[i]? = some p)
    (hm : p.toStats = m :: ms) : Inv n ((a.set i { p with toStats := ms }).handle i { p with toStats := ms } m) c := by
  have hP := h.procs i p hp
  have hs := shape (hm ▸ hP.q)
  have hsuf : ms <:+ full p.kind p.phase := (List.suffix_cons m ms).trans (hm ▸ hP.q)
  have hlc : i ∈ a.clients ↔ Listed .manager p := by rw [h.cls i, hp]; simp
  have hld : i ∈ a.devices ↔ Listed .device p := by rw [h.dvs i, hp]; simp
  have hnn : n = n - accA p + accA { p with toStats := ms } := by simp [accA]
  have ht := hP.t
  rw [hm] at ht
  cases m with
  | connected =>
    have hPq : PInv { p with toStats := ms } :=
      ⟨hsuf, by simpa using ht, hP.dev, hP.init, hP.run, hP.wait, hP.serve, hP.dsock⟩
    have hL : ∀ kd, Listed kd { p with toStats := ms } ↔ Listed kd p := fun kd => by simp [Listed, hm]
    refine h.update hp hPq rfl hnn ?_ ?_ ?_ h.ok h.cnd (hlc.trans (hL _).symm) (fun _ _ => Iff.rfl) h.dnd (hld.trans (hL _).symm) (fun _ _ => Iff.rfl)
      (fun _ _ => rfl) (fun t ht => h.tab i p t hp ht) (fun hk => h.early i p hp hk) (fun k hk => h.ckeys i p k hp hk) (fun k hk => h.dkeys i p k hp hk)
      (fun _ => rfl) (fun _ => rfl)
    · simp [actB, hm, App.handle, App.set]; omega
    · simp [cumC, hm, App.handle, App.set]; omega
    · show a.active + 1 ≤ if a.peak < a.active + 1 then a.active + 1 else a.peak
      by_cases hx : a.peak < a.active + 1
      · rw [if_pos hx]; omega
      · rw [if_neg hx]; omega
  | disconnected =>
    have hPq : PInv { p with toStats := ms } :=
      ⟨hsuf, by simpa using ht, hP.dev, hP.init, hP.run, hP.wait, hP.serve, hP.dsock⟩
    have hL : ∀ kd, Listed kd { p with toStats := ms } ↔ Listed kd p := fun kd => by simp [Listed, hm]
    refine h.update hp hPq rfl hnn ?_ ?_ ?_ h.ok h.cnd (hlc.trans (hL _).symm) (fun _ _ => Iff.rfl) h.dnd (hld.trans (hL _).symm) (fun _ _ => Iff.rfl)
      (fun _ _ => rfl) (fun t ht => h.tab i p t hp ht) (fun hk => h.early i p hp hk) (fun k hk => h.ckeys i p k hp hk) (fun k hk => h.dkeys i p k hp hk)
      (fun _ => rfl) (fun _ => rfl)
    · simp [actB, hm, App.handle, App.set]; omega
    · simp [cumC, hm, App.handle, App.set]
    · have := h.peak; simp only [App.handle, App.set]; omega
  | newTable =>
    obtain ⟨hnt, hrun⟩ := hs.2 rfl
    have hPq : PInv { p with toStats := ms } :=
      ⟨hsuf, by simpa using ht, hP.dev, hP.init, hP.run, hP.wait, hP.serve, hP.dsock⟩
    have hsome : p.table.isSome = true := ht.mpr (by simpa using hrun)
    have hnp : ∀ kd, ¬ Listed kd p := fun kd hl => hl.2.2 (by rw [hm]; simp)
    have hLq : ∀ kd, Listed kd { p with toStats := ms } ↔ p.kind = kd := fun kd => by simp [Listed, hsome, hnt]
    rcases kinds p with hk | hk
    · have hh : (a.set i { p with toStats := ms }).handle i { p with toStats := ms } .newTable =
          { (a.set i { p with toStats := ms }) with clients := i :: a.clients } := by simp [App.handle, hk, App.set]
      rw [hh]
      refine h.update hp hPq rfl hnn ?_ ?_ h.peak h.ok ?_ ?_ ?_ h.dnd ?_ (fun _ _ => Iff.rfl)
        (fun _ _ => rfl) (fun t ht => h.tab i p t hp ht) (fun hk => h.early i p hp hk) (fun k hk => h.ckeys i p k hp hk) (fun k hk => h.dkeys i p k hp hk)
        (fun _ => rfl) (fun _ => rfl)
      · simp [actB, hm, App.set]
      · simp [cumC, hm, App.set]
      · exact List.nodup_cons.mpr ⟨fun hi => hnp _ (hlc.mp hi), h.cnd⟩
      · rw [hLq]; simp [hk]
      · intro j hj; simp [hj]
      · rw [hLq]; simp only [hk, reduceCtorEq, iff_false]; exact fun hi => hnp _ (hld.mp hi)
    · have hh : (a.set i { p with toStats := ms }).handle i { p with toStats := ms } .newTable =
          { (a.set i { p with toStats := ms }) with devices := i :: a.devices } := by simp [App.handle, hk, App.set]
      rw [hh]
      refine h.update hp hPq rfl hnn ?_ ?_ h.peak h.ok h.cnd ?_ (fun _ _ => Iff.rfl) ?_ ?_ ?_
        (fun _ _ => rfl) (fun t ht => h.tab i p t hp ht) (fun hk => h.early i p hp hk) (fun k hk => h.ckeys i p k hp hk) (fun k hk => h.dkeys i p k hp hk)
        (fun _ => rfl) (fun _ => rfl)
      · simp [actB, hm, App.set]
      · simp [cumC, hm, App.set]
      · rw [hLq]; simp only [hk, reduceCtorEq, iff_false]; exact fun hi => hnp _ (hlc.mp hi)
      · exact List.nodup_cons.mpr ⟨fun hi => hnp _ (hld.mp hi), h.dnd⟩
      · rw [hLq]; simp [hk]
      · intro j hj; simp [hj]
  | transfer =>
    obtain ⟨rfl, hnr⟩ := hs.1 rfl
    have hsome : p.table.isSome = true := ht.mpr (by simp)
    obtain ⟨t, htb⟩ := Option.isSome_iff_exists.mp hsome
    have hti := h.tab i p t hp htb
    have hPq : PInv { p with toStats := [], table := none } :=
      ⟨hsuf, by simp [hnr], hP.dev, hP.init, hP.run, hP.wait, hP.serve, hP.dsock⟩
    have hLp : ∀ kd, Listed kd p ↔ p.kind = kd := fun kd => by simp [Listed, hsome, hm]
    have hLq : ∀ kd, ¬ Listed kd { p with toStats := [], table := none } := fun kd hl => by simp [Listed] at hl
    rcases kinds p with hk | hk
    · have hh : (a.set i { p with toStats := [] }).handle i { p with toStats := [] } .transfer =
          { (a.set i { p with toStats := [], table := none }) with
            oldClients := a.oldClients.merge t clientKeys, clients := keydelete i a.clients } := by
        simp [App.handle, hk, App.set, htb, List.set_set]
      rw [hh]
      refine h.update hp hPq rfl ?_ ?_ ?_ h.peak h.ok (nodup_keydelete h.cnd) ?_ ?_ h.dnd ?_ (fun _ _ => Iff.rfl)
        (fun _ _ => rfl) (fun t ht => by simp at ht) (fun hk => h.early i p hp hk) (fun k hk => h.ckeys i p k hp hk) (fun k hk => h.dkeys i p k hp hk) ?_ ?_
      · simp [accA]
      · simp [actB, hm, App.set]
      · simp [cumC, hm, App.set]
      · show i ∈ keydelete i a.clients ↔ _
        rw [mem_keydelete h.cnd]
        constructor
        · rintro ⟨-, hne⟩; exact absurd rfl hne
        · intro hl; exact absurd hl (hLq _)
      · intro j hj
        show j ∈ keydelete i a.clients ↔ _
        rw [mem_keydelete h.cnd]; simp [hj]
      · show i ∈ a.devices ↔ _
        rw [hld, hLp]; simp [hk, Listed]
      · intro k
        show a.oldClients.merge t clientKeys k + _ = _
        have e1 : leftOf p (c i) .manager k = 0 := by simp [leftOf, htb]
        have e2 : leftOf { p with toStats := [], table := none } (c i) .manager k = c i k := by simp [leftOf, hk]
        rw [e1, e2]
        by_cases hkk : k ∈ clientKeys
        · rw [merge_mem _ _ _ _ (by decide) hkk, hti]; omega
        · rw [merge_not _ _ _ _ hkk, h.ckeys i p k hp hk hkk]
      · intro k
        show a.oldDevices k + _ = _
        simp [leftOf, hk, App.set]
    · have hh : (a.set i { p with toStats := [] }).handle i { p with toStats := [] } .transfer =
          { (a.set i { p with toStats := [], table := none }) with
            oldDevices := a.oldDevices.merge t deviceKeys, devices := keydelete i a.devices } := by
        simp [App.handle, hk, App.set, htb, List.set_set]
      rw [hh]
      refine h.update hp hPq rfl ?_ ?_ ?_ h.peak h.ok h.cnd ?_ (fun _ _ => Iff.rfl) (nodup_keydelete h.dnd) ?_ ?_
        (fun _ _ => rfl) (fun t ht => by simp at ht) (fun hk => h.early i p hp hk) (fun k hk => h.ckeys i p k hp hk) (fun k hk => h.dkeys i p k hp hk) ?_ ?_
      · simp [accA]
      · simp [actB, hm, App.set]
      · simp [cumC, hm, App.set]
      · show i ∈ a.clients ↔ _
        rw [hlc, hLp]; simp [hk, Listed]
      · show i ∈ keydelete i a.devices ↔ _
        rw [mem_keydelete h.dnd]
        constructor
        · rintro ⟨-, hne⟩; exact absurd rfl hne
        · intro hl; exact absurd hl (hLq _)
      · intro j hj
        show j ∈ keydelete i a.devices ↔ _
        rw [mem_keydelete h.dnd]; simp [hj]
      · intro k
        show a.oldClients k + _ = _
        simp [leftOf, hk, App.set]
      · intro k
        show a.oldDevices.merge t deviceKeys k + _ = _
        have e1 : leftOf p (c i) .device k = 0 := by simp [leftOf, htb]
        have e2 : leftOf { p with toStats := [], table := none } (c i) .device k = c i k := by simp [leftOf, hk]
        rw [e1, e2]
        by_cases hkk : k ∈ deviceKeys
        · rw [merge_mem _ _ _ _ (by decide) hkk, hti]; omega
        · rw [merge_not _ _ _ _ hkk, h.dkeys i p k hp hk hkk]

theorem made_none {a : App} {e : Ev} (h1 : ∀ i x, e ≠ .take i x) (h2 : ∀ i k, e ≠ .count i k) (c : Nat → Table) :
    (fun j k => c j k + made a j e k) = c := by
  funext j k
  cases e <;> simp_all [made, Table.zero]

theorem inv_step {n : Int} {a a' : App} {c : Nat → Table} {e : Ev} (h : Inv n a c) (hs : a.step e = some a') : Inv n a' fun j k => c j k + made a j e k := by
  cases e with
  | accept i r =>
    rw [made_none (by simp) (by simp)]
    simp only [App.step] at hs
    split at hs
    · rename_i p hp
      split at hs
      · rename_i hc
        injection hs with hs; subst hs
        exact step_accept h hp hc.1 hc.2 r
      · cases hs
    · cases hs
  | take i x =>
    simp only [App.step] at hs
    split at hs
    · rename_i p hp
      split at hs
      · rename_i hc
        injection hs with hs; subst hs
        exact step_take h hp hc.1 hc.2 x
      · cases hs
    · cases hs
  | sendFails i =>
    rw [made_none (by simp) (by simp)]
    simp only [App.step] at hs
    split at hs
    · rename_i p hp
      split at hs
      · rename_i hc
        injection hs with hs; subst hs
        exact step_sendFails h hp hc.1 hc.2.1
      · cases hs
    · cases hs
  | device =>
    rw [made_none (by simp) (by simp)]
    simp only [App.step] at hs
    injection hs with hs; subst hs
    refine h.push (x := Proc.device) ?_ ?_ ?_ ?_ ?_ ?_
    · constructor <;> simp [Proc.device, full]
    · simp [accA, Proc.device, HubApp.one]
    · simp [actB, Proc.device, HubApp.one]
    · simp [cumC, Proc.device, HubApp.one]
    · intro kd; simp [Listed, Proc.device]
    · intro t ht; simp [Proc.device] at ht; exact ht.symm
  | count i k =>
    simp only [App.step] at hs
    split at hs
    · rename_i p hp
      split at hs
      · rename_i hc
        injection hs with hs; subst hs
        exact step_count h hp hc.1 hc.2.1 k hc.2.2
      · cases hs
    · cases hs
  | exit i =>
    rw [made_none (by simp) (by simp)]
    simp only [App.step] at hs
    split at hs
    · rename_i p hp
      split at hs
      · rename_i hc
        injection hs with hs; subst hs
        exact step_exit h hp hc.1 hc.2
      · cases hs
    · cases hs
  | listen i =>
    rw [made_none (by simp) (by simp)]
    simp only [App.step] at hs
    split at hs
    · rename_i p hp
      split at hs
      · cases hs
      · rename_i m hm
        injection hs with hs; subst hs
        exact step_listen h hp hm
    · cases hs
  | stats i =>
    rw [made_none (by simp) (by simp)]
    simp only [App.step] at hs
    split at hs
    · rename_i p hp
      split at hs
      · cases hs
      · rename_i m ms hm
        split at hs
        · injection hs with hs; subst hs
          exact step_stats h hp hm
        · cases hs
    · cases hs

theorem inv_run {n : Int} (es : List Ev) : ∀ {a a' : App} {c : Nat → Table}, Inv n a c → a.run es = some a' → Inv n a' fun j k => c j k + counted a j es k := by
  induction es with
  | nil =>
    intro a a' c h hr
    simp only [App.run, Option.some.injEq] at hr
    subst hr
    exact h
  | cons e es ih =>
    intro a a' c h hr
    rw [App.run] at hr
    cases hs : a.step e with
    | none => rw [hs] at hr; cases hr
    | some b =>
      rw [hs] at hr
      have := ih (inv_step h hs) hr
      have he : (fun j k => c j k + counted a j (e :: es) k) = fun j k => c j k + made a j e k + counted b j es k := by
        funext j k; rw [counted, hs]; simp only []; omega
      rw [he]; exact this

/-- In every run from the start. -/
theorem reach {es : List Ev} {a : App} (hr : App.init.run es = some a) : Inv 1 a fun j => counted App.init j es := by
  have := inv_run es inv_init hr
  simpa [Table.zero] using this

end Verif.HubApp
