import Verif.Model.Registry
/-!
# Invariant of the registry of device clients
-/

set_option autoImplicit false
set_option linter.unusedSimpArgs false

namespace Verif.Registry
open Verif.TraMgr (Addr Lookup)
open Verif.Allow (Mode Param)

theorem find?_key {α β : Type} [DecidableEq α] (l : List (α × β)) (k : α) (v : β) (nd : (l.map (·.1)).Nodup) :
    (l.find? fun e => e.1 == k).map (·.2) = some v ↔ (k, v) ∈ l := by
  induction l with
  | nil => simp
  | cons e l ih =>
    obtain ⟨k', v'⟩ := e
    simp only [List.map_cons, List.nodup_cons] at nd
    by_cases h : k' = k
    · subst h
      simp only [List.find?_cons, beq_self_eq_true, Option.map_some, Option.some.injEq, List.mem_cons, Prod.mk.injEq, true_and]
      constructor
      · intro e; exact Or.inl e.symm
      · rintro (e | m)
        · exact e.symm
        · exact absurd (List.mem_map_of_mem (f := (·.1)) m) nd.1
    · have hb : (k' == k) = false := by simpa using h
      rw [List.find?_cons]
      simp only [hb, List.mem_cons, Prod.mk.injEq]
      rw [ih nd.2]
      constructor
      · exact Or.inr
      · rintro (⟨e, _⟩ | m)
        · exact absurd e.symm h
        · exact m

theorem find?_none {α β : Type} [DecidableEq α] (l : List (α × β)) (k : α) (h : (l.find? fun e => e.1 == k).map (·.2) = none) (v : β) :
    (k, v) ∉ l := by
  intro m
  simp only [Option.map_eq_none_iff, List.find?_eq_none] at h
  exact h _ m (by simp)

theorem mem_delete {α β : Type} [DecidableEq α] (l : List (α × β)) (k k' : α) (v : β) :
    (k', v) ∈ delete l k ↔ (k', v) ∈ l ∧ k' ≠ k := by
  simp [delete, List.mem_filter]

theorem mem_insert {α β : Type} [DecidableEq α] (l : List (α × β)) (k k' : α) (v v' : β) :
    (k', v') ∈ insert l k v ↔ (k' = k ∧ v' = v) ∨ ((k', v') ∈ l ∧ k' ≠ k) := by
  simp [insert, List.mem_filter]

theorem nodup_delete {α β : Type} [DecidableEq α] (l : List (α × β)) (k : α) (nd : (l.map (·.1)).Nodup) :
    ((delete l k).map (·.1)).Nodup :=
  nd.sublist (List.Sublist.map _ List.filter_sublist)

theorem nodup_insert {α β : Type} [DecidableEq α] (l : List (α × β)) (k : α) (v : β) (nd : (l.map (·.1)).Nodup) :
    ((insert l k v).map (·.1)).Nodup := by
  simp only [insert, List.map_cons, List.nodup_cons]
  refine ⟨?_, nodup_delete l k nd⟩
  intro m
  obtain ⟨⟨k', v'⟩, m, e⟩ := List.mem_map.mp m
  simp [List.mem_filter] at m e
  exact m.2 e

/-- The calls that wait for the registry. -/
def pending : List Msg → List (Nat × Addr)
  | [] => []
  | .register c a :: ms => (c, a) :: pending ms
  | .exit _ :: ms => pending ms

theorem pending_append (m n : List Msg) : pending (m ++ n) = pending m ++ pending n := by
  induction m with
  | nil => rfl
  | cons x m ih => cases x <;> simp [pending, ih]

/-- What the answer to a question about `a` must have to do with the device clients and the allowlist. -/
def AnswerOk (mode : Mode) (par : Param) (started : List (Nat × Addr)) : Nat × Addr × Answer → Prop
  | (_, a, .result (.pid p)) => (p, a) ∈ started
  | (_, a, .result .error) => Allow.verdict mode par a = .register
  | (_, a, .result .blocked) => Allow.verdict mode par a = .blocked
  | (_, a, .crash) => Allow.verdict mode par a = .crash

/-- The invariant. -/
structure Inv (mode : Mode) (par : Param) (s : State) : Prop where
  inverse : ∀ a p, (a, p) ∈ s.index ↔ (p, a) ∈ s.rindex
  ndIndex : (s.index.map (·.1)).Nodup
  ndRindex : (s.rindex.map (·.1)).Nodup
  ndAlive : (s.alive.map (·.1)).Nodup
  ndStarted : (s.started.map (·.1)).Nodup
  aliveIn : ∀ p a, (p, a) ∈ s.alive → (a, p) ∈ s.index
  indexIn : ∀ p a, (a, p) ∈ s.index → (p, a) ∈ s.alive ∨ p ∈ s.signals ∨ Msg.exit p ∈ s.mailbox
  deadSig : ∀ p a, p ∈ s.signals → (p, a) ∉ s.alive
  deadMsg : ∀ p a, Msg.exit p ∈ s.mailbox → (p, a) ∉ s.alive
  startedIn : ∀ p a, (a, p) ∈ s.index → (p, a) ∈ s.started
  freshStarted : ∀ p a, (p, a) ∈ s.started → p < s.next
  freshSig : ∀ p, p ∈ s.signals → p < s.next
  freshMsg : ∀ p, Msg.exit p ∈ s.mailbox → p < s.next
  allowMsg : ∀ c a, Msg.register c a ∈ s.mailbox → Allow.verdict mode par a = .register
  allowStarted : ∀ p a, (p, a) ∈ s.started → Allow.verdict mode par a = .register
  answersOk : ∀ x ∈ s.answers, AnswerOk mode par s.started x
  counted : (s.answers.map (fun x => (x.1, x.2.1)) ++ pending s.mailbox).Perm s.asked

theorem inv_init (mode : Mode) (par : Param) : Inv mode par {} := by
  constructor <;> simp [pending]

theorem AnswerOk.mono {mode : Mode} {par : Param} {l l' : List (Nat × Addr)} (h : ∀ x ∈ l, x ∈ l') {x : Nat × Addr × Answer}
    (ok : AnswerOk mode par l x) : AnswerOk mode par l' x := by
  obtain ⟨c, a, r⟩ := x
  rcases r with (_ | _ | _) | _
  · exact h _ ok
  all_goals exact ok

theorem inv_ask (mode : Mode) (par : Param) (s : State) (c : Nat) (a : Addr) (I : Inv mode par s) :
    Inv mode par (ask mode par s c a) := by
  unfold ask
  simp only
  split
  · rename_i p hp
    have hp' := (find?_key s.index a p I.ndIndex).mp hp
    exact { I with
      answersOk := by
        intro x hx
        rcases List.mem_cons.mp hx with rfl | hx
        · exact I.startedIn _ _ hp'
        · exact I.answersOk x hx
      counted := by simpa using I.counted }
  · split
    · rename_i hv
      refine { I with
        indexIn := ?_, deadMsg := ?_, freshMsg := ?_, allowMsg := ?_, counted := ?_ }
      · intro p a' h
        rcases I.indexIn p a' h with h | h | h
        · exact Or.inl h
        · exact Or.inr (Or.inl h)
        · exact Or.inr (Or.inr (List.mem_append_left _ h))
      · intro p a' h
        refine I.deadMsg p a' ?_
        simpa using h
      · intro p h
        refine I.freshMsg p ?_
        simpa using h
      · intro c' a' h
        rcases List.mem_append.mp h with h | h
        · exact I.allowMsg c' a' h
        · simp at h
          rw [h.2]
          exact hv
      · simp only [pending_append, pending]
        rw [← List.append_assoc]
        refine (List.perm_append_comm).trans ?_
        simpa using I.counted
    · rename_i hv
      exact { I with
        answersOk := by
          intro x hx
          rcases List.mem_cons.mp hx with rfl | hx
          · exact hv
          · exact I.answersOk x hx
        counted := by simpa using I.counted }
    · rename_i hv
      exact { I with
        answersOk := by
          intro x hx
          rcases List.mem_cons.mp hx with rfl | hx
          · exact hv
          · exact I.answersOk x hx
        counted := by simpa using I.counted }

theorem inv_register (mode : Mode) (par : Param) (s : State) (ok : Bool) (c : Nat) (a : Addr) (ms : List Msg)
    (hm : s.mailbox = .register c a :: ms) (I : Inv mode par s) :
    Inv mode par (register { s with mailbox := ms } ok c a) := by
  have cnt : ∀ r : Answer, (((c, a, r) :: s.answers).map (fun x => (x.1, x.2.1)) ++ pending ms).Perm s.asked := by
    intro r
    refine List.Perm.trans ?_ I.counted
    simp only [hm, pending, List.map_cons, List.cons_append]
    exact List.perm_middle.symm
  have msg : ∀ m ∈ ms, m ∈ s.mailbox := fun m h => by rw [hm]; exact List.mem_cons_of_mem _ h
  have ver : Allow.verdict mode par a = .register := I.allowMsg c a (by rw [hm]; exact List.mem_cons_self)
  have idx : ∀ p a', (a', p) ∈ s.index → (p, a') ∈ s.alive ∨ p ∈ s.signals ∨ Msg.exit p ∈ ms := by
    intro p a' h
    rcases I.indexIn p a' h with h | h | h
    · exact Or.inl h
    · exact Or.inr (Or.inl h)
    · rw [hm] at h
      exact Or.inr (Or.inr (by simpa using h))
  unfold register
  simp only
  split
  · rename_i p hp
    have hp' := (find?_key s.index a p I.ndIndex).mp hp
    exact { I with
      indexIn := idx
      deadMsg := fun p a' h => I.deadMsg p a' (msg _ h)
      freshMsg := fun p h => I.freshMsg p (msg _ h)
      allowMsg := fun c a h => I.allowMsg c a (msg _ h)
      answersOk := by
        intro x hx
        rcases List.mem_cons.mp hx with rfl | hx
        · exact I.startedIn _ _ hp'
        · exact I.answersOk x hx
      counted := cnt _ }
  · rename_i hn
    have hn' := find?_none s.index a hn
    have nx : ∀ a', (s.next, a') ∉ s.rindex := fun a' h =>
      absurd (I.freshStarted _ _ (I.startedIn _ _ ((I.inverse _ _).mpr h))) (Nat.lt_irrefl _)
    have nst : ∀ a', (s.next, a') ∉ s.started := fun a' h => absurd (I.freshStarted _ _ h) (Nat.lt_irrefl _)
    have nal : ∀ a', (s.next, a') ∉ s.alive := fun a' h => nst a' (I.startedIn _ _ (I.aliveIn _ _ h))
    by_cases hok : ok = true
    · rw [if_pos hok]
      constructor
      · intro a' p
        simp only [mem_insert]
        rw [I.inverse]
        constructor
        · rintro (⟨rfl, rfl⟩ | ⟨h, _⟩)
          · exact Or.inl ⟨rfl, rfl⟩
          · refine Or.inr ⟨h, ?_⟩
            rintro rfl
            exact nx _ h
        · rintro (⟨rfl, rfl⟩ | ⟨h, _⟩)
          · exact Or.inl ⟨rfl, rfl⟩
          · refine Or.inr ⟨h, ?_⟩
            rintro rfl
            exact hn' _ ((I.inverse _ _).mpr h)
      · exact nodup_insert _ _ _ I.ndIndex
      · exact nodup_insert _ _ _ I.ndRindex
      · simp only [List.map_cons, List.nodup_cons]
        refine ⟨?_, I.ndAlive⟩
        intro m
        obtain ⟨⟨p, a'⟩, m, e⟩ := List.mem_map.mp m
        simp at e
        subst e
        exact nal _ m
      · simp only [List.map_cons, List.nodup_cons]
        refine ⟨?_, I.ndStarted⟩
        intro m
        obtain ⟨⟨p, a'⟩, m, e⟩ := List.mem_map.mp m
        simp at e
        subst e
        exact nst _ m
      · intro p a' h
        rw [mem_insert]
        rcases List.mem_cons.mp h with m | m
        · simp at m
          exact Or.inl ⟨m.2, m.1⟩
        · refine Or.inr ⟨I.aliveIn _ _ m, ?_⟩
          rintro rfl
          exact hn' _ (I.aliveIn _ _ m)
      · intro p a' h
        rw [mem_insert] at h
        rcases h with ⟨rfl, rfl⟩ | ⟨h, _⟩
        · exact Or.inl List.mem_cons_self
        · rcases idx p a' h with h | h | h
          · exact Or.inl (List.mem_cons_of_mem _ h)
          · exact Or.inr (Or.inl h)
          · exact Or.inr (Or.inr h)
      · intro p a' h m
        rcases List.mem_cons.mp m with m | m
        · simp at m
          have := I.freshSig p h
          omega
        · exact I.deadSig p a' h m
      · intro p a' h m
        rcases List.mem_cons.mp m with m | m
        · simp at m
          have := I.freshMsg p (msg _ h)
          omega
        · exact I.deadMsg p a' (msg _ h) m
      · intro p a' h
        rw [mem_insert] at h
        rcases h with ⟨rfl, rfl⟩ | ⟨h, _⟩
        · exact List.mem_cons_self
        · exact List.mem_cons_of_mem _ (I.startedIn _ _ h)
      · intro p a' h
        rcases List.mem_cons.mp h with h | h
        · simp at h
          simp only
          omega
        · have := I.freshStarted p a' h
          simp only
          omega
      · intro p h
        have := I.freshSig p h
        simp only
        omega
      · intro p h
        have := I.freshMsg p (msg _ h)
        simp only
        omega
      · exact fun c a h => I.allowMsg c a (msg _ h)
      · intro p a' h
        rcases List.mem_cons.mp h with h | h
        · simp at h
          rw [h.2]
          exact ver
        · exact I.allowStarted p a' h
      · intro x hx
        rcases List.mem_cons.mp hx with rfl | hx
        · exact List.mem_cons_self
        · exact (I.answersOk x hx).mono fun _ h => List.mem_cons_of_mem _ h
      · exact cnt _
    · rw [if_neg hok]
      exact { I with
        indexIn := by
          intro p a' h
          rcases idx p a' h with h | h | h
          · exact Or.inl h
          · exact Or.inr (Or.inl (List.mem_cons_of_mem _ h))
          · exact Or.inr (Or.inr h)
        deadSig := by
          intro p a' h
          rcases List.mem_cons.mp h with h | h
          · subst h
            exact nal _
          · exact I.deadSig p a' h
        deadMsg := fun p a' h => I.deadMsg p a' (msg _ h)
        freshStarted := fun p a' h => Nat.lt_succ_of_lt (I.freshStarted p a' h)
        freshSig := by
          intro p h
          rcases List.mem_cons.mp h with h | h
          · subst h
            exact Nat.lt_succ_self _
          · exact Nat.lt_succ_of_lt (I.freshSig p h)
        freshMsg := fun p h => Nat.lt_succ_of_lt (I.freshMsg p (msg _ h))
        allowMsg := fun c a h => I.allowMsg c a (msg _ h)
        answersOk := by
          intro x hx
          rcases List.mem_cons.mp hx with rfl | hx
          · exact ver
          · exact I.answersOk x hx
        counted := cnt _ }

theorem inv_onExit (mode : Mode) (par : Param) (s : State) (p : Nat) (ms : List Msg)
    (hm : s.mailbox = .exit p :: ms) (I : Inv mode par s) :
    Inv mode par (onExit { s with mailbox := ms } p) := by
  have msg : ∀ m ∈ ms, m ∈ s.mailbox := fun m h => by rw [hm]; exact List.mem_cons_of_mem _ h
  have dead : ∀ a, (p, a) ∉ s.alive := fun a => I.deadMsg p a (by rw [hm]; exact List.mem_cons_self)
  have idx : ∀ q a', q ≠ p → (a', q) ∈ s.index → (q, a') ∈ s.alive ∨ q ∈ s.signals ∨ Msg.exit q ∈ ms := by
    intro q a' hq h
    rcases I.indexIn q a' h with h | h | h
    · exact Or.inl h
    · exact Or.inr (Or.inl h)
    · rw [hm] at h
      rcases List.mem_cons.mp h with h | h
      · simp at h
        exact absurd h hq
      · exact Or.inr (Or.inr h)
  have cnt : (s.answers.map (fun x => (x.1, x.2.1)) ++ pending ms).Perm s.asked := by
    have := I.counted
    simpa [hm, pending] using this
  unfold onExit
  simp only
  split
  · rename_i a ha
    have ha' := (find?_key s.rindex p a I.ndRindex).mp ha
    have only : ∀ a', (p, a') ∈ s.rindex → a' = a := fun a' h => by
      have := (find?_key s.rindex p a' I.ndRindex).mpr h
      unfold rlookup at ha
      rw [ha] at this
      exact (Option.some.inj this).symm
    have only' : ∀ q, (a, q) ∈ s.index → q = p := fun q h => by
      have h1 := (find?_key s.index a q I.ndIndex).mpr h
      have h2 := (find?_key s.index a p I.ndIndex).mpr ((I.inverse _ _).mpr ha')
      rw [h1] at h2
      exact Option.some.inj h2
    constructor
    · intro a' q
      simp only [mem_delete]
      rw [I.inverse]
      constructor
      · rintro ⟨h, hne⟩
        refine ⟨h, ?_⟩
        rintro rfl
        exact hne (only _ h)
      · rintro ⟨h, hne⟩
        refine ⟨h, ?_⟩
        rintro rfl
        exact hne (only' _ ((I.inverse _ _).mpr h))
    · exact nodup_delete _ _ I.ndIndex
    · exact nodup_delete _ _ I.ndRindex
    · exact I.ndAlive
    · exact I.ndStarted
    · intro q a' h
      simp only [mem_delete]
      refine ⟨I.aliveIn q a' h, ?_⟩
      rintro rfl
      have := only' _ (I.aliveIn q _ h)
      subst this
      exact dead _ h
    · intro q a' h
      simp only [mem_delete] at h
      refine idx q a' ?_ h.1
      rintro rfl
      exact h.2 (only _ ((I.inverse _ _).mp h.1))
    · exact I.deadSig
    · exact fun q a' h => I.deadMsg q a' (msg _ h)
    · intro q a' h
      simp only [mem_delete] at h
      exact I.startedIn q a' h.1
    · exact I.freshStarted
    · exact I.freshSig
    · exact fun q h => I.freshMsg q (msg _ h)
    · exact fun c a h => I.allowMsg c a (msg _ h)
    · exact I.allowStarted
    · exact I.answersOk
    · exact cnt
  · rename_i hn
    have hn' := find?_none s.rindex p hn
    exact { I with
      indexIn := by
        intro q a' h
        refine idx q a' ?_ h
        rintro rfl
        exact hn' _ ((I.inverse _ _).mp h)
      deadMsg := fun q a' h => I.deadMsg q a' (msg _ h)
      freshMsg := fun q h => I.freshMsg q (msg _ h)
      allowMsg := fun c a h => I.allowMsg c a (msg _ h)
      counted := cnt }

theorem inv_step (mode : Mode) (par : Param) (s : State) (e : Event) (I : Inv mode par s) : Inv mode par (step mode par s e) := by
  cases e with
  | ask c a => exact inv_ask mode par s c a I
  | handle ok =>
    simp only [step]
    split
    · exact I
    · rename_i c a ms hm
      exact inv_register mode par s ok c a ms hm I
    · rename_i p ms hm
      exact inv_onExit mode par s p ms hm I
  | die p =>
    simp only [step]
    by_cases h : p ∈ s.alive.map (·.1)
    · rw [if_pos h]
      obtain ⟨⟨p', a⟩, ha, e⟩ := List.mem_map.mp h
      simp at e
      subst e
      exact { I with
        ndAlive := nodup_delete _ _ I.ndAlive
        aliveIn := by
          intro q b hq
          rw [mem_delete] at hq
          exact I.aliveIn q b hq.1
        indexIn := by
          intro q b hq
          by_cases e : q = p'
          · exact Or.inr (Or.inl (by rw [e]; exact List.mem_cons_self))
          · rcases I.indexIn q b hq with h | h | h
            · exact Or.inl ((mem_delete _ _ _ _).mpr ⟨h, e⟩)
            · exact Or.inr (Or.inl (List.mem_cons_of_mem _ h))
            · exact Or.inr (Or.inr h)
        deadSig := by
          intro q b hq m
          rw [mem_delete] at m
          rcases List.mem_cons.mp hq with e | hq
          · exact m.2 e
          · exact I.deadSig q b hq m.1
        deadMsg := by
          intro q b hq m
          rw [mem_delete] at m
          exact I.deadMsg q b hq m.1
        freshSig := by
          intro q hq
          rcases List.mem_cons.mp hq with e | hq
          · subst e
            exact I.freshStarted _ _ (I.startedIn _ _ (I.aliveIn _ _ ha))
          · exact I.freshSig q hq }
    · rw [if_neg h]
      exact I
  | signal p =>
    simp only [step]
    by_cases h : p ∈ s.signals
    · rw [if_pos h]
      exact { I with
        indexIn := by
          intro q b hq
          rcases I.indexIn q b hq with h' | h' | h'
          · exact Or.inl h'
          · by_cases e : q = p
            · subst e
              exact Or.inr (Or.inr (List.mem_append_right _ (by simp)))
            · exact Or.inr (Or.inl ((List.mem_erase_of_ne e).mpr h'))
          · exact Or.inr (Or.inr (List.mem_append_left _ h'))
        deadSig := fun q b hq => I.deadSig q b (List.mem_of_mem_erase hq)
        deadMsg := by
          intro q b hq
          rcases List.mem_append.mp hq with hq | hq
          · exact I.deadMsg q b hq
          · simp at hq
            subst hq
            exact I.deadSig q b h
        freshSig := fun q hq => I.freshSig q (List.mem_of_mem_erase hq)
        freshMsg := by
          intro q hq
          rcases List.mem_append.mp hq with hq | hq
          · exact I.freshMsg q hq
          · simp at hq
            subst hq
            exact I.freshSig q h
        allowMsg := by
          intro c a hq
          refine I.allowMsg c a ?_
          simpa using hq
        counted := by simpa [pending_append, pending] using I.counted }
    · rw [if_neg h]
      exact I

theorem inv_run (mode : Mode) (par : Param) (es : List Event) (s : State) (I : Inv mode par s) : Inv mode par (run mode par s es) := by
  induction es generalizing s with
  | nil => exact I
  | cons e es ih => exact ih _ (inv_step mode par s e I)

theorem run_append (mode : Mode) (par : Param) (s : State) (es fs : List Event) :
    run mode par s (es ++ fs) = run mode par (run mode par s es) fs := by
  simp [run, List.foldl_append]

end Verif.Registry
