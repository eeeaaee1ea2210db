import Verif.Lemmas.Pool
/-!
# Who holds a buffer: PCIe and mmap
-/

set_option autoImplicit false
set_option linter.unusedSimpArgs false

namespace Verif

theorem nodup_of_count {l : List Nat} (h : ∀ i, l.count i ≤ 1) : l.Nodup := by
  induction l with
  | nil => exact List.nodup_nil
  | cons a l ih =>
    refine List.nodup_cons.mpr ⟨fun hm => ?_, ih fun i => ?_⟩
    · have h1 := h a
      have h2 := List.count_pos_iff.mpr hm
      simp only [List.count_cons, beq_self_eq_true, if_true] at h1
      omega
    · have h1 := h i
      rw [List.count_cons] at h1
      omega

namespace PagedP

/-- Number of places that hold object `i`. -/
def owns (p : PagedP) (i : Nat) : Nat := p.pool.count i + p.cur.toList.count i + p.queue.count i

/-- Invariant. -/
structure Own (p : PagedP) : Prop where
  one : ∀ i, p.owns i ≤ 1
  lt : ∀ i, p.made ≤ i → p.owns i = 0
  kept : p.taken ++ p.queue.map p.mem = p.written

theorem own_init : Own init := ⟨fun i => by simp [owns, init], fun i _ => by simp [owns, init], rfl⟩

theorem own_stock {p : PagedP} (h : Own p) : Own p.stock := by
  unfold stock
  split
  · rename_i e
    refine ⟨fun i => ?_, fun i hi => ?_, h.kept⟩
    · have h1 := h.one i
      have h2 := h.lt i
      simp only [owns, e, List.count_nil] at h1 h2 ⊢
      rw [UdpP.count_stock]
      split
      · have := h2 (by omega); omega
      · omega
    · have h2 := h.lt i (by simp only at hi; omega)
      simp only [owns, e, List.count_nil] at h2 hi ⊢
      rw [UdpP.count_stock, if_neg (by omega)]
      omega
  · exact h

theorem own_act {p : PagedP} (h : Own p) (a : Act) : Own (p.act a) := by
  cases a with
  | take =>
    show Own p.take
    unfold take
    split
    · exact h
    · rename_i e
      have hs := own_stock h
      have ec : p.stock.cur = none := by rw [← e]; unfold stock; split <;> rfl
      split
      · exact hs
      · rename_i i is e2
        refine ⟨fun j => ?_, fun j hj => ?_, ?_⟩
        · have := hs.one j
          simp only [owns, put, e2, ec, Option.toList_some, Option.toList_none, List.count_cons, List.count_nil] at this ⊢
          omega
        · have := hs.lt j hj
          simp only [owns, put, e2, ec, Option.toList_some, Option.toList_none, List.count_cons, List.count_nil] at this ⊢
          omega
        · have := hs.one i
          simp only [owns, e2, ec, Option.toList_none, List.count_cons, List.count_nil, beq_self_eq_true, if_true] at this
          refine Eq.trans (congrArg _ (UdpP.map_put ?_)) hs.kept
          show p.stock.queue.count i = 0
          omega
  | fill f =>
    show Own (p.fill f)
    unfold fill
    split
    · exact h
    · rename_i i e
      refine ⟨h.one, h.lt, ?_⟩
      have := h.one i
      simp only [owns, e, Option.toList_some, List.count_cons, List.count_nil, beq_self_eq_true, if_true] at this
      exact Eq.trans (congrArg _ (UdpP.map_put (l := p.queue) (by omega))) h.kept
  | write =>
    show Own p.write
    unfold write
    split
    · exact h
    · rename_i i e
      refine ⟨fun j => ?_, fun j hj => ?_, ?_⟩
      · have := h.one j
        simp [owns, e] at this ⊢
        omega
      · have := h.lt j hj
        simp [owns, e] at this ⊢
        omega
      · simp [← h.kept]
  | read g =>
    show Own (p.read g)
    unfold read
    split
    · exact h
    · exact h
    · rename_i i q e
      refine ⟨fun j => ?_, fun j hj => ?_, ?_⟩
      · have := h.one j
        simp [owns, e, List.count_cons] at this ⊢
        omega
      · have := h.lt j hj
        simp [owns, e, List.count_cons] at this ⊢
        omega
      · have := h.kept
        simpa [e] using this
    · rename_i i q e
      refine ⟨fun j => ?_, fun j hj => ?_, ?_⟩
      · have := h.one j
        simp [owns, e, List.count_cons] at this ⊢
        omega
      · have := h.lt j hj
        simp [owns, e, List.count_cons] at this ⊢
        omega
      · have := h.kept
        simpa [e] using this
  | handler => exact ⟨fun j => by simp [owns, act, handler], fun j _ => by simp [owns, act, handler], rfl⟩

end PagedP
end Verif
