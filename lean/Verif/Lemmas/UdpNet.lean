import Verif.Spec.Net
import Verif.Lemmas.UdpWhole
/-!
# Which packet a reply belongs to
-/

set_option autoImplicit false
set_option linter.unusedSimpArgs false

namespace Verif
open Spec

section
variable {c : Cfg} {σ ρ : Type} {tg : Target σ} {mem : ρ → σ} {resp : ρ → List W → Option (List W) × ρ}

/-- A reply to one packet that is accepted for another: the first transactions have the same id. -/
theorem accepted_id (hw : WF c) (hcap : CapOK c) (hr : c.ver = .v2 → Roomy c) (hc : Conforms c tg mem resp) {f f' : Fin'} (hf : FinOK c f) (hf' : FinOK c f')
    {it it' : Item} {l l' : List Item} (h1 : f.all = it :: l) (h1' : f'.all = it' :: l') {e : ρ} {ws : List W}
    (hws : (resp e (f'.buf c).send).1 = some ws) {h : Heap} (hacc : (receiveReply c h (f.buf c) ws).1 = .ok) :
    it.cnt % 2 ^ idBits c.ver = it'.cnt % 2 ^ idBits c.ver := by
  obtain ⟨pre, body, e', r1, r2, r3, _⟩ := hc e (f'.buf c).send _ (parse_fin hf') (by simp [h1'])
  rw [r1] at hws
  cases hws
  have hpl := replyPre_length r2
  rw [h1', List.map_cons] at r3
  generalize hvals : (execTxns c.ver tg (List.map Prod.snd ((it'.cnt % 2 ^ idBits c.ver, it'.txn) :: List.map (fun it => (it.cnt % 2 ^ idBits c.ver, it.txn)) l')) (mem e)).1 = vals at r3
  cases r3 with
  | @cons id t ts hwd ws' vs r hok hrest =>
    rw [receive_out, validateBuf_fin hw hf hcap hr] at hacc
    have hv : finVerdict c (scatter h (f.buf c).reply (pre ++ (hwd :: ws' ++ r))).word f = none := by
      cases hx : finVerdict c (scatter h (f.buf c).reply (pre ++ (hwd :: ws' ++ r))).word f with
      | none => rfl
      | some x => rw [hx] at hacc; cases hacc
    have hloc : (scatter h (f.buf c).reply (pre ++ (hwd :: ws' ++ r))).word (.hdr it.obj it.hk) = hwd := by
      refine scatter_in (fin_nodup hf) h _ (preSlotCount c) _ _ ?_ ?_
      · rw [fin_locs, List.getElem?_append_right (by rw [preLocs_length]; omega), preLocs_length, h1]
        simp [itemLocs]
      · rw [List.getElem?_append_right (by omega), hpl]; simp
    unfold finVerdict at hv
    rw [Option.or_eq_none_iff, Option.or_eq_none_iff, List.findSome?_eq_none_iff] at hv
    have h3 := hv.2.2 it (by simp [h1])
    unfold itemVerdict at h3
    rw [verdict_none_iff, hloc] at h3
    rw [← h3.2.2.1, hok.2.2.1]

/-- First transaction of a packet. -/
theorem fin_first (hr : c.ver = .v2 → Roomy c) {f : Fin'} (hf : FinOK c f) : ∃ it l, f.g.items = it :: l ∧ f.all = it :: (l ++ padItems f.po f.np) := by
  have : f.g.items ≠ [] := by
    cases hv : c.ver with
    | v2 => exact hf.ne (hr hv)
    | v1 =>
      have hs := hf.grp.shape
      rw [hv] at hs
      intro hn
      rw [hn] at hs
      simp [GrpShape] at hs
  cases hg : f.g.items with
  | nil => exact absurd hg this
  | cons it l => exact ⟨it, l, rfl, by simp [Fin'.all, hg]⟩

/-- Number of the first transaction of a packet. -/
theorem first_cnt {fs : List Fin'} {n i : Nat} {f : Fin'} {it : Item} {l : List Item}
    (h : (fs.flatMap fun f => f.g.items).map Item.cnt = List.range' 0 n) (hf : fs[i]? = some f) (hi : f.g.items = it :: l) :
    it.cnt = ((fs.take i).map fun f => f.g.items.length).sum := by
  obtain ⟨hlt, rfl⟩ := List.getElem?_eq_some_iff.1 hf
  have hsplit : fs = fs.take i ++ fs[i] :: fs.drop (i + 1) := by rw [List.getElem_cons_drop, List.take_append_drop]
  have h1 := congrArg (fun x => x[((fs.take i).map fun f => f.g.items.length).sum]?) h
  have hlen : ((fs.take i).flatMap fun f => f.g.items).length = ((fs.take i).map fun f => f.g.items.length).sum := by
    rw [List.length_flatMap]
  have h2 : ((fs.flatMap fun f => f.g.items).map Item.cnt)[((fs.take i).map fun f => f.g.items.length).sum]? = some it.cnt := by
    conv => lhs; arg 1; rw [hsplit]
    rw [List.flatMap_append, List.map_append, List.getElem?_append_right (by rw [List.length_map, hlen]; exact Nat.le_refl _),
      List.length_map, hlen, List.flatMap_cons, hi]
    simp
  rw [h2] at h1
  obtain ⟨_, h3⟩ := List.getElem?_eq_some_iff.1 h1.symm
  rw [List.getElem_range'] at h3
  omega

theorem txnsIn_fin {f : Fin'} (hf : FinOK c f) : txnsIn c (f.buf c).send = f.all.length := by
  unfold txnsIn
  rw [parse_fin hf]
  simp

/-- Packets whose first transactions have the same id, with not too many transactions in between. -/
theorem same_packet (hr : c.ver = .v2 → Roomy c) {fs : List Fin'} (hfs : ∀ f ∈ fs, FinOK c f) {n : Nat}
    (h : (fs.flatMap fun f => f.g.items).map Item.cnt = List.range' 0 n) {i k : Nat} {f f' : Fin'} (hi : fs[i]? = some f) (hk : fs[k]? = some f')
    {it it' : Item} {l l' : List Item} (e : f.g.items = it :: l) (e' : f'.g.items = it' :: l')
    (hid : it.cnt % 2 ^ idBits c.ver = it'.cnt % 2 ^ idBits c.ver) (hap : apart c (fs.map fun f => (f.buf c).send) i k < 2 ^ idBits c.ver) : i = k := by
  rw [first_cnt h hi e, first_cnt h hk e'] at hid
  have key : ∀ a b, a < b → b < fs.length → ((fs.take a).map fun f => f.g.items.length).sum % 2 ^ idBits c.ver = ((fs.take b).map fun f => f.g.items.length).sum % 2 ^ idBits c.ver →
      (((fs.map fun f => (f.buf c).send).take b).drop a |>.map (txnsIn c)).sum < 2 ^ idBits c.ver → False := by
    intro a b hab hb hmod hlt
    have hsp : fs.take b = fs.take a ++ (fs.take b).drop a := by
      conv => lhs; rw [← List.take_append_drop a (fs.take b)]
      rw [List.take_take, Nat.min_eq_left (by omega)]
    rw [hsp, List.map_append, List.sum_append] at hmod
    rw [← List.map_take, ← List.map_drop, List.map_map] at hlt
    have hle : ∀ gs : List Fin', (∀ g ∈ gs, FinOK c g) → (gs.map fun f => f.g.items.length).sum ≤ (gs.map (txnsIn c ∘ fun f => (f.buf c).send)).sum ∧
        gs.length ≤ (gs.map fun f => f.g.items.length).sum := by
      intro gs
      induction gs with
      | nil => intro _; simp
      | cons g gs ih =>
        intro hg
        obtain ⟨i1, i2⟩ := ih fun g hg' => hg g (by simp [hg'])
        obtain ⟨x, y, z1, z2⟩ := fin_first hr (hg g (by simp))
        have := txnsIn_fin (hg g (by simp))
        simp only [List.map_cons, List.sum_cons, Function.comp_apply, List.length_cons, this, z1, z2, List.length_append]
        simp only [Function.comp_def] at i1
        exact ⟨by simp only [Function.comp_def]; omega, by omega⟩
    obtain ⟨h1, h2⟩ := hle ((fs.take b).drop a) (fun g hg => hfs g (List.mem_of_mem_take (List.mem_of_mem_drop hg)))
    have h3 : 0 < ((fs.take b).drop a).length := by
      rw [List.length_drop, List.length_take]; omega
    generalize (((fs.take b).drop a).map fun f => f.g.items.length).sum = y at *
    generalize ((fs.take a).map fun f => f.g.items.length).sum = x at *
    have hyM : y < 2 ^ idBits c.ver := by omega
    have hm : (x + y) % 2 ^ idBits c.ver = x % 2 ^ idBits c.ver := hmod.symm
    generalize 2 ^ idBits c.ver = M at *
    have hM : 0 < M := by omega
    have hx := Nat.div_add_mod x M
    have hxy := Nat.div_add_mod (x + y) M
    rw [hm] at hxy
    have hd : M * ((x + y) / M) = M * (x / M) + y := by omega
    have : (x + y) / M = x / M ∨ x / M + 1 ≤ (x + y) / M := by
      have := Nat.div_le_div_right (c := M) (Nat.le_add_right x y)
      omega
    rcases this with h | h
    · rw [h] at hd; omega
    · have := Nat.mul_le_mul_left M h
      rw [Nat.mul_add, Nat.mul_one] at this
      omega
  have hil := (List.getElem?_eq_some_iff.1 hi).1
  have hkl := (List.getElem?_eq_some_iff.1 hk).1
  unfold apart at hap
  rcases Nat.lt_trichotomy i k with hlt | heq | hgt
  · rw [Nat.max_eq_right (by omega), Nat.min_eq_left (by omega)] at hap
    exact (key i k hlt hkl hid hap).elim
  · exact heq
  · rw [Nat.max_eq_left (by omega), Nat.min_eq_right (by omega)] at hap
    exact (key k i hgt hil hid.symm hap).elim

end

/-! ### Arrivals -/

section
variable {ρ : Type} {resp : ρ → List W → Option (List W) × ρ}

theorem arrive_get (ps : List (List W)) : ∀ (e : ρ) (j : Nat) (p : List W), ps[j]? = some p →
    (arrive resp e ps).1[j]? = some (resp (arrive resp e (ps.take j)).2 p).1 := by
  induction ps with
  | nil => intro e j p h; simp at h
  | cons q ps ih =>
    intro e j p h
    cases j with
    | zero => simp only [List.getElem?_cons_zero, Option.some.injEq] at h; subst h; rfl
    | succ j =>
      rw [List.getElem?_cons_succ] at h
      simp only [arrive, List.take_succ_cons, List.getElem?_cons_succ]
      exact ih _ j p h

theorem arrive_length (ps : List (List W)) : ∀ e : ρ, (arrive resp e ps).1.length = ps.length := by
  induction ps with
  | nil => intro e; rfl
  | cons q ps ih => intro e; simp [arrive, ih]

theorem arrive_follows (bs : List Buf) : ∀ e : ρ, Follows resp e (bs.zip (arrive resp e (bs.map Buf.send)).1) (arrive resp e (bs.map Buf.send)).2 := by
  induction bs with
  | nil => intro e; exact .nil _
  | cons b bs ih => intro e; exact .cons rfl (ih _)

theorem filterMap_get {α : Type} (l : List α) (arr : List Nat) (h : ∀ i ∈ arr, i < l.length) (j : Nat) :
    (arr.filterMap fun i => l[i]?)[j]? = (arr[j]?).bind fun i => l[i]? := by
  induction arr generalizing j with
  | nil => simp
  | cons i arr ih =>
    have hi := h i (by simp)
    rw [List.filterMap_cons, List.getElem?_eq_getElem hi]
    cases j with
    | zero => simp [List.getElem?_eq_getElem hi]
    | succ j =>
      simp only [List.getElem?_cons_succ]
      exact ih (fun i hi => h i (by simp [hi])) j

theorem filterMap_range {α : Type} (l : List α) : ((List.range l.length).filterMap fun i => l[i]?) = l := by
  apply List.ext_getElem?
  intro j
  rw [filterMap_get l _ (fun i hi => List.mem_range.1 hi)]
  by_cases hj : j < l.length
  · simp [List.getElem?_range hj]
  · rw [List.getElem?_eq_none (by simpa using hj), List.getElem?_eq_none (by simpa using hj)]; rfl

end

theorem sublist_all {α : Type} {l l' : List α} (h : l.Sublist l') (hn : l'.Nodup) (hs : ∀ x ∈ l', x ∈ l) : l = l' := by
  induction h with
  | slnil => rfl
  | cons a h ih =>
    rw [List.nodup_cons] at hn
    exact absurd (h.subset (hs a (by simp))) hn.1
  | cons_cons a h ih =>
    rw [List.nodup_cons] at hn
    rw [ih hn.2 fun x hx => ?_]
    rcases List.mem_cons.1 (hs x (by simp [hx])) with rfl | h'
    · exact absurd hx hn.1
    · exact h'

/-- A list of different numbers below `K` that contains all of them in order. -/
theorem sublist_range {K : Nat} {arr : List Nat} (h : (List.range K).Sublist arr) (hn : arr.Nodup) (hl : ∀ i ∈ arr, i < K) : arr = List.range K :=
  (sublist_all h hn fun i hi => List.mem_range.2 (hl i hi)).symm

theorem range_sorted {K : Nat} {arr : List Nat} (hs : arr.Pairwise (· < ·)) (hl : ∀ i ∈ arr, i < K) (hall : ∀ i, i < K → i ∈ arr) : arr = List.range K := by
  induction K generalizing arr with
  | zero =>
    cases arr with
    | nil => rfl
    | cons x l => exact absurd (hl x (by simp)) (by omega)
  | succ K ih =>
    have hK := hall K (by omega)
    obtain ⟨a, b, rfl⟩ := List.append_of_mem hK
    have hb : b = [] := by
      cases b with
      | nil => rfl
      | cons y b =>
        rw [List.pairwise_append] at hs
        have h1 := (List.pairwise_cons.1 hs.2.1).1 y (by simp)
        have h2 := hl y (by simp)
        omega
    subst hb
    rw [List.range_succ]
    congr 1
    rw [List.pairwise_append] at hs
    refine ih hs.1 (fun i hi => hs.2.2 i hi K (by simp)) (fun i hi => ?_)
    have := hall i (by omega)
    simp only [List.mem_append, List.mem_singleton] at this
    rcases this with h | h
    · exact h
    · omega

end Verif
