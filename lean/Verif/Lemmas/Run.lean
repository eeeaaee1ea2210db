import Verif.Lemmas.Ops
import Verif.Spec.Prog
import Verif.Props.C02
/-! One call, in terms of the ghost view and of the specification of programs. -/

set_option autoImplicit false
set_option linter.unusedSimpArgs false

namespace Verif
open Spec

/-! ### Word accesses of split blocks -/

theorem addrs_add (inc : Bool) (a : W) (m n : Nat) :
    addrs inc a (m + n) = addrs inc a m ++ addrs inc (if inc then a + BitVec.ofNat 32 m else a) n := by
  unfold addrs
  rw [List.range_add, List.map_append, List.map_map]
  congr 1
  apply List.map_congr_left
  intro i _
  cases inc <;> simp [BitVec.ofNat_add, BitVec.add_assoc]

theorem addrs_length (inc : Bool) (a : W) (n : Nat) : (addrs inc a n).length = n := by simp [addrs]

theorem wtxns_accs (inc : Bool) (a : W) (chs : List (List W)) :
    (wtxns inc a chs).flatMap Txn.accs = List.zipWith .wr (addrs inc a chs.flatten.length) chs.flatten := by
  induction chs generalizing a with
  | nil => simp [wtxns]
  | cons ch chs ih =>
    rw [wtxns, List.flatMap_cons, ih, List.flatten_cons, List.length_append, addrs_add, Txn.accs,
      List.zipWith_append (by simp [addrs_length])]

theorem rtxns_accs (inc : Bool) (a : W) (ns : List Nat) :
    (rtxns inc a ns).flatMap Txn.accs = (addrs inc a ns.sum).map .rd := by
  induction ns generalizing a with
  | nil => simp [rtxns, addrs]
  | cons n ns ih =>
    rw [rtxns, List.flatMap_cons, ih, List.sum_cons, addrs_add, List.map_append, Txn.accs]

theorem wtxns_mem {inc : Bool} {a : W} {chs : List (List W)} {t : Txn} (h : t ∈ wtxns inc a chs) :
    ∃ a' ds, t = .write inc a' ds ∧ ds ∈ chs := by
  induction chs generalizing a with
  | nil => simp [wtxns] at h
  | cons ch chs ih =>
    rw [wtxns, List.mem_cons] at h
    rcases h with rfl | h
    · exact ⟨a, ch, rfl, by simp⟩
    · obtain ⟨a', ds, h1, h2⟩ := ih h; exact ⟨a', ds, h1, by simp [h2]⟩

theorem rtxns_mem {inc : Bool} {a : W} {ns : List Nat} {t : Txn} (h : t ∈ rtxns inc a ns) :
    ∃ a' n, t = .read inc a' n ∧ n ∈ ns := by
  induction ns generalizing a with
  | nil => simp [rtxns] at h
  | cons n ns ih =>
    rw [rtxns, List.mem_cons] at h
    rcases h with rfl | h
    · exact ⟨a, n, rfl, by simp⟩
    · obtain ⟨a', m, h1, h2⟩ := ih h; exact ⟨a', m, h1, by simp [h2]⟩

/-- The kind of handle each call returns. -/
def HandleOK : Op → Nat → Option Handle → Prop
  | .write .., o, h => h = some (.hdr o)
  | .writeMasked .., o, h => h = some (.hdr o)
  | .writeBlock .., o, h => h = some (.hdr o)
  | .read _, o, h => h = some (.word o noMask)
  | .readMasked _ m, o, h => h = some (.word o m)
  | .readBlock _ n _, o, h => h = some (.vec o n.toNat)
  | .readConfig _ m, o, h => h = some (.word o m)
  | .rmwBits .., o, h => h = some (.word o noMask)
  | .rmwSum .., o, h => h = some (.word o noMask)
  | .dispatch, _, h => h = none

section
variable {τ : Type} {c : Cfg} {T : Transport τ} {P : List Buf → τ → Prop} {F : τ → Prop} {Pe : List Buf → Exc → τ → Prop}

theorem mpure_eq {α : Type} (a : α) (s : St τ) : (Pure.pure a : M τ α) s = .ok a s := rfl

theorem masked_rmw {w : Bool} {d m x o : W} (hm : MaskOK w m) (h : maskedArg w d m = .rmw x o) :
    ∃ k, m.getLsbD k = true ∧ (∀ j, j < k → m.getLsbD j = false) ∧ d.toNat * 2 ^ k < 2 ^ 32 ∧
      (∀ i, d.getLsbD i = true → m.getLsbD (k + i) = true) ∧ x = ~~~m ∧ o = BitVec.ofNat 32 (d.toNat * 2 ^ k) := by
  obtain ⟨k, hk, hk32, hk1, hk2⟩ := C02_lowest_bit w m hm
  have hacc := (C03_accept_iff w d m k hm hk1 hk2).1 ⟨x, o, h⟩
  refine ⟨k, hk1, hk2, hacc.1, hacc.2, ?_⟩
  unfold maskedArg at h
  simp only [hk, shl, shr, hk32, if_true] at h
  split at h
  · cases h
  · split at h
    · cases h
    · rename_i h0
      injection h with h1 h2
      refine ⟨h1.symm, ?_⟩
      have hand : d <<< k &&& m = d <<< k := by
        apply BitVec.eq_of_getLsbD_eq
        intro i hi
        have h0' : d <<< k &&& ~~~m = 0#32 := by simpa using h0
        have := congrArg (fun y => y.getLsbD i) h0'
        simp only [BitVec.getLsbD_and, BitVec.getLsbD_not, hi] at this ⊢
        cases hx : (d <<< k).getLsbD i <;> simp_all
      rw [← h2, hand]
      apply BitVec.eq_of_toNat_eq
      rw [BitVec.toNat_shiftLeft, Nat.shiftLeft_eq, BitVec.toNat_ofNat]

/-- The outcome of one call. -/
inductive Step (c : Cfg) (T : Transport τ) (P : List Buf → τ → Prop) (F : τ → Prop) (Pe : List Buf → Exc → τ → Prop) (op : Op) (s : St τ) (G : Gh) :
    Out (St τ) (Option Handle) → Prop
  | ok (h : Option Handle) (s' : St τ) (G' : Gh) (its : List Item) (obj : Nat)
      (rep : Rep c P F s' G') (ext : Ext G G' s.nObj its) (mono : s.nObj ≤ s'.nObj)
      (real : Realises c.ver op (its.map Item.txn)) (hok : HandleOK op obj h)
      (tiles : op ≠ .dispatch → Tiles obj 0 0 its ∧ s.nObj ≤ obj) (disp : op = .dispatch → its = [] ∧ G'.cur = none) :
      Step c T P F Pe op s G (.ok h s')
  | forbidden (a d m : W) (hop : op = .writeMasked a d m) (hf : maskedArg c.wrapNeg d m = .forbidden) :
      Step c T P F Pe op s G (.exc .bitsForbidden s)
  | refused (a m : W) (s' : St τ) (G' : Gh) (hop : op = .readConfig a m) (hv : c.ver = .v1)
      (rep : Rep c P F s' { G' with n := G'.n + 1 }) (ext : Ext G G' s.nObj []) (mono : s.nObj ≤ s'.nObj) :
      Step c T P F Pe op s G (.exc .headerType s')
  | failed (e : Exc) (s' : St τ) (us : List Item) (fail : Failed c T Pe G us s.nObj e s s')
      (real : RealisesPart op (us.map Item.txn)) :
      Step c T P F Pe op s G (.exc e s')

theorem Tiles.one {it : Item} (h1 : it.hk = 0) (h2 : it.off = 0) (h3 : it.last = true) : Tiles it.obj 0 0 [it] :=
  ⟨rfl, h1, h2, h3⟩

theorem step (hw : WF c) (hT : TOK c T P F Pe) {s : St τ} {G : Gh} (hR : Rep c P F s G) (op : Op) (hop : op.ok c) :
    Step c T P F Pe op s G (op.run c T s) := by
  cases op with
  | write a d =>
    rcases implementWrite_spec hw hT hR a d with ⟨s', G', it, h1, h2, h3, h4, h5, h6, h7, h8, h9⟩ | ⟨e, s', h1, h2⟩
    · rw [Op.run, M.bind_ok h1, mpure_eq]
      exact .ok _ s' G' [it] it.obj h2 h3 h4 (by simp [Realises, h5]) rfl (fun _ => ⟨.one h6 h7 h8, h9⟩) (by simp)
    · rw [Op.run, M.bind_exc h1]
      exact .failed e s' [] h2 rfl
  | writeMasked a d m =>
    have hm : MaskOK c.wrapNeg m := hop
    rw [Op.run]
    cases hma : maskedArg c.wrapNeg d m with
    | ub => exact absurd hma (C03_defined _ _ _ hm)
    | forbidden => simp only; exact .forbidden a d m rfl hma
    | rmw x o =>
      simp only
      obtain ⟨k, hk1, hk2, hk3, hk4, rfl, rfl⟩ := masked_rmw hm hma
      rcases implementRMWbits_spec hw hT hR a (~~~m) (BitVec.ofNat 32 (d.toNat * 2 ^ k)) with
        ⟨s', G', it, h1, h2, h3, h4, h5, h6, h7, h8, h9⟩ | ⟨e, s', h1, h2⟩
      · rw [M.bind_ok h1]
        simp only [mpure_eq]
        exact .ok _ s' G' [it] it.obj h2 h3 h4 ⟨k, hk1, hk2, hk3, hk4, by simp [h5]⟩ rfl (fun _ => ⟨.one h6 h7 h8, h9⟩) (by simp)
      · rw [M.bind_exc h1]
        exact .failed e s' [] h2 rfl
  | writeBlock a src inc =>
    have hlen : src.length < 2 ^ 29 := hop
    rcases implementWriteBlock_spec hw hT hR a src inc (by omega) with
      ⟨s', G', its, chs, h1, h2, h3, h4, h5, h6, h7, h8, h9, h10⟩ | ⟨e, s', us, chs, h1, h2, h3, h4⟩
    · rw [Op.run, M.bind_ok h1, mpure_eq]
      refine .ok _ s' G' its s.nObj h2 h3 h4 ⟨?_, ?_, ?_⟩ rfl (fun _ => ⟨h9, Nat.le_refl _⟩) (by simp)
      · rw [h5, wtxns_accs, h6]
      · intro t ht
        rw [h5] at ht
        obtain ⟨a', ds, e1, e2⟩ := wtxns_mem ht
        refine ⟨a', ds, e1, ?_, fun h => h7 h ds e2⟩
        have := h8 ds e2
        unfold wcMax; omega
      · intro hs
        subst hs
        have hnil : ∀ ch ∈ chs, ch = [] := by simpa [List.flatten_eq_nil_iff] using h6
        cases its with
        | nil => exact h9.elim
        | cons it its =>
          cases chs with
          | nil => simp [wtxns] at h5
          | cons ch chs =>
            cases its with
            | nil =>
              have hc := hnil ch (by simp)
              subst hc
              simp only [List.map_cons, List.map_nil, wtxns] at h5 ⊢
              injection h5 with h5 _
              rw [h5]
            | cons it2 its =>
              have := h10 rfl
              simp at this
    · rw [Op.run, M.bind_exc h1]
      refine .failed e s' us h2 ⟨?_, ?_⟩
      · rw [h3, wtxns_accs]
        obtain ⟨t, ht⟩ := h4
        refine ⟨List.zipWith .wr (addrs inc (if inc then a + BitVec.ofNat 32 chs.flatten.length else a) t.length) t, ?_⟩
        rw [← ht, List.length_append, addrs_add, List.zipWith_append (by simp [addrs_length])]
      · intro t ht
        rw [h3] at ht
        obtain ⟨a', ds, e1, e2⟩ := wtxns_mem ht
        exact ⟨a', ds, e1⟩
  | read a =>
    rcases implementRead_spec hw hT hR a noMask with ⟨s', G', it, h1, h2, h3, h4, h5, h6, h7, h8, h9⟩ | ⟨e, s', h1, h2⟩
    · rw [Op.run, M.bind_ok h1, mpure_eq]
      exact .ok _ s' G' [it] it.obj h2 h3 h4 (by simp [Realises, h5]) rfl (fun _ => ⟨.one h6 h7 h8, h9⟩) (by simp)
    · rw [Op.run, M.bind_exc h1]
      exact .failed e s' [] h2 rfl
  | readMasked a m =>
    rcases implementRead_spec hw hT hR a m with ⟨s', G', it, h1, h2, h3, h4, h5, h6, h7, h8, h9⟩ | ⟨e, s', h1, h2⟩
    · rw [Op.run, M.bind_ok h1, mpure_eq]
      exact .ok _ s' G' [it] it.obj h2 h3 h4 (by simp [Realises, h5]) rfl (fun _ => ⟨.one h6 h7 h8, h9⟩) (by simp)
    · rw [Op.run, M.bind_exc h1]
      exact .failed e s' [] h2 rfl
  | readBlock a n inc =>
    have hlen : n.toNat < 2 ^ 29 := hop
    rcases implementReadBlock_spec hw hT hR a n inc (by omega) with
      ⟨s', G', its, ns, h1, h2, h3, h4, h5, h6, h7, h8, h9, h10⟩ | ⟨e, s', us, ns, h1, h2, h3, h4⟩
    · rw [Op.run, M.bind_ok h1, mpure_eq]
      refine .ok _ s' G' its s.nObj h2 h3 h4 ⟨?_, ?_, ?_⟩ rfl (fun _ => ⟨h9, Nat.le_refl _⟩) (by simp)
      · rw [h5, rtxns_accs, h6]
      · intro t ht
        rw [h5] at ht
        obtain ⟨a', k, e1, e2⟩ := rtxns_mem ht
        refine ⟨a', k, e1, ?_, fun h => h7 (by intro h0; exact h (BitVec.eq_of_toNat_eq h0)) k e2⟩
        have := h8 k e2
        unfold wcMax; omega
      · intro hs
        subst hs
        have hl := h10 rfl
        cases its with
        | nil => exact h9.elim
        | cons it its =>
          cases its with
          | cons _ _ => simp at hl
          | nil =>
            cases ns with
            | nil => simp [rtxns] at h5
            | cons k ns =>
              have hk : k = 0 := by simp only [List.sum_cons] at h6; change k + ns.sum = 0 at h6; omega
              subst hk
              simp only [List.map_cons, List.map_nil, rtxns] at h5 ⊢
              injection h5 with h5 _
              rw [h5]
    · rw [Op.run, M.bind_exc h1]
      refine .failed e s' us h2 ⟨?_, ?_⟩
      · rw [h3, rtxns_accs]
        obtain ⟨t, ht⟩ := Nat.exists_eq_add_of_le h4
        rw [ht, addrs_add, List.map_append]
        exact List.prefix_append _ _
      · intro t ht
        rw [h3] at ht
        obtain ⟨a', ds, e1, e2⟩ := rtxns_mem ht
        exact ⟨a', ds, e1⟩
  | readConfig a m =>
    cases hv : c.ver with
    | v1 =>
      rcases readConfig_v1_spec hw hT hR a m hv with ⟨s', G', h1, h2, h3, h4⟩ | ⟨e, s', h1, h2⟩
      · rw [Op.run, M.bind_exc h1]
        exact .refused a m s' G' rfl hv h2 h3 h4
      · rw [Op.run, M.bind_exc h1]
        exact .failed e s' [] h2 rfl
    | v2 =>
      rcases implementReadConfigurationSpace_spec hw hT hR a m hv with
        ⟨s', G', it, h1, h2, h3, h4, h5, h6, h7, h8, h9⟩ | ⟨e, s', h1, h2⟩
      · rw [Op.run, M.bind_ok h1, mpure_eq]
        exact .ok _ s' G' [it] it.obj h2 h3 h4 (by simp [Realises, h5, hv]) rfl (fun _ => ⟨.one h6 h7 h8, h9⟩) (by simp)
      · rw [Op.run, M.bind_exc h1]
        exact .failed e s' [] h2 rfl
  | rmwBits a x o =>
    rcases implementRMWbits_spec hw hT hR a x o with ⟨s', G', it, h1, h2, h3, h4, h5, h6, h7, h8, h9⟩ | ⟨e, s', h1, h2⟩
    · rw [Op.run, M.bind_ok h1, mpure_eq]
      exact .ok _ s' G' [it] it.obj h2 h3 h4 (by simp [Realises, h5]) rfl (fun _ => ⟨.one h6 h7 h8, h9⟩) (by simp)
    · rw [Op.run, M.bind_exc h1]
      exact .failed e s' [] h2 rfl
  | rmwSum a x =>
    rcases implementRMWsum_spec hw hT hR a x with ⟨s', G', it, h1, h2, h3, h4, h5, h6, h7, h8, h9⟩ | ⟨e, s', h1, h2⟩
    · rw [Op.run, M.bind_ok h1, mpure_eq]
      exact .ok _ s' G' [it] it.obj h2 h3 h4 (by simp [Realises, h5]) rfl (fun _ => ⟨.one h6 h7 h8, h9⟩) (by simp)
    · rw [Op.run, M.bind_exc h1]
      exact .failed e s' [] h2 rfl
  | dispatch =>
    rcases dispatch_spec hw hT hR with ⟨s', G', h1, h2, h3, h4, h5⟩ | ⟨e, s', h1, h2⟩
    · rw [Op.run, M.bind_ok h1, mpure_eq]
      exact .ok _ s' G' [] 0 h2 h3 h4 rfl rfl (by simp) (fun _ => ⟨rfl, h5⟩)
    · rw [Op.run, M.bind_exc h1]
      exact .failed e s' [] h2 rfl

end
end Verif
