import Verif.Lemmas.DecodeRun
/-!
# C61: the firmware address decoder selects the slave that the table declares

/repo/uhal/tools/scripts/gen_ipbus_addr_decode writes, for an address table, the VHDL function by which the firmware finds the slave for
an address of the bus. If it writes one: the slaves are the outermost endpoints of the table, and each address that belongs to an endpoint
selects the slave with the name of this endpoint.
-/

set_option autoImplicit false
set_option linter.unusedSimpArgs false

namespace Verif
open Node

namespace Spec

/-- What matters of a line of the table: the ids below the top, the address, how many words, and the firmware information. -/
structure Line where
  path : List Str
  addr : Nat
  len : Nat
  ep : Bool
  width : Option Nat
deriving DecidableEq

/-- A line of the table. A block has several words, everything else one. -/
def Row.line (int : Str → Option Nat) (r : Row) : Line :=
  ⟨r.path.tail, r.addr.toNat, if r.mode = .incremental then r.size.toNat else 1,
    decide (r.info.fw.lookup "type".toList = some "endpoint".toList), (r.info.fw.lookup "width".toList).bind int⟩

/-- `x` is a line of the table, not its top. -/
def IsLine (int : Str → Option Nat) (rows : List Row) (x : Line) : Prop := ∃ r ∈ rows, r.path.tail ≠ [] ∧ r.line int = x

/-- Endpoints that are in no other endpoint. -/
def Outer (E : Line → Prop) (e : Line) : Prop := E e ∧ e.ep = true ∧ ∀ x, E x → x.ep = true → x.path <+: e.path → x = e

/-- Endpoints that contain no other endpoint. -/
def Bottom (E : Line → Prop) (e : Line) : Prop := E e ∧ e.ep = true ∧ ∀ x, E x → x.ep = true → e.path <+: x.path → x = e

/-- The words of a line. -/
def Line.has (x : Line) (a : W) : Prop := x.addr ≤ a.toNat ∧ a.toNat < x.addr + x.len

/-- The name of the constant for an endpoint. -/
def slaveConst (path : List Str) : Str := "N_SLV_".toList ++ ("_".toList).intercalate (path.map fun s => s.map Char.toUpper)

/-- Nodes below an endpoint do not wrap around to lower addresses. -/
def NoWrap (E : Line → Prop) : Prop := ∀ e x, E e → E x → e.ep = true → e.path <+: x.path → e.addr ≤ x.addr

end Spec

open Spec GNode

variable {int : Str → Option Nat} {clog : Nat → Nat}

/-- A node of the script as a line of the table. -/
def GNode.line (g : GNode) : Line := ⟨g.name, g.addr, g.size, g.flag, g.width⟩

theorem isLine_iff {n : Node} {rows : List Row} (hp : n.table.Perm rows) (x : Line) :
    IsLine int rows x ↔ ∃ g ∈ getDescL (Gen.mirrorL int [] n.kids), g.line = x := by
  constructor
  · rintro ⟨r, hr, hne, rfl⟩
    obtain ⟨p, v, hv, rfl⟩ := (mem_table n r).1 (hp.mem_iff.2 hr)
    cases p with
    | nil => exact absurd rfl hne
    | cons i q =>
      refine ⟨_, (Gen.mem_mirror n [] _).2 ⟨i, q, v, hv, rfl⟩, ?_⟩
      rfl
  · rintro ⟨g, hg, rfl⟩
    obtain ⟨i, q, v, hv, rfl⟩ := (Gen.mem_mirror n [] g).1 hg
    refine ⟨rowOf (n.d.uid :: n.ids (i :: q)) v.d, hp.mem_iff.1 ((mem_table n _).2 ⟨_, v, hv, rfl⟩), ?_, rfl⟩
    show n.ids (i :: q) ≠ []
    unfold Node.ids
    simp only [ne_eq, List.map_eq_nil_iff]
    exact lineage_ne (by simp) hv

/-- The outermost endpoints. -/
theorem outer_iff {n : Node} (hu : n.UniqueIds) {rows : List Row} (hp : n.table.Perm rows) (x : Line) :
    Outer (IsLine int rows) x ↔ ∃ g ∈ flaggedL (Gen.mirrorL int [] n.kids), g.line = x := by
  have hn := Gen.mirror_named (int := int) n hu []
  constructor
  · rintro ⟨h1, h2, h3⟩
    obtain ⟨g, hg, rfl⟩ := (isLine_iff hp x).1 h1
    obtain ⟨e, he, hge⟩ := flagged_above hg h2
    have hd := flagged_desc he
    rcases hge with rfl | hge
    · exact ⟨g, he, rfl⟩
    · have hl := hn.longer hd.2 hge
      have := h3 e.line ((isLine_iff hp _).2 ⟨e, hd.2, rfl⟩) hd.1 hl.1
      exact absurd (congrArg Line.path this).symm hl.2
  · rintro ⟨e, he, rfl⟩
    have hd := flagged_desc he
    refine ⟨(isLine_iff hp _).2 ⟨e, hd.2, rfl⟩, hd.1, ?_⟩
    intro x hx hxe hpx
    obtain ⟨g, hg, rfl⟩ := (isLine_iff hp x).1 hx
    rw [hn.outermost he hg hxe hpx]

/-- The innermost endpoints. -/
theorem bottom_iff {n : Node} (hu : n.UniqueIds) {rows : List Row} (hp : n.table.Perm rows) {g : GNode} (hg : g ∈ getDescL (Gen.mirrorL int [] n.kids)) :
    Bottom (IsLine int rows) g.line ↔ g.flag = true ∧ flagged g = [] := by
  have hn := Gen.mirror_named (int := int) n hu []
  constructor
  · rintro ⟨_, h2, h3⟩
    refine ⟨h2, ?_⟩
    rw [flagged_eq]
    refine List.eq_nil_iff_forall_not_mem.2 fun e he => ?_
    have hd := flagged_desc he
    rw [← getDesc_eq] at hd
    have hl := hn.longer hg hd.2
    have := h3 e.line ((isLine_iff hp _).2 ⟨e, getDescL_trans hg hd.2, rfl⟩) hd.1 hl.1
    exact hl.2 (congrArg Line.path this)
  · rintro ⟨h1, h2⟩
    refine ⟨(isLine_iff hp _).2 ⟨g, hg, rfl⟩, h1, ?_⟩
    intro x hx hxe hpx
    obtain ⟨y, hy, rfl⟩ := (isLine_iff hp x).1 hx
    rcases hn.inside hg hy hpx with rfl | hin
    · rfl
    · rw [getDesc_eq] at hin
      obtain ⟨e, he, _⟩ := flagged_above hin hxe
      rw [flagged_eq] at h2
      rw [h2] at he; cases he

theorem toUpper_dot (c : Char) : c.toUpper = '.' ↔ c = '.' := by
  constructor
  · intro h
    unfold Char.toUpper at h
    split at h
    · rename_i hc
      have := congrArg (fun c => c.val.toNat) h
      simp only [UInt32.toNat_add] at this
      have e := UInt32.le_iff_toNat_le.1 hc.1
      have e' := UInt32.le_iff_toNat_le.1 hc.2
      simp at this e e'
      omega
    · exact h
  · rintro rfl; rfl

theorem map_intercalate {α β : Type} (f : α → β) (sep : List α) (l : List (List α)) :
    (sep.intercalate l).map f = (sep.map f).intercalate (l.map fun x => x.map f) := by
  induction l with
  | nil => rfl
  | cons x l ih =>
    cases l with
    | nil => simp [List.intercalate]
    | cons y l =>
      simp only [List.intercalate, List.intersperse, List.map_cons, List.flatten_cons, List.map_append] at ih ⊢
      rw [ih]

/-- The name of the constant, for ids without dots. -/
theorem constName_eq {id : List Str} (h : ∀ s ∈ id, '.' ∉ s) : Decoder.constName id = slaveConst id := by
  unfold Decoder.constName slaveConst
  rw [map_intercalate]
  congr 2
  apply List.map_congr_left
  intro s hs
  apply List.map_congr_left
  intro c hc
  rw [if_neg]
  rw [toUpper_dot]
  rintro rfl
  exact h s hs hc

theorem ids_noDot {n : Node} (hg : n.GoodIds) {g : GNode} (h : g ∈ getDescL (Gen.mirrorL int [] n.kids)) : ∀ s ∈ g.name, '.' ∉ s := by
  obtain ⟨i, q, v, hv, rfl⟩ := (Gen.mem_mirror n [] g).1 h
  intro x hx
  obtain ⟨k, hk, rfl⟩ := List.mem_map.1 hx
  exact (Node.lineage_good hg _ k hk).2

section main
variable {n : Node} {rows : List Row} {d : Decoder}

/-- The slaves are the outermost endpoints, each once; slave `j` has the number `j` under the name of the endpoint; the numbers fit. -/
theorem C61_slaves (hg : n.GoodIds) (hu : n.UniqueIds) (hp : n.table.Perm rows) (h : Gen.run int clog n = some d) :
    (d.slaves.map Slave.id).Nodup ∧ (∀ p, p ∈ d.slaves.map Slave.id ↔ ∃ e, Outer (IsLine int rows) e ∧ e.path = p) ∧
    d.consts = d.slaves.mapIdx (fun j s => (slaveConst s.id, j)) ∧ d.slaves.length < 2 ^ d.selWidth := by
  have hperm := Gen.run_ids hg hu h
  have hn := Gen.mirror_named (int := int) n hu []
  obtain ⟨ks, w, h1, h2, h3⟩ := Gen.run_some hg hu h
  have hmem : ∀ p, p ∈ d.slaves.map Slave.id ↔ ∃ g ∈ flaggedL (Gen.mirrorL int [] n.kids), g.name = p := by
    intro p; rw [hperm.mem_iff, List.mem_map]
  refine ⟨hperm.nodup_iff.2 (hn.nodup.sublist ((flaggedL_sublist _).map _)), ?_, ?_, Decoder.selWidth_fits h3⟩
  · intro p
    rw [hmem]
    constructor
    · rintro ⟨g, hg', rfl⟩; exact ⟨g.line, (outer_iff hu hp _).2 ⟨g, hg', rfl⟩, rfl⟩
    · rintro ⟨e, he, rfl⟩
      obtain ⟨g, hg', rfl⟩ := (outer_iff hu hp _).1 he
      exact ⟨g, hg', rfl⟩
  · obtain ⟨_, _, hc, _⟩ := Decoder.ofTree_some h3
    rw [hc]
    apply List.ext_getElem?
    intro j
    rw [List.getElem?_mapIdx, List.getElem?_mapIdx]
    cases hj : d.slaves[j]? with
    | none => rfl
    | some s =>
      have : s.id ∈ d.slaves.map Slave.id := List.mem_map_of_mem (List.mem_of_getElem? hj)
      obtain ⟨g, hg', e⟩ := (hmem _).1 this
      simp only [Option.map_some]
      rw [constName_eq]
      rw [← e]
      exact ids_noDot hg (flagged_desc hg').2

/-- The ranges of the slaves: they start at the declared addresses, have the declared widths if there are any, do not overlap, and each
address in one selects its slave. -/
theorem C61_ranges (hg : n.GoodIds) (hu : n.UniqueIds) (hp : n.table.Perm rows) (h : Gen.run int clog n = some d) {e : Line}
    (he : Outer (IsLine int rows) e) :
    ∃ (j w : Nat), d.consts[j]? = some (slaveConst e.path, j) ∧ (∀ x, e.width = some x → w = x) ∧ w ≤ 32 ∧ e.addr % 2 ^ w = 0 ∧
      ∀ a : W, e.addr ≤ a.toNat → a.toNat < e.addr + 2 ^ w → d.sel a = j := by
  obtain ⟨g, hg', rfl⟩ := (outer_iff hu hp e).1 he
  obtain ⟨e', j, s, r1, r2, r3, r4, r5, r6⟩ := Gen.run_slave hg hu h hg'
  obtain ⟨_, _, hc, _⟩ := C61_slaves hg hu hp h
  obtain ⟨ks, w, h1, h2, h3⟩ := Gen.run_some hg hu h
  refine ⟨j, s.width, ?_, ?_, r6, ?_, ?_⟩
  · rw [hc, List.getElem?_mapIdx, r2, Option.map_some, r3]; rfl
  · intro x hx
    obtain ⟨_, w', _, rfl, q, _⟩ := assign_some r1
    rw [r5]
    exact widthOf_dec q hx
  · obtain ⟨_, w', _, rfl, q, q'⟩ := assign_some r1
    rw [r5]
    exact q'
  · intro a ha hb
    refine Decoder.sel_range h3 r2 ⟨?_, ?_⟩
    · rw [r4]; exact ha
    · rw [r4]; exact hb

/-- All words of an endpoint that is in no endpoint and contains none select its slave. Excluded: nodes whose address wraps around. -/
theorem C61_content_partial (hg : n.GoodIds) (hu : n.UniqueIds) (hp : n.table.Perm rows) (h : Gen.run int clog n = some d) {e : Line}
    (he : Outer (IsLine int rows) e) (hb : Bottom (IsLine int rows) e) :
    ∃ j, d.consts[j]? = some (slaveConst e.path, j) ∧
      ∀ x, IsLine int rows x → e.path <+: x.path → e.addr ≤ x.addr → ∀ a, x.has a → d.sel a = j := by
  obtain ⟨g, hg', rfl⟩ := (outer_iff hu hp e).1 he
  have hn := Gen.mirror_named (int := int) n hu []
  have hd := flagged_desc hg'
  obtain ⟨_, hb0⟩ := (bottom_iff hu hp hd.2).1 hb
  obtain ⟨e', j, s, r1, r2, r3, r4, r5, r6⟩ := Gen.run_slave hg hu h hg'
  obtain ⟨_, _, hc, _⟩ := C61_slaves hg hu hp h
  obtain ⟨ks, w, h1, h2, h3⟩ := Gen.run_some hg hu h
  obtain ⟨b1, b2, b3⟩ := assign_bottom hb0 r1
  rw [b1] at r5
  refine ⟨j, by rw [hc, List.getElem?_mapIdx, r2, Option.map_some, r3]; rfl, ?_⟩
  intro x hx hpx hle a ha
  obtain ⟨y, hy, rfl⟩ := (isLine_iff hp x).1 hx
  obtain ⟨a1, a2⟩ := ha
  have a1 : y.addr ≤ a.toNat := a1
  have a2 : a.toNat < y.addr + y.size := a2
  have hle : g.addr ≤ y.addr := hle
  refine Decoder.sel_range h3 r2 ⟨by omega, ?_⟩
  rw [r4, r5]
  simp only [Option.getD_some]
  rcases hn.inside hd.2 hy hpx with rfl | hin
  · omega
  · have := b3 y hin
    omega

/-- The same for endpoints in endpoints: the slave is that of the outermost one. Excluded: tables in which an address wraps around,
and tables in which, somewhere, the last inner endpoint is not the one that ends last (`t` is the tree of the script). `clog`: any function
that gives enough bits for the numbers that can occur. -/
theorem C61_nested_partial (hg : n.GoodIds) (hu : n.UniqueIds) (hp : n.table.Perm rows) (h : Gen.run int clog n = some d)
    (hc1 : ∀ x, x ≤ 2 ^ 33 → x ≤ 2 ^ clog x) (hc2 : ∀ x, 2 ^ 33 < x → 33 ≤ clog x) (hw : NoWrap (IsLine int rows))
    (ht : ∀ t, (Gen.tree int n).bind (GNode.assign clog) = some t → ∀ x ∈ getDesc t, x.flag = true → Tidy x) {e b : Line}
    (he : Outer (IsLine int rows) e) (hb : Bottom (IsLine int rows) b) (heb : e.path <+: b.path) :
    ∃ j, d.consts[j]? = some (slaveConst e.path, j) ∧
      ∀ x, IsLine int rows x → b.path <+: x.path → ∀ a, x.has a → d.sel a = j := by
  obtain ⟨g, hg', rfl⟩ := (outer_iff hu hp e).1 he
  have hn := Gen.mirror_named (int := int) n hu []
  have hd := flagged_desc hg'
  obtain ⟨gb, hgb, rfl⟩ := (isLine_iff hp b).1 hb.1
  obtain ⟨hbf, hb0⟩ := (bottom_iff hu hp hgb).1 hb
  obtain ⟨e', j, s, r1, r2, r3, r4, r5, r6⟩ := Gen.run_slave hg hu h hg'
  obtain ⟨_, _, hc, _⟩ := C61_slaves hg hu hp h
  have hrun := h
  unfold Gen.run at hrun
  rw [Option.bind_eq_some_iff] at hrun
  obtain ⟨t, htr, hrun⟩ := hrun
  rw [Option.bind_eq_some_iff] at hrun
  obtain ⟨t', htr', hrun⟩ := hrun
  have htm := Gen.tree_mirror hg hu htr
  have hT := ht t' (by rw [htr]; exact htr')
  rw [htm] at htr'
  obtain ⟨ks, w, h1, rfl, h2, _⟩ := assign_some htr'
  have hm : assign clog g ∈ (flaggedL ks).map some := by rw [← assignL_flagged h1]; exact List.mem_map_of_mem hg'
  obtain ⟨e2, he2, hee⟩ := List.mem_map.1 hm
  rw [r1, Option.some_inj] at hee
  subst hee
  have hd' := flagged_desc ((flaggedL_perm (Node.stableSort_perm addr ks)).mem_iff.2 he2)
  have hed : e2 ∈ getDesc (.mk ["TOP".toList] 0 false 0 (some w) (stableSort addr ks)) := by rw [getDesc_eq]; exact hd'.2
  refine ⟨j, by rw [hc, List.getElem?_mapIdx, r2, Option.map_some, r3]; rfl, ?_⟩
  intro x hx hpx a ha
  obtain ⟨y, hy, rfl⟩ := (isLine_iff hp x).1 hx
  obtain ⟨a1, a2⟩ := ha
  have a1 : y.addr ≤ a.toNat := a1
  have a2 : a.toNat < y.addr + y.size := a2
  have hle : g.addr ≤ y.addr := hw g.line y.line ((isLine_iff hp _).2 ⟨g, hd.2, rfl⟩) hx hd.1 (List.IsPrefix.trans heb hpx)
  have key := nested_fits hc1 hc2 g e2 r1 (fun x hx hxf => hT x (by
      rcases hx with rfl | hx
      · exact hed
      · exact getDesc_trans hed hx) hxf) hd.1 (fun x z hxm hxf hz => by
      have hx' : x ∈ getDescL (Gen.mirrorL int [] n.kids) := by
        rcases hxm with rfl | hxm
        · exact hd.2
        · exact getDescL_trans hd.2 hxm
      exact hw x.line z.line ((isLine_iff hp _).2 ⟨x, hx', rfl⟩) ((isLine_iff hp _).2 ⟨z, getDescL_trans hx' hz, rfl⟩) hxf (hn.longer hx' hz).1)
    gb (hn.inside hd.2 hgb heb) hbf hb0 y (hn.inside hgb hy hpx)
  refine Decoder.sel_range hrun r2 ⟨by omega, ?_⟩
  rw [r4, r5]
  omega

/-- If there is an endpoint, no leaf of the table is outside of all. -/
theorem C61_covered (hg : n.GoodIds) (hu : n.UniqueIds) (hp : n.table.Perm rows) (h : Gen.run int clog n = some d)
    (hne : ∃ e, IsLine int rows e ∧ e.ep = true) (x : Line) (hx : IsLine int rows x)
    (hl : ∀ y, IsLine int rows y → x.path <+: y.path → y = x) : ∃ e, Outer (IsLine int rows) e ∧ e.path <+: x.path := by
  have hn := Gen.mirror_named (int := int) n hu []
  have hf : flaggedL (Gen.mirrorL int [] n.kids) ≠ [] := by
    obtain ⟨e, he, hf⟩ := hne
    obtain ⟨g, hg', rfl⟩ := (isLine_iff hp e).1 he
    obtain ⟨k, hk, _⟩ := flagged_above hg' hf
    exact List.ne_nil_of_mem hk
  have h0 := Gen.run_leaves hg hu h hf
  obtain ⟨g, hg', rfl⟩ := (isLine_iff hp x).1 hx
  have hd : g.desc = [] := by
    cases hgd : g.desc with
    | nil => rfl
    | cons k l =>
      have hk : k ∈ getDesc g := by rw [getDesc_eq, hgd]; exact mem_getDescL.2 ⟨k, by simp, .inl rfl⟩
      have hlo := hn.longer hg' hk
      exact absurd (congrArg Line.path (hl k.line ((isLine_iff hp _).2 ⟨k, getDescL_trans hg' hk, rfl⟩) hlo.1)) hlo.2
  rcases leaf_above hg' hd with hx | ⟨e, he, hge⟩
  · rw [h0] at hx; cases hx
  · refine ⟨e.line, (outer_iff hu hp _).2 ⟨e, he, rfl⟩, ?_⟩
    rcases hge with rfl | hge
    · exact List.prefix_rfl
    · exact (hn.longer (flagged_desc he).2 hge).1

/-- A leaf for the script: no endpoint above. -/
theorem leaves_out {p : List Str} {l : List GNode} (h : Named p l) {g : GNode} (hg : g ∈ getLeavesL l) : g ∈ getDescL l ∧ g.desc = [] ∧
    ∀ e ∈ getDescL l, e.flag = true → ¬ e.name <+: g.name := by
  have hh := h
  induction h with
  | @mk p l h1 h2 h3 ih =>
    obtain ⟨k, hk, hkf, hkg⟩ := mem_getLeavesL.1 hg
    have hkd : k ∈ getDescL l := mem_getDescL.2 ⟨k, hk, .inl rfl⟩
    rcases hkg with ⟨hd, rfl⟩ | ⟨hd, hkg⟩
    · refine ⟨hkd, hd, ?_⟩
      intro e he hef hpre
      obtain ⟨x, hx⟩ := h2 g hk
      obtain ⟨y, ys, hy⟩ := hh.under he
      have : e = g := hh.inj he hkd (hpre.eq_of_length (Nat.le_antisymm hpre.length_le (by rw [hx, hy]; simp)))
      rw [this, hkf] at hef; cases hef
    · rw [getLeaves_eq] at hkg
      obtain ⟨i1, i2, i3⟩ := ih k hk hkg (h3 k hk)
      have hgk : g ∈ getDesc k := by rw [getDesc_eq]; exact i1
      refine ⟨getDescL_trans hkd hgk, i2, ?_⟩
      intro e he hef hpre
      have hkg' := (hh.longer hkd hgk).1
      obtain ⟨x, hx⟩ := h2 k hk
      obtain ⟨y, ys, hy⟩ := hh.under he
      have hke : k.name <+: e.name := List.prefix_of_prefix_length_le hkg' hpre (by rw [hx, hy]; simp)
      rcases hh.kid hk he hke with rfl | hin
      · rw [hkf] at hef; cases hef
      · rw [getDesc_eq] at hin
        exact i3 e hin hef hpre

/-- A table in which no endpoint contains another one, all leaves are in endpoints, the content of each endpoint is inside its range,
and the ranges are aligned and do not overlap, is accepted. Missing: tables with endpoints in endpoints, see `C61_violated_width`. -/
theorem C61_accepts_partial (hg : n.GoodIds) (hu : n.UniqueIds) (hp : n.table.Perm rows)
    (hi : ∀ r ∈ rows, ∀ s, r.info.fw.lookup "width".toList = some s → ∃ w, int s = some w)
    (h0 : ∀ r ∈ rows, r.path.tail = [] → r.info.fw.lookup "width".toList = none)
    (hne : ∃ e, IsLine int rows e ∧ e.ep = true)
    (hflat : ∀ e x, IsLine int rows e → IsLine int rows x → e.ep = true → x.ep = true → e.path <+: x.path → x = e)
    (hcov : ∀ x, IsLine int rows x → (∀ y, IsLine int rows y → x.path <+: y.path → y = x) → ∃ e, IsLine int rows e ∧ e.ep = true ∧ e.path <+: x.path)
    (hfit : ∀ e, IsLine int rows e → e.ep = true → e.width.getD 0 ≤ 32 ∧ e.addr % 2 ^ e.width.getD 0 = 0 ∧
      ∀ x, IsLine int rows x → e.path <+: x.path → x.addr + x.len ≤ e.addr + 2 ^ e.width.getD 0)
    (hdis : ∀ e x, IsLine int rows e → IsLine int rows x → e.ep = true → x.ep = true → e ≠ x →
      e.addr + 2 ^ e.width.getD 0 ≤ x.addr ∨ x.addr + 2 ^ x.width.getD 0 ≤ e.addr) :
    ∃ d, Gen.run int clog n = some d := by
  have hn := Gen.mirror_named (int := int) n hu []
  have isL : ∀ g ∈ getDescL (Gen.mirrorL int [] n.kids), IsLine int rows g.line := fun g h => (isLine_iff hp _).2 ⟨g, h, rfl⟩
  have hbot : ∀ g ∈ flaggedL (Gen.mirrorL int [] n.kids), flagged g = [] := by
    intro g h
    have hd := flagged_desc h
    exact ((bottom_iff hu hp hd.2).1 ⟨isL g hd.2, hd.1, fun x hx hxe hpre => hflat g.line x (isL g hd.2) hx hd.1 hxe hpre⟩).2
  -- the tree
  have hw : ∀ p v, n.sub? p = some v → ∃ w, Gen.widthEntry int v.d.fw = some w := by
    intro p v hv
    have hr : rowOf (n.d.uid :: n.ids p) v.d ∈ rows := hp.mem_iff.1 ((mem_table n _).2 ⟨p, v, hv, rfl⟩)
    unfold Gen.widthEntry
    cases hl : v.d.fw.lookup "width".toList with
    | none => exact ⟨none, rfl⟩
    | some s =>
      obtain ⟨w, e⟩ := hi _ hr s hl
      exact ⟨some w, by simp only [e]; rfl⟩
  have htree : ∃ t, Gen.tree int n = some t := by
    obtain ⟨w, hw0⟩ := hw [] n (sub?_nil n)
    have hall : ∃ es, mapAll (Gen.entry int n) n.getNodes = some es := by
      apply mapAll_ok
      intro id hid
      unfold Node.getNodes at hid
      obtain ⟨pos, hpos, rfl⟩ := List.mem_map.1 hid
      obtain ⟨_, v, hv⟩ := (Node.mem_positions n pos).1 hpos
      obtain ⟨w, hwv⟩ := hw pos v hv
      unfold Gen.entry devNode
      rw [C33_listed hg hu pos hpos]
      simp only [Option.bind_some, hv, Option.map_some, hwv]
      exact ⟨_, rfl⟩
    obtain ⟨es, hes⟩ := hall
    exact ⟨_, by rw [Gen.tree, hw0, Option.bind_some, hes]; rfl⟩
  obtain ⟨t, ht⟩ := htree
  have htm := Gen.tree_mirror hg hu ht
  have hroot : n.d.fw.lookup "width".toList = none :=
    h0 (rowOf (n.d.uid :: n.ids []) n.d) (hp.mem_iff.1 ((mem_table n _).2 ⟨[], n, sub?_nil n, rfl⟩)) rfl
  rw [hroot] at htm
  -- the widths
  have hass : ∃ ks, assignL clog (Gen.mirrorL int [] n.kids) = some ks := by
    apply assignL_ok
    intro e he
    have hd := flagged_desc he
    obtain ⟨f1, f2, f3⟩ := hfit e.line (isL e hd.2) hd.1
    refine assign_bottom_ok (hbot e he) ?_ ?_ f2
    · have := f3 e.line (isL e hd.2) List.prefix_rfl
      have this : e.addr + e.size ≤ e.addr + 2 ^ e.width.getD 0 := this
      omega
    · intro i hin
      exact f3 i.line (isL i (getDescL_trans hd.2 hin)) (hn.longer hd.2 hin).1
  obtain ⟨ks, hks⟩ := hass
  have hperm := Node.stableSort_perm addr ks
  have hfl := assignL_flagged hks
  have hfne : flaggedL (stableSort addr ks) ≠ [] := by
    intro h0'
    have := List.Perm.eq_nil (h0' ▸ (flaggedL_perm hperm).symm)
    rw [this] at hfl
    simp only [List.map_nil, List.map_eq_nil_iff] at hfl
    obtain ⟨e, he, hf⟩ := hne
    obtain ⟨g, hg', rfl⟩ := (isLine_iff hp e).1 he
    obtain ⟨k, hk, _⟩ := flagged_above hg' hf
    rw [hfl] at hk; cases hk
  have hleaf : getLeavesL (stableSort addr ks) = [] := by
    have e := assignL_leaves hks
    have hM : getLeavesL (Gen.mirrorL int [] n.kids) = [] := by
      refine List.eq_nil_iff_forall_not_mem.2 fun g hgl => ?_
      obtain ⟨l1, l2, l3⟩ := leaves_out hn hgl
      obtain ⟨e, he, hef, hpre⟩ := hcov g.line (isL g l1) (by
        intro y hy hpre
        obtain ⟨z, hz, rfl⟩ := (isLine_iff hp y).1 hy
        rcases hn.inside l1 hz hpre with rfl | hin
        · rfl
        · rw [getDesc_eq, l2] at hin; cases hin)
      obtain ⟨z, hz, rfl⟩ := (isLine_iff hp e).1 he
      exact l3 z hz hef hpre
    rw [hM, List.map_nil, eq_comm, List.map_eq_nil_iff] at e
    exact List.Perm.eq_nil (e ▸ getLeavesL_perm hperm)
  have hassign : ∃ w, assign clog t = some (.mk ["TOP".toList] 0 false 0 (some w) (stableSort addr ks)) := by
    rw [htm, assign_eq]
    simp only [desc_mk, hks, Option.bind_some, name_mk, addr_mk, flag_mk, size_mk, width_mk, Option.bind_none]
    have hf : flagged (.mk ["TOP".toList] 0 false 0 none (stableSort addr ks)) ≠ [] := by rw [flagged_eq]; exact hfne
    have hwo := (widthOf_outer (clog := clog) hf (w := clog (maxAddr (flagged (.mk ["TOP".toList] 0 false 0 none (stableSort addr ks))) - 0))).2
      ⟨(by rw [getLeaves_eq]; exact hleaf), (by intro x hx; cases hx), fun _ => ⟨maxAddr_pos hf, rfl⟩⟩
    exact ⟨_, by unfold finish; rw [hwo]; exact if_neg (by simp)⟩
  obtain ⟨w, hassign⟩ := hassign
  -- the slaves
  have hel : ∀ e' ∈ flaggedL (stableSort addr ks), ∃ e ∈ flaggedL (Gen.mirrorL int [] n.kids), e'.name = e.name ∧ e'.addr = e.addr ∧ e'.width = some (e.width.getD 0) := by
    intro e' he'
    have : some e' ∈ (flaggedL (Gen.mirrorL int [] n.kids)).map (assign clog) := by
      rw [hfl]; exact List.mem_map_of_mem ((flaggedL_perm hperm).mem_iff.1 he')
    obtain ⟨e, he, hee⟩ := List.mem_map.1 this
    obtain ⟨_, a2, a3, _⟩ := assign_flag hee
    exact ⟨e, he, a2, a3, (assign_bottom (hbot e he) hee).1⟩
  have hnd : ((flaggedL (stableSort addr ks)).map name).Nodup := by
    have e2 : (flaggedL ks).map name = (flaggedL (Gen.mirrorL int [] n.kids)).map name := by
      have : ∀ (l l' : List GNode), l.map (assign clog) = l'.map some → l'.map name = l.map name := by
        intro l
        induction l with
        | nil => intro l' h; cases l' with
          | nil => rfl
          | cons => simp at h
        | cons g l ih =>
          intro l' h
          cases l' with
          | nil => simp at h
          | cons g' l' =>
            simp only [List.map_cons, List.cons.injEq] at h
            rw [List.map_cons, List.map_cons, ih l' h.2, (assign_flag h.1).2.1]
      exact this _ _ hfl
    rw [((flaggedL_perm hperm).map name).nodup_iff, e2]
    exact hn.nodup.sublist ((flaggedL_sublist _).map _)
  have hcl : Decoder.clashes (flaggedL (stableSort addr ks)) = false := by
    apply Decoder.clashes_ok
    have key : ∀ a ∈ flaggedL (stableSort addr ks), ∀ b ∈ flaggedL (stableSort addr ks), a.name ≠ b.name → Decoder.clash a b = false := by
      intro a ha b hb hab
      obtain ⟨ea, hea, a1, a2, a3⟩ := hel a ha
      obtain ⟨eb, heb, b1, b2, b3⟩ := hel b hb
      have hda := flagged_desc hea
      have hdb := flagged_desc heb
      have := hdis ea.line eb.line (isL ea hda.2) (isL eb hdb.2) hda.1 hdb.1 (fun e => hab (by rw [a1, b1]; exact congrArg Line.path e))
      have this : ea.addr + 2 ^ ea.width.getD 0 ≤ eb.addr ∨ eb.addr + 2 ^ eb.width.getD 0 ≤ ea.addr := this
      have := Nat.two_pow_pos (eb.width.getD 0)
      have := Nat.two_pow_pos (ea.width.getD 0)
      unfold Decoder.clash
      rw [a2, a3, b2, Option.getD_some]
      simp only [decide_eq_false_iff_not]
      omega
    have hpw : (flaggedL (stableSort addr ks)).Pairwise fun a b => a.name ≠ b.name := by
      unfold List.Nodup at hnd
      rwa [List.pairwise_map] at hnd
    exact hpw.imp_of_mem fun {a b} ha hb hab => ⟨key a ha b hb hab, key b hb a ha (Ne.symm hab)⟩
  have hsl : ∃ ss, mapAll Decoder.slaveOf (flaggedL (stableSort addr ks)) = some ss := by
    apply mapAll_ok
    intro e' he'
    obtain ⟨e, he, a1, a2, a3⟩ := hel e' he'
    have hd := flagged_desc he
    obtain ⟨f1, f2, _⟩ := hfit e.line (isL e hd.2) hd.1
    apply Decoder.slaveOf_ok
    · rw [a2]
      obtain ⟨i, q, v, _, rfl⟩ := (Gen.mem_mirror n [] e).1 hd.2
      exact v.d.addr.isLt
    · rw [a3]; exact f1
    · rw [a2, a3]; exact f2
  obtain ⟨ss, hss⟩ := hsl
  apply Option.isSome_iff_exists.1
  unfold Gen.run
  rw [ht, Option.bind_some, hassign, Option.bind_some]
  unfold Decoder.ofTree
  simp only [flagged_eq, desc_mk]
  rw [hcl, hss]
  rfl

end main

/-- **C61**, from the files to the decoder: the outermost endpoints that the files declare are the slaves, and all words declared for one that
contains no other endpoint select it. Excluded: nodes whose address wraps around; see `C61_nested_partial` for endpoints in endpoints. -/
theorem C61_partial {env : BuildEnv} (hs : env.Sorts) (hp : env.Protocols) {k k' : NodeCache} (hc : Coherent env k) {f cur : Str} {t : Decl}
    (hd : Declared env disjJ f cur t) (hn : ((t.rows 0#32).map Row.path).Nodup) {F : Nat} {n : Node} (hb : getNodeTree env true F f cur k = .ok n k')
    {d : Decoder} (h : Gen.run int clog n = some d) :
    (∀ p, p ∈ d.slaves.map Slave.id ↔ ∃ e, Outer (IsLine int (t.rows 0#32)) e ∧ e.path = p) ∧
    ∀ e, Outer (IsLine int (t.rows 0#32)) e → Bottom (IsLine int (t.rows 0#32)) e →
      ∃ j, d.consts[j]? = some (slaveConst e.path, j) ∧
        ∀ x, IsLine int (t.rows 0#32) x → e.path <+: x.path → e.addr ≤ x.addr → ∀ a, x.has a → d.sel a = j := by
  obtain ⟨g1, g2, g3⟩ := built_ids hs hp hc hd hn hb
  exact ⟨(C61_slaves g1 g2 g3 h).2.1, fun e he hb => C61_content_partial g1 g2 g3 h he hb⟩

/-! ### Examples -/

namespace Demo61

/-- Decimal numbers. -/
def dec (s : Str) : Option Nat := s.foldl (fun x c => x.bind fun v => if '0' ≤ c ∧ c ≤ '9' then some (10 * v + (c.toNat - 48)) else none) (some 0)

def env (doc : Xml) : BuildEnv where
  open_ e _ := some [("file".toList, e)]
  file _ p := if p = "a".toList then some doc else none
  known _ := false
  sort := stableSort (fun n => n.d.addr.toNat)

def tree (doc : Xml) : Option Node := match getNodeTree (env doc) true 2 "a".toList [] [] with | .ok n _ => some n | _ => none

/-- An element with id, address, firmware information and further attributes. -/
def el (id addr fw : String) (more : List (Attr × String)) (kids : List Xml) : Xml :=
  .el ([(Attr.id.name, id.toList), (Attr.address.name, addr.toList)] ++ (if fw = "" then [] else [(Attr.fwinfo.name, fw.toList)]) ++
    more.map fun x => (x.1.name, x.2.toList)) kids

def top (kids : List Xml) : Xml := .el [(Attr.id.name, "TOP".toList)] kids

/-- The lines of a table. -/
def lines (rows : List Row) : List Line := (rows.filter fun r => !r.path.tail.isEmpty).map (Row.line dec)

theorem isLine (rows : List Row) (x : Line) : IsLine dec rows x ↔ x ∈ lines rows := by
  unfold IsLine lines
  rw [List.mem_map]
  constructor
  · rintro ⟨r, h1, h2, h3⟩; exact ⟨r, List.mem_filter.2 ⟨h1, by simpa using h2⟩, h3⟩
  · rintro ⟨r, h1, h3⟩; obtain ⟨h1, h2⟩ := List.mem_filter.1 h1; exact ⟨r, h1, by simpa using h2, h3⟩

theorem lines_eq (rows : List Row) : IsLine dec rows = fun x => x ∈ lines rows := funext fun x => propext (isLine rows x)

/-- Two endpoints and one in a group. -/
def good : Xml := top
  [el "A" "0x0" "endpoint;width=4" [] [el "R" "0x0" "" [] [], el "S" "0xF" "" [] []],
   el "B" "0x100" "endpoint;width=8" [(.mode, "block"), (.size, "0x100")] [],
   el "G" "0x1000" "" [] [el "C" "0x30" "endpoint;width=2" [(.mode, "block"), (.size, "4")] []]]

/-- `C61_content_partial` and the other theorems apply to this table: what the script does with it. -/
example : ((tree good).bind (Gen.run dec pyClog)).map (fun d => (d.consts.map (fun x => (String.ofList x.1, x.2)), d.selWidth,
    [0x0, 0xF, 0x100, 0x1FF, 0x1030, 0x1033].map d.sel)) =
    some ([("N_SLV_A", 0), ("N_SLV_B", 1), ("N_SLV_G_C", 2)], 2, [0, 0, 1, 1, 2, 2]) := by decide +kernel

/-- What the checks below establish. -/
structure Facts (n : Node) : Prop where
  good : n.GoodIds
  unique : n.UniqueIds
  perm : n.table.Perm n.table

def wellNamed (n : Node) : Bool :=
  (n.table.all fun r => decide (∀ s ∈ r.path.tail, s ≠ [] ∧ '.' ∉ s)) && decide (n.table.map Row.path).Nodup

theorem facts {n : Node} (h : wellNamed n = true) : Facts n := by
  unfold wellNamed at h
  simp only [Bool.and_eq_true, List.all_eq_true, decide_eq_true_eq] at h
  exact ⟨goodIds_of_table n fun r hr => h.1 r hr, uniqueIds_of_table n h.2, List.Perm.refl _⟩

def outerB (l : List Line) (e : Line) : Bool := decide (e ∈ l) && e.ep && l.all fun x => !(x.ep && decide (x.path <+: e.path)) || decide (x = e)
def bottomB (l : List Line) (e : Line) : Bool := decide (e ∈ l) && e.ep && l.all fun x => !(x.ep && decide (e.path <+: x.path)) || decide (x = e)
def noWrapB (l : List Line) : Bool := l.all fun e => l.all fun x => !(e.ep && decide (e.path <+: x.path)) || decide (e.addr ≤ x.addr)

theorem outer_of {n : Node} {e : Line} (h : outerB (lines n.table) e = true) : Outer (IsLine dec n.table) e := by
  rw [lines_eq]
  unfold outerB at h
  simp only [Bool.and_eq_true, List.all_eq_true, decide_eq_true_eq, Bool.or_eq_true, Bool.not_eq_true', Bool.and_eq_false_iff] at h
  refine ⟨h.1.1, h.1.2, fun x hx he hp => ?_⟩
  rcases h.2 x hx with (h | h) | h
  · rw [he] at h; cases h
  · simp only [decide_eq_false_iff_not] at h; exact absurd hp h
  · exact h

theorem bottom_of {n : Node} {e : Line} (h : bottomB (lines n.table) e = true) : Bottom (IsLine dec n.table) e := by
  rw [lines_eq]
  unfold bottomB at h
  simp only [Bool.and_eq_true, List.all_eq_true, decide_eq_true_eq, Bool.or_eq_true, Bool.not_eq_true', Bool.and_eq_false_iff] at h
  refine ⟨h.1.1, h.1.2, fun x hx he hp => ?_⟩
  rcases h.2 x hx with (h | h) | h
  · rw [he] at h; cases h
  · simp only [decide_eq_false_iff_not] at h; exact absurd hp h
  · exact h

theorem noWrap_of {n : Node} (h : noWrapB (lines n.table) = true) : NoWrap (IsLine dec n.table) := by
  rw [lines_eq]
  unfold noWrapB at h
  simp only [Bool.and_eq_true, List.all_eq_true, decide_eq_true_eq, Bool.or_eq_true, Bool.not_eq_true', Bool.and_eq_false_iff] at h
  intro e x he hx hep hp
  rcases h e he x hx with (h | h) | h
  · rw [hep] at h; cases h
  · simp only [decide_eq_false_iff_not] at h; exact absurd hp h
  · exact h

/-- A check of what the script does with a table. -/
theorem witness {doc : Xml} {clog : Nat → Nat} {P : Node → Decoder → Bool}
    (h : (tree doc).any (fun n => wellNamed n && (Gen.run dec clog n).any (P n)) = true) :
    ∃ n d, Facts n ∧ tree doc = some n ∧ Gen.run dec clog n = some d ∧ P n d = true := by
  cases ht : tree doc with
  | none => rw [ht] at h; cases h
  | some n =>
    rw [ht] at h
    simp only [Option.any_some, Bool.and_eq_true] at h
    cases hr : Gen.run dec clog n with
    | none => rw [hr] at h; cases h.2
    | some d => rw [hr] at h; exact ⟨n, d, facts h.1, rfl, hr, h.2⟩

/-- The conditions of `C61_slaves`, `C61_ranges`, `C61_content_partial` and `C61_covered` hold for `good`. -/
example : ∃ (n : Node) (d : Decoder) (e : Line), n.GoodIds ∧ n.UniqueIds ∧ Gen.run dec pyClog n = some d ∧ Outer (IsLine dec n.table) e ∧ Bottom (IsLine dec n.table) e ∧
    NoWrap (IsLine dec n.table) ∧ e.path = ["G".toList, "C".toList] := by
  obtain ⟨n, d, f, _, hr, h⟩ := witness (doc := good) (clog := pyClog)
    (P := fun n _ => outerB (lines n.table) ⟨["G".toList, "C".toList], 0x1030, 4, true, some 2⟩ &&
      bottomB (lines n.table) ⟨["G".toList, "C".toList], 0x1030, 4, true, some 2⟩ && noWrapB (lines n.table)) (by decide +kernel)
  simp only [Bool.and_eq_true] at h
  exact ⟨n, d, _, f.good, f.unique, hr, outer_of h.1.1, bottom_of h.1.2, noWrap_of h.2, rfl⟩

/-- The inner endpoints of `M`: `A.A1` and `A.A2` in a group, and `B`, which the script sees last. -/
def nested : Xml := top
  [el "M" "0x0" "endpoint" [] [el "A" "0x0" "" [] [el "A1" "0x0" "endpoint;width=4" [] [], el "A2" "0x60" "endpoint;width=4" [] []],
     el "B" "0x10" "endpoint;width=4" [] []],
   el "N" "0x140" "endpoint;width=4" [] []]

/-- Two inner endpoints that fill 2^29 addresses. -/
def wide : Xml := top
  [el "M" "0x0" "endpoint" [] [el "A" "0x0" "endpoint;width=28" [] [], el "B" "0x10000000" "endpoint;width=28" [] []],
   el "N" "0x20000000" "endpoint;width=4" [] []]

/-- The endpoints `a.b` and `a_b`. -/
def names : Xml := top [el "a" "0x0" "" [] [el "b" "0x0" "endpoint" [] []], el "a_b" "0x1" "endpoint" [] []]

/-- A node whose address wraps around. -/
def wrap : Xml := top
  [el "E" "0x100" "endpoint;width=4" [] [el "R" "0xFFFFFF00" "" [] []], el "F" "0x0" "endpoint;width=4" [] [el "S" "0x1" "" [] []]]

/-- With the inner endpoints in order of their ends, `C61_nested_partial` applies: the words of both inner endpoints select `M`. -/
def tidy : Xml := top
  [el "M" "0x0" "endpoint" [] [el "A" "0x0" "" [] [el "A1" "0x0" "endpoint;width=4" [] [], el "A2" "0x20" "endpoint;width=4" [] []],
     el "B" "0x30" "endpoint;width=3" [] []],
   el "N" "0x140" "endpoint;width=4" [] []]

def tidyB (t : GNode) : Bool := (GNode.getDesc t).all fun x => !x.flag || (flagged x).all fun i => decide (i.addr + 2 ^ i.width.getD 0 ≤ maxAddr (flagged x))

theorem pyClog_le (x : Nat) : x ≤ 2 ^ pyClog x := by
  unfold pyClog
  by_cases h1 : x = 2 ^ 29
  · rw [if_pos h1, h1]; decide
  · rw [if_neg h1]
    by_cases h2 : x = 2 ^ 31
    · rw [if_pos h2, h2]; decide
    · rw [if_neg h2]
      by_cases h3 : 2 ^ x.log2 = x
      · rw [if_pos h3]; omega
      · rw [if_neg h3]; exact Nat.le_of_lt Nat.lt_log2_self

/-- The conditions of `C61_nested_partial` hold for `tidy`. -/
example : ∃ (n : Node) (d : Decoder) (e b : Line), n.GoodIds ∧ n.UniqueIds ∧ Gen.run dec pyClog n = some d ∧ NoWrap (IsLine dec n.table) ∧
    (∀ x, x ≤ 2 ^ 33 → x ≤ 2 ^ pyClog x) ∧ (∀ x, 2 ^ 33 < x → 33 ≤ pyClog x) ∧
    (∀ t, (Gen.tree dec n).bind (GNode.assign pyClog) = some t → ∀ x ∈ getDesc t, x.flag = true → Tidy x) ∧
    Outer (IsLine dec n.table) e ∧ Bottom (IsLine dec n.table) b ∧ e.path <+: b.path ∧ e ≠ b ∧ [0x0, 0x20, 0x30, 0x140].map d.sel = [0, 0, 0, 1] := by
  obtain ⟨n, d, f, _, hr, h⟩ := witness (doc := tidy) (clog := pyClog)
    (P := fun n d => outerB (lines n.table) ⟨["M".toList], 0x0, 1, true, none⟩ &&
      bottomB (lines n.table) ⟨["M".toList, "A".toList, "A2".toList], 0x20, 1, true, some 4⟩ && noWrapB (lines n.table) &&
      ((Gen.tree dec n).bind (GNode.assign pyClog)).all tidyB && decide ([0x0, 0x20, 0x30, 0x140].map d.sel = [0, 0, 0, 1])) (by decide +kernel)
  simp only [Bool.and_eq_true, decide_eq_true_eq] at h
  refine ⟨n, d, _, _, f.good, f.unique, hr, noWrap_of h.1.1.2, fun x _ => pyClog_le x, ?_, ?_, outer_of h.1.1.1.1, bottom_of h.1.1.1.2,
    ⟨_, rfl⟩, by decide, h.2⟩
  · intro x hx
    have := Nat.lt_of_lt_of_le hx (pyClog_le x)
    exact Nat.le_of_lt ((Nat.pow_lt_pow_iff_right (by omega)).1 this)
  · intro t ht x hx hxf i hi
    have h := h.1.2
    rw [ht, Option.all_some] at h
    unfold tidyB at h
    simp only [List.all_eq_true, Bool.or_eq_true, Bool.not_eq_true', decide_eq_true_eq] at h
    rcases h x hx with h | h
    · rw [hxf] at h; cases h
    · exact h i hi

/-- The conditions of `C61_accepts_partial` hold for `good`. -/
example : ∃ n : Node, n.GoodIds ∧ n.UniqueIds ∧ (∃ e, IsLine dec n.table e ∧ e.ep = true) ∧
    (∀ r ∈ n.table, ∀ s, r.info.fw.lookup "width".toList = some s → ∃ w, dec s = some w) ∧
    (∀ r ∈ n.table, r.path.tail = [] → r.info.fw.lookup "width".toList = none) ∧
    (∀ e x, IsLine dec n.table e → IsLine dec n.table x → e.ep = true → x.ep = true → e.path <+: x.path → x = e) ∧
    (∀ x, IsLine dec n.table x → (∀ y, IsLine dec n.table y → x.path <+: y.path → y = x) → ∃ e, IsLine dec n.table e ∧ e.ep = true ∧ e.path <+: x.path) ∧
    (∀ e, IsLine dec n.table e → e.ep = true → e.width.getD 0 ≤ 32 ∧ e.addr % 2 ^ e.width.getD 0 = 0 ∧
      ∀ x, IsLine dec n.table x → e.path <+: x.path → x.addr + x.len ≤ e.addr + 2 ^ e.width.getD 0) ∧
    (∀ e x, IsLine dec n.table e → IsLine dec n.table x → e.ep = true → x.ep = true → e ≠ x →
      e.addr + 2 ^ e.width.getD 0 ≤ x.addr ∨ x.addr + 2 ^ x.width.getD 0 ≤ e.addr) := by
  let P (n : Node) : Bool := let l := lines n.table
    (l.any fun e => e.ep) && (n.table.all fun r => (r.info.fw.lookup "width".toList).all fun s => (dec s).isSome) &&
    (n.table.all fun r => !r.path.tail.isEmpty || (r.info.fw.lookup "width".toList).isNone) &&
    (l.all fun e => !e.ep || bottomB l e) &&
    (l.all fun x => (l.any fun y => decide (x.path <+: y.path) && decide (y ≠ x)) || l.any fun e => e.ep && decide (e.path <+: x.path)) &&
    (l.all fun e => !e.ep || (decide (e.width.getD 0 ≤ 32 ∧ e.addr % 2 ^ e.width.getD 0 = 0) &&
      l.all fun x => !decide (e.path <+: x.path) || decide (x.addr + x.len ≤ e.addr + 2 ^ e.width.getD 0))) &&
    (l.all fun e => l.all fun x => !(e.ep && x.ep && decide (e ≠ x)) || decide (e.addr + 2 ^ e.width.getD 0 ≤ x.addr ∨ x.addr + 2 ^ x.width.getD 0 ≤ e.addr))
  obtain ⟨n, d, f, _, hr, h⟩ := witness (doc := good) (clog := pyClog) (P := fun n _ => P n) (by decide +kernel)
  simp only [P, Bool.and_eq_true] at h
  obtain ⟨⟨⟨⟨⟨⟨h1, h2⟩, h3⟩, h4⟩, h5⟩, h6⟩, h7⟩ := h
  refine ⟨n, f.good, f.unique, ?_, ?_, ?_, ?_, ?_, ?_, ?_⟩
  · obtain ⟨e, he, hp⟩ := List.any_eq_true.1 h1
    exact ⟨e, (isLine _ _).2 he, hp⟩
  · intro r hr s hs
    have := List.all_eq_true.1 h2 r hr
    rw [hs, Option.all_some] at this
    exact Option.isSome_iff_exists.1 this
  · intro r hr ht
    have := List.all_eq_true.1 h3 r hr
    rw [ht] at this
    simpa using this
  · intro e x he hx hep hxp hpre
    have := List.all_eq_true.1 h4 e ((isLine _ _).1 he)
    rw [hep] at this
    exact (bottom_of (n := n) (by simpa using this)).2.2 x hx hxp hpre
  · intro x hx hl
    have := List.all_eq_true.1 h5 x ((isLine _ _).1 hx)
    simp only [Bool.or_eq_true, List.any_eq_true, Bool.and_eq_true, decide_eq_true_eq] at this
    rcases this with ⟨y, hy, hp, hne⟩ | ⟨e, he, hep, hp⟩
    · exact absurd (hl y ((isLine _ _).2 hy) hp) hne
    · exact ⟨e, (isLine _ _).2 he, hep, hp⟩
  · intro e he hep
    have := List.all_eq_true.1 h6 e ((isLine _ _).1 he)
    rw [hep] at this
    simp only [Bool.not_true, Bool.false_or, Bool.and_eq_true, decide_eq_true_eq, List.all_eq_true, Bool.or_eq_true, Bool.not_eq_true',
      decide_eq_false_iff_not] at this
    refine ⟨this.1.1, this.1.2, fun x hx hp => ?_⟩
    rcases this.2 x ((isLine _ _).1 hx) with h | h
    · exact absurd hp h
    · exact h
  · intro e x he hx hep hxp hne
    have := List.all_eq_true.1 (List.all_eq_true.1 h7 e ((isLine _ _).1 he)) x ((isLine _ _).1 hx)
    rw [hep, hxp] at this
    simpa [hne] using this

end Demo61

open Demo61

/-- The script takes the end of the last inner endpoint for the end of all: for a table without overlaps, the words of the endpoint `M.A.A2` select
no slave at all. -/
theorem C61_violated_nested : ∃ (n : Node) (d : Decoder) (e b : Line), n.GoodIds ∧ n.UniqueIds ∧ Gen.run dec pyClog n = some d ∧ NoWrap (IsLine dec n.table) ∧
    Outer (IsLine dec n.table) e ∧ Bottom (IsLine dec n.table) b ∧ e.path <+: b.path ∧ ∃ a, b.has a ∧ d.sel a = d.slaves.length := by
  obtain ⟨n, d, f, _, hr, h⟩ := witness (doc := nested) (clog := pyClog)
    (P := fun n d => outerB (lines n.table) ⟨["M".toList], 0x0, 1, true, none⟩ &&
      bottomB (lines n.table) ⟨["M".toList, "A".toList, "A2".toList], 0x60, 1, true, some 4⟩ && noWrapB (lines n.table) &&
      decide (d.sel 0x60#32 = d.slaves.length)) (by decide +kernel)
  simp only [Bool.and_eq_true, decide_eq_true_eq] at h
  exact ⟨n, d, _, _, f.good, f.unique, hr, noWrap_of h.1.2, outer_of h.1.1.1, bottom_of h.1.1.2, ⟨_, rfl⟩, 0x60#32, by constructor <;> decide, h.2⟩

/-- The logarithm is computed with floating point numbers: a table that needs exactly 29 bits for an endpoint is refused, as the script reserves 30.
With the right number of bits it is accepted. -/
theorem C61_violated_width : ∃ n : Node, n.GoodIds ∧ n.UniqueIds ∧ Gen.run dec pyClog n = none ∧
    ∃ d, Gen.run dec (fun x => if 2 ^ x.log2 = x then x.log2 else x.log2 + 1) n = some d := by
  obtain ⟨n, d, f, _, hr, h⟩ := witness (doc := wide) (clog := fun x => if 2 ^ x.log2 = x then x.log2 else x.log2 + 1)
    (P := fun n _ => (Gen.run dec pyClog n).isNone) (by decide +kernel)
  exact ⟨n, f.good, f.unique, by simpa using h, d, hr⟩

/-- Two endpoints can get the same constant, with different numbers. -/
theorem C61_violated_names : ∃ (n : Node) (d : Decoder) (c : Str), n.GoodIds ∧ n.UniqueIds ∧ Gen.run dec pyClog n = some d ∧ (c, 0) ∈ d.consts ∧ (c, 1) ∈ d.consts := by
  obtain ⟨n, d, f, _, hr, h⟩ := witness (doc := names) (clog := pyClog)
    (P := fun _ d => decide (("N_SLV_A_B".toList, 0) ∈ d.consts) && decide (("N_SLV_A_B".toList, 1) ∈ d.consts)) (by decide +kernel)
  simp only [Bool.and_eq_true, decide_eq_true_eq] at h
  exact ⟨n, d, _, f.good, f.unique, hr, h.1, h.2⟩

/-- The address of a node below an endpoint can wrap around; the script does not look for nodes below the start of the range. Here, the words of
`E.R` select `F`. -/
theorem C61_violated_wrap : ∃ (n : Node) (d : Decoder) (e x : Line) (j : Nat), n.GoodIds ∧ n.UniqueIds ∧ Gen.run dec pyClog n = some d ∧ Outer (IsLine dec n.table) e ∧
    Bottom (IsLine dec n.table) e ∧ IsLine dec n.table x ∧ e.path <+: x.path ∧ d.consts[j]? = some (slaveConst e.path, j) ∧ ∃ a, x.has a ∧ d.sel a ≠ j := by
  obtain ⟨n, d, f, _, hr, h⟩ := witness (doc := wrap) (clog := pyClog)
    (P := fun n d => outerB (lines n.table) ⟨["E".toList], 0x100, 1, true, some 4⟩ && bottomB (lines n.table) ⟨["E".toList], 0x100, 1, true, some 4⟩ &&
      decide ((⟨["E".toList, "R".toList], 0x0, 1, false, none⟩ : Line) ∈ lines n.table) && decide (d.consts[1]? = some (slaveConst ["E".toList], 1)) &&
      decide (d.sel 0#32 = 0)) (by decide +kernel)
  simp only [Bool.and_eq_true, decide_eq_true_eq] at h
  exact ⟨n, d, _, _, 1, f.good, f.unique, hr, outer_of h.1.1.1.1, bottom_of h.1.1.1.2, (isLine _ _).2 h.1.1.2, ⟨_, rfl⟩, h.1.2, 0#32,
    by constructor <;> decide, by rw [h.2]; decide⟩
end Verif
