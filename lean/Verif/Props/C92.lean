import Verif.Lemmas.Dump
import Verif.Props.C81
import Verif.Props.C67
/-!
# C92: the script that prints registers prints their values

For a device whose registers may be read without effect the script prints, in the order of their names, all nodes below the chosen one whose name matches and that are not write-only, each with
the bits of its mask in the register at its address.

Where the code does otherwise: nodes that are not registers but have some below them are read and printed too, and of a block of memory the first word only.
-/

set_option autoImplicit false
set_option linter.unusedSimpArgs false

namespace Verif

open Node Gui Spec

/-- The nodes that are read are found, none twice. -/
theorem dump_names {n : Node} (hg : GoodIds n) (hu : UniqueIds n) (mat : Str → Bool) :
    ∃ l, Dump.names mat n = some l ∧ l.Pairwise (fun a b => Dump.strLe a b = true) ∧ l.Nodup ∧
    ∀ s, s ∈ l ↔ ∃ p v, p ≠ [] ∧ n.sub? p = some v ∧ dots (n.ids p) = s ∧ mat s = true ∧ v.d.perm ≠ .write := by
  let ok : Str → Bool := fun s => match (n.getNode s).bind n.sub? with
    | none => false
    | some v => decide (v.d.perm ≠ .write)
  have hperm : (Dump.sortStr (Dump.matching mat n)).Perm (n.getNodes.filter mat) := (Dump.sort_perm _).trans (Dump.sort_perm _)
  have hfind : ∀ p v, p ≠ [] → n.sub? p = some v → (n.getNode (dots (n.ids p))).bind n.sub? = some v := by
    intro p v hp hv
    have hl := C33_listed hg hu p ((mem_positions n p).2 ⟨hp, v, hv⟩)
    rw [relPath_eq hg] at hl
    rw [hl, Option.bind_some, hv]
  have hin : ∀ s, s ∈ n.getNodes ↔ ∃ p v, p ≠ [] ∧ n.sub? p = some v ∧ dots (n.ids p) = s := by
    intro s
    unfold getNodes
    rw [List.mem_map]
    constructor
    · rintro ⟨p, hp, rfl⟩
      obtain ⟨h1, v, hv⟩ := (mem_positions n p).1 hp
      exact ⟨p, v, h1, hv, (relPath_eq hg p).symm⟩
    · rintro ⟨p, v, h1, hv, rfl⟩
      exact ⟨p, (mem_positions n p).2 ⟨h1, v, hv⟩, relPath_eq hg p⟩
  refine ⟨_, Dump.loop_some n ok _ ?_, (Dump.sort_sorted _).filter _, (hperm.nodup_iff.2 ((C33_distinct hg hu).filter _)).filter _, ?_⟩
  · intro s hs
    obtain ⟨p, v, h1, hv, rfl⟩ := (hin s).1 (List.mem_filter.1 (hperm.mem_iff.1 hs)).1
    refine ⟨v, hfind p v h1 hv, ?_⟩
    simp only [ok, hfind p v h1 hv, decide_eq_true_eq]
  · intro s
    rw [List.mem_filter, hperm.mem_iff, List.mem_filter, hin]
    constructor
    · rintro ⟨⟨⟨p, v, h1, hv, rfl⟩, hm⟩, hk⟩
      refine ⟨p, v, h1, hv, rfl, hm, ?_⟩
      simpa only [ok, hfind p v h1 hv, decide_eq_true_eq] using hk
    · rintro ⟨p, v, h1, hv, rfl, hm, hk⟩
      refine ⟨⟨⟨p, v, h1, hv, rfl⟩, hm⟩, ?_⟩
      simpa only [ok, hfind p v h1 hv, decide_eq_true_eq] using hk

/-- What is printed, for any way in which the calls return what they stand for. -/
theorem dump_core {σ : Type} {v : Ver} {tg : Target σ} (hq : QuietReads tg) {n : Node} (hg : GoodIds n) (hu : UniqueIds n) (mat : Str → Bool) {see : DevRes → Option ValOut} {m : σ}
    {l : List Str} (hl : Dump.names mat n = some l) {rs : List DevRes}
    (hrs : rs.map see = (tableRun v tg n.table (Dump.prog l) m).1.map (Option.map ValOut.data)) :
    Dumped n.table mat (fun a => (tg.rd m a).1) (Dump.output see l rs) := by
  obtain ⟨l', hl', hsort, hnd, hmem⟩ := dump_names hg hu mat
  obtain rfl : l' = l := Option.some.inj (hl'.symm.trans hl)
  have hread : ∀ p w, p ≠ [] → n.sub? p = some w → w.d.perm ≠ .write →
      readOf tg n.table m (dots (n.ids p)) = some [fieldOf w.d.mask (tg.rd m w.d.addr).1] := by
    intro p w hp hw hk
    have hls := C33_listed hg hu p ((mem_positions n p).2 ⟨hp, w, hw⟩)
    rw [relPath_eq hg] at hls
    obtain ⟨path, hrow⟩ := (devNode_row hg hu (List.Perm.refl n.table) (dots (n.ids p))).1 w.d (by simp [devNode, hls, hw])
    rw [readOf, hrow]
    simp [rowOf, hk]
  let f : Str → W := fun s => match readOf tg n.table m s with
    | some (x :: _) => x
    | _ => 0#32
  have h1 : rs.map see = l'.map (fun s => some (.data [f s])) ++ [some (.data [])] := by
    rw [hrs, Dump.prog, tableRun_reads hq]
    simp only [List.map_append, List.map_map, List.map_cons, List.map_nil, Option.map_some, List.append_cancel_right_eq]
    apply List.map_congr_left
    intro s hs
    obtain ⟨p, w, hp, hw, rfl, _, hk⟩ := (hmem s).1 hs
    simp only [Function.comp_apply, f, hread p w hp hw hk, Option.map_some]
  rw [Dump.output_eq see f l' rs h1]
  constructor
  · rw [List.pairwise_map]
    exact (hsort.and hnd).imp fun h => ⟨Dump.inFront_of_le _ _ h.1, h.2⟩
  · intro s x
    rw [List.mem_map]
    constructor
    · rintro ⟨s', hs', e⟩
      rw [Prod.mk.injEq] at e
      obtain ⟨rfl, rfl⟩ := e
      obtain ⟨p, w, hp, hw, rfl, hm, hk⟩ := (hmem s').1 hs'
      refine ⟨_, (mem_table n _).2 ⟨p, w, hw, rfl⟩, ?_, ?_, hm, hk, ?_⟩
      · intro e
        apply hp
        have : n.lineage p = [] := by simpa [rowOf, ids] using e
        cases p with
        | nil => rfl
        | cons i p =>
          have hc := hw
          rw [sub?_cons] at hc
          cases hk : n.kids[i]? with
          | none => rw [hk] at hc; cases hc
          | some k => simp [lineage, hk] at this
      · simp [rowOf, dots_eq]
      · simp only [f, hread p w hp hw hk, rowOf]
    · rintro ⟨r, hr, hne, hdot, hm, hk, rfl⟩
      obtain ⟨p, w, hw, rfl⟩ := (mem_table n r).1 hr
      have hp : p ≠ [] := by rintro rfl; simp [rowOf, ids, lineage] at hne
      have hd : dots (n.ids p) = s := by rw [← hdot]; simp [rowOf, dots_eq]
      subst hd
      refine ⟨_, (hmem _).2 ⟨p, w, hp, hw, rfl, hm, hk⟩, ?_⟩
      simp only [f, hread p w hp hw hk, rowOf]

theorem dumpProper {c : Cfg} {n : Node} (hm : ∀ r ∈ n.table, r.mask ≠ 0#32 ∧ (c.wrapNeg = true ∨ r.mask ≠ 0x80000000#32)) (l : List Str) :
    ProperProg c n.table (l.map fun s => .node s .read) := by
  intro id call hmem r hr
  obtain ⟨s, _, e⟩ := List.mem_map.1 hmem
  cases e
  exact hm r (List.mem_of_find?_eq_some hr)

section
variable {σ ρ : Type} {c : Cfg} {tg : Target σ} {mem : ρ → σ} {resp : ρ → List W → Option (List W) × ρ} {n : Node} {mat : Str → Bool}

/-- Over UDP: the script prints what the registers hold, and leaves the device as it was. `partial`: no mask is 0; see below for nodes that are not registers. -/
theorem C92_udp_partial {N : Nat} (hg : GoodIds n) (hu : UniqueIds n) (hm : ∀ r ∈ n.table, r.mask ≠ 0#32 ∧ (c.wrapNeg = true ∨ r.mask ≠ 0x80000000#32)) (hq : QuietReads tg)
    (h0 : 0 < N) (hN : N < 2 ^ 32) (hwf : WF c) (hcap : CapOK c) (hr : c.ver = .v2 → Roomy c) (hc : Conforms c tg mem resp) :
    ∃ l, Dump.names mat n = some l ∧
    ∀ (plan : List (List Ev)) (rs : List DevRes) (s : St UdpT), runDev c (udpT c N) n (Dump.prog l) (St.init ⟨.init, plan, 0, []⟩) = some (rs, s) → s.tr.u.dirty = false →
      ∀ e0 eEnd : ρ, Follows resp e0 s.tr.u.outcomes eEnd →
        Dumped n.table mat (fun a => (tg.rd (mem e0) a).1) (Dump.output (devShow (resShow c.wrapNeg s.tr.u.heap)) l rs) ∧ mem eEnd = mem e0 := by
  obtain ⟨l, hl, _⟩ := dump_names hg hu mat
  refine ⟨l, hl, fun plan rs s h hdy e0 eEnd hf => ?_⟩
  have hpp := dumpProper (c := c) hm l
  obtain ⟨o1, _⟩ := tableRun_ops (tg := tg) hg hu (List.Perm.refl _) _ hpp (mem e0)
  obtain ⟨_, o2⟩ := tableRun_ops (tg := tg) hg hu (List.Perm.refl _) _ (ProperProg.append_dispatch hpp) (mem e0)
  obtain ⟨rs', r1, q2⟩ := (runDev_ops _ _).1 rs s h
  rw [Dump.prog, devOps_dispatch] at r1
  obtain ⟨r2, r3⟩ := C16_udp h0 hN hwf hcap hr hc (devOps n (l.map fun s => .node s .read)) o1 plan rs' s r1 hdy e0 eEnd hf
  rw [← devOps_dispatch] at r2 r3
  constructor
  · exact dump_core hq hg hu mat hl (v := c.ver) (m := mem e0) (by rw [q2, r2, Dump.prog, weaveDev_map, o2])
  · have : mem eEnd = (tableRun c.ver tg n.table (Dump.prog l) (mem e0)).2 := by rw [r3, Dump.prog, o2]
    rw [this, Dump.prog, tableRun_reads hq]

/-- Over TCP. -/
theorem C92_tcp_partial {nn N : Nat} (hg : GoodIds n) (hu : UniqueIds n) (hm : ∀ r ∈ n.table, r.mask ≠ 0#32 ∧ (c.wrapNeg = true ∨ r.mask ≠ 0x80000000#32)) (hq : QuietReads tg)
    (hpar : TPar nn N) (hwf : WF c) (hcap : CapOK c) (hr : c.ver = .v2 → Roomy c) (hc : Conforms c tg mem resp) :
    ∃ l, Dump.names mat n = some l ∧
    ∀ (plan : List (List TEv × Bool)) (rs : List DevRes) (s : St TcpT), runDev c (tcpT c nn N) n (Dump.prog l) (St.init (TcpT.init plan)) = some (rs, s) →
      s.tr.u.dirty = false → s.tr.u.stale = false → ∀ e0 eEnd : ρ, Follows resp e0 s.tr.u.outcomes eEnd →
        Dumped n.table mat (fun a => (tg.rd (mem e0) a).1) (Dump.output (devShow (resShow c.wrapNeg s.tr.u.heap)) l rs) ∧ mem eEnd = mem e0 := by
  obtain ⟨l, hl, _⟩ := dump_names hg hu mat
  refine ⟨l, hl, fun plan rs s h hdy hst e0 eEnd hf => ?_⟩
  have hpp := dumpProper (c := c) hm l
  obtain ⟨o1, _⟩ := tableRun_ops (tg := tg) hg hu (List.Perm.refl _) _ hpp (mem e0)
  obtain ⟨_, o2⟩ := tableRun_ops (tg := tg) hg hu (List.Perm.refl _) _ (ProperProg.append_dispatch hpp) (mem e0)
  obtain ⟨rs', r1, q2⟩ := (runDev_ops _ _).1 rs s h
  rw [Dump.prog, devOps_dispatch] at r1
  obtain ⟨r2, r3⟩ := C16_tcp hpar hwf hcap hr hc (devOps n (l.map fun s => .node s .read)) o1 plan rs' s r1 hdy hst e0 eEnd hf
  rw [← devOps_dispatch] at r2 r3
  constructor
  · exact dump_core hq hg hu mat hl (v := c.ver) (m := mem e0) (by rw [q2, r2, Dump.prog, weaveDev_map, o2])
  · have : mem eEnd = (tableRun c.ver tg n.table (Dump.prog l) (mem e0)).2 := by rw [r3, Dump.prog, o2]
    rw [this, Dump.prog, tableRun_reads hq]

/-- Over PCIe or mmap, with other clients on the same device. -/
theorem C92_paged_partial {ps : Nat → PCfg} {i pages size start : Nat} {count0 : W} {e0 : ρ} (hg : GoodIds n) (hu : UniqueIds n)
    (hm : ∀ r ∈ n.table, r.mask ≠ 0#32 ∧ (c.wrapNeg = true ∨ r.mask ≠ 0x80000000#32)) (hq : QuietReads tg)
    (hwf : WF c) (hcap : CapOK c) (hr : Roomy c) (hv : c.ver = .v2) (hc : Conforms c tg mem resp)
    (hsz : c.maxSend.toNat ≤ 4 * (size - 1)) (hrz : c.maxReply.toNat ≤ 4 * (size - 1))
    (hph : PHyp ps resp (PW.init ps pages size start count0 e0).dev) :
    ∃ l, Dump.names mat n = some l ∧
    ∀ (plan : List (List PAct)), (∀ as ∈ plan, ∀ a ∈ as, a.tame i) → ∀ (rs : List DevRes) (s : St (PagedT ρ)),
      runDev c (pagedT c ps resp i) n (Dump.prog l) (St.init (PagedT.init ps pages size start count0 e0 plan)) = some (rs, s) →
        Dumped n.table mat (fun a => (tg.rd (mem e0) a).1) (Dump.output (devShow (resShow c.wrapNeg (s.tr.w.cl i).heap)) l rs) ∧ mem s.tr.w.dev.env = mem e0 := by
  obtain ⟨l, hl, _⟩ := dump_names hg hu mat
  refine ⟨l, hl, fun plan hplan rs s h => ?_⟩
  have hpp := dumpProper (c := c) hm l
  obtain ⟨o1, _⟩ := tableRun_ops (tg := tg) hg hu (List.Perm.refl _) _ hpp (mem e0)
  obtain ⟨_, o2⟩ := tableRun_ops (tg := tg) hg hu (List.Perm.refl _) _ (ProperProg.append_dispatch hpp) (mem e0)
  obtain ⟨rs', r1, q2⟩ := (runDev_ops _ _).1 rs s h
  rw [Dump.prog, devOps_dispatch] at r1
  obtain ⟨r2, r3⟩ := C16_paged_device hwf hcap hr hv hc hsz hrz hph (devOps n (l.map fun s => .node s .read)) o1 plan hplan rs' s r1
  rw [← devOps_dispatch] at r2 r3
  constructor
  · exact dump_core hq hg hu mat hl (v := c.ver) (m := mem e0) (by rw [q2, r2, Dump.prog, weaveDev_map, o2])
  · have : mem s.tr.w.dev.env = (tableRun c.ver tg n.table (Dump.prog l) (mem e0)).2 := by rw [r3, Dump.prog, o2]
    rw [this, Dump.prog, tableRun_reads hq]

end

theorem hexNum_digits (k : Nat) : ∀ v, v < 16 ^ k → 0 < k → HexDigits (Overlap.hexNum k v) v := by
  have dig : ∀ d, d < 16 → HexDigit ((Overlap.digits[d]?).getD '?') d := by
    intro d hd
    unfold HexDigit
    have : ∀ d : Fin 16, Make.hexDig ((Overlap.digits[d.val]?).getD '?') = some d.val := by decide +kernel
    exact (Make.hexDig_iff _ _).1 (this ⟨d, hd⟩)
  induction k with
  | zero => intro v _ h; omega
  | succ k ih =>
    intro v hv _
    rw [Overlap.hexNum]
    split
    next h => simpa [Nat.mod_eq_of_lt h] using HexDigits.one _ _ (dig v h)
    next h =>
      have hk : 0 < k := by
        rcases Nat.eq_zero_or_pos k with rfl | h'
        · simp at hv; omega
        · exact h'
      have := HexDigits.more _ _ _ _ (dig (v % 16) (by omega)) (ih (v / 16) (by rw [Nat.pow_succ] at hv; omega) hk)
      rwa [show 16 * (v / 16) + v % 16 = v by omega] at this

/-- The text of a line: the name and the value in hexadecimal digits. -/
theorem C92_line (s : Str) (x : W) : ∃ h, Dump.line (s, x) = " + ".toList ++ s ++ " : 0x".toList ++ h ∧ HexDigits h x.toNat :=
  ⟨_, rfl, hexNum_digits 8 _ (by have := x.isLt; omega) (by omega)⟩

/-! ### A run over UDP -/

/-- The registers of the tree top: a (b: bits 0 and 1; c), d hold 0x95 to 0x97; a is read as well. -/
def dumpCfg : Cfg := ⟨.v2, none, 40, 40, true⟩

def dumpRun : Option (List (Str × W)) :=
  (Dump.names (fun _ => true) demoTree).bind fun l =>
    (runDev dumpCfg (udpT dumpCfg 16) demoTree (Dump.prog l)
      (St.init ⟨.init, [[], [.sendDone true, .recvBegin (some [0x200000F0, 0x20000100, 0x95, 0x20010100, 0x95, 0x20020100, 0x96, 0x20030100, 0x97]), .recvEnd]], 0, []⟩)).map
    fun p => Dump.output (devShow (resShow dumpCfg.wrapNeg p.2.tr.u.heap)) l p.1

example : dumpRun = some [("a".toList, 0x95), ("a.b".toList, 1), ("a.c".toList, 0x96), ("d".toList, 0x97)] := by decide +kernel

example : dumpRun.map (List.map Dump.line) = some [" + a : 0x95".toList, " + a.b : 0x1".toList, " + a.c : 0x96".toList, " + d : 0x97".toList] := by decide +kernel

example : (GoodIds demoTree ∧ UniqueIds demoTree) ∧ WF dumpCfg ∧ CapOK dumpCfg ∧ Roomy dumpCfg ∧ (∀ r ∈ demoTree.table, r.mask ≠ 0#32 ∧ (dumpCfg.wrapNeg = true ∨ r.mask ≠ 0x80000000#32)) ∧
    QuietReads (dummyTarget fun _ => 0) :=
  ⟨demoTree_ok, ⟨by decide, by decide, by decide⟩, by unfold CapOK; decide, ⟨by decide, by decide⟩, by decide +kernel, fun _ _ => rfl⟩

/-- Only some of the names. -/
example : Dump.names (fun s => s.contains '.') demoTree = some ["a.b".toList, "a.c".toList] := by decide +kernel

/-- The order of the address table does not matter. -/
example : Dump.sortStr ["d".toList, "a.c".toList, "a".toList, "a.b".toList] = ["a".toList, "a.b".toList, "a.c".toList, "d".toList] := by decide +kernel

/-! ### Where the code goes wrong -/

/-- A module with a register and a memory of four words. -/
def dumpTree : Node := mk { uid := "top".toList } [mk { uid := "mod".toList, addr := 8#32, mode := .hierarchical }
  [mk { uid := "ram".toList, addr := 0x10#32, mode := .incremental, size := 4#32 } [], mk { uid := "reg".toList, addr := 9#32, mode := .single } []]]

/-- A node that is not a register, but has registers below it, is read as if it were one: at its address there need not be anything, and then the answer of the target is an error and nothing is
printed at all. -/
theorem C92_violated_module : Dump.names (fun _ => true) dumpTree = some ["mod".toList, "mod.ram".toList, "mod.reg".toList] ∧
    (devNode dumpTree "mod".toList).map (fun d => (d.mode, d.addr)) = some (.hierarchical, 8#32) ∧ Inner dumpTree.table ⟨["top".toList, "mod".toList], 8#32, .hierarchical, 0xFFFFFFFF#32, .readWrite, 1#32, {}⟩ :=
  ⟨by decide +kernel, by decide +kernel, ⟨⟨["top".toList, "mod".toList, "reg".toList], 9#32, .single, 0xFFFFFFFF#32, .readWrite, 1#32, {}⟩, by decide +kernel, ⟨["reg".toList], rfl⟩, by decide⟩⟩

/-- Of a memory of four words only the first is printed. -/
theorem C92_violated_block : (devNode dumpTree "mod.ram".toList).map (fun d => (d.mode, d.size)) = some (.incremental, 4#32) ∧
    ∀ (see : DevRes → Option ValOut) (l : List Str) (rs : List DevRes), Dump.names (fun _ => true) dumpTree = some l →
      ((Dump.output see l rs).filter fun p => decide (p.1 = "mod.ram".toList)).length ≤ 1 := by
  refine ⟨by decide +kernel, fun see l rs hl => ?_⟩
  have e : Dump.names (fun _ => true) dumpTree = some ["mod".toList, "mod.ram".toList, "mod.reg".toList] := by decide +kernel
  obtain rfl : _ = l := Option.some.inj (e.symm.trans hl)
  have key : ∀ (l : List Str) (rs : List DevRes), ((Dump.shown see l rs).map Prod.fst) <+: l := by
    intro l
    induction l with
    | nil => intro rs; cases rs <;> exact List.nil_prefix
    | cons s ss ih =>
      intro rs
      cases rs with
      | nil => exact List.nil_prefix
      | cons r rs =>
        unfold Dump.shown
        split
        · exact List.cons_prefix_cons.2 ⟨rfl, ih rs⟩
        · exact List.nil_prefix
  have hc : ∀ o : List (Str × W), (o.filter fun p => decide (p.1 = "mod.ram".toList)).length = (o.map Prod.fst).countP fun s => decide (s = "mod.ram".toList) := by
    intro o
    rw [List.countP_map, List.countP_eq_length_filter]
    rfl
  rw [hc]
  unfold Dump.output
  split
  · split
    · exact Nat.le_trans ((key _ rs).sublist.countP_le) (by decide +kernel)
    · exact Nat.zero_le _
  · exact Nat.zero_le _

end Verif
