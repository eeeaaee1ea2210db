import Verif.Model.DevPaged
import Verif.Props.C69
import Verif.Props.C75
/-!
# C69: devices over PCIe and memory-mapped files

See `/verif/properties.jsonl` and `DESIGN.md`; as `Verif/Props/C69.lean`, for URIs `ipbuspcie-2.0://…` and `ipbusmmap-2.0://…`. Missing, hence `_partial`, besides what is missing there:
clients that wait for interrupts (`events`, C27), and other clients of the same device (C26, C29).
-/

set_option autoImplicit false

namespace Verif
open Spec Make

/-- The packet sizes of `Client.paged` are those that `connect` leaves. -/
theorem paged_connect {ρ : Type} (wrapNeg : Bool) (cl : Client) (p : PCfg) (c : Cfg) (d : PDev ρ) (h : cl.paged wrapNeg d.size = some (p, c)) (active : Bool) (ctr : Nat) :
    c.maxSend = BitVec.ofNat 32 (4 * (PCl.connect p d active ctr (PCl.init p)).maxPkt) ∧ c.maxReply = c.maxSend := by
  unfold PCl.connect
  cases cl <;> simp only [Client.paged, Option.some.injEq, Prod.mk.injEq, reduceCtorEq] at h
  · obtain ⟨rfl, rfl⟩ := h
    have hk : ∀ (e : Option Str) (a b : Nat) (w : Bool), (⟨if e.isSome then .intr else .poll, a, b, w⟩ : PCfg).kind ≠ .mmap := by
      intro e a b w; cases e <;> simp
    rw [if_neg (hk _ _ _ _)]
    dsimp only [PCl.init]
    split <;> exact ⟨rfl, rfl⟩
  · obtain ⟨rfl, rfl⟩ := h
    rw [if_pos rfl]
    dsimp only [PCl.init]
    split <;> exact ⟨rfl, rfl⟩

open Verif.Device
open Verif.Uri (Uri)
open Verif.Make (Client make)

theorem make_pcie (w : Make.World) (u : Uri) : make w "ipbuspcie-2.0".toList u = Make.makePcie u := by
  unfold make
  rw [if_neg (by decide +kernel), if_neg (by decide +kernel), if_neg (by decide +kernel), if_neg (by decide +kernel), if_neg (by decide +kernel), if_neg (by decide +kernel), if_pos rfl]

theorem make_mmap (w : Make.World) (u : Uri) : make w "ipbusmmap-2.0".toList u = Make.makeMmap u := by
  unfold make
  rw [if_neg (by decide +kernel), if_neg (by decide +kernel), if_neg (by decide +kernel), if_neg (by decide +kernel), if_neg (by decide +kernel), if_neg (by decide +kernel), if_neg (by decide +kernel), if_pos rfl]

/-- The largest packet that the URI allows, if any, has room for a transaction. -/
def GoodPacket (u : Uri) : Prop := ∀ n, Spec.Setting Make.kPacket Spec.Numeral 0 u.arguments n → n = 0 ∨ 6 ≤ n

/-- Pages of 7 words or more give packets that the packet builder can use. -/
theorem pktWords_bounds {packet size : Nat} (hp : packet = 0 ∨ 6 ≤ packet) (hs : 7 ≤ size) (hz : size ≤ 0xFFFF) :
    6 ≤ pktWords packet size ∧ pktWords packet size ≤ size - 1 := by
  unfold pktWords
  split <;> omega

theorem paged_cfg {mp : Nat} (wrapNeg : Bool) (h1 : 6 ≤ mp) (h2 : mp ≤ 0xFFFF) {c : Cfg} (hc : c = ⟨.v2, none, BitVec.ofNat 32 (4 * mp), BitVec.ofNat 32 (4 * mp), wrapNeg⟩) :
    WF c ∧ CapOK c ∧ Roomy c ∧ c.maxSend.toNat = 4 * mp ∧ c.maxReply.toNat = 4 * mp := by
  have hn : (BitVec.ofNat 32 (4 * mp)).toNat = 4 * mp := by rw [BitVec.toNat_ofNat, Nat.mod_eq_of_lt (by omega)]
  subst hc
  refine ⟨⟨?_, ?_, ?_⟩, ?_, ⟨?_, ?_⟩, hn, hn⟩
  · simp only [Cfg.preambleSize, hn]; simp; omega
  · intro h; cases h
  · simp only [Cfg.preReply, hn]; simp; omega
  · intro h; cases h
  · simp only [Cfg.preambleSize, hn]; simp; omega
  · simp only [Cfg.preReply, hn]; simp; omega

section
variable {site : Site} {files : List (Str × Str)} {m : Conn.Mgr} {i : Str} {u : Uri} {t : Decl} {k k' : NodeCache} {F : Nat} {cl : Client} {n : Node}

/-- What the URI says about the client: the files, and that it does not wait for interrupts. -/
def IsPaged (u : Uri) (cl : Client) : Prop :=
  u.protocol = "ipbuspcie-2.0".toList ∧ (∃ a b s n m w, u.hostname = a ++ ',' :: b ∧ ',' ∉ a ∧ cl = .pcie a b none s n m w) ∨
  u.protocol = "ipbusmmap-2.0".toList ∧ ∃ o s n m, cl = .mmap u.hostname o s n m

/-- The client for a PCIe or mmap URI without events. -/
theorem paged_made (w : Make.World) (hpro : u.protocol = "ipbuspcie-2.0".toList ∨ u.protocol = "ipbusmmap-2.0".toList) (hu : Make.UnsignedAll u.arguments)
    (hev : ∀ x ∈ u.arguments, x.1 ≠ Make.kEvents) (hpk : GoodPacket u) (hmk : make w u.protocol u = .ok cl) :
    IsPaged u cl ∧ ∀ {wrapNeg : Bool} {size : Nat} {p : PCfg} {c : Cfg}, cl.paged wrapNeg size = some (p, c) → 7 ≤ size → size ≤ 0xFFFF →
      p.kind ≠ .intr ∧ WF c ∧ CapOK c ∧ Roomy c ∧ c.ver = .v2 ∧ c.hub = none ∧ c.wrapNeg = wrapNeg ∧
      c.maxSend.toNat ≤ 4 * (size - 1) ∧ c.maxReply.toNat ≤ 4 * (size - 1) := by
  rcases hpro with hpro | hpro
  · rw [hpro, make_pcie] at hmk
    obtain ⟨a, b, s, h1, h2, h3, h4, h5, rfl⟩ := (Make.C67_pcie_partial _ hu _).1 hmk
    have he : s.events = none := by
      rcases h5.1 with ⟨_, h⟩ | ⟨_, v, _, h⟩
      · exact h
      · rcases h with ⟨_, h⟩ | ⟨pre, tt, post, h, _⟩
        · cases h
        · exact absurd rfl (hev (Make.kEvents, tt) (by rw [h]; simp))
    rw [he]
    refine ⟨.inl ⟨hpro, a, b, _, _, _, _, h1, h2, rfl⟩, ?_⟩
    intro wrapNeg size p c hc hs hz
    simp only [Client.paged, Option.some.injEq, Prod.mk.injEq] at hc
    obtain ⟨rfl, hc⟩ := hc
    have hb := pktWords_bounds (hpk _ h5.2.2.2.1.2) hs hz
    obtain ⟨r1, r2, r3, r4, r5⟩ := paged_cfg wrapNeg hb.1 (by omega) hc.symm
    exact ⟨by simp, r1, r2, r3, by rw [← hc], by rw [← hc], by rw [← hc], by omega, by omega⟩
  · rw [hpro, make_mmap] at hmk
    obtain ⟨s, h5, rfl⟩ := (Make.C67_mmap_partial _ hu _).1 hmk
    refine ⟨.inr ⟨hpro, _, _, _, _, rfl⟩, ?_⟩
    intro wrapNeg size p c hc hs hz
    simp only [Client.paged, Option.some.injEq, Prod.mk.injEq] at hc
    obtain ⟨rfl, hc⟩ := hc
    have hb := pktWords_bounds (size := min 4096 size) (hpk _ h5.2.2.2.2) (by omega) (by omega)
    obtain ⟨r1, r2, r3, r4, r5⟩ := paged_cfg wrapNeg hb.1 (by omega) hc.symm
    exact ⟨by simp, r1, r2, r3, by rw [← hc], by rw [← hc], by rw [← hc], by omega, by omega⟩

/-- **C69, over PCIe and memory-mapped files.** For a device that the connection files define with a URI `ipbuspcie-2.0://…` or `ipbusmmap-2.0://…`: the client opens the files that the
URI names. If it is alone with a device that conforms to the specification (pages of 7 words or more), every program that ends with a dispatch and comes to an end gives what the declared
nodes give, one access after the other, and leaves the memory like that. The steps of client and device are interleaved in any way. -/
theorem C69_paged_partial (hm : Conn.construct site.files files = .ok m) (h : Names site files i u t) (hco : Coherent site.tables k)
    (hg : getDevice site F m i k = (.ok cl n, k')) (hpro : u.protocol = "ipbuspcie-2.0".toList ∨ u.protocol = "ipbusmmap-2.0".toList)
    (hu : Make.UnsignedAll u.arguments) (hev : ∀ x ∈ u.arguments, x.1 ≠ Make.kEvents) (hpk : GoodPacket u) :
    IsPaged u cl ∧
    ∀ {wrapNeg : Bool} {size : Nat} {p : PCfg} {c : Cfg}, cl.paged wrapNeg size = some (p, c) → 7 ≤ size →
    ∀ {σ ρ : Type} {tg : Target σ} {mem : ρ → σ} {resp : ρ → List W → Option (List W) × ρ}, Conforms c tg mem resp →
    ∀ {ps : Nat → PCfg} {j : Nat}, ps j = p → ∀ {pages start : Nat} {count0 : W} {e : ρ}, PHyp ps resp (PW.init ps pages size start count0 e).dev →
    ∀ (prog : List DevCall), ProperProg c (t.rows 0#32) prog → ∀ (plan : List (List PAct)), (∀ as ∈ plan, ∀ a ∈ as, a.tame j) →
    ∀ (rs : List DevRes) (s : St (PagedT ρ)),
    runDev c (pagedT c ps resp j) n (prog ++ [.dispatch]) (St.init (PagedT.init ps pages size start count0 e plan)) = some (rs, s) →
    rs.map (devShow (resShow wrapNeg (s.tr.w.cl j).heap)) = (tableRun .v2 tg (t.rows 0#32) (prog ++ [.dispatch]) (mem e)).1.map (Option.map ValOut.data) ∧
      mem s.tr.w.dev.env = (tableRun .v2 tg (t.rows 0#32) (prog ++ [.dispatch]) (mem e)).2 := by
  obtain ⟨d1, _, g3, g1, g2, _⟩ := C69_device_partial hm h hco hg
  obtain ⟨hip, hrest⟩ := paged_made _ hpro hu hev hpk d1
  refine ⟨hip, ?_⟩
  intro wrapNeg size p c hc hs σ ρ tg mem resp hcf ps j hj pages start count0 e hph prog hpr plan hplan rs s hrun
  obtain ⟨_, r1, r2, r3, hv, _, hwn, r4, r5⟩ := hrest hc hs hph.szM
  obtain ⟨o1, _⟩ := tableRun_ops (tg := tg) g1 g2 g3 prog hpr (mem e)
  obtain ⟨_, o2⟩ := tableRun_ops (tg := tg) g1 g2 g3 _ (ProperProg.append_dispatch hpr) (mem e)
  obtain ⟨rs', q1, q2⟩ := (runDev_ops _ _).1 rs s hrun
  rw [devOps_dispatch] at q1
  obtain ⟨w2, w3⟩ := C16_paged_device r1 r2 r3 hv hcf r4 r5 hph (devOps n prog) o1 plan hplan rs' s q1
  rw [← devOps_dispatch] at w2 w3
  rw [← hv, ← hwn]
  exact ⟨by rw [q2, w2, weaveDev_map, o2], by rw [w3, o2]⟩

/-- **C69, over PCIe to the PCIe test target.** The target is the program of `PCIeDummyHardware.cxx`, which takes the requests from a FIFO and analyses them word by word. -/
theorem C69_pcie_target_partial (hm : Conn.construct site.files files = .ok m) (h : Names site files i u t) (hco : Coherent site.tables k)
    (hg : getDevice site F m i k = (.ok cl n, k')) (hpro : u.protocol = "ipbuspcie-2.0".toList)
    (hu : Make.UnsignedAll u.arguments) (hev : ∀ x ∈ u.arguments, x.1 ≠ Make.kEvents) (hpk : GoodPacket u)
    {wrapNeg : Bool} {p : PCfg} {c : Cfg} (hc : cl.paged wrapNeg 360 = some (p, c)) {ps : Nat → PCfg} {j : Nat} (_hj : ps j = p) (hk : ∀ i, (ps i).kind ≠ .intr)
    {pid : BitVec 16} (prog : List DevCall) (hpr : ProperProg c (t.rows 0#32) prog) (plan : List (List PAct)) (hplan : ∀ as ∈ plan, ∀ a ∈ as, a.tame j)
    (rs : List DevRes) (s : St PcieDummy.FT)
    (hrun : runDev c (PcieDummy.fifoT c ps j) n (prog ++ [.dispatch]) (St.init (PcieDummy.FT.init ps pid plan)) = some (rs, s)) :
    rs.map (devShow (resShow wrapNeg (s.tr.w.cl j).heap)) =
      (tableRun .v2 (PcieDummy.slaves pid) (t.rows 0#32) (prog ++ [.dispatch]) fun _ => 0#32).1.map (Option.map ValOut.data) ∧
    s.tr.w.dev.hw.mem = (tableRun .v2 (PcieDummy.slaves pid) (t.rows 0#32) (prog ++ [.dispatch]) fun _ => 0#32).2 := by
  obtain ⟨d1, _, g3, g1, g2, _⟩ := C69_device_partial hm h hco hg
  obtain ⟨_, hrest⟩ := paged_made _ (.inl hpro) hu hev hpk d1
  obtain ⟨_, r1, r2, r3, hv, hh, hwn, r4, r5⟩ := hrest hc (by omega) (by omega)
  obtain ⟨o1, _⟩ := tableRun_ops (tg := PcieDummy.slaves pid) g1 g2 g3 prog hpr fun _ => 0#32
  obtain ⟨_, o2⟩ := tableRun_ops (tg := PcieDummy.slaves pid) g1 g2 g3 _ (ProperProg.append_dispatch hpr) fun _ => 0#32
  obtain ⟨rs', q1, q2⟩ := (runDev_ops _ _).1 rs s hrun
  rw [devOps_dispatch] at q1
  obtain ⟨w2, w3⟩ := PcieDummy.C75_program r1 r2 r3 hv hh r4 r5 hk (devOps n prog) o1 plan hplan rs' s q1
  rw [← devOps_dispatch] at w2 w3
  rw [hv] at o2
  rw [← hwn]
  exact ⟨by rw [q2, w2, weaveDev_map, o2], by rw [w3, o2]⟩

end

/-! ## Non-vacuity -/

def pcieUri : Uri := ⟨"ipbuspcie-2.0".toList, "/dev/w,/dev/r".toList, [], [], [], [(Make.kPacket, "100".toList)]⟩
def mmapUri : Uri := ⟨"ipbusmmap-2.0".toList, "/dev/uio0".toList, [], [], [], [(Make.kOffset, "0x10".toList)]⟩

/-- One connection file with two devices. -/
def pageWorld : Conn.World where
  expand p := some [p]
  read p := if p = "/c.xml".toList then
      some (some [⟨some "p".toList, some (Uri.print pcieUri), some "a".toList⟩, ⟨some "m".toList, some (Uri.print mmapUri), some "a".toList⟩])
    else none
  http _ := none

def pageSite : Site := ⟨pageWorld, demoEnv "0x1000", Make.numericWorld, [], []⟩
def pageMgr : Conn.Mgr := match Conn.construct pageWorld devFiles with | .ok m => m | .error _ => ⟨[], []⟩

theorem pageMgr_ok : Conn.construct pageSite.files devFiles = .ok pageMgr := rfl

theorem page_uri_ok : ∀ u ∈ [pcieUri, mmapUri], Uri.Allowed u ∧ (u.path = [] ∧ u.extension = []) ∧ Uri.builtIn.lookup u.protocol = some false := by
  intro u hu
  simp only [List.mem_cons, List.not_mem_nil, or_false] at hu
  rcases hu with rfl | rfl
  · refine ⟨⟨?_, ?_, ?_, ?_, ?_, ?_, ?_, ?_, ?_, ?_, ?_, ?_⟩, ?_, ?_⟩ <;> first | decide +kernel | (simp only [Uri.NoSp, Uri.Without]; decide +kernel)
  · refine ⟨⟨?_, ?_, ?_, ?_, ?_, ?_, ?_, ?_, ?_, ?_, ?_, ?_⟩, ?_, ?_⟩ <;> first | decide +kernel | (simp only [Uri.NoSp, Uri.Without]; decide +kernel)

theorem page_names (i : Str) (u : Uri) (h : (i, u) ∈ [("p".toList, pcieUri), ("m".toList, mmapUri)]) : Names pageSite devFiles i u (demoDecl 0x1100#32) := by
  have hd : ∀ cur : Str, Declared (demoEnv "0x1000") disjJ "a".toList cur (demoDecl 0x1100#32) :=
    fun cur => demo_declared (r := 0x1000#32) (by decide +kernel) ⟨by decide, by decide⟩
  have hu : u ∈ [pcieUri, mmapUri] := List.mem_map_of_mem (f := Prod.snd) h
  obtain ⟨a1, a2, a3⟩ := page_uri_ok u hu
  refine ⟨?_, a1, fun _ => a2, a3, by decide +kernel, demoEnv_sorts _, demoEnv_protocols _⟩
  simp only [List.mem_cons, List.not_mem_nil, or_false, Prod.mk.injEq] at h
  rcases h with ⟨rfl, rfl⟩ | ⟨rfl, rfl⟩ <;> exact ⟨⟨_, _, "a".toList, "/c.xml".toList⟩, rfl, rfl, hd _⟩

/-- The devices. -/
example : (getDevices pageSite 4 pageMgr ["p".toList, "m".toList] []).1.map clientOf =
    [some (.pcie "/dev/w".toList "/dev/r".toList none 50 0 100 false), some (.mmap "/dev/uio0".toList 16 50 0 0)] := by decide +kernel

example : GoodPacket pcieUri ∧ GoodPacket mmapUri ∧ Make.UnsignedAll pcieUri.arguments ∧ Make.UnsignedAll mmapUri.arguments ∧
    (∀ x ∈ pcieUri.arguments, x.1 ≠ Make.kEvents) ∧ ∀ x ∈ mmapUri.arguments, x.1 ≠ Make.kEvents := by
  refine ⟨fun n h => ?_, fun n h => ?_, ?_, ?_, by decide +kernel, by decide +kernel⟩
  · have h2 := (Make.setting_same (m := 100) _ (fun n => Make.numeral_val (by decide +kernel) (by decide +kernel) n) _ _ _).1 h
    have h3 := (Make.setting_nil _ _ _ _).1 h2
    omega
  · have h1 := (Make.setting_other (by decide +kernel) _ _ _ _).1 h
    have h3 := (Make.setting_nil _ _ _ _).1 h1
    omega
  · refine ⟨?_, ?_, ?_, ?_⟩ <;> (unfold Make.Unsigned; decide +kernel)
  · refine ⟨?_, ?_, ?_, ?_⟩ <;> (unfold Make.Unsigned; decide +kernel)

/-- Packets of 100 words over PCIe; over mmap, of a page without its header. -/
def pcieDev : PCfg × Cfg := (⟨.poll, 0, 100, false⟩, ⟨.v2, none, 400, 400, true⟩)
def mmapDev : PCfg × Cfg := (⟨.mmap, 0, 0, false⟩, ⟨.v2, none, 60, 60, true⟩)

example : Client.paged true 360 (.pcie "/dev/w".toList "/dev/r".toList none 50 0 100 false) = some pcieDev ∧
    Client.paged true 16 (.mmap "/dev/uio0".toList 16 50 0 0) = some mmapDev := ⟨rfl, rfl⟩

def pageTree (i : Str) : Option Node := match (getDevice pageSite 4 pageMgr i []).1 with | .ok _ n => some n | _ => none

/-- The program of `Props/C69.lean` on both devices. -/
def pcieDevRun : Option (List DevRes × St PcieDummy.FT) := (pageTree "p".toList).bind fun n => runDev pcieDev.2 (PcieDummy.fifoT pcieDev.2 (fun _ => pcieDev.1) 0) n devProg
  (St.init (PcieDummy.FT.init (fun _ => pcieDev.1) 7 PcieDummy.pcieSteps))

def mmapDevRun : Option (List DevRes × St (PagedT (Dev (W → W)))) := (pageTree "m".toList).bind fun n =>
  runDev mmapDev.2 (pagedT mmapDev.2 (fun _ => mmapDev.1) (viaHub mmapDev.2 (dummyTarget fun _ => 0)) 0) n devProg
  (St.init (PagedT.init (fun _ => mmapDev.1) 4 16 0 0#32 ⟨fun _ => 0x77, 0⟩ [[.connect 0, .flock 0, .start 0, .write 0], [.dev, .poll 0, .fetch 0, .unlock 0, .finish 0]]))

example : pcieDevRun.map (fun p => (p.1.map (devShow (resShow true (p.2.tr.w.cl 0).heap)), p.2.tr.w.dev.hw.mem 0x1102)) =
    some ([some (.data []), some (.data [0xA]), none, some (.data [])], 0xA0) := by decide +kernel

example : mmapDevRun.map (fun p => (p.1.map (devShow (resShow true (p.2.tr.w.cl 0).heap)), p.2.tr.w.dev.env.mem 0x1102)) =
    some ([some (.data []), some (.data [0xA]), none, some (.data [])], 0xA7) := by decide +kernel

/-- The other hypotheses. -/
example : PHyp (fun _ => mmapDev.1) (viaHub mmapDev.2 (dummyTarget fun _ => 0)) (PW.init (fun _ => mmapDev.1) 4 16 0 0#32 (⟨fun _ => 0x77, 0⟩ : Dev (W → W))).dev ∧
    Conforms mmapDev.2 (dummyTarget fun _ => 0) Dev.mem (viaHub mmapDev.2 (dummyTarget fun _ => 0)) :=
  ⟨dummy_phyp _ rfl rfl (by decide) (by decide) (by decide) (by decide) (by decide) (fun _ => by decide), dummy_conforms _ _⟩

example : ProperProg pcieDev.2 ((demoDecl 0x1100#32).rows 0#32) (devProg.take 3) := by
  intro id call hm r hr
  simp only [devProg, List.take_succ_cons, List.take_zero, List.mem_cons, List.not_mem_nil, or_false, DevCall.node.injEq] at hm
  rcases hm with ⟨rfl, rfl⟩ | ⟨rfl, rfl⟩ | ⟨rfl, rfl⟩ <;> (cases hr <;> (simp only [Row.Proper]; decide))

end Verif
