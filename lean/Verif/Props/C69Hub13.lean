import Verif.Props.C69
import Verif.Props.C73
/-!
# C69 through a ControlHub to an IPbus 1.3 target

As `C69_hub_partial`, for URIs with `chtcp-1.3`; the ControlHub and its network are those of C73.
-/

set_option autoImplicit false
set_option linter.unusedSimpArgs false

namespace Verif
open Node Spec
open Verif.Hub (Bytes Done Timely Tgt13)
open Verif.Hub13 (execBytes13 Executed)
open Verif.Device
open Verif.Make (Client make kMax kTarget NumericNames)
open Verif.Uri (Uri)

theorem make_hub1 (w : Make.World) (u : Uri) : make w "chtcp-1.3".toList u = Make.makeHub w .v1 u := by
  unfold make
  rw [if_neg (by decide +kernel), if_neg (by decide +kernel), if_neg (by decide +kernel), if_neg (by decide +kernel), if_pos rfl]

section
variable {site : Site} {files : List (Str × Str)} {m : Conn.Mgr} {i : Str} {u : Uri} {t : Decl} {k k' : NodeCache} {F : Nat} {cl : Client} {n : Node}

/-- **C69, through a ControlHub to an IPbus 1.3 target.** A device whose URI is `chtcp-1.3://…?target=a.b.c.d:port`, gotten from a connection manager; a program that names nodes by their
ids, in which no call of the client fails; the ControlHub and its network as for C73. Then the program sees on the target at this address and port what the declared table says, each call
performing its word accesses in order, with packets of others executed between them. `h44`: packets to IPbus 1.3 targets are
filled up to eight words, which have to fit. -/
theorem C69_hub13_partial (hm : Conn.construct site.files files = .ok m) (h : Names site files i u t) (hco : Coherent site.tables k)
    (hg : getDevice site F m i k = (.ok cl n, k')) (hpro : u.protocol = "chtcp-1.3".toList) (hnum : NumericNames site.net)
    (hu : Make.Unsigned kMax u.arguments) (hmax : GoodMax u) (h44 : ∀ n, Spec.Setting kMax Spec.Numeral 1400 u.arguments n → 44 ≤ n) (e : Make.Ep) (htgt : Spec.First kTarget u.arguments e.target)
    {wrapNeg : Bool} {c : Cfg} (hc : cl.cfg wrapNeg = some c) {nn N : Nat} (hpar : TPar nn N)
    (prog : List DevCall) (hpr : ProperProg c (t.rows 0#32) prog) (plan : List (List TEv × Bool)) (rs : List DevRes) (s : St TcpT)
    (hrun : runDev c (tcpT c nn N) n (prog ++ [.dispatch]) (St.init (TcpT.init plan)) = some (rs, s))
    (hok : ∀ e, .client (.exc e) ∈ rs → e = .bitsForbidden)
    {σ : Type} (tg : Target σ) {t0 : Tgt13 σ} {absMax me p : Nat} {es : List Hub13.WEv} {w : Hub13.World (Tgt13 σ)}
    (hwr : (Hub13.World.init t0).run (Tgt13.recv (execBytes13 tg)) absMax me p ⟨e.ip, e.port.toNat⟩ es = some w)
    (ht : Timely (Tgt13.recv (execBytes13 tg)) absMax (Hub.World.init t0) [] w.evs = true)
    (hto : Hub13.bins es <+: s.tr.u.wire.map fun f => wordBytes f.words) (hfrom : s.tr.u.rx.map wordBytes <+: w.tm.sent) :
    ∃ (S : List (Bytes × Bytes)) (E : List Done) (shown : List (Option (List W))), Executed (execBytes13 tg) t0 w.net.tgt w.evs S E ∧
      rs.map (devShow (resShow wrapNeg s.tr.u.heap)) = shown.map (Option.map ValOut.data) ∧
      SharedTable .v1 tg (fun m b => (execBytes13 tg m b).1) (t.rows 0#32) t0.st (prog ++ [.dispatch])
        ((E.filter fun x => !decide (x.pid = me)).map (·.pkt)) shown w.net.tgt.st := by
  obtain ⟨d1, _, g3, g1, g2, _⟩ := C69_device_partial hm h hco hg
  rw [hpro, make_hub1] at d1
  have hs : ∀ x ∈ u.arguments, Uri.NoSp x.2 := fun x hx => (h.allowed.sp6 x hx).2
  obtain ⟨_, _, _, _, eps, nm, ip, port, _, _, _, _, _, _, hset, _, rfl⟩ := (Make.C67_hub_partial _ _ _ hs hu _).1 d1
  obtain ⟨n1, n2⟩ := hmax nm hset
  have n3 := h44 nm hset
  have ha := Make.C67_numeric_target _ hnum _ _ hs hu e htgt _ _ _ _ d1
  have hwf := Make.cfg_wf wrapNeg _ c hc nm (.inr (.inr ⟨_, eps, ip, port, rfl⟩)) n1 (by omega)
  simp only [Client.cfg, Option.some.injEq] at hc
  have hn : (BitVec.ofNat 32 nm).toNat = nm := by rw [BitVec.toNat_ofNat, Nat.mod_eq_of_lt (by omega)]
  have hv : c.ver = .v1 := by rw [← hc]
  have hcap : CapOK c := by intro _; subst hc; simp only [Cfg.preambleSize, hn]; simp; omega
  have hh : c.hub = some (ip, port) := by rw [← hc]
  have hm' : c.maxSend.toNat < 4 * 2 ^ 16 := by rw [← hc]; simp only [hn]; exact n2
  have hwn : c.wrapNeg = wrapNeg := by rw [← hc]
  obtain ⟨o1, _⟩ := tableRun_ops (tg := tg) g1 g2 g3 prog hpr t0.st
  obtain ⟨rs', r1, q2⟩ := (runDev_ops _ _).1 rs s hrun
  have hex := runDev_exc r1 q2 hok
  rw [devOps_dispatch] at r1
  rw [← ha] at hwr
  obtain ⟨S, E, shown, hE, s1, s2⟩ := Hub13.C73_shared_partial hpar hwf hcap hh hv hm' (devOps n prog) o1 plan rs' s r1 hex tg hwr ht hto hfrom
  rw [← devOps_dispatch] at s2
  have s3 := shared_table g1 g2 g3 _ (ProperProg.append_dispatch hpr) _ _ _ _ s2
  rw [hv] at s3
  refine ⟨S, E, _, hE, ?_, s3⟩
  rw [q2, ← hwn, s1, weaveDev_map]

end

/-! ## Non-vacuity -/

def hubUri1 : Uri := ⟨"chtcp-1.3".toList, "hub".toList, "10203".toList, [], [], [(kTarget, "10.0.0.1:50001".toList), (kMax, "48".toList)]⟩

def devWorld1 : Conn.World where
  expand p := some [p]
  read p := if p = "/c.xml".toList then some (some [⟨some "h".toList, some (Uri.print hubUri1), some "a".toList⟩]) else none
  http _ := none

def devSite1 : Site := ⟨devWorld1, demoEnv "0x1000", Make.numericWorld, [], []⟩
def devMgr1 : Conn.Mgr := match Conn.construct devWorld1 devFiles with | .ok m => m | .error _ => ⟨[], []⟩

example : Conn.construct devSite1.files devFiles = .ok devMgr1 := rfl

example : Names devSite1 devFiles "h".toList hubUri1 (demoDecl 0x1100#32) := by
  have hd : ∀ cur : Str, Declared (demoEnv "0x1000") disjJ "a".toList cur (demoDecl 0x1100#32) :=
    fun cur => demo_declared (r := 0x1000#32) (by decide +kernel) ⟨by decide, by decide⟩
  have a1 : Uri.Allowed hubUri1 := by
    refine ⟨?_, ?_, ?_, ?_, ?_, ?_, ?_, ?_, ?_, ?_, ?_, ?_⟩ <;> first | decide +kernel | (simp only [Uri.NoSp, Uri.Without]; decide +kernel)
  refine ⟨?_, a1, fun hp => absurd hp (by decide +kernel), by decide +kernel, by decide +kernel, demoEnv_sorts _, demoEnv_protocols _⟩
  exact ⟨⟨_, _, "a".toList, "/c.xml".toList⟩, rfl, rfl, hd _⟩

example : (getDevices devSite1 4 devMgr1 ["h".toList] []).1.map clientOf = [some (.hub .v1 [] 48 0x0100000A 0x51C3)] := by decide +kernel

/-- The maximum is 48. -/
example : ∀ n, Spec.Setting kMax Spec.Numeral 1400 hubUri1.arguments n → n = 48 := fun n h => by
  have h1 := (Make.setting_other (by decide +kernel) _ _ _ _).1 h
  have h2 := (Make.setting_same (m := 48) _ (fun n => Make.numeral_val (by decide +kernel) (by decide +kernel) n) _ _ _).1 h1
  exact (Make.setting_nil _ _ _ _).1 h2

def devCfg1 : Cfg := ⟨.v1, some (0x0100000A, 0x51C3), 48, 48, true⟩

example : Client.cfg true (.hub .v1 [] 48 0x0100000A 0x51C3) = some devCfg1 := rfl

def devTree1 : Option Node := match (getDevice devSite1 4 devMgr1 "h".toList []).1 with | .ok _ n => some n | _ => none

/-- The ControlHub takes the packet of the program, after one of another client, which writes 0x77 to the register. -/
def devEvs1 : List Hub13.WEv :=
  let j := List.replicate 48 0
  [.chunk (wordBytes [0x0100000A, 0x080051C3, 0x100000F8, 0x10020128, 0x1102, 0xFFFFFF0F, 0xA0, 0x10040118, 0x1102, 0x100000F8]),
    .other (wordBytes [0x100000F8, 0x10020120, 0x1102, 0x77]) 9, .take, .toTarget 0 j, .toHub 0, .toTarget 1 j, .toHub 1, .cast, .take,
    .toTarget 2 j, .toHub 2, .response]

def devHub1 : Option (Hub13.World (Tgt13 (W → W))) :=
  (Hub13.World.init ⟨fun _ => 5, []⟩).run Hub13.recv13 16 7 3 ⟨(⟨10, 0, 0, 1, 50001⟩ : Make.Ep).ip, 50001⟩ devEvs1

/-- What the ControlHub sends. -/
def devBody1 : List W := [0x20000000, 0x0100000A, 0x51C3, 0x100000FC, 0x1002012C, 0xA7, 0x1004011C, 0xA7, 0x100000FC]

def devTcp1 : Option (List DevRes × St TcpT) := devTree1.bind fun n => runDev devCfg1 (tcpT devCfg1 2 16) n devProg (St.init (TcpT.init
  [([], true), ([], true), ([.sendDone true, .recvHdr (some 9), .recvBody (some devBody1), .recvEnd], true)]))

/-- What the program sees: the field that it has written, and that there is no node `M.X`. The other bits of the register are those of the other client. -/
example : devTcp1.map (fun p => p.1.map (devShow (resShow true p.2.tr.u.heap))) =
    some [some (.data []), some (.data [0xA]), none, some (.data [])] := by decide +kernel

/-- The hypotheses of `C69_hub13_partial` hold. -/
example : devTcp1.map (fun p => (p.1.all (fun r => match r with | .client (.exc _) => false | _ => true),
      p.2.tr.u.wire.map (fun f => wordBytes f.words), p.2.tr.u.rx)) = some (true, Hub13.bins devEvs1, [devBody1]) := by decide +kernel

example : devHub1.map (fun w => (Timely Hub13.recv13 16 (Hub.World.init ⟨fun _ => 5, []⟩) [] w.evs, w.tm.sent)) =
    some (true, [wordBytes devBody1]) := by decide +kernel

end Verif
