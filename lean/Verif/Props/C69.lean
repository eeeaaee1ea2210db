import Verif.Model.Device
import Verif.Props.C40
import Verif.Props.C57
import Verif.Props.C60
import Verif.Props.C62
import Verif.Props.C63
import Verif.Props.C67
/-!
# C69: from the connection file to the target

A program asks a connection manager for a device by its id and names nodes of the device by their ids. What it does to the target, and what it sees, is what the
connection file and the address table say. Puts together C40 (connection files), C39, C67 (client for a URI), C47, C32 (address files), C60 (programs on nodes), C62, C63
(ControlHub, networks).
-/

set_option autoImplicit false
set_option linter.unusedSimpArgs false

namespace Verif
open Node
open Verif.Hub (Bytes controlRequests Prompt)
open Verif.TraMgr (WEv bins)

namespace Spec

/-- A program on a declared device that others use too: each call performs its word accesses in order; between two of them the target may do something for
somebody else. -/
inductive SharedTable {σ β : Type} (v : Ver) (tg : Target σ) (other : σ → β → σ) (rows : List Row) :
    σ → List DevCall → List β → List (Option (List W)) → σ → Prop
  | done (m : σ) (bs : List β) : SharedTable v tg other rows m [] bs [] (bs.foldl other m)
  | dispatch {m m1 m' : σ} {prog : List DevCall} {bs bs' : List β} {rs : List (Option (List W))} :
      SharedExec v tg other m [] bs [] m1 → SharedTable v tg other rows m1 prog bs' rs m' →
      SharedTable v tg other rows m (.dispatch :: prog) (bs ++ bs') (some [] :: rs) m'
  | refused {m m' : σ} {id : Str} {call : NodeCall} {prog : List DevCall} {bs : List β} {rs : List (Option (List W))} :
      (∀ r, rowAt rows id = some r → r.means call = none) → SharedTable v tg other rows m prog bs rs m' →
      SharedTable v tg other rows m (.node id call :: prog) bs (none :: rs) m'
  | call {m m1 m' : σ} {id : Str} {call : NodeCall} {r : Row} {as : List Acc} {prog : List DevCall} {bs bs' : List β} {ws : List W}
      {rs : List (Option (List W))} : rowAt rows id = some r → r.means call = some as → SharedExec v tg other m as bs ws m1 →
      SharedTable v tg other rows m1 prog bs' rs m' →
      SharedTable v tg other rows m (.node id call :: prog) (bs ++ bs') (some (r.shows call ws) :: rs) m'

end Spec
open Spec

/-! ## Programs on nodes through a shared ControlHub -/

theorem shared_nil_words {σ β : Type} {v : Ver} {tg : Target σ} {other : σ → β → σ} {m m' : σ} {as : List Acc} {bs : List β} {ws : List W}
    (h : SharedExec v tg other m as bs ws m') (ha : as = []) : ws = [] := by
  induction h with
  | done => rfl
  | mine _ _ => cases ha
  | other _ ih => exact ih ha

theorem shared_table {σ β : Type} {tg : Target σ} {other : σ → β → σ} {c : Cfg} {n : Node} (hg : n.GoodIds) (hu : n.UniqueIds) {rows : List Row}
    (hp : n.table.Perm rows) (prog : List DevCall) (hpr : ProperProg c rows prog) (m m' : σ) (bs : List β) (shown : List (Option (List W)))
    (h : SharedRun c.ver tg other m (devOps n prog) bs shown m') : SharedTable c.ver tg other rows m prog bs (weaveDev n prog shown) m' := by
  induction prog generalizing m bs shown with
  | nil => cases h; exact .done _ _
  | cons x rest ih =>
    have ih' := fun m bs shown => ih (fun id call hm => hpr id call (by simp [hm])) m bs shown
    cases x with
    | dispatch =>
      have ho : devOps n (.dispatch :: rest) = .dispatch :: devOps n rest := by simp [devOps, devOp]
      rw [ho] at h
      cases h with
      | refused h _ => cases h
      | call h1 h2 h3 =>
        cases h1
        rw [weaveDev_some (op := .dispatch) rfl]
        have := shared_nil_words h2 rfl
        subst this
        exact .dispatch h2 (ih' _ _ _ h3)
    | node id call =>
      obtain ⟨r1, r2⟩ := devNode_row hg hu hp id
      cases hd : devNode n id with
      | none =>
        have hx : devOp n (.node id call) = none := by simp [devOp, hd]
        have ho : devOps n (.node id call :: rest) = devOps n rest := by simp [devOps, hx]
        rw [ho] at h
        rw [weaveDev_none hx]
        exact .refused (by rw [r2 hd]; intro r hr; cases hr) (ih' _ _ _ h)
      | some d =>
        obtain ⟨path, hr⟩ := r1 d hd
        obtain ⟨m1, m2⟩ := nodeOp_means c path d call c.ver (hpr id call (by simp) _ hr)
        cases hn : nodeOp d call with
        | none =>
          have hx : devOp n (.node id call) = none := by simp [devOp, hd, hn]
          have ho : devOps n (.node id call :: rest) = devOps n rest := by simp [devOps, hx]
          rw [ho] at h
          rw [weaveDev_none hx]
          exact .refused (by rw [hr]; intro r hr; cases hr; exact m2 hn) (ih' _ _ _ h)
        | some op =>
          obtain ⟨k1, k2, k3, k4⟩ := m1 op hn
          have hx : devOp n (.node id call) = some op := by simp [devOp, hd, hn]
          have ho : devOps n (.node id call :: rest) = op :: devOps n rest := by simp [devOps, hx]
          rw [ho] at h
          cases h with
          | refused h1 h2 =>
            rw [weaveDev_some hx]
            exact .refused (by rw [hr]; intro r hr; cases hr; rw [← k3]; exact h1) (ih' _ _ _ h2)
          | call h1 h2 h3 =>
            rw [weaveDev_some hx, k4]
            exact .call hr (by rw [← k3]; exact h1) h2 (ih' _ _ _ h3)

theorem weaveDev_mem {β : Type} {n : Node} (prog : List DevCall) (ys : List (Option β)) (hl : ys.length = (devOps n prog).length) (y : Option β) (hy : y ∈ ys) :
    y ∈ weaveDev n prog ys := by
  induction prog generalizing ys with
  | nil => simp [devOps] at hl; subst hl; cases hy
  | cons x rest ih =>
    cases hx : devOp n x with
    | none =>
      rw [weaveDev_none hx]
      have ho : devOps n (x :: rest) = devOps n rest := by simp [devOps, hx]
      rw [ho] at hl
      exact List.mem_cons_of_mem _ (ih ys hl hy)
    | some op =>
      have ho : devOps n (x :: rest) = op :: devOps n rest := by simp [devOps, hx]
      rw [ho] at hl
      cases ys with
      | nil => cases hy
      | cons z ys =>
        rw [weaveDev_some hx]
        rcases List.mem_cons.1 hy with rfl | hy
        · exact List.mem_cons_self ..
        · exact List.mem_cons_of_mem _ (ih ys (by simpa using hl) hy)

/-- What is thrown by the client is thrown by the program. -/
theorem runDev_exc {τ : Type} {c : Cfg} {T : Transport τ} {n : Node} {prog : List DevCall} {s0 s : St τ} {rs : List DevRes} {rs' : List Res}
    (h' : runOps c T (devOps n prog) s0 = some (rs', s))
    (hw : ∀ {β : Type} (f : Res → Option β), rs.map (devShow f) = weaveDev n prog (rs'.map f))
    (hok : ∀ e, .client (.exc e) ∈ rs → e = .bitsForbidden) (e : Exc) (he : .exc e ∈ rs') : e = .bitsForbidden := by
  have hm : some e ∈ weaveDev n prog (rs'.map fun r => match r with | .exc e => some e | .ok _ => none) :=
    weaveDev_mem _ _ (by rw [List.length_map, runOps_length h']) _ (List.mem_map.2 ⟨_, he, rfl⟩)
  rw [← hw] at hm
  obtain ⟨r, hr, hx⟩ := List.mem_map.1 hm
  cases r with
  | noNode => cases hx
  | nodeExc _ => cases hx
  | client r =>
    cases r with
    | ok _ => cases hx
    | exc e' => cases hx; exact hok _ hr

/-! ## The device -/

open Verif.Device
open Verif.Make (Client make kMax kTarget NumericNames)
open Verif.Uri (Uri)

/-- The connection files define the device `i` (first) with the URI `u`, of a protocol that is built in, and an address table that declares `t`, in which
addresses add up without carries and no path occurs twice. -/
structure Names (site : Site) (files : List (Str × Str)) (i : Str) (u : Uri) (t : Decl) : Prop where
  first : ∃ d, Conn.firstDef i (Conn.defs (Conn.met site.files files)) = some d ∧ d.uri = Uri.print u ∧ Declared site.tables disjJ d.table d.file t
  allowed : Uri.Allowed u
  port : u.port = [] → u.path = [] ∧ u.extension = []
  known : Uri.builtIn.lookup u.protocol = some false
  paths : ((t.rows 0#32).map Row.path).Nodup
  sorts : site.tables.Sorts
  protos : site.tables.Protocols

section
variable {site : Site} {files : List (Str × Str)} {m : Conn.Mgr} {i : Str} {u : Uri} {t : Decl} {k k' : NodeCache} {F : Nat} {cl : Client} {n : Node}

/-- **C69, the device.** For a device that the connection files define (`Names`): what `getDevice` returns is the client for its URI, of the protocol that the URI names, and a tree with
exactly the declared nodes. `_partial`: URIs as for C39, addresses as for C32. -/
theorem C69_device_partial (hm : Conn.construct site.files files = .ok m) (h : Names site files i u t) (hco : Coherent site.tables k)
    (hg : getDevice site F m i k = (.ok cl n, k')) :
    make site.net u.protocol u = .ok cl ∧ cl.protocol = u.protocol ∧ n.table.Perm (t.rows 0#32) ∧ n.GoodIds ∧ n.UniqueIds ∧ Coherent site.tables k' := by
  obtain ⟨d, h1, h2, h3⟩ := h.first
  rw [getDevice, Conn.C40_first _ _ _ hm, h1] at hg
  dsimp only at hg
  cases hb : getNodeTree site.tables true F d.table d.file k with
  | loops => rw [hb] at hg; cases hg
  | exc e k1 => rw [hb] at hg; cases hg
  | ok n1 k1 =>
    rw [hb, h2, Site.registry, Make.C67_text_partial _ _ _ _ h.allowed h.port h.known] at hg
    dsimp only at hg
    cases hk : make site.net u.protocol u with
    | exc e => rw [hk] at hg; cases hg
    | terminate => rw [hk] at hg; cases hg
    | ok c1 =>
      rw [hk] at hg
      cases hg
      obtain ⟨g1, g2, g3⟩ := built_ids h.sorts h.protos hco h3 h.paths hb
      exact ⟨rfl, Make.C67_protocol _ _ _ _ hk, g3, g1, g2, ((C47_cache h.protos hco F d.table d.file).1 n k' hb).1⟩

/-- **C69, it is found.** If the client can be made, the device is there, however deep the address files include each other. -/
theorem C69_found_partial (hm : Conn.construct site.files files = .ok m) (h : Names site files i u t) (hco : Coherent site.tables k)
    (hk : make site.net u.protocol u = .ok cl) : ∃ D, ∀ F, D ≤ F → ∃ n k', getDevice site F m i k = (.ok cl n, k') := by
  obtain ⟨d, h1, h2, h3⟩ := h.first
  obtain ⟨D, hD⟩ := (C32_sum_partial h.sorts h.protos hco h3).2.1
  refine ⟨D, fun F hF => ?_⟩
  obtain ⟨n, k', hb, _⟩ := hD F hF
  refine ⟨n, k', ?_⟩
  rw [getDevice, Conn.C40_first _ _ _ hm, h1]
  dsimp only
  rw [hb, h2, Site.registry, Make.C67_text_partial _ _ _ _ h.allowed h.port h.known]
  dsimp only
  rw [hk]

/-- **C69, other ids.** An id that no connection file defines is refused. -/
theorem C69_unknown (hm : Conn.construct site.files files = .ok m) : getDevice site F m i k = (.noSuchId, k) ↔
    ∀ d ∈ Conn.defs (Conn.met site.files files), d.id ≠ i := by
  rw [getDevice, Conn.C40_first _ _ _ hm, ← Conn.firstDef_none]
  cases hf : Conn.firstDef i (Conn.defs (Conn.met site.files files)) with
  | none => simp
  | some d =>
    simp only [reduceCtorEq, iff_false]
    cases getNodeTree site.tables true F d.table d.file k with
    | loops => simp
    | exc e k1 => simp
    | ok n k1 => dsimp only; cases Make.client site.net site.registry site.enabled d.uri <;> simp

/-- What has been asked for before does not matter. -/
theorem getDevice_history (hp : site.tables.Protocols) {k1 k2 : NodeCache} (h1 : Coherent site.tables k1) (h2 : Coherent site.tables k2) {F G : Nat}
    (hF : (getDevice site F m i k1).1 ≠ .loops) (hG : (getDevice site G m i k2).1 ≠ .loops) :
    (getDevice site F m i k1).1 = (getDevice site G m i k2).1 ∧ Coherent site.tables (getDevice site F m i k1).2 := by
  rw [getDevice] at hF ⊢
  rw [getDevice] at hG ⊢
  generalize m.find i = o at hF hG ⊢
  cases o with
  | none => exact ⟨rfl, h1⟩
  | some d =>
    dsimp only at hF hG ⊢
    cases ha : getNodeTree site.tables true F d.table d.file k1 with
    | loops => rw [ha] at hF; exact absurd rfl hF
    | exc e c =>
      cases hb : getNodeTree site.tables true G d.table d.file k2 with
      | loops => rw [hb] at hG; exact absurd rfl hG
      | exc e' c' => exact ⟨by rw [(C47_history hp h1 h2).2.2 e e' ha hb], ((C47_cache hp h1 F d.table d.file).2.1 e c ha).1⟩
      | ok n c' => exact absurd ha ((C47_history hp h2 h1).2.1 n e hb)
    | ok n c =>
      cases hb : getNodeTree site.tables true G d.table d.file k2 with
      | loops => rw [hb] at hG; exact absurd rfl hG
      | exc e' c' => exact absurd hb ((C47_history hp h1 h2).2.1 n e' ha)
      | ok n' c' =>
        rw [(C47_history hp h1 h2).1 n n' ha hb]
        dsimp only
        have hc := ((C47_cache hp h1 F d.table d.file).1 n c ha).1
        cases Make.client site.net site.registry site.enabled d.uri <;> exact ⟨rfl, hc⟩

/-- **C69, order.** In a sequence of calls each gives what it gives as the first call, whatever was asked for before and however often. -/
theorem C69_order (hp : site.tables.Protocols) (is : List Str) (hco : Coherent site.tables k) (hl : .loops ∉ (getDevices site F m is k).1)
    (j : Nat) (g : Got) (hj : (getDevices site F m is k).1[j]? = some g) :
    ∃ i, is[j]? = some i ∧ ∀ G, (getDevice site G m i []).1 ≠ .loops → g = (getDevice site G m i []).1 := by
  induction is generalizing k j with
  | nil => simp [getDevices] at hj
  | cons x xs ih =>
    have hx : (getDevice site F m x k).1 ≠ .loops := by
      intro h
      rw [getDevices.eq_def] at hl
      rcases hd : getDevice site F m x k with ⟨a, b⟩
      rw [hd] at h
      cases h
      simp [hd] at hl
    have first : ∀ G, (getDevice site G m x []).1 ≠ .loops → (getDevice site F m x k).1 = (getDevice site G m x []).1 :=
      fun G hG => (getDevice_history hp hco (Coherent.nil _) hx hG).1
    have hc2 : Coherent site.tables (getDevice site F m x k).2 := (getDevice_history hp hco hco hx hx).2
    rcases hd : getDevice site F m x k with ⟨a, b⟩
    rw [hd] at hx first hc2
    rw [getDevices.eq_def] at hj hl
    simp only [hd] at hj hl
    cases a with
    | loops => exact absurd rfl hx
    | terminate =>
      match j, hj with
      | 0, hj => simp at hj; subst hj; exact ⟨x, rfl, first⟩
      | j + 1, hj => simp at hj
    | ok c n | noSuchId | tree e | client e =>
      match j, hj with
      | 0, hj => simp at hj; subst hj; exact ⟨x, rfl, first⟩
      | j + 1, hj => simp at hj; exact ih hc2 (by simp at hl; exact hl) j hj

/-! ## Programs on the device -/

theorem make_hub (w : Make.World) (u : Uri) : make w "chtcp-2.0".toList u = Make.makeHub w .v2 u := by
  unfold make
  rw [if_neg (by decide +kernel), if_neg (by decide +kernel), if_neg (by decide +kernel), if_neg (by decide +kernel), if_neg (by decide +kernel), if_pos rfl]

theorem make_udp1 (w : Make.World) (u : Uri) : make w "ipbusudp-1.3".toList u = Make.makeUdp w .v1 u := by
  unfold make
  rw [if_pos rfl]

theorem make_udp2 (w : Make.World) (u : Uri) : make w "ipbusudp-2.0".toList u = Make.makeUdp w .v2 u := by
  unfold make
  rw [if_neg (by decide +kernel), if_pos rfl]

theorem make_tcp1 (w : Make.World) (u : Uri) : make w "ipbustcp-1.3".toList u = Make.makeTcp w .v1 u := by
  unfold make
  rw [if_neg (by decide +kernel), if_neg (by decide +kernel), if_pos rfl]

theorem make_tcp2 (w : Make.World) (u : Uri) : make w "ipbustcp-2.0".toList u = Make.makeTcp w .v2 u := by
  unfold make
  rw [if_neg (by decide +kernel), if_neg (by decide +kernel), if_neg (by decide +kernel), if_pos rfl]

/-- The protocol of a URI is one over UDP, of this version. -/
def IsUdp (p : Str) (v : Ver) : Prop := (p = "ipbusudp-1.3".toList ∧ v = .v1) ∨ (p = "ipbusudp-2.0".toList ∧ v = .v2)

/-- The same for TCP without ControlHub. -/
def IsTcp (p : Str) (v : Ver) : Prop := (p = "ipbustcp-1.3".toList ∧ v = .v1) ∨ (p = "ipbustcp-2.0".toList ∧ v = .v2)

/-- The maximum that the URI asks for, 1400 bytes if it does not: not too small, not too large. -/
def GoodMax (u : Uri) : Prop := ∀ n, Spec.Setting kMax Spec.Numeral 1400 u.arguments n → 40 ≤ n ∧ n < 4 * 2 ^ 16

/-- **C69, through a ControlHub.** A device whose URI is `chtcp-2.0://…?target=a.b.c.d:port`, gotten from a connection manager; a program that names nodes by their ids, over TCP, in which
no call of the client fails; the ControlHub and its network do anything, for this and for other clients, and the bytes reach the ControlHub and come back as for C62. Then the program sees on the
target at this address and port what the declared table says, each call performing its word accesses in order, with packets of others executed between them. -/
theorem C69_hub_partial (hm : Conn.construct site.files files = .ok m) (h : Names site files i u t) (hco : Coherent site.tables k)
    (hg : getDevice site F m i k = (.ok cl n, k')) (hpro : u.protocol = "chtcp-2.0".toList) (hnum : NumericNames site.net)
    (hu : Make.Unsigned kMax u.arguments) (hmax : GoodMax u) (e : Make.Ep) (htgt : Spec.First kTarget u.arguments e.target)
    {wrapNeg : Bool} {c : Cfg} (hc : cl.cfg wrapNeg = some c) {nn N : Nat} (hpar : TPar nn N)
    (prog : List DevCall) (hpr : ProperProg c (t.rows 0#32) prog) (plan : List (List TEv × Bool)) (rs : List DevRes) (s : St TcpT)
    (hrun : runDev c (tcpT c nn N) n (prog ++ [.dispatch]) (St.init (TcpT.init plan)) = some (rs, s))
    (hok : ∀ e, .client (.exc e) ∈ rs → e = .bitsForbidden)
    {σ : Type} (tg : Target σ) {t0 : Hub.Tgt σ} {absMax L me p : Nat} (hd : 0 < t0.depth) (hmx : 0 < absMax)
    (hb : L + min t0.depth absMax + 2 * t0.depth < 65535) (h0 : Hub.RecentHist t0) {es : List WEv} {w : TraMgr.World σ}
    (hwr : (TraMgr.World.init t0 absMax).run (execBytes tg) me p ⟨e.ip, e.port.toNat⟩ es = some w)
    (hp : Prompt (execBytes tg) L (Hub.start t0 absMax) w.evs)
    (hto : bins es <+: s.tr.u.wire.map fun f => wordBytes f.words) (hfrom : s.tr.u.rx.map wordBytes <+: w.tm.sent) :
    ∃ shown : List (Option (List W)), rs.map (devShow (resShow wrapNeg s.tr.u.heap)) = shown.map (Option.map ValOut.data) ∧
      SharedTable .v2 tg (fun m b => (execBytes tg m b).1) (t.rows 0#32) t0.st (prog ++ [.dispatch]) (othersBodies me w.evs) shown
        (Hub.final (execBytes tg) t0.st ((controlRequests w.evs).map Hub.bodyOf)) := by
  obtain ⟨d1, _, g3, g1, g2, _⟩ := C69_device_partial hm h hco hg
  rw [hpro, make_hub] at d1
  have hs : ∀ x ∈ u.arguments, Uri.NoSp x.2 := fun x hx => (h.allowed.sp6 x hx).2
  obtain ⟨_, _, _, _, eps, nm, ip, port, _, _, _, _, _, _, hset, _, rfl⟩ := (Make.C67_hub_partial _ _ _ hs hu _).1 d1
  obtain ⟨n1, n2⟩ := hmax nm hset
  have ha := Make.C67_numeric_target _ hnum _ _ hs hu e htgt _ _ _ _ d1
  have hwf := Make.cfg_wf wrapNeg _ c hc nm (.inr (.inr ⟨_, eps, ip, port, rfl⟩)) n1 (by omega)
  simp only [Client.cfg, Option.some.injEq] at hc
  have hn : (BitVec.ofNat 32 nm).toNat = nm := by rw [BitVec.toNat_ofNat, Nat.mod_eq_of_lt (by omega)]
  have hv : c.ver = .v2 := by rw [← hc]
  have hcap : CapOK c := by intro hx; rw [hv] at hx; cases hx
  have hr : Roomy c := by subst hc; constructor <;> simp only [Cfg.preambleSize, Cfg.preReply, hn] <;> simp <;> omega
  have hh : c.hub = some (ip, port) := by rw [← hc]
  have hm' : c.maxSend.toNat < 4 * 2 ^ 16 := by rw [← hc]; simp only [hn]; exact n2
  have hwn : c.wrapNeg = wrapNeg := by rw [← hc]
  obtain ⟨o1, _⟩ := tableRun_ops (tg := tg) g1 g2 g3 prog hpr t0.st
  obtain ⟨rs', r1, q2⟩ := (runDev_ops _ _).1 rs s hrun
  have hex := runDev_exc r1 q2 hok
  rw [devOps_dispatch] at r1
  rw [← ha] at hwr
  obtain ⟨shown, s1, s2⟩ := C62_shared_partial hpar hwf hcap hr hh hv hm' (devOps n prog) o1 plan rs' s r1 hex tg hd hmx hb h0 hwr hp hto hfrom
  rw [← devOps_dispatch] at s2
  have s3 := shared_table g1 g2 g3 _ (ProperProg.append_dispatch hpr) _ _ _ _ s2
  rw [hv] at s3
  refine ⟨_, ?_, s3⟩
  rw [q2, ← hwn, s1, weaveDev_map]

/-- **C69, over UDP.** A device with a URI `ipbusudp-…://…`, gotten from a connection manager: the client has the endpoint that is found for the host and the port. A program that names nodes by
their ids, in which no call of the client fails, through a network as for C63, sees what the declared table says; each access is done exactly once. -/
theorem C69_udp_partial (hm : Conn.construct site.files files = .ok m) (h : Names site files i u t) (hco : Coherent site.tables k)
    (hg : getDevice site F m i k = (.ok cl n, k')) {v : Ver} (hpro : IsUdp u.protocol v)
    (hu : Make.Unsigned kMax u.arguments) (hmax : GoodMax u) {wrapNeg : Bool} {c : Cfg} (hc : cl.cfg wrapNeg = some c) :
    (∃ ep nm mem, cl = .udp v ep nm mem ∧ site.net.udp4 u.hostname u.port = some ep) ∧
    ∀ {σ ρ : Type} {tg : Target σ} {mem : ρ → σ} {resp : ρ → List W → Option (List W) × ρ}, Conforms c tg mem resp → ∀ {N : Nat}, 0 < N → N < 2 ^ 32 →
    ∀ (prog : List DevCall), ProperProg c (t.rows 0#32) prog → ∀ (plan : List (List Ev)) (rs : List DevRes) (s : St UdpT),
    runDev c (udpT c N) n (prog ++ [.dispatch]) (St.init ⟨.init, plan, 0, []⟩) = some (rs, s) → (∀ e, .client (.exc e) ∈ rs → e = .bitsForbidden) →
    ∀ {e e' : ρ} {arr got : List Nat}, Carried resp s.tr.u.datagrams s.tr.u.rx e e' arr got → InWindow c s.tr.u.datagrams arr got →
    arr.Nodup → arr.Pairwise (· < ·) ∨ got.Pairwise (· < ·) →
    rs.map (devShow (resShow wrapNeg s.tr.u.heap)) = (tableRun v tg (t.rows 0#32) (prog ++ [.dispatch]) (mem e)).1.map (Option.map ValOut.data) ∧
      mem e' = (tableRun v tg (t.rows 0#32) (prog ++ [.dispatch]) (mem e)).2 := by
  obtain ⟨d1, _, g3, g1, g2, _⟩ := C69_device_partial hm h hco hg
  have d2 : Make.makeUdp site.net v u = .ok cl := by
    rcases hpro with ⟨hx, rfl⟩ | ⟨hx, rfl⟩
    · rw [hx, make_udp1] at d1; exact d1
    · rw [hx, make_udp2] at d1; exact d1
  obtain ⟨ep, nm, hep, _, _, hset, _, rfl⟩ := (Make.C67_udp_partial _ _ _ hu _).1 d2
  refine ⟨⟨ep, nm, _, rfl, hep⟩, ?_⟩
  intro σ ρ tg mem resp hcf N h0 hN prog hpr plan rs s hrun hok e e' arr got hnet hwin hdup hord
  obtain ⟨n1, n2⟩ := hmax nm hset
  have hwf := Make.cfg_wf wrapNeg _ c hc nm (.inl ⟨_, _, _, rfl⟩) n1 (by omega)
  simp only [Client.cfg, Option.some.injEq] at hc
  have hn : (BitVec.ofNat 32 nm).toNat = nm := by rw [BitVec.toNat_ofNat, Nat.mod_eq_of_lt (by omega)]
  have hv : c.ver = v := by rw [← hc]
  have hcap : CapOK c := by intro _; subst hc; simp only [Cfg.preambleSize, hn]; simp; omega
  have hr : Roomy c := by subst hc; constructor <;> simp only [Cfg.preambleSize, Cfg.preReply, hn] <;> simp <;> (try split) <;> omega
  have hwn : c.wrapNeg = wrapNeg := by rw [← hc]
  obtain ⟨o1, _⟩ := tableRun_ops (tg := tg) g1 g2 g3 prog hpr (mem e)
  obtain ⟨_, o2⟩ := tableRun_ops (tg := tg) g1 g2 g3 _ (ProperProg.append_dispatch hpr) (mem e)
  obtain ⟨rs', r1, q2⟩ := (runDev_ops _ _).1 rs s hrun
  have hex := runDev_exc r1 q2 hok
  rw [devOps_dispatch] at r1
  obtain ⟨r2, r3⟩ := C63_once_partial h0 hN hwf hcap (fun _ => hr) hcf (devOps n prog) o1 plan rs' s r1 hex hnet hwin hdup hord
  rw [← devOps_dispatch] at r2 r3
  rw [← hv, ← hwn]
  exact ⟨by rw [q2, r2, weaveDev_map, o2], by rw [r3, o2]⟩

/-- **C69, over TCP without ControlHub.** -/
theorem C69_tcp_partial (hm : Conn.construct site.files files = .ok m) (h : Names site files i u t) (hco : Coherent site.tables k)
    (hg : getDevice site F m i k = (.ok cl n, k')) {v : Ver} (hpro : IsTcp u.protocol v)
    (hu : Make.Unsigned kMax u.arguments) (hmax : GoodMax u) {wrapNeg : Bool} {c : Cfg} (hc : cl.cfg wrapNeg = some c) :
    (∃ eps nm, cl = .tcp v eps nm ∧ site.net.tcp u.hostname u.port = some eps) ∧
    ∀ {σ ρ : Type} {tg : Target σ} {mem : ρ → σ} {resp : ρ → List W → Option (List W) × ρ}, Conforms c tg mem resp → ∀ {nn N : Nat}, TPar nn N →
    ∀ (prog : List DevCall), ProperProg c (t.rows 0#32) prog → ∀ (plan : List (List TEv × Bool)) (rs : List DevRes) (s : St TcpT),
    runDev c (tcpT c nn N) n (prog ++ [.dispatch]) (St.init (TcpT.init plan)) = some (rs, s) → s.tr.u.dirty = false → s.tr.u.stale = false →
    ∀ {e e' : ρ}, Follows resp e s.tr.u.outcomes e' →
    rs.map (devShow (resShow wrapNeg s.tr.u.heap)) = (tableRun v tg (t.rows 0#32) (prog ++ [.dispatch]) (mem e)).1.map (Option.map ValOut.data) ∧
      mem e' = (tableRun v tg (t.rows 0#32) (prog ++ [.dispatch]) (mem e)).2 := by
  obtain ⟨d1, _, g3, g1, g2, _⟩ := C69_device_partial hm h hco hg
  have d2 : Make.makeTcp site.net v u = .ok cl := by
    rcases hpro with ⟨hx, rfl⟩ | ⟨hx, rfl⟩
    · rw [hx, make_tcp1] at d1; exact d1
    · rw [hx, make_tcp2] at d1; exact d1
  obtain ⟨eps, nm, hep, _, hset, rfl⟩ := (Make.C67_tcp_partial _ _ _ hu _).1 d2
  refine ⟨⟨eps, nm, rfl, hep⟩, ?_⟩
  intro σ ρ tg mem resp hcf nn N hpar prog hpr plan rs s hrun hdy hst e e' hf
  obtain ⟨n1, n2⟩ := hmax nm hset
  have hwf := Make.cfg_wf wrapNeg _ c hc nm (.inr (.inl ⟨_, _, rfl⟩)) n1 (by omega)
  simp only [Client.cfg, Option.some.injEq] at hc
  have hn : (BitVec.ofNat 32 nm).toNat = nm := by rw [BitVec.toNat_ofNat, Nat.mod_eq_of_lt (by omega)]
  have hv : c.ver = v := by rw [← hc]
  have hcap : CapOK c := by intro _; subst hc; simp only [Cfg.preambleSize, hn]; simp; omega
  have hr : Roomy c := by subst hc; constructor <;> simp only [Cfg.preambleSize, Cfg.preReply, hn] <;> simp <;> (try split) <;> omega
  have hwn : c.wrapNeg = wrapNeg := by rw [← hc]
  obtain ⟨o1, _⟩ := tableRun_ops (tg := tg) g1 g2 g3 prog hpr (mem e)
  obtain ⟨_, o2⟩ := tableRun_ops (tg := tg) g1 g2 g3 _ (ProperProg.append_dispatch hpr) (mem e)
  obtain ⟨rs', r1, q2⟩ := (runDev_ops _ _).1 rs s hrun
  rw [devOps_dispatch] at r1
  obtain ⟨r2, r3⟩ := C16_tcp hpar hwf hcap (fun _ => hr) hcf (devOps n prog) o1 plan rs' s r1 hdy hst e e' hf
  rw [← devOps_dispatch] at r2 r3
  rw [← hv, ← hwn]
  exact ⟨by rw [q2, r2, weaveDev_map, o2], by rw [r3, o2]⟩

end

/-! ## Non-vacuity -/

def hubUri : Uri := ⟨"chtcp-2.0".toList, "hub".toList, "10203".toList, [], [], [(kTarget, "10.0.0.1:50001".toList), (kMax, "40".toList)]⟩
def udpUri : Uri := ⟨"ipbusudp-2.0".toList, "10.0.0.1".toList, "50001".toList, [], [], []⟩
def tcpUri : Uri := ⟨"ipbustcp-1.3".toList, "board".toList, "50001".toList, [], [], []⟩

/-- One connection file with three devices. -/
def devWorld : Conn.World where
  expand p := some [p]
  read p := if p = "/c.xml".toList then
      some (some [⟨some "h".toList, some (Uri.print hubUri), some "a".toList⟩, ⟨some "u".toList, some (Uri.print udpUri), some "a".toList⟩,
        ⟨some "t".toList, some (Uri.print tcpUri), some "a".toList⟩])
    else none
  http _ := none

def devSite : Site := ⟨devWorld, demoEnv "0x1000", Make.numericWorld, [], []⟩
def devFiles : List (Str × Str) := [("file".toList, "/c.xml".toList)]
def devMgr : Conn.Mgr := match Conn.construct devWorld devFiles with | .ok m => m | .error _ => ⟨[], []⟩

theorem devMgr_ok : Conn.construct devSite.files devFiles = .ok devMgr := rfl

theorem uri_ok : ∀ u ∈ [hubUri, udpUri, tcpUri], Uri.Allowed u ∧ u.port ≠ [] ∧ Uri.builtIn.lookup u.protocol = some false := by
  intro u hu
  simp only [List.mem_cons, List.not_mem_nil, or_false] at hu
  rcases hu with rfl | rfl | rfl
  · refine ⟨⟨?_, ?_, ?_, ?_, ?_, ?_, ?_, ?_, ?_, ?_, ?_, ?_⟩, ?_, ?_⟩ <;> first | decide +kernel | (simp only [Uri.NoSp, Uri.Without]; decide +kernel)
  · refine ⟨⟨?_, ?_, ?_, ?_, ?_, ?_, ?_, ?_, ?_, ?_, ?_, ?_⟩, ?_, ?_⟩ <;> first | decide +kernel | (simp only [Uri.NoSp, Uri.Without]; decide +kernel)
  · refine ⟨⟨?_, ?_, ?_, ?_, ?_, ?_, ?_, ?_, ?_, ?_, ?_, ?_⟩, ?_, ?_⟩ <;> first | decide +kernel | (simp only [Uri.NoSp, Uri.Without]; decide +kernel)

theorem dev_names (i : Str) (u : Uri) (h : (i, u) ∈ [("h".toList, hubUri), ("u".toList, udpUri), ("t".toList, tcpUri)]) :
    Names devSite devFiles i u (demoDecl 0x1100#32) := by
  have hd : ∀ cur : Str, Declared (demoEnv "0x1000") disjJ "a".toList cur (demoDecl 0x1100#32) :=
    fun cur => demo_declared (r := 0x1000#32) (by decide +kernel) ⟨by decide, by decide⟩
  have hu : u ∈ [hubUri, udpUri, tcpUri] := List.mem_map_of_mem (f := Prod.snd) h
  obtain ⟨a1, a2, a3⟩ := uri_ok u hu
  refine ⟨?_, a1, fun hp => absurd hp a2, a3, by decide +kernel, demoEnv_sorts _, demoEnv_protocols _⟩
  simp only [List.mem_cons, List.not_mem_nil, or_false, Prod.mk.injEq] at h
  rcases h with ⟨rfl, rfl⟩ | ⟨rfl, rfl⟩ | ⟨rfl, rfl⟩ <;> exact ⟨⟨_, _, "a".toList, "/c.xml".toList⟩, rfl, rfl, hd _⟩

def clientOf : Got → Option Client
  | .ok c _ => some c
  | _ => none

/-- The devices. -/
example : (getDevices devSite 4 devMgr ["t".toList, "x".toList, "h".toList, "u".toList, "h".toList] []).1.map clientOf =
    [some (.tcp .v1 [] 1400), none, some (.hub .v2 [] 40 0x0100000A 0x51C3), some (.udp .v2 ⟨10, 0, 0, 1, 50001⟩ 1400 1420),
      some (.hub .v2 [] 40 0x0100000A 0x51C3)] := by decide +kernel

example : (⟨10, 0, 0, 1, 50001⟩ : Make.Ep).target = "10.0.0.1:50001".toList ∧ Spec.First kTarget hubUri.arguments "10.0.0.1:50001".toList :=
  ⟨by decide +kernel, [], _, rfl, by simp⟩

/-- The maximum of the device `h` is 40, of the others 1400. -/
example : GoodMax udpUri := fun n h => by
  have := (Make.setting_nil _ _ _ _).1 h
  omega

example : GoodMax hubUri := fun n h => by
  have h1 := (Make.setting_other (by decide +kernel) _ _ _ _).1 h
  have h2 := (Make.setting_same (m := 40) _ (fun n => Make.numeral_val (by decide +kernel) (by decide +kernel) n) _ _ _).1 h1
  have h3 := (Make.setting_nil _ _ _ _).1 h2
  omega

/-- A program on the device `h`. -/
def devProg : List DevCall := [.node "M.F".toList (.write 0xA#32), .node "M.F".toList .read, .node "M.X".toList .read, .dispatch]

def devCfg : Cfg := ⟨.v2, some (0x0100000A, 0x51C3), 40, 40, true⟩

def devTree : Option Node := match (getDevice devSite 4 devMgr "h".toList []).1 with | .ok _ n => some n | _ => none

/-- What the ControlHub sends: the old value of the register, and the new one. -/
def devBody : List W := [0x1C000000, 0x0100000A, 0x51C3, 0x200000F0, 0x20000140, 0x77, 0x20010100, 0xA7]

def devTcp : Option (List DevRes × St TcpT) := devTree.bind fun n => runDev devCfg (tcpT devCfg 2 16) n devProg (St.init (TcpT.init
  [([], true), ([], true), ([.sendDone true, .recvHdr (some 8), .recvBody (some devBody), .recvEnd], true)]))

/-- The ControlHub takes the packet of the program and one of another client, which writes 0x77 to the register and comes first. -/
def devEvs : List WEv := [.chunk (wordBytes [0x0100000A, 0x070051C3, 0x200000F0, 0x2000014F, 0x1102, 0xFFFFFF0F, 0xA0, 0x2001010F, 0x1102]),
  .other (wordBytes [0x200000F0, 0x2000011F, 0x1102, 0x77]) 9, .request,
  .toTarget 0 (List.replicate 48 0), .toHub 0, .toTarget 1 (List.replicate 48 0), .toHub 1, .response]

/-- The hypotheses of `C69_hub_partial` hold, and what the program sees: the field that it has written, and that there is no node `M.X`. The other bits of the register are those of the other client. -/
example : Client.cfg true (.hub .v2 [] 40 0x0100000A 0x51C3) = some devCfg := rfl

example : devTcp.map (fun p => p.1.map (devShow (resShow true p.2.tr.u.heap))) =
    some [some (.data []), some (.data [0xA]), none, some (.data [])] := by decide +kernel

example : devTcp.map (fun p => (p.1.all (fun r => match r with | .client (.exc _) => false | _ => true),
      p.2.tr.u.wire.map (fun f => wordBytes f.words), p.2.tr.u.rx)) = some (true, bins devEvs, [devBody]) := by decide +kernel

example : ((TraMgr.World.init hubTgt 2).run (execBytes (dummyTarget fun _ => 0)) 7 3 ⟨(⟨10, 0, 0, 1, 50001⟩ : Make.Ep).ip, 50001⟩ devEvs).map (fun w =>
      (Prompt (execBytes (dummyTarget fun _ => 0)) 100 (Hub.start hubTgt 2) w.evs, w.tm.sent, othersBodies 7 w.evs)) =
    some (true, [wordBytes devBody], [wordBytes [0x2000011F, 0x1102, 0x77]]) := by decide +kernel

example : ProperProg devCfg ((demoDecl 0x1100#32).rows 0#32) (devProg.take 3) := by
  intro id call hm r hr
  simp only [devProg, List.take_succ_cons, List.take_zero, List.mem_cons, List.not_mem_nil, or_false, DevCall.node.injEq] at hm
  rcases hm with ⟨rfl, rfl⟩ | ⟨rfl, rfl⟩ | ⟨rfl, rfl⟩ <;> (cases hr <;> (simp only [Row.Proper]; decide))

end Verif
