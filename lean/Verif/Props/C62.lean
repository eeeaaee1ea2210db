import Verif.Lemmas.SharedWorld
import Verif.Props.C15Tcp
/-!
# C62: a program through a ControlHub that others use as well

See `/verif/properties.jsonl` and `DESIGN.md`. The client is uHAL over TCP (`Verif/Model/Client.lean`, `Verif/Model/Tcp.lean`), the ControlHub that of
`Verif/Model/TraMgr.lean` and `Verif/Model/Hub.lean` with an unreliable network behind it, the target that of `Verif/Model/Target.lean`. The
only thing that connects them are the bytes on the socket.
-/

set_option autoImplicit false
set_option linter.unusedSimpArgs false

namespace Verif
open Spec
open Verif.Hub (Bytes controlRequests Prompt)
open Verif.TraMgr (World WEv bins)

section
variable {c : Cfg} {ip : W} {port : BitVec 16} {n N : Nat} {σ : Type}

/-- What the device client took for other connections, without the packet headers. -/
def othersBodies (me : Nat) (evs : List Hub.Ev) : List Bytes := ((controlRequests evs).filter fun q => !decide (q.2 = me)).map Hub.bodyOf

/-- What the client and the ControlHub together give: the packets of the program, the answers to them, and where in the order of all packets they were executed. -/
theorem shared_core (hpar : TPar n N) (hw : WF c) (hcap : CapOK c) (hr : Roomy c) (hh : c.hub = some (ip, port)) (hv : c.ver = .v2)
    (hmax : c.maxSend.toNat < 4 * 2 ^ 16) (ops : List Op) (hops : ∀ op ∈ ops, op.ok c ∧ op.maskOK c.wrapNeg)
    (plan : List (List TEv × Bool)) (rs : List Res) (s : St TcpT)
    (hrun : runOps c (tcpT c n N) (ops ++ [.dispatch]) (St.init (TcpT.init plan)) = some (rs, s))
    (hok : ∀ e, .exc e ∈ rs → e = .bitsForbidden)
    (tg : Target σ) {t0 : Hub.Tgt σ} {absMax L me p : Nat} (hd : 0 < t0.depth) (hmx : 0 < absMax)
    (hb : L + min t0.depth absMax + 2 * t0.depth < 65535) (h0 : Hub.RecentHist t0) {es : List WEv} {w : World σ}
    (hwr : (World.init t0 absMax).run (execBytes tg) me p (hubAddr ip port) es = some w)
    (hp : Prompt (execBytes tg) L (Hub.start t0 absMax) w.evs)
    (hto : bins es <+: s.tr.u.wire.map fun f => wordBytes f.words) (hfrom : s.tr.u.rx.map wordBytes <+: w.tm.sent) :
    ∃ (fs : List Fin') (its : List (List W)), (∀ f ∈ fs, FinOK c f) ∧
      ((controlRequests w.evs).filter fun q => decide (q.2 = me)).map (·.1) = fs.map (fun f => pktBytes (f.buf c)) ∧ its.length = fs.length ∧
      (∀ (k : Nat) (f : Fin') (it : List W), (controlRequests w.evs)[k]? = some (pktBytes (f.buf c), me) →
        fs[(((controlRequests w.evs).take k).filter fun q => decide (q.2 = me)).length]? = some f →
        its[(((controlRequests w.evs).take k).filter fun q => decide (q.2 = me)).length]? = some it →
        ∃ last, (viaHub c tg ⟨Hub.final (execBytes tg) t0.st (((controlRequests w.evs).take k).map Hub.bodyOf), last⟩ (f.buf c).send).1 = some it) ∧
      pkAccs (fs.map Fin'.txns) = progAccs c.ver (ops ++ [.dispatch]) ∧
      ∀ (ρ : Type) (tg' : Target ρ) (m : ρ) (vs : List (List (List W))), AllSay c fs its vs → (execPks c.ver tg' (fs.map Fin'.txns) m).1 = vs →
        rs.map (resShow c.wrapNeg s.tr.u.heap) = (seqRun c.ver tg' (ops ++ [.dispatch]) m).1.map (Option.map ValOut.data) ∧
        (execPks c.ver tg' (fs.map Fin'.txns) m).2 = (seqRun c.ver tg' (ops ++ [.dispatch]) m).2 := by
  have hops' : ∀ op ∈ ops ++ [.dispatch], op.ok c := by
    intro o ho
    rcases List.mem_append.1 ho with ho | ho
    · exact (hops o ho).1
    · rw [List.mem_singleton.1 ho]; trivial
  -- the client
  obtain ⟨G, its0, hRI, huser, hren, hcur⟩ := good_run hw (tcp_whole (c := c) hpar) _ hops'
    (RI.init c _ Quiet (TcpT.init plan) (Whole.init hpar.hn plan) ⟨rfl, rfl, rfl, rfl⟩) (run_closed _ hrun) hok
  have hcur' : G.cur = none := hcur (by simp)
  obtain ⟨q1, q2, q3, q4⟩ := hRI.rep.fl hcur'
  have hW := hRI.rep.inv
  have hhist : s.hist = G.done.map (Fin'.buf c) := by rw [hRI.rep.hist, hRI.base]; rfl
  have hflat : s.tr.u.sent.flatten = s.hist := q2.trans hW.all
  have hfins := hRI.rep.doneOK
  have haccs : pkAccs (G.done.map Fin'.txns) = progAccs c.ver (ops ++ [.dispatch]) := by
    rw [rendered_accs hren, accs_fins]
    have : user G.items = its0 := by rw [huser]; simp [Gh.items, user]
    rw [← this, accs_user]
    simp [Gh.items, hcur']
  obtain ⟨hout, hacc⟩ := hW.told.out hW.exc (by intro a b d; rw [q3]; simp)
  rw [hW.inv.mat] at hout hacc
  have hrunC := (run_completed (c := c) tcpT_decent _ (t := TcpT.init plan)
    ⟨by simp [TcpT.init, Tcp.init], by simp [TcpT.init, Tcp.init]⟩ hrun).1
  -- the ControlHub
  rw [hW.inv.wire, List.map_map] at hto
  have hbins : bins es = (s.tr.u.sent.take (bins es).length).map fun bs => wordBytes (mkFrame bs).words := by
    have := List.prefix_iff_eq_take.1 hto
    rw [← List.map_take] at this
    exact this
  have hch : ∀ bs ∈ s.tr.u.sent.take (bins es).length, bs ≠ [] ∧ ∀ b ∈ bs, b ∈ s.hist := by
    intro bs hbs
    have hbs' := List.mem_of_mem_take hbs
    refine ⟨(hW.inv.chunk bs hbs').1, fun b hb' => ?_⟩
    rw [← hflat]
    exact List.mem_flatten.2 ⟨bs, hbs', hb'⟩
  obtain ⟨hcr, g, hg1, hg2, hg3⟩ := C51_end_partial _ hw (Transport.completed_total (tcpT c n N)) hh hv hmax hr _ hops' _ rs s hrunC tg hd hmx hb h0
    _ hch hbins hwr hp
  have hownT := own_requests _ hw (Transport.completed_total (tcpT c n N)) hh hv hmax _ hops' _ rs s hrunC tg hd hmx hb h0 _ hch hbins hwr hp
  have hgl : g.length = s.tr.u.sent.length ∧ s.tr.u.sent.take (bins es).length = s.tr.u.sent := by
    have h1 := hfrom.length_le
    rw [hg1, List.length_map, List.length_map, q4] at h1
    rw [List.length_take] at hg2
    exact ⟨by omega, List.take_of_length_le (by omega)⟩
  rw [hgl.2] at hg3 hownT
  have hrx : s.tr.u.rx = g.map List.flatten := by
    have h1 := hfrom.eq_of_length (by rw [hg1, List.length_map, List.length_map, q4, hgl.1])
    rw [hg1] at h1
    have h2 := congrArg (List.map ofLE) h1
    rw [List.map_map, List.map_map] at h2
    rw [show (ofLE ∘ wordBytes) = id from funext ofLE_wordBytes, List.map_id] at h2
    rw [h2]
    apply List.map_congr_left
    intro x _
    exact ofLE_wordBytes _
  -- no error codes
  have hall : ∀ (j : Nat) (bs : List Buf) (items : List (List W)), s.tr.u.sent[j]? = some bs → g[j]? = some items →
      ∀ (i : Nat) (b : Buf) (it : List W), bs[i]? = some b → items[i]? = some it →
        ∃ k, (controlRequests w.evs)[k]? = some (pktBytes b, me) ∧
            (((controlRequests w.evs).take k).filter fun q => q.2 = me).length = (s.tr.u.sent.take j).flatten.length + i ∧
            ∀ last, (viaHub c tg ⟨Hub.final (execBytes tg) t0.st (((controlRequests w.evs).take k).map Hub.bodyOf), last⟩ b.send).1 =
              some it := by
    intro j bs items hbs hit
    obtain ⟨hl, hi⟩ := hg3 j bs items hbs hit
    have hmem : (bs, items.flatten) ∈ s.tr.u.sent.zip s.tr.u.rx := by
      rw [List.mem_iff_getElem?]
      refine ⟨j, ?_⟩
      rw [List.getElem?_zip_eq_some]
      exact ⟨hbs, by rw [hrx, List.getElem?_map, hit]; rfl⟩
    obtain ⟨h, hokc⟩ := hacc _ hmem
    have hsub : bs.Sublist s.hist := by
      rw [← hflat]
      exact List.sublist_flatten_of_mem (List.mem_of_getElem? hbs)
    have hcl := (C51_client hw hcap (fun _ => hr) hh _ hops' plan rs s hrun bs hsub tg items hl h).2
    intro i
    induction i using Nat.strongRecOn with
    | ind i ih =>
      intro b it hb' hit'
      rcases hi i b it hb' hit' with h1 | ⟨code, hcode, rfl⟩
      · exact h1
      · exfalso
        have hne : code ≠ 0 := by rcases hcode with h | h | h <;> subst h <;> decide
        have := hcl i code hne hit' (by
          intro j' b' it' hj' hb'' hit''
          obtain ⟨k, _, _, h3⟩ := ih j' hj' b' it' hb'' hit''
          exact ⟨_, h3 0⟩)
        simp only at hokc
        rw [hokc] at this
        cases this
  have hsize : ∀ (j : Nat) (a : List Buf) (b : List (List W)), s.tr.u.sent[j]? = some a → g[j]? = some b → b.length = a.length :=
    fun j a b ha hb' => (hg3 j a b ha hb').1
  have hfinb : ∀ b ∈ s.hist, ∃ f, FinOK c f ∧ b = f.buf c := by
    intro b hb'
    rw [hhist, List.mem_map] at hb'
    obtain ⟨f, hf, rfl⟩ := hb'
    exact ⟨f, hfins f hf, rfl⟩
  obtain ⟨hzip, hglen⟩ := zip_flat s.tr.u.sent g hgl.1.symm hsize
  have hout' : s.tr.u.outcomes = (G.done.map (Fin'.buf c)).zip (g.flatten.map some) := by
    rw [hout, ← hhist, ← hflat, List.zip_map_right, ← hzip, hrx, List.zip_map_right, List.flatMap_map, List.map_flatMap]
    simp only [List.flatMap]
    congr 1
    apply List.map_congr_left
    intro x hx
    obtain ⟨j, hj⟩ := List.mem_iff_getElem?.1 hx
    rw [List.getElem?_zip_eq_some] at hj
    obtain ⟨hj1, hj2⟩ := hj
    simp only [Prod.map, id]
    rw [answered_parts x.1 x.2 (hsize j _ _ hj1 hj2), List.zip_map_right]
    intro i b it hb' hit'
    obtain ⟨k, _, _, h3⟩ := hall j _ _ hj1 hj2 i b it hb' hit'
    obtain ⟨f, hf, rfl⟩ := hfinb b (by rw [← hflat]; exact List.mem_flatten.2 ⟨x.1, List.mem_of_getElem? hj1, List.mem_of_getElem? hb'⟩)
    exact (answered_fin (fun _ => hr) tg hf (h3 0)).1
  -- the packets that the device client took
  rw [hflat, hhist, List.map_map] at hownT
  have hflatl : s.tr.u.sent.flatten.length = G.done.length := by rw [hflat, hhist, List.length_map]
  have hget : ∀ (q : Nat) (f : Fin') (it : List W), G.done[q]? = some f → g.flatten[q]? = some it →
      ∃ k, (controlRequests w.evs)[k]? = some (pktBytes (f.buf c), me) ∧
            (((controlRequests w.evs).take k).filter fun x => decide (x.2 = me)).length = q ∧
            ∀ last, (viaHub c tg ⟨Hub.final (execBytes tg) t0.st (((controlRequests w.evs).take k).map Hub.bodyOf), last⟩ (f.buf c).send).1 =
              some it := by
    intro q f it hf hit
    have hx : s.tr.u.sent.flatten[q]? = some (f.buf c) := by rw [hflat, hhist, List.getElem?_map, hf]; rfl
    obtain ⟨j, i, a, b, h1, h2, h3, h4, h5⟩ := flat_index _ g q _ it hgl.1.symm hsize hx hit
    rw [h5]
    exact hall j a b h1 h2 i _ it h3 h4
  have hown : ((controlRequests w.evs).filter fun q => decide (q.2 = me)).map (·.1) = G.done.map (fun f => pktBytes (f.buf c)) := by
    rw [← TraMgr.ownRequests, hownT]
    apply List.take_of_length_le
    rw [List.length_map]
    cases hdn : G.done.length with
    | zero => omega
    | succ l =>
      have hlt : l < G.done.length := by omega
      obtain ⟨k, h1, h2, _⟩ := hget l G.done[l] (g.flatten[l]'(by omega)) (List.getElem?_eq_getElem hlt) (List.getElem?_eq_getElem (by omega))
      have h3 := TraMgr.filter_at (fun x : Bytes × Nat => decide (x.2 = me)) _ _ _ h1 (by simp)
      rw [h2] at h3
      have h4 := (List.getElem?_eq_some_iff.1 h3).1
      have h5 := congrArg List.length hownT
      rw [TraMgr.ownRequests, List.length_map, List.length_take, List.length_map] at h5
      omega
  refine ⟨G.done, g.flatten, hfins, hown, by omega, ?_, haccs, ?_⟩
  · intro k f it hk hf hit
    obtain ⟨k', h1, h2, h3⟩ := hget _ f it hf hit
    have : k' = k := own_unique (fun x : Bytes × Nat => decide (x.2 = me)) h1 (by simp) hk (by simp) h2
    subst this
    exact ⟨0, h3 0⟩
  · intro ρ tg' m vs hsay hvs
    have hfol := AllSay.follows (tg := tg') G.done g.flatten vs m 0 hsay hvs
    rw [← hout'] at hfol
    exact C16_tcp hpar hw hcap (fun _ => hr) (dummy_conforms _ c) ops hops plan rs s hrun hW.dirty hW.stale _ _ hfol

/-- **C62.** A program over TCP through a ControlHub, in which no call fails (masked writes may be refused), on every schedule of the
client; the ControlHub and its network do anything, for this and for other clients. If the messages that the ControlHub got are a beginning of those that
the client wrote, and those the client got a beginning of those the ControlHub sent, then what the user sees is what the calls give one at a
time on the target, with the packets of others executed between word accesses; and the memory at the end is the one of the target after all packets. `_partial`: one device client, and late
datagrams, as for C42. -/
theorem C62_shared_partial (hpar : TPar n N) (hw : WF c) (hcap : CapOK c) (hr : Roomy c) (hh : c.hub = some (ip, port)) (hv : c.ver = .v2)
    (hmax : c.maxSend.toNat < 4 * 2 ^ 16) (ops : List Op) (hops : ∀ op ∈ ops, op.ok c ∧ op.maskOK c.wrapNeg)
    (plan : List (List TEv × Bool)) (rs : List Res) (s : St TcpT)
    (hrun : runOps c (tcpT c n N) (ops ++ [.dispatch]) (St.init (TcpT.init plan)) = some (rs, s))
    (hok : ∀ e, .exc e ∈ rs → e = .bitsForbidden)
    (tg : Target σ) {t0 : Hub.Tgt σ} {absMax L me p : Nat} (hd : 0 < t0.depth) (hmx : 0 < absMax)
    (hb : L + min t0.depth absMax + 2 * t0.depth < 65535) (h0 : Hub.RecentHist t0) {es : List WEv} {w : World σ}
    (hwr : (World.init t0 absMax).run (execBytes tg) me p (hubAddr ip port) es = some w)
    (hp : Prompt (execBytes tg) L (Hub.start t0 absMax) w.evs)
    (hto : bins es <+: s.tr.u.wire.map fun f => wordBytes f.words) (hfrom : s.tr.u.rx.map wordBytes <+: w.tm.sent) :
    ∃ shown : List (Option (List W)), rs.map (resShow c.wrapNeg s.tr.u.heap) = shown.map (Option.map ValOut.data) ∧
      SharedRun c.ver tg (fun m b => (execBytes tg m b).1) t0.st (ops ++ [.dispatch]) (othersBodies me w.evs) shown
        (Hub.final (execBytes tg) t0.st ((controlRequests w.evs).map Hub.bodyOf)) := by
  obtain ⟨fs, its, hfins, hown, hlen, hk, haccs, hshow⟩ := shared_core hpar hw hcap hr hh hv hmax ops hops plan rs s hrun hok tg hd hmx hb h0 hwr hp hto hfrom
  obtain ⟨vs, hpks, hsay⟩ := hub_pks hh hv hr tg me (controlRequests w.evs) fs its t0.st hfins hown hlen hk
  obtain ⟨gaps, rest, m1, e1, e2, e3, e4⟩ := hpks.gaps
  obtain ⟨k1, k2⟩ := hshow _ (gapped tg fun m b => (execBytes tg m b).1) (t0.st, expand (pkAccs (fs.map Fin'.txns)) gaps) vs hsay (by rw [e4])
  rw [e4] at k2
  rw [haccs] at e1 k1 k2
  obtain ⟨m2, j1, j2⟩ := shared_run (v := c.ver) (tg := tg) (other := fun m b => (execBytes tg m b).1) (ops ++ [.dispatch]) t0.st gaps rest e1
  rw [j1] at k2
  obtain ⟨rfl, _⟩ := Prod.mk.inj k2
  refine ⟨_, k1, ?_⟩
  rw [othersBodies, ← e2, e3]
  exact j2

/-- **C62, others that cannot be noticed.** If there is a way to compare memories such that the accesses of the program read the same from equal memories, and what others do
leaves the memory equal, then the user sees what the calls give one at a time on a target of one's own. -/
theorem C62_unseen_partial (hpar : TPar n N) (hw : WF c) (hcap : CapOK c) (hr : Roomy c) (hh : c.hub = some (ip, port)) (hv : c.ver = .v2)
    (hmax : c.maxSend.toNat < 4 * 2 ^ 16) (ops : List Op) (hops : ∀ op ∈ ops, op.ok c ∧ op.maskOK c.wrapNeg)
    (plan : List (List TEv × Bool)) (rs : List Res) (s : St TcpT)
    (hrun : runOps c (tcpT c n N) (ops ++ [.dispatch]) (St.init (TcpT.init plan)) = some (rs, s))
    (hok : ∀ e, .exc e ∈ rs → e = .bitsForbidden)
    (tg : Target σ) {t0 : Hub.Tgt σ} {absMax L me p : Nat} (hd : 0 < t0.depth) (hmx : 0 < absMax)
    (hb : L + min t0.depth absMax + 2 * t0.depth < 65535) (h0 : Hub.RecentHist t0) {es : List WEv} {w : World σ}
    (hwr : (World.init t0 absMax).run (execBytes tg) me p (hubAddr ip port) es = some w)
    (hp : Prompt (execBytes tg) L (Hub.start t0 absMax) w.evs)
    (hto : bins es <+: s.tr.u.wire.map fun f => wordBytes f.words) (hfrom : s.tr.u.rx.map wordBytes <+: w.tm.sent) (R : σ → σ → Prop)
    (hmine : ∀ op ∈ ops, ∀ as, opAccs c.ver op = some as → ∀ a ∈ as, ∀ x y, R x y →
      (a.exec c.ver tg x).1 = (a.exec c.ver tg y).1 ∧ R (a.exec c.ver tg x).2 (a.exec c.ver tg y).2)
    (hother : ∀ b ∈ othersBodies me w.evs, ∀ x y, R x y → R (execBytes tg x b).1 y) (hR : R t0.st t0.st) :
    rs.map (resShow c.wrapNeg s.tr.u.heap) = (seqRun c.ver tg (ops ++ [.dispatch]) t0.st).1.map (Option.map ValOut.data) ∧
    R (Hub.final (execBytes tg) t0.st ((controlRequests w.evs).map Hub.bodyOf)) (seqRun c.ver tg (ops ++ [.dispatch]) t0.st).2 := by
  obtain ⟨shown, h1, h2⟩ := C62_shared_partial hpar hw hcap hr hh hv hmax ops hops plan rs s hrun hok tg hd hmx hb h0 hwr hp hto hfrom
  obtain ⟨h3, h4⟩ := SharedRun.unseen h2 (R := R) (by
    intro a ha
    simp only [progAccs, List.mem_flatMap] at ha
    obtain ⟨op, hop, ha⟩ := ha
    rcases List.mem_append.1 hop with hop | hop
    · cases ho : opAccs c.ver op with
      | none => rw [ho] at ha; simp at ha
      | some as => rw [ho] at ha; exact hmine op hop as ho a ha
    · rw [List.mem_singleton.1 hop] at ha; simp [opAccs] at ha) hother hR
  exact ⟨by rw [h1, h3], h4⟩

/-- **C62, alone.** Nobody else uses the target: the user sees what the calls give one at a time, and the target has the memory that they leave. -/
theorem C62_alone_partial (hpar : TPar n N) (hw : WF c) (hcap : CapOK c) (hr : Roomy c) (hh : c.hub = some (ip, port)) (hv : c.ver = .v2)
    (hmax : c.maxSend.toNat < 4 * 2 ^ 16) (ops : List Op) (hops : ∀ op ∈ ops, op.ok c ∧ op.maskOK c.wrapNeg)
    (plan : List (List TEv × Bool)) (rs : List Res) (s : St TcpT)
    (hrun : runOps c (tcpT c n N) (ops ++ [.dispatch]) (St.init (TcpT.init plan)) = some (rs, s))
    (hok : ∀ e, .exc e ∈ rs → e = .bitsForbidden)
    (tg : Target σ) {t0 : Hub.Tgt σ} {absMax L me p : Nat} (hd : 0 < t0.depth) (hmx : 0 < absMax)
    (hb : L + min t0.depth absMax + 2 * t0.depth < 65535) (h0 : Hub.RecentHist t0) {es : List WEv} {w : World σ}
    (hwr : (World.init t0 absMax).run (execBytes tg) me p (hubAddr ip port) es = some w)
    (hp : Prompt (execBytes tg) L (Hub.start t0 absMax) w.evs)
    (hto : bins es <+: s.tr.u.wire.map fun f => wordBytes f.words) (hfrom : s.tr.u.rx.map wordBytes <+: w.tm.sent)
    (hal : othersBodies me w.evs = []) :
    rs.map (resShow c.wrapNeg s.tr.u.heap) = (seqRun c.ver tg (ops ++ [.dispatch]) t0.st).1.map (Option.map ValOut.data) ∧
    Hub.final (execBytes tg) t0.st ((controlRequests w.evs).map Hub.bodyOf) = (seqRun c.ver tg (ops ++ [.dispatch]) t0.st).2 :=
  C62_unseen_partial hpar hw hcap hr hh hv hmax ops hops plan rs s hrun hok tg hd hmx hb h0 hwr hp hto hfrom (fun x y => x = y)
    (by rintro op _ as _ a _ x y rfl; exact ⟨rfl, rfl⟩) (by rw [hal]; simp) rfl

/-- The register of an access to the test target. -/
def accReg : Acc → W
  | .rd a => a &&& 0x00FFFFFF
  | .wr a _ => a &&& 0x00FFFFFF
  | .bits a _ _ => a &&& 0x00FFFFFF
  | .sum a _ => a &&& 0x00FFFFFF
  | .cfg a => a &&& 0x00FFFFFF

theorem dummy_mine (v : Ver) (cfg : W → W) (A : W → Prop) (a : Acc) (ha : A (accReg a)) (x y : W → W) (h : ∀ r, A r → x r = y r) :
    (a.exec v (dummyTarget cfg) x).1 = (a.exec v (dummyTarget cfg) y).1 ∧
    ∀ r, A r → (a.exec v (dummyTarget cfg) x).2 r = (a.exec v (dummyTarget cfg) y).2 r := by
  cases a with
  | rd a =>
    simp only [accReg] at ha
    exact ⟨by simp only [Acc.exec, dummyTarget]; rw [h _ ha], h⟩
  | wr a d =>
    refine ⟨rfl, fun r hr => ?_⟩
    simp only [Acc.exec, dummyTarget]
    rw [h r hr]
  | cfg a => exact ⟨rfl, h⟩
  | bits a i o =>
    simp only [accReg] at ha
    refine ⟨by simp only [Acc.exec, dummyTarget]; rw [h _ ha], fun r hr => ?_⟩
    simp only [Acc.exec, dummyTarget]
    rw [h r hr, h _ ha]
  | sum a i =>
    simp only [accReg] at ha
    refine ⟨by simp only [Acc.exec, dummyTarget]; rw [h _ ha], fun r hr => ?_⟩
    simp only [Acc.exec, dummyTarget]
    rw [h r hr, h _ ha]

/-- **C62, registers of one's own.** On the test target: others use the ControlHub at the same time, but none of their packets changes a register of the set `A`, and the program uses only registers of this set. Then
the user sees what the calls give one at a time on a target of one's own, and these registers have at the end the values that the program leaves in them. -/
theorem C62_registers_partial (hpar : TPar n N) (hw : WF c) (hcap : CapOK c) (hr : Roomy c) (hh : c.hub = some (ip, port)) (hv : c.ver = .v2)
    (hmax : c.maxSend.toNat < 4 * 2 ^ 16) (ops : List Op) (hops : ∀ op ∈ ops, op.ok c ∧ op.maskOK c.wrapNeg)
    (plan : List (List TEv × Bool)) (rs : List Res) (s : St TcpT)
    (hrun : runOps c (tcpT c n N) (ops ++ [.dispatch]) (St.init (TcpT.init plan)) = some (rs, s))
    (hok : ∀ e, .exc e ∈ rs → e = .bitsForbidden)
    (cfg : W → W) {t0 : Hub.Tgt (W → W)} {absMax L me p : Nat} (hd : 0 < t0.depth) (hmx : 0 < absMax)
    (hb : L + min t0.depth absMax + 2 * t0.depth < 65535) (h0 : Hub.RecentHist t0) {es : List WEv} {w : World (W → W)}
    (hwr : (World.init t0 absMax).run (execBytes (dummyTarget cfg)) me p (hubAddr ip port) es = some w)
    (hp : Prompt (execBytes (dummyTarget cfg)) L (Hub.start t0 absMax) w.evs)
    (hto : bins es <+: s.tr.u.wire.map fun f => wordBytes f.words) (hfrom : s.tr.u.rx.map wordBytes <+: w.tm.sent) (A : W → Prop)
    (hmine : ∀ op ∈ ops, ∀ as, opAccs c.ver op = some as → ∀ a ∈ as, A (accReg a))
    (hother : ∀ b ∈ othersBodies me w.evs, ∀ (m : W → W) (r : W), A r → (execBytes (dummyTarget cfg) m b).1 r = m r) :
    rs.map (resShow c.wrapNeg s.tr.u.heap) = (seqRun c.ver (dummyTarget cfg) (ops ++ [.dispatch]) t0.st).1.map (Option.map ValOut.data) ∧
    ∀ r, A r → Hub.final (execBytes (dummyTarget cfg)) t0.st ((controlRequests w.evs).map Hub.bodyOf) r =
      (seqRun c.ver (dummyTarget cfg) (ops ++ [.dispatch]) t0.st).2 r :=
  C62_unseen_partial hpar hw hcap hr hh hv hmax ops hops plan rs s hrun hok (dummyTarget cfg) hd hmx hb h0 hwr hp hto hfrom
    (fun x y => ∀ r, A r → x r = y r) (fun op hop as has a ha x y hxy => dummy_mine c.ver cfg A a (hmine op hop as has a ha) x y hxy)
    (fun b hb' x _ hxy r hr' => (hother b hb' x r hr').trans (hxy r hr')) (fun _ _ => rfl)

end

/-! ## Non-vacuity -/

/-- A program and another client, which writes to the register that the program reads in its second packet. -/
def sharedEvs : List WEv := [.chunk (wordBytes (mkFrame hubChunk).words), .request, .toTarget 0 (List.replicate 48 0), .toHub 0, .response,
  .other (wordBytes [0x200000F0, 0x2000011F, 2, 0x77]) 9, .toTarget 1 (List.replicate 48 0), .toHub 1, .request,
  .toTarget 2 (List.replicate 48 0), .toHub 2, .response]

/-- What the ControlHub sends. -/
def sharedBody : List W := [0x18000000, 0x0100000A, 0x51C3, 0x200000F0, 0x20000110, 0x20010100, 0xAB, 0x14000000, 0x0100000A, 0x51C3, 0x200000F0,
  0x20020100, 0x77]

/-- The program over TCP. -/
def sharedTcp : Option (List Res × St TcpT) := runOps hubSmall (tcpT hubSmall 2 16) hubOps (St.init (TcpT.init
  [([], true), ([], true), ([], true), ([.sendDone true, .recvHdr (some 13), .recvBody (some sharedBody), .recvEnd], true)]))

def sharedWorld : Option (World (W → W)) :=
  (World.init hubTgt 2).run (execBytes (dummyTarget fun _ => 0)) 7 3 (hubAddr 0x0100000A 0x51C3) sharedEvs

example : sharedTcp.map (fun p => p.1.map (resShow true p.2.tr.u.heap)) =
    some [some (.data []), some (.data [0xAB]), some (.data [0x77]), some (.data [])] := by decide +kernel

/-- The two runs satisfy the hypotheses of `C62_shared_partial`. -/
theorem shared_run_ok : ∃ rs s w, sharedTcp = some (rs, s) ∧ sharedWorld = some w ∧ (∀ e, .exc e ∈ rs → e = .bitsForbidden) ∧
    Prompt (execBytes (dummyTarget fun _ => 0)) 100 (Hub.start hubTgt 2) w.evs ∧
    (bins sharedEvs <+: s.tr.u.wire.map fun f => wordBytes f.words) ∧ s.tr.u.rx.map wordBytes <+: w.tm.sent ∧
    othersBodies 7 w.evs = [wordBytes [0x2000011F, 2, 0x77]] := by
  have h1 : sharedTcp.map (fun p => (p.1.all (fun r => match r with | .ok _ => true | .exc _ => false),
      p.2.tr.u.wire.map (fun f => wordBytes f.words), p.2.tr.u.rx)) = some (true, bins sharedEvs, [sharedBody]) := by decide +kernel
  have h2 : sharedWorld.map (fun w => (Prompt (execBytes (dummyTarget fun _ => 0)) 100 (Hub.start hubTgt 2) w.evs, w.tm.sent, othersBodies 7 w.evs)) =
      some (true, [wordBytes sharedBody], [wordBytes [0x2000011F, 2, 0x77]]) := by decide +kernel
  obtain ⟨⟨rs, s⟩, hs, e1⟩ := Option.map_eq_some_iff.1 h1
  obtain ⟨w, hw, e2⟩ := Option.map_eq_some_iff.1 h2
  simp only [Prod.mk.injEq] at e1 e2
  obtain ⟨a1, a2, a3⟩ := e1
  obtain ⟨b1, b2, b3⟩ := e2
  refine ⟨rs, s, w, hs, hw, ?_, b1, by rw [a2]; exact List.prefix_refl _, by rw [a3, b2]; exact List.prefix_refl _, b3⟩
  intro e he
  have := List.all_eq_true.1 a1 _ he
  cases this

example (rs : List Res) (s : St TcpT) (w : World (W → W)) (h : sharedTcp = some (rs, s)) (hw : sharedWorld = some w) :=
  fun h1 h2 h3 h4 => C62_shared_partial (c := hubSmall) ⟨by decide, by decide, by decide, by decide⟩ hubSmall_ok.1 hubSmall_ok.2.1 hubSmall_ok.2.2 rfl rfl
    (by decide) [.write 1 0xAB, .read 1, .read 2] (by simp [Op.ok, Op.maskOK]) _ rs s h h1 (dummyTarget fun _ => 0) (t0 := hubTgt) (L := 100)
    (by decide) (by decide) (by decide) ⟨by decide, by intro p x h; simp [hubTgt] at h⟩ hw h2 h3 h4

/-- The same program while nobody else uses the target. -/
def aloneTcp : Option (List Res × St TcpT) := runOps hubSmall (tcpT hubSmall 2 16) hubOps (St.init (TcpT.init
  [([], true), ([], true), ([], true), ([.sendDone true, .recvHdr (some 13), .recvBody (some (sharedBody.take 12 ++ [5])), .recvEnd], true)]))

example : ∃ rs s w, aloneTcp = some (rs, s) ∧
    (World.init hubTgt 2).run (execBytes (dummyTarget fun _ => 0)) 7 3 (hubAddr 0x0100000A 0x51C3) hubEvs = some w ∧
    rs.map (resShow true s.tr.u.heap) = (seqRun .v2 (dummyTarget fun _ => 0) hubOps fun _ => 5).1.map (Option.map ValOut.data) := by
  have h1 : aloneTcp.map (fun p => (p.1.all (fun r => match r with | .ok _ => true | .exc _ => false),
      p.2.tr.u.wire.map (fun f => wordBytes f.words), p.2.tr.u.rx)) = some (true, bins hubEvs, [sharedBody.take 12 ++ [5]]) := by decide +kernel
  have h2 : ((World.init hubTgt 2).run (execBytes (dummyTarget fun _ => 0)) 7 3 (hubAddr 0x0100000A 0x51C3) hubEvs).map
      (fun w => (Prompt (execBytes (dummyTarget fun _ => 0)) 100 (Hub.start hubTgt 2) w.evs, w.tm.sent, othersBodies 7 w.evs)) =
      some (true, [wordBytes (sharedBody.take 12 ++ [5])], []) := by decide +kernel
  obtain ⟨⟨rs, s⟩, hs, e1⟩ := Option.map_eq_some_iff.1 h1
  obtain ⟨w, hw, e2⟩ := Option.map_eq_some_iff.1 h2
  simp only [Prod.mk.injEq] at e1 e2
  obtain ⟨a1, a2, a3⟩ := e1
  obtain ⟨b1, b2, b3⟩ := e2
  refine ⟨rs, s, w, hs, hw, ?_⟩
  exact (C62_alone_partial (c := hubSmall) ⟨by decide, by decide, by decide, by decide⟩ hubSmall_ok.1 hubSmall_ok.2.1 hubSmall_ok.2.2 rfl rfl
    (by decide) [.write 1 0xAB, .read 1, .read 2] (by simp [Op.ok, Op.maskOK]) _ rs s hs
    (by intro e he; have := List.all_eq_true.1 a1 _ he; cases this) (dummyTarget fun _ => 0) (t0 := hubTgt) (L := 100)
    (by decide) (by decide) (by decide) ⟨by decide, by intro p x h; simp [hubTgt] at h⟩ hw b1 (by rw [a2]; exact List.prefix_refl _)
    (by rw [a3, b2]; exact List.prefix_refl _) b3).1

/-- Another client writes register 3. -/
example (m : W → W) (r : W) (h : r = 1 ∨ r = 2) :
    (execBytes (dummyTarget fun _ => 0) m (wordBytes [0x2000011F, 3, 0x77])).1 r = m r := by
  have : (execBytes (dummyTarget fun _ => 0) m (wordBytes [0x2000011F, 3, 0x77])).1 = fun b => if b = 3 then 0x77 else m b := rfl
  rw [this]
  rcases h with h | h <;> subst h <;> rfl

end Verif
