import Verif.Lemmas.Hub13
import Verif.Props.C15Tcp
/-!
# C73: a program through a ControlHub to an IPbus 1.3 target

See `/verif/properties.jsonl` and `DESIGN.md`. The client is uHAL over TCP (`Verif/Model/Client.lean`, `Verif/Model/Tcp.lean`), the ControlHub that of
`Verif/Model/TraMgr.lean` and `Verif/Model/HubFirst.lean`, with an unreliable network behind it.
-/

set_option autoImplicit false
set_option linter.unusedSimpArgs false

namespace Verif.Hub13
open Spec
open Verif.Hub (Bytes Done Timely Tgt13 casts casts13 n13 is13)
open Verif.TraMgr (Talk asked answers)

section
variable {σ : Type} {exec : σ → Bytes → σ × Bytes} {absMax me p : Nat} {a : TraMgr.Addr}

/-- What an IPbus 1.3 target has executed: the status requests `S` of the device client, then the packets `E`, in the order in which they
were cast. -/
structure Executed (exec : σ → Bytes → σ × Bytes) (t0 t : Tgt13 σ) (es : List Hub.WEv) (S : List (Bytes × Bytes)) (E : List Done) : Prop where
  status : ∀ x ∈ S, x.1 = Hub.statusReq13
  order : E.Pairwise fun x y => x.k < y.k
  cast : ∀ x ∈ E, (casts13 es)[x.k]? = some (x.pkt, x.pid)
  log : t.log = t0.log ++ (S ++ E.map fun x => (x.pkt, x.reply))
  st : t.st = Hub.final exec t0.st ((S ++ E.map fun x => (x.pkt, x.reply)).map (·.1))
  replies : (S ++ E.map fun x => (x.pkt, x.reply)).map (·.2) = Hub.replies exec t0.st ((S ++ E.map fun x => (x.pkt, x.reply)).map (·.1))

/-- **C73, the messages.** The messages that the ControlHub sends to an IPbus 1.3 client answer its messages in order, packet by packet: with the reply of the target to this packet,
which it has executed, or with an error code. `_partial`: in time, as for C56. -/
theorem C73_answers_partial {t0 : Tgt13 σ} (ha : a.ip < 2 ^ 32 ∧ a.port < 2 ^ 16) (hst : ∀ st, (exec st Hub.statusReq13).2.take 4 = [0xfc, 0, 0, 0x10])
    {cs : List (List Bytes)} (hcs : ∀ ps ∈ cs, ps ≠ [] ∧ ∀ q ∈ ps, Spec.Hub.Whole q) {es : List WEv}
    (hes : bins es = cs.map (Spec.Hub.request a.ip a.port)) {w : World (Tgt13 σ)}
    (hr : (World.init t0).run (Tgt13.recv exec) absMax me p a es = some w)
    (ht : Timely (Tgt13.recv exec) absMax (Hub.World.init t0) [] w.evs = true) :
    w.tm.crashed = false ∧ ((casts w.evs).filter fun r => decide (r.2 = me)).map (·.1) <+: cs.flatten ∧
    ∃ (S : List (Bytes × Bytes)) (E : List Done) (g : List (List Spec.Hub.Answer)), Executed exec t0 w.net.tgt w.evs S E ∧
      w.tm.sent = g.map (Spec.Hub.reply a.ip a.port) ∧ g.length ≤ cs.length ∧
      ∀ (j : Nat) (c : List Bytes) (rs : List Spec.Hub.Answer), cs[j]? = some c → g[j]? = some rs →
        rs.length = c.length ∧ ∀ (i : Nat) (x : Bytes) (r : Spec.Hub.Answer), c[i]? = some x → rs[i]? = some r →
          ∃ n, (casts w.evs)[n]? = some (x, me) ∧
            (((casts w.evs).take n).filter fun r => decide (r.2 = me)).length = (cs.take j).flatten.length + i ∧
            ((r.code = 0 ∧ is13 x = true ∧ ∃ y ∈ E, y.k = n13 ((casts w.evs).take n) ∧ y.pkt = x ∧ y.pid = me ∧ y.reply = r.data) ∨
              (r.data = [] ∧ (r.code = 1 ∨ r.code = 3 ∨ r.code = 6))) := by
  obtain ⟨l, h, hask⟩ := WI.run ha hst es _ w [] cs (WI.init t0) hr ht hcs hes
  rw [show asked [] = [] from rfl, List.nil_append] at hask
  obtain ⟨hcr, hcast, g, pend, hsent, hans, hsz, _⟩ := TraMgr.C50_grouping ha l (fun x hx => (h.whole x hx).2) h.bal
  rw [← h.tm] at hcr hcast hsent
  have hcasts : w.tm.casts.map (·.2) = cs.flatten := by
    rw [hcast, hask, List.map_flatMap, List.flatMap_map]
    simp [List.flatMap, Function.comp_def]
  have hown : ((casts w.evs).filter fun r => decide (r.2 = me)).map (·.1) <+: cs.flatten := by
    rw [h.own, List.map_take, hcasts]
    exact List.take_prefix _ _
  obtain ⟨S, E, dn, e1, e2, e3, e4, e5, e6, hdn, hml, hall⟩ := Hub.C56_order_partial hst ht h.net
  have hsz' : g.map (·.length) = (cs.map (·.length)).take g.length := by
    rw [hsz, hask, List.map_map]; rfl
  refine ⟨hcr, hown, S, E, g, ⟨e1, e2, e3, e4, e5, e6⟩, hsent, ?_, ?_⟩
  · have := congrArg List.length hsz'
    simp at this
    omega
  · intro j c rs hc hrs
    have hj := (List.getElem?_eq_some_iff.1 hrs).1
    constructor
    · have h1 : (cs.map (·.length))[j]? = some c.length := by rw [List.getElem?_map, hc]; rfl
      have h2 : (g.map (·.length))[j]? = some rs.length := by rw [List.getElem?_map, hrs]; rfl
      rw [hsz', List.getElem?_take_of_lt hj, h1] at h2
      simpa using h2.symm
    · intro i x r hx hr'
      have hlen : (g.take j).flatten.length = (cs.take j).flatten.length := by
        rw [List.length_flatten, List.length_flatten, List.map_take, List.map_take]
        rw [show List.map List.length g = g.map (·.length) from rfl, hsz', List.take_take, Nat.min_eq_left (by omega)]
      have h1 := TraMgr.flatten_at g j i rs r hrs hr'
      have h2 : (answers l)[(cs.take j).flatten.length + i]? = some r := by
        rw [← hans, ← hlen, List.getElem?_append_left (List.getElem?_eq_some_iff.1 h1).1, h1]
      rw [h.ans, List.getElem?_map, Option.map_eq_some_iff] at h2
      obtain ⟨m, hm, rfl⟩ := h2
      rw [List.getElem?_take] at hm
      split at hm
      · obtain ⟨n, hn, hnm, hnc⟩ := nth_of_filter _ _ _ _ hm
        have hnl := (List.getElem?_eq_some_iff.1 hn).1
        have hdnn : dn[n]? = some (dn[n]'(by omega)) := List.getElem?_eq_getElem (by omega)
        obtain ⟨hpid, hsaid⟩ := hall n m _ hn hdnn
        have hCn : (casts w.evs)[n]? = dn[n]? := by
          obtain ⟨t, hte⟩ := hdn
          rw [← hte, List.getElem?_append_left (by omega)]
        have htake : dn.take n = (casts w.evs).take n := by
          obtain ⟨t, hte⟩ := hdn
          rw [← hte, List.take_append_of_le_length (by omega)]
        have hcount : (((casts w.evs).take n).filter fun r => decide (r.2 = me)).length = (cs.take j).flatten.length + i := by
          rw [← hnc, ← htake]
          refine (filter_pids (me := me) (w.net.dc.msgs.take n) (dn.take n) (by simp; omega) ?_).symm
          intro i' m' r' hm' hr''
          rw [List.getElem?_take] at hm' hr''
          split at hm'
          · rename_i hlt
            rw [if_pos hlt] at hr''
            exact (hall i' m' r' hm' hr'').1
          · cases hm'
        have hpid' : (dn[n]'(by omega)).2 = me := by
          rw [← hpid]; simpa using hnm
        have hx' : (dn[n]'(by omega)).1 = x := by
          have h3 := TraMgr.filter_at (fun r : Bytes × Nat => decide (r.2 = me)) (casts w.evs) n _ (hCn.trans hdnn) (by simpa using hpid')
          rw [hcount] at h3
          have h4 : (((casts w.evs).filter fun r => decide (r.2 = me)).map (·.1))[(cs.take j).flatten.length + i]? =
              some (dn[n]'(by omega)).1 := by rw [List.getElem?_map, h3]; rfl
          obtain ⟨t, hte⟩ := hown
          have h5 := TraMgr.flatten_at cs j i c x hc hx
          rw [← hte, List.getElem?_append_left (List.getElem?_eq_some_iff.1 h4).1, h4] at h5
          simpa using h5
        refine ⟨n, ?_, hcount, ?_⟩
        · rw [hCn, hdnn, ← hx', ← hpid']
        · rw [htake, hx', hpid'] at hsaid
          exact hsaid
      · cases hm

end

section
variable {c : Cfg} {ip : W} {port : BitVec 16} {n N : Nat} {σ : Type}

/-- What the target replied to the packets it executed. -/
theorem Executed.at {tg : Target σ} {t0 t : Tgt13 σ} {es : List Hub.WEv} {S : List (Bytes × Bytes)} {E : List Done}
    (h : Executed (execBytes13 tg) t0 t es S E) : t.st = Hub.final (execBytes13 tg) t0.st (E.map (·.pkt)) ∧
    ∀ (k : Nat) (x : Done), E[k]? = some x → x.reply = (execBytes13 tg (Hub.final (execBytes13 tg) t0.st ((E.take k).map (·.pkt))) x.pkt).2 := by
  have hS : ∀ (l : List (Bytes × Bytes)), (∀ x ∈ l, x.1 = Hub.statusReq13) → ∀ st, Hub.final (execBytes13 tg) st (l.map (·.1)) = st := by
    intro l
    induction l with
    | nil => intro _ st; rfl
    | cons x l ih =>
      intro hl st
      simp only [List.map_cons, Hub.final]
      rw [hl x (by simp), execBytes13_status]
      exact ih (fun y hy => hl y (by simp [hy])) st
  have hm : (S ++ E.map fun x => (x.pkt, x.reply)).map (·.1) = S.map (·.1) ++ E.map (·.pkt) := by simp [Function.comp_def]
  constructor
  · rw [h.st, hm, final_append, hS S h.status]
  · intro k x hx
    have hr := h.replies
    rw [hm] at hr
    have h1 := replies_at (execBytes13 tg) (S.map (·.1) ++ E.map (·.pkt)) t0.st (S.length + k) x.pkt (by
      rw [List.getElem?_append_right (by simp), List.length_map, Nat.add_sub_cancel_left, List.getElem?_map, hx]; rfl)
    rw [← hr] at h1
    rw [List.getElem?_map, List.getElem?_append_right (by omega), Nat.add_sub_cancel_left, List.getElem?_map, hx] at h1
    simp only [Option.map_some, Option.some.injEq] at h1
    rw [h1]
    congr 2
    rw [List.take_append, List.length_map, List.take_of_length_le (by simp), Nat.add_sub_cancel_left, final_append, hS S h.status, List.map_take]

/-- If all packets of a connection are answered by the target, then it has executed each once, in order. -/
theorem all_mine {me : Nat} {C : List (Bytes × Nat)} {E : List Done} (ho : E.Pairwise fun x y => x.k < y.k)
    (hc : ∀ x ∈ E, (C.filter fun r => is13 r.1)[x.k]? = some (x.pkt, x.pid)) {own : List Bytes}
    (hown : (C.filter fun r => decide (r.2 = me)).map (·.1) <+: own) {rep : List Bytes} (hl : rep.length = own.length)
    (hans : ∀ (q : Nat) (b r : Bytes), own[q]? = some b → rep[q]? = some r → ∃ n, C[n]? = some (b, me) ∧
      ((C.take n).filter fun r => decide (r.2 = me)).length = q ∧ is13 b = true ∧
      ∃ y ∈ E, y.k = n13 (C.take n) ∧ y.pkt = b ∧ y.pid = me ∧ y.reply = r) :
    (E.filter fun x => decide (x.pid = me)).map (·.pkt) = own ∧ (E.filter fun x => decide (x.pid = me)).map (·.reply) = rep := by
  classical
  -- the packets, one by one
  have hex : ∀ q : Nat, ∃ y : Done, q < own.length → ∃ n b r, own[q]? = some b ∧ rep[q]? = some r ∧ C[n]? = some (b, me) ∧
      ((C.take n).filter fun r => decide (r.2 = me)).length = q ∧ is13 b = true ∧ y ∈ E ∧ y.k = n13 (C.take n) ∧ y.pkt = b ∧ y.pid = me ∧ y.reply = r := by
    intro q
    by_cases hq : q < own.length
    · obtain ⟨n, h1, h2, h3, y, h4, h5, h6, h7, h8⟩ := hans q own[q] (rep[q]'(by omega)) (List.getElem?_eq_getElem hq) (List.getElem?_eq_getElem (by omega))
      exact ⟨y, fun _ => ⟨n, _, _, List.getElem?_eq_getElem hq, List.getElem?_eq_getElem (by omega), h1, h2, h3, h4, h5, h6, h7, h8⟩⟩
    · exact ⟨⟨0, [], 0, []⟩, fun h => absurd h hq⟩
  obtain ⟨y, hy⟩ := Classical.axiomOfChoice hex
  have hcount : ∀ (n n' : Nat), n ≤ n' → ((C.take n).filter fun r => decide (r.2 = me)).length ≤ ((C.take n').filter fun r => decide (r.2 = me)).length := by
    intro n n' h
    exact (((List.take_prefix_take_left (l := C) h)).filter _).length_le
  have hmono : ∀ (n n' : Nat) (x : Bytes × Nat), n < n' → C[n]? = some x → is13 x.1 = true → n13 (C.take n) < n13 (C.take n') := by
    intro n n' x h hx hi
    have h1 : n13 (C.take (n + 1)) = n13 (C.take n) + 1 := by
      unfold n13
      rw [List.take_add_one, hx, List.filter_append, List.length_append]
      simp [hi]
    have h2 : n13 (C.take (n + 1)) ≤ n13 (C.take n') := (((List.take_prefix_take_left (l := C) h)).filter _).length_le
    omega
  have hlt : ∀ q q', q < q' → q' < own.length → (y q).k < (y q').k := by
    intro q q' hqq hq'
    obtain ⟨n, b, r, _, _, h3, h4, h5, _, h7, _⟩ := hy q (by omega)
    obtain ⟨n', b', r', _, _, h3', h4', h5', _, h7', _⟩ := hy q' hq'
    rw [h7, h7']
    refine hmono n n' _ ?_ h3 h5
    rcases Nat.lt_or_ge n n' with h | h
    · exact h
    · have := hcount n' n h; omega
  have hxs : ((List.range own.length).map y).Pairwise fun x y => x.k < y.k := by
    rw [List.pairwise_map]
    refine List.Pairwise.imp_of_mem ?_ List.pairwise_lt_range
    intro q q' hq hq' h
    exact hlt q q' h (List.mem_range.1 hq')
  have hmem : ∀ x ∈ (List.range own.length).map y, x ∈ E.filter fun x => decide (x.pid = me) := by
    intro x hx
    obtain ⟨q, hq, rfl⟩ := List.mem_map.1 hx
    obtain ⟨n, b, r, _, _, _, _, _, h6, _, _, h9, _⟩ := hy q (List.mem_range.1 hq)
    exact List.mem_filter.2 ⟨h6, by simpa using h9⟩
  have hsub := ordered_sub Done.k _ _ (ho.sublist List.filter_sublist) hxs hmem
  have hle : (E.filter fun x => decide (x.pid = me)).length ≤ own.length := by
    have h1 := places_le (fun r : Bytes × Nat => decide (r.2 = me)) (C.filter fun r => is13 r.1) 0 ((E.filter fun x => decide (x.pid = me)).map (·.k))
      (by rw [List.pairwise_map]; exact ho.sublist List.filter_sublist) (by
        intro k hk
        obtain ⟨x, hx, rfl⟩ := List.mem_map.1 hk
        obtain ⟨hx1, hx2⟩ := List.mem_filter.1 hx
        exact ⟨Nat.zero_le _, (x.pkt, x.pid), hc x hx1, hx2⟩)
    rw [List.length_map] at h1
    have h2 := hown.length_le
    rw [List.length_map] at h2
    have h3 : ((C.filter fun r => is13 r.1).filter fun r => decide (r.2 = me)).length ≤ (C.filter fun r => decide (r.2 = me)).length :=
      (List.filter_sublist (p := fun r : Bytes × Nat => is13 r.1) (l := C)).filter _ |>.length_le
    omega
  have heq := hsub.eq_of_length_le (by rw [List.length_map, List.length_range]; exact hle)
  rw [← heq, List.map_map, List.map_map]
  constructor
  · apply List.ext_getElem?
    intro q
    rw [List.getElem?_map]
    by_cases hq : q < own.length
    · rw [List.getElem?_range hq]
      obtain ⟨n, b, r, h1, _, _, _, _, _, _, h8, _⟩ := hy q hq
      simp only [Option.map_some, Function.comp, h8, h1]
    · rw [List.getElem?_eq_none (by simpa using hq), List.getElem?_eq_none (by omega)]; rfl
  · apply List.ext_getElem?
    intro q
    rw [List.getElem?_map]
    by_cases hq : q < own.length
    · rw [List.getElem?_range hq]
      obtain ⟨n, b, r, _, h1, _, _, _, _, _, _, _, h8⟩ := hy q hq
      simp only [Option.map_some, Function.comp, h8, h1]
    · rw [List.getElem?_eq_none (by simpa using hq), List.getElem?_eq_none (by omega)]; rfl

/-- **C73.** A program over TCP through a ControlHub to an IPbus 1.3 target, in which no call fails (masked writes may be refused), on every schedule of the
client; the ControlHub, its network and its other clients do anything. If the messages that the ControlHub got are a beginning of those that
the client wrote, and those the client got a beginning of those the ControlHub sent, then what the user sees is what the calls give one at a
time on the target, with packets of others executed between word accesses; the packets of others are those that the target executed, each at most once and in the order
in which the device client got them, and the memory at the end is that of the target. `_partial`: in time, as for C56. -/
theorem C73_shared_partial (hpar : TPar n N) (hw : WF c) (hcap : CapOK c) (hh : c.hub = some (ip, port)) (hv : c.ver = .v1)
    (hmax : c.maxSend.toNat < 4 * 2 ^ 16) (ops : List Op) (hops : ∀ op ∈ ops, op.ok c ∧ op.maskOK c.wrapNeg)
    (plan : List (List TEv × Bool)) (rs : List Res) (s : St TcpT)
    (hrun : runOps c (tcpT c n N) (ops ++ [.dispatch]) (St.init (TcpT.init plan)) = some (rs, s))
    (hok : ∀ e, .exc e ∈ rs → e = .bitsForbidden)
    (tg : Target σ) {t0 : Tgt13 σ} {absMax me p : Nat} {es : List WEv} {w : World (Tgt13 σ)}
    (hwr : (World.init t0).run (Tgt13.recv (execBytes13 tg)) absMax me p (hubAddr ip port) es = some w)
    (ht : Timely (Tgt13.recv (execBytes13 tg)) absMax (Hub.World.init t0) [] w.evs = true)
    (hto : bins es <+: s.tr.u.wire.map fun f => wordBytes f.words) (hfrom : s.tr.u.rx.map wordBytes <+: w.tm.sent) :
    ∃ (S : List (Bytes × Bytes)) (E : List Done) (shown : List (Option (List W))), Executed (execBytes13 tg) t0 w.net.tgt w.evs S E ∧
      rs.map (resShow c.wrapNeg s.tr.u.heap) = shown.map (Option.map ValOut.data) ∧
      SharedRun c.ver tg (fun m b => (execBytes13 tg m b).1) t0.st (ops ++ [.dispatch]) ((E.filter fun x => !decide (x.pid = me)).map (·.pkt)) shown
        w.net.tgt.st := by
  have hr : c.ver = .v2 → Roomy c := by intro h; rw [hv] at h; cases h
  have hops' : ∀ op ∈ ops ++ [.dispatch], op.ok c := by
    intro o ho
    rcases List.mem_append.1 ho with ho | ho
    · exact (hops o ho).1
    · rw [List.mem_singleton.1 ho]; trivial
  -- the client
  obtain ⟨G, its0, hRI, huser, hren, hcur⟩ := good_run hw (tcp_whole (c := c) hpar) _ hops'
    (RI.init c _ Quiet (TcpT.init plan) (Whole.init hpar.hn plan) ⟨rfl, rfl, rfl, rfl⟩) (run_closed _ hrun) hok
  have hcur' : G.cur = none := hcur (by simp)
  obtain ⟨q1, q2, q3, q4⟩ := hRI.rep.fl hcur'
  have hW := hRI.rep.inv
  have hhist : s.hist = G.done.map (Fin'.buf c) := by rw [hRI.rep.hist, hRI.base]; rfl
  have hflat : s.tr.u.sent.flatten = s.hist := q2.trans hW.all
  have hfins := hRI.rep.doneOK
  have haccs : pkAccs (G.done.map Fin'.txns) = progAccs c.ver (ops ++ [.dispatch]) := by
    rw [rendered_accs hren, accs_fins]
    have : user G.items = its0 := by rw [huser]; simp [Gh.items, user]
    rw [← this, accs_user]
    simp [Gh.items, hcur']
  obtain ⟨hout, hacc⟩ := hW.told.out hW.exc (by intro a b d; rw [q3]; simp)
  rw [hW.inv.mat] at hout hacc
  have hrunC := (run_completed (c := c) tcpT_decent _ (t := TcpT.init plan)
    ⟨by simp [TcpT.init, Tcp.init], by simp [TcpT.init, Tcp.init]⟩ hrun).1
  have hfinb : ∀ b ∈ s.hist, ∃ f, FinOK c f ∧ b = f.buf c := by
    intro b hb'
    rw [hhist, List.mem_map] at hb'
    obtain ⟨f, hf, rfl⟩ := hb'
    exact ⟨f, hfins f hf, rfl⟩
  -- the ControlHub
  rw [hW.inv.wire, List.map_map] at hto
  have hbins : bins es = (s.tr.u.sent.take (bins es).length).map fun bs => wordBytes (mkFrame bs).words := by
    have := List.prefix_iff_eq_take.1 hto
    rw [← List.map_take] at this
    exact this
  have hch : ∀ bs ∈ s.tr.u.sent.take (bins es).length, bs ≠ [] ∧ ∀ b ∈ bs, b ∈ s.hist := by
    intro bs hbs
    have hbs' := List.mem_of_mem_take hbs
    refine ⟨(hW.inv.chunk bs hbs').1, fun b hb' => ?_⟩
    rw [← hflat]
    exact List.mem_flatten.2 ⟨bs, hbs', hb'⟩
  have hcs : ∀ ps ∈ (s.tr.u.sent.take (bins es).length).map (List.map pktBytes), ps ≠ [] ∧ ∀ q ∈ ps, Spec.Hub.Whole q := by
    intro ps hps
    obtain ⟨bs, hbs, rfl⟩ := List.mem_map.mp hps
    refine ⟨by simpa using (hch bs hbs).1, ?_⟩
    intro x hx
    obtain ⟨b, hb', rfl⟩ := List.mem_map.mp hx
    obtain ⟨f, hf, rfl⟩ := hfinb b ((hch bs hbs).2 b hb')
    exact (fin_pkt hw hh hmax hf).1
  have hbin : bins es = ((s.tr.u.sent.take (bins es).length).map (List.map pktBytes)).map
      (Spec.Hub.request (hubAddr ip port).ip (hubAddr ip port).port) := by
    rw [List.map_map]
    refine hbins.trans ?_
    apply List.map_congr_left
    intro bs hbs
    simp only [Function.comp, mkFrame, wordBytes_flatMap, Spec.Hub.request, List.flatMap_map]
    simp only [List.flatMap]
    congr 1
    apply List.map_congr_left
    intro b hb'
    exact send_bytes (C24_preamble c _ hw (Transport.completed_total (tcpT c n N)) ip port hh hmax _ hops' _ rs s hrunC b ((hch bs hbs).2 b hb')).1
  have ha : (hubAddr ip port).ip < 2 ^ 32 ∧ (hubAddr ip port).port < 2 ^ 16 := ⟨(htonl ip).isLt, (bswap16 port).isLt⟩
  have hst : ∀ st, (execBytes13 tg st Hub.statusReq13).2.take 4 = [0xfc, 0, 0, 0x10] := by
    intro st
    rw [execBytes13_status]
    rfl
  obtain ⟨_, hownC, S, E, g, hE, hg1, hg2, hg3⟩ := C73_answers_partial ha hst hcs hbin hwr ht
  obtain ⟨hEst, hErep⟩ := hE.at
  have hgl : g.length = s.tr.u.sent.length ∧ s.tr.u.sent.take (bins es).length = s.tr.u.sent := by
    have h1 := hfrom.length_le
    rw [hg1, List.length_map, List.length_map, q4] at h1
    rw [List.length_map, List.length_take] at hg2
    exact ⟨by omega, List.take_of_length_le (by omega)⟩
  rw [hgl.2] at hg3 hownC
  -- the parts of the messages
  have key : ∀ (j : Nat) (bs : List Buf) (rs : List Spec.Hub.Answer), s.tr.u.sent[j]? = some bs → g[j]? = some rs →
      rs.length = bs.length ∧ ∀ (i : Nat) (b : Buf) (r : Spec.Hub.Answer), bs[i]? = some b → rs[i]? = some r → ∃ it : List W,
        Spec.Hub.reply (hubAddr ip port).ip (hubAddr ip port).port [r] = wordBytes it ∧
        ((r.code = 0 ∧ ∃ n, (casts w.evs)[n]? = some (pktBytes b, me) ∧
            (((casts w.evs).take n).filter fun r => decide (r.2 = me)).length = (s.tr.u.sent.take j).flatten.length + i ∧ is13 (pktBytes b) = true ∧
            (∃ y ∈ E, y.k = n13 ((casts w.evs).take n) ∧ y.pkt = pktBytes b ∧ y.pid = me ∧ y.reply = r.data) ∧
            ∃ d : Dev σ, (viaHub c tg d b.send).1 = some it) ∨
          ∃ code : BitVec 16, code ≠ 0 ∧ it = errorWords ip port code) := by
    intro j bs rs hbs hrs
    obtain ⟨h4, h5⟩ := hg3 j (bs.map pktBytes) rs (by rw [List.getElem?_map, hbs]; rfl) hrs
    refine ⟨by simpa using h4, ?_⟩
    intro i b r hb' hr'
    obtain ⟨n, hn, hcount, h6⟩ := h5 i (pktBytes b) r (by rw [List.getElem?_map, hb']; rfl) hr'
    have hlen : ((s.tr.u.sent.map (List.map pktBytes)).take j).flatten.length = (s.tr.u.sent.take j).flatten.length := by
      rw [← List.map_take, ← List.map_flatten, List.length_map]
    rw [hlen] at hcount
    rcases h6 with ⟨hr0, hi, y, hy1, hy2, hy3, hy4, hy5⟩ | ⟨hdata, hcode⟩
    · obtain ⟨f, hf, rfl⟩ := hfinb b (by rw [← hflat]; exact List.mem_flatten.2 ⟨bs, List.mem_of_getElem? hbs, List.mem_of_getElem? hb'⟩)
      obtain ⟨k, hk⟩ := List.mem_iff_getElem?.1 hy1
      have hrep := hErep k y hk
      rw [hy3] at hrep
      obtain ⟨txns, hp, hne, _⟩ := fin_parse hh hv hf
      obtain ⟨it, h7, h8, _⟩ := viaHub_bytes hh hv tg ⟨Hub.final (execBytes13 tg) t0.st ((E.take k).map (·.pkt)), 0⟩ hp hne
      refine ⟨it, ?_, Or.inl ⟨hr0, n, hn, hcount, hi, ⟨y, hy1, hy2, hy3, hy4, hy5⟩, _, by rw [h7]⟩⟩
      rw [h8]
      simp only at hrep ⊢
      rw [← hrep, hy5, ← hr0]
    · refine ⟨errorWords ip port (BitVec.ofNat 16 r.code), ?_, Or.inr ⟨BitVec.ofNat 16 r.code, ?_, rfl⟩⟩
      · have h9 := C51_reply ip port [(BitVec.ofNat 16 r.code, [])]
        have hc16 : (BitVec.ofNat 16 r.code).toNat = r.code := by rw [BitVec.toNat_ofNat]; omega
        have hrr : r = ⟨r.code, wordBytes []⟩ := by rw [show wordBytes [] = r.data from hdata.symm]
        simp only [List.map_cons, List.map_nil, hc16, List.flatMap_cons, List.flatMap_nil, List.append_nil] at h9
        rw [hrr]
        exact h9
      · rcases hcode with h | h | h <;> rw [h] <;> decide
  have keyI : ∀ (j : Nat) (bs : List Buf) (rs : List Spec.Hub.Answer), s.tr.u.sent[j]? = some bs → g[j]? = some rs →
      ∀ r ∈ rs, Spec.Hub.reply (hubAddr ip port).ip (hubAddr ip port).port [r] =
        wordBytes (ofLE (Spec.Hub.reply (hubAddr ip port).ip (hubAddr ip port).port [r])) := by
    intro j bs rs hbs hrs r hr'
    obtain ⟨k1, k2⟩ := key j bs rs hbs hrs
    obtain ⟨i, hi⟩ := List.mem_iff_getElem?.mp hr'
    have hil := (List.getElem?_eq_some_iff.mp hi).1
    obtain ⟨it, h11, _⟩ := k2 i bs[i] r (List.getElem?_eq_getElem (by omega)) hi
    rw [h11, ofLE_wordBytes]
  have conv : ∀ rs ∈ g, Spec.Hub.reply (hubAddr ip port).ip (hubAddr ip port).port rs =
      wordBytes (rs.map fun r => ofLE (Spec.Hub.reply (hubAddr ip port).ip (hubAddr ip port).port [r])).flatten := by
    intro rs hrs
    obtain ⟨j, hj⟩ := List.mem_iff_getElem?.mp hrs
    have hjl := (List.getElem?_eq_some_iff.mp hj).1
    have h10 := keyI j _ rs (List.getElem?_eq_getElem (by omega)) hj
    rw [← List.flatMap_def, wordBytes_flatMap]
    have h12 : Spec.Hub.reply (hubAddr ip port).ip (hubAddr ip port).port rs =
        rs.flatMap fun r => Spec.Hub.reply (hubAddr ip port).ip (hubAddr ip port).port [r] := by
      simp only [Spec.Hub.reply, List.flatMap_cons, List.flatMap_nil, List.append_nil]
    rw [h12]
    simp only [List.flatMap]
    congr 1
    exact List.map_congr_left h10
  generalize hitem : (fun r : Spec.Hub.Answer => ofLE (Spec.Hub.reply (hubAddr ip port).ip (hubAddr ip port).port [r])) = item at *
  have hrx : s.tr.u.rx = (g.map (List.map item)).map List.flatten := by
    have h1 := hfrom.eq_of_length (by rw [hg1, List.length_map, List.length_map, q4, hgl.1])
    rw [hg1, List.map_congr_left conv] at h1
    have h2 := congrArg (List.map ofLE) h1
    rw [List.map_map, List.map_map] at h2
    rw [show (ofLE ∘ wordBytes) = id from funext ofLE_wordBytes, List.map_id] at h2
    rw [h2, List.map_map]
    apply List.map_congr_left
    intro x _
    exact ofLE_wordBytes _
  -- no error codes
  have hall : ∀ (j : Nat) (bs : List Buf) (rs : List Spec.Hub.Answer), s.tr.u.sent[j]? = some bs → g[j]? = some rs →
      ∀ (i : Nat) (b : Buf) (r : Spec.Hub.Answer), bs[i]? = some b → rs[i]? = some r →
        r.code = 0 ∧ ∃ n, (casts w.evs)[n]? = some (pktBytes b, me) ∧
            (((casts w.evs).take n).filter fun r => decide (r.2 = me)).length = (s.tr.u.sent.take j).flatten.length + i ∧ is13 (pktBytes b) = true ∧
            (∃ y ∈ E, y.k = n13 ((casts w.evs).take n) ∧ y.pkt = pktBytes b ∧ y.pid = me ∧ y.reply = r.data) ∧
            ∃ d : Dev σ, (viaHub c tg d b.send).1 = some (item r) := by
    intro j bs rs hbs hrs
    obtain ⟨hl, hi⟩ := key j bs rs hbs hrs
    have hmem : (bs, (rs.map item).flatten) ∈ s.tr.u.sent.zip s.tr.u.rx := by
      rw [List.mem_iff_getElem?]
      refine ⟨j, ?_⟩
      rw [List.getElem?_zip_eq_some]
      exact ⟨hbs, by rw [hrx, List.getElem?_map, List.getElem?_map, hrs]; rfl⟩
    obtain ⟨h, hokc⟩ := hacc _ hmem
    have hsub : bs.Sublist s.hist := by
      rw [← hflat]
      exact List.sublist_flatten_of_mem (List.mem_of_getElem? hbs)
    have hcl := (C51_client hw hcap hr hh _ hops' plan _ s hrun bs hsub tg (rs.map item) (by rw [List.length_map, hl]) h).2
    intro i
    induction i using Nat.strongRecOn with
    | ind i ih =>
      intro b r hb' hr'
      obtain ⟨it, hit, h1⟩ := hi i b r hb' hr'
      have hitem' : item r = it := by rw [← hitem]; simp only; rw [hit, ofLE_wordBytes]
      rcases h1 with h1 | ⟨code, hne, rfl⟩
      · rw [hitem']; exact h1
      · exfalso
        have := hcl i code hne (by rw [List.getElem?_map, hr', ← hitem']; rfl) (by
          intro j' b' it' hj' hb'' hit''
          rw [List.getElem?_map, Option.map_eq_some_iff] at hit''
          obtain ⟨r', hr'', rfl⟩ := hit''
          obtain ⟨_, _, _, _, _, _, d, h3⟩ := ih j' hj' b' r' hb'' hr''
          exact ⟨d, h3⟩)
        simp only at hokc
        rw [hokc] at this
        cases this
  have hsize : ∀ (j : Nat) (a : List Buf) (b : List Spec.Hub.Answer), s.tr.u.sent[j]? = some a → g[j]? = some b → b.length = a.length :=
    fun j a b ha hb' => (key j a b ha hb').1
  obtain ⟨hzip, hglen⟩ := zip_flat s.tr.u.sent g hgl.1.symm hsize
  have hgf : (g.map (List.map item)).flatten = g.flatten.map item := (List.map_flatten).symm
  have hout' : s.tr.u.outcomes = (G.done.map (Fin'.buf c)).zip ((g.flatten.map item).map some) := by
    rw [hout, ← hhist, ← hflat, List.map_map, List.zip_map_right, ← hzip, hrx, List.map_map, List.zip_map_right, List.flatMap_map, List.map_flatMap]
    simp only [List.flatMap]
    congr 1
    apply List.map_congr_left
    intro x hx
    obtain ⟨j, hj⟩ := List.mem_iff_getElem?.1 hx
    rw [List.getElem?_zip_eq_some] at hj
    obtain ⟨hj1, hj2⟩ := hj
    simp only [Prod.map, id, Function.comp]
    rw [answered_parts x.1 (x.2.map item) (by rw [List.length_map]; exact hsize j _ _ hj1 hj2), List.map_map, List.zip_map_right]
    · intro i b it hb' hit'
      rw [List.getElem?_map, Option.map_eq_some_iff] at hit'
      obtain ⟨r', hr'', rfl⟩ := hit'
      obtain ⟨_, _, _, _, _, _, d, h3⟩ := hall j _ _ hj1 hj2 i b r' hb' hr''
      obtain ⟨f, hf, rfl⟩ := hfinb b (by rw [← hflat]; exact List.mem_flatten.2 ⟨x.1, List.mem_of_getElem? hj1, List.mem_of_getElem? hb'⟩)
      exact (answered_fin hr tg hf h3).1
  -- the packets that the target executed
  rw [← List.map_flatten, hflat, hhist, List.map_map] at hownC
  have hflatl : s.tr.u.sent.flatten.length = G.done.length := by rw [hflat, hhist, List.length_map]
  have hget : ∀ (q : Nat) (f : Fin') (r : Spec.Hub.Answer), G.done[q]? = some f → g.flatten[q]? = some r →
      r.code = 0 ∧ ∃ n, (casts w.evs)[n]? = some (pktBytes (f.buf c), me) ∧
            (((casts w.evs).take n).filter fun r => decide (r.2 = me)).length = q ∧ is13 (pktBytes (f.buf c)) = true ∧
            (∃ y ∈ E, y.k = n13 ((casts w.evs).take n) ∧ y.pkt = pktBytes (f.buf c) ∧ y.pid = me ∧ y.reply = r.data) := by
    intro q f r hf hit
    have hx : s.tr.u.sent.flatten[q]? = some (f.buf c) := by rw [hflat, hhist, List.getElem?_map, hf]; rfl
    obtain ⟨j, i, a, b, h1, h2, h3, h4, h5⟩ := flat_index _ g q _ r hgl.1.symm hsize hx hit
    rw [h5]
    obtain ⟨k0, n, k1, k2, k3, k4, _⟩ := hall j a b h1 h2 i _ r h3 h4
    exact ⟨k0, n, k1, k2, k3, k4⟩
  obtain ⟨hmine, hreps⟩ := all_mine (rep := g.flatten.map (·.data)) hE.order hE.cast hownC (by rw [List.length_map, List.length_map]; omega) (by
    intro q b r hb' hr'
    rw [List.getElem?_map, Option.map_eq_some_iff] at hb' hr'
    obtain ⟨f, hf, rfl⟩ := hb'
    obtain ⟨r, hr'', rfl⟩ := hr'
    exact (hget q f r hf hr'').2)
  have hcr : ∀ k : Nat, ((E.map fun x => (x.pkt, x.pid)).take k).map (·.1) = (E.take k).map (·.pkt) := by
    intro k; rw [← List.map_take, List.map_map]; rfl
  have hcf : ∀ (l : List Done), ((l.map fun x => (x.pkt, x.pid)).filter fun q => decide (q.2 = me)) =
      (l.filter fun x => decide (x.pid = me)).map fun x => (x.pkt, x.pid) := by
    intro l; rw [List.filter_map]; rfl
  obtain ⟨vs, hpks, hsay⟩ := pks13 hh hv tg me (E.map fun x => (x.pkt, x.pid)) G.done (g.flatten.map item) t0.st hfins
    (by rw [hcf, List.map_map]; exact hmine) (by rw [List.length_map]; omega) (by
    intro k f it hk hf hit
    rw [List.getElem?_map, Option.map_eq_some_iff] at hk
    obtain ⟨x, hx, hxe⟩ := hk
    obtain ⟨hx1, hx2⟩ := Prod.mk.inj hxe
    rw [← List.map_take, hcf, List.length_map] at hf hit
    rw [List.getElem?_map, Option.map_eq_some_iff] at hit
    obtain ⟨r, hr', rfl⟩ := hit
    have h1 := Hub.nth_filter (fun x : Done => decide (x.pid = me)) E k x hx (by simpa using hx2)
    have h2 : ((E.filter fun x => decide (x.pid = me)).map (·.reply))[((E.take k).filter fun x => decide (x.pid = me)).length]? = some x.reply := by
      rw [List.getElem?_map, h1]; rfl
    rw [hreps, List.getElem?_map, hr'] at h2
    simp only [Option.map_some, Option.some.injEq] at h2
    have hrep := hErep k x hx
    rw [hx1] at hrep
    have h0 := (hget _ f r hf hr').1
    obtain ⟨txns, hp, hne, _⟩ := fin_parse hh hv (hfins f (List.mem_of_getElem? hf))
    obtain ⟨it, h7, h8, _⟩ := viaHub_bytes hh hv tg ⟨Hub.final (execBytes13 tg) t0.st ((E.take k).map (·.pkt)), 0⟩ hp hne
    refine ⟨0, ?_⟩
    rw [hcr, h7, ← hitem]
    simp only [Option.some.injEq]
    rw [← ofLE_wordBytes it, h8]
    simp only
    rw [← hrep, ← h2, ← h0])
  obtain ⟨gaps, rest, m1, e1, e2, e3, e4⟩ := hpks.gaps
  have hfol := AllSay.follows (tg := gapped tg fun m b => (execBytes13 tg m b).1) G.done (g.flatten.map item) vs
    (t0.st, expand (pkAccs (G.done.map Fin'.txns)) gaps) 0 hsay (by rw [e4])
  rw [e4, ← hout'] at hfol
  obtain ⟨k1, k2⟩ := C16_tcp hpar hw hcap hr (dummy_conforms _ c) ops hops plan rs s hrun hW.dirty hW.stale _ _ hfol
  rw [haccs] at e1 k1 k2
  obtain ⟨m2, j1, j2⟩ := shared_run (v := c.ver) (tg := tg) (other := fun m b => (execBytes13 tg m b).1) (ops ++ [.dispatch]) t0.st gaps rest e1
  rw [j1] at k2
  obtain ⟨rfl, _⟩ := Prod.mk.inj k2
  refine ⟨S, E, _, hE, k1, ?_⟩
  have hothers : (E.filter fun x => !decide (x.pid = me)).map (·.pkt) = gaps.flatten ++ rest := by
    rw [e2, List.filter_map, List.map_map]; rfl
  have hfin : Hub.final (execBytes13 tg) t0.st ((E.map fun x => (x.pkt, x.pid)).map (·.1)) = w.net.tgt.st := by
    rw [hEst, List.map_map]; rfl
  rw [hothers, ← hfin, e3]
  exact j2

/-- **C73, others that cannot be noticed.** If there is a way to compare memories such that the accesses of the program read the same from equal memories, and every packet that
another connection sent to the device client leaves the memory equal, then the user sees what the calls give one at a time on a target of one's own. -/
theorem C73_unseen_partial (hpar : TPar n N) (hw : WF c) (hcap : CapOK c) (hh : c.hub = some (ip, port)) (hv : c.ver = .v1)
    (hmax : c.maxSend.toNat < 4 * 2 ^ 16) (ops : List Op) (hops : ∀ op ∈ ops, op.ok c ∧ op.maskOK c.wrapNeg)
    (plan : List (List TEv × Bool)) (rs : List Res) (s : St TcpT)
    (hrun : runOps c (tcpT c n N) (ops ++ [.dispatch]) (St.init (TcpT.init plan)) = some (rs, s))
    (hok : ∀ e, .exc e ∈ rs → e = .bitsForbidden)
    (tg : Target σ) {t0 : Tgt13 σ} {absMax me p : Nat} {es : List WEv} {w : World (Tgt13 σ)}
    (hwr : (World.init t0).run (Tgt13.recv (execBytes13 tg)) absMax me p (hubAddr ip port) es = some w)
    (ht : Timely (Tgt13.recv (execBytes13 tg)) absMax (Hub.World.init t0) [] w.evs = true)
    (hto : bins es <+: s.tr.u.wire.map fun f => wordBytes f.words) (hfrom : s.tr.u.rx.map wordBytes <+: w.tm.sent) (R : σ → σ → Prop)
    (hmine : ∀ op ∈ ops, ∀ as, opAccs c.ver op = some as → ∀ a ∈ as, ∀ x y, R x y →
      (a.exec c.ver tg x).1 = (a.exec c.ver tg y).1 ∧ R (a.exec c.ver tg x).2 (a.exec c.ver tg y).2)
    (hother : ∀ q ∈ casts w.evs, q.2 ≠ me → ∀ x y, R x y → R (execBytes13 tg x q.1).1 y) (hR : R t0.st t0.st) :
    rs.map (resShow c.wrapNeg s.tr.u.heap) = (seqRun c.ver tg (ops ++ [.dispatch]) t0.st).1.map (Option.map ValOut.data) ∧
    R w.net.tgt.st (seqRun c.ver tg (ops ++ [.dispatch]) t0.st).2 := by
  obtain ⟨S, E, shown, hE, h1, h2⟩ := C73_shared_partial hpar hw hcap hh hv hmax ops hops plan rs s hrun hok tg hwr ht hto hfrom
  obtain ⟨h3, h4⟩ := SharedRun.unseen h2 (R := R) (by
    intro a ha
    simp only [progAccs, List.mem_flatMap] at ha
    obtain ⟨op, hop, ha⟩ := ha
    rcases List.mem_append.1 hop with hop | hop
    · cases ho : opAccs c.ver op with
      | none => rw [ho] at ha; simp at ha
      | some as => rw [ho] at ha; exact hmine op hop as ho a ha
    · rw [List.mem_singleton.1 hop] at ha; simp [opAccs] at ha) (by
    intro b hb
    obtain ⟨x, hx, rfl⟩ := List.mem_map.1 hb
    obtain ⟨hx1, hx2⟩ := List.mem_filter.1 hx
    exact hother (x.pkt, x.pid) (List.mem_filter.1 (List.mem_of_getElem? (hE.cast x hx1))).1 (by simpa using hx2)) hR
  exact ⟨by rw [h1, h3], h4⟩

/-- **C73, alone.** Nobody else uses the target: the user sees what the calls give one at a time, and the target has the memory that they leave. -/
theorem C73_alone_partial (hpar : TPar n N) (hw : WF c) (hcap : CapOK c) (hh : c.hub = some (ip, port)) (hv : c.ver = .v1)
    (hmax : c.maxSend.toNat < 4 * 2 ^ 16) (ops : List Op) (hops : ∀ op ∈ ops, op.ok c ∧ op.maskOK c.wrapNeg)
    (plan : List (List TEv × Bool)) (rs : List Res) (s : St TcpT)
    (hrun : runOps c (tcpT c n N) (ops ++ [.dispatch]) (St.init (TcpT.init plan)) = some (rs, s))
    (hok : ∀ e, .exc e ∈ rs → e = .bitsForbidden)
    (tg : Target σ) {t0 : Tgt13 σ} {absMax me p : Nat} {es : List WEv} {w : World (Tgt13 σ)}
    (hwr : (World.init t0).run (Tgt13.recv (execBytes13 tg)) absMax me p (hubAddr ip port) es = some w)
    (ht : Timely (Tgt13.recv (execBytes13 tg)) absMax (Hub.World.init t0) [] w.evs = true)
    (hto : bins es <+: s.tr.u.wire.map fun f => wordBytes f.words) (hfrom : s.tr.u.rx.map wordBytes <+: w.tm.sent)
    (hal : ∀ q ∈ casts w.evs, q.2 = me) :
    rs.map (resShow c.wrapNeg s.tr.u.heap) = (seqRun c.ver tg (ops ++ [.dispatch]) t0.st).1.map (Option.map ValOut.data) ∧
    w.net.tgt.st = (seqRun c.ver tg (ops ++ [.dispatch]) t0.st).2 :=
  C73_unseen_partial hpar hw hcap hh hv hmax ops hops plan rs s hrun hok tg hwr ht hto hfrom (fun x y => x = y)
    (by rintro op _ as _ a _ x y rfl; exact ⟨rfl, rfl⟩) (fun q hq hne => absurd (hal q hq) hne) rfl

end

/-! ## Non-vacuity -/

/-- Packets of at most twelve words. -/
def small13 : Cfg := ⟨.v1, some (0x0100000A, 0x51C3), 48, 52, true⟩

theorem small13_ok : WF small13 ∧ CapOK small13 :=
  ⟨⟨by decide, by decide, by decide⟩, by unfold CapOK; decide⟩

/-- A write and four reads, in two packets. -/
def ops13 : List Op := [.write 1 0xAB, .read 1, .read 1, .read 2, .read 2]

/-- What the client sends, as one chunk. -/
def chunk13 (ops : List Op) : List Buf := ((runOps small13 demoTr (ops ++ [.dispatch]) (St.init [])).map fun p => p.2.hist).getD []

example : (chunk13 ops13).map (·.send) = [[0x0100000A, 0x0A0051C3, 0x100000F8, 0x10020120, 1, 0xAB, 0x10040118, 1, 0x10060118, 1, 0x10080118, 2],
    [0x0100000A, 0x080051C3, 0x100A00F8, 0x100C0118, 2, 0x100000F8, 0x100000F8, 0x100000F8, 0x100000F8, 0x100000F8]] := by decide +kernel

/-- The test target with IPbus 1.3. -/
def recv13 : Tgt13 (W → W) → Bytes → Bytes → Tgt13 (W → W) × List Bytes := Tgt13.recv (execBytes13 (dummyTarget fun _ => 0))

/-- Another client writes register 2 between the packets. -/
def evs13 : List WEv :=
  let j := List.replicate 48 0
  [.chunk (wordBytes (mkFrame (chunk13 ops13)).words), .cast, .take, .toTarget 0 j, .toHub 0, .toTarget 1 j, .toHub 1, .response,
    .other (wordBytes [0x100000F8, 0x10020120, 2, 0x77]) 9, .cast, .take, .toTarget 2 j, .toHub 2, .take, .toTarget 3 j, .toHub 3, .response]

def world13 : Option (World (Tgt13 (W → W))) := (World.init ⟨fun _ => 5, []⟩).run recv13 16 7 3 (hubAddr 0x0100000A 0x51C3) evs13

/-- What the ControlHub sends. -/
def body13 : List W := [0x28000000, 0x0100000A, 0x51C3, 0x100000FC, 0x10020024, 0x1004011C, 0xAB, 0x1006011C, 0xAB, 0x1008011C, 5,
  0x28000000, 0x0100000A, 0x51C3, 0x100A00FC, 0x100C011C, 0x77, 0x100000FC, 0x100000FC, 0x100000FC, 0x100000FC, 0x100000FC]

/-- The program over TCP. -/
def tcp13 : Option (List Res × St TcpT) := runOps small13 (tcpT small13 2 16) (ops13 ++ [.dispatch]) (St.init (TcpT.init
  [([], true), ([], true), ([], true), ([.sendDone true, .recvHdr (some 22), .recvBody (some body13), .recvEnd], true)]))

example : tcp13.map (fun p => p.1.map (resShow true p.2.tr.u.heap)) =
    some [some (.data []), some (.data [0xAB]), some (.data [0xAB]), some (.data [5]), some (.data [0x77]), some (.data [])] := by decide +kernel

/-- The two runs satisfy the hypotheses of `C73_shared_partial`. -/
theorem run13_ok : ∃ rs s w, tcp13 = some (rs, s) ∧ world13 = some w ∧ (∀ e, .exc e ∈ rs → e = .bitsForbidden) ∧
    Timely recv13 16 (Hub.World.init ⟨fun _ => 5, []⟩) [] w.evs = true ∧
    (bins evs13 <+: s.tr.u.wire.map fun f => wordBytes f.words) ∧ s.tr.u.rx.map wordBytes <+: w.tm.sent := by
  have h1 : tcp13.map (fun p => (p.1.all (fun r => match r with | .ok _ => true | .exc _ => false),
      p.2.tr.u.wire.map (fun f => wordBytes f.words), p.2.tr.u.rx)) = some (true, bins evs13, [body13]) := by decide +kernel
  have h2 : world13.map (fun w => (Timely recv13 16 (Hub.World.init ⟨fun _ => 5, []⟩) [] w.evs, w.tm.sent)) =
      some (true, [wordBytes body13]) := by decide +kernel
  obtain ⟨⟨rs, s⟩, hs, e1⟩ := Option.map_eq_some_iff.1 h1
  obtain ⟨w, hw, e2⟩ := Option.map_eq_some_iff.1 h2
  simp only [Prod.mk.injEq] at e1 e2
  obtain ⟨a1, a2, a3⟩ := e1
  obtain ⟨b1, b2⟩ := e2
  refine ⟨rs, s, w, hs, hw, ?_, b1, by rw [a2]; exact List.prefix_refl _, by rw [a3, b2]; exact List.prefix_refl _⟩
  intro e he
  have := List.all_eq_true.1 a1 _ he
  cases this

example (rs : List Res) (s : St TcpT) (w : World (Tgt13 (W → W))) (h : tcp13 = some (rs, s)) (hw : world13 = some w) :=
  fun h1 h2 h3 h4 => C73_shared_partial (c := small13) ⟨by decide, by decide, by decide, by decide⟩ small13_ok.1 small13_ok.2 rfl rfl
    (by decide) ops13 (by simp [ops13, Op.ok, Op.maskOK]) _ rs s h h1 (dummyTarget fun _ => 0) hw h2 h3 h4

/-! ## A reply that arrives twice -/

/-- Another client reads register 1; its reply arrives twice. -/
def twice13 : List WEv :=
  let j := List.replicate 48 0
  [.other (wordBytes [0x100000F8, 0x10020118, 1, 0x100000F8, 0x100000F8, 0x100000F8, 0x100000F8, 0x100000F8]) 9, .take, .toTarget 0 j, .toHub 0,
    .toTarget 1 j, .toHub 1, .chunk (wordBytes (mkFrame (chunk13 [.read 2])).words), .cast, .take, .toHub 1, .response]

def twiceBody : List W := [0x28000000, 0x0100000A, 0x51C3, 0x100000FC, 0x1002011C, 0x11, 0x100000FC, 0x100000FC, 0x100000FC, 0x100000FC, 0x100000FC]

def twiceWorld : Option (World (Tgt13 (W → W))) :=
  (World.init ⟨fun r => if r = 1 then 0x11 else 5, []⟩).run recv13 16 7 3 (hubAddr 0x0100000A 0x51C3) twice13

def twiceTcp : Option (List Res × St TcpT) := runOps small13 (tcpT small13 2 16) [.read 2, .dispatch] (St.init (TcpT.init
  [([], true), ([], true), ([.sendDone true, .recvHdr (some 11), .recvBody (some twiceBody), .recvEnd], true)]))

/-- **C73 fails when a reply arrives twice.** The user reads register 2, which always has the value 5. Nothing fails, and they get the value of register 1, which another
client has read; their own packet was not executed. -/
theorem C73_violated_duplicate : ∃ rs s w, twiceTcp = some (rs, s) ∧ twiceWorld = some w ∧
    (bins twice13 <+: s.tr.u.wire.map fun f => wordBytes f.words) ∧ s.tr.u.rx.map wordBytes <+: w.tm.sent ∧
    rs.map (resShow true s.tr.u.heap) = [some (.data [0x11]), some (.data [])] ∧ w.net.tgt.st 2 = 5 ∧
    w.net.tgt.log.map (·.1) = [Hub.statusReq13, wordBytes [0x100000F8, 0x10020118, 1, 0x100000F8, 0x100000F8, 0x100000F8, 0x100000F8, 0x100000F8]] := by
  have h1 : twiceTcp.map (fun p => (p.1.map (resShow true p.2.tr.u.heap),
      p.2.tr.u.wire.map (fun f => wordBytes f.words), p.2.tr.u.rx)) = some ([some (.data [0x11]), some (.data [])], bins twice13, [twiceBody]) := by decide +kernel
  have h2 : twiceWorld.map (fun w => (w.tm.sent, w.net.tgt.st 2, w.net.tgt.log.map (·.1))) =
      some ([wordBytes twiceBody], 5, [Hub.statusReq13, wordBytes [0x100000F8, 0x10020118, 1, 0x100000F8, 0x100000F8, 0x100000F8, 0x100000F8, 0x100000F8]]) := by
    decide +kernel
  obtain ⟨⟨rs, s⟩, hs, e1⟩ := Option.map_eq_some_iff.1 h1
  obtain ⟨w, hw, e2⟩ := Option.map_eq_some_iff.1 h2
  simp only [Prod.mk.injEq] at e1 e2
  obtain ⟨a1, a2, a3⟩ := e1
  obtain ⟨b1, b2, b3⟩ := e2
  exact ⟨rs, s, w, hs, hw, by rw [a2]; exact List.prefix_refl _, by rw [a3, b1]; exact List.prefix_refl _, a1, b2, b3⟩

end Verif.Hub13
