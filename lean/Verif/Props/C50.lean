import Verif.Lemmas.TraMgrWorld
import Verif.Spec.Hub
/-!
# C50: every message of a client is answered by one message with the answers to its packets

See `/verif/properties.jsonl` and `DESIGN.md`. The transaction manager counts responses; it does not know to which packet a response
belongs. The theorems are about connections over which a client talks to one target, as uHAL does; the negative results at the end show
what happens otherwise.
-/

set_option autoImplicit false
set_option linter.unusedSimpArgs false

namespace Verif.TraMgr
open Verif.Hub (Bytes Sys Msg controlRequests isControl Prompt)
open Verif.Spec.Hub (be)

/-! ## What is claimed -/

/-- A message of a client: some packets. -/
def Chunk (ps : List Bytes) : Prop := ps ≠ [] ∧ ∀ x ∈ ps, Spec.Hub.Whole x ∧ Spec.Hub.Control x

section
variable {σ : Type}

/-- What the `n`-th packet of a connection is answered with: the packet header it came with, and what the target answers to the body
after having executed all packets before it that the device client took (whichever connection they are from); or an error code and
nothing else. -/
def Answered (exec : σ → Bytes → σ × Bytes) (st : σ) (me : Nat) (evs : List Hub.Ev) (n : Nat) (x : Bytes) (r : Spec.Hub.Answer) : Prop :=
  (r.code = 0 ∧ ∃ k, (controlRequests evs)[k]? = some (x, me) ∧
    (((controlRequests evs).take k).filter fun q => q.2 = me).length = n ∧
    r.data = x.take 4 ++ (exec (Hub.final exec st (((controlRequests evs).take k).map Hub.bodyOf)) (x.drop 4)).2) ∨
  ((r.code = 1 ∨ r.code = 3 ∨ r.code = 4) ∧ r.data = [])

end

/-! ## Proofs -/

theorem be4 (x : Nat) : be 4 x = be32 x := by
  simp [be, be32, List.range_succ]

theorem be2 (x : Nat) : be 2 x = be16 x := by
  simp [be, be16, List.range_succ]

theorem request_eq (a : Addr) (ps : List Bytes) : Spec.Hub.request a.ip a.port ps = encode a ps := by
  simp only [Spec.Hub.request, encode, be4, be2]

theorem reply_eq (a : Addr) (rs : List Spec.Hub.Answer) :
    Spec.Hub.reply a.ip a.port rs = frame (rs.map fun r => ⟨a, r.code, r.data⟩) := by
  simp only [Spec.Hub.reply, frame, be4, be2, List.flatMap_map, Resp.bytes]

theorem isControl_iff (x : Bytes) : Spec.Hub.Control x ↔ isControl x = true := by
  rcases x with _ | ⟨a, _ | ⟨b, _ | ⟨c, _ | ⟨d, x⟩⟩⟩⟩ <;> simp [Spec.Hub.Control, isControl]

theorem goodChunk {ps : List Bytes} (h : Chunk ps) : GoodChunk ps :=
  ⟨h.1, fun x hx => ⟨(h.2 x hx).1, (isControl_iff x).mp (h.2 x hx).2⟩⟩

theorem filter_index {α : Type} (f : α → Bool) : ∀ (l : List α) (n : Nat) (x : α), (l.filter f)[n]? = some x →
    ∃ k : Nat, l[k]? = some x ∧ f x = true ∧ ((l.take k).filter f).length = n := by
  intro l
  induction l with
  | nil => intro n x h; simp at h
  | cons y l ih =>
    intro n x h
    by_cases hy : f y = true
    · rw [List.filter_cons_of_pos hy] at h
      cases n with
      | zero => simp at h; subst h; exact ⟨0, rfl, hy, rfl⟩
      | succ n =>
        simp at h
        obtain ⟨k, h1, h2, h3⟩ := ih n x h
        exact ⟨k + 1, by simpa using h1, h2, by simp [hy, h3]⟩
    · rw [List.filter_cons_of_neg hy] at h
      obtain ⟨k, h1, h2, h3⟩ := ih n x h
      exact ⟨k + 1, by simpa using h1, h2, by simp [hy, h3]⟩

theorem filter_at {α : Type} (f : α → Bool) : ∀ (l : List α) (k : Nat) (x : α), l[k]? = some x → f x = true →
    (l.filter f)[((l.take k).filter f).length]? = some x := by
  intro l
  induction l with
  | nil => intro k x h; simp at h
  | cons y l ih =>
    intro k x h hf
    cases k with
    | zero => simp at h; subst h; simp [hf]
    | succ k =>
      simp at h
      by_cases hy : f y = true
      · simpa [hy] using ih k x h hf
      · simpa [hy] using ih k x h hf

theorem flatten_at {α : Type} : ∀ (l : List (List α)) (j i : Nat) (c : List α) (x : α), l[j]? = some c → c[i]? = some x →
    l.flatten[(l.take j).flatten.length + i]? = some x := by
  intro l
  induction l with
  | nil => intro j i c x h; simp at h
  | cons y l ih =>
    intro j i c x h hx
    cases j with
    | zero =>
      simp at h; subst h
      have := (List.getElem?_eq_some_iff.mp hx).1
      simp [List.getElem?_append_left this, hx]
    | succ j =>
      simp at h
      have := ih j i c x h hx
      simp only [List.take_succ_cons, List.flatten_cons, List.length_append]
      rw [List.getElem?_append_right (by omega)]
      rw [← this]; congr 1; omega

section
variable {σ : Type} {exec : σ → Bytes → σ × Bytes} {t0 : Hub.Tgt σ} {absMax L me p : Nat} {a : Addr} {cs : List (List Bytes)}
  {w : World σ}

theorem WInv.mine_eq (h : WInv exec t0 absMax me p a cs w) :
    mine me w.dc.hub.out = (answered w.dc.hub.out).filter fun m => m.pid = me := by
  simp only [mine, answered, List.filter_filter]
  apply List.filter_congr
  intro m hm
  by_cases hp : m.pid = me
  · have := h.six m hm
    simp only [hp, decide_true, Bool.true_and]
    by_cases hc : m.code = 6
    · exact absurd hp (this hc)
    · simp [hc]
  · simp [hp]

/-- The `n`-th message for the connection is about its `n`-th packet. -/
theorem WInv.answer (h : WInv exec t0 absMax me p a cs w) (hd : 0 < t0.depth) (hmx : 0 < absMax)
    (hb : L + min t0.depth absMax + 2 * t0.depth < 65535) (h0 : Hub.RecentHist t0)
    (hp : Prompt exec L (Hub.start t0 absMax) w.evs) {n : Nat} {m : Msg} (hm : (mine me w.dc.hub.out)[n]? = some m) {x : Bytes}
    (hx : cs.flatten[n]? = some x) : Answered exec t0.st me w.evs n x ⟨m.code, m.pkt⟩ := by
  have htold : Told w.dc := Told.run w.evs _ _ (Told.start t0 absMax) h.run
  rw [h.mine_eq] at hm
  obtain ⟨k, hk, hme, hcount⟩ := filter_index _ _ _ _ hm
  have hme' : m.pid = me := by simpa using hme
  obtain ⟨z, e, hze, hz, he⟩ := htold.parts
  have hcode : m.code ≠ 5 := no5_run hd hmx hb h0 hp h.run m (List.mem_filter.mp (List.mem_of_getElem? hk)).1
  by_cases hkz : k < z.length
  · have hmz : z[k]? = some m := by rw [hze, List.getElem?_append_left hkz] at hk; exact hk
    have hm0 : m.code = 0 := hz m (List.mem_of_getElem? hmz)
    have hzero : w.dc.hub.out.filter (fun m => decide (m.code = 0)) = z := by
      have h1 : w.dc.hub.out.filter (fun m => decide (m.code = 0)) =
          (answered w.dc.hub.out).filter fun m => decide (m.code = 0) := by
        simp only [answered, List.filter_filter]
        apply List.filter_congr
        intro m _
        by_cases hc : m.code = 0 <;> simp [hc]
      rw [h1, hze, List.filter_append, List.filter_eq_self.mpr (by intro m hm; simpa using hz m hm),
        List.filter_eq_nil_iff.mpr (by intro m hm; have := (he m hm).1; simp; omega), List.append_nil]
    obtain ⟨pkt, h1, h2⟩ := Hub.C42_reply_partial hd hmx hb h0 hp h.run (k := k) (m := m) (by rw [hzero]; exact hmz)
    have hacc : w.dc.accepted.map (fun f => (f.orig ++ f.body, f.pid)) = controlRequests w.evs := by
      have := Hub.run_accepted w.evs _ w.dc h.run
      simpa [Hub.start] using this
    have hpids : (controlRequests w.evs).map (·.2) = (answered w.dc.hub.out).map (·.pid) ++ w.dc.hub.waiting := by
      rw [htold.pids, ← hacc, List.map_map]; rfl
    have hcnt : (((controlRequests w.evs).take k).filter fun q => q.2 = me).length = n := by
      have e1 : ∀ (l : List (Bytes × Nat)), (l.filter fun q => decide (q.2 = me)).length =
          ((l.map (·.2)).filter fun q => decide (q = me)).length := by
        intro l; rw [List.filter_map, List.length_map]; rfl
      have e2 : ∀ (l : List Msg), (l.filter fun q => decide (q.pid = me)).length =
          ((l.map (·.pid)).filter fun q => decide (q = me)).length := by
        intro l; rw [List.filter_map, List.length_map]; rfl
      rw [e1, List.map_take, hpids, List.take_append_of_le_length (by
        have := (List.getElem?_eq_some_iff.mp hk).1; rw [List.length_map]; omega), ← List.map_take, ← e2, hcount]
    have hpx : pkt = x := by
      have h3 := filter_at (fun q : Bytes × Nat => decide (q.2 = me)) _ _ _ h1 (by simpa using hme')
      rw [hcnt] at h3
      have h4 : (ownRequests me w.evs)[n]? = some pkt := by
        simp only [ownRequests, List.getElem?_map, h3, Option.map_some]
      rw [h.own, List.getElem?_take] at h4
      split at h4
      · rw [hx] at h4; exact (Option.some.inj h4).symm
      · cases h4
    subst hpx
    left
    refine ⟨hm0, k, ?_, hcnt, h2⟩
    rw [h1, hme']
  · right
    have hme2 : e[k - z.length]? = some m := by rw [hze, List.getElem?_append_right (by omega)] at hk; exact hk
    obtain ⟨h1, h2⟩ := he m (List.mem_of_getElem? hme2)
    refine ⟨?_, h2⟩
    simp only
    omega

/-- The invariant at the end of a run. -/
theorem winv (ha : a.ip < 2 ^ 32 ∧ a.port < 2 ^ 16) (hd : 0 < t0.depth) (hmx : 0 < absMax)
    (hb : L + min t0.depth absMax + 2 * t0.depth < 65535) (h0 : Hub.RecentHist t0) {es : List WEv} (hcs : ∀ c ∈ cs, Chunk c)
    (hes : bins es = cs.map (Spec.Hub.request a.ip a.port)) (hr : (World.init t0 absMax).run exec me p a es = some w)
    (hp : Prompt exec L (Hub.start t0 absMax) w.evs) : WInv exec t0 absMax me p a cs w := by
  have := WInv.runAll (exec := exec) (me := me) (p := p) ha hd hmx hb h0 es [] cs _ w (WInv.init t0 absMax me p a) (by simp)
    (fun c hc => goodChunk (hcs c hc)) (by rw [hes]; apply List.map_congr_left; intro c _; exact request_eq a c) hr hp
  simpa using this

/-- **C50.** A client has sent the messages `cs` over a connection, all of them packets for the target `a`. Whatever happened since
(packets of other connections, lost, duplicated or late datagrams, timeouts): the messages sent back are, in order, one for each of the
first messages of the client, and each of them contains exactly one answer to each packet, in the order of the packets. `_partial`: one
device client, and late datagrams, as for C42. -/
theorem C50_answers_partial (ha : a.ip < 2 ^ 32 ∧ a.port < 2 ^ 16) (hd : 0 < t0.depth) (hmx : 0 < absMax)
    (hb : L + min t0.depth absMax + 2 * t0.depth < 65535) (h0 : Hub.RecentHist t0) {es : List WEv} (hcs : ∀ c ∈ cs, Chunk c)
    (hes : bins es = cs.map (Spec.Hub.request a.ip a.port)) (hr : (World.init t0 absMax).run exec me p a es = some w)
    (hp : Prompt exec L (Hub.start t0 absMax) w.evs) :
    w.tm.crashed = false ∧ ∃ g : List (List Spec.Hub.Answer), w.tm.sent = g.map (Spec.Hub.reply a.ip a.port) ∧
      g.length ≤ cs.length ∧ ∀ (j : Nat) (c : List Bytes) (rs : List Spec.Hub.Answer), cs[j]? = some c → g[j]? = some rs →
        rs.length = c.length ∧ ∀ (i : Nat) (x : Bytes) (r : Spec.Hub.Answer), c[i]? = some x → rs[i]? = some r →
          Answered exec t0.st me w.evs ((cs.take j).flatten.length + i) x r := by
  have h := winv ha hd hmx hb h0 hcs hes hr hp
  obtain ⟨g, rem, pend, htm⟩ := h.tm
  have hlen : ∀ (j : Nat), j < g.length → (g.take j).flatten.length = (cs.take j).flatten.length := by
    intro j hj
    rw [List.length_flatten, List.length_flatten, List.map_take, List.map_take, ← htm.sizes,
      List.take_append_of_le_length (by rw [List.length_map]; omega)]
  refine ⟨htm.crashed, g.map fun rs => rs.map fun r => ⟨r.code, r.data⟩, ?_, ?_, ?_⟩
  · rw [htm.sent, List.map_map]
    apply List.map_congr_left
    intro rs hrs
    simp only [Function.comp, reply_eq, List.map_map]
    congr 1
    have e : ∀ r ∈ rs, (⟨a, r.code, r.data⟩ : Resp) = id r := by
     intro r hr
     have : r ∈ ((mine me w.dc.hub.out).take w.got).map (toResp a) := by
       rw [← htm.resps]
       exact List.mem_append_left _ (List.mem_flatten.mpr ⟨rs, hrs, hr⟩)
     obtain ⟨m, _, rfl⟩ := List.mem_map.mp this
     rfl
    exact (List.map_id rs).symm.trans (List.map_congr_left fun r hr => (e r hr).symm)
  · have := congrArg List.length htm.sizes
    simp at this ⊢
    omega
  · intro j c rs hc hrs
    rw [List.getElem?_map, Option.map_eq_some_iff] at hrs
    obtain ⟨gj, hgj, rfl⟩ := hrs
    have hj := (List.getElem?_eq_some_iff.mp hgj).1
    constructor
    · have h1 : (cs.map (·.length))[j]? = some c.length := by rw [List.getElem?_map, hc]; rfl
      rw [← htm.sizes, List.getElem?_append_left (by simpa using hj), List.getElem?_map, hgj] at h1
      simpa using h1
    · intro i x r hx hr
      rw [List.getElem?_map, Option.map_eq_some_iff] at hr
      obtain ⟨r', hr', rfl⟩ := hr
      have h1 := flatten_at g j i gj r' hgj hr'
      have h2 : (((mine me w.dc.hub.out).take w.got).map (toResp a))[(g.take j).flatten.length + i]? = some r' := by
        rw [← htm.resps, List.getElem?_append_left (List.getElem?_eq_some_iff.mp h1).1, h1]
      rw [List.getElem?_map, Option.map_eq_some_iff] at h2
      obtain ⟨m, hm, rfl⟩ := h2
      rw [hlen j hj, List.getElem?_take] at hm
      split at hm
      · exact h.answer hd hmx hb h0 hp hm (flatten_at cs j i c x hc hx)
      · cases hm

/-- **C50, nothing is withheld.** When the device client has taken all packets of the connection, is not waiting for the target on its
behalf, and all its messages have been taken, every message of the client has been answered. -/
theorem C50_complete_partial (ha : a.ip < 2 ^ 32 ∧ a.port < 2 ^ 16) (hd : 0 < t0.depth) (hmx : 0 < absMax)
    (hb : L + min t0.depth absMax + 2 * t0.depth < 65535) (h0 : Hub.RecentHist t0) {es : List WEv} (hcs : ∀ c ∈ cs, Chunk c)
    (hes : bins es = cs.map (Spec.Hub.request a.ip a.port)) (hr : (World.init t0 absMax).run exec me p a es = some w)
    (hp : Prompt exec L (Hub.start t0 absMax) w.evs) (htk : w.taken = w.tm.casts.length) (hwait : me ∉ w.dc.hub.waiting)
    (hgot : w.got = (w.dc.hub.out.filter fun m => m.pid = me).length) : w.tm.sent.length = cs.length := by
  have h := winv ha hd hmx hb h0 hcs hes hr hp
  obtain ⟨g, rem, pend, htm⟩ := h.tm
  have htold : Told w.dc := Told.run w.evs _ _ (Told.start t0 absMax) h.run
  have hfew := congrArg List.length (h.few htold)
  have hw : w.dc.hub.waiting.filter (fun x => decide (x = me)) = [] := by
    rw [List.filter_eq_nil_iff]
    intro x hx
    simp only [decide_eq_true_eq]
    rintro rfl
    exact hwait hx
  rw [h.casts, List.length_map] at htk
  rw [hw, List.append_nil, List.length_map, List.length_map, h.own, htk, List.take_length] at hfew
  have hg : w.got = (mine me w.dc.hub.out).length := hgot
  have hresp := congrArg List.length htm.resps
  rw [List.length_map, List.length_take, hg, Nat.min_self, hfew, List.length_append, List.length_flatten] at hresp
  have hsz := htm.sizes
  have hrem : rem = [] := by
    cases hrem : rem with
    | nil => rfl
    | cons n rest =>
      exfalso
      have h1 := htm.head n (by rw [hrem]; rfl)
      have h2 : (cs.map (·.length)).sum = cs.flatten.length := by rw [List.length_flatten]
      rw [← hsz, hrem] at h2
      simp only [List.sum_append, List.sum_cons] at h2
      have : (List.map List.length g).sum + pend.length = cs.flatten.length := hresp
      have h3 : (List.map (fun x : List Resp => x.length) g).sum = (List.map List.length g).sum := rfl
      omega
  rw [hrem, List.append_nil] at hsz
  have := congrArg List.length hsz
  rw [htm.sent]
  simpa using this

end

/-! ## Any device client -/

/-- What happens on a connection to one target. -/
inductive Talk
  /-- a message with these packets, while the device client is this process -/
  | ask (ps : List Bytes) (p : Nat)
  | answer (r : Spec.Hub.Answer)
deriving DecidableEq, Repr

/-- As the transaction manager sees it. -/
def Talk.ev (a : Addr) : Talk → Ev
  | .ask ps p => .chunk (Spec.Hub.request a.ip a.port ps) (.pid p)
  | .answer r => .response ⟨a, r.code, r.data⟩

/-- The messages. -/
def asked : List Talk → List (List Bytes × Nat)
  | [] => []
  | .ask ps p :: l => (ps, p) :: asked l
  | .answer _ :: l => asked l

/-- The answers. -/
def answers : List Talk → List Spec.Hub.Answer
  | [] => []
  | .ask _ _ :: l => answers l
  | .answer r :: l => r :: answers l

theorem talk {a : Addr} (ha : a.ok) : ∀ (l : List Talk) (ns : List Nat) (rs : List Resp) (s : TM) (g : List (List Resp))
    (rem : List Nat) (pend : List Resp), Inv a ns rs s g rem pend → (∀ x ∈ asked l, x.1 ≠ [] ∧ ∀ q ∈ x.1, Whole q) →
    (∀ n, rs.length + (answers (l.take n)).length ≤ ns.sum + ((asked (l.take n)).map (·.1.length)).sum) →
    (s.run (l.map (Talk.ev a))).casts = s.casts ++ (asked l).flatMap (fun x => x.1.map fun q => (x.2, q)) ∧
    ∃ g' rem' pend', Inv a (ns ++ (asked l).map (·.1.length)) (rs ++ (answers l).map fun r => ⟨a, r.code, r.data⟩)
      (s.run (l.map (Talk.ev a))) g' rem' pend' := by
  intro l
  induction l with
  | nil => intro ns rs s g rem pend h _ _; exact ⟨by simp [TM.run, asked], g, rem, pend, by simpa [asked, answers, TM.run] using h⟩
  | cons t l ih =>
    intro ns rs s g rem pend h hw hc
    cases t with
    | ask ps p =>
      have h0 := hw (ps, p) (by simp [asked])
      obtain ⟨h1, h2⟩ := h.chunk ha h0.1 h0.2 p
      obtain ⟨h3, g', rem', pend', h4⟩ := ih _ _ _ _ _ _ h1 (fun x hx => hw x (by simp [asked, hx])) (by
        intro n
        have := hc (n + 1)
        simp only [List.take_succ_cons, asked, answers, List.map_cons, List.sum_cons] at this
        simp only [List.sum_append, List.sum_cons, List.sum_nil]
        omega)
      simp only [List.map_cons, TM.run, Talk.ev, request_eq]
      refine ⟨?_, g', rem', pend', ?_⟩
      · rw [h3, h2]; simp [asked]
      · simpa [asked, answers] using h4
    | answer r =>
      obtain ⟨h1, g1, rem1, pend1, h2⟩ := h.response (r := ⟨a, r.code, r.data⟩) rfl (by
        have := hc 1
        simp [asked, answers] at this
        omega)
      obtain ⟨h3, g', rem', pend', h4⟩ := ih _ _ _ _ _ _ h2 (fun x hx => hw x (by simpa [asked] using hx)) (by
        intro n
        have := hc (n + 1)
        simp only [List.take_succ_cons, asked, answers, List.length_cons] at this
        simp only [List.length_append, List.length_cons, List.length_nil]
        omega)
      simp only [List.map_cons, TM.run, Talk.ev]
      refine ⟨?_, g', rem', pend', ?_⟩
      · rw [h3, h1]; simp [asked]
      · simpa [asked, answers] using h4

/-- **C50, the transaction manager alone.** Whatever the device clients are, and in whatever order messages and answers alternate: as long as
there are never more answers than packets asked about, every packet goes to the device client in the order of the messages, and the
answers are sent back in the order in which they arrive, in messages of as many answers as there were packets; only the answers to the
first message that is not completely answered are kept back. -/
theorem C50_grouping {a : Addr} (ha : a.ip < 2 ^ 32 ∧ a.port < 2 ^ 16) (l : List Talk)
    (hw : ∀ x ∈ asked l, x.1 ≠ [] ∧ ∀ q ∈ x.1, Spec.Hub.Whole q)
    (hc : ∀ n, (answers (l.take n)).length ≤ ((asked (l.take n)).map (·.1.length)).sum) :
    let s := TM.init.run (l.map (Talk.ev a))
    s.crashed = false ∧ s.casts = (asked l).flatMap (fun x => x.1.map fun q => (x.2, q)) ∧
    ∃ (g : List (List Spec.Hub.Answer)) (pend : List Spec.Hub.Answer), s.sent = g.map (Spec.Hub.reply a.ip a.port) ∧ g.flatten ++ pend = answers l ∧
      g.map (·.length) = ((asked l).map (·.1.length)).take g.length ∧
      ∀ x, (asked l)[g.length]? = some x → pend.length < x.1.length := by
  obtain ⟨h1, g, rem, pend, h2⟩ := talk ha l [] [] TM.init [] [] [] (Inv.init a) hw (by simpa using hc)
  simp only [List.nil_append] at h2
  have back : ∀ rs : List Resp, (∀ r ∈ rs, r.addr = a) →
      (rs.map fun r => (⟨r.code, r.data⟩ : Spec.Hub.Answer)).map (fun r => (⟨a, r.code, r.data⟩ : Resp)) = rs := by
    intro rs hrs
    rw [List.map_map]
    exact (List.map_congr_left fun r hr => by rw [Function.comp, ← hrs r hr]; rfl).trans (List.map_id rs)
  have hall : ∀ r ∈ g.flatten ++ pend, r.addr = a := by
    intro r hr
    rw [h2.resps] at hr
    obtain ⟨x, _, rfl⟩ := List.mem_map.mp hr
    rfl
  refine ⟨h2.crashed, by simpa [TM.init] using h1, g.map fun rs => rs.map fun r => ⟨r.code, r.data⟩,
    pend.map fun r => ⟨r.code, r.data⟩, ?_, ?_, ?_, ?_⟩
  · rw [h2.sent, List.map_map]
    apply List.map_congr_left
    intro rs hrs
    rw [Function.comp, reply_eq, back rs fun r hr => hall r (List.mem_append_left _ (List.mem_flatten.mpr ⟨rs, hrs, hr⟩))]
  · have := congrArg (List.map fun r : Resp => (⟨r.code, r.data⟩ : Spec.Hub.Answer)) h2.resps
    rw [List.map_append, List.map_flatten, List.map_map] at this
    rw [this]
    exact (List.map_congr_left fun r _ => rfl).trans (List.map_id _)
  · rw [← h2.sizes, List.length_map, List.take_append_of_le_length (by simp), List.take_of_length_le (by simp)]
    simp [Function.comp_def]
  · intro x hx
    rw [List.length_map] at hx ⊢
    apply h2.head
    have h3 : ((asked l).map (·.1.length))[g.length]? = some x.1.length := by rw [List.getElem?_map, hx]; rfl
    rw [← h2.sizes, List.getElem?_append_right (by simp)] at h3
    simpa [List.head?_eq_getElem?] using h3

example := C50_grouping (a := ⟨0x0A000001, 50001⟩) ⟨by decide, by decide⟩
  [.ask [[1, 2, 3, 4], [5, 6, 7, 8]] 3, .answer ⟨0, [1]⟩, .ask [[]] 4, .answer ⟨1, []⟩, .answer ⟨0, [2]⟩]
  (by intro x hx
      simp only [asked, List.mem_cons, List.not_mem_nil, or_false] at hx
      rcases hx with rfl | rfl
      · refine ⟨by simp, fun q hq => ?_⟩
        simp only [List.mem_cons, List.not_mem_nil, or_false] at hq
        rcases hq with rfl | rfl <;> simp [Spec.Hub.Whole]
      · refine ⟨by simp, fun q hq => ?_⟩
        simp only [List.mem_cons, List.not_mem_nil, or_false] at hq
        subst hq; simp [Spec.Hub.Whole])
  (by intro n
      match n with
      | 0 | 1 | 2 | 3 | 4 => decide
      | n + 5 => simp [asked, answers])

/-! ## Non-vacuity -/

/-- A target. -/
def demoAddr : Addr := ⟨0x0A000001, 50001⟩

/-- Two messages of a client: two packets, one packet. -/
def demoChunks : List (List Bytes) :=
  [[[0x20, 0, 0, 0xf0, 1, 2, 3, 4], [0xf0, 0, 0, 0x20]], [[0x20, 0, 0, 0xf0, 5, 6, 7, 8]]]

theorem demoChunks_ok : ∀ c ∈ demoChunks, Chunk c := by
  intro c hc
  simp only [demoChunks, List.mem_cons, List.not_mem_nil, or_false] at hc
  rcases hc with rfl | rfl
  · refine ⟨by simp, ?_⟩
    intro x hx
    simp only [List.mem_cons, List.not_mem_nil, or_false] at hx
    rcases hx with rfl | rfl <;> simp [Spec.Hub.Whole, Spec.Hub.Control]
  · refine ⟨by simp, ?_⟩
    intro x hx
    simp only [List.mem_cons, List.not_mem_nil, or_false] at hx
    subst hx; simp [Spec.Hub.Whole, Spec.Hub.Control]

/-- They are sent while another client uses the target and a request is lost. -/
def demoEvs : List WEv :=
  [.chunk (Spec.Hub.request demoAddr.ip demoAddr.port [[0x20, 0, 0, 0xf0, 1, 2, 3, 4], [0xf0, 0, 0, 0x20]]),
   .other [0x20, 0, 0, 0xf0, 9] 8, .request, .toTarget 0 (List.replicate 48 0), .toHub 0,
   .chunk (Spec.Hub.request demoAddr.ip demoAddr.port [[0x20, 0, 0, 0xf0, 5, 6, 7, 8]]),
   .timeout, .toTarget 2 (List.replicate 48 0), .toHub 1, .toTarget 3 (List.replicate 48 0), .toHub 2, .response,
   .request, .toTarget 4 (List.replicate 48 0), .request, .toTarget 5 (List.replicate 48 0), .toHub 3, .response,
   .toHub 4, .response]

/-- The run exists, satisfies the hypotheses of the theorems above, and both messages are answered. -/
theorem demo_run : ∃ w, (World.init Hub.fresh 2).run Hub.counter 7 3 demoAddr demoEvs = some w ∧
    Prompt Hub.counter 100 (Hub.start Hub.fresh 2) w.evs ∧
    bins demoEvs = demoChunks.map (Spec.Hub.request demoAddr.ip demoAddr.port) ∧
    w.tm.sent = [Spec.Hub.reply demoAddr.ip demoAddr.port [⟨0, [0x20, 0, 0, 0xf0, 1, 1]⟩, ⟨0, [0xf0, 0, 0, 0x20, 2, 0]⟩],
      Spec.Hub.reply demoAddr.ip demoAddr.port [⟨0, [0x20, 0, 0, 0xf0, 3, 5]⟩]] := by
  have h : ((World.init Hub.fresh 2).run Hub.counter 7 3 demoAddr demoEvs).map
      (fun w => (Prompt Hub.counter 100 (Hub.start Hub.fresh 2) w.evs, w.tm.sent)) =
      some (true, [Spec.Hub.reply demoAddr.ip demoAddr.port [⟨0, [0x20, 0, 0, 0xf0, 1, 1]⟩, ⟨0, [0xf0, 0, 0, 0x20, 2, 0]⟩],
        Spec.Hub.reply demoAddr.ip demoAddr.port [⟨0, [0x20, 0, 0, 0xf0, 3, 5]⟩]]) := by decide +kernel
  obtain ⟨w, hw, h2⟩ := Option.map_eq_some_iff.mp h
  obtain ⟨h3, h4⟩ := Prod.mk.inj h2
  exact ⟨w, hw, h3, by decide +kernel, h4⟩

example (w : World Nat) (hw : (World.init Hub.fresh 2).run Hub.counter 7 3 demoAddr demoEvs = some w)
    (hp : Prompt Hub.counter 100 (Hub.start Hub.fresh 2) w.evs) :=
  C50_answers_partial (L := 100) (by decide) (by decide) (by decide) (by decide)
    ⟨by decide, by intro p x h; simp [Hub.fresh] at h⟩ demoChunks_ok (by decide +kernel) hw hp

/-- At the end of this run the hypotheses of `C50_complete_partial` hold, too. -/
example : ((World.init Hub.fresh 2).run Hub.counter 7 3 demoAddr demoEvs).map (fun w =>
    (decide (w.taken = w.tm.casts.length), decide (7 ∈ w.dc.hub.waiting),
      decide (w.got = (w.dc.hub.out.filter fun m => m.pid = 7).length))) = some (true, false, true) := by decide +kernel

/-- When the target does not answer any more, the client is told. -/
example : ((World.init Hub.fresh 2).run Hub.counter 7 3 demoAddr
    ([.chunk (Spec.Hub.request demoAddr.ip demoAddr.port [[0x20, 0, 0, 0xf0, 1, 2, 3, 4]]), .request] ++
      List.replicate 6 .timeout ++ [.response])).map (fun w => w.tm.sent) =
    some [Spec.Hub.reply demoAddr.ip demoAddr.port [⟨3, []⟩]] := by decide +kernel

/-! ## Failures -/

/-- Another target. -/
def otherAddr : Addr := ⟨0x0A000002, 50001⟩

/-- A packet. -/
def demoPkt : Bytes := [0x20, 0, 0, 0xf0]

theorem run_append (l m : List Ev) : ∀ (s : TM), s.run (l ++ m) = (s.run l).run m := by
  induction l with
  | nil => intro s; rfl
  | cons e l ih => intro s; exact ih _

/-- Responses from elsewhere change nothing. -/
theorem ignored (s : TM) (rs : List Resp) (h : ∀ r ∈ rs, some r.addr ≠ s.target) : s.run (rs.map .response) = s := by
  induction rs with
  | nil => rfl
  | cons r rs ih =>
    have : s.step (.response r) = s := by
      simp only [TM.step, TM.response]
      rw [if_neg (h r (by simp))]
      split <;> rfl
    simp only [List.map_cons, TM.run, this]
    exact ih fun r hr => h r (by simp [hr])

/-- **C50 fails for a message with packets for two targets.** Both packets go to the first of them; whatever it answers, nothing is sent to
the client. -/
theorem C50_violated_two_targets (p : Nat) (rs : List Resp) (h : ∀ r ∈ rs, r.addr = demoAddr) :
    let s := TM.init.run (.chunk (Spec.Hub.request demoAddr.ip demoAddr.port [demoPkt] ++
      Spec.Hub.request otherAddr.ip otherAddr.port [demoPkt]) (.pid p) :: rs.map .response)
    s.casts = [(p, demoPkt), (p, demoPkt)] ∧ s.sent = [] := by
  have h1 : TM.init.step (.chunk (Spec.Hub.request demoAddr.ip demoAddr.port [demoPkt] ++
      Spec.Hub.request otherAddr.ip otherAddr.port [demoPkt]) (.pid p)) =
      ⟨some otherAddr, 2, [2], [], 0, true, false, [], [(p, demoPkt), (p, demoPkt)]⟩ := rfl
  simp only [TM.run, h1]
  rw [ignored _ rs (by intro r hr; rw [h r hr]; show some demoAddr ≠ some otherAddr; decide)]
  exact ⟨rfl, rfl⟩

/-- **C50 fails when a client talks to another target before it has been answered.** The answer of the first target is lost, the answer of
the second one is sent as that of the first, and the second message is never answered. -/
theorem C50_violated_switch :
    (TM.init.run [.chunk (Spec.Hub.request demoAddr.ip demoAddr.port [demoPkt]) (.pid 1),
      .chunk (Spec.Hub.request otherAddr.ip otherAddr.port [demoPkt, demoPkt]) (.pid 2),
      .response ⟨demoAddr, 0, demoPkt⟩, .response ⟨otherAddr, 0, demoPkt⟩, .response ⟨otherAddr, 0, demoPkt⟩]).sent =
    [Spec.Hub.reply otherAddr.ip otherAddr.port [⟨0, demoPkt⟩]] := by decide +kernel

/-- **C50 fails after a message that is cut off.** Two words in it are enough: the target is forgotten and answers to earlier messages
are lost. -/
theorem C50_violated_short (p : Nat) (rs : List Resp) :
    (TM.init.run (.chunk (Spec.Hub.request demoAddr.ip demoAddr.port [demoPkt]) (.pid p) ::
      .chunk ((Spec.Hub.request demoAddr.ip demoAddr.port [demoPkt]).take 8) (.pid p) :: rs.map .response)).sent = [] := by
  have h1 : (TM.init.step (.chunk (Spec.Hub.request demoAddr.ip demoAddr.port [demoPkt]) (.pid p))).step
      (.chunk ((Spec.Hub.request demoAddr.ip demoAddr.port [demoPkt]).take 8) (.pid p)) =
      ⟨none, 1, [1, 0], [], 0, true, false, [], [(p, demoPkt)]⟩ := rfl
  simp only [TM.run, h1]
  rw [ignored _ rs (by intro r _; simp)]

/-- **C50 fails for good after a message whose first packet is cut off.** The client waits for nothing (the message contained no packet),
but everything that is answered later is kept back for ever. -/
theorem C50_violated_stuck (p : Nat) (es : List Ev)
    (h : ∀ e ∈ es, (∃ ps : List Bytes, ps ≠ [] ∧ (∀ x ∈ ps, Spec.Hub.Whole x) ∧
      e = .chunk (Spec.Hub.request demoAddr.ip demoAddr.port ps) (.pid p)) ∨ ∃ r, e = .response r) :
    (TM.init.run (.chunk ((Spec.Hub.request demoAddr.ip demoAddr.port [demoPkt ++ demoPkt]).take 12) (.pid p) :: es)).sent = [] := by
  have h1 : TM.init.step (.chunk ((Spec.Hub.request demoAddr.ip demoAddr.port [demoPkt ++ demoPkt]).take 12) (.pid p)) =
      ⟨some demoAddr, 0, [0], [], 0, true, false, [], []⟩ := rfl
  simp only [TM.run, h1]
  have gen : ∀ (es : List Ev) (s : TM), (∃ q, s.q = 0 :: q) → s.sent = [] → (∀ e ∈ es, (∃ ps : List Bytes, ps ≠ [] ∧
      (∀ x ∈ ps, Whole x) ∧ e = .chunk (encode demoAddr ps) (.pid p)) ∨ ∃ r, e = .response r) → (s.run es).sent = [] := by
    intro es
    induction es with
    | nil => intro s _ hs _; exact hs
    | cons e es ih =>
      intro s hq hs he
      obtain ⟨q, hq⟩ := hq
      simp only [TM.run]
      have key : (∃ q, (s.step e).q = 0 :: q) ∧ (s.step e).sent = [] := by
        rcases he e (by simp) with ⟨ps, hne, hw, rfl⟩ | ⟨r, rfl⟩
        · simp only [TM.step]
          split
          · simp only [TM.chunk]
            rw [if_pos (encode_length_mod demoAddr ps hw),
              unpack_encode demoAddr ⟨by decide, by decide⟩ p ps _ none 0 hne hw (by omega) (.inl rfl)]
            exact ⟨⟨q ++ [0 + ps.length], by simp [hq]⟩, hs⟩
          · exact ⟨⟨q, hq⟩, hs⟩
        · simp only [TM.step]
          split
          · simp only [TM.response, hq]
            split
            · rw [if_neg (by omega)]
              exact ⟨⟨q, rfl⟩, hs⟩
            · exact ⟨⟨q, hq⟩, hs⟩
          · exact ⟨⟨q, hq⟩, hs⟩
      exact ih _ key.1 key.2 fun e' h' => he e' (by simp [h'])
  exact gen es _ ⟨[], rfl⟩ rfl fun e he => by
    rcases h e he with ⟨ps, h1, h2, h3⟩ | h1
    · exact .inl ⟨ps, h1, h2, by rw [h3, request_eq]⟩
    · exact .inr h1

example := C50_violated_stuck 1 [.chunk (Spec.Hub.request demoAddr.ip demoAddr.port [demoPkt]) (.pid 1), .response ⟨demoAddr, 0, demoPkt⟩]
  (by intro e he
      simp only [List.mem_cons, List.not_mem_nil, or_false] at he
      rcases he with rfl | rfl
      · exact .inl ⟨[demoPkt], by simp, by simp [demoPkt, Spec.Hub.Whole], rfl⟩
      · exact .inr ⟨_, rfl⟩)

/-- **C50 fails for a blocked target.** Both packets of the second message are answered together by one response, and before the first
message is answered. -/
theorem C50_violated_blocked :
    (TM.init.run [.chunk (Spec.Hub.request demoAddr.ip demoAddr.port [demoPkt]) (.pid 1),
      .chunk (Spec.Hub.request otherAddr.ip otherAddr.port [demoPkt, demoPkt]) .blocked,
      .response ⟨demoAddr, 0, demoPkt⟩]).sent =
    [Spec.Hub.reply otherAddr.ip otherAddr.port [⟨7, []⟩], Spec.Hub.reply demoAddr.ip demoAddr.port [⟨0, demoPkt⟩]] := by decide +kernel

/-- **C50 fails when the target sends a malformed status reply.** The device client gives up, with error code 5; but the message does not
match (ch_device_client.erl:763), and the client is not told. -/
theorem C50_violated_malformed_status :
    (World.run Hub.counter 7 3 demoAddr
      { World.init Hub.fresh 2 with dc := { Hub.start Hub.fresh 2 with toH := [(0, [0x20, 0, 0, 0xf1])] } }
      [.chunk (Spec.Hub.request demoAddr.ip demoAddr.port [demoPkt]), .request, .timeout, .toHub 0, .response]).map
      (fun w => (w.dc.hub.mode, w.dc.hub.out, w.got, w.tm.sent)) = some (.stopped, [⟨7, 5, []⟩], 1, []) := by decide +kernel

end Verif.TraMgr
