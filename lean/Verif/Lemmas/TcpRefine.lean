import Verif.Lemmas.Decent
/-!
Programs on the TCP client are programs on `linkT`.
-/

set_option autoImplicit false
set_option linter.unusedSimpArgs false

namespace Verif

section
variable {ρ : Type} {c : Cfg} {resp : ρ → List W → Option (List W) × ρ} {e0 eEnd : ρ} {TT : List (Buf × Option (List W))} {n N : Nat}

theorem tcp_init_rel (hn : 0 < n) (plan : List (List TEv × Bool)) (CC : List (Nat × Nat)) (hf : Follows resp e0 TT eEnd) :
    SRel 0 0 [] [] (TR c resp e0 eEnd n N TT CC) (St.init (TcpT.init plan)) (St.init (Link.init e0 CC)) := by
  refine ⟨rfl, rfl, rfl, rfl, ⟨.init hn, rfl, ?_, rfl, rfl, [], rfl, ⟨TT, ?_, .nil _, hf⟩, ?_, ⟨[], .inl ?_, ⟨?_, ?_⟩, ?_⟩, ?_, ?_, ?_⟩, [], rfl, rfl⟩
  all_goals simp [St.init, TcpT.init, Tcp.init, Link.init, TMem, HAgree, Tcp.waiting, Tcp.K]

/-- What the simulation gives at the end. -/
structure TRefined (c : Cfg) (n N : Nat) (s : St TcpT) (s' : St (Link ρ)) : Prop where
  inv : TInv n N s.tr.u
  hist : s'.hist = s.hist
  cur : s'.cur = s.cur
  ctr : s'.ctr = s.ctr
  nObj : s'.nObj = s.nObj
  nPre : s'.nPre = s.nPre
  mem : ∃ L, Spared L s'.tr.log ∧ TMem c L s.tr.u s'.tr
  exc : s.tr.u.exc = none
  pend : s.tr.u.noInv → s'.tr.pending = s.tr.u.waiting
  sep : ∀ x ∈ s'.tr.log, ∀ b ∈ s'.tr.pending, Disj x.buf b

theorem SRel.trefined {CC : List (Nat × Nat)} {s : St TcpT} {s' : St (Link ρ)} (h : SRel 0 0 [] [] (TR c resp e0 eEnd n N TT CC) s s') :
    TRefined c n N s s' := by
  have hz : Buf.shift 0 0 = id := funext Buf.shift_zero
  obtain ⟨pre, _, hm⟩ := h.tr.m
  obtain ⟨L, _, q2, q3⟩ := hm.mem
  refine ⟨h.tr.inv, ?_, ?_, h.ctr, h.nObj, h.nPre, ⟨L, q2, q3⟩, h.tr.exc, hm.pend h.tr.exc, hm.ls.sep h.tr.exc⟩
  · obtain ⟨H, e1, e2⟩ := h.hist
    rw [e1, e2, hz, List.map_id]
  · rw [h.cur, hz]; simp

/-- The memory: the same flags, the same words wherever a packet was accepted. -/
theorem TRefined.words {s : St TcpT} {s' : St (Link ρ)} (h : TRefined c n N s s') :
    ∃ ext, s.tr.u.log = s'.tr.log ++ ext ∧ (∀ x ∈ ext, x.out ≠ .ok) ∧ s.tr.u.heap.valid = s'.tr.heap.valid ∧
      ∀ x ∈ s'.tr.log, x.out = .ok → ∀ l ∈ bufLocs x.buf, s.tr.u.heap.word l = s'.tr.heap.word l := by
  obtain ⟨L, q1, q2⟩ := h.mem
  unfold TMem at q2
  split at q2
  · rename_i e b ws hm
    obtain ⟨done, rest, h', g1, g2, g3, g4, g5⟩ := q2
    have hh : h'.valid = s'.tr.heap.valid ∧ ∀ l, l ∉ bufLocs b → h'.word l = s'.tr.heap.word l := by
      unfold receiveReply clientValidate at g2
      split at g2
      · cases g2
      · have := congrArg Prod.snd g2
        simp only at this
        subst this
        have hs := scatter_off (bs := [b]) s'.tr.heap ws
        simp only [List.flatMap_cons, List.flatMap_nil, List.append_nil] at hs
        refine ⟨hs.1, fun l hl => hs.2 l ?_⟩
        rintro ⟨y, hy, hy'⟩
        rw [List.mem_singleton.1 hy] at hy'
        exact hl hy'
    refine ⟨_, g4, by simp, g3.1.trans hh.1, ?_⟩
    intro x hx ho l hl
    rw [g3.2 l ?_, hh.2 l (h.sep x hx b (by rw [g5]; simp) l hl)]
    rintro ⟨y, hy, hy'⟩
    rcases List.mem_append.1 hy with hy | hy
    · exact q1.2 y hy x hx ho l hl hy'
    · exact h.sep x hx y (by rw [g5]; simp [hy]) l hl hy'
  · refine ⟨[], by rw [q2.2]; simp, by simp, q2.1.1, ?_⟩
    intro x hx ho l hl
    refine q2.1.2 l ?_
    rintro ⟨y, hy, hy'⟩
    exact q1.2 y hy x hx ho l hl hy'

/-- Nothing is pending and no reply was refused: the same memory. -/
theorem TRefined.heap {s : St TcpT} {s' : St (Link ρ)} (h : TRefined c n N s s') (hp : s'.tr.pending = []) (ho : ∀ x ∈ s'.tr.log, x.out = .ok) :
    s.tr.u.heap = s'.tr.heap := by
  obtain ⟨L, q1, q2⟩ := h.mem
  unfold TMem at q2
  split at q2
  · obtain ⟨done, rest, h', g1, g2, g3, g4, g5⟩ := q2
    rw [g5] at hp; cases hp
  · have hL : L = [] := by
      cases L with
      | nil => rfl
      | cons b L =>
        obtain ⟨x, hx, hx'⟩ := q1.1 (by simp)
        exact absurd (ho x hx) hx'
    subst hL
    have hw : s.tr.u.heap.word = s'.tr.heap.word := funext fun l => q2.1.2 l (by rintro ⟨y, hy, _⟩; cases hy)
    have hv := q2.1.1
    cases hx : s.tr.u.heap
    cases hy : s'.tr.heap
    rw [hx, hy] at hw hv
    simp only at hw hv
    rw [hw, hv]

/-- A program run on the TCP client is a run on `linkT`, in every environment that answers the packets as they were answered.
Here in two parts: `ops`, then `ops'`. -/
theorem tcp_refines₂ (hp : TPar n N) (hw : WF c) (ops ops' : List Op) (hops : ∀ op ∈ ops, op.ok c) (hops' : ∀ op ∈ ops', op.ok c)
    (plan : List (List TEv × Bool)) (rs rs' : List Res) (s s' : St TcpT)
    (h : runOps c (tcpT c n N) ops (St.init (TcpT.init plan)) = some (rs, s)) (h' : runOps c (tcpT c n N) ops' s = some (rs', s'))
    (hd : s'.tr.u.dirty = false) (hst : s'.tr.u.stale = false) (hf : Follows resp e0 s'.tr.u.outcomes eEnd) :
    ∃ (sched : List (Nat × Nat)) (l l' : St (Link ρ)),
      runOps c (linkT c resp) ops (St.init (Link.init e0 sched)) = some (rs, l) ∧ runOps c (linkT c resp) ops' l = some (rs', l') ∧
      TRefined c n N s l ∧ TRefined c n N s' l' ∧ Follows resp e0 s.tr.u.outcomes l.tr.env ∧ l'.tr.env = eEnd := by
  obtain ⟨hdis, hev⟩ := tcp_hist_disj (n := n) (N := N) hw (ops ++ ops') (fun o ho => (List.mem_append.1 ho).elim (hops o) (hops' o)) plan
    (rs := rs ++ rs') (s := s') (by rw [runOps_append, h]; simp [h'])
  have hsim := tcp_sim (c := c) (resp := resp) (e0 := e0) (eEnd := eEnd) (TT := s'.tr.u.outcomes) hp s'.tr.counts s'.hist hdis
  have hC : Cond (fun _ => True) (TGood s'.tr.u.outcomes s'.tr.counts s'.hist) s' :=
    ⟨fun _ _ => trivial, List.prefix_refl _, List.prefix_refl _, by rw [hev]; exact List.prefix_refl _, hd, hst⟩
  have hG := (run_mono hsim ops' h').cond hC
  obtain ⟨_, l, k1, k2⟩ := sim_run hsim ops h hG (tcp_init_rel hp.hn plan _ hf)
  obtain ⟨_, l', k3, k4⟩ := sim_run hsim ops' h' hC k2
  rw [shift0] at k1 k3
  obtain ⟨_, _, w2⟩ := k2.tr.m
  obtain ⟨_, _, w4⟩ := k4.tr.m
  obtain ⟨_, _, m1, _⟩ := w2.env
  obtain ⟨rest, m2, _, m3⟩ := w4.env
  refine ⟨_, l, l', k1, k3, k2.trefined, k4.trefined, m1, ?_⟩
  have h5 := congrArg List.length m2
  simp at h5
  subst h5
  cases m3; rfl

theorem tcp_refines (hp : TPar n N) (hw : WF c) (ops : List Op) (hops : ∀ op ∈ ops, op.ok c) (plan : List (List TEv × Bool)) (rs : List Res)
    (s : St TcpT) (h : runOps c (tcpT c n N) ops (St.init (TcpT.init plan)) = some (rs, s)) (hd : s.tr.u.dirty = false)
    (hst : s.tr.u.stale = false) (hf : Follows resp e0 s.tr.u.outcomes eEnd) :
    ∃ (sched : List (Nat × Nat)) (s' : St (Link ρ)), runOps c (linkT c resp) ops (St.init (Link.init e0 sched)) = some (rs, s') ∧
      TRefined c n N s s' ∧ s'.tr.env = eEnd := by
  obtain ⟨sched, l, l', h1, h2, h3, h4, h5, h6⟩ := tcp_refines₂ hp hw ops [] hops (by simp) plan rs [] s s h rfl hd hst hf
  cases h2
  exact ⟨sched, l, h1, h3, h6⟩

end
end Verif
