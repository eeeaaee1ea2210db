import Verif.Lemmas.TcpRefine
import Verif.Lemmas.Seq
/-!
# Runs of the TCP client without a failure

While no call fails, the exception handler does not run: the whole life of the client is one connection, and what happened to the packets is what
the bodies received on it say.
-/

set_option autoImplicit false
set_option linter.unusedSimpArgs false

namespace Verif

/-- The packets of a chunk with their parts of the body. -/
def answered : List Buf → List W → List (Buf × Option (List W))
  | [], _ => []
  | b :: bs, ws => (b, some (ws.take b.words)) :: answered bs (ws.drop b.words)

theorem answered_fst (bs : List Buf) (ws : List W) : (answered bs ws).map Prod.fst = bs := by
  induction bs generalizing ws with
  | nil => rfl
  | cons b bs ih => simp [answered, ih]

theorem chunkValidate_answered {c : Cfg} : ∀ (bs : List Buf) (h : Heap) (ws : List W), (chunkValidate c h bs ws).1 = .ok →
    okOutcomes (chunkValidate c h bs ws).2.2 = answered bs ws := by
  intro bs
  induction bs with
  | nil => intro h ws _; rfl
  | cons b bs ih =>
    intro h ws hok
    unfold chunkValidate at hok ⊢
    cases hcv : clientValidate c h b with
    | mk o h' =>
      rw [hcv] at hok
      cases o with
      | ok =>
        simp only at hok ⊢
        have := ih h' _ hok
        simp only [okOutcomes] at this ⊢
        simp [answered, this]
      | err e => cases hok
      | ub => cases hok

/-- A chunk was accepted. -/
def ChunkAccepted (c : Cfg) (x : List Buf × List W) : Prop := ∃ h, (receiveChunk c h x.1 x.2).1 = .ok

/-- What happened to the packets is what the bodies say, until there is an error. -/
structure Told (c : Cfg) (u : Tcp) : Prop where
  out : u.exc = none → u.noInv → u.outcomes = u.matched.flatMap (fun x => answered x.1 x.2) ∧ ∀ x ∈ u.matched, ChunkAccepted c x
  mid : u.mid = some .notify → u.exc ≠ none

section
variable {c : Cfg} {n N : Nat} {u : Tcp}

theorem Told.init : Told c .init := ⟨fun _ _ => ⟨rfl, by simp [Tcp.init]⟩, by simp [Tcp.init]⟩

/-- Steps that change nothing of it. -/
theorem Told.same {v : Tcp} (h : Told c u) (h1 : v.exc = u.exc) (h2 : v.mid = u.mid) (h3 : v.outcomes = u.outcomes) (h4 : v.matched = u.matched) :
    Told c v := by
  refine ⟨fun e m => ?_, by rw [h1, h2]; exact h.mid⟩
  rw [h3, h4]
  exact h.out (by rw [← h1]; exact e) (by intro a b d; rw [← h2]; exact m a b d)

theorem Told.error {v : Tcp} (h : v.exc ≠ none) : Told c v := ⟨fun e => absurd e h, fun _ => h⟩

theorem Told.write (h : Told c u) : Told c (u.write n) := h.same rfl rfl rfl rfl

theorem Told.handOver (h : Told c u) : Told c u.handOver := by
  unfold Tcp.handOver
  split
  · exact h.same rfl rfl rfl rfl
  · exact h.same rfl rfl rfl rfl

theorem Told.ops (h : Told c u) (l : List Bool) : Told c { u with sendOps := l } := h.same rfl rfl rfl rfl

theorem Told.ev {e : TEv} (h : Told c u) : Told c (u.ev c n N e) := by
  unfold Tcp.ev
  split
  · exact h
  · cases hm : u.mid with
    | none =>
      cases e with
      | recvBody r => exact h
      | recvEnd => exact h
      | timeout =>
        simp only [Tcp.timeout]
        split
        · exact h.same rfl rfl rfl rfl
        · exact h
      | sendDone ok =>
        simp only [Tcp.sendDone]
        split
        · exact h
        · split
          · exact h.same rfl rfl rfl rfl
          · split
            · exact .error (by simp [Tcp.fail])
            · split
              · exact .error (by simp [Tcp.fail])
              · split
                · exact (h.ops _).handOver.write
                · exact (h.ops _).handOver
      | recvHdr r =>
        simp only [Tcp.recvHdr]
        split
        · exact h
        · split
          · exact h.same rfl rfl rfl rfl
          · split
            · exact .error (by simp [Tcp.fail])
            · cases r with
              | none => exact ⟨fun e _ => h.out e (noInv_none hm), by simp⟩
              | some k => exact ⟨fun e _ => h.out e (noInv_none hm), by simp⟩
    | some m =>
      cases e with
      | sendDone ok => exact h
      | recvHdr r => exact h
      | timeout => exact h
      | recvBody r =>
        simp only [Tcp.recvBody]
        split
        · rename_i k hk
          have hni : u.noInv := by intro a b d; rw [hk]; simp
          cases r with
          | none => exact ⟨fun e _ => h.out e hni, by simp⟩
          | some ws =>
            simp only
            split
            · exact ⟨fun e _ => h.out e hni, by simp⟩
            · cases hrc : receiveChunk c u.heap u.reply ws with
              | mk o q =>
                obtain ⟨h', l⟩ := q
                cases o with
                | ok =>
                  refine ⟨fun e _ => ?_, by simp⟩
                  obtain ⟨a1, a2⟩ := h.out e hni
                  have hok : (receiveChunk c u.heap u.reply ws).1 = .ok := by rw [hrc]
                  have hl : okOutcomes l = answered u.reply ws := by
                    rw [← chunkValidate_answered u.reply _ ws hok]
                    exact congrArg okOutcomes (congrArg (fun x => x.2.2) hrc).symm
                  simp only
                  refine ⟨by rw [a1, hl]; simp, ?_⟩
                  intro x hx
                  rcases List.mem_append.1 hx with hx | hx
                  · exact a2 x hx
                  · rw [List.mem_singleton.1 hx]
                    exact ⟨_, hok⟩
                | err e =>
                  simp only
                  split
                  · exact h.same rfl rfl rfl rfl
                  · refine ⟨fun _ hn => absurd rfl (hn _ _ _), by simp⟩
                | ub => exact h.same rfl rfl rfl rfl
        · exact h
      | recvEnd =>
        simp only [Tcp.recvEnd]
        split
        · exact .error (by simp [Tcp.fail])
        · exact .error (by simp)
        · rename_i hk
          exact .error (h.mid hk)
        · rename_i hk
          have hni : u.noInv := by intro a b d; rw [hk]; simp
          have h0 : Told c { u with mid := none } := ⟨fun e _ => h.out e hni, by simp⟩
          have hpop : Told c (({ u with mid := none } : Tcp).pop) := by
            unfold Tcp.pop
            simp only
            split
            · exact h0.same rfl rfl rfl rfl
            · exact h0.same rfl rfl rfl rfl
          unfold Tcp.advance
          simp only
          split
          · split
            · exact hpop.same rfl rfl rfl rfl
            · exact hpop.same rfl rfl rfl rfl
          · split
            · exact hpop.same rfl rfl rfl rfl
            · exact hpop
        · exact h

theorem Told.evs (es : List TEv) (h : Told c u) : Told c (es.foldl (Tcp.ev c n N) u) := by
  induction es generalizing u with
  | nil => exact h
  | cons e es ih => exact ih h.ev

theorem TInv.evs (hp : TPar n N) (es : List TEv) (h : TInv n N u) (hc : (es.foldl (Tcp.ev c n N) u).crashed = false) :
    TInv n N (es.foldl (Tcp.ev c n N) u) := by
  induction es generalizing u with
  | nil => exact h
  | cons e es ih =>
    have hnc : ∀ v : Tcp, (es.foldl (Tcp.ev c n N) v).crashed = false → v.crashed = false := by
      intro v hv
      cases hx : v.crashed with
      | false => rfl
      | true => rw [tevs_crashed n N es hx] at hv; cases hv
    have h2 : u.crashed = false := by
      cases hx : u.crashed with
      | false => rfl
      | true => rw [tevs_crashed n N (e :: es) hx] at hc; cases hc
    exact ih (h.ev hp h2 (hnc _ hc)) hc

end

/-! ### A transport whose other outcomes are failures -/

/-- The outcome, or a failure. -/
def Out.orFail {σ : Type} (t : σ) : Out σ Unit → Out σ Unit
  | .ok _ t' => .ok () t'
  | .exc e t' => .exc e t'
  | _ => .exc (.transport 1) t

/-- The transport; it fails where it would not return. -/
def Transport.closed {τ : Type} (T : Transport τ) : Transport τ where
  disp t b := (T.disp t b).orFail t
  flush t := (T.flush t).orFail t
  handler := T.handler

section
variable {τ : Type} {c : Cfg} {T : Transport τ}

theorem closed_sim : TSim T T.closed 0 0 (fun _ => True) (fun _ => True) (fun t t' => t' = t) (fun t t' => t' = t) := by
  refine ⟨?_, ?_, ?_, fun _ _ _ _ _ => trivial, fun _ _ _ _ => trivial, fun _ _ => trivial⟩
  · rintro t t' b _ _ rfl
    rw [Buf.shift_zero]
    simp only [Transport.closed]
    cases hd : T.disp t' b with
    | ok a t1 => exact ⟨t1, rfl, rfl⟩
    | exc e t1 => exact ⟨t1, rfl, rfl⟩
    | ub => trivial
    | loops => trivial
  · rintro t t' _ rfl
    simp only [Transport.closed]
    cases hd : T.flush t' with
    | ok a t1 => exact ⟨t1, rfl, rfl⟩
    | exc e t1 => exact ⟨t1, rfl, rfl⟩
    | ub => trivial
    | loops => trivial
  · rintro t t' _ rfl
    rfl

/-- A run that comes to an end. -/
theorem run_closed (ops : List Op) {t : τ} {rs : List Res} {s : St τ} (hrun : runOps c T ops (St.init t) = some (rs, s)) :
    runOps c T.closed ops (St.init t) = some (rs, s) := by
  have h0 : SRel 0 0 [] [] (fun t t' => t' = t) (St.init t) (St.init t) := ⟨rfl, rfl, rfl, rfl, rfl, [], rfl, rfl⟩
  obtain ⟨_, s1, h1, h2⟩ := sim_run closed_sim ops hrun ⟨fun _ _ => trivial, trivial⟩ h0
  rw [resShift0] at h1
  have hz : Buf.shift 0 0 = id := funext Buf.shift_zero
  obtain ⟨a, b, d, e, f, H, i, j⟩ := h2
  rw [h1]
  congr 2
  cases s; cases s1
  simp only [hz, Option.map_id, id_eq, Nat.add_zero, List.map_id, List.nil_append] at a b d e f i j
  simp_all

/-- A program without failures, on a transport that keeps an invariant while it does not fail. -/
theorem good_run {P : List Buf → τ → Prop} {F : τ → Prop} (hw : WF c) (hT : TOK c T P F (fun _ e _ => e ≠ .bitsForbidden))
    (ops : List Op) (hops : ∀ op ∈ ops, op.ok c) {s s' : St τ} {G : Gh} {rs : List Res} (h : RI c P F s [] G)
    (hrun : runOps c T ops s = some (rs, s')) (hok : ∀ e, .exc e ∈ rs → e = .bitsForbidden) :
    ∃ G' its, RI c P F s' [] G' ∧ user G'.items = user G.items ++ its ∧ Rendered c.ver ops rs its ∧
      (ops.getLast? = some .dispatch → G'.cur = none) := by
  induction ops generalizing s G rs with
  | nil => rw [runOps] at hrun; cases hrun; exact ⟨G, [], h, by simp, .nil, by simp⟩
  | cons op ops ih =>
    have hs := step hw hT h.rep op (hops op (by simp))
    rw [runOps] at hrun
    generalize op.run c T s = r at hs hrun
    have hnil : ∀ {rs : List Res} {s1 s2 : St τ}, ops = [] → runOps c T ops s1 = some (rs, s2) → s2 = s1 := by
      rintro rs s1 s2 rfl h; rw [runOps] at h; cases h; rfl
    cases hs with
    | ok hh s1 G1 its obj rep ext mono real hok' tiles disp =>
      simp only [Option.map_eq_some_iff] at hrun
      obtain ⟨p, hp, he⟩ := hrun
      obtain ⟨rs1, s2⟩ := p
      obtain ⟨rfl, rfl⟩ := Prod.mk.inj he
      obtain ⟨G', its', h2, h3, h4, h5⟩ := ih (fun o ho => hops o (by simp [ho])) (h.extend rep ext.base ext.all mono) hp
        (fun e he => hok e (by simp [he]))
      refine ⟨G', its ++ its', h2, ?_, .ok (r := ⟨op, hh, obj, its⟩) ⟨real, hok', fun h => (tiles h).1, fun h => (disp h).1⟩ h4, ?_⟩
      · rw [h3, ext.user, List.append_assoc]
      · intro hl
        cases hops' : ops with
        | nil =>
          rw [hops', List.getLast?_singleton, Option.some.injEq] at hl
          have := hnil hops' hp
          subst this
          have e1 := rep.cur
          have e2 := h2.rep.cur
          rw [(disp hl).2] at e1
          rw [e1] at e2
          cases hg : G'.cur with
          | none => rfl
          | some g => rw [hg] at e2; cases e2
        | cons o ops' =>
          rw [hops', List.getLast?_cons_cons] at hl
          rw [hops'] at h5
          exact h5 hl
    | forbidden a d m hop hf =>
      subst hop
      simp only [Option.map_eq_some_iff] at hrun
      obtain ⟨p, hp, he⟩ := hrun
      obtain ⟨rs1, s2⟩ := p
      obtain ⟨rfl, rfl⟩ := Prod.mk.inj he
      obtain ⟨G', its', h2, h3, h4, h5⟩ := ih (fun o ho => hops o (by simp [ho])) h hp (fun e he => hok e (by simp [he]))
      refine ⟨G', its', h2, h3, .refused (opAccs_forbidden (hops (.writeMasked a d m) (by simp)) hf) h4, ?_⟩
      intro hl
      cases hops' : ops with
      | nil => rw [hops'] at hl; simp at hl
      | cons o ops' => rw [hops', List.getLast?_cons_cons] at hl; rw [hops'] at h5; exact h5 hl
    | refused a m s1 G1 hop hv' rep ext mono =>
      simp only [Option.map_eq_some_iff] at hrun
      obtain ⟨p, hp, he⟩ := hrun
      obtain ⟨rfl, rfl⟩ := Prod.mk.inj he
      exact absurd (hok .headerType (by simp)) (by simp)
    | failed e s1 us fail real =>
      simp only [Option.map_eq_some_iff] at hrun
      obtain ⟨p, hp, he⟩ := hrun
      obtain ⟨rfl, rfl⟩ := Prod.mk.inj he
      obtain ⟨t, _, ht⟩ := fail.tr
      exact absurd (hok e (by simp)) ht

end

/-! ### The TCP client -/

section
variable {c : Cfg} {n N : Nat}

/-- The client between two calls, as long as there was no failure. -/
structure Whole (c : Cfg) (n N : Nat) (h : List Buf) (t : TcpT) : Prop where
  inv : TInv n N t.u
  told : Told c t.u
  fine : t.u.Fine
  all : t.u.dispatched = h
  pc : t.u.pc = .idle
  exc : t.u.exc = none
  dirty : t.u.dirty = false
  stale : t.u.stale = false

/-- All is answered. -/
def Quiet (t : TcpT) : Prop := t.u.finished = t.u.sent ∧ t.u.sent.flatten = t.u.dispatched ∧ t.u.mid = none ∧ t.u.rx.length = t.u.sent.length

theorem Whole.init (hn : 0 < n) (plan : List (List TEv × Bool)) : Whole c n N [] (TcpT.init plan) :=
  ⟨.init hn, .init, ⟨by simp [TcpT.init, Tcp.init], by simp [TcpT.init, Tcp.init]⟩, rfl, rfl, rfl, rfl, rfl⟩

theorem tcp_whole (hp : TPar n N) : TOK c (tcpT c n N).closed (Whole c n N) Quiet (fun _ e _ => e ≠ .bitsForbidden) := by
  constructor
  · intro h t f hP _
    obtain ⟨p1, p2, p3, p4, p5, p6, p7, p8⟩ := hP
    simp only [Transport.closed, tcpT]
    cases hcr : (t.evs.foldl (Tcp.ev c n N) t.u).crashed with
    | true => simp [Out.orFail]
    | false =>
      simp only [Bool.false_eq_true, if_false]
      obtain ⟨e1, e2, e3, e4⟩ := tevs_flags (c := c) n N t.evs t.u
      have i1 := p1.evs hp t.evs hcr
      have i2 := p2.evs (n := n) (N := N) t.evs
      have i3 := p3.evs (c := c) (n := n) (N := N) t.evs
      generalize t.evs.foldl (Tcp.ev c n N) t.u = u1 at *
      rcases dispatch_cases n N (f.buf c) t.conn u1 with ⟨he, hd⟩ | ⟨e, hd⟩
      · rw [hd]
        simp only [Out.orFail]
        obtain ⟨f1, f2, f3, f4, f5, f6, f7⟩ := enqueue_facts n N (f.buf c) u1
        have ff := enqueue_frame n N (f.buf c) u1
        have fm := enqueue_misc n N (f.buf c) u1
        refine ⟨i1.dispatch hp.hn hp.hdvd hp.hN (e4.trans p5) hd, i2.same fm.2 ff.mid f1 ff.matched,
          ⟨by simp only; rw [fm.2]; exact i3.1, by simp only; rw [ff.mid]; exact i3.2⟩, ?_, ff.pc.trans (e4.trans p5), fm.2.trans he, ff.dirty.trans (e1.trans p7), ff.stale.trans (e2.trans p8)⟩
        rw [show (u1.connected.enqueue n N (f.buf c)).dispatched = u1.dispatched ++ [f.buf c] from ff.dispatched, e3, p4]
      · have hne : e ≠ .bitsForbidden := by
          rw [Tcp.dispatch_eq] at hd
          cases he : u1.exc with
          | some e' =>
            rw [he] at hd
            intro hx
            apply i3.1
            rcases hd with hd | hd <;> (injection hd with hd _; rw [he, hd, hx])
          | none =>
            rw [he] at hd
            simp only at hd
            split at hd
            · rcases hd with hd | hd <;> (injection hd with hd _; rw [← hd]; simp)
            · rcases hd with hd | hd <;> cases hd
        rcases hd with hd | hd <;> rw [hd] <;> exact hne
  · intro h t hP
    obtain ⟨p1, p2, p3, p4, p5, p6, p7, p8⟩ := hP
    simp only [Transport.closed, tcpT]
    cases hcr : (t.evs.foldl (Tcp.ev c n N) t.u).crashed with
    | true => simp [Out.orFail]
    | false =>
      simp only [Bool.false_eq_true, if_false]
      generalize hevs : TcpT.evs { t with u := Tcp.flushStart n (t.evs.foldl (Tcp.ev c n N) t.u), plan := t.plan.tail } = es2
      obtain ⟨e1, e2, e3, e4⟩ := tevs_flags (c := c) n N t.evs t.u
      have i1 := p1.evs hp t.evs hcr
      have i2 := p2.evs (n := n) (N := N) t.evs
      have i3 := p3.evs (c := c) (n := n) (N := N) t.evs
      generalize t.evs.foldl (Tcp.ev c n N) t.u = u1 at *
      obtain ⟨fs, fc, fe⟩ := flushStart_frame n u1
      have j1 := i1.flushStart hp.hn hp.hdvd hp.hN (e4.trans p5)
      have fo : (u1.flushStart n).outcomes = u1.outcomes := by
        unfold Tcp.flushStart; simp only; split <;> rfl
      have j2 : Told c (u1.flushStart n) := i2.same fe fs.mid fo fs.matched
      have j3 : (u1.flushStart n).Fine := ⟨by rw [fe]; exact i3.1, by rw [fs.mid]; exact i3.2⟩
      obtain ⟨d1, d2, d3, d4⟩ := tevs_flags (c := c) n N es2 (u1.flushStart n)
      cases hcr2 : (es2.foldl (Tcp.ev c n N) (u1.flushStart n)).crashed with
      | true => simp [Out.orFail]
      | false =>
        simp only [Bool.false_eq_true, if_false]
        have k1 := j1.evs hp es2 hcr2
        have k2 := j2.evs (n := n) (N := N) es2
        have k3 := j3.evs (c := c) (n := n) (N := N) es2
        generalize es2.foldl (Tcp.ev c n N) (u1.flushStart n) = u2 at *
        have hpc : u2.pc = .flushing := d4.trans fs.pc
        rcases flushEnd_cases u2 with hd | hd | ⟨e, hd⟩
        · rw [hd]; simp [Out.orFail]
        · obtain ⟨hi, he, h1, h2, h4⟩ := k1.flushEnd hp.h0 hpc hd
          rw [hd]
          simp only [Out.orFail]
          have h3 := k1.rq h2
          have h7 := k1.rops' he
          have hm : u2.mid = none := by
            cases hm : u2.mid with
            | none => rfl
            | some m => rw [hm, h2] at h7; simp at h7
          have h8 := k1.rxl' he (by simp [hm]) (by simp [hm])
          have hsf : u2.sent = u2.finished := by rw [k1.sent, h1, h2, h3]; simp
          have hdf : u2.dispatched = u2.finished.flatten := by rw [k1.disp, h1, h2, h3, h4]; simp
          refine ⟨⟨hi, k2.same rfl rfl rfl rfl, k3, ?_, rfl, he, ?_, ?_⟩, hsf.symm, ?_, hm, ?_⟩
          · exact d3.trans (fs.dispatched.trans (e3.trans p4))
          · exact d1.trans (fs.dirty.trans (e1.trans p7))
          · exact d2.trans (fs.stale.trans (e2.trans p8))
          · show u2.sent.flatten = u2.dispatched
            rw [hsf, hdf]
          · show u2.rx.length = u2.sent.length
            rw [hsf, h8]
        · have hne : e ≠ .bitsForbidden := by
            intro hx
            apply k3.1
            unfold Tcp.flushEnd at hd
            split at hd
            · split at hd
              · rename_i e' he
                injection hd with hd _
                rw [he, hd, hx]
              · cases hd
            · cases hd
          rw [hd]
          exact hne

end
end Verif
