import Verif.Lemmas.Replay
import Verif.Lemmas.PreIdx
import Verif.Lemmas.TcpLink
/-!
The UDP and TCP clients as transports of runs that come to an end (`run_completed`), and packets of one client are received
into different places.
-/

set_option autoImplicit false
set_option linter.unusedSimpArgs false

namespace Verif

/-! ### Validation does not throw the exception of the argument checks -/

theorem vfail_exc {cap : Nat} {e : Exc} (h : e ≠ .bitsForbidden) : vfail cap e ≠ .err .bitsForbidden := by
  unfold vfail
  split
  · intro hx; injection hx with hx; exact h hx
  · simp

theorem coreValidate_exc {v : Ver} {rd : Loc → W} (fuel cap : Nat) (send : List W) (slots : List Slot) :
    coreValidate v rd fuel cap send slots ≠ .err .bitsForbidden := by
  induction fuel generalizing cap send slots with
  | zero => simp [coreValidate]
  | succ fuel ih =>
    cases send with
    | nil => simp [coreValidate]
    | cons w t =>
      rw [coreValidate]
      cases extractHeader v w with
      | none => exact vfail_exc (by simp)
      | some hs =>
        simp only
        cases slots with
        | nil => simp
        | cons sl rest =>
          simp only
          split
          · simp
          · cases extractHeader v (rd sl.loc) with
            | none => exact vfail_exc (by simp)
            | some hr =>
              simp only
              split
              · exact vfail_exc (by simp)
              · split
                · exact vfail_exc (by simp)
                · cases replyAdvance hr.ty rest with
                  | none => simp
                  | some slots' =>
                    simp only
                    split
                    · simp
                    · split
                      · simp
                      · exact ih _ _ _

theorem ipbusValidate_exc {v : Ver} {rd : Loc → W} (cap : Nat) (send : List W) (slots : List Slot) :
    ipbusValidate v rd cap send slots ≠ .err .bitsForbidden := by
  unfold ipbusValidate
  cases v with
  | v1 => exact coreValidate_exc _ _ _ _
  | v2 =>
    cases send with
    | nil => simp
    | cons w t =>
      cases slots with
      | nil => simp
      | cons sl rest =>
        simp only
        split
        · simp
        · split
          · simp
          · exact coreValidate_exc _ _ _ _

theorem validateBuf_exc {c : Cfg} {rd : Loc → W} {b : Buf} : validateBuf c rd b ≠ .err .bitsForbidden := by
  unfold validateBuf
  cases c.hub with
  | none => exact ipbusValidate_exc _ _ _
  | some p =>
    obtain ⟨ip, port⟩ := p
    simp only
    unfold hubValidate
    split
    · dsimp only
      generalize bswap16 _ = code
      repeat' split
      all_goals first | exact ipbusValidate_exc _ _ _ | (intro hx; cases hx)
    · simp

theorem clientValidate_exc {c : Cfg} {h : Heap} {b : Buf} : (clientValidate c h b).1 ≠ .err .bitsForbidden := by
  unfold clientValidate
  have := validateBuf_exc (c := c) (rd := h.word) (b := b)
  split
  · simp
  · rename_i o hx; exact this

theorem chunkValidate_exc {c : Cfg} {ws : List W} {bs : List Buf} {h : Heap} : (chunkValidate c h bs ws).1 ≠ .err .bitsForbidden := by
  induction bs generalizing h ws with
  | nil => simp [chunkValidate]
  | cons b bs ih =>
    rw [chunkValidate]
    have hb := clientValidate_exc (c := c) (h := h) (b := b)
    split
    · exact ih
    · rename_i o h1 _ heq
      rw [show (clientValidate c h b).1 = _ from congrArg Prod.fst ‹clientValidate c h b = _›] at hb
      exact hb

/-! ### TCP -/

/-- No exception of the argument checks is to come. -/
def Tcp.Fine (u : Tcp) : Prop := u.exc ≠ some .bitsForbidden ∧ ∀ b ws, u.mid ≠ some (.invalid .bitsForbidden b ws)

section
variable {c : Cfg} {n N : Nat} {u : Tcp}

theorem Tcp.Fine.ev {e : TEv} (h : u.Fine) : (u.ev c n N e).Fine := by
  unfold Tcp.ev
  split
  · exact h
  · cases hm : u.mid with
    | none =>
      cases e with
      | sendDone ok =>
        have hf := (TFrame.sendDone n N ok u).mid
        refine ⟨?_, by simp only; rw [hf]; exact h.2⟩
        rcases sendDone_cases n N ok u with ⟨a, _⟩ | ⟨_, a, _, _⟩ <;> simp only [a]
        · exact h.1
        · simp
      | recvHdr r =>
        simp only [Tcp.recvHdr]
        cases u.recvOps with
        | nil => exact h
        | cons x ops =>
          simp only
          split
          · exact ⟨h.1, h.2⟩
          · split
            · exact ⟨by simp [Tcp.fail], h.2⟩
            · cases r <;> exact ⟨h.1, by simp⟩
      | timeout =>
        simp only [Tcp.timeout]
        cases u.deadline <;> exact h
      | recvBody r => exact h
      | recvEnd => exact h
    | some m =>
      cases e with
      | sendDone ok => exact h
      | recvHdr r => exact h
      | timeout => exact h
      | recvBody r =>
        refine ⟨by simp only; rw [recvBody_sock.2]; exact h.1, ?_⟩
        simp only [Tcp.recvBody, hm]
        cases m with
        | failed => rw [hm]; simp
        | invalid e b ws => exact h.2
        | notify => rw [hm]; simp
        | last => rw [hm]; simp
        | body k =>
          cases r with
          | none => simp
          | some ws =>
            simp only
            split
            · simp
            · cases hre : receiveChunk c u.heap u.reply ws with
              | mk o p =>
                obtain ⟨p1, p2⟩ := p
                cases o with
                | ok => simp
                | err e =>
                  simp only
                  split
                  · simp only [hm]; simp
                  · intro b ws' hx
                    simp only [Option.some.injEq, TMid.invalid.injEq] at hx
                    have := chunkValidate_exc (c := c) (ws := ws) (bs := u.reply) (h := scatter u.heap (u.reply.flatMap (·.reply)) ws)
                    rw [show chunkValidate c (scatter u.heap (u.reply.flatMap (·.reply)) ws) u.reply ws = _ from hre, hx.1] at this
                    exact this rfl
                | ub => simp only [hm]; simp
      | recvEnd =>
        simp only [Tcp.recvEnd, hm]
        cases m with
        | body k => exact h
        | failed => exact ⟨by simp [Tcp.fail], by simp [Tcp.fail]⟩
        | invalid e b ws =>
          refine ⟨?_, by simp⟩
          intro hx
          injection hx with hx
          exact h.2 b ws (by rw [hm, hx])
        | notify => exact ⟨h.1, by simp⟩
        | last =>
          simp only
          refine ⟨by rw [advance_sock.2.1]; exact h.1, ?_⟩
          rw [(advance_frame n N { u with mid := none }).mid]
          simp

theorem Tcp.Fine.evs (es : List TEv) (h : u.Fine) : (es.foldl (Tcp.ev c n N) u).Fine := by
  induction es generalizing u with
  | nil => exact h
  | cons e es ih => exact ih h.ev

theorem tcpT_decent : (tcpT c n N).Decent fun t => t.u.Fine := by
  constructor
  · intro t b h
    have h1 := h.evs (c := c) (n := n) (N := N) t.evs
    simp only [tcpT]
    generalize t.evs.foldl (Tcp.ev c n N) t.u = u1 at h1
    cases hcr : u1.crashed with
    | true => simp
    | false =>
      simp only [Bool.false_eq_true, if_false]
      rw [Tcp.dispatch_eq]
      cases he : u1.exc with
      | some e =>
        simp only [TcpT.threw, he, Option.isSome_some, if_true]
        refine ⟨⟨?_, h1.2⟩, ?_⟩
        · rw [← he]; exact h1.1
        · intro hx; exact h1.1 (by rw [he, hx])
      | none =>
        simp only
        by_cases hc : u1.sock = false ∧ t.conn = false
        · simp only [hc, and_self, if_true, TcpT.threw, he, Option.isSome_none, Bool.false_eq_true, if_false]
          exact ⟨⟨by simp, h1.2⟩, by simp⟩
        · simp only [hc, if_false]
          refine ⟨?_, ?_⟩
          · rw [(enqueue_misc n N b u1).2]; exact h1.1
          · rw [(enqueue_frame n N b u1).mid]; exact h1.2
  · intro t h
    have h1 := h.evs (c := c) (n := n) (N := N) t.evs
    simp only [tcpT]
    generalize hevs : TcpT.evs { t with u := Tcp.flushStart n (t.evs.foldl (Tcp.ev c n N) t.u), plan := t.plan.tail } = es2
    generalize t.evs.foldl (Tcp.ev c n N) t.u = u1 at *
    cases hcr : u1.crashed with
    | true => simp
    | false =>
      simp only [Bool.false_eq_true, if_false]
      obtain ⟨fs, fc, fe⟩ := flushStart_frame n u1
      have h2 : (u1.flushStart n).Fine := ⟨by rw [fe]; exact h1.1, by rw [fs.mid]; exact h1.2⟩
      have h3 := h2.evs (c := c) (n := n) (N := N) es2
      generalize es2.foldl (Tcp.ev c n N) (u1.flushStart n) = u2 at *
      cases hcr2 : u2.crashed with
      | true => simp
      | false =>
        simp only [Bool.false_eq_true, if_false]
        unfold Tcp.flushEnd
        cases hfd : u2.flushDone with
        | false => simp
        | true =>
          simp only [if_true]
          cases he : u2.exc with
          | some e =>
            refine ⟨⟨?_, h3.2⟩, ?_⟩
            · show some e ≠ _
              rw [← he]; exact h3.1
            · intro hx; exact h3.1 (by rw [he, hx])
          | none => exact ⟨by simp, h3.2⟩
  · intro t h
    exact ⟨by simp [tcpT, Tcp.handler], h.2⟩

theorem tcpT_tracks : Tracks (tcpT c n N) fun h t => t.ever = h := by
  constructor
  · intro h t b ht
    simp only [tcpT]
    split
    · rename_i hx
      split at hx
      · cases hx
      · split at hx <;> cases hx
        simp [ht]
    · rename_i hx
      split at hx
      · cases hx
      · split at hx <;> cases hx
        unfold TcpT.threw
        split <;> simp [ht]
    · trivial
  · intro h t ht
    simp only [tcpT]
    split
    · rename_i hx
      split at hx
      · cases hx
      · split at hx
        · cases hx
        · split at hx <;> cases hx
          exact ht
    · rename_i hx
      split at hx
      · cases hx
      · split at hx
        · cases hx
        · split at hx <;> cases hx
          exact ht
    · trivial
  · intro h t ht; exact ht

end

/-! ### UDP -/

/-- No exception of the argument checks is to come. -/
def Udp.Fine (u : Udp) : Prop := u.exc ≠ some .bitsForbidden ∧ ∀ ws, u.mid ≠ some (.invalid .bitsForbidden ws)

theorem receiveReply_exc {c : Cfg} {h : Heap} {b : Buf} {ws : List W} : (receiveReply c h b ws).1 ≠ .err .bitsForbidden := clientValidate_exc

section
variable {c : Cfg} {N : Nat} {u : Udp}

theorem Udp.Fine.ev {e : Ev} (h : u.Fine) : (u.ev c N e).Fine := by
  unfold Udp.ev
  split
  · exact h
  · cases hm : u.mid with
    | none =>
      cases e with
      | sendDone ok =>
        have hf := (Frame.sendDone N ok u).mid
        refine ⟨?_, by simp only; rw [hf]; exact h.2⟩
        rcases sendDone_exc N ok u with ⟨a, _⟩ | ⟨_, a, _, _⟩ <;> simp only [a]
        · exact h.1
        · simp
      | recvBegin r =>
        simp only [Udp.recvBegin]
        cases u.recvOps with
        | nil => exact h
        | cons x ops =>
          simp only
          split
          · exact ⟨h.1, h.2⟩
          · split
            · exact ⟨by simp [Udp.fail], h.2⟩
            · cases u.reply with
              | none => exact ⟨h.1, h.2⟩
              | some b =>
                cases r with
                | none => exact ⟨h.1, by simp⟩
                | some ws =>
                  simp only
                  cases hre : receiveReply c u.heap b ws with
                  | mk o p =>
                    cases o with
                    | ok => exact ⟨h.1, by simp⟩
                    | err e =>
                      refine ⟨h.1, ?_⟩
                      intro ws' hx
                      simp only [Option.some.injEq, Mid.invalid.injEq] at hx
                      have := receiveReply_exc (c := c) (h := u.heap) (b := b) (ws := ws)
                      rw [hre, hx.1] at this
                      exact this rfl
                    | ub => exact ⟨h.1, h.2⟩
      | timeout =>
        simp only [Udp.timeout]
        cases u.deadline <;> exact h
      | recvEnd => exact h
    | some m =>
      cases e with
      | sendDone ok => exact h
      | recvBegin r => exact h
      | timeout => exact h
      | recvEnd =>
        simp only [Udp.recvEnd, hm]
        cases m with
        | failed => exact ⟨by simp [Udp.fail], by simp [Udp.fail]⟩
        | invalid e ws =>
          refine ⟨?_, by simp⟩
          intro hx
          injection hx with hx
          exact h.2 ws (by rw [hm, hx])
        | last =>
          simp only
          split
          · exact ⟨h.1, by simp⟩
          · obtain ⟨_, _, f3, f4, f5, _, f7, f8⟩ := Frame.pop N { u with mid := none }
            exact ⟨by rw [f7]; exact h.1, by rw [f3]; simp⟩

theorem Udp.Fine.evs (es : List Ev) (h : u.Fine) : (es.foldl (Udp.ev c N) u).Fine := by
  induction es generalizing u with
  | nil => exact h
  | cons e es ih => exact ih h.ev

theorem udpT_decent : (udpT c N).Decent fun t => t.u.Fine := by
  constructor
  · intro t b h
    have h1 := h.evs (c := c) (N := N) (t.plan.headD [])
    simp only [udpT]
    generalize (t.plan.headD []).foldl (Udp.ev c N) t.u = u1 at h1
    cases hcr : u1.crashed with
    | true => simp
    | false =>
      simp only [Bool.false_eq_true, if_false]
      cases hd : u1.dispatch N b with
      | ok a u' =>
        have hdd := dispatch_dispatched hd
        refine ⟨?_, ?_⟩
        · simp only [hdd.2.2.1]; simp
        · rw [(Frame.dispatch hd).mid]; exact h1.2
      | exc e u' =>
        obtain ⟨hex, rfl⟩ := dispatch_exc hd
        refine ⟨h1, ?_⟩
        intro hx; exact h1.1 (by rw [hex, hx])
      | ub => trivial
      | loops => trivial
  · intro t h
    have h1 := h.evs (c := c) (N := N) (t.plan.headD [])
    simp only [udpT]
    generalize (t.plan.headD []).foldl (Udp.ev c N) t.u = u1 at h1
    cases hcr : u1.crashed with
    | true => simp
    | false =>
      simp only [Bool.false_eq_true, if_false, Udp.flush]
      cases hfd : u1.flushDone with
      | false => simp
      | true =>
        simp only [if_true]
        cases he : u1.exc with
        | some e =>
          refine ⟨h1, ?_⟩
          intro hx; exact h1.1 (by rw [he, hx])
        | none => exact h1
  · intro t h
    exact ⟨by simp [udpT, Udp.handler], h.2⟩

end

/-! ### Packets are received into different places -/

theorem bufLocs_preId {b : Buf} {l : Loc} (h : l ∈ bufLocs b) : ∃ sl ∈ b.reply, sl.loc.preId? = l.preId? := by
  unfold bufLocs at h
  obtain ⟨sl, h1, h2⟩ := List.mem_flatMap.1 h
  unfold slotLocs at h2
  obtain ⟨i, _, rfl⟩ := List.mem_map.1 h2
  refine ⟨sl, h1, ?_⟩
  cases sl.loc <;> rfl

theorem items_pairwise (L : List Fin') (h : ((L.flatMap Fin'.all).flatMap itemLocs).Nodup) :
    L.Pairwise fun f f' => ∀ x ∈ f.all.flatMap itemLocs, x ∉ f'.all.flatMap itemLocs := by
  induction L with
  | nil => exact .nil
  | cons f L ih =>
    rw [List.flatMap_cons, List.flatMap_append, List.nodup_append] at h
    refine .cons ?_ (ih h.2.1)
    intro f' hf' x hx hx'
    refine h.2.2 x hx x ?_ rfl
    obtain ⟨it, hi, hl⟩ := List.mem_flatMap.1 hx'
    exact List.mem_flatMap.2 ⟨it, List.mem_flatMap.2 ⟨f', hf', hi⟩, hl⟩

theorem hist_disj {τ : Type} {c : Cfg} {s : St τ} (h : Inv c s) (hp : s.hist.Pairwise Buf.preSep) : s.hist.Pairwise Disj := by
  obtain ⟨fs, G, hR⟩ := h
  have hh : s.hist = (fs ++ G.done).map (Fin'.buf c) := by rw [hR.rep.hist, hR.base, List.map_append]
  rw [hh] at hp ⊢
  have hn : (((fs ++ G.done).flatMap Fin'.all).flatMap itemLocs).Nodup := by
    have := hR.nodupAll
    unfold allItems Gh.all at this
    rw [List.flatMap_append]
    rw [← List.append_assoc, List.flatMap_append, List.nodup_append] at this
    exact this.1
  have hi := items_pairwise _ hn
  rw [List.pairwise_map] at hp ⊢
  refine List.Pairwise.imp₂ ?_ hp hi
  intro f f' h1 h2 l hl hl'
  by_cases hpre : l.preId? = none
  · have hobj : l.isObj := by cases l <;> simp [Loc.preId?] at hpre <;> trivial
    rw [fin_locs, List.mem_append] at hl hl'
    rcases hl with hl | hl
    · exact preLocs_obj hl hobj
    · rcases hl' with hl' | hl'
      · exact preLocs_obj hl' hobj
      · exact h2 l hl hl'
  · obtain ⟨s1, a1, a2⟩ := bufLocs_preId hl
    obtain ⟨s2, b1, b2⟩ := bufLocs_preId hl'
    rcases h1 s1 a1 s2 b1 with h | h
    · rw [a2] at h; exact hpre h
    · rw [a2, b2] at h; exact h rfl

/-- In a run over TCP. -/
theorem tcp_hist_disj {c : Cfg} {n N : Nat} (hw : WF c) (ops : List Op) (hops : ∀ op ∈ ops, op.ok c) (plan : List (List TEv × Bool))
    {rs : List Res} {s : St TcpT} (h : runOps c (tcpT c n N) ops (St.init (TcpT.init plan)) = some (rs, s)) :
    s.hist.Pairwise Disj ∧ s.tr.ever = s.hist := by
  have h1 := (run_completed (c := c) tcpT_decent ops (t := TcpT.init plan) ⟨by simp [TcpT.init, Tcp.init], by simp [TcpT.init, Tcp.init]⟩ h).1
  obtain ⟨rs', s', _, _, g1, g2, _⟩ := inv_run hw (Transport.completed_total (tcpT c n N)) ops hops (Inv.init c (TcpT.init plan))
  rw [h1] at g1; cases g1
  have hq := pres_run (c := c) tcpT_tracks ops (PreQ.init (TcpT.init plan) rfl) h
  exact ⟨hist_disj g2 hq.sep, hq.tr⟩

end Verif
