import Verif.Lemmas.PoolTcp
/-!
# The TCP client with a pool behaves like the client of `Tcp`

Simulation: each step of `TcpP` is a step of `Tcp` with the contents of the objects for packets, or no step. `Tcp` validates a
chunk in one step, which happens here with the last of its packets.
-/

set_option autoImplicit false
set_option linter.unusedSimpArgs false

namespace Verif
namespace TcpP

/-- All packets of `mReplyBuffers.first` are still to be validated. -/
def whole : Option PMid → Bool
  | none => true
  | some (.body _) => true
  | some .failed => true
  | _ => false

/-- Where the network threads are, and what they have done to the memory and the log: `m`, `h`, `l`, `mem` of `TcpP`, the others of `Tcp`. -/
def Phase (c : Cfg) (m : Option PMid) (h : Heap) (l : List Rx) (mem : Nat → Buf) (um : Option TMid) (uh : Heap) (ul : List Rx) (ur : List Buf) : Prop :=
  match m with
  | none => um = none ∧ uh = h ∧ ul = l
  | some (.body k) => um = some (.body k) ∧ uh = h ∧ ul = l
  | some .failed => um = some .failed ∧ uh = h ∧ ul = l
  | some (.check [] _ _) => um = some .last ∧ uh = h ∧ ul = l
  | some (.check (i :: is) ws body) => um = some (.body body.length) ∧ ¬ (ur.map Buf.words).sum < body.length ∧ ∃ done, l = ul ++ done ∧
      receiveChunk c uh ur body = ((chunkValidate c h ((i :: is).map mem) ws).1, (chunkValidate c h ((i :: is).map mem) ws).2.1, done ++ (chunkValidate c h ((i :: is).map mem) ws).2.2)
  | some (.invalid e b ws) => um = some (.invalid e b ws) ∧ uh = h ∧ ul = l
  | some .notify => um = some .notify ∧ uh = h ∧ ul = l

/-- The state of `Tcp` seen through the memory. -/
structure Like (c : Cfg) (p : TcpP) (u : Tcp) : Prop where
  dispQ : u.dispQ = p.dispQ.map p.mem
  replyQ : u.replyQ = p.replyQ.map (List.map p.mem)
  disp : u.disp = p.disp.map p.mem
  reply : u.reply.length = p.reply.length
  live : p.exc = none → whole p.mid = true → u.reply = p.reply.map p.mem
  inFlight : u.inFlight = p.inFlight
  flushStarted : u.flushStarted = p.flushStarted
  flushDone : u.flushDone = p.flushDone
  exc : u.exc = p.exc
  sock : u.sock = p.sock
  deadline : u.deadline = p.deadline
  sendOps : u.sendOps = p.sendOps
  recvOps : u.recvOps = p.recvOps
  pc : u.pc = p.pc
  crashed : u.crashed = false
  dispatched : u.dispatched = p.dispatched
  sent : u.sent = p.sent
  phase : Phase c p.mid p.heap p.log p.mem u.mid u.heap u.log u.reply

variable {c : Cfg} {p : TcpP} {u : Tcp}

theorem like_init : Like c init Tcp.init := by
  constructor <;> first | rfl | (intros; rfl) | exact ⟨rfl, rfl, rfl⟩

theorem Like.idle (r : Like c p u) : u.mid = none ↔ p.mid = none := by
  have h := r.phase
  cases hm : p.mid with
  | none => rw [hm] at h; simp [h.1]
  | some m =>
    rw [hm] at h
    cases m with
    | check todo ws b => cases todo <;> simp [h.1]
    | _ => simp [h.1]

/-- Writing to an object that the transport does not hold. -/
theorem like_put (r : Like c p u) {i : Nat} (b : Buf) (he : p.exc.isSome → p.mid = none ∨ p.mid = some .notify)
    (h : p.disp.count i + p.dispQ.count i + p.replyQ.flatten.count i + p.live.count i = 0) : Like c (p.put i b) u := by
  have h1 : p.disp.count i = 0 := by omega
  have h2 : p.dispQ.count i = 0 := by omega
  have h3 : p.replyQ.flatten.count i = 0 := by omega
  have h4 : p.live.count i = 0 := by omega
  refine { r with dispQ := ?_, replyQ := ?_, disp := ?_, live := ?_, phase := ?_ }
  · exact r.dispQ.trans (UdpP.map_put h2).symm
  · refine r.replyQ.trans (List.map_congr_left fun l hl => ?_)
    refine (UdpP.map_put ?_).symm
    rw [List.count_eq_zero] at h3 ⊢
    exact fun hi => h3 (List.mem_flatten.mpr ⟨l, hl, hi⟩)
  · exact r.disp.trans (UdpP.map_put h1).symm
  · intro a1 a2
    have a1 : p.exc = none := a1
    have a2 : whole p.mid = true := a2
    have h5 : p.reply.count i = 0 := by
      unfold TcpP.live at h4
      rw [a1] at h4
      cases hm : p.mid with
      | none => simpa [hm] using h4
      | some m => rw [hm] at a2; cases m <;> simp [whole] at a2 <;> simpa [hm] using h4
    exact (r.live a1 a2).trans (UdpP.map_put h5).symm
  · have hp := r.phase
    show Phase c p.mid p.heap p.log (fun j => if j = i then b else p.mem j) u.mid u.heap u.log u.reply
    cases hm : p.mid with
    | none => rw [hm] at hp; exact hp
    | some m =>
      rw [hm] at hp
      cases m with
      | check todo ws body =>
        cases todo with
        | nil => exact hp
        | cons k is =>
          have a1 : p.exc = none := by
            rw [hm] at he
            cases hx : p.exc <;> simp [hx] at he ⊢
          have h5 : (k :: is).count i = 0 := by
            unfold TcpP.live at h4
            simpa [a1, hm] using h4
          simp only [Phase] at hp ⊢
          rw [UdpP.map_put h5]
          exact hp
      | _ => exact hp

theorem like_stock (r : Like c p u) : Like c p.stock u := by
  unfold stock
  split
  · exact { r with }
  · exact r

theorem like_take (o : Own p) (r : Like c p u) : Like c p.take u := by
  unfold take
  split
  · exact r
  · have os := own_stock o
    have rs := like_stock r
    split
    · exact rs
    · rename_i i is e
      have h1 := os.one i
      simp only [owns, e, List.count_cons, beq_self_eq_true, if_true] at h1
      refine like_put (p := { p.stock with pool := is, cur := some i }) { rs with } _ os.exc ?_
      show p.stock.disp.count i + p.stock.dispQ.count i + p.stock.replyQ.flatten.count i + p.stock.live.count i = 0
      omega

theorem like_fill (o : Own p) (r : Like c p u) (f : Buf → Buf) : Like c (p.fill f) u := by
  unfold fill
  split
  · exact r
  · rename_i i e
    have h1 := o.one i
    simp only [owns, e, Option.toList_some, List.count_cons, List.count_nil, beq_self_eq_true, if_true] at h1
    exact like_put r _ o.exc (by omega)

theorem like_giveBack (r : Like c p u) : Like c p.giveBack u := by
  unfold giveBack
  split
  · exact r
  · exact { r with }

theorem like_close (r : Like c p u) : Like c p.close u.close :=
  { r with sock := rfl, sendOps := by simp [Tcp.close, close, r.sendOps], recvOps := by simp [Tcp.close, close, r.recvOps] }

theorem like_cleared (r : Like c p u) (hc : ∀ i is ws b, p.mid ≠ some (.check (i :: is) ws b)) : Like c p.cleared u.handler := by
  have rc := like_close r
  refine { rc with
    dispQ := rfl, replyQ := ?_, disp := rfl, reply := rfl, live := fun _ _ => rfl, inFlight := rfl, flushDone := rfl, exc := rfl, pc := rfl
    dispatched := rfl, sent := rfl, phase := ?_ }
  · show u.replyQ.map (fun _ => []) = (p.replyQ.map fun _ => []).map (List.map p.mem)
    rw [r.replyQ, List.map_map, List.map_map]
    rfl
  · have hp := r.phase
    show Phase c p.mid p.heap p.log p.mem u.mid u.heap u.log []
    cases hm : p.mid with
    | none => rw [hm] at hp; exact hp
    | some m =>
      rw [hm] at hp
      cases m with
      | check todo ws body =>
        cases todo with
        | nil => exact hp
        | cons k is => exact absurd hm (hc k is ws body)
      | _ => exact hp

theorem like_fail (r : Like c p u) (e : Exc) (o : List (Buf × Option (List W))) : Like c (p.fail e) { u.fail e with outcomes := o } :=
  { r with flushDone := rfl, exc := rfl, live := fun h => by simp [fail] at h }

theorem like_write (r : Like c p u) (n : Nat) : Like c (p.write n) (u.write n) :=
  { r with
    dispQ := by simp [Tcp.write, write, r.dispQ, List.map_drop]
    disp := by simp [Tcp.write, write, r.dispQ, r.disp, List.map_take]
    inFlight := by simp [Tcp.write, write, r.dispQ, r.disp, r.inFlight]
    flushDone := rfl
    deadline := rfl
    sendOps := by simp [Tcp.write, write, r.sendOps, r.sock]
    sent := by simp [Tcp.write, write, r.dispQ, r.sent, List.map_take] }

theorem like_read (r : Like c p u) : Like c p.read u.read :=
  { r with deadline := rfl, recvOps := by simp [Tcp.read, read, r.recvOps, r.sock] }

theorem canWrite_eq (r : Like c p u) (n N : Nat) : u.canWrite n N = p.canWrite n N := by
  simp [Tcp.canWrite, canWrite, r.flushStarted, r.dispQ, r.inFlight]

theorem nil_iff (r : Like c p u) : (u.reply = [] ↔ p.reply = []) ∧ (u.disp = [] ↔ p.disp = []) ∧ (u.dispQ = [] ↔ p.dispQ = []) := by
  refine ⟨?_, by rw [r.disp, List.map_eq_nil_iff], by rw [r.dispQ, List.map_eq_nil_iff]⟩
  rw [← List.length_eq_zero_iff, ← List.length_eq_zero_iff, r.reply]

theorem like_handOver (r : Like c p u) (he : p.exc = none) (hm : p.mid = none) : Like c p.handOver u.handOver := by
  have hl := r.live he (by rw [hm]; rfl)
  have hq := r.phase
  rw [hm] at hq
  have hu : u.mid = none := hq.1
  have hn := (nil_iff r).1
  by_cases h : p.reply = []
  · have h' : u.reply = [] := hn.mpr h
    have e1 : p.handOver = { { p with reply := p.disp }.read with disp := [] } := by simp [handOver, h]
    have e2 : u.handOver = { { u with reply := u.disp }.read with disp := [] } := by simp [Tcp.handOver, h']
    rw [e1, e2]
    have r' : Like c { p with reply := p.disp } { u with reply := u.disp } :=
      { r with reply := by simp [r.disp], live := fun _ _ => r.disp, phase := by rw [hm]; exact hq }
    exact { like_read r' with disp := rfl }
  · have h' : ¬ u.reply = [] := fun x => h (hn.mp x)
    have e1 : p.handOver = { p with replyQ := p.replyQ ++ [p.disp], disp := [] } := by simp [handOver, h]
    have e2 : u.handOver = { u with replyQ := u.replyQ ++ [u.disp], disp := [] } := by simp [Tcp.handOver, h']
    rw [e1, e2]
    exact { r with disp := rfl, replyQ := by simp [r.replyQ, r.disp] }

theorem like_sendDone (r : Like c p u) (hm : p.mid = none) (n N : Nat) (ok : Bool) : Like c (p.sendDone n N ok) (u.sendDone n N ok) := by
  unfold sendDone Tcp.sendDone
  rw [r.sendOps]
  cases h : p.sendOps with
  | nil => exact r
  | cons o ops =>
    have r' : Like c { p with sendOps := ops } { u with sendOps := ops } := { r with sendOps := rfl }
    simp only
    have xe := r.exc
    have xd := r.deadline
    by_cases he : p.exc.isSome = true
    · rw [if_pos he, if_pos (show u.exc.isSome = true by rw [xe, he])]
      exact { r' with flushDone := rfl }
    · rw [if_neg he, if_neg (show ¬ u.exc.isSome = true by rw [xe]; exact he)]
      have he' : p.exc = none := by cases hp : p.exc <;> simp [hp] at he ⊢
      by_cases hd : p.deadline = .inf
      · rw [if_pos hd, if_pos (show u.deadline = .inf by rw [xd, hd])]
        exact like_fail r' _ _
      · rw [if_neg hd, if_neg (show ¬ u.deadline = .inf by rw [xd]; exact hd)]
        by_cases hk : ok = false
        · rw [if_pos hk, if_pos hk]
          exact like_fail (like_close r') _ _
        · rw [if_neg hk, if_neg hk]
          have ro := like_handOver r' he' hm
          rw [canWrite_eq ro]
          split
          · exact like_write ro n
          · exact ro

theorem like_recvHdr (r : Like c p u) (hm : p.mid = none) (x : Option Nat) : Like c (p.recvHdr x) (u.recvHdr x) := by
  have hq := r.phase
  rw [hm] at hq
  unfold recvHdr Tcp.recvHdr
  rw [r.recvOps]
  cases h : p.recvOps with
  | nil => exact r
  | cons o ops =>
    have r' : Like c { p with recvOps := ops } { u with recvOps := ops } := { r with recvOps := rfl }
    simp only
    have xe := r.exc
    have xd := r.deadline
    by_cases he : p.exc.isSome = true
    · rw [if_pos he, if_pos (show u.exc.isSome = true by rw [xe, he])]
      exact { r' with flushDone := rfl }
    · rw [if_neg he, if_neg (show ¬ u.exc.isSome = true by rw [xe]; exact he)]
      have he' : p.exc = none := by cases hp : p.exc <;> simp [hp] at he ⊢
      have hl := r.live he' (by rw [hm]; rfl)
      by_cases hd : p.deadline = .inf
      · rw [if_pos hd, if_pos (show u.deadline = .inf by rw [xd, hd])]
        exact like_fail r' _ _
      · rw [if_neg hd, if_neg (show ¬ u.deadline = .inf by rw [xd]; exact hd)]
        cases x with
        | none => exact { r' with live := fun _ _ => hl, phase := ⟨rfl, hq.2⟩ }
        | some k => exact { r' with live := fun _ _ => hl, phase := ⟨rfl, hq.2⟩ }

/-- The reply is distributed, or is wrong. The second `Tcp` makes its step, the first one does not yet. -/
theorem like_recvBody (o : Own p) (r : Like c p u) (x : Option (List W)) :
    (∃ i is ws b, (p.recvBody x).mid = some (.check (i :: is) ws b) ∧ Like c (p.recvBody x) u) ∨
    ((∀ i is ws b, (p.recvBody x).mid ≠ some (.check (i :: is) ws b)) ∧ Like c (p.recvBody x) (u.recvBody c x)) := by
  cases hm : p.mid with
  | none =>
    have hu : u.mid = none := r.idle.mpr hm
    refine .inr ⟨?_, ?_⟩
    · simp [recvBody, hm]
    · simpa [recvBody, Tcp.recvBody, hm, hu] using r
  | some m =>
    have hq := r.phase
    rw [hm] at hq
    cases m with
    | body k =>
      have hu : u.mid = some (.body k) := hq.1
      have he : p.exc = none := by
        have := o.exc
        rw [hm] at this
        cases hp : p.exc <;> simp [hp] at this ⊢
      have hl := r.live he (by rw [hm]; rfl)
      have hf : Like c { p with mid := some .failed } { u with mid := some .failed } := { r with live := fun _ _ => hl, phase := ⟨rfl, hq.2⟩ }
      cases x with
      | none =>
        refine .inr ⟨by simp [recvBody, hm], ?_⟩
        simpa [recvBody, Tcp.recvBody, hm, hu] using hf
      | some ws =>
        by_cases hb : ws.length ≠ k ∨ ((p.reply.map p.mem).map Buf.words).sum < k
        · have hb' : ws.length ≠ k ∨ (u.reply.map Buf.words).sum < k := by rw [hl]; exact hb
          have e1 : p.recvBody (some ws) = { p with mid := some .failed } := by
            unfold recvBody; rw [hm]; simp only; rw [if_pos hb]
          have e2 : u.recvBody c (some ws) = { u with mid := some .failed } := by
            unfold Tcp.recvBody; rw [hu]; simp only; rw [if_pos hb']
          rw [e1, e2]
          exact .inr ⟨by simp, hf⟩
        · have hb' : ¬ (ws.length ≠ k ∨ (u.reply.map Buf.words).sum < k) := by rw [hl]; exact hb
          have e1 : p.recvBody (some ws) = { p with heap := scatter p.heap ((p.reply.map p.mem).flatMap (·.reply)) ws, mid := some (.check p.reply ws ws) } := by
            unfold recvBody; rw [hm]; simp only; rw [if_neg hb]
          rw [e1]
          have hk : ws.length = k := Decidable.byContradiction fun h => hb (.inl h)
          cases hr : p.reply with
          | nil =>
            refine .inr ⟨by simp, ?_⟩
            have hur : u.reply = [] := by rw [hl, hr]; rfl
            have e2 : u.recvBody c (some ws) = { u with heap := scatter u.heap [] ws, mid := some .last, matched := u.matched ++ [([], ws)], rx := u.rx ++ [ws], log := u.log ++ [], outcomes := u.outcomes ++ [] } := by
              unfold Tcp.recvBody; rw [hu]; simp only; rw [if_neg hb', hur]
              rfl
            rw [e2]
            refine { r with reply := by simp [hur, hr], live := fun _ h => by simp [whole] at h, phase := ?_ }
            refine ⟨rfl, ?_, ?_⟩
            · show scatter u.heap [] ws = scatter p.heap [] ws
              rw [hq.2.1]
            · show u.log ++ [] = p.log
              rw [List.append_nil, hq.2.2]
          | cons i is =>
            refine .inl ⟨i, is, ws, ws, rfl, ?_⟩
            refine { r with reply := by simp [r.reply, hr], live := fun _ h => by simp [whole] at h, phase := ?_ }
            refine ⟨by rw [hu, hk], ?_, [], ?_, ?_⟩
            · intro h
              exact hb' (.inr (by rw [← hk]; exact h))
            · rw [List.append_nil, hq.2.2]
            · rw [hl, hr, hq.2.1]
              rfl
    | check todo ws b =>
      cases todo with
      | nil =>
        have hu : u.mid = some .last := hq.1
        refine .inr ⟨by simp [recvBody, hm], ?_⟩
        simpa [recvBody, Tcp.recvBody, hm, hu] using r
      | cons i is =>
        refine .inl ⟨i, is, ws, b, by simp [recvBody, hm], ?_⟩
        simpa [recvBody, hm] using r
    | failed =>
      have hu : u.mid = some .failed := hq.1
      refine .inr ⟨by simp [recvBody, hm], ?_⟩
      simpa [recvBody, Tcp.recvBody, hm, hu] using r
    | notify =>
      have hu : u.mid = some .notify := hq.1
      refine .inr ⟨by simp [recvBody, hm], ?_⟩
      simpa [recvBody, Tcp.recvBody, hm, hu] using r
    | invalid e b ws =>
      have hu : u.mid = some (.invalid e b ws) := hq.1
      refine .inr ⟨by simp [recvBody, hm], ?_⟩
      simpa [recvBody, Tcp.recvBody, hm, hu] using r

end TcpP
end Verif
