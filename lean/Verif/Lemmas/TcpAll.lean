import Verif.Lemmas.Tcp
/-! All schedules of the TCP client. -/

set_option autoImplicit false
set_option linter.unusedSimpArgs false

namespace Verif

/-- What callbacks that do not process a reply leave alone. -/
structure TFrame (u v : Tcp) : Prop where
  matched : v.matched = u.matched
  finished : v.finished = u.finished
  mid : v.mid = u.mid
  dirty : v.dirty = u.dirty
  stale : v.stale = u.stale
  dispatched : v.dispatched = u.dispatched
  pc : v.pc = u.pc

theorem TFrame.rfl {u : Tcp} : TFrame u u := ⟨.refl _, .refl _, .refl _, .refl _, .refl _, .refl _, .refl _⟩

theorem TFrame.trans {u v w : Tcp} (h : TFrame u v) (h' : TFrame v w) : TFrame u w :=
  ⟨h'.matched.trans h.matched, h'.finished.trans h.finished, h'.mid.trans h.mid, h'.dirty.trans h.dirty, h'.stale.trans h.stale,
    h'.dispatched.trans h.dispatched, h'.pc.trans h.pc⟩

theorem TFrame.sendDone (n N : Nat) (ok : Bool) (u : Tcp) : TFrame u (u.sendDone n N ok) := by
  unfold Tcp.sendDone
  cases u.sendOps with
  | nil => exact .rfl
  | cons x ops =>
    simp only
    repeat' split
    · exact ⟨.refl _, .refl _, .refl _, .refl _, .refl _, .refl _, .refl _⟩
    · exact ⟨.refl _, .refl _, .refl _, .refl _, .refl _, .refl _, .refl _⟩
    · exact ⟨.refl _, .refl _, .refl _, .refl _, .refl _, .refl _, .refl _⟩
    · unfold Tcp.handOver
      split <;> exact ⟨.refl _, .refl _, .refl _, .refl _, .refl _, .refl _, .refl _⟩
    · unfold Tcp.handOver
      split <;> exact ⟨.refl _, .refl _, .refl _, .refl _, .refl _, .refl _, .refl _⟩

theorem TFrame.timeout (u : Tcp) : TFrame u u.timeout := by
  unfold Tcp.timeout
  cases u.deadline <;> exact ⟨.refl _, .refl _, .refl _, .refl _, .refl _, .refl _, .refl _⟩

/-- The last section of `read_callback`. -/
theorem advance_frame (n N : Nat) (u : Tcp) : TFrame { u with finished := u.finished ++ [u.reply] } (u.advance n N) := by
  have hp : TFrame { u with finished := u.finished ++ [u.reply] } u.pop := by
    unfold Tcp.pop
    cases u.replyQ <;> exact ⟨.refl _, .refl _, .refl _, .refl _, .refl _, .refl _, .refl _⟩
  refine hp.trans ?_
  unfold Tcp.advance
  simp only
  split
  · split <;> exact ⟨.refl _, .refl _, .refl _, .refl _, .refl _, .refl _, .refl _⟩
  · split <;> exact ⟨.refl _, .refl _, .refl _, .refl _, .refl _, .refl _, .refl _⟩

theorem ev_flags (c : Cfg) (n N : Nat) (u : Tcp) (e : TEv) : (u.ev c n N e).dirty = u.dirty ∧ (u.ev c n N e).stale = u.stale ∧
    (u.ev c n N e).dispatched = u.dispatched ∧ (u.ev c n N e).pc = u.pc := by
  unfold Tcp.ev
  split
  · exact ⟨rfl, rfl, rfl, rfl⟩
  · cases hm : u.mid with
    | none =>
      cases e with
      | sendDone ok => have := TFrame.sendDone n N ok u; exact ⟨this.dirty, this.stale, this.dispatched, this.pc⟩
      | timeout => have := TFrame.timeout u; exact ⟨this.dirty, this.stale, this.dispatched, this.pc⟩
      | recvEnd => exact ⟨rfl, rfl, rfl, rfl⟩
      | recvBody r => exact ⟨rfl, rfl, rfl, rfl⟩
      | recvHdr r =>
        simp only [Tcp.recvHdr]
        repeat' split
        all_goals exact ⟨rfl, rfl, rfl, rfl⟩
    | some m =>
      cases e with
      | sendDone ok => exact ⟨rfl, rfl, rfl, rfl⟩
      | timeout => exact ⟨rfl, rfl, rfl, rfl⟩
      | recvHdr r => exact ⟨rfl, rfl, rfl, rfl⟩
      | recvBody r =>
        simp only [Tcp.recvBody]
        repeat' split
        all_goals exact ⟨rfl, rfl, rfl, rfl⟩
      | recvEnd =>
        simp only [Tcp.recvEnd, hm]
        cases m with
        | last =>
          have := advance_frame n N { u with mid := none }
          exact ⟨this.dirty, this.stale, this.dispatched, this.pc⟩
        | body k => exact ⟨rfl, rfl, rfl, rfl⟩
        | failed => exact ⟨rfl, rfl, rfl, rfl⟩
        | invalid e b ws => exact ⟨rfl, rfl, rfl, rfl⟩
        | notify => exact ⟨rfl, rfl, rfl, rfl⟩

theorem enqueue_frame (n N : Nat) (b : Buf) (u : Tcp) : TFrame { u with dispatched := u.dispatched ++ [b] } (u.connected.enqueue n N b) := by
  unfold Tcp.connected Tcp.enqueue
  split <;> simp only <;> split <;> exact ⟨.refl _, .refl _, .refl _, .refl _, .refl _, .refl _, .refl _⟩

theorem enqueue_misc (n N : Nat) (b : Buf) (u : Tcp) : (u.connected.enqueue n N b).crashed = u.crashed ∧ (u.connected.enqueue n N b).exc = u.exc := by
  unfold Tcp.connected Tcp.enqueue
  split <;> simp only <;> split <;> exact ⟨rfl, rfl⟩

/-- What `implementDispatch` does. -/
theorem dispatch_cases (n N : Nat) (b : Buf) (conn : Bool) (u : Tcp) :
    u.exc = none ∧ u.dispatch n N b conn = .ok () (u.connected.enqueue n N b) ∨
    ∃ e, u.dispatch n N b conn = .exc e { u with pc := .thrown } ∨
      u.dispatch n N b conn = .exc e { u with pc := .thrown, deadline := .armed } := by
  rw [Tcp.dispatch_eq]
  cases he : u.exc with
  | some e => exact .inr ⟨e, .inl (by simp)⟩
  | none =>
    simp only
    split
    · exact .inr ⟨.transport 0, .inr (by simp [he])⟩
    · exact .inl ⟨trivial, rfl⟩

theorem flushStart_frame (n : Nat) (u : Tcp) : TFrame { u with pc := .flushing } (u.flushStart n) ∧ (u.flushStart n).crashed = u.crashed ∧
    (u.flushStart n).exc = u.exc := by
  by_cases hw : u.dispQ ≠ [] ∧ u.disp = []
  · have e : u.flushStart n = ({ u with flushStarted := true, pc := .flushing } : Tcp).write n := if_pos hw
    rw [e]
    exact ⟨⟨.refl _, .refl _, .refl _, .refl _, .refl _, .refl _, .refl _⟩, rfl, rfl⟩
  · have e : u.flushStart n = ({ u with flushStarted := true, pc := .flushing } : Tcp) := if_neg hw
    rw [e]
    exact ⟨⟨.refl _, .refl _, .refl _, .refl _, .refl _, .refl _, .refl _⟩, rfl, rfl⟩

theorem flushEnd_cases (u : Tcp) : u.flushEnd = .loops ∨ u.flushEnd = .ok () { u with pc := .idle } ∨ ∃ e, u.flushEnd = .exc e { u with pc := .thrown } := by
  unfold Tcp.flushEnd
  split
  · split
    · exact .inr (.inr ⟨_, rfl⟩)
    · exact .inr (.inl rfl)
  · exact .inl rfl

theorem tact_flags {c : Cfg} {n N : Nat} {u : Tcp} {a : TAct} (h : (u.act c n N a).dirty = false ∧ (u.act c n N a).stale = false) :
    u.dirty = false ∧ u.stale = false := by
  cases a with
  | dispatch b conn =>
    simp only [Tcp.act] at h
    split at h
    · exact h
    · split at h
      · rcases dispatch_cases n N b conn u with ⟨_, hd⟩ | ⟨e, hd | hd⟩ <;> rw [hd] at h
        · have hf := enqueue_frame n N b u
          rw [hf.dirty, hf.stale] at h
          exact h
        · exact h
        · exact h
      · exact h
  | flushStart =>
    simp only [Tcp.act] at h
    split at h
    · exact h
    · split at h
      · have hf := (flushStart_frame n u).1
        rw [hf.dirty, hf.stale] at h
        exact h
      · exact h
  | flushEnd =>
    simp only [Tcp.act] at h
    split at h
    · exact h
    · split at h
      · rcases flushEnd_cases u with hd | hd | ⟨e, hd⟩ <;> rw [hd] at h <;> exact h
      · exact h
  | handler =>
    simp only [Tcp.act] at h
    split at h
    · exact h
    · split at h
      · simp [Tcp.handler] at h; exact ⟨h.1.1.1.1, h.2.1⟩
      · exact h
  | ev e =>
    simp only [Tcp.act] at h
    obtain ⟨h1, h2, _⟩ := ev_flags c n N u e
    rw [h1, h2] at h
    exact h

/-! ### Finished chunks were accepted -/

/-- All packets of the chunk pass validation when the body is scattered over their slots (in some memory). -/
def ChunkOk (c : Cfg) (ch : List Buf) (ws : List W) : Prop :=
  ∃ h : Heap, ∀ b ∈ ch, validateBuf c (scatter h (ch.flatMap (·.reply)) ws).word b = .ok

theorem chunkValidate_ok {c : Cfg} {bs : List Buf} {ws : List W} {h : Heap} (ho : (chunkValidate c h bs ws).1 = .ok) :
    ∀ b ∈ bs, validateBuf c h.word b = .ok := by
  induction bs generalizing h ws with
  | nil => simp
  | cons b bs ih =>
    rw [chunkValidate] at ho
    cases hv : validateBuf c h.word b with
    | ok =>
      simp only [clientValidate, hv] at ho
      intro b' hb'
      rcases List.mem_cons.1 hb' with rfl | hb'
      · exact hv
      · have := ih (h := h.markValid b.adds) ho b' hb'
        exact this
    | err e => simp [clientValidate, hv] at ho
    | ub => simp [clientValidate, hv] at ho

structure TOk (c : Cfg) (u : Tcp) : Prop where
  fin : ∀ x ∈ u.matched.take u.finished.length, ChunkOk c x.1 x.2
  last : u.mid = some .last → ∀ x ∈ u.matched, ChunkOk c x.1 x.2
  len : u.finished.length ≤ u.matched.length

theorem TFrame.ok {c : Cfg} {u v : Tcp} (f : TFrame u v) (h : TOk c u) : TOk c v :=
  ⟨by rw [f.matched, f.finished]; exact h.fin, fun b => by rw [f.matched]; exact h.last (f.mid ▸ b), by rw [f.matched, f.finished]; exact h.len⟩

theorem TCore.matched_length {n N : Nat} {u : Tcp} (h : TCore n N u) : u.matched.length = u.rx.length := by
  have h1 := congrArg List.length h.mat
  rw [List.length_zip, h.sent] at h1
  have := h.rxl
  simp only [List.length_append] at h1
  omega

theorem TOk.ev {n N : Nat} {c : Cfg} {u : Tcp} {e : TEv} (hi : TInv n N u) (h : TOk c u) : TOk c (u.ev c n N e) := by
  unfold Tcp.ev
  split
  · exact h
  · cases hm : u.mid with
    | none =>
      cases e with
      | sendDone ok => exact (TFrame.sendDone n N ok u).ok h
      | timeout => exact (TFrame.timeout u).ok h
      | recvEnd => exact h
      | recvBody r => exact h
      | recvHdr r =>
        simp only [Tcp.recvHdr]
        cases u.recvOps with
        | nil => exact h
        | cons x ops =>
          simp only
          split
          · exact ⟨h.fin, h.last, h.len⟩
          · split
            · exact ⟨h.fin, h.last, h.len⟩
            · cases r <;> exact ⟨h.fin, fun hx => (by cases hx), h.len⟩
    | some m =>
      cases e with
      | sendDone ok => exact h
      | timeout => exact h
      | recvHdr r => exact h
      | recvBody r =>
        simp only [Tcp.recvBody, hm]
        cases m with
        | failed => exact h
        | invalid e b ws => exact h
        | notify => exact h
        | last => exact h
        | body k =>
          cases r with
          | none => exact ⟨h.fin, fun hx => (by cases hx), h.len⟩
          | some ws =>
            simp only
            split
            · exact ⟨h.fin, fun hx => (by cases hx), h.len⟩
            · have he : u.exc = none := by
                cases he : u.exc with
                | none => rfl
                | some e => have := hi.midx (by simp [he]); simp [hm] at this
              have hl : u.matched.length = u.finished.length := by
                rw [hi.matched_length, hi.rxl' he (by simp [hm]) (by simp [hm])]
              have hall : ∀ x ∈ u.matched, ChunkOk c x.1 x.2 := by
                have := h.fin; rwa [List.take_of_length_le (by omega)] at this
              have ht : ∀ y, (u.matched ++ [y]).take u.finished.length = u.matched := by
                intro y; rw [← hl, List.take_left]
              cases hre : receiveChunk c u.heap u.reply ws with
              | mk o p =>
                obtain ⟨p1, p2⟩ := p
                cases o with
                | ok =>
                  refine ⟨by simp only [ht]; exact hall, fun _ => ?_, by simp [hl]⟩
                  intro y hy
                  rcases List.mem_append.1 hy with hy | hy
                  · exact hall y hy
                  · rw [List.mem_singleton.1 hy]
                    exact ⟨u.heap, chunkValidate_ok (by rw [← receiveChunk, hre])⟩
                | err e =>
                  simp only
                  split
                  · exact ⟨h.fin, fun hx => (by cases hx), h.len⟩
                  · exact ⟨by simp only [ht]; exact hall, fun hx => (by cases hx), by simp [hl]⟩
                | ub => exact ⟨h.fin, fun hx => (by cases hx), h.len⟩
      | recvEnd =>
        simp only [Tcp.recvEnd, hm]
        cases m with
        | body k => exact h
        | failed => exact ⟨h.fin, fun hx => (by cases hx), h.len⟩
        | invalid e b ws => exact ⟨h.fin, fun hx => (by cases hx), h.len⟩
        | notify => exact ⟨h.fin, fun hx => (by cases hx), h.len⟩
        | last =>
          refine (advance_frame n N { u with mid := none }).ok ⟨?_, fun hx => (by cases hx), ?_⟩
          · intro x hx
            exact h.last hm x (List.mem_of_mem_take hx)
          · have := hi.rxl'' hm
            simp only [List.length_append, List.length_cons, List.length_nil]
            rw [hi.matched_length]
            omega

/-! ### All schedules -/

/-- The invariants together. -/
structure TAll (c : Cfg) (n N : Nat) (u : Tcp) : Prop where
  crash : u.crashed = false
  inv : TInv n N u
  ok : TOk c u
  bufs : ∀ b ∈ u.dispatched, NoUB c b

theorem NoUB.validate {c : Cfg} {b : Buf} (h : NoUB c b) (hp : Heap) : (clientValidate c hp b).1 ≠ .ub := by
  have := h hp []
  have hs : ∀ sl : List Slot, scatter hp sl [] = hp := by
    intro sl; cases sl <;> simp [scatter]
  rwa [receiveReply, hs] at this

theorem TAll.init {c : Cfg} {n N : Nat} (hn : 0 < n) : TAll c n N .init :=
  ⟨rfl, .init hn, ⟨by simp [Tcp.init], by simp [Tcp.init], by simp [Tcp.init]⟩, by simp [Tcp.init]⟩

/-- Parameters of the instantiations: chunks of `n` packets, `N` packets in flight. -/
structure TPar (n N : Nat) : Prop where
  hn : 0 < n
  h0 : 0 < N
  hdvd : n ∣ N
  hN : N + n < 2 ^ 32

theorem TAll.ev {c : Cfg} {n N : Nat} (hp : TPar n N) {u : Tcp} (h : TAll c n N u) (e : TEv) : TAll c n N (u.ev c n N e) := by
  obtain ⟨hn, h0, hdvd, hN⟩ := hp
  obtain ⟨i1, i2, i3, i4⟩ := h
  have hb : ∀ b ∈ u.reply, ∀ h, (clientValidate c h b).1 ≠ .ub := by
    intro b hb h
    exact (i4 b (by rw [i2.disp]; simp [hb])).validate h
  have key : (u.ev c n N e).crashed = false ∧ TInv n N (u.ev c n N e) := by
    unfold Tcp.ev
    rw [if_neg (by simp [i1])]
    cases hm : u.mid with
    | none =>
      cases e with
      | sendDone ok => obtain ⟨p, q⟩ := i2.sendDone (ok := ok) hn hdvd hN hm; exact ⟨q.trans i1, p⟩
      | recvHdr r => obtain ⟨p, q⟩ := i2.recvHdr (r := r) hm; exact ⟨q.trans i1, p⟩
      | timeout =>
        refine ⟨?_, i2.timeout⟩
        simp only [Tcp.timeout]
        cases u.deadline <;> exact i1
      | recvBody r => exact ⟨i1, i2⟩
      | recvEnd => exact ⟨i1, i2⟩
    | some m =>
      cases e with
      | sendDone ok => exact ⟨i1, i2⟩
      | recvHdr r => exact ⟨i1, i2⟩
      | timeout => exact ⟨i1, i2⟩
      | recvBody r =>
        obtain ⟨p, q⟩ := i2.recvBody (c := c) (r := r) i1
        exact ⟨q hb, p (q hb)⟩
      | recvEnd => obtain ⟨p, q⟩ := i2.recvEnd hn hdvd hN; exact ⟨q.trans i1, p⟩
  refine ⟨key.1, key.2, i3.ev i2, ?_⟩
  rw [(ev_flags c n N u e).2.2.1]
  exact i4

theorem TAll.act {c : Cfg} {n N : Nat} (hp : TPar n N) {u : Tcp} (h : TAll c n N u) (a : TAct)
    (hb : ∀ b conn, a = .dispatch b conn → NoUB c b) (hd : (u.act c n N a).dirty = false ∧ (u.act c n N a).stale = false) :
    TAll c n N (u.act c n N a) := by
  have h' := h
  obtain ⟨i1, i2, i3, i4⟩ := h
  cases a with
  | dispatch b conn =>
    simp only [Tcp.act, i1, Bool.false_eq_true, if_false] at hd ⊢
    split
    · rename_i hpc
      rcases dispatch_cases n N b conn u with ⟨he, hx⟩ | ⟨e, hx | hx⟩
      · rw [hx]
        have hf := enqueue_frame n N b u
        refine ⟨(enqueue_misc n N b u).1.trans i1, i2.dispatch hp.hn hp.hdvd hp.hN hpc hx, hf.ok ⟨i3.fin, i3.last, i3.len⟩, ?_⟩
        simp only
        rw [hf.dispatched]
        intro y hy
        rcases List.mem_append.1 hy with hy | hy
        · exact i4 y hy
        · rw [List.mem_singleton.1 hy]; exact hb b conn rfl
      · rw [hx]; exact ⟨i1, i2.thrown, ⟨i3.fin, i3.last, i3.len⟩, i4⟩
      · rw [hx]; exact ⟨i1, i2.thrown.rearm, ⟨i3.fin, i3.last, i3.len⟩, i4⟩
    · exact h'
  | flushStart =>
    simp only [Tcp.act, i1, Bool.false_eq_true, if_false] at hd ⊢
    split
    · rename_i hpc
      obtain ⟨hf, hc, _⟩ := flushStart_frame n u
      refine ⟨hc.trans i1, i2.flushStart hp.hn hp.hdvd hp.hN hpc, hf.ok ⟨i3.fin, i3.last, i3.len⟩, ?_⟩
      rw [hf.dispatched]; exact i4
    · exact h'
  | flushEnd =>
    simp only [Tcp.act, i1, Bool.false_eq_true, if_false] at hd ⊢
    split
    · rename_i hpc
      rcases flushEnd_cases u with hx | hx | ⟨e, hx⟩ <;> rw [hx]
      · exact h'
      · exact ⟨i1, (i2.flushEnd hp.h0 hpc hx).1, ⟨i3.fin, i3.last, i3.len⟩, i4⟩
      · exact ⟨i1, i2.thrown, ⟨i3.fin, i3.last, i3.len⟩, i4⟩
    · exact h'
  | handler =>
    simp only [Tcp.act, i1, Bool.false_eq_true, if_false] at hd ⊢
    split
    · rename_i hpc
      rw [if_pos hpc] at hd
      refine ⟨i1, .handler hp.hn hd.1 hd.2, ⟨by simp [Tcp.handler], ?_, by simp [Tcp.handler]⟩, by simp [Tcp.handler]⟩
      intro _; simp [Tcp.handler]
    · exact h'
  | ev e => exact h'.ev hp e

theorem tfold_flags {c : Cfg} {n N : Nat} (as : List TAct) {u : Tcp}
    (h : (as.foldl (Tcp.act c n N) u).dirty = false ∧ (as.foldl (Tcp.act c n N) u).stale = false) : u.dirty = false ∧ u.stale = false := by
  induction as generalizing u with
  | nil => exact h
  | cons a as ih => exact tact_flags (ih h)

theorem TAll.fold {c : Cfg} {n N : Nat} (hp : TPar n N) (as : List TAct) {u : Tcp} (h : TAll c n N u)
    (hb : ∀ b conn, TAct.dispatch b conn ∈ as → NoUB c b)
    (hd : (as.foldl (Tcp.act c n N) u).dirty = false ∧ (as.foldl (Tcp.act c n N) u).stale = false) :
    TAll c n N (as.foldl (Tcp.act c n N) u) := by
  induction as generalizing u with
  | nil => exact h
  | cons a as ih =>
    exact ih (h.act hp a (fun b k e => hb b k (by simp [e])) (tfold_flags as hd)) (fun b k e => hb b k (by simp [e])) hd

/-- Every reachable state satisfies the invariants, unless the handler ran with operations pending or replies expected. -/
theorem tsched_inv {c : Cfg} {n N : Nat} (hp : TPar n N) (as : List TAct) (hb : ∀ b conn, TAct.dispatch b conn ∈ as → NoUB c b)
    (hd : (Tcp.sched c n N as).dirty = false) (hs : (Tcp.sched c n N as).stale = false) : TAll c n N (Tcp.sched c n N as) :=
  .fold hp as (.init hp.hn) hb ⟨hd, hs⟩

end Verif
