import Verif.Model.Tcp
import Verif.Lemmas.Udp
/-! Invariants of the TCP client. -/

set_option autoImplicit false
set_option linter.unusedSimpArgs false

namespace Verif

/-- A chunk as a list of chunks: none, if it is empty. -/
def one (l : List Buf) : List (List Buf) := if l = [] then [] else [l]

@[simp] theorem one_nil : one [] = [] := rfl
theorem one_ne {l : List Buf} (h : l ≠ []) : one l = [l] := by simp [one, h]
theorem one_flatten (l : List Buf) : (one l).flatten = l := by
  unfold one; split <;> simp_all
theorem one_eq_nil {l : List Buf} : one l = [] ↔ l = [] := by
  unfold one; split <;> simp_all
theorem one_le (l : List Buf) : (one l).length ≤ 1 := by
  unfold one; split <;> simp
theorem one_pos {l : List Buf} (h : 0 < (one l).length) : l ≠ [] := by
  intro he; subst he; simp at h

/-- Invariant of the TCP client, while the exception handler has not run with operations pending or replies expected: the
part that does not speak of queued packets and of the flag `mFlushDone`. -/
structure TCore (n N : Nat) (u : Tcp) : Prop where
  disp : u.dispatched = u.finished.flatten ++ (u.reply ++ (u.replyQ.flatten ++ (u.disp ++ u.dispQ)))
  sent : u.sent = u.finished ++ (one u.reply ++ (u.replyQ ++ one u.disp))
  chunk : ∀ ch ∈ u.sent, ch ≠ [] ∧ ch.length ≤ n
  wire : u.wire = u.sent.map mkFrame
  fl : u.inFlight = u.reply.length + (u.replyQ.flatten.length + u.disp.length)
  full : u.flushStarted = false → ∀ ch ∈ one u.reply ++ (u.replyQ ++ one u.disp), ch.length = n
  lim1 : u.flushStarted = false → u.inFlight ≤ N
  lim2 : u.inFlight ≤ N + n
  sops : u.sendOps.length ≤ (one u.disp).length
  sops' : u.exc = none → u.sendOps.length = (one u.disp).length
  rops : u.recvOps.length + u.mid.toList.length ≤ (one u.reply).length
  rops' : u.exc = none → u.recvOps.length + u.mid.toList.length = (one u.reply).length
  rq : u.reply = [] → u.replyQ = []
  midx : u.exc ≠ none → u.mid = none ∨ u.mid = some .notify
  midn : u.mid = some .notify → u.exc ≠ none
  idle : u.pc = .idle → u.flushStarted = true → u.inFlight = 0 ∧ u.dispQ = [] ∧ u.exc = none
  flushing : u.pc = .flushing → u.flushStarted = true
  dl : u.exc = none → u.deadline = .inf → (∀ x ∈ u.sendOps, x = true) ∧ ∀ x ∈ u.recvOps, x = true
  mat : u.matched = u.sent.zip u.rx
  rxl : u.rx.length ≤ u.finished.length + (one u.reply).length
  rxl' : u.exc = none → (∀ e b ws, u.mid ≠ some (.invalid e b ws)) → u.mid ≠ some .last → u.rx.length = u.finished.length
  rxl'' : u.mid = some .last → u.rx.length = u.finished.length + 1

/-- Invariant of the TCP client. -/
structure TInv (n N : Nat) (u : Tcp) : Prop extends TCore n N u where
  queue : u.exc = none → u.disp = [] → (if u.flushStarted then 1 else n) ≤ u.dispQ.length → N ≤ u.inFlight
  flush : u.exc = none → (u.flushDone = true ↔ u.disp = [] ∧ u.reply = [])
  wake : u.exc ≠ none → u.flushDone = true ∨ u.mid = some .notify ∨ u.sendOps ≠ []

theorem TInv.init {n N : Nat} (hn : 0 < n) : TInv n N .init := by
  refine ⟨?_, ?_, ?_, ?_⟩
  · constructor <;> simp [Tcp.init]
  · simp [Tcp.init]; omega
  · simp [Tcp.init]
  · simp [Tcp.init]

theorem TInv.handler {n N : Nat} {u : Tcp} (hn : 0 < n) (h : u.handler.dirty = false) (h' : u.handler.stale = false) : TInv n N u.handler := by
  simp [Tcp.handler] at h h'
  obtain ⟨⟨⟨h0, h1⟩, h2⟩, h3⟩ := h
  refine ⟨?_, ?_, ?_, ?_⟩
  · constructor <;> simp [Tcp.handler, Tcp.close, h0, h1, h2, h3, h'.2]
  · simp [Tcp.handler, Tcp.close]
    intro hh
    cases hfs : u.flushStarted <;> simp [hfs] at hh
    omega
  · simp [Tcp.handler, Tcp.close]
  · simp [Tcp.handler, Tcp.close]

theorem TInv.timeout {n N : Nat} {u : Tcp} (h : TInv n N u) : TInv n N u.timeout := by
  unfold Tcp.timeout
  have h' := h
  obtain ⟨⟨a1, a2, a3, a4, a5, a6, a7, a8, a9, a10, a11, a12, a13, a14, a14', a15, a16, a17, a18, a19, a20, a21⟩, q1, q2, q3⟩ := h
  cases hd : u.deadline with
  | armed =>
    refine ⟨?_, q1, q2, ?_⟩
    · constructor <;> simp only [Tcp.close, List.length_map] <;> try assumption
      simp
    · simpa [Tcp.close] using q3
  | inf => exact h'

theorem TCore.inFlight_zero {n N : Nat} {u : Tcp} (h : TCore n N u) : u.inFlight = 0 ↔ u.disp = [] ∧ u.reply = [] := by
  have := h.fl
  constructor
  · intro h0
    exact ⟨List.length_eq_zero_iff.1 (by omega), List.length_eq_zero_iff.1 (by omega)⟩
  · rintro ⟨h1, h2⟩
    rw [h1, h2, h.rq h2] at this
    simpa using this

theorem div_le {n N k : Nat} (hd : n ∣ N) (hk : n ∣ k) (h : k < N) : k + n ≤ N := by
  obtain ⟨a, rfl⟩ := hd
  obtain ⟨b, rfl⟩ := hk
  have : b < a := Nat.lt_of_mul_lt_mul_left h
  calc n * b + n = n * (b + 1) := by rw [Nat.mul_add]; simp
    _ ≤ n * a := Nat.mul_le_mul_left n this

theorem flatten_dvd {n : Nat} (L : List (List Buf)) (h : ∀ ch ∈ L, ch.length = n) : n ∣ L.flatten.length := by
  induction L with
  | nil => simp
  | cons a L ih =>
    rw [List.flatten_cons, List.length_append, h a (by simp)]
    exact Nat.dvd_add (Nat.dvd_refl n) (ih fun ch hc => h ch (by simp [hc]))

/-- Writing the next chunk. -/
theorem TCore.write {n N : Nat} {u : Tcp} (hn : 0 < n) (hdvd : n ∣ N) (hN : N + n < 2 ^ 32) (h : TCore n N u) (hd : u.disp = [])
    (hq : u.dispQ ≠ []) (hl : u.inFlight < N ∨ u.inFlight ≤ N ∧ u.flushStarted = true)
    (hf : u.flushStarted = false → n ≤ u.dispQ.length) (hpc : u.pc = .idle → u.flushStarted = false) : TInv n N (u.write n) := by
  have h' := h
  obtain ⟨a1, a2, a3, a4, a5, a6, a7, a8, a9, a10, a11, a12, a13, a14, a14', a15, a16, a17, a18, a19, a20, a21⟩ := h
  have hs : u.sendOps = [] := by rw [hd] at a9; simpa using a9
  have hne : u.dispQ.take n ≠ [] := by
    cases hz : u.dispQ with
    | nil => exact absurd hz hq
    | cons x y => cases n with
      | zero => omega
      | succ k => simp
  have hlen : (u.dispQ.take n).length ≤ n := by rw [List.length_take]; exact Nat.min_le_left _ _
  have hfl : (u.inFlight + (u.dispQ.take n).length) % 2 ^ 32 = u.inFlight + (u.dispQ.take n).length := Nat.mod_eq_of_lt (by omega)
  have hfull : u.flushStarted = false → (u.dispQ.take n).length = n := by
    intro hfs
    rw [List.length_take]
    have := hf hfs
    omega
  refine ⟨?_, ?_, ?_, ?_⟩
  · constructor <;> simp only [Tcp.write, hd, hs, List.nil_append, one_ne hne, hfl, one_nil, List.append_nil] <;> try assumption
    · rw [a1, hd]; simp
    · rw [a2, hd]; simp
    · intro ch hch
      rw [List.mem_append, List.mem_singleton] at hch
      rcases hch with hch | rfl
      · exact a3 _ hch
      · exact ⟨hne, hlen⟩
    · rw [a4]; simp
    · rw [a5, hd]; simp; omega
    · intro hfs ch hch
      rw [← List.append_assoc, List.mem_append, List.mem_singleton] at hch
      rcases hch with hch | rfl
      · exact a6 hfs ch (by rw [hd]; simpa using hch)
      · exact hfull hfs
    · intro hfs
      rw [hfull hfs]
      have hdv : n ∣ u.inFlight := by
        have := flatten_dvd _ (a6 hfs)
        rw [hd] at this
        simp only [one_nil, List.append_nil, List.flatten_append, one_flatten] at this
        rw [a5, hd]
        simpa using this
      exact div_le hdvd hdv (by rcases hl with h | h; exact h; rw [hfs] at h; exact absurd h.2 (by simp))
    · omega
    · simp
    · simp
    · intro hp hfs
      rw [hpc hp] at hfs; cases hfs
    · simp
    · rw [a18, zip_grow]
      rw [a2, hd]
      simp only [List.length_append]
      omega
  · intro _ hx
    simp [Tcp.write, hne] at hx
  · simp [Tcp.write, hne]
  · simp [Tcp.write]

/-- After `connect`. -/
def Tcp.connected (u : Tcp) : Tcp := if u.sock then u else { u with sock := true, deadline := .armed }

/-- A packet put into the queue. -/
def Tcp.enqueue (n maxN : Nat) (b : Buf) (u : Tcp) : Tcp :=
  let u := { u with flushStarted := false, dispQ := u.dispQ ++ [b], dispatched := u.dispatched ++ [b] }
  if u.disp = [] && (decide (n ≤ u.dispQ.length) && decide (u.inFlight < maxN)) then u.write n else u

theorem Tcp.dispatch_eq (n maxN : Nat) (b : Buf) (conn : Bool) (u : Tcp) : u.dispatch n maxN b conn =
    match u.exc with
    | some e => .exc e { u with pc := .thrown }
    | none =>
      if u.sock = false ∧ conn = false then .exc (.transport 0) { u with pc := .thrown, deadline := .armed }
      else .ok () (u.connected.enqueue n maxN b) := rfl

theorem TInv.dispatch {n N : Nat} {u u' : Tcp} {b : Buf} {conn : Bool} (hn : 0 < n) (hdvd : n ∣ N) (hN : N + n < 2 ^ 32) (h : TInv n N u)
    (hpc : u.pc = .idle) (hd : u.dispatch n N b conn = .ok () u') : TInv n N u' := by
  rw [Tcp.dispatch_eq] at hd
  cases he : u.exc with
  | some e => simp only [he] at hd; cases hd
  | none =>
    simp only [he] at hd
    by_cases hc : u.sock = false ∧ conn = false
    · rw [if_pos hc] at hd; cases hd
    · rw [if_neg hc] at hd
      generalize hv : u.connected = v at hd
      have hvi : TInv n N v ∧ v.exc = none ∧ v.pc = .idle := by
        rw [← hv]
        unfold Tcp.connected
        split
        · exact ⟨h, he, hpc⟩
        · refine ⟨?_, he, hpc⟩
          obtain ⟨⟨a1, a2, a3, a4, a5, a6, a7, a8, a9, a10, a11, a12, a13, a14, a14', a15, a16, a17, a18, a19, a20, a21⟩, q1, q2, q3⟩ := h
          exact ⟨⟨a1, a2, a3, a4, a5, a6, a7, a8, a9, a10, a11, a12, a13, a14, a14', a15, a16, by simp, a18, a19, a20, a21⟩, q1, q2, q3⟩
      clear hv h
      obtain ⟨h, he, hpc⟩ := hvi
      have hidle := h.idle hpc
      have h' := h
      obtain ⟨⟨a1, a2, a3, a4, a5, a6, a7, a8, a9, a10, a11, a12, a13, a14, a14', a15, a16, a17, a18, a19, a20, a21⟩, q1, q2, q3⟩ := h
      have core : TCore n N { v with flushStarted := false, dispQ := v.dispQ ++ [b], dispatched := v.dispatched ++ [b] } := by
        constructor <;> try assumption
        · show v.dispatched ++ [b] = v.finished.flatten ++ (v.reply ++ (v.replyQ.flatten ++ (v.disp ++ (v.dispQ ++ [b]))))
          rw [a1]; simp
        · intro _
          cases hfs : v.flushStarted with
          | false => exact a6 hfs
          | true =>
            have := (h'.inFlight_zero).1 (hidle hfs).1
            simp [this.1, this.2, a13 this.2]
        · intro _
          cases hfs : v.flushStarted with
          | false => exact a7 hfs
          | true => show v.inFlight ≤ N; have := (hidle hfs).1; omega
        · simp
        · simp [hpc]
      by_cases hw : (v.disp = [] && (decide (n ≤ (v.dispQ ++ [b]).length) && decide (v.inFlight < N))) = true
      · have hu : u' = Tcp.write n { v with flushStarted := false, dispQ := v.dispQ ++ [b], dispatched := v.dispatched ++ [b] } := by
          injection hd with _ h
          rw [← h]
          exact if_pos hw
        rw [hu]
        simp only [Bool.and_eq_true, decide_eq_true_eq] at hw
        exact core.write hn hdvd hN hw.1 (by simp) (.inl hw.2.2) (fun _ => hw.2.1) (fun _ => rfl)
      · have hu : u' = { v with flushStarted := false, dispQ := v.dispQ ++ [b], dispatched := v.dispatched ++ [b] } := by
          injection hd with _ h
          rw [← h]
          exact if_neg hw
        rw [hu]
        refine ⟨core, ?_, q2, q3⟩
        simp only [Bool.and_eq_true, decide_eq_true_eq, not_and] at hw
        intro _ hd hlen
        have := hw hd (by simpa using hlen)
        show N ≤ v.inFlight
        omega

theorem TInv.flushStart {n N : Nat} {u : Tcp} (hn : 0 < n) (hdvd : n ∣ N) (hN : N + n < 2 ^ 32) (h : TInv n N u)
    (hpc : u.pc = .idle) : TInv n N (u.flushStart n) := by
  have hidle := h.idle hpc
  have h' := h
  obtain ⟨⟨a1, a2, a3, a4, a5, a6, a7, a8, a9, a10, a11, a12, a13, a14, a14', a15, a16, a17, a18, a19, a20, a21⟩, q1, q2, q3⟩ := h
  have core : TCore n N { u with flushStarted := true, pc := .flushing } := by
    constructor <;> first | assumption | simp
  by_cases hw : u.dispQ ≠ [] ∧ u.disp = []
  · have e : u.flushStart n = ({ u with flushStarted := true, pc := .flushing } : Tcp).write n := if_pos hw
    rw [e]
    refine core.write hn hdvd hN hw.2 hw.1 ?_ (by simp) (by simp)
    refine .inr ⟨?_, rfl⟩
    cases hfs : u.flushStarted with
    | false => exact a7 hfs
    | true => exact absurd (hidle hfs).2.1 hw.1
  · have e : u.flushStart n = ({ u with flushStarted := true, pc := .flushing } : Tcp) := if_neg hw
    rw [e]
    refine ⟨core, ?_, q2, q3⟩
    intro _ hd hlen
    exfalso
    apply hw
    refine ⟨?_, hd⟩
    intro hz
    simp [hz] at hlen

theorem TInv.flushEnd {n N : Nat} {u u' : Tcp} (h0 : 0 < N) (h : TInv n N u) (hpc : u.pc = .flushing) (hd : u.flushEnd = .ok () u') :
    TInv n N u' ∧ u.exc = none ∧ u.disp = [] ∧ u.reply = [] ∧ u.dispQ = [] := by
  unfold Tcp.flushEnd at hd
  split at hd
  · rename_i hf
    split at hd
    · cases hd
    · rename_i he
      have hu : u' = { u with pc := .idle } := by injection hd with _ h; exact h.symm
      subst hu
      obtain ⟨e1, e2⟩ := (h.flush he).1 hf
      have hfs := h.flushing hpc
      have hz := h.toTCore.inFlight_zero.2 ⟨e1, e2⟩
      have hq : u.dispQ = [] := by
        cases hq : u.dispQ with
        | nil => rfl
        | cons x y =>
          have := h.queue he e1 (by simp [hq, hfs])
          omega
      refine ⟨?_, he, e1, e2, hq⟩
      obtain ⟨⟨a1, a2, a3, a4, a5, a6, a7, a8, a9, a10, a11, a12, a13, a14, a14', a15, a16, a17, a18, a19, a20, a21⟩, q1, q2, q3⟩ := h
      exact ⟨⟨a1, a2, a3, a4, a5, a6, a7, a8, a9, a10, a11, a12, a13, a14, a14', fun _ _ => ⟨hz, hq, he⟩, by simp, a17, a18, a19, a20, a21⟩, q1, q2, q3⟩
  · cases hd

/-- The position of the user thread after an exception does not matter. -/
theorem TInv.thrown {n N : Nat} {u : Tcp} (h : TInv n N u) : TInv n N { u with pc := .thrown } := by
  obtain ⟨⟨a1, a2, a3, a4, a5, a6, a7, a8, a9, a10, a11, a12, a13, a14, a14', a15, a16, a17, a18, a19, a20, a21⟩, q1, q2, q3⟩ := h
  exact ⟨⟨a1, a2, a3, a4, a5, a6, a7, a8, a9, a10, a11, a12, a13, a14, a14', by simp, by simp, a17, a18, a19, a20, a21⟩, q1, q2, q3⟩

theorem TInv.rearm {n N : Nat} {u : Tcp} (h : TInv n N u) : TInv n N { u with deadline := .armed } := by
  obtain ⟨⟨a1, a2, a3, a4, a5, a6, a7, a8, a9, a10, a11, a12, a13, a14, a14', a15, a16, a17, a18, a19, a20, a21⟩, q1, q2, q3⟩ := h
  exact ⟨⟨a1, a2, a3, a4, a5, a6, a7, a8, a9, a10, a11, a12, a13, a14, a14', a15, a16, by simp, a18, a19, a20, a21⟩, q1, q2, q3⟩

/-- After the last chunk has been handed over: the next one is written if possible. -/
theorem TCore.next {n N : Nat} {u : Tcp} (hn : 0 < n) (hdvd : n ∣ N) (hN : N + n < 2 ^ 32) (h : TCore n N u) (hd : u.disp = [])
    (he : u.exc = none) (hf : u.canWrite n N = false → (u.flushDone = true ↔ u.reply = [])) (hpc : u.pc = .idle → u.flushStarted = false) :
    TInv n N (if u.canWrite n N then u.write n else u) := by
  by_cases hw : u.canWrite n N = true
  · rw [if_pos hw]
    simp only [Tcp.canWrite, Bool.and_eq_true, decide_eq_true_eq] at hw
    refine h.write hn hdvd hN hd ?_ (.inl hw.2) ?_ hpc
    · intro hz
      rw [hz] at hw
      have := hw.1
      split at this <;> simp at this
      omega
    · intro hfs
      simpa [hfs] using hw.1
  · rw [if_neg hw]
    have hw' : u.canWrite n N = false := by simpa using hw
    refine ⟨h, ?_, fun _ => by rw [hf hw']; simp [hd], fun hx => absurd he hx⟩
    intro _ _ hlen
    simp only [Tcp.canWrite, Bool.and_eq_true, decide_eq_true_eq, not_and] at hw
    have := hw hlen
    omega

/-- A failure, and what happens after it. -/
theorem TCore.fail {n N : Nat} {u : Tcp} (h : TCore n N u) (e : Exc) (f : Bool) (so ro : List Bool) (m : Option TMid) (s : Bool)
    (o : List (Buf × Option (List W))) (h1 : so.length ≤ u.sendOps.length)
    (h2 : ro.length + m.toList.length ≤ u.recvOps.length + u.mid.toList.length) (h3 : m = none ∨ m = some .notify)
    (hidle : u.pc = .idle → u.flushStarted = false) :
    TCore n N { u with exc := some e, flushDone := f, sendOps := so, recvOps := ro, mid := m, sock := s, outcomes := o } := by
  obtain ⟨a1, a2, a3, a4, a5, a6, a7, a8, a9, a10, a11, a12, a13, a14, a14', a15, a16, a17, a18, a19, a20, a21⟩ := h
  refine ⟨a1, a2, a3, a4, a5, a6, a7, a8, Nat.le_trans h1 a9, by simp, Nat.le_trans h2 a11, by simp, a13, fun _ => h3, by simp, ?_, a16, by simp, a18, a19,
    by simp, ?_⟩
  · intro hp hfs
    rw [hidle hp] at hfs
    cases hfs
  · intro hm
    rcases h3 with h3 | h3 <;> simp [h3] at hm

/-- `read_callback` goes on. -/
theorem TCore.move {n N : Nat} {u : Tcp} (h : TCore n N u) (ro : List Bool) (m : TMid) (he : u.exc = none)
    (h2 : ro.length + 1 = u.recvOps.length + u.mid.toList.length) (h3 : m ≠ .last) (h4 : m ≠ .notify)
    (h6 : ∀ x ∈ ro, x ∈ u.recvOps) (hrx : u.rx.length = u.finished.length) :
    TCore n N { u with recvOps := ro, mid := some m } := by
  obtain ⟨a1, a2, a3, a4, a5, a6, a7, a8, a9, a10, a11, a12, a13, a14, a14', a15, a16, a17, a18, a19, a20, a21⟩ := h
  refine ⟨a1, a2, a3, a4, a5, a6, a7, a8, a9, a10, ?_, ?_, a13, fun h => absurd he h, ?_, a15, a16, ?_, a18, a19, fun _ _ _ => hrx, ?_⟩
  · show ro.length + 1 ≤ (one u.reply).length
    omega
  · intro h
    show ro.length + 1 = (one u.reply).length
    have := a12 he
    omega
  · intro h; injection h with h; exact absurd h h4
  · intro _ hd
    exact ⟨(a17 he hd).1, fun x hx => (a17 he hd).2 x (h6 x hx)⟩
  · intro h; injection h with h; exact absurd h h3

/-- A body has been received. -/
theorem TCore.rxBody {n N : Nat} {u : Tcp} (h : TCore n N u) (m : TMid) (ws : List W) (hp : Heap) (l : List Rx) (o : List (Buf × Option (List W)))
    (he : u.exc = none) (h2 : u.mid.toList.length = 1) (h3 : m = .last ∨ ∃ e b ws, m = .invalid e b ws) (hr : u.reply ≠ [])
    (hrx : u.rx.length = u.finished.length) :
    TCore n N { u with heap := hp, mid := some m, matched := u.matched ++ [(u.reply, ws)], rx := u.rx ++ [ws], log := l, outcomes := o } := by
  obtain ⟨a1, a2, a3, a4, a5, a6, a7, a8, a9, a10, a11, a12, a13, a14, a14', a15, a16, a17, a18, a19, a20, a21⟩ := h
  have hz : u.matched ++ [(u.reply, ws)] = u.sent.zip (u.rx ++ [ws]) := by
    rw [a18, a2]
    have e1 : u.finished ++ (one u.reply ++ (u.replyQ ++ one u.disp)) = (u.finished ++ [u.reply]) ++ (u.replyQ ++ one u.disp) := by
      rw [one_ne hr]; simp
    have e2 : u.rx.length ≤ (u.finished ++ [u.reply]).length := by simp only [List.length_append, List.length_cons, List.length_nil]; omega
    have e3 : (u.rx ++ [ws]).length ≤ (u.finished ++ [u.reply]).length := by simp only [List.length_append, List.length_cons, List.length_nil]; omega
    rw [e1, zip_grow _ _ _ e2, zip_grow _ _ _ e3, zip_grow u.finished _ u.rx (by omega), List.zip_append hrx.symm]
    simp
  refine ⟨a1, a2, a3, a4, a5, a6, a7, a8, a9, a10, ?_, ?_, a13, fun h => absurd he h, ?_, a15, a16, a17, hz, ?_, ?_, ?_⟩
  · show u.recvOps.length + 1 ≤ (one u.reply).length
    omega
  · intro h
    show u.recvOps.length + 1 = (one u.reply).length
    have := a12 he
    omega
  · intro h; injection h with h
    rcases h3 with h3 | ⟨_, _, _, h3⟩ <;> rw [h3] at h <;> cases h
  · simp [one_ne hr, hrx]
  · intro _ h1 h2
    rcases h3 with h3 | ⟨_, _, _, h3⟩
    · exact absurd (by rw [h3]) h2
    · exact absurd (by rw [h3]) (h1 _ _ _)
  · intro _; simp [hrx]

/-- A chunk has been sent. -/
theorem TInv.handOver {n N : Nat} {u : Tcp} {x : Bool} (h : TInv n N u) (hs : u.sendOps = [x]) (hm : u.mid = none) (he : u.exc = none)
    (hdl : ¬ u.deadline = .inf) :
    TCore n N { u with sendOps := [] }.handOver ∧ ({ u with sendOps := [] } : Tcp).handOver.disp = [] ∧
      ({ u with sendOps := [] } : Tcp).handOver.exc = none ∧
      (({ u with sendOps := [] } : Tcp).handOver.flushDone = true ↔ ({ u with sendOps := [] } : Tcp).handOver.reply = []) ∧
      (({ u with sendOps := [] } : Tcp).handOver.pc = .idle → ({ u with sendOps := [] } : Tcp).handOver.flushStarted = false) ∧
      ({ u with sendOps := [] } : Tcp).handOver.crashed = u.crashed := by
  have h' := h
  obtain ⟨⟨a1, a2, a3, a4, a5, a6, a7, a8, a9, a10, a11, a12, a13, a14, a14', a15, a16, a17, a18, a19, a20, a21⟩, q1, q2, q3⟩ := h
  have hdne : u.disp ≠ [] := one_pos (by simp [hs] at a9; omega)
  have hidle : u.pc = .idle → u.flushStarted = false := by
    intro hp
    cases hfs : u.flushStarted with
    | false => rfl
    | true => exact absurd (h'.toTCore.inFlight_zero.1 (a15 hp hfs).1).1 hdne
  have hfd : u.flushDone = false := by
    cases hfd : u.flushDone with
    | false => rfl
    | true => exact absurd ((q2 he).1 hfd).1 hdne
  have hrx := a20 he (by simp [hm]) (by simp [hm])
  have a12 := a12 he
  have a17 := a17 he
  rw [one_ne hdne] at a2 a6
  unfold Tcp.handOver
  by_cases hr : u.reply ≠ []
  · rw [if_pos hr]
    refine ⟨⟨?_, ?_, a3, a4, ?_, ?_, a7, a8, by simp, by simp, a11, fun _ => a12, fun h => absurd h hr, a14, a14',
      fun hp hfs => (by rw [hidle hp] at hfs; cases hfs), a16, fun _ h => absurd h hdl, a18, a19, a20, a21⟩, rfl, he, by simp [hfd, hr], hidle, rfl⟩
    · simp only [a1]; simp
    · simp only [a2, one_nil]; simp
    · simp only [a5]; simp
    · intro hfs ch hch
      refine a6 hfs ch ?_
      simpa using hch
  · rw [if_neg hr]
    have hr' : u.reply = [] := by simpa using hr
    have hrq := a13 hr'
    simp only [hr', hrq, one_nil, List.nil_append, List.flatten_nil, List.length_nil, hm] at a1 a2 a5 a6 a11 a12
    have hro : u.recvOps = [] := by simpa using a12
    refine ⟨⟨?_, ?_, a3, a4, ?_, ?_, a7, a8, Nat.zero_le _, fun _ => rfl, ?_, ?_, ?_, fun h => absurd he h, a14',
      fun hp hfs => (by have := hidle hp; simp only [Tcp.read] at hfs; rw [this] at hfs; cases hfs), a16,
      fun _ h => by simp [Tcp.read] at h, a18, ?_, fun _ _ _ => hrx, fun h => by simp [Tcp.read, hm] at h⟩, rfl, he, by simp [Tcp.read, hfd, hdne], hidle, rfl⟩
    · simp only [Tcp.read, a1, hrq]; simp
    · simp only [Tcp.read, a2, hrq, one_nil, one_ne hdne]; simp
    · simp only [Tcp.read, a5, hrq]; simp
    · intro hfs ch hch
      refine a6 hfs ch ?_
      simpa [Tcp.read, hrq, one_ne hdne] using hch
    · simp [Tcp.read, hro, hm, one_ne hdne]
    · simp [Tcp.read, hro, hm, one_ne hdne]
    · intro h; exact absurd h hdne
    · simp only [Tcp.read, hrx]; omega

theorem TInv.sendDone {n N : Nat} {u : Tcp} {ok : Bool} (hn : 0 < n) (hdvd : n ∣ N) (hN : N + n < 2 ^ 32) (h : TInv n N u) (hm : u.mid = none) :
    TInv n N (u.sendDone n N ok) ∧ (u.sendDone n N ok).crashed = u.crashed := by
  have h' := h
  obtain ⟨⟨a1, a2, a3, a4, a5, a6, a7, a8, a9, a10, a11, a12, a13, a14, a14', a15, a16, a17, a18, a19, a20, a21⟩, q1, q2, q3⟩ := h
  unfold Tcp.sendDone
  cases hs : u.sendOps with
  | nil => exact ⟨h', rfl⟩
  | cons x ops =>
    simp only [hs, List.length_cons] at a9 a10
    have hdne : u.disp ≠ [] := one_pos (by omega)
    simp only [one_ne hdne, List.length_cons, List.length_nil] at a9 a10
    have hops : ops = [] := List.length_eq_zero_iff.1 (by omega)
    subst hops
    have hidle : u.pc = .idle → u.flushStarted = false := by
      intro hp
      cases hfs : u.flushStarted with
      | false => rfl
      | true => exact absurd (h'.toTCore.inFlight_zero.1 (a15 hp hfs).1).1 hdne
    simp only
    by_cases he : u.exc.isSome = true
    · rw [if_pos he]
      obtain ⟨e, he⟩ := Option.isSome_iff_exists.1 he
      have := h'.toTCore.fail e true [] u.recvOps u.mid u.sock u.outcomes (by simp) (by simp) (a14 (by simp [he])) hidle
      refine ⟨⟨?_, by simp [he], by simp [he], by simp⟩, rfl⟩
      rw [← he] at this
      exact this
    · rw [if_neg he]
      have he : u.exc = none := by simpa using he
      by_cases hdl : u.deadline = .inf
      · rw [if_pos hdl]
        refine ⟨⟨?_, by simp [Tcp.fail], by simp [Tcp.fail], by simp [Tcp.fail]⟩, rfl⟩
        exact h'.toTCore.fail _ true [] u.recvOps u.mid u.sock _ (by simp) (by simp) (.inl hm) hidle
      · rw [if_neg hdl]
        by_cases hok : ok = false
        · rw [if_pos hok]
          refine ⟨⟨?_, by simp [Tcp.fail], by simp [Tcp.fail], by simp [Tcp.fail]⟩, rfl⟩
          exact h'.toTCore.fail _ true [] (u.recvOps.map fun _ => true) u.mid false _ (by simp) (by simp) (.inl hm) hidle
        · rw [if_neg hok]
          obtain ⟨k1, k2, k3, k4, k5, hc⟩ := h'.handOver hs hm he hdl
          have := k1.next hn hdvd hN k2 k3 (fun _ => k4) k5
          refine ⟨this, Eq.trans ?_ hc⟩
          split <;> rfl

theorem TInv.recvHdr {n N : Nat} {u : Tcp} {r : Option Nat} (h : TInv n N u) (hm : u.mid = none) :
    TInv n N (u.recvHdr r) ∧ (u.recvHdr r).crashed = u.crashed := by
  have h' := h
  obtain ⟨⟨a1, a2, a3, a4, a5, a6, a7, a8, a9, a10, a11, a12, a13, a14, a14', a15, a16, a17, a18, a19, a20, a21⟩, q1, q2, q3⟩ := h
  unfold Tcp.recvHdr
  cases hs : u.recvOps with
  | nil => exact ⟨h', rfl⟩
  | cons x ops =>
    simp only [hs, List.length_cons, hm] at a11 a12
    have hrne : u.reply ≠ [] := one_pos (by omega)
    simp only [one_ne hrne, List.length_cons, List.length_nil, Option.toList_none] at a11 a12
    have hops : ops = [] := List.length_eq_zero_iff.1 (by omega)
    subst hops
    have hidle : u.pc = .idle → u.flushStarted = false := by
      intro hp
      cases hfs : u.flushStarted with
      | false => rfl
      | true => exact absurd (h'.toTCore.inFlight_zero.1 (a15 hp hfs).1).2 hrne
    simp only
    cases he : u.exc with
    | some e =>
      simp only [Option.isSome_some, if_true, and_true]
      have := h'.toTCore.fail e true u.sendOps [] u.mid u.sock u.outcomes (by simp) (by simp) (a14 (by simp [he])) hidle
      refine ⟨?_, by simp, by simp, by simp⟩
      simpa [he] using this
    | none =>
      simp only [Option.isSome_none, Bool.false_eq_true, if_false]
      split
      · refine ⟨⟨?_, by simp [Tcp.fail], by simp [Tcp.fail], by simp [Tcp.fail]⟩, rfl⟩
        exact h'.toTCore.fail _ true u.sendOps [] u.mid u.sock _ (by simp) (by simp) (.inl hm) hidle
      · have hrx := a20 he (by simp [hm]) (by simp [hm])
        cases r with
        | none =>
          refine ⟨⟨?_, by simpa [he] using q1, by simpa [he] using q2, by simp [he]⟩, rfl⟩
          have := h'.toTCore.move [] .failed he (by simp [hm, hs]) (by simp) (by simp) (by simp) hrx
          simpa [he] using this
        | some k =>
          refine ⟨⟨?_, by simpa [he] using q1, by simpa [he] using q2, by simp [he]⟩, rfl⟩
          have := h'.toTCore.move [] (.body k) he (by simp [hm, hs]) (by simp) (by simp) (by simp) hrx
          simpa [he] using this

theorem chunkValidate_err {c : Cfg} {ws : List W} {bs : List Buf} {h : Heap} {e : Exc} (he : (chunkValidate c h bs ws).1 = .err e) :
    ∃ x, (chunkValidate c h bs ws).2.2.getLast? = some x := by
  induction bs generalizing h ws with
  | nil => simp [chunkValidate] at he
  | cons b bs ih =>
    rw [chunkValidate] at he ⊢
    split at he
    · obtain ⟨x, hx⟩ := ih he
      exact ⟨x, by simp [List.getLast?_cons, hx]⟩
    · exact ⟨_, by simp; rfl⟩

theorem chunkValidate_ub {c : Cfg} {ws : List W} {bs : List Buf} {h : Heap} (hc : ∀ b ∈ bs, ∀ h, (clientValidate c h b).1 ≠ .ub) :
    (chunkValidate c h bs ws).1 ≠ .ub := by
  induction bs generalizing h ws with
  | nil => simp [chunkValidate]
  | cons b bs ih =>
    rw [chunkValidate]
    have hb := hc b (by simp) h
    split
    · exact ih fun b hb => hc b (by simp [hb])
    · rename_i o h1 heq _
      rw [show (clientValidate c h b).1 = _ from congrArg Prod.fst ‹clientValidate c h b = _›] at hb
      exact hb

theorem TInv.recvBody {n N : Nat} {c : Cfg} {u : Tcp} {r : Option (List W)} (h : TInv n N u) (hc : u.crashed = false) :
    ((u.recvBody c r).crashed = false → TInv n N (u.recvBody c r)) ∧
      ((∀ b ∈ u.reply, ∀ h, (clientValidate c h b).1 ≠ .ub) → (u.recvBody c r).crashed = false) := by
  have h' := h
  obtain ⟨⟨a1, a2, a3, a4, a5, a6, a7, a8, a9, a10, a11, a12, a13, a14, a14', a15, a16, a17, a18, a19, a20, a21⟩, q1, q2, q3⟩ := h
  have he : ∀ k, u.mid = some (.body k) → u.exc = none := by
    intro k hk
    cases he : u.exc with
    | none => rfl
    | some e => have := a14 (by simp [he]); simp [hk] at this
  unfold Tcp.recvBody
  split
  case h_2 => exact ⟨fun _ => h', fun _ => hc⟩
  rename_i k hm
  have he := he k hm
  simp only [he, forall_const, hm] at a10 a12 a17 q2
  simp only [hm] at a11
  have hrne : u.reply ≠ [] := one_pos (by simp at a12; omega)
  simp only [one_ne hrne, List.length_cons, List.length_nil, Option.toList_some] at a11 a12
  have hrx := a20 he (by simp [hm]) (by simp [hm])
  have hf : TInv n N { u with mid := some .failed } := by
    refine ⟨?_, q1, fun _ => q2, fun h => absurd he h⟩
    exact h'.toTCore.move u.recvOps .failed he (by simp [hm]) (by simp) (by simp) (by simp) hrx
  cases r with
  | none => exact ⟨fun _ => hf, fun _ => hc⟩
  | some ws =>
    simp only
    split
    · exact ⟨fun _ => hf, fun _ => hc⟩
    · cases hre : receiveChunk c u.heap u.reply ws with
      | mk o p =>
        obtain ⟨p1, p2⟩ := p
        cases o with
        | ok =>
          refine ⟨fun _ => ⟨?_, q1, fun _ => q2, fun h => absurd he h⟩, fun _ => hc⟩
          exact h'.toTCore.rxBody .last ws _ _ _ he (by simp [hm]) (.inl rfl) hrne hrx
        | err e =>
          obtain ⟨x, hx⟩ := chunkValidate_err (c := c) (ws := ws) (bs := u.reply) (h := scatter u.heap (u.reply.flatMap (·.reply)) ws) (e := e)
            (by rw [← receiveChunk, hre])
          rw [← receiveChunk, hre] at hx
          simp only at hx ⊢
          rw [hx]
          refine ⟨fun _ => ⟨?_, q1, fun _ => q2, fun h => absurd he h⟩, fun _ => hc⟩
          exact h'.toTCore.rxBody (.invalid e x.buf x.reply) ws _ _ _ he (by simp [hm]) (.inr ⟨_, _, _, rfl⟩) hrne hrx
        | ub =>
          refine ⟨fun hx => absurd hx (by simp), fun hx => ?_⟩
          have := chunkValidate_ub (c := c) (ws := ws) (bs := u.reply) (h := scatter u.heap (u.reply.flatMap (·.reply)) ws) hx
          rw [← receiveChunk, hre] at this
          exact absurd rfl this

theorem TInv.advance {n N : Nat} {u : Tcp} (hn : 0 < n) (hdvd : n ∣ N) (hN : N + n < 2 ^ 32) (h : TInv n N u) (hm : u.mid = some .last) :
    TInv n N ({ u with mid := none }.advance n N) ∧ ({ u with mid := none }.advance n N).crashed = u.crashed := by
  have h' := h
  obtain ⟨⟨a1, a2, a3, a4, a5, a6, a7, a8, a9, a10, a11, a12, a13, a14, a14', a15, a16, a17, a18, a19, a20, a21⟩, q1, q2, q3⟩ := h
  have he : u.exc = none := by
    cases he : u.exc with
    | none => rfl
    | some e => have := a14 (by simp [he]); simp [hm] at this
  simp only [he, forall_const, hm] at a10 a12 a17 q1 q2
  simp only [hm] at a11
  have hrne : u.reply ≠ [] := one_pos (by simp at a12; omega)
  simp only [one_ne hrne, List.length_cons, List.length_nil, Option.toList_some] at a2 a6 a11 a12
  have hro : u.recvOps = [] := List.length_eq_zero_iff.1 (by omega)
  have hidle : u.pc = .idle → u.flushStarted = false := by
    intro hp
    cases hfs : u.flushStarted with
    | false => rfl
    | true => exact absurd (h'.toTCore.inFlight_zero.1 (a15 hp hfs).1).2 hrne
  have hfd : u.flushDone = false := by
    cases hfd : u.flushDone with
    | false => rfl
    | true => exact absurd (q2.1 hfd).2 hrne
  have hrx := a21 hm
  have hfl : (u.inFlight + 2 ^ 32 - u.reply.length) % 2 ^ 32 = u.replyQ.flatten.length + u.disp.length := by
    rw [a5]
    have : u.reply.length + (u.replyQ.flatten.length + u.disp.length) + 2 ^ 32 - u.reply.length = u.replyQ.flatten.length + u.disp.length + 2 ^ 32 := by omega
    rw [this, Nat.add_mod_right, Nat.mod_eq_of_lt (by omega)]
  have hrl : 0 < u.reply.length := List.length_pos_iff.2 hrne
  unfold Tcp.advance
  generalize hv : ({ u with mid := none } : Tcp).pop = v
  have hcr : v.crashed = u.crashed := by rw [← hv]; unfold Tcp.pop; simp only; split <;> rfl
  have key : TCore n N v ∧ v.disp = u.disp ∧ v.exc = none ∧ v.flushDone = false ∧ (v.pc = .idle → v.flushStarted = false) ∧ v.dispQ = u.dispQ ∧ v.flushStarted = u.flushStarted := by
    have hidle' : u.pc = .idle → u.flushStarted = true → False := fun hp hfs => by rw [hidle hp] at hfs; cases hfs
    cases hq : u.replyQ with
    | nil =>
      have hp : ({ u with mid := none } : Tcp).pop =
          { u with mid := none, inFlight := u.disp.length, finished := u.finished ++ [u.reply], reply := [] } := by
        have : (u.inFlight + 2 ^ 32 - u.reply.length) % 2 ^ 32 = u.disp.length := by rw [hfl, hq]; simp
        unfold Tcp.pop
        simp only [hq, this]
      rw [← hv, hp]
      simp only [hq, List.flatten_nil, List.length_nil, List.nil_append] at a1 a2 a5 a6
      refine ⟨⟨?_, ?_, a3, a4, ?_, ?_, ?_, ?_, a9, fun _ => a10, ?_, ?_, fun _ => hq, fun h => absurd he h, by simp, fun hp hfs => (hidle' hp hfs).elim,
        a16, fun _ => a17, a18, ?_, ?_, by simp⟩, rfl, he, hfd, hidle, rfl, rfl⟩
      · simp only [a1, hq]; simp
      · simp only [a2, hq, one_nil]; simp
      · simp only [hq]; simp
      · intro hfs ch hch
        exact a6 hfs ch (by simp only [hq, one_nil, List.nil_append] at hch; simp [hch])
      · intro hfs; have := a7 hfs; show u.disp.length ≤ N; omega
      · show u.disp.length ≤ N + n; omega
      · simp [hro]
      · simp [hro]
      · simp [hrx]
      · intro _ _ _; simp [hrx]
    | cons ch q =>
      have hp : ({ u with mid := none } : Tcp).pop =
          { u with mid := none, inFlight := ch.length + (q.flatten.length + u.disp.length), finished := u.finished ++ [u.reply], reply := ch, replyQ := q
                   deadline := .armed, recvOps := [!u.sock] } := by
        have : (u.inFlight + 2 ^ 32 - u.reply.length) % 2 ^ 32 = ch.length + (q.flatten.length + u.disp.length) := by rw [hfl, hq]; simp; omega
        unfold Tcp.pop
        simp only [hq, this, Tcp.read, hro, List.nil_append]
      rw [← hv, hp]
      simp only [hq, List.flatten_cons, List.length_append] at a1 a2 a5 a6
      have hch : ch ≠ [] := (a3 ch (by rw [a2]; simp)).1
      refine ⟨⟨?_, ?_, a3, a4, rfl, ?_, ?_, ?_, a9, fun _ => a10, ?_, ?_, fun h => absurd h hch, fun h => absurd he h, by simp, fun hp hfs => (hidle' hp hfs).elim,
        a16, by simp, a18, ?_, ?_, by simp⟩, rfl, he, hfd, hidle, rfl, rfl⟩
      · simp only [a1]; simp
      · simp only [a2, one_ne hch]; simp
      · intro hfs ch' hch'
        refine a6 hfs ch' ?_
        simp only [one_ne hch] at hch'
        simp only [List.mem_append, List.mem_cons, List.not_mem_nil, or_false] at hch' ⊢
        rcases hch' with h | h | h <;> simp [h]
      · intro hfs; have := a7 hfs; show ch.length + (q.flatten.length + u.disp.length) ≤ N; omega
      · show ch.length + (q.flatten.length + u.disp.length) ≤ N + n; omega
      · simp [one_ne hch]
      · simp [one_ne hch]
      · simp [hrx, one_ne hch]
      · intro _ _ _; simp [hrx]
  clear hv
  obtain ⟨k1, k2, k3, k4, k5, k6, k7⟩ := key
  by_cases hd : v.disp = []
  · have hnx : TInv n N (if v.canWrite n N then { v with flushDone := if v.reply = [] then true else false }.write n
        else { v with flushDone := if v.reply = [] then true else false }) := by
      have k1' : TCore n N { v with flushDone := if v.reply = [] then true else false } := by
        obtain ⟨a1, a2, a3, a4, a5, a6, a7, a8, a9, a10, a11, a12, a13, a14, a14', a15, a16, a17, a18, a19, a20, a21⟩ := k1
        exact ⟨a1, a2, a3, a4, a5, a6, a7, a8, a9, a10, a11, a12, a13, a14, a14', a15, a16, a17, a18, a19, a20, a21⟩
      exact k1'.next hn hdvd hN hd k3 (by simp) k5
    have hw0 : ({ v with flushDone := if v.reply = [] then true else false } : Tcp).write n = v.write n := rfl
    rw [hw0] at hnx
    by_cases hw : v.canWrite n N = true
    · have hwd : (v.write n).disp ≠ [] := by
        have := (hnx.flush)
        rw [if_pos hw] at this
        have h2 := this k3
        intro hz
        have h3 := h2
        simp only [Tcp.canWrite, Bool.and_eq_true, decide_eq_true_eq] at hw
        simp only [Tcp.write, hd, List.nil_append, List.take_eq_nil_iff] at hz
        rcases hz with hz | hz
        · omega
        · rw [hz] at hw
          have := hw.1
          split at this <;> simp at this
          omega
      simp only [hd, decide_true, Bool.true_and, hw, if_true]
      simp only [hwd, decide_false, Bool.false_and, Bool.false_eq_true, if_false]
      rw [if_pos hw] at hnx
      exact ⟨hnx, hcr⟩
    · rw [if_neg (show ¬ (decide (v.disp = []) && v.canWrite n N) = true by simpa [hd] using hw)]
      rw [if_neg hw] at hnx
      by_cases hr : v.reply = []
      · rw [show (if v.reply = [] then true else false) = true by simp [hr]] at hnx
        simp only
        rw [if_pos (show (decide (v.disp = []) && decide (v.reply = [])) = true by simp [hd, hr])]
        exact ⟨hnx.rearm, hcr⟩
      · rw [show (if v.reply = [] then true else false) = false by simp [hr]] at hnx
        simp only
        rw [if_neg (show ¬ (decide (v.disp = []) && decide (v.reply = [])) = true by simp [hr])]
        refine ⟨?_, hcr⟩
        have : ({ v with flushDone := false } : Tcp) = v := by rw [← k4]
        rw [this] at hnx
        exact hnx
  · simp only [hd, decide_false, Bool.false_and, Bool.false_eq_true, if_false]
    refine ⟨⟨k1, fun _ h => absurd h hd, fun _ => by simp [k4, hd], fun h => absurd k3 h⟩, hcr⟩

theorem TInv.recvEnd {n N : Nat} {u : Tcp} (hn : 0 < n) (hdvd : n ∣ N) (hN : N + n < 2 ^ 32) (h : TInv n N u) :
    TInv n N (u.recvEnd n N) ∧ (u.recvEnd n N).crashed = u.crashed := by
  have h' := h
  obtain ⟨⟨a1, a2, a3, a4, a5, a6, a7, a8, a9, a10, a11, a12, a13, a14, a14', a15, a16, a17, a18, a19, a20, a21⟩, q1, q2, q3⟩ := h
  unfold Tcp.recvEnd
  cases hm : u.mid with
  | none => exact ⟨h', rfl⟩
  | some m =>
    have hx : m ≠ .notify → u.exc = none := by
      intro hn
      cases he : u.exc with
      | none => rfl
      | some e => have := a14 (by simp [he]); simp [hm] at this; exact absurd this hn
    have hrne : u.reply ≠ [] := one_pos (by simp [hm] at a11; omega)
    have hidle : u.pc = .idle → u.flushStarted = true → False := fun hp hfs => hrne (h'.toTCore.inFlight_zero.1 (a15 hp hfs).1).2
    simp only [hm, one_ne hrne, List.length_cons, List.length_nil, Option.toList_some] at a11
    cases m with
    | body k => exact ⟨h', rfl⟩
    | failed =>
      refine ⟨⟨?_, by simp [Tcp.fail], by simp [Tcp.fail], by simp [Tcp.fail]⟩, rfl⟩
      exact h'.toTCore.fail _ true (u.sendOps.map fun _ => true) (u.recvOps.map fun _ => true) none false _ (by simp) (by simp) (.inl rfl)
        (fun hp => by cases hfs : u.flushStarted with
          | false => rfl
          | true => exact absurd hfs (fun hfs => hidle hp hfs))
    | invalid e b ws =>
      refine ⟨⟨?_, by simp, by simp, by simp⟩, rfl⟩
      exact h'.toTCore.fail _ u.flushDone u.sendOps u.recvOps (some .notify) u.sock _ (by simp) (by simp [hm]) (.inr rfl)
        (fun hp => by cases hfs : u.flushStarted with
          | false => rfl
          | true => exact absurd hfs (fun hfs => hidle hp hfs))
    | notify =>
      have he := a14' hm
      obtain ⟨e, he'⟩ : ∃ e, u.exc = some e := by
        cases h : u.exc with
        | none => exact absurd h he
        | some e => exact ⟨e, rfl⟩
      refine ⟨⟨?_, fun h => absurd h he, fun h => absurd h he, by simp⟩, rfl⟩
      have := h'.toTCore.fail e true u.sendOps u.recvOps none u.sock u.outcomes (by simp) (by simp) (.inl rfl)
        (fun hp => by cases hfs : u.flushStarted with
          | false => rfl
          | true => exact absurd hfs (fun hfs => hidle hp hfs))
      rw [← he'] at this
      exact this
    | last => exact h'.advance hn hdvd hN hm

end Verif
