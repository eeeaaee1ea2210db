import Verif.Lemmas.Paged
import Verif.Props.C18
/-!
# C26 to C31: PCIe and mmap clients

Any number of clients, in any number of processes, share a device with any number of pages; a schedule is any sequence of steps
of the clients, of the device, of exceptions and of crashes. The claims are made for every schedule. That is false:

* `raced`: a client ends its session after another one has started the next (between 404 and 407 of ProtocolPCIe.cpp nothing
  prevents this), see `C29_violated_race`;
* `late`: a session is started while the device still has requests of a session that ended by an exception or a crash, see
  `C27_violated_stale`;
* clients that use interrupts read replies that are not there, see `C27_violated_interrupt`.

What is proved (`_partial`) is the claim for all schedules without these, and without restriction (`C29_exclusive`,
`C29_one_session`, `C31_pcie_partial`) what holds in spite of them.
-/

set_option autoImplicit false

namespace Verif

section
variable {ρ : Type} {c : Cfg} {ps : Nat → PCfg} {resp : ρ → List W → Option (List W) × ρ}
variable {pages size start : Nat} {count0 : W} {e : ρ} {as : List PAct} {w : PW ρ}
  (hw : w = (PW.init ps pages size start count0 e).sched c ps resp as) (hp : PHyp ps resp (PW.init ps pages size start count0 e).dev)
  (hf : ∀ a ∈ as, a.fits size)

/-! ### C26, C27, C29: without races and late starts -/

section
variable (hr : w.raced = false) (hl : w.late = false)
include hw hp hf hr hl

/-- C26. Whatever a client has read (`b`: packet, `k`: number of its request on the device, `p`: page, `ws`: words taken): the
`k`-th request that was written to the device is that packet, `p` is the page of the `k`-th request, the device has answered it,
and the words are the answer to it, cut off where the packet has no room. -/
theorem C26_reply_partial (i : Nat) : ∀ x ∈ (w.cl i).got, ∃ a, w.dev.reqs[x.2.1]? = some x.1.send ∧ x.2.2.1 = (start + x.2.1) % pages ∧
    w.dev.ans[x.2.1]? = some a ∧ x.2.2.2.1 = a.take x.1.replyWords := by
  obtain ⟨_, hg, _, hs⟩ := paged_inv hw hp hf hr hl
  intro x hx
  obtain ⟨h1, h2, ⟨a, h3, h4⟩, _⟩ := hg.ent i x hx
  refine ⟨a, h1, ?_, h3, h4⟩
  rw [h2]
  unfold PDev.page
  rw [hs.pages, hs.start]
  rfl

/-- C26. The device has processed the requests in the order in which they were written, with the packets as they were written. -/
theorem C26_served_partial : ∃ e', Served resp size e (w.dev.reqs.take w.dev.done) w.dev.ans e' := by
  obtain ⟨h, _, _, hs⟩ := paged_inv hw hp hf hr hl
  obtain ⟨e', h1, _⟩ := h.dev.served
  rw [hs.size] at h1
  exact ⟨e', h1⟩

/-- C26. Replies are read in the order of the requests, and never twice, by one client or by two. -/
theorem C26_order_partial : (∀ i, ((w.cl i).got.map (·.2.1)).Pairwise (· < ·)) ∧
    ∀ i j, i ≠ j → ∀ x ∈ (w.cl i).got, ∀ y ∈ (w.cl j).got, x.2.1 ≠ y.2.1 := by
  obtain ⟨_, hg, _, _⟩ := paged_inv hw hp hf hr hl
  exact ⟨hg.ord, hg.dis⟩

/-- C26. When a client is about to write a packet: the page it will write to is that of the next request, and it is none of the
pages of packets whose replies have not been read, of any client; nor one of a request that has not been processed. -/
theorem C26_no_overwrite_partial (i : Nat) (b : Buf) (hb : (w.cl i).writing (ps i) = some b) (hs : (w.cl i).started = true) :
    (w.cl i).idx = (start + w.dev.written) % pages ∧ (∀ j, ∀ x ∈ (w.cl j).queue, (start + x.2) % pages ≠ (w.cl i).idx) ∧
    ∀ k, w.dev.done ≤ k → k < w.dev.written → (start + k) % pages ≠ (w.cl i).idx := by
  obtain ⟨h, _, hp', hsd⟩ := paged_inv hw hp hf hr hl
  obtain ⟨hpc, _, hlim⟩ := PCl.writing_some hb
  have hc := h.cl i
  have hok : (w.cl i).pc.ok := by rw [hpc]; exact PPc.ok_disp b
  have hy := (hc.fresh (hc.fresh_of_started hs hok)).1
  have hpg : w.dev.pages = pages := hsd.pages
  have hst : w.dev.start = start := hsd.start
  have hidx : (w.cl i).idx = (start + w.dev.written) % pages := by
    rw [hy.idx]; unfold PDev.page; rw [hpg, hst]
  have hroom := hy.room hlim
  rw [hpg] at hroom
  refine ⟨hidx, ?_, ?_⟩
  · intro j x hx
    have hj : j = i := by
      have : (w.cl j).started = true := (h.cl j).started_of_queue (by intro hq; rw [hq] at hx; cases hx)
      exact h.started_eq this hs
    subst hj
    have hmem : x.2 ∈ (w.cl j).queue.map Prod.snd := List.mem_map_of_mem hx
    rw [hy.num, List.mem_range'_1] at hmem
    have h1 := hy.lim
    have h2 := hy.limit_le
    have h3 := hy.len
    rw [hpg] at h2
    rw [hidx]
    exact page_ne (by omega) (by omega)
  · intro k h1 h2
    rw [hidx]
    exact page_ne h2 (by omega)

/-- C26. Until the device has processed a request, its page holds it. -/
theorem C26_request_kept_partial (k : Nat) (q : List W) (hk : w.dev.done ≤ k) (hq : w.dev.reqs[k]? = some q) :
    w.dev.req.get ((start + k) % pages * size) (q.length + 1) = pageHeader q.length :: q := by
  obtain ⟨h, _, _, hsd⟩ := paged_inv hw hp hf hr hl
  have := h.dev.req k q hk hq
  unfold PDev.page at this
  rw [hsd.pages, hsd.size, hsd.start] at this
  exact this

/-- C27. When a client is about to read a page, the device has published it. -/
theorem C27_published_partial (i : Nat) (b : Buf) (k : Nat) (q : List (Buf × Nat)) (hq : (w.cl i).queue = (b, k) :: q)
    (hrd : (w.cl i).reading (ps i) = true) (hn : (w.cl i).rd ≠ (w.cl i).pub ∨ (w.cl i).waited = true) : k < w.dev.done := by
  obtain ⟨h, _, _, _⟩ := paged_inv hw hp hf hr hl
  have hc := h.cl i
  have hok := PCl.reading_ok hrd
  have hs := hc.started_of_queue (by rw [hq]; intro h; cases h)
  have hy := (hc.fresh (hc.fresh_of_started hs hok)).1
  refine (hy.ready hq ?_).1
  rcases hn with hn | hn
  · exact hn
  · rw [hc.wt] at hn; cases hn

/-- C27. A published page does not stay unnoticed: when the reply to the oldest packet is there, the client can go on, for it reads
the page, or it polls and then reads the page. -/
theorem C27_progress_partial (hwrap : w.dev.written < 2 ^ 32) (i : Nat) (b : Buf) (k : Nat) (q : List (Buf × Nat)) (hq : (w.cl i).queue = (b, k) :: q)
    (hrd : (w.cl i).reading (ps i) = true) (hk : k < w.dev.done) :
    (w.cl i).rd ≠ (w.cl i).pub ∨ ((w.cl i).rd = (w.cl i).pub ∧ w.dev.count ≠ (w.cl i).pub) := by
  obtain ⟨h, _, _, _⟩ := paged_inv hw hp hf hr hl
  have hc := h.cl i
  have hok := PCl.reading_ok hrd
  have hs := hc.started_of_queue (by rw [hq]; intro h; cases h)
  have hy := (hc.fresh (hc.fresh_of_started hs hok)).1
  by_cases hx : (w.cl i).rd = (w.cl i).pub
  · right
    refine ⟨hx, ?_⟩
    rw [← hx, (hy.head hq).2.2]
    unfold PDev.count
    intro he
    have he' : BitVec.ofNat 32 w.dev.done = BitVec.ofNat 32 k := by
      have := congrArg (fun z => z - w.dev.count0) he
      simpa [BitVec.add_comm w.dev.count0, BitVec.add_sub_cancel] using this
    have h1 := congrArg BitVec.toNat he'
    have h2 := h.dev.le
    rw [BitVec.toNat_ofNat, BitVec.toNat_ofNat, Nat.mod_eq_of_lt (by omega), Nat.mod_eq_of_lt (by omega)] at h1
    omega
  · exact Or.inl hx

/-- C29. A client that is in a session (and has not thrown an exception) knows the state of the device: the page for the next
request, the page size, and the number of replies that it has taken. That includes the moment in which the session begins. -/
theorem C29_synchronised_partial (i : Nat) (hs : (w.cl i).started = true) (h1 : (w.cl i).pc ≠ .thrown) (h2 : (w.cl i).pc ≠ .dead) :
    (w.cl i).idx = (start + w.dev.written) % pages ∧ (w.cl i).pages = pages ∧ (w.cl i).size = size ∧
    (w.cl i).queue.map Prod.snd = List.range' (w.dev.written - (w.cl i).queue.length) (w.cl i).queue.length ∧
    (w.cl i).rd = count0 + BitVec.ofNat 32 (w.dev.written - (w.cl i).queue.length) := by
  obtain ⟨h, _, _, hsd⟩ := paged_inv hw hp hf hr hl
  have hc := h.cl i
  have hy := (hc.fresh (hc.fresh_of_started hs ⟨h1, h2⟩)).1
  refine ⟨?_, hy.pages.trans hsd.pages, hy.size.trans hsd.size, hy.num, ?_⟩
  · rw [hy.idx]; unfold PDev.page; rw [hsd.pages, hsd.start]; rfl
  · rw [hy.rd, hsd.count0]; rfl

end

/-! ### C29, C31: all schedules -/

/-- What holds for every client at any time. -/
structure UI (p : PCfg) (pages : Nat) (lock : Option Nat) (i : Nat) (u : PCl) : Prop where
  lk : u.have_ = true ↔ lock = some i
  st : u.started = true → u.have_ = true
  hc : u.have_ = true → u.connected = true
  q : u.started = false → u.queue = []
  lim : u.queue.length ≤ u.limit p
  mx : p.maxIn ≠ 0 → u.maxIn ≤ p.maxIn ∧ (0 < u.maxIn ∨ pages = 0)

theorem UI.connect {p : PCfg} {d : PDev ρ} {n : Nat} {a : Bool} {l : Option Nat} {i : Nat} {u : PCl} (h : UI p d.pages l i u) (hq : u.queue = []) :
    UI p d.pages l i (u.connect p d a n) := by
  have hm : p.maxIn ≠ 0 → (if u.maxIn = 0 ∨ u.maxIn > d.pages then d.pages else u.maxIn) ≤ p.maxIn ∧
      (0 < (if u.maxIn = 0 ∨ u.maxIn > d.pages then d.pages else u.maxIn) ∨ d.pages = 0) := by
    intro h0
    obtain ⟨h1, h2⟩ := h.mx h0
    split <;> omega
  have hl : ∀ n : Nat, u.queue.length ≤ n := by rw [hq]; exact fun n => Nat.zero_le n
  unfold PCl.connect
  simp only
  split
  · exact ⟨h.lk, h.st, h.hc, h.q, hl _, hm⟩
  · exact ⟨h.lk, h.st, fun _ => rfl, h.q, hl _, hm⟩

theorem UI.set {w : PW ρ} {n : Nat} (h : ∀ i, UI (ps i) n w.lock i (w.cl i)) {l : Option Nat} {i : Nat} {u' : PCl}
    (hl : ∀ j, j ≠ i → (w.lock = some j ↔ l = some j)) (hi : UI (ps i) n l i u') {w' : PW ρ} (hcl : w'.cl = w.cl) (hlk : w'.lock = l) :
    ∀ j, UI (ps j) n (w'.set i u').lock j ((w'.set i u').cl j) := by
  intro j
  show UI (ps j) n w'.lock j _
  rw [hlk]
  by_cases hj : j = i
  · subst hj; rw [PW.set_self]; exact hi
  · rw [PW.set_ne _ _ hj, hcl]
    have := h j
    exact ⟨by rw [this.lk]; exact hl j hj, this.st, this.hc, this.q, this.lim, this.mx⟩

theorem UI.step {w : PW ρ} (a : PAct) (h : ∀ i, UI (ps i) w.dev.pages w.lock i (w.cl i)) :
    ∀ i, UI (ps i) (w.act c ps resp a).dev.pages (w.act c ps resp a).lock i ((w.act c ps resp a).cl i) := by
  rw [(act_same (ps := ps) (resp := resp) c w a).pages]
  cases a
  case dev => exact h
  case call i b =>
    simp only [PW.act]
    split
    · have := h i
      refine UI.set h (fun _ _ => Iff.rfl) ?_ rfl rfl
      exact ⟨this.lk, this.st, this.hc, this.q, this.lim, this.mx⟩
    · exact h
  case callFlush i =>
    simp only [PW.act]
    split
    · have := h i
      refine UI.set h (fun _ _ => Iff.rfl) ?_ rfl rfl
      exact ⟨this.lk, this.st, this.hc, this.q, this.lim, this.mx⟩
    · exact h
  case connect i =>
    have key : ¬ (w.cl i).connected = true → (w.cl i).queue = [] := by
      intro hn
      apply (h i).q
      cases hx : (w.cl i).started with
      | false => rfl
      | true => exact absurd ((h i).hc ((h i).st hx)) hn
    simp only [PW.act]
    split
    · split
      · exact h
      · rename_i hn
        exact UI.set h (fun _ _ => Iff.rfl) ((h i).connect (key hn)) rfl rfl
    · split
      · exact h
      · rename_i hn
        exact UI.set h (fun _ _ => Iff.rfl) ((h i).connect (key hn)) rfl rfl
    · exact h
  case poll i =>
    simp only [PW.act]
    split
    · have := h i
      refine UI.set h (fun _ _ => Iff.rfl) ?_ rfl rfl
      exact ⟨this.lk, this.st, this.hc, this.q, this.lim, this.mx⟩
    · exact h
  case event i =>
    simp only [PW.act]
    split
    · have := h i
      refine UI.set h (fun _ _ => Iff.rfl) ?_ rfl rfl
      exact ⟨this.lk, this.st, this.hc, this.q, this.lim, this.mx⟩
    · exact h
  case fetch i =>
    simp only [PW.act]
    split
    · have := h i
      refine UI.set h (fun _ _ => Iff.rfl) ?_ rfl rfl
      cases hq : (w.cl i).queue with
      | nil =>
        have e : (w.cl i).fetch c (ps i) w.dev = w.cl i := by unfold PCl.fetch; rw [hq]
        rw [e]; exact this
      | cons x q =>
        obtain ⟨b, k⟩ := x
        obtain ⟨ws, r, pc, cr, e, _, _, _⟩ := PCl.fetch_cons (c := c) (p := ps i) (d := w.dev) hq
        rw [e]
        have hl := this.lim
        rw [hq] at hl
        refine ⟨this.lk, this.st, this.hc, ?_, Nat.le_trans (Nat.le_succ q.length) hl, this.mx⟩
        intro hx
        have := this.q hx
        rw [hq] at this; cases this
    · exact h
  case flock i =>
    simp only [PW.act]
    split
    · rename_i hx
      have := h i
      obtain ⟨b, _, hcon, _⟩ := PCl.writing_isSome hx.1
      refine UI.set (l := some i) h ?_ ?_ rfl rfl
      · intro j hj
        rw [hx.2.2]; simp [Ne.symm hj]
      · refine ⟨(by simp), (by intro h; cases h), fun _ => hcon, ?_, this.lim, this.mx⟩
        intro _
        apply this.q
        cases hs : (w.cl i).started with
        | false => rfl
        | true => have := this.st hs; rw [hx.2.1] at this; cases this
    · exact h
  case start i =>
    simp only [PW.act]
    split
    · rename_i hx
      have := h i
      have hq := this.q hx.2.2
      have h1 : UI (ps i) w.dev.pages w.lock i { w.cl i with started := true, sess := (w.cl i).sess + 1 } :=
        ⟨this.lk, fun _ => hx.2.1, this.hc, (by intro h; cases h), this.lim, this.mx⟩
      refine UI.set (w := w) h (fun _ _ => Iff.rfl) ?_ rfl rfl
      split
      · exact h1.connect hq
      · exact h1
    · exact h
  case write i =>
    simp only [PW.act]
    split
    · rename_i b hb
      split
      · rename_i hx
        have := h i
        obtain ⟨_, _, hl⟩ := PCl.writing_some hb
        refine UI.set (w := w) h (fun _ _ => Iff.rfl) ?_ rfl rfl
        refine ⟨this.lk, this.st, this.hc, ?_, ?_, this.mx⟩
        · intro hs; rw [show (w.cl i).started = false from hs] at hx; cases hx.2
        · show ((w.cl i).queue ++ [_]).length ≤ (w.cl i).limit (ps i)
          rw [List.length_append, List.length_singleton]
          have := this.lim
          omega
      · exact h
    · exact h
  case unlock i =>
    simp only [PW.act]
    split
    · rename_i hx
      have := h i
      refine UI.set (w := w) h (fun j hj => PW.release_lock w i j hj) ?_ rfl rfl
      exact ⟨⟨(by intro h; cases h), fun hx => absurd hx (PW.release_self w i)⟩, (by intro h; cases h),
        (by intro h; cases h), fun _ => hx.2, this.lim, this.mx⟩
    · exact h
  case finish i =>
    simp only [PW.act]
    split
    · have := h i
      refine UI.set (w := w) h (fun _ _ => Iff.rfl) ?_ rfl rfl
      exact ⟨this.lk, this.st, this.hc, this.q, this.lim, this.mx⟩
    · exact h
  case fail i =>
    simp only [PW.act]
    have := h i
    split
    · refine UI.set (w := w) h (fun _ _ => Iff.rfl) ?_ rfl rfl
      exact ⟨this.lk, this.st, this.hc, this.q, this.lim, this.mx⟩
    · split
      · exact h
      · refine UI.set (w := w) h (fun _ _ => Iff.rfl) ?_ rfl rfl
        exact ⟨this.lk, this.st, this.hc, this.q, this.lim, this.mx⟩
    · exact h
  case handler i =>
    simp only [PW.act]
    split
    · have := h i
      refine UI.set (w := w) h (fun j hj => PW.release_lock w i j hj) ?_ rfl rfl
      exact ⟨⟨(by intro h; cases h), fun hx => absurd hx (PW.release_self w i)⟩, (by intro h; cases h),
        (by intro h; cases h), fun _ => rfl, Nat.zero_le _, this.mx⟩
    · exact h
  case crash i =>
    simp only [PW.act]
    have := h i
    refine UI.set (w := w) h (fun j hj => PW.release_lock w i j hj) ?_ rfl rfl
    exact ⟨⟨(by intro h; cases h), fun hx => absurd hx (PW.release_self w i)⟩, (by intro h; cases h),
        (by intro h; cases h), fun _ => rfl, Nat.zero_le _, this.mx⟩
  case halfStart i =>
    simp only [PW.act]
    split
    · have := h i
      refine UI.set (w := w) h (fun j hj => PW.release_lock w i j hj) ?_ rfl rfl
      exact ⟨⟨(by intro h; cases h), fun hx => absurd hx (PW.release_self w i)⟩, (by intro h; cases h),
        (by intro h; cases h), fun _ => rfl, Nat.zero_le _, this.mx⟩
    · exact h

theorem UI.sched (as : List PAct) : ∀ {w : PW ρ}, (∀ i, UI (ps i) w.dev.pages w.lock i (w.cl i)) →
    ∀ i, UI (ps i) (w.sched c ps resp as).dev.pages (w.sched c ps resp as).lock i ((w.sched c ps resp as).cl i) := by
  induction as with
  | nil => intro w h; exact h
  | cons a as ih => intro w h; exact ih (UI.step a h)

theorem UI.reach (hw : w = (PW.init ps pages size start count0 e).sched c ps resp as) : ∀ i, UI (ps i) w.dev.pages w.lock i (w.cl i) := by
  subst hw
  refine UI.sched as fun i => ⟨⟨(by intro h; cases h), (by intro h; cases h)⟩, (by intro h; cases h), (by intro h; cases h), fun _ => rfl, Nat.zero_le _, fun h => ⟨Nat.le_refl _, ?_⟩⟩
  exact Or.inl (Nat.pos_of_ne_zero h)

include hw

/-- C29. In every schedule, with every race and crash: only the holder of the file lock writes to the device, and only it takes
replies from it. -/
theorem C29_exclusive (a : PAct) :
    ((w.act c ps resp a).dev.req ≠ w.dev.req ∨ (w.act c ps resp a).dev.written ≠ w.dev.written → ∃ i, a = .write i ∧ w.lock = some i) ∧
    ∀ i, ((w.act c ps resp a).cl i).got ≠ (w.cl i).got → a = .fetch i ∧ w.lock = some i := by
  have h := UI.reach hw
  have hset : ∀ (w' : PW ρ) (j : Nat) (u' : PCl) (i : Nat), w'.cl = w.cl → u'.got = (w.cl j).got → ((w'.set j u').cl i).got = (w.cl i).got := by
    intro w' j u' i hcl hg
    by_cases hj : i = j
    · subst hj; rw [PW.set_self]; exact hg
    · rw [PW.set_ne _ _ hj, hcl]
  have hcon : ∀ (p : PCfg) (d : PDev ρ) (a : Bool) (n : Nat) (u : PCl), (u.connect p d a n).got = u.got := by
    intro p d a n u
    unfold PCl.connect
    simp only
    split <;> rfl
  cases a
  case dev =>
    have h1 : (w.dev.answer resp).req = w.dev.req ∧ (w.dev.answer resp).written = w.dev.written := by
      unfold PDev.answer
      split
      · exact ⟨rfl, rfl⟩
      · simp only
        split <;> exact ⟨rfl, rfl⟩
    refine ⟨fun hx => ?_, fun i hx => absurd rfl hx⟩
    rcases hx with hx | hx
    · exact absurd h1.1 hx
    · exact absurd h1.2 hx
  case write j =>
    simp only [PW.act]
    split
    · split
      · rename_i hx
        refine ⟨fun _ => ⟨j, rfl, (h j).lk.1 hx.1⟩, fun i hy => absurd (hset _ j _ i ?_ ?_) hy⟩
        · rfl
        · rfl
      · exact ⟨fun hx => by rcases hx with hx | hx <;> exact absurd rfl hx, fun i hx => absurd rfl hx⟩
    · exact ⟨fun hx => by rcases hx with hx | hx <;> exact absurd rfl hx, fun i hx => absurd rfl hx⟩
  case fetch j =>
    simp only [PW.act]
    split
    · refine ⟨fun hx => by rcases hx with hx | hx <;> exact absurd rfl hx, fun i hy => ?_⟩
      by_cases hj : i = j
      · subst hj
        refine ⟨rfl, ?_⟩
        rw [PW.set_self] at hy
        have hq : (w.cl i).queue ≠ [] := by
          intro hq
          apply hy
          unfold PCl.fetch; rw [hq]
        apply (h i).lk.1
        apply (h i).st
        cases hs : (w.cl i).started with
        | true => rfl
        | false => exact absurd ((h i).q hs) hq
      · rw [PW.set_ne _ _ hj] at hy
        exact absurd rfl hy
    · exact ⟨fun hx => by rcases hx with hx | hx <;> exact absurd rfl hx, fun i hx => absurd rfl hx⟩
  case connect j =>
    simp only [PW.act]
    split
    · split
      · exact ⟨fun hx => by rcases hx with hx | hx <;> exact absurd rfl hx, fun i hx => absurd rfl hx⟩
      · exact ⟨fun hx => by rcases hx with hx | hx <;> exact absurd rfl hx, fun i hy => hy.elim (hset w j _ i rfl (hcon _ _ _ _ _))⟩
    · split
      · exact ⟨fun hx => by rcases hx with hx | hx <;> exact absurd rfl hx, fun i hx => absurd rfl hx⟩
      · exact ⟨fun hx => by rcases hx with hx | hx <;> exact absurd rfl hx, fun i hy => hy.elim (hset w j _ i rfl (hcon _ _ _ _ _))⟩
    · exact ⟨fun hx => by rcases hx with hx | hx <;> exact absurd rfl hx, fun i hx => absurd rfl hx⟩
  case start j =>
    simp only [PW.act]
    split
    · refine ⟨fun hx => by rcases hx with hx | hx <;> exact absurd rfl hx, fun i hy => ?_⟩
      refine absurd (hset _ j _ i ?_ ?_) hy
      · rfl
      · split
        · exact hcon _ _ _ _ _
        · rfl
    · exact ⟨fun hx => by rcases hx with hx | hx <;> exact absurd rfl hx, fun i hx => absurd rfl hx⟩
  case fail j =>
    simp only [PW.act]
    split
    · exact ⟨fun hx => by rcases hx with hx | hx <;> exact absurd rfl hx, fun i hy => hy.elim (hset w j _ i (by rfl) (by rfl))⟩
    · split
      · exact ⟨fun hx => by rcases hx with hx | hx <;> exact absurd rfl hx, fun i hx => absurd rfl hx⟩
      · exact ⟨fun hx => by rcases hx with hx | hx <;> exact absurd rfl hx, fun i hy => hy.elim (hset w j _ i (by rfl) (by rfl))⟩
    · exact ⟨fun hx => by rcases hx with hx | hx <;> exact absurd rfl hx, fun i hx => absurd rfl hx⟩
  case call j b =>
    simp only [PW.act]
    split
    · exact ⟨fun hx => by rcases hx with hx | hx <;> exact absurd rfl hx, fun i hy => hy.elim (hset w j _ i (by rfl) (by rfl))⟩
    · exact ⟨fun hx => by rcases hx with hx | hx <;> exact absurd rfl hx, fun i hx => absurd rfl hx⟩
  case crash j =>
    simp only [PW.act]
    exact ⟨fun hx => by rcases hx with hx | hx <;> exact absurd rfl hx, fun i hy => hy.elim (hset (w.release j) j _ i (by rfl) (by rfl))⟩
  all_goals
    rename_i j
    simp only [PW.act]
    split
    · exact ⟨fun hx => by rcases hx with hx | hx <;> exact absurd rfl hx, fun i hy => hy.elim (hset _ j _ i (by rfl) (by rfl))⟩
    · exact ⟨fun hx => by rcases hx with hx | hx <;> exact absurd rfl hx, fun i hx => absurd rfl hx⟩

/-- C29. In every schedule: at most one client has unanswered packets on the device. -/
theorem C29_one_session (i j : Nat) (hi : (w.cl i).queue ≠ []) (hj : (w.cl j).queue ≠ []) : i = j := by
  have h := UI.reach hw
  have key : ∀ k, (w.cl k).queue ≠ [] → w.lock = some k := by
    intro k hk
    apply (h k).lk.1
    apply (h k).st
    cases hs : (w.cl k).started with
    | true => rfl
    | false => exact absurd ((h k).q hs) hk
  have h1 := key i hi
  rw [key j hj] at h1
  injection h1 with h1
  exact h1.symm

/-- C31, for PCIe clients, in every schedule: the number of unanswered packets never exceeds the `max_in_flight` attribute. -/
theorem C31_pcie_partial (i : Nat) (hk : (ps i).kind ≠ .mmap) (ha : (ps i).maxIn ≠ 0) : (w.cl i).queue.length ≤ (ps i).maxIn := by
  have h := UI.reach hw i
  have h1 := h.lim
  unfold PCl.limit at h1
  rw [if_neg hk] at h1
  exact Nat.le_trans h1 (h.mx ha).1

/-- C31: the limit that mmap clients keep, the number of pages. -/
theorem C31_mmap_partial (i : Nat) (hk : (ps i).kind = .mmap) : (w.cl i).queue.length ≤ (w.cl i).pages := by
  have h1 := (UI.reach hw i).lim
  unfold PCl.limit at h1
  rw [if_pos hk] at h1
  exact h1

end

/-! ### C28 -/

/-- C28. The word in front of a packet announces its length to the rule of the other side: upper half plus lower half. -/
theorem C28_header (n : Nat) (h1 : 1 ≤ n) (h2 : n ≤ 65536) : pageWords (pageHeader n) = n := pageWords_header h1 h2

/-- C28: it has room for no other length; the empty packet would be announced as one of 65536 words. -/
theorem C28_header_mod (n : Nat) : pageWords (pageHeader n) = (n + 65535) % 65536 + 1 := by
  have key : pageHeader n = pageHeader ((n + 65535) % 65536 + 1) := by
    unfold pageHeader
    refine congrArg (0x10000#32 ||| ·) ?_
    apply BitVec.eq_of_toNat_eq
    rw [BitVec.toNat_and, BitVec.toNat_and, BitVec.toNat_sub, BitVec.toNat_sub]
    simp only [BitVec.toNat_ofNat]
    rw [show (65535 % 2 ^ 32 : Nat) = 2 ^ 16 - 1 from rfl, Nat.and_two_pow_sub_one_eq_mod, Nat.and_two_pow_sub_one_eq_mod]
    have e : ∀ x : Nat, (2 ^ 32 - 1 % 2 ^ 32 + x) % 2 ^ 32 % 2 ^ 16 = (x + 65535) % 2 ^ 16 := by intro x; omega
    rw [e, e]
    omega
  rw [key]
  exact pageWords_header (by omega) (by omega)

example : pageWords (pageHeader 65536) = 65536 ∧ pageWords (pageHeader 1) = 1 ∧ pageWords (pageHeader 0) = 65536 := by decide

/-! ### C30 -/

/-- C30. A write of a packet that fits the page changes nothing outside of its page, if pages have an even number of words (or for
PCIe), and inside of the page at most one word besides the packet. -/
theorem C30_page_partial {ρ : Type} (p : PCfg) (b : Buf) (d : PDev ρ) (u : PCl) (hb : b.send.length + 1 ≤ u.size)
    (hs : p.kind = .mmap → u.size % 2 = 0) (hi : u.idx < u.pages) (hf : u.pages * u.size ≤ 2 ^ 30) :
    (∀ x, x < u.idx * u.size ∨ u.idx * u.size + u.size ≤ x → (u.write p b d).1.req x = d.req x) ∧
    (u.write p b d).1.req.get (u.idx * u.size) (b.send.length + 1) = pageHeader b.send.length :: b.send ∧
    ∀ x, u.idx * u.size + (b.send.length + 1) + 1 ≤ x → (u.write p b d).1.req x = d.req x := by
  have hin := page_in (s := u.size) hi
  have hm : (u.idx * u.size) % 2 ^ 30 = u.idx * u.size := Nat.mod_eq_of_lt (by omega)
  have hreq : (u.write p b d).1.req = d.req.blit (u.idx * u.size) (writeWords p.kind (framed b.send)) := by
    show d.req.blit _ _ = _
    rw [hm]; rfl
  have hwl : (writeWords p.kind (framed b.send)).length ≤ u.size := writeWords_length (by rw [framed_length]; exact hb) hs
  have hwl' : (writeWords p.kind (framed b.send)).length ≤ b.send.length + 1 + 1 := by
    unfold writeWords
    split
    · rw [List.length_append, framed_length]; simp
    · rw [framed_length]; omega
  obtain ⟨ex, hex⟩ := writeWords_prefix p.kind (framed b.send)
  rw [hreq]
  refine ⟨?_, ?_, ?_⟩
  · intro x hx
    apply Mem.blit_other
    omega
  · rw [hex]
    exact Mem.holds_of_prefix ex
  · intro x hx
    apply Mem.blit_other
    omega

/-- C30. Accesses that are not refused lie inside of the mapping, if the offset is not near the end of a memory page, and 32-bit
addresses do not wrap. -/
theorem C30_window_partial (offset : Nat) (addr n : W) (k s l : Nat) (ho : offset % 4096 ≤ 4076) :
    (mmapRead offset addr n = some (s, l) → 4 * addr.toNat + 4 * n.toNat < 2 ^ 32 → s + l ≤ mappedBytes) ∧
    (mmapWrite offset addr k = some (s, l) → s + l ≤ mappedBytes) := by
  refine ⟨?_, ?_⟩
  · intro h hn
    unfold mmapRead at h
    split at h
    · cases h
    · rename_i hx
      simp only [Option.some.injEq, Prod.mk.injEq] at h
      rw [BitVec.toNat_add, BitVec.toNat_mul, BitVec.toNat_mul] at hx
      rw [BitVec.toNat_mul] at h
      simp only [BitVec.toNat_ofNat, mapSize] at hx h
      unfold mappedBytes
      omega
  · intro h
    unfold mmapWrite mapSize at h
    split at h
    · cases h
    · simp only [Option.some.injEq, Prod.mk.injEq] at h
      unfold mappedBytes
      split at h <;> omega

example : mmapRead 0x10 (4 + 3 * 2048) 2047 = some (0x10 + 16 + 3 * 8192, 4 * 2047) ∧ mmapWrite 0 (3 * 8192) 2048 = some (3 * 8192, 8192) ∧
    mmapWrite 0 (3 * 8192) 2053 = none := by decide

/-- C30. If the file is closed after every exception, no access goes through an invalid pointer. -/
theorem C30_pointer_partial (cs : List MCall) : ∀ f : MFile, (f.fd = true → f.ptr = .mapped) →
    ((cs.foldl (fun (p : MFile × List MOut) x =>
        let r := p.1.call x
        ((if r.2 = .thrown then (r.1.call .close).1 else r.1), p.2 ++ [r.2])) (f, [])).2.all (· ≠ .wild)) = true := by
  suffices H : ∀ (f : MFile) (l : List MOut), (f.fd = true → f.ptr = .mapped) → l.all (· ≠ .wild) = true →
      ((cs.foldl (fun (p : MFile × List MOut) x =>
        let r := p.1.call x
        ((if r.2 = .thrown then (r.1.call .close).1 else r.1), p.2 ++ [r.2])) (f, l)).2.all (· ≠ .wild)) = true from fun f h => H f [] h rfl
  induction cs with
  | nil => intro f l _ h; exact h
  | cons x cs ih =>
    intro f l hf hl
    rw [List.foldl_cons]
    have key : (f.call x).2 ≠ .wild ∧ ((if (f.call x).2 = .thrown then ((f.call x).1.call .close).1 else (f.call x).1).fd = true →
        (if (f.call x).2 = .thrown then ((f.call x).1.call .close).1 else (f.call x).1).ptr = .mapped) := by
      obtain ⟨fd, ptr⟩ := f
      cases x with
      | close => cases fd <;> cases ptr <;> simp [MFile.call]
      | access o m =>
        cases fd
        · cases o <;> cases m <;> simp [MFile.call]
        · have := hf rfl
          simp only at this
          subst this
          simp [MFile.call]
    refine ih _ _ key.2 ?_
    rw [List.all_append, hl]
    simp [key.1]

example : (⟨false, .null⟩ : MFile).call (.access true false) = (⟨true, .failed⟩, .thrown) ∧
    ((⟨true, .failed⟩ : MFile).call .close).1.call (.access true true) = (⟨true, .mapped⟩, .fine) := by decide

/-! ### Examples -/

/-- A device that answers a packet with one read: the value is 256 times the address. It counts the packets. -/
def demoPage (n : Nat) (q : List W) : Option (List W) × Nat :=
  (some [q.headD 0, (q.getD 1 0) &&& 0xFFFFFFF0#32, q.getD 2 0 * 256#32], n + 1)

/-- The packets of a program; the transport fails where the list says `true`. -/
def progPkts (fails : List Bool) (ops : List Op) : List Buf :=
  ((runOps (demoCfg .v2) demoTr ops (St.init fails)).map fun p => p.2.hist).getD []

/-- Packets of a program that reads 0x10, 0x20 and 0x30, each with its own dispatch. -/
def readPkts : List Buf := progPkts [] [.read 0x10, .dispatch, .read 0x20, .dispatch, .read 0x30, .dispatch]

/-- The same after an exception: transaction identifiers start again at zero. -/
def retryPkts : List Buf := progPkts [true] [.read 0x10, .dispatch, .read 0x20, .dispatch]

def pkt (bs : List Buf) (k : Nat) : Buf := bs.getD k ⟨[], [], []⟩

/-- All clients of the same kind. -/
def allOf (k : PKind) (maxIn : Nat) : Nat → PCfg := fun _ => ⟨k, maxIn, 0, false⟩

/-- A packet is written by client `i`. -/
def sendBy (i : Nat) (b : Buf) : List PAct := [.call i b, .connect i, .flock i, .start i, .write i]

/-- `Flush` with one reply outstanding. -/
def flushBy (i : Nat) : List PAct := [.callFlush i, .poll i, .fetch i, .unlock i, .finish i]

def pagedRun (ps : Nat → PCfg) (pages size : Nat) (as : List PAct) : PW Nat :=
  (PW.init ps pages size 0 0xFFFFFFFF#32 0).sched (demoCfg .v2) ps demoPage as

/-- Non-vacuity of the set-up: PCIe with polling, and mmap. -/
theorem demo_phyp (k : PKind) (hk : k ≠ .intr) (m : Nat) : PHyp (allOf k m) demoPage (PW.init (allOf k m) 4 8 0 0xFFFFFFFF#32 0).dev := by
  refine ⟨by simp [PW.init], by simp [PW.init], by simp [PW.init], by simp [PW.init], fun _ => hk, fun _ _ => by simp [PW.init], ?_⟩
  intro e q r e' h
  simp only [demoPage, Prod.mk.injEq, Option.some.injEq] at h
  rw [← h.1]; simp

/-- Two clients: one sends two packets and reads the replies; the other one, which had connected before, sends one; then it dies; then
the first one sends again (the device answers first, while nobody is waiting). -/
def demoPaged : List PAct :=
  [.connect 1] ++ sendBy 0 (pkt readPkts 0) ++ sendBy 0 (pkt readPkts 1) ++ [.dev, .callFlush 0, .poll 0, .fetch 0, .dev, .poll 0, .fetch 0, .unlock 0, .finish 0] ++
  sendBy 1 (pkt readPkts 0) ++ [.dev, .crash 1] ++ sendBy 0 (pkt readPkts 2) ++ [.dev] ++ flushBy 0

/-- Non-vacuity: the hypotheses hold, three replies have been read by the first client, with the right values, and the pages wrap. -/
example : (∀ a ∈ demoPaged, a.fits 8) ∧ (pagedRun (allOf .poll 2) 4 8 demoPaged).raced = false ∧ (pagedRun (allOf .poll 2) 4 8 demoPaged).late = false ∧
    ((pagedRun (allOf .poll 2) 4 8 demoPaged).cl 0).got.map (fun x => (x.2.1, x.2.2.1, x.2.2.2.1.getD 2 0, x.2.2.2.2)) =
      [(0, 0, 0x1000, .ok), (1, 1, 0x2000, .ok), (3, 3, 0x3000, .ok)] := by
  refine ⟨?_, by decide +kernel, by decide +kernel, by decide +kernel⟩
  intro a ha
  have h1 : (pkt readPkts 0).send.length = 3 := by decide +kernel
  have h2 : (pkt readPkts 1).send.length = 3 := by decide +kernel
  have h3 : (pkt readPkts 2).send.length = 3 := by decide +kernel
  simp only [demoPaged, sendBy, flushBy, List.mem_append, List.mem_cons, List.not_mem_nil, or_false] at ha
  rcases a with _ | ⟨i, b⟩ | _ | _ | _ | _ | _ | _ | _ | _ | _ | _ | _ | _ | _ <;> try exact trivial
  show Fits 8 b.send
  simp at ha
  rcases ha with ((⟨_, rfl⟩ | ⟨_, rfl⟩) | ⟨_, rfl⟩) | ⟨_, rfl⟩ <;> first
    | exact ⟨by rw [h1]; decide, by rw [h1]; decide⟩
    | exact ⟨by rw [h2]; decide, by rw [h2]; decide⟩
    | exact ⟨by rw [h3]; decide, by rw [h3]; decide⟩

/-- A client dies when it has counted its session and has not yet said that it is active; the next one goes on with the right page. -/
example : let w := pagedRun (allOf .poll 2) 4 8 ([.connect 0] ++ sendBy 1 (pkt readPkts 0) ++ [.dev] ++ flushBy 1 ++
      [.call 1 (pkt readPkts 1), .flock 1, .halfStart 1] ++ sendBy 0 (pkt readPkts 2) ++ [.dev] ++ flushBy 0)
    (w.cl 1).pc = .dead ∧ w.ctr = 3 ∧ w.raced = false ∧ w.late = false ∧
    (w.cl 0).got.map (fun x => (x.2.1, x.2.2.1, x.2.2.2.1.getD 2 0, x.2.2.2.2)) = [(1, 1, 0x3000, .ok)] := by decide +kernel

/-- Non-vacuity of `C26_no_overwrite_partial`, `C27_published_partial` and `C29_synchronised_partial`: a client about to write while another packet of it is
unanswered, and a client about to read. -/
example : let w := pagedRun (allOf .mmap 0) 4 8 (sendBy 0 (pkt readPkts 0) ++ [.call 0 (pkt readPkts 1)])
    ((w.cl 0).writing ⟨.mmap, 0, 0, false⟩).isSome = true ∧ (w.cl 0).started = true ∧ (w.cl 0).queue.length = 1 ∧ (w.cl 0).idx = 1 := by decide +kernel
example : let w := pagedRun (allOf .mmap 0) 4 8 (sendBy 0 (pkt readPkts 0) ++ [.dev, .callFlush 0, .poll 0])
    (w.cl 0).reading ⟨.mmap, 0, 0, false⟩ = true ∧ (w.cl 0).rd ≠ (w.cl 0).pub ∧ (w.cl 0).queue.length = 1 := by decide +kernel

/-! ### Violations -/

/-- Violation of C27: with interrupts the client waits for the first reply only (`mPublishedReplyPageCount` is not updated, 547-572),
so from then on it reads pages that the device has not published, and throws, although the device answers. -/
theorem C27_violated_interrupt :
    let w := pagedRun (allOf .intr 0) 4 8 (sendBy 0 (pkt readPkts 0) ++ [.dev, .callFlush 0, .event 0, .fetch 0, .unlock 0, .finish 0] ++
      sendBy 0 (pkt readPkts 1) ++ [.callFlush 0, .fetch 0])
    w.raced = false ∧ w.late = false ∧ w.dev.done = 1 ∧ (w.cl 0).got.map (·.2.1) = [0, 1] ∧ (w.cl 0).pc = .thrown := by decide +kernel

/-- Violation of C27 and C26 (and of C29, for a crash instead of an exception: `C29_violated_crash`): a read of 0x10 times out; the client
looks at the device again before it writes the next packet, a read of 0x20; the device answers the first packet only then. The client
takes the answer to the read of 0x10 as the value of 0x20: transaction identifiers start again at zero after an exception, so it is valid. -/
theorem C27_violated_stale :
    let w := pagedRun (allOf .poll 0) 4 8 (sendBy 0 (pkt retryPkts 0) ++ [.callFlush 0, .fail 0, .handler 0] ++
      [.call 0 (pkt retryPkts 1), .connect 0, .flock 0, .start 0, .dev, .write 0] ++ flushBy 0)
    w.raced = false ∧ (pkt retryPkts 1).send.getD 2 0 = 0x20 ∧ (pkt retryPkts 1).adds.length = 1 ∧
    (w.cl 0).got.map (fun x => (x.2.1, x.2.2.2.1.getD 2 0, x.2.2.2.2)) = [(1, 0x1000, .ok)] ∧ w.dev.ans.length = 1 ∧
    w.dev.reqs.map (·.getD 2 0) = [0x10, 0x20] ∧ (w.cl 0).pc = .idle := by decide +kernel

/-- Violation of C29: the same with two processes; the first one dies while its packet is unanswered. -/
theorem C29_violated_crash :
    let w := pagedRun (allOf .poll 0) 4 8 (sendBy 0 (pkt readPkts 0) ++ [.crash 0] ++
      [.call 1 (pkt retryPkts 1), .connect 1, .flock 1, .start 1, .dev, .write 1] ++ flushBy 1)
    w.raced = false ∧ (w.cl 1).got.map (fun x => (x.2.1, x.2.2.2.1.getD 2 0, x.2.2.2.2)) = [(1, 0x1000, .ok)] ∧ w.dev.ans.length = 1 ∧
    w.dev.reqs.map (·.getD 2 0) = [0x10, 0x20] ∧ (w.cl 1).pc = .idle := by decide +kernel

/-- Violation of C29, without exceptions and crashes: client 0 has released the lock and not yet ended its session when client 1 starts
one; then the end of the session of client 0 hides the session of client 1 from client 2, which does not look at the device again, and
takes the reply to client 1 as its own. -/
theorem C29_violated_race :
    let w := pagedRun (allOf .poll 0) 4 8 (sendBy 0 (pkt readPkts 0) ++ [.dev, .callFlush 0, .poll 0, .fetch 0, .unlock 0] ++
      [.call 1 (pkt readPkts 0), .connect 1, .flock 1, .start 1] ++ [.finish 0] ++ [.connect 2] ++ [.write 1, .dev] ++ flushBy 1 ++
      sendBy 2 (pkt retryPkts 1) ++ flushBy 2)
    w.late = false ∧ (w.cl 2).got.map (fun x => (x.2.1, x.2.2.1, x.2.2.2.1.getD 2 0, x.2.2.2.2)) = [(2, 1, 0x1000, .ok)] ∧ w.dev.ans.length = 2 ∧
    w.dev.reqs.map (·.getD 2 0) = [0x10, 0x10, 0x20] ∧ (w.cl 2).pc = .idle := by decide +kernel

/-- Violation of C26 for mmap: pages of more than 4096 words are taken to have 4096 (`connect`, 412), so that the second request is not
where the device expects it. -/
theorem C26_violated_clip :
    let w := pagedRun (allOf .mmap 0) 4 8192 (sendBy 0 (pkt readPkts 0) ++ sendBy 0 (pkt readPkts 1))
    w.dev.req (w.dev.page 1 * w.dev.size) = 0 ∧ w.dev.req 4096 = pageHeader 3 := by decide +kernel

/-- The packet of a single write: four words. -/
def writePkts : List Buf := progPkts [] [.write 0x10 1, .dispatch, .write 0x11 2, .dispatch, .write 0x12 3, .dispatch]

/-- Violation of C30: pages with an odd number of words. The word behind the packet, which is cleared, is the first one of the next page,
which holds a request that the device has not processed yet. -/
theorem C30_violated_neighbour :
    let as := sendBy 0 (pkt writePkts 0) ++ sendBy 0 (pkt writePkts 1) ++ [.dev, .call 0 (pkt writePkts 2), .poll 0, .fetch 0]
    let w := pagedRun (allOf .mmap 0) 2 5 as
    let w' := pagedRun (allOf .mmap 0) 2 5 (as ++ [.write 0])
    w.dev.done = 1 ∧ w.dev.req 5 = pageHeader 4 ∧ w'.dev.written = 3 ∧ w'.dev.done = 1 ∧ w'.dev.req 5 = 0 := by decide +kernel

/-- Violation of C30, with pages of even size: the word behind the packet is cleared although it does not belong to it. -/
theorem C30_violated_word {ρ : Type} (d : PDev ρ) (u : PCl) (hu : u.idx = 0) : ((u.write ⟨.mmap, 0, 0, false⟩ (pkt writePkts 0) d).1.req 5) = 0#32 := by
  have h : writeWords .mmap (pageHeader (pkt writePkts 0).send.length :: (pkt writePkts 0).send) =
      [0x10003#32, 0x200000F0#32, 0x2000011F#32, 0x10#32, 1#32, 0#32] := by decide +kernel
  show d.req.blit _ (writeWords .mmap _) 5 = 0#32
  rw [h, hu]
  simp [Mem.blit]

/-- Violation of C30: the offset of the device in the file is not a multiple of the page size. -/
theorem C30_violated_window : mmapRead 4092 8195 1 = some (36872, 4) ∧ mmapWrite 4092 32780 1 = some (36872, 8) ∧ mappedBytes = 36864 := by decide

/-- Violation of C30: a device that claims to have 2^18 pages of 4096 words; the read of the last page wraps the 32-bit sum. -/
theorem C30_violated_wrap : mmapRead 0 (4 + 0x3FFFF * 4096) 4093 = some (0xFFFFC010, 16372) := by decide

/-- Violation of C30: `mmap` fails in `getMaxSendSize`, so that no exception handler closes the file; the next access goes through
`(void*) -1`. -/
theorem C30_violated_pointer : let f : MFile := ⟨false, .null⟩
    (f.call (.access true false)).2 = .thrown ∧ ((f.call (.access true false)).1.call (.access true true)).2 = .wild := by decide

/-- Violation of C31: an mmap client with `max_in_flight=1` and two unanswered packets. -/
theorem C31_violated_mmap :
    ((pagedRun (allOf .mmap 1) 4 8 (sendBy 0 (pkt readPkts 0) ++ sendBy 0 (pkt readPkts 1))).cl 0).queue.length = 2 := by decide +kernel

/-- Non-vacuity of `C31_pcie_partial`: a PCIe client with the same attribute waits. -/
example : let w := pagedRun (allOf .poll 1) 4 8 (sendBy 0 (pkt readPkts 0) ++ sendBy 0 (pkt readPkts 1))
    (w.cl 0).queue.length = 1 ∧ (w.cl 0).reading ⟨.poll, 1, 0, false⟩ = true := by decide +kernel

end Verif
