import Verif.Model.Paged
/-! Invariants of PCIe and mmap clients. -/

set_option autoImplicit false
set_option linter.unusedSimpArgs false

namespace Verif

/-! ### Memory -/

theorem Mem.get_length (m : Mem) (a n : Nat) : (m.get a n).length = n := by simp [Mem.get]

theorem Mem.get_congr {m m' : Mem} {a n : Nat} (h : ∀ x, a ≤ x → x < a + n → m' x = m x) : m'.get a n = m.get a n := by
  apply List.map_congr_left
  intro i hi
  exact h (a + i) (by omega) (by have := List.mem_range.1 hi; omega)

theorem Mem.blit_other {m : Mem} {a x : Nat} {ws : List W} (h : x < a ∨ a + ws.length ≤ x) : m.blit a ws x = m x := by
  unfold Mem.blit
  split
  · rw [List.getElem?_eq_none (by omega)]; rfl
  · rfl

theorem Mem.blit_get {m : Mem} {a : Nat} {ws : List W} : (m.blit a ws).get a ws.length = ws := by
  apply List.ext_getElem
  · simp [Mem.get]
  · intro i h1 h2
    simp [Mem.get, Mem.blit, h2]

theorem Mem.get_take {m : Mem} {a n k : Nat} (h : n ≤ k) : (m.get a k).take n = m.get a n := by
  unfold Mem.get
  rw [← List.map_take, List.take_range, Nat.min_eq_left h]

theorem Mem.get_drop {m : Mem} {a k : Nat} : (m.get a (k + 1)).drop 1 = m.get (a + 1) k := by
  unfold Mem.get
  rw [List.range_succ_eq_map, List.map_cons, List.drop_one, List.tail_cons, List.map_map]
  apply List.map_congr_left
  intro i _
  show m (a + (i + 1)) = m (a + 1 + i)
  congr 1; omega

theorem Mem.get_head {m : Mem} {a k : Nat} (d : W) : (m.get a (k + 1)).headD d = m a := by
  unfold Mem.get
  rw [List.range_succ_eq_map]
  rfl

theorem Mem.get_cons {m : Mem} {a k : Nat} {h : W} {t : List W} (e : m.get a (k + 1) = h :: t) : m a = h ∧ m.get (a + 1) k = t := by
  have h1 := Mem.get_head (m := m) (a := a) (k := k) 0#32
  have h2 := Mem.get_drop (m := m) (a := a) (k := k)
  rw [e] at h1 h2
  exact ⟨h1.symm, h2.symm⟩

/-! ### Page headers -/

theorem pageWords_header {n : Nat} (h1 : 1 ≤ n) (h2 : n ≤ 65536) : pageWords (pageHeader n) = n := by
  unfold pageWords pageHeader
  have e : BitVec.ofNat 32 n - 1#32 = BitVec.ofNat 32 (n - 1) := by
    apply BitVec.eq_of_toNat_eq
    rw [BitVec.toNat_sub]
    simp only [BitVec.toNat_ofNat]
    omega
  rw [e]
  have hlo : (BitVec.ofNat 32 (n - 1) &&& 0xFFFF#32) = BitVec.ofNat 32 (n - 1) := by
    apply BitVec.eq_of_toNat_eq
    rw [BitVec.toNat_and]
    simp only [BitVec.toNat_ofNat]
    rw [show (65535 % 2 ^ 32 : Nat) = 2 ^ 16 - 1 from rfl, Nat.and_two_pow_sub_one_eq_mod]
    omega
  rw [hlo]
  have hor : (0x10000#32 ||| BitVec.ofNat 32 (n - 1)).toNat = 65536 + (n - 1) := by
    rw [BitVec.toNat_or]
    simp only [BitVec.toNat_ofNat]
    rw [show (65536 % 2 ^ 32 : Nat) = 2 ^ 16 * 1 from rfl, Nat.mod_eq_of_lt (by omega : n - 1 < 2 ^ 32),
      Nat.two_pow_add_eq_or_of_lt (by omega : n - 1 < 2 ^ 16) 1]
  rw [BitVec.toNat_ushiftRight, BitVec.toNat_and, hor, Nat.shiftRight_eq_div_pow]
  simp only [BitVec.toNat_ofNat]
  rw [show (65535 % 2 ^ 32 : Nat) = 2 ^ 16 - 1 from rfl, Nat.and_two_pow_sub_one_eq_mod]
  omega

/-! ### Pages -/

theorem page_ne {s p a b : Nat} (h1 : a < b) (h2 : b < a + p) : (s + a) % p ≠ (s + b) % p := by
  intro h
  have h3 : (s + b - (s + a)) % p = 0 := Nat.sub_mod_eq_zero_of_mod_eq h.symm
  rw [Nat.mod_eq_of_lt (by omega)] at h3
  omega

theorem page_sep {p q s x : Nat} (h : p ≠ q) (h1 : p * s ≤ x) (h2 : x < p * s + s) : x < q * s ∨ q * s + s ≤ x := by
  rcases Nat.lt_or_gt_of_ne h with h | h
  · left
    have := Nat.mul_le_mul_right s (show p + 1 ≤ q from h)
    rw [Nat.add_mul] at this; omega
  · right
    have := Nat.mul_le_mul_right s (show q + 1 ≤ p from h)
    rw [Nat.add_mul] at this; omega

theorem page_in {p n s : Nat} (h : p < n) : p * s + s ≤ n * s := by
  have := Nat.mul_le_mul_right s (show p + 1 ≤ n from h)
  rw [Nat.add_mul] at this; omega

/-! ### The invariant -/

/-- Requests processed one after the other. -/
inductive Served {ρ : Type} (resp : ρ → List W → Option (List W) × ρ) (size : Nat) : ρ → List (List W) → List (List W) → ρ → Prop
  | nil (e : ρ) : Served resp size e [] [] e
  | snoc {e e1 e2 : ρ} {qs as : List (List W)} {q r : List W} : Served resp size e qs as e1 → resp e1 q = (some r, e2) →
      Served resp size e (qs ++ [q]) (as ++ [r.take (size - 1)]) e2

/-- The words are in memory at `a`. -/
def Mem.holds (m : Mem) (a : Nat) (ws : List W) : Prop := m.get a ws.length = ws

/-- A page with a packet. -/
def framed (ws : List W) : List W := pageHeader ws.length :: ws

/-- Packets that fit a page. -/
def Fits (size : Nat) (ws : List W) : Prop := 1 ≤ ws.length ∧ ws.length + 1 ≤ size

/-- The set-up: the status words are sound, no client uses interrupts, mmap clients find pages of even size up to 4096 words. -/
structure PHyp {ρ : Type} (ps : Nat → PCfg) (resp : ρ → List W → Option (List W) × ρ) (d : PDev ρ) : Prop where
  pos : 0 < d.pages
  fits : 4 + d.pages * d.size ≤ 2 ^ 30
  sz : 2 ≤ d.size
  szM : d.size ≤ 0xFFFF
  kind : ∀ i, (ps i).kind ≠ .intr
  mm : ∀ i, (ps i).kind = .mmap → d.size ≤ 4096 ∧ d.size % 2 = 0
  ne : ∀ e q r e', resp e q = (some r, e') → r ≠ []

def PPc.ok (pc : PPc) : Prop := pc ≠ .thrown ∧ pc ≠ .dead

section
variable {ρ : Type}

structure DInv (resp : ρ → List W → Option (List W) × ρ) (e0 : ρ) (d : PDev ρ) : Prop where
  le : d.done ≤ d.written
  nr : d.reqs.length = d.written
  na : d.ans.length = d.done
  reql : ∀ q ∈ d.reqs, Fits d.size q
  ansl : ∀ a ∈ d.ans, Fits d.size a
  req : ∀ k q, d.done ≤ k → d.reqs[k]? = some q → d.req.holds (d.page k * d.size) (framed q)
  rep : ∀ k a, d.written ≤ k + d.pages → d.ans[k]? = some a → d.rep.holds (4 + d.page k * d.size) (framed a)
  served : ∃ e', Served resp d.size e0 (d.reqs.take d.done) d.ans e' ∧ (d.hung = false → e' = d.env)

/-- The client knows the state of the device. -/
structure Sync (p : PCfg) (d : PDev ρ) (u : PCl) : Prop where
  pages : u.pages = d.pages
  size : u.size = d.size
  idx : u.idx = d.page d.written
  maxIn : 0 < u.maxIn ∧ u.maxIn ≤ d.pages
  lim : u.queue.length ≤ u.limit p
  len : u.queue.length ≤ d.written
  num : u.queue.map Prod.snd = List.range' (d.written - u.queue.length) u.queue.length
  snd : d.reqs.drop (d.written - u.queue.length) = u.queue.map (·.1.send)
  rd : u.rd = d.count0 + BitVec.ofNat 32 (d.written - u.queue.length)
  pub : ∃ k, d.written - u.queue.length ≤ k ∧ k ≤ d.done ∧ u.pub = d.count0 + BitVec.ofNat 32 k

/-- The client believes that nobody has used the device since it looked. -/
def Fresh (u : PCl) (ctr : Nat) : Prop := u.connected = true ∧ u.ext = false ∧ u.sess = ctr ∧ u.pc.ok

structure PCI (p : PCfg) (d : PDev ρ) (ctr : Nat) (lock : Option Nat) (i : Nat) (u : PCl) : Prop where
  lk : u.have_ = true ↔ lock = some i
  st : u.started = true → u.have_ = true
  hc : u.have_ = true → u.connected = true
  q : u.started = false → u.queue = []
  sess : u.sess ≤ ctr
  fresh : Fresh u ctr → Sync p d u ∧ (u.started = false → d.done = d.written)
  run : u.started = true → u.pc.ok → u.ext = false ∧ u.sess = ctr
  fl : u.pc = .flushed → u.connected = true ∧ u.ext = false ∧ u.started = false ∧ u.have_ = false
  idl : u.pc = .idle ∨ u.pc = .flush → u.have_ = true → u.started = true
  flh : u.pc = .flush → u.have_ = true
  buf : ∀ b, u.pc = .disp b → Fits d.size b.send
  wt : u.waited = false

structure PG (ps : Nat → PCfg) (resp : ρ → List W → Option (List W) × ρ) (e0 : ρ) (w : PW ρ) : Prop where
  dev : DInv resp e0 w.dev
  act : w.active = false → w.dev.done = w.dev.written ∧ ∀ i, (w.cl i).started = false
  cl : ∀ i, PCI (ps i) w.dev w.ctr w.lock i (w.cl i)
  uniq : ∀ i j, i ≠ j → (w.cl i).started = true → ¬ Fresh (w.cl j) w.ctr

@[simp] theorem PW.set_self (w : PW ρ) (i : Nat) (u : PCl) : (w.set i u).cl i = u := by simp [PW.set]
theorem PW.set_ne (w : PW ρ) {i j : Nat} (u : PCl) (h : j ≠ i) : (w.set i u).cl j = w.cl j := by simp [PW.set, h]

variable {ps : Nat → PCfg} {resp : ρ → List W → Option (List W) × ρ} {e0 : ρ}

/-- A client changes, and perhaps the rest. -/
theorem PG.upd {w w' : PW ρ} {i : Nat} {u' : PCl} (hcl : w'.cl = w.cl)
    (hd : DInv resp e0 w'.dev) (ha : w'.active = false → w'.dev.done = w'.dev.written ∧ (∀ j, j ≠ i → (w.cl j).started = false) ∧ u'.started = false)
    (hi : PCI (ps i) w'.dev w'.ctr w'.lock i u') (ho : ∀ j, j ≠ i → PCI (ps j) w'.dev w'.ctr w'.lock j (w.cl j))
    (u1 : u'.started = true → ∀ j, j ≠ i → ¬ Fresh (w.cl j) w'.ctr) (u2 : Fresh u' w'.ctr → ∀ j, j ≠ i → (w.cl j).started = false)
    (u3 : ∀ j k, j ≠ i → k ≠ i → j ≠ k → (w.cl j).started = true → ¬ Fresh (w.cl k) w'.ctr) : PG ps resp e0 (w'.set i u') := by
  refine ⟨hd, ?_, ?_, ?_⟩
  · intro h
    obtain ⟨h1, h2, h3⟩ := ha h
    refine ⟨h1, fun j => ?_⟩
    by_cases hj : j = i
    · subst hj; rw [PW.set_self]; exact h3
    · rw [PW.set_ne _ _ hj, hcl]; exact h2 j hj
  · intro j
    by_cases hj : j = i
    · subst hj; rw [PW.set_self]; exact hi
    · rw [PW.set_ne _ _ hj, hcl]; exact ho j hj
  · intro j k hjk
    by_cases hj : j = i
    · subst hj
      rw [PW.set_self, PW.set_ne _ _ (Ne.symm hjk), hcl]
      exact fun h => u1 h k (Ne.symm hjk)
    · rw [PW.set_ne _ _ hj, hcl]
      by_cases hk : k = i
      · subst hk
        rw [PW.set_self]
        intro h hf
        rw [u2 hf j hj] at h; cases h
      · rw [PW.set_ne _ _ hk, hcl]
        exact u3 j k hj hk hjk

/-- Only one client changes. -/
theorem PG.loc {w : PW ρ} (h : PG ps resp e0 w) {i : Nat} {u' : PCl} (hi : PCI (ps i) w.dev w.ctr w.lock i u')
    (hs : u'.started = true → (w.cl i).started = true) (hf : Fresh u' w.ctr → Fresh (w.cl i) w.ctr ∨ w.active = false) :
    PG ps resp e0 (w.set i u') := by
  refine PG.upd rfl h.dev ?_ hi (fun j _ => h.cl j) ?_ ?_ fun j k _ _ => h.uniq j k
  · intro ha
    obtain ⟨h1, h2⟩ := h.act ha
    refine ⟨h1, fun j _ => h2 j, ?_⟩
    cases hx : u'.started with
    | false => rfl
    | true => have := hs hx; rw [h2 i] at this; cases this
  · intro hx j hj
    exact h.uniq i j (Ne.symm hj) (hs hx)
  · intro hx j hj
    cases hst : (w.cl j).started with
    | false => rfl
    | true =>
      rcases hf hx with hx | hx
      · exact absurd hx (h.uniq j i hj hst)
      · rw [(h.act hx).2 j] at hst; cases hst

/-- One client and the lock change. -/
theorem PG.locLock {w : PW ρ} (h : PG ps resp e0 w) {i : Nat} {u' : PCl} {l : Option Nat} (hi : PCI (ps i) w.dev w.ctr l i u')
    (hl : ∀ j, j ≠ i → (w.lock = some j ↔ l = some j)) (hs : u'.started = true → (w.cl i).started = true)
    (hf : Fresh u' w.ctr → Fresh (w.cl i) w.ctr) : PG ps resp e0 ({ w with lock := l }.set i u') := by
  refine PG.upd rfl h.dev ?_ hi ?_ ?_ ?_ fun j k _ _ => h.uniq j k
  · intro ha
    obtain ⟨h1, h2⟩ := h.act ha
    refine ⟨h1, fun j _ => h2 j, ?_⟩
    cases hx : u'.started with
    | false => rfl
    | true => have := hs hx; rw [h2 i] at this; cases this
  · intro j hj
    have := h.cl j
    exact ⟨by rw [this.lk]; exact hl j hj, this.st, this.hc, this.q, this.sess, this.fresh, this.run, this.fl, this.idl, this.flh, this.buf, this.wt⟩
  · intro hx j hj
    exact h.uniq i j (Ne.symm hj) (hs hx)
  · intro hx j hj
    cases hst : (w.cl j).started with
    | false => rfl
    | true => exact absurd (hf hx) (h.uniq j i hj hst)

theorem PW.release_lock (w : PW ρ) (i j : Nat) (hj : j ≠ i) : w.lock = some j ↔ (w.release i).lock = some j := by
  unfold PW.release
  simp only
  split
  · rename_i h; rw [h]; simp [Ne.symm hj]
  · exact Iff.rfl

theorem PW.release_self (w : PW ρ) (i : Nat) : (w.release i).lock ≠ some i := by
  unfold PW.release
  simp only
  split
  · simp
  · assumption

/-! ### Steps of a client -/

theorem PCl.connect_eq {p : PCfg} {d : PDev ρ} {a : Bool} {n : Nat} {u : PCl} (h0 : 0 < d.pages) (hs : d.size ≤ 0xFFFF)
    (hm : p.kind = .mmap → d.size ≤ 4096) :
    u.connect p d a n = { u with
      ext := a && !u.have_, sess := n, pages := d.pages
      maxIn := if u.maxIn = 0 ∨ u.maxIn > d.pages then d.pages else u.maxIn
      size := d.size, maxPkt := if u.maxPkt = 0 ∨ u.maxPkt ≥ d.size then (d.size + 2 ^ 32 - 1) % 2 ^ 32 else u.maxPkt
      idx := d.page d.done, pub := d.count, rd := d.count, connected := true } := by
  have e : (if p.kind = .mmap then min 4096 d.size else d.size) = d.size := by
    split
    · rename_i h; have := hm h; omega
    · rfl
  unfold PCl.connect
  rw [e]
  exact if_neg (by
    rintro (h | h)
    · omega
    · exact absurd (Nat.mod_lt (d.start + d.done) h0) (by simpa [PDev.page] using h))

theorem PCl.connect_sync {p : PCfg} {d : PDev ρ} {a : Bool} {n : Nat} {u : PCl} (h0 : 0 < d.pages) (hs : d.size ≤ 0xFFFF)
    (hm : p.kind = .mmap → d.size ≤ 4096) (hr : d.reqs.length = d.written) (hd : d.done = d.written) (hq : u.queue = []) :
    Sync p d (u.connect p d a n) := by
  rw [PCl.connect_eq h0 hs hm]
  refine ⟨rfl, rfl, ?_, ?_, ?_, ?_, ?_, ?_, ?_, d.done, ?_, Nat.le_refl _, ?_⟩
  · show d.page d.done = _; rw [hd]
  · show 0 < ite _ _ _ ∧ ite _ _ _ ≤ _
    split
    · exact ⟨h0, Nat.le_refl _⟩
    · omega
  · show u.queue.length ≤ _; rw [hq]; exact Nat.zero_le _
  · show u.queue.length ≤ _; rw [hq]; exact Nat.zero_le _
  · show u.queue.map _ = List.range' (_ - u.queue.length) u.queue.length; rw [hq]; rfl
  · show d.reqs.drop (_ - u.queue.length) = u.queue.map _; rw [hq]; simp [hr]
  · show d.count = d.count0 + BitVec.ofNat 32 (d.written - u.queue.length); rw [hq]; simp [PDev.count, hd]
  · show d.written - u.queue.length ≤ _; omega
  · rfl

/-- `Sync` looks at some fields only. -/
theorem Sync.same {p : PCfg} {d : PDev ρ} {u u' : PCl} (h : Sync p d u) (h1 : u'.pages = u.pages) (h2 : u'.size = u.size) (h3 : u'.idx = u.idx)
    (h4 : u'.maxIn = u.maxIn) (h5 : u'.queue = u.queue) (h6 : u'.rd = u.rd) (h7 : u'.pub = u.pub) : Sync p d u' := by
  have hl : u'.limit p = u.limit p := by unfold PCl.limit; rw [h1, h4]
  exact ⟨by rw [h1]; exact h.pages, by rw [h2]; exact h.size, by rw [h3]; exact h.idx, by rw [h4]; exact h.maxIn, by rw [h5, hl]; exact h.lim,
    by rw [h5]; exact h.len, by rw [h5]; exact h.num, by rw [h5]; exact h.snd, by rw [h5, h6]; exact h.rd, by rw [h5, h7]; exact h.pub⟩

/-- The queue is empty: the device has processed everything. -/
theorem Sync.idle {p : PCfg} {d : PDev ρ} {u : PCl} (h : Sync p d u) (hd : d.done ≤ d.written) (hq : u.queue = []) : d.done = d.written := by
  obtain ⟨k, h1, h2, _⟩ := h.pub
  rw [hq] at h1
  have : d.written ≤ k := h1
  omega

theorem PCl.writing_some {p : PCfg} {u : PCl} {b : Buf} (h : u.writing p = some b) :
    u.pc = .disp b ∧ u.connected = true ∧ u.queue.length ≠ u.limit p := by
  unfold PCl.writing at h
  split at h
  · rename_i b' hb
    split at h
    · rename_i hc
      injection h with h
      subst h
      simp only [Bool.and_eq_true, decide_eq_true_eq] at hc
      exact ⟨hb, hc.1, hc.2⟩
    · cases h
  · cases h

theorem PCl.writing_isSome {p : PCfg} {u : PCl} (h : (u.writing p).isSome) :
    ∃ b, u.pc = .disp b ∧ u.connected = true ∧ u.queue.length ≠ u.limit p := by
  cases hw : u.writing p with
  | none => rw [hw] at h; cases h
  | some b => exact ⟨b, PCl.writing_some hw⟩

theorem PCl.reading_pc {p : PCfg} {u : PCl} (h : u.reading p = true) : (∃ b, u.pc = .disp b) ∨ u.pc = .flush := by
  unfold PCl.reading at h
  split at h
  · rename_i b hb; exact Or.inl ⟨b, hb⟩
  · rename_i hb; exact Or.inr hb
  · cases h

theorem PPc.ok_disp (b : Buf) : (PPc.disp b).ok := by constructor <;> intro h <;> cases h
theorem PPc.ok_flush : PPc.flush.ok := by constructor <;> intro h <;> cases h
theorem PPc.ok_flushed : PPc.flushed.ok := by constructor <;> intro h <;> cases h
theorem PPc.ok_idle : PPc.idle.ok := by constructor <;> intro h <;> cases h

theorem PCl.reading_ok {p : PCfg} {u : PCl} (h : u.reading p = true) : u.pc.ok := by
  rcases PCl.reading_pc h with ⟨b, h⟩ | h <;> rw [h]
  · exact PPc.ok_disp b
  · exact PPc.ok_flush

theorem PCI.started_of_queue {p : PCfg} {d : PDev ρ} {n : Nat} {l : Option Nat} {i : Nat} {u : PCl} (h : PCI p d n l i u) (hq : u.queue ≠ []) :
    u.started = true := by
  cases hs : u.started with
  | true => rfl
  | false => exact absurd (h.q hs) hq

theorem PCI.fresh_of_started {p : PCfg} {d : PDev ρ} {n : Nat} {l : Option Nat} {i : Nat} {u : PCl} (h : PCI p d n l i u) (hs : u.started = true)
    (ho : u.pc.ok) : Fresh u n :=
  ⟨h.hc (h.st hs), (h.run hs ho).1, (h.run hs ho).2, ho⟩

/-- Two clients with a session: the same. -/
theorem PG.started_eq {w : PW ρ} (h : PG ps resp e0 w) {i j : Nat} (hi : (w.cl i).started = true) (hj : (w.cl j).started = true) : i = j := by
  have h1 := (h.cl i).lk.1 ((h.cl i).st hi)
  have h2 := (h.cl j).lk.1 ((h.cl j).st hj)
  rw [h1] at h2; injection h2

theorem PG.call {w : PW ρ} (h : PG ps resp e0 w) {i : Nat} {b : Buf} (hb : Fits w.dev.size b.send) (hp : (w.cl i).pc = .idle) :
    PG ps resp e0 (w.set i { w.cl i with pc := .disp b }) := by
  have hc := h.cl i
  have hf : Fresh { w.cl i with pc := .disp b } w.ctr → Fresh (w.cl i) w.ctr :=
    fun ⟨h1, h2, h3, _⟩ => ⟨h1, h2, h3, by rw [hp]; exact PPc.ok_idle⟩
  refine h.loc ⟨hc.lk, hc.st, hc.hc, hc.q, hc.sess, ?_, ?_, (by intro h; cases h), ?_, (by intro h; cases h), ?_, hc.wt⟩ (fun h => h) fun h => Or.inl (hf h)
  · intro hx
    exact ⟨(hc.fresh (hf hx)).1.same rfl rfl rfl rfl rfl rfl rfl, (hc.fresh (hf hx)).2⟩
  · intro hs _
    exact hc.run hs (by rw [hp]; exact PPc.ok_idle)
  · rintro (h | h) <;> cases h
  · intro b' hb'
    cases hb'
    exact hb

theorem PG.callFlush {w : PW ρ} (h : PG ps resp e0 w) {i : Nat} (hp : (w.cl i).pc = .idle) (hh : (w.cl i).have_ = true) :
    PG ps resp e0 (w.set i { w.cl i with pc := .flush }) := by
  have hc := h.cl i
  have hf : Fresh { w.cl i with pc := .flush } w.ctr → Fresh (w.cl i) w.ctr :=
    fun ⟨h1, h2, h3, _⟩ => ⟨h1, h2, h3, by rw [hp]; exact PPc.ok_idle⟩
  refine h.loc ⟨hc.lk, hc.st, hc.hc, hc.q, hc.sess, ?_, ?_, (by intro h; cases h), ?_, fun _ => hh, (by intro _ h; cases h), hc.wt⟩ (fun h => h) fun h => Or.inl (hf h)
  · intro hx
    exact ⟨(hc.fresh (hf hx)).1.same rfl rfl rfl rfl rfl rfl rfl, (hc.fresh (hf hx)).2⟩
  · intro hs _
    exact hc.run hs (by rw [hp]; exact PPc.ok_idle)
  · intro _ _
    exact hc.idl (Or.inl hp) hh

theorem PG.connect {w : PW ρ} (h : PG ps resp e0 w) (hp : PHyp ps resp w.dev) {i : Nat} (hk : (w.cl i).pc = .idle ∨ ∃ b, (w.cl i).pc = .disp b)
    (hn : (w.cl i).connected = false) : PG ps resp e0 (w.set i ((w.cl i).connect (ps i) w.dev w.active w.ctr)) := by
  have hc := h.cl i
  have hh : (w.cl i).have_ = false := by
    cases hx : (w.cl i).have_ with
    | false => rfl
    | true => have := hc.hc hx; rw [hn] at this; cases this
  have hs : (w.cl i).started = false := by
    cases hx : (w.cl i).started with
    | false => rfl
    | true => have := hc.st hx; rw [hh] at this; cases this
  have hsync := fun ha => PCl.connect_sync (a := w.active) (n := w.ctr) (p := ps i) hp.pos hp.szM (fun hm => (hp.mm i hm).1) h.dev.nr (h.act ha).1 (hc.q hs)
  rw [PCl.connect_eq hp.pos hp.szM fun hm => (hp.mm i hm).1] at hsync ⊢
  generalize hu : (w.cl i) = u at *
  have hact : ∀ u' : PCl, u'.ext = (w.active && !u.have_) → Fresh u' w.ctr → w.active = false := by
    intro u' he hf
    have := hf.2.1
    rw [he, hh] at this
    simpa using this
  refine h.loc ⟨hc.lk, hc.st, fun _ => rfl, hc.q, Nat.le_refl _, ?_, ?_, ?_, ?_, hc.flh, hc.buf, hc.wt⟩ ?_ ?_
  · intro hf
    have ha := hact _ rfl hf
    exact ⟨hsync ha, fun _ => (h.act ha).1⟩
  · intro hx
    rw [show u.started = true from hx] at hs; cases hs
  · intro hx
    rcases hk with hk | ⟨b, hk⟩ <;> rw [show u.pc = .flushed from hx] at hk <;> cases hk
  · intro _ hx
    rw [show u.have_ = true from hx] at hh; cases hh
  · intro hx; rw [hu]; exact hx
  · intro hf; exact Or.inr (hact _ rfl hf)

theorem PG.poll {w : PW ρ} (h : PG ps resp e0 w) {i : Nat} :
    PG ps resp e0 (w.set i { w.cl i with pub := w.dev.count }) := by
  have hc := h.cl i
  refine h.loc ⟨hc.lk, hc.st, hc.hc, hc.q, hc.sess, ?_, hc.run, hc.fl, hc.idl, hc.flh, hc.buf, hc.wt⟩ (fun h => h) fun h => Or.inl h
  intro hf
  obtain ⟨hs, hd⟩ := hc.fresh hf
  refine ⟨⟨hs.pages, hs.size, hs.idx, hs.maxIn, hs.lim, hs.len, hs.num, hs.snd, hs.rd, w.dev.done, ?_, Nat.le_refl _, rfl⟩, hd⟩
  obtain ⟨k, h1, h2, _⟩ := hs.pub
  exact Nat.le_trans h1 h2

theorem PG.flock {w : PW ρ} (h : PG ps resp e0 w) {i : Nat} (hw : ((w.cl i).writing (ps i)).isSome) (hh : (w.cl i).have_ = false) (hl : w.lock = none) :
    PG ps resp e0 ({ w with lock := some i }.set i { w.cl i with have_ := true, started := false }) := by
  have hc := h.cl i
  obtain ⟨b, hb, hcon, _⟩ := PCl.writing_isSome hw
  have hs : (w.cl i).started = false := by
    cases hx : (w.cl i).started with
    | false => rfl
    | true => have := hc.st hx; rw [hh] at this; cases this
  refine h.locLock (l := some i) ⟨by simp, (by intro h; cases h), fun _ => hcon, fun _ => hc.q hs, hc.sess, ?_, (by intro h; cases h), ?_, ?_, ?_, hc.buf, hc.wt⟩ ?_ (by intro h; cases h) fun h => h
  · intro hf
    obtain ⟨h1, h2⟩ := hc.fresh hf
    exact ⟨h1.same rfl rfl rfl rfl rfl rfl rfl, fun _ => h2 hs⟩
  · intro hx; rw [show (w.cl i).pc = .flushed from hx] at hb; cases hb
  · intro hx _
    rcases hx with hx | hx <;> rw [show (w.cl i).pc = _ from hx] at hb <;> cases hb
  · intro hx; rfl
  · intro j hj
    rw [hl]; simp [Ne.symm hj]

theorem PG.start {w : PW ρ} (h : PG ps resp e0 w) (hp : PHyp ps resp w.dev) {i : Nat} (hw : ((w.cl i).writing (ps i)).isSome)
    (hh : (w.cl i).have_ = true) (hst : (w.cl i).started = false) (hl : ¬ w.dev.done < w.dev.written) (l : Bool) :
    PG ps resp e0 ({ w with ctr := w.ctr + 1, active := true, late := l }.set i
      (if (w.cl i).ext = true ∨ w.ctr + 1 ≠ (w.cl i).sess + 1 then ({ w.cl i with started := true, sess := (w.cl i).sess + 1 } : PCl).connect (ps i) w.dev true (w.ctr + 1)
       else { w.cl i with started := true, sess := (w.cl i).sess + 1 })) := by
  have hc := h.cl i
  obtain ⟨b, hb, hcon, _⟩ := PCl.writing_isSome hw
  have hd : w.dev.done = w.dev.written := by have := h.dev.le; omega
  have hno : ∀ j, j ≠ i → (w.cl j).started = false := by
    intro j hj
    cases hx : (w.cl j).started with
    | false => rfl
    | true =>
      have h1 := (h.cl j).lk.1 ((h.cl j).st hx)
      rw [hc.lk.1 hh] at h1
      injection h1 with h1
      exact absurd h1.symm hj
  have hnf : ∀ j, ¬ Fresh (w.cl j) (w.ctr + 1) := by
    intro j hf
    have := (h.cl j).sess
    have := hf.2.2.1
    omega
  have ho : ∀ j, j ≠ i → PCI (ps j) w.dev (w.ctr + 1) w.lock j (w.cl j) := by
    intro j hj
    have hj' := h.cl j
    refine ⟨hj'.lk, hj'.st, hj'.hc, hj'.q, Nat.le_succ_of_le hj'.sess, fun hf => absurd hf (hnf j), ?_, hj'.fl, hj'.idl, hj'.flh, hj'.buf, hj'.wt⟩
    intro hx; rw [hno j hj] at hx; cases hx
  have key : ∀ u' : PCl, u'.have_ = true → u'.started = true → u'.connected = true → u'.ext = false → u'.sess = w.ctr + 1 → u'.pc = .disp b →
      u'.waited = (w.cl i).waited → Sync (ps i) w.dev u' →
      PG ps resp e0 ({ w with ctr := w.ctr + 1, active := true, late := l }.set i u') := by
    intro u' k1 k2 k3 k4 k5 k6 k7 k8
    refine PG.upd (w := w) rfl h.dev (by intro h; cases h) ?_ ho (fun _ j _ => hnf j) (fun _ => hno) fun j k hj _ _ hs => ?_
    · refine ⟨by rw [k1]; simp [hc.lk.1 hh], fun _ => k1, fun _ => k3, (by rw [k2]; intro h; cases h), Nat.le_of_eq k5, fun _ => ⟨k8, fun _ => hd⟩, fun _ _ => ⟨k4, k5⟩,
        (by rw [k6]; intro h; cases h), fun _ _ => k2, fun _ => k1, ?_, by rw [k7]; exact hc.wt⟩
      intro b' hb'
      rw [k6] at hb'
      exact hc.buf b' (by rw [hb]; exact hb')
    · rw [hno j hj] at hs; cases hs
  split
  · rename_i hx
    refine key _ ?_ ?_ ?_ ?_ ?_ ?_ ?_ ?_
    · rw [PCl.connect_eq hp.pos hp.szM fun hm => (hp.mm i hm).1]; exact hh
    · rw [PCl.connect_eq hp.pos hp.szM fun hm => (hp.mm i hm).1]
    · rw [PCl.connect_eq hp.pos hp.szM fun hm => (hp.mm i hm).1]
    · rw [PCl.connect_eq hp.pos hp.szM fun hm => (hp.mm i hm).1]
      show (true && !(w.cl i).have_) = false
      rw [hh]; rfl
    · rw [PCl.connect_eq hp.pos hp.szM fun hm => (hp.mm i hm).1]
    · rw [PCl.connect_eq hp.pos hp.szM fun hm => (hp.mm i hm).1]; exact hb
    · rw [PCl.connect_eq hp.pos hp.szM fun hm => (hp.mm i hm).1]
    · exact PCl.connect_sync hp.pos hp.szM (fun hm => (hp.mm i hm).1) h.dev.nr hd (hc.q hst)
  · rename_i hx
    have h1 : (w.cl i).ext = false := by
      cases he : (w.cl i).ext with
      | false => rfl
      | true => exact absurd (Or.inl he) hx
    have h2 : (w.cl i).sess = w.ctr := by
      have : ¬ (w.ctr + 1 ≠ (w.cl i).sess + 1) := fun hy => hx (Or.inr hy)
      omega
    have hs := (hc.fresh ⟨hcon, h1, h2, by rw [hb]; exact PPc.ok_disp b⟩).1
    exact key _ hh rfl hcon h1 (by show (w.cl i).sess + 1 = _; rw [h2]) hb rfl (hs.same rfl rfl rfl rfl rfl rfl rfl)

theorem PG.unlock {w : PW ρ} (h : PG ps resp e0 w) {i : Nat} (hpc : (w.cl i).pc = .flush) (hq : (w.cl i).queue = []) :
    PG ps resp e0 ((w.release i).set i { w.cl i with have_ := false, started := false, pc := .flushed }) := by
  have hc := h.cl i
  have hh := hc.flh hpc
  have hs := hc.idl (Or.inr hpc) hh
  have hok : (w.cl i).pc.ok := by rw [hpc]; exact PPc.ok_flush
  have hF := hc.fresh_of_started hs hok
  refine h.locLock (l := (w.release i).lock) ⟨?_, (by intro h; cases h), (by intro h; cases h), fun _ => hq, hc.sess, ?_, (by intro h; cases h), ?_, ?_, ?_, ?_, hc.wt⟩
    (fun j hj => PW.release_lock w i j hj) (by intro h; cases h) (fun _ => hF)
  · exact ⟨(by intro h; cases h), fun hx => absurd hx (PW.release_self w i)⟩
  · intro _
    have := (hc.fresh hF).1
    exact ⟨this.same rfl rfl rfl rfl rfl rfl rfl, fun _ => this.idle h.dev.le hq⟩
  · intro _
    exact ⟨hF.1, hF.2.1, rfl, rfl⟩
  · intro _ hx; cases hx
  · intro hx; cases hx
  · intro _ hx; cases hx

theorem PG.finish {w : PW ρ} (h : PG ps resp e0 w) {i : Nat} (hpc : (w.cl i).pc = .flushed) (hr : w.ctr = (w.cl i).sess) (r : Bool) :
    PG ps resp e0 ({ w with active := false, raced := r }.set i { w.cl i with pc := .idle }) := by
  have hc := h.cl i
  obtain ⟨h1, h2, h3, h4⟩ := hc.fl hpc
  have hF : Fresh (w.cl i) w.ctr := ⟨h1, h2, hr.symm, by rw [hpc]; exact PPc.ok_flushed⟩
  obtain ⟨hs, hd⟩ := hc.fresh hF
  have hno : ∀ j, j ≠ i → (w.cl j).started = false := by
    intro j hj
    cases hx : (w.cl j).started with
    | false => rfl
    | true => exact absurd hF (h.uniq j i hj hx)
  refine PG.upd (w := w) rfl h.dev (fun _ => ⟨hd h3, hno, h3⟩) ?_ (fun j _ => h.cl j) ?_ (fun _ => hno) fun j k _ _ => h.uniq j k
  · refine ⟨hc.lk, hc.st, hc.hc, hc.q, hc.sess, ?_, ?_, (by intro h; cases h), ?_, (by intro h; cases h), (by intro _ h; cases h), hc.wt⟩
    · intro _
      exact ⟨hs.same rfl rfl rfl rfl rfl rfl rfl, hd⟩
    · intro hx; rw [show (w.cl i).started = true from hx] at h3; cases h3
    · intro _ hx
      rw [show (w.cl i).have_ = true from hx] at h4; cases h4
  · intro hx; rw [show (w.cl i).started = true from hx] at h3; cases h3

theorem PG.fail {w : PW ρ} (h : PG ps resp e0 w) {i : Nat} :
    PG ps resp e0 (w.set i { w.cl i with pc := .thrown }) := by
  have hc := h.cl i
  refine h.loc ⟨hc.lk, hc.st, hc.hc, hc.q, hc.sess, fun hf => absurd rfl hf.2.2.2.1, fun _ ho => absurd rfl ho.1, (by intro h; cases h), ?_, (by intro h; cases h), (by intro _ h; cases h), hc.wt⟩
    (fun h => h) fun hf => absurd rfl hf.2.2.2.1
  rintro (h | h) <;> cases h

theorem PG.handler {w : PW ρ} (h : PG ps resp e0 w) {i : Nat} :
    PG ps resp e0 ((w.release i).set i { w.cl i with pc := .idle, queue := [], have_ := false, started := false, connected := false, waited := false }) := by
  have hc := h.cl i
  refine h.locLock (l := (w.release i).lock) ⟨⟨(by intro h; cases h), fun hx => absurd hx (PW.release_self w i)⟩, (by intro h; cases h), (by intro h; cases h), fun _ => rfl, hc.sess,
    (by rintro ⟨h, _⟩; cases h), (by intro h; cases h), (by intro h; cases h), (by intro _ h; cases h), (by intro h; cases h), (by intro _ h; cases h), rfl⟩
    (fun j hj => PW.release_lock w i j hj) (by intro h; cases h) (by rintro ⟨h, _⟩; cases h)

theorem PG.crash {w : PW ρ} (h : PG ps resp e0 w) {i : Nat} :
    PG ps resp e0 ((w.release i).set i { w.cl i with pc := .dead, queue := [], have_ := false, started := false }) := by
  have hc := h.cl i
  refine h.locLock (l := (w.release i).lock) ⟨⟨(by intro h; cases h), fun hx => absurd hx (PW.release_self w i)⟩, (by intro h; cases h), (by intro h; cases h), fun _ => rfl, hc.sess,
    fun hf => absurd rfl hf.2.2.2.2, (by intro h; cases h), (by intro h; cases h), (by intro _ h; cases h), (by intro h; cases h), (by intro _ h; cases h), hc.wt⟩
    (fun j hj => PW.release_lock w i j hj) (by intro h; cases h) fun hf => absurd rfl hf.2.2.2.2

theorem PG.halfStart {w : PW ρ} (h : PG ps resp e0 w) {i : Nat} (hh : (w.cl i).have_ = true) :
    PG ps resp e0 (({ w with ctr := w.ctr + 1 }.release i).set i { w.cl i with pc := .dead, queue := [], have_ := false, started := false }) := by
  have hc := h.cl i
  have hno : ∀ j, j ≠ i → (w.cl j).started = false := by
    intro j hj
    cases hx : (w.cl j).started with
    | false => rfl
    | true =>
      have h1 := (h.cl j).lk.1 ((h.cl j).st hx)
      rw [hc.lk.1 hh] at h1
      injection h1 with h1
      exact absurd h1.symm hj
  have hnf : ∀ j, ¬ Fresh (w.cl j) (w.ctr + 1) := by
    intro j hf
    have := (h.cl j).sess
    have := hf.2.2.1
    omega
  refine PG.upd (w := w) rfl h.dev ?_ ?_ ?_ (by intro h; cases h) (fun hf => absurd rfl hf.2.2.2.2) fun j k hj _ _ hs => ?_
  · intro ha
    obtain ⟨h1, h2⟩ := h.act ha
    exact ⟨h1, fun j _ => h2 j, rfl⟩
  · exact ⟨⟨(by intro h; cases h), fun hx => absurd hx (PW.release_self w i)⟩, (by intro h; cases h), (by intro h; cases h), fun _ => rfl, Nat.le_succ_of_le hc.sess,
      fun hf => absurd rfl hf.2.2.2.2, (by intro h; cases h), (by intro h; cases h), (by intro _ h; cases h), (by intro h; cases h), (by intro _ h; cases h), hc.wt⟩
  · intro j hj
    have hj' := h.cl j
    refine ⟨by rw [hj'.lk]; exact PW.release_lock w i j hj, hj'.st, hj'.hc, hj'.q, Nat.le_succ_of_le hj'.sess, fun hf => absurd hf (hnf j), ?_, hj'.fl, hj'.idl, hj'.flh, hj'.buf, hj'.wt⟩
    intro hx; rw [hno j hj] at hx; cases hx
  · rw [hno j hj] at hs; cases hs

/-! ### The device and the pages -/

theorem framed_length (ws : List W) : (framed ws).length = ws.length + 1 := rfl

/-- Pages of different requests do not overlap. -/
theorem Mem.holds_blit {m : Mem} {c p q s : Nat} {ws vs : List W} (h : m.holds (c + q * s) vs) (hne : p ≠ q) (hw : ws.length ≤ s) (hv : vs.length ≤ s) :
    (m.blit (c + p * s) ws).holds (c + q * s) vs := by
  unfold Mem.holds at h ⊢
  conv => rhs; rw [← h]
  apply Mem.get_congr
  intro x h1 h2
  apply Mem.blit_other
  rcases page_sep (s := s) (x := x - c) (Ne.symm hne) (by omega) (by omega) with h3 | h3
  · left; omega
  · right; omega

theorem Mem.holds_of_prefix {m : Mem} {a : Nat} {ws : List W} (ex : List W) : (m.blit a (ws ++ ex)).holds a ws := by
  unfold Mem.holds
  have := Mem.blit_get (m := m) (a := a) (ws := ws ++ ex)
  rw [← Mem.get_take (k := (ws ++ ex).length) (by simp), this]
  simp

theorem writeWords_prefix (k : PKind) (ws : List W) : ∃ ex, writeWords k ws = ws ++ ex := by
  unfold writeWords
  split
  · exact ⟨_, rfl⟩
  · exact ⟨[], by simp⟩

/-- What an mmap client writes fits the page, since pages have an even number of words. -/
theorem writeWords_length {k : PKind} {ws : List W} {s : Nat} (h : ws.length ≤ s) (hs : k = .mmap → s % 2 = 0) : (writeWords k ws).length ≤ s := by
  unfold writeWords
  split
  · rename_i hk
    have := hs hk.1
    rw [List.length_append, List.length_singleton]
    omega
  · exact h

theorem holds_page {m : Mem} {a : Nat} {ws : List W} (h : m.holds a (framed ws)) : m a = pageHeader ws.length ∧ m.get (a + 1) ws.length = ws :=
  Mem.get_cons h

/-- What `answer` does. -/
theorem PDev.answer_cases {d : PDev ρ} (hd : DInv resp e0 d) (hs : d.size ≤ 0xFFFF) :
    d.answer resp = d ∨ (∃ e, d.answer resp = { d with hung := true, env := e }) ∨
    ∃ q r e, d.done < d.written ∧ d.hung = false ∧ d.reqs[d.done]? = some q ∧ resp d.env q = (some r, e) ∧
      d.answer resp = { d with rep := d.rep.blit (4 + d.page d.done * d.size) (framed (r.take (d.size - 1))), done := d.done + 1, env := e, irq := true
                               ans := d.ans ++ [r.take (d.size - 1)] } := by
  unfold PDev.answer
  split
  · exact Or.inl rfl
  · rename_i hn
    right
    have hlt : d.done < d.written := by
      have : ¬ d.written ≤ d.done := fun h => hn (Or.inr h)
      omega
    have hh : d.hung = false := by
      cases hx : d.hung with
      | false => rfl
      | true => exact absurd (Or.inl hx) hn
    have hq : d.reqs[d.done]? = some (d.reqs[d.done]'(by rw [hd.nr]; exact hlt)) := List.getElem?_eq_getElem _
    generalize d.reqs[d.done]'(by rw [hd.nr]; exact hlt) = q at hq
    obtain ⟨h1, h2⟩ := holds_page (hd.req _ q (Nat.le_refl _) hq)
    have hf := hd.reql q (List.mem_of_getElem? hq)
    unfold Fits at hf
    have e : d.req.get (d.page d.done * d.size + 1) (pageWords (d.req (d.page d.done * d.size))) = q := by
      rw [h1, pageWords_header hf.1 (by omega)]; exact h2
    simp only [e]
    cases hr : resp d.env q with
    | mk r e =>
      cases r with
      | none => exact Or.inl ⟨e, rfl⟩
      | some r => exact Or.inr ⟨q, r, e, hlt, hh, hq, hr, rfl⟩

theorem DInv.answer {d : PDev ρ} (hp : PHyp ps resp d) (hd : DInv resp e0 d) : DInv resp e0 (d.answer resp) := by
  rcases PDev.answer_cases hd hp.szM with h | ⟨e, h⟩ | ⟨q, r, e, hlt, hh, hq, hr, h⟩ <;> rw [h]
  · exact hd
  · refine ⟨hd.le, hd.nr, hd.na, hd.reql, hd.ansl, hd.req, hd.rep, ?_⟩
    obtain ⟨e', h1, _⟩ := hd.served
    exact ⟨e', h1, by intro h; cases h⟩
  · have hsz := hp.sz
    have hfit : Fits d.size (r.take (d.size - 1)) := by
      have := hp.ne _ _ _ _ hr
      have : 0 < r.length := List.length_pos_iff.2 this
      unfold Fits
      rw [List.length_take]
      omega
    refine ⟨hlt, hd.nr, ?_, hd.reql, ?_, ?_, ?_, ?_⟩
    · show (d.ans ++ [_]).length = _ + 1
      rw [List.length_append, hd.na]; rfl
    · intro a ha
      rcases List.mem_append.1 ha with ha | ha
      · exact hd.ansl a ha
      · rw [List.mem_singleton.1 ha]; exact hfit
    · intro k q' hk hq'
      exact hd.req k q' (Nat.le_of_succ_le hk) hq'
    · intro k a hk ha
      rw [List.getElem?_append] at ha
      split at ha
      · rename_i hkl
        rw [hd.na] at hkl
        have hk : d.written ≤ k + d.pages := hk
        refine Mem.holds_blit (hd.rep k a hk ha) ?_ ?_ ?_
        · exact Ne.symm (page_ne (p := d.pages) hkl (by omega))
        · rw [framed_length]; exact hfit.2
        · rw [framed_length]; exact (hd.ansl a (List.mem_of_getElem? ha)).2
      · rename_i hkl
        rw [hd.na] at hkl ha
        rw [List.getElem?_singleton] at ha
        split at ha
        · rename_i hk0
          injection ha with ha
          have : k = d.done := by omega
          rw [← ha, this]
          exact Mem.blit_get
        · cases ha
    · obtain ⟨e', h1, h2⟩ := hd.served
      refine ⟨e, ?_, fun _ => rfl⟩
      show Served resp d.size e0 (d.reqs.take (d.done + 1)) _ e
      have : d.reqs.take (d.done + 1) = d.reqs.take d.done ++ [q] := by
        rw [List.take_add_one, hq]; rfl
      rw [this]
      exact .snoc h1 (by rw [h2 hh]; exact hr)

theorem PCI.dev {p : PCfg} {d d' : PDev ρ} {n : Nat} {l : Option Nat} {i : Nat} {u : PCl} (h : PCI p d n l i u) (hs : d'.size = d.size)
    (hf : Fresh u n → Sync p d' u ∧ (u.started = false → d'.done = d'.written)) : PCI p d' n l i u :=
  ⟨h.lk, h.st, h.hc, h.q, h.sess, hf, h.run, h.fl, h.idl, h.flh, by rw [hs]; exact h.buf, h.wt⟩

theorem PG.device {w : PW ρ} (h : PG ps resp e0 w) (hp : PHyp ps resp w.dev) : PG ps resp e0 { w with dev := w.dev.answer resp } := by
  have hd := h.dev.answer hp
  rcases PDev.answer_cases h.dev hp.szM with e | ⟨e', e⟩ | ⟨q, r, e', hlt, hh, hq, hr, e⟩ <;> rw [e] at hd ⊢
  · exact h
  · refine ⟨hd, h.act, fun i => ?_, h.uniq⟩
    have hc := h.cl i
    refine hc.dev rfl fun hf => ?_
    obtain ⟨h1, h2⟩ := hc.fresh hf
    exact ⟨⟨h1.pages, h1.size, h1.idx, h1.maxIn, h1.lim, h1.len, h1.num, h1.snd, h1.rd, h1.pub⟩, h2⟩
  · refine ⟨hd, ?_, fun i => ?_, h.uniq⟩
    · intro ha
      have := (h.act ha).1
      omega
    · have hc := h.cl i
      refine hc.dev rfl fun hf => ?_
      obtain ⟨h1, h2⟩ := hc.fresh hf
      obtain ⟨k, k1, k2, k3⟩ := h1.pub
      refine ⟨⟨h1.pages, h1.size, h1.idx, h1.maxIn, h1.lim, h1.len, h1.num, h1.snd, h1.rd, k, k1, Nat.le_succ_of_le k2, k3⟩, ?_⟩
      intro hs
      have := h2 hs
      omega

/-- Less than a full ring is unprocessed. -/
theorem Sync.room {p : PCfg} {d : PDev ρ} {u : PCl} (h : Sync p d u) (hl : u.queue.length ≠ u.limit p) : d.written < d.done + d.pages := by
  obtain ⟨k, h1, h2, _⟩ := h.pub
  have h3 := h.lim
  have h4 : u.limit p ≤ d.pages := by
    unfold PCl.limit
    split
    · rw [h.pages]; exact Nat.le_refl _
    · exact h.maxIn.2
  have := h.len
  omega

theorem Sync.addr {p : PCfg} {d : PDev ρ} {u : PCl} (h : Sync p d u) (h0 : 0 < d.pages) (hf : 4 + d.pages * d.size ≤ 2 ^ 30) (hs : 0 < d.size) :
    (u.idx * u.size) % 2 ^ 30 = d.page d.written * d.size := by
  rw [h.idx, h.size]
  apply Nat.mod_eq_of_lt
  have := page_in (s := d.size) (Nat.mod_lt (d.start + d.written) h0)
  unfold PDev.page
  omega

theorem DInv.write {p : PCfg} {d : PDev ρ} {u : PCl} {b : Buf} (h : DInv resp e0 d) (hy : Sync p d u) (h0 : 0 < d.pages)
    (hf : 4 + d.pages * d.size ≤ 2 ^ 30) (hm : p.kind = .mmap → d.size % 2 = 0) (hb : Fits d.size b.send) (hl : u.queue.length ≠ u.limit p) :
    DInv resp e0 (u.write p b d).1 := by
  have hroom := hy.room hl
  have hw : (writeWords p.kind (framed b.send)).length ≤ d.size := writeWords_length (by rw [framed_length]; exact hb.2) hm
  obtain ⟨ex, hex⟩ := writeWords_prefix p.kind (framed b.send)
  have hreq : (u.write p b d).1.req = d.req.blit (d.page d.written * d.size) (writeWords p.kind (framed b.send)) := by
    show d.req.blit _ _ = _
    rw [hy.addr h0 hf (by have := hb.2; omega)]
    rfl
  refine ⟨Nat.le_succ_of_le h.le, ?_, h.na, ?_, h.ansl, ?_, ?_, ?_⟩
  · show (d.reqs ++ [_]).length = _ + 1
    rw [List.length_append, h.nr]; rfl
  · intro q hq
    rcases List.mem_append.1 hq with hq | hq
    · exact h.reql q hq
    · rw [List.mem_singleton.1 hq]; exact hb
  · intro k q hk hq
    rw [hreq]
    have hk : d.done ≤ k := hk
    have hq : (d.reqs ++ [b.send])[k]? = some q := hq
    rw [List.getElem?_append] at hq
    split at hq
    · rename_i hkl
      rw [h.nr] at hkl
      have h1 := h.req k q hk hq
      have h2 := (h.reql q (List.mem_of_getElem? hq)).2
      have := Mem.holds_blit (c := 0) (p := d.page d.written) (q := d.page k) (s := d.size) (ws := writeWords p.kind (framed b.send)) (vs := framed q) (m := d.req)
        (by rw [Nat.zero_add]; exact h1) (Ne.symm (page_ne hkl (by omega))) hw (by rw [framed_length]; exact h2)
      rw [Nat.zero_add, Nat.zero_add] at this
      exact this
    · rename_i hkl
      rw [h.nr] at hkl hq
      rw [List.getElem?_singleton] at hq
      split at hq
      · injection hq with hq
        have : k = d.written := by omega
        rw [← hq, this, hex]
        exact Mem.holds_of_prefix ex
      · cases hq
  · intro k a hk ha
    have hk : d.written + 1 ≤ k + d.pages := hk
    exact h.rep k a (by show d.written ≤ k + d.pages; omega) ha
  · obtain ⟨e', h1, h2⟩ := h.served
    refine ⟨e', ?_, h2⟩
    show Served resp d.size e0 ((d.reqs ++ [b.send]).take d.done) d.ans e'
    rw [List.take_append_of_le_length (by rw [h.nr]; exact h.le)]
    exact h1

theorem Sync.write {p : PCfg} {d : PDev ρ} {u : PCl} {b : Buf} (h : Sync p d u) (hr : d.reqs.length = d.written) (hl : u.queue.length ≠ u.limit p) :
    Sync p (u.write p b d).1 (u.write p b d).2 := by
  have h1 := h.lim
  have h2 := h.len
  have e1 : d.written + 1 - (u.queue.length + 1) = d.written - u.queue.length := by omega
  have e2 : (u.queue ++ [(b, d.written)]).length = u.queue.length + 1 := by rw [List.length_append]; rfl
  refine ⟨h.pages, h.size, ?_, h.maxIn, ?_, ?_, ?_, ?_, ?_, ?_⟩
  · show (u.idx + 1) % u.pages = (d.start + (d.written + 1)) % d.pages
    rw [h.idx, h.pages]
    unfold PDev.page
    rw [Nat.mod_add_mod]; rfl
  · show (u.queue ++ [(b, d.written)]).length ≤ u.limit p
    omega
  · show (u.queue ++ [(b, d.written)]).length ≤ d.written + 1
    omega
  · show (u.queue ++ [(b, d.written)]).map Prod.snd = List.range' (d.written + 1 - (u.queue ++ [(b, d.written)]).length) (u.queue ++ [(b, d.written)]).length
    rw [e2, e1, List.map_append, h.num, List.range'_concat]
    congr 1
    show [d.written] = _
    congr 1; omega
  · show (d.reqs ++ [b.send]).drop (d.written + 1 - (u.queue ++ [(b, d.written)]).length) = (u.queue ++ [(b, d.written)]).map (·.1.send)
    rw [e2, e1, List.drop_append_of_le_length (by omega), h.snd, List.map_append]; rfl
  · show u.rd = d.count0 + BitVec.ofNat 32 (d.written + 1 - (u.queue ++ [(b, d.written)]).length)
    rw [e2, e1]; exact h.rd
  · show ∃ k, d.written + 1 - (u.queue ++ [(b, d.written)]).length ≤ k ∧ k ≤ d.done ∧ u.pub = d.count0 + BitVec.ofNat 32 k
    rw [e2, e1]; exact h.pub

theorem PG.write {w : PW ρ} (h : PG ps resp e0 w) (hp : PHyp ps resp w.dev) {i : Nat} {b : Buf} (hw : (w.cl i).writing (ps i) = some b)
    (hs : (w.cl i).started = true) :
    PG ps resp e0 ({ w with dev := ((w.cl i).write (ps i) b w.dev).1 }.set i ((w.cl i).write (ps i) b w.dev).2) := by
  have hc := h.cl i
  obtain ⟨hb, hcon, hl⟩ := PCl.writing_some hw
  have hok : (w.cl i).pc.ok := by rw [hb]; exact PPc.ok_disp b
  have hF := hc.fresh_of_started hs hok
  have hy := (hc.fresh hF).1
  refine PG.upd (w := w) rfl (h.dev.write hy hp.pos hp.fits (fun hm => (hp.mm i hm).2) (hc.buf b hb) hl) ?_ ?_ ?_ ?_ ?_ fun j k _ _ => h.uniq j k
  · intro ha
    have := (h.act ha).2 i
    rw [hs] at this; cases this
  · refine ⟨hc.lk, hc.st, hc.hc, ?_, hc.sess, fun _ => ⟨hy.write h.dev.nr hl, ?_⟩, fun _ _ => hc.run hs hok, (by intro h; cases h), fun _ _ => hs, (by intro h; cases h), (by intro _ h; cases h), hc.wt⟩
    · intro hx; rw [show (w.cl i).started = false from hx] at hs; cases hs
    · intro hx; rw [show (w.cl i).started = false from hx] at hs; cases hs
  · intro j hj
    exact (h.cl j).dev rfl fun hf => absurd hf (h.uniq i j (Ne.symm hj) hs)
  · intro _ j hj
    exact h.uniq i j (Ne.symm hj) hs
  · intro _ j hj
    cases hx : (w.cl j).started with
    | false => rfl
    | true => exact absurd hF (h.uniq j i hj hx)

/-! ### Reading a reply -/

/-- What the head of the queue stands for. -/
theorem Sync.head {p : PCfg} {d : PDev ρ} {u : PCl} {b : Buf} {k : Nat} {q : List (Buf × Nat)} (h : Sync p d u) (hq : u.queue = (b, k) :: q) :
    k + u.queue.length = d.written ∧ d.reqs[k]? = some b.send ∧ u.rd = d.count0 + BitVec.ofNat 32 k := by
  have h1 := h.num
  have h2 := h.snd
  have h3 := h.rd
  have h4 := h.len
  have hk : k = d.written - u.queue.length := by
    rw [hq] at h1
    simp only [List.map_cons, List.length_cons, List.range'_succ, List.cons.injEq] at h1
    rw [hq]; exact h1.1
  refine ⟨by omega, ?_, by rw [hk]; exact h3⟩
  rw [← hk] at h2
  have : (d.reqs.drop k)[0]? = some b.send := by rw [h2, hq]; rfl
  rw [List.getElem?_drop] at this
  exact this

/-- A new count of published pages has been seen: the reply is there. -/
theorem Sync.ready {p : PCfg} {d : PDev ρ} {u : PCl} {b : Buf} {k : Nat} {q : List (Buf × Nat)} (h : Sync p d u) (hq : u.queue = (b, k) :: q)
    (hr : u.rd ≠ u.pub) : k < d.done ∧ ∃ m, k < m ∧ m ≤ d.done ∧ u.pub = d.count0 + BitVec.ofNat 32 m := by
  obtain ⟨h1, _, h3⟩ := h.head hq
  obtain ⟨m, m1, m2, m3⟩ := h.pub
  have : m ≠ k := by
    intro hm
    rw [h3, m3, hm] at hr
    exact hr rfl
  exact ⟨by omega, m, by omega, m2, m3⟩

theorem Sync.limit_le {p : PCfg} {d : PDev ρ} {u : PCl} (h : Sync p d u) : u.limit p ≤ d.pages := by
  unfold PCl.limit
  split
  · rw [h.pages]; exact Nat.le_refl _
  · exact h.maxIn.2

/-- The page read is the page the request was written to. -/
theorem Sync.readPage {p : PCfg} {d : PDev ρ} {u : PCl} {b : Buf} {k : Nat} {q : List (Buf × Nat)} (h : Sync p d u) (hq : u.queue = (b, k) :: q)
    (h0 : 0 < d.pages) (hp : d.pages ≤ 2 ^ 30) : u.readPage = d.page k := by
  obtain ⟨h1, _, _⟩ := h.head hq
  have h2 := h.lim
  have h3 := h.limit_le
  unfold PCl.readPage PDev.page
  rw [h.idx, h.pages]
  unfold PDev.page
  have h4 := Nat.mod_lt (d.start + d.written) h0
  have e1 : ((d.start + d.written) % d.pages + 2 ^ 64 - u.queue.length + d.pages) % 2 ^ 64 = (d.start + d.written) % d.pages + (d.pages - u.queue.length) := by
    omega
  rw [e1]
  rw [Nat.mod_add_mod, ← h1]
  have : d.start + (k + u.queue.length) + (d.pages - u.queue.length) = d.start + k + d.pages := by omega
  rw [this, Nat.add_mod_right]

theorem readCount_ge (p : PCfg) (n : Nat) : ∃ m, readCount p n = m + 1 ∧ n ≤ m := by
  unfold readCount
  split
  · exact ⟨n + 4, rfl, by omega⟩
  · exact ⟨n, rfl, Nat.le_refl _⟩

/-- The words read are the answer of the device, up to the length the packet has room for. -/
theorem Sync.words {p : PCfg} {d : PDev ρ} {u : PCl} {b : Buf} {k : Nat} {q : List (Buf × Nat)} {a : List W} (h : Sync p d u) (hd : DInv resp e0 d)
    (hq : u.queue = (b, k) :: q) (h0 : 0 < d.pages) (hf : 4 + d.pages * d.size ≤ 2 ^ 30) (hs : 2 ≤ d.size) (hsM : d.size ≤ 0xFFFF)
    (ha : d.ans[k]? = some a) :
    (((d.rep.get ((4 + u.readPage * u.size) % 2 ^ 30) (readCount p b.replyWords)).drop 1).take b.replyWords).take
      (pageWords ((d.rep.get ((4 + u.readPage * u.size) % 2 ^ 30) (readCount p b.replyWords)).headD 0#32)) = a.take b.replyWords := by
  have hp : d.pages ≤ 2 ^ 30 := by
    have := Nat.mul_le_mul_left d.pages (show 1 ≤ d.size by omega)
    omega
  rw [h.readPage hq h0 hp, h.size]
  have hin := page_in (s := d.size) (Nat.mod_lt (d.start + k) h0)
  have hm : (4 + d.page k * d.size) % 2 ^ 30 = 4 + d.page k * d.size := by
    apply Nat.mod_eq_of_lt
    unfold PDev.page
    omega
  rw [hm]
  obtain ⟨m, e, hm'⟩ := readCount_ge p b.replyWords
  obtain ⟨h1, _, _⟩ := h.head hq
  have h2 := h.lim
  have h3 := h.limit_le
  obtain ⟨k1, k2⟩ := holds_page (hd.rep k a (by omega) ha)
  have hfa := hd.ansl a (List.mem_of_getElem? ha)
  unfold Fits at hfa
  rw [e, Mem.get_head, Mem.get_drop, Mem.get_take hm', k1, pageWords_header hfa.1 (by omega)]
  rcases Nat.le_total b.replyWords a.length with hle | hle
  · rw [List.take_of_length_le (by rw [Mem.get_length]; exact hle), ← Mem.get_take hle, k2]
  · rw [Mem.get_take hle, k2, List.take_of_length_le hle]

theorem PCl.fetch_cons {c : Cfg} {p : PCfg} {d : PDev ρ} {u : PCl} {b : Buf} {k : Nat} {q : List (Buf × Nat)} (hq : u.queue = (b, k) :: q) :
    ∃ ws r pc cr, u.fetch c p d = { u with rd := u.rd + 1#32, queue := q, waited := false, heap := r.2, got := u.got ++ [(b, k, u.readPage, ws, r.1)], pc := pc, crashed := cr } ∧
      ws = (((d.rep.get ((4 + u.readPage * u.size) % 2 ^ 30) (readCount p b.replyWords)).drop 1).take b.replyWords).take
        (pageWords ((d.rep.get ((4 + u.readPage * u.size) % 2 ^ 30) (readCount p b.replyWords)).headD 0#32)) ∧
      r = receiveReply c u.heap b ws ∧ (pc = u.pc ∧ r.1 = .ok ∨ pc = .thrown ∧ (∃ e, r.1 = .err e) ∨ pc = .dead ∧ r.1 = .ub) := by
  unfold PCl.fetch
  rw [hq]
  simp only
  generalize (((d.rep.get ((4 + u.readPage * u.size) % 2 ^ 30) (readCount p b.replyWords)).drop 1).take b.replyWords).take
        (pageWords ((d.rep.get ((4 + u.readPage * u.size) % 2 ^ 30) (readCount p b.replyWords)).headD 0#32)) = ws
  generalize hr : receiveReply c u.heap b ws = r
  refine ⟨ws, r, ?_⟩
  split
  · rename_i h; exact ⟨u.pc, u.crashed, rfl, rfl, hr.symm, Or.inl ⟨rfl, h⟩⟩
  · rename_i e h; exact ⟨.thrown, u.crashed, rfl, rfl, hr.symm, Or.inr (Or.inl ⟨rfl, e, h⟩)⟩
  · rename_i h; exact ⟨.dead, true, rfl, rfl, hr.symm, Or.inr (Or.inr ⟨rfl, h⟩)⟩

theorem PG.fetch {w : PW ρ} {c : Cfg} (h : PG ps resp e0 w) {i : Nat} {b : Buf} {k : Nat} {q : List (Buf × Nat)} (hq : (w.cl i).queue = (b, k) :: q)
    (hr : (w.cl i).reading (ps i) = true) (hn : (w.cl i).rd ≠ (w.cl i).pub) : PG ps resp e0 (w.set i ((w.cl i).fetch c (ps i) w.dev)) := by
  have hc := h.cl i
  have hok := PCl.reading_ok hr
  have hs := hc.started_of_queue (by rw [hq]; intro h; cases h)
  have hF := hc.fresh_of_started hs hok
  have hy := (hc.fresh hF).1
  obtain ⟨ws, r, pc, cr, e, _, _, hpc⟩ := PCl.fetch_cons (c := c) (p := ps i) (d := w.dev) hq
  rw [e]
  have hst : ∀ x, pc = x → x ≠ .thrown → x ≠ .dead → (w.cl i).pc = x := by
    intro x hx h1 h2
    rcases hpc with hp | hp | hp
    · rw [← hp.1]; exact hx
    · rw [hp.1] at hx; exact absurd hx.symm h1
    · rw [hp.1] at hx; exact absurd hx.symm h2
  refine h.loc ⟨hc.lk, hc.st, hc.hc, ?_, hc.sess, fun _ => ⟨?_, ?_⟩, fun _ _ => hc.run hs hok, ?_, fun _ _ => hs, fun _ => hc.st hs, ?_, rfl⟩ (fun h => h) fun _ => Or.inl hF
  · intro hx; rw [show (w.cl i).started = false from hx] at hs; cases hs
  · obtain ⟨h1, h2, h3⟩ := hy.head hq
    obtain ⟨hd, m, m1, m2, m3⟩ := hy.ready hq hn
    have hl : (w.cl i).queue.length = q.length + 1 := by rw [hq]; rfl
    have hnum := hy.num
    have hsnd := hy.snd
    have ek : w.dev.written - (w.cl i).queue.length = k := by omega
    have ek' : w.dev.written - q.length = k + 1 := by omega
    rw [ek] at hnum hsnd
    refine ⟨hy.pages, hy.size, hy.idx, hy.maxIn, ?_, ?_, ?_, ?_, ?_, m, ?_, m2, m3⟩
    · show q.length ≤ (w.cl i).limit (ps i)
      have := hy.lim; omega
    · show q.length ≤ _
      omega
    · show q.map Prod.snd = List.range' (w.dev.written - q.length) q.length
      rw [ek']
      rw [hq] at hnum
      simp only [List.map_cons, List.length_cons, List.range'_succ, List.cons.injEq] at hnum
      exact hnum.2
    · show w.dev.reqs.drop (w.dev.written - q.length) = q.map (·.1.send)
      rw [ek', ← List.drop_drop, hsnd, hq]; rfl
    · show (w.cl i).rd + 1#32 = w.dev.count0 + BitVec.ofNat 32 (w.dev.written - q.length)
      rw [ek', h3, BitVec.ofNat_add, BitVec.add_assoc]
    · show w.dev.written - q.length ≤ m
      omega
  · intro hx; rw [show (w.cl i).started = false from hx] at hs; cases hs
  · intro hx
    have := hst _ hx (by intro h; cases h) (by intro h; cases h)
    exact absurd (hc.fl this).2.2.1 (by rw [hs]; intro h; cases h)
  · intro b' hx
    exact hc.buf b' (hst _ hx (by intro h; cases h) (by intro h; cases h))

/-! ### What was read -/

/-- What an entry of the log says: the `k`-th request was this packet, the device answered it, the page read is its page, and
the words are the answer as far as there is room for them. -/
def Ent (c : Cfg) (d : PDev ρ) (e : Buf × Nat × Nat × List W × VOut) : Prop :=
  d.reqs[e.2.1]? = some e.1.send ∧ e.2.2.1 = d.page e.2.1 ∧
  (∃ a, d.ans[e.2.1]? = some a ∧ e.2.2.2.1 = a.take e.1.replyWords) ∧ ∃ h, e.2.2.2.2 = (receiveReply c h e.1 e.2.2.2.1).1

structure GI (c : Cfg) (w : PW ρ) : Prop where
  ent : ∀ i, ∀ e ∈ (w.cl i).got, Ent c w.dev e
  ord : ∀ i, ((w.cl i).got.map (·.2.1)).Pairwise (· < ·)
  bef : ∀ i j, ∀ e ∈ (w.cl j).got, e.2.1 + (w.cl i).queue.length < w.dev.written
  dis : ∀ i j, i ≠ j → ∀ e ∈ (w.cl i).got, ∀ f ∈ (w.cl j).got, e.2.1 ≠ f.2.1

/-- Nothing read, queue not longer. -/
theorem GI.upd {c : Cfg} {w w' : PW ρ} {i : Nat} {u' : PCl} (h : GI c w) (hcl : w'.cl = w.cl) (hg : u'.got = (w.cl i).got)
    (he : ∀ e, Ent c w.dev e → Ent c w'.dev e) (hw : w.dev.written ≤ w'.dev.written)
    (hq : u'.queue.length + w.dev.written ≤ (w.cl i).queue.length + w'.dev.written) : GI c (w'.set i u') := by
  have g : ∀ j, ((w'.set i u').cl j).got = (w.cl j).got := by
    intro j
    by_cases hj : j = i
    · subst hj; rw [PW.set_self]; exact hg
    · rw [PW.set_ne _ _ hj, hcl]
  refine ⟨?_, ?_, ?_, ?_⟩
  · intro j; rw [g j]; intro e hx; exact he e (h.ent j e hx)
  · intro j; rw [g j]; exact h.ord j
  · intro j k; rw [g k]
    intro e hx
    show _ < w'.dev.written
    by_cases hj : j = i
    · subst hj; rw [PW.set_self]
      have := h.bef j k e hx
      omega
    · rw [PW.set_ne _ _ hj, hcl]
      have := h.bef j k e hx
      omega
  · intro j k; rw [g j, g k]; exact h.dis j k

theorem GI.loc {c : Cfg} {w : PW ρ} {i : Nat} {u' : PCl} (h : GI c w) (hg : u'.got = (w.cl i).got) (hq : u'.queue.length ≤ (w.cl i).queue.length) :
    GI c (w.set i u') := h.upd rfl hg (fun _ h => h) (Nat.le_refl _) (by omega)

theorem GI.device {c : Cfg} {w : PW ρ} (h : GI c w) (hd : DInv resp e0 w.dev) (hs : w.dev.size ≤ 0xFFFF) : GI c { w with dev := w.dev.answer resp } := by
  have he : ∀ e, Ent c w.dev e → Ent c (w.dev.answer resp) e := by
    intro e he
    rcases PDev.answer_cases hd hs with h | ⟨_, h⟩ | ⟨q, r, e', _, _, _, _, h⟩ <;> rw [h]
    · exact he
    · exact he
    · obtain ⟨h1, h2, ⟨a, h3, h4⟩, h5⟩ := he
      exact ⟨h1, h2, ⟨a, by show (_ ++ [_])[_]? = _; rw [List.getElem?_append_left (List.getElem?_eq_some_iff.1 h3).1]; exact h3, h4⟩, h5⟩
  have hw : (w.dev.answer resp).written = w.dev.written := by
    rcases PDev.answer_cases hd hs with h | ⟨_, h⟩ | ⟨q, r, e', _, _, _, _, h⟩ <;> rw [h]
  exact ⟨fun i e hx => he e (h.ent i e hx), h.ord, fun i j e hx => by show _ < (w.dev.answer resp).written; rw [hw]; exact h.bef i j e hx, h.dis⟩

theorem GI.write {c : Cfg} {w : PW ρ} (h : GI c w) {i : Nat} {b : Buf} :
    GI c ({ w with dev := ((w.cl i).write (ps i) b w.dev).1 }.set i ((w.cl i).write (ps i) b w.dev).2) := by
  refine h.upd rfl rfl ?_ (Nat.le_succ _) ?_
  · rintro e ⟨h1, h2, h3, h4⟩
    exact ⟨by show (_ ++ [_])[_]? = _; rw [List.getElem?_append_left (List.getElem?_eq_some_iff.1 h1).1]; exact h1, h2, h3, h4⟩
  · show ((w.cl i).queue ++ [_]).length + w.dev.written ≤ (w.cl i).queue.length + (w.dev.written + 1)
    rw [List.length_append, List.length_singleton]
    omega

theorem GI.fetch {w : PW ρ} {c : Cfg} (h : PG ps resp e0 w) (hg : GI c w) (hp : PHyp ps resp w.dev) {i : Nat} {b : Buf} {k : Nat} {q : List (Buf × Nat)}
    (hq : (w.cl i).queue = (b, k) :: q) (hr : (w.cl i).reading (ps i) = true) (hn : (w.cl i).rd ≠ (w.cl i).pub) :
    GI c (w.set i ((w.cl i).fetch c (ps i) w.dev)) := by
  have hc := h.cl i
  have hok := PCl.reading_ok hr
  have hs := hc.started_of_queue (by rw [hq]; intro h; cases h)
  have hF := hc.fresh_of_started hs hok
  have hy := (hc.fresh hF).1
  obtain ⟨ws, r, pc, cr, e, e1, e2, _⟩ := PCl.fetch_cons (c := c) (p := ps i) (d := w.dev) hq
  obtain ⟨h1, h2, h3⟩ := hy.head hq
  obtain ⟨hd, _⟩ := hy.ready hq hn
  have hl : (w.cl i).queue.length = q.length + 1 := by rw [hq]; rfl
  have ha : w.dev.ans[k]? = some (w.dev.ans[k]'(by rw [h.dev.na]; exact hd)) := List.getElem?_eq_getElem _
  generalize w.dev.ans[k]'(by rw [h.dev.na]; exact hd) = a at ha
  have hws := hy.words h.dev hq hp.pos hp.fits hp.sz hp.szM ha
  rw [← e1] at hws
  have hpg : w.dev.pages ≤ 2 ^ 30 := by
    have h1 := hp.fits
    have h2 := hp.sz
    have := Nat.mul_le_mul_left w.dev.pages (show 1 ≤ w.dev.size by omega)
    omega
  have hnew : Ent c w.dev (b, k, (w.cl i).readPage, ws, r.1) :=
    ⟨h2, hy.readPage hq hp.pos hpg, ⟨a, ha, hws⟩, (w.cl i).heap, by rw [e2]⟩
  rw [e]
  have g : ∀ j, j ≠ i → ((w.set i { w.cl i with rd := (w.cl i).rd + 1#32, queue := q, waited := false, heap := r.2, got := (w.cl i).got ++ [(b, k, (w.cl i).readPage, ws, r.1)], pc := pc, crashed := cr }).cl j) = w.cl j :=
    fun j hj => PW.set_ne _ _ hj
  have hbk : ∀ j, ∀ f ∈ (w.cl j).got, f.2.1 < k := by
    intro j f hf
    have := hg.bef i j f hf
    omega
  refine ⟨?_, ?_, ?_, ?_⟩
  · intro j
    by_cases hj : j = i
    · subst hj
      rw [PW.set_self]
      intro f hf
      rcases List.mem_append.1 hf with hf | hf
      · exact hg.ent j f hf
      · rw [List.mem_singleton.1 hf]; exact hnew
    · rw [g j hj]; exact hg.ent j
  · intro j
    by_cases hj : j = i
    · subst hj
      rw [PW.set_self]
      show (((w.cl j).got ++ [_]).map _).Pairwise _
      rw [List.map_append, List.pairwise_append]
      refine ⟨hg.ord j, by simp, ?_⟩
      intro x hx y hy
      obtain ⟨f, hf, rfl⟩ := List.mem_map.1 hx
      have hy' : y = k := by simpa using hy
      rw [hy']
      exact hbk j f hf
    · rw [g j hj]; exact hg.ord j
  · intro j l f hf
    have hf' : f ∈ (w.cl l).got ∨ f.2.1 = k := by
      by_cases hl : l = i
      · subst hl
        rw [PW.set_self] at hf
        rcases List.mem_append.1 hf with hf | hf
        · exact Or.inl hf
        · rw [List.mem_singleton.1 hf]; exact Or.inr rfl
      · rw [g l hl] at hf; exact Or.inl hf
    show _ < w.dev.written
    by_cases hj : j = i
    · subst hj
      rw [PW.set_self]
      show f.2.1 + q.length < _
      rcases hf' with hf' | hf'
      · have := hbk l f hf'; omega
      · omega
    · rw [g j hj]
      have hqe : (w.cl j).queue = [] := by
        apply (h.cl j).q
        cases hx : (w.cl j).started with
        | false => rfl
        | true => exact absurd (h.started_eq hx hs) hj
      rw [hqe]
      show f.2.1 + 0 < _
      rcases hf' with hf' | hf'
      · have := hbk l f hf'; omega
      · omega
  · intro j l hjl f hf f' hf'
    by_cases hj : j = i
    · subst hj
      rw [g l (Ne.symm hjl)] at hf'
      rw [PW.set_self] at hf
      rcases List.mem_append.1 hf with hf | hf
      · exact hg.dis j l hjl f hf f' hf'
      · rw [List.mem_singleton.1 hf]
        have := hbk l f' hf'
        show k ≠ _
        omega
    · rw [g j hj] at hf
      by_cases hl : l = i
      · subst hl
        rw [PW.set_self] at hf'
        rcases List.mem_append.1 hf' with hf' | hf'
        · exact hg.dis j l hjl f hf f' hf'
        · rw [List.mem_singleton.1 hf']
          have := hbk j f hf
          show _ ≠ k
          omega
      · rw [g l hl] at hf'
        exact hg.dis j l hjl f hf f' hf'

/-! ### All schedules -/

/-- Packets given to the clients are neither empty nor too long for a page. -/
def PAct.fits (size : Nat) : PAct → Prop
  | .call _ b => Fits size b.send
  | _ => True

/-- The set-up does not change. -/
structure SameDev (d d' : PDev ρ) : Prop where
  pages : d'.pages = d.pages
  size : d'.size = d.size
  start : d'.start = d.start
  count0 : d'.count0 = d.count0

theorem SameDev.refl (d : PDev ρ) : SameDev d d := ⟨rfl, rfl, rfl, rfl⟩
theorem SameDev.trans {d d' d'' : PDev ρ} (h : SameDev d d') (h' : SameDev d' d'') : SameDev d d'' :=
  ⟨h'.pages.trans h.pages, h'.size.trans h.size, h'.start.trans h.start, h'.count0.trans h.count0⟩

theorem PHyp.same {d d' : PDev ρ} (h : PHyp ps resp d) (hs : SameDev d d') : PHyp ps resp d' :=
  ⟨by rw [hs.pages]; exact h.pos, by rw [hs.pages, hs.size]; exact h.fits, by rw [hs.size]; exact h.sz, by rw [hs.size]; exact h.szM, h.kind,
    by rw [hs.size]; exact h.mm, h.ne⟩

theorem answer_same (d : PDev ρ) : SameDev d (d.answer resp) := by
  unfold PDev.answer
  split
  · exact .refl d
  · simp only
    split <;> exact ⟨rfl, rfl, rfl, rfl⟩

theorem act_same (c : Cfg) (w : PW ρ) (a : PAct) : SameDev w.dev (w.act c ps resp a).dev := by
  cases a <;> simp only [PW.act]
  case dev => exact answer_same w.dev
  case connect i => split <;> first | exact .refl _ | (split <;> exact .refl _)
  case write i => split <;> first | exact .refl _ | (split <;> exact ⟨rfl, rfl, rfl, rfl⟩)
  case fail i => (repeat' split) <;> exact .refl _
  case crash i => exact .refl _
  all_goals (split <;> exact ⟨rfl, rfl, rfl, rfl⟩)

/-- The two ghost flags are never reset. -/
theorem act_flags (c : Cfg) (w : PW ρ) (a : PAct) : (w.raced = true → (w.act c ps resp a).raced = true) ∧ (w.late = true → (w.act c ps resp a).late = true) := by
  cases a <;> simp only [PW.act]
  case dev => exact ⟨id, id⟩
  case connect i => split <;> first | exact ⟨id, id⟩ | (split <;> exact ⟨id, id⟩)
  case write i => split <;> first | exact ⟨id, id⟩ | (split <;> exact ⟨id, id⟩)
  case fail i => (repeat' split) <;> exact ⟨id, id⟩
  case crash i => exact ⟨id, id⟩
  case start i =>
    split
    · refine ⟨id, fun h => ?_⟩
      show (w.late || _) = true
      rw [h]; rfl
    · exact ⟨id, id⟩
  case finish i =>
    split
    · refine ⟨fun h => ?_, id⟩
      show (w.raced || _) = true
      rw [h]; rfl
    · exact ⟨id, id⟩
  all_goals (split <;> exact ⟨id, id⟩)

theorem sched_flags (c : Cfg) (as : List PAct) : ∀ w : PW ρ,
    (w.raced = true → (w.sched c ps resp as).raced = true) ∧ (w.late = true → (w.sched c ps resp as).late = true) := by
  induction as with
  | nil => intro w; exact ⟨id, id⟩
  | cons a as ih =>
    intro w
    obtain ⟨h1, h2⟩ := act_flags (ps := ps) (resp := resp) c w a
    obtain ⟨h3, h4⟩ := ih (w.act c ps resp a)
    exact ⟨fun h => h3 (h1 h), fun h => h4 (h2 h)⟩

theorem PG.step {w : PW ρ} {c : Cfg} {a : PAct} (h : PG ps resp e0 w) (hg : GI c w) (hp : PHyp ps resp w.dev) (hf : a.fits w.dev.size)
    (hr : (w.act c ps resp a).raced = false) (hl : (w.act c ps resp a).late = false) :
    PG ps resp e0 (w.act c ps resp a) ∧ GI c (w.act c ps resp a) := by
  cases a
  case dev => exact ⟨h.device hp, hg.device h.dev hp.szM⟩
  case call i b =>
    simp only [PW.act]
    split
    · rename_i hx; exact ⟨h.call hf hx, hg.loc rfl (Nat.le_refl _)⟩
    · exact ⟨h, hg⟩
  case callFlush i =>
    simp only [PW.act]
    split
    · rename_i hx; exact ⟨h.callFlush hx.1 hx.2, hg.loc rfl (Nat.le_refl _)⟩
    · exact ⟨h, hg⟩
  case connect i =>
    have hgc : GI c (w.set i ((w.cl i).connect (ps i) w.dev w.active w.ctr)) := by
      rw [PCl.connect_eq hp.pos hp.szM fun hm => (hp.mm i hm).1]
      exact hg.loc rfl (Nat.le_refl _)
    simp only [PW.act]
    split
    · rename_i hx
      split
      · exact ⟨h, hg⟩
      · rename_i hn; exact ⟨h.connect hp (Or.inl hx) (by simpa using hn), hgc⟩
    · rename_i b hx
      split
      · exact ⟨h, hg⟩
      · rename_i hn; exact ⟨h.connect hp (Or.inr ⟨b, hx⟩) (by simpa using hn), hgc⟩
    · exact ⟨h, hg⟩
  case poll i =>
    simp only [PW.act]
    split
    · exact ⟨h.poll, hg.loc rfl (Nat.le_refl _)⟩
    · exact ⟨h, hg⟩
  case event i =>
    simp only [PW.act]
    split
    · rename_i hx; exact absurd hx.2.2.2.1 (hp.kind i)
    · exact ⟨h, hg⟩
  case fetch i =>
    simp only [PW.act]
    split
    · rename_i hx
      obtain ⟨hx, hy⟩ := hx
      have hn : (w.cl i).rd ≠ (w.cl i).pub := by
        rcases hy with hy | hy
        · exact hy
        · rw [(h.cl i).wt] at hy; cases hy
      cases hq : (w.cl i).queue with
      | nil =>
        have e : (w.cl i).fetch c (ps i) w.dev = w.cl i := by unfold PCl.fetch; rw [hq]
        rw [e]
        exact ⟨h.loc (h.cl i) id Or.inl, hg.loc rfl (Nat.le_refl _)⟩
      | cons x q =>
        obtain ⟨b, k⟩ := x
        exact ⟨h.fetch hq hx hn, hg.fetch h hp hq hx hn⟩
    · exact ⟨h, hg⟩
  case flock i =>
    simp only [PW.act]
    split
    · rename_i hx
      exact ⟨h.flock hx.1 hx.2.1 hx.2.2, hg.upd rfl rfl (fun _ h => h) (Nat.le_refl _) (Nat.le_refl _)⟩
    · exact ⟨h, hg⟩
  case start i =>
    simp only [PW.act] at hl ⊢
    split
    · rename_i hx
      rw [if_pos hx] at hl
      have hl : (w.late || decide (w.dev.done < w.dev.written)) = false := hl
      have hd : ¬ w.dev.done < w.dev.written := by
        intro hy
        rw [decide_eq_true hy, Bool.or_true] at hl
        cases hl
      refine ⟨h.start hp hx.1 hx.2.1 hx.2.2 hd _, ?_⟩
      refine hg.upd rfl ?_ (fun _ h => h) (Nat.le_refl _) ?_
      · split
        · rw [PCl.connect_eq hp.pos hp.szM fun hm => (hp.mm i hm).1]
        · rfl
      · split
        · rw [PCl.connect_eq hp.pos hp.szM fun hm => (hp.mm i hm).1]; exact Nat.le_refl _
        · exact Nat.le_refl _
    · exact ⟨h, hg⟩
  case write i =>
    simp only [PW.act]
    split
    · rename_i b hb
      split
      · rename_i hx; exact ⟨h.write hp hb hx.2, hg.write⟩
      · exact ⟨h, hg⟩
    · exact ⟨h, hg⟩
  case unlock i =>
    simp only [PW.act]
    split
    · rename_i hx; exact ⟨h.unlock hx.1 hx.2, hg.upd rfl rfl (fun _ h => h) (Nat.le_refl _) (Nat.le_refl _)⟩
    · exact ⟨h, hg⟩
  case finish i =>
    simp only [PW.act] at hr ⊢
    split
    · rename_i hx
      rw [if_pos hx] at hr
      have hr : (w.raced || decide (w.ctr ≠ (w.cl i).sess)) = false := hr
      have hd : w.ctr = (w.cl i).sess := by
        by_cases hy : w.ctr = (w.cl i).sess
        · exact hy
        · rw [decide_eq_true hy, Bool.or_true] at hr
          cases hr
      exact ⟨h.finish hx hd _, hg.upd rfl rfl (fun _ h => h) (Nat.le_refl _) (Nat.le_refl _)⟩
    · exact ⟨h, hg⟩
  case fail i =>
    simp only [PW.act]
    split
    · exact ⟨h.fail, hg.loc rfl (Nat.le_refl _)⟩
    · split
      · exact ⟨h, hg⟩
      · exact ⟨h.fail, hg.loc rfl (Nat.le_refl _)⟩
    · exact ⟨h, hg⟩
  case handler i =>
    simp only [PW.act]
    split
    · exact ⟨h.handler, hg.upd rfl rfl (fun _ h => h) (Nat.le_refl _) (by show 0 + w.dev.written ≤ _ + w.dev.written; omega)⟩
    · exact ⟨h, hg⟩
  case crash i =>
    simp only [PW.act]
    exact ⟨h.crash, hg.upd rfl rfl (fun _ h => h) (Nat.le_refl _) (by show 0 + w.dev.written ≤ _ + w.dev.written; omega)⟩
  case halfStart i =>
    simp only [PW.act]
    split
    · rename_i hx
      exact ⟨h.halfStart hx.2.1, hg.upd rfl rfl (fun _ h => h) (Nat.le_refl _) (by show 0 + w.dev.written ≤ _ + w.dev.written; omega)⟩
    · exact ⟨h, hg⟩

theorem PG.sched {c : Cfg} (as : List PAct) : ∀ {w : PW ρ}, PG ps resp e0 w → GI c w → PHyp ps resp w.dev → (∀ a ∈ as, a.fits w.dev.size) →
    (w.sched c ps resp as).raced = false → (w.sched c ps resp as).late = false →
    PG ps resp e0 (w.sched c ps resp as) ∧ GI c (w.sched c ps resp as) ∧ SameDev w.dev (w.sched c ps resp as).dev := by
  induction as with
  | nil => intro w h hg _ _ _ _; exact ⟨h, hg, .refl _⟩
  | cons a as ih =>
    intro w h hg hp hf hr hl
    have hs := act_same (ps := ps) (resp := resp) c w a
    have hfl := sched_flags (ps := ps) (resp := resp) c as (w.act c ps resp a)
    have f1 : ∀ b b' : Bool, (b = true → b' = true) → b' = false → b = false := by decide
    obtain ⟨h1, h2⟩ := PG.step h hg hp (hf a List.mem_cons_self) (f1 _ _ hfl.1 hr) (f1 _ _ hfl.2 hl)
    obtain ⟨h3, h4, h5⟩ := ih h1 h2 (hp.same hs) (by rw [hs.size]; exact fun b hb => hf b (List.mem_cons_of_mem _ hb)) hr hl
    exact ⟨h3, h4, hs.trans h5⟩

theorem PG.init (c : Cfg) (ps : Nat → PCfg) (resp : ρ → List W → Option (List W) × ρ) (pages size start : Nat) (count0 : W) (e : ρ) :
    PG ps resp e (PW.init ps pages size start count0 e) ∧ GI c (PW.init ps pages size start count0 e) := by
  refine ⟨⟨⟨Nat.le_refl _, rfl, rfl, (by intro _ h; cases h), (by intro _ h; cases h), (by intro _ _ _ h; cases h), (by intro _ _ _ h; cases h), e, .nil e, fun _ => rfl⟩,
    fun _ => ⟨rfl, fun _ => rfl⟩, fun i => ?_, (by intro _ _ _ h; cases h)⟩, (by intro _ _ h; cases h), fun _ => List.Pairwise.nil, (by intro _ _ _ h; cases h), (by intro _ _ _ _ h; cases h)⟩
  exact ⟨⟨(by intro h; cases h), (by intro h; cases h)⟩, (by intro h; cases h), (by intro h; cases h), fun _ => rfl, Nat.le_refl _, (by rintro ⟨h, _⟩; cases h), (by intro h; cases h), (by intro h; cases h),
    (by intro _ h; cases h), (by intro h; cases h), (by intro _ h; cases h), rfl⟩

/-- Everything reachable. -/
theorem paged_inv {c : Cfg} {as : List PAct} {pages size start : Nat} {count0 : W} {e : ρ} {w : PW ρ}
    (hw : w = (PW.init ps pages size start count0 e).sched c ps resp as) (hp : PHyp ps resp (PW.init ps pages size start count0 e).dev)
    (hf : ∀ a ∈ as, a.fits size) (hr : w.raced = false) (hl : w.late = false) :
    PG ps resp e w ∧ GI c w ∧ PHyp ps resp w.dev ∧ SameDev (PW.init ps pages size start count0 e).dev w.dev := by
  subst hw
  obtain ⟨h1, h2⟩ := PG.init c ps resp pages size start count0 e
  obtain ⟨h3, h4, h5⟩ := PG.sched (c := c) as h1 h2 hp hf hr hl
  exact ⟨h3, h4, hp.same h5, h5⟩

end

end Verif
