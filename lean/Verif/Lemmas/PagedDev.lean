import Verif.Lemmas.PagedLink
/-!
# One PCIe or mmap client and its device

When nobody else uses the device and no access fails, a client whose packets the device answers (`PB`) reads the answers to all of its
packets, in order, and throws no exception: `Solo` is an invariant of all steps.
-/

set_option autoImplicit false
set_option linter.unusedSimpArgs false

namespace Verif

section
variable {ρ : Type} {resp : ρ → List W → Option (List W) × ρ} {size : Nat}

theorem Served.len {e e' : ρ} {qs as : List (List W)} (h : Served resp size e qs as e') : qs.length = as.length := by
  induction h with
  | nil => rfl
  | snoc _ _ ih => simp [ih]

theorem Served.det {e e1 e2 : ρ} {qs as as' : List (List W)} (h : Served resp size e qs as e1) (h' : Served resp size e qs as' e2) : e1 = e2 := by
  induction h generalizing as' e2 with
  | nil =>
    generalize hx : ([] : List (List W)) = x at h'
    cases h' with
    | nil => rfl
    | snoc _ _ => simp at hx
  | snoc hs hr ih =>
    rename_i qs _ q r
    generalize hx : qs ++ [q] = x at h'
    cases h' with
    | nil => simp at hx
    | snoc hs' hr' =>
      obtain ⟨rfl, h2⟩ := List.append_inj' hx rfl
      injection h2 with h2
      subst h2
      have := ih hs'
      subst this
      rw [hr] at hr'
      injection hr'

theorem Served.at {e e' : ρ} {qs as : List (List W)} (h : Served resp size e qs as e') {k : Nat} {q : List W} (hk : qs[k]? = some q) :
    ∃ e1 e2 r as1, Served resp size e (qs.take k) as1 e1 ∧ resp e1 q = (some r, e2) ∧ as[k]? = some (r.take (size - 1)) := by
  induction h with
  | nil => cases hk
  | snoc hs hr ih =>
    rename_i qs as q' r
    have hl := hs.len
    by_cases hlt : k < qs.length
    · rw [List.getElem?_append_left hlt] at hk
      obtain ⟨e1, e2, r1, as1, h1, h2, h3⟩ := ih hk
      refine ⟨e1, e2, r1, as1, ?_, h2, ?_⟩
      · rw [List.take_append_of_le_length (by omega)]; exact h1
      · rw [List.getElem?_append_left (by omega)]; exact h3
    · have : k = qs.length := by
        have := (List.getElem?_eq_some_iff.1 hk).1
        simp at this
        omega
      subst this
      simp only [List.length_append, List.length_singleton, List.getElem?_append_right (Nat.le_refl _), Nat.sub_self, List.getElem?_cons_zero, Option.some.injEq] at hk
      subst hk
      refine ⟨_, _, r, as, ?_, hr, ?_⟩
      · simpa using hs
      · rw [hl]; simp

end

/-- A packet the device answers, whatever its state, and whose answer the client accepts. -/
structure PB {ρ : Type} (c : Cfg) (resp : ρ → List W → Option (List W) × ρ) (size : Nat) (b : Buf) : Prop where
  fits : Fits size b.send
  room : b.replyWords + 1 ≤ size
  ans : ∀ e, ∃ r e', resp e b.send = (some r, e') ∧ r.length = b.replyWords ∧ ∀ h, (receiveReply c h b r).1 = .ok

/-- Client `i`, the device `w.dev`, which was in state `e` in the beginning. -/
structure Solo {ρ : Type} (c : Cfg) (ps : Nat → PCfg) (resp : ρ → List W → Option (List W) × ρ) (size i : Nat) (e : ρ) (w : PW ρ) : Prop where
  pg : PG ps resp e w
  gi : GI c w
  hp : PHyp ps resp w.dev
  sz : w.dev.size = size
  raced : w.raced = false
  late : w.late = false
  pc : (w.cl i).pc.ok
  good : ∀ x ∈ (w.cl i).got, x.2.2.2.2 = .ok
  num : (w.cl i).got.map (·.2.1) = List.range (w.cl i).got.length
  cnt : (w.cl i).got.length + (w.cl i).queue.length = w.dev.written
  qb : ∀ x ∈ (w.cl i).queue, PB c resp size x.1
  db : ∀ b, (w.cl i).pc = .disp b → PB c resp size b
  rq : ∀ q ∈ w.dev.reqs, ∀ e, ∃ r e', resp e q = (some r, e')
  hung : w.dev.hung = false
  fl : (w.cl i).pc = .flushed → (w.cl i).sess = w.ctr
  fol : ∃ e', Follows resp e ((w.cl i).got.map PGot.out) e' ∧ ∃ as, Served resp size e ((w.cl i).got.map (·.1.send)) as e'

section
variable {ρ : Type} {c : Cfg} {ps : Nat → PCfg} {resp : ρ → List W → Option (List W) × ρ} {size i : Nat} {e : ρ} {w w' : PW ρ}

/-- Steps of the device and of the client, without failures and without new calls. -/
def PAct.tame (i : Nat) (a : PAct) : Prop :=
  a = .dev ∨ a.who = some i ∧ a ≠ .fail i ∧ a ≠ .crash i ∧ a ≠ .halfStart i ∧ a ≠ .handler i ∧ ∀ b, a ≠ .call i b

theorem Solo.frame (h : Solo c ps resp size i e w) (h1 : PG ps resp e w') (h2 : GI c w') (h3 : SameDev w.dev w'.dev)
    (h4 : w'.raced = false) (h5 : w'.late = false) (h6 : (w'.cl i).pc.ok) (h7 : (w'.cl i).got = (w.cl i).got) (h8 : (w'.cl i).queue = (w.cl i).queue)
    (h9 : w'.dev.written = w.dev.written) (h10 : ∀ b, (w'.cl i).pc = .disp b → PB c resp size b) (h11 : w'.dev.reqs = w.dev.reqs) (h12 : w'.dev.hung = false)
    (h13 : (w'.cl i).pc = .flushed → (w'.cl i).sess = w'.ctr) : Solo c ps resp size i e w' :=
  ⟨h1, h2, h.hp.same h3, by rw [h3.size]; exact h.sz, h4, h5, h6, by rw [h7]; exact h.good, by rw [h7]; exact h.num, by rw [h7, h8, h9]; exact h.cnt,
    by rw [h8]; exact h.qb, h10, by rw [h11]; exact h.rq, h12, h13, by rw [h7]; exact h.fol⟩

/-- All that was written has been answered when nothing is queued. -/
theorem Solo.done (h : Solo c ps resp size i e w) (hq : (w.cl i).queue = []) : w.dev.done = w.dev.written := by
  have hc := h.cnt
  rw [hq, List.length_nil, Nat.add_zero] at hc
  have hle := h.pg.dev.le
  by_cases h0 : w.dev.written = 0
  · omega
  · have hm : w.dev.written - 1 ∈ (w.cl i).got.map (·.2.1) := by
      rw [h.num, List.mem_range]; omega
    obtain ⟨x, hx, hk⟩ := List.mem_map.1 hm
    obtain ⟨_, _, ⟨a, ha, _⟩, _⟩ := h.gi.ent i x hx
    have := (List.getElem?_eq_some_iff.1 ha).1
    rw [h.pg.dev.na] at this
    have hk : x.2.1 = w.dev.written - 1 := hk
    omega

theorem Solo.flags (h : Solo c ps resp size i e w) {a : PAct} (ha : a.tame i) : (w.act c ps resp a).raced = false ∧ (w.act c ps resp a).late = false := by
  have hs : ∀ (w' : PW ρ) (j : Nat) (u : PCl), (w'.set j u).raced = w'.raced ∧ (w'.set j u).late = w'.late := fun _ _ _ => ⟨rfl, rfl⟩
  rcases ha with rfl | ⟨ha, h1, h2, h3, h4⟩
  · exact ⟨h.raced, h.late⟩
  · cases a <;> simp only [PAct.who, Option.some.injEq, reduceCtorEq] at ha <;> subst ha <;> simp only [PW.act]
    case start i =>
      split
      · rename_i hx
        refine ⟨h.raced, ?_⟩
        show (w.late || decide (w.dev.done < w.dev.written)) = false
        rw [h.late, h.done ((h.pg.cl i).q hx.2.2)]
        simp
      · exact ⟨h.raced, h.late⟩
    case finish i =>
      split
      · rename_i hx
        refine ⟨?_, h.late⟩
        show (w.raced || decide (w.ctr ≠ (w.cl i).sess)) = false
        rw [h.raced, h.fl hx]
        simp
      · exact ⟨h.raced, h.late⟩
    all_goals (repeat' split) <;> exact ⟨h.raced, h.late⟩

theorem Solo.dev (h : Solo c ps resp size i e w) : (w.dev.answer resp).hung = false ∧ (w.dev.answer resp).written = w.dev.written ∧
    (w.dev.answer resp).reqs = w.dev.reqs := by
  rcases PDev.answer_cases h.pg.dev h.hp.szM with hx | ⟨e', hx⟩ | ⟨q, r, e', _, _, _, _, hx⟩
  · rw [hx]; exact ⟨h.hung, rfl, rfl⟩
  · exfalso
    have hd := h.pg.dev
    unfold PDev.answer at hx
    split at hx
    · have := congrArg PDev.hung hx
      rw [h.hung] at this
      cases this
    · rename_i hn
      have hlt : w.dev.done < w.dev.written := by
        have : ¬ w.dev.written ≤ w.dev.done := fun h => hn (Or.inr h)
        omega
      have hq : w.dev.reqs[w.dev.done]? = some (w.dev.reqs[w.dev.done]'(by rw [hd.nr]; exact hlt)) := List.getElem?_eq_getElem _
      generalize w.dev.reqs[w.dev.done]'(by rw [hd.nr]; exact hlt) = q at hq
      obtain ⟨h1, h2⟩ := holds_page (hd.req _ q (Nat.le_refl _) hq)
      have hf := hd.reql q (List.mem_of_getElem? hq)
      have hsz := h.hp.szM
      unfold Fits at hf
      have e2 : w.dev.req.get (w.dev.page w.dev.done * w.dev.size + 1) (pageWords (w.dev.req (w.dev.page w.dev.done * w.dev.size))) = q := by
        rw [h1, pageWords_header hf.1 (by omega)]; exact h2
      obtain ⟨r, e3, hr⟩ := h.rq q (List.mem_of_getElem? hq) w.dev.env
      simp only [e2, hr] at hx
      have := congrArg PDev.hung hx
      simp only at this
      rw [h.hung] at this
      cases this
  · rw [hx]; exact ⟨h.hung, rfl, rfl⟩

/-- The words of an answer are those of the device, all of them, and they are accepted. -/
theorem Solo.read (h : Solo c ps resp size i e w) {b : Buf} {k : Nat} {q : List (Buf × Nat)} (hq : (w.cl i).queue = (b, k) :: q)
    (hrd : (w.cl i).reading (ps i) = true) (hn : (w.cl i).rd ≠ (w.cl i).pub)
    (h1 : PG ps resp e (w.set i ((w.cl i).fetch c (ps i) w.dev))) (h2 : GI c (w.set i ((w.cl i).fetch c (ps i) w.dev))) :
    Solo c ps resp size i e (w.set i ((w.cl i).fetch c (ps i) w.dev)) := by
  have hc := h.pg.cl i
  have hok := PCl.reading_ok hrd
  have hs := hc.started_of_queue (by rw [hq]; intro h; cases h)
  have hy := (hc.fresh (hc.fresh_of_started hs hok)).1
  obtain ⟨hk, hrq, _⟩ := hy.head hq
  have hkn : k = (w.cl i).got.length := by have := h.cnt; omega
  obtain ⟨hkd, _⟩ := hy.ready hq hn
  obtain ⟨ws, r, pc, cr, he, _, hre, hpc⟩ := PCl.fetch_cons (c := c) (p := ps i) (d := w.dev) hq
  have hb := h.qb (b, k) (by rw [hq]; exact List.mem_cons_self)
  -- the new entry
  have hent := h2.ent i (b, k, (w.cl i).readPage, ws, r.1) (by rw [PW.set_self, he]; simp)
  obtain ⟨_, _, ⟨a, ha, hwa⟩, _⟩ := hent
  have ha : w.dev.ans[k]? = some a := ha
  have hwa : ws = a.take b.replyWords := hwa
  obtain ⟨e1, hsv, _⟩ := h.pg.dev.served
  obtain ⟨e2, e3, r0, as1, s1, s2, s3⟩ := hsv.at (k := k) (q := b.send) (by
    rw [List.getElem?_take_of_lt hkd]; exact hrq)
  rw [ha] at s3
  injection s3 with s3
  obtain ⟨r1, e4, t1, t2, t3⟩ := hb.ans e2
  rw [s2] at t1
  simp only [Prod.mk.injEq, Option.some.injEq] at t1
  obtain ⟨rfl, rfl⟩ := t1
  have hsz := h.sz
  have hroom : b.replyWords + 1 ≤ size := hb.room
  have t2 : r0.length = b.replyWords := t2
  have hws : ws = r0 := by
    rw [hwa, s3, List.take_take, List.take_of_length_le]
    rw [hsz, t2]; omega
  have hok' : r.1 = .ok := by rw [hre, hws]; exact t3 _
  have hpc' : pc = (w.cl i).pc := by
    rcases hpc with hp | ⟨_, _, hp⟩ | ⟨_, hp⟩
    · exact hp.1
    · rw [hok'] at hp; cases hp
    · rw [hok'] at hp; cases hp
  -- the requests so far
  have hreqs : (w.dev.reqs.take w.dev.done).take k = (w.cl i).got.map (·.1.send) := by
    apply List.ext_getElem?
    intro j
    rw [List.take_take, Nat.min_eq_left (Nat.le_of_lt hkd), List.getElem?_map]
    by_cases hj : j < k
    · rw [List.getElem?_take_of_lt hj]
      have hjl : j < (w.cl i).got.length := by omega
      rw [List.getElem?_eq_getElem hjl]
      have hnum := congrArg (fun l => l[j]?) h.num
      simp only [List.getElem?_map, List.getElem?_eq_getElem hjl, Option.map_some, List.getElem?_range hjl, Option.some.injEq] at hnum
      have hx := h.gi.ent i _ (List.getElem_mem hjl)
      have hx := hx.1
      rw [hnum] at hx
      exact hx
    · rw [List.getElem?_eq_none (by rw [List.length_take]; omega), List.getElem?_eq_none (by omega)]; rfl
  rw [hreqs] at s1
  obtain ⟨e5, f1, as2, f2⟩ := h.fol
  rw [hsz] at s1
  have := f2.det s1
  subst this
  rw [he]
  rw [he] at h1 h2
  refine ⟨h1, h2, h.hp, h.sz, h.raced, h.late, ?_, ?_, ?_, ?_, ?_, ?_, h.rq, h.hung, ?_, ?_⟩ <;> simp only [PW.set_self]
  · rw [hpc']; exact h.pc
  · intro x hx
    rcases List.mem_append.1 hx with hx | hx
    · exact h.good x hx
    · rw [List.mem_singleton.1 hx]; exact hok'
  · rw [List.map_append, h.num, List.length_append, List.length_singleton, List.range_succ, ← hkn]; rfl
  · have := h.cnt
    rw [hq] at this
    simp only [List.length_append, List.length_cons, List.length_nil] at this ⊢
    show _ = w.dev.written
    omega
  · intro x hx
    exact h.qb x (by rw [hq]; exact List.mem_cons_of_mem _ hx)
  · intro b' hx
    rw [hpc'] at hx
    exact h.db b' hx
  · intro hx
    rw [hpc'] at hx
    exact h.fl hx
  · refine ⟨e3, ?_, as2 ++ [r0.take (size - 1)], ?_⟩
    · rw [List.map_append]
      refine f1.append (.cons ?_ (.nil _))
      show resp _ b.send = (some ws, _)
      rw [hws]; exact s2
    · rw [List.map_append]
      exact .snoc f2 s2

theorem Solo.step (h : Solo c ps resp size i e w) {a : PAct} (ha : a.tame i) : Solo c ps resp size i e (w.act c ps resp a) := by
  obtain ⟨hr, hl⟩ := h.flags ha
  have hsd := act_same (ps := ps) (resp := resp) c w a
  have hfit : a.fits w.dev.size := by
    rcases ha with rfl | ⟨h0, h1, h2, h3, h3b, h4⟩
    · trivial
    · cases a <;> try trivial
      rename_i j b
      simp only [PAct.who, Option.some.injEq] at h0
      subst h0
      exact absurd rfl (h4 b)
  obtain ⟨h1, h2⟩ := h.pg.step h.gi h.hp hfit hr hl
  rcases ha with rfl | ⟨ha, n1, n2, n2', n3, n4⟩
  · obtain ⟨d1, d2, d3⟩ := h.dev
    exact h.frame h1 h2 hsd hr hl h.pc rfl rfl d2 h.db d3 d1 h.fl
  · have con : ∀ u : PCl, u.connect (ps i) w.dev w.active w.ctr = { u with
      ext := w.active && !u.have_, sess := w.ctr, pages := w.dev.pages
      maxIn := if u.maxIn = 0 ∨ u.maxIn > w.dev.pages then w.dev.pages else u.maxIn
      size := w.dev.size, maxPkt := if u.maxPkt = 0 ∨ u.maxPkt ≥ w.dev.size then (w.dev.size + 2 ^ 32 - 1) % 2 ^ 32 else u.maxPkt
      idx := w.dev.page w.dev.done, pub := w.dev.count, rd := w.dev.count, connected := true } :=
      fun u => PCl.connect_eq h.hp.pos h.hp.szM fun hm => (h.hp.mm i hm).1
    cases a <;> simp only [PAct.who, Option.some.injEq, reduceCtorEq] at ha <;> subst ha
    case call i b => exact absurd rfl (n4 b)
    case fail i => exact absurd rfl n1
    case crash i => exact absurd rfl n2
    case halfStart i => exact absurd rfl n2'
    case handler i => exact absurd rfl n3
    all_goals simp only [PW.act] at h1 h2 hr hl hsd ⊢
    case callFlush i =>
      split at h1 <;> rename_i hx
      · rw [if_pos hx] at h2 hr hl hsd ⊢
        refine h.frame h1 h2 hsd hr hl ?_ ?_ ?_ rfl ?_ rfl h.hung ?_ <;> simp only [PW.set_self]
        · exact PPc.ok_flush
        · intro b hb; cases hb
        · intro hb; cases hb
      · rw [if_neg hx]; exact h
    case connect i =>
      cases hpc : (w.cl i).pc <;> simp only [hpc] at h1 h2 hr hl hsd ⊢ <;> try exact h
      all_goals
        split at h1 <;> rename_i hx
        · rw [if_pos hx]; exact h
        · rw [if_neg hx] at h2 hr hl hsd ⊢
          rw [con] at h1 h2 hr hl hsd ⊢
          refine h.frame h1 h2 hsd hr hl ?_ ?_ ?_ rfl ?_ rfl h.hung ?_ <;> simp only [PW.set_self]
          · exact h.pc
          · exact h.db
          · intro hb; rw [hpc] at hb; cases hb
    case poll i =>
      split at h1 <;> rename_i hx
      · rw [if_pos hx] at h2 hr hl hsd ⊢
        refine h.frame h1 h2 hsd hr hl ?_ ?_ ?_ rfl ?_ rfl h.hung ?_ <;> simp only [PW.set_self]
        · exact h.pc
        · exact h.db
        · exact h.fl
      · rw [if_neg hx]; exact h
    case event i =>
      rw [if_neg (fun hx => h.hp.kind i hx.2.2.2.1)]; exact h
    case fetch i =>
      split at h1 <;> rename_i hx
      · rw [if_pos hx] at h2 ⊢
        obtain ⟨hx, hy⟩ := hx
        have hn : (w.cl i).rd ≠ (w.cl i).pub := by
          rcases hy with hy | hy
          · exact hy
          · rw [(h.pg.cl i).wt] at hy; cases hy
        cases hq : (w.cl i).queue with
        | nil =>
          have e1 : (w.cl i).fetch c (ps i) w.dev = w.cl i := by unfold PCl.fetch; rw [hq]
          rw [e1] at h1 h2 ⊢
          refine h.frame h1 h2 (.refl _) h.raced h.late ?_ ?_ ?_ rfl ?_ rfl h.hung ?_ <;> simp only [PW.set_self]
          · exact h.pc
          · exact h.db
          · exact h.fl
        | cons x q =>
          obtain ⟨b, k⟩ := x
          exact h.read hq hx hn h1 h2
      · rw [if_neg hx]; exact h
    case flock i =>
      split at h1 <;> rename_i hx
      · rw [if_pos hx] at h2 hr hl hsd ⊢
        refine h.frame h1 h2 hsd hr hl ?_ ?_ ?_ rfl ?_ rfl h.hung ?_ <;> simp only [PW.set_self]
        · exact h.pc
        · exact h.db
        · exact h.fl
      · rw [if_neg hx]; exact h
    case start i =>
      split at h1 <;> rename_i hx
      · rw [if_pos hx] at h2 hr hl hsd ⊢
        obtain ⟨b, hb, _⟩ := PCl.writing_isSome hx.1
        have key : ∀ u', (u' = (if (w.cl i).ext = true ∨ w.ctr + 1 ≠ (w.cl i).sess + 1 then
            ({ w.cl i with started := true, sess := (w.cl i).sess + 1 } : PCl).connect (ps i) w.dev true (w.ctr + 1)
            else { w.cl i with started := true, sess := (w.cl i).sess + 1 })) → u'.pc = (w.cl i).pc ∧ u'.got = (w.cl i).got ∧ u'.queue = (w.cl i).queue := by
          intro u' hu
          rw [hu]
          split
          · rw [PCl.connect_eq h.hp.pos h.hp.szM fun hm => (h.hp.mm i hm).1]
            exact ⟨rfl, rfl, rfl⟩
          · exact ⟨rfl, rfl, rfl⟩
        obtain ⟨k1, k2, k3⟩ := key _ rfl
        refine h.frame h1 h2 hsd hr hl ?_ ?_ ?_ rfl ?_ rfl h.hung ?_ <;> simp only [PW.set_self]
        · exact (congrArg PPc.ok k1).mpr h.pc
        · exact k2
        · exact k3
        · intro b' hb'; exact h.db b' (k1.symm.trans hb')
        · intro hb'
          have : (w.cl i).pc = .flushed := k1.symm.trans hb'
          rw [hb] at this; cases this
      · rw [if_neg hx]; exact h
    case write i =>
      cases hb : (w.cl i).writing (ps i) with
      | none => exact h
      | some b =>
        simp only [hb] at h1 h2 hr hl hsd ⊢
        split at h1 <;> rename_i hx
        · rw [if_pos hx] at h2 hr hl hsd ⊢
          obtain ⟨hpc, _, _⟩ := PCl.writing_some hb
          have hpb := h.db b hpc
          refine ⟨h1, h2, h.hp.same hsd, by rw [hsd.size]; exact h.sz, hr, hl, ?_, ?_, ?_, ?_, ?_, ?_, ?_, h.hung, ?_, ?_⟩ <;>
            simp only [PW.set_self, PCl.write]
          · exact PPc.ok_idle
          · exact h.good
          · exact h.num
          · have := h.cnt
            rw [List.length_append, List.length_singleton]
            show _ = w.dev.written + 1
            omega
          · intro x hx
            rcases List.mem_append.1 hx with hx | hx
            · exact h.qb x hx
            · rw [List.mem_singleton.1 hx]; exact hpb
          · intro b' hb'; cases hb'
          · intro q hq e'
            rcases List.mem_append.1 (show q ∈ w.dev.reqs ++ [b.send] from hq) with hq | hq
            · exact h.rq q hq e'
            · rw [List.mem_singleton.1 hq]
              obtain ⟨r, e2, hr, _⟩ := hpb.ans e'
              exact ⟨r, e2, hr⟩
          · intro hb'; cases hb'
          · exact h.fol
        · rw [if_neg hx]; exact h
    case unlock i =>
      split at h1 <;> rename_i hx
      · rw [if_pos hx] at h2 hr hl hsd ⊢
        refine h.frame h1 h2 hsd hr hl ?_ ?_ ?_ rfl ?_ rfl h.hung ?_ <;> simp only [PW.set_self]
        · exact PPc.ok_flushed
        · intro b hb; cases hb
        · intro _
          have hc := h.pg.cl i
          exact (hc.run (hc.idl (.inr hx.1) (hc.flh hx.1)) h.pc).2
      · rw [if_neg hx]; exact h
    case finish i =>
      split at h1 <;> rename_i hx
      · rw [if_pos hx] at h2 hr hl hsd ⊢
        refine h.frame h1 h2 hsd hr hl ?_ ?_ ?_ rfl ?_ rfl h.hung ?_ <;> simp only [PW.set_self]
        · exact PPc.ok_idle
        · intro b hb; cases hb
        · intro hb; cases hb
      · rw [if_neg hx]; exact h

theorem Solo.call (h : Solo c ps resp size i e w) (hi : (w.cl i).pc = .idle) {b : Buf} (hb : PB c resp size b) :
    Solo c ps resp size i e (w.act c ps resp (.call i b)) := by
  have hr : (w.act c ps resp (.call i b)).raced = false := by simp only [PW.act, if_pos hi]; exact h.raced
  have hl : (w.act c ps resp (.call i b)).late = false := by simp only [PW.act, if_pos hi]; exact h.late
  have hsd := act_same (ps := ps) (resp := resp) c w (.call i b)
  obtain ⟨h1, h2⟩ := h.pg.step (c := c) (a := .call i b) h.gi h.hp (by rw [h.sz]; exact hb.fits) hr hl
  simp only [PW.act, if_pos hi] at h1 h2 hr hl hsd ⊢
  refine h.frame h1 h2 hsd hr hl ?_ ?_ ?_ rfl ?_ rfl h.hung ?_ <;> simp only [PW.set_self]
  · exact PPc.ok_disp b
  · intro b' hb'; cases hb'; exact hb
  · intro hb'; cases hb'

theorem Solo.inner (h : Solo c ps resp size i e w) {a : PAct} (ha : a.tame i) : Solo c ps resp size i e (PW.inner c ps resp i w a) := by
  unfold PW.inner
  split
  · exact h
  · exact h.step ha

theorem Solo.inners (as : List PAct) (ha : ∀ a ∈ as, a.tame i) : ∀ {w : PW ρ}, Solo c ps resp size i e w →
    Solo c ps resp size i e (as.foldl (PW.inner c ps resp i) w) := by
  induction as with
  | nil => intro w h; exact h
  | cons a as ih =>
    intro w h
    exact ih (fun x hx => ha x (List.mem_cons_of_mem _ hx)) (h.inner (ha a List.mem_cons_self))

/-- What holds between the calls. -/
structure SoloT (c : Cfg) (ps : Nat → PCfg) (resp : ρ → List W → Option (List W) × ρ) (size i : Nat) (e : ρ) (t : PagedT ρ) : Prop where
  solo : Solo c ps resp size i e t.w
  idle : (t.w.cl i).pc = .idle
  out : t.outcomes = (t.w.cl i).got.map PGot.out
  plan : ∀ as ∈ t.plan, ∀ a ∈ as, a.tame i

theorem SoloT.lk {t : PagedT ρ} (h : SoloT c ps resp size i e t) : (t.w.cl i).have_ = false → (t.w.cl i).queue = [] := by
  intro hh
  have hc := h.solo.pg.cl i
  apply hc.q
  cases hs : (t.w.cl i).started with
  | false => rfl
  | true => rw [hc.st hs] at hh; cases hh

theorem SoloT.after {t : PagedT ρ} (h : SoloT c ps resp size i e t) {bs : List Buf} {ns : List PGot} {cs : List (Nat × Nat)} (hs : Solo c ps resp size i e w)
    (hc : InCall c bs (t.w.cl i) (w.cl i) ns) :
    (∃ t', PagedT.result ⟨w, t.plan.tail, t.outcomes ++ (t.w.cl i).outs (w.cl i) bs, cs⟩ (t.w.cl i) (w.cl i) = .ok () t' ∧ SoloT c ps resp size i e t') ∨
    PagedT.result ⟨w, t.plan.tail, t.outcomes ++ (t.w.cl i).outs (w.cl i) bs, cs⟩ (t.w.cl i) (w.cl i) = .loops := by
  have hpc := hs.pc
  cases hp : (w.cl i).pc with
  | idle =>
    left
    simp only [PagedT.result, hp]
    refine ⟨_, rfl, hs, hp, ?_, ?_⟩
    · simp only
      rw [(hc.outs_ok hp).1, hc.got, List.map_append, h.out]
    · intro as has
      exact h.plan as (List.mem_of_mem_tail has)
  | thrown => exact absurd hp hpc.1
  | dead => exact absurd hp hpc.2
  | disp b => right; simp only [PagedT.result, hp]
  | flush => right; simp only [PagedT.result, hp]
  | flushed => right; simp only [PagedT.result, hp]

theorem SoloT.headD {t : PagedT ρ} (h : SoloT c ps resp size i e t) : ∀ a ∈ t.plan.headD [], a.tame i := by
  intro a ha
  cases hp : t.plan with
  | nil => rw [hp] at ha; cases ha
  | cons as pl => rw [hp] at ha; exact h.plan as (by rw [hp]; exact List.mem_cons_self) a ha

theorem solo_sim : TSim (pagedT c ps resp i) (pagedT c ps resp i) 0 0 (PB c resp size) (fun _ => True)
    (fun t t' => t' = t ∧ SoloT c ps resp size i e t) (fun _ _ => False) := by
  refine ⟨?_, ?_, ?_, fun _ _ _ _ _ => trivial, fun _ _ _ _ => trivial, fun _ _ => trivial⟩
  · rintro t t' b hb _ ⟨rfl, h⟩
    rw [Buf.shift_zero]
    simp only [pagedT]
    obtain ⟨ns, hc⟩ := inner_steps (c := c) (ps := ps) (resp := resp) (t'.plan.headD []) _ (inCall_disp (ps := ps) (resp := resp) (b := b) h.idle h.lk)
    have hs := (h.solo.call h.idle hb).inners _ h.headD
    generalize (t'.plan.headD []).foldl (PW.inner c ps resp i) (t'.w.act c ps resp (.call i b)) = w at hc hs
    rcases h.after (cs := t'.counts ++ [(t'.w.cl i).nums (w.cl i)]) hs hc with ⟨t1, h1, h2⟩ | h1
    · rw [h1]; exact ⟨t1, rfl, rfl, h2⟩
    · rw [h1]; trivial
  · rintro t t' _ ⟨rfl, h⟩
    simp only [pagedT]
    obtain ⟨ns, hc⟩ := inner_steps (c := c) (ps := ps) (resp := resp) (t'.plan.headD []) _ (inCall_flush (ps := ps) (resp := resp) h.idle h.lk)
    have ht : (PAct.callFlush i).tame i := .inr ⟨rfl, (by intro h; cases h), (by intro h; cases h), (by intro h; cases h), (by intro h; cases h), fun _ => (by intro h; cases h)⟩
    have hs := (h.solo.step ht).inners _ h.headD
    generalize (t'.plan.headD []).foldl (PW.inner c ps resp i) (t'.w.act c ps resp (.callFlush i)) = w at hc hs
    rcases h.after (cs := t'.counts) hs hc with ⟨t1, h1, h2⟩ | h1
    · rw [h1]; exact ⟨t1, rfl, rfl, h2⟩
    · rw [h1]; trivial
  · intro t t' _ h
    exact h.elim

end
end Verif
