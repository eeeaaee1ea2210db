import Verif.Model.PagedProg
import Verif.Lemmas.Paged
import Verif.Lemmas.UdpLink
/-!
The PCIe and mmap clients are instances of the generic transport `linkT`: a run of the packet builder on one of them, whatever the
device and other clients do, corresponds to one on `linkT` with the words read from the pages as answers.
-/

set_option autoImplicit false
set_option linter.unusedSimpArgs false

namespace Verif

/-- An entry of the log of a client. -/
abbrev PGot := Buf × Nat × Nat × List W × VOut

/-- Replies received one after the other. -/
inductive PChain (c : Cfg) : Heap → List PGot → Heap → Prop
  | nil (h : Heap) : PChain c h [] h
  | cons {h h1 h2 : Heap} {x : PGot} {l : List PGot} : receiveReply c h x.1 x.2.2.2.1 = (x.2.2.2.2, h1) → PChain c h1 l h2 → PChain c h (x :: l) h2

theorem PChain.snoc {c : Cfg} {h h1 h2 : Heap} {x : PGot} {l : List PGot} (a : PChain c h l h1) (b : receiveReply c h1 x.1 x.2.2.2.1 = (x.2.2.2.2, h2)) :
    PChain c h (l ++ [x]) h2 := by
  induction a with
  | nil => exact .cons b (.nil _)
  | cons r _ ih => exact .cons r (ih b)

def PGot.rx (x : PGot) : Rx := ⟨x.1, x.2.2.2.1, x.2.2.2.2⟩
def PGot.out (x : PGot) : Buf × Option (List W) := (x.1, some x.2.2.2.1)

section
variable {ρ : Type} {c : Cfg} {resp : ρ → List W → Option (List W) × ρ}

theorem PChain.proc {h' : Heap} {ns : List PGot} {l : Link ρ} {rest : List Buf} {e1 : ρ} (hc : PChain c l.heap ns h') (hok : ∀ x ∈ ns, x.2.2.2.2 = .ok)
    (hp : l.pending = ns.map Prod.fst ++ rest) (hf : Follows resp l.env (ns.map PGot.out) e1) :
    process c resp ns.length l = .ok () { l with heap := h', pending := rest, env := e1, log := l.log ++ ns.map PGot.rx } := by
  induction ns generalizing l with
  | nil =>
    cases hc; cases hf
    simp only [List.map_nil, List.nil_append] at hp
    subst hp
    simp [process]
  | cons x ns ih =>
    cases hc with
    | cons r hc =>
      cases hf with
      | cons q hf =>
        simp only [List.length_cons]
        rw [process, hp]
        simp only [List.map_cons, List.cons_append, q]
        have ho := hok x (by simp)
        rw [ho] at r
        rw [r]
        simp only
        rw [ih (l := { l with heap := _, pending := ns.map Prod.fst ++ rest, env := _, log := l.log ++ [⟨x.1, x.2.2.2.1, .ok⟩] }) hc
          (fun y hy => hok y (by simp [hy])) rfl hf]
        simp [PGot.rx, ho]

theorem PChain.split {h h' : Heap} {ns : List PGot} {x : PGot} (hc : PChain c h (ns ++ [x]) h') :
    ∃ h1, PChain c h ns h1 ∧ receiveReply c h1 x.1 x.2.2.2.1 = (x.2.2.2.2, h') := by
  induction ns generalizing h with
  | nil =>
    cases hc with
    | cons r hc => cases hc; exact ⟨_, .nil _, r⟩
  | cons y ns ih =>
    cases hc with
    | cons r hc =>
      obtain ⟨h1, g1, g2⟩ := ih hc
      exact ⟨h1, .cons r g1, g2⟩

theorem Follows.split {e e2 : ρ} {a b : List (Buf × Option (List W))} (h : Follows resp e (a ++ b) e2) :
    ∃ e1, Follows resp e a e1 ∧ Follows resp e1 b e2 := by
  induction a generalizing e with
  | nil => exact ⟨e, .nil _, h⟩
  | cons x a ih =>
    cases h with
    | cons q h =>
      obtain ⟨e1, h1, h2⟩ := ih h
      exact ⟨e1, .cons q h1, h2⟩

/-- The last reply is refused. -/
theorem PChain.proc_err {h' : Heap} {ns : List PGot} {x : PGot} {l : Link ρ} {rest : List Buf} {e1 : ρ} {e : Exc} (hc : PChain c l.heap (ns ++ [x]) h')
    (hok : ∀ x ∈ ns, x.2.2.2.2 = .ok) (hx : x.2.2.2.2 = .err e)
    (hp : l.pending = (ns ++ [x]).map Prod.fst ++ rest) (hf : Follows resp l.env ((ns ++ [x]).map PGot.out) e1) :
    process c resp (ns ++ [x]).length l = .exc e { l with heap := h', pending := rest, env := e1, log := l.log ++ (ns ++ [x]).map PGot.rx } := by
  obtain ⟨h1, g1, g2⟩ := hc.split
  rw [List.map_append] at hf hp
  obtain ⟨e2, f1, f2⟩ := hf.split
  rw [List.append_assoc] at hp
  rw [List.length_append, process_add, g1.proc hok hp f1]
  simp only [List.length_singleton, List.map_cons, List.map_nil, List.singleton_append]
  cases f2 with
  | cons q f2 =>
    cases f2
    rw [process]
    simp only
    rw [q]
    simp only
    rw [g2, hx]
    simp only [List.map_append, List.map_cons, List.map_nil, List.append_assoc]
    simp [PGot.rx, hx]

/-- The transport fails. -/
theorem PChain.proc_fail {h' : Heap} {ns : List PGot} {l : Link ρ} {b : Buf} {rest : List Buf} {e1 : ρ} (hc : PChain c l.heap ns h') (hok : ∀ x ∈ ns, x.2.2.2.2 = .ok)
    (hp : l.pending = ns.map Prod.fst ++ b :: rest) (hf : Follows resp l.env (ns.map PGot.out ++ [(b, none)]) e1) :
    process c resp (ns.length + 1) l = .exc (.transport 0) { l with heap := h', pending := rest, env := e1, log := l.log ++ ns.map PGot.rx } := by
  obtain ⟨e2, f1, f2⟩ := hf.split
  rw [process_add, hc.proc hok hp f1]
  cases f2 with
  | cons q f2 =>
    cases f2
    simp only
    rw [process]
    simp only
    rw [q]

end

/-! ### A call -/

/-- Where a call stands: `bs` are the packets handed over in it, `u0` is the state before, `ns` what has been read. -/
structure InCall (c : Cfg) (bs : List Buf) (u0 u : PCl) (ns : List PGot) : Prop where
  got : u.got = u0.got ++ ns
  chain : u.pc ≠ .dead → PChain c u0.heap ns u.heap
  queue : u.pc ≠ .dead → ∃ q, u0.queue.map Prod.fst = ns.map Prod.fst ++ q ∧ u.queue.map Prod.fst = q ++ if u.pc = .idle then bs else []
  good : u.pc ≠ .dead → (∀ x ∈ ns, x.2.2.2.2 = .ok) ∧ (u.pc = .thrown → u.queue = [] → bs ≠ []) ∨ u.pc = .thrown ∧ ∃ ms x e, ns = ms ++ [x] ∧ (∀ y ∈ ms, y.2.2.2.2 = .ok) ∧ x.2.2.2.2 = .err e
  disp : ∀ b, u.pc = .disp b → bs = [b]
  flush : u.pc = .flush → bs = [] ∧ u.have_ = true
  flushed : u.pc = .flushed → bs = [] ∧ u.queue = []
  idle : u.pc = .idle → bs = [] → u.queue = []
  lk : u.have_ = false → u.queue = []

section
variable {ρ : Type} {c : Cfg} {ps : Nat → PCfg} {resp : ρ → List W → Option (List W) × ρ} {i : Nat} {bs : List Buf} {u0 : PCl} {ns : List PGot}

theorem InCall.allOk {u : PCl} (h : InCall c bs u0 u ns) (h1 : u.pc ≠ .dead) (h2 : u.pc ≠ .thrown) : ∀ x ∈ ns, x.2.2.2.2 = .ok := by
  rcases h.good h1 with h | h
  · exact h.1
  · exact absurd h.1 h2

/-- Fields that the call does not depend on. -/
theorem InCall.same {u u' : PCl} (h : InCall c bs u0 u ns) (h1 : u'.got = u.got) (h2 : u'.heap = u.heap) (h3 : u'.queue = u.queue)
    (h4 : u'.pc = u.pc) (h5 : u'.have_ = u.have_) : InCall c bs u0 u' ns :=
  ⟨by rw [h1]; exact h.got, by rw [h2, h4]; exact h.chain, by rw [h3, h4]; exact h.queue, by rw [h4, h3]; exact h.good, by rw [h4]; exact h.disp,
    by rw [h4, h5]; exact h.flush, by rw [h4, h3]; exact h.flushed, by rw [h4, h3]; exact h.idle, by rw [h3, h5]; exact h.lk⟩

/-- An exception that is not one of the validation. -/
theorem InCall.throw {u u' : PCl} (h : InCall c bs u0 u ns) (hi : u.pc.inside = true) (h1 : u'.got = u.got) (h2 : u'.heap = u.heap) (h3 : u'.queue = u.queue)
    (h4 : u'.pc = .thrown) (h5 : u'.have_ = u.have_) (h6 : u.queue = [] → bs ≠ []) : InCall c bs u0 u' ns := by
  have hd : u.pc ≠ .dead := by intro hx; rw [hx] at hi; cases hi
  have ht : u.pc ≠ .thrown := by intro hx; rw [hx] at hi; cases hi
  have hn : u.pc ≠ .idle := by intro hx; rw [hx] at hi; cases hi
  refine ⟨by rw [h1]; exact h.got, fun _ => by rw [h2]; exact h.chain hd, fun _ => ?_, fun _ => .inl ⟨h.allOk hd ht, fun _ => by rw [h3]; exact h6⟩, ?_, ?_, ?_, ?_, by rw [h3, h5]; exact h.lk⟩
  · obtain ⟨q, q1, q2⟩ := h.queue hd
    rw [if_neg hn] at q2
    refine ⟨q, q1, ?_⟩
    rw [h3, h4, if_neg (by intro h; cases h)]
    exact q2
  · rw [h4]; intro b hx; cases hx
  · rw [h4]; intro hx; cases hx
  · rw [h4]; intro hx; cases hx
  · rw [h4]; intro hx; cases hx

theorem connect_frame (p : PCfg) (d : PDev ρ) (a : Bool) (n : Nat) (u : PCl) :
    (u.connect p d a n).got = u.got ∧ (u.connect p d a n).heap = u.heap ∧ (u.connect p d a n).queue = u.queue ∧
    (u.connect p d a n).have_ = u.have_ ∧ ((u.connect p d a n).pc = u.pc ∨ (u.connect p d a n).pc = .thrown) := by
  unfold PCl.connect
  dsimp only
  split
  · exact ⟨rfl, rfl, rfl, rfl, .inr rfl⟩
  · exact ⟨rfl, rfl, rfl, rfl, .inl rfl⟩

theorem InCall.connect {u : PCl} (h : InCall c bs u0 u ns) {b : Buf} (hb : u.pc = .disp b) (p : PCfg) (d : PDev ρ) (a : Bool) (n : Nat) :
    InCall c bs u0 (u.connect p d a n) ns := by
  obtain ⟨h1, h2, h3, h4, h5 | h5⟩ := connect_frame p d a n u
  · exact h.same h1 h2 h3 h5 h4
  · exact h.throw (by rw [hb]; rfl) h1 h2 h3 h5 h4 (fun _ => by rw [h.disp b hb]; intro h; cases h)

theorem act_who (w : PW ρ) (a : PAct) (h : a.who ≠ some i) : (w.act c ps resp a).cl i = w.cl i := by
  have hs : ∀ (w : PW ρ) (j : Nat) (u : PCl), j ≠ i → (w.set j u).cl i = w.cl i := fun w j u hj => PW.set_ne w u (Ne.symm hj)
  cases a <;> simp only [PAct.who, ne_eq, Option.some.injEq] at h <;> simp only [PW.act]
  all_goals first
    | rfl
    | (repeat' split) <;> first | rfl | exact hs _ _ _ h

theorem fetch_step (u : PCl) (h : InCall c bs u0 u ns) (hi : u.pc.inside = true) (p : PCfg) (d : PDev ρ) :
    ∃ ns', InCall c bs u0 (u.fetch c p d) ns' := by
  cases hq : u.queue with
  | nil =>
    refine ⟨ns, ?_⟩
    unfold PCl.fetch; rw [hq]; exact h
  | cons x q =>
    obtain ⟨b, k⟩ := x
    have hd : u.pc ≠ .dead := by intro hx; rw [hx] at hi; cases hi
    have ht : u.pc ≠ .thrown := by intro hx; rw [hx] at hi; cases hi
    have hn : u.pc ≠ .idle := by intro hx; rw [hx] at hi; cases hi
    obtain ⟨ws, r, pc, cr, e, _, e2, hpc⟩ := PCl.fetch_cons (c := c) (p := p) (d := d) hq
    rw [e]
    have hall := h.allOk hd ht
    obtain ⟨q', q1, q2⟩ := h.queue hd
    rw [if_neg hn, hq, List.append_nil] at q2
    rw [← q2] at q1
    have hch : PChain c u0.heap (ns ++ [(b, k, u.readPage, ws, r.1)]) r.2 := (h.chain hd).snoc (by rw [← e2])
    refine ⟨ns ++ [(b, k, u.readPage, ws, r.1)], ?_⟩
    have hqe' : u0.queue.map Prod.fst = (ns ++ [(b, k, u.readPage, ws, r.1)]).map Prod.fst ++ q.map Prod.fst := by
      simpa using q1
    rcases hpc with ⟨hp, ho⟩ | ⟨hp, ex, ho⟩ | ⟨hp, ho⟩
    · refine ⟨by simp [h.got], fun _ => hch, fun _ => ?_, fun _ => .inl ⟨?_, fun hx => absurd (by rw [← hp]; exact hx) ht⟩, ?_, ?_, ?_, ?_, ?_⟩
      · exact ⟨_, hqe', by simp only [hp, if_neg hn, List.append_nil]⟩
      · intro y hy
        rcases List.mem_append.1 hy with hy | hy
        · exact hall y hy
        · rw [List.mem_singleton.1 hy]; exact ho
      · intro b' hb'; exact h.disp b' (by rw [← hp]; exact hb')
      · intro hx; exact h.flush (by rw [← hp]; exact hx)
      · intro hx; exact absurd (h.flushed (by rw [← hp]; exact hx)).2 (by rw [hq]; intro h; cases h)
      · intro hx; exact absurd (by rw [← hp]; exact hx) hn
      · intro hx; have := h.lk hx; rw [hq] at this; cases this
    · refine ⟨by simp [h.got], fun _ => hch, fun _ => ?_, fun _ => .inr ⟨hp, _, _, ex, rfl, hall, ho⟩, ?_, ?_, ?_, ?_, ?_⟩
      · exact ⟨_, hqe', by simp only [hp]; rw [if_neg (by intro h; cases h), List.append_nil]⟩
      · intro b' hb'; simp only [hp] at hb'; cases hb'
      · intro hx; simp only [hp] at hx; cases hx
      · intro hx; simp only [hp] at hx; cases hx
      · intro hx; simp only [hp] at hx; cases hx
      · intro hx; have := h.lk hx; rw [hq] at this; cases this
    · refine ⟨by simp [h.got], fun hx => absurd hp hx, fun hx => absurd hp hx, fun hx => absurd hp hx, ?_, ?_, ?_, ?_, ?_⟩
      · intro b' hb'; simp only [hp] at hb'; cases hb'
      · intro hx; simp only [hp] at hx; cases hx
      · intro hx; simp only [hp] at hx; cases hx
      · intro hx; simp only [hp] at hx; cases hx
      · intro hx; have := h.lk hx; rw [hq] at this; cases this

theorem inside_of_writing {p : PCfg} {u : PCl} (h : (u.writing p).isSome) : u.pc.inside = true := by
  obtain ⟨b, hb, _⟩ := PCl.writing_isSome h
  rw [hb]; rfl

theorem inner_step (w : PW ρ) (a : PAct) (h : InCall c bs u0 (w.cl i) ns) :
    ∃ ns', InCall c bs u0 ((PW.inner c ps resp i w a).cl i) ns' := by
  unfold PW.inner
  split
  · exact ⟨ns, h⟩
  · rename_i hg
    by_cases hw : a.who = some i
    · have hi : (w.cl i).pc.inside = true := by
        cases hx : (w.cl i).pc.inside with
        | true => rfl
        | false => exact absurd ⟨hw, hx⟩ hg
      have hd : (w.cl i).pc ≠ .dead := by intro hx; rw [hx] at hi; cases hi
      have ht : (w.cl i).pc ≠ .thrown := by intro hx; rw [hx] at hi; cases hi
      have hn : (w.cl i).pc ≠ .idle := by intro hx; rw [hx] at hi; cases hi
      cases a <;> simp only [PAct.who, Option.some.injEq, reduceCtorEq] at hw <;> subst hw <;> simp only [PW.act]
      case call i b => rw [if_neg hn]; exact ⟨ns, h⟩
      case callFlush i => rw [if_neg (fun hx => hn hx.1)]; exact ⟨ns, h⟩
      case connect i =>
        split
        · rename_i hx; exact absurd hx hn
        · split
          · exact ⟨ns, h⟩
          · rename_i hx _; rw [PW.set_self]; exact ⟨ns, h.connect hx _ _ _ _⟩
        · exact ⟨ns, h⟩
      case poll i =>
        split
        · rw [PW.set_self]; exact ⟨ns, h.same rfl rfl rfl rfl rfl⟩
        · exact ⟨ns, h⟩
      case event i =>
        split
        · rw [PW.set_self]; exact ⟨ns, h.same rfl rfl rfl rfl rfl⟩
        · exact ⟨ns, h⟩
      case fetch i =>
        split
        · rw [PW.set_self]; exact fetch_step _ h hi _ _
        · exact ⟨ns, h⟩
      case flock i =>
        split
        · rename_i hx
          obtain ⟨b, hb, _⟩ := PCl.writing_isSome hx.1
          rw [PW.set_self]
          refine ⟨ns, h.got, h.chain, h.queue, h.good, h.disp, ?_, ?_, ?_, ?_⟩
          · intro hy; rw [show (w.cl _).pc = .flush from hy] at hb; cases hb
          · intro hy; rw [show (w.cl _).pc = .flushed from hy] at hb; cases hb
          · intro hy; rw [show (w.cl _).pc = .idle from hy] at hb; cases hb
          · intro hy; cases hy
        · exact ⟨ns, h⟩
      case start i =>
        split
        · rename_i hx
          obtain ⟨b, hb, _⟩ := PCl.writing_isSome hx.1
          rw [PW.set_self]
          have h' := h.same (u' := { w.cl i with started := true, sess := (w.cl i).sess + 1 }) rfl rfl rfl rfl rfl
          split
          · exact ⟨ns, h'.connect (b := b) hb _ _ _ _⟩
          · exact ⟨ns, h'⟩
        · exact ⟨ns, h⟩
      case write i =>
        split
        · rename_i b hb
          obtain ⟨hpc, _, _⟩ := PCl.writing_some hb
          split
          · rename_i hx
            rw [PW.set_self]
            obtain ⟨q, q1, q2⟩ := h.queue hd
            rw [if_neg hn, List.append_nil] at q2
            have hbs := h.disp b hpc
            refine ⟨ns, h.got, fun _ => h.chain hd, fun _ => ?_, fun _ => .inl ⟨h.allOk hd ht, by intro hx; cases hx⟩, ?_, ?_, ?_, ?_, ?_⟩
            · exact ⟨q, q1, by simp only [PCl.write, if_true, List.map_append, List.map_cons, List.map_nil, hbs, q2]⟩
            · intro b' hy; cases hy
            · intro hy; cases hy
            · intro hy; cases hy
            · intro _ hy; rw [hbs] at hy; cases hy
            · intro hy
              have : (w.cl i).have_ = false := hy
              rw [hx.1] at this; cases this
          · exact ⟨ns, h⟩
        · exact ⟨ns, h⟩
      case unlock i =>
        split
        · rename_i hx
          rw [PW.set_self]
          obtain ⟨q, q1, q2⟩ := h.queue hd
          rw [if_neg hn] at q2
          have hbs := (h.flush hx.1).1
          refine ⟨ns, h.got, fun _ => h.chain hd, fun _ => ?_, fun _ => .inl ⟨h.allOk hd ht, by intro hx; cases hx⟩, ?_, ?_, ?_, ?_, ?_⟩
          · exact ⟨q, q1, by simp only; rw [if_neg (by intro h; cases h)]; exact q2⟩
          · intro b' hy; cases hy
          · intro hy; cases hy
          · intro _; exact ⟨hbs, hx.2⟩
          · intro hy; cases hy
          · intro _; exact hx.2
        · exact ⟨ns, h⟩
      case finish i =>
        split
        · rename_i hx
          rw [PW.set_self]
          obtain ⟨hbs, hqe⟩ := h.flushed hx
          obtain ⟨q, q1, q2⟩ := h.queue hd
          rw [if_neg hn] at q2
          refine ⟨ns, h.got, fun _ => h.chain hd, fun _ => ?_, fun _ => .inl ⟨h.allOk hd ht, by intro hx; cases hx⟩, ?_, ?_, ?_, ?_, ?_⟩
          · exact ⟨q, q1, by simp only [if_true, hbs]; exact q2⟩
          · intro b' hy; cases hy
          · intro hy; cases hy
          · intro hy; cases hy
          · intro _ _; exact hqe
          · intro _; exact hqe
        · exact ⟨ns, h⟩
      case fail i =>
        split
        · rename_i hx; rw [PW.set_self]; exact ⟨ns, h.throw hi rfl rfl rfl rfl rfl (fun _ => by rw [h.disp _ hx]; intro h; cases h)⟩
        · split
          · exact ⟨ns, h⟩
          · rename_i hx; rw [PW.set_self]; exact ⟨ns, h.throw hi rfl rfl rfl rfl rfl (fun hq => absurd hq hx)⟩
        · exact ⟨ns, h⟩
      case handler i => rw [if_neg ht]; exact ⟨ns, h⟩
      case crash i =>
        rw [PW.set_self]
        refine ⟨ns, h.got, fun hx => absurd rfl hx, fun hx => absurd rfl hx, fun hx => absurd rfl hx, ?_, ?_, ?_, ?_, fun _ => rfl⟩
        · intro b' hy; cases hy
        · intro hy; cases hy
        · intro hy; cases hy
        · intro hy; cases hy
      case halfStart i =>
        split
        · rw [PW.set_self]
          refine ⟨ns, h.got, fun hx => absurd rfl hx, fun hx => absurd rfl hx, fun hx => absurd rfl hx, ?_, ?_, ?_, ?_, fun _ => rfl⟩
          · intro b' hy; cases hy
          · intro hy; cases hy
          · intro hy; cases hy
          · intro hy; cases hy
        · exact ⟨ns, h⟩
    · rw [act_who w a hw]; exact ⟨ns, h⟩

theorem inner_steps (as : List PAct) (w : PW ρ) (h : InCall c bs u0 (w.cl i) ns) :
    ∃ ns', InCall c bs u0 ((as.foldl (PW.inner c ps resp i) w).cl i) ns' := by
  induction as generalizing w ns with
  | nil => exact ⟨ns, h⟩
  | cons a as ih =>
    obtain ⟨ns', h'⟩ := inner_step (ps := ps) (resp := resp) w a h
    exact ih _ h'

theorem inCall_disp {w : PW ρ} {b : Buf} (h1 : (w.cl i).pc = .idle) (h2 : (w.cl i).have_ = false → (w.cl i).queue = []) :
    InCall c [b] (w.cl i) ((w.act c ps resp (.call i b)).cl i) [] := by
  simp only [PW.act, if_pos h1, PW.set_self]
  refine ⟨by simp, fun _ => .nil _, fun _ => ?_, fun _ => .inl (by simp [h1]), ?_, ?_, ?_, ?_, h2⟩
  · exact ⟨_, rfl, by rw [if_neg (by intro h; cases h)]; simp⟩
  · intro b' hb'; cases hb'; rfl
  · intro hx; cases hx
  · intro hx; cases hx
  · intro hx; cases hx

theorem inCall_flush {w : PW ρ} (h1 : (w.cl i).pc = .idle) (h2 : (w.cl i).have_ = false → (w.cl i).queue = []) :
    InCall c [] (w.cl i) ((w.act c ps resp (.callFlush i)).cl i) [] := by
  simp only [PW.act, h1, true_and]
  split
  · rename_i hh
    rw [PW.set_self]
    refine ⟨by simp, fun _ => .nil _, fun _ => ?_, fun _ => .inl (by simp [h1]), ?_, ?_, ?_, ?_, h2⟩
    · exact ⟨_, rfl, by rw [if_neg (by intro h; cases h)]; simp⟩
    · intro b' hb'; cases hb'
    · intro _; exact ⟨rfl, hh⟩
    · intro hx; cases hx
    · intro hx; cases hx
  · rename_i hh
    have hh : (w.cl i).have_ = false := by simpa using hh
    refine ⟨by simp, fun _ => .nil _, fun _ => ⟨_, rfl, by simp⟩, fun _ => .inl (by simp [h1]), ?_, ?_, ?_, fun _ _ => h2 hh, h2⟩
    · intro b' hb'; rw [h1] at hb'; cases hb'
    · intro hx; rw [h1] at hx; cases hx
    · intro hx; rw [h1] at hx; cases hx

end

/-! ### The simulation -/

theorem InCall.news {c : Cfg} {bs : List Buf} {u0 u : PCl} {ns : List PGot} (h : InCall c bs u0 u ns) : u0.news u = ns := by
  simp [PCl.news, h.got]

theorem refused_ok {u0 u : PCl} {ns : List PGot} (h : u0.news u = ns) (hok : ∀ x ∈ ns, x.2.2.2.2 = .ok) : u0.refused u = none := by
  unfold PCl.refused
  rw [h]
  cases hl : ns.getLast? with
  | none => rfl
  | some x =>
    have := hok x (List.mem_of_getLast? hl)
    obtain ⟨a, b, d, e, o⟩ := x
    simp only at this
    subst this
    rfl

theorem refused_err {u0 u : PCl} {ns : List PGot} {x : PGot} {e : Exc} (h : u0.news u = ns ++ [x]) (hx : x.2.2.2.2 = .err e) : u0.refused u = some e := by
  unfold PCl.refused
  rw [h]
  obtain ⟨a, b, d, f, o⟩ := x
  simp only at hx
  subst hx
  simp

section
variable {ρ δ : Type} {c : Cfg} {ps : Nat → PCfg} {dresp : δ → List W → Option (List W) × δ} {resp : ρ → List W → Option (List W) × ρ} {i : Nat}
variable {e0 eEnd : ρ} {TT : List (Buf × Option (List W))} {CC : List (Nat × Nat)}

/-- Corresponding transports between an exception and the handler. -/
structure PRX (resp : ρ → List W → Option (List W) × ρ) (i : Nat) (e0 eEnd : ρ) (TT : List (Buf × Option (List W))) (CC : List (Nat × Nat))
    (t : PagedT δ) (l : Link ρ) : Prop where
  env : ∃ rest, TT = t.outcomes ++ rest ∧ Follows resp e0 t.outcomes l.env ∧ Follows resp l.env rest eEnd
  sched : l.sched = CC.drop t.counts.length
  heap : (t.w.cl i).heap = l.heap
  log : l.log = (t.w.cl i).got.map PGot.rx

/-- Corresponding transports. -/
structure PR (resp : ρ → List W → Option (List W) × ρ) (i : Nat) (e0 eEnd : ρ) (TT : List (Buf × Option (List W))) (CC : List (Nat × Nat))
    (t : PagedT δ) (l : Link ρ) : Prop extends PRX resp i e0 eEnd TT CC t l where
  idle : (t.w.cl i).pc = .idle
  pend : l.pending = (t.w.cl i).queue.map Prod.fst
  lk : (t.w.cl i).have_ = false → (t.w.cl i).queue = []

instance : SubR (PR (δ := δ) resp i e0 eEnd TT CC) (PRX resp i e0 eEnd TT CC) := ⟨fun h => h.toPRX⟩

/-- `TT`, `CC` are the records at the end of the run. -/
structure PGood (TT : List (Buf × Option (List W))) (CC : List (Nat × Nat)) (t : PagedT δ) : Prop where
  out : t.outcomes <+: TT
  cnt : t.counts <+: CC

theorem drop_counts' {CC a : List (Nat × Nat)} {x : Nat × Nat} (h : a ++ [x] <+: CC) : CC.drop a.length = x :: CC.drop (a ++ [x]).length := by
  obtain ⟨t, rfl⟩ := h
  simp

theorem PRX.more {t : PagedT δ} {l : Link ρ} (h : PRX resp i e0 eEnd TT CC t l) {x : List (Buf × Option (List W))} (hp : t.outcomes ++ x <+: TT) :
    ∃ r e1, TT = (t.outcomes ++ x) ++ r ∧ Follows resp l.env x e1 ∧ Follows resp e0 (t.outcomes ++ x) e1 ∧ Follows resp e1 r eEnd := by
  obtain ⟨r, hr⟩ := hp
  obtain ⟨rest, h1, h2, h3⟩ := h.env
  rw [h1, List.append_assoc] at hr
  have := List.append_cancel_left hr
  rw [← this] at h3
  obtain ⟨e1, f1, f2⟩ := h3.split
  exact ⟨r, e1, by rw [h1, ← this, List.append_assoc], f1, h2.append f1, f2⟩

theorem result_state {t t1 : PagedT δ} {u0 u : PCl} (h : (t.result u0 u).state? = some t1) : t1 = t := by
  unfold PagedT.result at h
  split at h <;> simp [Out.state?] at h
  all_goals exact h.symm

theorem InCall.outs_ok {bs : List Buf} {u0 u : PCl} {ns : List PGot} (h : InCall c bs u0 u ns) (hp : u.pc = .idle) :
    u0.outs u bs = ns.map PGot.out ∧ u0.nums u = (ns.length, 0) := by
  have hbr : u0.broke u = false := by simp [PCl.broke, hp]
  simp only [PCl.outs, PCl.nums, hbr, h.news, Bool.false_eq_true, if_false, List.append_nil, and_true]
  rfl

/-- The call returns. -/
theorem paged_ok {bs : List Buf} {t : PagedT δ} {w : PW δ} {l : Link ρ} {ns : List PGot} {pl : List (List PAct)} {cs : List (Nat × Nat)}
    (hR : PR resp i e0 eEnd TT CC t l) (hc : InCall c bs (t.w.cl i) (w.cl i) ns) (hpc : (w.cl i).pc = .idle)
    (hG : t.outcomes ++ (t.w.cl i).outs (w.cl i) bs <+: TT) (S : List (Nat × Nat)) (hS : S = CC.drop cs.length) :
    ∃ q l1, l.pending = ns.map Prod.fst ++ q ∧ process c resp ns.length { l with sched := S } = .ok () l1 ∧ l1.pending = q ∧
      PR resp i e0 eEnd TT CC ⟨w, pl, t.outcomes ++ (t.w.cl i).outs (w.cl i) bs, cs⟩ { l1 with pending := q ++ bs } := by
  have hd : (w.cl i).pc ≠ .dead := by rw [hpc]; intro h; cases h
  have hok := hc.allOk hd (by rw [hpc]; intro h; cases h)
  rw [(hc.outs_ok hpc).1] at hG ⊢
  obtain ⟨r, e1, f1, f2, f3, f4⟩ := hR.more hG
  obtain ⟨q, q1, q2⟩ := hc.queue hd
  rw [if_pos hpc] at q2
  have hp : l.pending = ns.map Prod.fst ++ q := by rw [hR.pend, q1]
  have hch := hc.chain hd
  rw [hR.heap] at hch
  refine ⟨q, _, hp, hch.proc (l := { l with sched := S }) hok hp f2, rfl, ⟨⟨r, f1, f3, f4⟩, hS, rfl, ?_⟩, hpc, q2.symm, hc.lk⟩
  rw [hc.got, List.map_append, hR.log]

/-- A reply is refused. -/
theorem paged_err {bs : List Buf} {t : PagedT δ} {w : PW δ} {l : Link ρ} {ms : List PGot} {x : PGot} {e : Exc} {pl : List (List PAct)} {cs : List (Nat × Nat)}
    (hR : PR resp i e0 eEnd TT CC t l) (hc : InCall c bs (t.w.cl i) (w.cl i) (ms ++ [x])) (hpc : (w.cl i).pc = .thrown)
    (hm : ∀ y ∈ ms, y.2.2.2.2 = .ok) (hx : x.2.2.2.2 = .err e)
    (hG : t.outcomes ++ (t.w.cl i).outs (w.cl i) bs <+: TT) (S : List (Nat × Nat)) (hS : S = CC.drop cs.length) :
    (t.w.cl i).refused (w.cl i) = some e ∧ (t.w.cl i).nums (w.cl i) = ((ms ++ [x]).length, 0) ∧
    ∃ l1, process c resp (ms ++ [x]).length { l with sched := S } = .exc e l1 ∧
      PRX resp i e0 eEnd TT CC ⟨w, pl, t.outcomes ++ (t.w.cl i).outs (w.cl i) bs, cs⟩ l1 := by
  have hd : (w.cl i).pc ≠ .dead := by rw [hpc]; intro h; cases h
  have hre := refused_err hc.news hx
  have hbr : (t.w.cl i).broke (w.cl i) = false := by simp [PCl.broke, hre]
  have hou : (t.w.cl i).outs (w.cl i) bs = (ms ++ [x]).map PGot.out := by
    simp only [PCl.outs, hbr, hc.news, Bool.false_eq_true, if_false, List.append_nil]; rfl
  refine ⟨hre, by simp only [PCl.nums, hbr, hc.news, Bool.false_eq_true, if_false], ?_⟩
  rw [hou] at hG ⊢
  obtain ⟨r, e1, f1, f2, f3, f4⟩ := hR.more hG
  obtain ⟨q, q1, q2⟩ := hc.queue hd
  have hp : l.pending = (ms ++ [x]).map Prod.fst ++ q := by rw [hR.pend, q1]
  have hch := hc.chain hd
  rw [hR.heap] at hch
  refine ⟨_, hch.proc_err (l := { l with sched := S }) hm hx hp f2, ⟨r, f1, f3, f4⟩, hS, rfl, ?_⟩
  rw [hc.got, List.map_append (l₁ := (t.w.cl i).got), hR.log]

/-- An access fails. -/
theorem paged_fail {bs : List Buf} {t : PagedT δ} {w : PW δ} {l : Link ρ} {ns : List PGot} {pl : List (List PAct)} {cs : List (Nat × Nat)}
    (hR : PR resp i e0 eEnd TT CC t l) (hc : InCall c bs (t.w.cl i) (w.cl i) ns) (hpc : (w.cl i).pc = .thrown)
    (hm : ∀ y ∈ ns, y.2.2.2.2 = .ok)
    (hG : t.outcomes ++ (t.w.cl i).outs (w.cl i) bs <+: TT) (S : List (Nat × Nat)) (hS : S = CC.drop cs.length) :
    (t.w.cl i).refused (w.cl i) = none ∧ (t.w.cl i).broke (w.cl i) = true ∧
    (∀ x q, (w.cl i).queue = x :: q → ∃ l1, process c resp (ns.length + 1) { l with sched := S } = .exc (.transport 0) l1 ∧
      PRX resp i e0 eEnd TT CC ⟨w, pl, t.outcomes ++ (t.w.cl i).outs (w.cl i) bs, cs⟩ l1) ∧
    ∀ b, (w.cl i).queue = [] → bs = [b] → ∃ l1 l2, process c resp ns.length { l with sched := S } = .ok () l1 ∧ l1.pending = [] ∧
      process c resp 1 { l1 with pending := l1.pending ++ [b] } = .exc (.transport 0) l2 ∧
      PRX resp i e0 eEnd TT CC ⟨w, pl, t.outcomes ++ (t.w.cl i).outs (w.cl i) bs, cs⟩ l2 := by
  have hd : (w.cl i).pc ≠ .dead := by rw [hpc]; intro h; cases h
  have hre := refused_ok hc.news hm
  have hbr : (t.w.cl i).broke (w.cl i) = true := by simp [PCl.broke, hre, hpc]
  have hou : (t.w.cl i).outs (w.cl i) bs = ns.map PGot.out ++ (((w.cl i).queue.map Prod.fst ++ bs).take 1).map (fun b => (b, none)) := by
    simp only [PCl.outs, hbr, hc.news, if_true]; rfl
  obtain ⟨q, q1, q2⟩ := hc.queue hd
  rw [if_neg (by rw [hpc]; intro h; cases h), List.append_nil] at q2
  have hp : l.pending = ns.map Prod.fst ++ q := by rw [hR.pend, q1]
  have hch := hc.chain hd
  rw [hR.heap] at hch
  refine ⟨hre, hbr, ?_, ?_⟩
  · intro x qs hq
    rw [hou] at hG ⊢
    rw [hq, List.map_cons] at q2
    simp only [hq, List.map_cons, List.cons_append, List.take_succ_cons, List.take_zero, List.map_nil] at hG ⊢
    obtain ⟨r, e1, f1, f2, f3, f4⟩ := hR.more hG
    refine ⟨_, hch.proc_fail (l := { l with sched := S }) hm (by rw [q2]; exact hp) f2, ⟨r, f1, f3, f4⟩, hS, rfl, ?_⟩
    rw [hc.got, List.map_append, hR.log]
  · intro b hq hb
    rw [hou] at hG ⊢
    rw [hq, List.map_nil] at q2
    subst hb
    simp only [hq, List.map_nil, List.nil_append, List.take_succ_cons, List.take_zero, List.map_cons] at hG ⊢
    obtain ⟨r, e1, f1, f2, f3, f4⟩ := hR.more hG
    obtain ⟨e2, g1, g2⟩ := f2.split
    rw [← q2, List.append_nil] at hp
    refine ⟨_, { l with heap := (w.cl i).heap, pending := [], env := e1, sched := S, log := l.log ++ ns.map PGot.rx }, hch.proc (l := { l with sched := S }) (rest := []) hm (by rw [List.append_nil]; exact hp) g1, rfl, ?_, ?_⟩
    rotate_left
    · exact ⟨⟨r, f1, f3, f4⟩, hS, rfl, by show l.log ++ _ = _; rw [hc.got, List.map_append, hR.log]⟩
    · cases g2 with
      | cons q g2 =>
        cases g2
        simp only [List.nil_append]
        rw [process]
        simp only
        rw [q]

theorem paged_sim : TSim (pagedT c ps dresp i) (linkT c resp) 0 0 (fun _ => True) (PGood TT CC) (PR resp i e0 eEnd TT CC) (PRX resp i e0 eEnd TT CC) := by
  constructor
  · intro t l b _ hG hR
    rw [Buf.shift_zero]
    revert hG
    simp only [pagedT]
    have h0 := inCall_disp (c := c) (ps := ps) (resp := dresp) (b := b) hR.idle hR.lk
    obtain ⟨ns, hc⟩ := inner_steps (ps := ps) (resp := dresp) (t.plan.headD []) _ h0
    generalize (t.plan.headD []).foldl (PW.inner c ps dresp i) (t.w.act c ps dresp (.call i b)) = w at hc
    cases hpc : (w.cl i).pc with
    | idle =>
      simp only [PagedT.result, hpc]
      intro hG
      have hG := hG _ rfl
      have hGc := hG.cnt
      simp only at hGc
      have hcnt := drop_counts' hGc
      obtain ⟨q, l1, g1, g2, g3, g4⟩ := paged_ok (pl := t.plan.tail) (cs := t.counts ++ [(t.w.cl i).nums (w.cl i)]) hR hc hpc hG.out l.sched.tail (by rw [hR.sched, hcnt]; rfl)
      have hsc : l.sched.headD (0, 0) = (ns.length, 0) := by rw [hR.sched, hcnt, (hc.outs_ok hpc).2]; rfl
      simp only [linkT, hsc, g2, g3]
      exact ⟨_, rfl, g4⟩
    | thrown =>
      simp only [PagedT.result, hpc]
      intro hG
      have hG := hG _ rfl
      have hGc := hG.cnt
      simp only at hGc
      have hcnt := drop_counts' hGc
      have hS : l.sched.tail = CC.drop (t.counts ++ [(t.w.cl i).nums (w.cl i)]).length := by rw [hR.sched, hcnt]; rfl
      have hsc : l.sched.headD (0, 0) = (t.w.cl i).nums (w.cl i) := by rw [hR.sched, hcnt]; rfl
      rcases hc.good (by rw [hpc]; intro h; cases h) with ⟨hm, hne⟩ | ⟨_, ms, x, e, rfl, hm, hx⟩
      · obtain ⟨g1, g2, g3, g4⟩ := paged_fail (pl := t.plan.tail) hR hc hpc hm hG.out l.sched.tail hS
        rw [g1]
        cases hq : (w.cl i).queue with
        | cons x q =>
          obtain ⟨l1, k1, k2⟩ := g3 x q hq
          have hnu : (t.w.cl i).nums (w.cl i) = (ns.length + 1, 0) := by
            simp only [PCl.nums, g2, if_true, hq, hc.news]; rfl
          simp only [linkT, hsc, hnu, k1]
          rw [hnu] at k2
          exact ⟨_, rfl, k2⟩
        | nil =>
          obtain ⟨l1, l2, k1, k2, k3, k4⟩ := g4 b hq rfl
          have hnu : (t.w.cl i).nums (w.cl i) = (ns.length, 1) := by
            simp only [PCl.nums, g2, if_true, hq, hc.news]
          simp only [linkT, hsc, hnu, k1, k3]
          rw [hnu] at k4
          exact ⟨_, rfl, k4⟩
      · obtain ⟨g1, g2, l1, k1, k2⟩ := paged_err (pl := t.plan.tail) hR hc hpc hm hx hG.out l.sched.tail hS
        rw [g1]
        rw [g2] at hsc
        simp only [linkT, hsc, k1]
        exact ⟨_, rfl, k2⟩
    | dead => simp only [PagedT.result, hpc]; intro _; trivial
    | disp b' => simp only [PagedT.result, hpc]; intro _; trivial
    | flush => simp only [PagedT.result, hpc]; intro _; trivial
    | flushed => simp only [PagedT.result, hpc]; intro _; trivial
  · intro t l hG hR
    revert hG
    simp only [pagedT]
    have h0 := inCall_flush (c := c) (ps := ps) (resp := dresp) hR.idle hR.lk
    obtain ⟨ns, hc⟩ := inner_steps (ps := ps) (resp := dresp) (t.plan.headD []) _ h0
    generalize (t.plan.headD []).foldl (PW.inner c ps dresp i) (t.w.act c ps dresp (.callFlush i)) = w at hc
    have hls : ({ l with sched := l.sched } : Link ρ) = l := rfl
    cases hpc : (w.cl i).pc with
    | idle =>
      simp only [PagedT.result, hpc]
      intro hG
      have hG := hG _ rfl
      obtain ⟨q, l1, g1, g2, g3, g4⟩ := paged_ok (pl := t.plan.tail) (cs := t.counts) hR hc hpc hG.out l.sched hR.sched
      rw [hls] at g2
      have hqe : q = [] := by
        have h1 := g4.pend
        simp only [List.append_nil] at h1
        rw [h1, hc.idle hpc rfl]; rfl
      subst hqe
      have := (process_all (c := c) (resp := resp) _ l).1 l1 g2 g3
      refine ⟨l1, this, ?_⟩
      have hl1 : ({ l1 with pending := [] ++ [] } : Link ρ) = l1 := by
        cases l1; simp only at g3; subst g3; rfl
      rw [hl1] at g4
      exact g4
    | thrown =>
      simp only [PagedT.result, hpc]
      intro hG
      have hG := hG _ rfl
      rcases hc.good (by rw [hpc]; intro h; cases h) with ⟨hm, hne⟩ | ⟨_, ms, x, e, rfl, hm, hx⟩
      · obtain ⟨g1, g2, g3, g4⟩ := paged_fail (pl := t.plan.tail) (cs := t.counts) hR hc hpc hm hG.out l.sched hR.sched
        rw [g1]
        cases hq : (w.cl i).queue with
        | cons x q =>
          obtain ⟨l1, k1, k2⟩ := g3 x q hq
          exact ⟨l1, (process_all (c := c) (resp := resp) _ l).2 _ l1 k1, k2⟩
        | nil => exact absurd rfl (hne hpc hq)
      · obtain ⟨g1, g2, l1, k1, k2⟩ := paged_err (pl := t.plan.tail) (cs := t.counts) hR hc hpc hm hx hG.out l.sched hR.sched
        rw [g1]
        exact ⟨l1, (process_all (c := c) (resp := resp) _ l).2 _ l1 k1, k2⟩
    | dead => simp only [PagedT.result, hpc]; intro _; trivial
    | disp b' => simp only [PagedT.result, hpc]; intro _; trivial
    | flush => simp only [PagedT.result, hpc]; intro _; trivial
    | flushed => simp only [PagedT.result, hpc]; intro _; trivial
  · intro t l hG hR
    simp only [pagedT, PW.act, PW.set_self, if_true]
    refine ⟨⟨hR.env, hR.sched, ?_, ?_⟩, ?_, ?_, ?_⟩
    · simp only [PW.set_self]; exact hR.heap
    · simp only [PW.set_self]; exact hR.log
    · simp only [PW.set_self]
    · simp [PW.set_self, linkT]
    · simp [PW.set_self]
  · intro t b t1 h hG
    have := result_state h
    subst this
    exact ⟨(List.prefix_append _ _).trans hG.out, (List.prefix_append _ _).trans hG.cnt⟩
  · intro t t1 h hG
    have := result_state h
    subst this
    exact ⟨(List.prefix_append _ _).trans hG.out, hG.cnt⟩
  · intro t hG
    exact ⟨hG.out, hG.cnt⟩

variable {pages size start : Nat} {count0 : W} {d0 : δ}

theorem paged_init_rel (plan : List (List PAct)) (hf : Follows resp e0 TT eEnd) :
    SRel 0 0 [] [] (PR resp i e0 eEnd TT CC) (St.init (PagedT.init ps pages size start count0 d0 plan)) (St.init (Link.init e0 CC)) := by
  refine ⟨rfl, rfl, rfl, rfl, ⟨⟨⟨TT, ?_, .nil _, hf⟩, ?_, rfl, rfl⟩, rfl, rfl, fun _ => rfl⟩, [], rfl, rfl⟩
  · simp [St.init, PagedT.init]
  · simp [St.init, PagedT.init, Link.init]

/-- What the simulation gives at the end. -/
structure PRefined (i : Nat) (s : St (PagedT δ)) (s' : St (Link ρ)) : Prop where
  hist : s'.hist = s.hist
  cur : s'.cur = s.cur
  ctr : s'.ctr = s.ctr
  nObj : s'.nObj = s.nObj
  nPre : s'.nPre = s.nPre
  heap : (s.tr.w.cl i).heap = s'.tr.heap
  log : s'.tr.log = (s.tr.w.cl i).got.map PGot.rx
  pend : s'.tr.pending = (s.tr.w.cl i).queue.map Prod.fst

theorem SRel.prefined {s : St (PagedT δ)} {s' : St (Link ρ)} (h : SRel 0 0 [] [] (PR resp i e0 eEnd TT CC) s s') : PRefined i s s' := by
  have hz : Buf.shift 0 0 = id := funext Buf.shift_zero
  refine ⟨?_, ?_, h.ctr, h.nObj, h.nPre, h.tr.heap, h.tr.log, h.tr.pend⟩
  · obtain ⟨H, e1, e2⟩ := h.hist
    rw [e1, e2, hz, List.map_id]
  · rw [h.cur, hz]; simp

/-- A program run on a PCIe or mmap client is a run on `linkT`, in every environment that answers the packets as they were answered.
Here in two parts: `ops`, then `ops'`. -/
theorem paged_refines₂ (ops ops' : List Op) (plan : List (List PAct)) (rs rs' : List Res) (s s' : St (PagedT δ))
    (h : runOps c (pagedT c ps dresp i) ops (St.init (PagedT.init ps pages size start count0 d0 plan)) = some (rs, s))
    (h' : runOps c (pagedT c ps dresp i) ops' s = some (rs', s')) (hf : Follows resp e0 s'.tr.outcomes eEnd) :
    ∃ (sched : List (Nat × Nat)) (l l' : St (Link ρ)),
      runOps c (linkT c resp) ops (St.init (Link.init e0 sched)) = some (rs, l) ∧ runOps c (linkT c resp) ops' l = some (rs', l') ∧
      PRefined i s l ∧ PRefined i s' l' ∧ Follows resp e0 s.tr.outcomes l.tr.env ∧ l'.tr.env = eEnd := by
  have hsim := paged_sim (c := c) (ps := ps) (dresp := dresp) (resp := resp) (i := i) (e0 := e0) (eEnd := eEnd) (TT := s'.tr.outcomes) (CC := s'.tr.counts)
  have hC : Cond (fun _ => True) (PGood s'.tr.outcomes s'.tr.counts) s' := ⟨fun _ _ => trivial, List.prefix_refl _, List.prefix_refl _⟩
  have hG := (run_mono hsim ops' h').cond hC
  obtain ⟨_, l, k1, k2⟩ := sim_run hsim ops h hG (paged_init_rel plan hf)
  obtain ⟨_, l', k3, k4⟩ := sim_run hsim ops' h' hC k2
  rw [shift0] at k1 k3
  obtain ⟨_, _, m1, _⟩ := k2.tr.env
  obtain ⟨rest, m2, _, m3⟩ := k4.tr.env
  refine ⟨_, l, l', k1, k3, k2.prefined, k4.prefined, m1, ?_⟩
  have h5 := congrArg List.length m2
  simp at h5
  subst h5
  cases m3; rfl

theorem paged_refines (ops : List Op) (plan : List (List PAct)) (rs : List Res) (s : St (PagedT δ))
    (h : runOps c (pagedT c ps dresp i) ops (St.init (PagedT.init ps pages size start count0 d0 plan)) = some (rs, s))
    (hf : Follows resp e0 s.tr.outcomes eEnd) :
    ∃ (sched : List (Nat × Nat)) (s' : St (Link ρ)), runOps c (linkT c resp) ops (St.init (Link.init e0 sched)) = some (rs, s') ∧
      PRefined i s s' ∧ s'.tr.env = eEnd := by
  obtain ⟨sched, l, l', h1, h2, h3, h4, h5, h6⟩ := paged_refines₂ ops [] plan rs [] s s h rfl hf
  cases h2
  exact ⟨sched, l, h1, h3, h6⟩

end
end Verif
