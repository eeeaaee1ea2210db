import Verif.Lemmas.Wire
/-!
# Simulation between clients

Two clients with the same configuration, whose objects and preambles are named with an offset and whose
transports simulate each other, go through corresponding states and return corresponding results. Used to
compare a client after a failure with a fresh one (C17), and a client whose objects the user tampers with with
one whose objects are left alone (C13, C14).
-/

set_option autoImplicit false
set_option linter.unusedSectionVars false
set_option linter.unusedSimpArgs false

namespace Verif

/-- Rename: objects by `d`, preambles by `e`. -/
def Loc.shift (d e : Nat) : Loc → Loc
  | .hdr o k => .hdr (o + d) k
  | .data o i => .data (o + d) i
  | .pkt k => .pkt (k + e)
  | .hub k j => .hub (k + e) j

def Slot.shift (d e : Nat) (s : Slot) : Slot := ⟨s.loc.shift d e, s.len⟩
def Buf.shift (d e : Nat) (b : Buf) : Buf := ⟨b.send, b.reply.map (Slot.shift d e), b.adds.map (· + d)⟩
def Handle.shift (d : Nat) : Handle → Handle
  | .hdr o => .hdr (o + d)
  | .word o m => .word (o + d) m
  | .vec o n => .vec (o + d) n

theorem Loc.shift_inj {d e : Nat} {a b : Loc} (h : a.shift d e = b.shift d e) : a = b := by
  cases a <;> cases b <;> simp_all [Loc.shift]

theorem Loc.shift_zero (l : Loc) : l.shift 0 0 = l := by cases l <;> rfl
theorem Slot.shift_zero (l : Slot) : l.shift 0 0 = l := by simp [Slot.shift, Loc.shift_zero]
theorem Buf.shift_zero (b : Buf) : b.shift 0 0 = b := by
  have : (Slot.shift 0 0) = id := funext Slot.shift_zero
  simp [Buf.shift, this]
theorem Handle.shift_zero (h : Handle) : h.shift 0 = h := by cases h <;> rfl

theorem Buf.shift_replyWords (d e : Nat) (b : Buf) : (b.shift d e).replyWords = b.replyWords := by
  unfold Buf.replyWords Buf.shift Slot.shift
  simp [Function.comp_def]

/-- State after an outcome. -/
def Out.state? {σ α : Type} : Out σ α → Option σ
  | .ok _ s => some s
  | .exc _ s => some s
  | _ => none

/-- Corresponding outcomes of transport calls: `R` after normal ones, `RX` after exceptions. Undefined behaviour and
non-termination on the left allow anything. -/
def TRel {σ σ' : Type} (R RX : σ → σ' → Prop) : Out σ Unit → Out σ' Unit → Prop
  | .ok _ s, r => ∃ s', r = .ok () s' ∧ R s s'
  | .exc e s, r => ∃ s', r = .exc e s' ∧ RX s s'
  | .ub, _ => True
  | .loops, _ => True

/-- The first argument contains the second. -/
class SubR {τ τ' : Type} (R RX : τ → τ' → Prop) : Prop where
  sub : ∀ {t t'}, R t t' → RX t t'

instance {τ τ' : Type} (R : τ → τ' → Prop) : SubR R R := ⟨fun h => h⟩

/-- `T'` simulates `T` on the buffers that satisfy `P`, as long as the states of `T` satisfy `G`. `RX` relates states
between an exception and the exception handler. -/
structure TSim {τ τ' : Type} (T : Transport τ) (T' : Transport τ') (d e : Nat) (P : Buf → Prop) (G : τ → Prop)
    (R RX : τ → τ' → Prop) : Prop where
  disp : ∀ t t' b, P b → (∀ t1, (T.disp t b).state? = some t1 → G t1) → R t t' → TRel R RX (T.disp t b) (T'.disp t' (b.shift d e))
  flush : ∀ t t', (∀ t1, (T.flush t).state? = some t1 → G t1) → R t t' → TRel R RX (T.flush t) (T'.flush t')
  handler : ∀ t t', G (T.handler t) → RX t t' → R (T.handler t) (T'.handler t')
  dispG : ∀ t b t1, (T.disp t b).state? = some t1 → G t1 → G t
  flushG : ∀ t t1, (T.flush t).state? = some t1 → G t1 → G t
  handlerG : ∀ t, G (T.handler t) → G t

/-- Corresponding client states. `h`, `h'`: histories at the start. -/
structure SRel {τ τ' : Type} (d e : Nat) (h h' : List Buf) (R : τ → τ' → Prop) (s : St τ) (s' : St τ') : Prop where
  ctr : s'.ctr = s.ctr
  cur : s'.cur = s.cur.map (Buf.shift d e)
  nObj : s'.nObj = s.nObj + d
  nPre : s'.nPre = s.nPre + e
  tr : R s.tr s'.tr
  hist : ∃ H, s.hist = h ++ H ∧ s'.hist = h' ++ H.map (Buf.shift d e)

/-- How the left state develops. -/
structure Mono {τ : Type} (G : τ → Prop) (s s1 : St τ) : Prop where
  hist : s.hist <+: s1.hist
  good : G s1.tr → G s.tr

theorem Mono.refl {τ : Type} {G : τ → Prop} (s : St τ) : Mono G s s := ⟨List.prefix_refl _, id⟩
theorem Mono.same {τ : Type} {G : τ → Prop} {s s1 : St τ} (h : s1.hist = s.hist) (h' : s1.tr = s.tr) : Mono G s s1 :=
  ⟨by rw [h]; exact List.prefix_refl _, by rw [h']; exact id⟩
theorem Mono.trans {τ : Type} {G : τ → Prop} {a b d : St τ} (h : Mono G a b) (h' : Mono G b d) : Mono G a d :=
  ⟨h.hist.trans h'.hist, fun x => h.good (h'.good x)⟩

/-- What is assumed of the final state on the left. -/
structure Cond {τ : Type} (P : Buf → Prop) (G : τ → Prop) (s : St τ) : Prop where
  buf : ∀ b ∈ s.hist, P b
  good : G s.tr

theorem Mono.cond {τ : Type} {P : Buf → Prop} {G : τ → Prop} {s s1 : St τ} (h : Mono G s s1) (h' : Cond P G s1) : Cond P G s :=
  ⟨fun b hb => h'.buf b (h.hist.subset hb), h.good h'.good⟩

section
variable {τ τ' : Type} {c : Cfg} {T : Transport τ} {T' : Transport τ'} {d e : Nat} {P : Buf → Prop} {G : τ → Prop}
variable {R RX : τ → τ' → Prop} {h0 h0' : List Buf}

/-- The right computation simulates the left one, provided every buffer dispatched on the left satisfies `P` and the
final state `G`. -/
def SimM (P : Buf → Prop) (G : τ → Prop) (R RX : τ → τ' → Prop) (d e : Nat) (h0 h0' : List Buf) {α α' : Type} (A : α → α' → Prop)
    (m : M τ α) (m' : M τ' α') : Prop := ∀ s,
  match m s with
  | .ok a s1 => Mono G s s1 ∧ ∀ s', Cond P G s1 → SRel d e h0 h0' R s s' →
      ∃ a' s1', m' s' = .ok a' s1' ∧ A a a' ∧ SRel d e h0 h0' R s1 s1'
  | .exc x s1 => Mono G s s1 ∧ ∀ s', Cond P G s1 → SRel d e h0 h0' R s s' →
      ∃ s1', m' s' = .exc x s1' ∧ SRel d e h0 h0' RX s1 s1'
  | .ub => True
  | .loops => True

local notation "Sim" => SimM P G R RX d e h0 h0'

theorem SimM.bind {α α' β β' : Type} {A : α → α' → Prop} {B : β → β' → Prop} {m : M τ α} {m' : M τ' α'}
    {f : α → M τ β} {f' : α' → M τ' β'} (hm : Sim A m m') (hf : ∀ a a', A a a' → Sim B (f a) (f' a'))
    (hf0 : ∀ a, ∃ a', A a a') :
    Sim B (m >>= f) (m' >>= f') := by
  intro s
  have h := hm s
  show match M.bind m f s with
  | .ok _ _ => _
  | .exc _ _ => _
  | .ub => True
  | .loops => True
  unfold M.bind
  cases hms : m s with
  | ok a s1 =>
    rw [hms] at h
    obtain ⟨h1, h2⟩ := h
    dsimp only
    obtain ⟨a0, ha0⟩ := hf0 a
    have hfa := hf a a0 ha0 s1
    cases hfs : f a s1 with
    | ok b s2 =>
      rw [hfs] at hfa
      obtain ⟨g1, _⟩ := hfa
      refine ⟨h1.trans g1, ?_⟩
      intro s' hP hR
      obtain ⟨a', s1', e1, hA, hR1⟩ := h2 s' (g1.cond hP) hR
      have hfa := hf a a' hA s1
      rw [hfs] at hfa
      obtain ⟨b', s2', e2, hB, hR2⟩ := hfa.2 s1' hP hR1
      refine ⟨b', s2', ?_, hB, hR2⟩
      show M.bind m' f' s' = _
      unfold M.bind
      rw [e1]; exact e2
    | exc x s2 =>
      rw [hfs] at hfa
      obtain ⟨g1, _⟩ := hfa
      refine ⟨h1.trans g1, ?_⟩
      intro s' hP hR
      obtain ⟨a', s1', e1, hA, hR1⟩ := h2 s' (g1.cond hP) hR
      have hfa := hf a a' hA s1
      rw [hfs] at hfa
      obtain ⟨s2', e2, hR2⟩ := hfa.2 s1' hP hR1
      refine ⟨s2', ?_, hR2⟩
      show M.bind m' f' s' = _
      unfold M.bind
      rw [e1]; exact e2
    | ub => trivial
    | loops => trivial
  | exc x s1 =>
    rw [hms] at h
    obtain ⟨h1, h2⟩ := h
    refine ⟨h1, fun s' hP hR => ?_⟩
    obtain ⟨s1', e1, hR1⟩ := h2 s' hP hR
    refine ⟨s1', ?_, hR1⟩
    show M.bind m' f' s' = _
    unfold M.bind
    rw [e1]
  | ub => trivial
  | loops => trivial

/-- The common case: no relation on the result but equality. -/
theorem SimM.bindE {α β β' : Type} {B : β → β' → Prop} {m : M τ α} {m' : M τ' α} {f : α → M τ β} {f' : α → M τ' β'}
    (hm : Sim Eq m m') (hf : ∀ a, Sim B (f a) (f' a)) : Sim B (m >>= f) (m' >>= f') :=
  hm.bind (fun a a' h => by subst h; exact hf a) fun a => ⟨a, rfl⟩

theorem SimM.pure {α α' : Type} {A : α → α' → Prop} {a : α} {a' : α'} (h : A a a') :
    Sim A (Pure.pure a : M τ α) (Pure.pure a' : M τ' α') :=
  fun _ => ⟨Mono.same rfl rfl, fun s' _ hR => ⟨a', s', rfl, h, hR⟩⟩

theorem SimM.ub {α α' : Type} {A : α → α' → Prop} {m' : M τ' α'} : Sim A (fun _ => .ub) m' := fun _ => trivial
theorem SimM.loops {α α' : Type} {A : α → α' → Prop} {m' : M τ' α'} : Sim A (fun _ => .loops) m' := fun _ => trivial

theorem SimM.ite {α α' : Type} {A : α → α' → Prop} {p : Prop} [Decidable p] {m n : M τ α} {m' n' : M τ' α'}
    (h1 : p → Sim A m m') (h2 : ¬ p → Sim A n n') : Sim A (if p then m else n) (if p then m' else n') := by
  by_cases hp : p
  · simp only [hp, if_true]; exact h1 hp
  · simp only [hp, if_false]; exact h2 hp

theorem SimM.curOpt {α α' : Type} {A : α → α' → Prop} {n : M τ α} {n' : M τ' α'} {k : Buf → M τ α} {k' : Buf → M τ' α'}
    (hn : Sim A n n') (h : ∀ b, Sim A (k b) (k' (b.shift d e))) :
    Sim A (fun s => match s.cur with | none => n s | some b => k b s) (fun s => match s.cur with | none => n' s | some b => k' b s) := by
  intro s
  cases hc : s.cur with
  | none =>
    have := hn s
    simp only [hc]
    cases hk : n s with
    | ok a s1 =>
      rw [hk] at this
      refine ⟨this.1, fun s' hP hR => ?_⟩
      have hc' : s'.cur = none := by rw [hR.cur, hc]; rfl
      rw [hc']
      exact this.2 s' hP hR
    | exc x s1 =>
      rw [hk] at this
      refine ⟨this.1, fun s' hP hR => ?_⟩
      have hc' : s'.cur = none := by rw [hR.cur, hc]; rfl
      rw [hc']
      exact this.2 s' hP hR
    | ub => trivial
    | loops => trivial
  | some b =>
    have := h b s
    simp only [hc]
    cases hk : k b s with
    | ok a s1 =>
      rw [hk] at this
      refine ⟨this.1, fun s' hP hR => ?_⟩
      have hc' : s'.cur = some (b.shift d e) := by rw [hR.cur, hc]; rfl
      rw [hc']
      exact this.2 s' hP hR
    | exc x s1 =>
      rw [hk] at this
      refine ⟨this.1, fun s' hP hR => ?_⟩
      have hc' : s'.cur = some (b.shift d e) := by rw [hR.cur, hc]; rfl
      rw [hc']
      exact this.2 s' hP hR
    | ub => trivial
    | loops => trivial

/-- A computation that first looks at the current buffer. -/
theorem SimM.cur {α α' : Type} {A : α → α' → Prop} {k : Buf → M τ α} {k' : Buf → M τ' α'}
    (h : ∀ b, Sim A (k b) (k' (b.shift d e))) :
    Sim A (fun s => match s.cur with | none => .ub | some b => k b s) (fun s => match s.cur with | none => .ub | some b => k' b s) :=
  SimM.curOpt (n := fun _ => .ub) (n' := fun _ => .ub) (fun _ => trivial) h

/-- Replacing the current buffer. -/
theorem SimM.setCur {b : Option Buf} : Sim (fun _ _ => True) (fun s => .ok () { s with cur := b })
    (fun s => .ok () { s with cur := b.map (Buf.shift d e) }) :=
  fun _ => ⟨Mono.same rfl rfl, fun _ _ hR => ⟨(), _, rfl, trivial, ⟨hR.ctr, rfl, hR.nObj, hR.nPre, hR.tr, hR.hist⟩⟩⟩

theorem SimM.mono {α α' : Type} {A B : α → α' → Prop} {m : M τ α} {m' : M τ' α'} (h : Sim A m m') (hab : ∀ a a', A a a' → B a a') :
    Sim B m m' := by
  intro s
  have := h s
  cases hm : m s with
  | ok a s1 =>
    rw [hm] at this
    refine ⟨this.1, fun s' hP hR => ?_⟩
    obtain ⟨a', s1', h1, h2, h3⟩ := this.2 s' hP hR
    exact ⟨a', s1', h1, hab _ _ h2, h3⟩
  | exc x s1 => rw [hm] at this; exact this
  | ub => trivial
  | loops => trivial

theorem SimM.unit {m : M τ Unit} {m' : M τ' Unit} (h : Sim (fun _ _ => True) m m') : Sim Eq m m' := h.mono fun _ _ _ => rfl

theorem sim_sendWords (ws : List W) : Sim Eq (sendWords c ws) (sendWords c ws) := by
  unfold sendWords
  apply SimM.cur
  intro b
  by_cases hb : 4 * (b.send.length + ws.length) ≤ c.maxSend.toNat
  · simp only [hb, if_true, Buf.shift]
    exact SimM.unit (SimM.setCur (b := some _))
  · simp only [hb, if_false, Buf.shift]
    exact SimM.ub

theorem sim_receive (l : Loc) (n : Nat) : Sim Eq (receive l n) (receive (l.shift d e) n) := by
  unfold receive
  refine SimM.cur (k := fun b s => .ok () { s with cur := some { b with reply := b.reply ++ [⟨l, n⟩] } })
    (k' := fun b s => .ok () { s with cur := some { b with reply := b.reply ++ [⟨l.shift d e, n⟩] } }) ?_
  intro b
  have := SimM.unit (SimM.setCur (P := P) (G := G) (R := R) (RX := RX) (d := d) (e := e) (h0 := h0) (h0' := h0') (b := some { b with reply := b.reply ++ [⟨l, n⟩] }))
  simpa [Buf.shift, Slot.shift] using this

theorem sim_addMem (o : Nat) : Sim Eq (addMem o) (addMem (o + d)) := by
  unfold addMem
  refine SimM.cur (k := fun b s => .ok () { s with cur := some { b with adds := b.adds ++ [o] } })
    (k' := fun b s => .ok () { s with cur := some { b with adds := b.adds ++ [o + d] } }) ?_
  intro b
  have := SimM.unit (SimM.setCur (P := P) (G := G) (R := R) (RX := RX) (d := d) (e := e) (h0 := h0) (h0' := h0') (b := some { b with adds := b.adds ++ [o] }))
  simpa [Buf.shift, Slot.shift] using this

theorem sim_alloc : Sim (fun o o' => o' = o + d) (alloc (τ := τ)) (alloc (τ := τ')) :=
  fun s => ⟨Mono.same rfl rfl, fun s' _ hR => ⟨_, _, rfl, hR.nObj,
    ⟨hR.ctr, hR.cur, by show s'.nObj + 1 = s.nObj + 1 + d; rw [hR.nObj]; omega, hR.nPre, hR.tr, hR.hist⟩⟩⟩

variable [SubR R RX]

theorem sim_sendHeader (ty : Ty) (wc : W) : Sim Eq (sendHeader c ty wc) (sendHeader c ty wc) := by
  intro s
  unfold sendHeader
  dsimp only
  cases hh : calcHeader c.ver ty wc s.ctr (reqInfo c.ver) with
  | none =>
    refine ⟨Mono.same rfl rfl, fun s' _ hR => ⟨{ s' with ctr := s'.ctr + 1 }, ?_, ?_⟩⟩
    · rw [hR.ctr, hh]
    · exact ⟨by rw [hR.ctr], hR.cur, hR.nObj, hR.nPre, SubR.sub hR.tr, hR.hist⟩
  | some w =>
    have := sim_sendWords (P := P) (G := G) (R := R) (RX := RX) (d := d) (e := e) (h0 := h0) (h0' := h0') (c := c) [w] { s with ctr := s.ctr + 1 }
    dsimp only
    cases hk : sendWords c [w] { s with ctr := s.ctr + 1 } with
    | ok a s1 =>
      rw [hk] at this
      refine ⟨⟨this.1.hist, this.1.good⟩, fun s' hP hR => ?_⟩
      rw [hR.ctr, hh]
      exact this.2 { s' with ctr := s.ctr + 1 } hP ⟨rfl, hR.cur, hR.nObj, hR.nPre, hR.tr, hR.hist⟩
    | exc x s1 =>
      rw [hk] at this
      refine ⟨⟨this.1.hist, this.1.good⟩, fun s' hP hR => ?_⟩
      rw [hR.ctr, hh]
      exact this.2 { s' with ctr := s.ctr + 1 } hP ⟨rfl, hR.cur, hR.nObj, hR.nPre, hR.tr, hR.hist⟩
    | ub => trivial
    | loops => trivial

theorem freeSend_shift (b : Buf) : freeSend c (b.shift d e) = freeSend c b := rfl
theorem freeReply_shift (b : Buf) : freeReply c (b.shift d e) = freeReply c b := by
  unfold freeReply; rw [Buf.shift_replyWords]

omit [SubR R RX] in
/-- A computation that first looks at the preamble counter. -/
theorem SimM.nPre {α α' : Type} {A : α → α' → Prop} {k : Nat → M τ α} {k' : Nat → M τ' α'}
    (h : ∀ n, Sim A (k n) (k' (n + e))) : Sim A (fun s => k s.nPre s) (fun s => k' s.nPre s) := by
  intro s
  have := h s.nPre s
  simp only
  cases hk : k s.nPre s with
  | ok a s1 =>
    rw [hk] at this
    refine ⟨this.1, fun s' hP hR => ?_⟩
    rw [hR.nPre]; exact this.2 s' hP hR
  | exc x s1 =>
    rw [hk] at this
    refine ⟨this.1, fun s' hP hR => ?_⟩
    rw [hR.nPre]; exact this.2 s' hP hR
  | ub => trivial
  | loops => trivial

theorem sim_hubPreamble : Sim Eq (hubPreamble c) (hubPreamble c) := by
  unfold hubPreamble
  cases c.hub with
  | none => exact SimM.pure rfl
  | some p =>
    refine (sim_sendWords _).bindE fun _ => ?_
    exact SimM.nPre (k := fun n => do receive (.hub n 0) 1; receive (.hub n 1) 1; receive (.hub n 2) 1)
      (k' := fun n => do receive (.hub n 0) 1; receive (.hub n 1) 1; receive (.hub n 2) 1)
      fun n => (sim_receive (.hub n 0) 1).bindE fun _ => (sim_receive (.hub n 1) 1).bindE fun _ => sim_receive (.hub n 2) 1

omit [SubR R RX] in
/-- The tail shared by all queueing functions. -/
theorem sim_reg {α α' : Type} {A : α → α' → Prop} {k : Nat → M τ α} {k' : Nat → M τ' α'}
    (h : ∀ o, Sim A (k o) (k' (o + d))) : Sim A (alloc >>= k) (alloc >>= k') :=
  sim_alloc.bind (fun a a' ha => by subst ha; exact h a) fun a => ⟨_, rfl⟩

theorem sim_implementBOT : Sim Eq (implementBOT c) (implementBOT c) := by
  unfold implementBOT
  refine SimM.bindE (α := Unit) ?_ fun _ => (sim_sendHeader _ _).bindE fun _ => sim_reg fun o =>
    (sim_addMem o).bindE fun _ => sim_receive (.hdr o 0) 1
  refine SimM.cur (k := fun b s => if 4#32 ≤ freeSend c b ∧ 4#32 ≤ freeReply c b then .ok () s else .loops)
    (k' := fun b s => if 4#32 ≤ freeSend c b ∧ 4#32 ≤ freeReply c b then .ok () s else .loops) ?_
  intro b
  simp only [freeSend_shift, freeReply_shift]
  by_cases hb : 4#32 ≤ freeSend c b ∧ 4#32 ≤ freeReply c b
  · simp only [hb, and_self, if_true]
    exact SimM.pure rfl
  · simp only [hb, if_false]
    exact SimM.loops

theorem sim_preamble : Sim Eq (preamble c) (preamble c) := by
  unfold preamble
  refine sim_hubPreamble.bindE fun _ => ?_
  have hl : Sim Eq (fun s : St τ => .ok () { s with nPre := s.nPre + 1 }) (fun s : St τ' => .ok () { s with nPre := s.nPre + 1 }) :=
    fun s => ⟨Mono.same rfl rfl, fun s' _ hR => ⟨_, _, rfl, rfl,
      ⟨hR.ctr, hR.cur, hR.nObj, by show s'.nPre + 1 = s.nPre + 1 + e; rw [hR.nPre]; omega, hR.tr, hR.hist⟩⟩⟩
  cases c.ver with
  | v1 => exact sim_implementBOT.bindE fun _ => hl
  | v2 =>
    refine (sim_sendWords _).bindE fun _ => SimM.bindE ?_ fun _ => hl
    exact SimM.nPre (k := fun n => receive (.pkt n) 1) (k' := fun n => receive (.pkt n) 1) fun n => sim_receive (.pkt n) 1

theorem sim_update : Sim Eq (updateCurrentBuffers c) (updateCurrentBuffers c) := by
  intro s
  unfold updateCurrentBuffers
  cases hc : s.cur with
  | some b =>
    refine ⟨Mono.same rfl rfl, fun s' _ hR => ⟨(), s', ?_, rfl, hR⟩⟩
    have hc' : s'.cur = some (b.shift d e) := by rw [hR.cur, hc]; rfl
    rw [hc']
  | none =>
    have := sim_preamble (P := P) (G := G) (R := R) (RX := RX) (d := d) (e := e) (h0 := h0) (h0' := h0') (c := c) { s with cur := some Buf.empty }
    dsimp only
    cases hk : preamble c { s with cur := some Buf.empty } with
    | ok a s1 =>
      rw [hk] at this
      refine ⟨⟨this.1.hist, this.1.good⟩, fun s' hP hR => ?_⟩
      have hc' : s'.cur = none := by rw [hR.cur, hc]; rfl
      rw [hc']
      exact this.2 { s' with cur := some Buf.empty } hP ⟨hR.ctr, rfl, hR.nObj, hR.nPre, hR.tr, hR.hist⟩
    | exc x s1 =>
      rw [hk] at this
      refine ⟨⟨this.1.hist, this.1.good⟩, fun s' hP hR => ?_⟩
      have hc' : s'.cur = none := by rw [hR.cur, hc]; rfl
      rw [hc']
      exact this.2 { s' with cur := some Buf.empty } hP ⟨hR.ctr, rfl, hR.nObj, hR.nPre, hR.tr, hR.hist⟩
    | ub => trivial
    | loops => trivial

omit [SubR R RX] in
theorem sim_padLoop (n : Nat) : Sim Eq (padLoop c n) (padLoop c n) := by
  induction n with
  | zero => exact SimM.pure rfl
  | succ n ih =>
    unfold padLoop
    refine SimM.bindE ?_ fun _ => sim_reg fun o => (sim_addMem o).bindE fun _ => (sim_receive (.hdr o 0) 1).bindE fun _ => ih
    exact sim_sendWords _

omit [SubR R RX] in
theorem sim_hubPatch : Sim Eq (hubPatch c) (hubPatch c) := by
  unfold hubPatch
  cases c.hub with
  | none => exact SimM.pure rfl
  | some p =>
    simp only
    apply SimM.cur
    intro b
    exact SimM.unit (SimM.setCur (b := some _))

omit [SubR R RX] in
theorem sim_predispatch : Sim Eq (predispatch c) (predispatch c) := by
  unfold predispatch
  cases c.ver with
  | v2 => exact sim_hubPatch
  | v1 =>
    refine SimM.bindE ?_ fun _ => sim_hubPatch
    refine SimM.cur (k := fun b => fun s => if (0#32).slt (BitVec.ofNat 32 (7 + c.preambleSize) - BitVec.ofNat 32 b.send.length) then
      padLoop c (BitVec.ofNat 32 (7 + c.preambleSize) - BitVec.ofNat 32 b.send.length).toNat s else .ok () s)
      (k' := fun b => fun s => if (0#32).slt (BitVec.ofNat 32 (7 + c.preambleSize) - BitVec.ofNat 32 b.send.length) then
      padLoop c (BitVec.ofNat 32 (7 + c.preambleSize) - BitVec.ofNat 32 b.send.length).toNat s else .ok () s) ?_
    intro b
    simp only [Buf.shift]
    by_cases hp : (0#32).slt (BitVec.ofNat 32 (7 + c.preambleSize) - BitVec.ofNat 32 b.send.length) = true
    · simp only [hp, if_true]; exact sim_padLoop _
    · simp only [hp, if_false]; exact SimM.pure rfl

omit [SubR R RX] in
theorem sim_dispatchCurrent (hT : TSim T T' d e P G R RX) : Sim Eq (dispatchCurrent c T) (dispatchCurrent c T') := by
  unfold dispatchCurrent
  refine sim_predispatch.bindE fun _ => SimM.unit ?_
  intro s
  cases hc : s.cur with
  | none => simp only [hc]
  | some b =>
    simp only [hc]
    cases hd : T.disp s.tr b with
    | ok a t =>
      have hsome : (T.disp s.tr b).state? = some t := by rw [hd]; rfl
      refine ⟨⟨List.prefix_append _ _, hT.dispG _ _ _ hsome⟩, fun s' hP hR => ?_⟩
      have hb : P b := hP.buf b (by simp)
      have hc' : s'.cur = some (b.shift d e) := by rw [hR.cur, hc]; rfl
      obtain ⟨H, e1, e2⟩ := hR.hist
      have := hT.disp s.tr s'.tr b hb (fun t1 h1 => by rw [hsome] at h1; cases h1; exact hP.good) hR.tr
      rw [hd] at this
      obtain ⟨t', q1, q2⟩ := this
      simp only [hc', q1]
      exact ⟨(), _, rfl, trivial, ⟨hR.ctr, rfl, hR.nObj, hR.nPre, q2, H ++ [b], by simp [e1], by simp [e2]⟩⟩
    | exc x t =>
      have hsome : (T.disp s.tr b).state? = some t := by rw [hd]; rfl
      refine ⟨⟨List.prefix_append _ _, hT.dispG _ _ _ hsome⟩, fun s' hP hR => ?_⟩
      have hb : P b := hP.buf b (by simp)
      have hc' : s'.cur = some (b.shift d e) := by rw [hR.cur, hc]; rfl
      obtain ⟨H, e1, e2⟩ := hR.hist
      have := hT.disp s.tr s'.tr b hb (fun t1 h1 => by rw [hsome] at h1; cases h1; exact hP.good) hR.tr
      rw [hd] at this
      obtain ⟨t', q1, q2⟩ := this
      simp only [hc', q1]
      refine ⟨_, rfl, ⟨hR.ctr, ?_, hR.nObj, hR.nPre, q2, H ++ [b], by simp [e1], by simp [e2]⟩⟩
      simp [hc]
    | ub => trivial
    | loops => trivial

omit [SubR R RX] in
theorem SimM.handler {α α' : Type} {A : α → α' → Prop} {m : M τ α} {m' : M τ' α'} (hT : TSim T T' d e P G R RX) (h : Sim A m m') :
    SimM P G R R d e h0 h0' A (withHandler T m) (withHandler T' m') := by
  intro s
  have := h s
  unfold withHandler
  cases hk : m s with
  | ok a s1 =>
    rw [hk] at this
    refine ⟨this.1, fun s' hP hR => ?_⟩
    obtain ⟨a', s1', q1, q2, q3⟩ := this.2 s' hP hR
    exact ⟨a', s1', by rw [q1], q2, q3⟩
  | exc x s1 =>
    rw [hk] at this
    refine ⟨⟨this.1.hist, fun hg => this.1.good (hT.handlerG _ hg)⟩, fun s' hP hR => ?_⟩
    obtain ⟨s1', q1, q3⟩ := this.2 s' ⟨hP.buf, hT.handlerG _ hP.good⟩ hR
    exact ⟨exceptionHandler T' s1', by rw [q1], ⟨rfl, rfl, q3.nObj, q3.nPre, hT.handler _ _ hP.good q3.tr, q3.hist⟩⟩
  | ub => trivial
  | loops => trivial

omit [SubR R RX] in
theorem sim_flush (hT : TSim T T' d e P G R RX) : Sim Eq
    (fun s : St τ => match T.flush s.tr with
      | .ok () t => .ok () { s with tr := t }
      | .exc x t => .exc x { s with tr := t }
      | .ub => .ub
      | .loops => .loops)
    (fun s : St τ' => match T'.flush s.tr with
      | .ok () t => .ok () { s with tr := t }
      | .exc x t => .exc x { s with tr := t }
      | .ub => .ub
      | .loops => .loops) := by
  intro s
  simp only
  cases hd : T.flush s.tr with
  | ok a t =>
    have hsome : (T.flush s.tr).state? = some t := by rw [hd]; rfl
    refine ⟨⟨List.prefix_refl _, hT.flushG _ _ hsome⟩, fun s' hP hR => ?_⟩
    have := hT.flush s.tr s'.tr (fun t1 h1 => by rw [hsome] at h1; cases h1; exact hP.good) hR.tr
    rw [hd] at this
    obtain ⟨t', q1, q2⟩ := this
    simp only [q1]
    exact ⟨(), _, rfl, trivial, ⟨hR.ctr, hR.cur, hR.nObj, hR.nPre, q2, hR.hist⟩⟩
  | exc x t =>
    have hsome : (T.flush s.tr).state? = some t := by rw [hd]; rfl
    refine ⟨⟨List.prefix_refl _, hT.flushG _ _ hsome⟩, fun s' hP hR => ?_⟩
    have := hT.flush s.tr s'.tr (fun t1 h1 => by rw [hsome] at h1; cases h1; exact hP.good) hR.tr
    rw [hd] at this
    obtain ⟨t', q1, q2⟩ := this
    simp only [q1]
    exact ⟨_, rfl, ⟨hR.ctr, hR.cur, hR.nObj, hR.nPre, q2, hR.hist⟩⟩
  | ub => trivial
  | loops => trivial

local notation "SimO" => SimM P G R R d e h0 h0'

omit [SubR R RX] in
theorem sim_check (hT : TSim T T' d e P G R RX) (a b : W) : SimO Eq (checkBufferSpace c T a b) (checkBufferSpace c T' a b) := by
  unfold checkBufferSpace
  refine sim_update.bindE fun _ => ?_
  apply SimM.cur
  intro x
  simp only [freeSend_shift, freeReply_shift]
  by_cases h1 : a ≤ freeSend c x ∧ b ≤ freeReply c x
  · simp only [h1, and_self, if_true]; exact SimM.pure rfl
  · simp only [h1, if_false]
    by_cases h2 : 16#32 < freeSend c x ∧ 16#32 < freeReply c x
    · simp only [h2, and_self, if_true]; exact SimM.pure rfl
    · simp only [h2, if_false]
      refine (SimM.handler hT (sim_dispatchCurrent hT)).bindE fun _ => sim_update.bindE fun _ => ?_
      apply SimM.cur
      intro y
      simp only [freeSend_shift, freeReply_shift]
      by_cases h3 : a ≤ freeSend c y ∧ b ≤ freeReply c y
      · simp only [h3, and_self, if_true]; exact SimM.pure rfl
      · simp only [h3, if_false]; exact SimM.pure rfl

/-- Corresponding handles. -/
abbrev HRel (d : Nat) (h h' : Handle) : Prop := h' = h.shift d

omit [SubR R RX] in
theorem sim_write (hT : TSim T T' d e P G R RX) (a w : W) : SimO (HRel d) (implementWrite c T a w) (implementWrite c T' a w) := by
  unfold implementWrite
  exact (sim_check hT _ _).bindE fun _ => (sim_sendHeader _ _).bindE fun _ => (sim_sendWords _).bindE fun _ =>
    (sim_sendWords _).bindE fun _ => sim_reg fun o => (sim_addMem o).bindE fun _ => (sim_receive (.hdr o 0) 1).bindE fun _ =>
    SimM.pure rfl

omit [SubR R RX] in
theorem sim_read (hT : TSim T T' d e P G R RX) (a m : W) : SimO (HRel d) (implementRead c T a m) (implementRead c T' a m) := by
  unfold implementRead
  exact (sim_check hT _ _).bindE fun _ => (sim_sendHeader _ _).bindE fun _ => (sim_sendWords _).bindE fun _ =>
    sim_reg fun o => (sim_addMem o).bindE fun _ => (sim_receive (.hdr o 0) 1).bindE fun _ =>
    (sim_receive (.data o 0) 1).bindE fun _ => SimM.pure rfl

omit [SubR R RX] in
theorem sim_readConf (hT : TSim T T' d e P G R RX) (a m : W) : SimO (HRel d) (implementReadConfigurationSpace c T a m) (implementReadConfigurationSpace c T' a m) := by
  unfold implementReadConfigurationSpace
  exact (sim_check hT _ _).bindE fun _ => (sim_sendHeader _ _).bindE fun _ => (sim_sendWords _).bindE fun _ =>
    sim_reg fun o => (sim_addMem o).bindE fun _ => (sim_receive (.hdr o 0) 1).bindE fun _ =>
    (sim_receive (.data o 0) 1).bindE fun _ => SimM.pure rfl

omit [SubR R RX] in
theorem sim_rmwBits (hT : TSim T T' d e P G R RX) (a x y : W) : SimO (HRel d) (implementRMWbits c T a x y) (implementRMWbits c T' a x y) := by
  unfold implementRMWbits
  exact (sim_check hT _ _).bindE fun _ => (sim_sendHeader _ _).bindE fun _ => (sim_sendWords _).bindE fun _ =>
    (sim_sendWords _).bindE fun _ => (sim_sendWords _).bindE fun _ =>
    sim_reg fun o => (sim_addMem o).bindE fun _ => (sim_receive (.hdr o 0) 1).bindE fun _ =>
    (sim_receive (.data o 0) 1).bindE fun _ => SimM.pure rfl

omit [SubR R RX] in
theorem sim_rmwSum (hT : TSim T T' d e P G R RX) (a x : W) : SimO (HRel d) (implementRMWsum c T a x) (implementRMWsum c T' a x) := by
  unfold implementRMWsum
  exact (sim_check hT _ _).bindE fun _ => (sim_sendHeader _ _).bindE fun _ => (sim_sendWords _).bindE fun _ =>
    (sim_sendWords _).bindE fun _ =>
    sim_reg fun o => (sim_addMem o).bindE fun _ => (sim_receive (.hdr o 0) 1).bindE fun _ =>
    (sim_receive (.data o 0) 1).bindE fun _ => SimM.pure rfl

omit [SubR R RX] in
theorem sim_writeLoop (hT : TSim T T' d e P G R RX) (ty : Ty) (inc ne : Bool) (o : Nat) (fuel k : Nat) (rest : List W) (addr pay : W) :
    SimO Eq (writeBlockLoop c T ty inc ne o fuel k rest addr pay) (writeBlockLoop c T' ty inc ne (o + d) fuel k rest addr pay) := by
  induction fuel generalizing k rest addr pay with
  | zero => exact SimM.loops
  | succ fuel ih =>
    rw [writeBlockLoop, writeBlockLoop]
    refine (sim_check hT _ _).bindE fun av => (sim_sendHeader _ _).bindE fun _ => (sim_sendWords _).bindE fun _ => ?_
    have hrec : ∀ rest' addr' pay', SimO Eq
        (do receive (.hdr o k) 1
            if (0#32).slt pay' then writeBlockLoop c T ty inc ne o fuel (k + 1) rest' addr' pay' else pure ())
        (do receive (.hdr (o + d) k) 1
            if (0#32).slt pay' then writeBlockLoop c T' ty inc ne (o + d) fuel (k + 1) rest' addr' pay' else pure ()) := by
      intro rest' addr' pay'
      refine (sim_receive (.hdr o k) 1).bindE fun _ => ?_
      cases (0#32).slt pay' with
      | true => simp only [if_true]; exact ih _ _ _ _
      | false => exact SimM.pure rfl
    cases ne with
    | false => exact hrec _ _ _
    | true =>
      simp only [if_true]
      by_cases hn : (payloadBytes c av.1 8).toNat / 4 ≤ rest.length
      · simp only [hn, if_true]
        exact (sim_sendWords _).bindE fun _ => hrec _ _ _
      · simp only [hn, if_false]
        exact fun _ => trivial

omit [SubR R RX] in
theorem sim_readLoop (hT : TSim T T' d e P G R RX) (ty : Ty) (inc : Bool) (o size : Nat) (fuel k off : Nat) (addr pay : W) :
    SimO Eq (readBlockLoop c T ty inc o size fuel k off addr pay) (readBlockLoop c T' ty inc (o + d) size fuel k off addr pay) := by
  induction fuel generalizing k off addr pay with
  | zero => exact SimM.loops
  | succ fuel ih =>
    rw [readBlockLoop, readBlockLoop]
    refine (sim_check hT _ _).bindE fun av => (sim_sendHeader _ _).bindE fun _ => (sim_sendWords _).bindE fun _ =>
      (sim_receive (.hdr o k) 1).bindE fun _ => ?_
    by_cases hn : off + (payloadBytes c av.2 4).toNat / 4 ≤ size
    · simp only [hn, if_true]
      refine (sim_receive (.data o off) _).bindE fun _ => ?_
      cases (0#32).slt (pay - payloadBytes c av.2 4) with
      | true => simp only [if_true]; exact ih _ _ _ _
      | false => exact SimM.pure rfl
    · simp only [hn, if_false]
      exact fun _ => trivial

omit [SubR R RX] in
theorem sim_writeBlock (hT : TSim T T' d e P G R RX) (a : W) (src : List W) (inc : Bool) :
    SimO (HRel d) (implementWriteBlock c T a src inc) (implementWriteBlock c T' a src inc) := by
  unfold implementWriteBlock
  exact sim_reg fun o => (sim_writeLoop hT _ _ _ o _ _ _ _ _).bindE fun _ => (sim_addMem o).bindE fun _ => SimM.pure rfl

omit [SubR R RX] in
theorem sim_readBlock (hT : TSim T T' d e P G R RX) (a n : W) (inc : Bool) :
    SimO (HRel d) (implementReadBlock c T a n inc) (implementReadBlock c T' a n inc) := by
  unfold implementReadBlock
  exact sim_reg fun o => (sim_readLoop hT _ _ o _ _ _ _ _ _).bindE fun _ => (sim_addMem o).bindE fun _ => SimM.pure rfl

omit [SubR R RX] in
theorem sim_clientDispatch (hT : TSim T T' d e P G R RX) : SimO Eq (clientDispatch c T) (clientDispatch c T') := by
  unfold clientDispatch
  refine SimM.handler hT (SimM.unit ?_)
  have h2 := fun _ : Buf => ((sim_dispatchCurrent (c := c) (h0 := h0) (h0' := h0') hT).bindE fun _ => sim_flush hT).mono
    (B := fun _ _ => True) fun _ _ _ => trivial
  exact SimM.curOpt (SimM.pure (a := ()) (a' := ()) trivial) h2

omit [SubR R RX] in
theorem sim_op (hT : TSim T T' d e P G R RX) (op : Op) :
    SimO (fun h h' => h' = h.map (Handle.shift d)) (op.run c T) (op.run c T') := by
  have lift : ∀ {m : M τ Handle} {m' : M τ' Handle}, SimO (HRel d) m m' →
      SimO (fun h h' => h' = h.map (Handle.shift d)) (m >>= fun h => pure (some h)) (m' >>= fun h => pure (some h)) := by
    intro m m' h
    exact h.bind (fun a a' ha => by subst ha; exact SimM.pure rfl) fun a => ⟨_, rfl⟩
  cases op with
  | write a w => exact lift (sim_write hT a w)
  | writeMasked a w m =>
    rw [Op.run, Op.run]
    cases hma : maskedArg c.wrapNeg w m with
    | ub => exact fun _ => trivial
    | forbidden => exact fun s => ⟨Mono.same rfl rfl, fun s' _ hR => ⟨s', rfl, hR⟩⟩
    | rmw x o =>
      refine (sim_rmwBits hT a x o).bind (fun h h' hh => ?_) fun a => ⟨_, rfl⟩
      subst hh
      cases h <;> exact SimM.pure rfl
  | writeBlock a src inc => exact lift (sim_writeBlock hT a src inc)
  | read a => exact lift (sim_read hT a _)
  | readMasked a m => exact lift (sim_read hT a m)
  | readBlock a n inc => exact lift (sim_readBlock hT a n inc)
  | readConfig a m => exact lift (sim_readConf hT a m)
  | rmwBits a x o => exact lift (sim_rmwBits hT a x o)
  | rmwSum a x => exact lift (sim_rmwSum hT a x)
  | dispatch => exact (sim_clientDispatch hT).bindE fun _ => SimM.pure rfl

/-- Renamed results. -/
def Res.shift (d : Nat) : Res → Res
  | .ok h => .ok (h.map (Handle.shift d))
  | .exc x => .exc x

omit [SubR R RX] in
theorem run_mono (hT : TSim T T' d e P G R RX) : ∀ (ops : List Op) {s s1 : St τ} {rs : List Res},
    runOps c T ops s = some (rs, s1) → Mono G s s1 := by
  intro ops
  induction ops with
  | nil => intro s s1 rs h; rw [runOps] at h; cases h; exact Mono.refl _
  | cons op ops ih =>
    intro s s1 rs h
    have ho := sim_op (c := c) (h0 := []) (h0' := []) hT op s
    rw [runOps] at h
    cases hk : op.run c T s with
    | ok a s2 =>
      rw [hk] at ho h
      simp only [Option.map_eq_some_iff] at h
      obtain ⟨p, hp, hq⟩ := h
      cases hq
      exact ho.1.trans (ih hp)
    | exc x s2 =>
      rw [hk] at ho h
      simp only [Option.map_eq_some_iff] at h
      obtain ⟨p, hp, hq⟩ := h
      cases hq
      exact ho.1.trans (ih hp)
    | ub => rw [hk] at h; cases h
    | loops => rw [hk] at h; cases h

omit [SubR R RX] in
/-- Whole programs. -/
theorem sim_run (hT : TSim T T' d e P G R RX) (ops : List Op) {s s1 : St τ} {s' : St τ'} {rs : List Res}
    (hrun : runOps c T ops s = some (rs, s1)) (hP : Cond P G s1) (hR : SRel d e h0 h0' R s s') :
    s.hist <+: s1.hist ∧ ∃ s1', runOps c T' ops s' = some (rs.map (Res.shift d), s1') ∧ SRel d e h0 h0' R s1 s1' := by
  refine ⟨(run_mono hT ops hrun).hist, ?_⟩
  induction ops generalizing s s' rs with
  | nil => rw [runOps] at hrun ⊢; cases hrun; exact ⟨s', rfl, hR⟩
  | cons op ops ih =>
    have ho := sim_op (c := c) (h0 := h0) (h0' := h0') hT op s
    rw [runOps] at hrun ⊢
    cases hk : op.run c T s with
    | ok a s2 =>
      rw [hk] at ho hrun
      simp only [Option.map_eq_some_iff] at hrun
      obtain ⟨p, hp, hq⟩ := hrun
      cases hq
      obtain ⟨a', s2', q1, q2, q3⟩ := ho.2 s' ((run_mono hT ops hp).cond hP) hR
      obtain ⟨s1', q4, q5⟩ := ih hp q3
      refine ⟨s1', ?_, q5⟩
      rw [q1, q2]
      simp only [q4]
      rfl
    | exc x s2 =>
      rw [hk] at ho hrun
      simp only [Option.map_eq_some_iff] at hrun
      obtain ⟨p, hp, hq⟩ := hrun
      cases hq
      obtain ⟨s2', q1, q3⟩ := ho.2 s' ((run_mono hT ops hp).cond hP) hR
      obtain ⟨s1', q4, q5⟩ := ih hp q3
      refine ⟨s1', ?_, q5⟩
      rw [q1]
      simp only [q4]
      rfl
    | ub => rw [hk] at hrun; cases hrun
    | loops => rw [hk] at hrun; cases hrun

end
end Verif
