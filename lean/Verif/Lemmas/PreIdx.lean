import Verif.Lemmas.Wire
/-! The preambles named in reply slots are ones that have been written, and different packets have different ones. -/

set_option autoImplicit false
set_option linter.unusedSimpArgs false

namespace Verif

/-- The location does not belong to preamble `n` or a later one. -/
def Loc.preLt (n : Nat) : Loc → Prop
  | .pkt k => k < n
  | .hub k _ => k < n
  | _ => True

def Buf.preLt (n : Nat) (b : Buf) : Prop := ∀ sl ∈ b.reply, sl.loc.preLt n

theorem Loc.preLt.mono {n m : Nat} {l : Loc} (h : l.preLt n) (hm : n ≤ m) : l.preLt m := by
  cases l <;> simp only [Loc.preLt] at * <;> omega

theorem Buf.preLt.mono {n m : Nat} {b : Buf} (h : b.preLt n) (hm : n ≤ m) : b.preLt m := fun sl hsl => (h sl hsl).mono hm

/-- The preamble that the location belongs to. -/
def Loc.preId? : Loc → Option Nat
  | .pkt k => some k
  | .hub k _ => some k
  | _ => none

/-- Not in one preamble. -/
def Loc.preSep (a b : Loc) : Prop := a.preId? = none ∨ a.preId? ≠ b.preId?

def Buf.preSep (a b : Buf) : Prop := ∀ x ∈ a.reply, ∀ y ∈ b.reply, x.loc.preSep y.loc

theorem Loc.preLt.sep {n : Nat} {a b : Loc} (h : a.preLt n) (hb : b.preId? = none ∨ b.preId? = some n) : a.preSep b := by
  cases a <;> cases b <;> simp_all [Loc.preLt, Loc.preSep, Loc.preId?] <;> omega

section
variable {τ : Type} {c : Cfg} {T : Transport τ}

/-- Preambles in packets: already handed over, and being filled. -/
structure PreX (Q : List Buf → τ → Prop) (n : Nat) (s : St τ) : Prop where
  hist : ∀ b ∈ s.hist, b.preLt s.nPre
  cur : ∀ b, s.cur = some b → b.preLt n
  sep : s.hist.Pairwise Buf.preSep
  tr : Q s.hist s.tr

structure PreQ (Q : List Buf → τ → Prop) (n : Nat) (s : St τ) : Prop extends PreX Q n s where
  csep : ∀ b, s.cur = some b → ∀ a ∈ s.hist, a.preSep b

/-- Kept by a computation, normal and exceptional returns. -/
def PresK (Q : List Buf → τ → Prop) (k : Nat) {α : Type} (m : M τ α) : Prop := ∀ s, PreQ Q (s.nPre + k) s →
  match m s with
  | .ok _ s' => PreQ Q (s'.nPre + k) s'
  | .exc _ s' => PreQ Q (s'.nPre + k) s'
  | _ => True

/-- The same, where after an exception the packet being filled can be the last one handed over. -/
def PresX (Q : List Buf → τ → Prop) (k : Nat) {α : Type} (m : M τ α) : Prop := ∀ s, PreQ Q (s.nPre + k) s →
  match m s with
  | .ok _ s' => PreQ Q (s'.nPre + k) s'
  | .exc _ s' => PreX Q (s'.nPre + k) s'
  | _ => True

variable {k : Nat} {Q : List Buf → τ → Prop}

/-- `Q` relates the packets handed over and the transport. -/
structure Tracks (T : Transport τ) (Q : List Buf → τ → Prop) : Prop where
  disp : ∀ h t b, Q h t → match T.disp t b with
    | .ok _ t' => Q (h ++ [b]) t'
    | .exc _ t' => Q (h ++ [b]) t'
    | _ => True
  flush : ∀ h t, Q h t → match T.flush t with
    | .ok _ t' => Q h t'
    | .exc _ t' => Q h t'
    | _ => True
  handler : ∀ h t, Q h t → Q h (T.handler t)

theorem PresK.x {α : Type} {m : M τ α} (h : PresK Q k m) : PresX Q k m := by
  intro s hs
  have := h s hs
  cases hm : m s with
  | ok a s1 => rw [hm] at this; exact this
  | exc x s1 => rw [hm] at this; exact this.toPreX
  | ub => trivial
  | loops => trivial

theorem PresX.bind {α β : Type} {m : M τ α} {f : α → M τ β} (hm : PresX Q k m) (hf : ∀ a, PresX Q k (f a)) : PresX Q k (m >>= f) := by
  intro s hs
  have h := hm s hs
  show match M.bind m f s with
  | .ok _ _ => _
  | .exc _ _ => _
  | _ => True
  unfold M.bind
  cases hms : m s with
  | ok a s1 => rw [hms] at h; exact hf a s1 h
  | exc x s1 => rw [hms] at h; exact h
  | ub => trivial
  | loops => trivial

theorem PresK.bind {α β : Type} {m : M τ α} {f : α → M τ β} (hm : PresK Q k m) (hf : ∀ a, PresK Q k (f a)) : PresK Q k (m >>= f) := by
  intro s hs
  have h := hm s hs
  show match M.bind m f s with
  | .ok _ _ => _
  | .exc _ _ => _
  | _ => True
  unfold M.bind
  cases hms : m s with
  | ok a s1 => rw [hms] at h; exact hf a s1 h
  | exc x s1 => rw [hms] at h; exact h
  | ub => trivial
  | loops => trivial

theorem PresK.pure {α : Type} (a : α) : PresK Q k (Pure.pure a : M τ α) := fun _ h => h
theorem PresK.ub {α : Type} : PresK Q k (fun _ => .ub : M τ α) := fun _ _ => trivial

theorem pres_sendWords (ws : List W) : PresK Q k (sendWords (τ := τ) c ws) := by
  intro s hs
  unfold sendWords
  cases hc : s.cur with
  | none => trivial
  | some b =>
    simp only
    by_cases hb : 4 * (b.send.length + ws.length) ≤ c.maxSend.toNat
    · simp only [hb, if_true]
      refine ⟨⟨hs.hist, ?_, hs.sep, hs.tr⟩, ?_⟩
      · intro b' hb'
        cases hb'
        exact hs.cur b hc
      · intro b' hb'
        cases hb'
        exact hs.csep b hc
    · simp only [hb, if_false]

theorem recv_keeps {l : Loc} {n : Nat} {s : St τ} {b : Buf} (hs : PreQ Q (s.nPre + k) s) (hc : s.cur = some b) (hl : l.preLt (s.nPre + k))
    (hi : l.preId? = none ∨ l.preId? = some s.nPre) : PreQ Q (s.nPre + k) { s with cur := some { b with reply := b.reply ++ [⟨l, n⟩] } } := by
  refine ⟨⟨hs.hist, ?_, hs.sep, hs.tr⟩, ?_⟩
  · intro b' hb' sl hsl
    cases hb'
    simp only [List.mem_append, List.mem_singleton] at hsl
    rcases hsl with hsl | rfl
    · exact hs.cur b hc sl hsl
    · exact hl
  · intro b' hb' a ha x hx y hy
    cases hb'
    simp only [List.mem_append, List.mem_singleton] at hy
    rcases hy with hy | rfl
    · exact hs.csep b hc a ha x hx y hy
    · exact (hs.hist a ha x hx).sep hi

theorem pres_receive {l : Loc} (hl : ∀ s : St τ, PreQ Q (s.nPre + k) s → l.preLt (s.nPre + k)) (hi : l.preId? = none) (n : Nat) :
    PresK Q k (receive (τ := τ) l n) := by
  intro s hs
  unfold receive
  cases hc : s.cur with
  | none => trivial
  | some b => exact recv_keeps (s := s) hs hc (hl s hs) (.inl hi)

theorem pres_hdr (o j n : Nat) : PresK Q k (receive (τ := τ) (.hdr o j) n) := pres_receive (fun _ _ => by simp [Loc.preLt]) rfl n
theorem pres_data (o j n : Nat) : PresK Q k (receive (τ := τ) (.data o j) n) := pres_receive (fun _ _ => by simp [Loc.preLt]) rfl n

theorem pres_addMem (o : Nat) : PresK Q k (addMem (τ := τ) o) := by
  intro s hs
  unfold addMem
  cases hc : s.cur with
  | none => trivial
  | some b =>
    refine ⟨⟨hs.hist, ?_, hs.sep, hs.tr⟩, ?_⟩
    · intro b' hb'
      cases hb'
      exact hs.cur b hc
    · intro b' hb'
      cases hb'
      exact hs.csep b hc

theorem pres_alloc : PresK Q k (alloc (τ := τ)) := fun _ hs => ⟨⟨hs.hist, hs.cur, hs.sep, hs.tr⟩, hs.csep⟩

theorem pres_sendHeader (ty : Ty) (wc : W) : PresK Q k (sendHeader (τ := τ) c ty wc) := by
  intro s hs
  unfold sendHeader
  dsimp only
  cases calcHeader c.ver ty wc s.ctr (reqInfo c.ver) with
  | none => exact ⟨⟨hs.hist, hs.cur, hs.sep, hs.tr⟩, hs.csep⟩
  | some h => exact pres_sendWords [h] { s with ctr := s.ctr + 1 } ⟨⟨hs.hist, hs.cur, hs.sep, hs.tr⟩, hs.csep⟩

theorem pres_recv_state {l : Loc} {n : Nat} {s : St τ} (hs : PreQ Q (s.nPre + k) s) (hl : l.preLt (s.nPre + k))
    (hi : l.preId? = none ∨ l.preId? = some s.nPre) :
    match receive l n s with
    | .ok _ s' => PreQ Q (s'.nPre + k) s' ∧ s'.nPre = s.nPre
    | .exc _ _ => False
    | _ => True := by
  unfold receive
  cases hc : s.cur with
  | none => trivial
  | some b =>
    exact ⟨recv_keeps (s := s) hs hc hl hi, rfl⟩

theorem pres_hubPreamble : PresK Q 1 (hubPreamble (τ := τ) c) := by
  unfold hubPreamble
  cases c.hub with
  | none => exact PresK.pure _
  | some p =>
    refine (pres_sendWords _).bind fun _ => ?_
    intro s hs
    have h0 := pres_recv_state (k := 1) (l := .hub s.nPre 0) (n := 1) hs (by simp [Loc.preLt]) (.inr rfl)
    simp only [bind]
    unfold M.bind
    simp only
    generalize receive (Loc.hub s.nPre 0) 1 s = r0 at h0 ⊢
    cases r0 with
    | ok a s1 =>
      obtain ⟨q1, e1⟩ := h0
      have h1 := pres_recv_state (k := 1) (l := .hub s.nPre 1) (n := 1) q1 (by simp [Loc.preLt, e1]) (.inr (by rw [e1]; rfl))
      simp only
      generalize receive (Loc.hub s.nPre 1) 1 s1 = r1 at h1 ⊢
      cases r1 with
      | ok a s2 =>
        obtain ⟨q2, e2⟩ := h1
        have h2 := pres_recv_state (k := 1) (l := .hub s.nPre 2) (n := 1) q2 (by simp [Loc.preLt, e1, e2]) (.inr (by rw [e2, e1]; rfl))
        simp only
        generalize receive (Loc.hub s.nPre 2) 1 s2 = r2 at h2 ⊢
        cases r2 with
        | ok a s3 => exact h2.1
        | exc _ _ => exact h2.elim
        | ub => trivial
        | loops => trivial
      | exc _ _ => exact h1.elim
      | ub => trivial
      | loops => trivial
    | exc _ _ => exact h0.elim
    | ub => trivial
    | loops => trivial

theorem pres_implementBOT : PresK Q k (implementBOT (τ := τ) c) := by
  unfold implementBOT
  refine PresK.bind ?_ fun _ => (pres_sendHeader _ _).bind fun _ => pres_alloc.bind fun o => (pres_addMem o).bind fun _ => pres_hdr _ _ _
  intro s hs
  cases hc : s.cur with
  | none => simp only [hc]
  | some b =>
    simp only [hc]
    by_cases hb : 4#32 ≤ freeSend c b ∧ 4#32 ≤ freeReply c b
    · simp only [hb, and_self, if_true]; exact hs
    · simp only [hb, if_false]

theorem pres_body : PresK Q 1 (do
    hubPreamble (τ := τ) c
    match c.ver with
    | .v1 => implementBOT c
    | .v2 => do
      sendWords c [0x200000F0#32]
      fun s => receive (.pkt s.nPre) 1 s) := by
  refine pres_hubPreamble.bind fun _ => ?_
  cases c.ver with
  | v1 => exact pres_implementBOT
  | v2 =>
    refine (pres_sendWords _).bind fun _ => ?_
    intro s hs
    have h0 := pres_recv_state (k := 1) (l := .pkt s.nPre) (n := 1) hs (by simp [Loc.preLt]) (.inr rfl)
    simp only
    generalize receive (Loc.pkt s.nPre) 1 s = r0 at h0 ⊢
    cases r0 with
    | ok a s1 => exact h0.1
    | exc _ _ => exact h0.elim
    | ub => trivial
    | loops => trivial

theorem M.bind_assoc' {α β γ : Type} (m : M τ α) (f : α → M τ β) (g : β → M τ γ) :
    M.bind (M.bind m f) g = M.bind m fun a => M.bind (f a) g := by
  funext s
  unfold M.bind
  cases m s <;> rfl

theorem preamble_eq : preamble (τ := τ) c = M.bind (do
    hubPreamble (τ := τ) c
    match c.ver with
    | .v1 => implementBOT c
    | .v2 => do
      sendWords c [0x200000F0#32]
      fun s => receive (.pkt s.nPre) 1 s) (fun _ s => .ok () { s with nPre := s.nPre + 1 }) := by
  unfold preamble
  show _ = M.bind (M.bind _ _) _
  rw [M.bind_assoc']
  show M.bind _ _ = _
  congr 1
  funext _
  cases c.ver with
  | v1 => rfl
  | v2 =>
    show M.bind _ _ = M.bind (M.bind _ _) _
    rw [M.bind_assoc']
    rfl

/-- Never throws. -/
def NoExc {α : Type} (m : M τ α) : Prop := ∀ s e s', m s ≠ .exc e s'

theorem NoExc.bind {α β : Type} {m : M τ α} {f : α → M τ β} (hm : NoExc m) (hf : ∀ a, NoExc (f a)) : NoExc (m >>= f) := by
  intro s e s'
  show M.bind m f s ≠ _
  unfold M.bind
  cases hms : m s with
  | ok a s1 => exact hf a s1 e s'
  | exc x s1 => exact absurd hms (hm s x s1)
  | ub => simp
  | loops => simp

theorem noExc_sendWords (ws : List W) : NoExc (sendWords (τ := τ) c ws) := by
  intro s e s'
  unfold sendWords
  cases s.cur with
  | none => simp
  | some b => simp only; split <;> simp

theorem noExc_receive (l : Loc) (n : Nat) : NoExc (receive (τ := τ) l n) := by
  intro s e s'
  unfold receive
  cases s.cur <;> simp

theorem noExc_addMem (o : Nat) : NoExc (addMem (τ := τ) o) := by
  intro s e s'
  unfold addMem
  cases s.cur <;> simp

theorem noExc_body : NoExc (do
    hubPreamble (τ := τ) c
    match c.ver with
    | .v1 => implementBOT c
    | .v2 => do
      sendWords c [0x200000F0#32]
      fun s => receive (.pkt s.nPre) 1 s) := by
  refine NoExc.bind ?_ fun _ => ?_
  · unfold hubPreamble
    cases c.hub with
    | none => intro s e s' h; cases h
    | some p =>
      refine (noExc_sendWords _).bind fun _ => ?_
      intro s e s'
      exact ((noExc_receive _ _).bind fun _ => (noExc_receive _ _).bind fun _ => noExc_receive _ _) s e s'
  · cases hv : c.ver with
    | v1 =>
      unfold implementBOT
      refine NoExc.bind ?_ fun _ => NoExc.bind ?_ fun _ => NoExc.bind ?_ fun o => (noExc_addMem o).bind fun _ => noExc_receive _ _
      · intro s e s'
        dsimp only
        split
        · simp
        · split <;> simp
      · intro s e s'
        unfold sendHeader
        rw [hv]
        exact noExc_sendWords _ _ e s'
      · intro s e s' h; cases h
    | v2 =>
      refine (noExc_sendWords _).bind fun _ => ?_
      intro s e s'
      exact noExc_receive _ _ s e s'

theorem pres_update : PresK Q 0 (updateCurrentBuffers (τ := τ) c) := by
  intro s hs
  unfold updateCurrentBuffers
  cases hc : s.cur with
  | some b => exact hs
  | none =>
    simp only
    rw [preamble_eq]
    have hb := pres_body (c := c) { s with cur := some Buf.empty }
      ⟨⟨hs.hist, by intro b' hb' sl hsl; cases hb'; simp [Buf.empty] at hsl, hs.sep, hs.tr⟩,
        by intro b' hb' a _ x _ y hy; cases hb'; simp [Buf.empty] at hy⟩
    unfold M.bind
    generalize hr : (do
      hubPreamble (τ := τ) c
      match c.ver with
      | .v1 => implementBOT c
      | .v2 => do
        sendWords c [0x200000F0#32]
        fun s => receive (.pkt s.nPre) 1 s) { s with cur := some Buf.empty } = r at hb ⊢
    cases r with
    | ok a s1 => exact ⟨⟨fun b h => (hb.hist b h).mono (Nat.le_succ _), hb.cur, hb.sep, hb.tr⟩, hb.csep⟩
    | exc x s1 => exact absurd hr (noExc_body _ _ _)
    | ub => trivial
    | loops => trivial

theorem pres_padLoop (n : Nat) : PresK Q k (padLoop (τ := τ) c n) := by
  induction n with
  | zero => exact PresK.pure _
  | succ n ih =>
    unfold padLoop
    exact (pres_sendWords _).bind fun _ => pres_alloc.bind fun o => (pres_addMem o).bind fun _ => (pres_hdr _ _ _).bind fun _ => ih

theorem pres_predispatch : PresK Q k (predispatch (τ := τ) c) := by
  have hh : PresK Q k (hubPatch (τ := τ) c) := by
    intro s hs
    unfold hubPatch
    cases c.hub with
    | none => exact hs
    | some p =>
      simp only
      cases hc : s.cur with
      | none => trivial
      | some b =>
        refine ⟨⟨hs.hist, ?_, hs.sep, hs.tr⟩, ?_⟩
        · intro b' hb'
          cases hb'
          exact hs.cur b hc
        · intro b' hb'
          cases hb'
          exact hs.csep b hc
  unfold predispatch
  cases c.ver with
  | v2 => exact hh
  | v1 =>
    refine PresK.bind ?_ fun _ => hh
    intro s hs
    cases hc : s.cur with
    | none => simp only [hc]
    | some b =>
      simp only [hc]
      by_cases hp : (0#32).slt (BitVec.ofNat 32 (7 + c.preambleSize) - BitVec.ofNat 32 b.send.length) = true
      · simp only [hp, if_true]; exact pres_padLoop _ s hs
      · simp only [hp, if_false]; exact hs

theorem pres_dispatchCurrent (hQ : Tracks T Q) : PresX Q 0 (dispatchCurrent c T) := by
  unfold dispatchCurrent
  refine pres_predispatch.x.bind fun _ => ?_
  intro s hs
  cases hc : s.cur with
  | none => simp only [hc]
  | some b =>
    simp only [hc]
    have hp : (s.hist ++ [b]).Pairwise Buf.preSep := by
      rw [List.pairwise_append]
      refine ⟨hs.sep, by simp, ?_⟩
      intro a ha y hy
      rw [List.mem_singleton.1 hy]
      exact hs.csep b hc a ha
    have hh : ∀ x ∈ s.hist ++ [b], x.preLt s.nPre := by
      intro x hx
      simp only [List.mem_append, List.mem_singleton] at hx
      rcases hx with hx | rfl
      · exact hs.hist x hx
      · exact hs.cur x hc
    have hq := hQ.disp s.hist s.tr b hs.tr
    cases hd : T.disp s.tr b with
    | ok a t => rw [hd] at hq; exact ⟨⟨hh, by simp, hp, hq⟩, by simp⟩
    | exc x t => rw [hd] at hq; exact ⟨hh, (by intro b' hb'; cases hb'; exact hs.cur _ hc), hp, hq⟩
    | ub => trivial
    | loops => trivial

theorem PresX.handler (hQ : Tracks T Q) {α : Type} {m : M τ α} (h : PresX Q k m) : PresK Q k (withHandler T m) := by
  intro s hs
  have := h s hs
  unfold withHandler
  cases hm : m s with
  | ok a s1 => rw [hm] at this; exact this
  | exc x s1 => rw [hm] at this; exact ⟨⟨this.hist, by simp [exceptionHandler], this.sep, hQ.handler _ _ this.tr⟩, by simp [exceptionHandler]⟩
  | ub => trivial
  | loops => trivial

theorem pres_check (hQ : Tracks T Q) (a b : W) : PresK Q 0 (checkBufferSpace c T a b) := by
  unfold checkBufferSpace
  refine pres_update.bind fun _ => ?_
  intro s hs
  cases hc : s.cur with
  | none => simp only [hc]
  | some x =>
    simp only [hc]
    by_cases h1 : a ≤ freeSend c x ∧ b ≤ freeReply c x
    · simp only [h1, and_self, if_true]; exact hs
    · simp only [h1, if_false]
      by_cases h2 : 16#32 < freeSend c x ∧ 16#32 < freeReply c x
      · simp only [h2, and_self, if_true]; exact hs
      · simp only [h2, if_false]
        refine ((PresX.handler hQ (pres_dispatchCurrent hQ)).bind fun _ => pres_update.bind fun _ => ?_) s hs
        intro s hs
        cases hc : s.cur with
        | none => simp only [hc]
        | some x =>
          simp only [hc]
          by_cases h1 : a ≤ freeSend c x ∧ b ≤ freeReply c x
          · simp only [h1, and_self, if_true]; exact hs
          · simp only [h1, if_false]; exact hs

theorem pres_writeLoop (hQ : Tracks T Q) (ty : Ty) (inc ne : Bool) (o : Nat) (fuel j : Nat) (rest : List W) (addr pay : W) :
    PresK Q 0 (writeBlockLoop c T ty inc ne o fuel j rest addr pay) := by
  induction fuel generalizing j rest addr pay with
  | zero => exact fun _ _ => trivial
  | succ fuel ih =>
    rw [writeBlockLoop]
    refine (pres_check hQ _ _).bind fun av => (pres_sendHeader _ _).bind fun _ => (pres_sendWords _).bind fun _ => ?_
    have hrec : ∀ rest' addr' pay', PresK Q 0
        (do receive (.hdr o j) 1
            if (0#32).slt pay' then writeBlockLoop c T ty inc ne o fuel (j + 1) rest' addr' pay' else pure ()) := by
      intro rest' addr' pay'
      refine (pres_hdr _ _ _).bind fun _ => ?_
      cases (0#32).slt pay' with
      | true => simp only [if_true]; exact ih _ _ _ _
      | false => exact PresK.pure _
    cases ne with
    | false => exact hrec _ _ _
    | true =>
      simp only [if_true]
      by_cases hn : (payloadBytes c av.1 8).toNat / 4 ≤ rest.length
      · simp only [hn, if_true]
        exact (pres_sendWords _).bind fun _ => hrec _ _ _
      · simp only [hn, if_false]
        exact fun _ _ => trivial

theorem pres_readLoop (hQ : Tracks T Q) (ty : Ty) (inc : Bool) (o size : Nat) (fuel j off : Nat) (addr pay : W) :
    PresK Q 0 (readBlockLoop c T ty inc o size fuel j off addr pay) := by
  induction fuel generalizing j off addr pay with
  | zero => exact fun _ _ => trivial
  | succ fuel ih =>
    rw [readBlockLoop]
    refine (pres_check hQ _ _).bind fun av => (pres_sendHeader _ _).bind fun _ => (pres_sendWords _).bind fun _ =>
      (pres_hdr _ _ _).bind fun _ => ?_
    by_cases hn : off + (payloadBytes c av.2 4).toNat / 4 ≤ size
    · simp only [hn, if_true]
      refine (pres_data _ _ _).bind fun _ => ?_
      cases (0#32).slt (pay - payloadBytes c av.2 4) with
      | true => simp only [if_true]; exact ih _ _ _ _
      | false => exact PresK.pure _
    · simp only [hn, if_false]
      exact fun _ _ => trivial

theorem pres_dispatch (hQ : Tracks T Q) : PresK Q 0 (clientDispatch c T) := by
  unfold clientDispatch
  apply PresX.handler hQ
  intro s hs
  cases hc : s.cur with
  | none => simp only [hc]; exact hs
  | some b =>
    simp only [hc]
    refine ((pres_dispatchCurrent hQ).bind fun _ => ?_) s hs
    intro s hs
    simp only
    have hq := hQ.flush s.hist s.tr hs.tr
    cases hd : T.flush s.tr with
    | ok a t => rw [hd] at hq; exact ⟨⟨hs.hist, hs.cur, hs.sep, hq⟩, hs.csep⟩
    | exc x t => rw [hd] at hq; exact ⟨hs.hist, hs.cur, hs.sep, hq⟩
    | ub => trivial
    | loops => trivial

theorem pres_op (hQ : Tracks T Q) (op : Op) : PresK Q 0 (op.run c T) := by
  have rmw : ∀ a x o, PresK Q 0 (implementRMWbits c T a x o) := fun a x o => by
    unfold implementRMWbits
    exact (pres_check hQ _ _).bind fun _ => (pres_sendHeader _ _).bind fun _ => (pres_sendWords _).bind fun _ =>
      (pres_sendWords _).bind fun _ => (pres_sendWords _).bind fun _ => pres_alloc.bind fun _ => (pres_addMem _).bind fun _ =>
        (pres_hdr _ _ _).bind fun _ => (pres_data _ _ _).bind fun _ => PresK.pure _
  have rd : ∀ a m, PresK Q 0 (implementRead c T a m) := fun a m => by
    unfold implementRead
    exact (pres_check hQ _ _).bind fun _ => (pres_sendHeader _ _).bind fun _ => (pres_sendWords _).bind fun _ =>
      pres_alloc.bind fun _ => (pres_addMem _).bind fun _ =>
        (pres_hdr _ _ _).bind fun _ => (pres_data _ _ _).bind fun _ => PresK.pure _
  cases op with
  | write a w =>
    refine PresK.bind ?_ fun _ => PresK.pure _
    unfold implementWrite
    exact (pres_check hQ _ _).bind fun _ => (pres_sendHeader _ _).bind fun _ => (pres_sendWords _).bind fun _ =>
      (pres_sendWords _).bind fun _ => pres_alloc.bind fun _ => (pres_addMem _).bind fun _ =>
        (pres_hdr _ _ _).bind fun _ => PresK.pure _
  | writeMasked a w m =>
    rw [Op.run]
    cases hma : maskedArg c.wrapNeg w m with
    | ub => exact fun _ _ => trivial
    | forbidden => exact fun _ h => h
    | rmw x o =>
      refine (rmw a x o).bind fun h => ?_
      cases h <;> exact PresK.pure _
  | writeBlock a src inc =>
    refine PresK.bind ?_ fun _ => PresK.pure _
    unfold implementWriteBlock
    exact pres_alloc.bind fun o => (pres_writeLoop hQ _ _ _ o _ _ _ _ _).bind fun _ => (pres_addMem o).bind fun _ => PresK.pure _
  | read a => exact (rd a _).bind fun _ => PresK.pure _
  | readMasked a m => exact (rd a m).bind fun _ => PresK.pure _
  | readBlock a n inc =>
    refine PresK.bind ?_ fun _ => PresK.pure _
    unfold implementReadBlock
    exact pres_alloc.bind fun o => (pres_readLoop hQ _ _ o _ _ _ _ _ _).bind fun _ => (pres_addMem o).bind fun _ => PresK.pure _
  | readConfig a m =>
    refine PresK.bind ?_ fun _ => PresK.pure _
    unfold implementReadConfigurationSpace
    exact (pres_check hQ _ _).bind fun _ => (pres_sendHeader _ _).bind fun _ => (pres_sendWords _).bind fun _ =>
      pres_alloc.bind fun _ => (pres_addMem _).bind fun _ =>
        (pres_hdr _ _ _).bind fun _ => (pres_data _ _ _).bind fun _ => PresK.pure _
  | rmwBits a x o => exact (rmw a x o).bind fun _ => PresK.pure _
  | rmwSum a x =>
    refine PresK.bind ?_ fun _ => PresK.pure _
    unfold implementRMWsum
    exact (pres_check hQ _ _).bind fun _ => (pres_sendHeader _ _).bind fun _ => (pres_sendWords _).bind fun _ =>
      (pres_sendWords _).bind fun _ => pres_alloc.bind fun _ => (pres_addMem _).bind fun _ =>
        (pres_hdr _ _ _).bind fun _ => (pres_data _ _ _).bind fun _ => PresK.pure _
  | dispatch => exact (pres_dispatch hQ).bind fun _ => PresK.pure _

theorem pres_run (hQ : Tracks T Q) (ops : List Op) {s s' : St τ} {rs : List Res} (h : PreQ Q s.nPre s) (hr : runOps c T ops s = some (rs, s')) :
    PreQ Q s'.nPre s' := by
  induction ops generalizing s rs with
  | nil => rw [runOps] at hr; cases hr; exact h
  | cons op ops ih =>
    have ho := pres_op (c := c) hQ op s h
    rw [runOps] at hr
    cases hk : op.run c T s with
    | ok a s2 =>
      rw [hk] at ho hr
      simp only [Option.map_eq_some_iff] at hr
      obtain ⟨p, hp, hq⟩ := hr
      cases hq
      exact ih ho hp
    | exc x s2 =>
      rw [hk] at ho hr
      simp only [Option.map_eq_some_iff] at hr
      obtain ⟨p, hp, hq⟩ := hr
      cases hq
      exact ih ho hp
    | ub => rw [hk] at hr; cases hr
    | loops => rw [hk] at hr; cases hr

theorem PreQ.init (t : τ) (h : Q [] t) : PreQ Q 0 (St.init t) :=
  ⟨⟨by simp [St.init], by simp [St.init], by simp [St.init], h⟩, by simp [St.init]⟩

theorem tracks_true (T : Transport τ) : Tracks T fun _ _ => True := by
  constructor
  · intro h t b _; split <;> trivial
  · intro h t _; split <;> trivial
  · intro h t _; trivial

end
end Verif
