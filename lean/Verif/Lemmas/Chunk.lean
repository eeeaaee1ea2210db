import Verif.Lemmas.UdpLink
import Verif.Model.Tcp
/-!
The reply to a chunk of packets (TCP): scattering the body over the slots of all packets and then validating them is the
same as processing the replies one by one, except for the memory of packets behind one that is refused.
-/

set_option autoImplicit false
set_option linter.unusedSimpArgs false

namespace Verif

/-! ### Validation looks at the slots only -/

theorem coreValidate_congr {v : Ver} {rd rd' : Loc → W} (fuel cap : Nat) (send : List W) (slots : List Slot)
    (h : ∀ sl ∈ slots, sl.len ≠ 0 → rd sl.loc = rd' sl.loc) : coreValidate v rd fuel cap send slots = coreValidate v rd' fuel cap send slots := by
  induction fuel generalizing cap send slots with
  | zero => rfl
  | succ fuel ih =>
    cases send with
    | nil => rfl
    | cons w t =>
      rw [coreValidate, coreValidate]
      cases extractHeader v w with
      | none => rfl
      | some hs =>
        simp only
        cases slots with
        | nil => rfl
        | cons sl rest =>
          simp only
          by_cases h0 : sl.len = 0
          · simp [h0]
          · simp only [h0, if_false]
            rw [h sl (by simp) h0]
            cases extractHeader v (rd' sl.loc) with
            | none => rfl
            | some hr =>
              simp only
              split
              · rfl
              · split
                · rfl
                · cases hra : replyAdvance hr.ty rest with
                  | none => rfl
                  | some slots' =>
                    simp only
                    have hsub : ∀ x ∈ slots', x ∈ rest := by
                      unfold replyAdvance at hra
                      split at hra
                      · cases rest with
                        | nil => cases hra
                        | cons y r => cases hra; intro x hx; simp [hx]
                      · cases hra; exact fun x hx => hx
                    rw [ih _ _ _ fun x hx => h x (by simp [hsub x hx])]

theorem ipbusValidate_congr {v : Ver} {rd rd' : Loc → W} (cap : Nat) (send : List W) (slots : List Slot)
    (h : ∀ sl ∈ slots, sl.len ≠ 0 → rd sl.loc = rd' sl.loc) : ipbusValidate v rd cap send slots = ipbusValidate v rd' cap send slots := by
  unfold ipbusValidate
  cases v with
  | v1 => exact coreValidate_congr _ _ _ _ h
  | v2 =>
    cases send with
    | nil => rfl
    | cons w t =>
      cases slots with
      | nil => rfl
      | cons sl rest =>
        simp only
        by_cases h0 : sl.len = 0
        · simp [h0]
        · simp only [h0, if_false]
          rw [h sl (by simp) h0, coreValidate_congr _ _ _ _ fun x hx => h x (by simp [hx])]

theorem validateBuf_congr {c : Cfg} {rd rd' : Loc → W} {b : Buf} (h : ∀ sl ∈ b.reply, sl.len ≠ 0 → rd sl.loc = rd' sl.loc) :
    validateBuf c rd b = validateBuf c rd' b := by
  unfold validateBuf
  cases c.hub with
  | none => exact ipbusValidate_congr _ _ _ h
  | some p =>
    obtain ⟨ip, port⟩ := p
    simp only
    unfold hubValidate
    match hs : b.reply with
    | [] => rfl
    | [_] => rfl
    | [_, _] => rfl
    | x :: a :: p :: rest =>
      rw [hs] at h
      simp only
      by_cases h0 : a.len = 0 ∨ p.len = 0
      · simp [h0]
      · simp only [h0, if_false]
        rw [not_or] at h0
        rw [h a (by simp) h0.1, h p (by simp) h0.2, ipbusValidate_congr _ _ _ fun x hx => h x (by simp [hx])]

/-! ### Memories that agree -/

/-- The memories agree except for words at `J`. -/
def HAgree (J : Loc → Prop) (h h' : Heap) : Prop := h.valid = h'.valid ∧ ∀ l, ¬ J l → h.word l = h'.word l

/-- The locations of the packets `L`. -/
def Junk (L : List Buf) (l : Loc) : Prop := ∃ b ∈ L, l ∈ bufLocs b

theorem HAgree.refl {J : Loc → Prop} (h : Heap) : HAgree J h h := ⟨rfl, fun _ _ => rfl⟩
theorem HAgree.mono {J J' : Loc → Prop} {h h' : Heap} (a : HAgree J h h') (hj : ∀ l, J l → J' l) : HAgree J' h h' :=
  ⟨a.1, fun l hl => a.2 l fun x => hl (hj l x)⟩

theorem store_agree {J : Loc → Prop} (ps : List (Loc × W)) {h h' : Heap} (a : HAgree J h h') : HAgree J (h.store ps) (h'.store ps) := by
  induction ps generalizing h h' with
  | nil => exact a
  | cons p ps ih =>
    refine ih ⟨a.1, ?_⟩
    intro l hl
    simp only [Heap.set]
    split
    · rfl
    · exact a.2 l hl

theorem scatter_agree {J : Loc → Prop} (sls : List Slot) (ws : List W) {h h' : Heap} (a : HAgree J h h') : HAgree J (scatter h sls ws) (scatter h' sls ws) := by
  rw [scatter_store, scatter_store]; exact store_agree _ a

theorem store_mark (h : Heap) (ps : List (Loc × W)) (adds : List Nat) : (h.markValid adds).store ps = (h.store ps).markValid adds := by
  induction ps generalizing h with
  | nil => rfl
  | cons p ps ih => exact ih (h.set p.1 p.2)

theorem bufLocs_length (b : Buf) : (bufLocs b).length = b.words := by
  unfold bufLocs Buf.words
  rw [List.length_flatMap]
  congr 1
  apply List.map_congr_left
  intro s _
  simp [slotLocs]

theorem chunkLocs (bs : List Buf) : (bs.flatMap (·.reply)).flatMap slotLocs = bs.flatMap bufLocs := by
  induction bs with
  | nil => rfl
  | cons b bs ih => simp [bufLocs, ih]

theorem scatter_cons (h : Heap) (b : Buf) (bs : List Buf) (ws : List W) : scatter h ((b :: bs).flatMap (·.reply)) ws =
    scatter (scatter h b.reply (ws.take b.words)) (bs.flatMap (·.reply)) (ws.drop b.words) := by
  rw [scatter_store, scatter_store, scatter_store, chunkLocs, chunkLocs, List.flatMap_cons, zip_append_left, Heap.store_append, bufLocs_length,
    ← bufLocs_length, show b.reply.flatMap slotLocs = bufLocs b from rfl, zip_take_left]

theorem loc_mem {b : Buf} {sl : Slot} (h : sl ∈ b.reply) (h0 : sl.len ≠ 0) : sl.loc ∈ bufLocs b := by
  unfold bufLocs
  rw [List.mem_flatMap]
  refine ⟨sl, h, ?_⟩
  unfold slotLocs
  rw [List.mem_map]
  refine ⟨0, by simp; omega, ?_⟩
  cases sl.loc <;> simp [Loc.plus]

/-- Different packets are received into different places. -/
def Disj (a b : Buf) : Prop := ∀ l ∈ bufLocs a, l ∉ bufLocs b

theorem scatter_rest {b : Buf} {bs : List Buf} (hd : ∀ b' ∈ bs, Disj b b') (h : Heap) (ws : List W) (l : Loc) (hl : l ∈ bufLocs b) :
    (scatter h (bs.flatMap (·.reply)) ws).word l = h.word l := by
  rw [scatter_store]
  apply store_notin
  rw [map_fst_zip_take, chunkLocs]
  intro hm
  obtain ⟨b', hb', hl'⟩ := List.mem_flatMap.1 (List.mem_of_mem_take hm)
  exact hd b' hb' l hl hl'

theorem scatter_off {bs : List Buf} (h : Heap) (ws : List W) : HAgree (Junk bs) (scatter h (bs.flatMap (·.reply)) ws) h := by
  rw [scatter_store]
  refine ⟨store_valid _ _, ?_⟩
  intro l hl
  apply store_notin
  rw [map_fst_zip_take, chunkLocs]
  intro hm
  obtain ⟨b', hb', hl'⟩ := List.mem_flatMap.1 (List.mem_of_mem_take hm)
  exact hl ⟨b', hb', hl'⟩

/-! ### Chunks -/

section
variable {ρ : Type} {c : Cfg} {resp : ρ → List W → Option (List W) × ρ}

theorem okOutcomes_cons (b : Buf) (ws : List W) (l : List Rx) : okOutcomes (⟨b, ws, .ok⟩ :: l) = (b, some ws) :: okOutcomes l := by
  simp [okOutcomes]

theorem chunk_head {J : Loc → Prop} {H h : Heap} {b : Buf} {bs : List Buf} {ws : List W} (hd : ∀ b' ∈ bs, Disj b b')
    (hJ : ∀ l ∈ bufLocs b, ¬ J l) (ha : HAgree J H (scatter h ((b :: bs).flatMap (·.reply)) ws)) :
    validateBuf c H.word b = validateBuf c (scatter h b.reply (ws.take b.words)).word b := by
  apply validateBuf_congr
  intro sl hsl h0
  have hm := loc_mem hsl h0
  rw [ha.2 _ (hJ _ hm), scatter_cons, scatter_rest hd _ _ _ hm]

/-- All packets accepted. -/
theorem chunk_ok {J : Loc → Prop} (bs : List Buf) (ws : List W) (H : Heap) (l : Link ρ) (tl : List Buf) (e1 : ρ)
    (hd : bs.Pairwise Disj) (hJ : ∀ b ∈ bs, ∀ x ∈ bufLocs b, ¬ J x) (ha : HAgree J H (scatter l.heap (bs.flatMap (·.reply)) ws))
    (hp : l.pending = bs ++ tl) (ho : (chunkValidate c H bs ws).1 = .ok) (hf : Follows resp l.env (okOutcomes (chunkValidate c H bs ws).2.2) e1) :
    (okOutcomes (chunkValidate c H bs ws).2.2).length = bs.length ∧
    ((∀ x ∈ (chunkValidate c H bs ws).2.2, x.out = .ok) ∧ (chunkValidate c H bs ws).2.2.map Rx.buf = bs) ∧
    ∃ h', process c resp bs.length l = .ok () { l with heap := h', pending := tl, env := e1, log := l.log ++ (chunkValidate c H bs ws).2.2 } ∧
      HAgree J (chunkValidate c H bs ws).2.1 h' := by
  induction bs generalizing ws H l with
  | nil =>
    simp only [chunkValidate, okOutcomes, List.filter_nil, List.map_nil] at hf ⊢
    cases hf
    refine ⟨rfl, by simp, l.heap, ?_, ?_⟩
    · have : l.pending = tl := hp
      subst this
      simp [process]
    · rw [scatter_store] at ha; exact ha
  | cons b bs ih =>
    rw [List.pairwise_cons] at hd
    have hv := chunk_head (c := c) hd.1 (hJ b (by simp)) ha
    rw [chunkValidate] at ho hf ⊢
    unfold clientValidate at ho hf ⊢
    rw [hv] at ho hf ⊢
    cases hvb : validateBuf c (scatter l.heap b.reply (ws.take b.words)).word b with
    | ok =>
      rw [hvb] at ho hf
      simp only [okOutcomes_cons] at ho hf ⊢
      cases hf with
      | cons hr hf' =>
        rename_i e'
        have hrr : receiveReply c l.heap b (ws.take b.words) = (.ok, (scatter l.heap b.reply (ws.take b.words)).markValid b.adds) := by
          unfold receiveReply clientValidate; rw [hvb]
        have ha' : HAgree J (H.markValid b.adds) (scatter ((scatter l.heap b.reply (ws.take b.words)).markValid b.adds)
            (bs.flatMap (·.reply)) (ws.drop b.words)) := by
          rw [scatter_cons] at ha
          rw [scatter_store] at ha ⊢
          rw [store_mark]
          exact ⟨by simp only [Heap.markValid, ha.1], fun x hx => ha.2 x hx⟩
        obtain ⟨q1, q0, h', q2, q3⟩ := ih (ws.drop b.words) (H.markValid b.adds)
          { l with heap := (scatter l.heap b.reply (ws.take b.words)).markValid b.adds, pending := bs ++ tl, env := e',
                   log := l.log ++ [⟨b, ws.take b.words, .ok⟩] } hd.2 (fun b' hb' => hJ b' (by simp [hb'])) ha' rfl ho hf'
        refine ⟨by simp [q1], ⟨?_, by rw [List.map_cons, q0.2]⟩, h', ?_, q3⟩
        · intro x hx
          rcases List.mem_cons.1 hx with rfl | hx
          · rfl
          · exact q0.1 x hx
        · rw [List.length_cons, process, hp, List.cons_append]
          simp only at hr ⊢
          rw [hr]
          simp only
          rw [hrr]
          simp only
          rw [q2]
          simp
    | err e => rw [hvb] at ho; simp at ho
    | ub => rw [hvb] at ho; simp at ho

/-- A packet refused. -/
theorem chunk_err {L : List Buf} (bs : List Buf) (ws : List W) (H : Heap) (l : Link ρ) (tl : List Buf) (e1 : ρ) (e : Exc)
    (hd : bs.Pairwise Disj) (hJ : ∀ b ∈ bs, ∀ x ∈ bufLocs b, ¬ Junk L x) (ha : HAgree (Junk L) H (scatter l.heap (bs.flatMap (·.reply)) ws))
    (hp : l.pending = bs ++ tl) (ho : (chunkValidate c H bs ws).1 = .err e) (hf : Follows resp l.env (okOutcomes (chunkValidate c H bs ws).2.2) e1) :
    ∃ done b rest wsb h' h'' lg, bs = done ++ b :: rest ∧ (chunkValidate c H bs ws).2.2 = lg ++ [⟨b, wsb, .err e⟩] ∧
      (okOutcomes (chunkValidate c H bs ws).2.2).length = done.length ∧
      process c resp done.length l = .ok () { l with heap := h', pending := b :: (rest ++ tl), env := e1, log := l.log ++ lg } ∧
      receiveReply c h' b wsb = (.err e, h'') ∧ HAgree (Junk (L ++ rest)) (chunkValidate c H bs ws).2.1 h'' ∧ lg.map Rx.buf = done := by
  induction bs generalizing ws H l with
  | nil => simp [chunkValidate] at ho
  | cons b bs ih =>
    rw [List.pairwise_cons] at hd
    have hv := chunk_head (c := c) hd.1 (hJ b (by simp)) ha
    rw [chunkValidate] at ho hf ⊢
    unfold clientValidate at ho hf ⊢
    rw [hv] at ho hf ⊢
    cases hvb : validateBuf c (scatter l.heap b.reply (ws.take b.words)).word b with
    | ok =>
      rw [hvb] at ho hf
      simp only [okOutcomes_cons] at ho hf ⊢
      cases hf with
      | cons hr hf' =>
        rename_i e'
        have hrr : receiveReply c l.heap b (ws.take b.words) = (.ok, (scatter l.heap b.reply (ws.take b.words)).markValid b.adds) := by
          unfold receiveReply clientValidate; rw [hvb]
        have ha' : HAgree (Junk L) (H.markValid b.adds) (scatter ((scatter l.heap b.reply (ws.take b.words)).markValid b.adds)
            (bs.flatMap (·.reply)) (ws.drop b.words)) := by
          rw [scatter_cons] at ha
          rw [scatter_store] at ha ⊢
          rw [store_mark]
          exact ⟨by simp only [Heap.markValid, ha.1], fun x hx => ha.2 x hx⟩
        obtain ⟨done, b0, rest, wsb, h', h'', lg, q1, q2, q3, q4, q5, q6, q7⟩ := ih (ws.drop b.words) (H.markValid b.adds)
          { l with heap := (scatter l.heap b.reply (ws.take b.words)).markValid b.adds, pending := bs ++ tl, env := e',
                   log := l.log ++ [⟨b, ws.take b.words, .ok⟩] } hd.2 (fun b' hb' => hJ b' (by simp [hb'])) ha' rfl ho hf'
        refine ⟨b :: done, b0, rest, wsb, h', h'', ⟨b, ws.take b.words, .ok⟩ :: lg, by rw [q1]; rfl, by rw [q2]; rfl, by simp [q3], ?_, q5, q6, by rw [List.map_cons, q7]⟩
        rw [List.length_cons, process, hp, List.cons_append]
        simp only at hr ⊢
        rw [hr]
        simp only
        rw [hrr]
        simp only
        rw [q4]
        simp
    | err x =>
      rw [hvb] at ho hf
      simp only [VOut.err.injEq] at ho hf ⊢
      subst ho
      have hx : okOutcomes [⟨b, ws.take b.words, .err x⟩] = [] := by simp [okOutcomes]
      rw [hx] at hf ⊢
      cases hf
      refine ⟨[], b, bs, ws.take b.words, l.heap, scatter l.heap b.reply (ws.take b.words), [], rfl, rfl, rfl, ?_, ?_, ?_, rfl⟩
      · rw [List.length_nil, process]
        simp only [List.append_nil]
        congr 1
        cases l
        simp only at hp
        subst hp
        rfl
      · unfold receiveReply clientValidate; rw [hvb]
      · rw [scatter_cons] at ha
        have h2 := scatter_off (bs := bs) (scatter l.heap b.reply (ws.take b.words)) (ws.drop b.words)
        refine ⟨ha.1.trans h2.1, ?_⟩
        intro y hy
        rw [ha.2 y fun ⟨z, hz, hz'⟩ => hy ⟨z, by simp [hz], hz'⟩, h2.2 y fun ⟨z, hz, hz'⟩ => hy ⟨z, by simp [hz], hz'⟩]
    | ub => rw [hvb] at ho; simp at ho

end
end Verif
