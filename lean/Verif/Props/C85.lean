import Verif.Model.PcieFile
/-!
# C85: device files transfer what they are asked to

See `/verif/properties.jsonl` and `DESIGN.md`.
-/

set_option autoImplicit false
set_option linter.unusedSimpArgs false

namespace Verif
open PFile

namespace Spec

/-- The word that begins at byte `4 * a` of a device, least significant byte first. -/
def leWord (mem : Nat → BitVec 8) (a : Nat) : W :=
  BitVec.ofNat 32 ((mem (4 * a)).toNat + 256 * (mem (4 * a + 1)).toNat + 65536 * (mem (4 * a + 2)).toNat + 16777216 * (mem (4 * a + 3)).toNat)

/-- The bytes of words in the same order. -/
def leBytes : List W → List (BitVec 8)
  | [] => []
  | w :: ws => BitVec.ofNat 8 w.toNat :: BitVec.ofNat 8 (w.toNat / 256) :: BitVec.ofNat 8 (w.toNat / 65536) :: BitVec.ofNat 8 (w.toNat / 16777216) :: leBytes ws

/-- `after` is `before` with the bytes `bs` at `pos`. -/
def Written (before after : Nat → BitVec 8) (pos : Nat) (bs : List (BitVec 8)) : Prop :=
  (∀ i b, bs[i]? = some b → after (pos + i) = b) ∧ ∀ x, x < pos ∨ pos + bs.length ≤ x → after x = before x

end Spec
open Spec

/-- The buffer is as large as the file thinks. -/
def PFile.File.Inv (f : File) : Prop := ∀ a, f.buf = some a → f.size ≤ a

namespace PFile

theorem word_eq (m : Nat → Byte) (a : Nat) : word m (4 * a) = leWord m a := by
  apply BitVec.eq_of_toNat_eq
  simp only [word, leWord, BitVec.toNat_append, BitVec.toNat_ofNat]
  have h0 := (m (4 * a)).isLt
  have h1 := (m (4 * a + 1)).isLt
  have h2 := (m (4 * a + 2)).isLt
  have h3 := (m (4 * a + 3)).isLt
  rw [← Nat.shiftLeft_add_eq_or_of_lt h2, ← Nat.shiftLeft_add_eq_or_of_lt h0, ← Nat.shiftLeft_add_eq_or_of_lt (by simp only [Nat.shiftLeft_eq]; omega)]
  simp only [Nat.shiftLeft_eq]
  omega

theorem open_spec (os : Os) (f : File) : ((open_ os f).2 = true → (open_ os f).1 = { f with fd := true }) ∧
    ((open_ os f).2 = false → (open_ os f).1 = f ∧ f.fd = false ∧ os.opens = false) := by
  unfold open_
  cases hf : f.fd <;> cases ho : os.opens <;> simp [hf, ho]
  · cases f; simp_all
  · cases f; simp_all

theorem create_spec (os : Os) (n : Nat) (f : File) (hi : f.Inv) :
    (createBuffer os n f).1.Inv ∧ (createBuffer os n f).1.fd = f.fd ∧ (createBuffer os n f).1.locked = f.locked ∧
    ((createBuffer os n f).2 = true → n ≤ (createBuffer os n f).1.buf.getD 0) ∧ ((createBuffer os n f).2 = false → os.memory = false) := by
  unfold createBuffer
  cases hb : f.buf with
  | none =>
    simp only
    cases hm : os.memory
    · simp only [Bool.false_eq_true, if_false]
      exact ⟨hi, by simp⟩
    · simp only [if_true]
      exact ⟨fun a h => (by cases h; simp), by simp⟩
  | some a =>
    simp only
    by_cases hn : n ≤ f.size
    · rw [if_pos hn]
      exact ⟨hi, rfl, rfl, fun _ => by rw [hb]; exact Nat.le_trans hn (hi a hb), by simp⟩
    · rw [if_neg hn]
      cases hm : os.memory
      · simp only [Bool.false_eq_true, if_false]
        exact ⟨fun a h => (by cases h), by simp⟩
      · simp only [if_true]
        exact ⟨fun a h => (by cases h; simp), by simp⟩

theorem gather_ok (room : Nat) (cs : List (List Byte)) : ∀ acc, acc.length + (cs.map List.length).sum ≤ room → gather room cs acc = some (acc ++ cs.flatten) := by
  induction cs with
  | nil => intro acc _; simp [gather]
  | cons c cs ih =>
    intro acc h
    rw [List.map_cons, List.sum_cons] at h
    rw [gather, if_pos (by omega), ih _ (by rw [List.length_append]; omega)]
    simp

theorem four_mul (a : W) (h : 4 * a.toNat < 2 ^ 32) : (4#32 * a).toNat = 4 * a.toNat := by
  rw [BitVec.toNat_mul]; exact Nat.mod_eq_of_lt h

theorem put_written (d : Dev) (pos : Nat) (bs : List Byte) : Written d.mem (d.put pos bs).mem pos bs := by
  refine ⟨?_, ?_⟩
  · intro i b h
    show (if pos ≤ pos + i then _ else _) = _
    rw [if_pos (by omega), show pos + i - pos = i by omega, h]; rfl
  · intro x h
    show (if pos ≤ x then _ else _) = _
    split
    · rename_i hx
      have : bs[x - pos]? = none := List.getElem?_eq_none (by omega)
      rw [this]; rfl
    · rfl

end PFile

/-- **C85** (reading): what is read are the words of the device from the address on, all of them; otherwise there is an exception and no value. There is no undefined behaviour, and no
exception unless the system fails. Addresses and sizes are such that bytes can be counted with 32 bits (otherwise: `C85_violated_wrap`). -/
theorem C85_read_partial (os : Os) (addr nr : W) (vals : List W) (f : File) (d : Dev) (hi : f.Inv) (ha : 4 * addr.toNat < 2 ^ 32) (hn : 4 * nr.toNat < 2 ^ 32) :
    (∀ v, (PFile.read os addr nr vals f d).2 = .ok v → v = vals ++ (List.range nr.toNat).map fun i => leWord d.mem (addr.toNat + i)) ∧
    (PFile.read os addr nr vals f d).2 ≠ .ub ∧ (PFile.read os addr nr vals f d).2 ≠ .asserts ∧
    (os.opens = true → os.memory = true → os.seeks = true → (∃ k, os.moved (4 * nr.toNat) = some k ∧ 4 * nr.toNat ≤ k) →
      ∃ v, (PFile.read os addr nr vals f d).2 = .ok v) ∧
    (PFile.read os addr nr vals f d).1.Inv ∧ (PFile.read os addr nr vals f d).1.locked = f.locked := by
  have hw : ∀ i, PFile.word d.mem ((4#32 * addr).toNat + 4 * i) = leWord d.mem (addr.toNat + i) := by
    intro i; rw [four_mul addr ha, ← Nat.mul_add, word_eq]
  unfold PFile.read
  obtain ⟨o1, o2⟩ := open_spec os f
  cases ho : open_ os f with
  | mk f1 b =>
    rw [ho] at o1 o2
    cases b with
    | false =>
      obtain ⟨e, _, e2⟩ := o2 rfl
      simp only at e
      subst e
      simp only
      exact ⟨(by intro v h; cases h), by simp, by simp, fun h => (by rw [e2] at h; cases h), hi, by trivial⟩
    | true =>
      have e := o1 rfl
      simp only at e
      have hi1 : f1.Inv := by rw [e]; exact hi
      simp only
      rw [four_mul nr hn]
      obtain ⟨c1, c2, c3, c4, c5⟩ := create_spec os (4 * nr.toNat) f1 hi1
      cases hc : createBuffer os (4 * nr.toNat) f1 with
      | mk f2 b =>
        rw [hc] at c1 c2 c3 c4 c5
        have hl : f2.locked = f.locked := by rw [c3, e]
        cases b with
        | false =>
          simp only
          exact ⟨(by intro v h; cases h), by simp, by simp, fun _ h => (by rw [c5 rfl] at h; cases h), c1, hl⟩
        | true =>
          simp only
          cases hs : os.seeks with
          | false =>
            rw [if_pos rfl]
            exact ⟨(by intro v h; cases h), by simp, by simp, fun _ _ h => (by cases h), c1, hl⟩
          | true =>
            rw [if_neg (by simp)]
            cases hm : os.moved (4 * nr.toNat) with
            | none =>
              simp only
              exact ⟨(by intro v h; cases h), by simp, by simp, fun _ _ _ h => (by obtain ⟨k, h, _⟩ := h; cases h), c1, hl⟩
            | some rc =>
              simp only
              by_cases hr : rc < 4 * nr.toNat
              · rw [if_pos hr]
                exact ⟨(by intro v h; cases h), by simp, by simp, fun _ _ _ h => (by obtain ⟨k, h, h'⟩ := h; cases h; omega), c1, hl⟩
              · rw [if_neg hr, if_neg (by have := c4 rfl; simp only at this; omega)]
                refine ⟨?_, by simp, by simp, fun _ _ _ _ => ⟨_, rfl⟩, c1, hl⟩
                intro v h
                cases h
                simp only [hw]

/-- **C85** (writing): if `write` returns, all bytes are at the address, one chunk after the other, and nothing else has changed (a FIFO got all of them). If it throws, at most a
part of the bytes at the front has been written. There is no undefined behaviour, and no exception unless the system fails. -/
theorem C85_write (os : Os) (addr : W) (chunks : List (List Byte)) (f : File) (d : Dev) (hi : f.Inv) (h4 : chunks.flatten.length % 4 = 0) :
    let r := PFile.write os addr chunks f d
    (r.2.2 = .ok () → if os.seeks then Written d.mem r.2.1.mem addr.toNat chunks.flatten ∧ r.2.1.fifo = d.fifo
        else os.fifo = true ∧ r.2.1.mem = d.mem ∧ r.2.1.fifo = d.fifo ++ chunks.flatten) ∧
    (∀ e, r.2.2 = .throws e → ∃ bs, bs <+: chunks.flatten ∧ (bs = [] ∨ bs.length < chunks.flatten.length) ∧
      ((Written d.mem r.2.1.mem addr.toNat bs ∧ r.2.1.fifo = d.fifo) ∨ (r.2.1.mem = d.mem ∧ r.2.1.fifo = d.fifo ++ bs))) ∧
    r.2.2 ≠ .ub ∧ r.2.2 ≠ .asserts ∧ r.2.1.held = d.held ∧
    (os.opens = true → os.memory = true → os.seeks = true → (∃ k, os.moved chunks.flatten.length = some k ∧ chunks.flatten.length ≤ k) → r.2.2 = .ok ()) ∧
    r.1.Inv ∧ r.1.locked = f.locked := by
  have hlen : (chunks.map List.length).sum = chunks.flatten.length := by rw [List.length_flatten]
  unfold PFile.write
  obtain ⟨o1, o2⟩ := open_spec os f
  cases ho : open_ os f with
  | mk f1 b =>
    rw [ho] at o1 o2
    cases b with
    | false =>
      obtain ⟨e, _, e2⟩ := o2 rfl
      simp only at e
      subst e
      simp only
      exact ⟨(by intro h; cases h), (by intro e h; exact ⟨[], List.nil_prefix, .inl rfl, .inr ⟨by trivial, by simp⟩⟩), by simp, by simp, by trivial, fun h => (by rw [e2] at h; cases h), hi, by trivial⟩
    | true =>
      have e := o1 rfl
      simp only at e
      have hi1 : f1.Inv := by rw [e]; exact hi
      simp only [hlen, h4, ne_eq, not_true_eq_false, if_false]
      obtain ⟨c1, c2, c3, c4, c5⟩ := create_spec os chunks.flatten.length f1 hi1
      cases hc : createBuffer os chunks.flatten.length f1 with
      | mk f2 b =>
        rw [hc] at c1 c2 c3 c4 c5
        have hl : f2.locked = f.locked := by rw [c3, e]
        cases b with
        | false =>
          simp only
          exact ⟨(by intro h; cases h), (by intro e h; exact ⟨[], List.nil_prefix, .inl rfl, .inr ⟨by trivial, by simp⟩⟩), by simp, by simp, by trivial, fun _ h => (by rw [c5 rfl] at h; cases h), c1, hl⟩
        | true =>
          simp only
          rw [gather_ok _ chunks [] (by have := c4 rfl; simp only at this; rw [List.length_nil, hlen]; omega)]
          simp only [List.nil_append]
          by_cases hs : os.seeks = false ∧ os.fifo = false
          · rw [if_pos hs]
            exact ⟨(by intro h; cases h), (by intro e h; exact ⟨[], List.nil_prefix, .inl rfl, .inr ⟨by trivial, by simp⟩⟩), by simp, by simp, by trivial, fun _ _ h => (by rw [hs.1] at h; cases h), c1, hl⟩
          · rw [if_neg hs]
            cases hm : os.moved chunks.flatten.length with
            | none =>
              simp only
              exact ⟨(by intro h; cases h), (by intro e h; exact ⟨[], List.nil_prefix, .inl rfl, .inr ⟨by trivial, by simp⟩⟩), by simp, by simp, by trivial, fun _ _ _ h => (by obtain ⟨k, h, _⟩ := h; cases h), c1, hl⟩
            | some rc =>
              simp only
              have hheld : (if os.seeks = true then d.put addr.toNat (chunks.flatten.take rc) else { d with fifo := d.fifo ++ chunks.flatten.take rc }).held = d.held := by
                split <;> rfl
              by_cases hr : rc < chunks.flatten.length
              · rw [if_pos hr]
                refine ⟨(by intro h; cases h), ?_, by simp, by simp, hheld, fun _ _ _ h => (by obtain ⟨k, h, h'⟩ := h; cases h; omega), c1, hl⟩
                intro e _
                refine ⟨chunks.flatten.take rc, List.take_prefix _ _, .inr (by rw [List.length_take]; omega), ?_⟩
                cases os.seeks
                · exact .inr ⟨rfl, rfl⟩
                · exact .inl ⟨put_written _ _ _, rfl⟩
              · rw [if_neg hr]
                refine ⟨?_, (by intro e h; cases h), by simp, by simp, hheld, fun _ _ _ _ => rfl, c1, hl⟩
                intro _
                rw [List.take_of_length_le (by omega)]
                cases hsk : os.seeks with
                | true => simp only [if_true]; exact ⟨put_written _ _ _, rfl⟩
                | false =>
                  simp only [Bool.false_eq_true, if_false]
                  refine ⟨?_, trivial, trivial⟩
                  cases hfi : os.fifo with
                  | true => rfl
                  | false => exact absurd ⟨hsk, hfi⟩ hs

/-! ### Words -/

namespace PFile

theorem leBytes_length (ws : List W) : (leBytes ws).length = 4 * ws.length := by
  induction ws with
  | nil => rfl
  | cons w ws ih => simp only [leBytes, List.length_cons, ih]; omega

theorem leBytes_get (ws : List W) : ∀ (i : Nat) (w : W), ws[i]? = some w →
    (leBytes ws)[4 * i]? = some (BitVec.ofNat 8 w.toNat) ∧ (leBytes ws)[4 * i + 1]? = some (BitVec.ofNat 8 (w.toNat / 256)) ∧
    (leBytes ws)[4 * i + 2]? = some (BitVec.ofNat 8 (w.toNat / 65536)) ∧ (leBytes ws)[4 * i + 3]? = some (BitVec.ofNat 8 (w.toNat / 16777216)) := by
  induction ws with
  | nil => intro i w h; simp at h
  | cons v ws ih =>
    intro i w h
    cases i with
    | zero => simp only [List.getElem?_cons_zero, Option.some.injEq] at h; subst h; simp [leBytes]
    | succ i =>
      rw [List.getElem?_cons_succ] at h
      obtain ⟨a, b, c, d⟩ := ih i w h
      rw [show 4 * (i + 1) = 4 * i + 1 + 1 + 1 + 1 by omega, show 4 * i + 1 + 1 + 1 + 1 + 1 = 4 * i + 1 + 1 + 1 + 1 + 1 from rfl]
      simp only [leBytes]
      refine ⟨?_, ?_, ?_, ?_⟩
      · simp only [List.getElem?_cons_succ]; exact a
      · rw [show 4 * i + 1 + 1 + 1 + 1 + 1 = (4 * i + 1) + 1 + 1 + 1 + 1 by omega]; simp only [List.getElem?_cons_succ]; exact b
      · rw [show 4 * i + 1 + 1 + 1 + 1 + 2 = (4 * i + 2) + 1 + 1 + 1 + 1 by omega]; simp only [List.getElem?_cons_succ]; exact c
      · rw [show 4 * i + 1 + 1 + 1 + 1 + 3 = (4 * i + 3) + 1 + 1 + 1 + 1 by omega]; simp only [List.getElem?_cons_succ]; exact d

theorem leBytes_append (a b : List W) : leBytes (a ++ b) = leBytes a ++ leBytes b := by
  induction a with
  | nil => rfl
  | cons w a ih => simp only [List.cons_append, leBytes, ih]

end PFile

/-- Bytes of words at a word address, seen as words. -/
theorem written_words {before after : Nat → Byte} {a : Nat} {ws : List W} (h : Written before after (4 * a) (leBytes ws)) :
    leWord after = Mem.blit (leWord before) a ws := by
  obtain ⟨h1, h2⟩ := h
  rw [leBytes_length] at h2
  funext x
  unfold Mem.blit
  split
  · rename_i hx
    cases hg : ws[x - a]? with
    | none =>
      have := List.getElem?_eq_none_iff.1 hg
      simp only [leWord, Option.getD_none]
      rw [h2 (4 * x) (by omega), h2 (4 * x + 1) (by omega), h2 (4 * x + 2) (by omega), h2 (4 * x + 3) (by omega)]
    | some w =>
      obtain ⟨b0, b1, b2, b3⟩ := leBytes_get ws _ _ hg
      have c0 := h1 _ _ b0
      have c1 := h1 _ _ b1
      have c2 := h1 _ _ b2
      have c3 := h1 _ _ b3
      rw [show 4 * a + 4 * (x - a) = 4 * x by omega] at c0
      rw [show 4 * a + (4 * (x - a) + 1) = 4 * x + 1 by omega] at c1
      rw [show 4 * a + (4 * (x - a) + 2) = 4 * x + 2 by omega] at c2
      rw [show 4 * a + (4 * (x - a) + 3) = 4 * x + 3 by omega] at c3
      simp only [leWord, c0, c1, c2, c3, Option.getD_some]
      apply BitVec.eq_of_toNat_eq
      simp only [BitVec.toNat_ofNat]
      have := w.isLt
      omega
  · simp only [leWord]
    rw [h2 (4 * x) (by omega), h2 (4 * x + 1) (by omega), h2 (4 * x + 2) (by omega), h2 (4 * x + 3) (by omega)]

/-- **C85** (pages): a request of a client (528-534) with the word in front is, seen as words, what `Paged` takes it for: the words are in their page one after the other, and all other
words of the device are as before. Pages are such that bytes can be counted with 32 bits. -/
theorem C85_page_partial (os : Os) (idx size : W) (head : W) (packet : List W) (f : File) (d : Dev) (hi : f.Inv) (hb : 4 * (idx.toNat * size.toNat) < 2 ^ 32)
    (hs : os.seeks = true) (hok : (PFile.write os (idx * 4#32 * size) [leBytes [head], leBytes packet] f d).2.2 = .ok ()) :
    leWord (PFile.write os (idx * 4#32 * size) [leBytes [head], leBytes packet] f d).2.1.mem = Mem.blit (leWord d.mem) (idx.toNat * size.toNat) (head :: packet) := by
  have hf : [leBytes [head], leBytes packet].flatten = leBytes (head :: packet) := by
    show leBytes [head] ++ (leBytes packet ++ []) = leBytes ([head] ++ packet)
    rw [List.append_nil, leBytes_append]
  have h := (C85_write os (idx * 4#32 * size) [leBytes [head], leBytes packet] f d hi (by rw [hf, leBytes_length]; omega)).1 hok
  rw [if_pos hs, hf] at h
  refine written_words ?_
  have e : (idx * 4#32 * size).toNat = 4 * (idx.toNat * size.toNat) := by
    rw [show idx * 4#32 * size = 4#32 * (idx * size) by rw [BitVec.mul_comm idx, BitVec.mul_assoc]]
    have : (idx * size).toNat = idx.toNat * size.toNat := by rw [BitVec.toNat_mul]; exact Nat.mod_eq_of_lt (by omega)
    rw [four_mul _ (by omega), this]
  rw [← e]
  exact h.1

/-! ### Sequences of calls -/

namespace PFile

/-- Sizes are such that bytes can be counted with 32 bits. -/
def Call.Small : Call → Prop
  | .read _ nr => 4 * nr.toNat < 2 ^ 32
  | _ => True

theorem read_inv (os : Os) (addr nr : W) (f : File) (d : Dev) (hi : f.Inv) (hn : 4 * nr.toNat < 2 ^ 32) :
    (PFile.read os addr nr [] f d).2 ≠ .ub ∧ (PFile.read os addr nr [] f d).1.Inv ∧ (PFile.read os addr nr [] f d).1.locked = f.locked ∧
    (f.fd = true → (PFile.read os addr nr [] f d).1.fd = true) := by
  unfold PFile.read
  obtain ⟨o1, o2⟩ := open_spec os f
  cases ho : open_ os f with
  | mk f1 b =>
    rw [ho] at o1 o2
    cases b with
    | false =>
      obtain ⟨e, _, _⟩ := o2 rfl
      simp only at e
      subst e
      exact ⟨by simp, hi, rfl, fun h => h⟩
    | true =>
      have e := o1 rfl
      simp only at e
      have hi1 : f1.Inv := by rw [e]; exact hi
      simp only
      rw [four_mul nr hn]
      obtain ⟨c1, c2, c3, c4, c5⟩ := create_spec os (4 * nr.toNat) f1 hi1
      cases hc : createBuffer os (4 * nr.toNat) f1 with
      | mk f2 b =>
        rw [hc] at c1 c2 c3 c4 c5
        have hl : f2.locked = f.locked := by rw [c3, e]
        have hd : f2.fd = true := by rw [c2, e]
        cases b with
        | false => exact ⟨by simp, c1, hl, fun _ => hd⟩
        | true =>
          have hb := c4 rfl
          simp only at hb ⊢
          rw [if_neg (by omega : ¬ (4 * nr.toNat < 4 * nr.toNat ∨ f2.buf.getD 0 < 4 * nr.toNat))]
          repeat' split
          all_goals exact ⟨by simp, c1, hl, fun _ => hd⟩

theorem write_inv (os : Os) (addr : W) (cs : List (List Byte)) (f : File) (d : Dev) (hi : f.Inv) :
    (PFile.write os addr cs f d).2.2 ≠ .ub ∧ (PFile.write os addr cs f d).1.Inv ∧ (PFile.write os addr cs f d).1.locked = f.locked ∧
    (f.fd = true → (PFile.write os addr cs f d).1.fd = true) ∧ (PFile.write os addr cs f d).2.1.held = d.held := by
  by_cases h4 : cs.flatten.length % 4 = 0
  · obtain ⟨_, _, h1, _, h2, _, h3, h5⟩ := C85_write os addr cs f d hi h4
    refine ⟨h1, h3, h5, ?_, h2⟩
    intro hf
    unfold PFile.write
    have ho : open_ os f = (f, true) := by unfold open_; rw [if_pos hf]
    rw [ho]
    simp only
    split
    · exact hf
    · obtain ⟨c1, c2, c3, c4, c5⟩ := create_spec os (cs.map List.length).sum f hi
      cases hc : createBuffer os (cs.map List.length).sum f with
      | mk f2 b =>
        rw [hc] at c2
        have hd : f2.fd = true := by rw [c2]; exact hf
        cases b
        · exact hd
        · simp only
          repeat' split
          all_goals exact hd
  · have hl : (cs.map List.length).sum % 4 ≠ 0 := by rw [← List.length_flatten]; exact h4
    unfold PFile.write
    obtain ⟨o1, o2⟩ := open_spec os f
    cases ho : open_ os f with
    | mk f1 b =>
      rw [ho] at o1 o2
      cases b with
      | false =>
        obtain ⟨e, _, _⟩ := o2 rfl
        simp only at e
        subst e
        exact ⟨by simp, hi, rfl, fun h => h, rfl⟩
      | true =>
        have e := o1 rfl
        simp only at e
        simp only [if_pos hl]
        rw [e]
        exact ⟨by simp, hi, by trivial, fun _ => rfl, by trivial⟩

theorem unlock_spec (os : Os) (f : File) (d : Dev) : (unlock os f d).1.fd = f.fd ∧ (unlock os f d).1.buf = f.buf ∧ (unlock os f d).1.size = f.size ∧
    ((f.fd = true ∧ os.unlocks = true ∧ (unlock os f d).1.locked = false ∧ (unlock os f d).2.held = false) ∨
     (¬ (f.fd = true ∧ os.unlocks = true) ∧ (unlock os f d).1 = f ∧ (unlock os f d).2 = d)) := by
  unfold unlock
  split
  · rename_i h; exact ⟨rfl, rfl, rfl, .inl ⟨h.1, h.2, rfl, rfl⟩⟩
  · rename_i h; exact ⟨rfl, rfl, rfl, .inr ⟨h, rfl, rfl⟩⟩

theorem run_inv (os : Os) (c : Call) (hc : c.Small) (f : File) (d : Dev) (hi : f.Inv) : (c.run os f d).2.2 = false ∧ (c.run os f d).1.Inv := by
  cases c with
  | open_ =>
    refine ⟨rfl, ?_⟩
    show ((PFile.open_ os f).1).Inv
    unfold PFile.open_
    repeat' split
    all_goals exact hi
  | buffer n => exact ⟨rfl, (create_spec os n f hi).1⟩
  | read a n => obtain ⟨h1, h2, _⟩ := read_inv os a n f d hi hc; exact ⟨by simp only [Call.run, h1, decide_false], h2⟩
  | write a cs => obtain ⟨h1, h2, _⟩ := write_inv os a cs f d hi; exact ⟨by simp only [Call.run, h1, decide_false], h2⟩
  | lock =>
    refine ⟨rfl, ?_⟩
    show ((PFile.lock os f d).1).Inv
    unfold PFile.lock
    split <;> exact hi
  | unlock =>
    obtain ⟨_, h1, h2, _⟩ := unlock_spec os f d
    refine ⟨rfl, ?_⟩
    show ((PFile.unlock os f d).1).Inv
    intro a ha
    rw [h2]; exact hi a (by rw [← h1]; exact ha)
  | close =>
    obtain ⟨_, h1, h2, _⟩ := unlock_spec os f d
    refine ⟨rfl, ?_⟩
    show ((PFile.close os f d).1).Inv
    unfold PFile.close
    split
    · split
      · intro a ha
        show (PFile.unlock os f d).1.size ≤ a
        rw [h2]; exact hi a (by rw [← h1]; exact ha)
      · exact hi
    · exact hi

end PFile

/-- **C85** (buffer): no sequence of calls runs into undefined behaviour, whatever the system does in each of them. Numbers of words to be read are less than 2^30 (otherwise:
`C85_violated_wrap`). -/
theorem C85_memory_partial (cs : List (Os × Call)) (h : ∀ c ∈ cs, c.2.Small) (d : Dev) : (runAll cs {} d).2.2 = false := by
  suffices H : ∀ (f : File) (d : Dev), f.Inv → (runAll cs f d).2.2 = false from H _ d (fun a ha => by cases ha)
  induction cs with
  | nil => intro f d _; rfl
  | cons c cs ih =>
    intro f d hi
    obtain ⟨os, c⟩ := c
    obtain ⟨h1, h2⟩ := run_inv os c (h (os, c) (by simp)) f d hi
    rw [runAll]
    cases hr : c.run os f d with
    | mk f1 r =>
      obtain ⟨d1, b⟩ := r
      rw [hr] at h1 h2
      simp only at h1
      subst h1
      exact ih (fun x hx => h x (by simp [hx])) f1 d1 h2

/-- **C85** (lock): if the system never fails to release a lock, the file knows whether it holds the lock, after every sequence of calls.
Missing for C85: a release that fails (`C85_violated_lock`). -/
theorem C85_lock_partial (cs : List (Os × Call)) (h : ∀ c ∈ cs, c.2.Small) (hu : ∀ c ∈ cs, c.1.unlocks = true) (d : Dev) (hd : d.held = false) :
    (runAll cs {} d).1.locked = (runAll cs {} d).2.1.held := by
  suffices H : ∀ (f : File) (d : Dev), f.Inv → (f.locked = d.held ∧ (f.locked = true → f.fd = true)) →
      (runAll cs f d).1.locked = (runAll cs f d).2.1.held from H _ d (fun a ha => by cases ha) ⟨hd.symm, fun h => by cases h⟩
  induction cs with
  | nil => intro f d _ h; exact h.1
  | cons c cs ih =>
    intro f d hi hl
    obtain ⟨os, c⟩ := c
    have hos := hu (os, c) (by simp)
    simp only at hos
    have hsm := h (os, c) (by simp)
    obtain ⟨h1, h2⟩ := run_inv os c hsm f d hi
    have key : (c.run os f d).1.locked = (c.run os f d).2.1.held ∧ ((c.run os f d).1.locked = true → (c.run os f d).1.fd = true) := by
      cases c with
      | open_ =>
        show (PFile.open_ os f).1.locked = d.held ∧ _
        unfold PFile.open_ Call.run
        simp only [PFile.open_]
        repeat' split
        all_goals first | exact hl | exact ⟨hl.1, fun _ => rfl⟩
      | buffer n =>
        obtain ⟨_, c2, c3, _⟩ := create_spec os n f hi
        show (createBuffer os n f).1.locked = d.held ∧ ((createBuffer os n f).1.locked = true → (createBuffer os n f).1.fd = true)
        rw [c3, c2]; exact hl
      | read a n =>
        obtain ⟨_, _, c3, c4⟩ := read_inv os a n f d hi hsm
        show (PFile.read os a n [] f d).1.locked = d.held ∧ ((PFile.read os a n [] f d).1.locked = true → (PFile.read os a n [] f d).1.fd = true)
        rw [c3]; exact ⟨hl.1, fun h => c4 (hl.2 h)⟩
      | write a ws =>
        obtain ⟨_, _, c3, c4, c5⟩ := write_inv os a ws f d hi
        show (PFile.write os a ws f d).1.locked = (PFile.write os a ws f d).2.1.held ∧ ((PFile.write os a ws f d).1.locked = true → (PFile.write os a ws f d).1.fd = true)
        rw [c3, c5]; exact ⟨hl.1, fun h => c4 (hl.2 h)⟩
      | lock =>
        show (PFile.lock os f d).1.locked = (PFile.lock os f d).2.1.held ∧ ((PFile.lock os f d).1.locked = true → (PFile.lock os f d).1.fd = true)
        unfold PFile.lock
        split
        · rename_i hx; exact ⟨rfl, fun _ => hx.1⟩
        · exact hl
      | unlock =>
        show (PFile.unlock os f d).1.locked = (PFile.unlock os f d).2.held ∧ ((PFile.unlock os f d).1.locked = true → (PFile.unlock os f d).1.fd = true)
        obtain ⟨_, _, _, hx | hx⟩ := unlock_spec os f d
        · rw [hx.2.2.1, hx.2.2.2]; exact ⟨rfl, fun h => by cases h⟩
        · rw [hx.2.1, hx.2.2]; exact hl
      | close =>
        show (PFile.close os f d).1.locked = (PFile.close os f d).2.held ∧ ((PFile.close os f d).1.locked = true → (PFile.close os f d).1.fd = true)
        unfold PFile.close
        split
        · rename_i hf
          split
          · obtain ⟨_, _, _, hx | hx⟩ := unlock_spec os f d
            · simp only [hx.2.2.1]; exact ⟨by trivial, fun h => by cases h⟩
            · exact absurd ⟨hf, hos⟩ hx.1
          · rename_i hk
            have : f.locked = false := by simpa using hk
            simp only [this]; exact ⟨by trivial, fun h => by cases h⟩
        · exact hl
    rw [runAll]
    cases hr : c.run os f d with
    | mk f1 r =>
      obtain ⟨d1, b⟩ := r
      rw [hr] at h1 h2 key
      simp only at h1
      subst h1
      exact ih (fun x hx => h x (by simp [hx])) (fun x hx => hu x (by simp [hx])) f1 d1 h2 key

/-- A lock that cannot be released: the file is closed, which releases it, but the file still says that it has the lock; a client that opens it again writes without one
(ProtocolPCIe.cpp:512-513). -/
theorem C85_violated_lock (d : Dev) : (runAll [({}, .open_), ({}, .lock), ({ unlocks := false }, .close), ({}, .open_)] {} d).1.locked = true ∧
    (runAll [({}, .open_), ({}, .lock), ({ unlocks := false }, .close), ({}, .open_)] {} d).1.fd = true ∧
    (runAll [({}, .open_), ({}, .lock), ({ unlocks := false }, .close), ({}, .open_)] {} d).2.1.held = false := ⟨rfl, rfl, rfl⟩

/-- Without the bounds: a read of 2^30 words asks the system for nothing and takes 2^32 bytes from a buffer of 4096; a read at the word 2^30 gives the word 0. -/
theorem C85_violated_wrap (d : Dev) : (PFile.read { count := some 0 } 0#32 0x40000000#32 [] {} d).2 = .ub ∧
    (PFile.read { count := some 4 } 0x40000000#32 1#32 [] {} d).2 = .ok [leWord d.mem 0] := by
  refine ⟨rfl, ?_⟩
  rw [← word_eq]; rfl

/-! ### Shared memory -/

/-- **C85** (names): the name of the shared memory of a device has one slash, at the front (as `shm_open` wants it); devices with different paths have different names if no path has a
colon; the two kinds of client never have the same. -/
theorem C85_name_partial (m m' : Bool) (p p' : List Char) (hp : ':' ∉ p) (hp' : ':' ∉ p') :
    (∃ t, memName m p = '/' :: t ∧ '/' ∉ t) ∧ (memName m p = memName m' p' ↔ m = m' ∧ p = p') := by
  have hsl : '/' ∉ p.map fun c => if c = '/' then ':' else c := by
    intro h
    obtain ⟨c, _, e⟩ := List.mem_map.1 h
    split at e
    · exact absurd e (by decide)
    · rename_i hc; exact hc e
  refine ⟨?_, ?_⟩
  · have hpre : ∃ t, (if m then "/uhal::ipbusmmap-2.0::" else "/uhal::ipbuspcie-2.0::").toList = '/' :: t ∧ '/' ∉ t := by
      cases m
      · exact ⟨"uhal::ipbuspcie-2.0::".toList, by decide, by decide⟩
      · exact ⟨"uhal::ipbusmmap-2.0::".toList, by decide, by decide⟩
    obtain ⟨t, e, ht⟩ := hpre
    refine ⟨t ++ p.map fun c => if c = '/' then ':' else c, ?_, ?_⟩
    · unfold memName; rw [e]; rfl
    · intro h
      rcases List.mem_append.1 h with h | h
      · exact ht h
      · exact hsl h
  · constructor
    · intro h
      unfold memName at h
      have hl : ∀ b : Bool, (if b then "/uhal::ipbusmmap-2.0::" else "/uhal::ipbuspcie-2.0::").toList.length = 22 := by intro b; cases b <;> decide
      obtain ⟨h1, h2⟩ := List.append_inj h ((hl m).trans (hl m').symm)
      refine ⟨by revert h1; cases m <;> cases m' <;> decide, ?_⟩
      clear h1 h hsl
      induction p generalizing p' with
      | nil => cases p' with
        | nil => rfl
        | cons _ _ => simp at h2
      | cons c p ih =>
        cases p' with
        | nil => simp at h2
        | cons c' p' =>
          rw [List.map_cons, List.map_cons, List.cons.injEq] at h2
          rw [ih p' (fun h => hp (by simp [h])) (fun h => hp' (by simp [h])) h2.2]
          have e := h2.1
          have a1 : c ≠ ':' := fun h => hp (by simp [h])
          have a2 : c' ≠ ':' := fun h => hp' (by simp [h])
          split at e <;> split at e
          · simp_all
          · exact absurd e.symm a2
          · exact absurd e a1
          · rw [e]
    · rintro ⟨rfl, rfl⟩; rfl

/-- Two devices that share their session counter. -/
theorem C85_violated_name : ∃ p p' : List Char, p ≠ p' ∧ memName false p = memName false p' := ⟨"/dev/a/b".toList, "/dev/a:b".toList, by decide, by decide⟩

/-! ### A concrete device -/

/-- Byte `a` has the value `a`. -/
def demoBytes : Dev := { mem := fun a => BitVec.ofNat 8 a }

/-- A read, a write of two chunks, a transfer that is cut short, a FIFO. -/
example : (PFile.read { count := some 8 } 1#32 2#32 [] {} demoBytes).2 = .ok [0x07060504#32, 0x0B0A0908#32] ∧
    (PFile.read { count := some 7 } 1#32 2#32 [] {} demoBytes).2 = .throws .comm ∧
    (PFile.write { count := some 8 } 4#32 [leBytes [0xAABBCCDD#32], leBytes [1#32]] {} demoBytes).2.2 = .ok () ∧
    (List.range 14).map (PFile.write { count := some 8 } 4#32 [leBytes [0xAABBCCDD#32], leBytes [1#32]] {} demoBytes).2.1.mem =
      [0, 1, 2, 3, 0xDD, 0xCC, 0xBB, 0xAA, 1, 0, 0, 0, 12, 13] ∧
    (PFile.write { count := some 5 } 4#32 [leBytes [0xAABBCCDD#32], leBytes [1#32]] {} demoBytes).2.2 = .throws .comm ∧
    (PFile.write { count := some 4, seeks := false, fifo := true } 4#32 [leBytes [5#32]] {} demoBytes).2.1.fifo = [5, 0, 0, 0] := by decide +kernel

end Verif
