import Verif.Model.TargetTest
import Verif.Spec.TargetTest
import Verif.Lemmas.SoakRam
/-!
# What the test script for targets sends

Every transaction of the script comes with what a memory would answer, wherever the packets end.
-/

set_option autoImplicit false
set_option linter.unusedSimpArgs false

namespace Verif.TgtTest
open Verif.Spec
open Verif.Soak (exec_reads exec_writes)
open Verif.Hub (Bytes)

theorem randInt_range (a b : Nat) (g : Gen) (ha : 1 ≤ a) (hb : a ≤ b) : a ≤ (randInt a b g).1 ∧ (randInt a b g).1 ≤ b := by
  have : g 0 % (b - a + 1) < b - a + 1 := Nat.mod_lt _ (by omega)
  simp only [randInt, uniform]
  omega

theorem randWords_ok (n : Nat) (acc : List Nat) (g : Gen) (h : ∀ x ∈ acc, x < 2 ^ 32) :
    (randWords n acc g).1.length = n + acc.length ∧ ∀ x ∈ (randWords n acc g).1, x < 2 ^ 32 := by
  induction n generalizing acc g with
  | zero => exact ⟨by simp [randWords], h⟩
  | succ n ih =>
    have := ih ((randWord g).1 :: acc) (randWord g).2 (by
      intro x hx
      rcases List.mem_cons.1 hx with rfl | hx
      · have : g 0 % 2 ^ 32 < 2 ^ 32 := Nat.mod_lt _ (by decide)
        simp only [randWord, uniform]
        omega
      · exact h x hx)
    refine ⟨?_, this.2⟩
    rw [randWords, this.1, List.length_cons]; omega

/-! ## Transactions -/

/-- A transaction as the script generates it. -/
structure Fit (r : Trans) : Prop where
  id : r.id < 4096
  place : (r.addr = 2 ∧ r.depth = 1) ∨ (r.addr = 0x1000 ∧ 2 ≤ r.depth ∧ r.depth ≤ 255)
  params : match r.ty with
    | .read => r.params = []
    | .write => r.params.length = r.depth
    | .rmwbits => r.depth = 1 ∧ ∃ a o, r.params = [a, o]
    | .rmwsum => r.depth = 1 ∧ ∃ x, r.params = [x]
  small : ∀ x ∈ r.params, x < 2 ^ 32
  known : r.ty ≠ .write → ∃ vs, r.before = some vs
  vals : ∀ vs, r.before = some vs → vs.length = r.depth ∧ ∀ x ∈ vs, x < 2 ^ 32

/-- Numbers as words. -/
abbrev words (l : List Nat) : List W := l.map (BitVec.ofNat 32)

/-- The transaction. -/
def Trans.txn (r : Trans) : Txn :=
  match r.ty, r.params with
  | .read, _ => .read true (BitVec.ofNat 32 r.addr) r.depth
  | .write, ps => .write true (BitVec.ofNat 32 r.addr) (words ps)
  | .rmwbits, [a, o] => .rmwBits (BitVec.ofNat 32 r.addr) (BitVec.ofNat 32 a) (BitVec.ofNat 32 o)
  | .rmwsum, [x] => .rmwSum (BitVec.ofNat 32 r.addr) (BitVec.ofNat 32 x)
  | _, _ => .bot

/-- What the memory contains at the place of a transaction. -/
def Trans.at (r : Trans) (m : W → W) : List W := (addrs true (BitVec.ofNat 32 r.addr) r.depth).map m

/-- The words that the script expects. -/
def Trans.expects (r : Trans) : List Nat :=
  match r.ty with
  | .write => []
  | _ => r.before.getD []

theorem addrs_one (a : W) : addrs true a 1 = [a] := by simp [addrs]

theorem Fit.depth_pos {r : Trans} (h : Fit r) : 1 ≤ r.depth ∧ r.depth ≤ 255 := by rcases h.place with h | h <;> omega

theorem single {vs : List Nat} (h : vs.length = 1) : ∃ p, vs = [p] := by
  cases vs with
  | nil => cases h
  | cons p l => cases l with
    | nil => exact ⟨p, rfl⟩
    | cons _ _ => simp at h

theorem written (a : W) (ws : List W) (m : W → W) (h : ws.length < 2 ^ 32) :
    (addrs true a ws.length).map (fun b => ws.getD (b - a).toNat (m b)) = ws := by
  apply List.ext_getElem
  · simp [addrs]
  · intro i h1 h2
    have e : (a + BitVec.ofNat 32 i - a).toNat = i := by
      have : a + BitVec.ofNat 32 i - a = BitVec.ofNat 32 i := by rw [BitVec.add_comm]; exact BitVec.add_sub_cancel _ _
      rw [this, BitVec.toNat_ofNat, Nat.mod_eq_of_lt (by omega)]
    simp only [addrs, List.getElem_map, List.getElem_range, if_true, e]
    rw [List.getD_eq_getElem?_getD, List.getElem?_eq_getElem h2, Option.getD_some]

theorem exec_ok {r : Trans} (h : Fit r) {m : W → W} (hm : ∀ vs, r.before = some vs → r.at m = words vs) :
    (execAccs .v2 ram r.txn.accs m).1 = words r.expects ∧
    ∃ vs, regValuesAfter r = some (some vs) ∧ vs.length = r.depth ∧ (∀ x ∈ vs, x < 2 ^ 32) ∧ r.at (execAccs .v2 ram r.txn.accs m).2 = words vs := by
  obtain ⟨ty, id, addr, depth, params, before⟩ := r
  have hp := h.params
  have hk := h.known
  have hv := h.vals
  have hs := h.small
  simp only at hp hk hv hs hm
  cases ty with
  | read =>
    obtain ⟨vs, rfl⟩ := hk (by decide)
    have hv := hv vs rfl
    have hm := hm vs rfl
    simp only [Trans.at] at hm
    simp only [Trans.txn, Txn.accs, exec_reads, Trans.expects, Option.getD_some]
    exact ⟨hm, vs, rfl, hv.1, hv.2, hm⟩
  | write =>
    have hl : (words params).length = depth := by simp [hp]
    have hd := h.depth_pos
    simp only at hd
    simp only [Trans.txn, Txn.accs]
    rw [exec_writes .v2 (words params) (BitVec.ofNat 32 addr) m (by omega)]
    refine ⟨rfl, params, rfl, hp, hs, ?_⟩
    have := written (BitVec.ofNat 32 addr) (words params) m (by omega)
    rw [hl] at this
    exact this
  | rmwbits =>
    obtain ⟨rfl, a, o, rfl⟩ := hp
    obtain ⟨vs, rfl⟩ := hk (by decide)
    obtain ⟨hv1, hv2⟩ := hv vs rfl
    obtain ⟨p, rfl⟩ := single hv1
    have hm := hm [p] rfl
    simp only [Trans.at, addrs_one, List.map_cons, List.map_nil, List.cons.injEq, and_true] at hm
    refine ⟨?_, [(p &&& a) ||| o], rfl, rfl, ?_, ?_⟩
    · simp [Trans.txn, Txn.accs, execAccs, Acc.exec, ram, Trans.expects, hm, words]
    · intro x hx
      simp only [List.mem_singleton] at hx
      subst hx
      exact Nat.or_lt_two_pow (Nat.lt_of_le_of_lt Nat.and_le_left (hv2 p (by simp))) (hs o (by simp))
    · simp only [Trans.txn, Txn.accs, execAccs, Acc.exec, ram, Trans.at, addrs_one, List.map_cons, List.map_nil, if_true, hm]
      simp [words, BitVec.ofNat_and, BitVec.ofNat_or]
  | rmwsum =>
    obtain ⟨rfl, a, rfl⟩ := hp
    obtain ⟨vs, rfl⟩ := hk (by decide)
    obtain ⟨hv1, hv2⟩ := hv vs rfl
    obtain ⟨p, rfl⟩ := single hv1
    have hm := hm [p] rfl
    simp only [Trans.at, addrs_one, List.map_cons, List.map_nil, List.cons.injEq, and_true] at hm
    refine ⟨?_, [(p + a) % 2 ^ 32], rfl, rfl, ?_, ?_⟩
    · simp [Trans.txn, Txn.accs, execAccs, Acc.exec, ram, Trans.expects, hm, words]
    · intro x hx
      simp only [List.mem_singleton] at hx
      subst hx
      exact Nat.mod_lt _ (by decide)
    · simp only [Trans.txn, Txn.accs, execAccs, Acc.exec, ram, Trans.at, addrs_one, List.map_cons, List.map_nil, if_true, hm]
      simp only [words, List.map_cons, List.map_nil, List.cons.injEq, and_true]
      apply BitVec.eq_of_toNat_eq
      simp [BitVec.toNat_add]

/-- Transactions that expect of a target what a memory with content `m` answers. -/
def Good : (W → W) → List Trans → Prop
  | _, [] => True
  | m, r :: l => Fit r ∧ (∀ vs, r.before = some vs → r.at m = words vs) ∧ Good (execAccs .v2 ram r.txn.accs m).2 l

/-- Content of the memory after transactions. -/
def run (m : W → W) (l : List Trans) : W → W := (execTxns .v2 ram (l.map Trans.txn) m).2

theorem run_cons (m : W → W) (r : Trans) (l : List Trans) : run m (r :: l) = run (execAccs .v2 ram r.txn.accs m).2 l := rfl

theorem good_append {m : W → W} {a b : List Trans} : Good m (a ++ b) ↔ Good m a ∧ Good (run m a) b := by
  induction a generalizing m with
  | nil => simp [Good, run, execTxns]
  | cons r a ih => simp only [List.cons_append, Good, ih, run_cons, and_assoc]

/-! ## Sequences -/

theorem randType_some {depth : Nat} {vs : List Nat} {g : Gen} : (randType depth (some vs) g).1 = .read ∨ (randType depth (some vs) g).1 = .write ∨
    (¬ 1 < depth ∧ ((randType depth (some vs) g).1 = .rmwbits ∨ (randType depth (some vs) g).1 = .rmwsum)) := by
  simp only [randType]
  split
  · simp only [randBlock]; split <;> simp
  · rename_i hd
    simp only [randSingle]
    split
    · simp
    · simp
    · exact Or.inr (Or.inr ⟨hd, Or.inl rfl⟩)
    · exact Or.inr (Or.inr ⟨hd, Or.inr rfl⟩)

theorem two {l : List Nat} (h : l.length = 2) : ∃ a b, l = [a, b] := by
  cases l with
  | nil => cases h
  | cons a l => obtain ⟨b, rfl⟩ := single (vs := l) (by simpa using h); exact ⟨a, b, rfl⟩

theorem subseq_ok {addr depth : Nat} (hp : (addr = 2 ∧ depth = 1) ∨ (addr = 0x1000 ∧ 2 ≤ depth ∧ depth ≤ 255)) (left : Nat) (acc : List Trans) (prev : Option (List Nat)) (g : Gen)
    (m : W → W) (hprev : ∀ vs, prev = some vs → vs.length = depth ∧ (∀ x ∈ vs, x < 2 ^ 32) ∧ (addrs true (BitVec.ofNat 32 addr) depth).map m = words vs) :
    ∃ l g', subseq addr depth left acc prev g = some (acc.reverse ++ l, g') ∧ l.length = left ∧ Good m l := by
  induction left generalizing acc prev g m with
  | zero => exact ⟨[], g, by simp [subseq], rfl, trivial⟩
  | succ left ih =>
    rw [subseq]
    generalize hty : randType depth prev g = ty
    generalize hps : randParams ty.1 depth ty.2 = ps
    have hid := randInt_range 1 0xfff ps.2 (by decide) (by decide)
    generalize randInt 1 0xfff ps.2 = id at hid ⊢
    have htyp : ty.1 = .write ∨ ∃ vs, prev = some vs ∧ (ty.1 = .read ∨ (depth = 1 ∧ (ty.1 = .rmwbits ∨ ty.1 = .rmwsum))) := by
      cases prev with
      | none => rw [← hty]; exact Or.inl rfl
      | some vs =>
        have := randType_some (depth := depth) (vs := vs) (g := g)
        rw [hty] at this
        rcases this with h | h | ⟨h1, h2⟩
        · exact Or.inr ⟨vs, rfl, Or.inl h⟩
        · exact Or.inl h
        · exact Or.inr ⟨vs, rfl, Or.inr ⟨by omega, h2⟩⟩
    have hw : ∀ n g, ((randWords n [] g).1.length = n ∧ ∀ x ∈ (randWords n [] g).1, x < 2 ^ 32) := by
      intro n g
      have := randWords_ok n [] g (by simp)
      simpa using this
    have fit : Fit ⟨ty.1, id.1 - 1, addr, depth, ps.1, prev⟩ := by
      refine ⟨by show id.1 - 1 < 4096; omega, hp, ?_, ?_, ?_, fun vs hv => ⟨(hprev vs hv).1, (hprev vs hv).2.1⟩⟩
      · rw [← hps]
        rcases htyp with h | ⟨vs, _, h | ⟨h1, h | h⟩⟩ <;> simp only [h, randParams]
        · exact (hw depth _).1
        · exact ⟨h1, two (hw 2 _).1⟩
        · exact ⟨h1, single (hw 1 _).1⟩
      · simp only
        rw [← hps]
        rcases htyp with h | ⟨vs, _, h | ⟨h1, h | h⟩⟩ <;> simp only [h, randParams]
        · exact (hw depth _).2
        · simp
        · exact (hw 2 _).2
        · exact (hw 1 _).2
      · intro hn
        rcases htyp with h | ⟨vs, h, _⟩
        · exact absurd h hn
        · exact ⟨vs, h⟩
    have hm : ∀ vs, prev = some vs → Trans.at ⟨ty.1, id.1 - 1, addr, depth, ps.1, prev⟩ m = words vs := fun vs hv => (hprev vs hv).2.2
    obtain ⟨_, vs, e1, e2, e3, e4⟩ := exec_ok fit hm
    simp only [e1]
    obtain ⟨l, g', h1, h2, h3⟩ := ih (⟨ty.1, id.1 - 1, addr, depth, ps.1, prev⟩ :: acc) (some vs) id.2 _ (by
      intro vs' hv'; cases hv'; exact ⟨e2, e3, e4⟩)
    exact ⟨_ :: l, g', by rw [h1]; simp, by simp [h2], fit, hm, h3⟩

theorem genSubseq_ok (g : Gen) : ∃ l g', genSubseq g = some (l, g') ∧ l ≠ [] ∧ ∀ m, Good m l := by
  have h1 := randInt_range 1 2 g (by decide) (by decide)
  simp only [genSubseq]
  generalize randInt 1 2 g = k at h1 ⊢
  have h2 := randInt_range 1 10 k.2 (by decide) (by decide)
  generalize randInt 1 10 k.2 = n at h2 ⊢
  have h3 := randInt_range 2 255 n.2 (by decide) (by decide)
  generalize randInt 2 255 n.2 = d at h3 ⊢
  by_cases hk : k.1 = 1
  · rw [if_pos hk]
    have key := fun m => subseq_ok (Or.inl ⟨rfl, rfl⟩) n.1 [] none n.2 m (by intro _ h; cases h)
    obtain ⟨l, g', e1, e2, _⟩ := key fun _ => 0
    refine ⟨l, g', by simpa using e1, by rintro rfl; simp at e2; omega, fun m => ?_⟩
    obtain ⟨l', g'', f1, _, f3⟩ := key m
    rw [e1] at f1
    simp only [List.reverse_nil, List.nil_append, Option.some.injEq, Prod.mk.injEq] at f1
    rw [f1.1]; exact f3
  · rw [if_neg hk]
    have key := fun m => subseq_ok (Or.inr ⟨rfl, h3⟩) n.1 [] none d.2 m (by intro _ h; cases h)
    obtain ⟨l, g', e1, e2, _⟩ := key fun _ => 0
    refine ⟨l, g', by simpa using e1, by rintro rfl; simp at e2; omega, fun m => ?_⟩
    obtain ⟨l', g'', f1, _, f3⟩ := key m
    rw [e1] at f1
    simp only [List.reverse_nil, List.nil_append, Option.some.injEq, Prod.mk.injEq] at f1
    rw [f1.1]; exact f3

theorem topUp_ok (target fuel : Nat) (acc : List Trans) (g : Gen) (hf : target ≤ acc.length + fuel) :
    ∃ l g', topUp target fuel acc g = some (acc ++ l, g') ∧ target ≤ (acc ++ l).length ∧ ∀ m, Good m acc → Good m (acc ++ l) := by
  induction fuel generalizing acc g with
  | zero => exact ⟨[], g, by simp [topUp], by simpa using hf, fun m h => by simpa using h⟩
  | succ fuel ih =>
    rw [topUp]
    split
    · obtain ⟨l, g', h1, h2, h3⟩ := genSubseq_ok g
      rw [h1]
      have hl : 1 ≤ l.length := by cases l with
        | nil => exact absurd rfl h2
        | cons _ _ => simp
      obtain ⟨l', g'', k1, k2, k3⟩ := ih (acc ++ l) g' (by rw [List.length_append]; omega)
      refine ⟨l ++ l', g'', by simpa [List.append_assoc] using k1, by simpa [List.append_assoc] using k2, fun m hm => ?_⟩
      have := k3 m (good_append.2 ⟨hm, h3 _⟩)
      rwa [List.append_assoc] at this
    · rename_i h
      exact ⟨[], g, by simp, by simp; omega, fun m h => by simpa using h⟩

/-! ## Packets -/

theorem bin32_be (x : Nat) : bin32 x = Spec.Hub.be 4 (BitVec.ofNat 32 x).toNat := by
  simp only [bin32, Spec.Hub.be, BitVec.toNat_ofNat, List.range, List.range.loop, List.reverse_cons, List.reverse_nil, List.nil_append, List.cons_append, List.map_cons,
    List.map_nil, List.cons.injEq, and_true]
  omega

theorem createBinary_octets (l : List Nat) : createBinary l = octets true (words l) := by
  induction l with
  | nil => rfl
  | cons x l ih =>
    simp only [createBinary, octets, words, List.flatMap_cons, List.map_cons, if_true] at ih ⊢
    rw [ih, bin32_be]

theorem createBinary_append (a b : List Nat) : createBinary (a ++ b) = createBinary a ++ createBinary b := by simp [createBinary]

theorem createBinary_length (l : List Nat) : (createBinary l).length = 4 * l.length := by
  induction l with
  | nil => rfl
  | cons x l ih => simp only [createBinary, List.flatMap_cons, List.length_append, List.length_cons] at ih ⊢; rw [ih]; simp [bin32]; omega

/-- Header of a transaction. -/
def Trans.hdr (r : Trans) (info : Nat) : Nat := 2 * 2 ^ 28 + r.id * 2 ^ 16 + r.txn.words * 2 ^ 8 + (wireCode .v2 r.txn.ty).getD 0 * 2 ^ 4 + info

/-- The request. -/
def Trans.reqN (r : Trans) : List Nat := r.hdr 15 :: r.addr :: r.params

/-- The response. -/
def Trans.resN (r : Trans) : List Nat := r.hdr 0 :: r.expects

theorem gen_ok {r : Trans} (h : Fit r) : genTrans r = some (createBinary r.reqN, createBinary r.resN) ∧ transSize r = some (4 * r.reqN.length, 4 * r.resN.length) ∧
    8 ≤ 4 * r.reqN.length ∧ 4 * r.reqN.length ≤ 1028 ∧ 4 * r.resN.length ≤ 1028 ∧ r.txn.words ≤ 255 := by
  obtain ⟨ty, id, addr, depth, params, before⟩ := r
  have hp := h.params
  have hk := h.known
  have hv := h.vals
  have hd := h.depth_pos
  have hid := h.id
  simp only at hp hk hv hd hid
  have ni : ∀ n, n ≤ 255 → ¬ (0xfff < id ∨ 0xff < n) := by intro n hn; omega
  cases ty with
  | read =>
    subst hp
    obtain ⟨vs, rfl⟩ := hk (by decide)
    obtain ⟨rfl, hv2⟩ := hv vs rfl
    simp only [genTrans, transSize, transBinary, Option.map_some, if_neg (ni _ hd.2), Trans.reqN, Trans.resN, Trans.hdr, Trans.txn, Txn.words, Txn.ty, Trans.expects, Option.getD_some,
      wireCode, if_true, List.length_cons, List.length_nil]
    refine ⟨trivial, ?_, ?_⟩
    · simp; omega
    · omega
  | write =>
    subst hp
    simp only [genTrans, transSize, transBinary, Option.map_some, if_neg (ni _ hd.2), Trans.reqN, Trans.resN, Trans.hdr, Trans.txn, Txn.words, Txn.ty, Trans.expects, Option.getD_some,
      wireCode, if_true, List.length_cons, List.length_nil, words, List.length_map]
    refine ⟨trivial, ?_, ?_⟩
    · simp; omega
    · omega
  | rmwbits =>
    obtain ⟨rfl, a, o, rfl⟩ := hp
    obtain ⟨vs, rfl⟩ := hk (by decide)
    obtain ⟨p, rfl⟩ := single (hv vs rfl).1
    have hi : ¬ 4095 < id := by omega
    simp [genTrans, transSize, transBinary, hi, Trans.reqN, Trans.resN, Trans.hdr, Trans.txn, Txn.words, Txn.ty, Trans.expects, Option.getD_some,
      wireCode]
  | rmwsum =>
    obtain ⟨rfl, a, rfl⟩ := hp
    obtain ⟨vs, rfl⟩ := hk (by decide)
    obtain ⟨p, rfl⟩ := single (hv vs rfl).1
    have hi : ¬ 4095 < id := by omega
    simp [genTrans, transSize, transBinary, hi, Trans.reqN, Trans.resN, Trans.hdr, Trans.txn, Txn.words, Txn.ty, Trans.expects, Option.getD_some,
      wireCode]

theorem field_ofNat (n s k : Nat) : field (BitVec.ofNat 32 n) s k = n % 2 ^ 32 / 2 ^ s % 2 ^ k := by simp [field]

theorem hdr_fields {id wc code : Nat} (h1 : id < 4096) (h2 : wc ≤ 255) (h3 : code < 16) :
    field (BitVec.ofNat 32 (2 * 2 ^ 28 + id * 2 ^ 16 + wc * 2 ^ 8 + code * 2 ^ 4 + 15)) 28 4 = 2 ∧
    field (BitVec.ofNat 32 (2 * 2 ^ 28 + id * 2 ^ 16 + wc * 2 ^ 8 + code * 2 ^ 4 + 15)) 0 4 = 15 ∧
    field (BitVec.ofNat 32 (2 * 2 ^ 28 + id * 2 ^ 16 + wc * 2 ^ 8 + code * 2 ^ 4 + 15)) 4 4 = code ∧
    field (BitVec.ofNat 32 (2 * 2 ^ 28 + id * 2 ^ 16 + wc * 2 ^ 8 + code * 2 ^ 4 + 15)) 8 8 = wc ∧
    field (BitVec.ofNat 32 (2 * 2 ^ 28 + id * 2 ^ 16 + wc * 2 ^ 8 + code * 2 ^ 4 + 15)) 16 12 = id := by
  simp only [field_ofNat]
  omega

theorem parse_one {r : Trans} (h : Fit r) (rest : List W) : parseTxn .v2 (words r.reqN ++ rest) = some (r.id, r.txn, rest) := by
  obtain ⟨-, -, -, -, -, hwc⟩ := gen_ok h
  obtain ⟨ty, id, addr, depth, params, before⟩ := r
  have hp := h.params
  have hk := h.known
  have hv := h.vals
  have hd := h.depth_pos
  have hid := h.id
  simp only at hp hk hv hd hid
  have t0 : tyOf .v2 0 = some .read := by decide
  have t1 : tyOf .v2 1 = some .write := by decide
  have t4 : tyOf .v2 4 = some .rmwBits := by decide
  have t5 : tyOf .v2 5 = some .rmwSum := by decide
  have key : ∀ (wc code : Nat) (t : List W), wc ≤ 255 → code < 16 →
      parseTxn .v2 (BitVec.ofNat 32 (2 * 2 ^ 28 + id * 2 ^ 16 + wc * 2 ^ 8 + code * 2 ^ 4 + 15) :: t) =
        match tyOf .v2 code with
        | none => none
        | some ty => (parseBody wc t ty).map fun p => (id, p.1, p.2) := by
    intro wc code t hw hc
    obtain ⟨f1, f2, f3, f4, f5⟩ := hdr_fields hid hw hc
    generalize BitVec.ofNat 32 (2 * 2 ^ 28 + id * 2 ^ 16 + wc * 2 ^ 8 + code * 2 ^ 4 + 15) = hw' at f1 f2 f3 f4 f5
    rw [parseTxn, if_pos (show field hw' 28 4 = verNibble .v2 ∧ field hw' 0 (tyLow .v2) = reqCode .v2 from ⟨f1, f2⟩)]
    simp only [tyLow, wcBits, idBits, Nat.reduceSub, f3, f4, f5]
    cases tyOf .v2 code <;> rfl
  cases ty with
  | read =>
    subst hp
    simp only [Trans.reqN, Trans.hdr, Trans.txn, Txn.words, Txn.ty, wireCode, if_true, Option.getD_some, words, List.map_cons, List.map_nil, List.cons_append, List.nil_append]
    rw [key depth 0 _ hd.2 (by decide), t0]
    rfl
  | write =>
    subst hp
    simp only [Trans.reqN, Trans.hdr, Trans.txn, Txn.words, Txn.ty, wireCode, if_true, Option.getD_some, words, List.map_cons, List.map_nil, List.cons_append, List.nil_append,
      List.length_map]
    rw [key params.length 1 _ hd.2 (by decide), t1]
    simp [parseBody]
  | rmwbits =>
    obtain ⟨rfl, a, o, rfl⟩ := hp
    simp only [Trans.reqN, Trans.hdr, Trans.txn, Txn.words, Txn.ty, wireCode, if_true, Option.getD_some, words, List.map_cons, List.map_nil, List.cons_append, List.nil_append]
    rw [key 1 4 _ (by decide) (by decide), t4]
    rfl
  | rmwsum =>
    obtain ⟨rfl, a, rfl⟩ := hp
    simp only [Trans.reqN, Trans.hdr, Trans.txn, Txn.words, Txn.ty, wireCode, if_true, Option.getD_some, words, List.map_cons, List.map_nil, List.cons_append, List.nil_append]
    rw [key 1 5 _ (by decide) (by decide), t5]
    rfl

theorem parse_all (l : List Trans) (h : ∀ r ∈ l, Fit r) (fuel : Nat) (hf : l.length ≤ fuel) :
    parseTxns .v2 fuel (words (l.flatMap Trans.reqN)) = some (l.map fun r => (r.id, r.txn)) := by
  induction l generalizing fuel with
  | nil => cases fuel <;> rfl
  | cons r l ih =>
    cases fuel with
    | zero => simp at hf
    | succ fuel =>
      have h1 := parse_one (h r (by simp)) (words (l.flatMap Trans.reqN))
      have e : words ((r :: l).flatMap Trans.reqN) = BitVec.ofNat 32 (r.hdr 15) :: (words (r.addr :: r.params) ++ words (l.flatMap Trans.reqN)) := by
        simp [words, Trans.reqN]
      have e' : words r.reqN ++ words (l.flatMap Trans.reqN) = BitVec.ofNat 32 (r.hdr 15) :: (words (r.addr :: r.params) ++ words (l.flatMap Trans.reqN)) := by
        simp [words, Trans.reqN]
      rw [e', ] at h1
      rw [e, parseTxns, h1]
      simp only [ih (fun x hx => h x (by simp [hx])) fuel (by simpa using hf), Option.map_some, List.map_cons]

theorem fits {m : W → W} {l : List Trans} (h : Good m l) : ∀ r ∈ l, Fit r := by
  induction l generalizing m with
  | nil => simp
  | cons r l ih =>
    intro x hx
    rcases List.mem_cons.1 hx with rfl | hx
    · exact h.1
    · exact ih h.2.2 x hx

theorem some_after {m : W → W} {l : List Trans} (h : Good m l) : ∀ r ∈ l, (regValuesAfter r).isSome = true := by
  induction l generalizing m with
  | nil => simp
  | cons r l ih =>
    intro x hx
    rcases List.mem_cons.1 hx with rfl | hx
    · obtain ⟨_, vs, e, _⟩ := exec_ok h.1 h.2.1
      rw [e]; rfl
    · exact ih h.2.2 x hx

theorem reply_ok {m : W → W} {l : List Trans} (h : Good m l) :
    words (l.flatMap Trans.resN) = replyTo (l.map fun r => (r.id, r.txn)) (execTxns .v2 ram ((l.map fun r => (r.id, r.txn)).map Prod.snd) m).1 := by
  induction l generalizing m with
  | nil => rfl
  | cons r l ih =>
    have e := (exec_ok h.1 h.2.1).1
    have := ih h.2.2
    simp only [replyTo, List.map_cons, execTxns, List.zipWith_cons_cons, List.flatten_cons] at this ⊢
    rw [← this, e]
    simp [words, Trans.resN, Trans.hdr, replyHeader]

theorem flat_length {f : Trans → List Nat} (l : List Trans) (h : ∀ r ∈ l, 2 ≤ (f r).length) : 2 * l.length ≤ (l.flatMap f).length := by
  induction l with
  | nil => simp
  | cons r l ih =>
    have := h r (by simp)
    have := ih fun x hx => h x (by simp [hx])
    simp only [List.flatMap_cons, List.length_append, List.length_cons]; omega

theorem pktFrom_ok (target : Nat) (l : List Trans) (hl : ∀ r ∈ l, Fit r) (req res : List Nat) (inside : List Trans) (h1 : 4 * req.length ≤ 1472) (h2 : 4 * res.length ≤ 1472)
    (h3 : 1472 < 4 * req.length + 8 * l.length) :
    ∃ a b, l = a ++ b ∧ pktFrom target l (createBinary req) (createBinary res) inside =
        some ⟨createBinary (req ++ a.flatMap Trans.reqN), createBinary (res ++ a.flatMap Trans.resN), inside.reverse ++ a, b⟩ ∧
      4 * (req ++ a.flatMap Trans.reqN).length ≤ 1472 ∧ 4 * (res ++ a.flatMap Trans.resN).length ≤ 1472 ∧
      (4 * req.length < target → 4 * res.length < target → 4 * req.length ≤ 444 → 4 * res.length ≤ 444 → a ≠ []) := by
  induction l generalizing req res inside with
  | nil => simp at h3; omega
  | cons r l ih =>
    obtain ⟨g1, g2, g3, g4, g5, -⟩ := gen_ok (hl r (by simp))
    simp only [pktFrom, g2, createBinary_length]
    split
    · rename_i hc
      refine ⟨[], r :: l, rfl, by simp, by simpa using h1, by simpa using h2, fun k1 k2 k3 k4 => ?_⟩
      simp only [maxPkt] at hc
      omega
    · rename_i hc
      simp only [maxPkt] at hc
      simp only [g1, ← createBinary_append]
      obtain ⟨a, b, e1, e2, e3, e4, _⟩ := ih (fun x hx => hl x (by simp [hx])) (req ++ r.reqN) (res ++ r.resN) (r :: inside)
        (by rw [List.length_append]; omega) (by rw [List.length_append]; omega) (by rw [List.length_append]; rw [List.length_cons] at h3; omega)
      refine ⟨r :: a, b, by rw [e1]; rfl, ?_, ?_, ?_, fun _ _ _ _ => by simp⟩
      · rw [e2]; simp [List.append_assoc]
      · simpa [List.append_assoc] using e3
      · simpa [List.append_assoc] using e4

theorem tested_of {r : Trans} (h : Fit r) : r.txn.tested := by
  have hd := h.depth_pos
  have reg : ∀ a ∈ addrs true (BitVec.ofNat 32 r.addr) r.depth, Tested a := by
    intro a ha
    simp only [addrs, List.mem_map, List.mem_range, if_true] at ha
    obtain ⟨i, hi, rfl⟩ := ha
    rcases h.place with ⟨p1, p2⟩ | ⟨p1, p2, p3⟩
    · left
      have : i = 0 := by omega
      subst this
      rw [p1]; rfl
    · right
      rw [p1, InRegion]
      have e : (BitVec.ofNat 32 0x1000 + BitVec.ofNat 32 i - 0x1000 : W).toNat = i := by
        have : (BitVec.ofNat 32 0x1000 + BitVec.ofNat 32 i - 0x1000 : W) = BitVec.ofNat 32 i := by rw [BitVec.add_comm]; exact BitVec.add_sub_cancel _ _
        rw [this, BitVec.toNat_ofNat, Nat.mod_eq_of_lt (by omega)]
      rw [e]
      show i < 255
      omega
  have one : r.depth = 1 → Tested (BitVec.ofNat 32 r.addr) := by
    intro h1
    exact reg _ (by rw [h1, addrs_one]; simp)
  have hp := h.params
  obtain ⟨ty, id, addr, depth, params, before⟩ := r
  simp only at hp reg one
  intro x hx
  cases ty with
  | read =>
    simp only [Trans.txn, Txn.accs, List.mem_map] at hx
    obtain ⟨a, ha, rfl⟩ := hx
    exact reg a ha
  | write =>
    simp only [Trans.txn, Txn.accs] at hx
    simp only at hp
    obtain ⟨a, d, ha, hd, rfl⟩ : ∃ a d, a ∈ addrs true (BitVec.ofNat 32 addr) depth ∧ d ∈ words params ∧ x = .wr a d := by
      rw [← hp]
      have e : (words params).length = params.length := by simp [words]
      rw [e] at hx
      generalize addrs true (BitVec.ofNat 32 addr) params.length = as at hx ⊢
      generalize words params = ps at hx
      induction as generalizing ps with
      | nil => simp at hx
      | cons a as ih => cases ps with
        | nil => simp at hx
        | cons d ds =>
          rw [List.zipWith_cons_cons] at hx
          rcases List.mem_cons.1 hx with h | h
          · exact ⟨a, d, by simp, by simp, h⟩
          · obtain ⟨a', d', q1, q2, q3⟩ := ih ds h
            exact ⟨a', d', by simp [q1], by simp [q2], q3⟩
    exact reg a ha
  | rmwbits =>
    obtain ⟨h1, a, o, rfl⟩ := hp
    simp only [Trans.txn, Txn.accs, List.mem_singleton] at hx
    subst hx
    exact one h1
  | rmwsum =>
    obtain ⟨h1, a, rfl⟩ := hp
    simp only [Trans.txn, Txn.accs, List.mem_singleton] at hx
    subst hx
    exact one h1

/-- The packet made from the head of the transactions. -/
theorem packet_ok {m : W → W} {l : List Trans} (hg : Good m l) (hl : 400 ≤ l.length) {target pid : Nat} (ht : 8 ≤ target) (hp : pid < 65536) :
    ∃ (p : Pkt) (ws : List W) (txns : List (Nat × Txn)), pktFromHead pid target l = some p ∧ p.req = octets true ws ∧ parsePacket .v2 ws = some (pid, txns) ∧ txns ≠ [] ∧
      (∀ x ∈ txns, x.2.tested) ∧ p.res = answer ws txns ram m ∧ p.req.length ≤ 1472 ∧ p.res.length ≤ 1472 ∧ Good (execTxns .v2 ram (txns.map Prod.snd) m).2 p.rem ∧
      ∀ r ∈ p.inside, (regValuesAfter r).isSome = true := by
  have hone : ∀ x, bin32 x = createBinary [x] := by intro x; simp [createBinary]
  obtain ⟨a, b, e1, e2, e3, e4, e5⟩ := pktFrom_ok target l (fits hg) [2 * 2 ^ 28 + pid * 2 ^ 8 + 15 * 2 ^ 4] [2 * 2 ^ 28 + pid * 2 ^ 8 + 15 * 2 ^ 4] [] (by simp) (by simp) (by simp; omega)
  have ha := e5 (by simp; omega) (by simp; omega) (by simp) (by simp)
  rw [e1] at hg
  obtain ⟨ga, gb⟩ := good_append.1 hg
  refine ⟨_, words ((2 * 2 ^ 28 + pid * 2 ^ 8 + 15 * 2 ^ 4) :: a.flatMap Trans.reqN), a.map fun r => (r.id, r.txn),
    by rw [pktFromHead, pktHeader, hone]; exact e2, createBinary_octets _, ?_, by simpa using ha, ?_, ?_, ?_, ?_, ?_, ?_⟩
  · have hf : field (BitVec.ofNat 32 (2 * 2 ^ 28 + pid * 2 ^ 8 + 15 * 2 ^ 4)) 28 4 = 2 ∧ field (BitVec.ofNat 32 (2 * 2 ^ 28 + pid * 2 ^ 8 + 15 * 2 ^ 4)) 24 4 = 0 ∧
        field (BitVec.ofNat 32 (2 * 2 ^ 28 + pid * 2 ^ 8 + 15 * 2 ^ 4)) 4 4 = 15 ∧ field (BitVec.ofNat 32 (2 * 2 ^ 28 + pid * 2 ^ 8 + 15 * 2 ^ 4)) 0 4 = 0 := by
      simp only [field_ofNat]; omega
    have hi : field (BitVec.ofNat 32 (2 * 2 ^ 28 + pid * 2 ^ 8 + 15 * 2 ^ 4)) 8 16 = pid := by simp only [field_ofNat]; omega
    simp only [words, List.map_cons, parsePacket]
    rw [if_pos hf, parse_all a (fits ga) _ (by
      have := flat_length (f := Trans.reqN) a (by intro r _; simp [Trans.reqN])
      rw [List.length_map]; omega), hi]
    rfl
  · intro x hx
    simp only [List.mem_map] at hx
    obtain ⟨r, hr, rfl⟩ := hx
    exact tested_of (fits ga r hr)
  · show createBinary _ = _
    rw [createBinary_octets, answer, ← reply_ok ga]
    simp [words]
  · show (createBinary _).length ≤ _
    rw [createBinary_length]; exact e3
  · show (createBinary _).length ≤ _
    rw [createBinary_length]; exact e4
  · rw [List.map_map]; exact gb
  · intro r hr
    exact some_after ga r (by simpa using hr)

end Verif.TgtTest
