import Verif.Props.C16
import Verif.Model.Node
/-!
# C34: access permissions of nodes; C35: block accesses stay inside the declared block
-/

set_option autoImplicit false

namespace Verif
open Spec

namespace Spec

/-- The address of a word access. -/
def Acc.addr : Acc → W
  | .rd a => a | .wr a _ => a | .bits a _ _ => a | .sum a _ => a | .cfg a => a

/-- The access obtains the register's content. -/
def Acc.reads : Acc → Bool
  | .wr .. => false
  | _ => true

/-- The access changes the register. -/
def Acc.writes : Acc → Bool
  | .rd _ => false | .cfg _ => false
  | _ => true

/-- The field of a register selected by a mask. -/
def fieldOf (m x : W) : W := (x &&& m) >>> (lowBit m).getD 0

/-- The value fits the mask when shifted to its lowest bit `k`. -/
def FitsMask (m d : W) (k : Nat) : Prop :=
  d.toNat * 2 ^ k < 2 ^ 32 ∧ ∀ i, i < 32 → d.getLsbD i = true → m.getLsbD (k + i) = true

instance (m d : W) (k : Nat) : Decidable (FitsMask m d k) := by unfold FitsMask; infer_instance

end Spec

/-- The calls that read / write. -/
def NodeCall.isWrite : NodeCall → Bool
  | .write _ => true | .writeBlock _ => true | .writeBlockOffset .. => true
  | _ => false

/-- Offset and number of words of a block call. -/
def NodeCall.span : NodeCall → Option (Nat × Nat)
  | .writeBlock vs => some (0, vs.length)
  | .writeBlockOffset vs off => some (off.toNat, vs.length)
  | .readBlock n => some (0, n.toNat)
  | .readBlockOffset n off => some (off.toNat, n.toNat)
  | _ => none

theorem lowBit_full : lowBit 0xFFFFFFFF#32 = some 0 := by decide +kernel

/-- **C34** (refusals): without the permission the call throws, and nothing is passed to the client: whatever its
state, it stays as it is. -/
theorem C34_denied (d : NodeData) (call : NodeCall)
    (h : (call.isWrite = true ∧ d.perm.canWrite = false) ∨ (call.isWrite = false ∧ d.perm.canRead = false) ∨
      (∃ v, call = .write v) ∧ d.mask ≠ 0xFFFFFFFF#32 ∧ d.perm.canRead = false) :
    ∃ e, d.access call = .throws e ∧ ∀ (τ : Type) (c : Cfg) (T : Transport τ) (s : St τ), d.run call c T s = .inl e := by
  suffices ∃ e, d.access call = .throws e by
    obtain ⟨e, he⟩ := this
    exact ⟨e, he, fun τ c T s => by rw [NodeData.run, he]⟩
  rcases h with ⟨h1, h2⟩ | ⟨h1, h2⟩ | ⟨⟨v, rfl⟩, h1, h2⟩
  · cases call <;> simp [NodeCall.isWrite] at h1 <;> simp only [NodeData.access, h2] <;> (repeat' split) <;> simp_all
  · cases call <;> simp [NodeCall.isWrite] at h1 <;> simp only [NodeData.access, h2] <;> (repeat' split) <;> simp_all
  · simp only [NodeData.access, h2]; (repeat' split) <;> simp_all

/-- **C34** (what gets through): every word access that a call leads to is covered by the permissions. -/
theorem C34_permitted (d : NodeData) (call : NodeCall) (op : Op) (v : Ver) (accs : List Acc) (h : d.access call = .call op)
    (ho : opAccs v op = some accs) (a : Acc) (ha : a ∈ accs) :
    (a.reads = true → d.perm.canRead = true) ∧ (a.writes = true → d.perm.canWrite = true) := by
  cases call with
  | write x =>
    simp only [NodeData.access] at h
    by_cases hw : d.perm.canWrite = true
    · rw [if_pos hw] at h
      refine ⟨?_, fun _ => hw⟩
      split at h
      · cases h; simp only [opAccs, Option.some.injEq] at ho; subst ho
        simp only [List.mem_singleton] at ha; subst ha; simp [Acc.reads]
      · split at h
        · rename_i h2; exact fun _ => h2
        · cases h
    · rw [if_neg hw] at h; cases h
  | writeBlock vs =>
    simp only [NodeData.access] at h
    repeat' split at h
    all_goals first
      | (cases h; done)
      | (cases h
         rename_i hw
         refine ⟨?_, fun _ => hw⟩
         simp only [opAccs, Option.some.injEq] at ho; subst ho
         rw [List.mem_iff_getElem] at ha
         obtain ⟨i, hi, rfl⟩ := ha
         simp [Acc.reads])
  | writeBlockOffset vs off =>
    simp only [NodeData.access] at h
    repeat' split at h
    all_goals first
      | (cases h; done)
      | (cases h
         rename_i hw
         refine ⟨?_, fun _ => hw⟩
         simp only [opAccs, Option.some.injEq] at ho; subst ho
         rw [List.mem_iff_getElem] at ha
         obtain ⟨i, hi, rfl⟩ := ha
         simp [Acc.reads])
  | read =>
    simp only [NodeData.access] at h
    by_cases hr : d.perm.canRead = true
    · rw [if_pos hr] at h
      refine ⟨fun _ => hr, ?_⟩
      split at h <;> cases h <;> simp only [opAccs, Option.some.injEq] at ho <;> subst ho <;>
        simp only [List.mem_singleton] at ha <;> subst ha <;> simp [Acc.writes]
    · rw [if_neg hr] at h; cases h
  | readBlock n =>
    simp only [NodeData.access] at h
    repeat' split at h
    all_goals first
      | (cases h; done)
      | (cases h
         rename_i hw
         refine ⟨fun _ => hw, ?_⟩
         simp only [opAccs, Option.some.injEq] at ho; subst ho
         obtain ⟨x, _, rfl⟩ := List.mem_map.1 ha
         simp [Acc.writes])
  | readBlockOffset n off =>
    simp only [NodeData.access] at h
    repeat' split at h
    all_goals first
      | (cases h; done)
      | (cases h
         rename_i hw
         refine ⟨fun _ => hw, ?_⟩
         simp only [opAccs, Option.some.injEq] at ho; subst ho
         obtain ⟨x, _, rfl⟩ := List.mem_map.1 ha
         simp [Acc.writes])

/-- **C34** (reads): with read permission, `read()` is one read of the node's address, and the user is shown the
field selected by the node's mask. -/
theorem C34_read (d : NodeData) (v : Ver) (h : d.perm.canRead = true) :
    ∃ op, d.access .read = .call op ∧ opAccs v op = some [.rd d.addr] ∧ ∀ x, opShow op [x] = [fieldOf d.mask x] := by
  simp only [NodeData.access, h, if_true]
  by_cases hm : d.mask = 0xFFFFFFFF#32
  · rw [if_pos hm]
    refine ⟨_, rfl, rfl, fun x => ?_⟩
    rw [hm, fieldOf, lowBit_full]
    simp only [opShow, Option.getD_some, BitVec.ushiftRight_zero]
    rw [show (0xFFFFFFFF#32 : W) = BitVec.allOnes 32 from rfl, BitVec.and_allOnes]
  · rw [if_neg hm]
    exact ⟨_, rfl, rfl, fun x => rfl⟩

/-- **C34** (writes): with the permissions that it needs, `write(x)` on an unmasked node is one write of the node's
address; on a masked node it is refused unless the value fits the mask, and otherwise one read-modify-write that
keeps the bits outside the mask. -/
theorem C34_write (d : NodeData) (x : W) (v : Ver) (hw : d.perm.canWrite = true) :
    (d.mask = 0xFFFFFFFF#32 → ∃ op, d.access (.write x) = .call op ∧ opAccs v op = some [.wr d.addr x]) ∧
    (d.mask ≠ 0xFFFFFFFF#32 → d.perm.canRead = true → ∃ op, d.access (.write x) = .call op ∧
      (∀ k, lowBit d.mask = some k → FitsMask d.mask x k →
        opAccs v op = some [.bits d.addr (~~~d.mask) (BitVec.ofNat 32 (x.toNat * 2 ^ k))]) ∧
      ((∀ k, lowBit d.mask = some k → ¬ FitsMask d.mask x k) → opAccs v op = none)) := by
  constructor
  · intro hm
    simp only [NodeData.access, hw, hm, if_true]
    exact ⟨_, rfl, rfl⟩
  · intro hm hr
    simp only [NodeData.access, hw, hr, if_true, if_neg hm]
    refine ⟨_, rfl, ?_, ?_⟩
    · intro k hk hf
      simp only [opAccs, hk]
      exact if_pos hf
    · intro hf
      simp only [opAccs]
      cases hk : lowBit d.mask with
      | none => rfl
      | some k => exact if_neg (hf k hk)

/-- The bits that a masked write puts into the register are bits of the mask. -/
theorem C34_inside_mask (m x : W) (k : Nat) (hk : lowBit m = some k) (hf : FitsMask m x k) :
    BitVec.ofNat 32 (x.toNat * 2 ^ k) &&& ~~~m = 0#32 := by
  have hk32 : k < 32 := by
    have := List.mem_of_find?_eq_some hk; simpa using this
  apply BitVec.eq_of_getLsbD_eq
  intro i hi
  rw [BitVec.getLsbD_and, BitVec.getLsbD_not, BitVec.getLsbD_zero]
  by_cases hb : (BitVec.ofNat 32 (x.toNat * 2 ^ k)).getLsbD i = true
  · rw [hb]
    have : x.toNat * 2 ^ k = x.toNat <<< k := by rw [Nat.shiftLeft_eq]
    rw [this, BitVec.getLsbD_ofNat, Nat.testBit_shiftLeft] at hb
    simp only [hi, decide_true, Bool.true_and, Bool.and_eq_true, decide_eq_true_eq, ge_iff_le] at hb
    have h2 := hf.2 (i - k) (by omega) hb.2
    rw [show k + (i - k) = i by omega] at h2
    simp [h2]
  · rw [Bool.not_eq_true] at hb; rw [hb]; simp

/-! ## Block accesses -/

/-- The sums computed for a block call do not wrap (32 bits for reads, 64 for writes). -/
def NodeCall.NoWrap : NodeCall → Prop
  | .writeBlockOffset vs off => vs.length + off.toNat < 2 ^ 64
  | .readBlockOffset n off => n.toNat + off.toNat < 2 ^ 32
  | _ => True

/-- The code does not apply the size to calls without offset if it is 1 (the default for nodes without size). -/
def NodeCall.Limited (d : NodeData) : NodeCall → Prop
  | .writeBlock vs => d.size = 1#32 → vs.length ≤ 1
  | .readBlock n => d.size = 1#32 → n.toNat ≤ 1
  | _ => True

/-- **C35**, with two hypotheses that the code needs: a block call that is not refused is inside the declared
block, and each of its word accesses goes to the address of the block plus an index below the size (for FIFOs and other
non-incremental nodes: to the address itself). -/
theorem C35_inside_partial (d : NodeData) (call : NodeCall) (op : Op) (o l : Nat) (hs : call.span = some (o, l))
    (hn : call.NoWrap) (hl : call.Limited d) (h : d.access call = .call op) :
    o + l ≤ d.size.toNat ∧ ∃ inc, (inc = true ↔ d.mode = .incremental) ∧
      ∀ v accs, opAccs v op = some accs → accs.map Acc.addr = addrs inc (d.addr + BitVec.ofNat 32 o) l ∧
        ∀ a ∈ accs, ∃ i, i < d.size.toNat ∧ a.addr = d.addr + BitVec.ofNat 32 i := by
  have hinc : d.mode.inc = true ↔ d.mode = .incremental := by cases d.mode <;> simp [Mode.inc]
  have main : ∀ (inc : Bool) (accs : List Acc), o + l ≤ d.size.toNat → accs.map Acc.addr = addrs inc (d.addr + BitVec.ofNat 32 o) l →
      ∀ a ∈ accs, ∃ i, i < d.size.toNat ∧ a.addr = d.addr + BitVec.ofNat 32 i := by
    intro inc accs hle hm a ha
    have : a.addr ∈ addrs inc (d.addr + BitVec.ofNat 32 o) l := hm ▸ List.mem_map_of_mem ha
    rw [addrs, List.mem_map] at this
    obtain ⟨i, hi, he⟩ := this
    rw [List.mem_range] at hi
    cases inc with
    | true =>
      refine ⟨o + i, by omega, ?_⟩
      rw [← he, if_pos rfl, BitVec.ofNat_add, BitVec.add_assoc]
    | false => exact ⟨o, by omega, by rw [← he]; simp⟩
  have hwr : ∀ (inc : Bool) (a : W) (vs : List W), (List.zipWith Acc.wr (addrs inc a vs.length) vs).map Acc.addr = addrs inc a vs.length := by
    intro inc a vs
    apply List.ext_getElem
    · simp [addrs]
    · intro i h1 h2; simp [Acc.addr]
  have hrd : ∀ (l : List W), (l.map Acc.rd).map Acc.addr = l := by
    intro l; induction l with
    | nil => rfl
    | cons x xs ih => simp only [List.map_cons, ih, Acc.addr]
  have fin : ∀ (op' : Op), op = op' → o + l ≤ d.size.toNat →
      (∀ v accs, opAccs v op' = some accs → accs.map Acc.addr = addrs d.mode.inc (d.addr + BitVec.ofNat 32 o) l) →
      o + l ≤ d.size.toNat ∧ ∃ inc, (inc = true ↔ d.mode = .incremental) ∧
      ∀ v accs, opAccs v op = some accs → accs.map Acc.addr = addrs inc (d.addr + BitVec.ofNat 32 o) l ∧
        ∀ a ∈ accs, ∃ i, i < d.size.toNat ∧ a.addr = d.addr + BitVec.ofNat 32 i := by
    intro op' e hle hm
    subst e
    exact ⟨hle, d.mode.inc, hinc, fun v accs ho => ⟨hm v accs ho, main _ accs hle (hm v accs ho)⟩⟩
  cases call with
  | write x => simp [NodeCall.span] at hs
  | read => simp [NodeCall.span] at hs
  | writeBlock vs =>
    simp only [NodeCall.span, Option.some.injEq, Prod.mk.injEq] at hs
    obtain ⟨rfl, rfl⟩ := hs
    simp only [NodeData.access] at h
    split at h
    · cases h
    split at h
    · cases h
    split at h
    · rename_i h1 h2 h3
      cases h
      refine fin _ rfl ?_ ?_
      · by_cases e : d.size = 1#32
        · have := hl e; rw [e]; simpa using this
        · have : ¬ vs.length > d.size.toNat := fun h => h2 ⟨e, h⟩
          omega
      · intro v accs ho; simp only [opAccs, Option.some.injEq] at ho; subst ho; rw [hwr]; simp
    · cases h
  | writeBlockOffset vs off =>
    simp only [NodeCall.span, Option.some.injEq, Prod.mk.injEq] at hs
    obtain ⟨rfl, rfl⟩ := hs
    simp only [NodeCall.NoWrap] at hn
    simp only [NodeData.access, Nat.mod_eq_of_lt hn] at h
    split at h
    · cases h
    split at h
    · cases h
    split at h
    · cases h
    split at h
    · rename_i h1 h2 h3 h4
      cases h
      refine fin _ rfl (by omega) ?_
      intro v accs ho; simp only [opAccs, Option.some.injEq] at ho; subst ho; rw [hwr]; simp
    · cases h
  | readBlock n =>
    simp only [NodeCall.span, Option.some.injEq, Prod.mk.injEq] at hs
    obtain ⟨rfl, rfl⟩ := hs
    simp only [NodeData.access] at h
    split at h
    · cases h
    split at h
    · cases h
    split at h
    · rename_i h1 h2 h3
      cases h
      refine fin _ rfl ?_ ?_
      · by_cases e : d.size = 1#32
        · have := hl e; rw [e]; simpa using this
        · have : ¬ n.toNat > d.size.toNat := fun h => h2 ⟨e, h⟩
          omega
      · intro v accs ho; simp only [opAccs, Option.some.injEq] at ho; subst ho; rw [hrd]; simp
    · cases h
  | readBlockOffset n off =>
    simp only [NodeCall.span, Option.some.injEq, Prod.mk.injEq] at hs
    obtain ⟨rfl, rfl⟩ := hs
    simp only [NodeCall.NoWrap] at hn
    have e : (n + off).toNat = n.toNat + off.toNat := by rw [BitVec.toNat_add, Nat.mod_eq_of_lt hn]
    simp only [NodeData.access, e] at h
    split at h
    · cases h
    split at h
    · cases h
    split at h
    · cases h
    split at h
    · rename_i h1 h2 h3 h4
      cases h
      refine fin _ rfl (by omega) ?_
      intro v accs ho; simp only [opAccs, Option.some.injEq] at ho; subst ho; rw [hrd]; simp
    · cases h

/-- **C35** (refusals): a request that reaches beyond the block throws and leaves the client alone. -/
theorem C35_refused_partial (d : NodeData) (call : NodeCall) (o l : Nat) (hs : call.span = some (o, l)) (hn : call.NoWrap)
    (hl : call.Limited d) (hout : d.size.toNat < o + l) :
    ∃ e, ∀ (τ : Type) (c : Cfg) (T : Transport τ) (s : St τ), d.run call c T s = .inl e := by
  cases h : d.access call with
  | throws e => exact ⟨e, fun τ c T s => by rw [NodeData.run, h]⟩
  | call op =>
    have := (C35_inside_partial d call op o l hs hn hl h).1
    omega

/-- **C35** (requests inside the block are served): with the permission, on an incremental node. -/
theorem C35_served (d : NodeData) (call : NodeCall) (o l : Nat) (hs : call.span = some (o, l)) (hm : d.mode = .incremental)
    (hr : call.isWrite = false → d.perm.canRead = true) (hw : call.isWrite = true → d.perm.canWrite = true)
    (hin : o + l ≤ d.size.toNat) : ∃ op, d.access call = .call op := by
  have hz := d.size.isLt
  cases call with
  | write x => simp [NodeCall.span] at hs
  | read => simp [NodeCall.span] at hs
  | writeBlock vs =>
    simp only [NodeCall.span, Option.some.injEq, Prod.mk.injEq] at hs
    obtain ⟨rfl, rfl⟩ := hs
    simp only [NodeData.access]
    rw [if_neg (by simp [hm]), if_neg (by omega), if_pos (hw rfl)]
    exact ⟨_, rfl⟩
  | writeBlockOffset vs off =>
    simp only [NodeCall.span, Option.some.injEq, Prod.mk.injEq] at hs
    obtain ⟨rfl, rfl⟩ := hs
    simp only [NodeData.access]
    rw [if_neg (by simp [hm]), if_neg (by simp [hm]), if_neg (by omega), if_pos (hw rfl)]
    exact ⟨_, rfl⟩
  | readBlock n =>
    simp only [NodeCall.span, Option.some.injEq, Prod.mk.injEq] at hs
    obtain ⟨rfl, rfl⟩ := hs
    simp only [NodeData.access]
    rw [if_neg (by simp [hm]), if_neg (by omega), if_pos (hr rfl)]
    exact ⟨_, rfl⟩
  | readBlockOffset n off =>
    simp only [NodeCall.span, Option.some.injEq, Prod.mk.injEq] at hs
    obtain ⟨rfl, rfl⟩ := hs
    have e : (n + off).toNat = n.toNat + off.toNat := by rw [BitVec.toNat_add, Nat.mod_eq_of_lt (by omega)]
    simp only [NodeData.access, e]
    rw [if_neg (by simp [hm]), if_neg (by simp [hm]), if_neg (by omega), if_pos (hr rfl)]
    exact ⟨_, rfl⟩

/-- A node on a single register does not accept offsets, nor blocks other than one word. -/
theorem C35_single (d : NodeData) (call : NodeCall) (o l : Nat) (hs : call.span = some (o, l)) (hm : d.mode = .single)
    (op : Op) (h : d.access call = .call op) : o = 0 ∧ l = 1 := by
  cases call <;> simp only [NodeCall.span, Option.some.injEq, Prod.mk.injEq, reduceCtorEq] at hs
  all_goals obtain ⟨rfl, rfl⟩ := hs
  all_goals simp only [NodeData.access, hm] at h
  · split at h
    · cases h
    · rename_i hh; simp at hh; exact ⟨rfl, hh⟩
  · simp at h
  · split at h
    · cases h
    · rename_i hh; simp at hh; rw [hh]; simp
  · simp at h

/-! ## Where the code does not do what it should -/

/-- **C34** is violated by block calls of one word on bit-fields: the mask is ignored. Here the node is write-only with
mask `0xF`; `write(3)` is refused, `writeBlock({3})` overwrites the whole register. -/
theorem C34_violated_block : ∃ (d : NodeData) (op : Op), d.mode = .single ∧ d.mask = 0xF#32 ∧ d.perm = .write ∧
    d.access (.write 3) = .throws .writeAccessDenied ∧ d.access (.writeBlock [3]) = .call op ∧
    ∀ v, opAccs v op = some [.wr d.addr 3] :=
  ⟨{ mode := .single, mask := 0xF#32, perm := .write, addr := 5#32 }, _, rfl, rfl, rfl, by decide, rfl, fun v => rfl⟩

/-- The same for reading: the value shown is not the field. -/
theorem C34_violated_block_read : ∃ (d : NodeData) (op : Op) (x : W), d.mode = .single ∧ d.mask = 0xF0#32 ∧
    d.access (.readBlock 1) = .call op ∧ opShow op [x] ≠ [fieldOf d.mask x] :=
  ⟨{ mode := .single, mask := 0xF0#32, addr := 5#32 }, _, 0xAB#32, rfl, rfl, rfl, by decide +kernel⟩

/-- **C35** is violated by `readBlockOffset`: size plus offset wraps around at 32 bits, and the read begins outside
the block (offset 0xFFFFFFFF, two words, of a block of 4: the word in front of the block). -/
theorem C35_violated_wrap : ∃ (d : NodeData) (op : Op), d.mode = .incremental ∧ d.size = 4#32 ∧ d.addr = 0x100#32 ∧
    d.access (.readBlockOffset 2 0xFFFFFFFF) = .call op ∧ ∀ v, opAccs v op = some [.rd 0xFF, .rd 0x100] :=
  ⟨{ mode := .incremental, size := 4#32, addr := 0x100#32 }, _, rfl, rfl, rfl, rfl, fun v => by cases v <;> decide +kernel⟩

/-- **C35** is violated by blocks declared with size 1: the size is not applied. -/
theorem C35_violated_one : ∃ (d : NodeData) (op : Op), d.mode = .incremental ∧ d.size = 1#32 ∧ d.addr = 0x100#32 ∧
    d.access (.writeBlock [7, 8]) = .call op ∧ ∀ v, opAccs v op = some [.wr 0x100 7, .wr 0x101 8] :=
  ⟨{ mode := .incremental, size := 1#32, addr := 0x100#32 }, _, rfl, rfl, rfl, rfl, fun v => by cases v <;> decide +kernel⟩

/-! ## Programs of node calls -/

section
variable {σ ρ : Type} {c : Cfg} {tg : Target σ} {mem : ρ → σ} {resp : ρ → List W → Option (List W) × ρ}

/-- A program of calls on nodes, exceptions caught. -/
def runNodes {τ : Type} (c : Cfg) (T : Transport τ) : List (NodeData × NodeCall) → St τ → Option (List (NodeExc ⊕ Res) × St τ)
  | [], s => some ([], s)
  | (d, call) :: rest, s =>
    match d.run call c T s with
    | .inl e => (runNodes c T rest s).map fun p => (.inl e :: p.1, p.2)
    | .inr (.ok h s') => (runNodes c T rest s').map fun p => (.inr (.ok h) :: p.1, p.2)
    | .inr (.exc e s') => (runNodes c T rest s').map fun p => (.inr (.exc e) :: p.1, p.2)
    | .inr .ub => none
    | .inr .loops => none

/-- The client calls of a program of node calls. -/
def nodeOps (prog : List (NodeData × NodeCall)) : List Op :=
  prog.filterMap fun p => match p.1.access p.2 with
    | .call op => some op
    | .throws _ => none

/-- The sequential execution: refused calls do nothing. -/
def nodeSeq (v : Ver) (tg : Target σ) : List (NodeData × NodeCall) → σ → List (NodeExc ⊕ Option (List W)) × σ
  | [], m => ([], m)
  | (d, call) :: rest, m =>
    match d.access call with
    | .throws e => let q := nodeSeq v tg rest m; (.inl e :: q.1, q.2)
    | .call op =>
      match opAccs v op with
      | none => let q := nodeSeq v tg rest m; (.inr none :: q.1, q.2)
      | some as =>
        let r := execAccs v tg as m
        let q := nodeSeq v tg rest r.2
        (.inr (some (opShow op r.1)) :: q.1, q.2)

/-- Put the node exceptions back between the results of the client calls. -/
def weave {α : Type} : List (NodeData × NodeCall) → List α → List (NodeExc ⊕ α)
  | [], _ => []
  | (d, call) :: rest, xs =>
    match d.access call with
    | .throws e => .inl e :: weave rest xs
    | .call _ => match xs with
      | [] => []
      | x :: xs => .inr x :: weave rest xs

theorem weave_map {α β : Type} (f : α → β) (prog : List (NodeData × NodeCall)) (xs : List α) :
    (weave prog xs).map (Sum.map id f) = weave prog (xs.map f) := by
  induction prog generalizing xs with
  | nil => rfl
  | cons p rest ih =>
    obtain ⟨d, call⟩ := p
    simp only [weave]
    cases d.access call with
    | throws e => simp only [List.map_cons, ih]; rfl
    | call op => cases xs with
      | nil => rfl
      | cons x xs => simp only [List.map_cons, ih]; rfl

theorem runNodes_eq {τ : Type} (T : Transport τ) (prog : List (NodeData × NodeCall)) (s : St τ) :
    runNodes c T prog s = (runOps c T (nodeOps prog) s).map fun p => (weave prog p.1, p.2) := by
  induction prog generalizing s with
  | nil => rfl
  | cons p rest ih =>
    obtain ⟨d, call⟩ := p
    rw [runNodes, NodeData.run, nodeOps, List.filterMap_cons]
    cases ha : d.access call with
    | throws e =>
      simp only [ih, Option.map_map]
      rw [nodeOps]
      congr 1
      funext q
      simp only [Function.comp, weave, ha]
    | call op =>
      simp only [runOps]
      cases op.run c T s with
      | ok h s' => simp only [ih, nodeOps, Option.map_map]; congr 1; funext q; simp only [Function.comp, weave, ha]
      | exc e s' => simp only [ih, nodeOps, Option.map_map]; congr 1; funext q; simp only [Function.comp, weave, ha]
      | ub => rfl
      | loops => rfl

theorem nodeSeq_eq (v : Ver) (prog : List (NodeData × NodeCall)) (m : σ) :
    nodeSeq v tg prog m = (weave prog (seqRun v tg (nodeOps prog) m).1, (seqRun v tg (nodeOps prog) m).2) := by
  induction prog generalizing m with
  | nil => rfl
  | cons p rest ih =>
    obtain ⟨d, call⟩ := p
    rw [nodeSeq, nodeOps, List.filterMap_cons]
    cases ha : d.access call with
    | throws e => simp only [ih, weave, ha]; rfl
    | call op =>
      simp only [seqRun]
      cases opAccs v op with
      | none => simp only [ih, weave, ha]; rfl
      | some as => simp only [ih, weave, ha]; rfl

/-- What the user sees of the outcome of a call on a node. -/
def nodeShow (w : Bool) (h : Heap) : NodeExc ⊕ Res → NodeExc ⊕ Option ValOut := Sum.map id (resShow w h)

theorem seqRun_append (v : Ver) (l k : List Op) (m : σ) :
    seqRun v tg (l ++ k) m = ((seqRun v tg l m).1 ++ (seqRun v tg k (seqRun v tg l m).2).1, (seqRun v tg k (seqRun v tg l m).2).2) := by
  induction l generalizing m with
  | nil => rfl
  | cons op l ih =>
    rw [List.cons_append, seqRun, seqRun]
    cases opAccs v op with
    | none => simp only [ih]; rfl
    | some as => simp only [ih]; rfl

/-- **C34**, **C35** (whole programs): a program of node calls followed by a dispatch behaves as the sequential
execution in which refused calls do nothing at all and the others perform their word accesses: the same exceptions, the
same values, the same memory afterwards; whatever the packets look like and whenever the replies arrive. -/
theorem C34_program (hw : WF c) (hcap : CapOK c) (hr : c.ver = .v2 → Roomy c) (hc : Conforms c tg mem resp)
    (prog : List (NodeData × NodeCall)) (hops : ∀ op ∈ nodeOps prog, op.ok c ∧ op.maskOK c.wrapNeg) (e : ρ)
    (sched : List (Nat × Nat)) :
    ∃ rs s s', runNodes c (linkT c resp) prog (St.init (Link.init e sched)) = some (rs, s) ∧
      (∃ d, runOps c (linkT c resp) [.dispatch] s = some ([d], s')) ∧
      rs.map (nodeShow c.wrapNeg s'.tr.heap) = (nodeSeq c.ver tg prog (mem e)).1.map (Sum.map id (Option.map ValOut.data)) ∧
      mem s'.tr.env = (nodeSeq c.ver tg prog (mem e)).2 := by
  obtain ⟨rs, s', h1, h2, h3⟩ := C16_refinement hw hcap hr hc (nodeOps prog) hops e sched
  rw [runOps_append] at h1
  cases hp : runOps c (linkT c resp) (nodeOps prog) (St.init (Link.init e sched)) with
  | none => rw [hp] at h1; simp at h1
  | some p =>
    obtain ⟨rp, s⟩ := p
    rw [hp] at h1
    simp only [Option.bind_some, Option.map_eq_some_iff] at h1
    obtain ⟨q, hq, he⟩ := h1
    obtain ⟨rq, sq⟩ := q
    simp only [Prod.mk.injEq] at he
    obtain ⟨rfl, rfl⟩ := he
    rw [seqRun_append] at h2 h3
    have hq1 : ∃ d, rq = [d] := by
      rw [runOps] at hq
      split at hq
      · simp only [runOps, Option.map_some, Option.some.injEq, Prod.mk.injEq] at hq; exact ⟨_, hq.1.symm⟩
      · simp only [runOps, Option.map_some, Option.some.injEq, Prod.mk.injEq] at hq; exact ⟨_, hq.1.symm⟩
      · cases hq
      · cases hq
    obtain ⟨d, rfl⟩ := hq1
    have hlen : rp.length = (seqRun c.ver tg (nodeOps prog) (mem e)).1.length := by
      have := congrArg List.length h2
      simpa [seqRun, opAccs] using this
    refine ⟨weave prog rp, s, sq, ?_, ⟨d, hq⟩, ?_, ?_⟩
    · rw [runNodes_eq, hp]; rfl
    · have hh : rp.map (resShow c.wrapNeg sq.tr.heap) = (seqRun c.ver tg (nodeOps prog) (mem e)).1.map (Option.map ValOut.data) := by
        rw [List.map_append, List.map_append] at h2
        exact (List.append_inj h2 (by simp [hlen])).1
      rw [nodeSeq_eq]
      unfold nodeShow
      rw [weave_map, hh, weave_map]
    · rw [nodeSeq_eq, h3]
      simp [seqRun, opAccs, execAccs]

end

/-- A program on three nodes: a read-only one, a bit-field, a block. -/
def nodeProg : List (NodeData × NodeCall) :=
  let ro : NodeData := { addr := 1#32, mode := .single, perm := .read }
  let bf : NodeData := { addr := 2#32, mode := .single, mask := 0xF0#32 }
  let bl : NodeData := { addr := 8#32, mode := .incremental, size := 4#32 }
  [(ro, .write 3), (ro, .read), (bf, .write 9), (bf, .read), (bf, .write 16), (bl, .writeBlockOffset [5, 6] 2), (bl, .readBlock 4),
    (bl, .readBlockOffset 2 3)]

example : (nodeSeq .v2 (dummyTarget fun _ => 0) nodeProg fun _ => 1).1 =
    [.inl .writeAccessDenied, .inr (some [1]), .inr (some []), .inr (some [9]), .inr none, .inr (some []), .inr (some [1, 1, 5, 6]),
      .inl .tooLarge] := by decide +kernel

/-- Non-vacuity of `C34_program`. -/
example (v : Ver) : ∃ rs s s', runNodes (demoHub v) (linkT (demoHub v) (viaHub (demoHub v) (dummyTarget fun _ => 0))) nodeProg
      (St.init (Link.init ⟨fun _ => 1, 0⟩ [(0, 1)])) = some (rs, s) ∧
    (∃ d, runOps (demoHub v) (linkT (demoHub v) (viaHub (demoHub v) (dummyTarget fun _ => 0))) [.dispatch] s = some ([d], s')) ∧
    rs.map (nodeShow (demoHub v).wrapNeg s'.tr.heap) =
      (nodeSeq (demoHub v).ver (dummyTarget fun _ => 0) nodeProg fun _ => 1).1.map (Sum.map id (Option.map ValOut.data)) ∧
    s'.tr.env.mem = (nodeSeq (demoHub v).ver (dummyTarget fun _ => 0) nodeProg fun _ => 1).2 :=
  C34_program (demoHub_wf v) (demoHubCap v) (fun _ => demoHubRoomy v) (dummy_conforms _ _) nodeProg
    (by
      intro op ho
      have e : nodeOps nodeProg = [.read 1, .writeMasked 2 9 0xF0, .readMasked 2 0xF0, .writeMasked 2 16 0xF0,
        .writeBlock 10 [5, 6] true, .readBlock 8 4 true] := by decide +kernel
      rw [e] at ho
      simp only [List.mem_cons, List.not_mem_nil, or_false] at ho
      rcases ho with rfl | rfl | rfl | rfl | rfl | rfl <;> simp [Op.ok, Op.maskOK, MaskOK, demoHub]) ⟨fun _ => 1, 0⟩ [(0, 1)]

end Verif
