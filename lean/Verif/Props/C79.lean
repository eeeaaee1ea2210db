import Verif.Model.Stream
import Verif.Props.C78
/-!
# C79: texts on streams: beginnings of log messages, packets, nodes
-/

set_option autoImplicit false
set_option linter.unusedSimpArgs false

namespace Verif.Os
open Verif Node Spec

namespace Spec

/-- `n` decimal digits with this value. -/
def Dec (n : Nat) (s : Str) (v : Nat) : Prop := s.length = n ∧ Numeral decTable 10 s v

/-- Two hexadecimal digits with this value. -/
def Hex2 (s : Str) (v : Nat) : Prop := s.length = 2 ∧ Numeral hexTable 16 s v

/-- What `localtime` returns: a date and a time of day. -/
structure Valid (t : Tm) : Prop where
  mon : 0 ≤ t.mon ∧ t.mon ≤ 11
  mday : 1 ≤ t.mday ∧ t.mday ≤ 31
  hour : 0 ≤ t.hour ∧ t.hour ≤ 23
  min : 0 ≤ t.min ∧ t.min ≤ 59
  sec : 0 ≤ t.sec ∧ t.sec ≤ 60

/-- Date and time, as in `17-11-26 05:30:00.001234`. -/
def Stamp (t : Tm) (usec : Nat) (s : Str) : Prop :=
  ∃ dd mm yy hh mi ss us, Dec 2 dd t.mday.toNat ∧ Dec 2 mm (t.mon.toNat + 1) ∧ Dec 2 yy (t.year.toNat % 100) ∧ Dec 2 hh t.hour.toNat ∧
    Dec 2 mi t.min.toNat ∧ Dec 2 ss t.sec.toNat ∧ Dec 6 us usec ∧
    s = dd ++ ['-'] ++ mm ++ ['-'] ++ yy ++ [' '] ++ hh ++ [':'] ++ mi ++ [':'] ++ ss ++ ['.'] ++ us

/-- What is shown of byte `i`: in front of every fourth one the number of the word; then two digits and a space. -/
def Piece (i : Nat) (b : BitVec 8) (t : Str) : Prop :=
  ∃ h, Hex2 h b.toNat ∧
    if i % 4 = 0 then ∃ idx, 3 ≤ idx.length ∧ Numeral decTable 10 idx (i / 4) ∧ t = "\n   @ ".toList ++ idx ++ " :  x".toList ++ h ++ " ".toList
    else t = h ++ " ".toList

/-- A dump of these bytes, which begin at number `k`. -/
inductive Dump : Nat → List (BitVec 8) → Str → Prop
  | nil {k : Nat} : Dump k [] []
  | cons {k : Nat} {b : BitVec 8} {bs : List (BitVec 8)} {t r : Str} : Piece k b t → Dump (k + 1) bs r → Dump k (b :: bs) (t ++ r)

/-- What may be done with a node. -/
def permText (p : Permission) : Str := match p with | .read => "r-".toList | .write => "-w".toList | .readWrite => "rw".toList

/-- What is shown of the kind of a node and its addresses. -/
inductive ModeText (d : NodeData) : Str → Prop
  | single {a m : Str} : d.mode = .single → Hex8 a d.addr.toNat → Hex8 m d.mask.toNat →
      ModeText d ("SINGLE register, Address 0x".toList ++ a ++ ", Mask 0x".toList ++ m ++ ", Permissions ".toList ++ permText d.perm)
  | block {n a e : Str} : d.mode = .incremental → Numeral decTable 10 n d.size.toNat → Hex8 a d.addr.toNat → Hex8 e (d.addr.toNat + d.size.toNat - 1) →
      ModeText d ("INCREMENTAL block, Size ".toList ++ n ++ ", Addresses [0x".toList ++ a ++ "-".toList ++ e ++ "], Permissions ".toList ++ permText d.perm)
  | port {a : Str} : d.mode = .nonIncremental → d.size = 1#32 → Hex8 a d.addr.toNat →
      ModeText d ("NON-INCREMENTAL block, Address 0x".toList ++ a ++ ", Permissions ".toList ++ permText d.perm)
  | port' {n a : Str} : d.mode = .nonIncremental → d.size ≠ 1#32 → Numeral decTable 10 n d.size.toNat → Hex8 a d.addr.toNat →
      ModeText d ("NON-INCREMENTAL block, Size ".toList ++ n ++ ", Address 0x".toList ++ a ++ ", Permissions ".toList ++ permText d.perm)
  | branch {a : Str} : d.mode = .hierarchical → Hex8 a d.addr.toNat → ModeText d ("Address 0x".toList ++ a)

/-- A text in quotes that is there only if it is not empty. -/
def optional (name s : Str) : Str := if s = [] then [] else name ++ s ++ ['"']

/-- The line for a node. -/
def NodeLine (ty : Option Str) (indent : Nat) (d : NodeData) (t : Str) : Prop :=
  ∃ m, ModeText d m ∧
    t = List.replicate indent ' ' ++ "+ Node \"".toList ++ d.uid ++ "\", ".toList ++ (match ty with | some c => "of type \"".toList ++ c ++ "\", ".toList | none => []) ++ m ++
      optional ", Tags \"".toList d.tags ++ optional ", Description \"".toList d.desc ++ optional ", Module \"".toList d.module ++
      optional ", Class Name \"".toList d.cls ++
      (if d.pars = [] then [] else ", Parameters: ".toList ++ d.pars.flatMap fun p => p.1 ++ ['='] ++ p.2 ++ [';'])

/-- Flags under which padded numbers keep their value: padding is on the left, and there is no prefix. -/
def Tame (f : Flags) : Prop := f.adj ≠ .left ∧ f.showbase = false

end Spec
open Spec

/-! ### Single insertions -/

theorem text0 (f : Flags) (c : Char) (out s : Str) : (Os.mk f c 0 out).text s = ⟨f, c, 0, out ++ s⟩ := by
  simp [Os.text]

theorem num_tame {f : Flags} (h : Tame f) (c : Char) (w v : Nat) (out : Str) :
    (Os.mk f c w out).num v =
      ⟨f, c, 0, out ++ (List.replicate (w - (digitsOf f.base.val f.upper 64 v).length) c ++ digitsOf f.base.val f.upper 64 v)⟩ := by
  obtain ⟨h1, h2⟩ := h
  unfold Os.num padNum prefixOf
  simp only [h2]
  cases ha : f.adj with
  | left => exact absurd ha h1
  | right => simp
  | internal => simp

theorem num_dec {f : Flags} (ha : f.adj ≠ .left) (hb : f.base = .dec) (c : Char) (w v : Nat) (out : Str) :
    (Os.mk f c w out).num v = ⟨f, c, 0, out ++ (List.replicate (w - (digitsOf 10 f.upper 64 v).length) c ++ digitsOf 10 f.upper 64 v)⟩ := by
  have hp : prefixOf f v = [] := by unfold prefixOf; rw [hb]; split <;> rfl
  unfold Os.num padNum
  simp only [hb, hp, Base.val]
  cases h : f.adj with
  | left => exact absurd h ha
  | right => simp
  | internal => simp

theorem digitsOf_numeral {tbl : List (Char × Nat)} {b : Nat} (hb : 1 < b) (u : Bool)
    (ht : ∀ d, d < b → (digitChar u d, d) ∈ tbl) (k : Nat) :
    ∀ v, v < b ^ k → 0 < k → Numeral tbl b (digitsOf b u k v) v ∧ 0 < (digitsOf b u k v).length ∧ ∀ m, v < b ^ m → 0 < m → (digitsOf b u k v).length ≤ m := by
  induction k with
  | zero => intro v _ h; omega
  | succ k ih =>
    intro v hv _
    rw [digitsOf]
    by_cases h : v < b
    · rw [if_pos h]
      have := ht v h
      rw [Nat.mod_eq_of_lt h]
      exact ⟨.one this, by simp, fun m _ hm => by simp; omega⟩
    · rw [if_neg h]
      have hk : 0 < k := by
        rcases Nat.eq_zero_or_pos k with e | e
        · subst e; simp at hv; omega
        · exact e
      have hdiv : ∀ m, v < b ^ (m + 1) → v / b < b ^ m := by
        intro m hm
        rw [Nat.div_lt_iff_lt_mul (by omega)]; rw [Nat.pow_succ] at hm; exact hm
      obtain ⟨h1, h2, h3⟩ := ih _ (hdiv k hv) hk
      refine ⟨?_, by simp, ?_⟩
      · have := Numeral.snoc h1 (ht _ (Nat.mod_lt v (by omega : 0 < b)))
        rw [Nat.div_add_mod v b] at this; exact this
      · intro m hm hm0
        cases m with
        | zero => omega
        | succ m =>
          rcases Nat.eq_zero_or_pos m with e | e
          · subst e; simp at hm; omega
          · have := h3 m (hdiv m hm) e
            simp; exact this

theorem zeros_numeral {tbl : List (Char × Nat)} {b : Nat} (h0 : ('0', 0) ∈ tbl) (k : Nat) {s : Str} {v : Nat} (h : Numeral tbl b s v) :
    Numeral tbl b (List.replicate k '0' ++ s) v := by
  induction h with
  | one hm =>
    cases k with
    | zero => exact .one hm
    | succ k =>
      have hz : ∀ k, Numeral tbl b (List.replicate (k + 1) '0') 0 := by
        intro k
        induction k with
        | zero => exact .one h0
        | succ k ih =>
          rw [List.replicate_succ']
          have := Numeral.snoc ih h0
          simpa using this
      have := Numeral.snoc (hz k) hm
      simpa using this
  | snoc h hm ih => rw [← List.append_assoc]; exact .snoc ih hm

theorem dec_tbl (u : Bool) : ∀ d, d < 10 → (digitChar u d, d) ∈ decTable := by
  cases u <;> decide +kernel

theorem hex_tbl (u : Bool) : ∀ d, d < 16 → (digitChar u d, d) ∈ hexTable := by
  cases u <;> decide +kernel

theorem padded {tbl : List (Char × Nat)} {b : Nat} (hb : 1 < b) (u : Bool)
    (ht : ∀ d, d < b → (digitChar u d, d) ∈ tbl) (h0 : ('0', 0) ∈ tbl) {v w : Nat}
    (hv : v < b ^ 64) (hw : v < b ^ w) (hw0 : 0 < w) :
    (List.replicate (w - (digitsOf b u 64 v).length) '0' ++ digitsOf b u 64 v).length = w ∧
    Numeral tbl b (List.replicate (w - (digitsOf b u 64 v).length) '0' ++ digitsOf b u 64 v) v := by
  obtain ⟨h1, h2, h3⟩ := digitsOf_numeral hb u ht 64 v hv (by omega)
  have := h3 w hw hw0
  exact ⟨by simp only [List.length_append, List.length_replicate]; omega, zeros_numeral h0 _ h1⟩

/-! ### The time -/

theorem lutFrom_get (lo hi i : Nat) (hhi : hi < 100) (h : lo + i ≤ hi) :
    2 * i + 2 ≤ (lutFrom lo hi).length ∧ Dec 2 (((lutFrom lo hi).drop (2 * i)).take 2) (lo + i) := by
  have key : ∀ (l : List Nat) (i : Nat) (x : Nat), l[i]? = some x →
      2 * i + 2 ≤ (l.flatMap fun i => [Char.ofNat (48 + i / 10), Char.ofNat (48 + i % 10)]).length ∧
      ((l.flatMap fun i => [Char.ofNat (48 + i / 10), Char.ofNat (48 + i % 10)]).drop (2 * i)).take 2 = [Char.ofNat (48 + x / 10), Char.ofNat (48 + x % 10)] := by
    intro l
    induction l with
    | nil => intro i x h; simp at h
    | cons y l ih =>
      intro i x h
      cases i with
      | zero => simp at h; subst h; simp
      | succ i =>
        simp at h
        obtain ⟨h1, h2⟩ := ih i x h
        refine ⟨by simp only [List.flatMap_cons, List.length_append, List.length_cons, List.length_nil]; omega, ?_⟩
        rw [show 2 * (i + 1) = 2 * i + 1 + 1 from by omega]
        simpa using h2
  have hg : ((List.range (hi + 1)).drop lo)[i]? = some (lo + i) := by
    rw [List.getElem?_drop, List.getElem?_range (by omega)]
  obtain ⟨h1, h2⟩ := key _ i _ hg
  refine ⟨h1, ?_, ?_⟩
  · show (List.take 2 (List.drop (2 * i) _)).length = 2
    unfold lutFrom; rw [h2]; rfl
  · unfold lutFrom; rw [h2]
    have hd : ∀ d, d < 10 → (Char.ofNat (48 + d), d) ∈ decTable := by decide +kernel
    have := Numeral.snoc (.one (hd ((lo + i) / 10) (by omega))) (hd ((lo + i) % 10) (Nat.mod_lt _ (by omega))) (base := 10)
    rw [Nat.div_add_mod] at this
    exact this

theorem lut_ok (f : Flags) (c : Char) (out : Str) (lo hi : Nat) (hhi : hi < 100) (i : Int) (h0 : 0 ≤ i) (h : lo + i.toNat ≤ hi) :
    ∃ s, Dec 2 s (lo + i.toNat) ∧ (Os.mk f c 0 out).lut (lutFrom lo hi) (i * 2) 2 = some ⟨f, c, 0, out ++ s⟩ := by
  obtain ⟨h1, h2⟩ := lutFrom_get lo hi i.toNat hhi h
  refine ⟨_, h2, ?_⟩
  have e : (i * 2).toNat = 2 * i.toNat := by omega
  unfold Os.lut
  rw [e, if_pos ⟨by omega, h1⟩]
  rfl

theorem lut_day (f : Flags) (c : Char) (out : Str) (i : Int) (h0 : 1 ≤ i) (h : i ≤ 31) :
    ∃ s, Dec 2 s i.toNat ∧ (Os.mk f c 0 out).lut ("xx".toList ++ lutFrom 1 31) (i * 2) 2 = some ⟨f, c, 0, out ++ s⟩ := by
  obtain ⟨h1, h2⟩ := lutFrom_get 1 31 (i.toNat - 1) (by omega) (by omega)
  have e0 : 1 + (i.toNat - 1) = i.toNat := by omega
  rw [e0] at h2
  refine ⟨_, h2, ?_⟩
  have e : (i * 2).toNat = 2 * (i.toNat - 1) + 2 := by omega
  unfold Os.lut
  rw [e, if_pos ⟨by omega, by rw [List.length_append]; show _ ≤ 2 + _; omega⟩]
  have : List.drop (2 * (i.toNat - 1) + 2) ("xx".toList ++ lutFrom 1 31) = List.drop (2 * (i.toNat - 1)) (lutFrom 1 31) := by
    rw [show "xx".toList = ['x', 'x'] from rfl]; simp
  rw [this]; rfl

/-- **C79**, log messages: on a stream that writes decimal numbers, pads on the left, and has no width pending, the beginning of a message is the colour, date and time, thread and
level, for every time from 1900 on. The fill character of the stream is `0` from then on. -/
theorem C79_head_partial (level : Nat) (t : Tm) (usec tid : Nat) (o : Os) (hv : Valid t) (hy : 0 ≤ t.year) (hu : usec < 10 ^ 6) (ht : tid < 2 ^ 64)
    (hw : o.width = 0) (hb : o.flags.base = .dec) (ha : o.flags.adj ≠ .left) :
    ∃ s id, Stamp t usec s ∧ Numeral decTable 10 id tid ∧
      head level (some t) usec tid o = some { o with
        fill := '0', out := o.out ++ (Log.levelName level).1 ++ s ++ " [".toList ++ id ++ "]".toList ++ (Log.levelName level).2 } := by
  obtain ⟨f, c, w, out⟩ := o
  simp only at hw hb ha
  subst hw
  obtain ⟨dd, hdd, e1⟩ := lut_day f c (out ++ (Log.levelName level).1) t.mday hv.mday.1 hv.mday.2
  obtain ⟨mm, hmm, e2⟩ := lut_ok f c (out ++ (Log.levelName level).1 ++ dd ++ ['-']) 1 12 (by omega) t.mon hv.mon.1 (by have := hv.mon; omega)
  have hym : t.year.tmod 100 = ((t.year.toNat % 100 : Nat) : Int) := by
    obtain ⟨n, hn⟩ := Int.eq_ofNat_of_zero_le hy
    rw [hn, Int.tmod_eq_emod_of_nonneg (by omega)]
    simp
  obtain ⟨yy, hyy, e3⟩ := lut_ok f c (out ++ (Log.levelName level).1 ++ dd ++ ['-'] ++ mm ++ ['-']) 0 99 (by omega) (t.year.tmod 100) (by rw [hym]; omega) (by rw [hym]; omega)
  obtain ⟨hh, hhh, e4⟩ := lut_ok f c (out ++ (Log.levelName level).1 ++ dd ++ ['-'] ++ mm ++ ['-'] ++ yy ++ [' ']) 0 23 (by omega) t.hour hv.hour.1 (by have := hv.hour; omega)
  obtain ⟨mi, hmi, e5⟩ := lut_ok f c (out ++ (Log.levelName level).1 ++ dd ++ ['-'] ++ mm ++ ['-'] ++ yy ++ [' '] ++ hh ++ [':']) 0 59 (by omega) t.min hv.min.1 (by have := hv.min; omega)
  obtain ⟨ss, hss, e6⟩ := lut_ok f c (out ++ (Log.levelName level).1 ++ dd ++ ['-'] ++ mm ++ ['-'] ++ yy ++ [' '] ++ hh ++ [':'] ++ mi ++ [':']) 0 61 (by omega) t.sec hv.sec.1
    (by have := hv.sec; omega)
  have hus := padded (b := 10) (by omega) f.upper (dec_tbl _) (by decide +kernel) (v := usec) (w := 6) (by omega) (by omega) (by omega)
  have hid := digitsOf_numeral (b := 10) (by omega) f.upper (dec_tbl _) 64 tid (by omega) (by omega)
  refine ⟨_, _, ⟨dd, mm, yy, hh, mi, ss, _, hdd, ?_, ?_, ?_, ?_, ?_, hus, rfl⟩, hid.1, ?_⟩
  · rw [Nat.add_comm]; exact hmm
  · rw [hym, Int.toNat_natCast, Nat.zero_add] at hyy; exact hyy
  · simpa using hhh
  · simpa using hmi
  · simpa using hss
  · unfold head
    rw [text0]
    simp only [headFmt, printTime, Elem.print, e1, text0, e2, e3, e4, e5, e6, Os.setfill, Os.setw]
    rw [num_dec ha hb]
    simp only [text0]
    rw [num_dec ha hb]
    simp only [text0, Nat.zero_sub, List.replicate_zero, List.nil_append, List.append_assoc]

theorem dec_unique {n m : Nat} {s : Str} {a b : Nat} (h : Dec n s a) (h' : Dec m s b) : a = b := by
  have h1 := ((numeral_iff decOk 10 s a).1 h.2).2.2
  have h2 := ((numeral_iff decOk 10 s b).1 h'.2).2.2
  rw [h1, h2]

/-- **C79**: the text tells the time, up to the century. -/
theorem C79_stamp_read {t t' : Tm} {us us' : Nat} {s : Str} (h : Stamp t us s) (h' : Stamp t' us' s) :
    t.mday.toNat = t'.mday.toNat ∧ t.mon.toNat = t'.mon.toNat ∧ t.year.toNat % 100 = t'.year.toNat % 100 ∧ t.hour.toNat = t'.hour.toNat ∧
    t.min.toNat = t'.min.toNat ∧ t.sec.toNat = t'.sec.toNat ∧ us = us' := by
  obtain ⟨dd, mm, yy, hh, mi, ss, u, h1, h2, h3, h4, h5, h6, h7, rfl⟩ := h
  obtain ⟨dd', mm', yy', hh', mi', ss', u', h1', h2', h3', h4', h5', h6', h7', e⟩ := h'
  simp only [List.append_assoc] at e
  obtain ⟨e1, e⟩ := List.append_inj e (by rw [h1.1, h1'.1])
  have e := List.append_cancel_left e
  obtain ⟨e2, e⟩ := List.append_inj e (by rw [h2.1, h2'.1])
  have e := List.append_cancel_left e
  obtain ⟨e3, e⟩ := List.append_inj e (by rw [h3.1, h3'.1])
  have e := List.append_cancel_left e
  obtain ⟨e4, e⟩ := List.append_inj e (by rw [h4.1, h4'.1])
  have e := List.append_cancel_left e
  obtain ⟨e5, e⟩ := List.append_inj e (by rw [h5.1, h5'.1])
  have e := List.append_cancel_left e
  obtain ⟨e6, e⟩ := List.append_inj e (by rw [h6.1, h6'.1])
  have e7 := List.append_cancel_left e
  subst e1 e2 e3 e4 e5 e6 e7
  refine ⟨dec_unique h1 h1', ?_, dec_unique h3 h3', dec_unique h4 h4', dec_unique h5 h5', dec_unique h6 h6', dec_unique h7 h7'⟩
  have := dec_unique h2 h2'
  omega

/-! ### Packets -/

theorem putChunks_eq (data : List (List (BitVec 8))) : ∀ (o : Os) (k : Nat), putChunks o k data = putBytes o k data.flatten := by
  have happ : ∀ (a b : List (BitVec 8)) (o : Os) (k : Nat), putBytes o k (a ++ b) = putBytes (putBytes o k a).1 (putBytes o k a).2 b := by
    intro a b
    induction a with
    | nil => intro o k; rfl
    | cons x a ih => intro o k; exact ih _ _
  induction data with
  | nil => intro o k; rfl
  | cons c cs ih =>
    intro o k
    rw [List.flatten_cons, happ]
    exact ih _ _

/-- **C79**, packets: the text does not depend on the pieces that the packet is in. -/
theorem C79_packet_pieces (o : Os) (data data' : List (List (BitVec 8))) (h : data.flatten = data'.flatten) : packet o data = packet o data' := by
  unfold packet; rw [putChunks_eq, putChunks_eq, h]

theorem putByte_state (o : Os) (k : Nat) (b : BitVec 8) : (putByte o k b).fill = o.fill ∧ (putByte o k b).width = 0 := by
  unfold putByte
  split <;> exact ⟨rfl, rfl⟩

/-- **C79**, packets: the stream is left as it was. -/
theorem C79_packet_restores (o : Os) (data : List (List (BitVec 8))) (hw : o.width = 0) : packet o data = { o with out := (packet o data).out } := by
  have key : ∀ (bs : List (BitVec 8)) (o : Os) (k : Nat), o.width = 0 → (putBytes o k bs).1.fill = o.fill ∧ (putBytes o k bs).1.width = 0 := by
    intro bs
    induction bs with
    | nil => intro o k h; exact ⟨rfl, h⟩
    | cons b bs ih =>
      intro o k _
      have := ih (putByte o k b) (k + 1) (putByte_state o k b).2
      rw [(putByte_state o k b).1] at this
      exact this
  have h := key data.flatten o 0 hw
  unfold packet
  rw [putChunks_eq]
  cases o
  simp only at *
  cases hr : (putBytes _ 0 data.flatten).1
  rw [hr] at h
  simp only at h ⊢
  rw [h.1, h.2, hw]

theorem putByte_tame {f : Flags} (h : Tame f) (out : Str) (k : Nat) (hk : k < 2 ^ 64) (b : BitVec 8) :
    ∃ f' t, Tame f' ∧ Piece k b t ∧ putByte ⟨f, '0', 0, out⟩ k b = ⟨f', '0', 0, out ++ t⟩ := by
  have hb := b.isLt
  have hh := padded (b := 16) (by omega) f.upper (hex_tbl _) (by decide +kernel) (v := b.toNat) (w := 2) (by omega) (by omega) (by omega)
  have t1 : ∀ f : Flags, Tame f → ∀ x, Tame { f with base := x } := fun _ h _ => h
  have hmod : k &&& 3 = k % 4 := Nat.and_two_pow_sub_one_eq_mod k 2
  unfold putByte
  by_cases h4 : k % 4 = 0
  · rw [if_pos (by rw [hmod]; exact h4)]
    have hi := digitsOf_numeral (b := 10) (by omega) f.upper (dec_tbl _) 64 (k >>> 2) (by rw [Nat.shiftRight_eq_div_pow]; omega) (by omega)
    have e4 : k >>> 2 = k / 4 := by rw [Nat.shiftRight_eq_div_pow]
    refine ⟨{ f with base := .hex }, "\n   @ ".toList ++ (List.replicate (3 - (digitsOf 10 f.upper 64 (k >>> 2)).length) '0' ++ digitsOf 10 f.upper 64 (k >>> 2)) ++
      " :  x".toList ++ (List.replicate (2 - (digitsOf 16 f.upper 64 b.toNat).length) '0' ++ digitsOf 16 f.upper 64 b.toNat) ++ " ".toList, t1 _ h _, ⟨_, hh, ?_⟩, ?_⟩
    · rw [if_pos h4]
      refine ⟨_, ?_, ?_, rfl⟩
      · simp only [List.length_append, List.length_replicate]; omega
      · rw [← e4]; exact zeros_numeral (by decide +kernel) _ hi.1
    · simp only [Os.raw, text0, Os.setw, Os.setBase]
      rw [num_tame (t1 _ h _)]
      simp only [text0]
      rw [num_tame (t1 _ (t1 _ h _) _)]
      simp only [text0, Base.val]
      simp
  · rw [if_neg (by rw [hmod]; exact h4)]
    refine ⟨{ f with base := .hex }, _, t1 _ h _, ⟨_, hh, by rw [if_neg h4]⟩, ?_⟩
    simp only [Os.setw, Os.setBase]
    rw [num_tame (t1 _ h _)]
    simp only [text0, Base.val]
    simp

theorem putBytes_tame (bs : List (BitVec 8)) : ∀ {f : Flags} (_ : Tame f) (out : Str) (k : Nat) (_ : k + bs.length < 2 ^ 64),
    ∃ f' t, Dump k bs t ∧ (putBytes ⟨f, '0', 0, out⟩ k bs).1 = ⟨f', '0', 0, out ++ t⟩ := by
  induction bs with
  | nil => intro f _ out k _; exact ⟨f, [], .nil, by simp [putBytes]⟩
  | cons b bs ih =>
    intro f h out k hk
    simp only [List.length_cons] at hk
    obtain ⟨f1, t1, h1, p1, e1⟩ := putByte_tame h out k (by omega) b
    obtain ⟨f2, t2, d2, e2⟩ := ih h1 (out ++ t1) (k + 1) (by omega)
    refine ⟨f2, t1 ++ t2, .cons p1 d2, ?_⟩
    show (putBytes (putByte _ k b) (k + 1) bs).1 = _
    rw [e1, e2, List.append_assoc]

/-- **C79**, packets: on a stream whose fill character is `0`, that pads on the left and writes no prefixes, the text is a dump of the bytes. -/
theorem C79_packet_partial (o : Os) (data : List (List (BitVec 8))) (hw : o.width = 0) (hf : o.fill = '0') (ht : Tame o.flags) (hl : data.flatten.length < 2 ^ 64) :
    ∃ t, Dump 0 data.flatten t ∧ packet o data = { o with out := o.out ++ t } := by
  obtain ⟨f, c, w, out⟩ := o
  simp only at hw hf ht
  subst hw hf
  obtain ⟨f', t, hd, e⟩ := putBytes_tame data.flatten ht out 0 (by omega)
  refine ⟨t, hd, ?_⟩
  unfold packet
  rw [putChunks_eq, e]

theorem hex2_unique {s : Str} {a b : Nat} (h : Hex2 s a) (h' : Hex2 s b) : a = b := by
  have h1 := ((numeral_iff (hexOk (p := 1) (by omega)) 16 s a).1 h.2).2.2
  have h2 := ((numeral_iff (hexOk (p := 1) (by omega)) 16 s b).1 h'.2).2.2
  rw [h1, h2]

theorem dec_chars {s : Str} {a : Nat} (h : Numeral decTable 10 s a) : ' ' ∉ s := by
  intro hm
  have h1 := ((numeral_iff decOk 10 s a).1 h).2.1 _ hm
  revert h1; simp [digitChars]

/-- **C79**: a dump can be read in one way only. -/
theorem C79_packet_read {bs bs' : List (BitVec 8)} {k : Nat} {t : Str} (h : Dump k bs t) (h' : Dump k bs' t) : bs = bs' := by
  induction h generalizing bs' with
  | nil =>
    generalize hn : ([] : Str) = n at h'
    cases h' with
    | nil => rfl
    | cons p _ =>
      obtain ⟨x, hx, hp⟩ := p
      have : x = [] := by
        split at hp
        · obtain ⟨idx, _, _, rfl⟩ := hp; simp at hn
        · subst hp; simp at hn
      rw [this] at hx; simp [Hex2] at hx
  | cons p d ih =>
    rename_i k b bs t r
    generalize hn : t ++ r = n at h'
    cases h' with
    | nil =>
      obtain ⟨x, hx, hp⟩ := p
      have : x = [] := by
        split at hp
        · obtain ⟨idx, _, _, rfl⟩ := hp; simp at hn
        · subst hp; simp at hn
      rw [this] at hx; simp [Hex2] at hx
    | cons p' d' =>
      rename_i b' bs' t' r'
      obtain ⟨x, hx, hp⟩ := p
      obtain ⟨x', hx', hp'⟩ := p'
      have key : x = x' ∧ r = r' := by
        split at hp
        · rename_i h4
          rw [if_pos h4] at hp'
          obtain ⟨idx, _, hi, rfl⟩ := hp
          obtain ⟨idx', _, hi', rfl⟩ := hp'
          simp only [List.append_assoc] at hn
          have hn := List.append_cancel_left hn
          rw [show " :  x".toList = ' ' :: ":  x".toList from rfl, List.cons_append, List.cons_append] at hn
          obtain ⟨_, hn⟩ := cut_at (dec_chars hi) (dec_chars hi') hn
          have hn := List.append_cancel_left hn
          obtain ⟨e1, hn⟩ := List.append_inj hn (by rw [hx.1, hx'.1])
          exact ⟨e1, List.append_cancel_left hn⟩
        · rename_i h4
          rw [if_neg h4] at hp'
          subst hp hp'
          simp only [List.append_assoc] at hn
          obtain ⟨e1, hn⟩ := List.append_inj hn (by rw [hx.1, hx'.1])
          exact ⟨e1, List.append_cancel_left hn⟩
      obtain ⟨e1, e2⟩ := key
      subst e1 e2
      rw [ih d', BitVec.eq_of_toNat_eq (hex2_unique hx hx')]

/-! ### Nodes -/

theorem hex8_of {f : Flags} (v : W) : Hex8 (List.replicate (8 - (digitsOf 16 f.upper 64 v.toNat).length) '0' ++ digitsOf 16 f.upper 64 v.toNat) v.toNat := by
  have hv := v.isLt
  have h16 : (16 : Nat) ^ 8 = 2 ^ 32 := by decide
  exact padded (b := 16) (by omega) f.upper (hex_tbl _) (by decide +kernel) (v := v.toNat) (w := 8) (Nat.lt_of_lt_of_le hv (by decide +kernel)) (by omega) (by omega)

theorem dec_of {f : Flags} (v : W) : Numeral decTable 10 (digitsOf 10 f.upper 64 v.toNat) v.toNat := by
  have hv := v.isLt
  exact (digitsOf_numeral (b := 10) (by omega) f.upper (dec_tbl _) 64 v.toNat (by omega) (by omega)).1

theorem perms_ok (f : Flags) (out : Str) (p : Permission) : perms ⟨f, '0', 0, out⟩ p = ⟨f, '0', 0, out ++ permText p⟩ := by
  cases p <;> simp [perms, text0, permText, Permission.canRead, Permission.canWrite]

theorem modeText_ok {f : Flags} (h : Tame f) (out : Str) (d : NodeData) (hr : d.RangeOK) :
    ∃ f' m, Tame f' ∧ ModeText d m ∧ modeText ⟨f, '0', 0, out⟩ d = ⟨f', '0', 0, out ++ m⟩ := by
  have t1 : ∀ f : Flags, Tame f → ∀ x, Tame { f with base := x } := fun _ h _ => h
  have h8 := fun v => hex8_of (f := f) v
  have h10 := fun v => dec_of (f := f) v
  cases hm : d.mode with
  | single =>
    refine ⟨{ f with base := .hex }, _, t1 _ h _, .single hm (h8 _) (h8 _), ?_⟩
    unfold modeText; rw [hm]
    simp only [Os.setw, Os.setBase, text0]
    rw [num_tame (t1 _ h _)]
    simp only [Os.setw, Os.setBase, text0]
    rw [num_tame (t1 _ h _)]
    simp only [text0, perms_ok, Base.val]
    simp
  | incremental =>
    have he : (d.addr + d.size - 1#32).toNat = d.addr.toNat + d.size.toNat - 1 := by
      have e := maxAddr_toNat hr
      rw [if_pos hm] at e
      unfold NodeData.maxAddr at e
      rw [if_pos hm] at e
      exact e
    refine ⟨{ f with base := .hex }, _, t1 _ h _, .block hm (h10 _) (h8 _) (he ▸ h8 _), ?_⟩
    unfold modeText; rw [hm]
    simp only [Os.setw, Os.setBase, text0]
    rw [num_tame (t1 _ h _)]
    simp only [Os.setw, Os.setBase, text0]
    rw [num_tame (t1 _ h _)]
    simp only [Os.setw, Os.setBase, text0]
    rw [num_tame (t1 _ h _)]
    simp only [text0, perms_ok, Base.val, he]
    simp
  | nonIncremental =>
    by_cases hs : d.size = 1#32
    · refine ⟨{ f with base := .hex }, _, t1 _ h _, .port hm hs (h8 _), ?_⟩
      unfold modeText; rw [hm]
      simp only [hs, ne_eq, not_true_eq_false, if_false, Os.setw, Os.setBase, text0]
      rw [num_tame (t1 _ h _)]
      simp only [text0, perms_ok, Base.val]
      simp
    · refine ⟨{ f with base := .hex }, _, t1 _ h _, .port' hm hs (h10 _) (h8 _), ?_⟩
      unfold modeText; rw [hm]
      simp only [hs, ne_eq, not_false_eq_true, if_true, Os.setw, Os.setBase, text0]
      rw [num_tame (t1 _ h _)]
      simp only [Os.setw, Os.setBase, text0]
      rw [num_tame (t1 _ h _)]
      simp only [text0, perms_ok, Base.val]
      simp
  | hierarchical =>
    refine ⟨{ f with base := .hex }, _, t1 _ h _, .branch hm (h8 _), ?_⟩
    unfold modeText; rw [hm]
    simp only [Os.setw, Os.setBase, text0]
    rw [num_tame (t1 _ h _)]
    simp only [text0, Base.val]
    simp

theorem optText_ok (f : Flags) (out name s : Str) : optText ⟨f, '0', 0, out⟩ name s = ⟨f, '0', 0, out ++ Spec.optional name s⟩ := by
  unfold optText Spec.optional
  by_cases h : s = []
  · simp [h]
  · have : s.length ≠ 0 := fun e => h (List.length_eq_zero_iff.1 e)
    rw [if_pos this, if_neg h]
    simp [text0]

theorem parsText_ok (f : Flags) (out : Str) (ps : List (Str × Str)) :
    parsText ⟨f, '0', 0, out⟩ ps = ⟨f, '0', 0, out ++ (if ps = [] then [] else ", Parameters: ".toList ++ ps.flatMap fun p => p.1 ++ ['='] ++ p.2 ++ [';'])⟩ := by
  have key : ∀ (ps : List (Str × Str)) (out : Str), ps.foldl (fun o p => (((Os.text o p.1).text "=".toList).text p.2).text ";".toList) ⟨f, '0', 0, out⟩ =
      ⟨f, '0', 0, out ++ ps.flatMap fun p => p.1 ++ ['='] ++ p.2 ++ [';']⟩ := by
    intro ps
    induction ps with
    | nil => intro out; simp
    | cons p ps ih =>
      intro out
      rw [List.foldl_cons]
      simp only [text0]
      rw [ih]
      simp
  unfold parsText
  by_cases h : ps = []
  · simp [h]
  · have : ps.length ≠ 0 := fun e => h (List.length_eq_zero_iff.1 e)
    rw [if_pos this, if_neg h, text0, key, List.append_assoc]

theorem nodeText_ok {f : Flags} (h : Tame f) (c : Char) (out : Str) (ty : Option Str) (indent : Nat) (d : NodeData) (hr : d.RangeOK) :
    ∃ f' t, NodeLine ty indent d t ∧ nodeText ⟨f, c, 0, out⟩ ty indent d = ⟨f', '0', 0, out ++ '\n' :: t⟩ := by
  have ht : Tame { f with upper := true } := h
  have hN : "+ Node \"".toList = "+ ".toList ++ "Node \"".toList := by decide
  cases ty with
  | none =>
    obtain ⟨f', m, _, hm, e⟩ := modeText_ok ht (out ++ ['\n'] ++ List.replicate indent ' ' ++ "+ ".toList ++ "Node \"".toList ++ d.uid ++ "\", ".toList) d hr
    refine ⟨f', _, ⟨m, hm, rfl⟩, ?_⟩
    unfold nodeText
    simp only [Os.setfill, Os.uppercase, text0]
    rw [e]
    simp only [optText_ok, parsText_ok]
    simp only [hN, List.append_assoc, List.cons_append, List.nil_append]
  | some ty =>
    obtain ⟨f', m, _, hm, e⟩ := modeText_ok ht (out ++ ['\n'] ++ List.replicate indent ' ' ++ "+ ".toList ++ "Node \"".toList ++ d.uid ++ "\", ".toList ++
      "of type \"".toList ++ ty ++ "\", ".toList) d hr
    refine ⟨f', _, ⟨m, hm, rfl⟩, ?_⟩
    unfold nodeText
    simp only [Os.setfill, Os.uppercase, text0]
    rw [e]
    simp only [optText_ok, parsText_ok]
    simp only [hN, List.append_assoc, List.cons_append, List.nil_append]

mutual
theorem stream_ok (cout : Option Flags) (cls : NodeData → Option Str) : ∀ (n : Node) (_ : ∀ p v, n.sub? p = some v → v.d.RangeOK) (indent : Nat) (f : Flags) (_ : Tame f)
    (_ : Tame (cout.getD f)) (c : Char) (out : Str),
    ∃ g : List Nat → Str, (∀ p v, n.sub? p = some v → NodeLine (cls v.d) (indent + 2 * p.length) v.d (g p)) ∧
      stream cout cls ⟨f, c, 0, out⟩ indent n = ⟨cout.getD f, '0', 0, out ++ (pre n).flatMap fun p => '\n' :: g p⟩
  | .mk d kids, hr, indent, f, hf, hc, c, out => by
    obtain ⟨f', t, ht, e⟩ := nodeText_ok hf c out (cls d) indent d (hr [] _ (sub?_nil _))
    have hcc : cout.getD (cout.getD f) = cout.getD f := by cases cout <;> rfl
    obtain ⟨g, hg, eg⟩ := streams_ok cout cls kids (by
        intro j k hk q v hv
        exact hr (j :: q) v (by rw [sub?_cons]; show (kids[j]?).bind _ = _; rw [hk]; exact hv)) (indent + 2) 0 (cout.getD f) hcc hc (out ++ '\n' :: t)
    refine ⟨fun p => match p with | [] => t | i :: q => g (i :: q), ?_, ?_⟩
    · intro p v hv
      cases p with
      | nil => rw [sub?_nil] at hv; cases hv; exact ht
      | cons i q =>
        rw [sub?_cons] at hv
        cases hk : kids[i]? with
        | none =>
          have : (Node.mk d kids).kids[i]? = none := hk
          rw [this] at hv; cases hv
        | some k =>
          have : (Node.mk d kids).kids[i]? = some k := hk
          rw [this] at hv
          have := hg i k q v hk hv
          simp only [Nat.zero_add] at this
          simp only [List.length_cons]
          rw [show indent + 2 * (q.length + 1) = indent + 2 + 2 * q.length from by omega]
          exact this
    · rw [stream]
      simp only
      rw [e]
      simp only
      rw [eg, pre_eq]
      have hflat : (preL (Node.mk d kids).kids 0).flatMap (fun p => '\n' :: (match p with | [] => t | i :: q => g (i :: q))) =
          (preL kids 0).flatMap fun p => '\n' :: g p := by
        have hne : ∀ p ∈ preL kids 0, p ≠ [] := by
          intro p hp
          obtain ⟨j, q, _, _, rfl, _⟩ := (mem_preL kids 0 p (fun k _ q => mem_pre k q)).1 hp
          simp
        show (preL kids 0).flatMap _ = _
        revert hne
        generalize preL kids 0 = l
        intro hne
        induction l with
        | nil => rfl
        | cons p l ih =>
          rw [List.flatMap_cons, List.flatMap_cons, ih (fun q hq => hne q (by simp [hq]))]
          cases p with
          | nil => exact absurd rfl (hne [] (by simp))
          | cons i q => rfl
      rw [List.flatMap_cons, hflat]
      simp
theorem streams_ok (cout : Option Flags) (cls : NodeData → Option Str) : ∀ (l : List Node) (_ : ∀ (j : Nat) (k : Node), l[j]? = some k → ∀ p v, k.sub? p = some v → v.d.RangeOK)
    (indent i0 : Nat) (f : Flags) (_ : cout.getD f = f) (_ : Tame f) (out : Str),
    ∃ g : List Nat → Str, (∀ (j : Nat) (k : Node) (q : List Nat) (v : Node), l[j]? = some k → k.sub? q = some v → NodeLine (cls v.d) (indent + 2 * q.length) v.d (g ((i0 + j) :: q))) ∧
      streams cout cls ⟨f, '0', 0, out⟩ indent l = ⟨f, '0', 0, out ++ (preL l i0).flatMap fun p => '\n' :: g p⟩
  | [], _, _, _, _, _, _, _ => ⟨fun _ => [], by intro j k q v h; simp at h, by simp [streams, preL]⟩
  | k :: ks, hr, indent, i0, f, hcf, hf, out => by
    obtain ⟨g1, h1, e1⟩ := stream_ok cout cls k (fun p v hv => hr 0 k rfl p v hv) indent f hf (hcf.symm ▸ hf) '0' out
    obtain ⟨g2, h2, e2⟩ := streams_ok cout cls ks (fun j k' hk p v hv => hr (j + 1) k' hk p v hv) indent (i0 + 1) f hcf hf (out ++ (pre k).flatMap fun p => '\n' :: g1 p)
    refine ⟨fun p => match p with | [] => [] | i :: q => if i = i0 then g1 q else g2 (i :: q), ?_, ?_⟩
    · intro j k' q v hk hv
      cases j with
      | zero =>
        simp at hk; subst hk
        simp only [Nat.add_zero, if_true]
        exact h1 q v hv
      | succ j =>
        simp at hk
        have := h2 j k' q v hk hv
        simp only
        rw [if_neg (by omega), show i0 + (j + 1) = i0 + 1 + j from by omega]
        exact this
    · rw [streams, e1, hcf, e2]
      have ea : ((pre k).map (fun p => i0 :: p)).flatMap (fun p => '\n' :: (match p with | [] => [] | i :: q => if i = i0 then g1 q else g2 (i :: q))) =
          (pre k).flatMap fun p => '\n' :: g1 p := by
        rw [List.flatMap_map]
        simp
      have eb : (preL ks (i0 + 1)).flatMap (fun p => '\n' :: (match p with | [] => [] | i :: q => if i = i0 then g1 q else g2 (i :: q))) =
          (preL ks (i0 + 1)).flatMap fun p => '\n' :: g2 p := by
        have hne : ∀ p ∈ preL ks (i0 + 1), ∃ j q, p = (i0 + 1 + j) :: q := by
          intro p hp
          obtain ⟨j, q, _, _, rfl, _⟩ := (mem_preL ks (i0 + 1) p (fun k _ q => mem_pre k q)).1 hp
          exact ⟨j, q, rfl⟩
        revert hne
        generalize preL ks (i0 + 1) = l
        intro hne
        induction l with
        | nil => rfl
        | cons p l ih =>
          rw [List.flatMap_cons, List.flatMap_cons, ih (fun q hq => hne q (by simp [hq]))]
          obtain ⟨j, q, rfl⟩ := hne p (by simp)
          simp only
          rw [if_neg (by omega)]
      rw [preL, List.flatMap_append, ea, eb, List.append_assoc]
end

/-- **C79**, nodes: if the stream and `std::cout` pad on the left and write no prefixes, then the text has one line for every node, in the order of the iterators, indented by two
more spaces at each level. The flags of the stream are those of `std::cout` from then on, and its fill character is `0`. -/
theorem C79_nodes_partial (cout : Option Flags) (cls : NodeData → Option Str) (o : Os) (indent : Nat) (n : Node) (hr : ∀ p v, n.sub? p = some v → v.d.RangeOK)
    (hw : o.width = 0) (hf : Tame o.flags) (hc : Tame (cout.getD o.flags)) :
    ∃ g : List Nat → Str, (∀ p v, n.sub? p = some v → NodeLine (cls v.d) (indent + 2 * p.length) v.d (g p)) ∧
      stream cout cls o indent n = { o with flags := cout.getD o.flags, fill := '0', out := o.out ++ ([] :: positions n).flatMap fun p => '\n' :: g p } := by
  obtain ⟨f, c, w, out⟩ := o
  simp only at hw hf hc
  subst hw
  obtain ⟨g, h1, h2⟩ := stream_ok cout cls n hr indent f hf hc c out
  refine ⟨g, h1, ?_⟩
  rw [h2, pre_eq, positions_eq]

/-! ### When a log message is undefined -/

theorem lut_some (o : Os) (lo hi : Nat) (hhi : hi < 100) (i : Int) (h0 : 0 ≤ i) (h : lo + i.toNat ≤ hi) : ∃ o', o.lut (lutFrom lo hi) (i * 2) 2 = some o' := by
  obtain ⟨h1, _⟩ := lutFrom_get lo hi i.toNat hhi h
  have e : (i * 2).toNat = 2 * i.toNat := by omega
  unfold Os.lut
  rw [e, if_pos ⟨by omega, h1⟩]
  exact ⟨_, rfl⟩

theorem lut_day_some (o : Os) (i : Int) (h0 : 1 ≤ i) (h : i ≤ 31) : ∃ o', o.lut ("xx".toList ++ lutFrom 1 31) (i * 2) 2 = some o' := by
  obtain ⟨h1, _⟩ := lutFrom_get 1 31 (i.toNat - 1) (by omega) (by omega)
  have e : (i * 2).toNat = 2 * (i.toNat - 1) + 2 := by omega
  unfold Os.lut
  rw [e, if_pos ⟨by omega, by rw [List.length_append]; show _ ≤ 2 + _; omega⟩]
  exact ⟨_, rfl⟩

/-- **C79**, log messages: whatever the stream is like, what is done is undefined (memory outside of a table is read) just for the years before 1900 that are no multiples of 100,
if the time is a proper one; and if there is none (`localtime` fails, for years that are no `int`). -/
theorem C79_undefined (level : Nat) (usec tid : Nat) (o : Os) :
    head level none usec tid o = none ∧
    ∀ t, Valid t → (head level (some t) usec tid o = none ↔ t.year < 0 ∧ ¬ (100 : Int) ∣ t.year) := by
  refine ⟨rfl, ?_⟩
  intro t hv
  obtain ⟨o1, e1⟩ := lut_day_some (o.text (Log.levelName level).1) t.mday hv.mday.1 hv.mday.2
  obtain ⟨o2, e2⟩ := lut_some (o1.text ['-']) 1 12 (by omega) t.mon hv.mon.1 (by have := hv.mon; omega)
  by_cases hy : 0 ≤ t.year.tmod 100
  · obtain ⟨o3, e3⟩ := lut_some (o2.text ['-']) 0 99 (by omega) (t.year.tmod 100) hy (by
      have := Int.tmod_lt_of_pos t.year (b := 100) (by omega); omega)
    obtain ⟨o4, e4⟩ := lut_some (o3.text [' ']) 0 23 (by omega) t.hour hv.hour.1 (by have := hv.hour; omega)
    obtain ⟨o5, e5⟩ := lut_some (o4.text [':']) 0 59 (by omega) t.min hv.min.1 (by have := hv.min; omega)
    obtain ⟨o6, e6⟩ := lut_some (o5.text [':']) 0 61 (by omega) t.sec hv.sec.1 (by have := hv.sec; omega)
    constructor
    · intro h
      unfold head at h
      simp only [headFmt, printTime, Elem.print, e1, e2, e3, e4, e5, e6] at h
      cases h
    · rintro ⟨h1, h2⟩
      exfalso
      apply h2
      have h3 := Int.mul_tdiv_add_tmod t.year 100
      have h4 : t.year.tmod 100 ≤ 0 := by
        have := Int.neg_tmod (a := -t.year) (b := 100)
        rw [Int.neg_neg] at this
        rw [this]
        have := Int.tmod_nonneg (a := -t.year) 100 (by omega)
        omega
      exact ⟨t.year.tdiv 100, by omega⟩
  · have e3 : (o2.text ['-']).lut (lutFrom 0 99) (t.year.tmod 100 * 2) 2 = none := by
      unfold Os.lut; rw [if_neg (by omega)]
    constructor
    · intro _
      refine ⟨?_, ?_⟩
      · apply Int.not_le.1
        intro h
        exact hy (Int.tmod_nonneg 100 h)
      · intro h
        rw [Int.tmod_eq_zero_of_dvd h] at hy
        omega
    · intro _
      unfold head
      simp only [headFmt, printTime, Elem.print, e1, e2, e3]

/-! ### What does not hold -/

/-- 17 November 2026, 05:30:00. -/
def aTime : Tm := ⟨126, 10, 17, 5, 30, 0⟩

theorem aTime_valid : Valid aTime := by constructor <;> decide

/-- **C79** does not hold on a stream with `std::left`: five microseconds are shown as half a second. -/
theorem C79_violated_left : head 3 (some aTime) 5 1 { flags := { adj := .left } } = head 3 (some aTime) 500000 1 { flags := { adj := .left } } ∧
    (head 3 (some aTime) 5 1 { flags := { adj := .left } }).map (·.out) = some "\x1b[0;32m17-11-26 05:30:00.500000 [1] NOTICE - ".toList := by
  constructor <;> decide +kernel

/-- Nor on a stream with `std::hex`: sixteen microseconds and thread 16 are shown as 10. -/
theorem C79_violated_hex : (head 3 (some aTime) 16 16 { flags := { base := .hex } }).map (·.out) = (head 3 (some aTime) 10 10 {}).map (·.out) ∧
    (head 3 (some aTime) 10 10 {}).map (·.out) = some "\x1b[0;32m17-11-26 05:30:00.000010 [10] NOTICE - ".toList := by
  constructor <;> decide +kernel

/-- The stream is not left as it was: after a message, numbers of the user's own are filled with zeros. -/
theorem C79_violated_fill : ((head 3 (some aTime) 5 1 {}).map fun o => ((({ o with out := [] } : Os).setw 5).num 42).out) = some "00042".toList ∧
    ((({} : Os).setw 5).num 42).out = "   42".toList := by
  constructor <;> decide +kernel

/-- Packets on a fresh stream: a byte below 16 has but one digit. -/
theorem C79_violated_packet : (packet {} [[5#8, 16#8]]).out = "\n   @   0 :  x 5 10 ".toList ∧ ¬ ∃ t, Dump 0 [5#8, 16#8] t ∧ packet {} [[5#8, 16#8]] = { out := t } := by
  refine ⟨by decide +kernel, ?_⟩
  rintro ⟨t, ht, e⟩
  have e : (packet {} [[5#8, 16#8]]).out = t := by rw [e]
  rw [show (packet {} [[5#8, 16#8]]).out = "\n   @   0 :  x 5 10 ".toList from by decide +kernel] at e
  subst e
  generalize he : ("\n   @   0 :  x 5 10 ".toList) = w at ht
  cases ht with
  | cons hp _ =>
    obtain ⟨x, _, hp⟩ := hp
    rw [if_pos (by decide)] at hp
    obtain ⟨idx, hi, hn, rfl⟩ := hp
    have h4 : idx[0]? = some ' ' := by
      have := congrArg (·[6]?) he
      simp only [List.append_assoc] at this
      rw [List.getElem?_append_right (by decide)] at this
      rw [List.getElem?_append_left (by show 6 - 6 < idx.length; omega)] at this
      exact this.symm
    have hd := ((numeral_iff decOk 10 idx _).1 hn).2.1
    have hmem : ' ' ∈ idx := List.mem_of_getElem? h4
    have := hd ' ' hmem
    revert this
    decide +kernel

/-- … and on a stream with `std::left` bytes 5 and 80 look the same. -/
theorem C79_violated_packet_left : packet { fill := '0', flags := { adj := .left } } [[5#8]] = packet { fill := '0', flags := { adj := .left } } [[80#8]] := by decide +kernel

/-- Nodes: with `std::left` on `std::cout` the children of different trees look the same on another stream, which itself is as it should be; and the other stream has the flags of
`std::cout` from then on. -/
theorem C79_violated_nodes : (fun t : W → Node => stream (some { adj := .left }) (fun _ => none) {} 0 (t 1#32) = stream (some { adj := .left }) (fun _ => none) {} 0 (t 0x10000000#32) ∧
    (stream (some { adj := .left }) (fun _ => none) {} 0 (t 1#32)).out =
      "\n+ Node \"top\", Address 0x00000000\n  + Node \"a\", SINGLE register, Address 0x10000000, Mask 0xFFFFFFFF, Permissions rw".toList ∧
    (stream (some { adj := .left }) (fun _ => none) {} 0 (t 1#32)).flags = { adj := .left })
    fun a => .mk { uid := "top".toList } [.mk { uid := ['a'], addr := a, mode := .single } []] := by
  refine ⟨?_, ?_, ?_⟩ <;> decide +kernel

/-! ### The theorems say something -/

/-- A message on a fresh stream. -/
example : Valid aTime ∧ 0 ≤ aTime.year ∧
    (head 3 (some aTime) 1234 77 {}).map (·.out) = some "\x1b[0;32m17-11-26 05:30:00.001234 [77] NOTICE - ".toList := by
  refine ⟨aTime_valid, by decide, by decide +kernel⟩

/-- 1899 and 1800. -/
example : Valid { aTime with year := -1 } ∧ head 3 (some { aTime with year := -1 }) 0 1 {} = none ∧
    Valid { aTime with year := -100 } ∧ (head 3 (some { aTime with year := -100 }) 0 1 {}).isSome := by
  refine ⟨by constructor <;> decide, by decide +kernel, by constructor <;> decide, by decide +kernel⟩

/-- A packet in two pieces. -/
example : Tame {} ∧ (packet { fill := '0' } [[5#8, 16#8, 0xab#8], [1#8, 2#8]]).out = "\n   @ 000 :  x05 10 ab 01 \n   @ 001 :  x02 ".toList := by
  refine ⟨⟨by decide, rfl⟩, by decide +kernel⟩

/-- A tree with nodes of every kind. -/
def shown : Node := .mk { uid := "top".toList } [
  .mk { uid := "b".toList, addr := 0x10#32, mode := .incremental, size := 8#32, perm := .read, tags := "t".toList } [],
  .mk { uid := "s".toList, addr := 0x20#32, desc := "d".toList } [
    .mk { uid := "p".toList, addr := 0x21#32, mode := .nonIncremental, perm := .write, pars := [("k".toList, "v".toList)] } [],
    .mk { uid := "r".toList, addr := 0x22#32, mask := 0xF#32, mode := .single } []]]

example : (∀ p v, shown.sub? p = some v → v.d.RangeOK) ∧ Tame {} ∧
    (stream none (fun _ => none) {} 0 shown).out = ("\n+ Node \"top\", Address 0x00000000" ++
      "\n  + Node \"b\", INCREMENTAL block, Size 8, Addresses [0x00000010-00000017], Permissions r-, Tags \"t\"" ++
      "\n  + Node \"s\", Address 0x00000020, Description \"d\"" ++
      "\n    + Node \"p\", NON-INCREMENTAL block, Address 0x00000021, Permissions -w, Parameters: k=v;" ++
      "\n    + Node \"r\", SINGLE register, Address 0x00000022, Mask 0x0000000F, Permissions rw").toList := by
  refine ⟨?_, ⟨by decide, rfl⟩, by decide +kernel⟩
  intro p v h
  have hp : v.d.addr.toNat < 0x23 ∧ 1 ≤ v.d.size.toNat ∧ v.d.size.toNat ≤ 8 := by
    have hall : ∀ q ∈ pre shown, ∀ v, shown.sub? q = some v → v.d.addr.toNat < 0x23 ∧ 1 ≤ v.d.size.toNat ∧ v.d.size.toNat ≤ 8 := by
      intro q hq v hv
      have : (pre shown).all (fun q => match shown.sub? q with
        | some v => decide (v.d.addr.toNat < 0x23 ∧ 1 ≤ v.d.size.toNat ∧ v.d.size.toNat ≤ 8) | none => true) = true := by decide +kernel
      have := List.all_eq_true.1 this q hq
      rw [hv] at this
      simpa using this
    exact hall p ((mem_pre shown p).2 ⟨v, h⟩) v h
  unfold NodeData.RangeOK
  omega

end Verif.Os
