import Verif.Lemmas.SoakRun
import Verif.Lemmas.Demo
/-!
# C76: the validation test accepts memory and nothing that behaves otherwise

`PerfTester::runValidationTest` (/repo/uhal/tests/src/common/PerfTester_static.cpp) writes, reads, modifies and compares random values. The theorems are about the calls that it
makes with the random numbers `g`, through the modelled clients (packets, replies, validation, value memories), to any target that executes well-formed packets.

* `C76_verdict_partial`: the test returns true exactly if, for each client, every call of its plan gives what it would give in memory (whatever is in there at first). If one
  gives something else in the first part the process ends; in the second part the test returns false. There is no other outcome.
* `C76_accepts_partial`: no false alarms. Devices whose addresses base … base + depth - 1 are memory pass.
* `C76_dummy_partial`: `DummyHardware` passes, directly and through a ControlHub.

Missing, hence `_partial`: the test takes the IPbus version from the text of the URI, and may be misled by a host name (`C76_violated_uri`); `rand() + rand()` overflows
(`C76_violated_overflow`); a failure in the first part ends the process instead of returning false (`C76_violated_exit`); depth 0 (`C76_violated_depth`). Packets that are lost
or delayed are not in this model of the connection (`linkT`); the plan has less than 2^29 words in a block.
-/

set_option autoImplicit false
set_option linter.unusedSimpArgs false

namespace Verif
open Spec Soak

section
variable {σ ρ : Type}

/-- A client of the library with the device at its other end: buffer sizes as those of the library, a device that executes well-formed packets, a URI whose protocol belongs to
the version and that does not look like one of the other version. -/
structure ValidSite (s : Site σ ρ) : Prop where
  wf : WF s.c
  cap : CapOK s.c
  roomy : s.c.ver = .v2 → Roomy s.c
  conf : Conforms s.c s.tg s.mem s.resp
  uri : ∃ u : Uri.Uri, s.uri = Uri.print u ∧ u.protocol ∈ protocols s.c.ver ∧ Unambiguous s.c.ver s.uri

theorem ValidSite.ok {s : Site σ ρ} (h : ValidSite s) : s.OK ∧ vsn s.uri = some s.c.ver := by
  obtain ⟨u, u1, u2, u3⟩ := h.uri
  rw [u1] at u3
  obtain ⟨v1, v2⟩ := version_ok u2 u3
  rw [← u1] at v1 v2
  exact ⟨⟨h.wf, h.cap, h.roomy, h.conf, v1⟩, v2⟩

/-- C76: what the test returns. `B` and `S` are the calls of both parts, for each client; `Same` compares what the device gives, executing them one after the other, with what
memory gives. -/
theorem C76_verdict_partial {p : Args} (hd : p.depth ≠ 0) (hd' : p.depth.toNat < 2 ^ 29) {g : Rnd} (hg : NoOverflow p.wrap g) (ss : List (Site σ ρ)) (hss : ∀ s ∈ ss, ValidSite s) :
    let B := basicPlan p (ss.map Site.uri) g
    let S := soakPlan p (ss.map Site.uri) B.2
    B.1.length = ss.length ∧ S.length = ss.length ∧
    (∀ x ∈ ss.zip (B.1.zip S), (∀ op ∈ ops x.2.1 ++ ops x.2.2, Touches (InRegion p.base p.depth) op) ∧
      ∀ m : W → W, Agree (wants x.2.1 ++ wants x.2.2) (seqRun x.1.c.ver ram (ops x.2.1 ++ ops x.2.2) m).1) ∧
    (runValidationTest p (ss.map Site.client) g = .returns true ↔ ∀ x ∈ ss.zip (B.1.zip S), x.1.Same (ops x.2.1 ++ ops x.2.2)) ∧
    (runValidationTest p (ss.map Site.client) g = .exit ↔ ∃ x ∈ ss.zip B.1, ¬ x.1.Same (ops x.2)) ∧
    (runValidationTest p (ss.map Site.client) g = .returns false ↔
      (∀ x ∈ ss.zip B.1, x.1.Same (ops x.2)) ∧ ∃ x ∈ ss.zip (B.1.zip S), ¬ x.1.Same (ops x.2.1 ++ ops x.2.2)) := by
  intro B S
  obtain ⟨b1, b2, b3, b4⟩ := basicAll_eq hd hd' ss (fun s hs => (hss s hs).ok.1) hg
  obtain ⟨S1, S2⟩ := soak_plan_fine hd hd' ss (fun s hs => (hss s hs).ok.2) b3 b2 b1
  refine ⟨b3, S2, ?_, ?_⟩
  · intro x hx
    have f := S1 x hx
    refine ⟨?_, ?_⟩
    · rw [← ops_append]; exact f.sane.touch
    · intro m; rw [← ops_append, ← wants_append]; exact f.right m
  have half : ∀ x ∈ ss.zip (B.1.zip S), x.1.Same (ops x.2.1 ++ ops x.2.2) → x.1.Same (ops x.2.1) := by
    intro x _ h m
    have := h m
    rw [seqRun_append, seqRun_append] at this
    exact (List.append_inj this (by rw [seqRun_length, seqRun_length])).1
  have both : (∀ x ∈ ss.zip (B.1.zip S), x.1.Same (ops x.2.1 ++ ops x.2.2)) → ∀ x ∈ ss.zip B.1, x.1.Same (ops x.2) := by
    intro h x hx
    obtain ⟨i, hi, rfl⟩ := List.mem_iff_getElem.1 hx
    have e1 : i < ss.length := by simp only [List.length_zip] at hi; omega
    have e2 : i < B.1.length := by simp only [List.length_zip] at hi; omega
    have e3 : i < S.length := by rw [S2]; exact e1
    have hm : (ss[i], (B.1[i], S[i])) ∈ ss.zip (B.1.zip S) := by
      refine List.mem_iff_getElem.2 ⟨i, by simp only [List.length_zip]; omega, by simp⟩
    have := half _ hm (h _ hm)
    simpa using this
  unfold runValidationTest
  rcases b4 with ⟨a1, ks, a2, a3⟩ | ⟨a1, a2⟩
  · rw [a2]
    obtain ⟨_, _, c3⟩ := soakAll_eq hd hd' ss (fun s hs => (hss s hs).ok) b2 a3 b1
    have hno : ¬ ∃ x ∈ ss.zip B.1, ¬ x.1.Same (ops x.2) := by rintro ⟨x, h1, h2⟩; exact h2 (a1 x h1)
    dsimp only
    rcases c3 with ⟨d1, d2⟩ | ⟨d1, d2⟩
    · rw [d2]
      refine ⟨⟨fun _ => d1, fun _ => rfl⟩, ⟨(fun h => by cases h), fun h => (hno h).elim⟩, ⟨(fun h => by cases h), ?_⟩⟩
      rintro ⟨_, x, h1, h2⟩
      exact (h2 (d1 x h1)).elim
    · rw [d2]
      refine ⟨⟨(fun h => by cases h), ?_⟩, ⟨(fun h => by cases h), fun h => (hno h).elim⟩, ⟨fun _ => ⟨a1, d1⟩, fun _ => rfl⟩⟩
      intro h
      obtain ⟨x, h1, h2⟩ := d1
      exact (h2 (h x h1)).elim
  · rw [a2]
    obtain ⟨x, h1, h2⟩ := a1
    refine ⟨⟨(fun h => by cases h), fun h => (h2 (both h x h1)).elim⟩, ⟨fun _ => ⟨x, h1, h2⟩, fun _ => rfl⟩, ⟨(fun h => by cases h), fun h => (h2 (h.1 x h1)).elim⟩⟩

/-- C76: no false alarms. -/
theorem C76_accepts_partial {p : Args} (hd : p.depth ≠ 0) (hd' : p.depth.toNat < 2 ^ 29) {g : Rnd} (hg : NoOverflow p.wrap g) (ss : List (Site σ ρ)) (hss : ∀ s ∈ ss, ValidSite s)
    (hram : ∀ s ∈ ss, ∃ get, ActsAsRam s.tg (InRegion p.base p.depth) get) :
    runValidationTest p (ss.map Site.client) g = .returns true := by
  obtain ⟨_, _, h3, h4, _⟩ := C76_verdict_partial hd hd' hg ss hss
  refine h4.2 ?_
  intro x hx
  obtain ⟨get, hget⟩ := hram x.1 (List.of_mem_zip (a := x.1) (b := x.2) hx).1
  obtain ⟨b1, b2, b3, _⟩ := basicAll_eq hd hd' ss (fun s hs => (hss s hs).ok.1) hg
  have f := (soak_plan_fine hd hd' ss (fun s hs => (hss s hs).ok.2) b3 b2 b1).1 x hx
  have := Site.same_of_ram hget f
  rw [ops_append] at this
  exact this

/-- A word that is not read back makes a difference. -/
theorem ram_differs {v : Ver} {tg : Target σ} {a x : W} (hbad : ∀ m d, (tg.rd (tg.wr m a d) a).1 ≠ d) {pre post : List Op} {m : σ} {m' : W → W}
    (h : (seqRun v tg (pre ++ ([Op.write a x, .dispatch, .read a] ++ post)) m).1 = (seqRun v ram (pre ++ ([Op.write a x, .dispatch, .read a] ++ post)) m').1) : False := by
  simp only [seqRun_append] at h
  have h := (List.append_inj h (by rw [seqRun_length, seqRun_length])).2
  have h := (List.append_inj h (by rw [seqRun_length, seqRun_length])).1
  simp [seqRun, opAccs, execAccs, opShow, Acc.exec, ram] at h
  exact hbad _ _ h

/-- C76: if the first or the last address of one of the devices never gives what was written, the process ends. -/
theorem C76_detects_partial {p : Args} (hd : p.depth ≠ 0) (hd' : p.depth.toNat < 2 ^ 29) {g : Rnd} (hg : NoOverflow p.wrap g) (ss : List (Site σ ρ)) (hss : ∀ s ∈ ss, ValidSite s)
    {s : Site σ ρ} (hs : s ∈ ss) {a : W} (ha : a = p.base ∨ a = p.base + p.depth - 1) (hbad : ∀ m d, (s.tg.rd (s.tg.wr m a d) a).1 ≠ d) :
    runValidationTest p (ss.map Site.client) g = .exit := by
  obtain ⟨h1, _, _, _, h5, _⟩ := C76_verdict_partial hd hd' hg ss hss
  refine h5.2 ?_
  obtain ⟨i, hi, rfl⟩ := List.mem_iff_getElem.1 hs
  have hm : (ss[i], (basicPlan p (ss.map Site.uri) g).1[i]'(by rw [h1]; exact hi)) ∈ ss.zip (basicPlan p (ss.map Site.uri) g).1 :=
    List.mem_iff_getElem.2 ⟨i, by simp only [List.length_zip, h1]; omega, by simp⟩
  refine ⟨_, hm, ?_⟩
  intro hsame
  obtain ⟨g', hg'⟩ := basicPlan_mem ss g _ hm
  obtain ⟨pre, x, post, hops⟩ := basic_covers (wrap := p.wrap) (uri := ss[i].uri) hd ha p.each g'
  have h := hsame fun _ => 0
  dsimp only at hg' h
  rw [hg', hops] at h
  exact ram_differs hbad h

end

/-- A client and a `DummyHardware`, with the packets through a ControlHub if the client has one. -/
def dummySite (c : Cfg) (uri : Str) (cfg : W → W) (d : Dev (W → W)) (sched : List (Nat × Nat)) : Site (W → W) (Dev (W → W)) :=
  ⟨c, uri, dummyTarget cfg, Dev.mem, viaHub c (dummyTarget cfg), d, sched⟩

/-- C76: `DummyHardware` passes the test. -/
theorem C76_dummy_partial {p : Args} (hd : p.depth ≠ 0) (hd' : p.depth.toNat ≤ 2 ^ 24) {g : Rnd} (hg : NoOverflow p.wrap g)
    (cs : List (Cfg × Uri.Uri × (W → W) × Dev (W → W) × List (Nat × Nat)))
    (hcs : ∀ x ∈ cs, WF x.1 ∧ CapOK x.1 ∧ (x.1.ver = .v2 → Roomy x.1) ∧ x.2.1.protocol ∈ protocols x.1.ver ∧ Unambiguous x.1.ver (Uri.print x.2.1)) :
    runValidationTest p ((cs.map fun x => dummySite x.1 (Uri.print x.2.1) x.2.2.1 x.2.2.2.1 x.2.2.2.2).map Site.client) g = .returns true := by
  refine C76_accepts_partial hd (by omega) hg _ ?_ ?_
  · intro s hs
    obtain ⟨x, hx, rfl⟩ := List.mem_map.1 hs
    obtain ⟨h1, h2, h3, h4, h5⟩ := hcs x hx
    exact ⟨h1, h2, h3, dummy_conforms _ _, _, rfl, h4, h5⟩
  · intro s hs
    obtain ⟨x, hx, rfl⟩ := List.mem_map.1 hs
    exact ⟨_, dummy_ram _ _ _ hd'⟩

/-! ## Cases that meet the hypotheses -/

/-- `chtcp-1.3://hub:10203?target=crate:50001` and `ipbusudp-2.0://crate:50001` -/
def demoUris : List (Cfg × Uri.Uri × (W → W) × Dev (W → W) × List (Nat × Nat)) :=
  [(demoHub .v1, ⟨"chtcp-1.3".toList, "hub".toList, "10203".toList, [], [], [("target".toList, "crate:50001".toList)]⟩, fun _ => 0, ⟨fun _ => 0, 0⟩, [(2, 1), (0, 3)]),
   (demoCfg .v2, ⟨"ipbusudp-2.0".toList, "crate".toList, "50001".toList, [], [], []⟩, fun _ => 0, ⟨fun _ => 5, 0⟩, [])]

example : runValidationTest ⟨0x1000, 20, 300, false, true, fun m r => r % m⟩
    ((demoUris.map fun x => dummySite x.1 (Uri.print x.2.1) x.2.2.1 x.2.2.2.1 x.2.2.2.2).map Site.client) (fun n => BitVec.ofNat 31 (n * n + 3)) = .returns true := by
  refine C76_dummy_partial (by decide) (by decide) (.inl rfl) _ ?_
  intro x hx
  simp only [demoUris, List.mem_cons, List.not_mem_nil, or_false] at hx
  rcases hx with rfl | rfl
  · refine ⟨demoHub_wf _, demoHubCap _, fun _ => demoHubRoomy _, by decide, ?_⟩
    intro p hp
    rw [← contains_iff]
    revert p
    decide +kernel
  · refine ⟨demoCfg_wf _, demoCap _, fun _ => demoRoomy _, by decide, ?_⟩
    show ¬ Has _ _
    rw [← contains_iff]
    decide +kernel

/-! ## What is missing -/

/-- C76: with depth 0 the test computes `rand() % 0`. -/
theorem C76_violated_depth {τ : Type} {p : Args} (hd : p.depth = 0) (k : Client τ) (ks : List (Client τ)) (g : Rnd) : runValidationTest p (k :: ks) g = .ub := by
  have e : basicAll p (k :: ks) g = .inl .ub := by
    unfold basicAll basicSteps
    rw [if_pos hd]
    rfl
  unfold runValidationTest
  rw [e]

/-- A register that gives one more than was written. -/
def offByOne : Target (W → W) := ⟨fun m a => (m a + 1, m), fun m a d => fun b => if b = a then d else m b, fun m _ => (0, m)⟩

theorem demo_uri2 : Unambiguous .v2 (Uri.print ⟨"ipbusudp-2.0".toList, "crate".toList, "50001".toList, [], [], []⟩) := by
  show ¬ Has _ _
  rw [← contains_iff]
  decide +kernel

/-- C76: lines 423-431, which return false after failures in the first part, are not reached: such a failure ends the process. -/
theorem C76_violated_exit : ∃ (p : Args) (s : Site (W → W) (Dev (W → W))), ValidSite s ∧ p.depth ≠ 0 ∧ ∀ g, runValidationTest p [s.client] g = .exit := by
  have hv : ValidSite (⟨demoCfg .v2, Uri.print ⟨"ipbusudp-2.0".toList, "crate".toList, "50001".toList, [], [], []⟩, offByOne, Dev.mem, viaHub (demoCfg .v2) offByOne, ⟨fun _ => 0, 0⟩, []⟩ :
      Site (W → W) (Dev (W → W))) := ⟨demoCfg_wf _, demoCap _, fun _ => demoRoomy _, dummy_conforms _ _, _, rfl, by decide, demo_uri2⟩
  refine ⟨⟨0x1000, 20, 1, true, true, fun m _ => m⟩, _, hv, by decide, fun g => ?_⟩
  refine C76_detects_partial (by decide) (by decide) (.inl rfl) [_] ?_ (List.mem_singleton.2 rfl) (.inl rfl) ?_
  · intro s hs
    rw [List.mem_singleton.1 hs]
    exact hv
  · intro m d h
    simp only [offByOne, if_true] at h
    have := congrArg (· - d) h
    simp only [BitVec.sub_self, BitVec.add_comm d 1, BitVec.add_sub_cancel] at this
    exact absurd this (by decide)

/-! ### Constant streams of random numbers -/

section
variable {x : BitVec 31}

theorem shift_const {g : Rnd} (h : ∀ n, g n = x) : ∀ n, g.rand.2 n = x := fun n => h (n + 1)

theorem buffer_const (wrap : Bool) (n : Nat) {g : Rnd} (h : ∀ n, g n = x) : ∀ k, (getRandomBuffer wrap n g).2 k = x := by
  induction n generalizing g with
  | zero => exact h
  | succ n ih =>
    unfold getRandomBuffer
    cases addInts wrap (g 0) (g 1) with
    | none => exact fun k => h (k + 2)
    | some y => exact ih fun k => h (k + 2)

theorem addrs_const (base depth : W) (n : Nat) {g : Rnd} (h : ∀ n, g n = x) : ∀ k, (randomAddrs base depth n g).2 k = x := by
  induction n generalizing g with
  | zero => exact h
  | succ n ih => exact ih (shift_const h)

theorem block_const (wrap : Bool) (a n : W) (per : Bool) {g : Rnd} (h : ∀ n, g n = x) : ∀ k, (blockWriteRead wrap a n per g).2 k = x := by
  unfold blockWriteRead
  have := buffer_const wrap n.toNat h
  revert this
  generalize getRandomBuffer wrap n.toNat g = r
  obtain ⟨o, r⟩ := r
  cases o <;> exact fun h => h

theorem twice_const {test : W → Bool → Rnd → List Soak.Step × Rnd} (ht : ∀ a per g, (∀ n, g n = x) → ∀ n, (test a per g).2 n = x) (each : Bool) (as : List W) {g : Rnd} (h : ∀ n, g n = x) :
    ∀ k, (twice test each as g).2 k = x := by
  induction as generalizing g with
  | nil => exact h
  | cons a as ih => exact ih (ht _ _ _ (ht _ _ _ h))

theorem blocks_const (wrap : Bool) (base depth : W) (each : Bool) (as : List W) {g : Rnd} (h : ∀ n, g n = x) : ∀ k, (blocks wrap base depth each as g).2 k = x := by
  induction as generalizing g with
  | nil => exact h
  | cons a as ih =>
    unfold blocks
    dsimp only
    split
    · exact shift_const h
    · exact ih (block_const _ _ _ _ (block_const _ _ _ _ (shift_const h)))

theorem single_const (a : W) (per : Bool) (g : Rnd) (h : ∀ n, g n = x) : ∀ n, (singleWriteRead a per g).2 n = x := shift_const h

theorem basic_const (wrap : Bool) (uri : Str) (base depth : W) (each : Bool) {g : Rnd} (h : ∀ n, g n = x) : ∀ k, (basicSteps wrap uri base depth each g).2 k = x := by
  unfold basicSteps
  split
  · exact shift_const h
  · have hr := addrs_const base depth 2498 h
    revert hr
    generalize randomAddrs base depth 2498 g = r
    intro hr
    dsimp only
    generalize hL : base :: (base + depth - 1) :: r.1 = L
    have h1 := twice_const (test := singleWriteRead) single_const each L hr
    have h2 := blocks_const wrap base depth each L h1
    have h3 := twice_const (test := writeRmwBitsRead (looksV2 uri)) (fun _ _ _ h n => h (n + 3)) each L h2
    exact twice_const (test := writeRmwSumRead (looksV2 uri)) (fun _ _ _ h n => h (n + 2)) each L h3

end

/-- The client of the witnesses: version 2 over UDP. -/
def demoSite (uri : Str) : Site (W → W) (Dev (W → W)) := dummySite (demoCfg .v2) uri (fun _ => 0) ⟨fun _ => 0, 0⟩ []

theorem overflow_steps (c : Cfg) (v : Ver) (uri : Str) : ∃ l rest, (basicSteps false uri 0x1000 4 true fun _ => 0x40000000#31).1 = l ++ .undef :: rest ∧ Fine c v 0x1000 4 l := by
  obtain ⟨r1, _⟩ := randomAddrs_ok (base := 0x1000) (depth := 4) (by decide) 2498 (wrap := true) (g := fun _ => 0x40000000#31) (.inl rfl)
  have hr := addrs_const 0x1000 4 2498 (g := fun _ => 0x40000000#31) fun _ => rfl
  unfold basicSteps
  rw [if_neg (by decide)]
  revert r1 hr
  generalize randomAddrs 0x1000 4 2498 (fun _ => 0x40000000#31) = r
  intro r1 hr
  dsimp only
  generalize hb : r.1 = L at r1
  have hreg : ∀ a ∈ (0x1000 : W) :: (0x1000 + 4 - 1) :: L, InRegion 0x1000 4 a := by
    intro a ha
    simp only [List.mem_cons] at ha
    rcases ha with rfl | rfl | ha
    · show (_ : Nat) < _; decide
    · show (_ : Nat) < _; decide
    · exact r1 a ha
  obtain ⟨a1, _⟩ := twice_fine (c := c) (v := v) (test := singleWriteRead) (fun a per g ha hg => ⟨single_fine ha per g, hg.rand⟩) true _ hreg (wrap := true) (g := r.2) (.inl rfl)
  have hc := twice_const (test := singleWriteRead) single_const true ((0x1000 : W) :: (0x1000 + 4 - 1) :: L) hr
  have hb' : ∀ g : Rnd, (∀ n, g n = 0x40000000#31) → ∃ rest, (blocks false 0x1000 4 true ((0x1000 : W) :: (0x1000 + 4 - 1) :: L) g).1 = .undef :: rest := by
    intro g hg
    have e : g = fun _ => 0x40000000#31 := funext hg
    have e1 : ∀ g', blockWriteRead false 0x1000 ((g 0).setWidth 32 % (0x1000 + 4 - 0x1000 + 1)) true g.rand.2 = g' → g'.1 = [.undef] := by
      rintro g' rfl
      rw [e]
      decide +kernel
    unfold blocks
    dsimp only
    rw [if_neg (by decide)]
    rw [show (Rnd.rand g).1 = (g 0).setWidth 32 from rfl, e1 _ rfl]
    simp only [List.cons_append]
    exact ⟨_, rfl⟩
  obtain ⟨rest, hrest⟩ := hb' _ hc
  rw [hrest]
  simp only [List.append_assoc, List.cons_append]
  exact ⟨_, _, rfl, a1⟩

theorem overflow_run {s : Site (W → W) (Dev (W → W))} (hv : ValidSite s) {get : (W → W) → W → W} (hm : ActsAsRam s.tg (InRegion 0x1000 4) get) (n : Nat) (f : W → W → W) :
    runValidationTest ⟨0x1000, 4, n, true, false, f⟩ [s.client] (fun _ => 0x40000000#31) = .ub := by
  obtain ⟨l, rest, hl, hf⟩ := overflow_steps s.c s.c.ver s.uri
  have hA := (Site.OK.same hf).2 (Site.same_of_ram hm hf)
  have hst := (At.start (c := s.c) (T := linkT s.c s.resp) (s0 := St.init (Link.init s.env s.sched)) (tg := s.tg) (m := s.mem s.env)).steps hv.ok.1.refines l hf.sane.ok (hf.sane.ord false)
  simp only [List.nil_append] at hst
  rcases hst with ⟨_, d', hs', st, a2, _⟩ | ⟨a1, _⟩
  · have h := runSteps_append (b := .undef :: rest) a2
    rw [← hl] at h
    have h2 : runSteps s.client.c s.client.T s.client.heap (basicSteps false s.client.uri 0x1000 4 true fun _ => 0x40000000#31).1 s.client.st [] = .ub := by
      refine Eq.trans ?_ (h.trans ?_)
      · rfl
      · simp only [runSteps]
    simp only [runValidationTest, basicAll, h2]
  · exact (a1 hA).elim

/-- C76: `rand() + rand()` (line 88) overflows. A perfect memory of four words, and a run without a defined behaviour. -/
theorem C76_violated_overflow : ∃ (p : Args) (u : Uri.Uri) (g : Rnd), p.depth ≠ 0 ∧ ValidSite (demoSite (Uri.print u)) ∧
    ActsAsRam (demoSite (Uri.print u)).tg (InRegion p.base p.depth) (fun m a => m (a &&& 0x00FFFFFF)) ∧ runValidationTest p [(demoSite (Uri.print u)).client] g = .ub := by
  have hv : ValidSite (demoSite (Uri.print ⟨"ipbusudp-2.0".toList, "crate".toList, "50001".toList, [], [], []⟩)) :=
    ⟨demoCfg_wf _, demoCap _, fun _ => demoRoomy _, dummy_conforms _ _, _, rfl, by decide, demo_uri2⟩
  refine ⟨⟨0x1000, 4, 1, true, false, fun m _ => m⟩, ⟨"ipbusudp-2.0".toList, "crate".toList, "50001".toList, [], [], []⟩, fun _ => 0x40000000#31, by decide, hv, ?_, ?_⟩
  · exact dummy_ram _ _ _ (by decide)
  exact overflow_run hv (dummy_ram _ _ _ (by decide)) _ _

/-- A soak test with one transaction. -/
def uriList : List Soak.Step :=
  [.call (.writeBlock 0x1000 [0, 0, 0, 0] true) none, .call .dispatch none, .call (.rmwSum 0x1003 7) (some [7]), .call .dispatch none, .call .dispatch none, .check]

theorem uri_steps (f : W → W → W) : soakSteps true f "ipbusudp-2.0://crate-1.3:50001".toList 0x1000 4 1 false (fun _ => 7#31) = some (uriList, fun _ => 7#31) := by
  have e : vsn "ipbusudp-2.0://crate-1.3:50001".toList = some .v1 := by decide +kernel
  unfold soakSteps
  rw [e]
  rfl

theorem uriList_ok (c : Cfg) : ∀ x ∈ uriList, StepOK c x := by
  intro x hx
  simp only [uriList, List.mem_cons, List.not_mem_nil, or_false] at hx
  rcases hx with rfl | rfl | rfl | rfl | rfl | rfl
  · exact .silent (by simp [Op.ok]) rfl
  · exact .silent trivial rfl
  · exact .keeps trivial rfl
  · exact .silent trivial rfl
  · exact .silent trivial rfl
  · trivial

theorem uriList_touch : ∀ op ∈ ops uriList, Touches (InRegion 0x1000 4) op := by
  intro op ho
  simp only [uriList, ops_call, ops_check, ops_nil, List.mem_cons, List.not_mem_nil, or_false] at ho
  rcases ho with rfl | rfl | rfl | rfl | rfl
  · refine ⟨rfl, fun i hi => ?_⟩
    have : ∀ i < 4, ((0x1000 : W) + BitVec.ofNat 32 i - 0x1000).toNat < 4 := by decide
    exact this i hi
  · trivial
  · show (_ : Nat) < _; decide
  · trivial
  · trivial

theorem uriList_wrong (m : W → W) : ¬ Right .v2 uriList m := by
  unfold uriList
  rw [r_wblock _ _ _ (by simp) _ _ (by decide), r_disp, r_sum]
  rintro ⟨h, _⟩
  exact absurd h (by show ¬ ((0 : W) = 7); decide)

/-- What the soak test expects of a version 1 device is not what version 2 devices do. -/
theorem uri_run {s : Site (W → W) (Dev (W → W))} (hs : s.OK) (hv : s.c.ver = .v2) (hu : s.uri = "ipbusudp-2.0://crate-1.3:50001".toList) {get : (W → W) → W → W}
    (hm : ActsAsRam s.tg (InRegion 0x1000 4) get) {p : Args} {f : W → W → W} (hp : p = ⟨0x1000, 4, 1, false, true, f⟩) : runValidationTest p [s.client] (fun _ => 7#31) = .returns false := by
  have hd : p.depth = 4 := by rw [hp]
  have hb : p.base = 0x1000 := by rw [hp]
  have hw : p.wrap = true := by rw [hp]
  obtain ⟨_, b2, _, b4⟩ := basicAll_eq (p := p) (by rw [hd]; decide) (by rw [hd]; decide) [s] (by simpa using hs) (g := fun _ => 7#31) (.inl hw)
  rcases b4 with ⟨_, ks, a2, a3⟩ | ⟨⟨x, hx, hbad⟩, _⟩
  · have hg : (basicPlan p ([s].map Site.uri) fun _ => 7#31).2 = fun _ => 7#31 := by
      funext k
      simp only [List.map_cons, List.map_nil, basicPlan]
      exact basic_const _ _ _ _ _ (fun _ => rfl) k
    rw [hg] at a2
    revert a3
    generalize (basicPlan p ([s].map Site.uri) fun _ => 7#31).1 = bs
    intro a3
    cases a3 with
    | @cons _ _ b _ k _ st hs' hk hat hr =>
      cases hr
      unfold runValidationTest
      rw [show [s.client] = [s].map Site.client from rfl, a2]
      dsimp only
      have hst := hat.steps hs.refines uriList (uriList_ok _) ⟨rfl, rfl⟩
      rcases hst with ⟨a1, _⟩ | ⟨_, a4⟩
      · exfalso
        rw [seqRun_append] at a1
        dsimp only at a1
        rw [agree_append (by rw [seqRun_length, wants_length])] at a1
        have h := a1.2
        rw [hv, sim_ops hm _ uriList_touch _ _ fun _ _ => rfl] at h
        exact uriList_wrong _ h
      · subst hk hp
        unfold soakAll
        dsimp only
        rw [hu, uri_steps]
        dsimp only
        rw [a4]
  · have hf := b2 x hx
    have hx1 : x.1 = s := List.mem_singleton.1 (List.of_mem_zip (a := x.1) (b := x.2) hx).1
    rw [hd, hb] at hf
    rw [← hx1] at hm
    exact (hbad (Site.same_of_ram hm hf)).elim

/-- C76: the soak test looks for `-1.3` anywhere in the URI. Behind `ipbusudp-2.0://crate-1.3:50001` a perfect memory is rejected. -/
theorem C76_violated_uri : ∃ (p : Args) (u : Uri.Uri) (g : Rnd), p.depth ≠ 0 ∧ NoOverflow p.wrap g ∧ u.protocol ∈ protocols .v2 ∧ (demoSite (Uri.print u)).c.ver = .v2 ∧
    (demoSite (Uri.print u)).OK ∧ ActsAsRam (demoSite (Uri.print u)).tg (InRegion p.base p.depth) (fun m a => m (a &&& 0x00FFFFFF)) ∧
    runValidationTest p [(demoSite (Uri.print u)).client] g = .returns false := by
  have hu : Uri.print ⟨"ipbusudp-2.0".toList, "crate-1.3".toList, "50001".toList, [], [], []⟩ = "ipbusudp-2.0://crate-1.3:50001".toList := by decide +kernel
  have hok : (demoSite (Uri.print ⟨"ipbusudp-2.0".toList, "crate-1.3".toList, "50001".toList, [], [], []⟩)).OK := by
    refine ⟨demoCfg_wf _, demoCap _, fun _ => demoRoomy _, dummy_conforms _ _, ?_⟩
    show looksV2 (Uri.print _) = true
    rw [hu]
    decide +kernel
  exact ⟨⟨0x1000, 4, 1, false, true, fun m _ => m⟩, ⟨"ipbusudp-2.0".toList, "crate-1.3".toList, "50001".toList, [], [], []⟩, fun _ => 7#31, by decide, .inl rfl, by decide, rfl, hok,
    dummy_ram _ _ _ (by decide), uri_run hok rfl hu (dummy_ram _ _ _ (by decide)) rfl⟩

end Verif
