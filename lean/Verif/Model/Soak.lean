import Verif.Model.ValMem
import Verif.Model.Uri
import Verif.Spec.Prog
/-!
# The validation test

Models `PerfTester::runValidationTest` and what it calls, /repo/uhal/tests/src/common/PerfTester_static.cpp; line numbers without a file name refer to it.

The random numbers do not depend on what the hardware answers, so the calls that a test makes and the values it expects are computed first (`Step`), then carried out
(`runSteps`): a step that is not reached has no effect.

Simplifications:
* messages and the progress report are left out;
* `getRandomBlockSize` computes in `double`: the number before the final comparison is any function of the random number and the maximum;
* `unsigned i` counts up to the number of iterations, which has to be below 2^32 (otherwise the loop does not end);
* the devices of different clients have nothing to do with each other.
-/

set_option autoImplicit false

namespace Verif.Soak

/-- The values that `rand()` is going to return, 0 ≤ `rand()` ≤ `RAND_MAX` = 2^31 - 1. -/
abbrev Rnd := Nat → BitVec 31

/-- `const uint32_t x = rand()` -/
def Rnd.rand (g : Rnd) : W × Rnd := ((g 0).setWidth 32, fun n => g (n + 1))

/-- `rand() + rand()`, an addition of `int`s. In case of overflow the behaviour is undefined (`none`), unless the compiler is told to wrap around. -/
def addInts (wrap : Bool) (a b : BitVec 31) : Option W :=
  if wrap ∨ a.toNat + b.toNat < 2 ^ 31 then some (a.setWidth 32 + b.setWidth 32) else none

/-- `getRandomBuffer`, 80-92. -/
def getRandomBuffer (wrap : Bool) : Nat → Rnd → Option (List W) × Rnd
  | 0, g => (some [], g)
  | n + 1, g =>
    match addInts wrap (g 0) (g 1) with
    | none => (none, fun n => g (n + 2))
    | some x =>
      let r := getRandomBuffer wrap n fun n => g (n + 2)
      (r.1.map (x :: ·), r.2)

/-- `getRandomBlockSize`, 58-77; `fsize` is the computation up to line 64. -/
def getRandomBlockSize (fsize : W → W → W) (maxSize : W) (g : Rnd) : W × Rnd :=
  let r := g.rand
  (if fsize maxSize r.1 > maxSize then maxSize else fsize maxSize r.1, r.2)

/-! ## Calls and checks -/

/-- Something a test does. -/
inductive Step
  /-- A call of the client. If it has an expected value, the result is kept with it: variables of the validation tests, `queuedTransactions` of the soak test. -/
  | call (op : Op) (want : Option (List W))
  /-- The results that have been kept are compared, in order, and dropped. -/
  | check
  /-- Undefined behaviour. -/
  | undef
deriving DecidableEq, Repr

/-- Result of a comparison. -/
inductive Chk
  | same | differs | threw | ub
deriving DecidableEq, Repr

/-- The loops over the words that were read, 167-178 and 598-609: the other iterator is not compared with the end. -/
def cmpLoop : List W → List W → Chk
  | [], _ => .same
  | _ :: _, [] => .ub
  | x :: xs, y :: ys => if x ≠ y then .differs else cmpLoop xs ys

/-- `value()` or iterators of a `ValWord` or a `ValVector` (120, 167, 229, 238, 288, 297, 598, 655, 680) and comparison; `valid()` of a `ValHeader`, 629. -/
def checkRes (w : Bool) (h : Heap) : Option Handle → List W → Chk
  | none, _ => .same
  | some (.hdr o), _ => if h.valid o then .same else .differs
  | some hd, want =>
    match hd.read w h with
    | .data ws => cmpLoop ws want
    | .nonValidated => .threw
    | .ub => .ub

/-- `for ( it … ) if ( ! ( *it )->check_values() ) return false;`, 557-564. -/
def checkAll (w : Bool) (h : Heap) : List (Option Handle × List W) → Chk
  | [] => .same
  | (hd, want) :: q =>
    match checkRes w h hd want with
    | .same => checkAll w h q
    | r => r

/-- How a sequence of steps ends. `done`: with the state of the client and the results that are still kept. -/
inductive Out (τ : Type)
  | done (s : St τ) (q : List (Option Handle × List W))
  | differs
  | threw
  | ub

/-- Carry out steps: everything stops with the first difference or exception. -/
def runSteps {τ : Type} (c : Cfg) (T : Transport τ) (heap : τ → Heap) : List Step → St τ → List (Option Handle × List W) → Out τ
  | [], s, q => .done s q
  | .undef :: _, _, _ => .ub
  | .call op want :: rest, s, q =>
    match op.run c T s with
    | .ok h s' => runSteps c T heap rest s' (q ++ want.toList.map fun w => (h, w))
    | .exc _ _ => .threw
    | .ub => .ub
    | .loops => .ub
  | .check :: rest, s, q =>
    match checkAll c.wrapNeg (heap s.tr) q with
    | .same => runSteps c T heap rest s []
    | .differs => .differs
    | .threw => .threw
    | .ub => .ub

/-! ## Validation tests -/

/-- `if ( perTransactionDispatch ) c.dispatch();` -/
def maybe (per : Bool) : List Step := if per then [.call .dispatch none] else []

/-- `validation_test_single_write_read`, 96-133. -/
def singleWriteRead (addr : W) (per : Bool) (g : Rnd) : List Step × Rnd :=
  let x := g.rand
  ([.call (.write addr x.1) none] ++ maybe per ++ [.call (.read addr) (some [x.1]), .call .dispatch none, .check], x.2)

/-- `validation_test_block_write_read`, 137-189. -/
def blockWriteRead (wrap : Bool) (addr depth : W) (per : Bool) (g : Rnd) : List Step × Rnd :=
  let xx := getRandomBuffer wrap depth.toNat g
  match xx.1 with
  | none => ([.undef], xx.2)
  | some ws =>
    ([.call (.writeBlock addr ws true) none] ++ maybe per ++ [.call (.readBlock addr depth true) (some ws), .call .dispatch none, .check], xx.2)

/-- `validation_test_write_rmwbits_read`, 193-251. -/
def writeRmwBitsRead (ipbus2 : Bool) (addr : W) (per : Bool) (g : Rnd) : List Step × Rnd :=
  let x0 := g.rand
  let a := x0.2.rand
  let b := a.2.rand
  let x1 := (x0.1 &&& a.1) ||| b.1
  ([.call (.write addr x0.1) none] ++ maybe per ++
    [.call (.rmwBits addr a.1 b.1) (some [if ipbus2 then x0.1 else x1]), .call .dispatch none, .check,
     .call (.read addr) (some [x1]), .call .dispatch none, .check], b.2)

/-- `validation_test_write_rmwsum_read`, 254-310. -/
def writeRmwSumRead (ipbus2 : Bool) (addr : W) (per : Bool) (g : Rnd) : List Step × Rnd :=
  let x0 := g.rand
  let a := x0.2.rand
  let x1 := x0.1 + a.1
  ([.call (.write addr x0.1) none] ++ maybe per ++
    [.call (.rmwSum addr a.1) (some [if ipbus2 then x0.1 else x1]), .call .dispatch none, .check,
     .call (.read addr) (some [x1]), .call .dispatch none, .check], a.2)

/-- The random addresses, 329-332; the depth is not 0. -/
def randomAddrs (base depth : W) : Nat → Rnd → List W × Rnd
  | 0, g => ([], g)
  | n + 1, g =>
    let r := g.rand
    let q := randomAddrs base depth n r.2
    ((base + r.1 % depth) :: q.1, q.2)

/-- One test after the other, for each address twice: the loops 336-353, 382-399 and 403-420. -/
def twice (test : W → Bool → Rnd → List Step × Rnd) (each : Bool) : List W → Rnd → List Step × Rnd
  | [], g => ([], g)
  | a :: as, g =>
    let s := test a true g
    let t := test a each s.2
    let q := twice test each as t.2
    (s.1 ++ t.1 ++ q.1, q.2)

/-- The loop 357-378: the two tests of an address have the same random depth. -/
def blocks (wrap : Bool) (base depth : W) (each : Bool) : List W → Rnd → List Step × Rnd
  | [], g => ([], g)
  | a :: as, g =>
    let maxDepth := base + depth - a
    let d := g.rand
    if maxDepth + 1 = 0 then ([.undef], d.2)
    else
      let n := d.1 % (maxDepth + 1)
      let s := blockWriteRead wrap a n true d.2
      let t := blockWriteRead wrap a n each s.2
      let q := blocks wrap base depth each as t.2
      (s.1 ++ t.1 ++ q.1, q.2)

/-- `s.find(t) != std::string::npos` -/
def contains : Str → Str → Bool
  | [], t => t.isPrefixOf []
  | x :: s, t => t.isPrefixOf (x :: s) || contains s t

/-- `ipbus2` of the validation tests, 215 and 274. -/
def looksV2 (uri : Str) : Bool :=
  contains uri "ipbusudp-2.0".toList || contains uri "ipbustcp-2.0".toList || contains uri "chtcp-2.0".toList
    || contains uri "ipbuspcie-2.0".toList || contains uri "ipbusmmap-2.0".toList

/-- Write read-back tests of one client, 325-420. `rand() % 0` is undefined. -/
def basicSteps (wrap : Bool) (uri : Str) (base depth : W) (each : Bool) (g : Rnd) : List Step × Rnd :=
  if depth = 0 then ([.undef], g.rand.2)
  else
    let r := randomAddrs base depth 2498 g
    let addrVec := base :: (base + depth - 1) :: r.1
    let s1 := twice singleWriteRead each addrVec r.2
    let s2 := blocks wrap base depth each addrVec s1.2
    let s3 := twice (writeRmwBitsRead (looksV2 uri)) each addrVec s2.2
    let s4 := twice (writeRmwSumRead (looksV2 uri)) each addrVec s3.2
    (s1.1 ++ s2.1 ++ s3.1 ++ s4.1, s4.2)

/-! ## Soak test -/

/-- `ipbus_vsn`, 440-460. -/
def vsn (uri : Str) : Option Ver :=
  if contains uri "-1.3".toList then some .v1
  else if contains uri "-2.0".toList then some .v2
  else none

/-- What the switch, 477-548, does with one random transaction: the call, the expected value, the registers afterwards and the number of words queued. `none`: an access
behind the end of `registers`, or an overflow in `getRandomBuffer`. -/
def transaction (v : Ver) (wrap : Bool) (fsize : W → W → W) (base depth type addr : W) (regs : List W) (g : Rnd) : Option (Op × List W × List W × W) × Rnd :=
  let off := (addr - base).toNat
  if type = 0 then
    let n := getRandomBlockSize fsize (base + depth - addr) g
    (if off + n.1.toNat ≤ regs.length then some (.readBlock addr n.1 true, (regs.drop off).take n.1.toNat, regs, n.1) else none, n.2)
  else if type = 1 then
    let n := getRandomBlockSize fsize (base + depth - addr) g
    let d := getRandomBuffer wrap n.1.toNat n.2
    match d.1 with
    | none => (none, d.2)
    | some ws =>
      (if off + ws.length ≤ regs.length then
        some (.writeBlock addr ws true, [], regs.take off ++ ws ++ regs.drop (off + ws.length), n.1) else none, d.2)
  else if type = 2 then
    let x := g.rand
    let y := x.2.rand
    match regs[off]? with
    | none => (none, y.2)
    | some r =>
      let z := (r &&& x.1) ||| y.1
      (some (.rmwBits addr x.1 y.1, [match v with | .v1 => z | .v2 => r], regs.set off z, 1), y.2)
  else
    let x := g.rand
    match regs[off]? with
    | none => (none, x.2)
    | some r =>
      let z := r + x.1
      (some (.rmwSum addr x.1, [match v with | .v1 => z | .v2 => r], regs.set off z, 1), x.2)

/-- The loop 472-575, with `left` iterations to go; `words` is `nrQueuedWords`. -/
def soakLoop (v : Ver) (wrap : Bool) (fsize : W → W → W) (base depth : W) (each : Bool) : Nat → List W → W → Rnd → List Step × Rnd
  | 0, _, _, g => ([], g)
  | left + 1, regs, words, g =>
    let type := g.rand
    let a := type.2.rand
    let t := transaction v wrap fsize base depth (type.1 % 4) (base + a.1 % depth) regs a.2
    match t.1 with
    | none => ([.undef], t.2)
    | some (op, want, regs', n) =>
      let now : Bool := each || decide (words + n > 20000000) || left = 0
      let q := soakLoop v wrap fsize base depth each left regs' (if now then 0 else words + n) t.2
      (.call op (some want) :: ((if now then [.call .dispatch none, .call .dispatch none, .check] else []) ++ q.1), q.2)

/-- The soak test of one client, 439-575. `none`: the version cannot be deduced. -/
def soakSteps (wrap : Bool) (fsize : W → W → W) (uri : Str) (base depth : W) (iters : Nat) (each : Bool) (g : Rnd) : Option (List Step × Rnd) :=
  (vsn uri).map fun v =>
    let init := [Step.call (.writeBlock base (List.replicate depth.toNat 0) true) none, .call .dispatch none]
    if depth = 0 ∧ iters ≠ 0 then (init ++ [.undef], g)
    else
      let q := soakLoop v wrap fsize base depth each iters (List.replicate depth.toNat 0) 0 g
      (init ++ q.1, q.2)

/-! ## `runValidationTest` -/

/-- A client. -/
structure Client (τ : Type) where
  c : Cfg
  T : Transport τ
  heap : τ → Heap
  uri : Str
  st : St τ

/-- How `runValidationTest` ends: returns, `std::exit(1)`, an exception, undefined behaviour. -/
inductive Verdict
  | returns (b : Bool)
  | exit
  | threw
  | ub
deriving DecidableEq, Repr

/-- Arguments other than the clients; how the program was compiled and what the floating-point computation of block sizes gives. -/
structure Args where
  base : W
  depth : W
  iters : Nat
  each : Bool
  wrap : Bool
  fsize : W → W → W

/-- The first loop over the clients, 321-421. The tests catch exceptions and return `false`, which ends the process. -/
def basicAll {τ : Type} (p : Args) : List (Client τ) → Rnd → Verdict ⊕ (List (Client τ) × Rnd)
  | [], g => .inr ([], g)
  | k :: ks, g =>
    let s := basicSteps p.wrap k.uri p.base p.depth p.each g
    match runSteps k.c k.T k.heap s.1 k.st [] with
    | .done st _ =>
      match basicAll p ks s.2 with
      | .inl v => .inl v
      | .inr (ks', g') => .inr ({ k with st := st } :: ks', g')
    | .differs => .inl .exit
    | .threw => .inl .exit
    | .ub => .inl .ub

/-- The second loop, 435-576. -/
def soakAll {τ : Type} (p : Args) : List (Client τ) → Rnd → Verdict
  | [], _ => .returns true
  | k :: ks, g =>
    match soakSteps p.wrap p.fsize k.uri p.base p.depth p.iters p.each g with
    | none => .returns false
    | some s =>
      match runSteps k.c k.T k.heap s.1 k.st [] with
      | .done _ _ => soakAll p ks s.2
      | .differs => .returns false
      | .threw => .threw
      | .ub => .ub

/-- `runValidationTest`, 313-580. `nrTestsFailed` is 0 at line 423: the process has ended otherwise. -/
def runValidationTest {τ : Type} (p : Args) (ks : List (Client τ)) (g : Rnd) : Verdict :=
  match basicAll p ks g with
  | .inl v => v
  | .inr (ks', g') => soakAll p ks' g'

end Verif.Soak
