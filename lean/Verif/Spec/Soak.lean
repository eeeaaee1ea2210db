import Verif.Spec.Seq
/-!
# Memory

What the validation test of the repository is looking for in a device.
-/

set_option autoImplicit false

namespace Verif.Spec

/-- Memory: reading gives what was written last. -/
def ram : Target (W → W) where
  rd m a := (m a, m)
  wr m a d := fun b => if b = a then d else m b
  cfg m _ := (0, m)

/-- `depth` addresses from `base` on (address 0 comes behind the last one). -/
def InRegion (base depth a : W) : Prop := (a - base).toNat < depth.toNat

/-- A target in which the addresses in `R` are memory; `get` is their content. Nothing is said about other addresses. -/
structure ActsAsRam {σ : Type} (tg : Target σ) (R : W → Prop) (get : σ → W → W) : Prop where
  rd : ∀ s a, R a → (tg.rd s a).1 = get s a ∧ ∀ b, R b → get (tg.rd s a).2 b = get s b
  wr : ∀ s a d b, R a → R b → get (tg.wr s a d) b = if b = a then d else get s b

/-- A text has a part. -/
def Has (s t : List Char) : Prop := ∃ a b, s = a ++ t ++ b

/-- The protocols with each version of IPbus. -/
def protocols : Ver → List (List Char)
  | .v1 => ["ipbusudp-1.3".toList, "ipbustcp-1.3".toList, "chtcp-1.3".toList]
  | .v2 => ["ipbusudp-2.0".toList, "ipbustcp-2.0".toList, "chtcp-2.0".toList, "ipbuspcie-2.0".toList, "ipbusmmap-2.0".toList]

/-- A URI in which nothing looks like a protocol of the other version. -/
def Unambiguous (v : Ver) (uri : List Char) : Prop :=
  match v with
  | .v1 => ∀ p ∈ protocols .v2, ¬ Has uri p
  | .v2 => ¬ Has uri "-1.3".toList

end Verif.Spec
