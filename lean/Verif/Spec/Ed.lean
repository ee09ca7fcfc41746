import Verif.Model.Vrf
import Mathlib.Algebra.Group.Basic
import Mathlib.Data.Nat.Prime.Defs
/-
What the Edwards curve operations are supposed to compute: an additive commutative group in which every element has an order dividing
8 ℓ, with an injective encoding, and scalar arithmetic modulo ℓ.
-/
namespace Coniks.Spec
open Coniks

/-- ℓ = 2^252 + 27742317777372353535851937790883648493 -/
def ell : Nat := 2 ^ 252 + 27742317777372353535851937790883648493

/-- The operations `E` compute in the group `G`. -/
structure EdLaws (E : EdOps) (G : Type) [AddCommGroup G] where
  /-- the point represented -/
  val : E.Pt → G
  valJ : E.Pj → G
  /-- representations that occur -/
  Valid : E.Pt → Prop
  ValidJ : E.Pj → Prop
  /-- the canonical encoding of a point -/
  enc : G → Bytes
  enc_length : ∀ g, (enc g).length = 32
  enc_inj : ∀ g g', enc g = enc g' → g = g'
  base : G
  base_ne : base ≠ 0
  base_order : ell • base = 0
  cofactor : ∀ g : G, (8 * ell) • g = 0
  baseBytes : E.baseBytes = enc base
  /-- the integer a signed-digit recoding stands for -/
  digits : Bytes → Int
  digits_eq : ∀ a, a.length = 32 → leNat a < 2 ^ 255 → digits a = leNat a
  scalarMultBase : ∀ a, a.length = 32 → leNat a < 2 ^ 255 →
    Valid (E.scalarMultBase a) ∧ val (E.scalarMultBase a) = leNat a • base
  scalarMult : ∀ a p, a.length = 32 → Valid p → Valid (E.scalarMult a p) ∧ val (E.scalarMult a p) = leNat a • val p
  doubleScalarMult : ∀ a p b, a.length = 32 → b.length = 32 → Valid p →
    ValidJ (E.doubleScalarMult a p b) ∧ valJ (E.doubleScalarMult a p b) = digits a • val p + digits b • base
  double : ∀ p, Valid p → Valid (E.double p) ∧ val (E.double p) = val p + val p
  add : ∀ p q, Valid p → Valid q → Valid (E.add p q) ∧ val (E.add p q) = val p + val q
  toBytes : ∀ p, Valid p → E.toBytes p = enc (val p)
  pjToBytes : ∀ p, ValidJ p → E.pjToBytes p = enc (valJ p)
  pjToExtended : ∀ p, ValidJ p → Valid (E.pjToExtended p) ∧ val (E.pjToExtended p) = valJ p
  /-- decoding succeeds exactly on the canonical encodings of the points of order ℓ -/
  decode_some : ∀ g : G, ell • g = 0 → g ≠ 0 → ∃ p, E.fromBytesBaseGroup (enc g) = some p
  decode_valid : ∀ b p, b.length = 32 → E.fromBytesBaseGroup b = some p → Valid p ∧ enc (val p) = b ∧ ell • val p = 0 ∧ val p ≠ 0
  hashToEdwards : ∀ b, b.length = 32 → ∃ p, E.hashToEdwards b = some p ∧ Valid p
  scReduce_length : ∀ b, b.length = 64 → (E.scReduce b).length = 32
  scReduce : ∀ b, b.length = 64 → leNat (E.scReduce b) = leNat b % ell
  scNeg_length : ∀ b, b.length = 32 → (E.scNeg b).length = 32
  scNeg : ∀ b, b.length = 32 → leNat b ≤ ell → leNat (E.scNeg b) = ell - leNat b
  scMulAdd_length : ∀ a b c, a.length = 32 → b.length = 32 → c.length = 32 → (E.scMulAdd a b c).length = 32
  scMulAdd : ∀ a b c, a.length = 32 → b.length = 32 → c.length = 32 →
    leNat (E.scMulAdd a b c) = (leNat a * leNat b + leNat c) % ell

end Coniks.Spec
