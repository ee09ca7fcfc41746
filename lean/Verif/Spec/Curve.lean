import Mathlib.Data.ZMod.Basic
import Mathlib.Algebra.Field.ZMod
/-
The curve of RFC 8032, section 5.1: the field of 2^255 - 19 elements, the twisted Edwards curve -x^2 + y^2 = 1 + d x^2 y^2 and its addition.
-/
namespace Coniks.Spec

/-- p = 2^255 - 19 -/
def p25519 : Nat := 2 ^ 255 - 19

/-- the field -/
abbrev F25519 := ZMod p25519

/-- A point of the curve -x^2 + y^2 = 1 + d x^2 y^2. -/
@[ext] structure EdPoint {K : Type} [Field K] (d : K) where
  x : K
  y : K
  on : -x ^ 2 + y ^ 2 = 1 + d * x ^ 2 * y ^ 2

/-- The coordinates of the sum: RFC 8032, section 5.1.4 in affine form. -/
def edAddX {K : Type} [Field K] (d x1 y1 x2 y2 : K) : K := (x1 * y2 + x2 * y1) / (1 + d * x1 * x2 * y1 * y2)
def edAddY {K : Type} [Field K] (d x1 y1 x2 y2 : K) : K := (y1 * y2 + x1 * x2) / (1 - d * x1 * x2 * y1 * y2)

/-- d = -121665/121666 (edwards25519.go:980-981) -/
noncomputable def d25519 [_root_.Fact p25519.Prime] : F25519 := -121665 / 121666

end Coniks.Spec
