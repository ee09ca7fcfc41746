import Verif.Spec.Curve
import Mathlib.AlgebraicGeometry.EllipticCurve.Affine.Point
/-
Curve25519 (RFC 7748, section 4.1) as an elliptic curve of Mathlib: v^2 = u^3 + 486662 u^2 + u, with the chord-and-tangent group law.
-/
namespace Coniks.Spec
variable [_root_.Fact p25519.Prime]

/-- v^2 = u^3 + 486662 u^2 + u -/
def curve25519 : WeierstrassCurve.Affine F25519 := { a₁ := 0, a₂ := 486662, a₃ := 0, a₄ := 1, a₆ := 0 }

/-- the second coordinate of the base point in RFC 7748 -/
def baseV : Nat := 14781619447589544791020593568409986887264606134616475288964881837755586237401

/-- the first coordinate of a point; zero for the point at infinity -/
def uCoord : curve25519.Point → F25519
  | .zero => 0
  | .some u _ _ => u

/-- the second coordinate; zero for the point at infinity -/
def vCoord : curve25519.Point → F25519
  | .zero => 0
  | .some _ v _ => v

/-- the scalar of RFC 7748, section 5: the three lowest bits and the highest cleared, bit 254 set -/
def clampNat (n : Nat) : Nat := 2 ^ 254 + 8 * (n / 8 % 2 ^ 251)

end Coniks.Spec
