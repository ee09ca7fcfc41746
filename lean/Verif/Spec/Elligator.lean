import Verif.Spec.Curve
import Mathlib.Algebra.Group.Even
/-
Elligator 2 for Curve25519 (Bernstein, Hamburg, Krasnova, Lange 2013, section 5), without the choice of the sign: a number r is sent to
the x-coordinate of a point of y^2 = x^3 + 486662 x^2 + x, and from there to the y-coordinate of a point of the Edwards curve.
-/
namespace Coniks.Spec
variable [_root_.Fact p25519.Prime]

/-- the right-hand side of the equation of Curve25519 -/
def montRhs (x : F25519) : F25519 := x ^ 3 + 486662 * x ^ 2 + x

/-- the first candidate -/
noncomputable def elligatorV (r : F25519) : F25519 := -486662 / (1 + 2 * r ^ 2)

open Classical in
/-- the candidate that is an x-coordinate of the curve -/
noncomputable def elligatorX (r : F25519) : F25519 :=
  if IsSquare (montRhs (elligatorV r)) then elligatorV r else -elligatorV r - 486662

/-- the birational map to the Edwards curve -/
noncomputable def edwardsY (x : F25519) : F25519 := (x - 1) / (x + 1)

end Coniks.Spec
