import Verif.Model.Ed25519.Field
import Verif.Spec.Curve
/-
What a field element of the code stands for: edwards25519.go:15-18 and the bounds of its comments.
-/
namespace Coniks.Ed
open Coniks.Spec

/-- edwards25519.go:15-18: the integer a field element stands for -/
def Fe.val (f : Fe) : Int :=
  f.x0 + 2 ^ 26 * f.x1 + 2 ^ 51 * f.x2 + 2 ^ 77 * f.x3 + 2 ^ 102 * f.x4 + 2 ^ 128 * f.x5 + 2 ^ 153 * f.x6 + 2 ^ 179 * f.x7 +
    2 ^ 204 * f.x8 + 2 ^ 230 * f.x9

/-- |f| is bounded by n times 1.1*2^25, 1.1*2^24, 1.1*2^25, 1.1*2^24, ... -/
structure Fe.Bd (n : Int) (f : Fe) : Prop where
  b0 : -(n * 36909875) ≤ f.x0 ∧ f.x0 ≤ n * 36909875
  b1 : -(n * 18454937) ≤ f.x1 ∧ f.x1 ≤ n * 18454937
  b2 : -(n * 36909875) ≤ f.x2 ∧ f.x2 ≤ n * 36909875
  b3 : -(n * 18454937) ≤ f.x3 ∧ f.x3 ≤ n * 18454937
  b4 : -(n * 36909875) ≤ f.x4 ∧ f.x4 ≤ n * 36909875
  b5 : -(n * 18454937) ≤ f.x5 ∧ f.x5 ≤ n * 18454937
  b6 : -(n * 36909875) ≤ f.x6 ∧ f.x6 ≤ n * 36909875
  b7 : -(n * 18454937) ≤ f.x7 ∧ f.x7 ≤ n * 18454937
  b8 : -(n * 36909875) ≤ f.x8 ∧ f.x8 ≤ n * 36909875
  b9 : -(n * 18454937) ≤ f.x9 ∧ f.x9 ≤ n * 18454937

abbrev F := F25519

/-- the field element that `f` stands for -/
def Fe.el (f : Fe) : F := ((f.val : Int) : F)

/-- `f` is within `n` times the bounds and stands for `a` -/
structure Rep (n : Int) (f : Fe) (a : F) : Prop where
  bd : f.Bd n
  el : f.el = a

end Coniks.Ed
