import Verif.Model.Ed25519.Group
import Verif.Spec.Limbs
/-
What the group elements of the code stand for: edwards25519.go:980-995.
-/
namespace Coniks.Ed
open Coniks.Spec

section
variable {K : Type} [Field K] {d : K}

/-- (X:Y:Z) with x = X/Z, y = Y/Z -/
structure PrjRep (X Y Z : K) (p : EdPoint d) : Prop where
  ne : Z ≠ 0
  x : X = p.x * Z
  y : Y = p.y * Z

/-- (X:Y:Z:T) with x = X/Z, y = Y/Z, XY = ZT -/
structure ExtRep (X Y Z T : K) (p : EdPoint d) : Prop where
  ne : Z ≠ 0
  x : X = p.x * Z
  y : Y = p.y * Z
  t : T = p.x * p.y * Z

end

variable [_root_.Fact p25519.Prime]

/-- `p` stands for the point `P` and its limbs are within the bounds that the operations need -/
structure PrjOk (p : Prj) (P : EdPoint d25519) : Prop where
  bX : p.X.Bd 2
  bY : p.Y.Bd 1
  bZ : p.Z.Bd 1
  rep : PrjRep p.X.el p.Y.el p.Z.el P

/-- `p` stands for the point `P` and its limbs are within the bounds that the operations need -/
structure ExtOk (p : Ext) (P : EdPoint d25519) : Prop where
  bX : p.X.Bd 2
  bY : p.Y.Bd 1
  bZ : p.Z.Bd 1
  bT : p.T.Bd 1
  rep : ExtRep p.X.el p.Y.el p.Z.el p.T.el P

end Coniks.Ed
