import Verif.Ed25519.Edwards
import Verif.Spec.Points
/-
The coordinate systems of edwards25519.go:980-987, over any field in which the addition law is complete.
-/
namespace Coniks.Ed
open Coniks.Spec

variable {K : Type} [Field K] {d : K}

/-- ((X:Z),(Y:T)) with x = X/Z, y = Y/T -/
structure CmpRep (X Y Z T : K) (p : EdPoint d) : Prop where
  neZ : Z ≠ 0
  neT : T ≠ 0
  x : X = p.x * Z
  y : Y = p.y * T

/-- (Y+X, Y-X, Z, 2dT) -/
structure CchRep (A S Z T : K) (p : EdPoint d) : Prop where
  ne : Z ≠ 0
  a : A = p.y * Z + p.x * Z
  s : S = p.y * Z - p.x * Z
  t : T = p.x * p.y * Z * (2 * d)

/-- (y+x, y-x, 2dxy) -/
structure PreRep (A S T : K) (p : EdPoint d) : Prop where
  a : A = p.y + p.x
  s : S = p.y - p.x
  t : T = 2 * d * p.x * p.y

theorem PrjRep.zero : PrjRep (0 : K) 1 1 (0 : EdPoint d) := ⟨one_ne_zero, by rw [ed_zero_x]; ring, by rw [ed_zero_y]; ring⟩
theorem ExtRep.zero : ExtRep (0 : K) 1 1 0 (0 : EdPoint d) :=
  ⟨one_ne_zero, by rw [ed_zero_x]; ring, by rw [ed_zero_y]; ring, by rw [ed_zero_x]; ring⟩
theorem PreRep.zero : PreRep (1 : K) 1 0 (0 : EdPoint d) :=
  ⟨by rw [ed_zero_x, ed_zero_y]; ring, by rw [ed_zero_x, ed_zero_y]; ring, by rw [ed_zero_x]; ring⟩

theorem ExtRep.prj {X Y Z T : K} {p : EdPoint d} (h : ExtRep X Y Z T p) : PrjRep X Y Z p := ⟨h.ne, h.x, h.y⟩

theorem ExtRep.cch {X Y Z T : K} {p : EdPoint d} (h : ExtRep X Y Z T p) : CchRep (Y + X) (Y - X) Z (T * (2 * d)) p :=
  ⟨h.ne, by rw [h.x, h.y], by rw [h.x, h.y], by rw [h.t]⟩

theorem CmpRep.prj {X Y Z T : K} {p : EdPoint d} (h : CmpRep X Y Z T p) : PrjRep (X * T) (Y * Z) (Z * T) p :=
  ⟨mul_ne_zero h.neZ h.neT, by rw [h.x]; ring, by rw [h.y]; ring⟩

theorem CmpRep.ext {X Y Z T : K} {p : EdPoint d} (h : CmpRep X Y Z T p) : ExtRep (X * T) (Y * Z) (Z * T) (X * Y) p :=
  ⟨mul_ne_zero h.neZ h.neT, by rw [h.x]; ring, by rw [h.y]; ring, by rw [h.x, h.y]; ring⟩

theorem PreRep.cch {A S T : K} {p : EdPoint d} (h : PreRep A S T p) : CchRep A S 1 T p :=
  ⟨one_ne_zero, by rw [h.a]; ring, by rw [h.s]; ring, by rw [h.t]; ring⟩

theorem CchRep.neg {A S Z T : K} {p : EdPoint d} (h : CchRep A S Z T p) : CchRep S A Z (-T) (-p) :=
  ⟨h.ne, by rw [h.s, ed_neg_x, ed_neg_y]; ring, by rw [h.a, ed_neg_x, ed_neg_y]; ring, by rw [h.t, ed_neg_x, ed_neg_y]; ring⟩

theorem PreRep.neg {A S T : K} {p : EdPoint d} (h : PreRep A S T p) : PreRep S A (-T) (-p) :=
  ⟨by rw [h.s, ed_neg_x, ed_neg_y]; ring, by rw [h.a, ed_neg_x, ed_neg_y]; ring, by rw [h.t, ed_neg_x, ed_neg_y]; ring⟩

variable [EdComplete d]

theorem CmpRep.of {X Y Z T : K} {p q : EdPoint d} (u : K) (hu : u ≠ 0)
    (hx : X = u * (p.x * q.y + q.x * p.y)) (hy : Y = u * (p.y * q.y + p.x * q.x))
    (hz : Z = u * (1 + d * p.x * q.x * p.y * q.y)) (ht : T = u * (1 - d * p.x * q.x * p.y * q.y)) : CmpRep X Y Z T (p + q) := by
  have h1 := ed_den1 p q
  have h2 := ed_den2 p q
  refine ⟨by rw [hz]; exact mul_ne_zero hu h1, by rw [ht]; exact mul_ne_zero hu h2, ?_, ?_⟩
  · rw [hx, hz, ed_add_x]
    generalize 1 + d * p.x * q.x * p.y * q.y = D at *
    field_simp
  · rw [hy, ht, ed_add_y]
    generalize 1 - d * p.x * q.x * p.y * q.y = D at *
    field_simp

/-- the sum, as `geAdd` computes it -/
theorem ExtRep.add {X Y Z T A S Z' T' : K} {p q : EdPoint d} (hp : ExtRep X Y Z T p) (hq : CchRep A S Z' T' q) :
    CmpRep ((Y + X) * A - (Y - X) * S) ((Y + X) * A + (Y - X) * S) (Z * Z' + Z * Z' + T' * T) (Z * Z' + Z * Z' - T' * T) (p + q) := by
  refine CmpRep.of (2 * (Z * Z')) (mul_ne_zero (EdComplete.two_ne (d := d)) (mul_ne_zero hp.ne hq.ne)) ?_ ?_ ?_ ?_
  · rw [hp.x, hp.y, hq.a, hq.s]; ring
  · rw [hp.x, hp.y, hq.a, hq.s]; ring
  · rw [hp.t, hq.t]; ring
  · rw [hp.t, hq.t]; ring

/-- the double, as `ProjectiveGroupElement.Double` computes it -/
theorem PrjRep.double {X Y Z : K} {p : EdPoint d} (hp : PrjRep X Y Z p) :
    CmpRep ((X + Y) ^ 2 - (Y ^ 2 + X ^ 2)) (Y ^ 2 + X ^ 2) (Y ^ 2 - X ^ 2) (2 * Z ^ 2 - (Y ^ 2 - X ^ 2)) (p + p) := by
  refine CmpRep.of (Z ^ 2) (pow_ne_zero 2 hp.ne) ?_ ?_ ?_ ?_
  · rw [hp.x, hp.y]; ring
  · rw [hp.x, hp.y]; ring
  · rw [hp.x, hp.y]; linear_combination Z ^ 2 * p.on
  · rw [hp.x, hp.y]; linear_combination -Z ^ 2 * p.on

end Coniks.Ed
