import Verif.Spec.Montgomery
import Verif.Ed25519.Elligator
import Mathlib.Tactic.LinearCombination
import Mathlib.Tactic.FieldSimp
/-
The birational map between Curve25519 and the Edwards curve is a homomorphism of groups. The cofactors of the polynomial identities were
found by division outside Lean.
-/
namespace Coniks.Ed
open Coniks.Spec WeierstrassCurve.Affine

/-! ### identities; s = u1 + u2, q = u1 u2, t = u3, line v = l u + m -/

section
variable {K : Type} [Field K] {s q t l m A : K}

theorem mont_y (hA : A = l ^ 2 - s - t) (hq : q + s * t = 1 - 2 * l * m) (hm : q * t = m ^ 2) :
    (t - 1) * ((l ^ 2 * q + l * m * s + m ^ 2) * (q + s + 1) - (A - 2) * q * (q - s + 1)) =
      (t + 1) * ((q - s + 1) * (l ^ 2 * q + l * m * s + m ^ 2) - (A + 2) * q * (q + s + 1)) := by
  have e : q = 1 - 2 * l * m - s * t := by linear_combination hq
  subst hA e
  linear_combination -(4*s*t - 4*s*l^2 + 4*l*m - 4) * hm

theorem mont_x (hA : A = l ^ 2 - s - t) (hq : q + s * t = 1 - 2 * l * m) (hm : q * t = m ^ 2) :
    t * ((l ^ 2 * q + l * m * s + m ^ 2) * (q + s + 1) + (A - 2) * q * (q - s + 1)) =
      -(l * t + m) * (2 * l * q * (q - 1) + m * (q * s + 2 * q - (s * s - 2 * q) - s)) := by
  have e : q = 1 - 2 * l * m - s * t := by linear_combination hq
  subst hA e
  linear_combination -(-s^2*t - s^2 - s*t^2 + 4*s*t*l^2 - 3*s*t - 2*s*l*m - 2*t*l*m + 2*t + 8*l^3*m - 4*l^2 - 8*l*m + 4) * hm

end

/-- the square root of -486664 with which the base points correspond -/
def cM : F := -(sN : F)

theorem cM_sq : cM ^ 2 = -486664 := by unfold cM; rw [neg_sq]; exact s_sq

theorem cM_ne : cM ≠ 0 := by
  intro h
  have := cM_sq
  rw [h] at this
  apply A2_ne
  linear_combination this

theorem u_ne {u v : F} (h : v ^ 2 = montRhs u) : u + 1 ≠ 0 := by
  intro h1
  have hx : u = -1 := eq_neg_of_add_eq_zero_left h1
  apply Am2_not_sq
  refine ⟨v, ?_⟩
  rw [← sq, h, hx]; unfold montRhs; norm_num

theorem v_zero {u v : F} (h : v ^ 2 = montRhs u) : v = 0 ↔ u = 0 := by
  constructor
  · intro hv
    by_contra hu
    apply montRhs_ne hu
    rw [← h, hv]; ring
  · rintro rfl
    have : v ^ 2 = 0 := by rw [h]; unfold montRhs; ring
    exact pow_eq_zero_iff (by decide) |>.mp this

theorem edwardsY_zero : edwardsY 0 = -1 := by unfold edwardsY; norm_num

theorem edwardsY_inv {u : F} (h : u ≠ 0) (h1 : u + 1 ≠ 0) : edwardsY u⁻¹ = -edwardsY u := by
  have h2 : u⁻¹ + 1 ≠ 0 := by
    intro e
    apply h1
    have := congrArg (· * u) e
    simp only [add_mul, inv_mul_cancel₀ h, one_mul, zero_mul] at this
    rw [add_comm]; exact this
  unfold edwardsY
  rw [← neg_div, div_eq_div_iff h2 h1]
  have : u * u⁻¹ = 1 := mul_inv_cancel₀ h
  linear_combination 2 * this

/-- the coordinates of the image satisfy the equation of the Edwards curve -/
theorem mont_on {u v : F} (h : v ^ 2 = montRhs u) :
    -(cM * u / v) ^ 2 + (edwardsY u) ^ 2 = 1 + d25519 * (cM * u / v) ^ 2 * (edwardsY u) ^ 2 := by
  have h1 := u_ne h
  by_cases hv : v = 0
  · have hu := (v_zero h).mp hv
    subst hv hu
    unfold edwardsY
    norm_num
  · have hu : u ≠ 0 := fun e => hv ((v_zero h).mpr e)
    have hd := d_mont
    have hX : (cM * u / v) ^ 2 * v ^ 2 = -486664 * u ^ 2 := by
      rw [div_pow, div_mul_cancel₀ _ (pow_ne_zero _ hv), mul_pow, cM_sq]
    have hy : edwardsY u ^ 2 * (u + 1) ^ 2 = (u - 1) ^ 2 := by
      unfold edwardsY
      rw [div_pow, div_mul_cancel₀]
      exact pow_ne_zero _ h1
    generalize cM * u / v = X at *
    generalize edwardsY u = y at *
    have hne : v ^ 2 * (u + 1) ^ 2 ≠ 0 := mul_ne_zero (pow_ne_zero _ hv) (pow_ne_zero _ h1)
    refine mul_right_cancel₀ hne ?_
    unfold montRhs at h
    linear_combination (-(u + 1) ^ 2 - d25519 * y ^ 2 * (u + 1) ^ 2) * hX + (v ^ 2 + 486664 * d25519 * u ^ 2) * hy +
      u ^ 2 * (u - 1) ^ 2 * hd + (-4 * u) * h

theorem equation_iff' {u v : F} : curve25519.Equation u v ↔ v ^ 2 = montRhs u := by
  rw [WeierstrassCurve.Affine.equation_iff]
  unfold curve25519 montRhs
  simp only [zero_mul, add_zero, one_mul]

/-- the point of the Edwards curve -/
noncomputable def toEd : curve25519.Point → Pt25519
  | .zero => 0
  | .some u v h => ⟨cM * u / v, edwardsY u, mont_on (equation_iff'.mp h.1)⟩

/-- the sum from the line through the points -/
theorem toEd_line {u1 v1 u2 v2 u3 v3 l m : F} (h1 : v1 ^ 2 = montRhs u1) (h2 : v2 ^ 2 = montRhs u2) (h3 : v3 ^ 2 = montRhs u3)
    (e1 : v1 = l * u1 + m) (e2 : v2 = l * u2 + m) (e3 : v3 = -(l * u3 + m)) (hA : 486662 = l ^ 2 - (u1 + u2) - u3)
    (hq : u1 * u2 + (u1 + u2) * u3 = 1 - 2 * l * m) (hm : u1 * u2 * u3 = m ^ 2) :
    (⟨cM * u3 / v3, edwardsY u3, mont_on h3⟩ : Pt25519) = ⟨cM * u1 / v1, edwardsY u1, mont_on h1⟩ + ⟨cM * u2 / v2, edwardsY u2, mont_on h2⟩ := by
  have n1 := u_ne h1
  have n2 := u_ne h2
  have n3 := u_ne h3
  have dn1 := ed_den1 (d := d25519) ⟨cM * u1 / v1, edwardsY u1, mont_on h1⟩ ⟨cM * u2 / v2, edwardsY u2, mont_on h2⟩
  have dn2 := ed_den2 (d := d25519) ⟨cM * u1 / v1, edwardsY u1, mont_on h1⟩ ⟨cM * u2 / v2, edwardsY u2, mont_on h2⟩
  have my := mont_y (q := u1 * u2) hA hq hm
  have mx := mont_x (q := u1 * u2) hA hq hm
  have hd := d_mont
  have hc := cM_sq
  have hdc : d25519 * cM ^ 2 = 486660 := by rw [hc]; linear_combination -hd
  have hvv : l ^ 2 * (u1 * u2) + l * m * (u1 + u2) + m ^ 2 = v1 * v2 := by rw [e1, e2]; ring
  rw [hvv] at my mx
  have hbr : 2 * l * (u1 * u2) * (u1 * u2 - 1) + m * (u1 * u2 * (u1 + u2) + 2 * (u1 * u2) - ((u1 + u2) * (u1 + u2) - 2 * (u1 * u2)) - (u1 + u2)) =
      u1 * v2 * (u2 - 1) * (u1 + 1) + u2 * v1 * (u1 - 1) * (u2 + 1) := by rw [e1, e2]; ring
  rw [hbr, ← e3] at mx
  simp only at dn1 dn2
  by_cases hv1 : v1 = 0
  · -- the first point is (0, 0)
    have hu1 := (v_zero h1).mp hv1
    have hm0 : m = 0 := by rw [hv1, hu1] at e1; linear_combination -e1
    subst hv1 hu1 hm0
    simp only [zero_mul, zero_add, add_zero, mul_zero, sub_zero] at hA hq hm e2 e3
    have hu2 : u2 ≠ 0 := by rintro rfl; simp at hq
    have hu3 : u3 = u2⁻¹ := eq_inv_of_mul_eq_one_right hq
    have hl : l ≠ 0 := by
      rintro rfl
      have : v2 = 0 := by rw [e2]; ring
      exact hu2 ((v_zero h2).mp this)
    apply EdPoint.ext
    · rw [ed_add_x]
      simp only [edwardsY_zero]
      rw [e2, e3, hu3, div_neg, mul_div_mul_right _ _ (inv_ne_zero hu2), mul_div_mul_right _ _ hu2]
      simp
    · rw [ed_add_y]
      simp only [edwardsY_zero]
      rw [hu3, edwardsY_inv hu2 n2]
      simp
  by_cases hv2 : v2 = 0
  · have hu2 := (v_zero h2).mp hv2
    have hm0 : m = 0 := by rw [hv2, hu2] at e2; linear_combination -e2
    subst hv2 hu2 hm0
    simp only [zero_mul, zero_add, add_zero, mul_zero, sub_zero] at hA hq hm e1 e3
    have hu1 : u1 ≠ 0 := by rintro rfl; simp at hq
    have hu3 : u3 = u1⁻¹ := eq_inv_of_mul_eq_one_right hq
    have hl : l ≠ 0 := by
      rintro rfl
      have : v1 = 0 := by rw [e1]; ring
      exact hu1 ((v_zero h1).mp this)
    apply EdPoint.ext
    · rw [ed_add_x]
      simp only [edwardsY_zero]
      rw [e1, e3, hu3, div_neg, mul_div_mul_right _ _ (inv_ne_zero hu1), mul_div_mul_right _ _ hu1]
      simp
    · rw [ed_add_y]
      simp only [edwardsY_zero]
      rw [hu3, edwardsY_inv hu1 n1]
      simp
  have ey1 : edwardsY u1 * (u1 + 1) = u1 - 1 := div_mul_cancel₀ _ n1
  have ey2 : edwardsY u2 * (u2 + 1) = u2 - 1 := div_mul_cancel₀ _ n2
  have ey3 : edwardsY u3 * (u3 + 1) = u3 - 1 := div_mul_cancel₀ _ n3
  have ex1 : cM * u1 / v1 * v1 = cM * u1 := div_mul_cancel₀ _ hv1
  have ex2 : cM * u2 / v2 * v2 = cM * u2 := div_mul_cancel₀ _ hv2
  have hD : v1 * v2 * (u1 + 1) * (u2 + 1) ≠ 0 := mul_ne_zero (mul_ne_zero (mul_ne_zero hv1 hv2) n1) n2
  apply EdPoint.ext
  · rw [ed_add_x, eq_div_iff dn1]
    simp only
    by_cases hv3 : v3 = 0
    · have hu3 := (v_zero h3).mp hv3
      subst hv3 hu3
      have hm0 : m = 0 := by
        have : m ^ 2 = 0 := by rw [← hm]; ring
        exact pow_eq_zero_iff (by decide) |>.mp this
      subst hm0
      have hq1 : u1 * u2 = 1 := by linear_combination hq
      rw [mul_zero, zero_div, zero_mul]
      symm
      generalize cM * u1 / v1 = X1 at *
      generalize cM * u2 / v2 = X2 at *
      generalize edwardsY u1 = Y1 at *
      generalize edwardsY u2 = Y2 at *
      refine (mul_eq_zero.mp ?_).resolve_right hD
      linear_combination v2 * (u1 + 1) * (Y2 * (u2 + 1) * ex1 + cM * u1 * ey2) + v1 * (u2 + 1) * (Y1 * (u1 + 1) * ex2 + cM * u2 * ey1)
        - cM * hbr + cM * 2 * l * (u1 * u2) * hq1
    · have ex3 : cM * u3 / v3 * v3 = cM * u3 := div_mul_cancel₀ _ hv3
      generalize cM * u1 / v1 = X1 at *
      generalize cM * u2 / v2 = X2 at *
      generalize cM * u3 / v3 = X3 at *
      generalize edwardsY u1 = Y1 at *
      generalize edwardsY u2 = Y2 at *
      have hX : X1 * X2 * (v1 * v2) = cM ^ 2 * (u1 * u2) := by linear_combination X2 * v2 * ex1 + cM * u1 * ex2
      have hY : Y1 * Y2 * ((u1 + 1) * (u2 + 1)) = (u1 - 1) * (u2 - 1) := by
        linear_combination Y2 * (u2 + 1) * ey1 + (u1 - 1) * ey2
      refine mul_right_cancel₀ (mul_ne_zero hD hv3) ?_
      linear_combination (v1 * v2 * ((u1 + 1) * (u2 + 1)) + d25519 * (X1 * X2 * (v1 * v2)) * (Y1 * Y2 * ((u1 + 1) * (u2 + 1)))) * ex3
        + cM * u3 * d25519 * (Y1 * Y2 * ((u1 + 1) * (u2 + 1))) * hX + cM * u3 * d25519 * (cM ^ 2 * (u1 * u2)) * hY
        - v3 * (v2 * (u1 + 1) * (Y2 * (u2 + 1) * ex1 + cM * u1 * ey2) + v1 * (u2 + 1) * (Y1 * (u1 + 1) * ex2 + cM * u2 * ey1))
        + cM * mx + cM * u3 * (u1 * u2) * ((u1 - 1) * (u2 - 1)) * hdc
  · rw [ed_add_y, eq_div_iff dn2]
    simp only
    generalize cM * u1 / v1 = X1 at *
    generalize cM * u2 / v2 = X2 at *
    generalize edwardsY u1 = Y1 at *
    generalize edwardsY u2 = Y2 at *
    generalize edwardsY u3 = Y3 at *
    have hX : X1 * X2 * (v1 * v2) = cM ^ 2 * (u1 * u2) := by linear_combination X2 * v2 * ex1 + cM * u1 * ex2
    have hY : Y1 * Y2 * ((u1 + 1) * (u2 + 1)) = (u1 - 1) * (u2 - 1) := by
      linear_combination Y2 * (u2 + 1) * ey1 + (u1 - 1) * ey2
    refine mul_right_cancel₀ (mul_ne_zero hD n3) ?_
    linear_combination (v1 * v2 * ((u1 + 1) * (u2 + 1)) - d25519 * (X1 * X2 * (v1 * v2)) * (Y1 * Y2 * ((u1 + 1) * (u2 + 1)))) * ey3
      - (u3 - 1) * d25519 * (Y1 * Y2 * ((u1 + 1) * (u2 + 1))) * hX - (u3 - 1) * d25519 * (cM ^ 2 * (u1 * u2)) * hY
      - (u3 + 1) * (v1 * v2 * hY + (u1 + 1) * (u2 + 1) * hX)
      + my - (u3 - 1) * (u1 * u2) * ((u1 - 1) * (u2 - 1)) * hdc - (u3 + 1) * ((u1 + 1) * (u2 + 1)) * (u1 * u2) * hc

theorem toEd_add (P Q : curve25519.Point) : toEd (P + Q) = toEd P + toEd Q := by
  rcases P with _ | ⟨u1, v1, h1⟩
  · exact (congrArg toEd (zero_add Q)).trans (zero_add (toEd Q)).symm
  rcases Q with _ | ⟨u2, v2, h2⟩
  · exact (congrArg toEd (add_zero _)).trans (add_zero (toEd _)).symm
  have g1 := equation_iff'.mp h1.1
  have g2 := equation_iff'.mp h2.1
  by_cases hxy : u1 = u2 ∧ v1 = curve25519.negY u2 v2
  · rw [Point.add_of_Y_eq hxy.1 hxy.2]
    have hv : v1 = -v2 := by rw [hxy.2]; simp [WeierstrassCurve.Affine.negY, curve25519]
    obtain ⟨rfl, -⟩ := hxy
    subst hv
    symm
    show _ = (0 : Pt25519)
    rw [← neg_eq_iff_add_eq_zero]
    apply EdPoint.ext
    · rw [ed_neg_x]; show -(cM * u1 / -v2) = cM * u1 / v2
      rw [div_neg, neg_neg]
    · rw [ed_neg_y]; rfl
  · rw [Point.add_some hxy]
    have h3 := nonsingular_add h1 h2 hxy
    have g3 := equation_iff'.mp h3.1
    set l := curve25519.slope u1 u2 v1 v2 with hl
    set u3 := curve25519.addX u1 u2 l with hu3
    set v3 := curve25519.addY u1 u2 v1 l with hv3
    have eu3 : u3 = l ^ 2 - 486662 - u1 - u2 := by rw [hu3]; simp [WeierstrassCurve.Affine.addX, curve25519]
    have ev3 : v3 = -(l * (u3 - u1) + v1) := by
      rw [hv3]; simp [WeierstrassCurve.Affine.addY, WeierstrassCurve.Affine.negAddY, WeierstrassCurve.Affine.negY, curve25519]
      rw [hu3]; simp [WeierstrassCurve.Affine.addX, curve25519]
    have key : v2 = l * u2 + (v1 - l * u1) ∧ u1 * u2 + (u1 + u2) * u3 = 1 - 2 * l * (v1 - l * u1) ∧ u1 * u2 * u3 = (v1 - l * u1) ^ 2 := by
      unfold montRhs at g1 g2
      by_cases hx : u1 = u2
      · subst hx
        have hvv : v1 = v2 := by
          have : (v1 - v2) * (v1 + v2) = 0 := by linear_combination g1 - g2
          rcases mul_eq_zero.mp this with h | h
          · exact sub_eq_zero.mp h
          · exfalso; apply hxy; refine ⟨rfl, ?_⟩
            simp [WeierstrassCurve.Affine.negY, curve25519]
            linear_combination h
        subst hvv
        have hv0 : 2 * v1 ≠ 0 := by
          intro h
          apply hxy
          refine ⟨rfl, ?_⟩
          simp [WeierstrassCurve.Affine.negY, curve25519]
          linear_combination h
        have el : l * (2 * v1) = 3 * u1 ^ 2 + 2 * 486662 * u1 + 1 := by
          rw [hl, WeierstrassCurve.Affine.slope_of_Y_ne rfl (fun h => hxy ⟨rfl, h⟩)]
          have : v1 - curve25519.negY u1 v1 = 2 * v1 := by simp [WeierstrassCurve.Affine.negY, curve25519]; ring
          rw [this, div_mul_cancel₀ _ hv0]
          simp [curve25519]
        refine ⟨by ring, ?_, ?_⟩
        · rw [eu3]; linear_combination el
        · rw [eu3]; linear_combination -g1 + u1 * el
      · have hne : u1 - u2 ≠ 0 := sub_ne_zero.mpr hx
        have el : l * (u1 - u2) = v1 - v2 := by
          rw [hl, WeierstrassCurve.Affine.slope_of_X_ne hx, div_mul_cancel₀ _ hne]
        have e2 : v2 = l * u2 + (v1 - l * u1) := by linear_combination el
        refine ⟨e2, ?_, ?_⟩
        · refine mul_right_cancel₀ hne ?_
          rw [eu3]
          rw [e2] at g2
          linear_combination g1 - g2
        · refine mul_right_cancel₀ hne ?_
          rw [eu3]
          rw [e2] at g2
          linear_combination u2 * g1 - u1 * g2
    obtain ⟨k1, k2, k3⟩ := key
    exact toEd_line g1 g2 g3 (m := v1 - l * u1) (by ring) k1 (by rw [ev3]; ring) (by rw [eu3]; ring) k2 k3

/-- the map as a homomorphism -/
noncomputable def toEdHom : curve25519.Point →+ Pt25519 where
  toFun := toEd
  map_zero' := rfl
  map_add' := toEd_add

theorem base_mont : (baseV : F) ^ 2 = montRhs 9 := by
  have := natF_eq (a := baseV ^ 2) (b := 9 ^ 3 + 486662 * 9 ^ 2 + 9) (by decide +kernel)
  push_cast at this
  unfold montRhs
  exact this

theorem baseV_ne : (baseV : F) ≠ 0 := natF_ne0 (by decide +kernel)

theorem base_nonsingular : curve25519.Nonsingular 9 (baseV : F) := by
  rw [WeierstrassCurve.Affine.nonsingular_iff]
  refine ⟨equation_iff'.mpr base_mont, Or.inr ?_⟩
  simp only [curve25519, zero_mul, sub_zero]
  intro h
  have : (2 : F) * (baseV : F) = 0 := by linear_combination h
  rcases mul_eq_zero.mp this with h | h
  · exact two_ne h
  · exact baseV_ne h

/-- the base point of RFC 7748 -/
def curveBase : curve25519.Point := .some 9 (baseV : F) base_nonsingular

theorem toEd_base : toEd curveBase = basePt := by
  apply EdPoint.ext
  · show cM * 9 / (baseV : F) = (bxN : F)
    rw [div_eq_iff baseV_ne]
    have := natF_eq (a := bxN * baseV + sN * 9) (b := 0) (by decide +kernel)
    push_cast at this
    unfold cM
    linear_combination -this
  · show edwardsY 9 = (byN : F)
    unfold edwardsY
    rw [div_eq_iff (by
      have := natF_ne0 (a := 10) (by decide +kernel)
      norm_num at this ⊢
      exact this)]
    have := natF_eq (a := byN * 10) (b := 8) (by decide +kernel)
    push_cast at this
    linear_combination -this

theorem toEd_smul (n : Nat) (P : curve25519.Point) : toEd (n • P) = n • toEd P := map_nsmul toEdHom n P

/-- the first coordinate on Curve25519 of a point of the Edwards curve -/
noncomputable def montU (g : Pt25519) : F := (1 + g.y) / (1 - g.y)

theorem montU_toEd (P : curve25519.Point) : uCoord P = montU (toEd P) := by
  rcases P with _ | ⟨u, v, h⟩
  · show 0 = (1 + (0 : Pt25519).y) / (1 - (0 : Pt25519).y)
    rw [ed_zero_y]; simp
  · have hu := u_ne (equation_iff'.mp h.1)
    show u = (1 + edwardsY u) / (1 - edwardsY u)
    have e1 : (1 + edwardsY u) * (u + 1) = 2 * u := by
      have : edwardsY u * (u + 1) = u - 1 := div_mul_cancel₀ _ hu
      linear_combination this
    have e2 : (1 - edwardsY u) * (u + 1) = 2 := by
      have : edwardsY u * (u + 1) = u - 1 := div_mul_cancel₀ _ hu
      linear_combination -this
    have h2 : 1 - edwardsY u ≠ 0 := by
      intro h0
      rw [h0, zero_mul] at e2
      exact two_ne e2.symm
    rw [eq_div_iff h2]
    refine mul_right_cancel₀ hu ?_
    linear_combination u * e2 - e1

theorem uCoord_smul (n : Nat) : uCoord (n • curveBase) = montU (n • basePt) := by
  rw [montU_toEd, toEd_smul, toEd_base]

/-- every point of the Edwards curve except the neutral element comes from an affine point -/
theorem toEd_inj {P Q : curve25519.Point} (h : toEd P = toEd Q) : P = Q := by
  have hk : ∀ P : curve25519.Point, toEd P = 0 → P = 0 := by
    rintro (_ | ⟨u, v, h⟩) hP
    · rfl
    · exfalso
      have hu := u_ne (equation_iff'.mp h.1)
      have : edwardsY u = 1 := congrArg EdPoint.y hP
      unfold edwardsY at this
      rw [div_eq_one_iff_eq hu] at this
      exact two_ne (by linear_combination -this)
  have : toEdHom (P - Q) = 0 := by rw [map_sub]; exact sub_eq_zero.mpr h
  exact sub_eq_zero.mp (hk _ this)

theorem nonsingular_of {u v : F} (h : v ^ 2 = montRhs u) : curve25519.Nonsingular u v := by
  rw [WeierstrassCurve.Affine.nonsingular_iff]
  refine ⟨equation_iff'.mpr h, ?_⟩
  simp only [curve25519, zero_mul, sub_zero]
  by_cases hv : v = 0
  · left
    have hu := (v_zero h).mp hv
    subst hv hu
    norm_num
  · right
    intro h
    have : (2 : F) * v = 0 := by linear_combination h
    rcases mul_eq_zero.mp this with h | h
    · exact two_ne h
    · exact hv h

theorem toEd_surj (g : Pt25519) : ∃ P : curve25519.Point, toEd P = g := by
  have ho := x_sq g
  by_cases hx : g.x = 0
  · have h1 : (g.y - 1) * (g.y + 1) = 0 := by rw [hx] at ho; linear_combination -ho
    rcases mul_eq_zero.mp h1 with h | h
    · refine ⟨.zero, EdPoint.ext ?_ ?_⟩
      · show (0 : Pt25519).x = _; rw [ed_zero_x, hx]
      · show (0 : Pt25519).y = _; rw [ed_zero_y]; linear_combination -h
    · refine ⟨.some 0 0 (nonsingular_of (by unfold montRhs; ring)), EdPoint.ext ?_ ?_⟩
      · show cM * 0 / 0 = g.x; rw [hx]; simp
      · show edwardsY 0 = g.y; rw [edwardsY_zero]; linear_combination -h
  · have hne : ∀ e : F, e ^ 2 = 1 → g.y ≠ e := by
      intro e he h
      rw [h, he, sub_self] at ho
      have h3 := (mul_eq_zero.mp ho).resolve_right (by have := den_y e; rwa [he] at this)
      exact hx (pow_eq_zero_iff (by decide) |>.mp h3)
    have hy : 1 - g.y ≠ 0 := fun h => hne 1 (by ring) (by linear_combination -h)
    have hy' : 1 + g.y ≠ 0 := fun h => hne (-1) (by ring) (by linear_combination h)
    have hu : montU g * (1 - g.y) = 1 + g.y := div_mul_cancel₀ _ hy
    have hu0 : montU g ≠ 0 := by
      intro h
      rw [h, zero_mul] at hu
      exact hy' hu.symm
    generalize montU g = u at *
    have hc := cM_sq
    have hd := d_mont
    have hv : cM * u / g.x * g.x = cM * u := div_mul_cancel₀ _ hx
    have hv0 : cM * u / g.x ≠ 0 := div_ne_zero (mul_ne_zero cM_ne hu0) hx
    have he : (cM * u / g.x) ^ 2 = montRhs u := by
      generalize cM * u / g.x = v at *
      have h1 : v ^ 2 * g.x ^ 2 = -486664 * u ^ 2 := by
        linear_combination (v * g.x + cM * u) * hv + u ^ 2 * hc
      refine mul_right_cancel₀ (mul_ne_zero (pow_ne_zero 2 hx) (pow_ne_zero 2 hy)) ?_
      unfold montRhs
      have h2 : (u ^ 2 + 486662 * u + 1) * (1 - g.y) ^ 2 = 486664 * (1 + d25519 * g.y ^ 2) := by
        linear_combination (u * (1 - g.y) + (1 + g.y) + 486662 * (1 - g.y)) * hu - g.y ^ 2 * hd
      linear_combination (1 - g.y) ^ 2 * h1 - u * g.x ^ 2 * h2 - 486664 * u * ho - 486664 * u * (1 - g.y) * hu
    refine ⟨.some u (cM * u / g.x) (nonsingular_of he), EdPoint.ext ?_ ?_⟩
    · show cM * u / (cM * u / g.x) = g.x
      rw [div_div_cancel₀ (mul_ne_zero cM_ne hu0)]
    · show edwardsY u = g.y
      unfold edwardsY
      rw [div_eq_iff (u_ne he)]
      linear_combination hu

theorem vCoord_toEd {P : curve25519.Point} (h : (toEd P).x ≠ 0) : vCoord P = cM * montU (toEd P) / (toEd P).x := by
  rw [← montU_toEd]
  rcases P with _ | ⟨u, v, hP⟩
  · exact absurd (ed_zero_x) h
  · have h' : cM * u / v ≠ 0 := h
    have hu : u ≠ 0 := by rintro rfl; simp at h'
    show v = cM * u / (cM * u / v)
    rw [div_div_cancel₀ (mul_ne_zero cM_ne hu)]

theorem uCoord_sq (P : curve25519.Point) (h : P ≠ 0) : vCoord P ^ 2 = montRhs (uCoord P) := by
  rcases P with _ | ⟨u, v, hP⟩
  · exact absurd rfl h
  · exact equation_iff'.mp hP.1

end Coniks.Ed
