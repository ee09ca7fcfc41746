import Verif.Spec.Curve
import Verif.Ed25519.EdIdent
import Mathlib.Algebra.Group.Even
import Mathlib.Tactic.LinearCombination
import Mathlib.Tactic.Ring
import Mathlib.Tactic.FieldSimp
/-
If -1 is a square and d is not, the Edwards addition law is complete and the points form a commutative group.
-/
namespace Coniks.Ed
open Coniks.Spec

variable {K : Type} [Field K]

/-- d is not a square, -1 is a square, and 2 is not zero -/
class EdComplete (d : K) : Prop where
  two_ne : (2 : K) ≠ 0
  sqrtM1 : ∃ i : K, i ^ 2 = -1
  nonsquare : ¬ IsSquare d

variable {d : K}

theorem _root_.Coniks.Spec.EdPoint.zero_eq (p : EdPoint d) : p.y ^ 2 - p.x ^ 2 - 1 - d * p.x ^ 2 * p.y ^ 2 = 0 := by linear_combination p.on

/-- e = d x1 x2 y1 y2 is neither 1 nor -1 -/
theorem ed_complete [h : EdComplete d] {x1 y1 x2 y2 : K} (h1 : y1 ^ 2 - x1 ^ 2 - 1 - d * x1 ^ 2 * y1 ^ 2 = 0)
    (h2 : y2 ^ 2 - x2 ^ 2 - 1 - d * x2 ^ 2 * y2 ^ 2 = 0) : (d * x1 * x2 * y1 * y2) ^ 2 ≠ 1 := by
  intro he
  obtain ⟨i, hi⟩ := h.sqrtM1
  have hne : d * x1 * x2 * y1 * y2 ≠ 0 := by intro h0; rw [h0] at he; simp at he
  have hx1 : x1 ≠ 0 := by rintro rfl; simp at hne
  have hy1 : y1 ≠ 0 := by rintro rfl; simp at hne
  have hx2 : x2 ≠ 0 := by rintro rfl; simp at hne
  have hy2 : y2 ≠ 0 := by rintro rfl; simp at hne
  have key : ∀ s : K, s ^ 2 = 1 → i * x2 + s * y2 = 0 := by
    intro s hs
    by_contra hc
    apply h.nonsquare
    have e1 : (i * x1 + s * (d * x1 * x2 * y1 * y2) * y1) ^ 2 = d * (x1 * y1 * (i * x2 + s * y2)) ^ 2 := by
      linear_combination x1 ^ 2 * hi + y1 ^ 2 * (d * x1 * x2 * y1 * y2) ^ 2 * hs + y1 ^ 2 * he - d * x1 ^ 2 * y1 ^ 2 * x2 ^ 2 * hi
        - d * x1 ^ 2 * y1 ^ 2 * y2 ^ 2 * hs + h1 - d * x1 ^ 2 * y1 ^ 2 * h2 - he
    refine ⟨(i * x1 + s * (d * x1 * x2 * y1 * y2) * y1) / (x1 * y1 * (i * x2 + s * y2)), ?_⟩
    rw [← sq, div_pow, eq_div_iff (pow_ne_zero 2 (mul_ne_zero (mul_ne_zero hx1 hy1) hc))]
    exact e1.symm
  have k1 := key 1 (by ring)
  have k2 := key (-1) (by ring)
  have : 2 * y2 = 0 := by linear_combination k1 - k2
  rcases mul_eq_zero.mp this with h | h
  · exact EdComplete.two_ne (d := d) h
  · exact hy2 h

theorem ed_den1 [EdComplete d] (p q : EdPoint d) : 1 + d * p.x * q.x * p.y * q.y ≠ 0 := by
  intro h
  apply ed_complete p.zero_eq q.zero_eq
  linear_combination (d * p.x * q.x * p.y * q.y - 1) * h

theorem ed_den2 [EdComplete d] (p q : EdPoint d) : 1 - d * p.x * q.x * p.y * q.y ≠ 0 := by
  intro h
  apply ed_complete p.zero_eq q.zero_eq
  linear_combination -(d * p.x * q.x * p.y * q.y + 1) * h

def edAdd [EdComplete d] (p q : EdPoint d) : EdPoint d where
  x := edAddX d p.x p.y q.x q.y
  y := edAddY d p.x p.y q.x q.y
  on := by
    have h1 := ed_den1 p q
    have h2 := ed_den2 p q
    have h3 := ed_closure p.zero_eq q.zero_eq
    unfold edAddX edAddY
    generalize 1 + d * p.x * q.x * p.y * q.y = D1 at *
    generalize 1 - d * p.x * q.x * p.y * q.y = D2 at *
    generalize p.x * q.y + q.x * p.y = N1 at *
    generalize p.y * q.y + p.x * q.x = N2 at *
    field_simp
    linear_combination h3

instance [EdComplete d] : Add (EdPoint d) := ⟨edAdd⟩
instance : Zero (EdPoint d) := ⟨⟨0, 1, by ring⟩⟩
instance : Neg (EdPoint d) := ⟨fun p => ⟨-p.x, p.y, by linear_combination p.on⟩⟩

theorem ed_add_x [EdComplete d] (p q : EdPoint d) : (p + q).x = (p.x * q.y + q.x * p.y) / (1 + d * p.x * q.x * p.y * q.y) := rfl
theorem ed_add_y [EdComplete d] (p q : EdPoint d) : (p + q).y = (p.y * q.y + p.x * q.x) / (1 - d * p.x * q.x * p.y * q.y) := rfl
theorem ed_zero_x : (0 : EdPoint d).x = 0 := rfl
theorem ed_zero_y : (0 : EdPoint d).y = 1 := rfl
theorem ed_neg_x (p : EdPoint d) : (-p).x = -p.x := rfl
theorem ed_neg_y (p : EdPoint d) : (-p).y = p.y := rfl

theorem ed_comm [EdComplete d] (p q : EdPoint d) : p + q = q + p := by
  apply EdPoint.ext
  · rw [ed_add_x, ed_add_x]; congr 1 <;> ring
  · rw [ed_add_y, ed_add_y]; congr 1 <;> ring

theorem ed_zero_add [EdComplete d] (p : EdPoint d) : 0 + p = p := by
  apply EdPoint.ext
  · rw [ed_add_x, ed_zero_x, ed_zero_y]; simp
  · rw [ed_add_y, ed_zero_x, ed_zero_y]; simp

theorem ed_neg_add [EdComplete d] (p : EdPoint d) : -p + p = 0 := by
  apply EdPoint.ext
  · rw [ed_add_x, ed_neg_x, ed_neg_y, ed_zero_x]
    have : -p.x * p.y + p.x * p.y = 0 := by ring
    rw [this, zero_div]
  · rw [ed_add_y, ed_neg_x, ed_neg_y, ed_zero_y]
    have h := ed_den2 (-p) p
    rw [ed_neg_x, ed_neg_y] at h
    rw [div_eq_one_iff_eq h]
    linear_combination p.on

theorem ed_assoc [EdComplete d] (p q r : EdPoint d) : p + q + r = p + (q + r) := by
  have d1 := ed_den1 p q
  have d2 := ed_den2 p q
  have c1 := ed_den1 q r
  have c2 := ed_den2 q r
  have b1 := ed_den1 (p + q) r
  have b2 := ed_den2 (p + q) r
  have b1' := ed_den1 p (q + r)
  have b2' := ed_den2 p (q + r)
  have hx : (p + q).x * (1 + d * p.x * q.x * p.y * q.y) = p.x * q.y + q.x * p.y := by rw [ed_add_x]; exact div_mul_cancel₀ _ d1
  have hy : (p + q).y * (1 - d * p.x * q.x * p.y * q.y) = p.y * q.y + p.x * q.x := by rw [ed_add_y]; exact div_mul_cancel₀ _ d2
  have kx : (q + r).x * (1 + d * q.x * r.x * q.y * r.y) = q.x * r.y + r.x * q.y := by rw [ed_add_x]; exact div_mul_cancel₀ _ c1
  have ky : (q + r).y * (1 - d * q.x * r.x * q.y * r.y) = q.y * r.y + q.x * r.x := by rw [ed_add_y]; exact div_mul_cancel₀ _ c2
  have ax := ed_assoc_x p.zero_eq q.zero_eq r.zero_eq
  have ay := ed_assoc_y p.zero_eq q.zero_eq r.zero_eq
  apply EdPoint.ext
  · rw [ed_add_x (p + q) r, ed_add_x p (q + r), div_eq_div_iff b1 b1']
    generalize (p + q).x = X at *
    generalize (p + q).y = Y at *
    generalize (q + r).x = U at *
    generalize (q + r).y = V at *
    generalize hD1 : 1 + d * p.x * q.x * p.y * q.y = D1 at *
    generalize hD2 : 1 - d * p.x * q.x * p.y * q.y = D2 at *
    generalize hC1 : 1 + d * q.x * r.x * q.y * r.y = C1 at *
    generalize hC2 : 1 - d * q.x * r.x * q.y * r.y = C2 at *
    rw [← hx, ← hy, ← kx, ← ky] at ax
    apply mul_left_cancel₀ (mul_ne_zero (mul_ne_zero d1 d2) (mul_ne_zero c1 c2))
    linear_combination ax
  · rw [ed_add_y (p + q) r, ed_add_y p (q + r), div_eq_div_iff b2 b2']
    generalize (p + q).x = X at *
    generalize (p + q).y = Y at *
    generalize (q + r).x = U at *
    generalize (q + r).y = V at *
    generalize hD1 : 1 + d * p.x * q.x * p.y * q.y = D1 at *
    generalize hD2 : 1 - d * p.x * q.x * p.y * q.y = D2 at *
    generalize hC1 : 1 + d * q.x * r.x * q.y * r.y = C1 at *
    generalize hC2 : 1 - d * q.x * r.x * q.y * r.y = C2 at *
    rw [← hx, ← hy, ← kx, ← ky] at ay
    apply mul_left_cancel₀ (mul_ne_zero (mul_ne_zero d1 d2) (mul_ne_zero c1 c2))
    linear_combination ay

instance [EdComplete d] : AddCommGroup (EdPoint d) where
  add_assoc := ed_assoc
  zero_add := ed_zero_add
  add_zero p := by rw [ed_comm]; exact ed_zero_add p
  nsmul := nsmulRec
  zsmul := zsmulRec
  neg_add_cancel := ed_neg_add
  add_comm := ed_comm

end Coniks.Ed
