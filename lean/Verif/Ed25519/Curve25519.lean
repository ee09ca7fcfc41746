import Verif.Ed25519.FieldRep
import Verif.Ed25519.Coords
import Mathlib.NumberTheory.LegendreSymbol.Basic
import Mathlib.GroupTheory.OrderOfElement
/-
The curve of Ed25519: the addition law is complete, the base point has order ℓ and there are 8 ℓ points.
-/
namespace Coniks.Ed
open Coniks.Spec

theorem natF_eq {a b : Nat} (h : a % p25519 = b % p25519) : (a : F) = (b : F) := (ZMod.natCast_eq_natCast_iff' a b p25519).mpr h

theorem natF_ne {a b : Nat} (h : a % p25519 ≠ b % p25519) : (a : F) ≠ (b : F) := fun e => h ((ZMod.natCast_eq_natCast_iff' a b p25519).mp e)

theorem natF_ne0 {a : Nat} (h : a % p25519 ≠ 0) : (a : F) ≠ 0 := by
  have := natF_ne (a := a) (b := 0) (by rw [Nat.zero_mod]; exact h)
  rwa [Nat.cast_zero] at this

theorem natF_ne1 {a : Nat} (h : a % p25519 ≠ 1 % p25519) : (a : F) ≠ 1 := by
  have := natF_ne (a := a) (b := 1) h
  rwa [Nat.cast_one] at this

theorem natF_pow (a e : Nat) (h : e < 2 ^ 256) : (a : F) ^ e = ((powm p25519 256 a e : Nat) : F) := by
  rw [powm_eq _ _ _ _ h, ← Nat.cast_pow, ZMod.natCast_mod]

/-- d as a number -/
def dN : Nat := 37095705934669439343138083508754565189542113879843219016388785533085940283555

theorem d_eq : d25519 = (dN : F) := by
  unfold d25519
  have h0 : (121666 : F) ≠ 0 := by
    have := natF_ne (a := 121666) (b := 0) (by decide +kernel)
    simpa using this
  rw [div_eq_iff h0]
  have h1 : ((dN * 121666 + 121665 : Nat) : F) = ((0 : Nat) : F) := natF_eq (by decide +kernel)
  push_cast at h1
  linear_combination -h1

/-- a square root of -1 -/
def iN : Nat := 19681161376707505956807079304988542015446066515923890162744021073123829784752

theorem i_sq : (iN : F) ^ 2 = -1 := by
  have h : ((iN ^ 2 + 1 : Nat) : F) = ((0 : Nat) : F) := natF_eq (by decide +kernel)
  push_cast at h
  linear_combination h

theorem two_ne : (2 : F) ≠ 0 := by
  have := natF_ne (a := 2) (b := 0) (by decide +kernel)
  simpa using this

theorem d_ne : d25519 ≠ 0 := by
  rw [d_eq]
  have := natF_ne (a := dN) (b := 0) (by decide +kernel)
  simpa using this

theorem not_square {n : Nat} (h0 : n % p25519 ≠ 0) (h : powm p25519 256 n (p25519 / 2) % p25519 ≠ 1 % p25519) :
    ¬ IsSquare (n : F) := by
  intro hs
  rw [ZMod.euler_criterion p25519 (natF_ne0 h0), natF_pow n _ (by decide +kernel)] at hs
  exact natF_ne1 h hs

instance : EdComplete d25519 where
  two_ne := two_ne
  sqrtM1 := ⟨(iN : F), i_sq⟩
  nonsquare := by
    rw [d_eq]
    exact not_square (by decide +kernel) (by decide +kernel)

/-- the points of the curve -/
abbrev Pt25519 := EdPoint d25519

/-! ### the encoding is injective -/

theorem den_y (y : F) : 1 + d25519 * y ^ 2 ≠ 0 := by
  intro h
  apply EdComplete.nonsquare (d := d25519)
  have hy : y ≠ 0 := by rintro rfl; simp at h
  refine ⟨(iN : F) / y, ?_⟩
  have hi := i_sq
  field_simp
  linear_combination h - hi

theorem x_sq (p : Pt25519) : p.x ^ 2 * (1 + d25519 * p.y ^ 2) = p.y ^ 2 - 1 := by linear_combination -p.on

theorem neg_val_parity {a : F} (ha : a ≠ 0) : (-a).val % 2 ≠ a.val % 2 := by
  have : NeZero a := ⟨ha⟩
  rw [ZMod.val_neg_of_ne_zero]
  have h1 := ZMod.val_lt a
  have h2 : p25519 % 2 = 1 := by decide +kernel
  omega

/-- y and the parity of x determine the point -/
theorem pt_ext {p q : Pt25519} (hy : p.y = q.y) (hx : p.x.val % 2 = q.x.val % 2) : p = q := by
  have h1 := x_sq p
  have h2 := x_sq q
  rw [hy] at h1
  have h3 : p.x ^ 2 = q.x ^ 2 := mul_right_cancel₀ (den_y q.y) (h1.trans h2.symm)
  rcases sq_eq_sq_iff_eq_or_eq_neg.mp h3 with h | h
  · exact EdPoint.ext h hy
  · by_cases h0 : q.x = 0
    · rw [h0, neg_zero] at h; exact EdPoint.ext (h.trans h0.symm) hy
    · rw [h] at hx; exact absurd hx (neg_val_parity h0)

noncomputable instance : Fintype Pt25519 :=
  Fintype.ofInjective (fun p : Pt25519 => (p.x, p.y)) fun p q h => EdPoint.ext (congrArg Prod.fst h) (congrArg Prod.snd h)

theorem card_le : Fintype.card Pt25519 ≤ 2 * p25519 := by
  have : Fintype.card Pt25519 ≤ Fintype.card (F × Fin 2) :=
    Fintype.card_le_of_injective (fun p : Pt25519 => (p.y, (⟨p.x.val % 2, Nat.mod_lt _ (by decide)⟩ : Fin 2))) fun p q h => by
      refine pt_ext (congrArg Prod.fst h) ?_
      have := congrArg Prod.snd h
      exact congrArg Fin.val this
  refine this.trans (le_of_eq ?_)
  rw [Fintype.card_prod, Fintype.card_fin, mul_comm]
  exact congrArg (2 * ·) (ZMod.card p25519)

end Coniks.Ed
