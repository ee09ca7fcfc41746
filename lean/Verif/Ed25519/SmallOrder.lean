import Verif.Ed25519.Elligator
/-
Which hash values are sent to points of order dividing eight.
-/
namespace Coniks.Ed
open Coniks Coniks.Spec

theorem dbl_x0 {g : Pt25519} (h : (g + g).x = 0) : g.x = 0 ∨ g.y = 0 := by
  rw [ed_add_x, div_eq_zero_iff] at h
  have h := h.resolve_right (ed_den1 g g)
  have : 2 * (g.x * g.y) = 0 := by linear_combination h
  exact mul_eq_zero.mp ((mul_eq_zero.mp this).resolve_left two_ne)

theorem dbl_y0 {g : Pt25519} (h : (g + g).y = 0) : g.y ^ 2 = -g.x ^ 2 := by
  rw [ed_add_y, div_eq_zero_iff] at h
  have h := h.resolve_right (ed_den2 g g)
  linear_combination h

/-- the y-coordinates of the points of order dividing eight -/
theorem small_order_y {g : Pt25519} (h : 8 • g = 0) : g.x = 0 ∨ g.y = 0 ∨ d25519 * (g.y ^ 2) ^ 2 + 2 * g.y ^ 2 - 1 = 0 := by
  have e : 8 • g = ((g + g) + (g + g)) + ((g + g) + (g + g)) := by abel
  rw [e] at h
  have h1 : ((g + g) + (g + g) + ((g + g) + (g + g))).x = 0 := by rw [h]; rfl
  have hy1 : ((g + g) + (g + g) + ((g + g) + (g + g))).y = 1 := by rw [h]; rfl
  have key : ((g + g) + (g + g)).x = 0 := by
    rcases dbl_x0 h1 with h2 | h2
    · exact h2
    · exfalso
      rw [ed_add_y, h2] at hy1
      have hx := x_sq ((g + g) + (g + g))
      rw [h2] at hx
      have : ((g + g) + (g + g)).x ^ 2 = 1 := by simpa [sq] using hy1
      rw [this] at hx
      exact two_ne (by linear_combination hx)
  rcases dbl_x0 key with h2 | h2
  · rcases dbl_x0 h2 with h3 | h3
    · exact Or.inl h3
    · exact Or.inr (Or.inl h3)
  · have h3 := dbl_y0 h2
    have h4 := g.on
    have h5 : g.x ^ 2 = -g.y ^ 2 := by linear_combination h3
    refine Or.inr (Or.inr ?_)
    rw [h5] at h4
    linear_combination h4

def cN : Nat := 2707385501144840649318225287225658788936804267575313519463743609750303402022
def tN : Nat := 3685532557031388680362915159118232971324886473920755116993713661282644049091

theorem c_root : d25519 * ((cN : F) ^ 2) ^ 2 + 2 * (cN : F) ^ 2 - 1 = 0 := by
  rw [d_eq]
  have h : ((dN * ((cN * cN) * (cN * cN)) + 2 * (cN * cN) : Nat) : F) = ((1 : Nat) : F) := natF_eq (by decide +kernel)
  push_cast at h
  linear_combination h

theorem t_other : d25519 * ((tN : F) + (cN : F) ^ 2) + 2 = 0 := by
  rw [d_eq]
  have h : ((dN * (tN + cN * cN) + 2 : Nat) : F) = ((0 : Nat) : F) := natF_eq (by decide +kernel)
  push_cast at h
  linear_combination h

theorem t_not_sq : ¬ IsSquare (tN : F) := not_square (by decide +kernel) (by decide +kernel)

theorem y_of_root {y : F} (h : d25519 * (y ^ 2) ^ 2 + 2 * y ^ 2 - 1 = 0) : y = (cN : F) ∨ y = -(cN : F) := by
  have h1 := c_root
  have h2 : (y ^ 2 - (cN : F) ^ 2) * (d25519 * (y ^ 2 + (cN : F) ^ 2) + 2) = 0 := by linear_combination h - h1
  rcases mul_eq_zero.mp h2 with h3 | h3
  · exact sq_eq_sq_iff_eq_or_eq_neg.mp (sub_eq_zero.mp h3)
  · exfalso
    have h4 := t_other
    have h5 : d25519 * (y ^ 2 - (tN : F)) = 0 := by linear_combination h3 - h4
    have h6 := (mul_eq_zero.mp h5).resolve_left d_ne
    exact t_not_sq ⟨y, by linear_combination -h6⟩

/-- a necessary condition on the x-coordinates reached -/
theorem elligatorX_image (r : F) : IsSquare (-2 * elligatorX r * (elligatorX r + 486662)) := by
  have hv : elligatorV r * (1 + 2 * r ^ 2) = -486662 := by unfold elligatorV; exact div_mul_cancel₀ _ (den_r r)
  unfold elligatorX
  split
  · exact ⟨2 * r * elligatorV r, by linear_combination -2 * elligatorV r * hv⟩
  · exact ⟨2 * r * elligatorV r, by linear_combination -2 * elligatorV r * hv⟩

theorem x_of_y {x : F} (hx : x + 1 ≠ 0) {y : F} (h : edwardsY x = y) : x * (1 - y) = 1 + y := by
  unfold edwardsY at h
  rw [div_eq_iff hx] at h
  linear_combination h

/-- the points of order eight are not reached -/
theorem not_c {x : F} (hx : x + 1 ≠ 0) (h : edwardsY x = (cN : F) ∨ edwardsY x = -(cN : F)) : ¬ IsSquare (-2 * x * (x + 486662)) := by
  intro hs
  have key : ∀ y : Nat, ¬ IsSquare (((p25519 - 2) * ((1 + y) * ((1 + y) + 486662 * (p25519 + 1 - y % p25519))) : Nat) : F) →
      edwardsY x ≠ (y : F) := by
    intro y hn he
    have hxy := x_of_y hx he
    apply hn
    have e : (((p25519 - 2) * ((1 + y) * ((1 + y) + 486662 * (p25519 + 1 - y % p25519))) : Nat) : F) =
        -2 * x * (x + 486662) * ((1 - (y : F)) * (1 - (y : F))) := by
      have hp : y % p25519 < p25519 := Nat.mod_lt _ (by decide +kernel)
      have hy : ((y % p25519 : Nat) : F) = (y : F) := ZMod.natCast_mod y p25519
      have h2 : 2 ≤ p25519 := by decide +kernel
      push_cast [Nat.cast_sub (show y % p25519 ≤ p25519 + 1 by omega), Nat.cast_sub h2]
      rw [hy, ZMod.natCast_self]
      linear_combination (2 * (x * (1 - (y : F)) + 1 + (y : F)) + 2 * 486662 * (1 - (y : F))) * hxy
    rw [e]
    exact hs.mul ⟨_, rfl⟩
  rcases h with h | h
  · exact key cN (not_square (by decide +kernel) (by decide +kernel)) h
  · have e : -(cN : F) = ((p25519 - cN : Nat) : F) := by
      rw [Nat.cast_sub (by decide +kernel), ZMod.natCast_self]; ring
    rw [e] at h
    exact key (p25519 - cN) (not_square (by decide +kernel) (by decide +kernel)) h

/-- a number sent to the points of order four -/
def rN : Nat := 44495073382931032265503668095429935171166074933530784157462047189894136317471
def rN' : Nat := 14120622313557551395864952368738766919491919221024615933057518721691269982991

theorem r_v : elligatorV (rN : F) = 1 := by
  have h : ((2 * (rN * rN) + 486663 : Nat) : F) = ((0 : Nat) : F) := natF_eq (by decide +kernel)
  push_cast at h
  unfold elligatorV
  rw [div_eq_one_iff_eq (den_r _)]
  linear_combination -h

theorem r_x : elligatorX (rN : F) = 1 := by
  unfold elligatorX
  rw [r_v, if_pos]
  have e : montRhs (1 : F) = 486664 := by unfold montRhs; norm_num
  rw [e]
  exact ⟨(iN : F) * (sN : F), by
    have h1 := i_sq
    have h2 := s_sq
    linear_combination -(sN : F) ^ 2 * h1 + h2⟩

theorem rr' : 2 * (rN : F) * (rN' : F) = 1 := by
  have h : ((2 * rN * rN' : Nat) : F) = ((1 : Nat) : F) := natF_eq (by decide +kernel)
  push_cast at h
  exact h

/-- exactly which numbers are sent to points of small order -/
theorem small_order_iff {r : F} {g : Pt25519} (h : g.y = edwardsY (elligatorX r)) :
    8 • g = 0 ↔ r = 0 ∨ r = (rN : F) ∨ r = -(rN : F) ∨ r = (rN' : F) ∨ r = -(rN' : F) := by
  have hx := elligatorX_ne r
  have h0 := x_zero_iff g hx h
  have hr0 : (rN : F) ≠ 0 := natF_ne0 (by decide +kernel)
  have hy : g.y = 0 ↔ elligatorX r = elligatorX (rN : F) := by
    rw [r_x, h]
    unfold edwardsY
    rw [div_eq_zero_iff, sub_eq_zero]
    exact ⟨fun h => h.resolve_right hx, Or.inl⟩
  have hlist : elligatorX r = elligatorX (rN : F) ↔ r = (rN : F) ∨ r = -(rN : F) ∨ r = (rN' : F) ∨ r = -(rN' : F) := by
    rw [elligatorX_eq]
    have e := rr'
    refine or_congr Iff.rfl (or_congr Iff.rfl (or_congr ?_ ?_))
    · constructor
      · intro h
        refine mul_right_cancel₀ (mul_ne_zero two_ne hr0) ?_
        linear_combination h - e
      · rintro rfl; linear_combination e
    · constructor
      · intro h
        refine mul_right_cancel₀ (mul_ne_zero two_ne hr0) ?_
        linear_combination h + e
      · rintro rfl; linear_combination -e
  rw [← hlist, ← hy, ← elligatorX_eq_zero, ← h0]
  constructor
  · intro h8
    rcases small_order_y h8 with h1 | h1 | h1
    · exact Or.inl h1
    · exact Or.inr h1
    · exact absurd (elligatorX_image r) (not_c hx (by rw [← h]; exact y_of_root h1))
  · rintro (h1 | h1)
    · have e : 8 • g = 4 • (g + g) := by abel
      have h2 : g + g = 0 := by
        have hon := g.on
        rw [h1] at hon
        have hy2 : g.y ^ 2 = 1 := by linear_combination hon
        apply EdPoint.ext
        · rw [ed_add_x, h1]; simp [ed_zero_x]
        · rw [ed_add_y, h1]; simp [ed_zero_y, ← sq, hy2]
      rw [e, h2, nsmul_zero]
    · have e : 8 • g = 2 • (4 • g) := by abel
      rw [e, four_of_y0 h1, nsmul_zero]

/-- the six numbers below 2^255 that stand for the five elements -/
theorem small_nat {n : Nat} (hn : n < 2 ^ 255) :
    ((n : F) = 0 ∨ (n : F) = (rN : F) ∨ (n : F) = -(rN : F) ∨ (n : F) = (rN' : F) ∨ (n : F) = -(rN' : F)) ↔
      n ∈ [0, p25519, rN, p25519 - rN, rN', p25519 - rN'] := by
  have hp : p25519 = 2 ^ 255 - 19 := rfl
  have e1 : -(rN : F) = ((p25519 - rN : Nat) : F) := by rw [Nat.cast_sub (by decide +kernel), ZMod.natCast_self]; ring
  have e2 : -(rN' : F) = ((p25519 - rN' : Nat) : F) := by rw [Nat.cast_sub (by decide +kernel), ZMod.natCast_self]; ring
  have e0 : (0 : F) = ((0 : Nat) : F) := by simp
  have key : ∀ k : Nat, 19 ≤ k → k < p25519 → ((n : F) = (k : F) ↔ n = k) := by
    intro k h1 h2
    rw [ZMod.natCast_eq_natCast_iff', Nat.mod_eq_of_lt h2]
    constructor
    · intro h
      have := Nat.div_add_mod n p25519
      have h3 : n / p25519 < 2 := Nat.div_lt_of_lt_mul (by rw [hp] at *; omega)
      rw [h] at this
      generalize n / p25519 = q at *
      rcases (by omega : q = 0 ∨ q = 1) with h4 | h4
      · rw [h4] at this; omega
      · rw [h4] at this; rw [hp] at *; omega
    · rintro rfl; exact Nat.mod_eq_of_lt h2
  have key0 : ((n : F) = ((0 : Nat) : F) ↔ n = 0 ∨ n = p25519) := by
    rw [ZMod.natCast_eq_natCast_iff', Nat.zero_mod]
    constructor
    · intro h
      have := Nat.div_add_mod n p25519
      have h3 : n / p25519 < 2 := Nat.div_lt_of_lt_mul (by rw [hp] at *; omega)
      rw [h] at this
      generalize n / p25519 = q at *
      rcases (by omega : q = 0 ∨ q = 1) with h4 | h4
      · rw [h4] at this; omega
      · rw [h4] at this; omega
    · rintro (rfl | rfl)
      · exact Nat.zero_mod _
      · exact Nat.mod_self _
  rw [e0, e1, e2, key0, key _ (by decide +kernel) (by decide +kernel), key _ (by decide +kernel) (by decide +kernel),
    key _ (by decide +kernel) (by decide +kernel), key _ (by decide +kernel) (by decide +kernel)]
  simp only [List.mem_cons, List.not_mem_nil, or_false, or_assoc]

end Coniks.Ed
